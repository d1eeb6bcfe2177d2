import Verif.Props.WholeRun

/-!
# C296: exact gains leave no residual in the images of a run; examples of C294-C296
-/

namespace PyFHD

open Spec

/-- The observation after calibration. -/
theorem Spec.RunFits.after {x : RunIn} (h : RunFits x) (w : Weights) (u : InUse) : ObsAfter (x.calIn w) u (x.obs.restrict u) where
  tileA := h.tileA
  tileB := h.tileB
  nPol := rfl
  nTile := rfl
  nFreq := h.freqs
  samples := h.samples
  offsets := ⟨h.offsets.1, h.offsets.2, h.offsets.3⟩
  freqs := fun f hf => by
    by_contra hn
    exact hf (if_neg hn)
  tiles := fun t _ ht => by
    by_contra hn
    exact ht (if_neg hn)

/-- If the calibrated data are the model at the samples that a run uses, the planes of data and model are equal and every pixel of every residual
image is zero. -/
theorem run_residual (x : RunIn) (h : RunFits x) (hi : ImagesFit x) (R : RunOut) (hR : imagingRun x = .ok R)
    (hmodel : ∀ p < x.obs.nPol, ∀ s < x.cal.run.nBl * x.cal.run.nTime, ∀ f, UsedSample x p f s → x.cal.run.tileA s ∈ R.cal.inUse.tiles →
      x.cal.run.tileB s ∈ R.cal.inUse.tiles → f ∈ R.cal.inUse.freqs → R.cal.vis p f s = x.model p f s) :
    (∀ o ∈ R.planes, o.1.planes.image = o.2) ∧ ∀ p < x.obs.nPol, ∃ d,
      (⟨.residual, R.images.polNames.getD p "", .plane d⟩ : QvFile) ∈ R.images.files ∧ ∀ i j, d i j = 0 := by
  obtain ⟨w1, w2, h1, h2, h3, h4, h5, h6⟩ := (run_stages x R).1 hR
  set fo := x.obs.restrict R.cal.inUse with hfo
  have hafter := h.after w1.weights R.cal.inUse
  have hnb : fo.nBl = x.cal.run.nBl * x.cal.run.nTime := h.nBl
  have hplane : ∀ p < x.obs.nPol, ∀ o, x.gridded fo R.cal.vis w2.weights p = .ok o → o.1.planes.image = o.2 := by
    intro p hp o ho
    have e : visibilityGrid (withVis (x.gridIn fo R.cal.vis w2.weights p) (R.cal.vis p)) =
        visibilityGrid (withVis (x.gridIn fo R.cal.vis w2.weights p) (x.model p)) := by
      refine C192_flagged (x.gridIn fo R.cal.vis w2.weights p) (h.gridFreqs p) (h.lengths p) rfl _ _ fun f b hpos => ?_
      change 0 < (if b < fo.nBl then w2.weights p f b else 0) at hpos
      split_ifs at hpos with hb
      · have hb' : b < x.cal.run.nBl * x.cal.run.nTime := by rw [← hnb]; exact hb
        obtain ⟨a1, -⟩ := update_weights fo x.uv w1.weights h.tileA_ne h.tile_len ⟨h.offsets.1, h.offsets.2, h.offsets.3⟩ h.freqs w2 h3 p f b hb hp hpos
        rw [a1] at hpos
        obtain ⟨a2, a3⟩ := update_weights x.obs x.uv x.weights h.tileA_ne h.tile_len h.offsets h.freqs w1 h1 p f b
          (by rw [h.nBl]; exact hb') hp hpos
        rw [← a1] at hpos
        obtain ⟨b1, b2, b3⟩ := updated_in_use (x.calIn w1.weights) R.cal.inUse fo hafter h.tiles x.uv w1.weights w2 h3 p hp f b hb' hpos
        rw [a1, a2] at hpos
        exact hmodel p hp b hb' f ⟨hpos, a3⟩ b2 b3 b1
      · exact absurd hpos (lt_irrefl _)
    rw [show x.gridded fo R.cal.vis w2.weights p = ({ x with model := x.model } : RunIn).gridded fo R.cal.vis w2.weights p from rfl,
      gridded_eq x fo R.cal.vis w2.weights p R.cal.vis x.model, e] at ho
    cases h7 : visibilityGrid (withVis (x.gridIn fo R.cal.vis w2.weights p) (x.model p)) with
    | error e => rw [h7] at ho; cases ho
    | ok ob =>
      rw [h7] at ho
      cases ob with
      | none => cases ho
      | some o1 =>
        simp only [Except.ok.injEq] at ho
        rw [← ho]
  obtain ⟨g1, g2⟩ := mapM_range_ok _ _ _ h5
  have g1 : R.planes.length = x.obs.nPol := g1.trans List.length_range
  have g2 : ∀ p < x.obs.nPol, ∃ o, R.planes[p]? = some o ∧ o.1.planes.image = o.2 := by
    intro p hp
    obtain ⟨o, a1, a2⟩ := g2 p (by rw [List.length_range]; exact hp)
    rw [List.getElem_range] at a2
    exact ⟨o, a1, hplane p hp o a2⟩
  refine ⟨fun o ho => ?_, ?_⟩
  · obtain ⟨p, hp, rfl⟩ := List.getElem_of_mem ho
    obtain ⟨o', a1, a2⟩ := g2 p (g1 ▸ hp)
    rw [List.getElem?_eq_getElem hp] at a1
    rw [Option.some.inj a1]
    exact a2
  · set u := ((R.planes[0]?).map fun g => g.1.planes.uniform).getD fun _ _ => 0
    obtain ⟨out, q1, q2⟩ := C281_residual (x.quickIn w2.nVis R.planes) (hi.size u).1 (hi.size u).2 (hi.pad u)
      (fun p => (hi.filter u ((x.quickIn w2.nVis R.planes).weightsUv p)).choose)
      (fun p a => (hi.filter u ((x.quickIn w2.nVis R.planes).weightsUv p)).choose_spec a) (fun p hp => by
        obtain ⟨o, a1, a2⟩ := g2 p hp
        show ((R.planes[p]?).map fun g => g.1.planes.image).getD _ = ((R.planes[p]?).map fun g => g.2).getD _
        rw [a1]
        exact a2)
    rw [h6] at q1
    cases q1
    exact q2

/-- The conditions under which calibration finds exact gains `g`, for the weights `w`: those of C273 and C289. The flagging of calibration, if it is
wanted, may take channels and tiles out of use as long as the fits can still represent the gains on what remains. -/
structure Spec.ExactSetup (x : RunIn) (w : Weights) (g : Gains) : Prop where
  fit : LeastSquaresFit x.cal.fit
  mag : x.cal.run.mag = fun z => ‖z‖
  base : 0 < x.cal.run.base
  iter : 0 < x.cal.run.maxIter
  bandpass : x.opts.bandpass = true
  polyfit : x.opts.polyfit = true
  noJump : x.cal.jump = false
  noAutos : x.opts.autoInit = false ∧ x.opts.autoFit = false ∧ x.opts.autoRatio = false
  flags : x.opts.flag = true → ∀ B : Gains, (∀ p < x.obs.nPol, ∀ f ∈ x.obs.inUse.freqs, ∀ t ∈ x.obs.inUse.tiles, B p f t = g p f t) →
    (∀ f ∈ (x.cal.flag x.obs.inUse B).freqs, f ∈ x.obs.inUse.freqs) ∧ (∀ t ∈ (x.cal.flag x.obs.inUse B).tiles, t ∈ x.obs.inUse.tiles) ∧
      ∀ p < x.obs.nPol, SmoothGains ((x.calIn w).fitOpts x.opts p) (x.cal.flag x.obs.inUse B) (g p)
  exact : ∀ p < x.obs.nPol, ExactGains (x.calIn w).run p (g p)
  ref : x.cal.run.noRef = false → ∀ p < x.obs.nPol, ∀ f ∈ (x.calIn w).run.freqs p,
    g p f (refTile ((x.calIn w).run.tiles p)) = (‖g p f (refTile ((x.calIn w).run.tiles p))‖ : ℂ)
  start : ∀ p < x.obs.nPol, ∀ f ∈ x.obs.inUse.freqs, ∀ t ∈ x.obs.inUse.tiles, x.cal.run.gain p f t = g p f t
  smooth : ∀ p < x.obs.nPol, SmoothGains ((x.calIn w).fitOpts x.opts p) x.obs.inUse (g p)

/-- With exact gains a run finds these gains for the channels and tiles in use after the flagging, and calibrates data made from a truth to this
truth. -/
theorem run_exact (x : RunIn) (h : RunFits x) (g : Gains)
    (hg : ∀ w, visWeightsUpdate x.obs x.uv x.weights = .ok w → ExactSetup x w.weights g) (R : RunOut) (hR : imagingRun x = .ok R) :
    (x.opts.flag = false → R.cal.inUse = x.obs.inUse) ∧ ∀ p < x.obs.nPol,
      (∀ f ∈ R.cal.inUse.freqs, ∀ t ∈ R.cal.inUse.tiles, R.cal.gain p f t = g p f t) ∧
        ∀ s < x.cal.run.nBl * x.cal.run.nTime, x.cal.run.tileA s ∈ R.cal.inUse.tiles → x.cal.run.tileB s ∈ R.cal.inUse.tiles →
          ∀ f ∈ R.cal.inUse.freqs, ∀ truth, x.vis p f s = g p f (x.cal.run.tileA s) * star (g p f (x.cal.run.tileB s)) * truth →
            R.cal.vis p f s = truth := by
  obtain ⟨w1, w2, h1, h2, -⟩ := (run_stages x R).1 hR
  have e := hg w1 h1
  set c := x.calIn w1.weights with hc
  have hut : ∀ t ∈ x.obs.inUse.tiles, t < c.run.nTile ∧ c.run.tileUse t = true := by
    intro t ht
    obtain ⟨a1, a2⟩ := List.mem_filter.1 ht
    exact ⟨List.mem_range.1 a1, a2⟩
  unfold RunIn.calibrated at h2
  cases hq : x.refl with
  | none =>
    rw [hq] at h2
    obtain ⟨r, a1, a2, a3⟩ := C273_exact c e.fit e.mag h.cast e.base e.iter x.opts e.bandpass e.polyfit e.noJump e.noAutos.1 e.noAutos.2.1
      x.obs.inUse g h.pols e.exact e.ref hut h.tiles e.start e.smooth e.flags
    have : r = R.cal := by
      have h2' : calibrateAll c x.opts x.obs.inUse = .ok R.cal := h2
      rw [h2'] at a1
      exact (Except.ok.inj a1).symm
    subst this
    exact ⟨a2, fun p hp => ⟨fun f hf t ht => ((a3 p hp).1 f hf t ht).1, fun s hs hA hB => ((a3 p hp).2.2 s hs hA hB).1⟩⟩
  | some q =>
    rw [hq] at h2
    obtain ⟨r, a1, a2, -, a3⟩ := C289_exact c e.fit e.mag h.cast e.base e.iter x.opts e.bandpass e.polyfit e.noJump e.noAutos.1 e.noAutos.2.1
      e.noAutos.2.2 x.obs.inUse g h.pols e.exact e.ref hut h.tiles e.start e.smooth e.flags q
    have : r = R.cal := by
      have h2' : calibrateRefl c x.opts q x.obs.inUse = .ok R.cal := h2
      rw [h2'] at a1
      exact (Except.ok.inj a1).symm
    subst this
    exact ⟨a2, fun p hp => ⟨fun f hf t ht => ((a3 p hp).1 f hf t ht).1, fun s hs hA hB => ((a3 p hp).2 s hs hA hB).1⟩⟩

/-- **C296.** If there are gains that explain the data exactly (and that the fits of bandpass and polynomials can represent), then with the data made
from the model by these gains at the samples in use, whatever the flagged samples hold, and with or without the fit of cable reflections, a run gives
these gains for the channels and tiles that are in use after the flagging (all that were in use, if calibration does not flag), and every pixel of every
residual image that it exports is zero. -/
theorem C296_exact (x : RunIn) (h : RunFits x) (hi : ImagesFit x) (g : Gains)
    (hg : ∀ w, visWeightsUpdate x.obs x.uv x.weights = .ok w → ExactSetup x w.weights g)
    (hdata : ∀ p < x.obs.nPol, ∀ s < x.cal.run.nBl * x.cal.run.nTime, ∀ f, UsedSample x p f s →
      x.vis p f s = g p f (x.cal.run.tileA s) * star (g p f (x.cal.run.tileB s)) * x.model p f s)
    (R : RunOut) (hR : imagingRun x = .ok R) :
    (x.opts.flag = false → R.cal.inUse = x.obs.inUse) ∧
      (∀ p < x.obs.nPol, ∀ f ∈ R.cal.inUse.freqs, ∀ t ∈ R.cal.inUse.tiles, R.cal.gain p f t = g p f t) ∧
      (∀ o ∈ R.planes, o.1.planes.image = o.2) ∧ ∀ p < x.obs.nPol, ∃ d,
        (⟨.residual, R.images.polNames.getD p "", .plane d⟩ : QvFile) ∈ R.images.files ∧ ∀ i j, d i j = 0 := by
  have key := run_exact x h g hg R hR
  refine ⟨key.1, fun p hp => (key.2 p hp).1, run_residual x h hi R hR fun p hp s hs f hus hA hB hf => ?_⟩
  exact (key.2 p hp).2 s hs hA hB f hf _ (hdata p hp s hs f hus)

/-! ## Example

Three tiles, two baselines, five integrations, four channels of which the last is flagged; the data are four times the model. -/

/-- The run. -/
noncomputable def exWholeRun (fit : List ℕ → List ℝ → ℕ → List ℝ) : RunIn where
  obs := exAfter
  uv := exAfterUv
  vis := (exCalibrate fit).run.vis
  model := (exCalibrate fit).run.model
  weights := fun _ _ _ => 1
  cal := exCalibrate fit
  opts := ⟨false, false, true, false, true, false⟩
  refl := none
  grid := fun p =>
    { toGridIn := { exGrid 16 16 (fun b => (b % 2 : ℕ)) (fun _ => 1) 3 with freqAll := [1, 3/2, 2, 5/2] }
      fbin := fun f => f / 4
      kern := fun fb y x p => (100 * fb + 10 * y + x + p : ℕ)
      group := fun _ => p
      vis := fun _ _ => 0
      interp := false
      noConjugate := false }
  images := fun _ => { exQv with n := 16 }

theorem exWholeRun_fits (fit : List ℕ → List ℝ → ℕ → List ℝ) : RunFits (exWholeRun fit) where
  pols := ⟨one_le_two, le_refl 2⟩
  freqs := Nat.succ_pos 3
  samples := by simp [exWholeRun, exCalibrate]
  tileA := by simp [exWholeRun, exCalibrate, exAfter]
  tileB := by
    simp only [exWholeRun, exCalibrate, exAfter]
    refine List.map_congr_left fun s _ => ?_
    split_ifs <;> norm_num
  tiles := fun s _ => by
    simp only [exWholeRun, exCalibrate, exAfter]
    refine ⟨by norm_num, ?_⟩
    split_ifs <;> norm_num
  offsets := ⟨rfl, fun s t h _ => by simp only [exWholeRun, exAfter]; omega,
    fun t h => by simp only [exWholeRun, exAfter, FlagObs.nBl] at *; simp; omega⟩
  cast := rfl
  gridFreqs := fun _ => by simp [exWholeRun]
  lengths := fun p b => by
    unfold blLength exWholeRun exGrid
    positivity

theorem exWholeRun_images (fit : List ℕ → List ℝ → ℕ → List ℝ) : ImagesFit (exWholeRun fit) where
  size := fun _ => by simp [exWholeRun]
  pad := fun _ => rfl
  filter := fun _ _ => ⟨fun _ _ => 1 / 2, fun _ => rfl⟩

/-- The weights after the first update. -/
def ExWeights (w : Weights) : Prop := ∀ p < 2, ∀ f < 4, ∀ b < 10, w p f b = if f < 3 then 1 else 0

theorem exWholeRun_blWeight (fit : List ℕ → List ℝ → ℕ → List ℝ) (w : Weights) (hw : ExWeights w) (p f b : ℕ) (hp : p < 2) (hf : f < 4)
    (hb : b < 10) : ((exWholeRun fit).calIn w).run.blWeight p f b = if f < 3 then 1 else 0 := by
  have : ((exWholeRun fit).calIn w).run.blWeight p f b = min (max ((w p f b : ℚ) : ℝ) 0) 1 := by
    simp [CalRunIn.blWeight, CalRunIn.isCut, CalRunIn.samplesOf, CalRunIn.clip, CalRunIn.minLen, CalRunIn.maxLen, RunIn.calIn, exWholeRun,
      exCalibrate]
  rw [this, hw p hp f hf b hb]
  split_ifs <;> norm_num

theorem exWholeRun_bls (fit : List ℕ → List ℝ → ℕ → List ℝ) (w : Weights) (hw : ExWeights w) (p : ℕ) (hp : p < 2) :
    ((exWholeRun fit).calIn w).run.bls p = List.range 10 := by
  unfold CalRunIn.bls
  rw [show ((exWholeRun fit).calIn w).run.nB = 10 by simp [CalRunIn.nB, RunIn.calIn, exWholeRun, exCalibrate], List.filter_eq_self.2]
  intro b hb
  have hb := List.mem_range.1 hb
  show decide (((List.range 4).map fun f => ((exWholeRun fit).calIn w).run.blWeight p f b).sum ≠ 0) = true
  simp only [List.range_succ, List.range_zero, List.nil_append, List.cons_append, List.map_cons, List.map_nil,
    exWholeRun_blWeight fit w hw p 0 b hp (by norm_num) hb, exWholeRun_blWeight fit w hw p 1 b hp (by norm_num) hb,
    exWholeRun_blWeight fit w hw p 2 b hp (by norm_num) hb, exWholeRun_blWeight fit w hw p 3 b hp (by norm_num) hb]
  norm_num

theorem exWholeRun_freqs (fit : List ℕ → List ℝ → ℕ → List ℝ) (w : Weights) (hw : ExWeights w) (p : ℕ) (hp : p < 2) :
    ((exWholeRun fit).calIn w).run.freqs p = [0, 1, 2] := by
  unfold CalRunIn.freqs
  rw [show ((exWholeRun fit).calIn w).run.nB = 10 by simp [CalRunIn.nB, RunIn.calIn, exWholeRun, exCalibrate]]
  have e : ∀ f < 4, ((List.range 10).map (((exWholeRun fit).calIn w).run.blWeight p f)).sum = if f < 3 then 10 else 0 := by
    intro f hf
    rw [List.map_congr_left fun b hb => exWholeRun_blWeight fit w hw p f b hp hf (List.mem_range.1 hb)]
    split_ifs
    · simp
      norm_num
    · simp
  have h2 : ∀ f ∈ List.range 4, (decide (0 < ((List.range 10).map (((exWholeRun fit).calIn w).run.blWeight p f)).sum) &&
      ((exWholeRun fit).calIn w).run.freqUse f) = decide (f < 3) := by
    intro f hf
    rw [e f (List.mem_range.1 hf)]
    show (_ && decide ((if f < 3 then 1 else 0) ≠ 0)) = _
    by_cases h : f < 3 <;> simp [h]
  show (List.range 4).filter _ = _
  rw [List.filter_congr h2]
  decide

theorem exWholeRun_tiles (fit : List ℕ → List ℝ → ℕ → List ℝ) (w : Weights) (hw : ExWeights w) (p : ℕ) (hp : p < 2) :
    ((exWholeRun fit).calIn w).run.tiles p = [0, 1, 2] := by
  unfold CalRunIn.tiles
  rw [exWholeRun_bls fit w hw p hp]
  show solveTiles 3 ((List.range 10).map fun _ => 0) ((List.range 10).map fun s => if s % 2 = 0 then 1 else 2) (fun _ => decide ((1 : ℤ) ≠ 0)) = _
  decide +kernel

theorem exWholeRun_number (fit : List ℕ → List ℝ → ℕ → List ℝ) (w : Weights) (hw : ExWeights w) (p f t : ℕ) (hp : p < 2) (hf : f < 3) :
    baselinesOf ((exWholeRun fit).calIn w).run p f t =
      (List.range 10).countP (fun _ => decide (0 = t)) + (List.range 10).countP (fun b => decide ((if b % 2 = 0 then 1 else 2) = t)) := by
  unfold baselinesOf
  rw [exWholeRun_bls fit w hw p hp]
  have e : ∀ b ∈ List.range 10, 0 < ((exWholeRun fit).calIn w).run.blWeight p f b := by
    intro b hb
    rw [exWholeRun_blWeight fit w hw p f b hp (by omega) (List.mem_range.1 hb), if_pos hf]
    exact one_pos
  congr 1
  · refine List.countP_congr fun b hb => ?_
    simp only [e b hb, decide_true, Bool.true_and]
    rfl
  · refine List.countP_congr fun b hb => ?_
    simp only [e b hb, decide_true, Bool.true_and]
    rfl

/-- Gains that are the same for all channels and tiles can be represented by the fits. -/
theorem constant_smooth (c : CalibrateIn) (o : CalOpts) (hrat : o.autoRatio = false) (u : InUse) (g0 : ℝ) (hg0 : 0 < g0) (p : ℕ)
    (hnd : u.freqs.Nodup) (hla : degreeOr c.ampDeg 2 < u.freqs.length) (hlp : degreeOr c.phaseDeg 1 < u.freqs.length)
    (hcab : ∀ cables cable, c.cables = some (cables, cable) → cables.Nodup ∧ ∀ t ∈ u.tiles, cable t ∈ cables) :
    SmoothGains (c.fitOpts o p) u fun _ _ => (g0 : ℂ) := by
  have hfs : u.freqs ≠ [] := by rintro h; rw [h] at hla; simp at hla
  have hr : (c.fitOpts o p).ratio = none := by simp [CalibrateIn.fitOpts, hrat]
  refine ⟨hnd, hla, hlp, hcab, (fun _ _ h => by rw [hr] at h; cases h), fun _ _ => 1, fun _ => g0,
    fun _ => List.replicate (degreeOr c.phaseDeg 1 + 1) 0, fun t _ => ⟨hg0, fun f _ => ⟨one_pos, ?_⟩, fun _ _ _ _ => rfl, ?_, ?_, ?_, ?_⟩⟩
  · unfold ratioOf
    rw [hr]
    exact one_pos
  · simp [CalibrateIn.fitOpts]
  · simp only [polyAt_zeros, sub_self, abs_zero]
    exact List.isChain_of_isChain_map (S := fun _ _ => (0 : ℝ) < Real.pi) (fun _ => ()) (fun _ _ h => h) (by
      induction (u.freqs.map fun _ => ()) with
      | nil => simp
      | cons a l ih => cases l with
        | nil => simp
        | cons b l => exact List.isChain_cons_cons.2 ⟨Real.pi_pos, ih⟩)
  · exact ⟨1, resistantMean_same _ 1 (by simpa using hfs) (by simp)⟩
  · intro f _
    unfold ratioOf
    rw [hr]
    simp [polyAt_zeros]

theorem exWholeRun_inUse (fit : List ℕ → List ℝ → ℕ → List ℝ) : (exWholeRun fit).obs.inUse = ⟨[0, 1, 2], [0, 1, 2]⟩ := by
  show exAfter.inUse = _
  unfold FlagObs.inUse
  rw [InUse.mk.injEq]
  exact ⟨by decide +kernel, by decide +kernel⟩

/-- The gains of 2 explain the data. -/
theorem exWholeRun_exact (fit : List ℕ → List ℝ → ℕ → List ℝ) (hfit : LeastSquaresFit fit) (w : Weights) (hw : ExWeights w) :
    ExactSetup (exWholeRun fit) w fun _ _ _ => ((2 : ℝ) : ℂ) where
  fit := hfit
  mag := rfl
  base := by simp [exWholeRun, exCalibrate]
  iter := by simp [exWholeRun, exCalibrate]
  bandpass := rfl
  polyfit := rfl
  noJump := rfl
  noAutos := ⟨rfl, rfl, rfl⟩
  flags := fun hf => by cases hf
  exact := fun p hp => by
    have hp : p < 2 := hp
    have hstart : ∀ f t, ((exWholeRun fit).calIn w).run.gain p f t = ((2 : ℝ) : ℂ) := fun f t => by
      show (2 : ℂ) = _
      norm_num
    refine ⟨?_, ?_, ?_, fun f _ t _ => ⟨hstart f t, by norm_num⟩, fun f _ b _ s _ _ => ?_, fun f hf t ht => ⟨?_, ?_⟩, fun f hf => ?_⟩
    · rw [exWholeRun_tiles fit w hw p hp]; simp
    · rw [exWholeRun_freqs fit w hw p hp]; simp
    · unfold FlagsAgree
      rw [exWholeRun_bls fit w hw p hp]
      show ∀ b ∈ List.range 10, (0 < 3 ∧ decide ((if 0 < 3 then 1 else 0 : ℤ) ≠ 0) = true) ∧ (if b % 2 = 0 then 1 else 2) < 3 ∧
        decide ((if (if b % 2 = 0 then 1 else 2) < 3 then 1 else 0 : ℤ) ≠ 0) = true
      decide
    · show (4 : ℂ) * ((p + f + s + 1 : ℕ) : ℂ) = ((2 : ℝ) : ℂ) * star ((2 : ℝ) : ℂ) * ((p + f + s + 1 : ℕ) : ℂ)
      rw [Complex.star_def, Complex.conj_ofReal]
      norm_num
    · rw [exWholeRun_freqs fit w hw p hp] at hf
      rw [exWholeRun_tiles fit w hw p hp] at ht
      rw [exWholeRun_number fit w hw p f t hp (by simp at hf; omega)]
      revert t
      decide
    · rw [exWholeRun_freqs fit w hw p hp] at hf
      rw [exWholeRun_tiles fit w hw p hp] at ht
      have hf3 : f < 3 := by simp at hf; omega
      have hex : ∃ b ∈ List.range 10, (0 = t ∨ (if b % 2 = 0 then 1 else 2) = t) := by
        clear hf
        revert t
        decide
      obtain ⟨b, hb, hbt⟩ := hex
      have hbw := exWholeRun_blWeight fit w hw p f b hp (by omega) (List.mem_range.1 hb)
      rw [if_pos hf3] at hbw
      rw [exWholeRun_bls fit w hw p hp]
      refine ⟨b, hb, by rw [hbw]; exact one_pos, hbt, ?_⟩
      have hwr : ((w p f b : ℚ) : ℝ) = 1 := by
        rw [hw p hp f (by omega) b (List.mem_range.1 hb), if_pos hf3]
        norm_num
      have havg : ((exWholeRun fit).calIn w).run.average p ((exWholeRun fit).calIn w).run.model f b = ((p + f + b + 1 : ℕ) : ℂ) := by
        unfold CalRunIn.average
        rw [hbw]
        simp [CalRunIn.samplesOf, CalRunIn.clip, RunIn.calIn, exWholeRun, exCalibrate, invR, weightInvertEntry, npRecip, hwr]
      rw [havg]
      exact Nat.cast_ne_zero.2 (Nat.succ_ne_zero _)
    · unfold NumbersDiffer
      rw [exWholeRun_freqs fit w hw p hp] at hf
      have hf3 : f < 3 := by simp at hf; omega
      rw [exWholeRun_tiles fit w hw p hp]
      exact ⟨0, by simp, 1, by simp, by rw [exWholeRun_number fit w hw p f _ hp hf3, exWholeRun_number fit w hw p f _ hp hf3]; decide⟩
  ref := fun _ p _ f _ => by rw [Complex.norm_real]; norm_num
  start := fun p _ f _ t _ => by
    show (2 : ℂ) = _
    norm_num
  smooth := fun p _ => by
    rw [exWholeRun_inUse]
    exact constant_smooth _ _ rfl _ 2 (by norm_num) p (by decide) (by simp [RunIn.calIn, exWholeRun, exCalibrate, degreeOr])
      (by simp [RunIn.calIn, exWholeRun, exCalibrate, degreeOr]) (fun _ _ h => by cases h)

/-- What is gridded in the example, with the updated weights. -/
def exWholeBins (p : ℕ) : Py (Option ℕ) := do
  let w1 ← visWeightsUpdate exAfter exAfterUv fun _ _ _ => 1
  let w2 ← visWeightsUpdate (exAfter.restrict ⟨[0, 1, 2], [0, 1, 2]⟩) exAfterUv w1.weights
  let wp : ℕ → ℕ → ℚ := fun f b => if b < 10 then w2.weights p f b else 0
  let b ← gridBins { exGrid 16 16 (fun b => (b % 2 : ℕ)) (fun _ => 1) 3 with
    freqAll := [1, 3/2, 2, 5/2], fiUse := [0, 1, 2], biUse := defaultBiUse 4 10 wp, weight := wp, fill := false }
  return b.map fun b => b.binI.length

theorem exWholeBins_eq : exWholeBins 0 = .ok (some 4) ∧ exWholeBins 1 = .ok (some 4) := ⟨by decide +kernel, by decide +kernel⟩

theorem exWholeRun_weights : ∃ w, visWeightsUpdate exAfter exAfterUv (fun _ _ _ => 1) = .ok w ∧ ExWeights w.weights := by
  have h : (visWeightsUpdate exAfter exAfterUv fun _ _ _ => 1).map (fun r : VwuResult => (List.range 2).all fun p => (List.range 4).all fun f =>
    (List.range 10).all fun b => decide (r.weights p f b = if f < 3 then 1 else 0)) = .ok true := by decide +kernel
  cases hw : visWeightsUpdate exAfter exAfterUv fun _ _ _ => 1 with
  | error e => rw [hw] at h; cases h
  | ok w =>
    rw [hw] at h
    have h := Except.ok.inj h
    simp only [List.all_eq_true, List.mem_range, decide_eq_true_eq] at h
    exact ⟨w, rfl, h⟩

/-- The example of a run ends well, and its calibration uses three channels and three tiles. -/
theorem exWholeRun_ok (fit : List ℕ → List ℝ → ℕ → List ℝ) (hfit : LeastSquaresFit fit) : ∃ R, imagingRun (exWholeRun fit) = .ok R := by
  set x := exWholeRun fit with hx
  have hF := exWholeRun_fits fit
  obtain ⟨w1, h1, hw1⟩ := exWholeRun_weights
  have e := exWholeRun_exact fit hfit w1.weights hw1
  obtain ⟨r, a1, a2, -⟩ := C273_exact (x.calIn w1.weights) e.fit e.mag hF.cast e.base e.iter x.opts e.bandpass e.polyfit e.noJump e.noAutos.1
    e.noAutos.2.1 x.obs.inUse _ hF.pols e.exact e.ref (fun t ht => by
      obtain ⟨b1, b2⟩ := List.mem_filter.1 ht
      exact ⟨List.mem_range.1 b1, b2⟩) hF.tiles e.start e.smooth fun hf => by cases hf
  have hu : r.inUse = ⟨[0, 1, 2], [0, 1, 2]⟩ := (a2 rfl).trans (exWholeRun_inUse fit)
  have hb : ∀ p < 2, ∃ w2 b, visWeightsUpdate (x.obs.restrict r.inUse) x.uv w1.weights = .ok w2 ∧
      gridBins (x.gridIn (x.obs.restrict r.inUse) r.vis w2.weights p).toGridIn = .ok (some b) ∧ b.binI.length = 4 := by
    intro p hp
    have hB : exWholeBins p = .ok (some 4) := by
      interval_cases p
      · exact exWholeBins_eq.1
      · exact exWholeBins_eq.2
    unfold exWholeBins at hB
    simp only [bind, Except.bind, pure, Except.pure, h1] at hB
    rw [hu]
    cases h2 : visWeightsUpdate (exAfter.restrict ⟨[0, 1, 2], [0, 1, 2]⟩) exAfterUv w1.weights with
    | error e => rw [h2] at hB; cases hB
    | ok w2 =>
      rw [h2] at hB
      refine ⟨w2, ?_⟩
      have hin : (x.gridIn (x.obs.restrict ⟨[0, 1, 2], [0, 1, 2]⟩) r.vis w2.weights p).toGridIn =
          { exGrid 16 16 (fun b => (b % 2 : ℕ)) (fun _ => 1) 3 with
            freqAll := [1, 3/2, 2, 5/2], fiUse := [0, 1, 2], biUse := defaultBiUse 4 10 fun f b => if b < 10 then w2.weights p f b else 0,
            weight := fun f b => if b < 10 then w2.weights p f b else 0, fill := false } := by
        have : (exAfter.restrict ⟨[0, 1, 2], [0, 1, 2]⟩).inUse.freqs = [0, 1, 2] := by decide +kernel
        show ({ exGrid 16 16 (fun b => (b % 2 : ℕ)) (fun _ => 1) 3 with
            freqAll := [1, 3/2, 2, 5/2], fiUse := (exAfter.restrict ⟨[0, 1, 2], [0, 1, 2]⟩).inUse.freqs,
            biUse := defaultBiUse 4 10 fun f b => if b < 10 then w2.weights p f b else 0,
            weight := fun f b => if b < 10 then w2.weights p f b else 0, fill := false } : GridIn) = _
        rw [this]
      rw [hin]
      revert hB
      simp only
      generalize gridBins _ = G
      intro hB
      cases G with
      | error e => cases hB
      | ok ob =>
        cases ob with
        | none => cases hB
        | some b =>
          refine ⟨b, h2, rfl, ?_⟩
          have := Except.ok.inj hB
          exact Option.some.inj this
  obtain ⟨w2, -, h2, -⟩ := hb 0 (by norm_num)
  have hg : ∀ p < 2, ∃ o, x.gridded (x.obs.restrict r.inUse) r.vis w2.weights p = .ok o := by
    intro p hp
    obtain ⟨w2', b, b1, b2, b3⟩ := hb p hp
    rw [h2] at b1
    cases b1
    unfold RunIn.gridded visGridOpts
    have : b.binI.length ≠ 0 := by omega
    simp only [b2, bind, Except.bind, if_neg this]
    exact ⟨_, rfl⟩
  obtain ⟨o0, g0⟩ := hg 0 (by norm_num)
  obtain ⟨o1, g1⟩ := hg 1 (by norm_num)
  have hq := exWholeRun_images fit
  obtain ⟨out, hout⟩ := quickview_ok (x.quickIn w2.nVis [o0, o1]) (hq.size fun _ _ => 0).1 (hq.size fun _ _ => 0).2
    (hq.pad fun _ _ => 0) (fun _ _ _ => 1 / 2) fun _ _ => rfl
  refine ⟨⟨r, w2.weights, [o0, o1], out⟩, (run_stages _ _).2 ⟨w1, w2, h1, a1, h2, rfl, ?_, hout⟩⟩
  show (List.range 2).mapM _ = _
  simp only [List.range_succ, List.range_zero, List.nil_append, List.cons_append, List.mapM_cons, List.mapM_nil, g0, g1]
  rfl

/-- The hypotheses of C294 and of C295 are met: other data and another model in the flagged channel change nothing, and in other units the same gains
are found. -/
example : ∃ fit R, imagingRun (exWholeRun fit) = .ok R ∧
    (∃ R', imagingRun (withSky (exWholeRun fit) (fun p f b => if f = 3 then 99 else (exWholeRun fit).vis p f b)
      fun p f b => if f = 3 then (b : ℂ) else (exWholeRun fit).model p f b) = .ok R' ∧ SameRun R R') ∧
    ∃ R', imagingRun (withSky (exWholeRun fit) (fun p f b => (1000 : ℝ) * (exWholeRun fit).vis p f b)
      fun p f b => (1000 : ℝ) * (exWholeRun fit).model p f b) = .ok R' ∧ SameSolution R.cal R'.cal := by
  obtain ⟨fit, hfit⟩ := exists_leastSquaresFit
  obtain ⟨R, hR⟩ := exWholeRun_ok fit hfit
  refine ⟨fit, R, hR, C294_flagged _ (exWholeRun_fits fit) _ _ (fun p _ f b _ hu => ?_) R hR, ?_⟩
  · have : f ≠ 3 := by
      rintro rfl
      exact hu.2 (Or.inl rfl)
    simp [this]
  · obtain ⟨R', a1, a2, -⟩ := C295_units _ (exWholeRun_fits fit) (exWholeRun_images fit) (fun p => by norm_num [exWholeRun, exGrid]) 1000 (by norm_num)
      R hR
    exact ⟨R', a1, a2⟩

/-- The hypotheses of C296 are met: the data are four times the model, and the residual image of the second polarisation is zero. -/
example : ∃ fit R d, imagingRun (exWholeRun fit) = .ok R ∧ R.cal.gain 1 2 0 = 2 ∧
    (⟨.residual, R.images.polNames.getD 1 "", .plane d⟩ : QvFile) ∈ R.images.files ∧ ∀ i j, d i j = 0 := by
  obtain ⟨fit, hfit⟩ := exists_leastSquaresFit
  obtain ⟨R, hR⟩ := exWholeRun_ok fit hfit
  obtain ⟨hu, a1, -, a2⟩ := C296_exact _ (exWholeRun_fits fit) (exWholeRun_images fit) (fun _ _ _ => ((2 : ℝ) : ℂ)) (fun w hw => by
      obtain ⟨w', b1, b2⟩ := exWholeRun_weights
      have : w = w' := by
        have hw' : visWeightsUpdate exAfter exAfterUv (fun _ _ _ => 1) = .ok w := hw
        rw [b1] at hw'
        exact (Except.ok.inj hw').symm
      subst this
      exact exWholeRun_exact fit hfit w.weights b2)
    (fun p _ s _ f _ => by
      show (4 : ℂ) * ((p + f + s + 1 : ℕ) : ℂ) = ((2 : ℝ) : ℂ) * star ((2 : ℝ) : ℂ) * ((p + f + s + 1 : ℕ) : ℂ)
      rw [Complex.star_def, Complex.conj_ofReal]
      norm_num) R hR
  obtain ⟨d, d1, d2⟩ := a2 1 (by show 1 < 2; norm_num)
  have a1 := a1 1 (by show 1 < 2; norm_num)
  rw [hu rfl, exWholeRun_inUse] at a1
  exact ⟨fit, R, d, hR, by rw [a1 2 (by simp) 0 (by simp)]; norm_num, d1, d2⟩

/-- The same run, with a flagging of calibration that takes the last tile out of use. -/
noncomputable def exFlagRun (fit : List ℕ → List ℝ → ℕ → List ℝ) : RunIn :=
  { exWholeRun fit with
    opts := ⟨false, true, true, false, true, false⟩
    cal := { exCalibrate fit with flag := fun u _ => ⟨u.freqs, u.tiles.filter (· < 2)⟩ } }

/-- The condition of exact gains is met also with flagging. -/
example (fit : List ℕ → List ℝ → ℕ → List ℝ) (hfit : LeastSquaresFit fit) (w : Weights) (hw : ExWeights w) :
    (exFlagRun fit).opts.flag = true ∧ ExactSetup (exFlagRun fit) w fun _ _ _ => ((2 : ℝ) : ℂ) := by
  have e := exWholeRun_exact fit hfit w hw
  refine ⟨rfl, ⟨e.fit, e.mag, e.base, e.iter, e.bandpass, e.polyfit, e.noJump, e.noAutos, fun _ B _ => ⟨fun f hf => hf, fun t ht =>
    (List.mem_filter.1 ht).1, fun p _ => ?_⟩, e.exact, e.ref, e.start, e.smooth⟩⟩
  have hu : (exFlagRun fit).cal.flag (exFlagRun fit).obs.inUse B = ⟨[0, 1, 2], [0, 1]⟩ := by
    show (⟨(exWholeRun fit).obs.inUse.freqs, (exWholeRun fit).obs.inUse.tiles.filter (· < 2)⟩ : InUse) = _
    rw [exWholeRun_inUse]
    rfl
  rw [hu]
  exact constant_smooth _ _ rfl _ 2 (by norm_num) p (by decide)
    (by simp [RunIn.calIn, exFlagRun, exWholeRun, exCalibrate, degreeOr]) (by simp [RunIn.calIn, exFlagRun, exWholeRun, exCalibrate, degreeOr])
    (fun _ _ h => by cases h)

end PyFHD
