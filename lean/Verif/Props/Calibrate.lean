import Verif.Model.Calibrate
import Verif.Props.CalChain
import Verif.Props.RelationsFifth

/-!
# Properties of `calibrate` as a whole (C273)
-/

namespace PyFHD

open Spec
open scoped Real

namespace Spec

/-- Gains of the tiles in use that the fits can represent: a factor of the tile times a positive bandpass that all tiles averaged with it
share, times a phase that is a polynomial of the fitted degree with steps of less than half a turn, times the auto-correlation ratio. -/
structure SmoothGains (o : FitOpts) (u : InUse) (g : ℕ → ℕ → ℂ) : Prop where
  nodup : u.freqs.Nodup
  amp : degreeOr o.ampDeg 2 < u.freqs.length
  phase : degreeOr o.phaseDeg 1 < u.freqs.length
  cables : CablesFit o u.tiles
  auto : ∀ r auto, o.ratio = some (r, auto) → ∀ t ∈ u.tiles, t ∈ auto
  form : ∃ (shape : ℕ → ℕ → ℝ) (a : ℕ → ℝ) (q : ℕ → List ℝ), (∀ t ∈ u.tiles, 0 < a t ∧ (∀ f ∈ u.freqs, 0 < shape t f ∧ 0 < ratioOf o f t) ∧
    (∀ s ∈ averagedWith o u.tiles t, ∀ f ∈ u.freqs, shape s f = shape t f) ∧ (q t).length = degreeOr o.phaseDeg 1 + 1 ∧
    (u.freqs.IsChain fun f g : ℕ => |PolyAt (q t) (g : ℝ) - PolyAt (q t) (f : ℝ)| < π) ∧
    (∃ m, resistantMean (u.freqs.map (shape t)) 2 = some m) ∧
    ∀ f ∈ u.freqs, g f t =
      ((ratioOf o f t * (a t * shape t f) : ℝ) : ℂ) * Complex.exp (((PolyAt (q t) (f : ℝ) : ℝ) : ℂ) * Complex.I))

end Spec

theorem averagedWith_self (o : FitOpts) (tiles : List ℕ) (t : ℕ) (ht : t ∈ tiles) : t ∈ averagedWith o tiles t := by
  unfold averagedWith
  split
  · exact ht
  · split_ifs
    · exact ht
    · exact List.mem_filter.2 ⟨ht, by simp⟩

/-- SmoothGains gains are not zero and are kept by the fits. -/
theorem smooth_fits (fit : List ℕ → List ℝ → ℕ → List ℝ) (hfit : LeastSquaresFit fit) (o : FitOpts) (hpoly : o.poly = true)
    (hjump : o.jump = false) (u : InUse) (g B : ℕ → ℕ → ℂ) (h : SmoothGains o u g) (hB : ∀ f ∈ u.freqs, ∀ t ∈ u.tiles, B f t = g f t) (t : ℕ)
    (ht : t ∈ u.tiles) :
    (∀ f ∈ u.freqs, g f t ≠ 0) ∧
      ∃ k, fittedGains fit o u.freqs u.tiles B t = .ok k ∧ (∀ f ∈ u.freqs, k f = g f t) ∧ ∀ f, f ∉ u.freqs → k f = 0 := by
  obtain ⟨shape, a, q, hall⟩ := h.form
  obtain ⟨ha, hs, hsame, hq, hφ, ⟨m, hm⟩, hg⟩ := hall t ht
  refine ⟨fun f hf => ?_, ?_⟩
  · rw [hg f hf]
    obtain ⟨h1, h2⟩ := hs f hf
    refine mul_ne_zero ?_ (Complex.exp_ne_zero _)
    rw [Complex.ofReal_ne_zero]
    positivity
  · have hlen : 0 < (averagedWith o u.tiles t).length := List.length_pos_of_mem (averagedWith_self o u.tiles t ht)
    obtain ⟨k, h1, h2, h3⟩ := C271_smooth_kept fit hfit o hpoly hjump u.freqs u.tiles h.cables h.nodup h.amp h.phase B shape a q (fun _ => True) t ht
      trivial (by simp; omega) (fun s hs _ => hsame s hs) (fun f hf => (hs f hf).1) (fun s hst _ => (hall s hst).1) hq
      (fun s hst _ f hf => ((hall s hst).2.1 f hf).2) (fun r auto e => h.auto r auto e t ht)
      (fun s hst _ f hf => (hB f hf s hst).trans ((hall s hst).2.2.2.2.2.2 f hf)) hφ m hm
    exact ⟨k, h1, fun f hf => (h2 f hf).trans (hB f hf t ht), h3⟩

theorem chainRemultiply_congr (o : FitOpts) (x y : ℕ → ℕ → ℂ) (f t : ℕ) (h : x f t = y f t) :
    chainRemultiply o x f t = chainRemultiply o y f t := by
  unfold chainRemultiply
  cases o.ratio with
  | none => exact h
  | some p =>
    obtain ⟨r, auto⟩ := p
    simp only [autoRatioRemultiply, h]

/-- The fits of `calibrate` are the fits of each polarisation and tile. -/
theorem calFits_entry (c : CalibrateIn) (o : CalOpts) (hb : o.bandpass = true) (hpoly : o.polyfit = true) (hj : c.jump = false) (u : InUse)
    (B : Gains) : ∃ H, calFits (c.steps o) o u B = .ok H ∧ ∀ p < c.run.nPol, ∀ t < c.run.nTile, ∀ k,
      fittedGains c.fit (c.fitOpts o p) u.freqs u.tiles (B p) t = .ok k → ∀ f, H p f t = k f := by
  have hdiv : (if o.autoRatio then (c.steps o).divide B else B) = fun p => chainDivide (c.fitOpts o p) (B p) := by
    cases h : o.autoRatio with
    | true => rfl
    | false =>
      funext p
      simp [chainDivide, CalibrateIn.fitOpts, h]
  have hrem : ∀ X : Gains, (if o.autoRatio then (c.steps o).remultiply X else X) = fun p => chainRemultiply (c.fitOpts o p) (X p) := by
    intro X
    cases h : o.autoRatio with
    | true => rfl
    | false =>
      funext p
      simp [chainRemultiply, CalibrateIn.fitOpts, h]
  have hq : ∀ g : Gains, ∃ Q, c.polyfitOf u g = .ok Q ∧ ∀ p < c.run.nPol, ∀ t < c.run.nTile, ∀ k,
      polyTile (complexFit c.fit) c.jump c.ampDeg c.phaseDeg u.freqs c.low (fun f => g p f t) = .ok k → ∀ f, Q p f t = k f := by
    intro g
    let P : ℕ → ℕ → ℕ → ℂ := fun p t f => (complexFit c.fit).cast (ampFit (complexFit c.fit) (degreeOr c.ampDeg 2) u.freqs (fun f => g p f t) f) *
      (complexFit c.fit).expi (phaseFitAt (complexFit c.fit) (degreeOr c.phaseDeg 1) u.freqs (fun f => g p f t) f)
    have hP : ∀ p t, polyTile (complexFit c.fit) c.jump c.ampDeg c.phaseDeg u.freqs c.low (fun f => g p f t) = .ok (P p t) := by
      intro p t
      rw [hj]
      rfl
    have hrow : ∀ p, ((List.range c.run.nTile).mapM fun t =>
        polyTile (complexFit c.fit) c.jump c.ampDeg c.phaseDeg u.freqs c.low fun f => g p f t) = .ok ((List.range c.run.nTile).map (P p)) :=
      fun p => mapM_ok _ (P p) _ (fun t _ => hP p t)
    refine ⟨_, by
      unfold CalibrateIn.polyfitOf
      rw [mapM_ok _ (fun p => (List.range c.run.nTile).map (P p)) _ (fun p _ => hrow p)]
      rfl, fun p hp t ht k hk f => ?_⟩
    rw [hP] at hk
    cases hk
    simp [List.getD_eq_getElem?_getD, List.getElem?_map, List.getElem?_range hp, List.getElem?_range ht]
  obtain ⟨Q, hQ, hQe⟩ := hq fun p f t =>
    ((chainBandpass (c.fitOpts o p) u.freqs u.tiles (chainDivide (c.fitOpts o p) (B p))).remainder f t).getD 0
  refine ⟨_, by
    unfold calFits
    rw [if_pos hb]
    simp only [hpoly, if_true, hrem, hdiv]
    simp only [CalibrateIn.steps, bind, Except.bind]
    rw [hQ], fun p hp t ht k hk f => ?_⟩
  unfold fittedGains at hk
  have hpo : (c.fitOpts o p).poly = true := hpoly
  simp only [hpo, if_true] at hk
  cases hpt : polyTile (complexFit c.fit) c.jump c.ampDeg c.phaseDeg u.freqs c.low fun f =>
      ((chainBandpass (c.fitOpts o p) u.freqs u.tiles (chainDivide (c.fitOpts o p) (B p))).remainder f t).getD 0 with
  | error e =>
    have hk' := hk
    erw [hpt] at hk'
    cases hk'
  | ok h =>
    erw [hpt] at hk
    cases hk
    simp only
    apply chainRemultiply_congr
    rw [hQe p hp t ht h hpt f]

/-- The solver of `calibrate` keeps gains that account for the data. -/
theorem solve_exact (c : CalibrateIn) (hmag : c.run.mag = fun z => ‖z‖) (hcast : c.run.cast = fun x : ℝ => (x : ℂ)) (hbase : 0 < c.run.base)
    (hiter : 0 < c.run.maxIter) (g : Gains) (hg : ∀ p < c.run.nPol, ExactGains c.run p (g p))
    (href : c.run.noRef = false → ∀ p < c.run.nPol, ∀ f ∈ c.run.freqs p,
      g p f (refTile (c.run.tiles p)) = (‖g p f (refTile (c.run.tiles p))‖ : ℂ))
    (u : InUse) (hut : ∀ t ∈ u.tiles, c.run.tileUse t = true)
    (hstart : ∀ p < c.run.nPol, ∀ f ∈ u.freqs, ∀ t ∈ u.tiles, c.run.gain p f t = g p f t) :
    ∃ B, c.solveStepOf c.run.gain = .ok B ∧ ∀ p < c.run.nPol, ∀ f ∈ u.freqs, ∀ t ∈ u.tiles, B p f t = g p f t := by
  have habs : ComplexAbs c.run.mag Complex.ofRealHom := by
    rw [hmag]
    refine ⟨fun z => norm_nonneg z, fun z => ?_, fun r => ?_⟩
    · rw [Complex.ofRealHom_eq_coe, Complex.ofReal_mul, ← sq, Complex.star_def, Complex.conj_mul']
    · simp
  have hrun : ∀ p < c.run.nPol, ∃ r, calRunPol c.run p = .ok (some r) ∧ ∀ f ∈ u.freqs, ∀ t ∈ u.tiles, r.gain f t = some (g p f t) := by
    intro p hp
    have h := hg p hp
    obtain ⟨r, hr, hu⟩ := C125_exact_gains c.run Complex.ofRealHom habs (by rw [hcast]; rfl) hbase hiter p (g p) h.tiles h.freqs h.flags
      h.start h.data h.enough h.differ
    refine ⟨r, hr, fun f hf t ht => ?_⟩
    by_cases hin : f ∈ c.run.freqs p ∧ t ∈ c.run.tiles p
    · obtain ⟨w, -, h1, h2, h3⟩ := hu f hin.1
      rw [h3 t hin.2]
      have hw : w = 1 := by
        cases hno : c.run.noRef with
        | true => exact h1 hno
        | false =>
          have e := h2 hno
          have e2 := href hno p hp f hin.1
          obtain ⟨-, hrefm⟩ := refPos_eq c.run p h.tiles
          have hne := (h.start f hin.1 _ hrefm).2
          rw [hmag] at e
          have e3 : g p f (refTile (c.run.tiles p)) * w = g p f (refTile (c.run.tiles p)) * 1 := by
            rw [e, mul_one]
            exact e2.symm
          exact mul_left_cancel₀ hne e3
      rw [hw, mul_one]
    · obtain ⟨-, O, hO, -⟩ := calRunPol_ok c.run p r hr
      rw [hO]
      unfold runPolOf
      simp only
      rw [if_neg, if_neg (fun hh => hin ⟨hh.2, hh.1⟩), hstart p hp f hf t ht]
      rintro ⟨-, hn⟩
      have := ((nanTile_iff c.run p t).1 hn).2
      rw [hut t ht] at this
      cases this
  have : Nonempty (CalRunPol ℂ ℝ) := ⟨⟨fun _ _ => none, fun _ _ => 0, fun _ _ => 0, 0⟩⟩
  choose! r hr1 hr2 using hrun
  have hall : calRun { c.run with gain := c.run.gain } = .ok (some ⟨(List.range c.run.nPol).map r, nVisCal c.run⟩) := by
    show calRun c.run = _
    unfold calRun
    rw [mapM_ok _ (fun p => some (r p)) _ (fun p hp => hr1 p (List.mem_range.1 hp))]
    simp only [bind, Except.bind, pure, Except.pure]
    rw [option_mapM_map]
  refine ⟨fun p f t => (((List.range c.run.nPol).map r)[p]?.bind fun q => q.gain f t).getD 0, ?_, fun p hp f hf t ht => ?_⟩
  · unfold CalibrateIn.solveStepOf
    rw [hall]
  · simp only
    rw [List.getElem?_map, List.getElem?_range hp]
    simp [hr2 p hp f hf t ht]

theorem resistantMean_same (l : List ℝ) (x : ℝ) (hne : l ≠ []) (h : ∀ y ∈ l, y = x) : resistantMean l 2 = some x := by
  apply C80_majority _ _ _ (by norm_num) (by norm_num [sigmaCorr, sigmaPoly])
  have : l.count x = l.length := List.count_eq_length.2 fun y hy => (h y hy).symm
  rw [this]
  have := List.length_pos_iff.2 hne
  omega

/-- The statistics of residuals that vanish. -/
theorem stats_zero (tiles freqs : List ℕ) (amp res : ℕ → ℕ → ℝ) (h : ∀ f ∈ freqs, ∀ t ∈ tiles, res f t = 0) :
    (calStatistics tiles freqs amp res).2 = (0, some 0, 0) := by
  unfold calStatistics
  split_ifs with he
  · rfl
  · rw [not_or] at he
    have hz : ∀ y ∈ freqs.flatMap (fun f => tiles.map fun t => res f t), y = 0 := by
      intro y hy
      obtain ⟨f, hf, hy⟩ := List.mem_flatMap.1 hy
      obtain ⟨t, ht, rfl⟩ := List.mem_map.1 hy
      exact h f hf t ht
    have hne : freqs.flatMap (fun f => tiles.map fun t => res f t) ≠ [] := by
      obtain ⟨f, hf⟩ := List.exists_mem_of_ne_nil _ he.2
      obtain ⟨t, ht⟩ := List.exists_mem_of_ne_nil _ he.1
      exact List.ne_nil_of_mem (List.mem_flatMap.2 ⟨f, hf, List.mem_map.2 ⟨t, ht, rfl⟩⟩)
    have hsum : (freqs.flatMap (fun f => tiles.map fun t => res f t)).sum = 0 := List.sum_eq_zero hz
    simp only
    rw [hsum, resistantMean_same _ 0 hne hz]
    refine Prod.ext (by simp) (Prod.ext rfl ?_)
    simp only
    unfold npVar
    rw [hsum, List.sum_eq_zero, zero_div]
    intro y hy
    obtain ⟨x, hx, rfl⟩ := List.mem_map.1 hy
    rw [hz x hx]
    simp

/-- `C273_exact`, with what is known of the channels and tiles that remain in use. -/
theorem calibrate_exact (c : CalibrateIn) (hfit : LeastSquaresFit c.fit) (hmag : c.run.mag = fun z => ‖z‖)
    (hcast : c.run.cast = fun x : ℝ => (x : ℂ)) (hbase : 0 < c.run.base) (hiter : 0 < c.run.maxIter) (o : CalOpts) (hb : o.bandpass = true)
    (hpoly : o.polyfit = true) (hj : c.jump = false) (hinit : o.autoInit = false) (haf : o.autoFit = false) (u : InUse) (g : Gains)
    (hpol : 1 ≤ c.run.nPol ∧ c.run.nPol ≤ 2) (hg : ∀ p < c.run.nPol, ExactGains c.run p (g p))
    (href : c.run.noRef = false → ∀ p < c.run.nPol, ∀ f ∈ c.run.freqs p,
      g p f (refTile (c.run.tiles p)) = (‖g p f (refTile (c.run.tiles p))‖ : ℂ))
    (hut : ∀ t ∈ u.tiles, t < c.run.nTile ∧ c.run.tileUse t = true)
    (hAB : ∀ s < c.run.nBl * c.run.nTime, c.run.tileA s < c.run.nTile ∧ c.run.tileB s < c.run.nTile)
    (hstart : ∀ p < c.run.nPol, ∀ f ∈ u.freqs, ∀ t ∈ u.tiles, c.run.gain p f t = g p f t)
    (hsm : ∀ p < c.run.nPol, SmoothGains (c.fitOpts o p) u (g p))
    (hfl : o.flag = true → ∀ B : Gains, (∀ p < c.run.nPol, ∀ f ∈ u.freqs, ∀ t ∈ u.tiles, B p f t = g p f t) →
      (∀ f ∈ (c.flag u B).freqs, f ∈ u.freqs) ∧ (∀ t ∈ (c.flag u B).tiles, t ∈ u.tiles) ∧
        ∀ p < c.run.nPol, SmoothGains (c.fitOpts o p) (c.flag u B) (g p)) :
    ∃ r, calibrateAll c o u = .ok r ∧ (o.flag = false → r.inUse = u) ∧
      ((∀ f ∈ r.inUse.freqs, f ∈ u.freqs) ∧ (∀ t ∈ r.inUse.tiles, t ∈ u.tiles) ∧ ∀ p < c.run.nPol, SmoothGains (c.fitOpts o p) r.inUse (g p)) ∧
      ∀ p < c.run.nPol, (∀ f ∈ r.inUse.freqs, ∀ t ∈ r.inUse.tiles, r.gain p f t = g p f t ∧ r.residual p f t = 0) ∧
        (r.stats p).2 = (0, some 0, 0) ∧
        ∀ s < c.run.nBl * c.run.nTime, c.run.tileA s ∈ r.inUse.tiles → c.run.tileB s ∈ r.inUse.tiles →
          (∀ f ∈ r.inUse.freqs, ∀ truth, c.run.vis p f s = g p f (c.run.tileA s) * star (g p f (c.run.tileB s)) * truth →
            r.vis p f s = truth) ∧ ∀ f, f ∉ r.inUse.freqs → r.vis p f s = 0 := by
  obtain ⟨B, hB1, hB2⟩ := solve_exact c hmag hcast hbase hiter g hg href u (fun t ht => (hut t ht).2) hstart
  obtain ⟨u', hu', hsub1, hsub2, hsm', hsame⟩ : ∃ u', (if o.flag = true then (c.steps o).flag u B else u) = u' ∧
      (∀ f ∈ u'.freqs, f ∈ u.freqs) ∧ (∀ t ∈ u'.tiles, t ∈ u.tiles) ∧ (∀ p < c.run.nPol, SmoothGains (c.fitOpts o p) u' (g p)) ∧
      (o.flag = false → u' = u) := by
    cases hf : o.flag with
    | false => exact ⟨u, by simp, fun _ h => h, fun _ h => h, hsm, fun _ => rfl⟩
    | true =>
      obtain ⟨h1, h2, h3⟩ := hfl hf B hB2
      exact ⟨c.flag u B, by simp [CalibrateIn.steps], h1, h2, h3, fun h => by cases h⟩
  have hB' : ∀ p < c.run.nPol, ∀ f ∈ u'.freqs, ∀ t ∈ u'.tiles, B p f t = g p f t :=
    fun p hp f hf t ht => hB2 p hp f (hsub1 f hf) t (hsub2 t ht)
  obtain ⟨H, hH1, hH2⟩ := calFits_entry c o hb hpoly hj u' B
  have hH : ∀ p < c.run.nPol, ∀ t ∈ u'.tiles, (∀ f ∈ u'.freqs, H p f t = g p f t ∧ g p f t ≠ 0) ∧ ∀ f, f ∉ u'.freqs → H p f t = 0 := by
    intro p hp t ht
    obtain ⟨hne, k, hk, hk1, hk2⟩ := smooth_fits c.fit hfit (c.fitOpts o p) hpoly hj u' (g p) (B p) (hsm' p hp) (hB' p hp) t ht
    have e := hH2 p hp t (hut t (hsub2 t ht)).1 k hk
    exact ⟨fun f hf => ⟨(e f).trans (hk1 f hf), hne f hf⟩, fun f hf => (e f).trans (hk2 f hf)⟩
  obtain ⟨vis, hv1, hv2⟩ := apply_entry_of (c.applyIn H) (fun w => norm_eq_zero)
    (by
      intro t ht
      obtain ⟨s, hs, rfl⟩ := List.mem_map.1 ht
      have := (hAB s (List.mem_range.1 hs)).1
      simp only [CalibrateIn.applyIn]
      omega)
    (by
      intro t ht
      obtain ⟨s, hs, rfl⟩ := List.mem_map.1 ht
      have := (hAB s (List.mem_range.1 hs)).2
      simp only [CalibrateIn.applyIn]
      omega)
    (by simp only [CalibrateIn.applyIn]; omega) (by simp only [CalibrateIn.applyIn]; omega)
    (Or.inl (by simp only [CalibrateIn.applyIn]; omega))
  have hrun : calibrateGains (c.steps o) o u =
      .ok (visCalibrationApply (c.applyIn H), u', H, fun p f t => B p f t - H p f t) := by
    unfold calibrateGains
    have h0 : calInit (c.steps o) o = .ok c.run.gain := by simp [calInit, hinit, CalibrateIn.steps]
    have h1 : (c.steps o).solve c.run.gain = .ok B := hB1
    have h2 : calAuto (c.steps o) o u' H = .ok H := by simp [calAuto, haf]
    rw [h0]
    simp only [bind, Except.bind]
    rw [h1]
    simp only
    rw [hu', hH1]
    simp only
    rw [h2]
    rfl
  refine ⟨_, by
    unfold calibrateAll
    rw [hrun]
    simp only [bind, Except.bind]
    rw [hv1], hsame, ⟨hsub1, hsub2, hsm'⟩, fun p hp => ⟨fun f hf t ht => ?_, ?_, fun s hs hA hB => ⟨fun f hf truth htr => ?_, fun f hf => ?_⟩⟩⟩
  · refine ⟨((hH p hp t ht).1 f hf).1, ?_⟩
    show B p f t - H p f t = 0
    rw [hB' p hp f hf t ht, ((hH p hp t ht).1 f hf).1, sub_self]
  · refine stats_zero _ _ _ _ fun f hf t ht => ?_
    show ‖B p f t - H p f t‖ = 0
    rw [hB' p hp f hf t ht, ((hH p hp t ht).1 f hf).1, sub_self, norm_zero]
  all_goals
    have hgp : gainPair p = (p, p) := by
      have : p = 0 ∨ p = 1 := by omega
      rcases this with rfl | rfl <;> rfl
    have ev := hv2 p hp f s ((c.run.tileA s : ℤ) + 1) ((c.run.tileB s : ℤ) + 1)
      (by simp [CalibrateIn.applyIn, List.getElem?_range hs]) (by simp [CalibrateIn.applyIn, List.getElem?_range hs])
    simp only [hgp, add_sub_cancel_right, Int.toNat_natCast] at ev
    simp only
    rw [ev]
  · have hA' := (hH p hp _ hA).1 f hf
    have hB'' := (hH p hp _ hB).1 f hf
    have e1 : (c.applyIn H).gain p f (c.run.tileA s) = g p f (c.run.tileA s) := hA'.1
    have e2 : (c.applyIn H).gain p f (c.run.tileB s) = g p f (c.run.tileB s) := hB''.1
    have n2 : star (g p f (c.run.tileB s)) ≠ 0 := by rw [star_ne_zero]; exact hB''.2
    rw [e1, e2, if_neg (mul_ne_zero hA'.2 n2)]
    show c.run.vis p f s / _ = _
    rw [htr, mul_div_assoc, mul_comm, div_mul_cancel₀ _ (mul_ne_zero hA'.2 n2)]
  · have e1 : (c.applyIn H).gain p f (c.run.tileA s) = 0 := (hH p hp _ hA).2 f hf
    rw [e1, zero_mul, if_pos rfl]

/-- **C273.** Let the starting gains account exactly for the data of the tiles in use, with the reference tile's real and positive (or no
reference tile), and let the gains be of the form that the fits can represent, for the channels and tiles that are in use after the
flagging. Then `calibrate` with bandpass and polynomial fits returns these gains, residuals and their statistics that are zero, the data
divided by the gains at channels in use (so the values from which the data were made), and zero at the other channels. -/
theorem C273_exact (c : CalibrateIn) (hfit : LeastSquaresFit c.fit) (hmag : c.run.mag = fun z => ‖z‖)
    (hcast : c.run.cast = fun x : ℝ => (x : ℂ)) (hbase : 0 < c.run.base) (hiter : 0 < c.run.maxIter) (o : CalOpts) (hb : o.bandpass = true)
    (hpoly : o.polyfit = true) (hj : c.jump = false) (hinit : o.autoInit = false) (haf : o.autoFit = false) (u : InUse) (g : Gains)
    (hpol : 1 ≤ c.run.nPol ∧ c.run.nPol ≤ 2) (hg : ∀ p < c.run.nPol, ExactGains c.run p (g p))
    (href : c.run.noRef = false → ∀ p < c.run.nPol, ∀ f ∈ c.run.freqs p,
      g p f (refTile (c.run.tiles p)) = (‖g p f (refTile (c.run.tiles p))‖ : ℂ))
    (hut : ∀ t ∈ u.tiles, t < c.run.nTile ∧ c.run.tileUse t = true)
    (hAB : ∀ s < c.run.nBl * c.run.nTime, c.run.tileA s < c.run.nTile ∧ c.run.tileB s < c.run.nTile)
    (hstart : ∀ p < c.run.nPol, ∀ f ∈ u.freqs, ∀ t ∈ u.tiles, c.run.gain p f t = g p f t)
    (hsm : ∀ p < c.run.nPol, SmoothGains (c.fitOpts o p) u (g p))
    (hfl : o.flag = true → ∀ B : Gains, (∀ p < c.run.nPol, ∀ f ∈ u.freqs, ∀ t ∈ u.tiles, B p f t = g p f t) →
      (∀ f ∈ (c.flag u B).freqs, f ∈ u.freqs) ∧ (∀ t ∈ (c.flag u B).tiles, t ∈ u.tiles) ∧
        ∀ p < c.run.nPol, SmoothGains (c.fitOpts o p) (c.flag u B) (g p)) :
    ∃ r, calibrateAll c o u = .ok r ∧ (o.flag = false → r.inUse = u) ∧
      ∀ p < c.run.nPol, (∀ f ∈ r.inUse.freqs, ∀ t ∈ r.inUse.tiles, r.gain p f t = g p f t ∧ r.residual p f t = 0) ∧
        (r.stats p).2 = (0, some 0, 0) ∧
        ∀ s < c.run.nBl * c.run.nTime, c.run.tileA s ∈ r.inUse.tiles → c.run.tileB s ∈ r.inUse.tiles →
          (∀ f ∈ r.inUse.freqs, ∀ truth, c.run.vis p f s = g p f (c.run.tileA s) * star (g p f (c.run.tileB s)) * truth →
            r.vis p f s = truth) ∧ ∀ f, f ∉ r.inUse.freqs → r.vis p f s = 0 := by
  obtain ⟨r, h1, h2, -, h3⟩ := calibrate_exact c hfit hmag hcast hbase hiter o hb hpoly hj hinit haf u g hpol hg href hut hAB hstart hsm hfl
  exact ⟨r, h1, h2, h3⟩

theorem polyAt_zeros (n : ℕ) (x : ℝ) : PolyAt (List.replicate n (0 : ℝ)) x = 0 := by
  unfold PolyAt
  refine Finset.sum_eq_zero fun k hk => ?_
  have : (List.replicate n (0 : ℝ)).getD k 0 = 0 := by
    rw [List.getD_eq_getElem?_getD, List.getElem?_replicate]
    split_ifs <;> rfl
  rw [this, zero_mul]

/-- **C273**, data that agree with the model: if the data in use are the model times the square of the gain with which the calibration
starts (`cal_gain_init`), then `calibrate` returns the model at the channels in use, gains that are the starting gain, and no residual. -/
theorem C273_model_data (c : CalibrateIn) (hfit : LeastSquaresFit c.fit) (hmag : c.run.mag = fun z => ‖z‖)
    (hcast : c.run.cast = fun x : ℝ => (x : ℂ)) (hbase : 0 < c.run.base) (hiter : 0 < c.run.maxIter) (o : CalOpts) (hb : o.bandpass = true)
    (hpoly : o.polyfit = true) (hj : c.jump = false) (hinit : o.autoInit = false) (haf : o.autoFit = false) (hfl : o.flag = false)
    (hrat : o.autoRatio = false) (u : InUse) (hpol : 1 ≤ c.run.nPol ∧ c.run.nPol ≤ 2) (g0 : ℝ) (hg0 : 0 < g0)
    (hgain : ∀ p f t, c.run.gain p f t = (g0 : ℂ))
    (hne : ∀ p < c.run.nPol, c.run.tiles p ≠ [] ∧ c.run.freqs p ≠ [] ∧ FlagsAgree c.run p)
    (hdata : ∀ p < c.run.nPol, ∀ f ∈ c.run.freqs p, ∀ b ∈ c.run.bls p, ∀ s ∈ c.run.samplesOf b, 0 < c.run.weight p f s →
      c.run.vis p f s = (g0 : ℂ) ^ 2 * c.run.model p f s)
    (henough : ∀ p < c.run.nPol, ∀ f ∈ c.run.freqs p, ∀ t ∈ c.run.tiles p, 5 ≤ baselinesOf c.run p f t ∧
      ∃ b ∈ c.run.bls p, 0 < c.run.blWeight p f b ∧ (c.run.tileA b = t ∨ c.run.tileB b = t) ∧ c.run.average p c.run.model f b ≠ 0)
    (hdiff : ∀ p < c.run.nPol, ∀ f ∈ c.run.freqs p, NumbersDiffer c.run p f)
    (hut : ∀ t ∈ u.tiles, t < c.run.nTile ∧ c.run.tileUse t = true)
    (hAB : ∀ s < c.run.nBl * c.run.nTime, c.run.tileA s < c.run.nTile ∧ c.run.tileB s < c.run.nTile)
    (hnd : u.freqs.Nodup) (hla : degreeOr c.ampDeg 2 < u.freqs.length) (hlp : degreeOr c.phaseDeg 1 < u.freqs.length)
    (hcab : ∀ cables cable, c.cables = some (cables, cable) → cables.Nodup ∧ ∀ t ∈ u.tiles, cable t ∈ cables) :
    ∃ r, calibrateAll c o u = .ok r ∧ r.inUse = u ∧ ∀ p < c.run.nPol,
      (∀ f ∈ u.freqs, ∀ t ∈ u.tiles, r.gain p f t = (g0 : ℂ) ∧ r.residual p f t = 0) ∧ (r.stats p).2 = (0, some 0, 0) ∧
      ∀ s < c.run.nBl * c.run.nTime, c.run.tileA s ∈ u.tiles → c.run.tileB s ∈ u.tiles →
        (∀ f ∈ u.freqs, c.run.vis p f s = (g0 : ℂ) ^ 2 * c.run.model p f s → r.vis p f s = c.run.model p f s) ∧
        ∀ f, f ∉ u.freqs → r.vis p f s = 0 := by
  have hfs : u.freqs ≠ [] := by rintro h; rw [h] at hla; simp at hla
  have hstar : ∀ x : ℂ, (g0 : ℂ) * star (g0 : ℂ) * x = (g0 : ℂ) ^ 2 * x := by
    intro x
    rw [Complex.star_def, Complex.conj_ofReal]
    ring
  obtain ⟨r, h1, h2, h3⟩ := C273_exact c hfit hmag hcast hbase hiter o hb hpoly hj hinit haf u (fun _ _ _ => (g0 : ℂ)) hpol
    (fun p hp => ⟨(hne p hp).1, (hne p hp).2.1, (hne p hp).2.2, fun f _ t _ => ⟨hgain p f t, by
      rw [Complex.ofReal_ne_zero]; exact hg0.ne'⟩, fun f hf b hb s hs hw => by rw [hstar]; exact hdata p hp f hf b hb s hs hw, henough p hp,
      hdiff p hp⟩)
    (fun _ p _ f _ => by rw [Complex.norm_real, Real.norm_of_nonneg hg0.le]) hut hAB (fun p _ f _ t _ => hgain p f t)
    (fun p _ => by
      have hr : (c.fitOpts o p).ratio = none := by simp [CalibrateIn.fitOpts, hrat]
      refine ⟨hnd, hla, hlp, hcab, (fun _ _ h => by rw [hr] at h; cases h), fun _ _ => 1, fun _ => g0,
        fun _ => List.replicate (degreeOr c.phaseDeg 1 + 1) 0, fun t _ => ⟨hg0, fun f _ => ⟨one_pos, ?_⟩, fun _ _ _ _ => rfl, ?_, ?_, ?_, ?_⟩⟩
      · unfold ratioOf
        rw [hr]
        exact one_pos
      · simp [CalibrateIn.fitOpts]
      · simp only [polyAt_zeros, sub_self, abs_zero]
        exact List.isChain_of_isChain_map (S := fun _ _ => (0 : ℝ) < π) (fun _ => ()) (fun _ _ h => h) (by
          induction (u.freqs.map fun _ => ()) with
          | nil => simp
          | cons a l ih => cases l with
            | nil => simp
            | cons b l => exact List.isChain_cons_cons.2 ⟨Real.pi_pos, ih⟩)
      · exact ⟨1, resistantMean_same _ 1 (by simpa using hfs) (by simp)⟩
      · intro f _
        unfold ratioOf
        rw [hr]
        simp [polyAt_zeros])
    (fun h => by rw [hfl] at h; cases h)
  have hu := h2 hfl
  refine ⟨r, h1, hu, fun p hp => ?_⟩
  obtain ⟨a1, a2, a3⟩ := h3 p hp
  rw [hu] at a1 a3
  exact ⟨a1, a2, fun s hs hA hB => ⟨fun f hf hv => (a3 s hs hA hB).1 f hf _ (by rw [hstar]; exact hv), (a3 s hs hA hB).2⟩⟩

/-! ## Example -/

/-- Three tiles, without data of the last two together, three channels and five times; the data are four times the model and the calibration starts with gains of 2. -/
noncomputable def exCalibrate (fit : List ℕ → List ℝ → ℕ → List ℝ) : CalibrateIn :=
  { run :=
      { mag := fun z => ‖z‖, cast := fun x : ℝ => (x : ℂ), norm := fun _ _ => 0, nPol := 2, nFreq := 4, nTile := 3, nTime := 5, nBl := 2,
        vis := fun p f s => 4 * ((p + f + s + 1 : ℕ) : ℂ), model := fun p f s => ((p + f + s + 1 : ℕ) : ℂ), weight := fun _ _ _ => 1,
        tileA := fun _ => 0, tileB := fun s => if s % 2 = 0 then 1 else 2, tileUse := fun _ => true,
        freqUse := fun f => decide (f < 3), uu := fun _ => 0, vv := fun _ => 0, freq := fun _ => 1, kpix := 1, dimension := 1, elements := 1,
        minBaseline := 0, maxBaseline := 1, minCal := 0, maxCal := 0, timeAverage := false, gain := fun _ _ _ => 2, maxIter := 50,
        phaseFitIter := 0, thresh := 0, adaptive := false, base := 1, noRef := false }
    fit := fit, jump := false, ampDeg := 0, phaseDeg := 0, low := fun _ => false, cables := none, ratio := fun _ _ _ => 0, autoTiles := []
    autoInit := .error .valueError, flag := fun u _ => u, autoFit := fun _ g => .ok g, nTimes := none }

theorem exCalibrate_weight (fit : List ℕ → List ℝ → ℕ → List ℝ) (p f b : ℕ) : (exCalibrate fit).run.blWeight p f b = 1 := by
  simp [CalRunIn.blWeight, CalRunIn.isCut, CalRunIn.samplesOf, CalRunIn.clip, CalRunIn.minLen, CalRunIn.maxLen, exCalibrate]

theorem exCalibrate_bls (fit : List ℕ → List ℝ → ℕ → List ℝ) (p : ℕ) : (exCalibrate fit).run.bls p = List.range 10 := by
  unfold CalRunIn.bls
  simp only [exCalibrate_weight]
  rw [List.filter_eq_self.2]
  · simp [CalRunIn.nB, exCalibrate]
  · intro b _
    simp [exCalibrate]
    norm_num

theorem exCalibrate_freqs (fit : List ℕ → List ℝ → ℕ → List ℝ) (p : ℕ) : (exCalibrate fit).run.freqs p = [0, 1, 2] := by
  unfold CalRunIn.freqs
  have e : ∀ f, (exCalibrate fit).run.blWeight p f = fun _ => 1 := fun f => funext (exCalibrate_weight fit p f)
  simp only [e]
  have : (0 : ℝ) < ((List.range (exCalibrate fit).run.nB).map fun _ => (1 : ℝ)).sum := by
    simp [CalRunIn.nB, exCalibrate]
    norm_num
  simp only [this, decide_true, Bool.true_and]
  show (List.range 4).filter (fun f => decide (f < 3)) = _
  decide

theorem exCalibrate_tiles (fit : List ℕ → List ℝ → ℕ → List ℝ) (p : ℕ) : (exCalibrate fit).run.tiles p = [0, 1, 2] := by
  unfold CalRunIn.tiles
  rw [exCalibrate_bls]
  show solveTiles 3 ((List.range 10).map fun _ => 0) ((List.range 10).map fun s => if s % 2 = 0 then 1 else 2)
    (fun _ => true) = _
  decide +kernel

theorem exCalibrate_number (fit : List ℕ → List ℝ → ℕ → List ℝ) (p f t : ℕ) : baselinesOf (exCalibrate fit).run p f t =
    (List.range 10).countP (fun _ => decide (0 = t)) + (List.range 10).countP (fun b => decide ((if b % 2 = 0 then 1 else 2) = t)) := by
  unfold baselinesOf
  rw [exCalibrate_bls]
  simp only [exCalibrate_weight, zero_lt_one, decide_true, Bool.true_and]
  rfl

/-- The hypotheses of C273 are met: the data are calibrated to the model. -/
theorem exCalibrate_ok : ∃ fit, LeastSquaresFit fit ∧ ∃ r, calibrateAll (exCalibrate fit) ⟨false, false, true, false, true, false⟩ ⟨[0, 1, 2], [0, 1, 2]⟩ = .ok r ∧
    r.vis 1 2 8 = 12 ∧ r.vis 1 3 8 = 0 ∧ r.gain 0 1 2 = 2 ∧ ∀ p < 2, ∀ f ∈ [0, 1, 2], ∀ t ∈ [0, 1, 2], r.gain p f t = 2 := by
  obtain ⟨fit, hfit⟩ := exists_leastSquaresFit
  refine ⟨fit, hfit, ?_⟩
  obtain ⟨r, h1, -, h2⟩ := C273_model_data (exCalibrate fit) hfit rfl rfl (by simp [exCalibrate]) (by simp [exCalibrate])
    ⟨false, false, true, false, true, false⟩ rfl rfl rfl rfl rfl rfl rfl ⟨[0, 1, 2], [0, 1, 2]⟩ (by simp [exCalibrate]) 2 (by norm_num)
    (fun _ _ _ => by simp [exCalibrate])
    (fun p _ => by
      rw [exCalibrate_tiles, exCalibrate_freqs]
      refine ⟨by simp, by simp, ?_⟩
      unfold FlagsAgree
      rw [exCalibrate_bls]
      show ∀ b ∈ List.range 10, (0 < 3 ∧ true = true) ∧ (if b % 2 = 0 then 1 else 2) < 3 ∧ true = true
      decide)
    (fun p _ f _ b _ s _ _ => by simp only [exCalibrate]; norm_num)
    (fun p _ f _ t ht => by
      rw [exCalibrate_bls]
      rw [exCalibrate_tiles] at ht
      simp only [exCalibrate_weight, zero_lt_one, decide_true, Bool.true_and, true_and]
      refine ⟨?_, ?_⟩
      · rw [exCalibrate_number]
        revert t
        decide
      · have havg : ∀ b, (exCalibrate fit).run.average p (exCalibrate fit).run.model f b = ((p + f + b + 1 : ℕ) : ℂ) := by
          intro b
          unfold CalRunIn.average
          rw [exCalibrate_weight]
          simp [CalRunIn.samplesOf, CalRunIn.clip, exCalibrate, invR, weightInvertEntry, npRecip]
        have hex : ∃ b ∈ List.range 10, (0 = t ∨ (if b % 2 = 0 then 1 else 2) = t) := by
          revert t
          decide
        obtain ⟨b, hb, hbt⟩ := hex
        exact ⟨b, hb, hbt, by rw [havg]; exact Nat.cast_ne_zero.2 (Nat.succ_ne_zero _)⟩)
    (fun p _ f _ => by
      unfold NumbersDiffer
      rw [exCalibrate_tiles]
      exact ⟨0, by simp, 1, by simp, by rw [exCalibrate_number, exCalibrate_number]; decide⟩)
    (fun t ht => ⟨by revert t; simp [exCalibrate], rfl⟩)
    (fun s _ => by
      simp only [exCalibrate]
      refine ⟨by norm_num, ?_⟩
      split_ifs <;> norm_num)
    (by decide) (by simp [exCalibrate, degreeOr]) (by simp [exCalibrate, degreeOr]) (fun _ _ h => by cases h)
  have hA : (exCalibrate fit).run.tileA 8 = 0 ∧ (exCalibrate fit).run.tileB 8 = 1 := by simp [exCalibrate]
  obtain ⟨-, -, h3⟩ := h2 1 (by simp [exCalibrate])
  obtain ⟨h4, h5⟩ := h3 8 (by simp [exCalibrate]) (by rw [hA.1]; decide) (by rw [hA.2]; decide)
  refine ⟨r, h1, ?_, h5 3 (by decide), ?_, fun p hp f hf t ht => by rw [((h2 p hp).1 f hf t ht).1]; norm_num⟩
  · rw [h4 2 (by decide) (by simp only [exCalibrate]; norm_num)]
    simp only [exCalibrate]
    norm_num
  · rw [((h2 0 (by simp [exCalibrate])).1 1 (by decide) 2 (by decide)).1]
    norm_num

end PyFHD
