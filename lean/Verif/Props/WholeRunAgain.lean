import Verif.Props.WholeRunGains

/-!
# C320: a run on data that are calibrated already
-/

namespace PyFHD

open Spec

namespace Spec

/-- The run on the data that the run `R` has calibrated, with starting gains of one. -/
noncomputable def recalibrate (x : RunIn) (R : RunOut) : RunIn :=
  withInstrument x R.cal.vis { x.cal with run := { x.cal.run with gain := fun _ _ _ => 1 } } x.opts x.refl

end Spec

theorem recalibrate_fits (x : RunIn) (h : RunFits x) (R : RunOut) : RunFits (recalibrate x R) :=
  ⟨h.pols, h.freqs, h.samples, h.tileA, h.tileB, h.tiles, h.offsets, h.cast, h.gridFreqs, h.lengths⟩

/-- The tiles of a sample that nothing requires to be flagged are in use. -/
theorem tiles_in_use (x : RunIn) (h : RunFits x) (f s : ℕ) (hs : s < x.cal.run.nBl * x.cal.run.nTime) (hno : ¬ MustFlag x.obs x.uv f s) :
    x.cal.run.tileA s ∈ x.obs.inUse.tiles ∧ x.cal.run.tileB s ∈ x.obs.inUse.tiles := by
  obtain ⟨hA, hB⟩ := h.tiles s hs
  refine ⟨List.mem_filter.2 ⟨List.mem_range.2 hA, ?_⟩, List.mem_filter.2 ⟨List.mem_range.2 hB, ?_⟩⟩
  · by_contra hn
    refine hno (Or.inr (Or.inl ⟨_, ⟨_, hA, by simpa using hn, rfl⟩, Or.inl ?_⟩))
    rw [h.tileA, List.getElem?_map, List.getElem?_range hs]
    rfl
  · by_contra hn
    refine hno (Or.inr (Or.inl ⟨_, ⟨_, hB, by simpa using hn, rfl⟩, Or.inr ?_⟩))
    rw [h.tileB, List.getElem?_map, List.getElem?_range hs]
    rfl

/-- The calibrated data are the model at the samples that the run uses. -/
theorem recalibrate_data (x : RunIn) (h : RunFits x) (hf : x.opts.flag = false) (g : Gains) (s : SeenThrough x g) (R : RunOut)
    (hR : imagingRun x = .ok R) (p : ℕ) (hp : p < x.obs.nPol) (b : ℕ) (hb : b < x.cal.run.nBl * x.cal.run.nTime) (f : ℕ) (hfn : f < x.obs.nFreq)
    (hu : UsedSample x p f b) : R.cal.vis p f b = x.model p f b := by
  obtain ⟨u1, k1⟩ := run_exact x h g s.setup R hR
  obtain ⟨t1, t2⟩ := tiles_in_use x h f b hb hu.2
  have hfu : f ∈ x.obs.inUse.freqs := List.mem_filter.2 ⟨List.mem_range.2 hfn, by
    have : x.obs.freqUse f ≠ 0 := fun h0 => hu.2 (Or.inl h0)
    simpa using this⟩
  rw [← u1 hf] at t1 t2 hfu
  exact (k1 p hp).2 b hb t1 t2 f hfu _ (s.data p hp b hb f hu)

/-- Gains of one explain the calibrated data. -/
theorem recalibrate_setup (x : RunIn) (h : RunFits x) (hf : x.opts.flag = false) (g : Gains) (s : SeenThrough x g) (R : RunOut)
    (hR : imagingRun x = .ok R) (w : VwuResult) (hw : visWeightsUpdate x.obs x.uv x.weights = .ok w) :
    ExactSetup (recalibrate x R) w.weights fun _ _ _ => ((1 : ℝ) : ℂ) := by
  have e := s.setup w hw
  refine ⟨e.fit, e.mag, e.base, e.iter, e.bandpass, e.polyfit, e.noJump, e.noAutos, fun hf' => (by
    have hf' : x.opts.flag = true := hf'
    rw [hf] at hf'
    cases hf'), fun p hp => ?_, fun _ p _ f _ => ?_, fun p _ f _ t _ => ?_, fun p hp => ?_⟩
  · have hp : p < x.obs.nPol := hp
    have E := e.exact p hp
    refine ⟨E.tiles, E.freqs, E.flags, fun f _ t _ => ⟨?_, by norm_num⟩, fun f hfr b hbl s' hs' hpos => ?_, E.enough, E.differ⟩
    · show (1 : ℂ) = _
      norm_num
    · show R.cal.vis p f s' = ((1 : ℝ) : ℂ) * star ((1 : ℝ) : ℂ) * x.model p f s'
      rw [Complex.star_def, Complex.conj_ofReal]
      push_cast
      rw [one_mul, one_mul]
      have hb : b < (x.calIn w.weights).run.nB := List.mem_range.1 (List.mem_filter.1 hbl).1
      have hs : s' < x.cal.run.nBl * x.cal.run.nTime := samplesOf_lt (x.calIn w.weights).run b hb s' hs'
      have hfn : f < x.obs.nFreq := List.mem_range.1 (List.mem_filter.1 hfr).1
      have hpos : (0 : ℝ) < ((w.weights p f s' : ℚ) : ℝ) := hpos
      have hpos : 0 < w.weights p f s' := by exact_mod_cast hpos
      obtain ⟨a2, a3⟩ := update_weights x.obs x.uv x.weights h.tileA_ne h.tile_len h.offsets h.freqs w hw p f s' (by rw [h.nBl]; exact hs) hp hpos
      rw [a2] at hpos
      exact recalibrate_data x h hf g s R hR p hp s' hs f hfn ⟨hpos, a3⟩
  · rw [Complex.norm_real]; norm_num
  · show (1 : ℂ) = _
    norm_num
  · have S := e.smooth p hp
    exact constant_smooth ((recalibrate x R).calIn w.weights) x.opts e.noAutos.2.2 x.obs.inUse 1 one_pos p S.nodup S.amp S.phase S.cables

/-- **C320.** A run on data that a run has calibrated changes nothing: if the data of a run are the model seen through gains that its calibration finds
(and calibration does not flag), then the run on its calibrated data, with starting gains of one, succeeds, gives gains of one at all channels and tiles
in use, the same calibrated data at the samples in use, and the same weights, planes, images and HEALPix files. (The
model's flags of channels are a function of all numbers; `hfn` says that it marks no channels beyond those of the observation.) -/
theorem C320_again (x : RunIn) (h : RunFits x) (hf : x.opts.flag = false) (g : Gains) (s : SeenThrough x g)
    (hfn : ∀ f, x.obs.freqUse f ≠ 0 → f < x.obs.nFreq) (R : RunOut) (hR : imagingRun x = .ok R) :
    ∃ R', imagingRun (recalibrate x R) = .ok R' ∧
      (∀ p < x.obs.nPol, ∀ f ∈ x.obs.inUse.freqs, ∀ t ∈ x.obs.inUse.tiles, R'.cal.gain p f t = 1) ∧
      (∀ p < x.obs.nPol, ∀ b < x.cal.run.nBl * x.cal.run.nTime, ∀ f, UsedSample x p f b → R'.cal.vis p f b = R.cal.vis p f b) ∧
      R'.weights = R.weights ∧ R'.planes = R.planes ∧ R'.images = R.images ∧
      ∀ (e : ExportIn) (_ : ExportFits x e) (im : ℕ → ℕ → ℕ → ℚ) (q : FileIn) (nf : ℕ → ℕ),
        runFiles (recalibrate x R) { e with im := im } q R' nf = runFiles x e q R nf := by
  have hy := recalibrate_fits x h R
  have used : ∀ p f b, UsedSample x p f b → f < x.obs.nFreq := fun p f b hu => hfn f fun h0 => hu.2 (Or.inl h0)
  have s' : SeenThrough (recalibrate x R) fun _ _ _ => ((1 : ℝ) : ℂ) :=
    ⟨fun w hw => recalibrate_setup x h hf g s R hR w hw, fun p hp b hb f hu => by
      show R.cal.vis p f b = ((1 : ℝ) : ℂ) * star ((1 : ℝ) : ℂ) * x.model p f b
      rw [Complex.star_def, Complex.conj_ofReal]
      push_cast
      rw [one_mul, one_mul]
      exact recalibrate_data x h hf g s R hR p hp b hb f (used p f b hu) hu⟩
  obtain ⟨R', a1, a2, a3, a4, a5⟩ := C318_instrument x h _ _ _ _ hy hf hf g _ s s' R hR
  obtain ⟨u1, k1⟩ := run_exact _ hy _ s'.setup R' a1
  have u1 : R'.cal.inUse = x.obs.inUse := u1 hf
  refine ⟨R', a1, fun p hp f hfu t ht => ?_, fun p hp b hb f hu => ?_, a2, a3, a4, fun e he im q nf => (a5 e he im nf).2 q⟩
  · rw [← u1] at hfu ht
    rw [(k1 p hp).1 f hfu t ht]
    norm_num
  · rw [recalibrate_data x h hf g s R hR p hp b hb f (used p f b hu) hu]
    exact recalibrate_data (recalibrate x R) hy hf _ s' R' a1 p hp b hb f (used p f b hu) hu

/-- The hypotheses of C320 are met: data seen through gains of 2 are calibrated, and then again. -/
example : ∃ fit R R', imagingRun (exWholeRun fit) = .ok R ∧ R.cal.gain 0 0 0 = 2 ∧ imagingRun (recalibrate (exWholeRun fit) R) = .ok R' ∧
    R'.cal.gain 0 0 0 = 1 ∧ R'.images = R.images := by
  obtain ⟨fit, hfit⟩ := exists_leastSquaresFit
  obtain ⟨R, hR⟩ := exWholeRun_ok fit hfit
  have s := exWholeRun_seen fit hfit
  obtain ⟨u, k⟩ := run_exact _ (exWholeRun_fits fit) _ s.setup R hR
  have u : R.cal.inUse = (exWholeRun fit).obs.inUse := u rfl
  rw [exWholeRun_inUse] at u
  have k := (k 0 (by show 0 < 2; norm_num)).1 0 (by rw [u]; simp) 0 (by rw [u]; simp)
  obtain ⟨R', a1, a2, -, -, -, a3, -⟩ := C320_again _ (exWholeRun_fits fit) rfl _ s (fun f hf => by
    by_contra hn
    exact hf (by simp [exWholeRun, exAfter] at hn ⊢; omega)) R hR
  rw [exWholeRun_inUse] at a2
  exact ⟨fit, R, R', hR, by rw [k]; norm_num, a1, a2 0 (by show 0 < 2; norm_num) 0 (by simp) 0 (by simp), a3⟩

end PyFHD
