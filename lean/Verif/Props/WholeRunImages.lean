import Verif.Props.WholeRunMore

/-!
# C321: what the exported images of a run show
-/

namespace PyFHD

open Spec

namespace Spec

/-- The image of a plane `P` of polarisation `p`, with the filter `f`, the beam of the images and the normalisation by the plane `W` of the weights. -/
noncomputable def shownImage (q : QvIn) (p : ℕ) (P W : Plane ℂ) (f : Plane ℚ) (i j : ℕ) : ℝ :=
  (fourier q.n q.n (fun a b => P a b * (f a b : ℂ)) i j).re * pixelFactor (some q.degpix) * (if q.optimal then q.beam p i j else 1) *
    (1 / ((fourier q.n q.n (fun a b => W a b * (f a b : ℂ)) (q.n / 2) (q.n / 2)).re * pixelFactor (some q.degpix) *
      (if q.optimal then q.beam p (q.n / 2) (q.n / 2) else 1)) * q.beam p (q.n / 2) (q.n / 2) ^ 2 / (q.degpix * (Real.pi / 180)) ^ 2) *
    qvCorrection (q.beam p i j)

/-- A run exports, for polarisation `p`, a file of the kind `k` with the image `d`. -/
def HasImage (R : RunOut) (k : QvKind) (p : ℕ) (d : ℕ → ℕ → ℝ) : Prop :=
  ∃ e, (⟨k, R.images.polNames.getD p "", .plane e⟩ : QvFile) ∈ R.images.files ∧ ∀ i j, e i j = d i j

end Spec

/-- **C321.** The dirty and the model image that a run exports for a polarisation are those of the gridded planes of data and model of the same
polarisation, filtered with its weights and the counts of the first polarisation and normalised with its weights; the residual is their difference; the
exported weights are the filtered ones of every polarisation times the number of samples of the first polarisation with positive weight. -/
theorem C321_images (x : RunIn) (h : RunFits x) (hi : ImagesFit x) (R : RunOut) (hR : imagingRun x = .ok R) :
    ∃ o0 : VisGridOut ℂ × Plane ℂ, R.planes[0]? = some o0 ∧ ∀ p < x.obs.nPol, ∃ (o : VisGridOut ℂ × Plane ℂ) (f : Plane ℚ), R.planes[p]? = some o ∧
      (∀ a, (x.images o0.1.planes.uniform).uniform o.1.planes.weights a = .ok (fun i j => a i j * (f i j : ℂ), f)) ∧
      HasImage R .dirty p (shownImage (x.images o0.1.planes.uniform) p o.1.planes.image o.1.planes.weights f) ∧
      HasImage R .model p (shownImage (x.images o0.1.planes.uniform) p o.2 o.1.planes.weights f) ∧
      HasImage R .residual p (fun i j => shownImage (x.images o0.1.planes.uniform) p o.1.planes.image o.1.planes.weights f i j -
        shownImage (x.images o0.1.planes.uniform) p o.2 o.1.planes.weights f i j) ∧
      ∀ r < x.obs.nPol, ∃ c, (⟨.uvWeights, R.images.polNames.getD r "", .cube c⟩ : QvFile) ∈ R.images.files ∧
        ∀ i < (x.images o0.1.planes.uniform).n, ∀ j < (x.images o0.1.planes.uniform).n, c p i j = ‖o.1.planes.weights i j * (f i j : ℂ)‖ *
          (((allSamples x.obs).filter fun s => 0 < R.weights 0 s.1 s.2).card : ℝ) := by
  obtain ⟨w1, w2, -, -, h3, h4, h5, h6⟩ := (run_stages x R).1 hR
  obtain ⟨g1, g2⟩ := mapM_range_ok _ _ _ h5
  have g2 : ∀ p < x.obs.nPol, ∃ o, R.planes[p]? = some o := by
    intro p hp
    obtain ⟨o, a1, -⟩ := g2 p (by rw [List.length_range]; exact hp)
    exact ⟨o, a1⟩
  have hn : w2.nVis = ((allSamples x.obs).filter fun s => 0 < R.weights 0 s.1 s.2).card := by
    obtain ⟨r, k1, -, k3⟩ := visWeightsUpdate_spec (x.obs.restrict R.cal.inUse) x.uv w1.weights h.tileA_ne h.tile_len
      ⟨h.offsets.1, h.offsets.2, h.offsets.3⟩ h.freqs
    rw [h3] at k1
    cases k1
    rw [← h4]
    exact k3 h.pols.1
  obtain ⟨o0, e0⟩ := g2 0 h.pols.1
  refine ⟨o0, e0, fun p hp => ?_⟩
  obtain ⟨o, e⟩ := g2 p hp
  set q := x.quickIn w2.nVis R.planes with hq
  set u := o0.1.planes.uniform with hu
  have hqi : q = { x.images u with nPol := x.obs.nPol, nVis := w2.nVis, imageUv := q.imageUv, weightsUv := q.weightsUv, modelUv := q.modelUv } := by
    rw [hq]
    unfold RunIn.quickIn
    rw [e0]
    rfl
  have c1 : q.n = (x.images u).n := by rw [hqi]
  have c2 : q.pad = (x.images u).pad := by rw [hqi]
  have c3 : q.uniform = (x.images u).uniform := by rw [hqi]
  have c4 : q.degpix = (x.images u).degpix := by rw [hqi]; rfl
  have c5 : q.optimal = (x.images u).optimal := by rw [hqi]
  have c6 : q.beam = (x.images u).beam := by rw [hqi]
  have i1 : q.imageUv p = o.1.planes.image := by
    show ((R.planes[p]?).map fun g : VisGridOut ℂ × Plane ℂ => g.1.planes.image).getD _ = _
    rw [e]; rfl
  have i2 : q.weightsUv p = o.1.planes.weights := by
    show ((R.planes[p]?).map fun g : VisGridOut ℂ × Plane ℂ => g.1.planes.weights).getD _ = _
    rw [e]; rfl
  have i3 : q.modelUv p = o.2 := by
    show ((R.planes[p]?).map fun g : VisGridOut ℂ × Plane ℂ => g.2).getD _ = _
    rw [e]; rfl
  have hfil : Spec.Filter q fun p => (hi.filter u (q.weightsUv p)).choose := fun p a => by
    rw [c3]
    exact (hi.filter u (q.weightsUv p)).choose_spec a
  obtain ⟨F, hF⟩ : ∃ F, F = fun p => (hi.filter u (q.weightsUv p)).choose := ⟨_, rfl⟩
  rw [← hF] at hfil
  have h4' : ¬ 4 ≤ q.nPol := by
    have := h.pols.2
    show ¬ 4 ≤ x.obs.nPol
    omega
  obtain ⟨r, r1, r2, r3, r4, r5⟩ := qvPol_ok q (by rw [c1]; exact (hi.size u).1) (by rw [c1]; exact (hi.size u).2) (c2.trans (hi.pad u)) F hfil p
  obtain ⟨P, p1, p2, p3, p4⟩ := quickview_files q R.images h6
  have er : P p = r := by
    have := p1 p hp
    rw [r1] at this
    exact (Except.ok.inj this).symm
  obtain ⟨f1, f2, f3, f4⟩ := p4 p hp
  rw [i1, c1, c4, c5, c6] at r2
  rw [i3, c1, c4, c5, c6] at r3
  rw [i2, c1, c4, c5, c6] at r4
  refine ⟨o, F p, e, fun a => ?_, ⟨_, f1, fun i j => ?_⟩, ⟨_, f2, fun i j => ?_⟩, ⟨_, f3, fun i j => ?_⟩, fun r' hr' => ⟨_, (p4 r' hr').2.2.2, fun i hi' j hj => ?_⟩⟩
  · have := hfil p a
    rw [c3, i2] at this
    exact this
  · simp only [if_neg h4', er, r2, r4, c6, shownImage]
  · simp only [if_neg h4', er, r3, r4, c6, shownImage]
  · simp only [if_neg h4', er, r2, r3, r4, c6, shownImage, sub_mul]
  · have hw := (p2 p hp).2.2
    rw [if_neg h4', er] at hw
    have := (r5 i (by rw [c1]; exact hi') j (by rw [c1]; exact hj)).2.2
    simp only [hw, this, i2]
    rw [← hn]
    rfl

/-- **C321**, the planes: they are those of `visibility_grid` for the calibrated data and for the model, with the weights after the run, the channels that
are in use after the calibration, and the samples that have a positive weight at some channel; the samples are gridded with their conjugates for both
polarisations. -/
theorem C321_planes (x : RunIn) (h : RunFits x) (R : RunOut) (hR : imagingRun x = .ok R) (p : ℕ) (hp : p < x.obs.nPol) (w : ℕ → ℕ → ℚ)
    (hw : w = fun f b => if b < x.obs.nBl then R.weights p f b else 0) (g : (ℕ → ℕ → ℂ) → VisGridIn ℂ)
    (hg : g = fun v => { x.grid p with fiUse := (List.range x.obs.nFreq).filter fun f => f ∈ R.cal.inUse.freqs ∧ x.obs.freqUse f ≠ 0,
                                       biUse := defaultBiUse x.obs.nFreq x.obs.nBl w, weight := w, fill := false, vis := v, noConjugate := false }) :
    ∃ o : VisGridOut ℂ × Plane ℂ, R.planes[p]? = some o ∧ visibilityGrid (g (R.cal.vis p)) = .ok (some o.1) ∧
      ∃ m, visibilityGrid (g (x.model p)) = .ok (some m) ∧ m.planes.image = o.2 := by
  obtain ⟨w1, w2, -, -, -, h4, h5, -⟩ := (run_stages x R).1 hR
  obtain ⟨g1, g2⟩ := mapM_range_ok _ _ _ h5
  obtain ⟨o, a1, a2⟩ := g2 p (by rw [List.length_range]; exact hp)
  rw [List.getElem_range, h4] at a2
  have hno : decide (1 < p) = false := by
    have := h.pols.2
    exact decide_eq_false (by omega)
  have hgi : ∀ v : ℕ → ℕ → ℂ, ({ x.gridIn (x.obs.restrict R.cal.inUse) R.cal.vis R.weights p with vis := v } : VisGridIn ℂ) = g v := by
    intro v
    have hfi : (x.obs.restrict R.cal.inUse).inUse.freqs = (List.range x.obs.nFreq).filter fun f => f ∈ R.cal.inUse.freqs ∧ x.obs.freqUse f ≠ 0 := by
      show (List.range x.obs.nFreq).filter (fun f => decide ((if f ∈ R.cal.inUse.freqs then x.obs.freqUse f else 0) ≠ 0)) = _
      refine List.filter_congr fun f _ => ?_
      by_cases hf : f ∈ R.cal.inUse.freqs <;> simp [hf]
    rw [hg, hw]
    simp only [RunIn.gridIn, hno, hfi]
    rfl
  unfold RunIn.gridded at a2
  obtain ⟨k1, k2⟩ := C118_model_plane (x.gridIn (x.obs.restrict R.cal.inUse) R.cal.vis R.weights p) ⟨some (x.model p), false, false⟩ rfl
    (fun hh => by cases hh)
  have k3 := k2 (x.model p) rfl
  cases hv : visGridOpts (x.gridIn (x.obs.restrict R.cal.inUse) R.cal.vis R.weights p) ⟨some (x.model p), false, false⟩ with
  | error e => rw [hv] at a2; cases a2
  | ok ob =>
    cases ob with
    | none => rw [hv] at a2; cases a2
    | some out =>
      rw [hv] at a2 k1 k3
      have a2 := Except.ok.inj a2
      have e1 : visibilityGrid (x.gridIn (x.obs.restrict R.cal.inUse) R.cal.vis R.weights p) = .ok (some out.out) := k1.symm
      have e2 : (visibilityGrid { x.gridIn (x.obs.restrict R.cal.inUse) R.cal.vis R.weights p with vis := x.model p }).map
        (·.map fun r => r.planes.image) = .ok (some out.model) := k3.symm
      rw [hgi] at e2
      refine ⟨o, a1, ?_, ?_⟩
      · rw [← hgi, ← a2]
        exact e1
      · cases hm : visibilityGrid (g (x.model p)) with
        | error e => rw [hm] at e2; cases e2
        | ok mb =>
          cases mb with
          | none => rw [hm] at e2; cases e2
          | some m =>
            rw [hm] at e2
            refine ⟨m, rfl, ?_⟩
            rw [← a2]
            exact Option.some.inj (Except.ok.inj e2)

/-- The hypotheses of C321 are met by the run of Props/WholeRunMore, which has two polarisations. -/
example : ∃ fit R o0 o1 f, imagingRun (exWholeRun fit) = .ok R ∧ R.planes[0]? = some o0 ∧ R.planes[1]? = some o1 ∧
    HasImage R .dirty 1 (shownImage ((exWholeRun fit).images o0.1.planes.uniform) 1 o1.1.planes.image o1.1.planes.weights f) := by
  obtain ⟨fit, hfit⟩ := exists_leastSquaresFit
  obtain ⟨R, hR⟩ := exWholeRun_ok fit hfit
  obtain ⟨o0, a0, a⟩ := C321_images _ (exWholeRun_fits fit) (exWholeRun_images fit) R hR
  obtain ⟨o1, f, b1, -, b2, -⟩ := a 1 (by show 1 < 2; norm_num)
  exact ⟨fit, R, o0, o1, f, hR, a0, b1, b2⟩

end PyFHD
