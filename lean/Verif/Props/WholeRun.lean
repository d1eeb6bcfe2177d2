import Verif.Model.WholeRun
import Verif.Props.CalibrateReflRelations
import Verif.Props.NoResidual

/-!
# C294-C296: from the visibilities to the images
-/

namespace PyFHD

open Spec

namespace Spec

/-- The parts of a run fit together: one or two polarisations, samples and tiles that the observation and the calibration agree about, integrations
one after the other, and what gridding needs (frequencies, lengths that are not negative). -/
structure RunFits (x : RunIn) : Prop where
  pols : 1 ≤ x.obs.nPol ∧ x.obs.nPol ≤ 2
  freqs : 0 < x.obs.nFreq
  samples : 0 < x.cal.run.nBl * x.cal.run.nTime
  tileA : x.obs.tileA = (List.range (x.cal.run.nBl * x.cal.run.nTime)).map fun s => (x.cal.run.tileA s : ℤ) + 1
  tileB : x.obs.tileB = (List.range (x.cal.run.nBl * x.cal.run.nTime)).map fun s => (x.cal.run.tileB s : ℤ) + 1
  tiles : ∀ s < x.cal.run.nBl * x.cal.run.nTime, x.cal.run.tileA s < x.obs.nTile ∧ x.cal.run.tileB s < x.obs.nTile
  offsets : GoodOffsets x.obs x.obs.nBl
  cast : x.cal.run.cast = fun r : ℝ => (r : ℂ)
  gridFreqs : ∀ p, (x.grid p).freqAll ≠ []
  lengths : ∀ p b, 0 ≤ blLength (x.grid p).toGridIn b

/-- The same run with other data and another model. -/
def withSky (x : RunIn) (v m : ℕ → ℕ → ℕ → ℂ) : RunIn := { x with vis := v, model := m }

/-- A sample that the run uses: it has positive weight in the input and nothing requires that it is flagged. -/
def UsedSample (x : RunIn) (p f b : ℕ) : Prop := 0 < x.weights p f b ∧ ¬ MustFlag x.obs x.uv f b

/-- Two runs with the same gains, flags, statistics, weights, planes and images. -/
def SameRun (R R' : RunOut) : Prop :=
  SameSolution R.cal R'.cal ∧ R'.weights = R.weights ∧ R'.planes = R.planes ∧ R'.images = R.images

end Spec

theorem Spec.RunFits.nBl {x : RunIn} (h : RunFits x) : x.obs.nBl = x.cal.run.nBl * x.cal.run.nTime := by
  unfold FlagObs.nBl
  rw [h.tileA]
  simp

theorem samplesOf_lt (c : CalRunIn ℂ ℝ) (b : ℕ) (hb : b < c.nB) (s : ℕ) (hs : s ∈ c.samplesOf b) : s < c.nBl * c.nTime := by
  unfold CalRunIn.samplesOf at hs
  unfold CalRunIn.nB at hb
  split_ifs at hs hb with h
  · obtain ⟨t, ht, rfl⟩ := List.mem_map.1 hs
    have ht := List.mem_range.1 ht
    have : (t + 1) * c.nBl ≤ c.nTime * c.nBl := Nat.mul_le_mul_right _ ht
    rw [Nat.add_mul, one_mul, Nat.mul_comm c.nTime] at this
    omega
  · rw [List.mem_singleton] at hs
    omega

/-- The weights after the update: those of samples in use, or zero. -/
theorem update_weights (fo : FlagObs) (q : UvParams) (w : Weights) (h0 : fo.tileA ≠ []) (hl : fo.tileB.length = fo.tileA.length)
    (ho : GoodOffsets fo fo.nBl) (hf : 0 < fo.nFreq) (r : VwuResult) (hr : visWeightsUpdate fo q w = .ok r) (p f b : ℕ) (hb : b < fo.nBl)
    (hp : p < fo.nPol) (hpos : 0 < r.weights p f b) : r.weights p f b = w p f b ∧ ¬ MustFlag fo q f b := by
  obtain ⟨r', h1, h2⟩ := C16_update_never_unflags fo q w h0 hl ho hf
  rw [hr] at h1
  injection h1 with h1
  subst h1
  obtain ⟨h3, h4⟩ := h2 p f b hb
  refine ⟨?_, fun hm => ?_⟩
  · rcases h3 with h | h
    · exact h
    · rw [h] at hpos; exact absurd hpos (lt_irrefl _)
  · rw [h4 hp hm] at hpos
    exact lt_irrefl _ hpos

theorem Spec.RunFits.tileA_ne {x : RunIn} (h : RunFits x) : x.obs.tileA ≠ [] := by
  rw [h.tileA]
  intro e
  have := congrArg List.length e
  simp only [List.length_map, List.length_range, List.length_nil] at this
  have := h.samples
  omega

theorem Spec.RunFits.tile_len {x : RunIn} (h : RunFits x) : x.obs.tileB.length = x.obs.tileA.length := by
  rw [h.tileA, h.tileB]
  simp

/-- The gridding of a polarisation with data `v1` and model `m1` is made of two griddings with the same weights. -/
theorem gridded_eq (x : RunIn) (fo : FlagObs) (v : ℕ → ℕ → ℕ → ℂ) (w : Weights) (p : ℕ) (v1 m1 : ℕ → ℕ → ℕ → ℂ) :
    ({ x with model := m1 } : RunIn).gridded fo v1 w p =
      match visibilityGrid (withVis (x.gridIn fo v w p) (v1 p)), visibilityGrid (withVis (x.gridIn fo v w p) (m1 p)) with
      | .error e, _ => .error e
      | .ok none, _ => .error .systemExit
      | .ok (some o), .ok (some o') => .ok (o, o'.planes.image)
      | .ok (some _), _ => .error .systemExit := by
  obtain ⟨a1, a2⟩ := C118_model_plane (withVis (x.gridIn fo v w p) (v1 p)) ⟨some (m1 p), false, false⟩ rfl (fun e => by cases e)
  have a3 : (visGridOpts (withVis (x.gridIn fo v w p) (v1 p)) ⟨some (m1 p), false, false⟩).map (·.map fun r => r.model) =
    (visibilityGrid (withVis (x.gridIn fo v w p) (m1 p))).map (·.map fun r => r.planes.image) := a2 (m1 p) rfl
  unfold RunIn.gridded
  change (match visGridOpts (withVis (x.gridIn fo v w p) (v1 p)) ⟨some (m1 p), false, false⟩ with
    | .error e => Except.error e
    | .ok none => Except.error PyErr.systemExit
    | .ok (some o) => Except.ok (o.out, o.model)) = _
  rw [← a1]
  cases h1 : visGridOpts (withVis (x.gridIn fo v w p) (v1 p)) ⟨some (m1 p), false, false⟩ with
  | error e => rfl
  | ok ob =>
    rw [h1] at a3
    cases ob with
    | none => rfl
    | some o =>
      cases h2 : visibilityGrid (withVis (x.gridIn fo v w p) (m1 p)) with
      | error e => rw [h2] at a3; cases a3
      | ok ob' =>
        rw [h2] at a3
        cases ob' with
        | none => cases a3
        | some o' =>
          injection a3 with a3
          injection a3 with a3
          have a4 : o.model = o'.planes.image := a3
          simp only [Except.map, Option.map_some]
          rw [← a4]

/-- The gridding of a polarisation does not depend on data and model of samples without weight. -/
theorem gridded_same (x : RunIn) (h : RunFits x) (v v' m' : ℕ → ℕ → ℕ → ℂ) (fo : FlagObs) (w : Weights) (p : ℕ)
    (hv : ∀ f b, b < fo.nBl → 0 < w p f b → v' p f b = v p f b ∧ m' p f b = x.model p f b) :
    ({ x with model := m' } : RunIn).gridded fo v' w p = x.gridded fo v w p := by
  have hc : ∀ (u u' : ℕ → ℕ → ℂ), (∀ f b, b < fo.nBl → 0 < w p f b → u f b = u' f b) →
      visibilityGrid (withVis (x.gridIn fo v w p) u) = visibilityGrid (withVis (x.gridIn fo v w p) u') := by
    intro u u' huu
    refine C192_flagged (x.gridIn fo v w p) (h.gridFreqs p) (h.lengths p) rfl u u' fun f b hpos => ?_
    change 0 < (if b < fo.nBl then w p f b else 0) at hpos
    split_ifs at hpos with hb
    · exact huu f b hb hpos
    · exact absurd hpos (lt_irrefl _)
  rw [gridded_eq x fo v w p v' m', show x.gridded fo v w p = ({ x with model := x.model } : RunIn).gridded fo v w p from rfl,
    gridded_eq x fo v w p v x.model, hc _ _ fun f b hb hp => (hv f b hb hp).1, hc _ _ fun f b hb hp => (hv f b hb hp).2]

/-- The stages of a run that ends well. -/
theorem run_stages (x : RunIn) (R : RunOut) : imagingRun x = .ok R ↔ ∃ w1 w2,
    visWeightsUpdate x.obs x.uv x.weights = .ok w1 ∧ x.calibrated w1.weights = .ok R.cal ∧
    visWeightsUpdate (x.obs.restrict R.cal.inUse) x.uv w1.weights = .ok w2 ∧ w2.weights = R.weights ∧
    (List.range x.obs.nPol).mapM (x.gridded (x.obs.restrict R.cal.inUse) R.cal.vis w2.weights) = .ok R.planes ∧
    quickview (x.quickIn w2.nVis R.planes) = .ok R.images := by
  constructor
  · intro h
    unfold imagingRun at h
    simp only [bind, Except.bind, pure, Except.pure] at h
    cases h1 : visWeightsUpdate x.obs x.uv x.weights with
    | error e => rw [h1] at h; cases h
    | ok w1 =>
      rw [h1] at h
      simp only at h
      cases h2 : x.calibrated w1.weights with
      | error e => rw [h2] at h; cases h
      | ok r =>
        rw [h2] at h
        simp only at h
        cases h3 : visWeightsUpdate (x.obs.restrict r.inUse) x.uv w1.weights with
        | error e => rw [h3] at h; cases h
        | ok w2 =>
          rw [h3] at h
          simp only at h
          cases h4 : (List.range x.obs.nPol).mapM (x.gridded (x.obs.restrict r.inUse) r.vis w2.weights) with
          | error e => rw [h4] at h; cases h
          | ok gs =>
            rw [h4] at h
            simp only at h
            cases h5 : quickview (x.quickIn w2.nVis gs) with
            | error e => rw [h5] at h; cases h
            | ok q =>
              rw [h5] at h
              cases h
              exact ⟨w1, w2, rfl, h2, h3, rfl, h4, h5⟩
  · rintro ⟨w1, w2, h1, h2, h3, h4, h5, h6⟩
    unfold imagingRun
    simp only [bind, Except.bind, pure, Except.pure, h1, h2, h3, h5, h6]
    rw [h4]

/-- Data and model at samples that are not used have no influence on the calibration of a run. -/
theorem calibrated_same (x : RunIn) (h : RunFits x) (v m : ℕ → ℕ → ℕ → ℂ) (w1 : VwuResult)
    (hpos : ∀ p < x.obs.nPol, ∀ f b, b < x.obs.nBl → 0 < w1.weights p f b → v p f b = x.vis p f b ∧ m p f b = x.model p f b)
    (r : CalibrateOut) (h2 : x.calibrated w1.weights = .ok r) :
    ∃ r', (withSky x v m).calibrated w1.weights = .ok r' ∧ SameSolution r r' ∧
      ∀ p < x.obs.nPol, ∀ f, ∀ s < x.cal.run.nBl * x.cal.run.nTime, v p f s = x.vis p f s → r'.vis p f s = r.vis p f s := by
  have hign : ∀ p < (x.calIn w1.weights).run.nPol, ∀ f < (x.calIn w1.weights).run.nFreq, ∀ b < (x.calIn w1.weights).run.nB,
      ∀ s ∈ (x.calIn w1.weights).run.samplesOf b, (x.calIn w1.weights).run.isCut f b = true ∨
      (fun p f s => ((w1.weights p f s : ℚ) : ℝ)) p f s = (x.calIn w1.weights).run.weight p f s ∧ ((x.calIn w1.weights).run.weight p f s ≤ 0 ∨
        (x.calIn w1.weights).run.freqUse f = false ∨ v p f s = (x.calIn w1.weights).run.vis p f s ∧
          m p f s = (x.calIn w1.weights).run.model p f s) := by
    intro p hp f _ b hb s hs
    refine Or.inr ⟨rfl, ?_⟩
    by_cases hw : 0 < w1.weights p f s
    · exact Or.inr (Or.inr (hpos p hp f s (by rw [h.nBl]; exact samplesOf_lt _ b hb s hs) hw))
    · left
      change ((w1.weights p f s : ℚ) : ℝ) ≤ 0
      exact_mod_cast not_lt.1 hw
  have hcast : (x.calIn w1.weights).run.cast 0 = 0 := by
    change x.cal.run.cast 0 = 0
    rw [h.cast]
    simp
  unfold RunIn.calibrated at h2 ⊢
  change ∃ r', (match x.refl with
    | none => calibrateAll ((withSky x v m).calIn w1.weights) x.opts x.obs.inUse
    | some q => calibrateRefl ((withSky x v m).calIn w1.weights) x.opts q x.obs.inUse) = .ok r' ∧ _
  cases hq : x.refl with
  | none =>
    rw [hq] at h2
    exact C274_unused (x.calIn w1.weights) hcast v m _ hign h.pols h.tiles x.opts x.obs.inUse r h2
  | some q =>
    rw [hq] at h2
    exact C290_unused (x.calIn w1.weights) hcast v m _ hign h.pols h.tiles x.opts q x.obs.inUse r h2

/-- **C294.** Data and model of samples that are flagged in the input, or have to be flagged, have no influence on anything that a run gives: the
gains, flags and statistics of the calibration, the weights, the planes of all polarisations and the exported images are the same. -/
theorem C294_flagged (x : RunIn) (h : RunFits x) (v m : ℕ → ℕ → ℕ → ℂ)
    (hvm : ∀ p < x.obs.nPol, ∀ f b, b < x.obs.nBl → UsedSample x p f b → v p f b = x.vis p f b ∧ m p f b = x.model p f b)
    (R : RunOut) (hR : imagingRun x = .ok R) : ∃ R', imagingRun (withSky x v m) = .ok R' ∧ SameRun R R' := by
  obtain ⟨w1, w2, h1, h2, h3, h4, h5, h6⟩ := (run_stages x R).1 hR
  have hpos : ∀ p < x.obs.nPol, ∀ f b, b < x.obs.nBl → 0 < w1.weights p f b → v p f b = x.vis p f b ∧ m p f b = x.model p f b := by
    intro p hp f b hb hw
    obtain ⟨e1, e2⟩ := update_weights x.obs x.uv x.weights h.tileA_ne h.tile_len h.offsets h.freqs w1 h1 p f b hb hp hw
    exact hvm p hp f b hb ⟨e1 ▸ hw, e2⟩
  have hcal := calibrated_same x h v m w1 hpos R.cal h2
  obtain ⟨r', e1, e2, e3⟩ := hcal
  refine ⟨⟨r', R.weights, R.planes, R.images⟩, (run_stages _ _).2 ⟨w1, w2, h1, e1, ?_, h4, ?_, h6⟩, e2, rfl, rfl, rfl⟩
  · show visWeightsUpdate (x.obs.restrict r'.inUse) x.uv w1.weights = .ok w2
    rw [e2.2.2.1]
    exact h3
  · show (List.range x.obs.nPol).mapM ((withSky x v m).gridded (x.obs.restrict r'.inUse) r'.vis w2.weights) = .ok R.planes
    rw [e2.2.2.1, ← h5]
    refine mapM_congr_mem _ _ _ fun p hp => ?_
    have hp := List.mem_range.1 hp
    refine gridded_same x h R.cal.vis r'.vis m (x.obs.restrict R.cal.inUse) w2.weights p fun f b hb hw => ?_
    have hb' : b < x.obs.nBl := hb
    obtain ⟨a1, -⟩ := update_weights (x.obs.restrict R.cal.inUse) x.uv w1.weights h.tileA_ne h.tile_len
      ⟨h.offsets.1, h.offsets.2, h.offsets.3⟩ h.freqs w2 h3 p f b hb hp hw
    rw [a1] at hw
    obtain ⟨b1, b2⟩ := hpos p hp f b hb' hw
    exact ⟨e3 p hp f b (by rw [← h.nBl]; exact hb') b1, b2⟩

/-! ## Units -/

namespace Spec

/-- The planes of a polarisation in other units: those of data and model are multiplied by `k`, the others are the same. -/
def PlanesScaled (k : ℝ) (o o' : VisGridOut ℂ × Plane ℂ) : Prop :=
  (∀ i j, o'.1.planes.image i j = k * o.1.planes.image i j) ∧ (∀ i j, o'.2 i j = k * o.2 i j) ∧
    o'.1.planes.weights = o.1.planes.weights ∧ o'.1.planes.variance = o.1.planes.variance ∧ o'.1.planes.uniform = o.1.planes.uniform ∧
    o'.1.nVis = o.1.nVis ∧ o'.1.nfVis = o.1.nfVis

/-- A file in other units: the pixels of the images of data, model and residual are multiplied by `k`, the image of the beam is the same, and the
weights of the `n` by `n` cells are the same. -/
def FileScaled (k : ℝ) (nPol n : ℕ) (a b : QvFile) : Prop :=
  b.kind = a.kind ∧ b.name = a.name ∧
    match a.kind, a.data, b.data with
    | .beam, .plane d, .plane d' => d' = d
    | .uvWeights, .cube d, .cube d' => ∀ p < nPol, ∀ i < n, ∀ j < n, d' p i j = d p i j
    | .uvWeights, _, _ => False
    | _, .plane d, .plane d' => ∀ i j, d' i j = k * d i j
    | _, _, _ => False

/-- What the images need: a size that is even and not zero, no padding, and a filter that multiplies the plane with factors that depend on counts and
weights only. -/
structure ImagesFit (x : RunIn) : Prop where
  size : ∀ u, 0 < (x.images u).n ∧ (x.images u).n % 2 = 0
  pad : ∀ u, (x.images u).pad = 1
  filter : ∀ u W, ∃ g : Plane ℚ, ∀ a, (x.images u).uniform W a = .ok (fun i j => a i j * (g i j : ℂ), g)

end Spec

theorem fourier_scaled (k : ℝ) (n m : ℕ) (f : Plane ℂ) (i j : ℕ) :
    (Spec.fourier n m (fun a b => k * f a b) i j).re = k * (Spec.fourier n m f i j).re := by
  have : Spec.fourier n m (fun a b => k * f a b) i j = k * Spec.fourier n m f i j := by
    unfold Spec.fourier
    rw [← mul_div_assoc, Finset.mul_sum]
    refine congrArg (· / _) (Finset.sum_congr rfl fun a _ => ?_)
    rw [Finset.mul_sum]
    exact Finset.sum_congr rfl fun b _ => mul_assoc _ _ _
  rw [this, Complex.re_ofReal_mul]

theorem gridded_scaled (x : RunIn) (k : ℝ) (fo : FlagObs) (v v' : ℕ → ℕ → ℕ → ℂ) (w : Weights) (p : ℕ) (hres : 0 < (x.grid p).res)
    (hv : ∀ f b, b < fo.nBl → v' p f b = k * v p f b) (hl : (x.grid p).freqAll ≠ []) (hlen : ∀ b, 0 ≤ blLength (x.grid p).toGridIn b)
    (o : VisGridOut ℂ × Plane ℂ) (ho : x.gridded fo v w p = .ok o) :
    ∃ o', ({ x with model := fun p f b => k * x.model p f b } : RunIn).gridded fo v' w p = .ok o' ∧ PlanesScaled k o o' := by
  have hone : ∀ u : ℕ → ℕ → ℂ, ∀ o1, visibilityGrid (withVis (x.gridIn fo v w p) u) = .ok (some o1) → ∀ u' : ℕ → ℕ → ℂ,
      (∀ f b, b < fo.nBl → u' f b = k * u f b) → ∃ o2, visibilityGrid (withVis (x.gridIn fo v w p) u') = .ok (some o2) ∧
      (∀ i j, o2.planes.image i j = k * o1.planes.image i j) ∧ o2.planes.weights = o1.planes.weights ∧
        o2.planes.variance = o1.planes.variance ∧ o2.planes.uniform = o1.planes.uniform ∧ o2.nVis = o1.nVis ∧ o2.nfVis = o1.nfVis := by
    intro u o1 h1 u' hu
    obtain ⟨o2, a1, a2⟩ := C190_linear (x.gridIn fo v w p) hres u u (k : ℂ) 0 (Complex.conj_ofReal k) (star_zero _) o1 o1 h1 h1
    have e : visibilityGrid (withVis (x.gridIn fo v w p) u') =
        visibilityGrid (withVis (x.gridIn fo v w p) fun f s => (k : ℂ) * u f s + 0 * u f s) := by
      refine C192_flagged (x.gridIn fo v w p) hl hlen rfl _ _ fun f b hpos => ?_
      change 0 < (if b < fo.nBl then w p f b else 0) at hpos
      split_ifs at hpos with hb
      · rw [hu f b hb, zero_mul, add_zero]
      · exact absurd hpos (lt_irrefl _)
    obtain ⟨o3, b1, b2⟩ := C191_weights (x.gridIn fo v w p) hres u u' o1 h1
    have : o3 = o2 := by
      rw [e, a1] at b1
      injection b1 with b1
      injection b1 with b1
      exact b1.symm
    subst this
    refine ⟨o3, b1, fun i j => ?_, b2⟩
    rw [a2, zero_mul, add_zero]
  rw [show x.gridded fo v w p = ({ x with model := x.model } : RunIn).gridded fo v w p from rfl, gridded_eq x fo v w p v x.model] at ho
  rw [gridded_eq x fo v w p v' fun p f b => k * x.model p f b]
  cases h1 : visibilityGrid (withVis (x.gridIn fo v w p) (v p)) with
  | error e => rw [h1] at ho; cases ho
  | ok ob =>
    rw [h1] at ho
    cases ob with
    | none => cases ho
    | some o1 =>
      cases h2 : visibilityGrid (withVis (x.gridIn fo v w p) (x.model p)) with
      | error e => rw [h2] at ho; cases ho
      | ok ob' =>
        rw [h2] at ho
        cases ob' with
        | none => cases ho
        | some o2 =>
          simp only [Except.ok.injEq] at ho
          subst ho
          obtain ⟨o1', c1, c2, c3⟩ := hone _ o1 h1 (v' p) hv
          obtain ⟨o2', d1, d2, -⟩ := hone _ o2 h2 (fun f b => k * x.model p f b) fun f b _ => rfl
          rw [c1, d1]
          exact ⟨_, rfl, c2, d2, c3⟩

theorem forall₂_flatMap {α β γ : Type} (S : β → γ → Prop) (F : α → List β) (G : α → List γ) : ∀ l : List α,
    (∀ a ∈ l, List.Forall₂ S (F a) (G a)) → List.Forall₂ S (l.flatMap F) (l.flatMap G)
  | [], _ => by simp
  | a :: l, h => by
    rw [List.flatMap_cons, List.flatMap_cons]
    exact List.rel_append (h a (by simp)) (forall₂_flatMap S F G l fun b hb => h b (by simp [hb]))

/-- The images in other units. -/
theorem quickview_scaled (q q' : QvIn) (k : ℝ) (hn : 0 < q.n) (hn2 : q.n % 2 = 0) (hpad : q.pad = 1) (hp : q.nPol < 4) (g : ℕ → Plane ℚ)
    (hg : Spec.Filter q g) (hW : ∀ p, q'.weightsUv p = q.weightsUv p)
    (hI : ∀ p < q.nPol, ∀ i j, q'.imageUv p i j = k * q.imageUv p i j) (hM : ∀ p < q.nPol, ∀ i j, q'.modelUv p i j = k * q.modelUv p i j)
    (hrest : { q' with imageUv := q.imageUv, modelUv := q.modelUv, weightsUv := q.weightsUv } = q) (out : QvOut) (h : quickview q = .ok out) :
    ∃ out', quickview q' = .ok out' ∧ List.Forall₂ (FileScaled k q.nPol q.n) out.files out'.files := by
  obtain ⟨nPol, n, pad, kpix, nVis, optimal, polNames, I, M, W, uniform, beam⟩ := q
  obtain ⟨nPol', n', pad', kpix', nVis', optimal', polNames', I', M', W', uniform', beam'⟩ := q'
  simp only [QvIn.mk.injEq, true_and, and_true] at hrest
  obtain ⟨rfl, rfl, rfl, rfl, rfl, rfl, rfl, rfl, rfl⟩ := hrest
  obtain rfl : W' = W := funext hW
  set q : QvIn := ⟨nPol', n', pad', kpix', nVis', optimal', polNames', I, M, W', uniform', beam'⟩ with hq
  set q' : QvIn := ⟨nPol', n', pad', kpix', nVis', optimal', polNames', I', M', W', uniform', beam'⟩ with hq'
  have hg' : Spec.Filter q' g := hg
  obtain ⟨out', h'⟩ := quickview_ok q' hn hn2 hpad g hg'
  refine ⟨out', h', ?_⟩
  obtain ⟨S, s1, s2, s3, s4⟩ := quickview_pols q out h
  obtain ⟨S', t1, t2, t3, t4⟩ := quickview_pols q' out' h'
  have h4 : ¬ 4 ≤ q.nPol := by omega
  have h4' : ¬ 4 ≤ q'.nPol := h4
  have key : ∀ p < q.nPol, (∀ i j, (S' p).dirty i j * (S' p).renorm = k * ((S p).dirty i j * (S p).renorm)) ∧
      (∀ i j, (S' p).model i j * (S' p).renorm = k * ((S p).model i j * (S p).renorm)) ∧
      ∀ i < q.n, ∀ j < q.n, (S' p).weightsAfter i j = (S p).weightsAfter i j := by
    intro p hp
    obtain ⟨r, a1, a2, a3, a4, a5⟩ := qvPol_ok q hn hn2 hpad g hg p
    obtain ⟨r', b1, b2, b3, b4, b5⟩ := qvPol_ok q' hn hn2 hpad g hg' p
    have e : S p = r := by rw [s1 p hp] at a1; exact Except.ok.inj a1
    have e' : S' p = r' := by rw [t1 p hp] at b1; exact Except.ok.inj b1
    have hren : r'.renorm = r.renorm := by rw [a4, b4]; rfl
    rw [e, e', hren]
    have h1 : (fun i j => q'.imageUv p i j * (g p i j : ℂ)) = fun i j => (k : ℂ) * (q.imageUv p i j * (g p i j : ℂ)) := by
      funext i j
      rw [← mul_assoc]
      congr 1
      exact hI p hp i j
    have h2 : (fun i j => q'.modelUv p i j * (g p i j : ℂ)) = fun i j => (k : ℂ) * (q.modelUv p i j * (g p i j : ℂ)) := by
      funext i j
      rw [← mul_assoc]
      congr 1
      exact hM p hp i j
    refine ⟨fun i j => ?_, fun i j => ?_, fun i hi j hj => ?_⟩
    · rw [a2, b2, h1, fourier_scaled]
      show k * _ * Spec.pixelFactor (some q.degpix) * (if q.optimal then q.beam p i j else 1) * _ = _
      ring
    · rw [a3, b3, h2, fourier_scaled]
      show k * _ * Spec.pixelFactor (some q.degpix) * (if q.optimal then q.beam p i j else 1) * _ = _
      ring
    · rw [(a5 i hi j hj).2.2, (b5 i hi j hj).2.2]
  rw [s4, t4]
  refine forall₂_flatMap _ _ _ _ fun p hp => ?_
  have hp := List.mem_range.1 hp
  obtain ⟨k1, k2, -⟩ := key p hp
  simp only [if_neg h4, if_neg h4']
  refine .cons ⟨rfl, rfl, fun i j => ?_⟩ (.cons ⟨rfl, rfl, fun i j => ?_⟩ (.cons ⟨rfl, rfl, fun i j => ?_⟩
    (.cons ⟨rfl, rfl, rfl⟩ (.cons ⟨rfl, rfl, fun r hr i hi j hj => ?_⟩ .nil))))
  · show (S' p).dirty i j * (S' p).renorm * _ = k * ((S p).dirty i j * (S p).renorm * _)
    rw [k1, mul_assoc]
  · show (S' p).model i j * (S' p).renorm * _ = k * ((S p).model i j * (S p).renorm * _)
    rw [k2, mul_assoc]
  · show ((S' p).dirty i j * (S' p).renorm - (S' p).model i j * (S' p).renorm) * _ =
      k * (((S p).dirty i j * (S p).renorm - (S p).model i j * (S p).renorm) * _)
    rw [k1, k2]
    show _ * qvCorrection (q.beam p i j) = _
    ring
  · show ‖out'.weightsUv r i j‖ * _ = ‖out.weightsUv r i j‖ * _
    rw [(s2 r hr).2.2, (t2 r hr).2.2, if_neg h4, if_neg h4', (key r hr).2.2 i hi j hj]

/-- In other units the calibration of a run finds the same gains. -/
theorem calibrated_scaled (x : RunIn) (h : RunFits x) (k : ℝ) (hk : k ≠ 0) (w : Weights) (r : CalibrateOut) (h2 : x.calibrated w = .ok r) :
    ∃ r', (withSky x (fun p f b => k * x.vis p f b) fun p f b => k * x.model p f b).calibrated w = .ok r' ∧ SameSolution r r' ∧
      ∀ p < x.obs.nPol, ∀ f, ∀ s < x.cal.run.nBl * x.cal.run.nTime, r'.vis p f s = k * r.vis p f s := by
  unfold RunIn.calibrated at h2 ⊢
  change ∃ r', (match x.refl with
    | none => calibrateAll ((withSky x (fun p f b => k * x.vis p f b) fun p f b => k * x.model p f b).calIn w) x.opts x.obs.inUse
    | some q => calibrateRefl ((withSky x (fun p f b => k * x.vis p f b) fun p f b => k * x.model p f b).calIn w) x.opts q x.obs.inUse) = .ok r' ∧ _
  cases hq : x.refl with
  | none =>
    rw [hq] at h2
    exact C276_units (x.calIn w) (fun _ _ => (k : ℂ)) (fun _ _ => by exact_mod_cast hk) h.pols h.tiles x.opts x.obs.inUse r h2
  | some q =>
    rw [hq] at h2
    exact C290_units (x.calIn w) (fun _ _ => (k : ℂ)) (fun _ _ => by exact_mod_cast hk) h.pols h.tiles x.opts q x.obs.inUse r h2

/-- **C295.** In other units of flux (data and model multiplied by a real factor that is not zero) a run finds the same gains, flags, statistics and
weights; the planes of data and model and the pixels of the images of data, model and residual are multiplied by the factor; the images of the
beam, the weights and the counts are the same. -/
theorem C295_units (x : RunIn) (h : RunFits x) (hi : ImagesFit x) (hres : ∀ p, 0 < (x.grid p).res) (k : ℝ) (hk : k ≠ 0) (R : RunOut)
    (hR : imagingRun x = .ok R) :
    ∃ R', imagingRun (withSky x (fun p f b => k * x.vis p f b) fun p f b => k * x.model p f b) = .ok R' ∧ SameSolution R.cal R'.cal ∧
      R'.weights = R.weights ∧ List.Forall₂ (PlanesScaled k) R.planes R'.planes ∧ ∃ u,
      List.Forall₂ (FileScaled k x.obs.nPol (x.images u).n) R.images.files R'.images.files := by
  obtain ⟨w1, w2, h1, h2, h3, h4, h5, h6⟩ := (run_stages x R).1 hR
  set x' := withSky x (fun p f b => k * x.vis p f b) fun p f b => k * x.model p f b with hx'
  have hcal := calibrated_scaled x h k hk w1.weights R.cal h2
  obtain ⟨r', e1, e2, e3⟩ := hcal
  obtain ⟨g1, g2⟩ := mapM_range_ok _ _ _ h5
  have g1 : R.planes.length = x.obs.nPol := g1.trans List.length_range
  have hG : ∀ p < x.obs.nPol, ∃ o o', R.planes[p]? = some o ∧
      x'.gridded (x.obs.restrict R.cal.inUse) r'.vis w2.weights p = .ok o' ∧ PlanesScaled k o o' := by
    intro p hp
    obtain ⟨o, a1, a2⟩ := g2 p (by rw [List.length_range]; exact hp)
    rw [List.getElem_range] at a2
    obtain ⟨o', a3, a4⟩ := gridded_scaled x k (x.obs.restrict R.cal.inUse) R.cal.vis r'.vis w2.weights p (hres p)
      (fun f b hb => e3 p hp f b (by rw [← h.nBl]; exact hb)) (h.gridFreqs p) (h.lengths p) o a2
    exact ⟨o, o', a1, a3, a4⟩
  have hall : ∃ O' : ℕ → VisGridOut ℂ × Plane ℂ, ∀ p < x.obs.nPol, ∃ o, R.planes[p]? = some o ∧
      x'.gridded (x.obs.restrict R.cal.inUse) r'.vis w2.weights p = .ok (O' p) ∧ PlanesScaled k o (O' p) := by
    refine ⟨fun p => if hp : p < x.obs.nPol then (hG p hp).choose_spec.choose else ⟨⟨⟨fun _ _ => 0, fun _ _ => 0, fun _ _ => 0, fun _ _ => 0⟩, 0, []⟩,
      fun _ _ => 0⟩, fun p hp => ?_⟩
    beta_reduce
    rw [dif_pos hp]
    exact ⟨(hG p hp).choose, (hG p hp).choose_spec.choose_spec⟩
  obtain ⟨O', hO⟩ := hall
  have h5' : (List.range x.obs.nPol).mapM (x'.gridded (x.obs.restrict R.cal.inUse) r'.vis w2.weights) =
      .ok ((List.range x.obs.nPol).map O') := mapM_ok _ _ _ fun p hp => (hO p (List.mem_range.1 hp)).choose_spec.2.1
  set P' := (List.range x.obs.nPol).map O' with hP'
  have hget : ∀ p < x.obs.nPol, P'[p]? = some (O' p) := fun p hp => by rw [hP', List.getElem?_map, List.getElem?_range hp]; rfl
  have hnone : ∀ p, ¬ p < x.obs.nPol → P'[p]? = none ∧ R.planes[p]? = none := fun p hp =>
    ⟨by rw [List.getElem?_eq_none_iff, hP']; simp; omega, by rw [List.getElem?_eq_none_iff, g1]; omega⟩
  have hu : ((P'[0]?).map fun g => g.1.planes.uniform).getD (fun _ _ => 0) = ((R.planes[0]?).map fun g => g.1.planes.uniform).getD fun _ _ => 0 := by
    obtain ⟨o, a1, -, a2⟩ := hO 0 (by have := h.pols; omega)
    rw [hget 0 (by have := h.pols; omega), a1]
    exact a2.2.2.2.2.1
  set u := ((R.planes[0]?).map fun g => g.1.planes.uniform).getD fun _ _ => 0 with hudef
  have hq : ∃ out', quickview (x'.quickIn w2.nVis P') = .ok out' ∧
      List.Forall₂ (FileScaled k x.obs.nPol (x.images u).n) R.images.files out'.files := by
    have hf : ∃ g, Spec.Filter (x.quickIn w2.nVis R.planes) g :=
      ⟨fun p => (hi.filter u ((x.quickIn w2.nVis R.planes).weightsUv p)).choose, fun p a =>
        (hi.filter u ((x.quickIn w2.nVis R.planes).weightsUv p)).choose_spec a⟩
    obtain ⟨g, hg⟩ := hf
    refine quickview_scaled (x.quickIn w2.nVis R.planes) (x'.quickIn w2.nVis P') k (hi.size u).1 (hi.size u).2 (hi.pad u)
      (by have := h.pols; show x.obs.nPol < 4; omega) g hg ?_ ?_ ?_ ?_ R.images h6
    · intro p
      show ((P'[p]?).map fun g => g.1.planes.weights).getD _ = ((R.planes[p]?).map fun g => g.1.planes.weights).getD _
      by_cases hp : p < x.obs.nPol
      · obtain ⟨o, a1, -, a2⟩ := hO p hp
        rw [hget p hp, a1]
        exact a2.2.2.1
      · rw [(hnone p hp).1, (hnone p hp).2]
    · intro p hp i j
      show ((P'[p]?).map fun g => g.1.planes.image).getD _ i j = k * ((R.planes[p]?).map fun g => g.1.planes.image).getD _ i j
      obtain ⟨o, a1, -, a2⟩ := hO p hp
      rw [hget p hp, a1]
      exact a2.1 i j
    · intro p hp i j
      show ((P'[p]?).map fun g => g.2).getD _ i j = k * ((R.planes[p]?).map fun g => g.2).getD _ i j
      obtain ⟨o, a1, -, a2⟩ := hO p hp
      rw [hget p hp, a1]
      exact a2.2.1 i j
    · unfold RunIn.quickIn
      rw [hu]
      rfl
  obtain ⟨out', q1, q2⟩ := hq
  refine ⟨⟨r', R.weights, P', out'⟩, (run_stages _ _).2 ⟨w1, w2, h1, e1, ?_, h4, ?_, q1⟩, e2, rfl, ?_, u, q2⟩
  · show visWeightsUpdate (x.obs.restrict r'.inUse) x.uv w1.weights = .ok w2
    rw [e2.2.2.1]
    exact h3
  · show (List.range x.obs.nPol).mapM (x'.gridded (x.obs.restrict r'.inUse) r'.vis w2.weights) = .ok P'
    rw [e2.2.2.1]
    exact h5'
  · rw [List.forall₂_iff_get]
    refine ⟨by rw [g1, hP']; simp, fun i hi1 hi2 => ?_⟩
    obtain ⟨o, a1, -, a2⟩ := hO i (by omega)
    have b1 : R.planes.get ⟨i, hi1⟩ = o := by rw [List.getElem?_eq_getElem hi1] at a1; exact Option.some.inj a1
    have b2 : P'.get ⟨i, hi2⟩ = O' i := by
      have := hget i (by omega)
      rw [List.getElem?_eq_getElem hi2] at this
      exact Option.some.inj this
    rw [b1, b2]
    exact a2

end PyFHD
