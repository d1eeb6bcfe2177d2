import Verif.Props.CalRun
import Verif.Props.CalApply

/-!
# Relations between calls: calibrating and correcting (C247)
-/

namespace PyFHD

open Spec

section Restored

variable {K R : Type} [Field K] [StarRing K] [DecidableEq K] [Field R] [LinearOrder R]

namespace Spec

/-- The gains `g` account exactly for all data in use of polarisation `p`, and the solver starts with them (the conditions of C125). -/
structure ExactGains (c : CalRunIn K R) (p : ℕ) (g : ℕ → ℕ → K) : Prop where
  tiles : c.tiles p ≠ []
  freqs : c.freqs p ≠ []
  flags : FlagsAgree c p
  start : ∀ f ∈ c.freqs p, ∀ t ∈ c.tiles p, c.gain p f t = g f t ∧ g f t ≠ 0
  data : ∀ f ∈ c.freqs p, ∀ b ∈ c.bls p, ∀ s ∈ c.samplesOf b, 0 < c.weight p f s →
    c.vis p f s = g f (c.tileA b) * star (g f (c.tileB b)) * c.model p f s
  enough : ∀ f ∈ c.freqs p, ∀ t ∈ c.tiles p,
    5 ≤ baselinesOf c p f t ∧
    ∃ b ∈ c.bls p, 0 < c.blWeight p f b ∧ (c.tileA b = t ∨ c.tileB b = t) ∧ c.average p c.model f b ≠ 0
  differ : ∀ f ∈ c.freqs p, NumbersDiffer c p f

/-- The gains of the call `d` of `vis_calibration_apply` are those returned by `vis_calibrate_subroutine`, for channels and tiles solved
for. -/
def GainsReturned (c : CalRunIn K R) (d : CalApplyIn K R) : Prop :=
  ∀ p < 2, ∀ r, calRunPol c p = .ok (some r) → ∀ f ∈ c.freqs p, ∀ t ∈ c.tiles p, r.gain f t = some (d.gain p f t)

end Spec

/-- What `vis_calibration_apply` returns: every value divided by the product of its gains, zero where that is zero. -/
theorem apply_entry (c : CalApplyIn K R) (hmag : ∀ w, c.mag w = 0 ↔ w = 0)
    (hA : ∀ t ∈ c.tileA, 1 ≤ t ∧ t ≤ c.nTile) (hB : ∀ t ∈ c.tileB, 1 ≤ t ∧ t ≤ c.nTile)
    (h4 : c.nPolVis ≤ 4) (hp : c.nPolVis ≤ 1 ∧ 1 ≤ c.nPolGain ∨ 2 ≤ c.nPolGain) (hx : Spec.NoCrossFit c) :
    ∃ vis, visCalibrationApply c = .ok (vis, none) ∧
      ∀ p < c.nPolVis, ∀ f b a a', c.tileA[b]? = some a → c.tileB[b]? = some a' →
        vis p f b = c.vis p f b * (if c.gain (gainPair p).1 f (a - 1).toNat * star (c.gain (gainPair p).2 f (a' - 1).toNat) = 0 then 0
          else (c.gain (gainPair p).1 f (a - 1).toNat * star (c.gain (gainPair p).2 f (a' - 1).toNat))⁻¹) := by
  obtain ⟨vis, h1, h2⟩ := apply_value c h4 hp
  have hrun : visCalibrationApply c = .ok (if c.nPolVis = 4 then
      fun p f b => if p = 2 ∨ p = 3 then vis p f b * 1 else vis p f b else vis, none) := by
    unfold visCalibrationApply
    rw [mapM_tileRow _ _ hA, mapM_tileRow _ _ hB]
    simp only [h1, bind, Except.bind]
    by_cases h : c.nPolVis = 4
    · simp only [if_pos h]
      rcases hx with hx | hx | hx
      · exact absurd h hx
      · simp only [hx]; rfl
      · cases c.model <;> simp only [hx] <;> rfl
    · simp only [if_neg h]; rfl
  refine ⟨_, hrun, ?_⟩
  intro p hpl f b a a' ha ha'
  rw [← invEntry c.mag c.re hmag, ← h2 p hpl f b a a' ha ha']
  split_ifs <;> simp

/-- **C247** (products XX and YY; XY and YX up to a phase). If the data are true values with gains, and calibration starts with gains that
account for the data exactly, the corrected data of XX and YY are the true values, whatever the reference tile. Those of XY are the true
values times a phase `u`, the same for all baselines of a channel, and those of YX times its conjugate. Without a reference tile the
phase is 1. -/
theorem C247_restored_partial [IsStrictOrderedRing R] (φ : R →+* K) (c : CalRunIn K R) (hmag : ComplexAbs c.mag φ) (hc : c.cast = φ)
    (hb : 0 < c.base) (hm : 0 < c.maxIter) (g : ℕ → ℕ → ℕ → K) (hg : ∀ p < 2, ExactGains c p (g p))
    (d : CalApplyIn K R) (hmag' : ∀ w, d.mag w = 0 ↔ w = 0) (hret : GainsReturned c d)
    (hA : ∀ t ∈ d.tileA, 1 ≤ t ∧ t ≤ d.nTile) (hB : ∀ t ∈ d.tileB, 1 ≤ t ∧ t ≤ d.nTile)
    (h4 : d.nPolVis ≤ 4) (hp : 2 ≤ d.nPolGain) (hx : NoCrossFit d) (truth : ℕ → ℕ → ℕ → K)
    (hv : ∀ p < d.nPolVis, ∀ f b a a', d.tileA[b]? = some a → d.tileB[b]? = some a' →
      d.vis p f b = g (gainPair p).1 f (a - 1).toNat * star (g (gainPair p).2 f (a' - 1).toNat) * truth p f b) :
    ∃ (vis : ℕ → ℕ → ℕ → K) (u : ℕ → K), visCalibrationApply d = .ok (vis, none) ∧ (∀ f, star (u f) * u f = 1) ∧
      (c.noRef = true → ∀ f, u f = 1) ∧
      (c.noRef = false → ∀ f ∈ c.freqs 0, f ∈ c.freqs 1 →
        u f * (g 1 f (refTile (c.tiles 1)) * φ (c.mag (g 0 f (refTile (c.tiles 0))))) =
          g 0 f (refTile (c.tiles 0)) * φ (c.mag (g 1 f (refTile (c.tiles 1))))) ∧
      ∀ p < d.nPolVis, ∀ f b a a', d.tileA[b]? = some a → d.tileB[b]? = some a' →
        f ∈ c.freqs (gainPair p).1 → f ∈ c.freqs (gainPair p).2 →
        (a - 1).toNat ∈ c.tiles (gainPair p).1 → (a' - 1).toNat ∈ c.tiles (gainPair p).2 →
        vis p f b = (if p < 2 then 1 else if p = 2 then u f else star (u f)) * truth p f b := by
  have hrun : ∀ p < 2, ∃ v : ℕ → K, (∀ f, star (v f) * v f = 1) ∧ (c.noRef = true → ∀ f, v f = 1) ∧
      (c.noRef = false → ∀ f ∈ c.freqs p, g p f (refTile (c.tiles p)) * v f = φ (c.mag (g p f (refTile (c.tiles p))))) ∧
      ∀ f ∈ c.freqs p, ∀ t ∈ c.tiles p, d.gain p f t = g p f t * v f := by
    intro p hp2
    have h := hg p hp2
    obtain ⟨r, hr, hu⟩ := C125_exact_gains c φ hmag hc hb hm p (g p) h.tiles h.freqs h.flags h.start h.data h.enough h.differ
    have hu' : ∀ f, ∃ u : K, star u * u = 1 ∧ (c.noRef = true → u = 1) ∧ (f ∈ c.freqs p →
        (c.noRef = false → g p f (refTile (c.tiles p)) * u = φ (c.mag (g p f (refTile (c.tiles p))))) ∧
        ∀ t ∈ c.tiles p, r.gain f t = some (g p f t * u)) := by
      intro f
      by_cases hf : f ∈ c.freqs p
      · obtain ⟨u, h1, h2, h3, h4⟩ := hu f hf
        exact ⟨u, h1, h2, fun _ => ⟨h3, h4⟩⟩
      · exact ⟨1, by simp, fun _ => rfl, fun h => absurd h hf⟩
    choose v h1 h2 h3 using hu'
    refine ⟨v, h1, fun h f => h2 f h, fun h f hf => (h3 f hf).1 h, ?_⟩
    intro f hf t ht
    have e1 := hret p hp2 r hr f hf t ht
    rw [(h3 f hf).2 t ht] at e1
    exact (Option.some.inj e1).symm
  obtain ⟨v0, a1, a2, a3, a4⟩ := hrun 0 (by omega)
  obtain ⟨v1, b1, b2, b3, b4⟩ := hrun 1 (by omega)
  have hstar : ∀ v : K, star v * v = 1 → v ≠ 0 ∧ star v = v⁻¹ := by
    intro v h
    have : v ≠ 0 := by rintro rfl; simp at h
    exact ⟨this, eq_inv_of_mul_eq_one_left h⟩
  obtain ⟨vis, hrun, hval⟩ := apply_entry d hmag' hA hB h4 (Or.inr hp) hx
  refine ⟨vis, fun f => star (v0 f) * v1 f, hrun, ?_, ?_, ?_, ?_⟩
  · intro f
    rw [star_mul, star_star]
    calc star (v1 f) * v0 f * (star (v0 f) * v1 f) = (star (v0 f) * v0 f) * (star (v1 f) * v1 f) := by ring
      _ = 1 := by rw [a1, b1, one_mul]
  · intro h f
    simp only [a2 h, b2 h, star_one, one_mul]
  · intro h f h0 h1
    rw [← a3 h f h0, ← b3 h f h1]
    calc star (v0 f) * v1 f * (g 1 f (refTile (c.tiles 1)) * (g 0 f (refTile (c.tiles 0)) * v0 f))
        = (star (v0 f) * v0 f) * (g 0 f (refTile (c.tiles 0)) * (g 1 f (refTile (c.tiles 1)) * v1 f)) := by ring
      _ = _ := by rw [a1, one_mul]
  · intro p hpl f b a a' ha ha' hf1 hf2 ht1 ht2
    rw [hval p hpl f b a a' ha ha', hv p hpl f b a a' ha ha']
    have key : ∀ x y v w t : K, x ≠ 0 → y ≠ 0 → star v * v = 1 → star w * w = 1 →
        x * star y * t * (if x * v * star (y * w) = 0 then 0 else (x * v * star (y * w))⁻¹) = star v * w * t := by
      intro x y v w t hx0 hy0 hv1 hw1
      obtain ⟨hv0, hv2⟩ := hstar v hv1
      obtain ⟨hw0, hw2⟩ := hstar w hw1
      have hy1 : star y ≠ 0 := by simpa using hy0
      have hw3 : star w ≠ 0 := by simpa using hw0
      rw [star_mul, if_neg (mul_ne_zero (mul_ne_zero hx0 hv0) (mul_ne_zero hw3 hy1)), hw2, hv2]
      field_simp
    have : p = 0 ∨ p = 1 ∨ p = 2 ∨ p = 3 := by omega
    rcases this with rfl | rfl | rfl | rfl
    · simp only [gainPair, if_true] at hf1 hf2 ht1 ht2 ⊢
      rw [a4 f hf1 _ ht1, a4 f hf2 _ ht2, key _ _ _ _ _ ((hg 0 (by omega)).start f hf1 _ ht1).2
        ((hg 0 (by omega)).start f hf2 _ ht2).2 (a1 f) (a1 f), a1]
      simp
    · simp only [gainPair, if_true, one_ne_zero, if_false] at hf1 hf2 ht1 ht2 ⊢
      rw [b4 f hf1 _ ht1, b4 f hf2 _ ht2, key _ _ _ _ _ ((hg 1 (by omega)).start f hf1 _ ht1).2
        ((hg 1 (by omega)).start f hf2 _ ht2).2 (b1 f) (b1 f), b1]
      simp
    · simp only [gainPair, if_true, OfNat.ofNat_ne_zero, OfNat.ofNat_ne_one, if_false] at hf1 hf2 ht1 ht2 ⊢
      rw [a4 f hf1 _ ht1, b4 f hf2 _ ht2, key _ _ _ _ _ ((hg 0 (by omega)).start f hf1 _ ht1).2
        ((hg 1 (by omega)).start f hf2 _ ht2).2 (a1 f) (b1 f)]
      simp
    · have e : gainPair 3 = (1, 0) := rfl
      rw [e] at hf1 hf2 ht1 ht2 ⊢
      rw [b4 f hf1 _ ht1, a4 f hf2 _ ht2, key _ _ _ _ _ ((hg 1 (by omega)).start f hf1 _ ht1).2
        ((hg 0 (by omega)).start f hf2 _ ht2).2 (b1 f) (a1 f)]
      simp only [star_mul, star_star, show ¬ (3 < 2) by omega, show ¬ (3 = 2) by omega, if_false]

end Restored

/-- The observation of `exRun` with two polarisations: the signals of Y are those of X with the opposite sign, and with them its gains. -/
def exRunTwo : CalRunIn ℚ ℚ := { exRun 0 with nPol := 2, gain := fun p f t => if p = 1 then -(exRun 0).gain 0 f t else (exRun 0).gain 0 f t }

/-- The correction of four products with the gains that calibration of `exRunTwo` returns; the true values are `5 + p`. -/
def exRestore : CalApplyIn ℚ ℚ where
  mag := fun z => |z|
  re := id
  nPolVis := 4
  nPolGain := 2
  nFreq := 2
  nTile := 4
  tileA := [1, 1, 2]
  tileB := [2, 3, 3]
  gain := fun p f t => match calRunPol exRunTwo p with
    | .ok (some r) => (r.gain f t).getD 0
    | _ => 0
  vis := fun p f b => exRunTwo.gain (Spec.gainPair p).1 f ([0, 0, 1].getD b 0) *
    star (exRunTwo.gain (Spec.gainPair p).2 f ([1, 2, 2].getD b 0)) * (5 + (p : ℚ))
  model := none
  weights := none
  clip := id
  nTimes := none

/-- **C247 fails** for XY and YX: gains that account for all data exactly are returned as they were up to phases, which for X and Y differ;
the corrected values of XX and YY are true (5 and 6), and those of XY and YX have the wrong sign (-7 and -8). -/
theorem C247_cross_phase :
    (∀ p < 2, Spec.ExactGains exRunTwo p (exRunTwo.gain p)) ∧ Spec.GainsReturned exRunTwo exRestore ∧
    (visCalibrationApply exRestore).map (fun r => (List.range 4).map fun p => (List.range 3).map fun b => r.1 p 0 b) =
      .ok [[5, 5, 5], [6, 6, 6], [-7, -7, -7], [-8, -8, -8]] := by
  have hex : ∀ p < 2, Spec.ExactGains exRunTwo p (exRunTwo.gain p) := by
    intro p hp
    exact ⟨by revert p; decide +kernel, by revert p; decide +kernel, by unfold Spec.FlagsAgree; revert p; decide +kernel,
      by revert p; decide +kernel, by revert p; decide +kernel, by revert p; decide +kernel,
      by unfold Spec.NumbersDiffer; revert p; decide +kernel⟩
  have hsome : ∀ p < 2, ∃ r, calRunPol exRunTwo p = .ok (some r) ∧
      ∀ f ∈ exRunTwo.freqs p, ∀ t ∈ exRunTwo.tiles p, (r.gain f t).isSome = true := by
    intro p hp
    have h := hex p hp
    obtain ⟨r, hr, hu⟩ := C125_exact_gains exRunTwo (RingHom.id ℚ) exRunAbs rfl (by decide +kernel) (by decide) p (exRunTwo.gain p)
      h.tiles h.freqs h.flags h.start h.data h.enough h.differ
    refine ⟨r, hr, fun f hf t ht => ?_⟩
    obtain ⟨u, -, -, -, hu⟩ := hu f hf
    rw [hu t ht]
    rfl
  refine ⟨hex, ?_, by decide +kernel⟩
  · intro p hp r hr f hf t ht
    obtain ⟨r', h1, h2⟩ := hsome p hp
    rw [h1] at hr
    obtain rfl : r' = r := Option.some.inj (Except.ok.inj hr)
    simp only [exRestore, h1]
    have := h2 f hf t ht
    cases h : r'.gain f t with
    | none => rw [h] at this; cases this
    | some v => rfl

end PyFHD
