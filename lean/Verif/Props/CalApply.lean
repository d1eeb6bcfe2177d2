import Verif.Model.CalApply
import Mathlib.Algebra.Order.Field.Basic
import Mathlib.Tactic.Linarith
import Mathlib.Tactic.FieldSimp
import Mathlib.Tactic.Ring
import Mathlib.Data.Rat.Star

/-!
# C34 - C37, C40, C61: applying gains, auto ratios, bandpass, adaptive gain
-/

namespace PyFHD

/-! ## C34 and C35 -/

section Apply

variable {K R : Type} [Field K] [StarRing K] [DecidableEq K] [Field R] [LinearOrder R]

/-- The polarisations of the two gains of a product: XX, YY, XY, YX. -/
def Spec.gainPair (p : ℕ) : ℕ × ℕ :=
  if p = 0 then (0, 0) else if p = 1 then (1, 1) else if p = 2 then (0, 1) else (1, 0)

omit [StarRing K] in
theorem invEntry (mag re : K → R) (hmag : ∀ w, mag w = 0 ↔ w = 0) (w : K) :
    weightInvertEntry mag re true none false w = if w = 0 then 0 else w⁻¹ := by
  unfold weightInvertEntry npRecip
  by_cases h : w = 0
  · simp [h]
  · simp [h, (hmag w).not.2 h]

theorem mapM_tileRow (n : ℕ) : ∀ (l : List ℤ), (∀ t ∈ l, 1 ≤ t ∧ t ≤ n) →
    l.mapM (tileRow n) = some (l.map fun t => (t - 1).toNat)
  | [], _ => rfl
  | a :: l, h => by
    have ha := h a (List.mem_cons_self ..)
    have h1 : tileRow n a = some (a - 1).toNat := by
      unfold tileRow pyIndex
      rw [if_pos (by omega), if_pos (by omega)]
    rw [List.mapM_cons, h1, mapM_tileRow n l fun t ht => h t (List.mem_cons_of_mem _ ht)]
    rfl

/-- The result of `vis_calibration_apply` when it succeeds. -/
theorem apply_value (c : CalApplyIn K R) (h4 : c.nPolVis ≤ 4)
    (hp : c.nPolVis ≤ 1 ∧ 1 ≤ c.nPolGain ∨ 2 ≤ c.nPolGain) :
    ∃ vis, applyPols c (c.tileA.map fun t => (t - 1).toNat) (c.tileB.map fun t => (t - 1).toNat)
        = .ok vis ∧
      (∀ p < c.nPolVis, ∀ f, ∀ b a a', c.tileA[b]? = some a → c.tileB[b]? = some a' →
        vis p f b = c.vis p f b * weightInvertEntry c.mag c.re true none false
          (c.gain (Spec.gainPair p).1 f (a - 1).toNat
            * star (c.gain (Spec.gainPair p).2 f (a' - 1).toNat))) := by
  have hc : ∀ p < c.nPolVis, ∃ q, gainPol[p]? = some q ∧ q.1 < c.nPolGain ∧ q.2 < c.nPolGain := by
    intro p hpl
    have : p = 0 ∨ p = 1 ∨ p = 2 ∨ p = 3 := by omega
    rcases this with rfl | rfl | rfl | rfl
    · exact ⟨(0, 0), rfl, by simp only []; omega, by simp only []; omega⟩
    · exact ⟨(1, 1), rfl, by simp only []; omega, by simp only []; omega⟩
    · exact ⟨(0, 1), rfl, by simp only []; omega, by simp only []; omega⟩
    · exact ⟨(1, 0), rfl, by simp only []; omega, by simp only []; omega⟩
  unfold applyPols
  rw [if_pos hc]
  refine ⟨_, rfl, ?_⟩
  intro p hpl f b a a' ha ha'
  have hq : gainPol[p]? = some (Spec.gainPair p) := by
    have : p = 0 ∨ p = 1 ∨ p = 2 ∨ p = 3 := by omega
    rcases this with rfl | rfl | rfl | rfl <;> rfl
  simp only [hq]
  unfold applyPol
  simp only [List.getD, List.getElem?_map, ha, ha', Option.map_some, Option.getD_some]

/-- When `vis_calibration_apply` gets past the products (fewer than four polarisations, or no model
or weights to fit the cross phase). -/
def Spec.NoCrossFit (c : CalApplyIn K R) : Prop :=
  c.nPolVis ≠ 4 ∨ c.model = none ∨ c.weights = none

/-- **C34.** If every visibility is the product of its gain, the conjugate of the other gain and the
true value, the result is the true value wherever both gains are nonzero, and zero where one
is zero; for XX, YY, XY and YX. The tiles are numbered from 1. -/
theorem C34_gains_removed (c : CalApplyIn K R) (hmag : ∀ w, c.mag w = 0 ↔ w = 0)
    (hA : ∀ t ∈ c.tileA, 1 ≤ t ∧ t ≤ c.nTile) (hB : ∀ t ∈ c.tileB, 1 ≤ t ∧ t ≤ c.nTile)
    (h4 : c.nPolVis ≤ 4) (hp : c.nPolVis ≤ 1 ∧ 1 ≤ c.nPolGain ∨ 2 ≤ c.nPolGain)
    (hx : Spec.NoCrossFit c) (truth : ℕ → ℕ → ℕ → K)
    (hv : ∀ p < c.nPolVis, ∀ f b a a', c.tileA[b]? = some a → c.tileB[b]? = some a' →
      c.vis p f b = c.gain (Spec.gainPair p).1 f (a - 1).toNat
        * star (c.gain (Spec.gainPair p).2 f (a' - 1).toNat) * truth p f b) :
    ∃ vis, visCalibrationApply c = .ok (vis, none) ∧
      ∀ p < c.nPolVis, ∀ f b a a', c.tileA[b]? = some a → c.tileB[b]? = some a' →
        vis p f b = if c.gain (Spec.gainPair p).1 f (a - 1).toNat = 0 ∨
            c.gain (Spec.gainPair p).2 f (a' - 1).toNat = 0 then 0 else truth p f b := by
  obtain ⟨vis, h1, h2⟩ := apply_value c h4 hp
  have hval : ∀ p < c.nPolVis, ∀ f b a a', c.tileA[b]? = some a → c.tileB[b]? = some a' →
        vis p f b = if c.gain (Spec.gainPair p).1 f (a - 1).toNat = 0 ∨
            c.gain (Spec.gainPair p).2 f (a' - 1).toNat = 0 then 0 else truth p f b := by
    intro p hpl f b a a' ha ha'
    rw [h2 p hpl f b a a' ha ha', invEntry _ _ hmag, hv p hpl f b a a' ha ha']
    set g := c.gain (Spec.gainPair p).1 f (a - 1).toNat
    set g' := c.gain (Spec.gainPair p).2 f (a' - 1).toNat
    by_cases hg : g = 0
    · simp [hg]
    by_cases hg' : g' = 0
    · simp [hg']
    have hs : star g' ≠ 0 := by simpa using hg'
    rw [if_neg (mul_ne_zero hg hs), if_neg (by simp [hg, hg'])]
    field_simp
  have hrun : visCalibrationApply c = .ok (if c.nPolVis = 4 then
      fun p f b => if p = 2 ∨ p = 3 then vis p f b * 1 else vis p f b else vis, none) := by
    unfold visCalibrationApply
    rw [mapM_tileRow _ _ hA, mapM_tileRow _ _ hB]
    simp only [h1, bind, Except.bind]
    by_cases h : c.nPolVis = 4
    · simp only [if_pos h]
      rcases hx with hx | hx | hx
      · exact absurd h hx
      · simp only [hx]; rfl
      · cases c.model <;> simp only [hx] <;> rfl
    · simp only [if_neg h]; rfl
  refine ⟨_, hrun, ?_⟩
  intro p hpl f b a a' ha ha'
  rw [← hval p hpl f b a a' ha ha']
  split_ifs <;> simp

/-- **C35 fails**: with four polarisations, a model and weights, and no entry `n_times` in the
observation (`create_obs` writes `n_time`), the call raises `KeyError`. -/
theorem C35_four_pol_key_error (c : CalApplyIn K R)
    (hA : ∀ t ∈ c.tileA, 1 ≤ t ∧ t ≤ c.nTile) (hB : ∀ t ∈ c.tileB, 1 ≤ t ∧ t ≤ c.nTile)
    (h4 : c.nPolVis = 4) (hp : 2 ≤ c.nPolGain) {m w : ℕ → ℕ → ℕ → K} (hm : c.model = some m)
    (hw : c.weights = some w) (ht : c.nTimes = none) :
    visCalibrationApply c = .error .keyError := by
  obtain ⟨vis, h1, _⟩ := apply_value c (by omega) (Or.inr hp)
  unfold visCalibrationApply
  rw [mapM_tileRow _ _ hA, mapM_tileRow _ _ hB]
  simp only [h1, bind, Except.bind, if_pos h4, hm, hw, ht]

/-- **C35 fails** also if `n_times` is supplied: the phase is fitted but the visibilities returned are
those without any phase applied. -/
theorem C35_cross_phase_not_applied (c : CalApplyIn K R)
    (hA : ∀ t ∈ c.tileA, 1 ≤ t ∧ t ≤ c.nTile) (hB : ∀ t ∈ c.tileB, 1 ≤ t ∧ t ≤ c.nTile)
    (h4 : c.nPolVis = 4) (hp : 2 ≤ c.nPolGain) {m w : ℕ → ℕ → ℕ → K} (hm : c.model = some m)
    (hw : c.weights = some w) {nt : ℕ} (ht : c.nTimes = some nt) (hnt : nt ≠ 0) :
    ∃ vis vis' s, visCalibrationApply c = .ok (vis, some s) ∧
      visCalibrationApply { c with model := none } = .ok (vis', none) ∧
      ∀ p f b, vis p f b = vis' p f b := by
  obtain ⟨vis, h1, _⟩ := apply_value c (by omega) (Or.inr hp)
  have h1' : applyPols { c with model := none } (c.tileA.map fun t => (t - 1).toNat)
      (c.tileB.map fun t => (t - 1).toNat) = .ok vis := h1
  refine ⟨fun p f b => if p = 2 ∨ p = 3 then vis p f b * 1 else vis p f b,
    fun p f b => if p = 2 ∨ p = 3 then vis p f b * 1 else vis p f b,
    crossPhaseSum c vis m w nt, ?_, ?_, fun _ _ _ => rfl⟩
  · unfold visCalibrationApply
    rw [mapM_tileRow _ _ hA, mapM_tileRow _ _ hB]
    simp only [h1, bind, Except.bind, if_pos h4, hm, hw, ht, if_neg hnt]
    rfl
  · unfold visCalibrationApply
    simp only []
    rw [mapM_tileRow _ _ hA, mapM_tileRow _ _ hB]
    simp only [h1', bind, Except.bind, if_pos h4]
    rfl

/-- **C35** where it holds: without a model or weights the four products are divided by their gains.
Missing: the cross phase. -/
theorem C35_four_pol_partial (c : CalApplyIn K R) (hmag : ∀ w, c.mag w = 0 ↔ w = 0)
    (hA : ∀ t ∈ c.tileA, 1 ≤ t ∧ t ≤ c.nTile) (hB : ∀ t ∈ c.tileB, 1 ≤ t ∧ t ≤ c.nTile)
    (h4 : c.nPolVis = 4) (hp : 2 ≤ c.nPolGain) (hx : c.model = none ∨ c.weights = none)
    (truth : ℕ → ℕ → ℕ → K)
    (hv : ∀ p < 4, ∀ f b a a', c.tileA[b]? = some a → c.tileB[b]? = some a' →
      c.vis p f b = c.gain (Spec.gainPair p).1 f (a - 1).toNat
        * star (c.gain (Spec.gainPair p).2 f (a' - 1).toNat) * truth p f b)
    (hg : ∀ p f t, c.gain p f t ≠ 0) :
    ∃ vis, visCalibrationApply c = .ok (vis, none) ∧
      ∀ p < 4, ∀ f b a a', c.tileA[b]? = some a → c.tileB[b]? = some a' →
        vis p f b = truth p f b := by
  obtain ⟨vis, h1, h2⟩ := C34_gains_removed c hmag hA hB (by omega) (Or.inr hp)
    (Or.inr hx) truth (by rw [h4]; exact hv)
  refine ⟨vis, h1, fun p hp' f b a a' ha ha' => ?_⟩
  rw [h2 p (by omega) f b a a' ha ha', if_neg]
  rintro (h | h) <;> exact hg _ _ _ h

/-- Two tiles and one more whose gain is zero; three baselines. -/
def exApply (n : ℕ) (withModel : Bool) : CalApplyIn ℚ ℚ where
  mag := fun x => |x|
  re := id
  nPolVis := n
  nPolGain := 2
  nFreq := 2
  nTile := 3
  tileA := [1, 1, 2]
  tileB := [2, 3, 3]
  gain := fun p f t => if t = 2 then 0 else 2 + p + 3 * f + t
  vis := fun p f b =>
    let g := fun (p f t : ℕ) => if t = 2 then (0 : ℚ) else 2 + p + 3 * f + t
    g (Spec.gainPair p).1 f ([0, 0, 1].getD b 0) * g (Spec.gainPair p).2 f ([1, 2, 2].getD b 0)
      * (7 + b)
  model := if withModel then some (fun _ _ _ => 1) else none
  weights := some (fun _ _ _ => 1)
  clip := id
  nTimes := none

example : (∀ w, (exApply 2 true).mag w = 0 ↔ w = 0) ∧
    (∀ t ∈ (exApply 2 true).tileA, 1 ≤ t ∧ t ≤ (exApply 2 true).nTile) ∧
    (∀ t ∈ (exApply 2 true).tileB, 1 ≤ t ∧ t ≤ (exApply 2 true).nTile) :=
  ⟨fun _ => abs_eq_zero, by decide, by decide⟩

/-- The gains are removed: truth `7`, and `0` for the baselines with the zero gain. -/
example : (visCalibrationApply (exApply 2 true)).map (fun r => (r.1 0 0 0, r.1 1 1 0, r.1 1 1 1))
      = .ok (7, 7, 0) ∧
    (visCalibrationApply (exApply 4 false)).map (fun r => (r.1 2 0 0, r.1 3 1 0)) = .ok (7, 7) ∧
    (visCalibrationApply (exApply 4 true)).map (fun r => r.1 0 0 0) = .error .keyError := by
  decide +kernel

end Apply

/-! ## C36 and C61 -/

section AutoRatio

variable {K R : Type} [Field K] [Field R] [LinearOrder R] [IsStrictOrderedRing R]

omit [IsStrictOrderedRing R] in
theorem realInv (w : R) : weightInvertEntry (fun x : R => |x|) id false none false w
    = if w = 0 then 0 else w⁻¹ := by
  unfold weightInvertEntry npRecip
  by_cases h : w = 0
  · simp [h]
  · simp [h]

/-- **C36.** With ratios computed from the auto-correlations (one row per tile of `autoTile`, no tile
twice): dividing and multiplying back restores the gains of a tile with an auto-correlation,
wherever this and the reference auto-correlation are positive; the other tiles stay as divided. -/
theorem C36_auto_ratio_round_trip (φ : R →+* K) (sqrt : R → R) (hsqrt : ∀ x, 0 < x → 0 < sqrt x)
    (nFreq nPol nAuto ref : ℕ) (autoTile : List ℕ) (hnd : autoTile.Nodup)
    (autos junk : ℕ → ℕ → ℕ → R) (ratio : ℕ → ℕ → ℕ → R)
    (h : autoRatio sqrt nFreq nPol nAuto ref autoTile autos junk = .ok ratio)
    (gain : ℕ → ℕ → ℕ → K) (p f t : ℕ) (hp : p < nPol) (hf : f < nFreq) :
    (∀ k r, autoTile[k]? = some t → autoTile[ref]? = some r → 0 < autos p f k → 0 < autos p f r →
      autoRatioRemultiply φ nPol ratio autoTile (autoRatioDivide φ nPol ratio gain) p f t
        = gain p f t) ∧
    (t ∉ autoTile →
      autoRatioRemultiply φ nPol ratio autoTile (autoRatioDivide φ nPol ratio gain) p f t
        = autoRatioDivide φ nPol ratio gain p f t) := by
  constructor
  · intro k r hk hr hpos hrpos
    have hkl : k < autoTile.length := (List.getElem?_eq_some_iff.1 hk).1
    have hkv : autoTile[k] = t := (List.getElem?_eq_some_iff.1 hk).2
    have hmem : t ∈ autoTile := hkv ▸ List.getElem_mem hkl
    have hfil : (List.range autoTile.length).filter (fun j => autoTile.getD j 0 = t) = [k] := by
      have : ∀ j ∈ List.range autoTile.length,
          (decide (autoTile.getD j 0 = t) : Bool) = decide (j = k) := by
        intro j hj
        have hjl := List.mem_range.1 hj
        simp only [List.getD, List.getElem?_eq_getElem hjl, Option.getD_some]
        apply decide_eq_decide.2
        rw [← hkv]
        exact ⟨fun e => (List.Nodup.getElem_inj_iff hnd).1 e, fun e => by subst e; rfl⟩
      rw [List.filter_congr this]
      refine List.perm_singleton.1
        ((List.perm_ext_iff_of_nodup (List.nodup_range.filter _) (List.nodup_singleton k)).2 ?_)
      intro j
      simp only [List.mem_filter, List.mem_range, decide_eq_true_eq, List.mem_singleton]
      exact ⟨fun h => h.2, fun h => ⟨h ▸ hkl, h⟩⟩
    have hratio : ratio p f t = sqrt (autos p f k * (autos p f r)⁻¹) := by
      unfold autoRatio at h
      rw [hr] at h
      simp only [] at h
      split_ifs at h with h1
      injection h with h
      rw [← h]
      simp only [if_pos (And.intro hp hf)]
      rw [hfil]
      simp only [realInv, if_neg hrpos.ne']
    have hrp : 0 < ratio p f t := by
      rw [hratio]; exact hsqrt _ (mul_pos hpos (inv_pos.2 hrpos))
    unfold autoRatioRemultiply autoRatioDivide
    rw [if_pos ⟨hp, hmem⟩, if_pos hp, realInv, if_neg hrp.ne', abs_of_pos hrp, mul_assoc, ← map_mul,
      inv_mul_cancel₀ hrp.ne', map_one, mul_one]
  · intro hmem
    unfold autoRatioRemultiply
    rw [if_neg (fun hc => hmem hc.2)]

omit [IsStrictOrderedRing R] in
/-- **C61 fails** when some tiles have no auto-correlation: the reference is row `autoTile[ref]` of
the auto-correlations, although the rows are counted by position in `autoTile`; beyond the last
row the call raises `IndexError`. -/
theorem C61_reference_out_of_range (sqrt : R → R) (nFreq nPol nAuto ref : ℕ) (autoTile : List ℕ)
    (autos junk : ℕ → ℕ → ℕ → R) {r : ℕ} (hr : autoTile[ref]? = some r) (hn : nAuto ≤ r) :
    autoRatio sqrt nFreq nPol nAuto ref autoTile autos junk = .error .indexError := by
  unfold autoRatio
  rw [hr]
  simp only [if_neg (not_lt.2 hn)]

/-- The first position of a tile in `autoTile`, for a list without repetitions. -/
theorem filter_pos {autoTile : List ℕ} (hnd : autoTile.Nodup) {k t : ℕ}
    (hk : autoTile[k]? = some t) :
    (List.range autoTile.length).filter (fun j => autoTile.getD j 0 = t) = [k] := by
  have hkl : k < autoTile.length := (List.getElem?_eq_some_iff.1 hk).1
  have hkv : autoTile[k] = t := (List.getElem?_eq_some_iff.1 hk).2
  refine List.perm_singleton.1
    ((List.perm_ext_iff_of_nodup (List.nodup_range.filter _) (List.nodup_singleton k)).2 ?_)
  intro j
  simp only [List.mem_filter, List.mem_range, decide_eq_true_eq, List.mem_singleton]
  constructor
  · rintro ⟨hjl, hj⟩
    simp only [List.getD, List.getElem?_eq_getElem hjl, Option.getD_some, ← hkv] at hj
    exact (List.Nodup.getElem_inj_iff hnd).1 hj
  · rintro rfl
    exact ⟨hkl, by simp [List.getD, hk]⟩

omit [IsStrictOrderedRing R] in
/-- **C61**, what the code computes: for a tile in row `k`, the root of its auto-correlation over the
one in row `autoTile[ref]`. -/
theorem C61_ratio_value (sqrt : R → R) (nFreq nPol nAuto ref : ℕ) (autoTile : List ℕ)
    (hnd : autoTile.Nodup) (autos junk : ℕ → ℕ → ℕ → R) {r : ℕ} (hr : autoTile[ref]? = some r)
    (hn : r < nAuto) (p f t k : ℕ) (hp : p < nPol) (hf : f < nFreq) (hk : autoTile[k]? = some t) :
    ∃ ratio, autoRatio sqrt nFreq nPol nAuto ref autoTile autos junk = .ok ratio ∧
      ratio p f t = sqrt (autos p f k * if autos p f r = 0 then 0 else (autos p f r)⁻¹) := by
  unfold autoRatio
  rw [hr]
  simp only [if_pos hn]
  refine ⟨_, rfl, ?_⟩
  simp only [if_pos (And.intro hp hf)]
  rw [filter_pos hnd hk]
  simp only [realInv]

omit [IsStrictOrderedRing R] in
/-- **C61** where it holds: if the tiles up to the reference all have auto-correlations (so that row
and number agree), the ratio of the reference tile is 1. Missing: other observations
(`C61_reference_out_of_range`, `C61_ratio_value`). -/
theorem C61_reference_ratio_partial (sqrt : R → R) (h1 : sqrt 1 = 1) (nFreq nPol nAuto ref : ℕ)
    (autoTile : List ℕ) (hnd : autoTile.Nodup) (autos junk : ℕ → ℕ → ℕ → R)
    (hr : autoTile[ref]? = some ref) (hn : ref < nAuto) (p f : ℕ) (hp : p < nPol) (hf : f < nFreq)
    (h0 : autos p f ref ≠ 0) :
    ∃ ratio, autoRatio sqrt nFreq nPol nAuto ref autoTile autos junk = .ok ratio ∧
      ratio p f ref = 1 := by
  obtain ⟨ratio, e1, e2⟩ := C61_ratio_value sqrt nFreq nPol nAuto ref autoTile hnd autos junk hr hn
    p f ref ref hp hf hr
  refine ⟨ratio, e1, ?_⟩
  rw [e2, if_neg h0, mul_inv_cancel₀ h0, h1]

/-- An exact square root for the numbers below. -/
def exSqrt (x : ℚ) : ℚ := if x = 4 then 2 else if x = 9 then 3 else x

example : ([0, 1, 3] : List ℕ).Nodup ∧ (autoRatio exSqrt 1 1 3 1 [0, 1, 3]
    (fun _ _ k => ([4, 1, 9] : List ℚ).getD k 0) (fun _ _ _ => -5)).map
      (fun r => (List.range 4).map fun t => (r 0 0 t, autoRatioRemultiply id 1 r [0, 1, 3]
        (autoRatioDivide id 1 r fun _ _ t => (10 + t : ℚ)) 0 0 t))
      = .ok [(2, 10), (1, 11), (-5, -12/5), (3, 13)] := by decide +kernel

/-- C61 fails here: tiles 0, 2, 3 have auto-correlations 4, 1, 9; the reference (position 1, tile 2)
gets the ratio 1/9 under this root, because row 2 belongs to tile 3. -/
example : (autoRatio exSqrt 1 1 3 1 [0, 2, 3]
    (fun _ _ k => ([4, 1, 9] : List ℚ).getD k 0) (fun _ _ _ => -5)).map (fun r => r 0 0 2)
      = .ok (1/9) ∧
    (autoRatio exSqrt 1 1 2 1 [0, 2] (fun _ _ k => ([4, 1] : List ℚ).getD k 0)
      (fun _ _ _ => -5)).map (fun r => r 0 0 2) = .error .indexError := by decide +kernel

end AutoRatio

/-! ## C37 -/

section Bandpass

variable {K R : Type} [Field K] [DecidableEq K] [Field R] [DecidableEq R]

omit [DecidableEq R] in
theorem npDiv_mul {a b r : K} (h : npDiv a b = some r) : b ≠ 0 ∧ b * r = a := by
  unfold npDiv at h
  split_ifs at h with hb
  injection h with h
  exact ⟨hb, by rw [← h]; field_simp⟩

/-- **C37**, without cable groups: at every used frequency, for all tiles, bandpass times remainder is
the gain wherever the bandpass is nonzero; at the other frequencies the bandpass is zero and the
remainder is the gain. -/
theorem C37_bandpass_product (cast : R → K) (mag : K → R) (rmean : List R → R)
    (gain : ℕ → ℕ → K) (freqUse tileUse : List ℕ) (f t : ℕ) :
    let o := bandpassGlobal cast mag rmean gain freqUse tileUse
    (f ∈ freqUse → o.bandpass f t ≠ 0 →
      ∃ r, o.remainder f t = some r ∧ o.bandpass f t * r = gain f t) ∧
    (f ∈ freqUse → ∀ t', o.bandpass f t = o.bandpass f t') ∧
    (f ∉ freqUse → o.bandpass f t = 0 ∧ o.remainder f t = some (gain f t)) := by
  intro o
  refine ⟨?_, ?_, ?_⟩
  · intro hf hb
    simp only [o, bandpassGlobal, if_pos hf] at hb ⊢
    exact ⟨_, if_neg hb, by field_simp⟩
  · intro hf t'
    simp only [o, bandpassGlobal, if_pos hf]
  · intro hf
    simp only [o, bandpassGlobal, if_neg hf, and_self]

/-- **C37**, with cable groups: the same. -/
theorem C37_cable_bandpass_product (cast : R → K) (mag : K → R) (rmean : List R → R)
    (gain : ℕ → ℕ → K) (freqUse tileUse cables : List ℕ) (cable : ℕ → ℕ) (auto : Bool) (f t : ℕ) :
    let o := bandpassCable cast mag rmean gain freqUse tileUse cables cable auto
    (f ∈ freqUse → o.bandpass f t ≠ 0 →
      ∃ r, o.remainder f t = some r ∧ o.bandpass f t * r = gain f t) ∧
    (f ∉ freqUse → o.bandpass f t = 0 ∧ o.remainder f t = some (gain f t)) := by
  intro o
  refine ⟨?_, ?_⟩
  · intro hf hb
    simp only [o, bandpassCable, if_pos hf] at hb ⊢
    exact ⟨_, if_neg hb, by field_simp⟩
  · intro hf
    simp only [o, bandpassCable, if_neg hf, and_true]
    have : ∀ (l : List ℕ) (glob : Bool) (g2 : ℕ → ℕ → K), g2 f t = 0 →
        l.foldl (cableStep cast mag rmean gain freqUse tileUse cable glob) g2 f t = 0 := by
      intro l
      induction l with
      | nil => intro _ _ h; exact h
      | cons c l ih =>
        intro glob g2 h
        rw [List.foldl_cons]
        apply ih
        unfold cableStep
        rw [if_neg (fun hc => hf hc.1)]
        exact h
    exact this _ _ _ rfl

/-- The amplitude of a tile divided by its robust mean over the used frequencies (zero if that is zero),
and the robust mean of these over the tiles of a group. -/
def Spec.groupBandpass (mag : K → R) (rmean : List R → R) (gain : ℕ → ℕ → K) (freqUse : List ℕ)
    (group : List ℕ) (f : ℕ) : R :=
  rmean (group.map fun t =>
    if rmean (freqUse.map fun f' => mag (gain f' t)) = 0 then 0
    else mag (gain f t) / rmean (freqUse.map fun f' => mag (gain f' t)))

omit [DecidableEq K] [Field K] in
theorem bandpassSingle_eq (mag : K → R) (rmean : List R → R) (gain : ℕ → ℕ → K)
    (freqUse tiles : List ℕ) (f : ℕ) :
    bandpassSingle mag rmean gain freqUse tiles f = Spec.groupBandpass mag rmean gain freqUse tiles f := by
  unfold bandpassSingle Spec.groupBandpass
  congr 1
  apply List.map_congr_left
  intro t _
  simp only [ne_eq, ite_not]

/-- **C37**, which bandpass: when every cable length has a used tile and the auto ratios are not in
use, the bandpass of a used tile is that of the used tiles with its cable length, and that of a tile
not in use is zero. -/
theorem C37_cable_group (cast : R → K) (mag : K → R) (rmean : List R → R)
    (gain : ℕ → ℕ → K) (freqUse tileUse cables : List ℕ) (hnd : cables.Nodup) (cable : ℕ → ℕ)
    (hall : ∀ c ∈ cables, ∃ t ∈ tileUse, cable t = c) (hcov : ∀ t ∈ tileUse, cable t ∈ cables)
    (f t : ℕ) (hf : f ∈ freqUse) :
    (bandpassCable cast mag rmean gain freqUse tileUse cables cable false).bandpass f t
      = if t ∈ tileUse then cast (Spec.groupBandpass mag rmean gain freqUse
          (tileUse.filter fun t' => cable t' = cable t) f) else 0 := by
  rw [← bandpassSingle_eq]
  have hglob : (false || cables.any fun c => (tileUse.filter fun t => cable t = c).isEmpty)
      = false := by
    rw [Bool.false_or, List.any_eq_false]
    intro c hc
    obtain ⟨u, hu, huc⟩ := hall c hc
    rw [List.isEmpty_iff]
    exact List.ne_nil_of_mem (List.mem_filter.2 ⟨hu, by simpa using huc⟩)
  unfold bandpassCable
  simp only [hglob]
  have step : ∀ (l : List ℕ) (g2 : ℕ → ℕ → K), l.Nodup →
      l.foldl (cableStep cast mag rmean gain freqUse tileUse cable false) g2 f t
        = if t ∈ tileUse ∧ cable t ∈ l then cast (bandpassSingle mag rmean gain freqUse
          (tileUse.filter fun t' => cable t' = cable t) f) else g2 f t := by
    intro l
    induction l with
    | nil => intro g2 _; simp
    | cons c l ih =>
      intro g2 hl
      rw [List.foldl_cons, ih _ (List.nodup_cons.1 hl).2]
      by_cases ht : t ∈ tileUse
      · by_cases hc : cable t ∈ l
        · rw [if_pos ⟨ht, hc⟩, if_pos ⟨ht, List.mem_cons_of_mem _ hc⟩]
        · rw [if_neg (fun h => hc h.2)]
          unfold cableStep cableTiles
          simp only [Bool.false_eq_true, if_false]
          by_cases hcc : cable t = c
          · rw [if_pos ⟨hf, List.mem_filter.2 ⟨ht, by simpa using hcc⟩⟩,
              if_pos ⟨ht, by rw [hcc]; exact List.mem_cons_self ..⟩, hcc]
          · rw [if_neg, if_neg]
            · rintro ⟨_, h⟩
              rcases List.mem_cons.1 h with h | h
              · exact hcc h
              · exact hc h
            · rintro ⟨_, h⟩
              exact hcc (by simpa using (List.mem_filter.1 h).2)
      · rw [if_neg (fun h => ht h.1), if_neg (fun h => ht h.1)]
        unfold cableStep cableTiles
        simp only [Bool.false_eq_true, if_false]
        rw [if_neg (fun h => ht (List.mem_filter.1 h.2).1)]
  rw [step cables _ hnd]
  by_cases ht : t ∈ tileUse
  · rw [if_pos ⟨ht, hcov t ht⟩, if_pos ht]
  · rw [if_neg (fun h => ht h.1), if_neg ht]

/-- **C37**, what the bandpass is: if the amplitudes of the gains of all used tiles are a common shape
times a positive factor for each tile, the bandpass of every used tile is the shape, divided by
its robust mean over the used frequencies, for every robust mean that is homogeneous and keeps
constants. -/
theorem C37_common_shape [LinearOrder R] [IsStrictOrderedRing R] (cast : R → K) (mag : K → R)
    (rmean : List R → R) (hhom : ∀ (c : R) l, 0 < c → rmean (l.map fun x => c * x) = c * rmean l)
    (hconst : ∀ (x : R) n, rmean (List.replicate (n + 1) x) = x)
    (gain : ℕ → ℕ → K) (freqUse tileUse cables : List ℕ) (hnd : cables.Nodup) (cable : ℕ → ℕ)
    (hall : ∀ c ∈ cables, ∃ t ∈ tileUse, cable t = c) (hcov : ∀ t ∈ tileUse, cable t ∈ cables)
    (a : ℕ → R) (shape : ℕ → R) (ha : ∀ t ∈ tileUse, 0 < a t)
    (hs : ∀ f, ∀ t ∈ tileUse, mag (gain f t) = a t * shape f)
    (hm : rmean (freqUse.map shape) ≠ 0) (f t : ℕ) (hf : f ∈ freqUse) (ht : t ∈ tileUse) :
    (bandpassCable cast mag rmean gain freqUse tileUse cables cable false).bandpass f t
      = cast (shape f / rmean (freqUse.map shape)) := by
  rw [C37_cable_group cast mag rmean gain freqUse tileUse cables hnd cable hall hcov f t hf, if_pos ht]
  congr 1
  unfold Spec.groupBandpass
  have h1 : (tileUse.filter fun t' => cable t' = cable t).map (fun t =>
      if rmean (freqUse.map fun f' => mag (gain f' t)) = 0 then 0
      else mag (gain f t) / rmean (freqUse.map fun f' => mag (gain f' t)))
      = (tileUse.filter fun t' => cable t' = cable t).map
        (fun _ => shape f / rmean (freqUse.map shape)) := by
    apply List.map_congr_left
    intro u hu
    have hu' := (List.mem_filter.1 hu).1
    have h2 : rmean (freqUse.map fun f' => mag (gain f' u)) = a u * rmean (freqUse.map shape) := by
      rw [← hhom _ _ (ha u hu'), List.map_map]
      congr 1
      apply List.map_congr_left
      intro f' _
      exact hs f' u hu'
    have h3 := (ha u hu').ne'
    rw [h2, if_neg (mul_ne_zero h3 hm), hs f u hu']
    field_simp
  rw [h1, List.map_const']
  have h4 : 0 < (tileUse.filter fun t' => cable t' = cable t).length :=
    List.length_pos_of_mem (List.mem_filter.2 ⟨ht, by simp⟩)
  obtain ⟨k, hk⟩ := Nat.exists_eq_add_of_lt h4
  rw [hk, show 0 + k + 1 = k + 1 by omega]
  exact hconst _ _

/-- Mean as a stand-in for the robust mean. -/
def exMean (l : List ℚ) : ℚ := l.sum / l.length

/-- Three used tiles with two cable lengths, one tile not in use, two of three frequencies used. -/
def exBand : BandpassOut ℚ :=
  bandpassCable id (fun x => |x|) exMean (fun f t => 1 + f + f * t) [0, 2] [0, 1, 2] [5, 7]
    (fun t => if t = 1 then 7 else 5) false

example : (∀ c ∈ [5, 7], ∃ t ∈ [0, 1, 2], (if t = 1 then 7 else 5) = c) ∧
    exBand.bandpass 2 1 = 5 / 3 ∧ exBand.remainder 2 1 = some 3 ∧ exBand.bandpass 2 3 = 0 ∧
    exBand.remainder 2 3 = none ∧ exBand.bandpass 1 1 = 0 ∧ exBand.remainder 1 1 = some 3 := by
  decide +kernel

/-- The mean meets the hypotheses of `C37_common_shape`. -/
example : (∀ (c : ℚ) l, 0 < c → exMean (l.map fun x => c * x) = c * exMean l) ∧
    (∀ (x : ℚ) n, exMean (List.replicate (n + 1) x) = x) := by
  refine ⟨fun c l _ => ?_, fun x n => ?_⟩
  · unfold exMean
    rw [List.length_map, ← mul_div_assoc]
    congr 1
    induction l with
    | nil => simp
    | cons a l ih => rw [List.map_cons, List.sum_cons, List.sum_cons, ih, mul_add]
  · unfold exMean
    rw [List.sum_replicate, List.length_replicate, nsmul_eq_mul]
    have : ((n + 1 : ℕ) : ℚ) ≠ 0 := by positivity
    field_simp

end Bandpass

/-! ## C40 -/

section Adaptive

variable {R : Type} [Field R] [LinearOrder R] [IsStrictOrderedRing R]

/-- **C40.** For an iteration within the lists: the first three iterations use the base gain; later
the gain, when it is a number, is at least half the base gain and at most the larger of this
and `(1 + last gain) / 2`; it is stored at its place and the other entries are kept. -/
theorem C40_adaptive_gain (gains conv : List R) (iter : ℕ) (base : R) (final : Option R)
    (h1 : iter < gains.length) (h2 : 2 < iter → iter ≤ conv.length) :
    ∃ g l, calculateAdaptiveGain gains conv iter base final = .ok (g, l) ∧
      (iter ≤ 2 → g = some base) ∧
      (2 < iter → ∀ v, g = some v → base / 2 ≤ v ∧
        v ≤ max (base / 2) ((1 + gains.getD (iter - 1) 0) / 2)) ∧
      l.length = gains.length ∧ l[iter]? = some g ∧
      ∀ i < gains.length, i ≠ iter → l[i]? = some (gains[i]?) := by
  unfold calculateAdaptiveGain
  rw [if_pos ⟨h1, h2⟩]
  refine ⟨_, _, rfl, ?_, ?_, by simp, ?_, ?_⟩
  · intro h; rw [if_neg (by omega)]
  · intro h v hv
    rw [if_pos h] at hv
    unfold adaptiveGain at hv
    simp only [] at hv
    split_ifs at hv
    · injection hv with hv
      rw [← hv]; exact ⟨le_refl _, le_max_left _ _⟩
    · injection hv with hv
      rw [← hv]
      refine ⟨le_max_left _ _, max_le_max_left _ ?_⟩
      have := abs_nonneg (((final.getD (finalConvergence gains conv iter) * gains.getD (iter - 1) 0 +
        conv.getD (iter - 2) 0) / (base + gains.getD (iter - 1) 0) - conv.getD (iter - 1) 0) /
        ((conv.getD (iter - 2) 0 - final.getD (finalConvergence gains conv iter)) /
          (base + gains.getD (iter - 1) 0)))
      linarith
  · rw [List.getElem?_set_self (by simpa using h1)]
  · intro i hi hne
    rw [List.getElem?_set_ne (Ne.symm hne), List.getElem?_map, List.getElem?_eq_getElem hi]
    rfl

/-- **C40**, over a whole run: as long as the earlier gains lie between half the base gain and the
larger of the base gain and 1, so does the next one. -/
theorem C40_gain_stays_bounded (gains conv : List R) (iter : ℕ) (base : R) (hb : 0 ≤ base)
    (final : Option R) (h1 : iter < gains.length) (h2 : 2 < iter → iter ≤ conv.length)
    (hprev : ∀ i < iter, base / 2 ≤ gains.getD i 0 ∧ gains.getD i 0 ≤ max base 1) :
    ∃ g l, calculateAdaptiveGain gains conv iter base final = .ok (g, l) ∧
      ∀ v, g = some v → base / 2 ≤ v ∧ v ≤ max base 1 := by
  obtain ⟨g, l, e, e1, e2, _⟩ := C40_adaptive_gain gains conv iter base final h1 h2
  refine ⟨g, l, e, fun v hv => ?_⟩
  by_cases h : iter ≤ 2
  · rw [e1 h] at hv
    injection hv with hv
    rw [← hv]
    exact ⟨by linarith, le_max_left _ _⟩
  · obtain ⟨b1, b2⟩ := e2 (by omega) v hv
    refine ⟨b1, le_trans b2 (max_le ?_ ?_)⟩
    · exact le_trans (by linarith) (le_max_left _ _)
    · have := (hprev (iter - 1) (by omega)).2
      have h1' : (1 : R) ≤ max base 1 := le_max_right _ _
      linarith

/-- Iteration 4 with base gain 3/4. -/
example : calculateAdaptiveGain (R := ℚ) [3/4, 3/4, 3/4, 1/2, 0, 0] [1, 1/2, 1/3, 1/4, 0, 0] 4 (3/4) (some 0)
    = .ok (some (23/32), [some (3/4), some (3/4), some (3/4), some (1/2), some (23/32), some 0]) := by
  decide +kernel

/-- The lower bound is reached, and NaN is possible: all convergences zero. -/
example : (calculateAdaptiveGain (R := ℚ) [3/4, 3/4, 3/4, 1/2, 0] [1, 1/2, 1/3, 4, 0] 4 (3/4) none).map (·.1)
      = .ok (some (3/8)) ∧
    (calculateAdaptiveGain (R := ℚ) [3/4, 3/4, 3/4, 1/2, 0] [1, 1/2, 0, 0, 0] 4 (3/4) (some 0)).map (·.1)
      = .ok none := by decide +kernel

end Adaptive

end PyFHD
