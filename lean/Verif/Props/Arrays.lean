import Verif.Lemmas.Arrays
import Verif.Spec.Arrays

/-!
# C05, C06, C10 - C13: array helpers
-/

namespace PyFHD

open Spec

/-! ## C05 -/

/-- **C05 (partial).** With a second array of the same length, when no value is listed an even
number of times, `array_match` returns exactly the ascending positions where one of the arrays
holds a listed value, and `-1` (`none`) when there are none. Missing: values listed an even
number of times (`C05_even_multiplicity_missed`) and the call without a second array
(`C05_single_array_fails`), where the code does not do this. -/
theorem C05_array_match_partial (a1 a2 values : List ℤ) (h1 : a1 ≠ [])
    (hlen : a2.length = a1.length) (hodd : ∀ v ∈ values, values.count v % 2 = 1) :
    arrayMatch a1 (some values) (some a2)
      = .ok (if matchPositions a1 a2 values = [] then none
          else some (matchPositions a1 a2 values)) := by
  have h2 : a2 ≠ [] := by
    rintro rfl
    exact h1 (List.length_eq_zero_iff.mp hlen.symm)
  have heq : oddMatches a1 a2 values = matchPositions a1 a2 values := by
    unfold oddMatches matchPositions
    have hf : (fun v : ℤ => decide (values.count v % 2 = 1)) = fun v => decide (v ∈ values) := by
      funext v
      rw [Bool.eq_iff_iff, decide_eq_true_eq, decide_eq_true_eq]
      constructor
      · intro h
        by_contra hc
        rw [List.count_eq_zero.mpr hc] at h
        omega
      · exact hodd v
    rw [hf]
  rw [arrayMatch_two a1 a2 values h1 h2 hlen, heq]

/-- The hypotheses hold for lists without repetitions. -/
example (values : List ℤ) (h : values.Nodup) : ∀ v ∈ values, values.count v % 2 = 1 :=
  fun v hv => by rw [List.count_eq_one_of_mem h hv]

example : matchPositions [3, 1, 4, 1] [5, 9, 3, 6] [3, 9] = [0, 1, 2] := by decide

/-- **C05 is violated**: a value listed an even number of times is never matched. If every listed
value is repeated an even number of times the answer is `-1` whatever the arrays hold. -/
theorem C05_even_multiplicity_missed (a1 a2 values : List ℤ) (h1 : a1 ≠ [])
    (hlen : a2.length = a1.length) (heven : ∀ v, values.count v % 2 = 0) :
    arrayMatch a1 (some values) (some a2) = .ok none := by
  have h2 : a2 ≠ [] := by
    rintro rfl
    exact h1 (List.length_eq_zero_iff.mp hlen.symm)
  have heq : oddMatches a1 a2 values = [] := by
    unfold oddMatches
    rw [List.filter_eq_nil_iff]
    intro p _
    have hf : (fun v : ℤ => decide (values.count v % 2 = 1)) = fun _ => false := by
      funext v
      have := heven v
      rw [decide_eq_false_iff_not]; omega
    rw [hf]
    simp [Option.any]
    constructor <;> split <;> rfl
  rw [arrayMatch_two a1 a2 values h1 h2 hlen, heq, if_pos rfl]

example : arrayMatch [5, 6] (some [5, 5]) (some [7, 8]) = .ok none ∧
    matchPositions [5, 6] [7, 8] [5, 5] = [0] := by decide +kernel

/-- **C05 is violated**: without a second array the call fails as soon as a value above the
smallest entry of the array, and not above the largest, is asked for (an odd number of times). -/
theorem C05_single_array_fails (a1 values : List ℤ) (x y v : ℤ) (hx : x ∈ a1) (hy : y ∈ a1)
    (hxv : x < v) (hvy : v ≤ y) (hodd : values.count v % 2 = 1) :
    arrayMatch a1 (some values) none = .error .nameError := by
  obtain ⟨m, hm⟩ : ∃ m, minZ? a1 = some m := by
    cases a1 with
    | nil => cases hx
    | cons a t => exact ⟨_, rfl⟩
  obtain ⟨M, hM⟩ : ∃ m, maxZ? a1 = some m := by
    cases a1 with
    | nil => cases hx
    | cons a t => exact ⟨_, rfl⟩
  have := (minZ?_spec hm).2 x hx
  have := (maxZ?_spec hM).2 y hy
  exact arrayMatch_none a1 values m M v hm hM (by omega) (by omega) hodd

example : arrayMatch [1, 2, 3] (some [2]) none = .error .nameError := by decide +kernel

/-! ## C06 -/

section WeightInvert

variable {K R : Type _} [Field K] [DecidableEq K] [Field R] [LinearOrder R]

theorem NpOut.toList_squeeze {α : Type _} (l : List α) : (NpOut.squeeze l).toList = l := by
  match l with
  | [] => rfl
  | [_] => rfl
  | _ :: _ :: _ => rfl

theorem weightInvert_toList (mag re : K → R) (isComplex : Bool) (ws : List K)
    (threshold : Option R) (useAbs : Bool) :
    (weightInvert mag re isComplex ws threshold useAbs).toList
      = ws.map (weightInvertEntry mag re isComplex threshold useAbs) :=
  NpOut.toList_squeeze _

/-- **C06**, without threshold: entry by entry, `1/w` where `w ≠ 0` and `0` where `w = 0`; no
entry is infinite. `mag` is the absolute value and `re` the real part (of a real array). -/
theorem C06_weight_invert (mag re : K → R) (hmag : ∀ w, mag w = 0 ↔ w = 0)
    (hre : ∀ w, re w = 0 ↔ w = 0) (isComplex useAbs : Bool) (ws : List K) :
    (weightInvert mag re isComplex ws none useAbs).toList
      = ws.map fun w => if w = 0 then 0 else 1 / w := by
  rw [weightInvert_toList]
  apply List.map_congr_left
  intro w _
  have huse : (if useAbs || isComplex then mag w else re w) = 0 ↔ w = 0 := by
    by_cases h : (useAbs || isComplex) = true
    · rw [if_pos h]; exact hmag w
    · rw [if_neg h]; exact hre w
  by_cases hw : w = 0
  · subst hw
    simp [weightInvertEntry, npRecip]
  · have : (if useAbs || isComplex then mag w else re w) ≠ 0 := fun h => hw (huse.mp h)
    unfold weightInvertEntry
    simp only [this, ne_eq, not_false_eq_true, decide_true, if_true, npRecip, hw, if_false,
      Option.getD_some, one_div]

/-- **C06**, with a threshold: an entry is inverted exactly when it (its absolute value, under
`use_abs` or for complex arrays) is at least the threshold and it is not zero. -/
theorem C06_weight_invert_threshold (mag re : K → R) (isComplex useAbs : Bool) (ws : List K)
    (t : R) (i : ℕ) (w : K) (hi : ws[i]? = some w) :
    (weightInvert mag re isComplex ws (some t) useAbs).toList.length = ws.length ∧
      (weightInvert mag re isComplex ws (some t) useAbs).toList[i]?
        = some (if w ≠ 0 ∧ t ≤ (if useAbs = true ∨ isComplex = true then mag w else re w)
            then 1 / w else 0) := by
  rw [weightInvert_toList]
  refine ⟨by simp, ?_⟩
  rw [List.getElem?_map, hi, Option.map_some]
  congr 1
  have huse : (if useAbs || isComplex then mag w else re w)
      = (if useAbs = true ∨ isComplex = true then mag w else re w) := by
    cases useAbs <;> cases isComplex <;> simp
  unfold weightInvertEntry
  simp only [huse]
  by_cases hw : w = 0
  · subst hw; simp [npRecip]
  · simp [npRecip, hw]

/-- **C06**, round trip: without threshold, inverting twice gives the weights back. -/
theorem C06_weight_invert_twice (mag re : K → R) (hmag : ∀ w, mag w = 0 ↔ w = 0)
    (hre : ∀ w, re w = 0 ↔ w = 0) (isComplex useAbs : Bool) (ws : List K) :
    (weightInvert mag re isComplex
      (weightInvert mag re isComplex ws none useAbs).toList none useAbs).toList = ws := by
  rw [C06_weight_invert mag re hmag hre, C06_weight_invert mag re hmag hre, List.map_map]
  conv_rhs => rw [← List.map_id ws]
  apply List.map_congr_left
  intro w _
  by_cases hw : w = 0
  · simp [hw]
  · simp [hw]

end WeightInvert

example : (weightInvert (K := ℚ) (R := ℚ) abs id false [2, 0, -4] none false).toList
    = [1 / 2, 0, -1 / 4] := by decide +kernel

example : (weightInvert (K := ℚ) (R := ℚ) abs id false [2, 0, -4] (some 1) true).toList
    = [1 / 2, 0, -1 / 4] := by decide +kernel

/-- **C06 does not extend to integer arrays**: the reciprocals are cast back to integers, so every
weight of absolute value two or more is inverted to zero. -/
theorem C06_integer_weights_vanish (ws : List ℤ) (h : ∀ w ∈ ws, 2 ≤ |w|) (useAbs : Bool) :
    weightInvertInt ws none useAbs = ws.map fun _ => some 0 := by
  unfold weightInvertInt
  apply List.map_congr_left
  intro w hw
  have h2 := h w hw
  have hw0 : w ≠ 0 := by rintro rfl; simp at h2
  have hne : (if useAbs then |w| else w) ≠ 0 := by
    split_ifs
    · exact abs_ne_zero.mpr hw0
    · exact hw0
  simp only [hne, ne_eq, not_false_eq_true, decide_true, if_true, hw0, if_false]
  congr 1
  unfold pyInt
  rcases abs_cases w with ⟨ha, hs⟩ | ⟨ha, hs⟩
  · have hq : (2 : ℚ) ≤ (w : ℚ) := by exact_mod_cast (ha ▸ h2)
    have hpos : (0 : ℚ) ≤ 1 / (w : ℚ) := by positivity
    rw [if_pos hpos, Int.floor_eq_zero_iff]
    refine ⟨hpos, ?_⟩
    rw [div_lt_one (by linarith)]; linarith
  · have hq : (w : ℚ) ≤ -2 := by
      have : w ≤ -2 := by omega
      exact_mod_cast this
    have hneg : ¬ (0 : ℚ) ≤ 1 / (w : ℚ) := by
      rw [not_le]
      exact div_neg_of_pos_of_neg one_pos (by linarith)
    rw [if_neg hneg, Int.ceil_eq_zero_iff]
    constructor
    · rw [lt_div_iff_of_neg (by linarith)]; linarith
    · exact le_of_lt (not_le.mp hneg)

example : weightInvertInt [2, -3, 7] none false = [some 0, some 0, some 0] := by decide +kernel

/-! ## C10 -/

/-- **C10.** `meshgrid(dimension, elements, axis)` has `elements` rows of `dimension` entries;
entry `(r, c)` is the row number for axis 2 and the column number otherwise. -/
theorem C10_meshgrid (dimension elements axis : ℕ) (r c : ℕ) (hr : r < elements)
    (hc : c < dimension) :
    (meshgrid dimension elements (some axis)).length = elements ∧
      ∃ row, (meshgrid dimension elements (some axis))[r]? = some row ∧
        row.length = dimension ∧ row[c]? = some (if axis = 2 then r else c) := by
  have hd : 0 < dimension := by omega
  refine ⟨by simp [meshgrid], ?_⟩
  simp only [meshgrid, List.getElem?_map, List.getElem?_range hr, Option.map_some,
    Option.some.injEq, exists_eq_left', List.length_map, List.length_range, true_and,
    List.getElem?_range hc]
  congr 1
  · rw [Nat.mul_comm, Nat.mul_add_div hd, Nat.div_eq_of_lt hc, Nat.add_zero]
  · rw [Nat.mul_comm, Nat.mul_add_mod, Nat.mod_eq_of_lt hc]

/-- **C10**, two arguments: the square case, the second argument being the axis. -/
theorem C10_meshgrid_square (n axis : ℕ) :
    meshgrid n axis none = meshgrid n n (some axis) := rfl

example : meshgrid 3 2 (some 1) = [[0, 1, 2], [0, 1, 2]] ∧
    meshgrid 3 2 (some 2) = [[0, 0, 0], [1, 1, 1]] := by decide

/-! ## C11 -/

/-- **C11.** For positive `n` there are `n` coefficients, highest power first, of
`(x-1)(x-2)...(x-(n-1))`. -/
theorem C11_deriv_coefficients (n : ℕ) (hn : 0 < n) :
    ∃ c, derivCoefficients n false = some c ∧ c.length = n ∧
      ∀ x : ℚ, ∑ i ∈ Finset.range n, c.getD i 0 * x ^ (n - 1 - i)
        = ∏ j ∈ Finset.range (n - 1), (x - ((j : ℚ) + 1)) := by
  obtain ⟨m, rfl⟩ := Nat.exists_eq_succ_of_ne_zero (Nat.ne_of_gt hn)
  refine ⟨derivState (m + 1) m, ?_, derivState_length _ _ hn, ?_⟩
  · have h0 : ¬ ((m + 1 : ℕ) : ℤ) ≤ 0 := by omega
    simp only [derivCoefficients, Nat.succ_eq_add_one, if_neg h0, Int.toNat_natCast,
      Nat.add_sub_cancel, Bool.false_eq_true, if_false]
    rfl
  · intro x
    exact derivState_eval (m + 1) m (Nat.lt_succ_self m) x

/-- **C11**, factorial division: entry `m` is divided by `(m+1)!`. -/
theorem C11_divide_factorial (n : ℕ) (c d : List ℚ) (hc : derivCoefficients n false = some c)
    (hd : derivCoefficients n true = some d) :
    d.length = c.length ∧ ∀ m, m < c.length → d.getD m 0 = c.getD m 0 / ((m + 1).factorial : ℚ) := by
  unfold derivCoefficients at hc hd
  by_cases h0 : (n : ℤ) ≤ 0
  · rw [if_pos h0] at hc; cases hc
  · rw [if_neg h0] at hc hd
    simp only [Bool.false_eq_true, if_false, if_true, Option.some.injEq] at hc hd
    rw [hc] at hd
    subst hd
    refine ⟨by simp, ?_⟩
    intro m hm
    simp only [List.getD_eq_getElem?_getD, List.getElem?_mapIdx, List.getElem?_eq_getElem hm,
      Option.map_some, Option.getD_some]

/-- **C11**, non-positive `n`: the scalar `0` (`none`). -/
theorem C11_nonpositive (n : ℤ) (b : Bool) : derivCoefficients n b = none ↔ n ≤ 0 := by
  unfold derivCoefficients
  by_cases h : n ≤ 0
  · simp [h]
  · simp [h]

example : derivCoefficients 4 false = some [1, -6, 11, -6] := by decide +kernel

/-! ## C12 -/

/-- **C12.** For a sorted array `idl_argunique` is the ascending list of the positions where a run
of equal entries ends. -/
theorem C12_idl_argunique (arr : List ℤ) (hs : arr.Pairwise (· ≤ ·)) :
    idlArgunique arr = (runEnds arr).map fun (i : ℕ) => (i : ℤ) := by
  have hval : idlArgunique arr = (npUnique arr).map fun v =>
      (arr.countP (fun x => decide (x ≤ v)) : ℤ) - 1 := by
    unfold idlArgunique
    apply List.map_congr_left
    intro v _
    rw [bsearchRight_spec hs v arr.length 0 arr.length (by omega) (Nat.zero_le _)
      List.countP_le_length le_rfl]
  have hsort1 : (idlArgunique arr).Pairwise (· < ·) := by
    rw [hval, List.pairwise_map]
    have hu := npUnique_sorted arr
    rw [List.pairwise_iff_forall_sublist] at hu ⊢
    intro a b hab
    have hlt := hu hab
    have hb : b ∈ arr := (mem_npUnique arr b).mp (hab.subset (by simp))
    have := countP_le_strictMono hlt hb
    omega
  have hsort2 : ((runEnds arr).map fun (i : ℕ) => (i : ℤ)).Pairwise (· < ·) := by
    rw [List.pairwise_map]
    unfold runEnds
    exact (List.pairwise_lt_range.filter _).imp (by intro a b h; omega)
  apply List.Perm.eq_of_pairwise (le := (· < ·)) _ hsort1 hsort2
  · rw [List.perm_ext_iff_of_nodup (hsort1.imp (fun h => ne_of_lt h))
      (hsort2.imp (fun h => ne_of_lt h))]
    intro z
    rw [hval, List.mem_map, List.mem_map]
    constructor
    · rintro ⟨v, hv, rfl⟩
      have hv' := (mem_npUnique arr v).mp hv
      have hpos : 0 < arr.countP (fun x => decide (x ≤ v)) :=
        List.countP_pos_iff.mpr ⟨v, hv', by simp⟩
      have hle := List.countP_le_length (p := fun x => decide (x ≤ v)) (l := arr)
      refine ⟨arr.countP (fun x => decide (x ≤ v)) - 1, ?_, by omega⟩
      unfold runEnds
      rw [List.mem_filter, List.mem_range, decide_eq_true_eq]
      refine ⟨by omega, ?_⟩
      by_cases hend : arr.countP (fun x => decide (x ≤ v)) = arr.length
      · left; omega
      · right
        have h1 : arr.countP (fun x => decide (x ≤ v)) - 1 + 1 < arr.length := by omega
        have h0 : arr.countP (fun x => decide (x ≤ v)) - 1 < arr.length := by omega
        rw [List.getElem?_eq_getElem h1, List.getElem?_eq_getElem h0]
        intro h
        have h' := Option.some.inj h
        have ha := (sorted_le_iff_lt_countP hs v _ h0).mpr (by omega)
        rw [← h'] at ha
        have := (sorted_le_iff_lt_countP hs v _ h1).mp ha
        omega
    · rintro ⟨i, hi, rfl⟩
      unfold runEnds at hi
      rw [List.mem_filter, List.mem_range, decide_eq_true_eq] at hi
      obtain ⟨hil, hend⟩ := hi
      refine ⟨arr[i], (mem_npUnique _ _).mpr (List.getElem_mem hil), ?_⟩
      have h1 := (sorted_le_iff_lt_countP hs arr[i] i hil).mp le_rfl
      have h2 : arr.countP (fun x => decide (x ≤ arr[i])) ≤ i + 1 := by
        by_contra hc
        have hle := List.countP_le_length (p := fun x => decide (x ≤ arr[i])) (l := arr)
        have hil1 : i + 1 < arr.length := by omega
        have h3 := (sorted_le_iff_lt_countP hs arr[i] (i + 1) hil1).mpr (by omega)
        have h4 := List.pairwise_iff_getElem.mp hs i (i + 1) hil hil1 (by omega)
        rcases hend with h | h
        · omega
        · apply h
          rw [List.getElem?_eq_getElem hil1, List.getElem?_eq_getElem hil]
          congr 1; omega
      omega
  · intro a b _ _ hab hba; omega

/-- **C12**, consequences: the indices are in bounds and point at each distinct value exactly
once. -/
theorem C12_idl_argunique_values (arr : List ℤ) (hs : arr.Pairwise (· ≤ ·)) (v : ℤ)
    (hv : v ∈ arr) : ∃! i : ℕ, (i : ℤ) ∈ idlArgunique arr ∧ arr[i]? = some v := by
  have hmem : ∀ i : ℕ, (i : ℤ) ∈ idlArgunique arr ↔ i ∈ runEnds arr := by
    intro i
    rw [C12_idl_argunique arr hs, List.mem_map]
    constructor
    · rintro ⟨j, hj, h⟩; have : j = i := by omega
      exact this ▸ hj
    · intro h; exact ⟨i, h, rfl⟩
  have hpos : 0 < arr.countP (fun x => decide (x ≤ v)) :=
    List.countP_pos_iff.mpr ⟨v, hv, by simp⟩
  have hle := List.countP_le_length (p := fun x => decide (x ≤ v)) (l := arr)
  obtain ⟨j, hj, hjv⟩ := List.mem_iff_getElem.mp hv
  have key : ∀ i (hi : i < arr.length), arr[i] = v →
      (i ∈ runEnds arr ↔ i + 1 = arr.countP (fun x => decide (x ≤ v))) := by
    intro i hi hiv
    have h1 := (sorted_le_iff_lt_countP hs v i hi).mp (le_of_eq hiv)
    unfold runEnds
    rw [List.mem_filter, List.mem_range, decide_eq_true_eq]
    constructor
    · rintro ⟨_, hend⟩
      by_contra hc
      have hil1 : i + 1 < arr.length := by omega
      have h3 := (sorted_le_iff_lt_countP hs v (i + 1) hil1).mpr (by omega)
      have h4 := List.pairwise_iff_getElem.mp hs i (i + 1) hi hil1 (by omega)
      rcases hend with h | h
      · omega
      · apply h
        rw [List.getElem?_eq_getElem hil1, List.getElem?_eq_getElem hi]
        congr 1; omega
    · intro h
      refine ⟨hi, ?_⟩
      by_cases hil1 : i + 1 < arr.length
      · right
        rw [List.getElem?_eq_getElem hil1, List.getElem?_eq_getElem hi]
        intro heq
        have := (sorted_le_iff_lt_countP hs v (i + 1) hil1).mp (by
          rw [Option.some.inj heq, hiv])
        omega
      · left; omega
  have h0 : arr.countP (fun x => decide (x ≤ v)) - 1 < arr.length := by omega
  have hval : arr[arr.countP (fun x => decide (x ≤ v)) - 1] = v := by
    have ha := (sorted_le_iff_lt_countP hs v _ h0).mpr (by omega)
    have hb := (sorted_le_iff_lt_countP hs v j hj).mp (le_of_eq hjv)
    have hc : arr[j] ≤ arr[arr.countP (fun x => decide (x ≤ v)) - 1] := by
      rcases Nat.lt_or_ge j (arr.countP (fun x => decide (x ≤ v)) - 1) with h | h
      · exact List.pairwise_iff_getElem.mp hs _ _ hj h0 h
      · have : j = arr.countP (fun x => decide (x ≤ v)) - 1 := by omega
        subst this; exact le_rfl
    omega
  refine ⟨arr.countP (fun x => decide (x ≤ v)) - 1, ⟨?_, ?_⟩, ?_⟩
  · rw [hmem, key _ h0 hval]; omega
  · rw [List.getElem?_eq_getElem h0, hval]
  · rintro i ⟨hi1, hi2⟩
    obtain ⟨hi, hiv⟩ := List.getElem?_eq_some_iff.mp hi2
    rw [hmem, key i hi hiv] at hi1
    omega

example : idlArgunique [1, 1, 4, 7, 7, 7, 9] = [1, 2, 5, 6] ∧
    runEnds [1, 1, 4, 7, 7, 7, 9] = [1, 2, 5, 6] := by decide +kernel

/-! ## C13 -/

/-- **C13 (partial).** For an even, non-zero number of samples `idl_median` is the upper of the
two middle samples. Missing: odd lengths, where the code returns another sample
(`C13_odd_length_off_by_one`). -/
theorem C13_idl_median_even_partial (x : List ℚ) (k : ℕ) (hk : 0 < k) (hlen : x.length = 2 * k) :
    ∃ v, idlMedian x = .ok v ∧ HasRank x k v := by
  obtain ⟨v, h1, h2, h3, h4⟩ := idlMedian_rank x (by omega)
  have : (x.length + 1) / 2 = k := by omega
  rw [this] at h3 h4
  exact ⟨v, h1, h2, h3, h4⟩

example : idlMedian [4, 1, 3, 2] = .ok 3 := by decide +kernel

/-- **C13 is violated** for odd lengths: with `2k+1` samples, `k ≥ 1`, the answer is the sample of
place `k+1` instead of the middle place `k`; a single sample raises. -/
theorem C13_odd_length_off_by_one (x : List ℚ) (k : ℕ) (hlen : x.length = 2 * k + 1) :
    (k = 0 → idlMedian x = .error .indexError) ∧
      (0 < k → ∃ v, idlMedian x = .ok v ∧ HasRank x (k + 1) v) := by
  constructor
  · rintro rfl
    have hl : (x.insertionSort (· ≤ ·)).length = x.length :=
      (List.perm_insertionSort _ x).length_eq
    unfold idlMedian
    rw [List.getElem?_eq_none (by omega)]
  · intro hk
    obtain ⟨v, h1, h2, h3, h4⟩ := idlMedian_rank x (by omega)
    have : (x.length + 1) / 2 = k + 1 := by omega
    rw [this] at h3 h4
    exact ⟨v, h1, h2, h3, h4⟩

/-- With distinct samples the returned one is not the middle one. -/
theorem C13_odd_length_not_middle (x : List ℚ) (k : ℕ) (hk : 0 < k) (hlen : x.length = 2 * k + 1)
    (hd : x.Nodup) : ∃ v, idlMedian x = .ok v ∧ ¬ HasRank x k v := by
  obtain ⟨v, h1, h2, h3, h4⟩ := (C13_odd_length_off_by_one x k hlen).2 hk
  refine ⟨v, h1, ?_⟩
  rintro ⟨_, h5, _⟩
  have hsplit : x.countP (fun y => decide (y ≤ v))
      = x.countP (fun y => decide (y < v)) + x.count v := by
    rw [List.count_eq_countP]
    clear * -
    induction x with
    | nil => rfl
    | cons a t ih =>
      simp only [List.countP_cons, ih, decide_eq_true_eq, beq_iff_eq]
      rcases lt_trichotomy a v with h | h | h
      · simp [h, le_of_lt h, ne_of_lt h]; omega
      · subst h; simp; omega
      · simp [not_le.mpr h, not_lt.mpr (le_of_lt h), ne_of_gt h]
  have := List.count_eq_one_of_mem hd h2
  omega

example : idlMedian [1, 2, 3] = .ok 3 := by decide +kernel

end PyFHD
