import Verif.Model.Filters
import Verif.Lemmas.Histogram
import Mathlib.Algebra.Order.BigOperators.Group.List
import Mathlib.Tactic.FieldSimp
import Mathlib.Algebra.BigOperators.Field

/-!
# C33: `filter_uv_uniform`
-/

namespace PyFHD

variable {K : Type _} [Field K]

/-- The pixels over which the filter is to have mean 1: those of nonzero weight if weights of the
size of the image are given, those with a count of at least 1 otherwise. -/
def Spec.NormPixel (n : ℕ) (weights : Option (List ℚ)) (c : List ℚ) (i : ℕ) : Prop :=
  i < n ∧ match weights with
    | some w => if w.length = n then w.getD i 0 ≠ 0 else 1 ≤ c.getD i 0
    | none => 1 ≤ c.getD i 0

instance (n : ℕ) (weights : Option (List ℚ)) (c : List ℚ) (i : ℕ) :
    Decidable (Spec.NormPixel n weights c i) := by
  unfold Spec.NormPixel
  cases weights <;> infer_instance

open Spec

theorem filterEntry (x : ℚ) : weightInvertEntry (fun x : ℚ => |x|) id false (some 1) false x
    = if 1 ≤ x then 1 / x else 0 := by
  unfold weightInvertEntry npRecip
  simp only [Bool.or_self, Bool.false_eq_true, if_false, id, decide_eq_true_eq]
  by_cases h : 1 ≤ x
  · have : x ≠ 0 := ne_of_gt (by linarith)
    simp [h, this]
  · simp [h]

theorem getD_map_lt {α β : Type _} (f : α → β) (l : List α) (i : ℕ) (a : α) (b : β)
    (h : i < l.length) : (l.map f).getD i b = f (l.getD i a) := by
  simp only [List.getD, List.getElem?_map, List.getElem?_eq_getElem h, Option.map_some,
    Option.getD_some]

theorem getD_lt_get {α : Type _} (l : List α) (i : ℕ) (a : α) (h : i < l.length) :
    l.getD i a = l[i] := by
  simp only [List.getD, List.getElem?_eq_getElem h, Option.getD_some]

theorem zip_filter_sum {α β : Type _} (P : α → Prop) [DecidablePred P] (h : β → ℚ) (da : α) (db : β) :
    ∀ (w : List α) (f : List β), w.length = f.length →
      ((((w.zip f).filter fun p => decide (P p.1)).map fun p => h p.2).sum
        = ∑ i ∈ Finset.range f.length, if P (w.getD i da) then h (f.getD i db) else 0)
  | [], [], _ => by simp
  | a :: w, b :: f, hl => by
    have ih := zip_filter_sum P h da db w f (by simpa using hl)
    rw [List.length_cons, Finset.sum_range_succ']
    simp only [List.getD_cons_succ, List.getD_cons_zero]
    rw [← ih, List.zip_cons_cons]
    by_cases hp : P a
    · rw [List.filter_cons_of_pos (by simpa using hp), if_pos hp]; simp [add_comm]
    · rw [List.filter_cons_of_neg (by simpa using hp), if_neg hp]; simp

theorem filterSelected_sum (n : ℕ) (weights : Option (List ℚ)) (c : List ℚ) (hn : c.length = n)
    (h : ℚ → ℚ) :
    ((filterSelected n weights (c.map fun x => if 1 ≤ x then 1 / x else 0)).map h).sum
      = ∑ i ∈ Finset.range n, if NormPixel n weights c i then
          h (if 1 ≤ c.getD i 0 then 1 / c.getD i 0 else 0) else 0 := by
  set filt := c.map fun x => if 1 ≤ x then 1 / x else 0 with hf
  have hfl : filt.length = n := by simp [hf, hn]
  have hget : ∀ i < n, filt.getD i 0 = if 1 ≤ c.getD i 0 then 1 / c.getD i 0 else 0 := by
    intro i hi
    rw [hf, getD_map_lt _ c i 0 0 (by omega)]
  have hnz : ((filt.zip filt).filter (fun p => decide (p.1 ≠ 0)) |>.map (·.2) |>.map h).sum
      = ∑ i ∈ Finset.range n, if i < n ∧ 1 ≤ c.getD i 0 then
          h (if 1 ≤ c.getD i 0 then 1 / c.getD i 0 else 0) else 0 := by
    rw [List.map_map]
    have := zip_filter_sum (fun x : ℚ => x ≠ 0) h 0 0 filt filt rfl
    simp only [Function.comp_def]
    rw [this, hfl]
    refine Finset.sum_congr rfl fun i hi => ?_
    have hi' := Finset.mem_range.1 hi
    rw [hget i hi']
    by_cases h1 : 1 ≤ c.getD i 0
    · rw [if_pos h1]
      have : (1 / c.getD i 0 : ℚ) ≠ 0 := by
        have : (0 : ℚ) < c.getD i 0 := by linarith
        exact one_div_ne_zero this.ne'
      rw [if_pos this, if_pos ⟨hi', h1⟩]
    · have hc : ¬ (i < n ∧ 1 ≤ c.getD i 0) := fun hc => h1 hc.2
      rw [if_neg h1, if_neg hc, if_neg (not_not.2 rfl)]
  unfold filterSelected NormPixel
  cases weights with
  | none => simpa using hnz
  | some w =>
    simp only []
    by_cases hw : w.length = n
    · simp only [if_pos hw]
      rw [List.map_map]
      have := zip_filter_sum (fun x : ℚ => x ≠ 0) h 0 0 w filt (by omega)
      simp only [Function.comp_def]
      rw [this, hfl]
      refine Finset.sum_congr rfl fun i hi => ?_
      have hi' := Finset.mem_range.1 hi
      rw [hget i hi']
      have e : (i < n ∧ w.getD i 0 ≠ 0) ↔ w.getD i 0 ≠ 0 := and_iff_right hi'
      simp only [e]
    · simp only [if_neg hw]
      exact hnz

/-- **C33.** For a plane of counts, if some pixel that is to be normalised has a count of at least 1:
the filter is zero where the count is below 1, the same positive constant over the count elsewhere,
its mean over the pixels to be normalised is 1, and the image is multiplied by it. -/
theorem C33_filter_uv_uniform (image : List K) (c : List ℚ) (hlen : c.length = image.length)
    (hasObs : Bool) (count : Py (List ℚ)) (weights : Option (List ℚ))
    (hex : ∃ i, NormPixel image.length weights c i ∧ 1 ≤ c.getD i 0) :
    ∃ out filt, filterUvUniform image (some c) hasObs count weights = .ok (some (out, filt)) ∧
      filt.length = image.length ∧ out.length = image.length ∧
      (∃ s > 0, ∀ i < image.length,
        filt.getD i 0 = if c.getD i 0 < 1 then 0 else s / c.getD i 0) ∧
      (∑ i ∈ Finset.range image.length, if NormPixel image.length weights c i then
          filt.getD i 0 else 0)
        = ((Finset.range image.length).filter fun i =>
            NormPixel image.length weights c i).card ∧
      ∀ i < image.length, out.getD i 0 = image.getD i 0 * (filt.getD i 0 : ℚ) := by
  set n := image.length with hn
  set raw := c.map fun x => if 1 ≤ x then 1 / x else 0 with hraw
  set sel := filterSelected n weights raw with hsel
  have hS := filterSelected_sum n weights c hlen id
  have hL := filterSelected_sum n weights c hlen (fun _ => 1)
  rw [← hraw, ← hsel] at hS hL
  rw [List.map_id] at hS
  simp only [id] at hS
  have hlen' : (sel.length : ℚ) = ∑ i ∈ Finset.range n,
      if NormPixel n weights c i then (1 : ℚ) else 0 := by
    rw [← hL]; simp
  have hcard : (sel.length : ℚ)
      = ((Finset.range n).filter fun i => NormPixel n weights c i).card := by
    rw [hlen', Finset.sum_boole]
  obtain ⟨j, hj, hj1⟩ := hex
  have hjn : j < n := hj.1
  have hpos : 0 < sel.sum := by
    rw [hS]
    refine Finset.sum_pos' (fun i _ => ?_) ⟨j, Finset.mem_range.2 hjn, ?_⟩
    · split_ifs with h1 h2
      · have : (0 : ℚ) < c.getD i 0 := by linarith
        exact (one_div_pos.2 this).le
      · exact le_refl _
      · exact le_refl _
    · rw [if_pos hj, if_pos hj1]
      have : (0 : ℚ) < c.getD j 0 := by linarith
      exact one_div_pos.2 this
  have hselne : sel ≠ [] := by intro h; rw [h] at hpos; simp at hpos
  have hlpos : 0 < sel.length := List.length_pos_iff.2 hselne
  set m := sel.sum / sel.length with hm
  have hmpos : 0 < m := div_pos hpos (by exact_mod_cast hlpos)
  have hrawEq : c.map (weightInvertEntry (fun x : ℚ => |x|) id false (some 1) false) = raw := by
    rw [hraw]; exact List.map_congr_left fun x _ => filterEntry x
  refine ⟨List.zipWith (fun v (w : ℚ) => v * (w : K)) image (raw.map (· / m)), raw.map (· / m),
    ?_, ?_, ?_, ⟨1 / m, by positivity, ?_⟩, ?_, ?_⟩
  · unfold filterUvUniform filterCount
    simp only [bind, Except.bind]
    rw [hrawEq, ← hn, ← hsel, if_pos hlpos]
    unfold npMean
    rw [if_neg hselne, ← hm]
    simp only []
    rw [if_neg hmpos.ne']
    rfl
  · simp [hraw, hlen]
  · simp [hraw, hlen, ← hn]
  · intro i hi
    rw [getD_map_lt _ raw i 0 0 (by simp [hraw]; omega), hraw, getD_map_lt _ c i 0 0 (by omega)]
    by_cases h1 : 1 ≤ c.getD i 0
    · rw [if_pos h1, if_neg (not_lt.2 h1)]
      field_simp
    · rw [if_neg h1, if_pos (not_le.1 h1), zero_div]
  · have e : ∀ i ∈ Finset.range n, (if NormPixel n weights c i then (raw.map (· / m)).getD i 0 else 0)
        = (if NormPixel n weights c i then
            (if 1 ≤ c.getD i 0 then 1 / c.getD i 0 else 0) else 0) / m := by
      intro i hi
      have hi' := Finset.mem_range.1 hi
      have : (raw.map (· / m)).getD i 0 = (if 1 ≤ c.getD i 0 then 1 / c.getD i 0 else 0) / m := by
        rw [getD_map_lt _ raw i 0 0 (by simp [hraw]; omega), hraw, getD_map_lt _ c i 0 0 (by omega)]
      rw [this]
      split_ifs <;> simp
    rw [Finset.sum_congr rfl e, ← Finset.sum_div, ← hS, hm, ← hcard]
    field_simp
  · intro i hi
    have h1 : i < raw.length := by simp [hraw]; omega
    simp only [List.getD, List.getElem?_zipWith, List.getElem?_map]
    rw [List.getElem?_eq_getElem hi, List.getElem?_eq_getElem h1]
    simp

/-- **C33**, the other case of the quantifier: if all the pixels to be normalised have counts below 1,
no finite filter is returned. -/
theorem C33_no_finite_filter (image : List K) (c : List ℚ) (hlen : c.length = image.length)
    (hasObs : Bool) (count : Py (List ℚ)) (weights : Option (List ℚ))
    (hone : ∃ i, NormPixel image.length weights c i)
    (hno : ∀ i, NormPixel image.length weights c i → c.getD i 0 < 1) :
    filterUvUniform image (some c) hasObs count weights = .ok none := by
  set n := image.length with hn
  set raw := c.map fun x => if 1 ≤ x then 1 / x else 0 with hraw
  set sel := filterSelected n weights raw with hsel
  have hS := filterSelected_sum n weights c hlen id
  have hL := filterSelected_sum n weights c hlen (fun _ => 1)
  rw [← hraw, ← hsel] at hS hL
  rw [List.map_id] at hS
  have h0 : sel.sum = 0 := by
    rw [hS]
    refine Finset.sum_eq_zero fun i _ => ?_
    by_cases hp : NormPixel n weights c i
    · rw [if_pos hp, if_neg (not_le.2 (hno i hp))]; rfl
    · rw [if_neg hp]
  have hlpos : 0 < sel.length := by
    obtain ⟨i, hi⟩ := hone
    have : (0 : ℚ) < sel.length := by
      have e : (sel.length : ℚ) = (sel.map fun _ => (1 : ℚ)).sum := by simp
      rw [e, hL]
      exact Finset.sum_pos' (fun j _ => by split_ifs <;> norm_num)
        ⟨i, Finset.mem_range.2 hi.1, by rw [if_pos hi]; norm_num⟩
    exact_mod_cast this
  have hrawEq : c.map (weightInvertEntry (fun x : ℚ => |x|) id false (some 1) false) = raw := by
    rw [hraw]; exact List.map_congr_left fun x _ => filterEntry x
  unfold filterUvUniform filterCount
  simp only [bind, Except.bind]
  rw [hrawEq, ← hn, ← hsel, if_pos hlpos]
  unfold npMean
  rw [if_neg (List.length_pos_iff.1 hlpos), h0, zero_div]
  rfl

/-- **C33**, without counts and observation: weights of the size of the image take the place of the
counts. For weights that are not negative and not all zero, the filter is zero where the weight is zero,
the same positive constant over the weight elsewhere, and has mean 1 over the pixels of nonzero
weight. -/
theorem C33_from_weights (image : List K) (w : List ℚ) (hlen : w.length = image.length)
    (count : Py (List ℚ)) (hw : ∀ x ∈ w, 0 ≤ x) (hpos : ∃ x ∈ w, 0 < x) :
    ∃ out filt, filterUvUniform image none false count (some w) = .ok (some (out, filt)) ∧
      filt.length = image.length ∧ out.length = image.length ∧
      (∃ s > 0, ∀ i < image.length, filt.getD i 0 = if w.getD i 0 = 0 then 0 else s / w.getD i 0) ∧
      (∑ i ∈ Finset.range image.length, if w.getD i 0 ≠ 0 then filt.getD i 0 else 0)
        = ((Finset.range image.length).filter fun i => w.getD i 0 ≠ 0).card ∧
      ∀ i < image.length, out.getD i 0 = image.getD i 0 * (filt.getD i 0 : ℚ) := by
  have hne : w ≠ [] := by rintro rfl; obtain ⟨x, hx, _⟩ := hpos; simp at hx
  obtain ⟨M, hM⟩ := listMax?_isSome hne
  obtain ⟨hM1, hM2⟩ := listMax?_spec _ _ hM
  have hMpos : M ≠ 0 := by
    obtain ⟨x, hx, hx0⟩ := hpos
    have := hM2 x hx
    intro h
    rw [h] at this
    linarith
  set P := (w.filter fun x => 0 < x).map fun x => |x| with hP
  have hPmem : ∀ y, y ∈ P ↔ y ∈ w ∧ 0 < y := by
    intro y
    rw [hP, List.mem_map]
    constructor
    · rintro ⟨x, hx, rfl⟩
      rw [List.mem_filter, decide_eq_true_eq] at hx
      rw [abs_of_pos hx.2]
      exact hx
    · rintro ⟨h1, h2⟩
      exact ⟨y, List.mem_filter.2 ⟨h1, by simpa using h2⟩, abs_of_pos h2⟩
  have hPne : P ≠ [] := by
    obtain ⟨x, hx, hx0⟩ := hpos
    exact List.ne_nil_of_mem ((hPmem x).2 ⟨hx, hx0⟩)
  obtain ⟨lo, hlo⟩ := listMin?_isSome hPne
  obtain ⟨hlo1, hlo2⟩ := listMin?_spec _ _ hlo
  obtain ⟨hlow, hlo0⟩ := (hPmem lo).1 hlo1
  set c := w.map fun x => |x| / lo with hc
  have hclen : c.length = image.length := by rw [hc, List.length_map, hlen]
  have hcount : filterCount image.length none false count (some w) = .ok c := by
    unfold filterCount
    simp only [Bool.false_eq_true, if_false]
    rw [if_pos hlen, hM]
    simp only []
    rw [if_neg hMpos, ← hP, hlo]
  have heq : filterUvUniform image none false count (some w) =
      filterUvUniform image (some c) false count (some w) := by
    unfold filterUvUniform
    rw [hcount]
    rfl
  have hci : ∀ i < image.length, c.getD i 0 = w.getD i 0 / lo := by
    intro i hi
    rw [hc, getD_map_lt _ w i 0 0 (by omega), abs_of_nonneg]
    rw [getD_lt_get w i 0 (by omega)]
    exact hw _ (List.getElem_mem _)
  have hwi : ∀ i < image.length, w.getD i 0 = 0 ∨ lo ≤ w.getD i 0 := by
    intro i hi
    have hm : w.getD i 0 ∈ w := by
      rw [getD_lt_get w i 0 (by omega)]
      exact List.getElem_mem _
    rcases (hw _ hm).eq_or_lt with h | h
    · exact Or.inl h.symm
    · exact Or.inr (hlo2 _ ((hPmem _).2 ⟨hm, h⟩))
  have hnorm : ∀ i < image.length, (NormPixel image.length (some w) c i ↔ w.getD i 0 ≠ 0) := by
    intro i hi
    unfold NormPixel
    simp only [if_pos hlen, hi, true_and]
  obtain ⟨j, hj, hjlo⟩ := List.getElem_of_mem hlow
  have hjw : w.getD j 0 = lo := by rw [getD_lt_get w j 0 hj, hjlo]
  obtain ⟨out, filt, h1, h2, h3, ⟨s, hs, h4⟩, h5, h6⟩ := C33_filter_uv_uniform image c hclen false count
    (some w) ⟨j, (hnorm j (by omega)).2 (by rw [hjw]; exact hlo0.ne'), by
      rw [hci j (by omega), hjw, div_self hlo0.ne']⟩
  refine ⟨out, filt, by rw [heq, h1], h2, h3, ⟨s * lo, mul_pos hs hlo0, ?_⟩, ?_, h6⟩
  · intro i hi
    rw [h4 i hi, hci i hi]
    rcases hwi i hi with h | h
    · rw [h]; simp
    · have hp : 0 < w.getD i 0 := lt_of_lt_of_le hlo0 h
      rw [if_neg hp.ne', if_neg (not_lt.2 ((one_le_div hlo0).2 h))]
      field_simp
  · have e1 : ∀ i ∈ Finset.range image.length,
        (if w.getD i 0 ≠ 0 then filt.getD i 0 else 0) =
          if NormPixel image.length (some w) c i then filt.getD i 0 else 0 := by
      intro i hi
      simp only [hnorm i (Finset.mem_range.1 hi)]
    have e2 : (Finset.range image.length).filter (fun i => w.getD i 0 ≠ 0) =
        (Finset.range image.length).filter fun i => NormPixel image.length (some w) c i := by
      apply Finset.filter_congr
      intro i hi
      exact (hnorm i (Finset.mem_range.1 hi)).symm
    rw [Finset.sum_congr rfl e1, e2, h5]

/-- **C33**: with neither counts nor observation, weights of another size, or none, are refused. -/
theorem C33_no_counts_raises (image : List K) (count : Py (List ℚ)) (weights : Option (List ℚ))
    (h : ∀ w, weights = some w → w.length ≠ image.length) :
    filterUvUniform image none false count weights = .error .typeError := by
  unfold filterUvUniform filterCount
  cases weights with
  | none => rfl
  | some w =>
    simp only [Bool.false_eq_true, if_false]
    rw [if_neg (h w rfl)]
    rfl

example : filterUvUniform ([1, 1, 1, 2] : List ℚ) none false (.ok []) (some [2, 0, 4, 1])
      = .ok (some ([6/7, 0, 3/7, 24/7], [6/7, 0, 3/7, 12/7])) ∧
    filterUvUniform ([1, 1, 1, 2] : List ℚ) none false (.ok []) (some [2, 0, 4]) = .error .typeError := by
  decide +kernel

/-- Both kinds of weights meet the hypotheses; the mean of the filter over the pixels is 1. -/
example : NormPixel 4 (some [1, 1, 0, 1]) [2, 1/2, 3, 4] 0 ∧ NormPixel 4 none [2, 1/2, 3, 4] 2 ∧
    filterUvUniform ([1, 1, 1, 2] : List ℚ) (some [2, 1/2, 3, 4]) false (.ok []) (some [1, 1, 0, 1])
      = .ok (some ([2, 0, 4/3, 2], [2, 0, 4/3, 1])) ∧
    filterUvUniform ([1, 1, 1, 2] : List ℚ) (some [2, 1/2, 1, 4]) false (.ok []) none
      = .ok (some ([6/7, 0, 12/7, 6/7], [6/7, 0, 12/7, 3/7])) ∧
    filterUvUniform ([1, 1] : List ℚ) (some [1/2, 2]) false (.ok []) (some [1, 0])
      = .ok none := by decide +kernel

end PyFHD
