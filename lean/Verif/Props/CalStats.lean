import Verif.Model.CalStats
import Verif.Lemmas.Arrays
import Verif.Props.Histogram
import Verif.Props.SplitWeights
import Verif.Props.Healpix
import Verif.Props.Regions
import Mathlib.Algebra.BigOperators.Group.List.Basic
import Mathlib.Tactic.Ring
import Mathlib.Tactic.FieldSimp
import Mathlib.Tactic.Linarith
import Mathlib.Tactic.Positivity
import Mathlib.Tactic.LinearCombination
import Mathlib.Tactic.NormNum

/-!
# Properties of the statistics (C80, C81, C82)
-/

namespace PyFHD

open PyFHD.Spec

theorem getD_of_lt {α : Type _} {l : List α} {i : ℕ} {d : α} (h : i < l.length) :
    l.getD i d = l[i] := by simp [h]

section Resistant

variable {R : Type} [Field R] [LinearOrder R] [IsStrictOrderedRing R]

omit [IsStrictOrderedRing R] in
theorem npMedian_perm {a b : List R} (h : a.Perm b) : npMedian a = npMedian b := by
  have hs : a.insertionSort (· ≤ ·) = b.insertionSort (· ≤ ·) :=
    (((List.perm_insertionSort (· ≤ ·) a).trans h).trans
      (List.perm_insertionSort (· ≤ ·) b).symm).eq_of_pairwise'
      (List.pairwise_insertionSort _ a) (List.pairwise_insertionSort _ b)
  unfold npMedian
  rw [hs, h.length_eq]

theorem npMedian_affine (k c : R) (hk : 0 < k) {a : List R} (ha : a ≠ []) :
    npMedian (a.map fun x => k * x + c) = k * npMedian a + c := by
  have hs : (a.map fun x => k * x + c).insertionSort (· ≤ ·)
      = (a.insertionSort (· ≤ ·)).map fun x => k * x + c := by
    rw [List.map_insertionSort (r := (· ≤ ·)) (s := (· ≤ ·))]
    intro x _ y _
    constructor
    · intro h; nlinarith
    · intro h
      by_contra hlt
      have := mul_lt_mul_of_pos_left (not_le.mp hlt) hk
      linarith
  have hpos : 0 < a.length := List.length_pos_iff.mpr ha
  have hl : (a.insertionSort (· ≤ ·)).length = a.length := List.length_insertionSort _ a
  unfold npMedian
  simp only []
  rw [hs, List.length_map]
  have hg : ∀ i, i < a.length → ((a.insertionSort (· ≤ ·)).map fun x => k * x + c).getD i 0
      = k * (a.insertionSort (· ≤ ·)).getD i 0 + c := by
    intro i hi
    rw [getD_of_lt (by rw [List.length_map, hl]; exact hi),
      getD_of_lt (by rw [hl]; exact hi), List.getElem_map]
  rw [hg _ (by omega), hg _ (by omega)]
  ring

theorem npMedian_odd {a : List R} (h : a.length % 2 = 1) : npMedian a ∈ a := by
  have hl : (a.insertionSort (· ≤ ·)).length = a.length := List.length_insertionSort _ a
  have e : (a.length - 1) / 2 = a.length / 2 := by omega
  unfold npMedian
  simp only []
  rw [e, getD_of_lt (by rw [hl]; omega), add_self_div_two]
  exact (List.mem_insertionSort _).mp (List.getElem_mem _)

theorem npMedian_majority {a : List R} (m : R) (h : a.length < 2 * a.count m) :
    npMedian a = m := by
  set s := a.insertionSort (· ≤ ·) with hs
  have hperm : s.Perm a := List.perm_insertionSort _ a
  have hl : s.length = a.length := hperm.length_eq
  have hc : a.length < 2 * s.count m := by rw [hperm.count_eq]; exact h
  have hsort : s.Pairwise (· ≤ ·) := List.pairwise_insertionSort _ a
  have hget : ∀ i, (a.length - 1) / 2 ≤ i → i ≤ a.length / 2 → (hi : i < s.length) →
      s[i] = m := by
    intro i h1 h2 hi
    have hr := sorted_rank hsort i hi
    have hdis : ∀ (P : R → Bool), P m = false → s.countP P + s.count m ≤ s.length := by
      intro P hP
      rw [List.count_eq_countP]
      have : s.countP (fun x => x == m) ≤ s.countP (fun x => !P x) := by
        apply List.countP_mono_left
        intro x _ hx
        have : x = m := by simpa using hx
        subst this; simp [hP]
      have h3 := List.length_eq_countP_add_countP P (l := s)
      simp only [Bool.not_eq_true] at h3
      have h4 : s.countP (fun x => !P x) = s.countP (fun x => decide (P x = false)) := by
        congr 1; funext x; cases P x <;> rfl
      omega
    rcases lt_trichotomy s[i] m with hlt | heq | hgt
    · have := hdis (fun y => decide (y ≤ s[i])) (by simpa using hlt)
      omega
    · exact heq
    · have h5 := sorted_rank hsort i hi
      have : s.count m ≤ s.countP (fun y => decide (y < s[i])) := by
        rw [List.count_eq_countP]
        apply List.countP_mono_left
        intro x _ hx
        have : x = m := by simpa using hx
        subst this; simpa using hgt
      omega
  have hpos : 0 < a.length := by
    have := List.count_le_length (a := m) (l := a); omega
  unfold npMedian
  simp only [← hs]
  rw [getD_of_lt (by omega), getD_of_lt (by omega),
    hget _ le_rfl (by omega), hget _ (by omega) le_rfl, add_self_div_two]

theorem sum_gt_of_forall {l : List R} (hl : l ≠ []) (v : R) (h : ∀ x ∈ l, v < x) :
    (l.length : R) * v < l.sum := by
  induction l with
  | nil => exact absurd rfl hl
  | cons a t ih =>
    have ha := h a (List.mem_cons_self ..)
    rw [List.length_cons, List.sum_cons, Nat.cast_add, Nat.cast_one]
    by_cases ht : t = []
    · subst ht; simpa using ha
    · have := ih ht fun x hx => h x (List.mem_cons_of_mem _ hx)
      linarith

theorem sum_lt_of_forall {l : List R} (hl : l ≠ []) (v : R) (h : ∀ x ∈ l, x < v) :
    l.sum < (l.length : R) * v := by
  induction l with
  | nil => exact absurd rfl hl
  | cons a t ih =>
    have ha := h a (List.mem_cons_self ..)
    rw [List.length_cons, List.sum_cons, Nat.cast_add, Nat.cast_one]
    by_cases ht : t = []
    · subst ht; simpa using ha
    · have := ih ht fun x hx => h x (List.mem_cons_of_mem _ hx)
      linarith

theorem npMeanO_between {l : List R} {v : R} (h : npMeanO l = some v) :
    (∃ x ∈ l, x ≤ v) ∧ ∃ y ∈ l, v ≤ y := by
  unfold npMeanO at h
  split_ifs at h with hl
  obtain rfl := Option.some.inj h
  have hn : (0 : R) < (l.length : R) := by
    have := List.length_pos_iff.mpr hl
    exact_mod_cast this
  constructor
  · by_contra hc
    push Not at hc
    have := sum_gt_of_forall hl _ hc
    rw [mul_div_cancel₀ _ hn.ne'] at this
    exact lt_irrefl _ this
  · by_contra hc
    push Not at hc
    have := sum_lt_of_forall hl _ hc
    rw [mul_div_cancel₀ _ hn.ne'] at this
    exact lt_irrefl _ this

theorem npVar_nonneg (l : List R) : 0 ≤ npVar l := by
  unfold npVar
  apply div_nonneg _ (Nat.cast_nonneg _)
  apply List.sum_nonneg
  intro x hx
  obtain ⟨y, _, rfl⟩ := List.mem_map.mp hx
  positivity

/-- The factor by which a deviation is too small when values beyond `dev` deviations are left out. -/
def Spec.truncation (dev : R) : R :=
  let d := max 1 dev
  if d ≤ 45 / 10 then
    -15405 / 100000 + 90723 / 100000 * d - 23584 / 100000 * d ^ 2 + 20142 / 1000000 * d ^ 3
  else 1

/-- The values within `r` of `m`. -/
def Spec.withinOf (a : List R) (m r : R) : List R := a.filter fun x => |x - m| ≤ r

theorem truncation_pos (dev : R) : 0 < Spec.truncation dev := by
  unfold Spec.truncation
  simp only []
  split
  · have h : 1 ≤ max 1 dev := le_max_left _ _
    nlinarith [mul_nonneg (zero_le_one.trans h) (sq_nonneg (max 1 dev - 58545 / 10000))]
  · exact one_pos

theorem sigmaCorr_eq (dev : R) : sigmaCorr dev = Spec.truncation dev := by
  unfold sigmaCorr Spec.truncation sigmaPoly
  rw [max_comm]
  simp only [show (45 / 10 : R) = 9 / 2 by norm_num]
  split
  · ring
  · rfl

/-- **C80**, definition: with `m` the median and `sigma` the standard deviation of the values within
`dev` median absolute deviations (scaled by 1 / 0.6745) of it, the resistant mean is the mean of the
values within `dev` corrected deviations of `m`. -/
theorem C80_definition (a : List R) (dev sigma v : R) (hdev : 0 ≤ dev) (h0 : 0 ≤ sigma)
    (hs : sigma ^ 2 = npVar (Spec.withinOf a (npMedian a)
      (dev * (npMedian (a.map fun x => |x - npMedian a|) / (6745 / 10000))))) :
    resistantMean a dev = some v ↔
      Spec.withinOf a (npMedian a) (dev * (sigma / Spec.truncation dev)) ≠ [] ∧
      v * ((Spec.withinOf a (npMedian a) (dev * (sigma / Spec.truncation dev))).length : R) =
        (Spec.withinOf a (npMedian a) (dev * (sigma / Spec.truncation dev))).sum := by
  have hk := truncation_pos dev
  have e : (a.filter fun x => (x - npMedian a) ^ 2 * sigmaCorr dev ^ 2 ≤
      npVar (noOutliers a dev) * dev ^ 2) =
      Spec.withinOf a (npMedian a) (dev * (sigma / Spec.truncation dev)) := by
    unfold Spec.withinOf
    refine List.filter_congr ?_
    intro x _
    rw [decide_eq_decide, sigmaCorr_eq]
    have e1 : npVar (noOutliers a dev) = sigma ^ 2 := hs.symm
    rw [e1, ← mul_pow, ← mul_pow, sq_le_sq, abs_mul, abs_of_pos hk,
      abs_of_nonneg (mul_nonneg h0 hdev), ← mul_div_assoc, le_div_iff₀ hk, mul_comm dev sigma]
  unfold resistantMean npMeanO
  simp only []
  rw [e]
  by_cases hne : Spec.withinOf a (npMedian a) (dev * (sigma / Spec.truncation dev)) = []
  · simp [hne]
  · rw [if_neg hne]
    have hl : ((Spec.withinOf a (npMedian a) (dev * (sigma / Spec.truncation dev))).length : R) ≠ 0 :=
      Nat.cast_ne_zero.mpr (by intro h; exact hne (List.length_eq_zero_iff.mp h))
    constructor
    · intro h
      cases h
      exact ⟨hne, div_mul_cancel₀ _ hl⟩
    · rintro ⟨_, h⟩
      rw [← h, mul_div_cancel_right₀ _ hl]

/-- **C80**, range: whenever the resistant mean exists it lies between two of the data. -/
theorem C80_within (a : List R) (dev v : R) (h : resistantMean a dev = some v) :
    (∃ x ∈ a, x ≤ v) ∧ ∃ y ∈ a, v ≤ y := by
  obtain ⟨⟨x, hx, h1⟩, y, hy, h2⟩ := npMeanO_between h
  exact ⟨⟨x, List.mem_of_mem_filter hx, h1⟩, y, List.mem_of_mem_filter hy, h2⟩

/-- **C80**, existence, proved for an odd number of data only: there is a resistant mean. -/
theorem C80_odd_exists_partial (a : List R) (dev : R) (h : a.length % 2 = 1) :
    ∃ v, resistantMean a dev = some v := by
  unfold resistantMean npMeanO
  simp only []
  rw [if_neg]
  · exact ⟨_, rfl⟩
  · intro h0
    have hm := npMedian_odd h
    have : npMedian a ∈ a.filter fun x =>
        (x - npMedian a) ^ 2 * sigmaCorr dev ^ 2 ≤ npVar (noOutliers a dev) * dev ^ 2 := by
      rw [List.mem_filter]
      refine ⟨hm, ?_⟩
      simp only [sub_self, ne_eq, OfNat.ofNat_ne_zero, not_false_eq_true, zero_pow, zero_mul,
        decide_eq_true_eq]
      exact mul_nonneg (npVar_nonneg _) (sq_nonneg _)
    rw [h0] at this
    cases this

/-- **C80**, order: the order of the data does not matter. -/
theorem C80_order (a b : List R) (dev : R) (h : a.Perm b) :
    resistantMean a dev = resistantMean b dev := by
  have hm := npMedian_perm h
  have hvar : npVar (noOutliers a dev) = npVar (noOutliers b dev) := by
    have hp : (noOutliers a dev).Perm (noOutliers b dev) := by
      unfold noOutliers
      simp only []
      rw [hm, npMedian_perm (h.map fun x => |x - npMedian b|)]
      exact h.filter _
    unfold npVar
    rw [hp.sum_eq, hp.length_eq, (hp.map _).sum_eq]
  unfold resistantMean
  simp only []
  rw [hm, hvar]
  set P : R → Bool := fun x => decide
    ((x - npMedian b) ^ 2 * sigmaCorr dev ^ 2 ≤ npVar (noOutliers b dev) * dev ^ 2)
  have hp : (a.filter P).Perm (b.filter P) := h.filter _
  unfold npMeanO
  have he : a.filter P = [] ↔ b.filter P = [] := by
    rw [← List.length_eq_zero_iff, ← List.length_eq_zero_iff, hp.length_eq]
  by_cases h0 : b.filter P = []
  · rw [if_pos h0, if_pos (he.mpr h0)]
  · rw [if_neg h0, if_neg fun h => h0 (he.mp h), hp.sum_eq, hp.length_eq]

theorem sum_affine (k c : R) (l : List R) :
    (l.map fun x => k * x + c).sum = k * l.sum + (l.length : R) * c := by
  induction l with
  | nil => simp
  | cons a t ih =>
    rw [List.map_cons, List.sum_cons, ih, List.sum_cons, List.length_cons]
    push_cast; ring

theorem npVar_affine (k c : R) (l : List R) :
    npVar (l.map fun x => k * x + c) = k ^ 2 * npVar l := by
  by_cases hl : l = []
  · subst hl; simp [npVar]
  have hn : (l.length : R) ≠ 0 := by
    have := List.length_pos_iff.mpr hl
    have h : (0 : R) < (l.length : R) := by exact_mod_cast this
    exact h.ne'
  unfold npVar
  rw [sum_affine, List.length_map, List.map_map, ← mul_div_assoc, ← List.sum_map_mul_left]
  congr 2
  apply List.map_congr_left
  intro x _
  simp only [Function.comp_apply]
  field_simp
  ring

/-- **C80**, units: another unit or zero point of the data is another unit or zero point of the
resistant mean. -/
theorem C80_affine (a : List R) (dev k c : R) (hk : 0 < k) :
    resistantMean (a.map fun x => k * x + c) dev
      = (resistantMean a dev).map fun v => k * v + c := by
  by_cases ha : a = []
  · subst ha; simp [resistantMean, npMeanO]
  set f : R → R := fun x => k * x + c with hf
  have hm : npMedian (a.map f) = k * npMedian a + c := npMedian_affine k c hk ha
  have hno : noOutliers (a.map f) dev = (noOutliers a dev).map f := by
    have hdev : (a.map f).map (fun x => |x - npMedian (a.map f)|)
        = (a.map fun x => |x - npMedian a|).map fun y => k * y + 0 := by
      rw [List.map_map, List.map_map]
      apply List.map_congr_left
      intro x _
      rw [Function.comp_apply, Function.comp_apply, hm]
      simp only [hf, add_zero]
      rw [show k * x + c - (k * npMedian a + c) = k * (x - npMedian a) by ring, abs_mul,
        abs_of_pos hk]
    unfold noOutliers
    simp only []
    rw [hdev, npMedian_affine k 0 hk (by simpa using ha), List.filter_map, hm]
    congr 1
    apply List.filter_congr
    intro x _
    simp only [Function.comp_apply, hf, add_zero]
    rw [show k * x + c - (k * npMedian a + c) = k * (x - npMedian a) by ring, abs_mul,
      abs_of_pos hk, mul_div_assoc, mul_left_comm]
    exact decide_eq_decide.mpr (mul_le_mul_iff_right₀ hk)
  have hsub : (a.map f).filter (fun x => (x - npMedian (a.map f)) ^ 2 * sigmaCorr dev ^ 2
        ≤ npVar (noOutliers (a.map f) dev) * dev ^ 2)
      = (a.filter fun x => (x - npMedian a) ^ 2 * sigmaCorr dev ^ 2
        ≤ npVar (noOutliers a dev) * dev ^ 2).map f := by
    rw [List.filter_map, hno, hm, npVar_affine]
    congr 1
    apply List.filter_congr
    intro x _
    simp only [Function.comp_apply, hf]
    rw [show (k * x + c - (k * npMedian a + c)) ^ 2 * sigmaCorr dev ^ 2
        = k ^ 2 * ((x - npMedian a) ^ 2 * sigmaCorr dev ^ 2) by ring, mul_assoc (k ^ 2)]
    exact decide_eq_decide.mpr (mul_le_mul_iff_right₀ (by positivity))
  unfold resistantMean
  simp only []
  rw [hsub]
  generalize a.filter _ = l
  unfold npMeanO
  by_cases hl : l = []
  · subst hl; simp
  · have hn : (l.length : R) ≠ 0 := by
      have := List.length_pos_iff.mpr hl
      have h : (0 : R) < (l.length : R) := by exact_mod_cast this
      exact h.ne'
    rw [if_neg (by simpa using hl), if_neg hl, Option.map_some, hf, sum_affine, List.length_map]
    congr 1
    field_simp

/-- **C80**, robustness: when more than half of the data are equal, that value is the resistant mean,
whatever the others are. -/
theorem C80_majority (a : List R) (dev m : R) (hd : dev ≠ 0) (hc : sigmaCorr dev ≠ 0)
    (h : a.length < 2 * a.count m) : resistantMean a dev = some m := by
  have hm := npMedian_majority m h
  have hmad : npMedian (a.map fun x => |x - m|) = 0 := by
    apply npMedian_majority
    rw [List.length_map]
    refine lt_of_lt_of_le h (Nat.mul_le_mul_left 2 ?_)
    rw [List.count_eq_countP, List.count_eq_countP, List.countP_map]
    apply List.countP_mono_left
    intro x _ hx
    have : x = m := by simpa using hx
    simp [this]
  have hno : noOutliers a dev = a.filter fun x => x = m := by
    unfold noOutliers
    simp only []
    rw [hm, hmad]
    apply List.filter_congr
    intro x _
    rw [zero_div, mul_zero]
    apply decide_eq_decide.mpr
    rw [abs_nonpos_iff, sub_eq_zero]
  have hrep : ∃ n, 0 < n ∧ a.filter (fun x => x = m) = List.replicate n m := by
    refine ⟨(a.filter fun x => x = m).length, ?_, ?_⟩
    · rw [← List.countP_eq_length_filter]
      have : a.countP (fun x => decide (x = m)) = a.count m := by
        rw [List.count_eq_countP]; congr 1
      rw [this]; omega
    · rw [List.eq_replicate_iff]
      exact ⟨rfl, fun b hb => by simpa using (List.mem_filter.mp hb).2⟩
  obtain ⟨n, hn, hr⟩ := hrep
  have hn' : (n : R) ≠ 0 := by exact_mod_cast hn.ne'
  have hvar : npVar (noOutliers a dev) = 0 := by
    rw [hno, hr]
    simp [npVar, hn']
  have hsub : (a.filter fun x => (x - m) ^ 2 * sigmaCorr dev ^ 2
      ≤ npVar (noOutliers a dev) * dev ^ 2) = a.filter fun x => x = m := by
    apply List.filter_congr
    intro x _
    rw [hvar, zero_mul]
    apply decide_eq_decide.mpr
    constructor
    · intro hle
      have h0 : (x - m) ^ 2 * sigmaCorr dev ^ 2 = 0 := le_antisymm hle (by positivity)
      rcases mul_eq_zero.mp h0 with h1 | h1
      · exact sub_eq_zero.mp (pow_eq_zero_iff (by norm_num) |>.mp h1)
      · exact absurd (pow_eq_zero_iff (by norm_num) |>.mp h1) hc
    · rintro rfl; simp
  unfold resistantMean
  simp only []
  rw [hm, hsub, hr]
  unfold npMeanO
  rw [if_neg (by simpa using hn.ne')]
  simp [hn']

/-- The correction for the two deviations used by PyFHD. -/
theorem sigmaCorr_two : sigmaCorr (2 : R) = 878186 / 1000000 := by
  unfold sigmaCorr
  rw [max_eq_left (by norm_num), if_pos (by norm_num)]
  unfold sigmaPoly
  norm_num

/-- **C80** is violated for an even number of data: `k ≥ 19` data with one value `a`, one with `b`
and `k - 1` with values at least twice as far away have no resistant mean, the function returns
`NaN`. -/
theorem C80_even_undefined (k : ℕ) (hk : 19 ≤ k) (a b c : R) (hab : a < b)
    (hc : 2 * (b - a) ≤ c - a) :
    resistantMean (List.replicate k a ++ b :: List.replicate (k - 1) c) 2 = none := by
  set l := List.replicate k a ++ b :: List.replicate (k - 1) c with hl
  have hbc : b < c := by linarith
  have hlen : l.length = 2 * k := by simp [hl]; omega
  have hmed : ∀ x y z : R, x ≤ y → y ≤ z →
      npMedian (List.replicate k x ++ y :: List.replicate (k - 1) z) = (x + y) / 2 := by
    intro x y z hxy hyz
    have hs : (List.replicate k x ++ y :: List.replicate (k - 1) z).Pairwise (· ≤ ·) := by
      rw [List.pairwise_append]
      refine ⟨List.pairwise_replicate.mpr (Or.inr le_rfl), ?_, ?_⟩
      · rw [List.pairwise_cons]
        exact ⟨fun w hw => by rw [(List.mem_replicate.mp hw).2]; exact hyz,
          List.pairwise_replicate.mpr (Or.inr le_rfl)⟩
      · intro u hu w hw
        rw [(List.mem_replicate.mp hu).2]
        rcases List.mem_cons.mp hw with rfl | hw
        · exact hxy
        · rw [(List.mem_replicate.mp hw).2]; exact hxy.trans hyz
    unfold npMedian
    simp only []
    rw [hs.insertionSort_eq]
    have e : (List.replicate k x ++ y :: List.replicate (k - 1) z).length = 2 * k := by
      simp; omega
    rw [e, show (2 * k - 1) / 2 = k - 1 by omega, show 2 * k / 2 = k by omega]
    rw [getD_of_lt (by omega), getD_of_lt (by omega), List.getElem_append_left (by simp; omega),
      List.getElem_append_right (by simp)]
    simp
  have hm : npMedian l = (a + b) / 2 := hmed a b c hab.le hbc.le
  have hda : |a - (a + b) / 2| = (b - a) / 2 := by
    rw [abs_of_nonpos (by linarith)]; ring
  have hdb : |b - (a + b) / 2| = (b - a) / 2 := by
    rw [abs_of_nonneg (by linarith)]; ring
  have hdc : |c - (a + b) / 2| = c - (a + b) / 2 := abs_of_nonneg (by linarith)
  have hmad : npMedian (l.map fun x => |x - npMedian l|) = (b - a) / 2 := by
    rw [hm, hl, List.map_append, List.map_cons, List.map_replicate, List.map_replicate, hda, hdb,
      hdc, hmed _ _ _ le_rfl (by linarith)]
    ring
  have hno : noOutliers l 2 = List.replicate k a ++ [b] := by
    unfold noOutliers
    simp only []
    rw [hmad, hm, hl, List.filter_append, List.filter_cons, List.filter_replicate,
      List.filter_replicate, hda, hdb, hdc]
    have h1 : (b - a) / 2 ≤ 2 * ((b - a) / 2 / (6745 / 10000)) := by
      rw [div_div_eq_mul_div, ← mul_div_assoc, le_div_iff₀ (by norm_num)]; linarith
    have h2 : ¬ c - (a + b) / 2 ≤ 2 * ((b - a) / 2 / (6745 / 10000)) := by
      rw [not_le, div_div_eq_mul_div, ← mul_div_assoc, div_lt_iff₀ (by norm_num)]
      have hpos : 0 < b - a := by linarith
      nlinarith
    simp [h1, h2]
  have hk1 : ((k : R) + 1) ≠ 0 := by positivity
  have hvar : npVar (noOutliers l 2) = (b - a) ^ 2 * k / ((k : R) + 1) ^ 2 := by
    rw [hno]
    unfold npVar
    simp only [List.sum_append, List.sum_replicate, List.sum_cons, List.sum_nil, add_zero,
      List.length_append, List.length_replicate, List.length_cons, List.length_nil, zero_add,
      Nat.cast_add, Nat.cast_one, List.map_append, List.map_replicate, List.map_cons, List.map_nil,
      nsmul_eq_mul]
    field_simp
    ring
  have hkey : 16 * (k : R) < (878186 / 1000000) ^ 2 * ((k : R) + 1) ^ 2 := by
    have : (19 : R) ≤ k := by exact_mod_cast hk
    nlinarith
  have hbig : (b - a) ^ 2 * k / ((k : R) + 1) ^ 2 * 2 ^ 2
      < ((b - a) / 2) ^ 2 * (878186 / 1000000) ^ 2 := by
    rw [div_mul_eq_mul_div, div_lt_iff₀ (by positivity)]
    have hpos : 0 < (b - a) ^ 2 := by have : 0 < b - a := by linarith
                                      positivity
    nlinarith
  unfold resistantMean
  simp only []
  rw [hm, hvar, sigmaCorr_two]
  have hnil : l.filter (fun x => decide ((x - (a + b) / 2) ^ 2 * (878186 / 1000000) ^ 2
      ≤ (b - a) ^ 2 * k / ((k : R) + 1) ^ 2 * 2 ^ 2)) = [] := by
    rw [List.filter_eq_nil_iff]
    intro x hx
    rw [decide_eq_true_eq, not_le]
    refine lt_of_lt_of_le hbig (mul_le_mul_of_nonneg_right ?_ (by positivity))
    have hx' : x = a ∨ x = b ∨ x = c := by
      rw [hl, List.mem_append, List.mem_cons] at hx
      rcases hx with h | h | h
      · exact Or.inl (List.mem_replicate.mp h).2
      · exact Or.inr (Or.inl h)
      · exact Or.inr (Or.inr (List.mem_replicate.mp h).2)
    rcases hx' with rfl | rfl | rfl
    · exact le_of_eq (by ring)
    · exact le_of_eq (by ring)
    · have : 0 < b - a := by linarith
      nlinarith
  rw [hnil]
  rfl

/-- 19 times 0, once 1, 18 times 2: no resistant mean. -/
example : resistantMean (List.replicate 19 (0 : ℚ) ++ 1 :: List.replicate 18 2) 2 = none :=
  C80_even_undefined 19 le_rfl 0 1 2 (by norm_num) (by norm_num)

example : resistantMean [1, 1, 1, 3, 3, 3, (50 : ℚ)] 2 = some 2 ∧ (0 : ℚ) ≤ 2 ∧ (0 : ℚ) ≤ 1 ∧
    (1 : ℚ) ^ 2 = npVar (Spec.withinOf [1, 1, 1, 3, 3, 3, 50] (npMedian [1, 1, 1, 3, 3, 3, 50])
      (2 * (npMedian ([1, 1, 1, 3, 3, 3, 50].map fun x => |x - npMedian [1, 1, 1, 3, 3, 3, (50 : ℚ)]|) /
        (6745 / 10000)))) := by decide +kernel

/-- Outliers are left out. -/
example : resistantMean [3, 3, 1000, 3, -7, (3 : ℚ), 4] 2 = some 3 :=
  C80_majority _ 2 3 (by norm_num) (by rw [sigmaCorr_two]; norm_num) (by decide +kernel)

example : resistantMean [1, 2, 3, 4, (100 : ℚ)] 2 = some (5 / 2) := by decide +kernel

end Resistant

/-! ## Noise -/

/-- The double sum over pairs of a list. -/
theorem sum_sq_pairs (l : List ℚ) :
    (l.map fun x => (l.map fun y => (x - y) ^ 2).sum).sum
      = 2 * (l.length : ℚ) * (l.map fun x => x ^ 2).sum - 2 * l.sum ^ 2 := by
  have h1 : ∀ (m : List ℚ) (x : ℚ), (m.map fun y => (x - y) ^ 2).sum
      = (m.length : ℚ) * x ^ 2 - 2 * x * m.sum + (m.map fun y => y ^ 2).sum := by
    intro m x
    induction m with
    | nil => simp
    | cons a t ih =>
      simp only [List.map_cons, List.sum_cons, ih, List.length_cons]
      push_cast; ring
  have h2 : ∀ m : List ℚ, (m.map fun x => (l.map fun y => (x - y) ^ 2).sum).sum
      = (l.length : ℚ) * (m.map fun x => x ^ 2).sum - 2 * m.sum * l.sum
        + (m.length : ℚ) * (l.map fun y => y ^ 2).sum := by
    intro m
    induction m with
    | nil => simp
    | cons a t ih =>
      simp only [List.map_cons, List.sum_cons, ih, h1 l a, List.length_cons]
      push_cast; ring
  rw [h2 l]; ring

theorem npVar_pairs (l : List ℚ) (hl : l ≠ []) :
    2 * (l.length : ℚ) ^ 2 * npVar l = (l.map fun x => (l.map fun y => (x - y) ^ 2).sum).sum := by
  have hn : (l.length : ℚ) ≠ 0 := by
    have := List.length_pos_iff.mpr hl
    exact_mod_cast this.ne'
  have h1 : ∀ (m : List ℚ) (c : ℚ), (m.map fun y => (y - c) ^ 2).sum
      = (m.map fun y => y ^ 2).sum - 2 * c * m.sum + (m.length : ℚ) * c ^ 2 := by
    intro m c
    induction m with
    | nil => simp
    | cons a t ih =>
      simp only [List.map_cons, List.sum_cons, ih, List.length_cons]
      push_cast; ring
  rw [sum_sq_pairs]
  unfold npVar
  rw [h1]
  field_simp
  ring

/-- The pairs of an even and an odd sample that are both unflagged. -/
def GoodPair (w : Weights) (e d : List ℕ) (p f i j : ℕ) : Prop :=
  (∃ k : ℕ, e[k]? = some i ∧ d[k]? = some j) ∧ 0 < w p f i ∧ 0 < w p f j

theorem mem_zip_iff {e d : List ℕ} {q : ℕ × ℕ} :
    q ∈ e.zip d ↔ ∃ k : ℕ, e[k]? = some q.1 ∧ d[k]? = some q.2 := by
  rw [List.mem_iff_getElem?]
  constructor
  · rintro ⟨k, hk⟩
    rw [List.getElem?_zip_eq_some] at hk
    exact ⟨k, hk⟩
  · rintro ⟨k, hk⟩
    exact ⟨k, by rw [List.getElem?_zip_eq_some]; exact hk⟩

theorem pos_mul_max (x y : ℚ) : max x 0 * max y 0 ≠ 0 ↔ 0 < x ∧ 0 < y := by
  rw [mul_ne_zero_iff]
  have h : ∀ z : ℚ, max z 0 ≠ 0 ↔ 0 < z := by
    intro z
    constructor
    · intro h
      by_contra hz
      exact h (max_eq_right (not_lt.mp hz))
    · intro h; rw [max_eq_left h.le]; exact h.ne'
  rw [h, h]

theorem mem_noisePairs {w : Weights} {e d : List ℕ} {p f : ℕ} {q : ℕ × ℕ} :
    q ∈ noisePairs w e d p f ↔ GoodPair w e d p f q.1 q.2 := by
  unfold noisePairs GoodPair
  rw [List.mem_filter, mem_zip_iff, decide_eq_true_eq, pos_mul_max]

/-- **C81**, value: for observations of at least two time steps the noise is determined by the
differences between the even and the odd sample of the unflagged pairs, all pairs counted equally:
`N` being their number, `4 N²` times the squared noise is the sum of the squared differences of
any two of them. The noise is zero when there is no unflagged pair. -/
theorem C81_value (o : FlagObs) (nb : ℕ) (im : ℕ → ℕ → ℕ → ℚ) (w : Weights) (e d : List ℕ)
    (h2 : 2 ≤ o.nTime) (hlen : e.length = d.length) (hb : ∀ b ∈ e ++ d, b < nb) :
    ∃ s, visNoiseCalc o nb im w (some (e, d)) = .ok s ∧ ∀ p f, ∃ l : List (ℕ × ℕ),
      (e.Nodup → l.Nodup) ∧ (∀ i j, (i, j) ∈ l ↔ GoodPair w e d p f i j) ∧ 0 ≤ s p f ∧
      (l = [] → s p f = 0) ∧
      4 * (l.length : ℚ) ^ 2 * s p f = (l.map fun q => (l.map fun r =>
        ((im p f q.1 - im p f q.2) - (im p f r.1 - im p f r.2)) ^ 2).sum).sum := by
  refine ⟨noiseSq im w e d, ?_, ?_⟩
  · unfold visNoiseCalc
    rw [if_neg (by omega)]
    simp only []
    rw [if_neg (by simpa using hlen), if_pos hb]
  · intro p f
    refine ⟨noisePairs w e d p f, ?_, fun i j => mem_noisePairs, ?_, ?_, ?_⟩
    · intro hn
      apply List.Nodup.filter
      apply List.Nodup.of_map Prod.fst
      rw [List.map_fst_zip hlen.le]
      exact hn
    · unfold noiseSq
      simp only []
      split_ifs
      · exact le_rfl
      · exact div_nonneg (npVar_nonneg _) (by norm_num)
    · intro h
      simp [noiseSq, h]
    · by_cases hl : noisePairs w e d p f = []
      · simp [hl]
      · unfold noiseSq
        simp only []
        rw [if_neg (by simpa using hl)]
        have := npVar_pairs ((noisePairs w e d p f).map fun q => im p f q.1 - im p f q.2)
          (by simpa using hl)
        rw [List.length_map, List.map_map] at this
        calc 4 * ((noisePairs w e d p f).length : ℚ) ^ 2 * (npVar _ / 2)
            = 2 * ((noisePairs w e d p f).length : ℚ) ^ 2 * npVar _ := by ring
          _ = _ := this
          _ = _ := by
            congr 1
            apply List.map_congr_left
            intro q _
            simp only [Function.comp_apply, List.map_map]
            rfl

/-- **C81**, the sky cancels: a signal that is the same in the two samples of every unflagged pair
does not change the noise. -/
theorem C81_sky_cancels (o : FlagObs) (nb : ℕ) (im sky : ℕ → ℕ → ℕ → ℚ) (w : Weights)
    (e d : List ℕ)
    (hsky : ∀ p f i j, GoodPair w e d p f i j → sky p f i = sky p f j) :
    visNoiseCalc o nb (fun p f b => im p f b + sky p f b) w (some (e, d))
      = visNoiseCalc o nb im w (some (e, d)) := by
  have h : noiseSq (fun p f b => im p f b + sky p f b) w e d = noiseSq im w e d := by
    funext p f
    have : (noisePairs w e d p f).map (fun q => im p f q.1 + sky p f q.1
        - (im p f q.2 + sky p f q.2)) = (noisePairs w e d p f).map fun q =>
          im p f q.1 - im p f q.2 := by
      apply List.map_congr_left
      intro q hq
      rw [hsky p f q.1 q.2 (mem_noisePairs.mp hq)]
      ring
    unfold noiseSq
    simp only [this]
  unfold visNoiseCalc
  simp only [h]

/-- **C81**, flagged samples: the values of flagged samples do not matter. -/
theorem C81_flagged (o : FlagObs) (nb : ℕ) (im im' : ℕ → ℕ → ℕ → ℚ) (w : Weights)
    (e d : List ℕ) (heq : ∀ p f b, 0 < w p f b → im p f b = im' p f b) :
    visNoiseCalc o nb im w (some (e, d)) = visNoiseCalc o nb im' w (some (e, d)) := by
  have h : noiseSq im w e d = noiseSq im' w e d := by
    funext p f
    have : (noisePairs w e d p f).map (fun q => im p f q.1 - im p f q.2)
        = (noisePairs w e d p f).map fun q => im' p f q.1 - im' p f q.2 := by
      apply List.map_congr_left
      intro q hq
      obtain ⟨_, h1, h2⟩ := mem_noisePairs.mp hq
      rw [heq p f q.1 h1, heq p f q.2 h2]
    unfold noiseSq
    simp only [this]
  unfold visNoiseCalc
  simp only [h]

/-- **C81**, splitting: without index arrays the function splits the weights itself, with the same
result as when it is given the index arrays of the split and the weights before the split. -/
theorem C81_own_split (o : FlagObs) (nb : ℕ) (im : ℕ → ℕ → ℕ → ℚ) (w : Weights)
    (h2 : 2 ≤ o.nTime) (hu : ∃ t, t < o.nTime ∧ o.timeUse t ≠ 0) :
    ∃ w' e d s s', splitVisWeights o nb w = .ok (.pair w' e d) ∧
      visNoiseCalc o nb im w none = .ok s ∧ visNoiseCalc o nb im w (some (e, d)) = .ok s' ∧
      ∀ p f, p < o.nPol → s p f = s' p f := by
  obtain ⟨w', e, d, hr, hlen, hes, hds, hdis, he, hd, hpair, -, -⟩ := C14_split_pairs o nb w h2 hu
  refine ⟨w', e, d, noiseSq im w' e d, noiseSq im w e d, hr, ?_, ?_, ?_⟩
  · unfold visNoiseCalc
    rw [if_neg (by omega)]
    simp only [hr]
  · unfold visNoiseCalc
    rw [if_neg (by omega)]
    simp only []
    rw [if_neg (by simpa using hlen), if_pos]
    intro b hb
    rcases List.mem_append.mp hb with h | h
    · exact he b h
    · exact hd b h
  · intro p f hp
    have hP : noisePairs w' e d p f = noisePairs w e d p f := by
      unfold noisePairs
      apply List.filter_congr
      intro q hq
      obtain ⟨k, h3, h4⟩ := mem_zip_iff.mp hq
      obtain ⟨q1, q2⟩ := q
      simp only at h3 h4 ⊢
      obtain ⟨h5, -⟩ := hpair p f k q1 q2 hp h3 h4
      have hv := split_value o nb w w' e d h2 hu hr p f k q1 q2 hp h3 h4
      apply decide_eq_decide.mpr
      rw [pos_mul_max, pos_mul_max, h5, and_self, hv]
      constructor
      · intro h
        have h6 := lt_min_iff.mp h
        have h7 := lt_min_iff.mp h6.2
        refine ⟨?_, h7.1⟩
        rcases lt_max_iff.mp h6.1 with h | h
        · exact h
        · exact absurd h (lt_irrefl _)
      · rintro ⟨h6, h7⟩
        exact lt_min (lt_max_of_lt_left h6) (lt_min h7 one_pos)
    unfold noiseSq
    rw [hP]

/-- **C81**, a single time step has no noise estimate: all zero. -/
theorem C81_single_time (o : FlagObs) (nb : ℕ) (im : ℕ → ℕ → ℕ → ℚ) (w : Weights)
    (bi : Option (List ℕ × List ℕ)) (h : o.nTime < 2) :
    ∃ s, visNoiseCalc o nb im w bi = .ok s ∧ ∀ p f, s p f = 0 :=
  ⟨fun _ _ => 0, by simp [visNoiseCalc, h], fun _ _ => rfl⟩

/-- Two pairs with differences 2 and 6, and a flagged third one: variance 4, noise² 2. -/
example : (visNoiseCalc (exSplit 2 fun _ => 1) 6 (fun _ _ b => [3, 7, 100, 1, 1, 1].getD b 0)
    (fun _ _ b => if b = 2 then -1 else 1) (some ([0, 1, 2], [3, 4, 5]))).map (fun s => s 0 0)
      = .ok 2 := by decide +kernel

/-! ## Residuals by baseline length -/

theorem positions_map_getD {α β : Type _} (P : β → Prop) [DecidablePred P] (g : α → β)
    (l : List α) (x : α) :
    (positions P (l.map g)).map (fun j => l.getD j x) = l.filter fun a => decide (P (g a)) := by
  induction l using List.reverseRecOn with
  | nil => rfl
  | append_singleton l a ih =>
    rw [List.map_append, List.map_singleton, positions_concat, List.map_append, List.filter_append,
      ← ih]
    congr 1
    · apply List.map_congr_left
      intro j hj
      obtain ⟨d, hd, _⟩ := (mem_positions _ _ _).mp hj
      have hlt : j < l.length := by
        have := (List.getElem?_eq_some_iff.mp hd).1
        simpa using this
      rw [getD_of_lt (by simp; omega), getD_of_lt hlt, List.getElem_append_left hlt]
    · rw [List.length_map]
      by_cases h : P (g a)
      · simp [h]
      · simp [h]

/-- Length of a baseline in wavelengths: `norm` stands for the length of the vector `(u, v)`, taken in
units of `kpix`. -/
def blLen (o : FlagObs) (q : UvParams) (f b : ℕ) : ℚ :=
  o.freq f * (o.kpix * q.norm (q.uu b / o.kpix) (q.vv b / o.kpix))

/-- The samples (frequency, baseline) of bin `i` of the baseline lengths. -/
def InLengthBin (o : FlagObs) (q : UvParams) (i : ℕ) (s : ℕ × ℕ) : Prop :=
  s.1 < o.nFreq ∧ s.2 < o.nBl ∧ o.minBaseline ≤ blLen o q s.1 s.2 ∧
    blLen o q s.1 s.2 ≤ o.maxBaseline ∧
    o.minBaseline + 5 * i ≤ blLen o q s.1 s.2 ∧ blLen o q s.1 s.2 < o.minBaseline + 5 * (i + 1)

theorem blLen_eq (o : FlagObs) (q : UvParams) (f b : ℕ) : blLen o q f b = vwuDist o q f b := by
  unfold blLen vwuDist; ring

theorem mem_samples_pair {nf nb : ℕ} {s : ℕ × ℕ} : s ∈ samples nf nb ↔ s.1 < nf ∧ s.2 < nb := by
  obtain ⟨f, b⟩ := s
  simp [samples]

theorem samples_nodup (nf nb : ℕ) : (samples nf nb).Nodup := by
  unfold samples
  rw [List.nodup_flatMap]
  refine ⟨fun f _ => (List.nodup_range).map fun a b h => by simpa using h, ?_⟩
  refine List.Pairwise.imp ?_ List.nodup_range
  intro a b hab x hx hy
  simp only [List.mem_map] at hx hy
  obtain ⟨_, _, rfl⟩ := hx
  obtain ⟨_, _, h⟩ := hy
  exact hab (by simpa using (congrArg Prod.fst h).symm)

/-- The list of the samples of a bin. -/
def binList (o : FlagObs) (q : UvParams) (i : ℕ) : List (ℕ × ℕ) :=
  (samples o.nFreq o.nBl).filter fun s =>
    decide (InBin o.minBaseline 5 o.maxBaseline i (vwuDist o q s.1 s.2))

theorem mem_binList {o : FlagObs} {q : UvParams} {i : ℕ} {s : ℕ × ℕ} :
    s ∈ binList o q i ↔ InLengthBin o q i s := by
  unfold binList
  rw [List.mem_filter, mem_samples_pair, decide_eq_true_eq]
  unfold InLengthBin InBin
  rw [mul_comm (i : ℚ), mul_comm ((i : ℚ) + 1), and_assoc, blLen_eq]

theorem binList_nodup (o : FlagObs) (q : UvParams) (i : ℕ) : (binList o q i).Nodup :=
  (samples_nodup _ _).filter _

variable {K : Type} [Sub K]

theorem blPol_eq (o : FlagObs) (q : UvParams) (mag : K → ℚ) (cal model : ℕ → ℕ → K)
    (hlh : o.minBaseline ≤ o.maxBaseline) (r : HistResult)
    (hr : histogram (blDist o q) 5 none (some o.minBaseline) (some o.maxBaseline) = .ok r) :
    blPol o mag cal model r = (List.range r.bins.length).mapM fun i =>
      blBin mag (fun s : ℕ × ℕ => cal s.1 s.2) (fun s => model s.1 s.2) (binList o q i) := by
  unfold blPol
  have : ∀ (l : List ℕ), (∀ i ∈ l, i < r.bins.length) →
      (l.mapM fun i => match riSlice r.ri i with
        | none => Except.error PyErr.indexError
        | some inds => blBin mag (fun s : ℕ × ℕ => cal s.1 s.2) (fun s => model s.1 s.2)
            (inds.map fun j => (samples o.nFreq o.nBl).getD j (0, 0)))
      = l.mapM fun i =>
        blBin mag (fun s : ℕ × ℕ => cal s.1 s.2) (fun s => model s.1 s.2) (binList o q i) := by
    intro l
    induction l with
    | nil => intro _; rfl
    | cons i t ih =>
      intro h
      have h1 := (C02_reverse_indices (blDist o q) 5 _ _ (by norm_num) hlh r hr i
        (h i (List.mem_cons_self ..))).1
      rw [List.mapM_cons, List.mapM_cons, ih fun j hj => h j (List.mem_cons_of_mem _ hj), h1]
      simp only [blDist]
      rw [positions_map_getD]
      rfl
  exact this _ fun i hi => List.mem_range.mp hi

/-- Sum of a function over a list of samples. -/
def sumOver {S : Type} (l : List S) (g : S → ℚ) : ℚ := (l.map g).sum

/-- **C82**, proved when the models of a bin are all nonzero or all zero: every bin reports the
summed amplitude of the residuals divided by the summed amplitude of the models, over the samples
whose baseline length is in the bin (width 5, from the shortest to the longest allowed length), and
zero when there is nothing to report. -/
theorem C82_ratio_partial (o : FlagObs) (q : UvParams) (mag : K → ℚ) (cal model : ℕ → ℕ → ℕ → K)
    (hmag : ∀ x, 0 ≤ mag x) (hlh : o.minBaseline ≤ o.maxBaseline)
    (hsame : ∀ p i, p < o.nPol → (∀ s, InLengthBin o q i s → 0 < mag (model p s.1 s.2)) ∨
      ∀ s, InLengthBin o q i s → mag (model p s.1 s.2) = 0) :
    ∃ (n : ℕ) (out : List (List (ℚ × ℚ))), visBaselineHist o q mag cal model = .ok out ∧
      out.length = o.nPol ∧ 0 < n ∧ o.minBaseline + 5 * ((n : ℚ) - 1) ≤ o.maxBaseline ∧
      o.maxBaseline < o.minBaseline + 5 * n ∧
      ∀ p i, p < o.nPol → i < n → ∃ x l, (out.getD p [])[i]? = some x ∧ l.Nodup ∧
        (∀ s, s ∈ l ↔ InLengthBin o q i s ∧ 0 < mag (model p s.1 s.2)) ∧
        (l = [] → x = (0, 0)) ∧
        (l ≠ [] → x.1 * sumOver l (fun s => mag (model p s.1 s.2))
            = sumOver l fun s => mag (cal p s.1 s.2 - model p s.1 s.2)) ∧
        (l ≠ [] → 2 * x.2 * sumOver l (fun s => mag (model p s.1 s.2)) ^ 2
            = sumOver l fun s => sumOver l fun s' => (mag (cal p s.1 s.2 - model p s.1 s.2)
              - mag (cal p s'.1 s'.2 - model p s'.1 s'.2)) ^ 2) := by
  obtain ⟨r, hr, -, hn, hedge, hlast, -⟩ := C01_histogram_counts (blDist o q) 5 o.minBaseline
    o.maxBaseline (by norm_num) hlh
  -- the value of one bin
  let val : ℕ → ℕ → ℚ × ℚ := fun p i =>
    let inds := binList o q i
    let use := inds.filter fun s => decide (0 < mag (model p s.1 s.2))
    if use = [] then (0, 0) else
      ((inds.map fun s => mag (cal p s.1 s.2 - model p s.1 s.2)).sum / (inds.length : ℚ)
        / ((inds.map fun s => mag (model p s.1 s.2)).sum / (inds.length : ℚ)),
       npVar (inds.map fun s => mag (cal p s.1 s.2 - model p s.1 s.2))
        / ((inds.map fun s => mag (model p s.1 s.2)).sum / (inds.length : ℚ)) ^ 2)
  have hval : ∀ p i, p < o.nPol → blBin mag (fun s : ℕ × ℕ => cal p s.1 s.2)
      (fun s => model p s.1 s.2) (binList o q i) = .ok (val p i) := by
    intro p i hp
    rcases hsame p i hp with h | h
    · have hf : (binList o q i).filter (fun s => decide (0 < mag (model p s.1 s.2)))
          = binList o q i := by
        rw [List.filter_eq_self]
        intro s hs
        simpa using h s (mem_binList.mp hs)
      unfold blBin
      simp only [val, hf, if_true]
      split_ifs <;> rfl
    · have hf : (binList o q i).filter (fun s => decide (0 < mag (model p s.1 s.2))) = [] := by
        rw [List.filter_eq_nil_iff]
        intro s hs
        simpa using (h s (mem_binList.mp hs)).le
      unfold blBin
      simp only [val, hf, if_true]
      split_ifs <;> rfl
  have hpol : ∀ p, p < o.nPol → blPol o mag (cal p) (model p) r
      = .ok ((List.range r.bins.length).map (val p)) := by
    intro p hp
    rw [blPol_eq o q mag (cal p) (model p) hlh r hr]
    exact mapM_ok _ _ _ fun i _ => hval p i hp
  refine ⟨r.bins.length, (List.range o.nPol).map fun p => (List.range r.bins.length).map (val p),
    ?_, by simp, hn, ?_, ?_, ?_⟩
  · unfold visBaselineHist
    rw [hr]
    simp only [bind, Except.bind]
    exact mapM_ok _ _ _ fun p hp => hpol p (List.mem_range.mp hp)
  · have := (hedge (r.bins.length - 1) (by omega)).2
    rw [Nat.cast_sub (by omega), Nat.cast_one] at this
    linarith
  · linarith
  · intro p i hp hi
    refine ⟨val p i, (binList o q i).filter fun s => decide (0 < mag (model p s.1 s.2)), ?_,
      (binList_nodup o q i).filter _, ?_, ?_, ?_, ?_⟩
    · simp [hp, hi]
    · intro s
      rw [List.mem_filter, mem_binList, decide_eq_true_eq]
    · intro h
      simp only [val]
      rw [if_pos h]
    · intro h
      simp only [val]
      rw [if_neg h]
      rcases hsame p i hp with hs | hs
      · have hf : (binList o q i).filter (fun s => decide (0 < mag (model p s.1 s.2)))
            = binList o q i := by
          rw [List.filter_eq_self]
          intro s hs'
          simpa using hs s (mem_binList.mp hs')
        rw [hf] at h ⊢
        have hlen : ((binList o q i).length : ℚ) ≠ 0 := by
          have := List.length_pos_iff.mpr h
          exact_mod_cast this.ne'
        have hsum : ((binList o q i).map fun s => mag (model p s.1 s.2)).sum ≠ 0 := by
          have := sum_gt_of_forall (l := (binList o q i).map fun s => mag (model p s.1 s.2))
            (by simpa using h) 0 (by
              intro x hx
              obtain ⟨s, hs', rfl⟩ := List.mem_map.mp hx
              exact hs s (mem_binList.mp hs'))
          rw [mul_zero] at this
          exact this.ne'
        unfold sumOver
        field_simp
      · exfalso
        apply h
        rw [List.filter_eq_nil_iff]
        intro s hs'
        simpa using (hs s (mem_binList.mp hs')).le
    · intro h
      simp only [val]
      rw [if_neg h]
      rcases hsame p i hp with hs | hs
      · have hf : (binList o q i).filter (fun s => decide (0 < mag (model p s.1 s.2)))
            = binList o q i := by
          rw [List.filter_eq_self]
          intro s hs'
          simpa using hs s (mem_binList.mp hs')
        rw [hf] at h ⊢
        have hlen : ((binList o q i).length : ℚ) ≠ 0 := by
          have := List.length_pos_iff.mpr h
          exact_mod_cast this.ne'
        have hsum : ((binList o q i).map fun s => mag (model p s.1 s.2)).sum ≠ 0 := by
          have := sum_gt_of_forall (l := (binList o q i).map fun s => mag (model p s.1 s.2))
            (by simpa using h) 0 (by
              intro x hx
              obtain ⟨s, hs', rfl⟩ := List.mem_map.mp hx
              exact hs s (mem_binList.mp hs'))
          rw [mul_zero] at this
          exact this.ne'
        have hv := npVar_pairs ((binList o q i).map fun s =>
          mag (cal p s.1 s.2 - model p s.1 s.2)) (by simpa using h)
        rw [List.length_map, List.map_map] at hv
        unfold sumOver
        simp only [List.map_map, Function.comp_def] at hv ⊢
        rw [← hv]
        field_simp
      · exfalso
        apply h
        rw [List.filter_eq_nil_iff]
        intro s hs'
        simpa using (hs s (mem_binList.mp hs')).le

/-- **C82** is violated, flagged models: when a bin has a sample whose model is zero and at least two
whose model is not, the function raises. -/
theorem C82_mixed_raises (o : FlagObs) (q : UvParams) (mag : K → ℚ) (cal model : ℕ → ℕ → ℕ → K)
    (hlh : o.minBaseline ≤ o.maxBaseline) (p i : ℕ) (hp : p < o.nPol) (s0 s1 s2 : ℕ × ℕ)
    (h0 : InLengthBin o q i s0) (h1 : InLengthBin o q i s1) (h2 : InLengthBin o q i s2)
    (h12 : s1 ≠ s2) (hz : mag (model p s0.1 s0.2) = 0) (hm1 : 0 < mag (model p s1.1 s1.2))
    (hm2 : 0 < mag (model p s2.1 s2.2)) :
    ∃ err, visBaselineHist o q mag cal model = .error err := by
  obtain ⟨r, hr, -, hn, hedge, hlast, -⟩ := C01_histogram_counts (blDist o q) 5 o.minBaseline
    o.maxBaseline (by norm_num) hlh
  have hi : i < r.bins.length := by
    by_contra hc
    obtain ⟨-, -, -, a, b, -⟩ := h0
    have : (r.bins.length : ℚ) ≤ i := by exact_mod_cast not_lt.mp hc
    linarith
  have hbin : blBin mag (fun s : ℕ × ℕ => cal p s.1 s.2) (fun s => model p s.1 s.2)
      (binList o q i) = .error .valueError := by
    have hmem : ∀ s, s ∈ (binList o q i).filter (fun s => decide (0 < mag (model p s.1 s.2)))
        ↔ InLengthBin o q i s ∧ 0 < mag (model p s.1 s.2) := by
      intro s
      rw [List.mem_filter, mem_binList, decide_eq_true_eq]
    unfold blBin
    simp only []
    rw [if_neg]
    · split
      · rename_i he
        have := (hmem s1).mpr ⟨h1, hm1⟩
        rw [he] at this; cases this
      · rename_i j he
        have a1 := (hmem s1).mpr ⟨h1, hm1⟩
        have a2 := (hmem s2).mpr ⟨h2, hm2⟩
        rw [he] at a1 a2
        exact absurd ((List.mem_singleton.mp a1).trans (List.mem_singleton.mp a2).symm) h12
      · rfl
    · intro hl
      have := List.length_filter_eq_length_iff.mp hl s0 (mem_binList.mpr h0)
      rw [decide_eq_true_eq, hz] at this
      exact lt_irrefl _ this
  unfold visBaselineHist
  rw [hr]
  simp only [bind, Except.bind]
  apply mapM_error _ _ p (List.mem_range.mpr hp)
  rw [blPol_eq o q mag (cal p) (model p) hlh r hr]
  exact mapM_error _ _ i (List.mem_range.mpr hi) ⟨_, hbin⟩

/-- Another violation of **C82**: when a single sample of a bin has a nonzero model, a perfect
calibration is reported with a residual of `n - 1` times the model, `n` being the number of samples
of the bin, instead of zero. -/
theorem C82_single_wrong {K : Type} [AddGroup K] (mag : K → ℚ) (h0 : mag 0 = 0)
    (hneg : ∀ x, mag (-x) = mag x)
    {S : Type} (model : S → K) (a b : List S) (j : S) (hj : 0 < mag (model j))
    (ha : ∀ s ∈ a ++ b, model s = 0) (hne : a ++ b ≠ []) :
    ∃ x, blBin mag model model (a ++ j :: b) = .ok x ∧ x.1 = ((a ++ b).length : ℚ) := by
  have hfa : ∀ l : List S, (∀ s ∈ l, model s = 0) →
      l.filter (fun s => decide (0 < mag (model s))) = [] := by
    intro l hl
    rw [List.filter_eq_nil_iff]
    intro s hs
    rw [hl s hs, h0]; simp
  have hsa : ∀ s ∈ a, model s = 0 := fun s hs => ha s (List.mem_append_left _ hs)
  have hsb : ∀ s ∈ b, model s = 0 := fun s hs => ha s (List.mem_append_right _ hs)
  have hf : (a ++ j :: b).filter (fun s => decide (0 < mag (model s))) = [j] := by
    rw [List.filter_append, List.filter_cons, hfa a hsa, hfa b hsb]
    simp [hj]
  have hlen : 0 < (a ++ b).length := List.length_pos_iff.mpr hne
  unfold blBin
  simp only [hf]
  rw [if_neg (by simp at hlen ⊢; omega)]
  refine ⟨_, rfl, ?_⟩
  have hs0 : ∀ l : List S, (∀ s ∈ l, model s = 0) → (l.map fun s => mag (model s)).sum = 0 := by
    intro l hl
    rw [List.map_congr_left fun s hs => by rw [hl s hs, h0]]
    simp
  have hs1 : ∀ l : List S, (∀ s ∈ l, model s = 0) →
      (l.map fun s => mag (model j - model s)).sum = (l.length : ℚ) * mag (model j) := by
    intro l hl
    rw [List.map_congr_left (g := fun _ => mag (model j)) fun s hs => by rw [hl s hs, sub_zero]]
    simp
  simp only [List.map_append, List.map_cons, List.sum_append, List.sum_cons, hs0 a hsa, hs0 b hsb,
    hs1 a hsa, hs1 b hsb, sub_self, h0, zero_add, add_zero, List.length_append, List.length_cons]
  have : (((a.length + (b.length + 1) : ℕ)) : ℚ) ≠ 0 := by positivity
  push_cast at this ⊢
  field_simp

/-- An observation of one frequency and three samples of lengths 1, 2 and 7. -/
def exBl : FlagObs :=
  { exSplit 1 (fun _ => 1) with
    minBaseline := 0
    maxBaseline := 9
    tileA := [1, 1, 1]
    tileB := [2, 3, 4] }

/-- Coordinates with `v = 0`. -/
def exBlUv : UvParams := ⟨fun b => [1, 2, 7].getD b 0, fun _ => 0, fun x y => |x| + |y|, 1⟩

/-- All models nonzero: two bins. -/
example : visBaselineHist (K := ℚ) exBl exBlUv (fun x => |x|) (fun _ _ b => [3, -1, 5].getD b 0)
    (fun _ _ b => [1, -2, 4].getD b 0) = .ok [[(1, 1 / 9), (1 / 4, 0)]] := by decide +kernel

/-- One of the models of the first bin is zero: the perfect calibration has residual 1. -/
example : visBaselineHist (K := ℚ) exBl exBlUv (fun x => |x|) (fun _ _ b => [1, 0, 4].getD b 0)
    (fun _ _ b => [1, 0, 4].getD b 0) = .ok [[(1, 1), (0, 0)]] := by decide +kernel

/-- Two nonzero models and a zero one in a bin. -/
example : visBaselineHist (K := ℚ) exBl { exBlUv with uu := fun b => [1, 2, 3].getD b 0 }
    (fun x => |x|) (fun _ _ b => [1, 0, 4].getD b 0)
    (fun _ _ b => [1, 0, 4].getD b 0) = .error .valueError := by decide +kernel

end PyFHD
