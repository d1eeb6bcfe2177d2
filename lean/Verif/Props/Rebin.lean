import Verif.Model.Rebin
import Mathlib.Algebra.BigOperators.Field
import Mathlib.Algebra.BigOperators.Intervals
import Mathlib.Algebra.Order.Floor.Ring
import Mathlib.Tactic.Ring
import Mathlib.Tactic.FieldSimp
import Mathlib.Tactic.Linarith
import Mathlib.Tactic.Positivity
import Mathlib.Data.Rat.Floor

/-!
# C07 - C09: `rebin`
-/

namespace PyFHD

/-! ## Specification -/

/-- Sum of the `P × Q` block of `f` at block coordinates `(i, j)`. -/
def blockSum (f : ℕ → ℕ → ℚ) (P Q i j : ℕ) : ℚ :=
  ∑ u ∈ Finset.range P, ∑ v ∈ Finset.range Q, f (i * P + u) (j * Q + v)

/-- Total of an array. -/
def Arr.total (a : Arr) : ℚ := ∑ r ∈ Finset.range a.rows, ∑ c ∈ Finset.range a.cols, a.get r c

/-- Linear interpolation between samples `f 0, f 1, ..., f (n-1)` that are `s` apart, constant
after the last one, at position `q s + j`, `j < s`. -/
def interp (n s : ℕ) (f : ℕ → ℚ) (q j : ℕ) : ℚ :=
  f q + (f (min (q + 1) (n - 1)) - f q) * (j : ℚ) / (s : ℚ)

/-! ## Helpers -/

theorem reshape_index {p q s1 i u j v : ℕ} (hj : j < s1) (hv : v < q) :
    (((i * p + u) * s1 + j) * q + v) / (s1 * q) = i * p + u ∧
      (((i * p + u) * s1 + j) * q + v) % (s1 * q) = j * q + v := by
  have hlt : j * q + v < s1 * q := by
    calc j * q + v < j * q + q := by omega
      _ = (j + 1) * q := by ring
      _ ≤ s1 * q := Nat.mul_le_mul_right _ hj
  have he : ((i * p + u) * s1 + j) * q + v = (s1 * q) * (i * p + u) + (j * q + v) := by ring
  rw [he, Nat.mul_add_div (by omega), Nat.div_eq_of_lt hlt, Nat.mul_add_mod, Nat.mod_eq_of_lt hlt]
  exact ⟨by omega, rfl⟩

theorem sum_blocks (P n : ℕ) (f : ℕ → ℚ) :
    ∑ i ∈ Finset.range n, ∑ u ∈ Finset.range P, f (i * P + u)
      = ∑ k ∈ Finset.range (n * P), f k := by
  induction n with
  | zero => simp
  | succ k ih =>
    rw [Finset.sum_range_succ, ih, Nat.succ_mul, Finset.sum_range_add]

theorem meanN_congr {n : ℕ} {f g : ℕ → ℚ} (h : ∀ k, k < n → f k = g k) :
    meanN n f = meanN n g := by
  unfold meanN
  rw [Finset.sum_congr rfl fun k hk => h k (by simpa using hk)]

/-- The value of the shrinking branch in terms of the (possibly tiled) array. -/
theorem rebin_shrink (isInt : Bool) (a : Arr) (s0 s1 P Q : ℕ) (h0 : 0 < s0) (h1 : 0 < s1)
    (hP : 0 < P) (hQ : 0 < Q) (hr : a.rows = s0 * P) (hc : a.cols = s1 * Q)
    (hne : 1 < P ∨ 1 < Q) :
    ∃ b, rebin isInt a s0 s1 false = .ok b ∧ b.rows = s0 ∧ b.cols = s1 ∧
      ∀ i j, i < s0 → j < s1 →
        b.get i j = fixIf isInt (meanN P fun u =>
          fixIf isInt (meanN Q fun v => a.get (i * P + u) (j * Q + v))) := by
  have e0 : s0 ≤ s0 * P := Nat.le_mul_of_pos_right _ hP
  have e1 : s1 ≤ s1 * Q := Nat.le_mul_of_pos_right _ hQ
  have hlt : s0 < s0 * P ∨ s1 < s1 * Q := by
    rcases hne with h | h
    · left; calc s0 = s0 * 1 := by ring
        _ < s0 * P := Nat.mul_lt_mul_of_pos_left h h0
    · right; calc s1 = s1 * 1 := by ring
        _ < s1 * Q := Nat.mul_lt_mul_of_pos_left h h1
  unfold rebin
  rw [hr, hc]
  have c1 : ¬ (a.oneD = false ∧ s0 * P = s0 ∧ s1 * Q = s1) := by
    rintro ⟨_, h2, h3⟩; omega
  have c2 : ¬ (s0 * P = 0 ∨ s1 * Q = 0 ∨ s0 = 0 ∨ s1 = 0) := by omega
  have c4 : ¬ (max (s0 * P) s0 % min (s0 * P) s0 ≠ 0 ∨
      max (s1 * Q) s1 % min (s1 * Q) s1 ≠ 0) := by
    rw [max_eq_left e0, min_eq_right e0, max_eq_left e1, min_eq_right e1,
      Nat.mul_mod_right, Nat.mul_mod_right]
    simp
  have c5 : ¬ s0 > s0 * P := by omega
  have c6 : ¬ s1 > s1 * Q := by omega
  simp only [if_neg c1, if_neg c2, Bool.false_eq_true, if_false, if_pos hlt, if_neg c4, if_neg c5,
    if_neg c6]
  refine ⟨_, rfl, rfl, rfl, ?_⟩
  intro i j _ hj
  simp only [hr, hc, Nat.mul_div_cancel_left _ h0, Nat.mul_div_cancel_left _ h1]
  congr 1
  apply meanN_congr
  intro u _
  congr 1
  apply meanN_congr
  intro v hv
  obtain ⟨x1, x2⟩ := reshape_index (p := P) (i := i) (u := u) hj hv
  rw [x1, x2]

/-! ## C07 -/

/-- **C07.** Shrinking a float array by factors `P` and `Q` gives the block means, and the total
of the result times the block area is the total of the input. -/
theorem C07_rebin_block_mean (a : Arr) (s0 s1 P Q : ℕ) (h0 : 0 < s0) (h1 : 0 < s1)
    (hP : 0 < P) (hQ : 0 < Q) (hr : a.rows = s0 * P) (hc : a.cols = s1 * Q)
    (hne : 1 < P ∨ 1 < Q) :
    ∃ b, rebin false a s0 s1 false = .ok b ∧ b.rows = s0 ∧ b.cols = s1 ∧
      (∀ i j, i < s0 → j < s1 → b.get i j = blockSum a.get P Q i j / ((P : ℚ) * (Q : ℚ))) ∧
      b.total * ((P : ℚ) * (Q : ℚ)) = a.total := by
  obtain ⟨b, hb, br, bc, hg⟩ := rebin_shrink false a s0 s1 P Q h0 h1 hP hQ hr hc hne
  have hPQ : (P : ℚ) * (Q : ℚ) ≠ 0 := by positivity
  have hval : ∀ i j, i < s0 → j < s1 →
      b.get i j = blockSum a.get P Q i j / ((P : ℚ) * (Q : ℚ)) := by
    intro i j hi hj
    rw [hg i j hi hj]
    simp only [fixIf, Bool.false_eq_true, if_false, meanN, blockSum]
    rw [← Finset.sum_div, div_div, mul_comm (Q : ℚ)]
  refine ⟨b, hb, br, bc, hval, ?_⟩
  unfold Arr.total
  rw [br, bc, hr, hc, Finset.sum_mul]
  have hrow : ∀ i ∈ Finset.range s0,
      (∑ c ∈ Finset.range s1, b.get i c) * ((P : ℚ) * (Q : ℚ))
        = ∑ u ∈ Finset.range P, ∑ c ∈ Finset.range (s1 * Q), a.get (i * P + u) c := by
    intro i hi
    have hi' : i < s0 := by simpa using hi
    rw [Finset.sum_mul]
    have : ∀ j ∈ Finset.range s1, b.get i j * ((P : ℚ) * (Q : ℚ)) = blockSum a.get P Q i j := by
      intro j hj
      rw [hval i j hi' (by simpa using hj), div_mul_cancel₀ _ hPQ]
    rw [Finset.sum_congr rfl this]
    unfold blockSum
    rw [Finset.sum_comm]
    apply Finset.sum_congr rfl
    intro u _
    exact sum_blocks Q s1 (a.get (i * P + u))
  rw [Finset.sum_congr rfl hrow]
  exact sum_blocks P s0 (fun r => ∑ c ∈ Finset.range (s1 * Q), a.get r c)

/-- **C07**, integer arrays: the mean along the columns is truncated towards zero, then the mean
of these along the rows is truncated again. -/
theorem C07_rebin_block_mean_int (a : Arr) (s0 s1 P Q : ℕ) (h0 : 0 < s0) (h1 : 0 < s1)
    (hP : 0 < P) (hQ : 0 < Q) (hr : a.rows = s0 * P) (hc : a.cols = s1 * Q)
    (hne : 1 < P ∨ 1 < Q) :
    ∃ b, rebin true a s0 s1 false = .ok b ∧ b.rows = s0 ∧ b.cols = s1 ∧
      ∀ i j, i < s0 → j < s1 → b.get i j =
        (pyInt ((∑ u ∈ Finset.range P,
          (pyInt ((∑ v ∈ Finset.range Q, a.get (i * P + u) (j * Q + v)) / (Q : ℚ)) : ℚ))
            / (P : ℚ)) : ℚ) := by
  obtain ⟨b, hb, br, bc, hg⟩ := rebin_shrink true a s0 s1 P Q h0 h1 hP hQ hr hc hne
  exact ⟨b, hb, br, bc, hg⟩

/-- **C07**, rejected shapes: a smaller or equal shape that does not divide the old one raises
`ValueError`. -/
theorem C07_rebin_not_divisor (isInt : Bool) (a : Arr) (s0 s1 : ℕ) (h0 : 0 < s0) (h1 : 0 < s1)
    (hr : s0 ≤ a.rows) (hc : s1 ≤ a.cols) (hnd : ¬ s0 ∣ a.rows ∨ ¬ s1 ∣ a.cols) :
    rebin isInt a s0 s1 false = .error .valueError := by
  have hlt : s0 < a.rows ∨ s1 < a.cols := by
    rcases hnd with h | h
    · left
      rcases Nat.lt_or_ge s0 a.rows with h' | h'
      · exact h'
      · exact absurd (Nat.le_antisymm h' hr ▸ dvd_refl _) h
    · right
      rcases Nat.lt_or_ge s1 a.cols with h' | h'
      · exact h'
      · exact absurd (Nat.le_antisymm h' hc ▸ dvd_refl _) h
  unfold rebin
  have c1 : ¬ (a.oneD = false ∧ a.rows = s0 ∧ a.cols = s1) := by
    rintro ⟨_, h2, h3⟩; omega
  have c2 : ¬ (a.rows = 0 ∨ a.cols = 0 ∨ s0 = 0 ∨ s1 = 0) := by omega
  have c4 : max a.rows s0 % min a.rows s0 ≠ 0 ∨ max a.cols s1 % min a.cols s1 ≠ 0 := by
    rw [max_eq_left hr, min_eq_right hr, max_eq_left hc, min_eq_right hc]
    rcases hnd with h | h
    · left; exact fun h' => h (Nat.dvd_of_mod_eq_zero h')
    · right; exact fun h' => h (Nat.dvd_of_mod_eq_zero h')
  simp only [if_neg c1, if_neg c2, Bool.false_eq_true, if_false, if_pos hlt, if_pos c4]

/-- A 2 x 4 array shrunk to 1 x 2. -/
example : (match rebin false ⟨false, 2, 4, fun r c => (4 * r + c : ℕ)⟩ 1 2 false with
    | .ok b => [b.get 0 0, b.get 0 1]
    | .error _ => []) = [5 / 2, 9 / 2] := by decide +kernel

/-! ## C08 -/

theorem expandAxis_eq (n s : ℕ) (f : ℕ → ℚ) (q j : ℕ) (hn : q < n) (hj : j < s) (isInt : Bool) :
    expandAxis isInt n s f (q * s + j)
      = f q + floorIf isInt ((f (min (q + 1) (n - 1)) - f q) * (j : ℚ) / (s : ℚ)) := by
  have hs : 0 < s := by omega
  have h1 : (q * s + j) / s = q := by
    rw [Nat.mul_comm, Nat.mul_add_div hs, Nat.div_eq_of_lt hj, Nat.add_zero]
  have h2 : (q * s + j) % s = j := by
    rw [Nat.mul_comm, Nat.mul_add_mod, Nat.mod_eq_of_lt hj]
  unfold expandAxis inference
  rw [h1, h2]
  by_cases hlast : q + 1 < n
  · have hlt : q * s + j < (n - 1) * s := by
      calc q * s + j < q * s + s := by omega
        _ = (q + 1) * s := by ring
        _ ≤ (n - 1) * s := Nat.mul_le_mul_right _ (by omega)
    rw [if_pos hlt, min_eq_left (by omega), add_comm]
    congr 2
    ring
  · have hge : ¬ q * s + j < (n - 1) * s := by
      have : n - 1 = q := by omega
      rw [this]; omega
    have hmin : min (q + 1) (n - 1) = q := by omega
    rw [if_neg hge, hmin, sub_self, zero_mul, zero_div, add_comm]

/-- One step of interpolation stays between the two samples, also when rounded down for integer
samples. -/
theorem floorIf_between (isInt : Bool) (x y : ℚ) (hx : isInt = true → ∃ z : ℤ, x = z)
    (hy : isInt = true → ∃ z : ℤ, y = z) (j s : ℕ) (hj : j < s) :
    min x y ≤ x + floorIf isInt ((y - x) * (j : ℚ) / (s : ℚ)) ∧
      x + floorIf isInt ((y - x) * (j : ℚ) / (s : ℚ)) ≤ max x y := by
  have hs : (0 : ℚ) < s := by exact_mod_cast (by omega : 0 < s)
  have hj0 : (0 : ℚ) ≤ j := Nat.cast_nonneg j
  have hjs : (j : ℚ) ≤ s := by exact_mod_cast le_of_lt hj
  have ht0 : 0 ≤ (j : ℚ) / s := div_nonneg hj0 (le_of_lt hs)
  have ht1 : (j : ℚ) / s ≤ 1 := (div_le_one hs).mpr hjs
  have he : (y - x) * (j : ℚ) / (s : ℚ) = (y - x) * ((j : ℚ) / s) := by ring
  rw [he]
  have hexact : min (y - x) 0 ≤ (y - x) * ((j : ℚ) / s) ∧
      (y - x) * ((j : ℚ) / s) ≤ max (y - x) 0 := by
    rcases le_total (y - x) 0 with h | h
    · rw [min_eq_left h, max_eq_right h]
      constructor
      · nlinarith
      · exact mul_nonpos_of_nonpos_of_nonneg h ht0
    · rw [min_eq_right h, max_eq_left h]
      constructor
      · exact mul_nonneg h ht0
      · nlinarith
  have hfl : min (y - x) 0 ≤ floorIf isInt ((y - x) * ((j : ℚ) / s)) ∧
      floorIf isInt ((y - x) * ((j : ℚ) / s)) ≤ max (y - x) 0 := by
    unfold floorIf
    by_cases hi : isInt = true
    · obtain ⟨zx, rfl⟩ := hx hi
      obtain ⟨zy, rfl⟩ := hy hi
      rw [if_pos hi]
      constructor
      · have : (min (zy - zx) 0 : ℤ) ≤ ⌊((zy : ℚ) - zx) * ((j : ℚ) / s)⌋ := by
          rw [Int.le_floor]
          push_cast
          exact hexact.1
        have h' : (((min (zy - zx) 0 : ℤ)) : ℚ) ≤ ((⌊((zy : ℚ) - zx) * ((j : ℚ) / s)⌋ : ℤ) : ℚ) := by
          exact_mod_cast this
        push_cast at h'
        exact h'
      · exact le_trans (Int.floor_le _) hexact.2
    · rw [if_neg hi]; exact hexact
  constructor
  · rcases le_total y x with h | h
    · rw [min_eq_right h]
      have := hfl.1; rw [min_eq_left (by linarith)] at this; linarith
    · rw [min_eq_left h]
      have := hfl.1; rw [min_eq_right (by linarith)] at this; linarith
  · rcases le_total y x with h | h
    · rw [max_eq_left h]
      have := hfl.2; rw [max_eq_right (by linarith)] at this; linarith
    · rw [max_eq_right h]
      have := hfl.2; rw [max_eq_left (by linarith)] at this; linarith

theorem rebin_expand2 (isInt : Bool) (a : Arr) (rs cs : ℕ) (hrs : 0 < rs) (hcs : 0 < cs)
    (ho0 : 1 < a.rows) (ho1 : 0 < a.cols) :
    ∃ b, rebin isInt a (rs * a.rows) (cs * a.cols) false = .ok b ∧
      b.rows = rs * a.rows ∧ b.cols = cs * a.cols ∧
      ∀ q j p i, q < a.rows → j < rs → p < a.cols → i < cs →
        b.get (q * rs + j) (p * cs + i)
          = expandAxis isInt a.cols cs (fun c =>
              expandAxis isInt a.rows rs (fun k => a.get k c) (q * rs + j)) (p * cs + i) := by
  have e0 : a.rows ≤ rs * a.rows := Nat.le_mul_of_pos_left _ hrs
  have e1 : a.cols ≤ cs * a.cols := Nat.le_mul_of_pos_left _ hcs
  have hz0 : 0 < rs * a.rows := by positivity
  have hz1 : 0 < cs * a.cols := by positivity
  unfold rebin
  by_cases c1 : a.oneD = false ∧ a.rows = rs * a.rows ∧ a.cols = cs * a.cols
  · -- unchanged shape
    have hrs1 : rs = 1 := by
      have := c1.2.1
      have h2 : 1 * a.rows = rs * a.rows := by omega
      exact (Nat.eq_of_mul_eq_mul_right (by omega) h2).symm
    have hcs1 : cs = 1 := by
      have := c1.2.2
      have h2 : 1 * a.cols = cs * a.cols := by omega
      exact (Nat.eq_of_mul_eq_mul_right ho1 h2).symm
    subst hrs1 hcs1
    rw [if_pos c1]
    refine ⟨a, rfl, by omega, by omega, ?_⟩
    intro q j p i hq hj hp hi
    have hj0 : j = 0 := by omega
    have hi0 : i = 0 := by omega
    subst hj0 hi0
    rw [expandAxis_eq _ _ _ _ _ hp hi, expandAxis_eq _ _ _ _ _ hq hj]
    simp [floorIf]
  · have c2 : ¬ (a.rows = 0 ∨ a.cols = 0 ∨ rs * a.rows = 0 ∨ cs * a.cols = 0) := by omega
    have c3 : ¬ (rs * a.rows < a.rows ∨ cs * a.cols < a.cols) := by omega
    have c4 : ¬ ((rs * a.rows) % a.rows ≠ 0 ∨ (cs * a.cols) % a.cols ≠ 0) := by
      rw [Nat.mul_mod_left, Nat.mul_mod_left]; simp
    have c5 : ¬ a.rows = 1 := by omega
    have d0 : rs * a.rows / a.rows = rs := Nat.mul_div_cancel _ (by omega)
    have d1 : cs * a.cols / a.cols = cs := Nat.mul_div_cancel _ ho1
    simp only [if_neg c1, if_neg c2, Bool.false_eq_true, if_false, if_neg c3, if_neg c4, if_neg c5,
      d0, d1]
    by_cases c6 : a.cols = cs * a.cols
    · rw [if_pos c6]
      have hcs1 : cs = 1 := by
        have h2 : 1 * a.cols = cs * a.cols := by omega
        exact (Nat.eq_of_mul_eq_mul_right ho1 h2).symm
      subst hcs1
      refine ⟨_, rfl, rfl, rfl, ?_⟩
      intro q j p i hq hj hp hi
      have hi0 : i = 0 := by omega
      subst hi0
      rw [expandAxis_eq _ _ _ _ _ hp hi]
      simp [floorIf]
    · rw [if_neg c6]
      exact ⟨_, rfl, rfl, rfl, fun _ _ _ _ _ _ _ _ => rfl⟩

/-- **C08**, float arrays of two or more rows: expanding by factors `rs` and `cs` is linear
interpolation along the rows, then along the columns; in particular the original samples stand at
the multiples of the factors. -/
theorem C08_rebin_expand_float (a : Arr) (rs cs : ℕ) (hrs : 0 < rs) (hcs : 0 < cs)
    (ho0 : 1 < a.rows) (ho1 : 0 < a.cols) :
    ∃ b, rebin false a (rs * a.rows) (cs * a.cols) false = .ok b ∧
      b.rows = rs * a.rows ∧ b.cols = cs * a.cols ∧
      (∀ q j p i, q < a.rows → j < rs → p < a.cols → i < cs →
        b.get (q * rs + j) (p * cs + i)
          = interp a.cols cs (fun c => interp a.rows rs (fun k => a.get k c) q j) p i) ∧
      ∀ q p, q < a.rows → p < a.cols → b.get (q * rs) (p * cs) = a.get q p := by
  obtain ⟨b, hb, h1, h2, h3⟩ := rebin_expand2 false a rs cs hrs hcs ho0 ho1
  have hmain : ∀ q j p i, q < a.rows → j < rs → p < a.cols → i < cs →
      b.get (q * rs + j) (p * cs + i)
        = interp a.cols cs (fun c => interp a.rows rs (fun k => a.get k c) q j) p i := by
    intro q j p i hq hj hp hi
    rw [h3 q j p i hq hj hp hi, expandAxis_eq _ _ _ _ _ hp hi, expandAxis_eq _ _ _ _ _ hq hj,
      expandAxis_eq _ _ _ _ _ hq hj]
    simp only [floorIf, Bool.false_eq_true, if_false, interp]
  refine ⟨b, hb, h1, h2, hmain, ?_⟩
  intro q p hq hp
  have := hmain q 0 p 0 hq hrs hp hcs
  simpa [interp] using this

/-- **C08**, integer arrays of two or more rows: the results are integers, the original samples
are kept, and every entry lies between the smallest and largest of the (up to four) neighbouring
samples. -/
theorem C08_rebin_expand_int (a : Arr) (rs cs : ℕ) (hrs : 0 < rs) (hcs : 0 < cs)
    (ho0 : 1 < a.rows) (ho1 : 0 < a.cols) (hint : ∀ r c, ∃ z : ℤ, a.get r c = z) :
    ∃ b, rebin true a (rs * a.rows) (cs * a.cols) false = .ok b ∧
      b.rows = rs * a.rows ∧ b.cols = cs * a.cols ∧
      (∀ q p, q < a.rows → p < a.cols → b.get (q * rs) (p * cs) = a.get q p) ∧
      ∀ q j p i, q < a.rows → j < rs → p < a.cols → i < cs →
        (∃ z : ℤ, b.get (q * rs + j) (p * cs + i) = z) ∧
        ∀ lo hi : ℚ,
          (∀ q' ∈ [q, min (q + 1) (a.rows - 1)], ∀ p' ∈ [p, min (p + 1) (a.cols - 1)],
            lo ≤ a.get q' p' ∧ a.get q' p' ≤ hi) →
          lo ≤ b.get (q * rs + j) (p * cs + i) ∧ b.get (q * rs + j) (p * cs + i) ≤ hi := by
  obtain ⟨b, hb, h1, h2, h3⟩ := rebin_expand2 true a rs cs hrs hcs ho0 ho1
  have hval : ∀ q j p i, q < a.rows → j < rs → p < a.cols → i < cs →
      b.get (q * rs + j) (p * cs + i)
        = (a.get q p + floorIf true ((a.get (min (q + 1) (a.rows - 1)) p - a.get q p) * j / rs))
          + floorIf true (((a.get q (min (p + 1) (a.cols - 1))
            + floorIf true ((a.get (min (q + 1) (a.rows - 1)) (min (p + 1) (a.cols - 1))
              - a.get q (min (p + 1) (a.cols - 1))) * j / rs))
            - (a.get q p + floorIf true
              ((a.get (min (q + 1) (a.rows - 1)) p - a.get q p) * j / rs))) * i / cs) := by
    intro q j p i hq hj hp hi
    rw [h3 q j p i hq hj hp hi, expandAxis_eq _ _ _ _ _ hp hi, expandAxis_eq _ _ _ _ _ hq hj,
      expandAxis_eq _ _ _ _ _ hq hj]
  have hI : ∀ q j p, ∃ z : ℤ, a.get q p + floorIf true
      ((a.get (min (q + 1) (a.rows - 1)) p - a.get q p) * (j : ℕ) / (rs : ℕ)) = z := by
    intro q j p
    obtain ⟨z, hz⟩ := hint q p
    refine ⟨z + ⌊((a.get (min (q + 1) (a.rows - 1)) p - a.get q p) * (j : ℕ) / (rs : ℕ))⌋, ?_⟩
    rw [hz]
    simp [floorIf]
  refine ⟨b, hb, h1, h2, ?_, ?_⟩
  · intro q p hq hp
    have := hval q 0 p 0 hq hrs hp hcs
    simpa [floorIf] using this
  · intro q j p i hq hj hp hi
    rw [hval q j p i hq hj hp hi]
    obtain ⟨z1, hz1⟩ := hI q j p
    obtain ⟨z2, hz2⟩ := hI q j (min (p + 1) (a.cols - 1))
    constructor
    · rw [hz1, hz2]
      exact ⟨z1 + ⌊((z2 : ℚ) - z1) * i / cs⌋, by simp [floorIf]⟩
    · intro lo hi' hbnd
      have b1 := hbnd q (by simp) p (by simp)
      have b2 := hbnd (min (q + 1) (a.rows - 1)) (by simp) p (by simp)
      have b3 := hbnd q (by simp) (min (p + 1) (a.cols - 1)) (by simp)
      have b4 := hbnd (min (q + 1) (a.rows - 1)) (by simp) (min (p + 1) (a.cols - 1)) (by simp)
      have s1 := floorIf_between true (a.get q p) (a.get (min (q + 1) (a.rows - 1)) p)
        (fun _ => hint _ _) (fun _ => hint _ _) j rs hj
      have s2 := floorIf_between true (a.get q (min (p + 1) (a.cols - 1)))
        (a.get (min (q + 1) (a.rows - 1)) (min (p + 1) (a.cols - 1)))
        (fun _ => hint _ _) (fun _ => hint _ _) j rs hj
      set X := a.get q p + floorIf true ((a.get (min (q + 1) (a.rows - 1)) p - a.get q p) * j / rs)
      set Y := a.get q (min (p + 1) (a.cols - 1))
            + floorIf true ((a.get (min (q + 1) (a.rows - 1)) (min (p + 1) (a.cols - 1))
              - a.get q (min (p + 1) (a.cols - 1))) * j / rs)
      have s3 := floorIf_between true X Y (fun _ => ⟨z1, hz1⟩) (fun _ => ⟨z2, hz2⟩) i cs hi
      have x1 : lo ≤ X := le_trans (le_min b1.1 b2.1) s1.1
      have x2 : X ≤ hi' := le_trans s1.2 (max_le b1.2 b2.2)
      have y1 : lo ≤ Y := le_trans (le_min b3.1 b4.1) s2.1
      have y2 : Y ≤ hi' := le_trans s2.2 (max_le b3.2 b4.2)
      exact ⟨le_trans (le_min x1 y1) s3.1, le_trans s3.2 (max_le x2 y2)⟩

/-- **C08**, 1-D arrays: expanding to `rows` copies of the interpolated row. -/
theorem C08_rebin_expand_1d (isInt : Bool) (a : Arr) (h1d : a.oneD = true) (hr : a.rows = 1)
    (rows cs : ℕ) (hrows : 0 < rows) (hcs : 0 < cs) (ho1 : 0 < a.cols) :
    ∃ b, rebin isInt a rows (cs * a.cols) false = .ok b ∧
      b.rows = rows ∧ b.cols = cs * a.cols ∧
      (∀ r p, r < rows → p < a.cols → b.get r (p * cs) = a.get 0 p) ∧
      (isInt = false → ∀ r p i, r < rows → p < a.cols → i < cs →
        b.get r (p * cs + i) = interp a.cols cs (fun c => a.get 0 c) p i) ∧
      ∀ r p i, r < rows → p < a.cols → i < cs →
        (isInt = true → ∀ c, ∃ z : ℤ, a.get 0 c = z) →
        min (a.get 0 p) (a.get 0 (min (p + 1) (a.cols - 1))) ≤ b.get r (p * cs + i) ∧
          b.get r (p * cs + i) ≤ max (a.get 0 p) (a.get 0 (min (p + 1) (a.cols - 1))) := by
  have e1 : a.cols ≤ cs * a.cols := Nat.le_mul_of_pos_left _ hcs
  unfold rebin
  have c1 : ¬ (a.oneD = false ∧ a.rows = rows ∧ a.cols = cs * a.cols) := by simp [h1d]
  have c2 : ¬ (a.rows = 0 ∨ a.cols = 0 ∨ rows = 0 ∨ cs * a.cols = 0) := by omega
  have c3 : ¬ (rows < a.rows ∨ cs * a.cols < a.cols) := by omega
  have c4 : ¬ (rows % a.rows ≠ 0 ∨ (cs * a.cols) % a.cols ≠ 0) := by
    rw [hr, Nat.mod_one, Nat.mul_mod_left]; simp
  have d1 : cs * a.cols / a.cols = cs := Nat.mul_div_cancel _ ho1
  simp only [if_neg c1, if_neg c2, Bool.false_eq_true, if_false, if_neg c3, if_neg c4, d1]
  simp only [hr, h1d, if_true]
  refine ⟨_, rfl, rfl, rfl, ?_, ?_, ?_⟩
  · intro r p _ hp
    have := expandAxis_eq a.cols cs (fun k => a.get 0 k) p 0 hp hcs isInt
    simpa [floorIf] using this
  · intro hf r p i _ hp hi
    subst hf
    simp only
    rw [expandAxis_eq _ _ _ _ _ hp hi]
    simp [floorIf, interp]
  · intro r p i _ hp hi hint
    simp only
    rw [expandAxis_eq _ _ _ _ _ hp hi]
    exact floorIf_between isInt _ _ (fun h => hint h _) (fun h => hint h _) i cs hi

/-- **C08**, rejected shapes: an enlarged shape that is not a multiple raises `ValueError`. -/
theorem C08_rebin_not_multiple (isInt : Bool) (a : Arr) (s0 s1 : ℕ) (h0 : 0 < a.rows)
    (h1 : 0 < a.cols) (hr : a.rows ≤ s0) (hc : a.cols ≤ s1)
    (hnd : ¬ a.rows ∣ s0 ∨ ¬ a.cols ∣ s1) :
    rebin isInt a s0 s1 false = .error .valueError := by
  unfold rebin
  have c1 : ¬ (a.oneD = false ∧ a.rows = s0 ∧ a.cols = s1) := by
    rintro ⟨_, h2, h3⟩
    rcases hnd with h | h
    · exact h (h2 ▸ dvd_refl _)
    · exact h (h3 ▸ dvd_refl _)
  have c2 : ¬ (a.rows = 0 ∨ a.cols = 0 ∨ s0 = 0 ∨ s1 = 0) := by omega
  have c3 : ¬ (s0 < a.rows ∨ s1 < a.cols) := by omega
  have c4 : s0 % a.rows ≠ 0 ∨ s1 % a.cols ≠ 0 := by
    rcases hnd with h | h
    · left; exact fun h' => h (Nat.dvd_of_mod_eq_zero h')
    · right; exact fun h' => h (Nat.dvd_of_mod_eq_zero h')
  simp only [if_neg c1, if_neg c2, Bool.false_eq_true, if_false, if_neg c3, if_pos c4]

/-- The example of the docstring: `rebin([0,10,20,30], (1,8))`. -/
example : (match rebin true ⟨true, 1, 4, fun _ c => (10 * c : ℕ)⟩ 1 8 false with
    | .ok b => (List.range 8).map (b.get 0)
    | .error _ => []) = [0, 5, 10, 15, 20, 25, 30, 30] := by decide +kernel

/-! ## C09 -/

theorem rebin_tile_rows (a : Arr) (s0 s1 Q : ℕ) (h1 : 0 < s1) (ho : 0 < a.rows)
    (hQ : 1 < Q) (hmul : a.rows ∣ s0) (hgt : a.rows < s0) (hc : a.cols = s1 * Q) :
    ∃ b, rebin false a s0 s1 false = .ok b ∧ b.rows = s0 ∧ b.cols = s1 ∧
      ∀ i j, i < s0 → j < s1 → b.get i j =
        (∑ u ∈ Finset.range a.rows, ∑ v ∈ Finset.range Q, a.get u (j * Q + v))
          / ((a.rows : ℚ) * (Q : ℚ)) := by
  have hlt : s1 < s1 * Q := by
    calc s1 = s1 * 1 := by ring
      _ < s1 * Q := Nat.mul_lt_mul_of_pos_left hQ h1
  have c1 : ¬ (a.oneD = false ∧ a.rows = s0 ∧ s1 * Q = s1) := by rintro ⟨_, h, _⟩; omega
  have c2 : ¬ (a.rows = 0 ∨ s1 * Q = 0 ∨ s0 = 0 ∨ s1 = 0) := by omega
  have c3 : s0 < a.rows ∨ s1 < s1 * Q := Or.inr hlt
  have c4 : ¬ (max a.rows s0 % min a.rows s0 ≠ 0 ∨ max (s1 * Q) s1 % min (s1 * Q) s1 ≠ 0) := by
    rw [max_eq_right (le_of_lt hgt), min_eq_left (le_of_lt hgt), max_eq_left (le_of_lt hlt),
      min_eq_right (le_of_lt hlt), Nat.mul_mod_right, Nat.mod_eq_zero_of_dvd hmul]
    simp
  have c5 : s0 > a.rows := hgt
  unfold rebin
  rw [hc]
  simp only [if_neg c1, if_neg c2, Bool.false_eq_true, if_false, if_pos c3, if_neg c4, if_pos c5]
  refine ⟨_, rfl, rfl, rfl, ?_⟩
  intro i j _ hj
  have hs0 : 0 < s0 := by omega
  simp only [fixIf, Bool.false_eq_true, if_false, Nat.mul_div_cancel_left _ h1,
    Nat.mul_div_cancel_left _ hs0]
  have : ∀ u, u < a.rows → (meanN Q fun v =>
      a.get ((((i * a.rows + u) * s1 + j) * Q + v) / (s1 * Q) % a.rows)
        ((((i * a.rows + u) * s1 + j) * Q + v) % (s1 * Q)))
      = meanN Q fun v => a.get u (j * Q + v) := by
    intro u hu
    apply meanN_congr
    intro v hv
    obtain ⟨x1, x2⟩ := reshape_index (p := a.rows) (i := i) (u := u) hj hv
    rw [x1, x2, Nat.mul_comm, Nat.mul_add_mod, Nat.mod_eq_of_lt hu]
  rw [meanN_congr this]
  unfold meanN
  rw [← Finset.sum_div, div_div, mul_comm (Q : ℚ)]

/-- **C09 (partial), rows.** Repeating a single row `s0` times while averaging its columns: every
output row is the block mean of the input row. Missing: more than one input row, where the code
averages all rows together (`C09_mixed_rebin_mixes_rows`). -/
theorem C09_mixed_rebin_single_row_partial (a : Arr) (s0 s1 Q : ℕ) (h1 : 0 < s1) (ho : a.rows = 1)
    (hQ : 1 < Q) (hgt : 1 < s0) (hc : a.cols = s1 * Q) :
    ∃ b, rebin false a s0 s1 false = .ok b ∧ b.rows = s0 ∧ b.cols = s1 ∧
      ∀ i j, i < s0 → j < s1 → b.get i j = blockSum (fun _ c => a.get 0 c) 1 Q i j / (Q : ℚ) := by
  obtain ⟨b, hb, h2, h3, h4⟩ := rebin_tile_rows a s0 s1 Q h1 (by omega) hQ (by rw [ho]; exact one_dvd _)
    (by omega) hc
  refine ⟨b, hb, h2, h3, ?_⟩
  intro i j hi hj
  rw [h4 i j hi hj, ho]
  simp [blockSum]

/-- **C09 is violated** when rows are added: every output row is the mean over all the input rows,
so that all the output rows are equal whatever the input. -/
theorem C09_mixed_rebin_mixes_rows (a : Arr) (s0 s1 Q : ℕ) (h1 : 0 < s1) (ho : 0 < a.rows)
    (hQ : 1 < Q) (hmul : a.rows ∣ s0) (hgt : a.rows < s0) (hc : a.cols = s1 * Q) :
    ∃ b, rebin false a s0 s1 false = .ok b ∧
      (∀ i j, i < s0 → j < s1 → b.get i j =
        (∑ u ∈ Finset.range a.rows, ∑ v ∈ Finset.range Q, a.get u (j * Q + v))
          / ((a.rows : ℚ) * (Q : ℚ))) ∧
      ∀ i i' j, i < s0 → i' < s0 → j < s1 → b.get i j = b.get i' j := by
  obtain ⟨b, hb, h2, h3, h4⟩ := rebin_tile_rows a s0 s1 Q h1 ho hQ hmul hgt hc
  refine ⟨b, hb, h4, ?_⟩
  intro i i' j hi hi' hj
  rw [h4 i j hi hj, h4 i' j hi' hj]

/-- Rows `[0,0]` and `[8,8]`, rebinned to 4 x 1: all four output rows are 4, whereas the first
output row should be the mean 0 of the first input row. -/
example : (match rebin false ⟨false, 2, 2, fun r _ => (8 * r : ℕ)⟩ 4 1 false with
    | .ok b => (List.range 4).map fun i => b.get i 0
    | .error _ => []) = [4, 4, 4, 4] := by decide +kernel

theorem rebin_tile_cols (a : Arr) (s0 s1 P : ℕ) (h0 : 0 < s0) (ho : 0 < a.cols)
    (hP : 1 < P) (hmul : a.cols ∣ s1) (hgt : a.cols < s1) (hr : a.rows = s0 * P) :
    ∃ b, rebin false a s0 s1 false = .ok b ∧ b.rows = s0 ∧ b.cols = s1 ∧
      ∀ i j, i < s0 → j < s1 → b.get i j =
        (∑ u ∈ Finset.range P, ∑ v ∈ Finset.range a.cols, a.get (i * P + u) v)
          / ((P : ℚ) * (a.cols : ℚ)) := by
  have hlt : s0 < s0 * P := by
    calc s0 = s0 * 1 := by ring
      _ < s0 * P := Nat.mul_lt_mul_of_pos_left hP h0
  have c1 : ¬ (a.oneD = false ∧ s0 * P = s0 ∧ a.cols = s1) := by rintro ⟨_, _, h⟩; omega
  have c2 : ¬ (s0 * P = 0 ∨ a.cols = 0 ∨ s0 = 0 ∨ s1 = 0) := by omega
  have c3 : s0 < s0 * P ∨ s1 < a.cols := Or.inl hlt
  have c4 : ¬ (max (s0 * P) s0 % min (s0 * P) s0 ≠ 0 ∨ max a.cols s1 % min a.cols s1 ≠ 0) := by
    rw [max_eq_right (le_of_lt hgt), min_eq_left (le_of_lt hgt), max_eq_left (le_of_lt hlt),
      min_eq_right (le_of_lt hlt), Nat.mul_mod_right, Nat.mod_eq_zero_of_dvd hmul]
    simp
  have c5 : ¬ s0 > s0 * P := by omega
  have c6 : s1 > a.cols := hgt
  unfold rebin
  rw [hr]
  simp only [if_neg c1, if_neg c2, Bool.false_eq_true, if_false, if_pos c3, if_neg c4, if_neg c5,
    if_pos c6]
  refine ⟨_, rfl, rfl, rfl, ?_⟩
  intro i j _ hj
  have hs1 : 0 < s1 := by omega
  simp only [fixIf, Bool.false_eq_true, if_false, Nat.mul_div_cancel_left _ h0,
    Nat.mul_div_cancel_left _ hs1]
  have : ∀ u, u < P → (meanN a.cols fun v =>
      a.get ((((i * P + u) * s1 + j) * a.cols + v) / (s1 * a.cols))
        ((((i * P + u) * s1 + j) * a.cols + v) % (s1 * a.cols) % a.cols))
      = meanN a.cols fun v => a.get (i * P + u) v := by
    intro u _
    apply meanN_congr
    intro v hv
    obtain ⟨x1, x2⟩ := reshape_index (p := P) (i := i) (u := u) hj hv
    rw [x1, x2, Nat.mul_comm j, Nat.mul_add_mod, Nat.mod_eq_of_lt hv]
  rw [meanN_congr this]
  unfold meanN
  rw [← Finset.sum_div, div_div, mul_comm (P : ℚ)]

/-- **C09 (partial), columns.** Repeating a single column while averaging rows gives the row-block
means. Missing: more than one input column (`C09_mixed_rebin_mixes_cols`). -/
theorem C09_mixed_rebin_single_col_partial (a : Arr) (s0 s1 P : ℕ) (h0 : 0 < s0) (ho : a.cols = 1)
    (hP : 1 < P) (hgt : 1 < s1) (hr : a.rows = s0 * P) :
    ∃ b, rebin false a s0 s1 false = .ok b ∧ b.rows = s0 ∧ b.cols = s1 ∧
      ∀ i j, i < s0 → j < s1 → b.get i j = blockSum (fun r _ => a.get r 0) P 1 i j / (P : ℚ) := by
  obtain ⟨b, hb, h2, h3, h4⟩ := rebin_tile_cols a s0 s1 P h0 (by omega) hP (by rw [ho]; exact one_dvd _)
    (by omega) hr
  refine ⟨b, hb, h2, h3, ?_⟩
  intro i j hi hj
  rw [h4 i j hi hj, ho]
  simp [blockSum]

/-- **C09 is violated** when columns are added: every output column is the mean over all the input
columns. -/
theorem C09_mixed_rebin_mixes_cols (a : Arr) (s0 s1 P : ℕ) (h0 : 0 < s0) (ho : 0 < a.cols)
    (hP : 1 < P) (hmul : a.cols ∣ s1) (hgt : a.cols < s1) (hr : a.rows = s0 * P) :
    ∃ b, rebin false a s0 s1 false = .ok b ∧
      ∀ i j j', i < s0 → j < s1 → j' < s1 → b.get i j = b.get i j' := by
  obtain ⟨b, hb, h2, h3, h4⟩ := rebin_tile_cols a s0 s1 P h0 ho hP hmul hgt hr
  refine ⟨b, hb, ?_⟩
  intro i j j' hi hj hj'
  rw [h4 i j hi hj, h4 i j' hi hj']

/-! ## Sampling -/

theorem sample_expand {o k : ℕ} (ho : 0 < o) (hk : 0 < k) (r : ℕ) :
    r / (o * k / o) = r * o / (o * k) := by
  rw [Nat.mul_div_cancel_left _ ho, mul_comm r o, Nat.mul_div_mul_left _ _ ho]

theorem sample_shrink {s k : ℕ} (hs : 0 < s) (r : ℕ) :
    r * (s * k / s) = r * (s * k) / s := by
  rw [Nat.mul_div_cancel_left _ hs, mul_left_comm, Nat.mul_div_cancel_left _ hs]

theorem sample_size {s k : ℕ} (hs : 0 < s) (hk : 0 < k) :
    (s * k + s * k / s - 1) / (s * k / s) = s := by
  rw [Nat.mul_div_cancel_left _ hs, Nat.add_sub_assoc hk, mul_comm, Nat.mul_add_div hk,
    Nat.div_eq_of_lt (by omega), add_zero]

/-- **C83**, arrays of two or more rows: sampling to a shape whose sizes are multiples or divisors of
the old ones gives every new pixel the value of the old pixel at the proportional position. -/
theorem C83_sample (isInt : Bool) (a : Arr) (s0 s1 : ℕ) (h2 : a.oneD = false) (h0 : 2 ≤ a.rows)
    (h1 : 0 < a.cols) (hs0 : 0 < s0) (hs1 : 0 < s1) (hd0 : a.rows ∣ s0 ∨ s0 ∣ a.rows)
    (hd1 : a.cols ∣ s1 ∨ s1 ∣ a.cols) :
    ∃ b, rebin isInt a s0 s1 true = .ok b ∧ b.rows = s0 ∧ b.cols = s1 ∧
      ∀ r c, r < s0 → c < s1 → b.get r c = a.get (r * a.rows / s0) (c * a.cols / s1) := by
  unfold rebin
  simp only []
  by_cases hsame : a.oneD = false ∧ a.rows = s0 ∧ a.cols = s1
  · obtain ⟨_, rfl, rfl⟩ := hsame
    rw [if_pos ⟨h2, rfl, rfl⟩]
    refine ⟨a, rfl, rfl, rfl, fun r c _ _ => ?_⟩
    rw [Nat.mul_div_cancel _ hs0, Nat.mul_div_cancel _ hs1]
  rw [if_neg hsame, if_neg (by omega), if_pos trivial, if_neg (by omega), if_neg (by omega)]
  -- the rows
  have hrow : ∃ r1 : Arr, (if s0 ≥ a.rows
      then (⟨false, a.rows * (s0 / a.rows), a.cols, fun r c => a.get (r / (s0 / a.rows)) c⟩ : Arr)
      else ⟨false, (a.rows + a.rows / s0 - 1) / (a.rows / s0), a.cols,
        fun r c => a.get (r * (a.rows / s0)) c⟩) = r1 ∧ r1.rows = s0 ∧
      ∀ r c, r1.get r c = a.get (r * a.rows / s0) c := by
    by_cases hge : s0 ≥ a.rows
    · rw [if_pos hge]
      refine ⟨_, rfl, ?_, ?_⟩
      · rcases hd0 with h | h
        · exact Nat.mul_div_cancel' h
        · have : s0 = a.rows := le_antisymm (Nat.le_of_dvd (by omega) h) hge
          rw [this, Nat.div_self (by omega), mul_one]
      · intro r c
        have hdvd : a.rows ∣ s0 := by
          rcases hd0 with h | h
          · exact h
          · rw [le_antisymm (Nat.le_of_dvd (by omega) h) hge]
        obtain ⟨k, rfl⟩ := hdvd
        simp only []
        rw [sample_expand (by omega) (Nat.pos_of_mul_pos_left hs0)]
    · rw [if_neg hge]
      have hdvd : s0 ∣ a.rows := by
        rcases hd0 with h | h
        · exact absurd (Nat.le_of_dvd hs0 h) hge
        · exact h
      obtain ⟨k, hk⟩ := hdvd
      refine ⟨_, rfl, ?_, ?_⟩
      · simp only []
        rw [hk]
        exact sample_size hs0 (Nat.pos_of_ne_zero (by rintro rfl; omega))
      · intro r c
        simp only []
        rw [hk, sample_shrink hs0]
  obtain ⟨r1, hr1, hrows, hget⟩ := hrow
  rw [hr1]
  by_cases hge : s1 ≥ a.cols
  · rw [if_pos hge]
    have hdvd : a.cols ∣ s1 := by
      rcases hd1 with h | h
      · exact h
      · rw [le_antisymm (Nat.le_of_dvd (by omega) h) hge]
    obtain ⟨k, rfl⟩ := hdvd
    refine ⟨_, rfl, hrows, Nat.mul_div_cancel' (Dvd.intro _ rfl), ?_⟩
    intro r c _ _
    simp only []
    rw [hget, sample_expand h1 (Nat.pos_of_mul_pos_left hs1)]
  · rw [if_neg hge]
    have hdvd : s1 ∣ a.cols := by
      rcases hd1 with h | h
      · exact absurd (Nat.le_of_dvd hs1 h) hge
      · exact h
    obtain ⟨k, hk⟩ := hdvd
    refine ⟨_, rfl, hrows, ?_, ?_⟩
    · simp only []
      rw [hk]
      exact sample_size hs1 (Nat.pos_of_ne_zero (by rintro rfl; omega))
    · intro r c _ _
      simp only []
      rw [hget, hk, sample_shrink hs1]

/-- **C83**, 1-D arrays sampled to a single row. -/
theorem C83_sample_1d_partial (isInt : Bool) (a : Arr) (s1 : ℕ) (h2 : a.oneD = true)
    (h0 : a.rows = 1) (h1 : 0 < a.cols) (hs1 : 0 < s1) (hd1 : a.cols ∣ s1 ∨ s1 ∣ a.cols) :
    ∃ b, rebin isInt a 1 s1 true = .ok b ∧ b.rows = 1 ∧ b.cols = s1 ∧
      ∀ c, c < s1 → b.get 0 c = a.get 0 (c * a.cols / s1) := by
  unfold rebin
  simp only []
  rw [if_neg (by simp [h2]), if_neg (by omega), if_pos trivial, if_neg (by simp [h2]), if_pos h0]
  by_cases hge : s1 > a.cols
  · rw [if_pos hge]
    have hdvd : a.cols ∣ s1 := by
      rcases hd1 with h | h
      · exact h
      · exact absurd (Nat.le_of_dvd h1 h) (by omega)
    obtain ⟨k, rfl⟩ := hdvd
    refine ⟨_, rfl, rfl, Nat.mul_div_cancel' (Dvd.intro _ rfl), ?_⟩
    intro c _
    simp only []
    rw [sample_expand h1 (Nat.pos_of_mul_pos_left hs1)]
  · rw [if_neg hge]
    have hdvd : s1 ∣ a.cols := by
      rcases hd1 with h | h
      · rw [le_antisymm (Nat.le_of_dvd hs1 h) (by omega)]
      · exact h
    obtain ⟨k, hk⟩ := hdvd
    refine ⟨_, rfl, rfl, ?_, ?_⟩
    · simp only []
      rw [hk]
      exact sample_size hs1 (Nat.pos_of_ne_zero (by rintro rfl; omega))
    · intro c _
      simp only []
      rw [hk, sample_shrink hs1]

/-- **C83** is violated for 1-D arrays to be sampled to several rows: the result has a single row. -/
theorem C83_rows_ignored (isInt : Bool) (a b : Arr) (s0 s1 : ℕ) (h2 : a.oneD = true)
    (h0 : a.rows = 1) (hs0 : 2 ≤ s0) (h : rebin isInt a s0 s1 true = .ok b) : b.rows ≠ s0 := by
  unfold rebin at h
  simp only [] at h
  rw [if_neg (by simp [h2])] at h
  split_ifs at h
  all_goals first
    | (cases h; done)
    | (obtain rfl := Except.ok.inj h; simp only []; omega)
    | simp_all

/-- **C83** is violated for 2-D arrays of a single row: more columns are made into more rows, with the
old columns. -/
theorem C83_single_row_wrong (isInt : Bool) (a : Arr) (s0 k : ℕ) (h2 : a.oneD = false)
    (h0 : a.rows = 1) (h1 : 0 < a.cols) (hs0 : 0 < s0) (hk : 2 ≤ k) :
    ∃ b, rebin isInt a s0 (a.cols * k) true = .ok b ∧ b.rows = k ∧ b.cols = a.cols ∧
      b.cols ≠ a.cols * k := by
  have hlt : a.cols < a.cols * k := by nlinarith
  unfold rebin
  simp only []
  rw [if_neg (by omega), if_neg (by omega), if_pos trivial, if_pos ⟨h0, h2⟩, if_pos hlt]
  exact ⟨_, rfl, Nat.mul_div_cancel_left _ h1, rfl, by simp only []; omega⟩

/-- The 2 x 4 array `[[0,1,2,3],[10,11,12,13]]` sampled to 4 x 2. -/
example : ((rebin true ⟨false, 2, 4, fun r c => (10 * r + c : ℕ)⟩ 4 2 true).map fun b =>
    (List.range b.rows).map fun r => (List.range b.cols).map fun c => b.get r c)
      = .ok [[0, 2], [0, 2], [10, 12], [10, 12]] := by decide +kernel

/-- A single row of 2 columns sampled to 1 x 6 gives 3 rows of 2 columns. -/
example : ((rebin true ⟨false, 1, 2, fun _ c => (c : ℕ)⟩ 1 6 true).map fun b =>
    (List.range b.rows).map fun r => (List.range b.cols).map fun c => b.get r c)
      = .ok [[0, 1], [0, 1], [0, 1]] := by decide +kernel

end PyFHD
