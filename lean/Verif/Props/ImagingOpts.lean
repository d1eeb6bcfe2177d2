import Verif.Props.Imaging
import Mathlib.Tactic.Positivity

/-!
# C96, C98, C99: threshold, padding and the arrays of the caller
-/

namespace PyFHD

open Finset

/-! ## C96: the baseline threshold -/

/-- A cell of a plane of size `n` is kept by the threshold: it is not nearer to the centre than a positive
threshold, not farther than a negative one. -/
def Spec.Kept (n : ℕ) (thr : ℚ) (i j : ℕ) : Prop :=
  (0 ≤ thr → thr ^ 2 ≤ ((j : ℚ) - n / 2) ^ 2 + ((i : ℚ) - n / 2) ^ 2) ∧
  (thr < 0 → ((j : ℚ) - n / 2) ^ 2 + ((i : ℚ) - n / 2) ^ 2 ≤ thr ^ 2)

theorem thresholdRaw_kept (n : ℕ) (thr : ℚ) (i j : ℕ) (h : Spec.Kept n thr i j) :
    thresholdRaw n thr i j = 1 := by
  unfold thresholdRaw
  simp only []
  split_ifs with h1 h2 h2
  · exact absurd (h.1 h1) (not_le.2 h2)
  · rfl
  · exact absurd (h.2 (not_le.1 h1)) (not_le.2 h2)
  · rfl

theorem thresholdRaw_cut (n : ℕ) (thr : ℚ) (i j : ℕ) (h : ¬ Spec.Kept n thr i j) :
    thresholdRaw n thr i j = 0 := by
  unfold thresholdRaw
  simp only []
  split_ifs with h1 h2 h2
  · rfl
  · exact absurd ⟨fun _ => not_lt.1 h2, fun h => absurd h1 (not_le.2 h)⟩ h
  · rfl
  · exact absurd ⟨fun h => absurd h h1, fun _ => not_lt.1 h2⟩ h

theorem thresholdRaw_range (n : ℕ) (thr : ℚ) (i j : ℕ) :
    0 ≤ thresholdRaw n thr i j ∧ thresholdRaw n thr i j ≤ 1 := by
  by_cases h : Spec.Kept n thr i j
  · rw [thresholdRaw_kept n thr i j h]; norm_num
  · rw [thresholdRaw_cut n thr i j h]; norm_num

theorem boxSize_odd (t : ℕ) : boxSize ((2 * t + 1 : ℕ) : ℚ) = 2 * t + 1 := by
  unfold boxSize
  simp only []
  rw [Int.ceil_natCast, Int.toNat_natCast, if_neg (by omega)]

theorem half_odd (t : ℕ) : ⌊((2 * t + 1 : ℕ) : ℚ) / 2⌋.toNat = t := by
  have : ⌊((2 * t + 1 : ℕ) : ℚ) / 2⌋ = (t : ℤ) := by
    rw [Int.floor_eq_iff]
    push_cast
    constructor <;> linarith
  rw [this, Int.toNat_natCast]

/-- The width used for a width given as a number of pixels. -/
def Spec.oddWidth (v : ℕ) : ℕ := if v = 0 then 1 else if v % 2 = 0 then v + 1 else v

theorem smoothWidth_nat (n v : ℕ) : smoothWidth n (some (v : ℚ)) = ((Spec.oddWidth v : ℕ) : ℚ) := by
  unfold smoothWidth Spec.oddWidth
  simp only [Option.getD_some]
  have hm : max (v : ℚ) 1 = ((max v 1 : ℕ) : ℚ) := by push_cast; rfl
  rw [hm]
  rcases Nat.eq_zero_or_pos v with rfl | hv
  · norm_num
  · rw [Nat.max_eq_left hv, if_neg (show ¬ v = 0 by omega)]
    have e : ((v : ℚ).den = 1 ∧ (v : ℚ).num % 2 = 0) ↔ v % 2 = 0 := by
      rw [Rat.num_natCast, Rat.den_natCast]
      omega
    rw [if_congr e rfl rfl]
    split_ifs
    · push_cast; rfl
    · rfl

theorem smoothWidth_none (n : ℕ) : smoothWidth n none = ((Spec.oddWidth (n / 100) : ℕ) : ℚ) := by
  rw [← smoothWidth_nat n]
  unfold smoothWidth
  rw [Nat.sqrt_eq]
  rfl

theorem oddWidth_odd (v : ℕ) : ∃ t, Spec.oddWidth v = 2 * t + 1 := by
  unfold Spec.oddWidth
  split_ifs with h1 h2
  · exact ⟨0, rfl⟩
  · exact ⟨v / 2, by omega⟩
  · exact ⟨v / 2, by omega⟩

/-- The mask for an odd width. -/
theorem thresholdMask_odd (n t : ℕ) (thr : ℚ) (width : Option ℚ)
    (hw : smoothWidth n width = ((2 * t + 1 : ℕ) : ℚ)) (hn : 2 * t + 1 ≤ n) :
    thresholdMask n thr width = .ok fun i j =>
      if t ≤ i ∧ i < n - t ∧ t ≤ j ∧ j < n - t then
        (∑ x ∈ range (2 * t + 1), ∑ y ∈ range (2 * t + 1), thresholdRaw n thr (i + x - t) (j + y - t))
          / ((2 * t + 1 : ℕ) : ℚ) ^ 2
      else thresholdRaw n thr i j := by
  unfold thresholdMask
  simp only [hw, boxSize_odd, half_odd]
  rw [if_neg (by omega)]
  congr 1
  funext i j
  congr 1
  rw [sum_div]
  apply sum_congr rfl
  intro x hx
  rw [sum_div]
  apply sum_congr rfl
  intro y hy
  have hx' := mem_range.1 hx
  have hy' := mem_range.1 hy
  have hb : ∀ z : ℕ, z < 2 * t + 1 → |(((z : ℤ) - t : ℤ) : ℚ)| ≤ ((2 * t + 1 : ℕ) : ℚ) / 2 := by
    intro z hz
    have h1 : (z : ℚ) + 1 ≤ 2 * t + 1 := by exact_mod_cast hz
    have h0 : (0 : ℚ) ≤ z := Nat.cast_nonneg z
    rw [abs_le]
    push_cast
    constructor <;> linarith
  unfold boxKernel
  rw [if_pos ⟨hb x hx', hb y hy'⟩]
  ring

/-- **C96.** For the default width and any width given as a number of pixels that is at most the size of
the plane, the mask lies between 0 and 1; a cell is kept entirely if all cells in the square around it
are kept, and cut entirely if all are cut; within half the width of the edge of the plane there is
no smoothing. -/
theorem C96_mask (n : ℕ) (thr : ℚ) (width : Option ℕ) (t : ℕ)
    (ht : Spec.oddWidth (width.getD (n / 100)) = 2 * t + 1) (hn : 2 * t + 1 ≤ n) :
    ∃ mask, thresholdMask n thr (width.map fun v => (v : ℚ)) = .ok mask ∧
      ∀ i < n, ∀ j < n,
        0 ≤ mask i j ∧ mask i j ≤ 1 ∧
        (t ≤ i → i + t < n → t ≤ j → j + t < n →
          ((∀ i' j', i ≤ i' + t → i' ≤ i + t → j ≤ j' + t → j' ≤ j + t → Spec.Kept n thr i' j') →
            mask i j = 1) ∧
          ((∀ i' j', i ≤ i' + t → i' ≤ i + t → j ≤ j' + t → j' ≤ j + t → ¬ Spec.Kept n thr i' j') →
            mask i j = 0)) ∧
        (¬ (t ≤ i ∧ i + t < n ∧ t ≤ j ∧ j + t < n) →
          (Spec.Kept n thr i j → mask i j = 1) ∧ (¬ Spec.Kept n thr i j → mask i j = 0)) := by
  have hw : smoothWidth n (width.map fun v => (v : ℚ)) = ((2 * t + 1 : ℕ) : ℚ) := by
    rw [← ht]
    cases width with
    | none => exact smoothWidth_none n
    | some v => exact smoothWidth_nat n v
  refine ⟨_, thresholdMask_odd n t thr _ hw hn, fun i hi j hj => ?_⟩
  have hpos : (0 : ℚ) < ((2 * t + 1 : ℕ) : ℚ) ^ 2 := by positivity
  have hcount : (∑ x ∈ range (2 * t + 1), ∑ y ∈ range (2 * t + 1), (1 : ℚ))
      = ((2 * t + 1 : ℕ) : ℚ) ^ 2 := by
    simp; ring
  refine ⟨?_, ?_, ?_, ?_⟩
  · split_ifs
    · exact div_nonneg (sum_nonneg fun x _ => sum_nonneg fun y _ => (thresholdRaw_range _ _ _ _).1)
        hpos.le
    · exact (thresholdRaw_range _ _ _ _).1
  · split_ifs
    · rw [div_le_one hpos, ← hcount]
      exact sum_le_sum fun x _ => sum_le_sum fun y _ => (thresholdRaw_range _ _ _ _).2
    · exact (thresholdRaw_range _ _ _ _).2
  · intro h1 h2 h3 h4
    rw [if_pos ⟨h1, by omega, h3, by omega⟩]
    refine ⟨fun hk => ?_, fun hk => ?_⟩
    · rw [div_eq_one_iff_eq hpos.ne', ← hcount]
      apply sum_congr rfl
      intro x hx
      apply sum_congr rfl
      intro y hy
      have hx' := mem_range.1 hx
      have hy' := mem_range.1 hy
      exact thresholdRaw_kept _ _ _ _ (hk _ _ (by omega) (by omega) (by omega) (by omega))
    · rw [sum_eq_zero, zero_div]
      intro x hx
      apply sum_eq_zero
      intro y hy
      have hx' := mem_range.1 hx
      have hy' := mem_range.1 hy
      exact thresholdRaw_cut _ _ _ _ (hk _ _ (by omega) (by omega) (by omega) (by omega))
  · intro h
    rw [if_neg (by omega)]
    exact ⟨thresholdRaw_kept _ _ _ _, thresholdRaw_cut _ _ _ _⟩

/-- **C96**, the default: the threshold zero leaves every plane as it is. -/
theorem C96_default_keeps (n : ℕ) (hn : 0 < n) :
    ∃ mask, thresholdMask n 0 none = .ok mask ∧ ∀ i < n, ∀ j < n, mask i j = 1 := by
  obtain ⟨t, ht⟩ := oddWidth_odd (n / 100)
  have hle : 2 * t + 1 ≤ n := by
    rw [← ht]; unfold Spec.oddWidth; split_ifs <;> omega
  obtain ⟨mask, h1, h2⟩ := C96_mask n 0 none t (by simpa using ht) hle
  have hk : ∀ i j, Spec.Kept n 0 i j := fun i j =>
    ⟨fun _ => by rw [zero_pow two_ne_zero]; positivity, fun h => absurd h (lt_irrefl _)⟩
  refine ⟨mask, h1, fun i hi j hj => ?_⟩
  obtain ⟨-, -, h3, h4⟩ := h2 i hi j hj
  by_cases hc : t ≤ i ∧ i + t < n ∧ t ≤ j ∧ j + t < n
  · exact (h3 hc.1 hc.2.1 hc.2.2.1 hc.2.2.2).1 fun i' j' _ _ _ _ => hk i' j'
  · exact (h4 hc).1 (hk i j)

theorem smoothWidth_between (n : ℕ) (w : ℚ) (k : ℕ) (hk : 1 ≤ k) (h1 : (k : ℚ) < w)
    (h2 : w < k + 1) : smoothWidth n (some w) = w := by
  have hk' : (1 : ℚ) ≤ k := by exact_mod_cast hk
  unfold smoothWidth
  simp only [Option.getD_some]
  rw [max_eq_left (by linarith), if_neg]
  rintro ⟨hd, -⟩
  have hw : (w.num : ℚ) = w := by
    have := Rat.num_div_den w
    rw [hd] at this
    simpa using this
  rw [← hw] at h1 h2
  have h3 : (k : ℤ) < w.num := by exact_mod_cast h1
  have h4 : w.num < k + 1 := by exact_mod_cast h2
  omega

/-- **C96** does not hold for fractional widths: between an even number of pixels and the next odd one,
the mask exceeds 1 where nothing is cut. -/
theorem C96_fraction_amplifies (n t : ℕ) (thr w : ℚ) (ht : 1 ≤ t) (h1 : 2 * (t : ℚ) < w)
    (h2 : w < 2 * t + 1) (hn : 2 * t + 1 ≤ n) :
    ∃ mask, thresholdMask n thr (some w) = .ok mask ∧
      ∀ i j, t ≤ i → i + t < n → t ≤ j → j + t < n →
        (∀ i' j', i ≤ i' + t → i' ≤ i + t → j ≤ j' + t → j' ≤ j + t → Spec.Kept n thr i' j') →
        mask i j = (2 * t + 1) ^ 2 / w ^ 2 ∧ 1 < mask i j := by
  have ht' : (1 : ℚ) ≤ t := by exact_mod_cast ht
  have hw := smoothWidth_between n w (2 * t) (by omega) (by push_cast; exact h1)
    (by push_cast; exact h2)
  have hc : boxSize w = 2 * t + 1 := by
    have : ⌈w⌉ = ((2 * t + 1 : ℕ) : ℤ) := by
      rw [Int.ceil_eq_iff]; push_cast; constructor <;> linarith
    unfold boxSize
    simp only [this, Int.toNat_natCast]
    rw [if_neg (by omega)]
  have hs : ⌊w / 2⌋.toNat = t := by
    have : ⌊w / 2⌋ = (t : ℤ) := by
      rw [Int.floor_eq_iff]; push_cast; constructor <;> linarith
    rw [this, Int.toNat_natCast]
  unfold thresholdMask
  simp only [hw, hc, hs]
  rw [if_neg (by omega)]
  refine ⟨_, rfl, fun i j hi1 hi2 hj1 hj2 hk => ?_⟩
  have hv : (∑ x ∈ range (2 * t + 1), ∑ y ∈ range (2 * t + 1),
      boxKernel w ((x : ℤ) - t) ((y : ℤ) - t) * thresholdRaw n thr (i + x - t) (j + y - t))
      = (2 * t + 1) ^ 2 / w ^ 2 := by
    have hb : ∀ z : ℕ, z < 2 * t + 1 → |(((z : ℤ) - t : ℤ) : ℚ)| ≤ w / 2 := by
      intro z hz
      have h1 : (z : ℚ) + 1 ≤ 2 * t + 1 := by exact_mod_cast hz
      have h0 : (0 : ℚ) ≤ z := Nat.cast_nonneg z
      rw [abs_le]
      push_cast
      constructor <;> linarith
    rw [show (2 * (t : ℚ) + 1) ^ 2 / w ^ 2
        = ∑ x ∈ range (2 * t + 1), ∑ y ∈ range (2 * t + 1), 1 / w ^ 2 by simp; ring]
    apply sum_congr rfl
    intro x hx
    apply sum_congr rfl
    intro y hy
    have hx' := mem_range.1 hx
    have hy' := mem_range.1 hy
    unfold boxKernel
    rw [if_pos ⟨hb x hx', hb y hy'⟩,
      thresholdRaw_kept _ _ _ _ (hk _ _ (by omega) (by omega) (by omega) (by omega)), mul_one]
  rw [if_pos ⟨hi1, by omega, hj1, by omega⟩, hv]
  refine ⟨rfl, ?_⟩
  rw [lt_div_iff₀ (by nlinarith), one_mul]
  nlinarith

/-- **C96**, other fractional widths raise an exception. -/
theorem C96_fraction_raises (n t : ℕ) (thr w : ℚ) (h1 : 2 * (t : ℚ) + 1 < w)
    (h2 : w < 2 * t + 2) : thresholdMask n thr (some w) = .error .valueError := by
  have hw := smoothWidth_between n w (2 * t + 1) (by omega) (by push_cast; exact h1)
    (by push_cast; linarith)
  have hc : boxSize w = 2 * t + 3 := by
    have : ⌈w⌉ = ((2 * t + 2 : ℕ) : ℤ) := by
      rw [Int.ceil_eq_iff]; push_cast; constructor <;> linarith
    unfold boxSize
    simp only [this, Int.toNat_natCast]
    rw [if_pos (by omega)]
  have hs : ⌊w / 2⌋.toNat = t := by
    have : ⌊w / 2⌋ = (t : ℤ) := by
      rw [Int.floor_eq_iff]; push_cast; constructor <;> linarith
    rw [this, Int.toNat_natCast]
  unfold thresholdMask
  simp only [hw, hc, hs]
  rw [if_pos (Or.inr (by omega))]

/-- **C96**, planes that are not square raise an exception unless the threshold is turned off. -/
theorem C96_not_square_raises (o : ImgOpts) (n m : ℕ) (hnm : n ≠ m) (plane : Plane ℂ)
    (ht : o.threshold.isSome = true) : dirtyImage o n m plane = .error .valueError := by
  unfold dirtyImage imgThreshold
  cases h : o.threshold with
  | none => rw [h] at ht; simp at ht
  | some t => simp only [if_pos hnm]

/-! ## C98: padding -/

theorem sum_window (N d n : ℕ) (h : d + n ≤ N) (G : ℕ → ℂ) :
    ∑ i ∈ range N, (if d ≤ i ∧ i < d + n then G i else 0) = ∑ a ∈ range n, G (a + d) := by
  rw [← sum_filter]
  have : (range N).filter (fun i => d ≤ i ∧ i < d + n) = Ico d (d + n) := by
    ext i; simp only [mem_filter, mem_range, mem_Ico]; omega
  rw [this, sum_Ico_eq_sum_range, Nat.add_sub_cancel_left]
  apply sum_congr rfl
  intro a _
  rw [add_comm]

theorem fftRoot_scale (n p : ℕ) (hp : 0 < p) (k : ℤ) : fftRoot (p * n) (p * k) = fftRoot n k := by
  unfold fftRoot
  congr 2
  have : (p : ℂ) ≠ 0 := by exact_mod_cast hp.ne'
  push_cast
  rcases Nat.eq_zero_or_pos n with rfl | hn
  · simp
  · have : (n : ℂ) ≠ 0 := by exact_mod_cast hn.ne'
    field_simp

/-- The state after padding by a whole factor. -/
theorem imgPad_nat (o : ImgOpts) (s : ImgState) (h : s.rows = s.cols) (h2 : s.rows % 2 = 0) (p : ℕ)
    (hp : 1 ≤ p) (ho : o.pad = some (p : ℚ)) :
    imgPad o s = .ok (s.fresh (p * s.rows) (p * s.rows) fun i j =>
      (if s.rows / 2 * (p - 1) ≤ i ∧ i < s.rows / 2 * (p - 1) + s.rows ∧
          s.rows / 2 * (p - 1) ≤ j ∧ j < s.rows / 2 * (p - 1) + s.rows then
        s.use (i - s.rows / 2 * (p - 1)) (j - s.rows / 2 * (p - 1)) else 0) * ((p : ℂ) ^ 2)) := by
  unfold imgPad
  have hi : pyInt (p : ℚ) = p := by
    unfold pyInt; rw [if_pos (Nat.cast_nonneg p), Int.floor_natCast]
  have hd : ((max s.cols s.rows / 2 : ℕ) : ℤ) * (pyInt (p : ℚ) - 1)
      = ((s.rows / 2 * (p - 1) : ℕ) : ℤ) := by
    rw [hi, ← h, max_self]; push_cast [Nat.cast_sub hp]; ring
  simp only [ho, hd]
  rw [if_neg (by omega), Int.toNat_natCast]
  have hsz : s.rows + 2 * (s.rows / 2 * (p - 1)) = p * s.rows := by
    obtain ⟨q, rfl⟩ : ∃ q, p = q + 1 := ⟨p - 1, by omega⟩
    obtain ⟨r, hr⟩ : ∃ r, s.rows = 2 * r := ⟨s.rows / 2, by omega⟩
    rw [hr]; simp; ring
  rw [← h, hsz]
  congr 2
  funext i j
  push_cast
  rfl

/-- The image of the padded plane at the pixels of the image of the plane. -/
theorem uvToImage_padded (n p : ℕ) (hn : 0 < n) (hn2 : n % 2 = 0) (hp : 1 ≤ p) (f : Plane ℂ)
    (k l : ℕ) :
    uvToImage (p * n) (p * n) (fun i j =>
      (if n / 2 * (p - 1) ≤ i ∧ i < n / 2 * (p - 1) + n ∧
          n / 2 * (p - 1) ≤ j ∧ j < n / 2 * (p - 1) + n then
        f (i - n / 2 * (p - 1)) (j - n / 2 * (p - 1)) else 0) * ((p : ℂ) ^ 2)) (p * k) (p * l)
      = uvToImage n n f k l := by
  obtain ⟨h, rfl⟩ : ∃ h, n = 2 * h := ⟨n / 2, by omega⟩
  obtain ⟨q, rfl⟩ : ∃ q, p = q + 1 := ⟨p - 1, by omega⟩
  have hp0 : ((q + 1 : ℕ) : ℂ) ≠ 0 := by exact_mod_cast Nat.succ_ne_zero q
  have hh0 : (h : ℂ) ≠ 0 := by
    have : h ≠ 0 := by omega
    exact_mod_cast this
  have e1 : 2 * h / 2 = h := by omega
  have e2 : (q + 1) * (2 * h) / 2 = (q + 1) * h := by
    rw [show (q + 1) * (2 * h) = 2 * ((q + 1) * h) by ring]; omega
  have hN : 0 < (q + 1) * (2 * h) := Nat.mul_pos (Nat.succ_pos q) hn
  rw [uvToImage_eq _ _ hN hN, uvToImage_eq _ _ hn hn, e1, e2, Nat.add_sub_cancel]
  have hroot : ∀ (k a : ℕ), fftRoot ((q + 1) * (2 * h))
        ((((q + 1) * k : ℕ) : ℤ) * 1 * 1 * 0 + ((((q + 1) * k : ℕ) : ℤ) - ((q + 1) * h : ℕ)) *
          (((a + h * q : ℕ) : ℤ) + ((q + 1) * h : ℕ)))
      = fftRoot (2 * h) (((k : ℤ) - h) * (a + h)) := by
    intro k a
    rw [show (((((q + 1) * k : ℕ) : ℤ) * 1 * 1 * 0 + ((((q + 1) * k : ℕ) : ℤ) - ((q + 1) * h : ℕ)) *
          (((a + h * q : ℕ) : ℤ) + ((q + 1) * h : ℕ))))
        = ((q + 1 : ℕ) : ℤ) * (((k : ℤ) - h) * (a + h + 2 * h * q)) by push_cast; ring,
      fftRoot_scale _ _ (Nat.succ_pos q)]
    exact fftRoot_congr _ ⟨((k : ℤ) - h) * q, by push_cast; ring⟩
  simp only [mul_zero, zero_add] at hroot
  have hsum : ∀ (G : ℕ → ℕ → ℂ), ∑ i ∈ range ((q + 1) * (2 * h)), ∑ j ∈ range ((q + 1) * (2 * h)),
      (if h * q ≤ i ∧ i < h * q + 2 * h ∧ h * q ≤ j ∧ j < h * q + 2 * h then G i j else 0)
      = ∑ a ∈ range (2 * h), ∑ b ∈ range (2 * h), G (a + h * q) (b + h * q) := by
    intro G
    have hle : h * q + 2 * h ≤ (q + 1) * (2 * h) := by nlinarith
    rw [← sum_window _ _ _ hle fun i => ∑ b ∈ range (2 * h), G i (b + h * q)]
    apply sum_congr rfl
    intro i _
    by_cases hi : h * q ≤ i ∧ i < h * q + 2 * h
    · rw [if_pos hi, ← sum_window _ _ _ hle fun j => G i j]
      apply sum_congr rfl
      intro j _
      congr 1
      simp [hi.1, hi.2]
    · rw [if_neg hi]
      apply sum_eq_zero
      intro j _
      rw [if_neg (by tauto)]
  have hbody : ∀ i j : ℕ, (if h * q ≤ i ∧ i < h * q + 2 * h ∧ h * q ≤ j ∧ j < h * q + 2 * h then
        f (i - h * q) (j - h * q) else 0) * (((q + 1 : ℕ) : ℂ) ^ 2) *
        fftRoot ((q + 1) * (2 * h)) (((((q + 1) * k : ℕ) : ℤ) - ((q + 1) * h : ℕ)) *
          ((i : ℤ) + ((q + 1) * h : ℕ))) *
        fftRoot ((q + 1) * (2 * h)) (((((q + 1) * l : ℕ) : ℤ) - ((q + 1) * h : ℕ)) *
          ((j : ℤ) + ((q + 1) * h : ℕ)))
      = if h * q ≤ i ∧ i < h * q + 2 * h ∧ h * q ≤ j ∧ j < h * q + 2 * h then
        f (i - h * q) (j - h * q) * (((q + 1 : ℕ) : ℂ) ^ 2) *
        fftRoot ((q + 1) * (2 * h)) (((((q + 1) * k : ℕ) : ℤ) - ((q + 1) * h : ℕ)) *
          ((i : ℤ) + ((q + 1) * h : ℕ))) *
        fftRoot ((q + 1) * (2 * h)) (((((q + 1) * l : ℕ) : ℤ) - ((q + 1) * h : ℕ)) *
          ((j : ℤ) + ((q + 1) * h : ℕ))) else 0 := by
    intro i j
    split_ifs
    · rfl
    · simp
  simp only [hbody]
  rw [hsum]
  simp only [hroot, Nat.add_sub_cancel]
  have hfac : ∑ a ∈ range (2 * h), ∑ b ∈ range (2 * h), f a b * ((q + 1 : ℕ) : ℂ) ^ 2 *
        fftRoot (2 * h) (((k : ℤ) - h) * (a + h)) * fftRoot (2 * h) (((l : ℤ) - h) * (b + h))
      = ((q + 1 : ℕ) : ℂ) ^ 2 * ∑ a ∈ range (2 * h), ∑ b ∈ range (2 * h), f a b *
        fftRoot (2 * h) (((k : ℤ) - h) * (a + h)) * fftRoot (2 * h) (((l : ℤ) - h) * (b + h)) := by
    rw [mul_sum]
    apply sum_congr rfl
    intro a _
    rw [mul_sum]
    apply sum_congr rfl
    intro b _
    ring
  rw [hfac]
  generalize (∑ a ∈ range (2 * h), ∑ b ∈ range (2 * h), f a b *
        fftRoot (2 * h) (((k : ℤ) - h) * (a + h)) * fftRoot (2 * h) (((l : ℤ) - h) * (b + h))) = S
  push_cast at hp0 ⊢
  field_simp

theorem imgMask_rows (o : ImgOpts) (s : ImgState) :
    (imgMask o s).rows = s.rows ∧ (imgMask o s).cols = s.cols := by
  unfold imgMask; split <;> exact ⟨rfl, rfl⟩

theorem imgThreshold_rows (o : ImgOpts) (s s' : ImgState) (h : imgThreshold o s = .ok s') :
    s'.rows = s.rows ∧ s'.cols = s.cols := by
  unfold imgThreshold at h
  split at h
  · injection h with h; rw [← h]; exact ⟨rfl, rfl⟩
  · split_ifs at h
    split at h
    · simp at h
    · injection h with h; rw [← h]; exact ⟨rfl, rfl⟩

theorem imgFilter_rows (o : ImgOpts) (s s' : ImgState) (f : FilterArg)
    (h : imgFilter o s = .ok (s', f)) : s'.rows = s.rows ∧ s'.cols = s.cols := by
  unfold imgFilter at h
  split at h
  · simp only [Except.ok.injEq, Prod.mk.injEq] at h; rw [← h.1]; exact ⟨rfl, rfl⟩
  · simp only [Except.ok.injEq, Prod.mk.injEq] at h; rw [← h.1]; exact ⟨rfl, rfl⟩
  · split at h
    · simp at h
    · simp only [Except.ok.injEq, Prod.mk.injEq] at h; rw [← h.1]; exact ⟨rfl, rfl⟩

/-- The plane before padding. -/
theorem dirtyImage_before (o : ImgOpts) (n m : ℕ) (plane : Plane ℂ) (out : ImgOut)
    (h : dirtyImage { o with pad := none } n m plane = .ok out) :
    ∃ s f, s.rows = n ∧ s.cols = m ∧
      (∀ q, dirtyImage { o with pad := q } n m plane = match imgPad { o with pad := q } s with
        | .error e => .error e
        | .ok s' => .ok ⟨(imgDegpix o s').rows, (imgDegpix o s').cols, imgFinish o (imgDegpix o s'), f,
            (imgDegpix o s').caller⟩) := by
  unfold dirtyImage at h
  split at h
  · simp at h
  · next s1 h1 =>
    split at h
    · simp at h
    · next s2 f h2 =>
      refine ⟨s2, f, ?_, ?_, fun q => ?_⟩
      · rw [(imgFilter_rows _ _ _ _ h2).1, (imgMask_rows _ _).1, (imgThreshold_rows _ _ _ h1).1]
      · rw [(imgFilter_rows _ _ _ _ h2).2, (imgMask_rows _ _).2, (imgThreshold_rows _ _ _ h1).2]
      · unfold dirtyImage
        have e1 : imgThreshold { o with pad := q } ⟨n, m, plane, plane, true⟩ = .ok s1 := h1
        have e2 : imgFilter { o with pad := q } (imgMask { o with pad := q } s1) = .ok (s2, f) := h2
        simp only [e1, e2]
        rfl

theorem uvToImage_smul (n m : ℕ) (f : Plane ℂ) (c : ℂ) (k l : ℕ) :
    uvToImage n m (fun a b => f a b * c) k l = uvToImage n m f k l * c := by
  have := C97_linear n m f f c 0 k l
  simp only [zero_mul, add_zero] at this
  rw [mul_comm, ← this]
  congr 1
  funext a b
  ring

/-- The factor from the division by the area of a pixel. -/
noncomputable def Spec.pixelFactor (d : Option ℝ) : ℝ :=
  match d with | none => 1 | some d => ((d * (Real.pi / 180)) ^ 2)⁻¹

theorem finish_degpix (o : ImgOpts) (hb : o.beam = none) (hn : o.norm = none) (s : ImgState)
    (k l : ℕ) :
    imgFinish o (imgDegpix o s) k l =
      (if o.notReal then uvToImage s.rows s.cols s.use k l
        else (((uvToImage s.rows s.cols s.use k l).re : ℝ) : ℂ)) * ((Spec.pixelFactor o.degpix : ℝ) : ℂ) := by
  cases hd : o.degpix with
  | none =>
    unfold imgFinish imgDegpix Spec.pixelFactor
    simp only [hd, hb, hn, Complex.ofReal_one, mul_one]
  | some d =>
    unfold imgFinish imgDegpix ImgState.inplace Spec.pixelFactor
    simp only [hd, hb, hn, div_eq_mul_inv]
    rw [uvToImage_smul]
    split_ifs
    · push_cast; rfl
    · rw [← Complex.ofReal_inv, Complex.re_mul_ofReal]
      push_cast; rfl

/-- **C98.** Padding a square plane of even size by a whole factor `p` multiplies the size of the image
by `p`; each pixel of the image without padding keeps its value, `p` pixels apart: threshold, mask,
filter and units are whatever they are. -/
theorem C98_padding_refines (o : ImgOpts) (hb : o.beam = none) (hc : o.norm = none) (n p : ℕ)
    (hn : 0 < n) (hn2 : n % 2 = 0) (hp : 1 ≤ p) (plane : Plane ℂ) (out : ImgOut)
    (h : dirtyImage { o with pad := none } n n plane = .ok out) :
    ∃ out', dirtyImage { o with pad := some (p : ℚ) } n n plane = .ok out' ∧
      out'.rows = p * n ∧ out'.cols = p * n ∧
      ∀ k l, out'.image (p * k) (p * l) = out.image k l := by
  obtain ⟨s, f, h1, h2, h3⟩ := dirtyImage_before o n n plane out h
  have hnone := h3 none
  rw [h] at hnone
  simp only [imgPad] at hnone
  injection hnone with hnone
  have hpad := imgPad_nat { o with pad := some (p : ℚ) } s (by rw [h1, h2]) (by rw [h1]; exact hn2) p hp
    rfl
  have hsome := h3 (some (p : ℚ))
  rw [hpad] at hsome
  have hr : ∀ s' : ImgState, (imgDegpix o s').rows = s'.rows ∧ (imgDegpix o s').cols = s'.cols := by
    intro s'; unfold imgDegpix; split <;> exact ⟨rfl, rfl⟩
  refine ⟨_, hsome, ?_, ?_, fun k l => ?_⟩
  · show (imgDegpix o _).rows = _
    rw [(hr _).1]; show p * s.rows = _; rw [h1]
  · show (imgDegpix o _).cols = _
    rw [(hr _).2]; show p * s.rows = _; rw [h1]
  · rw [hnone]
    show imgFinish o (imgDegpix o _) _ _ = imgFinish o (imgDegpix o s) k l
    rw [finish_degpix o hb hc, finish_degpix o hb hc]
    simp only [ImgState.fresh, h1, h2]
    rw [uvToImage_padded n p hn hn2 hp]

/-- **C98** does not hold for other factors: between 1 and 2 nothing is padded, but the image is multiplied
by the square of the factor. -/
theorem C98_fraction_scales (o : ImgOpts) (hb : o.beam = none) (hc : o.norm = none) (n m : ℕ) (p : ℚ)
    (hp1 : 1 ≤ p) (hp2 : p < 2) (plane : Plane ℂ) (out : ImgOut)
    (h : dirtyImage { o with pad := none } n m plane = .ok out) :
    ∃ out', dirtyImage { o with pad := some p } n m plane = .ok out' ∧
      out'.rows = n ∧ out'.cols = m ∧
      ∀ k l, out'.image k l = (p : ℂ) ^ 2 * out.image k l := by
  obtain ⟨s, f, h1, h2, h3⟩ := dirtyImage_before o n m plane out h
  have hnone := h3 none
  rw [h] at hnone
  simp only [imgPad] at hnone
  injection hnone with hnone
  have hi : pyInt p = 1 := by
    unfold pyInt
    rw [if_pos (by linarith), Int.floor_eq_iff]
    push_cast; constructor <;> linarith
  have hsome := h3 (some p)
  simp only [imgPad, hi, sub_self, mul_zero, lt_irrefl, if_false, Int.toNat_zero, add_zero,
    Nat.zero_le, zero_add, true_and, Nat.sub_zero] at hsome
  have hr : ∀ s' : ImgState, (imgDegpix o s').rows = s'.rows ∧ (imgDegpix o s').cols = s'.cols := by
    intro s'; unfold imgDegpix; split <;> exact ⟨rfl, rfl⟩
  refine ⟨_, hsome, ?_, ?_, fun k l => ?_⟩
  · show (imgDegpix o _).rows = _
    rw [(hr _).1]; exact h1
  · show (imgDegpix o _).cols = _
    rw [(hr _).2]; exact h2
  · rw [hnone]
    show imgFinish o (imgDegpix o _) _ _ = _ * imgFinish o (imgDegpix o s) k l
    rw [finish_degpix o hb hc, finish_degpix o hb hc]
    simp only [ImgState.fresh]
    rw [uvToImage_smul]
    have hz : uvToImage s.rows s.cols (fun a b => if a < s.rows ∧ b < s.cols then s.use a b else 0) k l
        = uvToImage s.rows s.cols s.use k l := by
      unfold uvToImage fftForward fftshift
      simp only []
      congr 1
      apply sum_congr rfl
      intro a ha
      apply sum_congr rfl
      intro b hb
      have h1 := mem_range.1 ha
      have h2 := mem_range.1 hb
      rw [if_pos ⟨Nat.mod_lt _ (by omega), Nat.mod_lt _ (by omega)⟩]
    rw [hz]
    split_ifs
    · push_cast; ring
    · rw [show (((p ^ 2 : ℚ)) : ℂ) = (((p ^ 2 : ℚ) : ℝ) : ℂ) by push_cast; rfl,
        Complex.re_mul_ofReal]
      push_cast; ring

/-- **C98**, factors below 1 raise an exception. -/
theorem C98_below_one_raises (o : ImgOpts) (n m : ℕ) (hn : 2 ≤ max n m) (p : ℚ) (hp : p < 1)
    (plane : Plane ℂ) (out : ImgOut) (h : dirtyImage { o with pad := none } n m plane = .ok out) :
    dirtyImage { o with pad := some p } n m plane = .error .valueError := by
  obtain ⟨s, f, h1, h2, h3⟩ := dirtyImage_before o n m plane out h
  rw [h3 (some p)]
  have hi : pyInt p ≤ 0 := by
    unfold pyInt
    split_ifs with h0
    · have : ⌊p⌋ < 1 := Int.floor_lt.2 (by simpa using hp)
      omega
    · exact Int.ceil_le.2 (by push_cast; linarith)
  have hd : ((max s.cols s.rows / 2 : ℕ) : ℤ) * (pyInt p - 1) < 0 := by
    rw [h1, h2]
    have : 1 ≤ max m n / 2 := by rw [max_comm]; omega
    have h' : (1 : ℤ) ≤ ((max m n / 2 : ℕ) : ℤ) := by exact_mod_cast this
    nlinarith
  simp only [imgPad, if_pos hd]

/-! ## C99: the arrays of the caller -/

/-- The threshold mask of a plane, 1 without a threshold. -/
def Spec.thrFactor (o : ImgOpts) (n : ℕ) : Plane ℚ :=
  match o.threshold with
  | none => fun _ _ => 1
  | some t => match thresholdMask n t o.width with
    | .ok mask => mask
    | .error _ => fun _ _ => 1

/-- **C99**, what happens to the plane of the caller: it is multiplied by the threshold mask and the
mask, by a filter of its size, and, if neither another filter nor padding is used, divided by the
area of a pixel. -/
theorem C99_caller (o : ImgOpts) (n m : ℕ) (plane : Plane ℂ) (out : ImgOut)
    (h : dirtyImage o n m plane = .ok out) (i j : ℕ) :
    out.caller i j = plane i j * (Spec.thrFactor o n i j : ℂ) *
      (match o.mask with | none => 1 | some k => (k i j : ℂ)) *
      (match o.filter with | .sameSize g => (g i j : ℂ) | _ => 1) *
      (if (match o.filter with | .otherSize => false | _ => true) = true ∧ o.pad = none then
        ((Spec.pixelFactor o.degpix : ℝ) : ℂ) else 1) := by
  unfold dirtyImage at h
  split at h
  · simp at h
  · next s1 h1 =>
    have ha1 : s1.aliased = true ∧ s1.use = s1.caller ∧
        s1.caller i j = plane i j * (Spec.thrFactor o n i j : ℂ) := by
      unfold imgThreshold at h1
      unfold Spec.thrFactor
      split at h1
      · next ht =>
        injection h1 with h1
        rw [← h1, ht]; simp
      · next t ht =>
        split_ifs at h1
        split at h1
        · simp at h1
        · next mask hm =>
          injection h1 with h1
          rw [← h1, ht]
          simp only [ImgState.inplace, if_true, hm]
          exact ⟨trivial, trivial, trivial⟩
    have ha2 : (imgMask o s1).aliased = true ∧ (imgMask o s1).use = (imgMask o s1).caller ∧
        (imgMask o s1).caller i j = plane i j * (Spec.thrFactor o n i j : ℂ) *
          (match o.mask with | none => 1 | some k => (k i j : ℂ)) := by
      unfold imgMask
      cases o.mask with
      | none => exact ⟨ha1.1, ha1.2.1, by simp only [ha1.2.2, mul_one]⟩
      | some k =>
        simp only [ImgState.inplace, ha1.1, if_true, ha1.2.1, ha1.2.2]
        exact ⟨trivial, trivial, trivial⟩
    generalize imgMask o s1 = s2 at *
    split at h
    · simp at h
    · next s3 f h3 =>
      have ha3 : s3.aliased = (match o.filter with | .otherSize => false | _ => true) ∧
          (s3.aliased = true → s3.use = s3.caller) ∧
          s3.caller i j = plane i j * (Spec.thrFactor o n i j : ℂ) *
            (match o.mask with | none => 1 | some k => (k i j : ℂ)) *
            (match o.filter with | .sameSize g => (g i j : ℂ) | _ => 1) := by
        unfold imgFilter at h3
        cases hf : o.filter with
        | none =>
          rw [hf] at h3
          simp only [Except.ok.injEq, Prod.mk.injEq] at h3
          rw [← h3.1]
          exact ⟨ha2.1, fun _ => ha2.2.1, by rw [ha2.2.2, mul_one]⟩
        | sameSize g =>
          rw [hf] at h3
          simp only [Except.ok.injEq, Prod.mk.injEq] at h3
          rw [← h3.1]
          simp only [ImgState.inplace, ha2.1, if_true, ha2.2.1, ha2.2.2]
          exact ⟨trivial, fun _ => trivial, trivial⟩
        | otherSize =>
          rw [hf] at h3
          simp only [] at h3
          split at h3
          · simp at h3
          · simp only [Except.ok.injEq, Prod.mk.injEq] at h3
            rw [← h3.1]
            simp only [ImgState.fresh, Bool.false_eq_true, false_implies, true_and, ha2.2.2, mul_one]
      split at h
      · simp at h
      · next s4 h4 =>
        injection h with h
        rw [← h]
        show (imgDegpix o s4).caller i j = _
        have ha4 : s4.aliased = decide (s3.aliased = true ∧ o.pad = none) ∧
            (s4.aliased = true → s4.use = s4.caller) ∧ s4.caller = s3.caller := by
          unfold imgPad at h4
          cases hp : o.pad with
          | none =>
            rw [hp] at h4
            injection h4 with h4
            rw [← h4]
            exact ⟨by simp, ha3.2.1, rfl⟩
          | some p =>
            rw [hp] at h4
            simp only [] at h4
            split_ifs at h4
            injection h4 with h4
            rw [← h4]
            simp [ImgState.fresh]
        rw [← ha3.2.2, ← ha4.2.2, ← ha3.1]
        unfold imgDegpix Spec.pixelFactor
        by_cases hal : s3.aliased = true ∧ o.pad = none
        · have h5 : s4.aliased = true := by rw [ha4.1]; simpa using hal
          rw [if_pos hal]
          cases o.degpix with
          | none => simp
          | some d =>
            simp only [ImgState.inplace, h5, if_true, ha4.2.1 h5, div_eq_mul_inv]
            push_cast; rfl
        · have h5 : s4.aliased = false := by rw [ha4.1]; simpa using hal
          rw [if_neg hal, mul_one]
          cases o.degpix with
          | none => rfl
          | some d => simp only [ImgState.inplace, h5, Bool.false_eq_true, if_false]

/-- **C99**, when the plane is kept: with the default threshold and no mask, with no filter of
the size of the plane, and either no units or padding or a filter of another size. -/
theorem C99_kept_partial (o : ImgOpts) (n m : ℕ) (hn : 0 < n) (ht : o.threshold = some 0)
    (hw : o.width = none) (hm : o.mask = none) (hf : ∀ g, o.filter ≠ .sameSize g)
    (hd : o.degpix = none ∨ o.pad ≠ none ∨ o.filter = .otherSize) (plane : Plane ℂ) (out : ImgOut)
    (h : dirtyImage o n m plane = .ok out) (i j : ℕ) (hi : i < n) (hj : j < m) :
    out.caller i j = plane i j := by
  have hnm : n = m := by
    by_contra hc
    rw [C96_not_square_raises o n m hc plane (by rw [ht]; rfl)] at h
    simp at h
  subst hnm
  rw [C99_caller o n n plane out h i j]
  obtain ⟨mask, h1, h2⟩ := C96_default_keeps n hn
  have e1 : Spec.thrFactor o n i j = 1 := by
    unfold Spec.thrFactor
    simp only [ht, hw, h1]
    exact h2 i hi j hj
  rw [e1, hm]
  cases hfl : o.filter with
  | sameSize g => exact absurd hfl (hf g)
  | otherSize => simp
  | none =>
    rw [hfl] at hd
    rcases hd with hd | hd | hd
    · simp [hd, Spec.pixelFactor]
    · simp [hd]
    · simp at hd

/-- **C99** does not hold with a filter of the size of the plane (as for the model and the weights in
`quickview`): the plane of the caller is multiplied by the filter. -/
theorem C99_filter_overwrites (o : ImgOpts) (n : ℕ) (hn : 0 < n) (ht : o.threshold = some 0)
    (hw : o.width = none) (hm : o.mask = none) (g : Plane ℚ) (hf : o.filter = .sameSize g)
    (hp : o.pad ≠ none) (plane : Plane ℂ) (out : ImgOut) (h : dirtyImage o n n plane = .ok out)
    (i j : ℕ) (hi : i < n) (hj : j < n) : out.caller i j = plane i j * (g i j : ℂ) := by
  rw [C99_caller o n n plane out h i j]
  obtain ⟨mask, h1, h2⟩ := C96_default_keeps n hn
  have e1 : Spec.thrFactor o n i j = 1 := by
    unfold Spec.thrFactor
    simp only [ht, hw, h1]
    exact h2 i hi j hj
  simp [e1, hm, hf, hp]

/-- **C99** does not hold for an image with units and without padding (as in the HEALPix export): the
plane of the caller is divided by the area of a pixel, so that a second image of it is wrong. -/
theorem C99_units_overwrite (o : ImgOpts) (n : ℕ) (hn : 0 < n) (ht : o.threshold = some 0)
    (hw : o.width = none) (hm : o.mask = none) (hf : o.filter = .none)
    (hp : o.pad = none) (d : ℝ) (hd : o.degpix = some d) (plane : Plane ℂ) (out : ImgOut)
    (h : dirtyImage o n n plane = .ok out) (i j : ℕ) (hi : i < n) (hj : j < n) :
    out.caller i j = plane i j / (((d * (Real.pi / 180)) ^ 2 : ℝ) : ℂ) := by
  rw [C99_caller o n n plane out h i j]
  obtain ⟨mask, h1, h2⟩ := C96_default_keeps n hn
  have e1 : Spec.thrFactor o n i j = 1 := by
    unfold Spec.thrFactor
    simp only [ht, hw, h1]
    exact h2 i hi j hj
  simp [e1, hm, hf, hp, hd, Spec.pixelFactor, div_eq_mul_inv]

/-- **C97**, the function as a whole: with the default threshold, without mask, filter and padding,
the image of a square plane of even size is the (real part of the) Fourier sum, in units of the area
of a pixel if it is given. -/
theorem C97_image (o : ImgOpts) (n : ℕ) (hn : 0 < n) (hn2 : n % 2 = 0) (ht : o.threshold = some 0)
    (hw : o.width = none) (hm : o.mask = none) (hf : o.filter = .none) (hp : o.pad = none)
    (hb : o.beam = none) (hc : o.norm = none) (plane : Plane ℂ) :
    ∃ out, dirtyImage o n n plane = .ok out ∧ out.rows = n ∧ out.cols = n ∧
      ∀ k l, out.image k l =
        (if o.notReal then Spec.fourier n n plane k l
          else (((Spec.fourier n n plane k l).re : ℝ) : ℂ)) * ((Spec.pixelFactor o.degpix : ℝ) : ℂ) := by
  obtain ⟨mask, h1, h2⟩ := C96_default_keeps n hn
  unfold dirtyImage
  have e1 : imgThreshold o ⟨n, n, plane, plane, true⟩
      = .ok ((⟨n, n, plane, plane, true⟩ : ImgState).inplace fun i j v => v * (mask i j : ℂ)) := by
    unfold imgThreshold
    simp only [ht, hw, h1, ne_eq, not_true_eq_false, if_false]
  simp only [e1, imgMask, hm, imgFilter, hf, imgPad, hp]
  have hr : ∀ s' : ImgState, (imgDegpix o s').rows = s'.rows ∧ (imgDegpix o s').cols = s'.cols := by
    intro s'; unfold imgDegpix; split <;> exact ⟨rfl, rfl⟩
  refine ⟨_, rfl, (hr _).1, (hr _).2, fun k l => ?_⟩
  show imgFinish o (imgDegpix o _) k l = _
  rw [finish_degpix o hb hc]
  have hz : uvToImage n n (fun a b => plane a b * (mask a b : ℂ)) k l = Spec.fourier n n plane k l := by
    rw [← C97_fourier n n hn hn hn2 hn2]
    unfold uvToImage fftForward fftshift
    simp only []
    congr 1
    apply sum_congr rfl
    intro a ha
    apply sum_congr rfl
    intro b hb
    rw [h2 _ (Nat.mod_lt _ hn) _ (Nat.mod_lt _ hn)]
    simp
  simp only [ImgState.inplace, hz]

/-! ## Examples -/

/-- A threshold of three cells with the width 3 in a plane of size 8: the centre is cut, the corner is
kept, cells between are smoothed. -/
example : Spec.oddWidth 2 = 3 ∧
    (match thresholdMask 8 3 (some 2) with
      | .ok mask => decide (mask 4 4 = 0 ∧ mask 0 0 = 1 ∧ mask 1 4 = 2 / 3) | .error _ => false) = true := by
  decide +kernel

example : (match thresholdMask 8 0 (some (5 / 2)) with
      | .ok mask => decide (mask 4 4 = 36 / 25) | .error _ => false) = true ∧
    thresholdMask 8 0 (some (3 / 2)) = .error .valueError := by
  refine ⟨by decide +kernel, C96_fraction_raises 8 0 0 (3 / 2) (by norm_num) (by norm_num)⟩

/-- The options of the image of a model in `quickview`: a filter of the size of the plane, padding,
units. -/
noncomputable def exImgOpts : ImgOpts :=
  { filter := .sameSize fun _ _ => 3, uniform := fun _ => .error .typeError, pad := some 1,
    degpix := some 1 }

/-- The image is made, and the plane of the caller multiplied by the filter. -/
example : ∃ out, dirtyImage exImgOpts 4 4 (fun i j => (i : ℂ) + j) = .ok out ∧
    out.caller 2 3 = 15 := by
  obtain ⟨o1, h1, -⟩ := C97_image { uniform := fun _ => .error .typeError } 4 (by norm_num)
    (by norm_num) rfl rfl rfl rfl rfl rfl rfl (fun i j => (i : ℂ) + j)
  have : ∃ out, dirtyImage exImgOpts 4 4 (fun i j => (i : ℂ) + j) = .ok out := by
    obtain ⟨mask, hm, -⟩ := C96_default_keeps 4 (by norm_num)
    unfold dirtyImage imgThreshold
    simp only [exImgOpts, hm, ne_eq, not_true_eq_false, if_false, imgMask, imgFilter]
    unfold imgPad
    have : pyInt 1 = 1 := by decide +kernel
    simp only [this, sub_self, mul_zero, lt_irrefl, if_false]
    exact ⟨_, rfl⟩
  obtain ⟨out, h⟩ := this
  refine ⟨out, h, ?_⟩
  rw [C99_filter_overwrites exImgOpts 4 (by norm_num) rfl rfl rfl _ rfl (by simp [exImgOpts]) _ out h 2 3
    (by norm_num) (by norm_num)]
  norm_num

end PyFHD
