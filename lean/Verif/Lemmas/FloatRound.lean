import Verif.Model.FloatHist
import Verif.Props.RunDir
import Mathlib.Tactic.Linarith
import Mathlib.Tactic.FieldSimp
import Mathlib.Tactic.Positivity
import Mathlib.Algebra.Order.Floor.Ring

/-!
# Properties of rounding to a number of binary digits
-/

namespace PyFHD

namespace Spec

/-- What is needed of a rounding to `p` binary digits: it keeps the order, it keeps the integers of at most `p` digits, and
its relative error is at most `2 ^ (-p)`. -/
structure Rounding (p : ℕ) (rnd : ℚ → ℚ) : Prop where
  mono : ∀ a b, a ≤ b → rnd a ≤ rnd b
  int : ∀ k : ℤ, |k| ≤ 2 ^ p → rnd k = k
  rel : ∀ q, |rnd q - q| ≤ |q| / 2 ^ p

end Spec
open Spec

theorem roundEven_int (k : ℤ) : roundEven k = k := by
  unfold roundEven
  simp

theorem roundEven_mono {x y : ℚ} (h : x ≤ y) : roundEven x ≤ roundEven y := by
  have hf := Int.floor_le_floor h
  have bx : ⌊x⌋ ≤ roundEven x ∧ roundEven x ≤ ⌊x⌋ + 1 := by
    unfold roundEven; dsimp only; split_ifs <;> omega
  have by' : ⌊y⌋ ≤ roundEven y ∧ roundEven y ≤ ⌊y⌋ + 1 := by
    unfold roundEven; dsimp only; split_ifs <;> omega
  rcases hf.lt_or_eq with hl | he
  · omega
  · unfold roundEven
    dsimp only
    rw [he]
    split_ifs <;> first | omega | (exfalso; linarith)

theorem floatExp_spec {q : ℚ} (h : 0 < q) : (2 : ℚ) ^ floatExp q ≤ q ∧ q < 2 ^ (floatExp q + 1) := by
  have hn : 0 < q.num := Rat.num_pos.mpr h
  have hnn : q.num.natAbs ≠ 0 := by omega
  have h2 : (0 : ℚ) < 2 := by norm_num
  set x := Nat.log2 q.num.natAbs with hx
  set y := Nat.log2 q.den with hy
  have a1 : (2 : ℚ) ^ x ≤ (q.num.natAbs : ℚ) := by exact_mod_cast Nat.log2_self_le hnn
  have a2 : (q.num.natAbs : ℚ) < 2 ^ (x + 1) := by exact_mod_cast Nat.lt_log2_self (n := q.num.natAbs)
  have b1 : (2 : ℚ) ^ y ≤ (q.den : ℚ) := by exact_mod_cast Nat.log2_self_le q.den_nz
  have b2 : (q.den : ℚ) < 2 ^ (y + 1) := by exact_mod_cast Nat.lt_log2_self (n := q.den)
  have hd : (0 : ℚ) < q.den := by exact_mod_cast q.den_pos
  have hq : q * q.den = (q.num.natAbs : ℚ) := by
    have e : (q.num.natAbs : ℚ) = (q.num : ℚ) := by
      rw [← Int.cast_natCast, Int.natAbs_of_nonneg hn.le]
    rw [e]
    exact Rat.mul_den_eq_num q
  have up : q < 2 ^ ((x : ℤ) - y + 1) := by
    have e : (2 : ℚ) ^ ((x : ℤ) - y + 1) = 2 ^ (x + 1) / 2 ^ y := by
      rw [show (x : ℤ) - y + 1 = ((x + 1 : ℕ) : ℤ) - (y : ℤ) by push_cast; ring, zpow_sub₀ h2.ne', zpow_natCast, zpow_natCast]
    rw [e, lt_div_iff₀ (by positivity)]
    calc q * 2 ^ y ≤ q * q.den := by gcongr
      _ < _ := by rw [hq]; exact a2
  have dn : 2 ^ ((x : ℤ) - y - 1) ≤ q := by
    have e : (2 : ℚ) ^ ((x : ℤ) - y - 1) = 2 ^ x / 2 ^ (y + 1) := by
      rw [show (x : ℤ) - y - 1 = (x : ℤ) - ((y + 1 : ℕ) : ℤ) by push_cast; ring, zpow_sub₀ h2.ne', zpow_natCast, zpow_natCast]
    rw [e, div_le_iff₀ (by positivity)]
    calc (2 : ℚ) ^ x ≤ q * q.den := by rw [hq]; exact a1
      _ ≤ _ := by gcongr
  unfold floatExp
  rw [← hx, ← hy]
  dsimp only
  split_ifs with c
  · exact ⟨c, up⟩
  · refine ⟨dn, ?_⟩
    rw [sub_add_cancel]
    exact not_le.mp c

theorem roundPos_near (p : ℕ) {q : ℚ} (h : 0 < q) : |roundPos p q - q| ≤ q / 2 ^ p := by
  have h2 : (0 : ℚ) < 2 := by norm_num
  have hu : (0 : ℚ) < 2 ^ (floatExp q - p + 1) := zpow_pos (by norm_num) _
  have hn := roundEven_near (q / 2 ^ (floatExp q - p + 1))
  unfold roundPos
  dsimp only
  have e : (roundEven (q / 2 ^ (floatExp q - p + 1)) : ℚ) * 2 ^ (floatExp q - p + 1) - q
      = ((roundEven (q / 2 ^ (floatExp q - p + 1)) : ℚ) - q / 2 ^ (floatExp q - p + 1)) * 2 ^ (floatExp q - p + 1) := by
    field_simp
  rw [e, abs_mul, abs_of_pos hu]
  have e2 : (2 : ℚ) ^ (floatExp q - p + 1) = 2 * (2 ^ floatExp q / 2 ^ p) := by
    rw [zpow_add₀ h2.ne', zpow_sub₀ h2.ne']
    simp; ring
  calc _ ≤ 1 / 2 * (2 : ℚ) ^ (floatExp q - p + 1) := by gcongr
    _ = 2 ^ floatExp q / 2 ^ p := by rw [e2]; ring
    _ ≤ q / 2 ^ p := by
      have := (floatExp_spec h).1
      gcongr

theorem roundPos_bounds {p : ℕ} (hp : 1 ≤ p) {q : ℚ} (h : 0 < q) :
    2 ^ floatExp q ≤ roundPos p q ∧ roundPos p q ≤ 2 ^ (floatExp q + 1) := by
  have h2 : (0 : ℚ) < 2 := by norm_num
  have hu : (0 : ℚ) < 2 ^ (floatExp q - p + 1) := zpow_pos (by norm_num) _
  obtain ⟨s1, s2⟩ := floatExp_spec h
  have c1 : (2 : ℚ) ^ floatExp q = ((2 ^ (p - 1) : ℤ) : ℚ) * 2 ^ (floatExp q - p + 1) := by
    push_cast
    rw [← zpow_natCast, ← zpow_add₀ h2.ne']
    congr 1
    push_cast [Nat.cast_sub hp]
    ring
  have c2 : (2 : ℚ) ^ (floatExp q + 1) = ((2 ^ p : ℤ) : ℚ) * 2 ^ (floatExp q - p + 1) := by
    push_cast
    rw [← zpow_natCast, ← zpow_add₀ h2.ne']
    congr 1
    ring
  unfold roundPos
  dsimp only
  constructor
  · rw [c1] at s1 ⊢
    have : ((2 ^ (p - 1) : ℤ) : ℚ) ≤ q / 2 ^ (floatExp q - p + 1) := (le_div_iff₀ hu).mpr s1
    have := roundEven_mono this
    rw [roundEven_int] at this
    gcongr
  · rw [c2] at s2 ⊢
    have : q / 2 ^ (floatExp q - p + 1) ≤ ((2 ^ p : ℤ) : ℚ) := ((div_lt_iff₀ hu).mpr s2).le
    have := roundEven_mono this
    rw [roundEven_int] at this
    gcongr

theorem roundPos_mono {p : ℕ} (hp : 1 ≤ p) {q r : ℚ} (h : 0 < q) (hr : q ≤ r) : roundPos p q ≤ roundPos p r := by
  have h1 : (1 : ℚ) < 2 := by norm_num
  have hr0 : 0 < r := lt_of_lt_of_le h hr
  obtain ⟨q1, q2⟩ := floatExp_spec h
  obtain ⟨r1, r2⟩ := floatExp_spec hr0
  rcases lt_trichotomy (floatExp q) (floatExp r) with hl | he | hg
  · refine (roundPos_bounds hp h).2.trans (le_trans ?_ (roundPos_bounds hp hr0).1)
    exact zpow_le_zpow_right₀ h1.le (by omega)
  · unfold roundPos
    dsimp only
    rw [he]
    have hu : (0 : ℚ) < 2 ^ (floatExp r - p + 1) := zpow_pos (by norm_num) _
    have : roundEven (q / 2 ^ (floatExp r - p + 1)) ≤ roundEven (r / 2 ^ (floatExp r - p + 1)) :=
      roundEven_mono (by gcongr)
    gcongr
  · exfalso
    have : (2 : ℚ) ^ (floatExp r + 1) ≤ 2 ^ floatExp q := zpow_le_zpow_right₀ h1.le (by omega)
    linarith

theorem roundPos_pos {p : ℕ} (hp : 1 ≤ p) {q : ℚ} (h : 0 < q) : 0 < roundPos p q :=
  lt_of_lt_of_le (zpow_pos (by norm_num) _) (roundPos_bounds hp h).1

theorem roundPos_int {p : ℕ} (hp : 1 ≤ p) {k : ℤ} (h : 0 < k) (hk : k ≤ 2 ^ p) : roundPos p k = k := by
  have h2 : (0 : ℚ) < 2 := by norm_num
  have h1 : (1 : ℚ) < 2 := by norm_num
  have hq : (0 : ℚ) < k := by exact_mod_cast h
  obtain ⟨s1, s2⟩ := floatExp_spec hq
  have hkq : (k : ℚ) ≤ 2 ^ (p : ℤ) := by rw [zpow_natCast]; exact_mod_cast hk
  have he : floatExp (k : ℚ) ≤ p := by
    by_contra hc
    have : (2 : ℚ) ^ (p : ℤ) < 2 ^ floatExp (k : ℚ) := zpow_lt_zpow_right₀ h1 (by omega)
    linarith
  have key : ∃ m : ℤ, (k : ℚ) / 2 ^ (floatExp (k : ℚ) - p + 1) = m := by
    rcases he.lt_or_eq with hl | heq
    · obtain ⟨t, ht⟩ : ∃ t : ℕ, (t : ℤ) = -(floatExp (k : ℚ) - p + 1) := ⟨(-(floatExp (k : ℚ) - p + 1)).toNat, by omega⟩
      refine ⟨k * 2 ^ t, ?_⟩
      rw [div_eq_mul_inv, ← zpow_neg, ← ht, zpow_natCast]
      push_cast; ring
    · have : (k : ℚ) = 2 ^ (p : ℤ) := le_antisymm hkq (heq ▸ s1)
      refine ⟨2 ^ (p - 1), ?_⟩
      rw [heq, this, ← zpow_sub₀ h2.ne']
      push_cast
      rw [← zpow_natCast]
      congr 1
      push_cast [Nat.cast_sub hp]
      ring
  obtain ⟨m, hm⟩ := key
  have hu : (0 : ℚ) < 2 ^ (floatExp (k : ℚ) - p + 1) := zpow_pos (by norm_num) _
  unfold roundPos
  dsimp only
  rw [hm, roundEven_int, ← hm, div_mul_cancel₀ _ hu.ne']

/-- The rounding of the processor is a rounding in the sense of the specification. -/
theorem roundFloat_rounding {p : ℕ} (hp : 1 ≤ p) : Rounding p (roundFloat p) := by
  refine ⟨?_, ?_, ?_⟩
  · intro a b hab
    unfold roundFloat
    split_ifs with h1 h2 h3 h4 h5 h6 h7 h8 <;> try rfl
    · exact (roundPos_pos hp h3).le
    · exfalso; subst h1; exact h2 (le_antisymm (not_lt.mp h3) hab)
    · exfalso; subst h5; linarith
    · exact roundPos_mono hp h4 hab
    · exfalso
      exact h6 (lt_of_lt_of_le h4 hab)
    · have : 0 < -a := by
        rcases lt_trichotomy a 0 with h | h | h
        · linarith
        · exact absurd h h1
        · exact absurd h h4
      have := roundPos_pos hp this
      linarith
    · have ha : 0 < -a := by
        rcases lt_trichotomy a 0 with h | h | h
        · linarith
        · exact absurd h h1
        · exact absurd h h4
      have := roundPos_pos hp ha
      have := roundPos_pos hp h8
      linarith
    · have hb : 0 < -b := by
        rcases lt_trichotomy b 0 with h | h | h
        · linarith
        · exact absurd h h7
        · exact absurd h h8
      have := roundPos_mono hp hb (neg_le_neg hab)
      linarith
  · intro k hk
    unfold roundFloat
    obtain ⟨k1, k2⟩ := abs_le.mp hk
    split_ifs with h1 h2
    · exact h1.symm
    · exact roundPos_int hp (by exact_mod_cast h2) k2
    · have : 0 < -k := by
        have a : k ≠ 0 := by exact_mod_cast h1
        have b : ¬ 0 < k := by exact_mod_cast h2
        omega
      have := roundPos_int hp this (by omega)
      push_cast at this
      rw [this]; ring
  · intro q
    unfold roundFloat
    split_ifs with h1 h2
    · subst h1; simp
    · rw [abs_of_pos h2]; exact roundPos_near p h2
    · have hq : 0 < -q := by
        rcases lt_trichotomy q 0 with h | h | h
        · linarith
        · exact absurd h h1
        · exact absurd h h2
      have := roundPos_near p hq
      rw [show -roundPos p (-q) - q = -(roundPos p (-q) - -q) by ring, abs_neg, ← abs_neg q, abs_of_pos hq]
      exact this

end PyFHD
