import Verif.Model.FloatGrid
import Verif.Lemmas.FloatRound
import Mathlib.Tactic.Linarith
import Mathlib.Tactic.Positivity
import Mathlib.Tactic.FieldSimp
import Mathlib.Tactic.NormNum

/-!
# Positions of visibilities in floating point (C236, C237)
-/

namespace PyFHD

open Spec

variable {p : ℕ} {rnd : ℚ → ℚ}

theorem rnd_zero (h : Rounding p rnd) : rnd 0 = 0 := by
  have := h.int 0 (by simp)
  simpa using this

theorem rnd_one (h : Rounding p rnd) : rnd 1 = 1 := by
  have := h.int 1 (by rw [abs_one]; exact one_le_pow₀ (by norm_num))
  simpa using this

theorem rnd_nonneg (h : Rounding p rnd) {q : ℚ} (hq : 0 ≤ q) : 0 ≤ rnd q := by
  have := h.mono 0 q hq
  rwa [rnd_zero h] at this

theorem rnd_le_one (h : Rounding p rnd) {q : ℚ} (hq : q ≤ 1) : rnd q ≤ 1 := by
  have := h.mono q 1 hq
  rwa [rnd_one h] at this

/-- The part of a coordinate after the pixel, scaled, lies between 0 and the resolution, both included. -/
theorem subPixR_range (h : Rounding p rnd) {res : ℕ} (hres : res ≤ 2 ^ p) (c : ℚ) :
    0 ≤ subPixR rnd res c ∧ subPixR rnd res c ≤ res := by
  have f0 : 0 ≤ c - ⌊c⌋ := sub_nonneg.2 (Int.floor_le c)
  have f1 : c - ⌊c⌋ ≤ 1 := by linarith [Int.lt_floor_add_one c]
  have a0 := rnd_nonneg h f0
  have a1 := rnd_le_one h f1
  have hr : rnd (res : ℚ) = res := by
    have := h.int res (by
      rw [abs_of_nonneg (by positivity)]
      exact_mod_cast hres)
    simpa using this
  unfold subPixR
  constructor
  · exact rnd_nonneg h (by positivity)
  · refine (h.mono _ (res : ℚ) ?_).trans_eq hr
    calc rnd (c - ⌊c⌋) * res ≤ 1 * res := by gcongr
      _ = res := one_mul _

/-- **C236**, part: whatever the rounding, the offset is a valid index into the table of kernels, and the remainder is between
0 and 1. -/
theorem C236_offset_partial (h : Rounding p rnd) {res : ℕ} (h0 : 0 < res) (c : ℚ) :
    0 ≤ offsetR rnd res c ∧ offsetR rnd res c < res ∧ 0 ≤ fracR rnd res c ∧ fracR rnd res c ≤ 1 := by
  have hz : (0 : ℤ) < res := by exact_mod_cast h0
  refine ⟨Int.emod_nonneg _ hz.ne', Int.emod_lt_of_pos _ hz, ?_, ?_⟩
  · exact rnd_nonneg h (sub_nonneg.2 (Int.floor_le _))
  · refine rnd_le_one h ?_
    linarith [Int.lt_floor_add_one (subPixR rnd res c)]

/-- **C236**, part: when the coordinate is not too close below a whole number, the pixel, the offset and the remainder give it up
to three rounding errors of 1. Missing: coordinates just below a whole number, see `C236_whole_pixel`. -/
theorem C236_position_partial (h : Rounding p rnd) {res : ℕ} (h0 : 0 < res) (c : ℚ)
    (hc : c - ⌊c⌋ ≤ 1 - 2 / 2 ^ p) :
    |⌊c⌋ + ((offsetR rnd res c : ℚ) + fracR rnd res c) / res - c| ≤ 3 / 2 ^ p := by
  set u : ℚ := 1 / 2 ^ p with hu
  have hu0 : 0 < u := by positivity
  have hrel : ∀ q, 0 ≤ q → |rnd q - q| ≤ q * u := by
    intro q hq
    have := h.rel q
    rw [abs_of_nonneg hq] at this
    rw [hu, mul_one_div]
    exact this
  have hr : (1 : ℚ) ≤ res := by exact_mod_cast h0
  set x := c - ⌊c⌋ with hx
  have f0 : 0 ≤ x := sub_nonneg.2 (Int.floor_le c)
  have f1 : x ≤ 1 - 2 * u := by
    rw [hu, mul_one_div]
    exact hc
  set a := rnd x with ha
  have a0 : 0 ≤ a := rnd_nonneg h f0
  have ea := abs_le.1 (hrel x f0)
  rw [← ha] at ea
  set s := subPixR rnd res c with hs
  have s' : s = rnd (a * res) := rfl
  have s0 : 0 ≤ s := by rw [s']; exact rnd_nonneg h (by positivity)
  have es := abs_le.1 (hrel (a * res) (by positivity))
  rw [← s'] at es
  have x1 : x ≤ 1 := by linarith
  have a1 : a ≤ 1 := rnd_le_one h x1
  have xu : x * u ≤ u := mul_le_of_le_one_left hu0.le x1
  have hlt : s < res := by
    have aU : a ≤ (1 - 2 * u) * (1 + u) := by
      have : x * (1 + u) ≤ (1 - 2 * u) * (1 + u) := mul_le_mul_of_nonneg_right f1 (by linarith)
      linarith [ea.2]
    have sU : s ≤ a * (1 + u) * res := by
      have : a * (1 + u) * res = a * res + a * res * u := by ring
      linarith [es.2]
    have aV : a * (1 + u) < 1 := by
      have h1 : a * (1 + u) ≤ (1 - 2 * u) * (1 + u) * (1 + u) := mul_le_mul_of_nonneg_right aU (by linarith)
      have h2 : (1 - 2 * u) * (1 + u) * (1 + u) = 1 - (3 * (u * u) + 2 * (u * u * u)) := by ring
      have h3 : 0 < 3 * (u * u) + 2 * (u * u * u) := by positivity
      linarith
    have : a * (1 + u) * res < 1 * res := mul_lt_mul_of_pos_right aV (by linarith)
    linarith
  have hk0 : 0 ≤ ⌊s⌋ := Int.floor_nonneg.2 s0
  have hk1 : ⌊s⌋ < res := Int.floor_lt.2 (by exact_mod_cast hlt)
  have hoff : offsetR rnd res c = ⌊s⌋ := Int.emod_eq_of_lt hk0 hk1
  have g0 : 0 ≤ s - ⌊s⌋ := sub_nonneg.2 (Int.floor_le s)
  have g1 : s - ⌊s⌋ ≤ 1 := by linarith [Int.lt_floor_add_one s]
  have hfr : fracR rnd res c = rnd (s - ⌊s⌋) := rfl
  rw [hoff, hfr]
  set t := rnd (s - ⌊s⌋) with ht
  have ur : u ≤ res * u := le_mul_of_one_le_left hu0.le hr
  have d1 : |t - (s - ⌊s⌋)| ≤ res * u := by
    refine (hrel (s - ⌊s⌋) g0).trans ?_
    exact (mul_le_of_le_one_left hu0.le g1).trans ur
  have d2 : |s - a * res| ≤ res * u := by
    refine (abs_le.2 es).trans ?_
    have : a * res ≤ res := mul_le_of_le_one_left (by linarith) a1
    exact mul_le_mul_of_nonneg_right this hu0.le
  have d3 : |(a - x) * res| ≤ res * u := by
    rw [abs_mul, abs_of_pos (by linarith : (0 : ℚ) < res), mul_comm]
    exact mul_le_mul_of_nonneg_left ((abs_le.2 ea).trans xu) (by linarith)
  have key : (⌊c⌋ : ℚ) + ((⌊s⌋ : ℚ) + t) / res - c
      = ((t - (s - ⌊s⌋)) + (s - a * res) + (a - x) * res) / res := by
    have hr0 : (res : ℚ) ≠ 0 := by linarith
    have hcx : c = x + ⌊c⌋ := by rw [hx]; ring
    field_simp
    rw [hcx]
    simp only [Int.floor_add_intCast]
    have hfx : ⌊x⌋ = 0 := Int.floor_eq_zero_iff.2 ⟨f0, by linarith⟩
    rw [hfx]
    push_cast
    ring
  have e3 : (3 : ℚ) / 2 ^ p = 3 * u := by rw [hu]; ring
  rw [key, abs_div, abs_of_pos (by linarith : (0 : ℚ) < res), div_le_iff₀ (by linarith), e3]
  calc |(t - (s - ⌊s⌋)) + (s - a * res) + (a - x) * res|
      ≤ |t - (s - ⌊s⌋)| + |s - a * res| + |(a - x) * res| :=
        (abs_add_le _ _).trans (add_le_add_left (abs_add_le _ _) _)
    _ ≤ 3 * u * res := by linarith

/-- **C236 fails** for a coordinate just below a whole number: in `float64`, a coordinate that is negative and smaller than half a rounding
error of 1 is put at offset 0 of the pixel before it: a whole pixel away from where it is. -/
theorem C236_whole_pixel {c : ℚ} (h1 : -(1 / 2 ^ 54) ≤ c) (h2 : c < 0) {res : ℕ} (h0 : 0 < res) (hres : res ≤ 2 ^ 53) :
    ⌊c⌋ = -1 ∧ offsetR (roundFloat 53) res c = 0 ∧ fracR (roundFloat 53) res c = 0 ∧
      1 - 1 / 2 ^ 54 ≤ |⌊c⌋ + ((offsetR (roundFloat 53) res c : ℚ) + fracR (roundFloat 53) res c) / res - c| := by
  have h := roundFloat_rounding (p := 53) (by norm_num)
  have hf : ⌊c⌋ = -1 := by
    rw [Int.floor_eq_iff]
    constructor
    · push_cast
      have : (1 : ℚ) / 2 ^ 54 ≤ 1 := by norm_num
      linarith
    · push_cast
      linarith
  have hone : roundFloat 53 (c - ⌊c⌋) = 1 := by
    apply le_antisymm
    · exact rnd_le_one h (by linarith [Int.lt_floor_add_one c])
    · have e : roundFloat 53 (1 - 1 / 2 ^ 54) = 1 := by decide +kernel
      calc (1 : ℚ) = roundFloat 53 (1 - 1 / 2 ^ 54) := e.symm
        _ ≤ _ := h.mono _ _ (by rw [hf]; push_cast; linarith)
  have hs : subPixR (roundFloat 53) res c = res := by
    unfold subPixR
    rw [hone, one_mul]
    have := h.int res (by
      rw [abs_of_nonneg (by positivity)]
      exact_mod_cast hres)
    simpa using this
  have ho : offsetR (roundFloat 53) res c = 0 := by
    unfold offsetR
    rw [hs, Int.floor_natCast, Int.emod_self]
  have hg : fracR (roundFloat 53) res c = 0 := by
    unfold fracR
    rw [hs, Int.floor_natCast]
    simp [rnd_zero h]
  refine ⟨hf, ho, hg, ?_⟩
  rw [ho, hg, hf]
  rw [show ((-1 : ℤ) : ℚ) + (((0 : ℤ) : ℚ) + 0) / (res : ℚ) - c = -(1 + c) by push_cast; ring, abs_neg]
  refine le_trans ?_ (le_abs_self _)
  linarith

/-- **C236**, part: the coordinate itself is the exact one up to a relative error of two roundings. -/
theorem C236_centre_partial (h : Rounding p rnd) (mirror : Bool) (q k f : ℚ) :
    |cenR rnd mirror q k f - f * (if mirror then -(q / k) else q / k)| ≤ |f * (q / k)| * (2 / 2 ^ p + 1 / 2 ^ p / 2 ^ p) := by
  set u : ℚ := 1 / 2 ^ p with hu
  have hu0 : 0 < u := by positivity
  have hrel : ∀ z, |rnd z - z| ≤ |z| * u := by
    intro z
    rw [hu, mul_one_div]
    exact h.rel z
  have e2 : (2 : ℚ) / 2 ^ p + u / 2 ^ p = 2 * u + u * u := by rw [hu]; ring
  rw [e2]
  set z := q / k
  set c := rnd z with hc
  have h1 := hrel z
  rw [← hc] at h1
  have hca : |c| ≤ |z| * (1 + u) := by
    calc |c| = |z + (c - z)| := by ring_nf
      _ ≤ |z| + |c - z| := abs_add_le _ _
      _ ≤ |z| * (1 + u) := by linarith
  have main : ∀ z' c' : ℚ, |c' - z'| ≤ |z| * u → |c'| ≤ |z| * (1 + u) →
      |rnd (f * c') - f * z'| ≤ |f * z| * (2 * u + u * u) := by
    intro z' c' d1 d2
    have h2 := hrel (f * c')
    calc |rnd (f * c') - f * z'| = |(rnd (f * c') - f * c') + f * (c' - z')| := by ring_nf
      _ ≤ |rnd (f * c') - f * c'| + |f * (c' - z')| := abs_add_le _ _
      _ ≤ |f| * |c'| * u + |f| * |c' - z'| := by rw [abs_mul] at h2; rw [abs_mul f (c' - z')]; linarith
      _ ≤ |f| * (|z| * (1 + u)) * u + |f| * (|z| * u) := by gcongr
      _ = |f * z| * (2 * u + u * u) := by rw [abs_mul]; ring
  unfold cenR
  cases mirror with
  | false => exact main z c h1 hca
  | true =>
    refine main (-z) (-c) ?_ ?_
    · rw [show -c - -z = -(c - z) by ring, abs_neg]; exact h1
    · rwa [abs_neg]

/-- **C236**, part: for planes and kernels of even size the first pixel of the footprint is exact. -/
theorem C236_corner_partial (h : Rounding p rnd) {n psf : ℕ} (hn : n % 2 = 0) (hpsf : psf % 2 = 0) (c : ℚ)
    (hb : |⌊c⌋| + n + psf + 1 ≤ 2 ^ p) :
    cornerR rnd n psf c = ⌊c⌋ + n / 2 - (psf / 2 - 1) := by
  obtain ⟨m, rfl⟩ : ∃ m, n = 2 * m := ⟨n / 2, by omega⟩
  obtain ⟨d, rfl⟩ : ∃ d, psf = 2 * d := ⟨psf / 2, by omega⟩
  have hi : ∀ (k : ℤ) (q : ℚ), q = k → |k| ≤ 2 ^ p → rnd q = k := fun k q hq hk => by rw [hq]; exact h.int k hk
  have b := abs_le.1 (show |⌊c⌋| ≤ |⌊c⌋| from le_refl _)
  push_cast at hb
  have hm : rnd (((2 * m : ℕ) : ℚ) / 2) = (m : ℤ) := hi m _ (by push_cast; ring) (by
    rw [abs_of_nonneg (by positivity)]; omega)
  have hd : rnd (((2 * d : ℕ) : ℚ) / 2) = (d : ℤ) := hi d _ (by push_cast; ring) (by
    rw [abs_of_nonneg (by positivity)]; omega)
  unfold cornerR
  rw [hm, hd]
  have k1 : rnd ((⌊c⌋ : ℚ) + ((m : ℤ) : ℚ)) = ((⌊c⌋ + m : ℤ) : ℚ) :=
    hi (⌊c⌋ + m) _ (by push_cast; ring) (by rw [abs_le]; constructor <;> omega)
  have k2 : rnd (((d : ℤ) : ℚ) - 1) = ((d - 1 : ℤ) : ℚ) :=
    hi (d - 1) _ (by push_cast; ring) (by rw [abs_le]; constructor <;> omega)
  rw [k1, k2]
  have k3 : rnd (((⌊c⌋ + m : ℤ) : ℚ) - ((d - 1 : ℤ) : ℚ)) = ((⌊c⌋ + m - (d - 1) : ℤ) : ℚ) :=
    hi (⌊c⌋ + m - (d - 1)) _ (by push_cast; ring) (by rw [abs_le]; constructor <;> omega)
  rw [k3]
  have : pyInt (((⌊c⌋ + m - (d - 1) : ℤ)) : ℚ) = ⌊c⌋ + m - (d - 1) := by
    unfold pyInt
    split_ifs
    · exact Int.floor_intCast _
    · exact Int.ceil_intCast _
  rw [this]
  push_cast
  omega

/-- **C237.** In floating point the four weights of the interpolation are between 0 and 1, and their sum is 1 up to three
rounding errors. -/
theorem C237_weights (h : Rounding p rnd) {dx dy : ℚ} (hx : 0 ≤ dx ∧ dx ≤ 1) (hy : 0 ≤ dy ∧ dy ≤ 1) :
    (∀ w ∈ interpWR rnd dx dy, 0 ≤ w ∧ w ≤ 1) ∧
      (1 - 1 / 2 ^ p) ^ 3 ≤ (interpWR rnd dx dy).sum ∧ (interpWR rnd dx dy).sum ≤ (1 + 1 / 2 ^ p) ^ 3 := by
  set u : ℚ := 1 / 2 ^ p with hu
  have hu0 : 0 < u := by positivity
  have hu1 : u ≤ 1 := by
    rw [hu, div_le_one (by positivity)]
    exact one_le_pow₀ (by norm_num)
  have lo : ∀ q, 0 ≤ q → q * (1 - u) ≤ rnd q := by
    intro q hq
    have := (abs_le.1 (h.rel q)).1
    rw [abs_of_nonneg hq] at this
    rw [mul_sub, mul_one, hu, mul_one_div]
    linarith
  have hi : ∀ q, 0 ≤ q → rnd q ≤ q * (1 + u) := by
    intro q hq
    have := (abs_le.1 (h.rel q)).2
    rw [abs_of_nonneg hq] at this
    rw [mul_add, mul_one, hu, mul_one_div]
    linarith
  have mx : 0 ≤ 1 - dx := by linarith [hx.2]
  have my : 0 ≤ 1 - dy := by linarith [hy.2]
  set X := rnd (1 - dx)
  set Y := rnd (1 - dy)
  have X0 : 0 ≤ X := rnd_nonneg h mx
  have Y0 : 0 ≤ Y := rnd_nonneg h my
  have X1 : X ≤ 1 := rnd_le_one h (by linarith [hx.1])
  have Y1 : Y ≤ 1 := rnd_le_one h (by linarith [hy.1])
  have xl := lo _ mx
  have xh := hi _ mx
  have yl := lo _ my
  have yh := hi _ my
  have one : ∀ a b : ℚ, 0 ≤ a → a ≤ 1 → 0 ≤ b → b ≤ 1 → 0 ≤ rnd (a * b) ∧ rnd (a * b) ≤ 1 := fun a b a0 a1 b0 b1 =>
    ⟨rnd_nonneg h (mul_nonneg a0 b0), rnd_le_one h (mul_le_one₀ a1 b0 b1)⟩
  -- a product of two factors that are each off by one rounding error at most
  have two : ∀ a b A B : ℚ, 0 ≤ A → 0 ≤ B → 0 ≤ a → 0 ≤ b → A * (1 - u) ≤ a → a ≤ A * (1 + u) → B * (1 - u) ≤ b →
      b ≤ B * (1 + u) → A * B * (1 - u) ^ 3 ≤ rnd (a * b) ∧ rnd (a * b) ≤ A * B * (1 + u) ^ 3 := by
    intro a b A B hA hB ha hb al ah bl bh
    have hab : 0 ≤ a * b := mul_nonneg ha hb
    have v0 : 0 ≤ 1 - u := by linarith
    constructor
    · calc A * B * (1 - u) ^ 3 = (A * (1 - u)) * (B * (1 - u)) * (1 - u) := by ring
        _ ≤ a * b * (1 - u) := by gcongr
        _ ≤ rnd (a * b) := lo _ hab
    · calc rnd (a * b) ≤ a * b * (1 + u) := hi _ hab
        _ ≤ (A * (1 + u)) * (B * (1 + u)) * (1 + u) := by gcongr
        _ = A * B * (1 + u) ^ 3 := by ring
  have self : ∀ z : ℚ, 0 ≤ z → z * (1 - u) ≤ z ∧ z ≤ z * (1 + u) := fun z hz => ⟨by nlinarith, by nlinarith⟩
  obtain ⟨p1, p2⟩ := two X Y (1 - dx) (1 - dy) mx my X0 Y0 xl xh yl yh
  obtain ⟨q1, q2⟩ := two X dy (1 - dx) dy mx hy.1 X0 hy.1 xl xh (self dy hy.1).1 (self dy hy.1).2
  obtain ⟨r1, r2⟩ := two dx Y dx (1 - dy) hx.1 my hx.1 Y0 (self dx hx.1).1 (self dx hx.1).2 yl yh
  obtain ⟨s1, s2⟩ := two dx dy dx dy hx.1 hy.1 hx.1 hy.1 (self dx hx.1).1 (self dx hx.1).2 (self dy hy.1).1 (self dy hy.1).2
  refine ⟨?_, ?_, ?_⟩
  · intro w hw
    simp only [interpWR, List.mem_cons, List.not_mem_nil, or_false] at hw
    rcases hw with rfl | rfl | rfl | rfl
    · exact one _ _ X0 X1 Y0 Y1
    · exact one _ _ X0 X1 hy.1 hy.2
    · exact one _ _ hx.1 hx.2 Y0 Y1
    · exact one _ _ hx.1 hx.2 hy.1 hy.2
  · simp only [interpWR, List.sum_cons, List.sum_nil]
    have e : (1 - u) ^ 3 = (1 - dx) * (1 - dy) * (1 - u) ^ 3 + (1 - dx) * dy * (1 - u) ^ 3 + dx * (1 - dy) * (1 - u) ^ 3
        + dx * dy * (1 - u) ^ 3 := by ring
    rw [e]
    linarith
  · simp only [interpWR, List.sum_cons, List.sum_nil]
    have e : (1 + u) ^ 3 = (1 - dx) * (1 - dy) * (1 + u) ^ 3 + (1 - dx) * dy * (1 + u) ^ 3 + dx * (1 - dy) * (1 + u) ^ 3
        + dx * dy * (1 + u) ^ 3 := by ring
    rw [e]
    linarith

/-- The coordinate of a baseline in `float64` meets the hypotheses; it is not exact, and neither is the remainder. -/
example : let c := cenR (roundFloat 53) true (1 / 3) (1 / 2) (15 / 10)
    c - ⌊c⌋ ≤ 1 - 2 / 2 ^ 53 ∧ c = -1 ∧
    (let c := cenR (roundFloat 53) true (roundFloat 53 (1 / 30)) (1 / 2) (roundFloat 53 (17 / 10))
     c - ⌊c⌋ ≤ 1 - 2 / 2 ^ 53 ∧ c ≠ - (17 / 150) ∧ ⌊c⌋ = -1 ∧ offsetR (roundFloat 53) 8 c = 7 ∧
     0 < fracR (roundFloat 53) 8 c ∧ fracR (roundFloat 53) 8 c < 1 / 10 ∧
     cornerR (roundFloat 53) 16 4 c = 6 ∧
     (interpWR (roundFloat 53) (fracR (roundFloat 53) 8 c) (1 / 3)).length = 4) := by decide +kernel

/-- A number of `float64` to which `C236_whole_pixel` applies. -/
example : roundFloat 53 (-(1 / 2 ^ 60)) = -(1 / 2 ^ 60) ∧ -(1 / 2 ^ 54) ≤ (-(1 / 2 ^ 60) : ℚ) ∧
    offsetR (roundFloat 53) 8 (-(1 / 2 ^ 60)) = 0 ∧ cornerR (roundFloat 53) 16 4 (-(1 / 2 ^ 60)) = 6 ∧
    offsetR id 8 (-(1 / 2 ^ 60)) = 7 := by decide +kernel

end PyFHD
