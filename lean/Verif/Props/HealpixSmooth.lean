import Verif.Props.Healpix

/-!
# C248: HEALPix maps of images that vary slowly

The values of a map of `healpix_cnv_generate` and `healpix_cnv_apply` compared with a function that the image shows.
-/

namespace PyFHD

open Spec

namespace Spec

/-- The flattened image of `D` by `E` pixels that shows `f` at pixel `(a, b)`. -/
def imageOf (D E : ℕ) (f : ℚ → ℚ → ℚ) : List ℚ := (List.range (D * E)).map fun k => f (k % D : ℕ) (k / D : ℕ)

/-- The map of an image `img` of `D` by `E` pixels at the positions `px`. -/
def mapOf (D E : ℕ) (px : List (ℚ × ℚ)) (img : List ℚ) : Py (List ℚ) := do
  let cnv ← hpxGenerate D E px
  hpxApply px.length img cnv

/-- Position `p` of the list is `(x, y)`, inside the image and strictly between pixels in both directions. -/
def InsidePixels (D E : ℕ) (px : List (ℚ × ℚ)) (p : ℕ) (x y : ℚ) : Prop :=
  px[p]? = some (x, y) ∧ 0 < x ∧ 0 < y ∧ x < D - 1 ∧ y < E - 1 ∧ (∀ n : ℤ, x ≠ n) ∧ ∀ n : ℤ, y ≠ n

end Spec

theorem imageOf_getD (D E : ℕ) (f : ℚ → ℚ → ℚ) (a b : ℕ) (ha : a < D) (hb : b < E) :
    (imageOf D E f).getD (a + D * b) 0 = f a b := by
  have h : a + D * b < D * E := by
    calc a + D * b < D + D * b := by omega
      _ = D * (b + 1) := by ring
      _ ≤ D * E := Nat.mul_le_mul_left D hb
  unfold imageOf
  rw [List.getD_eq_getElem?_getD, List.getElem?_map, List.getElem?_range h]
  simp only [Option.map_some, Option.getD_some]
  rw [Nat.add_mul_mod_self_left, Nat.mod_eq_of_lt ha, Nat.add_mul_div_left _ _ (by omega), Nat.div_eq_of_lt ha, Nat.zero_add]

theorem inside_corner {D : ℕ} {x : ℚ} (h0 : 0 < x) (h1 : x < D - 1) (hx : ∀ n : ℤ, x ≠ n) :
    ∃ i : ℕ, (i : ℚ) < x ∧ x < i + 1 ∧ i + 1 < D := by
  have hf : (0 : ℤ) ≤ ⌊x⌋ := Int.floor_nonneg.2 h0.le
  have hl := Int.floor_le x
  have hu := Int.lt_floor_add_one x
  have hc : ((⌊x⌋.toNat : ℕ) : ℚ) = (⌊x⌋ : ℚ) := by
    have : ((⌊x⌋.toNat : ℕ) : ℤ) = ⌊x⌋ := Int.toNat_of_nonneg hf
    exact_mod_cast this
  refine ⟨⌊x⌋.toNat, ?_, ?_, ?_⟩
  · rw [hc]; exact lt_of_le_of_ne hl fun h => hx _ h.symm
  · rw [hc]; exact hu
  · have : ((⌊x⌋.toNat : ℕ) : ℚ) + 1 < D := by rw [hc]; linarith
    exact_mod_cast this

/-- The value of a map is the bilinear interpolation of the four pixels around the position. -/
theorem mapOf_value (D E : ℕ) (px : List (ℚ × ℚ)) (p : ℕ) (x y : ℚ) (h : InsidePixels D E px p x y) (f : ℚ → ℚ → ℚ) :
    ∃ (m : List ℚ) (i j : ℕ), mapOf D E px (imageOf D E f) = .ok m ∧ (i : ℚ) < x ∧ x < i + 1 ∧ (j : ℚ) < y ∧ y < j + 1 ∧ i + 1 < D ∧ j + 1 < E ∧
      m[p]? = some ((i + 1 - x) * (j + 1 - y) * f i j + (i + 1 - x) * (y - j) * f i (j + 1) +
        (x - i) * (j + 1 - y) * f (i + 1) j + (x - i) * (y - j) * f (i + 1) (j + 1)) := by
  obtain ⟨hp, h1, h2, h3, h4, h5, h6⟩ := h
  obtain ⟨i, a1, a2, a3⟩ := inside_corner h1 h3 h5
  obtain ⟨j, b1, b2, b3⟩ := inside_corner h2 h4 h6
  obtain ⟨cnv, hc, hi⟩ := C55_bilinear_partial D E px p i j x y hp ⟨a1, a2⟩ ⟨b1, b2⟩ a3 b3
  obtain ⟨m, hm, -, hv⟩ := hi (imageOf D E f) (by simp [imageOf])
  refine ⟨m, i, j, ?_, a1, a2, b1, b2, a3, b3, ?_⟩
  · unfold mapOf
    rw [hc]
    exact hm
  · rw [hv]
    unfold bilinear
    simp only []
    rw [imageOf_getD _ _ _ _ _ (by omega) (by omega), imageOf_getD _ _ _ _ _ (by omega) (by omega),
      imageOf_getD _ _ _ _ _ (by omega) (by omega), imageOf_getD _ _ _ _ _ (by omega) (by omega)]
    push_cast
    rfl

/-- **C248** (positions strictly between pixels). An image that varies linearly along both axes is shown exactly by the map. Missing:
positions with an integer coordinate, which get 0 (C55). -/
theorem C248_linear_partial (D E : ℕ) (px : List (ℚ × ℚ)) (p : ℕ) (x y : ℚ) (h : InsidePixels D E px p x y) (c0 cx cy cxy : ℚ) :
    ∃ m, mapOf D E px (imageOf D E fun a b => c0 + cx * a + cy * b + cxy * (a * b)) = .ok m ∧
      m[p]? = some (c0 + cx * x + cy * y + cxy * (x * y)) := by
  obtain ⟨m, i, j, hm, -, -, -, -, -, -, hv⟩ := mapOf_value D E px p x y h fun a b => c0 + cx * a + cy * b + cxy * (a * b)
  refine ⟨m, hm, ?_⟩
  rw [hv]
  congr 1
  ring

/-- **C248** (positions strictly between pixels). No value of a map lies outside the range of the image. -/
theorem C248_range_partial (D E : ℕ) (px : List (ℚ × ℚ)) (p : ℕ) (x y : ℚ) (h : InsidePixels D E px p x y) (f : ℚ → ℚ → ℚ) (lo hi : ℚ)
    (hf : ∀ a b : ℕ, a < D → b < E → lo ≤ f a b ∧ f a b ≤ hi) :
    ∃ m v, mapOf D E px (imageOf D E f) = .ok m ∧ m[p]? = some v ∧ lo ≤ v ∧ v ≤ hi := by
  obtain ⟨m, i, j, hm, a1, a2, b1, b2, a3, b3, hv⟩ := mapOf_value D E px p x y h f
  refine ⟨m, _, hm, hv, ?_⟩
  have f00 := hf i j (by omega) (by omega)
  have f01 := hf i (j + 1) (by omega) (by omega)
  have f10 := hf (i + 1) j (by omega) (by omega)
  have f11 := hf (i + 1) (j + 1) (by omega) (by omega)
  push_cast at f00 f01 f10 f11
  have w00 : 0 ≤ (i + 1 - x) * (j + 1 - y) := mul_nonneg (by linarith) (by linarith)
  have w01 : 0 ≤ (i + 1 - x) * (y - j) := mul_nonneg (by linarith) (by linarith)
  have w10 : 0 ≤ (x - i) * (j + 1 - y) := mul_nonneg (by linarith) (by linarith)
  have w11 : 0 ≤ (x - i) * (y - j) := mul_nonneg (by linarith) (by linarith)
  have hs : ∀ c : ℚ, (i + 1 - x) * (j + 1 - y) * c + (i + 1 - x) * (y - j) * c + (x - i) * (j + 1 - y) * c + (x - i) * (y - j) * c = c := by
    intro c; ring
  constructor
  · calc lo = _ := (hs lo).symm
      _ ≤ _ := by
        have := mul_le_mul_of_nonneg_left f00.1 w00
        have := mul_le_mul_of_nonneg_left f01.1 w01
        have := mul_le_mul_of_nonneg_left f10.1 w10
        have := mul_le_mul_of_nonneg_left f11.1 w11
        linarith
  · calc _ ≤ _ := by
          have := mul_le_mul_of_nonneg_left f00.2 w00
          have := mul_le_mul_of_nonneg_left f01.2 w01
          have := mul_le_mul_of_nonneg_left f10.2 w10
          have := mul_le_mul_of_nonneg_left f11.2 w11
          linarith
      _ = hi := hs hi

/-- **C248** (positions strictly between pixels). If the brightness `f` stays within `e` of a linear function of the position over the
pixels around `(x, y)`, the map is within twice `e` of the brightness at the position itself, where `f` may be evaluated between pixels. -/
theorem C248_error_partial (D E : ℕ) (px : List (ℚ × ℚ)) (p : ℕ) (x y : ℚ) (h : InsidePixels D E px p x y) (f : ℚ → ℚ → ℚ)
    (c0 cx cy e : ℚ) (hf : ∀ a b : ℚ, |a - x| < 1 → |b - y| < 1 → |f a b - (c0 + cx * a + cy * b)| ≤ e) :
    ∃ m v, mapOf D E px (imageOf D E f) = .ok m ∧ m[p]? = some v ∧ |v - f x y| ≤ 2 * e := by
  obtain ⟨m, i, j, hm, a1, a2, b1, b2, a3, b3, hv⟩ := mapOf_value D E px p x y h f
  refine ⟨m, _, hm, hv, ?_⟩
  have c1 : |(i : ℚ) - x| < 1 := by rw [abs_lt]; constructor <;> linarith
  have c2 : |(i : ℚ) + 1 - x| < 1 := by rw [abs_lt]; constructor <;> linarith
  have d1 : |(j : ℚ) - y| < 1 := by rw [abs_lt]; constructor <;> linarith
  have d2 : |(j : ℚ) + 1 - y| < 1 := by rw [abs_lt]; constructor <;> linarith
  have f00 := abs_le.1 (hf i j c1 d1)
  have f01 := abs_le.1 (hf i (j + 1) c1 d2)
  have f10 := abs_le.1 (hf (i + 1) j c2 d1)
  have f11 := abs_le.1 (hf (i + 1) (j + 1) c2 d2)
  have fx := abs_le.1 (hf x y (by simp) (by simp))
  have w00 : 0 ≤ (i + 1 - x) * (j + 1 - y) := mul_nonneg (by linarith) (by linarith)
  have w01 : 0 ≤ (i + 1 - x) * (y - j) := mul_nonneg (by linarith) (by linarith)
  have w10 : 0 ≤ (x - i) * (j + 1 - y) := mul_nonneg (by linarith) (by linarith)
  have w11 : 0 ≤ (x - i) * (y - j) := mul_nonneg (by linarith) (by linarith)
  have hs : (i + 1 - x) * (j + 1 - y) * e + (i + 1 - x) * (y - j) * e + (x - i) * (j + 1 - y) * e + (x - i) * (y - j) * e = e := by ring
  have hl : (i + 1 - x) * (j + 1 - y) * (c0 + cx * i + cy * j) + (i + 1 - x) * (y - j) * (c0 + cx * i + cy * (j + 1)) +
      (x - i) * (j + 1 - y) * (c0 + cx * (i + 1) + cy * j) + (x - i) * (y - j) * (c0 + cx * (i + 1) + cy * (j + 1)) =
      c0 + cx * x + cy * y := by ring
  rw [abs_le]
  constructor
  · have g1 := mul_le_mul_of_nonneg_left f00.1 w00
    have g2 := mul_le_mul_of_nonneg_left f01.1 w01
    have g3 := mul_le_mul_of_nonneg_left f10.1 w10
    have g4 := mul_le_mul_of_nonneg_left f11.1 w11
    simp only [mul_neg, mul_sub] at g1 g2 g3 g4
    linarith
  · have g1 := mul_le_mul_of_nonneg_left f00.2 w00
    have g2 := mul_le_mul_of_nonneg_left f01.2 w01
    have g3 := mul_le_mul_of_nonneg_left f10.2 w10
    have g4 := mul_le_mul_of_nonneg_left f11.2 w11
    simp only [mul_sub] at g1 g2 g3 g4
    linarith

/-- **C248 fails** at positions with an integer coordinate: the map of an image that is 1 everywhere is 0 there, outside of the range of
the image. -/
theorem C248_integer_positions (D E : ℕ) (px : List (ℚ × ℚ)) (p : ℕ) (i : ℕ) (y : ℚ) (hp : px[p]? = some ((i : ℚ), y)) (hi : i < D)
    (hy : 0 ≤ y) (hyE : y < E) : ∃ m, mapOf D E px (imageOf D E fun _ _ => 1) = .ok m ∧ m[p]? = some 0 := by
  obtain ⟨cnv, hc, h⟩ := C55_integer_zero D E px p i y hp ⟨by positivity, by exact_mod_cast hi⟩ ⟨hy, hyE⟩ (Or.inl ⟨i, by simp⟩)
  obtain ⟨m, hm, hv⟩ := h (imageOf D E fun _ _ => 1) (by simp [imageOf])
  refine ⟨m, ?_, hv⟩
  unfold mapOf
  rw [hc]
  exact hm

/-- The conditions of C248, for a position of `exPx`, and the map of an image that varies linearly. -/
example : InsidePixels 4 4 exPx 0 (5 / 4) (3 / 2) ∧
    (mapOf 4 4 exPx (imageOf 4 4 fun a b => 1 + 2 * a + 3 * b)).map (·.getD 0 0) = .ok 8 ∧
    (1 : ℚ) + 2 * (5 / 4) + 3 * (3 / 2) = 8 := by
  refine ⟨⟨rfl, by norm_num, by norm_num, by norm_num, by norm_num, ?_, ?_⟩, by decide +kernel, by norm_num⟩
  · intro n h
    have : (5 : ℚ) = ((4 * n : ℤ) : ℚ) := by push_cast; linarith
    have : (5 : ℤ) = 4 * n := by exact_mod_cast this
    omega
  · intro n h
    have : (3 : ℚ) = ((2 * n : ℤ) : ℚ) := by push_cast; linarith
    have : (3 : ℤ) = 2 * n := by exact_mod_cast this
    omega

end PyFHD
