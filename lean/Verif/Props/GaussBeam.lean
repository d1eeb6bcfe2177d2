import Verif.Model.BeamImage
import Verif.Props.Imaging
import Mathlib.Analysis.SpecialFunctions.Exp
import Mathlib.Algebra.Order.BigOperators.Group.List

/-!
# Gaussian beams (C136 to C139)
-/

set_option linter.unusedSectionVars false

namespace PyFHD

namespace Spec

/-- The sum of the Gaussians with these parameters, at a point. -/
def gaussians {R : Type _} [Field R] (exp : R → R) (lobes : List (Lobe R)) (x y : R) : R :=
  (lobes.map fun l => l.amp * exp (-((x - l.ox) ^ 2 / (2 * l.sx ^ 2))) * exp (-((y - l.oy) ^ 2 / (2 * l.sy ^ 2)))).sum

end Spec

open Spec

section Field

variable {R : Type _} [Field R] [LinearOrder R] [IsStrictOrderedRing R]

theorem lobesOf_flat (lobes : List (Lobe R)) : lobesOf (flatLobes lobes) = .ok lobes := by
  induction lobes with
  | nil => rfl
  | cons l ls ih =>
    show lobesOf (l.amp :: l.ox :: l.sx :: l.oy :: l.sy :: flatLobes ls) = _
    unfold lobesOf
    rw [ih]

theorem flat_inj {a b : List (Lobe R)} (h : flatLobes a = flatLobes b) : a = b := by
  have h1 := lobesOf_flat a
  rw [h, lobesOf_flat b] at h1
  exact (Except.ok.inj h1).symm

theorem shiftOffset_eq (n m o : R) : shiftOffset n m o = o + (n / 2 - m / 2) := by
  unfold shiftOffset
  split_ifs with h
  · rw [abs_of_nonneg (by linarith)]
  · rw [abs_of_nonneg (by linarith)]; ring

theorem scaled_square {r : R} (hr : r ≠ 0) (d s : R) : (d * r) ^ 2 / (2 * (s * r) ^ 2) = d ^ 2 / (2 * s ^ 2) := by
  have : r ^ 2 ≠ 0 := pow_ne_zero 2 hr
  rw [mul_pow, mul_pow, ← mul_assoc, mul_div_mul_right _ _ this]

/-- On a grid of `n` by `n` pixels, for parameters found on a grid of `m` by `m` pixels that are `r` times as wide, the value at a pixel is
that of the Gaussians at the place of the pixel on the grid of the parameters. -/
theorem C136_regrid (exp : R → R) (x y : List R) (hxy : x.length = y.length) (lobes : List (Lobe R)) (m r : R) (hr : r ≠ 0) :
    ∃ f, gaussianDecomp exp x y (flatLobes lobes) (some m) (some r) = .ok f ∧
      ∀ i j, f i j = gaussians exp lobes (m / 2 + (x.getD j 0 - x.length / 2) / r) (m / 2 + (y.getD i 0 - x.length / 2) / r) := by
  unfold gaussianDecomp
  rw [lobesOf_flat]
  simp only []
  rw [if_neg (by simp [hxy])]
  refine ⟨_, rfl, ?_⟩
  intro i j
  unfold gaussians
  congr 1
  apply List.map_congr_left
  intro l _
  unfold Lobe.value Lobe.used Lobe.after
  simp only [shiftOffset_eq, ← hxy]
  generalize hX : x.getD j 0 = X
  generalize hY : y.getD i 0 = Y
  generalize hn : (x.length : R) = n
  have e : ∀ (X o s : R), -(X - ((o + (n / 2 - m / 2) - n / 2) * r + n / 2)) ^ 2 / (2 * (s * r) ^ 2) =
      -((m / 2 + (X - n / 2) / r - o) ^ 2 / (2 * s ^ 2)) := by
    intro X o s
    rw [neg_div, ← scaled_square hr (m / 2 + (X - n / 2) / r - o) s]
    congr 3
    field_simp
    ring
  rw [e X l.ox l.sx, e Y l.oy l.sy]
  ring

/-- Without another grid the value is that of the Gaussians at the pixel. -/
theorem C136_same_grid (exp : R → R) (x y : List R) (hxy : x.length = y.length) (lobes : List (Lobe R)) :
    ∃ f, gaussianDecomp exp x y (flatLobes lobes) none none = .ok f ∧
      ∀ i j, f i j = gaussians exp lobes (x.getD j 0) (y.getD i 0) := by
  unfold gaussianDecomp
  rw [lobesOf_flat]
  simp only []
  rw [if_neg (by simp [hxy])]
  refine ⟨_, rfl, ?_⟩
  intro i j
  unfold gaussians
  congr 1
  apply List.map_congr_left
  intro l _
  unfold Lobe.value Lobe.used Lobe.after
  simp only [neg_div, Bool.false_eq_true, if_false]
  ring

/-- **C136 is violated** for images that are not square: they cannot be made. -/
theorem C136_oblong_raises (exp : R → R) (x y : List R) (hxy : x.length ≠ y.length) (lobes : List (Lobe R)) (hl : lobes ≠ [])
    (npix res : Option R) : gaussianDecomp exp x y (flatLobes lobes) npix res = .error .valueError := by
  unfold gaussianDecomp
  rw [lobesOf_flat]
  simp only []
  rw [if_pos ⟨hl, hxy⟩]

/-- Two lobes, on a grid twice as fine and larger, with a function in place of the exponential that tells points apart. -/
example : (gaussianDecomp (fun z : ℚ => 1 + z) [0, 1, 2, 3, 4, 5, 6, 7] [0, 1, 2, 3, 4, 5, 6, 7] [1, 2, 1, 3, 2, 5, 1, 1, 2, 1]
      (some 4) (some 2)).toOption.map (fun f => f 6 5) = some (gaussians (fun z : ℚ => 1 + z) [⟨1, 2, 1, 3, 2⟩, ⟨5, 1, 1, 2, 1⟩]
        (5 / 2) 3) ∧
    gaussians (fun z : ℚ => 1 + z) [⟨1, 2, 1, 3, 2⟩, ⟨5, 1, 1, 2, 1⟩] (5 / 2) 3 = 9 / 16 := by decide +kernel

/-! ## C137: the same beam at every resolution -/

theorem modelRes_eq (kpix : R) (dim : ℕ) (ph : R) (hk : kpix ≠ 0) : modelRes kpix dim ph = dim / ph := by
  unfold modelRes
  by_cases h : ph = 0
  · simp [h]
  · field_simp

/-- The beam at a pixel is the model at the same fraction of the image. -/
theorem C137_fraction (exp : R → R) (n : ℕ) (hn : n ≠ 0) (x y : List R) (hx : x.length = n) (hy : y.length = n)
    (lobes : List (Lobe R)) (kpix ph : R) (hk : kpix ≠ 0) (hp : ph ≠ 0) :
    ∃ f, gaussianDecomp exp x y (flatLobes lobes) (some (modelNpix ph)) (some (modelRes kpix n ph)) = .ok f ∧
      ∀ i j, f i j = gaussians exp lobes (ph * (13 / 20 + (x.getD j 0 - n / 2) / n)) (ph * (13 / 20 + (y.getD i 0 - n / 2) / n)) := by
  have hn' : (n : R) ≠ 0 := by exact_mod_cast hn
  obtain ⟨f, hf, h⟩ := C136_regrid exp x y (by rw [hx, hy]) lobes (modelNpix ph) (modelRes kpix n ph)
    (by rw [modelRes_eq _ _ _ hk]; exact div_ne_zero hn' hp)
  refine ⟨f, hf, fun i j => ?_⟩
  rw [h i j, modelRes_eq _ _ _ hk, hx]
  unfold modelNpix
  congr 1 <;> · field_simp; ring

/-- Images of different sizes with cells of the same size in the uv plane show the same beam: pixels in the same direction, `l = (x - n/2) /
(n * kpix)` and likewise `m`, have the same value. -/
theorem C137_dimension_partial (exp : R → R) (n n' : ℕ) (hn : n ≠ 0) (hn' : n' ≠ 0) (x y x' y' : List R)
    (hx : x.length = n) (hy : y.length = n) (hx' : x'.length = n') (hy' : y'.length = n')
    (lobes : List (Lobe R)) (kpix ph : R) (hk : kpix ≠ 0) (hp : ph ≠ 0) (f f' : ℕ → ℕ → R)
    (hf : gaussianDecomp exp x y (flatLobes lobes) (some (modelNpix ph)) (some (modelRes kpix n ph)) = .ok f)
    (hf' : gaussianDecomp exp x' y' (flatLobes lobes) (some (modelNpix ph)) (some (modelRes kpix n' ph)) = .ok f')
    (i j i' j' : ℕ) (hl : (x.getD j 0 - n / 2) / (n * kpix) = (x'.getD j' 0 - n' / 2) / (n' * kpix))
    (hm : (y.getD i 0 - n / 2) / (n * kpix) = (y'.getD i' 0 - n' / 2) / (n' * kpix)) : f i j = f' i' j' := by
  obtain ⟨g, hg, h⟩ := C137_fraction exp n hn x y hx hy lobes kpix ph hk hp
  obtain ⟨g', hg', h'⟩ := C137_fraction exp n' hn' x' y' hx' hy' lobes kpix ph hk hp
  rw [hf] at hg; rw [hf'] at hg'
  cases hg; cases hg'
  have key : ∀ a b : R, a / (n * kpix) = b / (n' * kpix) → a / n = b / n' := by
    intro a b hab
    rw [← div_div, ← div_div] at hab
    exact (div_left_inj' hk).mp hab
  rw [h, h', key _ _ hl, key _ _ hm]

/-- **C137 is violated**: the image of the beam does not depend on the size of the uv cells, so that with other cells the same image is shown
for another field of view. -/
theorem C137_cells_ignored (exp : R → R) (n : ℕ) (x y : List R) (p : List R) (kpix kpix' ph : R) (hk : kpix ≠ 0) (hk' : kpix' ≠ 0) :
    gaussianDecomp exp x y p (some (modelNpix ph)) (some (modelRes kpix n ph)) =
      gaussianDecomp exp x y p (some (modelNpix ph)) (some (modelRes kpix' n ph)) := by
  rw [modelRes_eq _ _ _ hk, modelRes_eq _ _ _ hk']

end Field

/-- So in one direction away from the centre two images with different uv cells show different values of one beam, a centred lobe: pixel `j` of
the one and pixel `j'` of the other are in the direction `l`, which is not zero. -/
theorem C137_wrong_direction (n : ℕ) (hn : n ≠ 0) (x y : List ℝ) (hx : x.length = n) (hy : y.length = n) (a s ph : ℝ) (ha : a ≠ 0)
    (hs : 0 < s) (hp : 0 < ph) (kpix kpix' : ℝ) (hk : 0 < kpix) (hk' : 0 < kpix') (hne : kpix ≠ kpix') (f f' : ℕ → ℕ → ℝ)
    (hf : gaussianDecomp Real.exp x y (flatLobes [⟨a, modelNpix ph / 2, s, modelNpix ph / 2, s⟩]) (some (modelNpix ph))
      (some (modelRes kpix n ph)) = .ok f)
    (hf' : gaussianDecomp Real.exp x y (flatLobes [⟨a, modelNpix ph / 2, s, modelNpix ph / 2, s⟩]) (some (modelNpix ph))
      (some (modelRes kpix' n ph)) = .ok f')
    (i j j' : ℕ) (l : ℝ) (hl0 : l ≠ 0) (hj : x.getD j 0 = n / 2 + l * (n * kpix)) (hj' : x.getD j' 0 = n / 2 + l * (n * kpix')) :
    f i j ≠ f' i j' := by
  have hn' : (n : ℝ) ≠ 0 := by exact_mod_cast hn
  obtain ⟨g, hg, h⟩ := C137_fraction Real.exp n hn x y hx hy _ kpix ph hk.ne' hp.ne'
  obtain ⟨g', hg', h'⟩ := C137_fraction Real.exp n hn x y hx hy _ kpix' ph hk'.ne' hp.ne'
  rw [hf] at hg; rw [hf'] at hg'
  cases hg; cases hg'
  rw [h, h', hj, hj']
  unfold gaussians
  simp only [List.map_cons, List.map_nil, List.sum_cons, List.sum_nil, add_zero]
  intro e
  have e2 := mul_right_cancel₀ (Real.exp_ne_zero _) e
  have e3 := Real.exp_injective (mul_left_cancel₀ ha e2)
  have h2 : (2 * s ^ 2) ≠ 0 := by positivity
  have e4 := (div_left_inj' h2).mp (neg_injective e3)
  have c : ∀ k : ℝ, ph * (13 / 20 + (n / 2 + l * (n * k) - n / 2) / n) - modelNpix ph / 2 = ph * l * k := by
    intro k
    unfold modelNpix
    field_simp
    ring
  rw [c, c, mul_pow (ph * l) kpix, mul_pow (ph * l) kpix'] at e4
  have e5 := mul_left_cancel₀ (pow_ne_zero 2 (mul_ne_zero hp.ne' hl0)) e4
  exact hne ((sq_eq_sq₀ hk.le hk'.le).mp e5)

/-- Eight pixels; the direction is half of the field of view with cells of 1/2. -/
example : ([0, 1, 2, 3, 4, 5, 6, 7] : List ℝ).getD 6 0 = (8 : ℕ) / 2 + (1 / 2 : ℝ) * ((8 : ℕ) * (1 / 2)) ∧
    ([0, 1, 2, 3, 4, 5, 6, 7] : List ℝ).getD 5 0 = (8 : ℕ) / 2 + (1 / 2 : ℝ) * ((8 : ℕ) * (1 / 4)) := by norm_num

/-! ## C138: the parameters are left alone -/

section Field

variable {R : Type _} [Field R] [LinearOrder R] [IsStrictOrderedRing R]

/-- Without another grid and without the transform the array of parameters is left alone. -/
theorem C138_parameters_partial (nx ny : ℕ) (lobes : List (Lobe R)) :
    gaussianDecompAfter nx ny (flatLobes lobes) none none false = flatLobes lobes := by
  unfold gaussianDecompAfter
  rw [lobesOf_flat]
  simp only [Lobe.after, Bool.false_eq_true, if_false, List.map_id']

/-- **C138 is violated**: a resolution other than one changes the widths in the array of the caller, a grid of another size the
offsets, the transform the offsets. -/
theorem C138_changed (nx ny : ℕ) (lobes : List (Lobe R)) (l : Lobe R) (hl : l ∈ lobes) :
    (∀ npix ft r, r ≠ 1 → l.sx ≠ 0 → gaussianDecompAfter nx ny (flatLobes lobes) npix (some r) ft ≠ flatLobes lobes) ∧
    (∀ res m, m ≠ (nx : R) → gaussianDecompAfter nx ny (flatLobes lobes) (some m) res false ≠ flatLobes lobes) ∧
    (nx ≠ 0 → gaussianDecompAfter nx ny (flatLobes lobes) none none true ≠ flatLobes lobes) := by
  have key : ∀ (g : Lobe R → Lobe R), flatLobes (lobes.map g) = flatLobes lobes → g l = l := by
    intro g h
    have := flat_inj h
    have h2 : lobes.map g = lobes.map id := by simpa using this
    exact List.map_inj_left.mp h2 l hl
  have hun : ∀ npix res ft, gaussianDecompAfter nx ny (flatLobes lobes) npix res ft =
      flatLobes (lobes.map fun l => l.after nx ny npix res ft) := by
    intro npix res ft
    unfold gaussianDecompAfter
    rw [lobesOf_flat]
  refine ⟨?_, ?_, ?_⟩
  · intro npix ft r hr hs h
    rw [hun] at h
    have := congrArg Lobe.sx (key _ h)
    simp only [Lobe.after] at this
    exact hr (mul_left_cancel₀ hs (by rw [this, mul_one]))
  · intro res m hm h
    rw [hun] at h
    have := congrArg Lobe.ox (key _ h)
    have e : (l.after nx ny (some m) res false).ox = shiftOffset (nx : R) m l.ox := by
      unfold Lobe.after
      cases res <;> simp
    simp only [e, shiftOffset_eq] at this
    apply hm
    linarith
  · intro hn h
    rw [hun] at h
    have := congrArg Lobe.ox (key _ h)
    simp only [Lobe.after, if_true] at this
    have hn' : (nx : R) ≠ 0 := by exact_mod_cast hn
    apply hn'
    linarith

/-- So a second call with the same array and the same options gives the Gaussians at another place: the lobes are made from widths and
offsets that were already changed once. -/
theorem C138_second_call (exp : R → R) (x y : List R) (hxy : x.length = y.length) (lobes : List (Lobe R)) (m r : R) (hr : r ≠ 0) :
    ∃ f, gaussianDecomp exp x y (gaussianDecompAfter x.length y.length (flatLobes lobes) (some m) (some r) false) (some m) (some r)
        = .ok f ∧
      ∀ i j, f i j = gaussians exp (lobes.map fun l => ⟨l.amp, l.ox + (x.length / 2 - m / 2), l.sx * r,
          l.oy + (x.length / 2 - m / 2), l.sy * r⟩)
        (m / 2 + (x.getD j 0 - x.length / 2) / r) (m / 2 + (y.getD i 0 - x.length / 2) / r) := by
  have : gaussianDecompAfter x.length y.length (flatLobes lobes) (some m) (some r) false =
      flatLobes (lobes.map fun l => ⟨l.amp, l.ox + (x.length / 2 - m / 2), l.sx * r,
          l.oy + (x.length / 2 - m / 2), l.sy * r⟩) := by
    unfold gaussianDecompAfter
    rw [lobesOf_flat]
    simp only []
    congr 1
    apply List.map_congr_left
    intro l _
    simp only [Lobe.after, shiftOffset_eq]
  rw [this]
  exact C136_regrid exp x y hxy _ m r hr

/-- **C138 is violated**, what the transform leaves: every centre is moved by half of the grid, each time it is called. -/
theorem C138_transform_moves (nx ny k : ℕ) (lobes : List (Lobe R)) :
    (fun p => gaussianDecompAfter nx ny p none none true)^[k] (flatLobes lobes) =
      flatLobes (lobes.map fun l => ⟨l.amp, l.ox - k * ((nx : R) / 2), l.sx, l.oy - k * ((ny : R) / 2), l.sy⟩) := by
  induction k with
  | zero => simp
  | succ k ih =>
    rw [Function.iterate_succ_apply', ih]
    unfold gaussianDecompAfter
    rw [lobesOf_flat]
    simp only [List.map_map]
    congr 1
    apply List.map_congr_left
    intro l _
    simp only [Function.comp, Lobe.after, if_true, Lobe.mk.injEq, true_and]
    push_cast
    constructor
    · ring
    · exact ⟨by ring, trivial⟩

example : gaussianDecompAfter 8 8 ([1, 2, 1, 3, 2] : List ℚ) (some 4) (some 2) false = [1, 4, 2, 5, 4] ∧
    gaussianDecompAfter 8 8 ([1, 2, 1, 3, 2] : List ℚ) none none true = [1, -2, 1, -1, 2] ∧
    gaussianDecompAfter 8 8 ([1, 2, 1, 3, 2] : List ℚ) none none false = [1, 2, 1, 3, 2] := by decide +kernel

end Field

/-! ## C139: the transform of the beam -/

/-- **C139 is violated**: with several lobes the transform cannot be made, unless there are as many as columns. -/
theorem C139_several_lobes_raise (nx ny : ℕ) (lobes : List (Lobe ℝ)) (h1 : lobes.length ≠ 1) (h2 : lobes.length ≠ ny)
    (npix res : Option ℝ) : gaussianDecompFt nx ny (flatLobes lobes) npix res = .error .valueError := by
  unfold gaussianDecompFt
  rw [lobesOf_flat]
  simp only []
  split
  · rename_i l h
    have := congrArg List.length h
    simp at this
    omega
  · rw [if_neg (by simpa using h2)]

theorem transform_norm (nx ny : ℕ) (l : Lobe ℝ) (i j : ℕ) : ‖l.transform nx ny i j‖ =
    |l.amp ^ 2 * Real.pi / ((nx : ℝ) * ny) * l.sx * l.sy| *
      Real.exp (2 * Real.pi ^ 2 / ((nx : ℝ) * ny) * l.sx ^ 2 * ((i : ℝ) - nx / 2) ^ 2 + l.sy ^ 2 * ((j : ℝ) - ny / 2) ^ 2) := by
  unfold Lobe.transform
  simp only []
  rw [norm_mul, Complex.norm_real, Real.norm_eq_abs, Complex.norm_exp]
  congr 2
  rw [Complex.sub_re, Complex.ofReal_re, Complex.re_ofReal_mul, Complex.I_re, mul_zero, sub_zero]

/-- A transform of an image without negative values is nowhere larger than at the centre. -/
theorem fourier_le_centre (n : ℕ) (hn : n % 2 = 0) (img : ℕ → ℕ → ℝ) (h : ∀ a b, 0 ≤ img a b) (k l : ℕ) :
    ‖fourier n n (fun a b => (img a b : ℂ)) k l‖ ≤ ‖fourier n n (fun a b => (img a b : ℂ)) (n / 2) (n / 2)‖ := by
  have hc : fourier n n (fun a b => (img a b : ℂ)) (n / 2) (n / 2) =
      ((∑ a ∈ Finset.range n, ∑ b ∈ Finset.range n, img a b : ℝ) : ℂ) / ((n : ℂ) * n) := by
    unfold fourier
    push_cast
    congr 1
    apply Finset.sum_congr rfl
    intro a _
    apply Finset.sum_congr rfl
    intro b _
    have : ((n / 2 : ℕ) : ℂ) = (n : ℂ) / 2 := by
      obtain ⟨q, rfl⟩ : ∃ q, n = 2 * q := ⟨n / 2, by omega⟩
      rw [show 2 * q / 2 = q by omega]
      push_cast; ring
    rw [this]
    simp
  rw [hc]
  unfold fourier
  rw [norm_div, norm_div]
  apply div_le_div_of_nonneg_right _ (norm_nonneg _)
  rw [Complex.norm_real, Real.norm_of_nonneg (Finset.sum_nonneg fun a _ => Finset.sum_nonneg fun b _ => h a b)]
  refine le_trans (norm_sum_le _ _) (Finset.sum_le_sum fun a _ => le_trans (norm_sum_le _ _) (Finset.sum_le_sum fun b _ => ?_))
  rw [norm_mul, Complex.norm_real, Real.norm_of_nonneg (h a b), Complex.norm_exp]
  have : (-(2 * (Real.pi : ℂ) * Complex.I) * (((a : ℂ) - n / 2) * ((k : ℂ) - n / 2) / n + ((b : ℂ) - n / 2) * ((l : ℂ) - n / 2) / n)).re = 0 := by
    have e : -(2 * (Real.pi : ℂ) * Complex.I) * (((a : ℂ) - n / 2) * ((k : ℂ) - n / 2) / n + ((b : ℂ) - n / 2) * ((l : ℂ) - n / 2) / n) =
        ((-(2 * Real.pi) * (((a : ℝ) - n / 2) * ((k : ℝ) - n / 2) / n + ((b : ℝ) - n / 2) * ((l : ℝ) - n / 2) / n) : ℝ) : ℂ) *
          Complex.I := by
      push_cast; ring
    rw [e, Complex.re_ofReal_mul, Complex.I_re, mul_zero]
  rw [this, Real.exp_zero, mul_one]

/-- **C139 is violated** for a single lobe as well: the result grows away from the centre of the plane, and is therefore not the transform of
any image without negative values, whatever the factor in front. -/
theorem C139_not_a_transform (n : ℕ) (hn : 2 ≤ n) (hn2 : n % 2 = 0) (l : Lobe ℝ) (ha : l.amp ≠ 0) (hx : l.sx ≠ 0) (hy : l.sy ≠ 0)
    (f : ℕ → ℕ → ℂ) (hf : gaussianDecompFt n n (flatLobes [l]) none none = .ok f)
    (img : ℕ → ℕ → ℝ) (himg : ∀ a b, 0 ≤ img a b) (c : ℂ) :
    ¬∀ k l, k < n → l < n → f k l = c * fourier n n (fun a b => (img a b : ℂ)) k l := by
  intro h
  unfold gaussianDecompFt at hf
  rw [lobesOf_flat] at hf
  simp only [List.map_cons, List.map_nil] at hf
  have hf' := (Except.ok.inj hf).symm
  have h0 := h 0 0 (by omega) (by omega)
  have hcc := h (n / 2) (n / 2) (by omega) (by omega)
  have hle : ‖f 0 0‖ ≤ ‖f (n / 2) (n / 2)‖ := by
    rw [h0, hcc, norm_mul, norm_mul]
    exact mul_le_mul_of_nonneg_left (fourier_le_centre n hn2 img himg 0 0) (norm_nonneg _)
  rw [hf', transform_norm, transform_norm] at hle
  have hnp : (0 : ℝ) < n := by exact_mod_cast (by omega : 0 < n)
  have hsx : (l.used n n none none).sx = l.sx := by simp [Lobe.used, Lobe.after]
  have hsy : (l.used n n none none).sy = l.sy := by simp [Lobe.used, Lobe.after]
  have hamp : (l.used n n none none).amp = l.amp := by simp [Lobe.used, Lobe.after]
  simp only [hsx, hsy, hamp] at hle
  have hpos : 0 < |l.amp ^ 2 * Real.pi / ((n : ℝ) * n) * l.sx * l.sy| := by
    rw [abs_pos]
    have := Real.pi_ne_zero
    positivity
  have hcen : ((n / 2 : ℕ) : ℝ) - (n : ℝ) / 2 = 0 := by
    obtain ⟨q, rfl⟩ : ∃ q, n = 2 * q := ⟨n / 2, by omega⟩
    rw [show 2 * q / 2 = q by omega]
    push_cast; ring
  rw [hcen] at hle
  have := Real.exp_le_exp.mp (le_of_mul_le_mul_left hle hpos)
  simp only [Nat.cast_zero, zero_sub] at this
  have hxs : 0 < l.sx ^ 2 := by positivity
  have hys : 0 < l.sy ^ 2 := by positivity
  have hpi := Real.pi_pos
  have h1 : 0 < 2 * Real.pi ^ 2 / ((n : ℝ) * n) * l.sx ^ 2 * (-((n : ℝ) / 2)) ^ 2 := by
    have : (-((n : ℝ) / 2)) ^ 2 = ((n : ℝ) / 2) ^ 2 := by ring
    rw [this]; positivity
  have h2 : 0 < l.sy ^ 2 * (-((n : ℝ) / 2)) ^ 2 := by
    have : (-((n : ℝ) / 2)) ^ 2 = ((n : ℝ) / 2) ^ 2 := by ring
    rw [this]; positivity
  nlinarith

/-- One lobe on eight by eight pixels has a result. -/
example : ∃ f, gaussianDecompFt 8 8 (flatLobes [⟨1, 4, 1, 4, 2⟩]) none none = .ok f := by
  unfold gaussianDecompFt
  rw [lobesOf_flat]
  exact ⟨_, rfl⟩

end PyFHD
