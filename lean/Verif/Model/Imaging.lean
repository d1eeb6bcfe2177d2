import Verif.Model.Planes
import Mathlib.Algebra.BigOperators.Group.Finset.Basic
import Mathlib.Algebra.Order.Floor.Ring
import Mathlib.Data.Rat.Floor
import Mathlib.Data.Nat.Sqrt
import Mathlib.Analysis.SpecialFunctions.Trigonometric.Basic

/-!
# Model of `dirty_image_generate` (gridding/gridding_utils.py)

uv planes are planes of complex numbers of shape `(n, m)`; masks and filters are planes of rational
numbers. The option `resize`, which no caller uses, is not modelled. The model keeps track of the array
of the caller, which the function changes in place.
-/

namespace PyFHD

/-! ## The mask for the baseline threshold -/

/-- The pixels kept by the threshold (gridding_utils.py 370-383), for a square plane: distances are
compared by their squares. -/
def thresholdRaw (n : ℕ) (thr : ℚ) : Plane ℚ := fun i j =>
  let d := ((j : ℚ) - n / 2) ^ 2 + ((i : ℚ) - n / 2) ^ 2
  if 0 ≤ thr then (if d < thr ^ 2 then 0 else 1) else (if thr ^ 2 < d then 0 else 1)

/-- The width of the smoothing (gridding_utils.py 368-369 and 386-389): at least one, and not an even
number. -/
def smoothWidth (n : ℕ) (width : Option ℚ) : ℚ :=
  let w := max (width.getD ((Nat.sqrt (n * n) / 100 : ℕ) : ℚ)) 1
  if w.den = 1 ∧ w.num % 2 = 0 then w + 1 else w

/-- The number of pixels of astropy's `Box2DKernel` along an axis: the width rounded up to an odd
number. -/
def boxSize (w : ℚ) : ℕ := let c := ⌈w⌉.toNat; if c % 2 = 0 then c + 1 else c

/-- A pixel of astropy's `Box2DKernel`, at an offset from the centre. -/
def boxKernel (w : ℚ) (x y : ℤ) : ℚ :=
  if |(x : ℚ)| ≤ w / 2 ∧ |(y : ℚ)| ≤ w / 2 then 1 / w ^ 2 else 0

/-- The smoothed mask (gridding_utils.py 384-395) for a square plane: the box averages do not cover the
edge of the plane, where the mask stays as it is; they must fit into the place they are written to.
A kernel larger than the plane does not fit either. -/
def thresholdMask (n : ℕ) (thr : ℚ) (width : Option ℚ) : Py (Plane ℚ) :=
  let w := smoothWidth n width
  let size := boxSize w
  let start := ⌊w / 2⌋.toNat
  if n < size ∨ size ≠ 2 * start + 1 then .error .valueError
  else .ok fun i j =>
    if start ≤ i ∧ i < n - start ∧ start ≤ j ∧ j < n - start then
      ∑ x ∈ Finset.range size, ∑ y ∈ Finset.range size,
        boxKernel w ((x : ℤ) - start) ((y : ℤ) - start) *
          thresholdRaw n thr (i + x - start) (j + y - start)
    else thresholdRaw n thr i j

/-! ## The Fourier transform -/

/-- `np.fft.fftshift` of a plane: entry `i` comes from `i - n // 2`, wrapping around. -/
def fftshift {K : Type _} (n m : ℕ) (a : Plane K) : Plane K := fun i j =>
  a ((i + (n - n / 2)) % n) ((j + (m - m / 2)) % m)

/-- `exp (-2 pi i k / n)`. -/
noncomputable def fftRoot (n : ℕ) (k : ℤ) : ℂ := Complex.exp (-(2 * Real.pi * Complex.I * k / n))

/-- `np.fft.fftn` of a plane with `norm="forward"`. -/
noncomputable def fftForward (n m : ℕ) (a : Plane ℂ) : Plane ℂ := fun k l =>
  (∑ i ∈ Finset.range n, ∑ j ∈ Finset.range m,
    a i j * fftRoot n (k * i) * fftRoot m (l * j)) / ((n : ℂ) * m)

/-- The transform of gridding_utils.py 474-476. -/
noncomputable def uvToImage (n m : ℕ) (a : Plane ℂ) : Plane ℂ :=
  fftshift n m (fftForward n m (fftshift n m a))

/-! ## `dirty_image_generate` -/

/-- The array in use, its shape, the array of the caller, and whether they are the same array. -/
structure ImgState where
  rows : ℕ
  cols : ℕ
  use : Plane ℂ
  caller : Plane ℂ
  aliased : Bool

/-- An operation in place (`*=`, `/=`). -/
def ImgState.inplace (s : ImgState) (f : ℕ → ℕ → ℂ → ℂ) : ImgState :=
  { s with
    use := fun i j => f i j (s.use i j)
    caller := if s.aliased then fun i j => f i j (s.use i j) else s.caller }

/-- An operation that makes a new array. -/
def ImgState.fresh (s : ImgState) (rows cols : ℕ) (a : Plane ℂ) : ImgState :=
  { s with rows := rows, cols := cols, use := a, aliased := false }

/-- A filter given by the caller: an array of the size of the plane, or one of another size. -/
inductive FilterArg
  | none
  | sameSize (f : Plane ℚ)
  | otherSize

/-- The options of `dirty_image_generate`. `uniform` is `filter_uv_uniform` with the counts and weights
given; `beam` is the beam if `image_filter` is `filter_uv_optimal` and a beam is given; a
number as normalization is a constant plane. -/
structure ImgOpts where
  threshold : Option ℚ := some 0
  width : Option ℚ := none
  mask : Option (Plane ℚ) := none
  filter : FilterArg := .none
  uniform : Plane ℂ → Py (Plane ℂ × Plane ℚ)
  pad : Option ℚ := none
  degpix : Option ℝ := none
  notReal : Bool := false
  beam : Option (Plane ℝ) := none
  norm : Option (Plane ℝ) := none

/-- What `dirty_image_generate` returns, with its shape, and the array of the caller afterwards. -/
structure ImgOut where
  rows : ℕ
  cols : ℕ
  image : Plane ℂ
  filter : FilterArg
  caller : Plane ℂ

/-- The threshold (gridding_utils.py 366-397). The two parts of `rarray` have the shapes `(m, m)` and
`(n, n)` and cannot be added if they differ (planes with one row or column are not modelled). -/
def imgThreshold (o : ImgOpts) (s : ImgState) : Py ImgState :=
  match o.threshold with
  | none => .ok s
  | some t =>
    if s.rows ≠ s.cols then .error .valueError
    else match thresholdMask s.rows t o.width with
      | .error e => .error e
      | .ok mask => .ok (s.inplace fun i j v => v * (mask i j : ℂ))

/-- The mask (gridding_utils.py 399-401). -/
def imgMask (o : ImgOpts) (s : ImgState) : ImgState :=
  match o.mask with
  | none => s
  | some mask => s.inplace fun i j v => v * (mask i j : ℂ)

/-- The filter (gridding_utils.py 403-440), with the filter to return. -/
def imgFilter (o : ImgOpts) (s : ImgState) : Py (ImgState × FilterArg) :=
  match o.filter with
  | .none => .ok (s, .none)
  | .sameSize f => .ok (s.inplace fun i j v => v * (f i j : ℂ), .sameSize f)
  | .otherSize =>
    match o.uniform s.use with
    | .error e => .error e
    | .ok (a, f) => .ok (s.fresh s.rows s.cols a, .sameSize f)

/-- The padding (gridding_utils.py 458-467): zeros on all sides, and a factor. -/
def imgPad (o : ImgOpts) (s : ImgState) : Py ImgState :=
  match o.pad with
  | none => .ok s
  | some p =>
    let d : ℤ := ((max s.cols s.rows / 2 : ℕ) : ℤ) * (pyInt p - 1)
    if d < 0 then .error .valueError
    else
      let d := d.toNat
      .ok (s.fresh (s.rows + 2 * d) (s.cols + 2 * d) fun i j =>
        (if d ≤ i ∧ i < d + s.rows ∧ d ≤ j ∧ j < d + s.cols then s.use (i - d) (j - d) else 0)
          * ((p ^ 2 : ℚ) : ℂ))

/-- The division by the area of a pixel (gridding_utils.py 469-471), which is in place. -/
noncomputable def imgDegpix (o : ImgOpts) (s : ImgState) : ImgState :=
  match o.degpix with
  | none => s
  | some d => s.inplace fun _ _ v => v / (((d * (Real.pi / 180)) ^ 2 : ℝ) : ℂ)

/-- The image from the final plane (gridding_utils.py 473-492). -/
noncomputable def imgFinish (o : ImgOpts) (s : ImgState) : Plane ℂ := fun i j =>
  let v := uvToImage s.rows s.cols s.use i j
  let v := if o.notReal then v else ((v.re : ℝ) : ℂ)
  let v := match o.beam with | none => v | some b => v * (b i j : ℂ)
  match o.norm with | none => v | some c => v * (c i j : ℂ)

/-- `dirty_image_generate` (gridding_utils.py 297-495). -/
noncomputable def dirtyImage (o : ImgOpts) (n m : ℕ) (plane : Plane ℂ) : Py ImgOut :=
  match imgThreshold o ⟨n, m, plane, plane, true⟩ with
  | .error e => .error e
  | .ok s =>
    match imgFilter o (imgMask o s) with
    | .error e => .error e
    | .ok (s, f) =>
      match imgPad o s with
      | .error e => .error e
      | .ok s =>
        let s := imgDegpix o s
        .ok ⟨s.rows, s.cols, imgFinish o s, f, s.caller⟩

end PyFHD
