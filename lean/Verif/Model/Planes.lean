import Verif.Model.Basic
import Mathlib.Algebra.Star.Basic
import Mathlib.Algebra.Field.Basic
import Mathlib.Analysis.Complex.Exponential

/-!
# Model of the whole-plane operations

`conjugate_mirror`, `crosspol_reformat` (gridding_utils.py), `crosspol_split_real_imaginary`,
`simple_deproject_w_term` (pyfhd_utils.py). A 2-D array of shape `(n, m)` is a function of two
indices, of which only the part with `i < n`, `j < m` means anything.
-/

namespace PyFHD

variable {K : Type _}

/-- A 2-D array, without its shape. -/
abbrev Plane (K : Type _) := ℕ → ℕ → K

/-- `np.flip(image)` over both axes. -/
def npFlip (n m : ℕ) (a : Plane K) : Plane K := fun i j => a (n - 1 - i) (m - 1 - j)

/-- `np.roll(image, 1, axis=(1, 0))`: entry `i` comes from `i - 1`, wrapping around. -/
def npRoll1 (n m : ℕ) (a : Plane K) : Plane K := fun i j => a ((i + n - 1) % n) ((j + m - 1) % m)

/-- `conjugate_mirror` (gridding_utils.py 57-81). `isComplex` is `np.iscomplexobj(image)`. -/
def conjugateMirror [Star K] (isComplex : Bool) (n m : ℕ) (a : Plane K) : Plane K :=
  let r := npRoll1 n m (npFlip n m a)
  if isComplex then fun i j => star (r i j) else r

/-- The symmetrisation `(A + conjugate_mirror(A)) / 2` at the end of `visibility_grid`
(visibility_grid.py 542-553). -/
def symmetrise [Field K] [Star K] (isComplex : Bool) (n m : ℕ) (a : Plane K) : Plane K := fun i j =>
  (a i j + conjugateMirror isComplex n m a i j) / 2

/-- `crosspol_reformat` (gridding_utils.py 868-890); planes are complex and of equal shape. -/
def crosspolReformat [Field K] [Star K] (n m : ℕ) (im : ℕ → Plane K) : ℕ → Plane K :=
  let c : Plane K := fun i j => (im 2 i j - conjugateMirror true n m (im 3) i j) / 2
  fun p => if p = 2 then c else if p = 3 then conjugateMirror true n m c else im p

/-- A complex number with its two parts. -/
structure Cx where
  re : ℚ
  im : ℚ
  deriving DecidableEq, Repr

/-- `crosspol_split_real_imaginary` (pyfhd_utils.py 1542-1571), the image part. `crosspol_image` is
a view of `image[2]`, not a copy: line 1564 overwrites it with its real part before line 1565 reads
its imaginary part. -/
def crosspolSplit (im : ℕ → Plane Cx) : ℕ → Plane Cx :=
  -- image[2] = crosspol_image.real
  let im1 : ℕ → Plane Cx := fun p => if p = 2 then fun i j => ⟨(im 2 i j).re, 0⟩ else im p
  -- image[3] = crosspol_image.imag, where crosspol_image is im1[2] by now
  fun p => if p = 3 then fun i j => ⟨(im1 2 i j).im, 0⟩ else im1 p

/-- The names part of `crosspol_split_real_imaginary` (1567-1570), for four names. -/
def crosspolNames (names : List String) : List String :=
  match names with
  | a :: b :: c :: _ :: t => a :: b :: (c ++ "_real") :: (c ++ "_imag") :: t
  | l => l

/-- In-place broadcasting: a source axis of length `s` fits a target axis of length `t` if it is
equal or one; the source index is then the target index or zero. -/
def bcastIdx (t s i : ℕ) : Option ℕ := if s = t then some i else if s = 1 then some 0 else none

/-- `simple_deproject_w_term` (pyfhd_utils.py 977-1013). `vis` has shape
`(nPol, nFreq, nBl)`, `ww` has `nBl` and `freq` has `nFreq` entries. `phase` has shape
`(nBl, nFreq)` and `np.tile(phase, (n_pol, 1))` has shape `(nPol * nBl, nFreq)`, which NumPy
broadcasts against the last two axes of `vis`. -/
noncomputable def deprojectW (nPol nFreq nBl : ℕ) (ww freq : ℕ → ℝ) (direction : ℝ)
    (vis : ℕ → ℕ → ℕ → ℂ) : Py (ℕ → ℕ → ℕ → ℂ) :=
  let phase : ℕ → ℕ → ℂ := fun r f =>
    Complex.exp (direction * Complex.I * (ww (r % nBl) * freq f))
  if (bcastIdx nFreq (nPol * nBl) 0).isSome ∧ (bcastIdx nBl nFreq 0).isSome then
    .ok fun p f b =>
      if p < nPol then
        vis p f b * phase ((bcastIdx nFreq (nPol * nBl) f).getD 0) ((bcastIdx nBl nFreq b).getD 0)
      else vis p f b
  else .error .valueError

end PyFHD
