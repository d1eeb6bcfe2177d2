import Verif.Model.FloatHist
import Verif.Model.Planes

/-!
# Model of sums in floating point arithmetic

Source: `/repo/PyFHD/gridding/visibility_grid.py`. The order in which `np.sum` and `np.dot` add is not specified, so that a computation is a
tree, which is a parameter. Every arithmetic operation is followed by a rounding.
-/

namespace PyFHD

/-- How one part (real or imaginary) of a pixel is computed: from parts of visibilities with `np.sum` (visibility_grid.py 352-354), division
by the number of visibilities (461; of complex numbers, NumPy multiplies with the reciprocal), `np.dot` with parts of kernels (461),
of which processors may do a multiplication and an addition in one step, and addition to the plane (462-464). -/
inductive Accum
  | leaf (x : ℚ)
  | add (l r : Accum)
  | mul (c : ℚ) (t : Accum)
  | div (t : Accum) (n : ℕ)
  | fma (l : Accum) (c : ℚ) (r : Accum)

namespace Accum

/-- The number computed. -/
def value (rnd : ℚ → ℚ) : Accum → ℚ
  | leaf x => x
  | add l r => rnd (l.value rnd + r.value rnd)
  | mul c t => rnd (c * t.value rnd)
  | div t n => rnd (t.value rnd * rnd (1 / n))
  | fma l c r => rnd (l.value rnd + c * r.value rnd)

/-- The largest number of roundings of a term. -/
def depth : Accum → ℕ
  | leaf _ => 0
  | add l r => max l.depth r.depth + 1
  | mul _ t => t.depth + 1
  | div t _ => t.depth + 2
  | fma l _ r => max l.depth r.depth + 1

/-- The terms that are added. -/
def terms : Accum → List ℚ
  | leaf x => [x]
  | add l r => l.terms ++ r.terms
  | mul c t => t.terms.map (c * ·)
  | div t n => t.terms.map (· / n)
  | fma l c r => l.terms ++ r.terms.map (c * ·)

end Accum

/-- `(A + conjugate_mirror(A)) / 2` (visibility_grid.py 545-553) in floating point arithmetic, for a plane of complex numbers given by the planes
of its two parts. The division is that of `Accum.div`. -/
def symmetriseR (rnd : ℚ → ℚ) (n m : ℕ) (re im : Plane ℚ) : Plane ℚ × Plane ℚ :=
  (fun i j => rnd (rnd (re i j + npRoll1 n m (npFlip n m re) i j) * rnd (1 / 2)),
   fun i j => rnd (rnd (im i j + -npRoll1 n m (npFlip n m im) i j) * rnd (1 / 2)))

end PyFHD
