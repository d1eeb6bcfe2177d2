import Mathlib.Data.Rat.Floor

/-!
# Python and NumPy primitives shared by the model

Nothing in this file is specific to PyFHD; it fixes how the Python semantics used by the
modelled functions is represented.
-/

namespace PyFHD

/-- The ways a modelled function can stop without returning a value. `outOfBounds` is an
unchecked array access in numba compiled code (undefined behaviour), every other constructor is
the Python exception of that name; `systemExit` is `sys.exit`. -/
inductive PyErr
  | indexError | valueError | typeError | keyError | nameError | attributeError
  | zeroDivision | outOfBounds | systemExit
  deriving DecidableEq, Repr

/-- Result of a Python computation. -/
abbrev Py (α : Type _) := Except PyErr α

/-- Python's `int(q)`: truncation towards zero. -/
def pyInt (q : ℚ) : ℤ := if 0 ≤ q then ⌊q⌋ else ⌈q⌉

/-- Python index normalisation for a sequence of length `n`: `i` itself for `0 ≤ i < n`,
`i + n` for `-n ≤ i < 0`, otherwise out of range. -/
def pyIndex (n : ℕ) (i : ℤ) : Option ℕ :=
  if 0 ≤ i then (if i.toNat < n then some i.toNat else none)
  else if 0 ≤ i + n then some (i + n).toNat else none

/-- Half-open Python slice `l[a:b]` for non-negative `a`, `b`. -/
def slice {α : Type _} (l : List α) (a b : ℕ) : List α := (l.take b).drop a

end PyFHD
