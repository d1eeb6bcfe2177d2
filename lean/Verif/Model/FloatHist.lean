import Verif.Model.Histogram
import Verif.Model.RunDir

/-!
# Model of `histogram` in floating point arithmetic

Source: `/repo/PyFHD/pyfhd_tools/pyfhd_utils.py`, lines 15-294. Every arithmetic operation is followed by a rounding, which is a parameter;
`roundFloat` is the rounding of the processor.
-/

namespace PyFHD

/-- The exponent of a positive number: the power of two at or below it. -/
def floatExp (q : ℚ) : ℤ :=
  let e : ℤ := (Nat.log2 q.num.natAbs : ℤ) - (Nat.log2 q.den : ℤ)
  if (2 : ℚ) ^ e ≤ q then e else e - 1

/-- Rounding of a positive number to `p` binary digits, to even at the middle. -/
def roundPos (p : ℕ) (q : ℚ) : ℚ :=
  let unit : ℚ := 2 ^ (floatExp q - p + 1)
  (roundEven (q / unit) : ℚ) * unit

/-- Rounding to `p` binary digits: `float64` is `p = 53`. Overflow and numbers below the smallest normal one are not modelled. -/
def roundFloat (p : ℕ) (q : ℚ) : ℚ :=
  if q = 0 then 0 else if 0 < q then roundPos p q else - roundPos p (-q)

/-- `np.arange(lo, hi, step)` for floating point numbers (used at pyfhd_utils.py 49): the number of elements is the rounded quotient
rounded up, and the step is the difference of the first two elements. -/
def arangeR (rnd : ℚ → ℚ) (lo hi step : ℚ) : List ℚ :=
  let delta := rnd (rnd (lo + step) - lo)
  (List.range ⌈rnd (rnd (hi - lo) / step)⌉.toNat).map fun (i : ℕ) => rnd (lo + rnd ((i : ℚ) * delta))

/-- The bin index of one datum (pyfhd_utils.py 86-106, repeated at 201-216), see `binI`. -/
def binIR (rnd : ℚ → ℚ) (binMin binMax : ℚ) (n : ℤ) (min max d : ℚ) : Option ℤ :=
  if d < min ∨ d > max then none
  else
    let divider := if binMin = binMax then 1 else rnd (binMax - binMin)
    some (pyInt (rnd (rnd ((n : ℚ) * rnd (d - binMin)) / divider)))

/-- `get_hist` and `get_ri` (pyfhd_utils.py 52-221), see `getHist` and `getRi`. -/
def histRiR (rnd : ℚ → ℚ) (data bins : List ℚ) (min max : ℚ) : Py (List ℕ × List ℕ) :=
  match bins.head?, bins.getLast? with
  | some b0, some bl => do
    let cls := binIR rnd b0 bl ((bins.length : ℤ) - 1) min max
    let hist ← histLoop cls data (List.replicate bins.length 0)
    let fv := firstV (bins.length + 1) hist
    let r ← riLoop cls data 0 (fv ++ List.replicate data.length 0) fv 0
    return (hist, r.1.take (r.1.length - r.2))
  | _, _ => .error .outOfBounds

/-- The edges (pyfhd_utils.py 282-286) when no number of bins is asked for. -/
def binsR (rnd : ℚ → ℚ) (binSize min max : ℚ) : Py (List ℚ) :=
  if binSize = 0 then .error .zeroDivision
  else
    let bins := arangeR rnd min (rnd (max + binSize)) binSize
    match bins.getLast? with
    | none => .error .indexError
    | some bl => .ok (if bl > max then bins.dropLast else bins)

/-- `histogram` (pyfhd_utils.py 224-294) without `num_bins`. -/
def histogramR (rnd : ℚ → ℚ) (data : List ℚ) (binSize : ℚ) (min max : Option ℚ) : Py HistResult :=
  match min.orElse (fun _ => listMin? data), max.orElse (fun _ => listMax? data) with
  | some mn, some mx => do
    let mx := if mn > mx then mn else mx
    let bins ← binsR rnd binSize mn mx
    let r ← histRiR rnd data bins mn mx
    return ⟨r.1, bins, r.2⟩
  | _, _ => .error .valueError

end PyFHD
