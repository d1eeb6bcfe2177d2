import Verif.Model.Histogram
import Mathlib.Algebra.Order.Field.Basic
import Mathlib.Data.Nat.Factorial.Basic
import Mathlib.Data.List.Dedup
import Mathlib.Data.List.Sort

/-!
# Model of the small array helpers of `pyfhd_utils.py`
-/

namespace PyFHD

/-- `l[idxs] = v` for a list of non-negative indices (NumPy fancy assignment of a scalar): every
listed position is overwritten, an index outside the array raises before anything is written. -/
def fancySet {α : Type _} (l : List α) (idxs : List ℕ) (v : α) : Py (List α) :=
  if ∀ i ∈ idxs, i < l.length then .ok (l.mapIdx fun i x => if i ∈ idxs then v else x)
  else .error .indexError

/-- `np.nonzero(l)[0]`. -/
def nonzeroIdx (l : List ℕ) : List ℕ := (List.range l.length).filter fun i => l.getD i 0 ≠ 0

/-- Integer array as data of the histogram. -/
def toQ (l : List ℤ) : List ℚ := l.map fun (x : ℤ) => (x : ℚ)

/-- Smallest integer of a list (`np.min`). -/
def minZ? : List ℤ → Option ℤ
  | [] => none
  | d :: ds => some (ds.foldl min d)

/-- Largest integer of a list (`np.max`). -/
def maxZ? : List ℤ → Option ℤ
  | [] => none
  | d :: ds => some (ds.foldl max d)

/-- The marking loop of `array_match` (pyfhd_utils.py 783-788) over the matched bins `vals`;
`ri2 = none` is the unbound local of the branch without a second array. -/
def matchLoop (hist1 ri1 hist2 : List ℕ) (ri2 : Option (List ℕ)) :
    List ℕ → List ℕ → Py (List ℕ)
  | [], ind => .ok ind
  | i :: is, ind => do
    let ind1 ←
      if 0 < hist1.getD i 0 then
        match riSlice ri1 i with
        | some s => fancySet ind s 1
        | none => .error .indexError
      else .ok ind
    let ind2 ←
      if 0 < hist2.getD i 0 then
        match ri2 with
        | none => .error .nameError
        | some r2 =>
          match riSlice r2 i with
          | some s => fancySet ind1 s 1
          | none => .error .indexError
      else .ok ind1
    matchLoop hist1 ri1 hist2 ri2 is ind2

/-- `array_match` (pyfhd_utils.py 724-792) for integer arrays. The result `none` stands for the
integer `-1` that the source returns when nothing matches. The bins of the second-stage
histograms (771-776) are offsets from `min_use`. -/
def arrayMatch (a1 : List ℤ) (valueMatch : Option (List ℤ)) (a2 : Option (List ℤ)) :
    Py (Option (List ℕ)) :=
  match valueMatch with
  | none => .error .valueError
  | some values => do
    -- lines 754-764
    let (minUse, maxUse, hist2, ri2) ← (match a2 with
      | some (y :: ys) =>
        match minZ? a1, maxZ? a1, minZ? (y :: ys), maxZ? (y :: ys) with
        | some m1, some M1, some m2, some M2 => do
          let r ← histogram (toQ (y :: ys)) 1 none (some ((min m1 m2 : ℤ) : ℚ))
            (some ((max M1 M2 : ℤ) : ℚ))
          pure (min m1 m2, max M1 M2, r.hist, some r.ri)
        | _, _, _, _ => .error .valueError
      | _ =>
        match minZ? a1, maxZ? a1 with
        | some m1, some M1 => .ok (m1, M1, List.range (M1 - m1 + 1).toNat, none)
        | _, _ => .error .valueError : Py (ℤ × ℤ × List ℕ × Option (List ℕ)))
    -- 766-769
    let r1 ← histogram (toQ a1) 1 none (some (minUse : ℚ)) (some (maxUse : ℚ))
    let combined := List.zipWith (· + ·) r1.hist hist2
    let bins := (nonzeroIdx combined).map fun (i : ℕ) => (i : ℤ) + minUse
    -- 772-776
    let rv1 ← histogram (toQ bins) 1 none none none
    match rv1.bins.head?, rv1.bins.getLast? with
    | some omin, some omax =>
      let rv2 ← histogram (toQ values) 1 none (some omin) (some omax)
      let vals := (nonzeroIdx (List.zipWith (· &&& ·) rv1.hist rv2.hist)).map
        fun (i : ℕ) => (pyInt ((i : ℚ) + omin - (minUse : ℚ))).toNat
      if vals.length = 0 then return none
      else
        let ind ← matchLoop r1.hist r1.ri hist2 ri2 vals (List.replicate a1.length 0)
        return some (nonzeroIdx ind)
    | _, _ => .error .indexError

/-- A NumPy result that is a scalar when it has a single element (pyfhd_utils.py 719-721). -/
inductive NpOut (α : Type _)
  | scalar (x : α)
  | array (l : List α)

/-- Values of a scalar-or-array result. -/
def NpOut.toList {α : Type _} : NpOut α → List α
  | .scalar x => [x]
  | .array l => l

/-- NumPy `1 / x`: infinite (or NaN) for zero, modelled as `none`. -/
def npRecip {K : Type _} [Field K] [DecidableEq K] (x : K) : Option K :=
  if x = 0 then none else some x⁻¹

/-- A one-element array is returned as its element (pyfhd_utils.py 719-721). -/
def NpOut.squeeze {α : Type _} : List α → NpOut α
  | [x] => .scalar x
  | l => .array l

/-- One entry of `weight_invert` (pyfhd_utils.py 678-716): selected when its value `use w` reaches
the threshold (703), or is not zero without one (706); a selected entry becomes its
reciprocal (709), a NaN or infinite result is replaced by zero (711-716), an entry not selected is the
initial zero. `mag` is `np.abs`, used when `use_abs` is set or the array is complex
(`isComplex`); `re` reads an entry of a real array as a real number. NaN inputs are not
modelled. -/
def weightInvertEntry {K R : Type _} [Field K] [DecidableEq K] [Field R] [LinearOrder R]
    (mag re : K → R) (isComplex : Bool) (threshold : Option R) (useAbs : Bool) (w : K) : K :=
  let use := if useAbs || isComplex then mag w else re w
  let sel := match threshold with
    | some t => decide (t ≤ use)
    | none => decide (use ≠ 0)
  if sel then (npRecip w).getD 0 else 0

/-- `weight_invert` (pyfhd_utils.py 640-721) on a flat float or complex array. Integer arrays,
whose results are truncated to integers, are `weightInvertInt`. -/
def weightInvert {K R : Type _} [Field K] [DecidableEq K] [Field R] [LinearOrder R]
    (mag re : K → R) (isComplex : Bool) (weights : List K) (threshold : Option R)
    (useAbs : Bool) : NpOut K :=
  NpOut.squeeze (weights.map (weightInvertEntry mag re isComplex threshold useAbs))

/-- Python integer conversion of `1 / w` when the result array has integer type: NumPy casts the
float reciprocal back to the integer type (truncation), and `1/0` (infinite) is cast to a huge
integer that is not removed; `none` stands for that value. -/
def weightInvertInt (weights : List ℤ) (threshold : Option ℤ) (useAbs : Bool) :
    List (Option ℤ) :=
  weights.map fun w =>
    let u := if useAbs then |w| else w
    let sel := match threshold with
      | some t => decide (t ≤ u)
      | none => decide (u ≠ 0)
    if sel then (if w = 0 then none else some (pyInt (1 / (w : ℚ)))) else some 0

/-- `meshgrid` (pyfhd_utils.py 795-838). Rows of the reshaped `np.arange(elements*dimension)`.
The float/integer type of the result is not modelled. A zero `dimension` gives empty rows. -/
def meshgrid (dimension elements : ℕ) (axis : Option ℕ) : List (List ℕ) :=
  let (ax, el) := match axis with
    | none => (elements, dimension)
    | some a => (a, elements)
  (List.range el).map fun r => (List.range dimension).map fun c =>
    let k := r * dimension + c
    if ax = 2 then k / dimension else k % dimension

/-- One pass `coeff[1:m+1] += -m * coeff[0:m]` (pyfhd_utils.py 868): the right-hand side is
computed from the old values. -/
def derivStep (m : ℕ) (coeff : List ℚ) : List ℚ :=
  coeff.mapIdx fun i c => if 1 ≤ i ∧ i ≤ m then c + -(m : ℚ) * coeff.getD (i - 1) 0 else c

/-- `deriv_coefficients` (pyfhd_utils.py 841-875); the scalar `0` returned for `n ≤ 0` is
`none`. -/
def derivCoefficients (n : ℤ) (divideFactorial : Bool) : Option (List ℚ) :=
  if n ≤ 0 then none
  else
    let N := n.toNat
    let c0 := (1 : ℚ) :: List.replicate (N - 1) 0
    let c := (List.range' 1 (N - 1)).foldl (fun c m => derivStep m c) c0
    some (if divideFactorial then c.mapIdx fun m x => x / ((m + 1).factorial : ℚ) else c)

/-- Binary search of `np.searchsorted(arr, v, side="right")` in `arr[lo:hi]`; the first argument
bounds the number of halvings. -/
def bsearchRight (arr : List ℤ) (v : ℤ) : ℕ → ℕ → ℕ → ℕ
  | 0, lo, _ => lo
  | fuel + 1, lo, hi =>
    if lo < hi then
      let mid := lo + (hi - lo) / 2
      if arr.getD mid 0 ≤ v then bsearchRight arr v fuel (mid + 1) hi
      else bsearchRight arr v fuel lo mid
    else lo

/-- `np.unique`: ascending list of the distinct values. -/
def npUnique {α : Type} [LinearOrder α] (l : List α) : List α := (l.insertionSort (· ≤ ·)).dedup

/-- `idl_argunique` (pyfhd_utils.py 878-902) for integers. -/
def idlArgunique (arr : List ℤ) : List ℤ :=
  (npUnique arr).map fun v => (bsearchRight arr v arr.length 0 arr.length : ℤ) - 1

/-- `idl_median(x)` with `width = 0`, `even = False` (pyfhd_utils.py 1379-1385): element
`ceil(len/2)` of the sorted data. -/
def idlMedian {R : Type _} [LinearOrder R] (x : List R) : Py R :=
  match (x.insertionSort (· ≤ ·))[(x.length + 1) / 2]? with
  | some v => .ok v
  | none => .error .indexError

end PyFHD
