import Verif.Model.Basic

/-!
# Model of `histogram` and its parts

Source: `/repo/PyFHD/pyfhd_tools/pyfhd_utils.py`, lines 15-294.
Data and bin edges are rationals, so that the model covers integer data and floating point data
in exact arithmetic; rounding of the bin index division is not modelled.
-/

namespace PyFHD

/-- `np.arange(lo, hi, step)` for a non-zero step: `ceil((hi-lo)/step)` elements. -/
def arange (lo hi step : ℚ) : List ℚ :=
  (List.range ⌈(hi - lo) / step⌉.toNat).map fun (i : ℕ) => lo + (i : ℚ) * step

/-- `get_bins` (pyfhd_utils.py 15-49). A zero step makes `np.arange` raise. -/
def getBins (min max binSize : ℚ) : Py (List ℚ) :=
  if binSize = 0 then .error .zeroDivision
  else .ok (arange min (max + binSize) binSize)

/-- The bin index of one datum (pyfhd_utils.py 86-106, repeated at 201-216): `none` when the
datum is skipped (`data[idx] < min or data[idx] > max`), else
`int(n * (data[idx] - bin_min) / bin_divider)`, with `bin_divider = 1` for a single edge. -/
def binI (binMin binMax : ℚ) (n : ℤ) (min max d : ℚ) : Option ℤ :=
  if d < min ∨ d > max then none
  else
    let divider := if binMin = binMax then 1 else binMax - binMin
    some (pyInt ((n : ℚ) * (d - binMin) / divider))

/-- The counting loop of `get_hist` (pyfhd_utils.py 101-108); `cls` gives the bin index of a
datum or `none` for `continue`. Numba wraps negative indices and does not check the bound, an
index outside the array is the error `outOfBounds`. -/
def histLoop {α : Type _} (cls : α → Option ℤ) : List α → List ℕ → Py (List ℕ)
  | [], hist => .ok hist
  | d :: ds, hist =>
    match cls d with
    | none => histLoop cls ds hist
    | some bi =>
      match pyIndex hist.length bi with
      | none => .error .outOfBounds
      | some j => histLoop cls ds (hist.set j (hist.getD j 0 + 1))

/-- `get_hist` (pyfhd_utils.py 52-109). `bins[0]` of an empty array is an unchecked access. -/
def getHist (data bins : List ℚ) (min max : ℚ) : Py (List ℕ) :=
  match bins.head?, bins.getLast? with
  | some b0, some bl =>
    histLoop (binI b0 bl ((bins.length : ℤ) - 1) min max) data (List.replicate bins.length 0)
  | _, _ => .error .outOfBounds

/-- The running sums `first_v` of `get_ri` (pyfhd_utils.py 189-194), starting from `start`. -/
def firstV (start : ℕ) : List ℕ → List ℕ
  | [] => [start]
  | h :: hs => start :: firstV (start + h) hs

/-- The index loop of `get_ri` (pyfhd_utils.py 210-219): arguments are the current data index,
the reverse index array, the cursors `tracker` and the number of skipped data. -/
def riLoop {α : Type _} (cls : α → Option ℤ) :
    List α → ℕ → List ℕ → List ℕ → ℕ → Py (List ℕ × ℕ)
  | [], _, ri, _, counter => .ok (ri, counter)
  | d :: ds, idx, ri, tracker, counter =>
    match cls d with
    | none => riLoop cls ds (idx + 1) ri tracker (counter + 1)
    | some bi =>
      match pyIndex tracker.length bi with
      | none => .error .outOfBounds
      | some j =>
        let t := tracker.getD j 0
        if t < ri.length then
          riLoop cls ds (idx + 1) (ri.set t idx) (tracker.set j (t + 1)) counter
        else .error .outOfBounds

/-- `get_ri` (pyfhd_utils.py 112-221). The assignment `ri[0:bin_l+1] = first_v` needs equal
lengths, which holds because `hist` has one entry per bin; otherwise NumPy raises. -/
def getRi (data bins : List ℚ) (hist : List ℕ) (min max : ℚ) : Py (List ℕ) :=
  match bins.head?, bins.getLast? with
  | some b0, some bl =>
    let binL := bins.length
    let fv := firstV (binL + 1) hist
    if fv.length = binL + 1 then
      match riLoop (binI b0 bl ((binL : ℤ) - 1) min max) data 0
          (fv ++ List.replicate data.length 0) fv 0 with
      | .error e => .error e
      | .ok (ri, counter) => .ok (ri.take (ri.length - counter))
    else .error .valueError
  | _, _ => .error .outOfBounds

/-- Smallest element of a list, `none` for the empty list (`np.min` raises on empty input). -/
def listMin? : List ℚ → Option ℚ
  | [] => none
  | d :: ds => some (ds.foldl (fun a b => if b < a then b else a) d)

/-- Largest element of a list, `none` for the empty list (`np.max` raises on empty input). -/
def listMax? : List ℚ → Option ℚ
  | [] => none
  | d :: ds => some (ds.foldl (fun a b => if a < b then b else a) d)

/-- What `histogram` returns. -/
structure HistResult where
  hist : List ℕ
  bins : List ℚ
  ri : List ℕ
  deriving DecidableEq, Repr

/-- The idiom `ri[ri[i] : ri[i + 1]]` used by every caller to get the members of bin `i`
(documented in pyfhd_utils.py 138-146); `none` when an index is out of range. -/
def riSlice (ri : List ℕ) (i : ℕ) : Option (List ℕ) :=
  match ri[i]?, ri[i + 1]? with
  | some a, some c => some (slice ri a c)
  | _, _ => none

/-- The part of `histogram` after `min`, `max` and `bin_size` are known
(pyfhd_utils.py 282-294). `dropLast` is the test `num_bins is not None`. -/
def histogramCore (data : List ℚ) (binSize min max : ℚ) (dropLast : Bool) : Py HistResult := do
  let bins0 ← getBins min max binSize
  match bins0.getLast? with
  | none => .error .indexError
  | some bl =>
    let bins := if bl > max ∨ dropLast = true then bins0.dropLast else bins0
    let hist ← getHist data bins min max
    let ri ← getRi data bins hist min max
    return ⟨hist, bins, ri⟩

/-- `histogram` (pyfhd_utils.py 224-294). `data` is the flattened input; `num_bins = 0` divides
by zero. Simplification: complex data are not modelled. The second check `max < min` of the
source (279-280) can never hold after the first one and is omitted. -/
def histogram (data : List ℚ) (binSize : ℚ := 1) (numBins : Option ℕ := none)
    (min : Option ℚ := none) (max : Option ℚ := none) : Py HistResult :=
  match min.orElse (fun _ => listMin? data), max.orElse (fun _ => listMax? data) with
  | some mn, some mx =>
    match numBins with
    | none => histogramCore data binSize mn (if mn > mx then mn else mx) false
    | some 0 => .error .zeroDivision
    | some (k + 1) =>
      histogramCore data ((mx - mn) / ((k : ℚ) + 1)) mn (if mn > mx then mn else mx) true
  | _, _ => .error .valueError

end PyFHD
