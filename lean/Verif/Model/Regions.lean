import Verif.Model.Arrays
import Mathlib.Algebra.BigOperators.Ring.Finset

/-!
# Model of `region_grow`, of the sums over time, and of the pages of the calibration plots

Sources: `/repo/PyFHD/pyfhd_tools/pyfhd_utils.py` lines 1388-1539, `/repo/PyFHD/plotting/calibration.py`.
-/

namespace PyFHD

/-! ## Growing a region -/

/-- `np.min` of values that may be NaN (`none`): NaN if any value is. The empty list raises in the caller. -/
def nanMin : List (Option ℚ) → Option ℚ
  | [] => none
  | [a] => a
  | a :: b :: l =>
    match a, nanMin (b :: l) with
    | some x, some y => some (min x y)
    | _, _ => none

/-- `np.max` of values that may be NaN. -/
def nanMax : List (Option ℚ) → Option ℚ
  | [] => none
  | [a] => a
  | a :: b :: l =>
    match a, nanMax (b :: l) with
    | some x, some y => some (max x y)
    | _, _ => none

/-- One element of `threshArray` (pyfhd_utils.py 1483-1485): in the closed range and not a NaN in the original; a comparison with a
NaN threshold is false. -/
def threshOne (lo hi : Option ℚ) (v : Option ℚ) : Bool :=
  match v, lo, hi with
  | some x, some a, some b => decide (a ≤ x) && decide (x ≤ b)
  | _, _, _ => false

/-- A pixel of an image with `R` rows and `C` columns that is on no edge. -/
def interior (R C p : ℕ) : Bool :=
  decide (0 < p / C) && decide (p / C + 1 < R) && decide (0 < p % C) && decide (p % C + 1 < C)

/-- The labels with the edges of the image set to 0 (pyfhd_utils.py 1490-1494). Images of one dimension (1495-1497) are not
modelled. -/
def zeroEdges (R C : ℕ) (lab : List ℕ) : List ℕ :=
  lab.mapIdx fun (p : ℕ) (v : ℕ) => if interior R C p then v else 0

/-- Labels as data of the histogram. -/
def labQ (l : List ℕ) : List ℚ := toQ (l.map fun (v : ℕ) => (v : ℤ))

/-- The labels of the seeds, ascending (pyfhd_utils.py 1499-1507). -/
def seedLabels (roiLab : List ℕ) : Py (List ℕ) :=
  if 1 < roiLab.length then do
    let h ← histogram (labQ roiLab) 1 none (some 0) none
    return nonzeroIdx h.hist
  else .ok roiLab

/-- Drop the background, and take 1 off (pyfhd_utils.py 1509-1515); the result has `nLabels` entries. -/
def dropBackground : List ℕ → Py (List ℕ)
  | [] => .error .indexError
  | l :: rest => .ok ((if l = 0 then rest else l :: rest).map fun v => v - 1)

/-- The pixels of one label (pyfhd_utils.py 1524, 1530-1534). If the test in 1530 fails, part of the result is uninitialised. -/
def growPiece (h : HistResult) (checked : Bool) (l : ℕ) : Py (List ℕ) :=
  match h.ri[l + 1]?, riSlice h.ri l with
  | some e, some s => if checked && !decide (e ≤ h.ri.length) then .error .outOfBounds else .ok s
  | _, _ => .error .indexError

/-- The number of pixels of the labels (pyfhd_utils.py 1519). -/
def countLabels (h : HistResult) (labels : List ℕ) : Py ℕ := do
  let c ← labels.mapM fun l =>
    match h.hist[l]? with
    | some n => (.ok n : Py ℕ)
    | none => .error .indexError
  return c.sum

/-- The part of `region_grow` after the labels of the seeds are known (pyfhd_utils.py 1516-1539). The pieces are written one after
the other into an array of `nPixels`, which is their total length; the model concatenates. -/
def growFrom (lab : List ℕ) (labels : List ℕ) : Py (Option (List ℕ)) := do
  let h ← histogram (labQ lab) 1 none (some 1) none
  let n ← countLabels h labels
  if 0 < n then do
    let parts ← labels.mapM (growPiece h (labels.length != 1))
    return some parts.flatten
  else return none

/-- `image.flat[roiPixels]`. -/
def takeFlat {α : Type} (l : List α) (idx : List ℕ) : Py (List α) :=
  idx.mapM fun i =>
    match l[i]? with
    | some v => (.ok v : Py α)
    | none => .error .indexError

/-- `region_grow` (pyfhd_utils.py 1432-1539) for an image of `R` by `C` pixels, flattened; NaN is `none`. `label` is
`scipy.ndimage.label` of the pixels in the range. Not modelled: negative pixel
numbers, and that NaN pixels of the caller's image become 0 (1480-1481). -/
def regionGrow (label : List Bool → List ℕ) (R C : ℕ) (img : List (Option ℚ)) (roi : List ℕ)
    (low high : Option ℚ) : Py (Option (List ℕ)) := do
  let vals ← takeFlat img roi
  if (low = none ∨ high = none) ∧ vals = [] then .error .valueError
  else do
    let lo := match low with
      | some a => some a
      | none => nanMin vals
    let hi := match high with
      | some a => some a
      | none => nanMax vals
    let lab := zeroEdges R C (label (img.map (threshOne lo hi)))
    let roiLab ← takeFlat lab roi
    let labels ← seedLabels roiLab
    let use ← dropBackground labels
    growFrom lab use

/-! ## Sums over time -/

/-- `reshape_and_average_in_time` (pyfhd_utils.py 1388-1429). The visibilities are flattened; the weights are a function with a
shape. A number of visibilities that does not fit makes `np.reshape` raise. -/
def timeSum {K : Type} [Field K] (vis : List K) (nf nt nb : ℕ) (wShape : List ℕ) (w : ℕ → ℕ → ℕ → K) :
    Py (List (List K)) :=
  if wShape ≠ [nf, nt, nb] then .error .systemExit
  else if vis.length ≠ nf * nt * nb then .error .valueError
  else .ok ((List.range nf).map fun f => (List.range nb).map fun b =>
    ((List.range nt).map fun t => vis.getD ((f * nt + t) * nb + b) 0 * w f t b).sum)

/-! ## Calibration plots -/

/-- A panel of the plots: its page and place, the tile whose gains are drawn, the tile whose name is the title, and whether curves are
drawn (not for flagged tiles). -/
structure Panel where
  page : ℕ
  row : ℕ
  col : ℕ
  tile : ℕ
  title : ℕ
  curves : Bool
  deriving DecidableEq, Repr

/-- `page_tiles` (calibration.py 106-109). -/
def pageTiles (nTile page : ℕ) : ℤ :=
  if nTile / (16 * 8 * (page + 1)) = 0 then (nTile : ℤ) - 16 * 8 * (page + 1) else 16 * 8

/-- One panel (calibration.py 150-188); `tile_names` has `nTile` entries. Gains that are all NaN are not modelled. -/
def plotPanel (nTile page : ℕ) (use : ℕ → Bool) (tile : ℕ) : Py Panel :=
  if (page + 1) * tile < nTile then
    .ok ⟨page, (tile - page * (16 * 8)) / 16, (tile - page * (16 * 8)) % 16, tile, (page + 1) * tile, use tile⟩
  else .error .indexError

/-- The panels of one page (calibration.py 148-188). -/
def plotPage (nTile : ℕ) (use : ℕ → Bool) (page : ℕ) : Py (List Panel) :=
  ((List.range (pageTiles nTile page).toNat).map fun i => page * (16 * 8) + i).mapM (plotPanel nTile page use)

/-- The pages of one type of `plot_cals` (calibration.py 88-90, 103-235). The three types of plots have the same panels; the drawing
itself is not modelled. -/
def plotCals (nTile : ℕ) (use : ℕ → Bool) : Py (List Panel) := do
  let pages ← (List.range (nTile / (16 * 8))).mapM (plotPage nTile use)
  return pages.flatten

end PyFHD
