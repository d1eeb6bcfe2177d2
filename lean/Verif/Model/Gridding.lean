import Verif.Model.Arrays
import Verif.Model.Flagging
import Verif.Model.Planes

/-!
# Model of the gridding: `baseline_grid_locations` (gridding_utils.py 84-294),
`interpolate_kernel` (12-54) and `visibility_grid` (visibility_grid.py 14-573)

Coordinates are rationals; visibilities and kernels live in a field with conjugation. Not modelled:
`beam_per_baseline`, `grid_spectral`, the optional model plane, lazily loaded beams.
-/

namespace PyFHD

/-- The inputs of `baseline_grid_locations`. `fiUse` and `biUse` are the selected frequencies and
baseline samples, `freqAll` all frequencies; `uu`, `vv`, `weight` are indexed by the original
frequency and sample numbers; `norm x y` stands for `np.sqrt(x**2 + y**2)`. -/
structure GridIn where
  dimension : ℕ
  elements : ℕ
  psfDim : ℕ
  res : ℕ
  kpix : ℚ
  minBaseline : ℚ
  maxBaseline : ℚ
  freqAll : List ℚ
  fiUse : List ℕ
  biUse : List ℕ
  uu : ℕ → ℚ
  vv : ℕ → ℚ
  weight : ℕ → ℕ → ℚ
  norm : ℚ → ℚ → ℚ
  fill : Bool
  mask : Bool

/-- The default of `bi_use` when the model is not filled (gridding_utils.py 165-167): the samples with a positive
weight at some frequency. -/
def defaultBiUse (nFreq nBl : ℕ) (w : ℕ → ℕ → ℚ) : List ℕ :=
  (List.range nBl).filter fun b => ((List.range nFreq).map fun f => max (w f b) 0).sum ≠ 0

namespace GridIn

variable (g : GridIn)

def nf : ℕ := g.fiUse.length
def nb : ℕ := g.biUse.length

/-- Is sample `b` gridded at its mirror point (`conj_i`, gridding_utils.py 197)? -/
def conj (b : ℕ) : Bool := decide (0 < g.vv b / g.kpix)

/-- `kx_arr` and `ky_arr` after the conjugation (gridding_utils.py 182-200). -/
def kx (b : ℕ) : ℚ := if g.conj b then -(g.uu b / g.kpix) else g.uu b / g.kpix
@[inherit_doc kx]
def ky (b : ℕ) : ℚ := if g.conj b then -(g.vv b / g.kpix) else g.vv b / g.kpix

/-- `xcen`, `ycen` (gridding_utils.py 203-204). -/
def xcen (f b : ℕ) : ℚ := g.freqAll.getD f 0 * g.kx b
@[inherit_doc xcen]
def ycen (f b : ℕ) : ℚ := g.freqAll.getD f 0 * g.ky b

/-- `x_offset`, `y_offset` for one coordinate (gridding_utils.py 207-212). -/
def offset (c : ℚ) : ℤ := ⌊(c - ⌊c⌋) * g.res⌋ % g.res

/-- `dx_arr`, `dy_arr` for one coordinate (gridding_utils.py 216-221). -/
def frac (c : ℚ) : ℚ := (c - ⌊c⌋) * g.res - ⌊(c - ⌊c⌋) * g.res⌋

/-- The four interpolation weights (gridding_utils.py 222-225) in the order `dx0dy0, dx1dy0, dx0dy1, dx1dy1`. -/
def interpW (f b : ℕ) : ℚ × ℚ × ℚ × ℚ :=
  let dx := g.frac (g.xcen f b)
  let dy := g.frac (g.ycen f b)
  ((1 - dx) * (1 - dy), dx * (1 - dy), (1 - dx) * dy, dx * dy)

/-- `flag_dist_baseline` (gridding_utils.py 188-193): the baseline leaves the range at some frequency. -/
def distFlag (b : ℕ) : Bool :=
  let d := g.norm (g.uu b / g.kpix) (g.vv b / g.kpix) * g.kpix
  match listMin? g.freqAll, listMax? g.freqAll with
  | some lo, some hi => decide (lo * d < g.minBaseline ∨ hi * d > g.maxBaseline)
  | _, _ => false

/-- `xmin`, `ymin` of a sample (gridding_utils.py 228-264): the corner of the footprint, `-1, -1` if excluded. Note
that `x` is tested against `elements` and `y` against `dimension`. -/
def corner (f b : ℕ) : ℤ × ℤ :=
  let x0 := pyInt (⌊g.xcen f b⌋ + (g.elements : ℚ) / 2 - ((g.psfDim : ℚ) / 2 - 1))
  let y0 := pyInt (⌊g.ycen f b⌋ + (g.dimension : ℚ) / 2 - ((g.psfDim : ℚ) / 2 - 1))
  if x0 ≤ 0 ∨ x0 + g.psfDim - 1 ≥ (g.elements : ℤ) - 1 then (-1, -1)
  else if y0 ≤ 0 ∨ y0 + g.psfDim - 1 ≥ (g.dimension : ℤ) - 1 then (-1, -1)
  else if g.fill = false ∧ g.distFlag b = true then (-1, -1)
  else if g.fill = false ∧ g.weight f b ≤ 0 then (-1, -1)
  else if g.mask = true ∧ g.conj b = true then (-1, -1)
  else (x0, y0)

/-- The selected samples in the row-major order of the arrays of shape `(n_freq, n_baselines)`. -/
def flat : List (ℕ × ℕ) := g.fiUse.flatMap fun f => g.biUse.map fun b => (f, b)

/-- `xmin + ymin * dimension` of a sample (gridding_utils.py 276). -/
def pixel (s : ℕ × ℕ) : ℤ := (g.corner s.1 s.2).1 + (g.corner s.1 s.2).2 * g.dimension

end GridIn

/-- `bin_n`, `bin_i`, `ri`. -/
structure GridBins where
  binN : List ℕ
  binI : List ℕ
  ri : List ℕ

/-- The bins returned by `baseline_grid_locations` (gridding_utils.py 267-284), `none` when all data are flagged or
cut. -/
def gridBins (g : GridIn) : Py (Option GridBins) :=
  let xs := g.flat.map fun s => (g.corner s.1 s.2).1
  let ys := g.flat.map fun s => (g.corner s.1 s.2).2
  match maxZ? xs, maxZ? ys with
  | some mx, some my =>
    if max mx my < 0 then .ok none
    else do
      let r ← histogram (toQ (g.flat.map g.pixel)) 1 none (some 0) none
      return some ⟨r.hist, nonzeroIdx r.hist, r.ri⟩
  | _, _ => .ok none

variable {K : Type _} [Field K] [StarRing K]

/-- `interpolate_kernel` (gridding_utils.py 12-54): `kern y x` is the kernel at one hyperresolved offset, a list of
pixels given as a function. -/
def interpolateKernel (kern : ℕ → ℕ → ℕ → K) (x y : ℕ) (d00 d10 d01 d11 : K) : ℕ → K := fun p =>
  kern y x p * d00 + kern y (x + 1) p * d10 + kern (y + 1) x p * d01 + kern (y + 1) (x + 1) p * d11

/-- One visibility of a bin: its offsets, frequency bin, beam group and value. -/
structure VisItem (K : Type _) where
  x : ℕ
  y : ℕ
  fbin : ℕ
  gid : ℕ
  vis : K

/-- One row of `box_matrix` with its entry of `vis_box` and of `psf_weight`. -/
structure GridRow (K : Type _) where
  kern : ℕ → K
  vis : K
  weight : K

/-- Rows of the direct path (visibility_grid.py 365-366 and 401-409): one per visibility. -/
def rowsDirect (kern : ℕ → ℕ → ℕ → ℕ → K) (items : List (VisItem K)) : List (GridRow K) :=
  items.map fun it => ⟨kern it.fbin it.y it.x, it.vis, 1⟩

/-- `xyf_i` (visibility_grid.py 307-309). -/
def xyfIndex (res gmax : ℕ) (it : VisItem K) : ℤ :=
  (((it.x + it.y * res + it.fbin * res ^ 2) * gmax + it.gid : ℕ) : ℤ)

/-- `group_max` (visibility_grid.py 306). -/
def groupMax (items : List (VisItem K)) : ℕ := (items.map fun it => it.gid).foldl max 0 + 1

/-- Stable `argsort` of a list of integers. -/
def argsortStable (ids : List ℤ) : List ℕ :=
  (List.range ids.length).insertionSort fun a b => ids.getD a 0 ≤ ids.getD b 0

/-- The de-duplicated rows from the sorted visibilities `sorted` and the run ends `ui` (visibility_grid.py 322-359):
run `r` covers the places `ui0[r] .. ui[r]`; its kernel is that of the last visibility of the run.
Lines 345-348: with a single run its sum is always formed, otherwise only for runs longer than
one. -/
def rowsOfRuns (kern : ℕ → ℕ → ℕ → ℕ → K) (sorted : List (VisItem K)) (ui : List ℕ) :
    List (GridRow K) :=
  let ui0 := 0 :: ui.dropLast.map (· + 1)
  (ui.zip ui0).filterMap fun (e, s) =>
    match sorted[e]? with
    | none => none
    | some last =>
      let weight := e - s + 1
      let vis := if ui0.length = 1 ∨ weight > 1
        then ((slice sorted s (e + 1)).map fun it => it.vis).sum else last.vis
      some ⟨kern last.fbin last.y last.x, vis, (weight : K)⟩

/-- Rows of the path that combines visibilities sharing a kernel (visibility_grid.py 305-359). -/
def rowsDedup (kern : ℕ → ℕ → ℕ → ℕ → K) (res : ℕ) (items : List (VisItem K)) :
    List (GridRow K) :=
  let ids := items.map (xyfIndex res (groupMax items))
  let si := argsortStable ids
  let sortedIds := ids.insertionSort (· ≤ ·)
  let ui := (idlArgunique sortedIds).map Int.toNat
  rowsOfRuns kern (si.filterMap fun i => items[i]?) ui

/-- Rows of a bin without interpolation (visibility_grid.py 305-409): combine when `vis_n > 1.1 * n_xyf_bin`. -/
def rowsOfBin (kern : ℕ → ℕ → ℕ → ℕ → K) (res : ℕ) (items : List (VisItem K)) :
    List (GridRow K) :=
  let ids := items.map (xyfIndex res (groupMax items))
  let nXyf := (idlArgunique (ids.insertionSort (· ≤ ·))).length
  if 10 * items.length > 11 * nXyf then rowsDedup kern res items else rowsDirect kern items

/-- `box_arr` (visibility_grid.py 461): the adjoint kernel matrix times `vis_box / n_vis`. -/
def imageBox (nVis : K) (rows : List (GridRow K)) (p : ℕ) : K :=
  (rows.map fun r => star (r.kern p) * (r.vis / nVis)).sum

/-- `wts_box` (visibility_grid.py 470-472). -/
def weightBox (nVis : K) (rows : List (GridRow K)) (p : ℕ) : K :=
  (rows.map fun r => star (r.kern p) * (r.weight / nVis)).sum

/-- `var_box` (visibility_grid.py 480-483); the squared modulus is `conj(z) * z`. -/
def varianceBox (nVis : K) (rows : List (GridRow K)) (p : ℕ) : K :=
  (rows.map fun r => (star (r.kern p) * r.kern p) * (r.weight / nVis)).sum

/-- `plane[y0 : y0 + d, x0 : x0 + d].flat += box`. -/
def addBox (d : ℕ) (plane : Plane K) (x0 y0 : ℕ) (box : ℕ → K) : Plane K := fun y x =>
  if y0 ≤ y ∧ y < y0 + d ∧ x0 ≤ x ∧ x < x0 + d then plane y x + box ((y - y0) * d + (x - x0))
  else plane y x

/-- A bin ready for gridding: its corner and its rows. -/
structure BinRows (K : Type _) where
  x0 : ℕ
  y0 : ℕ
  count : ℕ
  rows : List (GridRow K)

/-- The four accumulated planes. -/
structure GridPlanes (K : Type _) where
  image : Plane K
  weights : Plane K
  variance : Plane K
  uniform : Plane K

/-- One pass of the loop over the bins (visibility_grid.py 240-491). -/
def gridStep (d : ℕ) (nVis : K) (pl : GridPlanes K) (b : BinRows K) : GridPlanes K where
  image := addBox d pl.image b.x0 b.y0 (imageBox nVis b.rows)
  weights := addBox d pl.weights b.x0 b.y0 (weightBox nVis b.rows)
  variance := addBox d pl.variance b.x0 b.y0 (varianceBox nVis b.rows)
  uniform := addBox d pl.uniform b.x0 b.y0 fun _ => (b.count : K)

/-- The whole loop, starting from zero planes (visibility_grid.py 198-201). -/
def gridLoop (d : ℕ) (nVis : K) (bins : List (BinRows K)) : GridPlanes K :=
  bins.foldl (gridStep d nVis) ⟨fun _ _ => 0, fun _ _ => 0, fun _ _ => 0, fun _ _ => 0⟩

/-- The inputs of `visibility_grid` besides those of `baseline_grid_locations`: `fbin` is
`obs["baseline_info"]["fbin_i"]`, `kern` is `psf["beam_ptr"][polarization]`, `group` the flattened
beam group array, `vis` the visibilities by original frequency and sample. -/
structure VisGridIn (K : Type _) extends GridIn where
  fbin : ℕ → ℕ
  kern : ℕ → ℕ → ℕ → ℕ → K
  group : ℕ → ℕ
  vis : ℕ → ℕ → K
  interp : Bool
  noConjugate : Bool

namespace VisGridIn

variable (g : VisGridIn K)

/-- `vis_arr_use` of a sample (129 and 207-213): conjugated if the sample is gridded at its mirror point.
Line 207 tests `vv > 0` without dividing by the pixel size. -/
def visUse (s : ℕ × ℕ) : K := if 0 < g.vv s.2 then star (g.vis s.1 s.2) else g.vis s.1 s.2

/-- `fbin` of the sample with flat index `ind` (visibility_grid.py 258-259): `freq_bin_i[inds % n_freq_use]`. -/
def fbinOf (ind : ℕ) : ℕ := g.fbin (g.fiUse.getD (ind % g.nf) 0)

/-- The visibility with flat index `ind` as an item of its bin (249-259 and 305). -/
def item (ind : ℕ) : VisItem K :=
  let s := g.flat.getD ind (0, 0)
  ⟨(g.offset (g.xcen s.1 s.2)).toNat, (g.offset (g.ycen s.1 s.2)).toNat, g.fbinOf ind,
    g.group ind, g.visUse s⟩

/-- The interpolated row of the visibility with flat index `ind` (visibility_grid.py 265-298). -/
def interpRow (ind : ℕ) : GridRow K :=
  let s := g.flat.getD ind (0, 0)
  let w := g.interpW s.1 s.2
  ⟨interpolateKernel (g.kern (g.fbinOf ind)) (g.item ind).x (g.item ind).y
    (w.1 : K) (w.2.1 : K) (w.2.2.1 : K) (w.2.2.2 : K), g.visUse s, 1⟩

/-- The bin with the members `inds` (visibility_grid.py 245-409). -/
def binRows (inds : List ℕ) : BinRows K :=
  let s := g.flat.getD (inds.headD 0) (0, 0)
  let c := g.corner s.1 s.2
  ⟨c.1.toNat, c.2.toNat, inds.length,
    if g.interp then inds.map g.interpRow else rowsOfBin g.kern g.res (inds.map g.item)⟩

end VisGridIn

/-- What `visibility_grid` returns when not everything is flagged. -/
structure VisGridOut (K : Type _) where
  planes : GridPlanes K
  nVis : ℕ
  nfVis : List ℕ

/-- `visibility_grid` up to the symmetrisation (visibility_grid.py 96-491), with `grid_weights`, `grid_variance` and
the uniform filter on and `grid_uniform` off; `none` stands for the empty dictionary. -/
def visGridCore (g : VisGridIn K) : Py (Option (VisGridOut K)) := do
  match ← gridBins g.toGridIn with
  | none => return none
  | some b =>
    if b.binI.length = 0 then return none
    else
      let nVis := b.binN.sum
      let inds : List (List ℕ) := b.binI.map fun i => (riSlice b.ri i).getD []
      let nf := g.fiUse.map fun f => (g.biUse.filter fun bl => 0 < (g.corner f bl).1).length
      return some ⟨gridLoop g.psfDim (nVis : K) (inds.map g.binRows), nVis, nf⟩

/-- The end of `visibility_grid` (visibility_grid.py 542-553): fill the other half of the planes. -/
def visGridFinish (g : VisGridIn K) (o : VisGridOut K) : VisGridOut K :=
  if g.noConjugate then o
  else { o with planes := {
    image := symmetrise true g.elements g.dimension o.planes.image
    weights := symmetrise true g.elements g.dimension o.planes.weights
    variance := fun y x => (o.planes.variance y x
      + conjugateMirror false g.elements g.dimension o.planes.variance y x) / 4
    uniform := symmetrise false g.elements g.dimension o.planes.uniform } }

/-- `visibility_grid` (visibility_grid.py 14-573) for the options named at `visGridCore`. -/
def visibilityGrid (g : VisGridIn K) : Py (Option (VisGridOut K)) := do
  return (← visGridCore g).map (visGridFinish g)

end PyFHD
