import Verif.Model.Gridding
import Verif.Model.Filters

/-!
# Model of `visibility_count` (gridding_utils.py 691-780) and of the options of `visibility_grid` for a model,
`grid_uniform` and `grid_spectral` (visibility_grid.py)
-/

namespace PyFHD

/-! ## `visibility_count` -/

/-- `uniform_filter` before the symmetrisation (gridding_utils.py 744-776): the corner of a bin is that of its first member,
`ri[ri[bin_i[bi]]]`. Without bins the plane stays zero. -/
def countPlane (g : GridIn) : Py (Plane ℚ) := do
  match ← gridBins g with
  | none => return fun _ _ => 0
  | some b =>
    return b.binI.foldl (fun pl i =>
      let s := g.flat.getD (((riSlice b.ri i).getD []).headD 0) (0, 0)
      let c := g.corner s.1 s.2
      addBox g.psfDim pl c.1.toNat c.2.toNat fun _ => (b.binN.getD i 0 : ℚ)) fun _ _ => 0

/-- `visibility_count` (gridding_utils.py 691-780). -/
def visibilityCount (g : GridIn) (noConjugate : Bool) : Py (Plane ℚ) := do
  let pl ← countPlane g
  return if noConjugate then pl else symmetrise false g.elements g.dimension pl

/-- The call of `visibility_count` in `filter_uv_uniform` (filters.py 64-74): the first five arguments are `obs`, `params`,
`weights`, `pyfhd_config`, `logger`, so that `params` arrives as `psf`. `rest` is what happens after the first lines
of `visibility_count` (gridding_utils.py 738-740). A dictionary is a list of entries, `none` is `None`. -/
def countCall {V : Type} (obs params : Option (List (String × V))) (rest : Py (List ℚ)) : Py (List ℚ) :=
  match obs with
  | none => .error .typeError
  | some o =>
    match o.lookup "dimension", o.lookup "elements" with
    | some _, some _ =>
      match params with
      | none => .error .typeError
      | some p =>
        match p.lookup "dim" with
        | none => .error .keyError
        | some _ => rest
    | _, _ => .error .keyError

/-! ## `visibility_grid` with options -/

variable {K : Type} [Field K] [StarRing K]

/-- A visibility of a bin with its model and `freq_i`. -/
structure OptItem (K : Type) where
  item : VisItem K
  model : K
  freq : ℕ

/-- A row with `model_box` and `freq_i`. -/
structure OptRow (K : Type) where
  row : GridRow K
  model : K
  freq : ℕ

/-- One row per visibility (visibility_grid.py 360-366). -/
def optDirect (kern : ℕ → ℕ → ℕ → ℕ → K) (items : List (OptItem K)) : List (OptRow K) :=
  items.map fun it => ⟨⟨kern it.item.fbin it.item.y it.item.x, it.item.vis, 1⟩, it.model, it.freq⟩

/-- The combined rows (visibility_grid.py 318-359): visibilities and models of a run are added, `freq_i` is that of the
last. -/
def optRuns (kern : ℕ → ℕ → ℕ → ℕ → K) (sorted : List (OptItem K)) (ui : List ℕ) : List (OptRow K) :=
  let ui0 := 0 :: ui.dropLast.map (· + 1)
  (ui.zip ui0).filterMap fun (e, s) =>
    match sorted[e]? with
    | none => none
    | some last =>
      let weight := e - s + 1
      let rep := decide (ui0.length = 1 ∨ weight > 1)
      let vis := if rep then ((slice sorted s (e + 1)).map fun it => it.item.vis).sum else last.item.vis
      let model := if rep then ((slice sorted s (e + 1)).map fun it => it.model).sum else last.model
      some ⟨⟨kern last.item.fbin last.item.y last.item.x, vis, (weight : K)⟩, model, last.freq⟩

/-- The rows of a bin without interpolation (visibility_grid.py 300-409). -/
def optRowsOfBin (kern : ℕ → ℕ → ℕ → ℕ → K) (res : ℕ) (items : List (OptItem K)) : List (OptRow K) :=
  let ids := items.map fun it => xyfIndex res (groupMax (items.map fun it => it.item)) it.item
  let sortedIds := ids.insertionSort (· ≤ ·)
  let ui := (idlArgunique sortedIds).map Int.toNat
  if 10 * items.length > 11 * (idlArgunique sortedIds).length then
    optRuns kern ((argsortStable ids).filterMap fun i => items[i]?) ui
  else optDirect kern items

/-- The options. -/
structure GridOpts (K : Type) where
  model : Option (ℕ → ℕ → K)
  gridUniform : Bool
  gridSpectral : Bool

namespace VisGridIn

variable (g : VisGridIn K)

/-- `model_use` of a sample (visibility_grid.py 135 and 214-215); without a model it is not used. -/
def modelUse (o : GridOpts K) (s : ℕ × ℕ) : K :=
  match o.model with
  | none => 0
  | some m => if 0 < g.vv s.2 then star (m s.1 s.2) else m s.1 s.2

/-- The visibility with flat index `ind`; `freq_i = inds % n_freq_use` (visibility_grid.py 258). -/
def optItem (o : GridOpts K) (ind : ℕ) : OptItem K :=
  ⟨g.item ind, g.modelUse o (g.flat.getD ind (0, 0)), ind % g.nf⟩

/-- The rows of the bin with the members `inds` (visibility_grid.py 265-409). -/
def optRows (o : GridOpts K) (inds : List ℕ) : List (OptRow K) :=
  if g.interp then inds.map fun i => ⟨g.interpRow i, (g.optItem o i).model, (g.optItem o i).freq⟩
  else optRowsOfBin g.kern g.res (inds.map (g.optItem o))

end VisGridIn

/-- A bin ready for gridding. -/
structure OptBin (K : Type) where
  x0 : ℕ
  y0 : ℕ
  count : ℕ
  rows : List (OptRow K)

/-- `term_A_box` (visibility_grid.py 414-416). -/
def specABox (nVis : K) (rows : List (OptRow K)) (p : ℕ) : K :=
  (rows.map fun r => star (r.row.kern p) * ((r.freq : K) * r.row.vis / nVis)).sum

/-- The real part of `term_B_box` (visibility_grid.py 417-419 and 427). -/
def specBBox (nVis : K) (rows : List (OptRow K)) (p : ℕ) : K :=
  let z := (rows.map fun r => star (r.row.kern p) * ((r.freq : K) / nVis)).sum
  (z + star z) / 2

/-- The real part of `term_D_box` (visibility_grid.py 420-422 and 430). -/
def specDBox (nVis : K) (rows : List (OptRow K)) (p : ℕ) : K :=
  let z := (rows.map fun r => star (r.row.kern p) * ((r.freq : K) ^ 2 / nVis)).sum
  (z + star z) / 2

/-- The product of kernel and model (visibility_grid.py 448-450). -/
def modelBox (nVis : K) (rows : List (OptRow K)) (p : ℕ) : K :=
  (rows.map fun r => star (r.row.kern p) * (r.model / nVis)).sum

/-- The accumulated planes; `count` is `uniform_filter` as a real array. -/
structure OptPlanes (K : Type) where
  base : GridPlanes K
  model : Plane K
  specA : Plane K
  specB : Plane K
  specD : Plane K
  count : Plane ℚ

/-- One pass of the loop (visibility_grid.py 240-491). -/
def optStep (d : ℕ) (nVis : K) (pl : OptPlanes K) (b : OptBin K) : OptPlanes K where
  base := gridStep d nVis pl.base ⟨b.x0, b.y0, b.count, b.rows.map fun r => r.row⟩
  model := addBox d pl.model b.x0 b.y0 (modelBox nVis b.rows)
  specA := addBox d pl.specA b.x0 b.y0 (specABox nVis b.rows)
  specB := addBox d pl.specB b.x0 b.y0 (specBBox nVis b.rows)
  specD := addBox d pl.specD b.x0 b.y0 (specDBox nVis b.rows)
  count := addBox d pl.count b.x0 b.y0 fun _ => (b.count : ℚ)

/-- The loop, from zero planes. -/
def optLoop (d : ℕ) (nVis : K) (bins : List (OptBin K)) : OptPlanes K :=
  bins.foldl (optStep d nVis)
    ⟨⟨fun _ _ => 0, fun _ _ => 0, fun _ _ => 0, fun _ _ => 0⟩, fun _ _ => 0, fun _ _ => 0, fun _ _ => 0, fun _ _ => 0,
      fun _ _ => 0⟩

/-- The factor that `grid_uniform` multiplies the planes with (visibility_grid.py 524-532). If the filter is not finite (which takes
a plane of zeros) zero is used. -/
def uniformFactor (e d : ℕ) (count : Plane ℚ) : Plane ℚ :=
  let inv1 : ℚ → ℚ := weightInvertEntry (fun x : ℚ => |x|) id false (some 1) false
  let all := (List.range e).flatMap fun y => (List.range d).map fun x => inv1 (count y x)
  let sel := all.filter fun f => f ≠ 0
  let mean := if sel.length > 0 then npMean sel else npMean all
  fun y x =>
    match mean with
    | none => 0
    | some m => weightInvertEntry (fun x : ℚ => |x|) id false none false (inv1 (count y x) / m)

/-- What `visibility_grid` returns. -/
structure OptOut (K : Type) where
  out : VisGridOut K
  model : Plane K
  spectral : Plane K
  count : Plane ℚ

/-- `image_uv`, `weights`, `variance`, `model_return` times the factor of `grid_uniform` (visibility_grid.py 531-538). -/
def scalePlane (f : Plane ℚ) (on : Bool) (a : Plane K) : Plane K :=
  if on then fun y x => a y x * (f y x : K) else a

/-- `visibility_grid` with its options (visibility_grid.py 14-573). With `grid_spectral` and a model, the box of `psf_dim ** 2`
numbers is added to a square without `.flat` (436-438): a `ValueError` unless `psf_dim` is 1. Not modelled: the `spectral_model_uv`
of that case. -/
def visGridOpts (g : VisGridIn K) (o : GridOpts K) : Py (Option (OptOut K)) := do
  match ← gridBins g.toGridIn with
  | none => return none
  | some b =>
    if b.binI.length = 0 then return none
    else if o.gridSpectral = true ∧ o.model.isSome = true ∧ g.psfDim ≠ 1 then .error .valueError
    else
      let nVis := b.binN.sum
      let inds : List (List ℕ) := b.binI.map fun i => (riSlice b.ri i).getD []
      let bins := inds.map fun l =>
        (⟨(g.binRows l).x0, (g.binRows l).y0, (g.binRows l).count, g.optRows o l⟩ : OptBin K)
      let pl := optLoop g.psfDim (nVis : K) bins
      let nf := g.fiUse.map fun f => (g.biUse.filter fun bl => 0 < (g.corner f bl).1).length
      let f := uniformFactor g.elements g.dimension pl.count
      let spec : Plane K := fun y x =>
        (pl.specA y x - (nVis : K) * pl.specB y x * pl.base.image y x) * (pl.specD y x - pl.specB y x ^ 2)⁻¹
      let planes : GridPlanes K := {
        image := scalePlane f o.gridUniform pl.base.image
        weights := scalePlane f o.gridUniform pl.base.weights
        variance := scalePlane f o.gridUniform pl.base.variance
        uniform := pl.base.uniform }
      let model := scalePlane f o.gridUniform pl.model
      return some {
        out := visGridFinish g ⟨planes, nVis, nf⟩
        model := if g.noConjugate then model else symmetrise true g.elements g.dimension model
        spectral := if g.noConjugate then spec else symmetrise true g.elements g.dimension spec
        count := pl.count }

end PyFHD
