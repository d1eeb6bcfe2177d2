import Verif.Model.Gridding
import Verif.Model.Healpix
import Verif.Model.Imaging

/-!
# Model of `vis_model_freq_split` and `phase_shift_uv_image` (healpix/healpix_utils.py)

The planes made for the HEALPix export: the visibilities of a polarization are gridded for one range of
channels after the other. Not modelled: the names of the saved files, and `fft=False`, which no caller uses.
-/

namespace PyFHD

/-! ## The baselines used by default -/

/-- `bi_use` when it is not given (healpix_utils.py 514-522), for weights by polarization, channel and sample: the sum is
over the second axis. -/
def splitDefaultBi (nPol nFreq nBl : ℕ) (w : ℕ → ℕ → ℕ → ℚ) : List ℕ :=
  (List.range nFreq).filter fun f =>
    decide (0 < ((List.range nBl).map fun b =>
      if 1 < nPol then max (max (w 0 f b) (w 1 f b)) 0 else max (w 0 f b) 0).sum)

/-! ## The planes -/

/-- The inputs of `vis_model_freq_split` for one polarization. `grid` holds those of `visibility_grid` (its channels and groups
are chosen for each range of channels); `groupOf` is the flattened group array for a list of channels;
`rephase` is `rephase_use`, a plane of ones when the weights are not rephased (healpix_utils.py 507-510). -/
structure SplitIn (K : Type _) where
  grid : VisGridIn K
  model : ℕ → ℕ → K
  nFreq : ℕ
  nAvg : ℕ
  freqUse : ℕ → ℤ
  groupOf : List ℕ → ℕ → ℕ
  rephase : Plane K

/-- The planes of one range of channels. -/
structure SplitPlanes (K : Type _) where
  dirty : Plane K
  weights : Plane K
  variance : Plane K
  model : Plane K

/-- The planes, the number of visibilities gridded, and `obs["nf_vis"]`. -/
structure SplitState (K : Type _) where
  planes : List (SplitPlanes K)
  nVis : ℕ
  nfVis : ℕ → ℕ

variable {K : Type _} [Field K] [StarRing K]

/-- The planes before anything is gridded (healpix_utils.py 489-500). -/
def zeroPlanes : SplitPlanes K := ⟨fun _ _ => 0, fun _ _ => 0, fun _ _ => 0, fun _ _ => 0⟩

/-- The call of `visibility_grid` for one range of channels (healpix_utils.py 530-542). -/
def SplitIn.gridIn (s : SplitIn K) (fi : ℕ) : VisGridIn K :=
  { s.grid with
    fiUse := expChannels s.nFreq s.nAvg s.freqUse fi
    group := s.groupOf (expChannels s.nFreq s.nAvg s.freqUse fi) }

/-- The gridded data and `model_return`. The model is gridded with the same kernels in the same pass (visibility_grid.py 132-136,
213-214, 336-338, 354-357, 443-455, 549-550); the model of the code grids it in a second pass. -/
def SplitIn.gridBoth (s : SplitIn K) (fi : ℕ) : Py (Option (VisGridOut K × Plane K)) :=
  match visibilityGrid (s.gridIn fi) with
  | .error e => .error e
  | .ok none => .ok none
  | .ok (some o) =>
    match visibilityGrid { s.gridIn fi with vis := s.model } with
    | .error e => .error e
    | .ok none => .ok none
    | .ok (some m) => .ok (some (o, m.planes.image))

/-- `n_vis_arr[fi_use[fi]] = ...` (visibility_grid.py 222-224). -/
def setCounts (nfVis : ℕ → ℕ) (fiUse counts : List ℕ) : ℕ → ℕ :=
  (fiUse.zip counts).foldl (fun a fc => fun c => if c = fc.1 then fc.2 else a c) nfVis

/-- The planes of a range of channels from the gridded ones (healpix_utils.py 551-559). -/
def splitPlanes (rephase : Plane K) (o : VisGridOut K) (model : Plane K) : SplitPlanes K where
  dirty := fun y x => o.planes.image y x * o.nVis
  weights := fun y x => o.planes.weights y x * rephase y x * o.nVis
  variance := fun y x => o.planes.variance y x * rephase y x * o.nVis
  model := fun y x => model y x * o.nVis

/-- One pass of the loop over the ranges of channels (healpix_utils.py 525-559). -/
def SplitIn.step (s : SplitIn K) (st : SplitState K) (fi : ℕ) : Py (SplitState K) :=
  let fiUse := expChannels s.nFreq s.nAvg s.freqUse fi
  if fiUse.length = 0 then .ok { st with planes := st.planes ++ [zeroPlanes] }
  else
    match s.gridBoth fi with
    | .error e => .error e
    | .ok none => .ok { st with planes := st.planes ++ [zeroPlanes] }
    | .ok (some (o, m)) => .ok {
        planes := st.planes ++ [splitPlanes s.rephase o m]
        nVis := st.nVis + o.nVis
        nfVis := setCounts st.nfVis fiUse o.nfVis }

/-- The loop (healpix_utils.py 486-487, 523-606), from the counts `obs["nf_vis"]` before; `nVis` is `obs["n_vis"]` afterwards. -/
def freqSplit (s : SplitIn K) (nfVis : ℕ → ℕ) : Py (SplitState K) :=
  (List.range (expNf s.nFreq s.nAvg)).foldlM s.step ⟨[], 0, nfVis⟩

/-- The loops of the export over the sets of baselines and the polarizations (export.py 151-169), which share `obs`: the
counts pass from one to the next. -/
def exportSplits (ss : List (SplitIn K)) (nfVis : ℕ → ℕ) : Py (List (SplitState K)) :=
  match ss with
  | [] => .ok []
  | s :: rest =>
    match freqSplit s nfVis with
    | .error e => .error e
    | .ok st =>
      match exportSplits rest st.nfVis with
      | .error e => .error e
      | .ok sts => .ok (st :: sts)

/-! ## The files -/

/-- The four files of a polarization (healpix_utils.py 608-645): what each name holds. Every file is written from the
dictionary of all four arrays. -/
def uvfFiles (ps : List (SplitPlanes K)) : List (String × List (String × List (Plane K))) :=
  let d := [("dirty_uv", ps.map fun p => p.dirty), ("weights_uv", ps.map fun p => p.weights),
    ("variance_uv", ps.map fun p => p.variance), ("model_uv", ps.map fun p => p.model)]
  [("dirty_uv_arr", d), ("weights_uv", d), ("variance_uv_arr", d), ("model_uv_arr", d)]

/-! ## The images -/

/-- One of the images (healpix_utils.py 561-594), made from the gridded plane (times `rephase_use` for weights and
variance) and multiplied by the number of visibilities. The rows and columns of the images have to fit. -/
noncomputable def splitImage (n : ℕ) (degpix : ℝ) (nVis : ℕ) (plane : Plane ℂ) : Py (Plane ℝ) :=
  match dirtyImage { uniform := fun _ => .error .typeError, degpix := some degpix } n n plane with
  | .error e => .error e
  | .ok o => .ok fun i j => (o.image i j).re * nVis

/-! ## Rephasing -/

/-- `phase_shift_uv_image` (healpix_utils.py 406-430) for the pixel `(x, y)` of the original phase centre. Both steps
are divided by the number of columns. When the phase centres are the same the result is a plane of ones. -/
noncomputable def phaseShift (dim elements : ℕ) (same : Bool) (x y : ℝ) : Plane ℂ := fun i j =>
  if same then 1
  else
    let dx := (x - dim / 2) * (2 * Real.pi / dim)
    let dy := (y - elements / 2) * (2 * Real.pi / dim)
    let phase := ((j : ℝ) - dim / 2) * dx + ((i : ℝ) - elements / 2) * dy
    (Real.cos phase : ℂ) + (Real.sin phase : ℂ) * Complex.I

end PyFHD
