import Verif.Model.CalibrateReflect
import Verif.Model.Flagging
import Verif.Model.GridOptions
import Verif.Model.Quickview

/-!
# Model of a run from the visibilities to the images (pyfhd.py 238-513)

The stages are modelled elsewhere: `vis_weights_update` (`Flagging`), `calibrate` (`Calibrate`, `CalibrateReflect`), `visibility_grid`
(`GridOptions`) and `quickview` (`Quickview`). Here they are put together as `main` does it, for one or two polarisations, with
`calibrate_visibilities`, `recalculate_grid` and `export_images`, without `flag_basic`, `flag_visibilities`, `grid_uniform`, checkpoints and
`cal_stop`. Arithmetic is exact.
-/

namespace PyFHD

/-- What a run works on. `cal`, `grid` and `images` hold the options and the geometry of their stages; what they say about data, weights, flags
and planes is replaced by the results of the stages before. `images u` are the options of the images when `u` is the uniform filter of the first
polarisation. The auto-correlations in `cal` are taken as given. -/
structure RunIn where
  obs : FlagObs
  uv : UvParams
  vis : ℕ → ℕ → ℕ → ℂ
  model : ℕ → ℕ → ℕ → ℂ
  weights : Weights
  cal : CalibrateIn
  opts : CalOpts
  refl : Option ReflTable
  grid : ℕ → VisGridIn ℂ
  images : Plane ℂ → QvIn

/-- The channels and tiles in use: `np.nonzero` of `freq_use` and `tile_use`. -/
def FlagObs.inUse (o : FlagObs) : InUse :=
  ⟨(List.range o.nFreq).filter fun f => o.freqUse f ≠ 0, (List.range o.nTile).filter fun t => o.tileUse t ≠ 0⟩

/-- The observation after calibration, in which fewer channels and tiles may be in use (pyfhd.py 271-273, calibration_utils.py 244-292). -/
def FlagObs.restrict (o : FlagObs) (u : InUse) : FlagObs :=
  { o with freqUse := fun f => if f ∈ u.freqs then o.freqUse f else 0
           tileUse := fun t => if t ∈ u.tiles then o.tileUse t else 0 }

namespace RunIn

variable (x : RunIn)

/-- The arguments of `calibrate` (pyfhd.py 271-273) with the weights `w`. -/
noncomputable def calIn (w : Weights) : CalibrateIn :=
  { x.cal with run :=
    { x.cal.run with nPol := x.obs.nPol, nFreq := x.obs.nFreq, nTile := x.obs.nTile, vis := x.vis, model := x.model,
                     weight := fun p f s => (w p f s : ℝ), freqUse := fun f => decide (x.obs.freqUse f ≠ 0),
                     tileUse := fun t => decide (x.obs.tileUse t ≠ 0) } }

/-- `calibrate` with or without the fit of cable reflections. -/
noncomputable def calibrated (w : Weights) : Py CalibrateOut :=
  match x.refl with
  | none => calibrateAll (x.calIn w) x.opts x.obs.inUse
  | some q => calibrateRefl (x.calIn w) x.opts q x.obs.inUse

/-- The arguments of `visibility_grid` for polarisation `p` (pyfhd.py 426-446): the channels in use, the samples with a positive weight at
some channel (gridding_utils.py 153-167), the calibrated data and the weights. Weights out of the shape of the array are 0 here. -/
def gridIn (fo : FlagObs) (vis : ℕ → ℕ → ℕ → ℂ) (w : Weights) (p : ℕ) : VisGridIn ℂ :=
  let wp : ℕ → ℕ → ℚ := fun f b => if b < fo.nBl then w p f b else 0
  { x.grid p with fiUse := fo.inUse.freqs, biUse := defaultBiUse fo.nFreq fo.nBl wp, weight := wp, fill := false, vis := vis p,
                  noConjugate := decide (1 < p) }

/-- The gridding of a polarisation (pyfhd.py 437-460): the planes of the data and of the model. An empty dictionary ends the program. -/
noncomputable def gridded (fo : FlagObs) (vis : ℕ → ℕ → ℕ → ℂ) (w : Weights) (p : ℕ) : Py (VisGridOut ℂ × Plane ℂ) :=
  match visGridOpts (x.gridIn fo vis w p) ⟨some (x.model p), false, false⟩ with
  | .error e => .error e
  | .ok none => .error .systemExit
  | .ok (some o) => .ok (o.out, o.model)

/-- The arguments of `quickview` (pyfhd.py 496-511): the planes of all polarisations, the uniform filter of the first one and `obs["n_vis"]`. -/
def quickIn (nVis : ℕ) (gs : List (VisGridOut ℂ × Plane ℂ)) : QvIn :=
  { x.images (((gs[0]?).map fun g => g.1.planes.uniform).getD fun _ _ => 0) with
    nPol := x.obs.nPol, nVis := nVis
    imageUv := fun p => ((gs[p]?).map fun g => g.1.planes.image).getD fun _ _ => 0
    weightsUv := fun p => ((gs[p]?).map fun g => g.1.planes.weights).getD fun _ _ => 0
    modelUv := fun p => ((gs[p]?).map fun g => g.2).getD fun _ _ => 0 }

end RunIn

/-- What a run leaves: the result of the calibration, the weights, the planes of the polarisations and the exported images. -/
structure RunOut where
  cal : CalibrateOut
  weights : Weights
  planes : List (VisGridOut ℂ × Plane ℂ)
  images : QvOut

/-- A run (pyfhd.py 238-513). -/
noncomputable def imagingRun (x : RunIn) : Py RunOut := do
  let w1 ← visWeightsUpdate x.obs x.uv x.weights
  let r ← x.calibrated w1.weights
  let fo := x.obs.restrict r.inUse
  let w2 ← visWeightsUpdate fo x.uv w1.weights
  let gs ← (List.range x.obs.nPol).mapM (x.gridded fo r.vis w2.weights)
  let q ← quickview (x.quickIn w2.nVis gs)
  return ⟨r, w2.weights, gs, q⟩

end PyFHD
