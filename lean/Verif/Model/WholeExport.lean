import Verif.Model.WholeRun
import Verif.Model.ExportWeights

/-!
# Model of a run up to the uv planes of the exported HEALPix cubes (pyfhd.py 238-531)

The run is that of `WholeRun`; `healpix_snapshot_cube_generate` is called with what it leaves (pyfhd.py 519-531). The maps made from the planes are in
`ExportCubes`.
-/

namespace PyFHD

/-- The options and the geometry of the export. `im` are the imaginary parts of the calibrated data, from which only the noise is computed; `kernel p`
holds the kernels and the options of the gridding of polarisation `p`, whose samples, channels and data are replaced. -/
structure ExportIn where
  s2 : ℚ
  dim : ℕ
  kbin : ℚ
  res : ℕ
  mask : Bool
  nAvg : ℕ
  kernel : ℕ → VisGridIn ℂ
  groupOf : ℕ → List ℕ → ℕ → ℕ
  rephase : Plane ℂ
  im : ℕ → ℕ → ℕ → ℚ

/-- The arguments of `vis_model_freq_split` for a polarisation and a half (export.py 155-168): the calibrated data, the model and the weights of
the export. -/
def RunIn.splitIn (x : RunIn) (e : ExportIn) (o : FlagObs) (vis : ℕ → ℕ → ℕ → ℂ) (w : Weights) (half : List ℕ) (p : ℕ) : SplitIn ℂ where
  grid := { e.kernel p with toGridIn := exportGrid o x.uv e.res e.mask (w p) [] half, vis := vis p }
  model := x.model p
  nFreq := o.nFreq
  nAvg := e.nAvg
  freqUse := o.freqUse
  groupOf := e.groupOf p
  rephase := e.rephase

/-- The export after a run (pyfhd.py 519-531, export.py 98-169) with `split_ps_export` and without a list of tiles to flag: the planes of all
polarisations for the even samples and then for the odd ones. The observation is the one after calibration, the weights are those after
the second update. `nf` are the counts before. -/
noncomputable def exportRun (x : RunIn) (e : ExportIn) (R : RunOut) (nf : ℕ → ℕ) : Py (List (SplitState ℂ)) := do
  let o := exportObs e.s2 (x.obs.restrict R.cal.inUse) e.dim e.kbin
  let r ← exportWeights o x.uv [] true e.im R.weights
  exportSplits ([r.even, r.odd].flatMap fun half => (List.range x.obs.nPol).map fun p => x.splitIn e o R.cal.vis r.weights half p) nf

end PyFHD
