import Verif.Model.CalStats
import Verif.Model.FreqSplit

/-!
# Model of the weights with which the HEALPix export grids (healpix/export.py 98-138)
-/

namespace PyFHD

/-- `obs_out` as the flagging and the gridding see it (export.py 98-100, obs.py 532-540). `kbin` is `kbinsize`, which
`(180 / pi) / fov_use` equals up to rounding; `s2` stands for `sqrt(2)`. -/
def exportObs (s2 : ℚ) (o : FlagObs) (dim : ℕ) (kbin : ℚ) : FlagObs :=
  { o with
    dimension := dim
    elements := dim
    kpix := kbin
    maxBaseline := min o.maxBaseline (dim * kbin / s2) }

/-- What the loops of the export use: `vis_weights_use`, `bi_use` and the squares of `obs_out["vis_noise"]`. -/
structure ExportW where
  weights : Weights
  even : List ℕ
  odd : List ℕ
  noise : ℕ → ℕ → ℚ

/-- The flagging of the listed tiles (export.py 120-123). -/
def exportFlagged (o : FlagObs) (names : List String) (w : Weights) : Py Weights :=
  if 0 < names.length then visFlagTiles o w names else .ok w

/-- The weights of the export (export.py 118-138) for at least one polarisation and at least one channel in use; `o` is
`obs_out`, `im` the imaginary part of the visibilities. With fewer than two time steps `split_vis_weights` returns an
array alone: it has one row per polarisation, so that it can be taken apart (129) only for two polarisations, and then `bi_use`
holds weights, which are no indices (gridding_utils.py 179). Without `split_ps_export` the name `vis_weights_use` is not
bound (158). -/
def exportWeights (o : FlagObs) (q : UvParams) (names : List String) (split : Bool) (im : ℕ → ℕ → ℕ → ℚ) (w : Weights) :
    Py ExportW := do
  let w1 ← exportFlagged o names w
  let r ← visWeightsUpdate o q w1
  if split then
    match splitVisWeights o o.nBl r.weights with
    | .error e => .error e
    | .ok (.weightsOnly _) => if o.nPol = 2 then .error .indexError else .error .valueError
    | .ok (.pair w' e d) =>
      match visNoiseCalc o o.nBl im r.weights (some (e, d)) with
      | .error e => .error e
      | .ok s => .ok ⟨w', e, d, s⟩
  else
    match visNoiseCalc o o.nBl im r.weights none with
    | .error e => .error e
    | .ok _ => .error .nameError

/-- The samples that `visibility_grid` is given for one polarisation and one half (export.py 154-168, healpix_utils.py
525-542, gridding_utils.py 136-180): `w` are the weights of the polarisation, `half` is `bi_use`. -/
def exportGrid (o : FlagObs) (q : UvParams) (res : ℕ) (mask : Bool) (w : ℕ → ℕ → ℚ) (chans half : List ℕ) : GridIn where
  dimension := o.dimension
  elements := o.elements
  psfDim := q.psfDim
  res := res
  kpix := o.kpix
  minBaseline := o.minBaseline
  maxBaseline := o.maxBaseline
  freqAll := (List.range o.nFreq).map o.freq
  fiUse := chans
  biUse := half
  uu := q.uu
  vv := q.vv
  weight := w
  norm := q.norm
  fill := false
  mask := mask

end PyFHD
