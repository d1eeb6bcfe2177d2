import Verif.Model.Healpix

/-!
# Model of the contents of an exported HEALPix file (healpix/export.py 140-220)
-/

namespace PyFHD

/-- What the export of one polarisation uses: `obs["n_freq"]`, `n_avg`, the map of `healpix_cnv_generate` and its number of pixels,
`beam_arr[pol_i]`, the four arrays that `vis_model_freq_split` returns (images flattened), `split["obs"]["nf_vis"]`, and
`obs_out["residual"]`; `model` says whether `vis_model_arr` is given. -/
structure CubeIn where
  nFreq : ℕ
  nAvg : ℕ
  cnv : List HpxEntry
  nPix : ℕ
  beam : List (List ℚ)
  weights : List (List ℚ)
  variance : List (List ℚ)
  modelImage : List (List ℚ)
  dirty : List (List ℚ)
  nfVis : List ℚ
  residual : Bool
  model : Bool

/-- The cubes of a file, by name. -/
structure CubeFile where
  beamSquared : List (List ℚ)
  weights : List (List ℚ)
  variance : List (List ℚ)
  model : List (List ℚ)
  data : String × List (List ℚ)
  deriving DecidableEq

/-- The names of the cubes of a file (export.py 204-215). -/
def CubeFile.names (f : CubeFile) : List String := ["beam_squared_cube", "weights_cube", "variance_cube", "model_cube", f.data.1]

/-- One cube (export.py 180-203): the map of the image of every averaged channel. -/
def exportCube (c : CubeIn) (image : ℕ → Option (List ℚ)) : Py (List (List ℚ)) :=
  (List.range (expNfUse c.nFreq c.nAvg)).mapM fun i =>
    match image i with
    | none => .error .indexError
    | some img => hpxApply c.nPix img c.cnv

/-- The images of `beam_squared_cube` (export.py 187-189): the beam times the number of visibilities. -/
def CubeIn.beamImage (c : CubeIn) (i : ℕ) : Option (List ℚ) :=
  c.beam[i]?.map fun b => b.map (· * (expNfVis c.nFreq c.nAvg c.nfVis).getD i 0)

/-- The contents of the file of one polarisation (export.py 140-213). Without a model `vis_model_arr[polarization]` (healpix_utils.py 540)
raises. The order of the calls within an averaged channel is exchanged with that of the cubes. -/
def exportContents (c : CubeIn) : Py CubeFile := do
  if !c.model then .error .typeError
  else
    let b ← exportCube c c.beamImage
    let w ← exportCube c (c.weights[·]?)
    let v ← exportCube c (c.variance[·]?)
    let m ← exportCube c (c.modelImage[·]?)
    let d ← exportCube c (c.dirty[·]?)
    .ok ⟨b, w, v, m, (if !c.residual && c.model then "dirty_cube" else "res_cube", d)⟩

end PyFHD
