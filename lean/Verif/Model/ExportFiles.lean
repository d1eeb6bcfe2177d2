import Verif.Model.WholeExport
import Verif.Model.ExportCubes

/-!
# Model of the HEALPix files that are written after a run (healpix/export.py 140-220)

`ExportCubes` has the contents of a file for given images with rational values; here the images come from the planes of the export
of a run, and are real.
-/

namespace PyFHD

/-- The assignment `hpx_map[ija] += sa * value` (healpix_utils.py 53) for values of any field; `hpxAdd` for the rational ones. -/
def fieldAdd {K : Type _} [Field K] (m : List K) (v : K) (e : HpxEntry) : Py (List K) :=
  if e.ija.all (· < m.length) then
    .ok ((e.ija.zip e.sa).foldl (fun acc ps => acc.set ps.1 (m.getD ps.1 0 + (ps.2 : K) * v)) m)
  else .error .indexError

/-- One pass of the loop of `healpix_cnv_apply` (healpix_utils.py 49-53) for values of any field. -/
def fieldStep {K : Type _} [Field K] (img : List K) (m : List K) (e : HpxEntry) : Py (List K) :=
  match img[e.iUse]? with
  | none => .error .indexError
  | some v => fieldAdd m v e

/-- `healpix_cnv_apply` (healpix_utils.py 46-54) for values of any field. -/
def fieldApply {K : Type _} [Field K] (n : ℕ) (img : List K) (cnv : List HpxEntry) : Py (List K) :=
  cnv.foldlM (fieldStep img) (List.replicate n 0)

/-- What the files need apart from the planes: `obs_out["degpix"]`, the map of `healpix_cnv_generate` and its number of pixels, and
`beam_arr` by polarisation and averaged channel, flattened. -/
structure FileIn where
  degpix : ℝ
  cnv : List HpxEntry
  nPix : ℕ
  beam : ℕ → ℕ → List ℝ

/-- The cubes of one file (export.py 204-215). -/
structure RunFile where
  beamSquared : List (List ℝ)
  weights : List (List ℝ)
  variance : List (List ℝ)
  model : List (List ℝ)
  dirty : List (List ℝ)

/-- An image in the order of `flatten` (healpix_utils.py 46). -/
def flatImage (n : ℕ) (im : Plane ℝ) : List ℝ := (List.range (n * n)).map fun k => im (k / n) (k % n)

/-- `healpix_cnv_apply` of an image that is made first (export.py 187-203). -/
noncomputable def mapRow (q : FileIn) (r : Py (List ℝ)) : Py (List ℝ) :=
  match r with
  | .error e => .error e
  | .ok l => fieldApply q.nPix l q.cnv

/-- One cube (export.py 180-203): `healpix_cnv_apply` of the image of every averaged channel. -/
noncomputable def fileCube (nf : ℕ) (q : FileIn) (image : ℕ → Py (List ℝ)) : Py (List (List ℝ)) :=
  (List.range nf).mapM fun i => mapRow q (image i)

/-- The image of a range of channels (healpix_utils.py 561-594). The product with the number of visibilities is that of the plane here; the code
multiplies the image (`splitImage_count`). A range that was not gridded has a plane of zeros, hence an image of zeros as in the code. -/
noncomputable def planeImage (n : ℕ) (q : FileIn) (ps : List (Plane ℂ)) (i : ℕ) : Py (List ℝ) :=
  match ps[i]? with
  | none => .error .indexError
  | some P =>
    match splitImage n q.degpix 1 P with
    | .error e => .error e
    | .ok im => .ok (flatImage n im)

/-- `nf_vis_use` (export.py 170-178). -/
def SplitState.counts (st : SplitState ℂ) (nFreq nAvg i : ℕ) : ℚ :=
  (expNfVis nFreq nAvg ((List.range nFreq).map fun c => (st.nfVis c : ℚ))).getD i 0

/-- The file of a polarisation and half (export.py 155-215) for `vis_model_arr` given and no residual. The order of the calls within an averaged
channel is exchanged with that of the cubes. -/
noncomputable def exportFile (n nFreq nAvg : ℕ) (q : FileIn) (p : ℕ) (st : SplitState ℂ) : Py RunFile := do
  let nf := expNfUse nFreq nAvg
  let b ← fileCube nf q fun i => .ok ((q.beam p i).map (· * ((st.counts nFreq nAvg i : ℚ) : ℝ)))
  let w ← fileCube nf q (planeImage n q (st.planes.map fun P => P.weights))
  let v ← fileCube nf q (planeImage n q (st.planes.map fun P => P.variance))
  let m ← fileCube nf q (planeImage n q (st.planes.map fun P => P.model))
  let d ← fileCube nf q (planeImage n q (st.planes.map fun P => P.dirty))
  .ok ⟨b, w, v, m, d⟩

/-- The files written after a run (pyfhd.py 519-531, export.py 151-220), the polarisations of the even samples first. -/
noncomputable def runFiles (x : RunIn) (e : ExportIn) (q : FileIn) (R : RunOut) (nf : ℕ → ℕ) : Py (List RunFile) := do
  let out ← exportRun x e R nf
  ((List.range x.obs.nPol ++ List.range x.obs.nPol).zip out).mapM fun ps => exportFile e.dim x.obs.nFreq e.nAvg q ps.1 ps.2

end PyFHD
