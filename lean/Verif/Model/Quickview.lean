import Verif.Model.Planes
import Verif.Model.Imaging
import Verif.Model.Arrays

/-!
# Model of `quickview` (io/pyfhd_quickview.py)

The images and the FITS files. Not modelled: the HDF5 files (saving is in `Storage` and which files are saved
in `Pipeline`), the headers, the beam mask and the average beam (computed at 206-242 and not used
afterwards), the beam images themselves (`beam` is `beam_base_out`, already of the size of the image and zero
below the horizon). Arithmetic is exact; planes of one row or column, which NumPy would broadcast, are not
modelled.
-/

namespace PyFHD

/-- The inputs of `quickview` that matter for the images. `n` is the size of the (square) planes;
`uniform` is `filter_uv_uniform` with the counts, given the weights and the plane. -/
structure QvIn where
  nPol : ℕ
  n : ℕ
  pad : ℚ
  kpix : ℝ
  nVis : ℝ
  optimal : Bool
  polNames : List String
  imageUv : ℕ → Plane ℂ
  modelUv : ℕ → Plane ℂ
  weightsUv : ℕ → Plane ℂ
  uniform : Plane ℂ → Plane ℂ → Py (Plane ℂ × Plane ℚ)
  beam : ℕ → Plane ℝ

/-- The size of the images (pyfhd_quickview.py 193-198). -/
def QvIn.size (q : QvIn) : ℕ := (pyInt (q.n * q.pad)).toNat

/-- `obs_out["degpix"]` (obs.py 537). -/
noncomputable def QvIn.degpix (q : QvIn) : ℝ := (180 / Real.pi) / (q.kpix * q.size)

/-- The options common to all images of `quickview` (pyfhd_quickview.py 52-61, 252-279). -/
noncomputable def QvIn.opts (q : QvIn) (p : ℕ) : ImgOpts where
  uniform := q.uniform (q.weightsUv p)
  pad := some q.pad
  degpix := some q.degpix
  beam := if q.optimal then some (q.beam p) else none

/-- An image written into a row of a real array (pyfhd_quickview.py 252 and 267): the imaginary part is
dropped, and the shape has to fit. -/
def qvAssign (size : ℕ) (o : ImgOut) : Py (Plane ℝ) :=
  if o.rows = size ∧ o.cols = size then .ok fun i j => (o.image i j).re else .error .valueError

/-- The filter written into a row of `filter_arr` (pyfhd_quickview.py 266). -/
def qvFilter (q : QvIn) (f : FilterArg) : Py (Plane ℚ) :=
  match f with
  | .sameSize f => if q.size = q.n then .ok f else .error .valueError
  | _ => .error .valueError

/-- The images of one polarisation, and the planes of the caller afterwards. -/
structure QvPol where
  dirty : Plane ℝ
  model : Plane ℝ
  renorm : ℝ
  imageAfter : Plane ℂ
  modelAfter : Plane ℂ
  weightsAfter : Plane ℂ

/-- The factor of `get_image_renormalization` (pyfhd_quickview.py 63-70), for an image of the weights with
a nonzero central pixel (otherwise infinite); `obsx` and `obsy` are half the size (obs.py 534-535). -/
noncomputable def qvRenorm (q : QvIn) (p : ℕ) (o : ImgOut) : ℝ :=
  1 / (o.image (q.size / 2) (q.size / 2)).re * q.beam p (q.size / 2) (q.size / 2) ^ 2
    / (q.degpix * (Real.pi / 180)) ^ 2

/-- The images of one polarisation (pyfhd_quickview.py 248-283 and 51-71). The code makes the images of
all polarisations before the factors; the steps of different polarisations use different planes. -/
noncomputable def qvPol (q : QvIn) (p : ℕ) : Py QvPol := do
  let o1 ← dirtyImage { q.opts p with filter := .otherSize, notReal := decide (1 < p) } q.n q.n (q.imageUv p)
  let dirty ← qvAssign q.size o1
  let f ← qvFilter q o1.filter
  let o2 ← dirtyImage { q.opts p with filter := .sameSize f, notReal := decide (1 < p) } q.n q.n (q.modelUv p)
  let model ← qvAssign q.size o2
  let o3 ← dirtyImage { q.opts p with filter := .sameSize f } q.n q.n (q.weightsUv p)
  return ⟨dirty, model, qvRenorm q p o3, o1.caller, o2.caller, o3.caller⟩

/-- `crosspol_split_real_imaginary` (pyfhd_utils.py 1542-1571) of a real array: the imaginary part is zero. -/
def splitReal (im : ℕ → Plane ℝ) : ℕ → Plane ℝ := fun p => if p = 3 then fun _ _ => 0 else im p

/-- `crosspol_split_real_imaginary` of a complex array, as `crosspolSplit`: the plane that is read for the
imaginary part has been overwritten with the real part. -/
noncomputable def splitComplex (im : ℕ → Plane ℂ) : ℕ → Plane ℂ := fun p =>
  if p = 2 then fun i j => (((im 2 i j).re : ℝ) : ℂ) else if p = 3 then fun _ _ => 0 else im p

/-- The names of the polarisations in the names of the files (pyfhd_quickview.py 289, 292-296; pyfhd_utils.py
1567-1570). -/
def qvNames (q : QvIn) : List String :=
  if 4 ≤ q.nPol then crosspolNames q.polNames else q.polNames

/-- The kinds of files. -/
inductive QvKind
  | dirty | model | residual | beam | uvWeights
  deriving DecidableEq, Repr

/-- What a file holds: a plane, or one plane for each polarisation. -/
inductive QvData
  | plane (a : Plane ℝ)
  | cube (a : ℕ → Plane ℝ)

/-- A FITS file: its kind, the name of the polarisation in its name, and its data. -/
structure QvFile where
  kind : QvKind
  name : String
  data : QvData

/-- `beam_correction_out` (pyfhd_quickview.py 218): `weight_invert` with the threshold 0.001. -/
noncomputable def qvCorrection (b : ℝ) : ℝ :=
  weightInvertEntry (fun x : ℝ => |x|) id false (some (1 / 1000)) false b

/-- What `quickview` leaves behind: the files, the planes of the caller and the names of the polarisations
in `obs`. -/
structure QvOut where
  files : List QvFile
  polNames : List String
  imageUv : ℕ → Plane ℂ
  modelUv : ℕ → Plane ℂ
  weightsUv : ℕ → Plane ℂ

/-- `quickview` (pyfhd_quickview.py 193-442). -/
noncomputable def quickview (q : QvIn) : Py QvOut := do
  let pols ← (List.range q.nPol).mapM (qvPol q)
  let get {α : Type} (d : α) (g : QvPol → α) : ℕ → α := fun p => (pols[p]?.map g).getD d
  let scaled (g : QvPol → Plane ℝ) : ℕ → Plane ℝ := fun p i j =>
    get 0 (fun r => g r i j * r.renorm) p
  let dirty := scaled (·.dirty)
  let model := scaled (·.model)
  let residual : ℕ → Plane ℝ := fun p i j => dirty p i j - model p i j
  let weights := get (fun _ _ => 0) (·.weightsAfter)
  let split (a : ℕ → Plane ℝ) : ℕ → Plane ℝ := if 4 ≤ q.nPol then splitReal a else a
  let weightsOut := if 4 ≤ q.nPol then splitComplex weights else weights
  let correct (a : ℕ → Plane ℝ) (p : ℕ) : QvData := .plane fun i j =>
    split a p i j * qvCorrection (q.beam p i j)
  let files := (List.range q.nPol).flatMap fun p =>
    let name := (qvNames q).getD p ""
    [⟨.dirty, name, correct dirty p⟩, ⟨.model, name, correct model p⟩,
      ⟨.residual, name, correct residual p⟩, ⟨.beam, name, .plane (q.beam p)⟩,
      ⟨.uvWeights, name, .cube fun r i j => ‖weightsOut r i j‖ * q.nVis⟩]
  return ⟨files, qvNames q, get (fun _ _ => 0) (·.imageAfter), get (fun _ _ => 0) (·.modelAfter), weightsOut⟩

end PyFHD
