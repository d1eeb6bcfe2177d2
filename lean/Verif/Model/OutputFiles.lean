import Verif.Model.Pipeline
import Mathlib.Data.Rat.Floor

/-!
# Model of the files written by `quickview`

Source: `/repo/PyFHD/io/pyfhd_quickview.py`, lines 121-191 (arrays and dictionaries) and 299-420 (FITS files and their headers).
Names are lists of characters. The images themselves are in `Model/Quickview`.
-/

namespace PyFHD

/-- The options read in lines 121-191 and 383-420. -/
structure QvSave where
  obsId : List Char
  imageFilter : List Char
  saveObs : Bool
  saveParams : Bool
  saveVisibilities : Bool
  recalculateGrid : Bool
  saveCal : Bool
  calibrate : Bool
  saveWeights : Bool

/-- The arguments of `quickview` that are saved. -/
structure QvArgs (V : Type) where
  obs : V
  params : V
  cal : V
  visArr : V
  visWeights : V
  imageUv : V
  weightsUv : V
  varianceUv : V
  filterUv : V
  modelUv : V

/-- A file: directory below the output directory, name, content. -/
abbrev SavedFile (V : Type) := List Char × List Char × V

/-- A file named after the observation. -/
def savedFile {V : Type} (c : QvSave) (dir what : String) (v : V) : SavedFile V :=
  (dir.toList, c.obsId ++ '_' :: (what.toList ++ ".h5".toList), v)

/-- The HDF5 files (pyfhd_quickview.py 121-191), in the order in which they are written. -/
def qvSaved {V : Type} (c : QvSave) (a : QvArgs V) : List (SavedFile V) :=
  (if c.saveObs then [savedFile c "metadata" "obs" a.obs] else []) ++
  (if c.saveParams then [savedFile c "metadata" "params" a.params] else []) ++
  (if c.saveVisibilities then
    (if c.recalculateGrid then
      [savedFile c "gridding" "image_uv" a.imageUv, savedFile c "gridding" "weights_uv" a.weightsUv,
        savedFile c "gridding" "variance_uv" a.varianceUv, savedFile c "gridding" "uniform_filter_uv" a.filterUv,
        savedFile c "gridding" "model_uv" a.modelUv]
      else []) ++
    [savedFile c "visibilities" "calibrated_vis_arr" a.visArr]
    else []) ++
  (if c.saveCal && c.calibrate then [savedFile c "calibration" "cal" a.cal] else []) ++
  (if c.saveWeights then [savedFile c "visibilities" "calibrated_vis_weights" a.visWeights] else [])

/-- `image_filter.split("_")[-1]` (pyfhd_quickview.py 383). -/
def filterName (f : List Char) : List Char := (f.reverse.takeWhile fun x => x != '_').reverse

/-- The names of the FITS files of a polarisation (pyfhd_quickview.py 386-420). -/
def fitsOf (c : QvSave) (pol : List Char) : List (List Char) :=
  [c.obsId ++ '_' :: (filterName c.imageFilter ++ '_' :: ("dirty".toList ++ '_' :: (pol ++ ".fits".toList))),
    c.obsId ++ '_' :: (filterName c.imageFilter ++ '_' :: ("model".toList ++ '_' :: (pol ++ ".fits".toList))),
    c.obsId ++ '_' :: (filterName c.imageFilter ++ '_' :: ("residual".toList ++ '_' :: (pol ++ ".fits".toList))),
    c.obsId ++ '_' :: ("beam".toList ++ '_' :: (pol ++ ".fits".toList)),
    c.obsId ++ '_' :: ("uv".toList ++ '_' :: ("weights".toList ++ '_' :: (pol ++ ".fits".toList)))]

/-- The names of all FITS files. -/
def fitsFiles (c : QvSave) (pols : List (List Char)) : List (List Char) := pols.flatMap (fitsOf c)

/-- The part of `obs["astr"]` used for positions. -/
structure AstrGrid where
  cd11 : ℚ
  cd12 : ℚ
  cd21 : ℚ
  cd22 : ℚ
  cdelt : ℚ × ℚ
  crpix : ℚ × ℚ

/-- The projection as `create_obs` makes it (obs.py 458-460) and `update_obs` changes it (obs.py 536-544): `cd` is kept. -/
def AstrGrid.update (a : AstrGrid) (dimension : ℕ) (degpix : ℚ) : AstrGrid :=
  { a with cdelt := (degpix, degpix), crpix := ((dimension : ℚ) / 2 + 1, (dimension : ℚ) / 2 + 1) }

/-- The cards of the header that give the position in the plane of projection. -/
structure PlaneCards where
  cd11 : ℚ
  cd12 : ℚ
  cd21 : ℚ
  cd22 : ℚ
  crpix1 : ℚ
  crpix2 : ℚ

/-- The header (pyfhd_quickview.py 307-324) and the projection afterwards: `cd` is multiplied in place. -/
def imageCards (a : AstrGrid) : PlaneCards × AstrGrid :=
  let b := { a with
    cd11 := a.cd11 * a.cdelt.1, cd12 := a.cd12 * a.cdelt.1, cd21 := a.cd21 * a.cdelt.2, cd22 := a.cd22 * a.cdelt.2 }
  (⟨b.cd11, b.cd12, b.cd21, b.cd22, pyInt a.crpix.1, pyInt a.crpix.2⟩, b)

/-- The cards of the files of uv weights (pyfhd_quickview.py 359-371). -/
def uvCards (dimension : ℕ) (kpix : ℚ) : PlaneCards :=
  ⟨kpix, 0, 0, kpix, (dimension : ℚ) / 2 + 1, (dimension : ℚ) / 2 + 1⟩

/-- What a run of the exporting part writes in the header, `n` exports having been made before with the same `obs`. -/
def cardsAfter (a : AstrGrid) (dimension : ℕ) (degpix : ℚ) : ℕ → PlaneCards × AstrGrid
  | 0 => imageCards (a.update dimension degpix)
  | n + 1 => imageCards ((cardsAfter a dimension degpix n).2.update dimension degpix)

end PyFHD
