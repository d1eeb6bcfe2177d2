import Verif.Model.Healpix
import Mathlib.Analysis.SpecialFunctions.Log.Basic
import Mathlib.Analysis.SpecialFunctions.Sqrt
import Mathlib.Analysis.SpecialFunctions.Trigonometric.Basic

/-!
# Model of the choice of HEALPix pixels (healpix/healpix_utils.py 91-219, 286-295)
-/

namespace PyFHD

/-- `nside` from the sides of an image pixel in degrees (healpix_utils.py 158-162; export.py 92-95 with both sides equal). Reals
stand for floating point numbers. -/
noncomputable def hpxNside (sx sy : ℝ) : ℝ :=
  let pixSky : ℝ := 4 * Real.pi * (180 / Real.pi) ^ 2 / (|sx| * |sy|)
  (2 : ℝ) ^ ⌈Real.log (Real.sqrt (pixSky / 12)) / Real.log 2⌉

/-- What a file with a list of pixels holds: an array, or a dictionary whose keys may be missing. -/
inductive HpxLoaded
  | array (l : List ℕ)
  | dict (nside : Option ℚ) (inds : Option (List ℕ))

/-- The call of `healpix_cnv_generate` apart from the options: the nearest of the shipped lists (modelled by `hpxChoose`), the
content of the files, the position in the image and the altitude (`none`: not a number) of a pixel for a given `nside`, which come from
healpy and astropy, the size of the image, the mask flattened and the `nside` derived from the astrometry. -/
structure HpxCall where
  nearest : String
  load : String → Py HpxLoaded
  place : ℤ → ℕ → ℚ × ℚ
  altitude : ℤ → ℕ → Option ℚ
  dim : ℕ
  elements : ℕ
  mask : List ℚ
  auto : ℚ

/-- The options that are read, of which `healpix_inds` is also written (healpix_utils.py 98, 99, 152, 288). -/
structure HpxCfg where
  restrict : Bool
  healpixInds : Option String
  deriving DecidableEq

/-- The conversion and the part of the observation that is written (healpix_utils.py 286-295). -/
structure HpxOut where
  nside : ℚ
  inds : List ℕ
  cnv : List HpxEntry
  indList : Option (List ℕ)
  nPix : ℕ
  nZero : ℕ

/-- Reading a list and its `nside` (healpix_utils.py 155-159). -/
def hpxRead (c : HpxCall) (nside : Option ℚ) (file : String) : Py (List ℕ × Option ℚ) := do
  let read ← c.load file
  match read with
  | .array l => .ok (l, nside)
  | .dict _ none => .error .keyError
  | .dict s (some l) => .ok (l, s.or nside)

/-- `int()` of a number. -/
def truncQ (q : ℚ) : ℤ := if 0 ≤ q then ⌊q⌋ else ⌈q⌉

/-- `alt <= 0` and `alt > 0`, both false for a number that is none. -/
def altBelow : Option ℚ → Bool
  | some a => decide (a ≤ 0)
  | none => false

/-- `alt > 0`. -/
def altAbove : Option ℚ → Bool
  | some a => decide (0 < a)
  | none => false

/-- The cut at the horizon (healpix_utils.py 202-219): positions and numbers of the pixels that stay. The position of a single pixel is a
plain number (unit_conv.py 150-152), which cannot be indexed. -/
def hpxHorizon (alt : List (Option ℚ)) (px : List (ℚ × ℚ)) (inds : List ℕ) : Py (List (ℚ × ℚ) × List ℕ) :=
  if alt.any altBelow then
    if px.length = 1 then .error .typeError
    else
      let keep := (List.range alt.length).filter fun i => altAbove (alt.getD i none)
      .ok (keep.map fun i => px.getD i (0, 0), keep.map fun i => inds.getD i 0)
  else .ok (px, inds)

/-- `healpix_cnv_generate` (healpix_utils.py 91-297), with the options as they are after the call. Without a list (174-199) the mask
is indexed by floating point numbers, which raises, whatever the pixels found. The logging, `pix2vec` refusing an `nside` that is no
power of two, and the histogram of a single pixel's position, which is a plain number, are not modelled. -/
def hpxCnv (c : HpxCall) (cfg : HpxCfg) (nside : Option ℚ) : Py (HpxOut × HpxCfg) :=
  if cfg.restrict then do
    let read ← hpxRead c nside (cfg.healpixInds.getD c.nearest)
    let side := read.2.getD c.auto
    let cut ← hpxHorizon (read.1.map (c.altitude (truncQ side))) (read.1.map (c.place (truncQ side))) read.1
    let cnv ← hpxGenerate c.dim c.elements cut.1
    let test ← hpxApply cut.2.length c.mask cnv
    return (⟨side, cut.2, cnv, none, cut.2.length, test.countP (fun v => decide (v = 0))⟩,
      { cfg with healpixInds := some (cfg.healpixInds.getD c.nearest) })
  else .error .indexError

end PyFHD
