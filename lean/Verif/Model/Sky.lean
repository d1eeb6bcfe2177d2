import Verif.Model.Arrays
import Mathlib.Analysis.SpecialFunctions.Trigonometric.Arctan
import Mathlib.Analysis.SpecialFunctions.Trigonometric.Inverse

/-!
# Model of the sky geometry: `l_m_n`, `angle_difference`, `parallactic_angle` and the slant
orthographic projection

Angles are real numbers, and the functions of NumPy the functions of analysis.
-/

namespace PyFHD

noncomputable section

open Real

/-- `np.radians`. -/
def radOf (x : ℝ) : ℝ := x * (π / 180)

/-- `np.degrees`. -/
def degOf (x : ℝ) : ℝ := x * (180 / π)

/-! ## `l_m_n` -/

/-- One pixel of `l_m_n` (pyfhd_utils.py 347-374): right ascension and declination of the phase centre
and of the pixel in degrees. -/
def lmnAt (ra0 dec0 ra dec : ℝ) : ℝ × ℝ × ℝ :=
  let cdec0 := cos (radOf dec0)
  let sdec0 := sin (radOf dec0)
  let cdec := cos (radOf dec)
  let sdec := sin (radOf dec)
  let cdra := cos (radOf ra - radOf ra0)
  let sdra := sin (radOf ra - radOf ra0)
  (sdra * cdec, cdec0 * sdec - cdec * sdec0 * cdra, (sdec * sdec0 + cdec * cdec0 * cdra) - 1)

/-- The arguments of `l_m_n`: the coordinates of phase centre and pixels in the dictionaries and the
optional ones. A pixel outside the sky has the coordinate `none` (`NaN`). -/
structure LmnIn where
  obsra : ℝ
  obsdec : ℝ
  raArr : List (Option ℝ)
  decArr : List (Option ℝ)
  raArg : Option ℝ
  decArg : Option ℝ
  raArrArg : Option (List (Option ℝ))
  decArrArg : Option (List (Option ℝ))

/-- A pixel that may have no coordinates (pyfhd_utils.py 365-371). -/
def lmnPixel (ra0 dec0 : ℝ) (ra dec : Option ℝ) : ℝ × ℝ × ℝ :=
  match ra, dec with
  | some r, some d => lmnAt ra0 dec0 r d
  | _, _ => (0, 0, 0)

/-- `l_m_n` (pyfhd_utils.py 297-374) on flattened arrays, which must be of equal size (a size of one,
which broadcasts, is not modelled). -/
def lmn (c : LmnIn) : Py (List (ℝ × ℝ × ℝ)) :=
  let ras := c.raArrArg.getD c.raArr
  let decs := c.decArrArg.getD c.decArr
  if ras.length ≠ decs.length then .error .valueError
  else .ok ((ras.zip decs).map fun p =>
    lmnPixel (c.raArg.getD c.obsra) (c.decArg.getD c.obsdec) p.1 p.2)

/-! ## Angles -/

/-- `SkyCoord.separation` in degrees: the angle between the directions, of coordinates in
radians. -/
def separation (ra1 dec1 ra2 dec2 : ℝ) : ℝ :=
  degOf (arccos (sin dec1 * sin dec2 + cos dec1 * cos dec2 * cos (ra1 - ra2)))

/-- `angle_difference` (pyfhd_utils.py 905-948). -/
def angleDifference (ra1 dec1 ra2 dec2 : ℝ) (degree nearest : Bool) : ℝ :=
  let u (x : ℝ) : ℝ := if degree then radOf x else x
  let a := separation (u ra1) (u dec1) (u ra2) (u dec2)
  if nearest then max a (2 * π - a) else a

/-- `x_term` of `parallactic_angle` (pyfhd_utils.py 971-973). -/
def parX (latitude hourAngle dec : ℝ) : ℝ :=
  cos (radOf dec) * tan (radOf latitude) - sin (radOf dec) * cos (radOf hourAngle)

/-- `parallactic_angle` (pyfhd_utils.py 951-974). Division by zero gives an infinity, whose
arc tangent is a right angle, or `NaN` (`none`). -/
def parallacticAngle (latitude hourAngle dec : ℝ) : Option ℝ :=
  let y := sin (radOf hourAngle)
  let x := parX latitude hourAngle dec
  if x = 0 then
    if y = 0 then none else some (if 0 < y then 90 else -90)
  else some (degOf (arctan (y / x)))

/-! ## `project_slant_orthographic` -/

/-- `lon_offset` (obs.py 436-443). -/
def lonOffset (phasera zenra : ℝ) : ℝ :=
  if 90 < |phasera - zenra| then phasera - (if zenra < phasera then 360 else -360) - zenra
  else phasera - zenra

/-- The parameters `xi` and `eta` of the projection (obs.py 444-450). -/
def slantParams (phasera phasedec zenra zendec : ℝ) : Option (ℝ × ℝ) :=
  let z := angleDifference phasera phasedec zenra zendec true false
  (parallacticAngle zendec (lonOffset phasera zenra) phasedec).map fun q =>
    (-1 * tan (radOf z) * sin (radOf q), tan (radOf z) * cos (radOf q))

end

end PyFHD
