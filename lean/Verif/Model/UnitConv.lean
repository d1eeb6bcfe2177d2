import Verif.Model.Sky
import Mathlib.Analysis.SpecialFunctions.Complex.Arg

/-!
# Model of the conversion between positions on the sky and pixels (pyfhd_tools/unit_conv.py 101-203)

The World Coordinate System objects of astropy follow the FITS standard for celestial coordinates (Calabretta and Greisen 2002). Their
orthographic projection, slant or not, is written out here over the real numbers; that astropy computes it is trusted. A position that
has no pixel, or the other way round, is `none` (`NaN` in the code).
-/

namespace PyFHD

noncomputable section

open Real

/-- The entries of the dictionary `astr` that are read. The type of projection is orthographic (`SIN`); the epoch, the dates and the
frame are passed on unchanged and do not move positions of the same frame. -/
structure Astr where
  cdelt : ℝ × ℝ
  crpix : ℝ × ℝ
  crval : ℝ × ℝ
  pv1 : List ℝ
  pv2 : List ℝ

/-- The parameters of a WCS object: those of the longitude axis are the native coordinates of the reference point and the native
longitude and latitude of the celestial pole, those of the latitude axis belong to the projection. -/
structure Wcs where
  cdelt : ℝ × ℝ
  crpix : ℝ × ℝ
  crval : ℝ × ℝ
  phi0 : ℝ
  theta0 : ℝ
  lonpole : ℝ
  latpole : ℝ
  xi : ℝ
  eta : ℝ

/-- One entry of an array of the dictionary. -/
def pvAt (l : List ℝ) (i : ℕ) : Py ℝ := match l[i]? with
  | some x => .ok x
  | none => .error .indexError

/-- The WCS object built from the dictionary, in the same way by both functions (unit_conv.py 126-145, 181-200). -/
def wcsOf (a : Astr) : Py Wcs := do
  let p1 ← pvAt a.pv1 1
  let p2 ← pvAt a.pv1 2
  let p3 ← pvAt a.pv1 3
  let p4 ← pvAt a.pv1 4
  let q1 ← pvAt a.pv2 0
  let q2 ← pvAt a.pv2 1
  .ok { cdelt := a.cdelt, crpix := a.crpix, crval := a.crval, phi0 := p1, theta0 := p2, lonpole := p3, latpole := p4, xi := q1,
        eta := q2 }

/-- `world_to_pixel` of astropy for one position in degrees, with the reference point at the native pole (`phi0` zero, `theta0` 90
degrees, as in obs.py 470), for which `latpole` has no effect. Pixels count from zero, `crpix` from one. Positions on the far side of
the projection have no pixel. -/
def worldToPixel (w : Wcs) (ra dec : ℝ) : Option (ℝ × ℝ) :=
  let da := radOf ra - radOf w.crval.1
  let d := radOf dec
  let d0 := radOf w.crval.2
  let a := -(cos d * sin da)
  let b := sin d * cos d0 - cos d * sin d0 * cos da
  let n := sin d * sin d0 + cos d * cos d0 * cos da
  let p := radOf w.lonpole
  let S := a * cos p + b * sin p
  let C := b * cos p - a * sin p
  if n + w.xi * S - w.eta * C < 0 then none
  else some (180 / π * (S + w.xi * (1 - n)) / w.cdelt.1 + w.crpix.1 - 1,
    -(180 / π * (C - w.eta * (1 - n))) / w.cdelt.2 + w.crpix.2 - 1)

/-- An angle in degrees between 0 and 360. -/
def wrap360 (x : ℝ) : ℝ := if x < 0 then x + 360 else x

/-- Right ascension and declination in degrees of a vector of length one. -/
def raDecOf (v : ℝ × ℝ × ℝ) : ℝ × ℝ := (wrap360 (degOf (Complex.arg ⟨v.1, v.2.1⟩)), degOf (arcsin v.2.2))

/-- `pixel_to_world` of astropy for one pixel: of the two directions seen at the pixel the one on the near side. -/
def pixelToWorld (w : Wcs) (x y : ℝ) : Option (ℝ × ℝ) :=
  let x0 := radOf ((x + 1 - w.crpix.1) * w.cdelt.1) - w.xi
  let y0 := radOf ((y + 1 - w.crpix.2) * w.cdelt.2) - w.eta
  let A := 1 + w.xi ^ 2 + w.eta ^ 2
  let B := w.xi * x0 + w.eta * y0
  let disc := B ^ 2 - A * (x0 ^ 2 + y0 ^ 2 - 1)
  if disc < 0 then none
  else
    let n := (-B + √disc) / A
    let S := x0 + w.xi * n
    let C := -(y0 + w.eta * n)
    let p := radOf w.lonpole
    let l := -(S * cos p - C * sin p)
    let m := S * sin p + C * cos p
    let r0 := radOf w.crval.1
    let d0 := radOf w.crval.2
    some (raDecOf (n * (cos d0 * cos r0) - l * sin r0 - m * (sin d0 * cos r0),
      n * (cos d0 * sin r0) + l * cos r0 - m * (sin d0 * sin r0), n * sin d0 + m * cos d0))

/-- `radec_to_pixel` for one position (unit_conv.py 101-153). -/
def radecToPixel (a : Astr) (ra dec : ℝ) : Py (Option (ℝ × ℝ)) := do
  let w ← wcsOf a
  .ok (worldToPixel w ra dec)

/-- `pixel_to_radec` for one pixel (unit_conv.py 156-203). The angles that are returned carry a unit in the code. -/
def pixelToRadec (a : Astr) (x y : ℝ) : Py (Option (ℝ × ℝ)) := do
  let w ← wcsOf a
  .ok (pixelToWorld w x y)

/-- `project_slant_orthographic` (obs.py 433-470, 485) for the phase centre, the zenith, the pixel of the phase centre and the size of
a pixel in degrees: the dictionary and the pixel of the zenith, `none` if the parameters of the projection are not numbers. -/
def slantAstr (phasera phasedec zenra zendec obsx obsy degpix : ℝ) : Option Astr :=
  (slantParams phasera phasedec zenra zendec).map fun p =>
    { cdelt := (degpix, degpix), crpix := (obsx + 1, obsy + 1), crval := (phasera, phasedec), pv1 := [0, 0, 90, 180, 0],
      pv2 := [p.1, p.2] }

/-- One pixel of the mask of the horizon (pyfhd_quickview.py 199-206). -/
def horizonMask (a : Astr) (x y : ℝ) : Py ℝ := do
  let rd ← pixelToRadec a x y
  .ok (if rd = none then 0 else 1)

end

end PyFHD
