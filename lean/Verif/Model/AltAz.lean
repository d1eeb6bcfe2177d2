import Verif.Model.UnitConv

/-!
# Model of the conversion between altitude and azimuth and positions on the sky (pyfhd_tools/unit_conv.py 9-98) and of its use for the
metadata (data_setup/obs.py 372-398)

astropy turns the sky as seen from a place at a time. Here this is the rotation that takes the zenith to the direction whose right
ascension is the local sidereal time and whose declination is the latitude; precession, nutation, aberration, polar motion and the
shape of the Earth, which astropy takes into account, are left out (there is no refraction in the call). The local sidereal time is a
parameter, any function of longitude and time. The format of the time is `jd`, the default, in all calls of the program.
-/

namespace PyFHD

noncomputable section

open Real

/-- `EarthLocation.from_geodetic(lon, lat, height)`. Directions to sources at infinite distance do not depend on the height. -/
structure Loc where
  lon : ℝ
  lat : ℝ
  height : ℝ

/-- `AltAz(...).transform_to(ICRS())`: right ascension and declination in degrees. The azimuth counts from north to east. -/
def icrsOf (sidereal : ℝ → ℝ → ℝ) (loc : Loc) (time alt az : ℝ) : ℝ × ℝ :=
  let r := radOf (sidereal loc.lon time)
  let d := radOf loc.lat
  let l := cos (radOf alt) * sin (radOf az)
  let m := cos (radOf alt) * cos (radOf az)
  let n := sin (radOf alt)
  raDecOf (n * (cos d * cos r) - l * sin r - m * (sin d * cos r), n * (cos d * sin r) + l * cos r - m * (sin d * sin r),
    n * sin d + m * cos d)

/-- `SkyCoord(ra, dec).transform_to(AltAz(...))`: altitude and azimuth in degrees. -/
def altazOf (sidereal : ℝ → ℝ → ℝ) (loc : Loc) (time ra dec : ℝ) : ℝ × ℝ :=
  let h := radOf ra - radOf (sidereal loc.lon time)
  let p := radOf loc.lat
  let d := radOf dec
  let v := raDecOf (sin d * cos p - cos d * sin p * cos h, cos d * sin h, sin d * sin p + cos d * cos p * cos h)
  (v.2, v.1)

/-- `altaz_to_radec` (unit_conv.py 9-54). -/
def altazToRadec (sidereal : ℝ → ℝ → ℝ) (alt az lat lon height time : ℝ) : ℝ × ℝ :=
  icrsOf sidereal ⟨lon, lat, height⟩ time alt az

/-- `radec_to_altaz` (unit_conv.py 57-98). -/
def radecToAltaz (sidereal : ℝ → ℝ → ℝ) (ra dec lat lon height time : ℝ) : ℝ × ℝ :=
  altazOf sidereal ⟨lon, lat, height⟩ time ra dec

/-- What the metadata say about the sky. -/
structure SkyMeta where
  zenra : ℝ
  zendec : ℝ
  astr : Option Astr
  obsalt : ℝ
  obsaz : ℝ

/-- The zenith, the astrometry and the altitude and azimuth of the observation (obs.py 372-398), for the place in the header, the
time `jd0`, the centre of the observation and of the phases, its pixel and the size of a pixel. -/
def skyMeta (sidereal : ℝ → ℝ → ℝ) (lat lon height jd0 obsra obsdec phasera phasedec obsx obsy degpix : ℝ) : SkyMeta :=
  let z := altazToRadec sidereal 90 0 lat lon height jd0
  let oa := radecToAltaz sidereal obsra obsdec lat lon height jd0
  { zenra := z.1, zendec := z.2, astr := slantAstr phasera phasedec z.1 z.2 obsx obsy degpix, obsalt := oa.1, obsaz := oa.2 }

end

end PyFHD
