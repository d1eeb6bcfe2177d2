import Verif.Model.FloatHist

/-!
# Model of the positions of visibilities in floating point arithmetic

Source: `/repo/PyFHD/gridding/gridding_utils.py`, lines 182-230. Every arithmetic operation is followed by a rounding, which is a
parameter. `np.floor`, the remainder of integers and a change of sign are exact.
-/

namespace PyFHD

/-- `xcen` or `ycen` of one sample (gridding_utils.py 182-183 and 199-206): `q` is the coordinate in seconds, `k` the size of a pixel and `f`
the frequency; the sign is that of the mirrored half. -/
def cenR (rnd : ℚ → ℚ) (mirror : Bool) (q k f : ℚ) : ℚ :=
  let c := rnd (q / k)
  rnd (f * (if mirror then -c else c))

/-- `(xcen - np.floor(xcen)) * psf_resolution` (gridding_utils.py 209-223). -/
def subPixR (rnd : ℚ → ℚ) (res : ℕ) (c : ℚ) : ℚ := rnd (rnd (c - ⌊c⌋) * res)

/-- `x_offset` or `y_offset` (gridding_utils.py 209-214). -/
def offsetR (rnd : ℚ → ℚ) (res : ℕ) (c : ℚ) : ℤ := ⌊subPixR rnd res c⌋ % res

/-- `dx_arr` or `dy_arr` (gridding_utils.py 218-223). -/
def fracR (rnd : ℚ → ℚ) (res : ℕ) (c : ℚ) : ℚ := rnd (subPixR rnd res c - ⌊subPixR rnd res c⌋)

/-- The four weights of the interpolation (gridding_utils.py 224-227), in the order of the source. -/
def interpWR (rnd : ℚ → ℚ) (dx dy : ℚ) : List ℚ :=
  [rnd (rnd (1 - dx) * rnd (1 - dy)), rnd (rnd (1 - dx) * dy), rnd (dx * rnd (1 - dy)), rnd (dx * dy)]

/-- `xmin` or `ymin` before the test of the range (gridding_utils.py 230-231). -/
def cornerR (rnd : ℚ → ℚ) (n psf : ℕ) (c : ℚ) : ℤ :=
  pyInt (rnd (rnd (⌊c⌋ + rnd ((n : ℚ) / 2)) - rnd (rnd ((psf : ℚ) / 2) - 1)))

end PyFHD
