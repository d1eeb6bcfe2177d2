import Verif.Model.Calibrate

/-!
# Model of the coefficients that `vis_cal_polyfit` gets from NumPy (calibration_utils.py 943-1026)

`Polynomial.convert` computes with polynomials, and NumPy removes leading coefficients that are exactly zero from every sum and product
(`trimseq`). `CalPoly` does not model this; here the coefficients are trimmed and the uses of them checked.
-/

namespace PyFHD

section Trim

variable {R K : Type} [Field R] [LinearOrder R] [Field K]

/-- NumPy `trimseq`: the coefficients of highest degree that are zero are removed, but at least one stays. -/
def trimCoef : List R → List R
  | [] => []
  | a :: l =>
    match trimCoef l with
    | [] => [a]
    | b :: m => if b = 0 ∧ m = [] then [a] else a :: b :: m

/-- The assignment of the coefficients of a fit to a row of `deg + 1` numbers (calibration_utils.py 1006 and 1021): one number is
repeated, any other number of them than `deg + 1` is a `ValueError`. -/
def storeCoef (deg : ℕ) (coef : List R) : Py Unit :=
  if coef.length = deg + 1 ∨ coef.length = 1 then .ok () else .error .valueError

/-- The fit of the amplitudes (calibration_utils.py 999-1008): coefficients below `deg` are read one after the other, an `IndexError` if
one does not exist. -/
def ampFitTrim (c : PolyFit R K) (deg : ℕ) (fs : List ℕ) (gain : ℕ → K) : Py (ℕ → R) := do
  let coef := trimCoef (c.fit fs (fs.map fun g => c.mag (gain g)) deg)
  storeCoef deg coef
  if coef.length < deg then .error .indexError else .ok (polySum coef deg)

/-- The fit of the phases (calibration_utils.py 1012-1024), over the coefficients that exist. -/
def phaseFitTrim (c : PolyFit R K) (deg : ℕ) (fs : List ℕ) (gain : ℕ → K) : Py (ℕ → R) := do
  let coef := trimCoef (c.fit fs (c.unwrap (fs.map fun g => c.arg (gain g))) deg)
  storeCoef deg coef
  .ok (polySum coef coef.length)

/-- One tile after the polynomial fits (calibration_utils.py 944-1025) without the gain jump. -/
def polyTileTrim (c : PolyFit R K) (ampDeg phaseDeg : ℕ) (fs : List ℕ) (gain : ℕ → K) : Py (ℕ → K) := do
  let amp ← ampFitTrim c (degreeOr ampDeg 2) fs gain
  let phase ← phaseFitTrim c (degreeOr phaseDeg 1) fs gain
  .ok fun f => c.cast (amp f) * c.expi (phase f)

end Trim

/-- `vis_cal_polyfit` for all polarisations and tiles, used or not (calibration_utils.py 944-1026), without gain jump and reflections. -/
noncomputable def CalibrateIn.polyfitTrim (c : CalibrateIn) (u : InUse) (g : Gains) : Py Gains := do
  let hs ← (List.range c.run.nPol).mapM fun p => (List.range c.run.nTile).mapM fun t =>
    polyTileTrim (complexFit c.fit) c.ampDeg c.phaseDeg u.freqs fun f => g p f t
  .ok fun p f t => match (hs.getD p [])[t]? with
    | some h => h f
    | none => 0

/-- `calibrate` (calibrate.py 22-147) without gain jump and reflections, with the coefficients as NumPy returns them. -/
noncomputable def calibrateTrim (c : CalibrateIn) (o : CalOpts) (u : InUse) :
    Py (Py ((ℕ → ℕ → ℕ → ℂ) × Option ℂ) × InUse × Gains × Gains) :=
  calibrateGains { c.steps o with polyfit := c.polyfitTrim } o u

end PyFHD
