import Verif.Model.Arrays
import Mathlib.Algebra.Order.Field.Basic

/-!
# Model of calibrate.py `calibrate_qu_mixing`
-/

namespace PyFHD

variable {R K : Type} [Field R] [LinearOrder R] [Field K]

/-- The inputs of `calibrate_qu_mixing`: visibilities and model by polarisation (XX, YY, XY, YX),
frequency and sample, weights of XX by frequency and sample (samples are ordered by time, then
baseline). `cast` reads a real number as a complex one, `arg` is the phase, `lstsq us qs` the slope
and offset that `np.linalg.lstsq` finds for `q = slope * u + offset`. -/
structure QUIn (R K : Type) where
  nPol : ℕ
  nFreq : ℕ
  nTime : ℕ
  nBase : ℕ
  nSample : ℕ
  vis : ℕ → ℕ → ℕ → K
  model : ℕ → ℕ → ℕ → K
  w : ℕ → ℕ → R
  cast : R → K
  arg : K → R
  lstsq : List K → List K → K × K

/-- `weights_use` at one sample (calibrate.py 230-233). -/
def quWeight (c : QUIn R K) (f s : ℕ) : R := min (max (c.w f s) 0) 1

/-- `weights_t_avg` at one frequency and baseline (calibrate.py 263). -/
def quTotal (c : QUIn R K) (f b : ℕ) : R :=
  ((List.range c.nTime).map fun t => quWeight c f (t * c.nBase + b)).sum

/-- The weighted sum over the times (calibrate.py 236-261; pyfhd_utils.py 1426-1427). -/
def quSum (c : QUIn R K) (v : ℕ → ℕ → K) (f b : ℕ) : K :=
  ((List.range c.nTime).map fun t =>
    v f (t * c.nBase + b) * c.cast (quWeight c f (t * c.nBase + b))).sum

/-- `i_use` (calibrate.py 265), in row order. -/
def quCells (c : QUIn R K) : List (ℕ × ℕ) :=
  ((List.range c.nFreq).flatMap fun f => (List.range c.nBase).map fun b => (f, b)).filter
    fun x => quTotal c x.1 x.2 ≠ 0

/-- The slope of pseudo Q on pseudo U (calibrate.py 235-281). -/
def quSlope (c : QUIn R K) (v : ℕ → ℕ → ℕ → K) : K :=
  (c.lstsq
    ((quCells c).map fun x => quSum c (fun f s => v 3 f s + v 2 f s) x.1 x.2)
    ((quCells c).map fun x => quSum c (fun f s => v 1 f s - v 0 f s) x.1 x.2)).1

/-- `calibrate_qu_mixing` (calibrate.py 190-283). -/
def quMixing (c : QUIn R K) : Py R :=
  if c.nSample ≠ c.nTime * c.nBase then .error .valueError
  else if c.nPol < 4 then .error .indexError
  else .ok (c.arg (quSlope c c.model) - c.arg (quSlope c c.vis))

end PyFHD
