import Verif.Model.CalStats
import Mathlib.Algebra.Star.Basic

/-!
# Model of calibration_utils.py `vis_cal_polyfit` and calibrate.py `calibrate`
-/

namespace PyFHD

/-! ## Polynomial fits -/

section Poly

variable {R K : Type} [Field R] [LinearOrder R] [Field K]

/-- The loop `for di in range(n)` over coefficients times powers of the channel number
(calibration_utils.py 1007-1008 and 1023-1024). -/
def polySum (coef : List R) (n f : ℕ) : R :=
  ((List.range n).map fun i => coef.getD i 0 * (f : R) ^ i).sum

/-- The numerical functions: `fit xs ys deg` are the coefficients of
`Polynomial.fit(...).convert()` (`deg + 1` of them; that `convert` may return fewer when the
leading ones vanish is not modelled), `unwrap` is `np.unwrap`, `mag`, `arg` the absolute value and
phase of a complex number, `expi x` is `exp(1j * x)`. -/
structure PolyFit (R K : Type) where
  fit : List ℕ → List R → ℕ → List R
  unwrap : List R → List R
  mag : K → R
  arg : K → R
  expi : R → K
  cast : R → K

/-- The default for an unset (or zero) degree (calibration_utils.py 916-919). -/
def degreeOr (deg default : ℕ) : ℕ := if deg = 0 then default else deg

/-- `gain_fit` without the gain jump (calibration_utils.py 999-1008): the sum stops before the last
coefficient. -/
def ampFit (c : PolyFit R K) (deg : ℕ) (fs : List ℕ) (gain : ℕ → K) (f : ℕ) : R :=
  polySum (c.fit fs (fs.map fun g => c.mag (gain g)) deg) deg f

/-- `phase_fit` (calibration_utils.py 1012-1024). -/
def phaseFitAt (c : PolyFit R K) (deg : ℕ) (fs : List ℕ) (gain : ℕ → K) (f : ℕ) : R :=
  let coef := c.fit fs (c.unwrap (fs.map fun g => c.arg (gain g))) deg
  polySum coef coef.length f

/-- `gain_fit` with the digital gain jump (calibration_utils.py 949-996): `low f` is that the frequency
of channel `f` is below 187.515 MHz. Without such a channel the fit stays zero; without any other
channel the second fit has no data (`TypeError`). The first slice runs from the first used channel
to the last low one, its values from 0 to just before the last low one: unless there is one value
or the first used channel is 1 the shapes differ. -/
def jumpFit (c : PolyFit R K) (deg : ℕ) (fs : List ℕ) (low : ℕ → Bool) (gain : ℕ → K) :
    Py (ℕ → R) :=
  match ((List.range fs.length).filter fun i => low (fs.getD i 0)).getLast? with
  | none => .ok fun _ => 0
  | some fd =>
    let lo := fs.take (fd + 1)
    let hi := fs.drop (fd + 1)
    if hi = [] then .error .typeError
    else
      let c1 := c.fit lo (lo.map fun g => c.mag (gain g)) (deg - 1)
      let c2 := c.fit hi (hi.map fun g => c.mag (gain g)) (deg - 1)
      let first := fs.getD 0 0
      let last := fs.getD fd 0
      let hiFirst := hi.headD 0
      let hiLast := fs.getLastD 0
      if last ≠ 1 ∧ first ≠ 1 then .error .valueError
      else if deg ≠ 2 then .error .valueError
      else .ok fun f =>
        (if first ≤ f ∧ f ≤ last then polySum c1 deg (if last = 1 then 0 else f - first) else 0) +
        (if hiFirst ≤ f ∧ f ≤ hiLast then polySum c2 deg f else 0)

/-- One tile after the polynomial fits (calibration_utils.py 944-1025); the degrees after the
defaults (916-919). -/
def polyTile (c : PolyFit R K) (jump : Bool) (ampDeg phaseDeg : ℕ) (fs : List ℕ) (low : ℕ → Bool)
    (gain : ℕ → K) : Py (ℕ → K) := do
  let d := degreeOr ampDeg 2
  let amp ← if jump then jumpFit c d fs low gain else .ok (ampFit c d fs gain)
  .ok fun f => c.cast (amp f) * c.expi (phaseFitAt c (degreeOr phaseDeg 1) fs gain f)

end Poly

/-! ## Cable reflections -/

section Reflection

variable {K : Type} [Field K]

/-- The options that select the nominal reflection modes. -/
structure ReflOpts where
  theory : Bool
  file : Bool
  delay : Bool
  hyper : Bool
deriving DecidableEq

/-- Which nominal modes the code has when it starts to fit tiles (calibration_utils.py 897-911,
1029-1133): none without any option; row 1 does not exist for one polarisation, and
`np.vstack[...]` is a `TypeError`; the delay spectrum takes row
`tile_i` of an array with one row for each frequency and one column for each tile, and
`n_freq // 2` entries of its transform; with hyperresolution alone the modes are never set, which
is a `NameError` for the first used tile. `tiles` are the used tiles; at least two frequencies. -/
def reflModes (o : ReflOpts) (nPol nFreq nTile : ℕ) (tiles : List ℕ) : Py Bool :=
  if !(o.theory || o.file || o.delay || o.hyper) then .ok false
  else if o.file then .error (if nPol < 2 then .indexError else .typeError)
  else if o.theory then .ok true
  else if o.delay then
    if nPol ≠ 0 ∧ ∃ t ∈ tiles, nFreq ≤ t ∨ nTile < nFreq / 2 then .error .indexError
    else .ok true
  else if nPol ≠ 0 ∧ tiles ≠ [] then .error .nameError
  else .ok true

/-- The fit of amplitude and phase of a reflection of integer mode `m` without hyperresolution
(calibration_utils.py 1233-1238), as one complex number; `z` is `exp(2j pi / n_freq)` and `res` the gain
divided by its polynomial fit. `freq_use[0].size` is 1, not the number of frequencies. -/
def modeFit (z : K) (m : ℕ) (fs : List ℕ) (res : ℕ → K) : K :=
  (fs.map fun f => z ^ (m * f) * res f).sum / 1

/-- The gain after the reflection fit (calibration_utils.py 1240-1251), without auto-correlation
ratios. -/
def applyMode (z : K) (m : ℕ) (fit : K) (gain : ℕ → K) (f : ℕ) : K :=
  gain f * (1 + fit * (z ^ (m * f))⁻¹)

end Reflection

/-! ## `calibrate` -/

section Calibrate

variable {K : Type} [Field K]

/-- The options of `calibrate`. -/
structure CalOpts where
  autoInit : Bool
  flag : Bool
  bandpass : Bool
  autoRatio : Bool
  polyfit : Bool
  autoFit : Bool
deriving DecidableEq

/-- The steps of `calibrate`, each modelled elsewhere: gains in, gains out. `G` are gain arrays,
`O` observations and `V` visibilities. -/
structure CalSteps (G O V : Type) where
  init : G
  autoInit : Py G
  solve : G → Py G
  flag : O → G → O
  divide : G → G
  remultiply : G → G
  bandpass : O → G → Py (G × G)
  polyfit : O → G → Py G
  autoFit : O → G → Py G
  apply : O → G → V
  mul : G → G → G
  sub : G → G → G

/-- The gains after bandpass and polynomial fits (calibrate.py 102-128). Without the bandpass,
`vis_cal_polyfit` is called with observation and calibration exchanged, and the observation has no
key `gain`. -/
def calFits {G O V : Type} (s : CalSteps G O V) (o : CalOpts) (obs : O) (base : G) : Py G :=
  if o.bandpass then do
    let g := if o.autoRatio then s.divide base else base
    let b ← s.bandpass obs g
    let h ← if o.polyfit then (do let q ← s.polyfit obs b.2; .ok (s.mul q b.1)) else .ok b.1
    .ok (if o.autoRatio then s.remultiply h else h)
  else if o.polyfit then .error .keyError
  else .ok base

/-- The gains to start from (calibrate.py 75-84). -/
def calInit {G O V : Type} (s : CalSteps G O V) (o : CalOpts) : Py G :=
  if o.autoInit then s.autoInit else .ok s.init

/-- The gains after the fit to the auto-correlations (calibrate.py 131-142). -/
def calAuto {G O V : Type} (s : CalSteps G O V) (o : CalOpts) (obs : O) (g : G) : Py G :=
  if o.autoFit then s.autoFit obs g else .ok g

/-- `calibrate` (calibrate.py 22-187): the calibrated visibilities, the observation, the final gains
and the gain residual. -/
def calibrateGains {G O V : Type} (s : CalSteps G O V) (o : CalOpts) (obs : O) : Py (V × O × G × G) := do
  let g0 ← calInit s o
  let base ← s.solve g0
  let obs' := if o.flag then s.flag obs base else obs
  let g ← calFits s o obs' base
  let h ← calAuto s o obs' g
  .ok (s.apply obs' h, obs', h, s.sub base h)

end Calibrate

/-! ## Statistics of the gains -/

section Stats

variable {R : Type} [Field R] [LinearOrder R]

/-- `mean_gain`, `mean_gain_residual`, `mean_gain_restrict` and the square of
`stddev_gain_residual` of one polarisation (calibrate.py 157-178), from the amplitudes of the gains
and of the residuals; zeros without used tiles or frequencies. -/
def calStatistics (tiles freqs : List ℕ) (amp res : ℕ → ℕ → R) : R × R × Option R × R :=
  if tiles = [] ∨ freqs = [] then (0, 0, some 0, 0)
  else
    let vals (g : ℕ → ℕ → R) : List R := freqs.flatMap fun f => tiles.map fun t => g f t
    ((vals amp).sum / (vals amp).length, (vals res).sum / (vals res).length,
      resistantMean (vals res) 2, npVar (vals res))

end Stats

end PyFHD
