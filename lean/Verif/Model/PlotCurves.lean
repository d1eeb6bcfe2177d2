import Verif.Model.Basic
import Mathlib.Analysis.SpecialFunctions.Complex.Arg

/-!
# Model of the curves drawn by `plot_cals` (plotting/calibration.py 24-85, 160-188)

The gains are complex numbers, `none` where they are not numbers. The panels and pages are in `Model/Regions`; the drawing, the legend
and the titles are not modelled.
-/

namespace PyFHD

noncomputable section

open Real

/-- What the function reads. `gain` and `residual` depend on polarisation, channel and tile. -/
structure PlotInput where
  nPol : ℕ
  nFreq : ℕ
  nTile : ℕ
  freq : ℕ → ℝ
  freqUse : ℕ → Bool
  tileUse : ℕ → Bool
  gain : ℕ → ℕ → ℕ → Option ℂ
  residual : ℕ → ℕ → ℕ → Option ℂ

/-- `freq_i_use` (calibration.py 25). -/
def plotFreqs (o : PlotInput) : List ℕ := (List.range o.nFreq).filter fun f => o.freqUse f

/-- `cal["gain"] + cal["gain_residual"]` (calibration.py 52, 55-56). -/
def rawGain (o : PlotInput) (p f t : ℕ) : Option ℂ := do
  let g ← o.gain p f t
  let r ← o.residual p f t
  pure (g + r)

/-- `np.arctan2(g.imag, g.real)`, also for zero. -/
def phaseOf (g : Option ℂ) : Option ℝ := g.map Complex.arg

/-- `np.abs(g)`. -/
def ampOf (g : Option ℂ) : Option ℝ := g.map fun z => ‖z‖

/-- Difference of numbers that may not be numbers. -/
def curveSub (a b : Option ℝ) : Option ℝ := do
  let x ← a
  let y ← b
  pure (x - y)

/-- Sum of numbers that may not be numbers. -/
def optAdd (a b : Option ℝ) : Option ℝ := do
  let x ← a
  let y ← b
  pure (x + y)

/-- The correction of `np.unwrap` for one step of the phase: the remainder in `[-π, π)` of the step minus the step, with the boundary
counted as `π` for rising phases, zero for steps less than half a turn. -/
def phaseStep (d : ℝ) : ℝ :=
  let m := d + π - 2 * π * ⌊(d + π) / (2 * π)⌋ - π
  let m' := if m = -π ∧ 0 < d then π else m
  if |d| < π then 0 else m' - d

/-- `np.unwrap` after the first element: `prev` is the element before, `acc` the sum of the corrections so far. A step from or to
something that is not a number makes the sum not a number, for good. -/
def unwrapFrom (prev acc : Option ℝ) : List (Option ℝ) → List (Option ℝ)
  | [] => []
  | p :: ps =>
    let acc' := optAdd acc ((curveSub p prev).map phaseStep)
    optAdd p acc' :: unwrapFrom p acc' ps

/-- `np.unwrap` of one row. -/
def unwrap : List (Option ℝ) → List (Option ℝ)
  | [] => []
  | p :: ps => p :: unwrapFrom p (some 0) ps

/-- The two curves of a tile in one polarisation. -/
structure Curve where
  amp : List (Option ℝ)
  phase : List (Option ℝ)

/-- The gains that were fitted, the type `0` (calibration.py 47-50, 174-175). -/
def solCurve (o : PlotInput) (p t : ℕ) : Curve :=
  ⟨(plotFreqs o).map fun f => ampOf (o.gain p f t), (plotFreqs o).map fun f => phaseOf (o.gain p f t)⟩

/-- The gains before fitting, the type `2` (calibration.py 51-57, 182-183). -/
def rawCurve (o : PlotInput) (p t : ℕ) : Curve :=
  ⟨(plotFreqs o).map fun f => ampOf (rawGain o p f t), (plotFreqs o).map fun f => phaseOf (rawGain o p f t)⟩

/-- The residuals, the type `1` (calibration.py 61-62, 178-179). -/
def resCurve (o : PlotInput) (p t : ℕ) : Curve :=
  ⟨(plotFreqs o).map fun f => curveSub (ampOf (rawGain o p f t)) (ampOf (o.gain p f t)),
    List.zipWith curveSub (unwrap (rawCurve o p t).phase) (unwrap (solCurve o p t).phase)⟩

/-- `np.nanmin` and `np.nanmax` of all values, used as limits of an axis (calibration.py 67-72, 136-141). Without any value `np.nanmin`
raises; with no number among them the limits are not numbers, which matplotlib refuses with the same type of exception. -/
def nanLimits (l : List (Option ℝ)) : Py (ℝ × ℝ) :=
  match l.reduceOption with
  | [] => .error .valueError
  | x :: xs => .ok (xs.foldl min x, xs.foldl max x)

/-- All polarisations and tiles, in use or not. -/
def allCurves (o : PlotInput) (c : ℕ → ℕ → Curve) : List Curve :=
  (List.range o.nPol).flatMap fun p => (List.range o.nTile).map fun t => c p t

/-- The limits of the amplitude and the phase of the three types (calibration.py 65-72). -/
def plotLimits (o : PlotInput) : Py (List ((ℝ × ℝ) × (ℝ × ℝ))) := do
  let a0 ← nanLimits ((allCurves o (solCurve o)).flatMap Curve.amp)
  let a1 ← nanLimits ((allCurves o (resCurve o)).flatMap Curve.amp)
  let a2 ← nanLimits ((allCurves o (rawCurve o)).flatMap Curve.amp)
  let p1 ← nanLimits ((allCurves o (resCurve o)).flatMap Curve.phase)
  pure [(a0, (-π - 0.1, π + 0.1)), (a1, p1), (a2, (-π - 0.1, π + 0.1))]

/-- What is drawn for a tile in one polarisation: the curve with the frequencies in MHz, or nothing (calibration.py 26, 185-188). -/
def drawn (o : PlotInput) (c : Curve) (t : ℕ) : Option (List ℝ × Curve) :=
  if (c.amp.all Option.isNone && c.phase.all Option.isNone) || !o.tileUse t then none
  else some ((plotFreqs o).map fun f => o.freq f / 1000000, c)

end

end PyFHD
