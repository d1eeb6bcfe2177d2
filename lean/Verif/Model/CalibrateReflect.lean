import Verif.Model.Calibrate
import Verif.Model.CalReflect

/-!
# Model of `calibrate` with the fit of cable reflections (calibrate.py 22-187, calibration_utils.py 893-1256)

`Calibrate` has the polynomial fits without reflections; here `vis_cal_polyfit` goes on with them, for the options
`cal_reflection_mode_theory` and `cal_reflection_hyperresolve` (see `CalReflect`; which other options raise is in `CalPoly`).
-/

namespace PyFHD

/-- What the fit of reflections needs besides the gains: the speed of light, the frequencies of all channels, the value of
`cal_reflection_mode_theory` and the table of cables with one row for each tile (calibration_utils.py 1059-1078). -/
structure ReflTable where
  c0 : ℝ
  freqs : List ℝ
  theory : ℝ
  cable : ℕ → Cable

namespace CalibrateIn

variable (c : CalibrateIn) (o : CalOpts) (q : ReflTable)

/-- The fit of reflections for polarisation `p` (calibration_utils.py 1133-1138): `g` are the gains handed to `vis_cal_polyfit`, `h` those
after the polynomial fits. -/
noncomputable def reflIn (u : InUse) (g h : Gains) (p : ℕ) : ReflIn :=
  { N := c.run.nFreq, nTile := c.run.nTile, fs := u.freqs, use := fun t => decide (t ∈ u.tiles)
    mode := fun t => nominalMode q.c0 q.freqs q.theory o.autoRatio (q.cable t)
    gain := h p, res := fun f t => g p f t / h p f t
    autos := if o.autoRatio then some fun f t => some (c.ratio p f t) else none }

/-- Do the polynomials vanish at a channel in use for a tile in use? The quotients are not numbers then. -/
def polyVanish (u : InUse) (h : Gains) : Prop := ∃ p < c.run.nPol, ∃ t ∈ u.tiles, ∃ f ∈ u.freqs, h p f t = 0

/-- Does the fit end with numbers for all tiles (calibration_utils.py 1133-1256)? -/
def reflNumbers (u : InUse) (g h : Gains) : Prop := ∀ p < c.run.nPol, ∀ t f, (c.reflIn o q u g h p).after f t ≠ none

open Classical in
/-- `vis_cal_polyfit` for all polarisations and tiles (calibration_utils.py 893-1256). Fits that end with NaN are not modelled
(`ValueError` here). -/
noncomputable def polyReflOf (u : InUse) (g : Gains) : Py Gains := do
  let h ← c.polyfitOf u g
  if c.polyVanish u h ∨ ¬ c.reflNumbers o q u g h then .error .valueError
  else .ok fun p f t => ((c.reflIn o q u g h p).after f t).getD 0

/-- The steps of `calibrate` (calibrate.py 75-147) with the fit of reflections. -/
noncomputable def reflSteps : CalSteps Gains InUse (Py ((ℕ → ℕ → ℕ → ℂ) × Option ℂ)) :=
  { c.steps o with polyfit := c.polyReflOf o q }

end CalibrateIn

/-- `calibrate` (calibrate.py 22-187) with the fit of reflections, for data with one or two polarisations, without plots and
`vis_baseline_hist`. -/
noncomputable def calibrateRefl (c : CalibrateIn) (o : CalOpts) (q : ReflTable) (u : InUse) : Py CalibrateOut := do
  let r ← calibrateGains (c.reflSteps o q) o u
  let v ← r.1
  .ok { vis := v.1, gain := r.2.2.1, residual := r.2.2.2, inUse := r.2.1,
        stats := fun p => calStatistics r.2.1.tiles r.2.1.freqs (fun f t => ‖r.2.2.1 p f t‖) (fun f t => ‖r.2.2.2 p f t‖) }

end PyFHD
