import Verif.Model.CalChain
import Verif.Model.CalRun

/-!
# Model of `calibrate` with its steps (calibrate.py 22-187)

`CalPoly` models `calibrate` over abstract steps. Here the steps are the models of `vis_calibrate_subroutine` (`CalRun`), of the fits
(`CalChain`) and of `vis_calibration_apply` (`CalApply`), for complex gains.
-/

namespace PyFHD

/-- The channels and tiles in use (`obs["baseline_info"]["freq_use"]` and `["tile_use"]`). -/
structure InUse where
  freqs : List ℕ
  tiles : List ℕ

/-- The arguments of `calibrate`: the data and options of the solver, the numerical fit, the degrees, the gain jump and the channels below it,
the cables, the auto-correlation ratios, what `vis_cal_auto_init`, `vis_calibration_flag` and `vis_cal_auto_fit` do (modelled elsewhere)
and `obs.get("n_times")`. -/
structure CalibrateIn where
  run : CalRunIn ℂ ℝ
  fit : List ℕ → List ℝ → ℕ → List ℝ
  jump : Bool
  ampDeg : ℕ
  phaseDeg : ℕ
  low : ℕ → Bool
  cables : Option (List ℕ × (ℕ → ℕ))
  ratio : ℕ → ℕ → ℕ → ℝ
  autoTiles : List ℕ
  autoInit : Py (ℕ → ℕ → ℕ → ℂ)
  flag : InUse → (ℕ → ℕ → ℕ → ℂ) → InUse
  autoFit : InUse → (ℕ → ℕ → ℕ → ℂ) → Py (ℕ → ℕ → ℕ → ℂ)
  nTimes : Option ℕ

/-- Gains indexed by polarisation, channel and tile. -/
abbrev Gains := ℕ → ℕ → ℕ → ℂ

namespace CalibrateIn

variable (c : CalibrateIn) (o : CalOpts)

/-- The options of the fits for polarisation `p`. -/
def fitOpts (p : ℕ) : FitOpts :=
  { poly := o.polyfit, jump := c.jump, ampDeg := c.ampDeg, phaseDeg := c.phaseDeg, low := c.low, cables := c.cables,
    ratio := if o.autoRatio then some (c.ratio p, c.autoTiles) else none }

/-- `vis_calibrate_subroutine` (calibrate.py 88-90). Gains that are NaN (flagged tiles) are 0 here: the data are corrected with the same
result, since `weight_invert` makes NaN zero. A solver that ends with NaN is not modelled (`ValueError` here). -/
noncomputable def solveStepOf (g : Gains) : Py Gains :=
  match calRun { c.run with gain := g } with
  | .error e => .error e
  | .ok none => .error .valueError
  | .ok (some r) => .ok fun p f t => ((r.pols[p]?).bind fun q => q.gain f t).getD 0

/-- `vis_cal_polyfit` for all polarisations and tiles (calibration_utils.py 944-1026), without reflections. -/
noncomputable def polyfitOf (u : InUse) (g : Gains) : Py Gains := do
  let hs ← (List.range c.run.nPol).mapM fun p => (List.range c.run.nTile).mapM fun t =>
    polyTile (complexFit c.fit) c.jump c.ampDeg c.phaseDeg u.freqs c.low fun f => g p f t
  .ok fun p f t => match (hs.getD p [])[t]? with
    | some h => h f
    | none => 0

/-- The call of `vis_calibration_apply` (calibrate.py 145-147): tile numbers of the samples count from one. -/
noncomputable def applyIn (g : Gains) : CalApplyIn ℂ ℝ :=
  { mag := fun z => ‖z‖, re := Complex.re, nPolVis := c.run.nPol, nPolGain := c.run.nPol, nFreq := c.run.nFreq, nTile := c.run.nTile,
    tileA := (List.range (c.run.nBl * c.run.nTime)).map fun s => (c.run.tileA s : ℤ) + 1,
    tileB := (List.range (c.run.nBl * c.run.nTime)).map fun s => (c.run.tileB s : ℤ) + 1,
    gain := g, vis := c.run.vis, model := some c.run.model, weights := some fun p f s => (c.run.weight p f s : ℂ),
    clip := fun w => ((min (max w.re 0) 1 : ℝ) : ℂ), nTimes := c.nTimes }

/-- The steps of `calibrate` (calibrate.py 75-147) for data with one or two polarisations. -/
noncomputable def steps : CalSteps Gains InUse (Py ((ℕ → ℕ → ℕ → ℂ) × Option ℂ)) :=
  { init := c.run.gain, autoInit := c.autoInit, solve := c.solveStepOf, flag := c.flag
    divide := fun g p => chainDivide (c.fitOpts o p) (g p)
    remultiply := fun g p => chainRemultiply (c.fitOpts o p) (g p)
    bandpass := fun u g => .ok
      (fun p => (chainBandpass (c.fitOpts o p) u.freqs u.tiles (g p)).bandpass,
        fun p f t => ((chainBandpass (c.fitOpts o p) u.freqs u.tiles (g p)).remainder f t).getD 0)
    polyfit := c.polyfitOf, autoFit := c.autoFit, apply := fun _ g => visCalibrationApply (c.applyIn g)
    mul := fun a b p f t => a p f t * b p f t, sub := fun a b p f t => a p f t - b p f t }

end CalibrateIn

/-- What `calibrate` returns: the data, the gains, the gain residual, what is in use, and the statistics of a polarisation. -/
structure CalibrateOut where
  vis : ℕ → ℕ → ℕ → ℂ
  gain : Gains
  residual : Gains
  inUse : InUse
  stats : ℕ → ℝ × ℝ × Option ℝ × ℝ

/-- `calibrate` (calibrate.py 22-187) for data with one or two polarisations, without plots and `vis_baseline_hist` (see `CalStats`). -/
noncomputable def calibrateAll (c : CalibrateIn) (o : CalOpts) (u : InUse) : Py CalibrateOut := do
  let r ← calibrateGains (c.steps o) o u
  let v ← r.1
  .ok { vis := v.1, gain := r.2.2.1, residual := r.2.2.2, inUse := r.2.1,
        stats := fun p => calStatistics r.2.1.tiles r.2.1.freqs (fun f t => ‖r.2.2.1 p f t‖) (fun f t => ‖r.2.2.2 p f t‖) }

end PyFHD
