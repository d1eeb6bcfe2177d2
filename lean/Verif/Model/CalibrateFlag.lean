import Verif.Model.Calibrate
import Verif.Model.CalFlag
import Verif.Model.CalAuto

/-!
# The steps of `calibrate` that are parameters of `Calibrate`

`vis_calibration_flag` (`CalFlag`), `vis_cal_auto_fit` and `vis_cal_auto_init` (`CalAuto`) as functions of the channels and tiles in use and of complex gains.
-/

namespace PyFHD

/-- The array of ones and zeros of which some places are in use (`tile_use`, `freq_use`). -/
def maskOf (n : ℕ) (l : List ℕ) : List ℤ := (List.range n).map fun i => if i ∈ l then 1 else 0

/-- `vis_calibration_flag` as called by `calibrate` (calibrate.py 92-96): amplitudes and phases of the gains (calibration_utils.py 199-206,
279-283); `flagFreq` is `flag_calibration_frequencies`. -/
noncomputable def flagStepOf (fit : FlagFit ℝ) (nPol nFreq nTile : ℕ) (flagFreq : Bool) (u : InUse) (g : Gains) : InUse :=
  let r := visCalibrationFlag fit nPol (fun p f t => ‖g p f t‖) (fun p f t => Complex.arg (g p f t)) flagFreq (maskOf nTile u.tiles)
    (maskOf nFreq u.freqs)
  ⟨usedIdx r.2, usedIdx r.1⟩

/-- `vis_cal_auto_fit` as called by `calibrate` (calibrate.py 131-142) with the square roots `auto` of the ratios of the data and model
auto-correlations and the tiles that have them. Gains that are not a number are 0, as for the solver (see `solveStepOf`); `np.empty` plays
no role for the gains. -/
noncomputable def autoFitOf (lstsq : List ℝ → List ℝ → ℝ × ℝ) (nPol nFreq : ℕ) (auto : ℕ → ℕ → ℕ → Option ℝ) (tiles : List ℕ)
    (u : InUse) (g : Gains) : Py Gains :=
  .ok fun p f t =>
    if p < nPol then
      ((autoFitPol
        { mag := fun z => ‖z‖, phase := fun z => Complex.exp ((Complex.arg z : ℂ) * Complex.I), cast := fun x : ℝ => (x : ℂ),
          lstsq := lstsq, nFreq := nFreq, freqUse := fun f => (maskOf nFreq u.freqs).getD f 0, auto := auto p }
        (g p) tiles (fun _ => 0) fun _ => 0).gain f t).getD 0
    else g p f t

/-- `auto_scale` (calibration_utils.py 146-151): the square root of the ratio of the resistant means of the data and of the model, in the channels
in use. A model whose mean is zero is not modelled (`NaN` here; the ratio is infinite). -/
noncomputable def autoScaleOf (c : CalRunIn ℂ ℝ) (p : ℕ) : Option ℝ := do
  let l (v : ℕ → ℕ → ℕ → ℂ) : List ℝ := ((List.range c.nFreq).filter fun f => c.freqUse f).flatMap fun f =>
    (List.range (c.nBl * c.nTime)).map fun s => ‖v p f s‖
  let a ← resistantMean (l c.vis) 2
  let b ← resistantMean (l c.model) 2
  if b = 0 then none else some (√(a / b))

/-- The square root of NumPy: not a number for negative numbers. -/
noncomputable def sqrtNaN (x : ℝ) : Option ℝ := if x < 0 then none else some (√x)

/-- `vis_cal_auto_init` as called by `calibrate` (calibrate.py 75-79), with the auto-correlations of data and model at the places of the tiles
in `tiles`. -/
noncomputable def autoInitOf (c : CalRunIn ℂ ℝ) (tiles : List ℕ) (autos models : ℕ → ℕ → ℕ → Option ℝ) : Py Gains :=
  (visCalAutoInit sqrtNaN c.nFreq c.nTile tiles autos models (autoScaleOf c)).map fun g p f t => ((g p f t : ℝ) : ℂ)

end PyFHD
