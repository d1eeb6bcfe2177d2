import Verif.Model.Basic
import Mathlib.Analysis.SpecialFunctions.Complex.Arg

/-!
# Cable reflections in the calibration solutions

The part of `vis_cal_polyfit` after the polynomial fits (calibration_utils.py 1027-1256), for the option `cal_reflection_mode_theory`
with `cal_reflection_hyperresolve`, for one polarisation. Which of the other options raise, and the fit without
`cal_reflection_hyperresolve`, are in `CalPoly`. Real and complex numbers are exact. Numbers that are not a number are `none`; quotients by
zero count as such. At least two channels are used.
-/

namespace PyFHD

noncomputable section

open Classical

/-! ## Nominal modes -/

/-- A row of the file of cables: length, velocity factor and whether to fit (calibration_utils.py 1065-1068). -/
structure Cable where
  length : ℝ
  vf : ℝ
  flag : ℝ

/-- `bandwidth` (calibration_utils.py 1072-1078). -/
def bandOf (freqs : List ℝ) : ℝ :=
  (freqs.foldl max (freqs.headD 0) - freqs.foldl min (freqs.headD 0)) * freqs.length / (freqs.length - 1)

/-- The nominal mode of a tile (calibration_utils.py 1068-1082); `c0` is the speed of light. -/
def theoryMode (c0 : ℝ) (freqs : List ℝ) (k : Cable) : ℝ :=
  bandOf freqs * (2 * k.length / (c0 * k.vf)) * min (max 0 k.flag) 1

/-- `cal_mode_fit` (calibration_utils.py 897-911) from the value of `cal_reflection_mode_theory`, which is not zero; `none` is `True`. -/
def modeFitOf (theory : ℝ) : Option ℝ := if 1 < |theory| then some theory else none

/-- The factor that restricts the fit to some lengths of cable (calibration_utils.py 1117-1131); `autos` says whether ratios of
auto-correlations are given. `cal_mode_fit` is never the number one. -/
def cableFactor (fit : Option ℝ) (autos : Bool) (k : Cable) : ℝ :=
  match fit with
  | none => 1
  | some v =>
    if autos then 1
    else if v > 0 then (if k.length ≠ v then 0 else 1)
    else (if k.length = |v| then 0 else 1)

/-- `mode_i_arr` at a tile (calibration_utils.py 1062-1131). -/
def nominalMode (c0 : ℝ) (freqs : List ℝ) (theory : ℝ) (autos : Bool) (k : Cable) : ℝ :=
  theoryMode c0 freqs k * cableFactor (modeFitOf theory) autos k

/-! ## The fit with more resolution -/

/-- The modes tried (calibration_utils.py 1145-1154). -/
def modeGrid (mode0 : ℝ) : List ℝ := (List.range 101).map fun (k : ℕ) => ((k : ℝ) - 50) * (1 / 20) + mode0

/-- An entry of `test_fits` (calibration_utils.py 1185-1192). -/
def testFit (N : ℕ) (fs : List ℕ) (g : ℕ → ℂ) (mode : ℝ) : ℂ :=
  (fs.map fun (f : ℕ) => Complex.exp (Complex.I * 2 * Real.pi / N * mode * f) * g f).sum

/-- `np.argmax`: the first place of the maximum. -/
def firstMax (l : List ℝ) : ℕ := l.findIdx fun x => decide (∀ y ∈ l, y ≤ x)

/-- The parameters of a reflection (calibration_utils.py 1253-1255). -/
structure Refl where
  mode : ℝ
  amp : ℝ
  phase : ℝ

/-- The mode with the largest sum, its amplitude and phase (calibration_utils.py 1193-1200). -/
def hyperFit (N : ℕ) (fs : List ℕ) (g : ℕ → ℂ) (mode0 : ℝ) : Refl :=
  let fits := (modeGrid mode0).map (testFit N fs g)
  let k := firstMax (fits.map fun z => ‖z‖)
  ⟨(modeGrid mode0).getD k 0, ‖fits.getD k 0‖ / fs.length, Complex.arg (fits.getD k 0)⟩

/-- `gain_mode_fit` at a channel (calibration_utils.py 1241-1247). -/
def Refl.at (r : Refl) (N f : ℕ) : ℂ :=
  r.amp * Complex.exp (-Complex.I * 2 * Real.pi * (r.mode * f / N) + Complex.I * r.phase)

/-- `gain_temp` without auto-correlations (calibration_utils.py 1177-1184): the gains of the tile divided by the polynomials, minus their
mean over the channels in use. -/
def residGain (fs : List ℕ) (res : ℕ → ℂ) (f : ℕ) : ℂ := res f - (fs.map res).sum / fs.length

/-! ## With ratios of auto-correlations -/

/-- `np.nanmean`. -/
def nanMeanR (l : List (Option ℝ)) : Option ℝ :=
  let xs := l.filterMap id
  if xs = [] then none else some (xs.sum / xs.length)

/-- A quotient of numbers that may be missing. -/
def optDiv (x y : Option ℝ) : Option ℝ :=
  match x, y with
  | some a, some b => if b = 0 then none else some (a / b)
  | _, _ => none

/-- A difference of numbers that may be missing. -/
def optSub (x y : Option ℝ) : Option ℝ :=
  match x, y with
  | some a, some b => some (a - b)
  | _, _ => none

/-- A row of numbers copied to several rows by `rebin` (pyfhd_utils.py 410-421): zero times the difference to the next number is added to
every number but the last. -/
def copiedRow (a : List (Option ℝ)) (t : ℕ) : Option ℝ :=
  match a.getD t none with
  | none => none
  | some x => if t + 1 < a.length ∧ a.getD (t + 1) none = none then none else some x

/-- The input of the fit for one polarisation: number of channels and tiles, channels and tiles in use, `mode_i_arr`, the gains after and
divided by the polynomial fit, and the ratios of the auto-correlations at a channel and tile. -/
structure ReflIn where
  N : ℕ
  nTile : ℕ
  fs : List ℕ
  use : ℕ → Bool
  mode : ℕ → ℝ
  gain : ℕ → ℕ → ℂ
  res : ℕ → ℕ → ℂ
  autos : Option (ℕ → ℕ → Option ℝ)

/-- `norm_autos` (calibration_utils.py 1163-1167). -/
def ReflIn.normAuto (c : ReflIn) (a : ℕ → ℕ → Option ℝ) (f t : ℕ) : Option ℝ :=
  optDiv (a f t) (copiedRow ((List.range c.nTile).map fun t => nanMeanR ((List.range c.N).map fun f => a f t)) t)

/-- `inds`: the tiles to compare with (calibration_utils.py 1157-1162 and 1204-1209). -/
def ReflIn.others (c : ReflIn) (mode : ℝ) : List ℕ :=
  (List.range c.nTile).filter fun t => c.use t && decide (0 < c.mode t) && decide (1 / 100 < |c.mode t - mode|)

/-- The auto-correlations of a tile divided by those of the other tiles (calibration_utils.py 1168-1173). -/
def ReflIn.autoShape (c : ReflIn) (a : ℕ → ℕ → Option ℝ) (tile f : ℕ) : Option ℝ :=
  optDiv (c.normAuto a f tile) (nanMeanR ((c.others (c.mode tile)).map fun t => c.normAuto a f t))

/-- `resautos` (calibration_utils.py 1170-1173). -/
def ReflIn.resAuto (c : ReflIn) (a : ℕ → ℕ → Option ℝ) (tile f : ℕ) : Option ℝ :=
  optSub (c.autoShape a tile f) (nanMeanR ((List.range c.N).map (c.autoShape a tile)))

/-- The mode found in the auto-correlations (calibration_utils.py 1156-1200): if the shape is not a number at some channel in use, no sum
is, and `np.argmax` gives the first mode. -/
def ReflIn.autoMode (c : ReflIn) (a : ℕ → ℕ → Option ℝ) (tile : ℕ) : ℝ :=
  if ∃ f ∈ c.fs, c.resAuto a tile f = none then (modeGrid (c.mode tile)).getD 0 0
  else (hyperFit c.N c.fs (fun f => (((c.resAuto a tile f).getD 0 : ℝ) : ℂ)) (c.mode tile)).mode

/-- The phase of the residual gain minus the mean of the others (calibration_utils.py 1210-1215). -/
def ReflIn.phaseDiff (c : ReflIn) (mode : ℝ) (tile f : ℕ) : ℝ :=
  Complex.arg (c.res f tile) - ((c.others mode).map fun t => Complex.arg (c.res f t)).sum / (c.others mode).length

/-- The reflection fitted to the phases (calibration_utils.py 1203-1227); without other tiles it is not a number. -/
def ReflIn.phaseRefl (c : ReflIn) (mode : ℝ) (tile : ℕ) : Option Refl :=
  if c.others mode = [] then none
  else
    let fit := testFit c.N c.fs (fun f => (c.phaseDiff mode tile f : ℂ)) mode
    some ⟨mode, 2 * ‖fit‖ / c.fs.length, Complex.arg fit + Real.pi / 2⟩

/-- The reflection fitted to a tile (calibration_utils.py 1144-1227). -/
def ReflIn.fit (c : ReflIn) (tile : ℕ) : Option Refl :=
  match c.autos with
  | none => some (hyperFit c.N c.fs (residGain c.fs fun f => c.res f tile) (c.mode tile))
  | some a => c.phaseRefl (c.autoMode a tile) tile

/-- The gain of a tile at a channel afterwards (calibration_utils.py 1134-1256). -/
def ReflIn.after (c : ReflIn) (f tile : ℕ) : Option ℂ :=
  if c.use tile = false ∨ c.mode tile = 0 then some (c.gain f tile)
  else
    match c.fit tile with
    | none => none
    | some r =>
      match c.autos with
      | none => some (c.gain f tile * (1 + r.at c.N f))
      | some _ => some (c.gain f tile * Complex.exp (Complex.I * (r.at c.N f).im))

end

end PyFHD
