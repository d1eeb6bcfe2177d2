import Verif.Model.CalStats

/-!
# Model of calibration_utils.py: `vis_calibration_flag`

Flagging of tiles and frequencies by their gains. Amplitudes and phases are functions of frequency
and tile; gains that are `NaN` are not modelled. At least one frequency is used (otherwise the
polynomial fit raises).
-/

namespace PyFHD

variable {R : Type} [Field R] [LinearOrder R]

/-- The numerical functions: `np.std` (0 for an empty array, whose `NaN` is replaced by 0), the
residual of the polynomial fit to the amplitudes of a tile (calibration_utils.py 212-226) and the
slope and residual deviation of the fit to its unwrapped phases (calibration_utils.py 287-297); the
arguments are frequencies and values. -/
structure FlagFit (R : Type) where
  std : List R → R
  ampRes : List ℕ → List R → List R
  phaseFit : List ℕ → List R → R × R

/-- `np.nonzero` of a 1-D array. -/
def usedIdx (use : List ℤ) : List ℕ :=
  (List.range use.length).filter fun i => use.getD i 0 ≠ 0

/-- Assignment of 0 to some positions. -/
def setZero (use : List ℤ) (cut : List ℕ) : List ℤ :=
  (List.range use.length).map fun i => if i ∈ cut then 0 else use.getD i 0

/-- `np.median`, `none` for the `NaN` of an empty array. -/
def medianO (l : List R) : Option R := if l = [] then none else some (npMedian l)

/-- The comparison with the median of the uncut entries plus 5 deviations (calibration_utils.py
248-257, 260-264). -/
def aboveSigma (std : List R → R) (fom : List R) (uncut : List ℕ) (i : ℕ) : Bool :=
  match medianO (uncut.map fun j => fom.getD j 0) with
  | none => false
  | some m => decide (0 < fom.getD i 0 - m - 5 * std (uncut.map fun j => fom.getD j 0))

/-- `tile_cut_test2` (calibration_utils.py 265-267). -/
def ampOut (avg : List R) (i : ℕ) : Bool :=
  match medianO avg with
  | none => false
  | some m => decide (avg.getD i 0 < m / 2) || decide (m * 2 < avg.getD i 0)

/-- The variables of the loop over the amplitude tests. -/
structure AmpState where
  freqCut : List ℕ
  freqUncut : List ℕ
  tileCut : List ℕ
  tileUncut : List ℕ
deriving DecidableEq

/-- `n_cut`. -/
def AmpState.nCut (s : AmpState) : ℤ := (s.freqCut.length : ℤ) + s.tileCut.length

/-- One pass of the loop (calibration_utils.py 248-273). -/
def ampStep (std : List R → R) (freqFom tileFom tileAvg : List R) (s : AmpState) : AmpState :=
  let fc := (List.range freqFom.length).filter fun i => aboveSigma std freqFom s.freqUncut i
  let tc := (List.range tileFom.length).filter fun i =>
    aboveSigma std tileFom s.tileUncut i || ampOut tileAvg i
  ⟨fc, s.freqUncut.filter fun i => i ∉ fc, tc, s.tileUncut.filter fun i => i ∉ tc⟩

/-- The loop (calibration_utils.py 244-273), at most `n` passes. -/
def ampLoop (std : List R → R) (freqFom tileFom tileAvg : List R) : ℕ → ℤ → AmpState → AmpState
  | 0, _, s => s
  | n + 1, addl, s =>
    if 0 < addl then
      let s' := ampStep std freqFom tileFom tileAvg s
      ampLoop std freqFom tileFom tileAvg n (s'.nCut - s.nCut) s'
    else s

/-- `gain_freq_fom` (calibration_utils.py 209-210). -/
def freqFomOf (c : FlagFit R) (amp : ℕ → ℕ → R) (fs ts : List ℕ) : List R :=
  fs.map fun f => c.std (ts.map fun t => amp f t)

/-- `gain_tile_fom` (calibration_utils.py 212-226). -/
def tileFomOf (c : FlagFit R) (amp : ℕ → ℕ → R) (fs ts : List ℕ) : List R :=
  ts.map fun t => c.std (c.ampRes fs (fs.map fun f => amp f t))

/-- `gain_tile_avg` (calibration_utils.py 228). -/
def tileAvgOf (amp : ℕ → ℕ → R) (fs ts : List ℕ) : List R :=
  ts.map fun t => npMedian (fs.map fun f => amp f t)

/-- The state before the loop (calibration_utils.py 231-245). The assignments of 0 to
`freq_use[freq_use_i][freq_cut_i]` and `tile_use[tile_use_i][tile_cut_i]` (234, 238) change only
copies. -/
def ampStart (freqFom tileFom : List R) : AmpState :=
  ⟨(List.range freqFom.length).filter fun i => freqFom.getD i 0 = 0,
    (List.range freqFom.length).filter fun i => freqFom.getD i 0 ≠ 0,
    (List.range tileFom.length).filter fun i => tileFom.getD i 0 = 0,
    (List.range tileFom.length).filter fun i => tileFom.getD i 0 ≠ 0⟩

/-- The amplitude tests of one polarisation (calibration_utils.py 199-277), on the pair of
`tile_use` and `freq_use`. -/
def ampStage (c : FlagFit R) (amp : ℕ → ℕ → R) (use : List ℤ × List ℤ) : List ℤ × List ℤ :=
  let ts := usedIdx use.1
  let fs := usedIdx use.2
  let freqFom := freqFomOf c amp fs ts
  let tileFom := tileFomOf c amp fs ts
  let s0 := ampStart freqFom tileFom
  let s := ampLoop c.std freqFom tileFom (tileAvgOf amp fs ts) 3 (max s0.nCut 1) s0
  (setZero use.1 (s.tileCut.map fun i => ts.getD i 0),
    setZero use.2 (s.freqCut.map fun i => fs.getD i 0))

/-- A value above the median of all by more than 5 deviations of `devs` (calibration_utils.py
302-307). -/
def aboveMedian (std : List R → R) (vals devs : List R) (i : ℕ) : Bool :=
  match medianO vals with
  | none => false
  | some m => decide (5 * std devs < vals.getD i 0 - m)

/-- The phase tests of one polarisation (calibration_utils.py 279-314). The loop (298-312) computes
the same result in each pass. -/
def phaseStage (c : FlagFit R) (phase : ℕ → ℕ → R) (use : List ℤ × List ℤ) : List ℤ × List ℤ :=
  let ts := usedIdx use.1
  let fs := usedIdx use.2
  let fits := ts.map fun t => c.phaseFit fs (fs.map fun f => phase f t)
  let slopes := fits.map Prod.fst
  let sigmas := fits.map Prod.snd
  let cut := (List.range ts.length).filter fun i =>
    aboveMedian c.std (slopes.map fun x => |x|) slopes i || aboveMedian c.std sigmas sigmas i
  (setZero use.1 (cut.map fun i => ts.getD i 0), use.2)

/-- One polarisation (calibration_utils.py 198-314). -/
def calFlagPol (c : FlagFit R) (amp phase : ℕ → ℕ → R) (use : List ℤ × List ℤ) : List ℤ × List ℤ :=
  phaseStage c phase (ampStage c amp use)

/-- `vis_calibration_flag` (calibration_utils.py 168-319): `tile_use` and `freq_use` of the
observation afterwards. -/
def visCalibrationFlag (c : FlagFit R) (nPol : ℕ) (amp phase : ℕ → ℕ → ℕ → R) (flagFreq : Bool)
    (tileUse freqUse : List ℤ) : List ℤ × List ℤ :=
  let r := (List.range nPol).foldl (fun use p => calFlagPol c (amp p) (phase p) use) (tileUse, freqUse)
  (r.1, if flagFreq then r.2 else freqUse)

end PyFHD
