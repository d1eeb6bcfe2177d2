import Verif.Model.Basic
import Mathlib.Algebra.Order.Floor.Ring
import Mathlib.Data.Rat.Floor
import Mathlib.Algebra.Field.Rat

/-!
# Model of `transfer_bandpass` (calibration_utils.py 322-689)

The bandpass of a calfits file. Header keywords that are missing (`KeyError`) are not modelled.
-/

namespace PyFHD

/-- Which convention the axes of the file follow. -/
inductive CalLayout
  | standard | fall2018 | other
deriving DecidableEq, Repr

/-- `np.nonzero(name == data_types)[0][0]`. -/
def axisIndex (types : List String) (name : String) : Py ℕ :=
  if name ∈ types then .ok (types.idxOf name) else .error .indexError

/-- The test of the axes (calibration_utils.py 375-412). -/
def layoutOf (types : List String) : Py CalLayout := do
  let d ← axisIndex types "narrays"
  let a ← axisIndex types "antaxis"
  let f ← axisIndex types "freqs"
  let t ← axisIndex types "time"
  let j ← axisIndex types "jones"
  if d ≠ 0 ∨ a ≠ 4 ∨ f ≠ 3 ∨ t ≠ 2 ∨ j ≠ 1 then
    if d = 0 ∧ a = 5 ∧ f = 3 ∧ t = 2 ∧ j = 1 ∧ "if" ∈ types ∧ types.idxOf "if" = 4 then .ok .fall2018 else .ok .other
  else .ok .standard

/-- A calfits file: whether it holds delays, the names of the axes (lower case, stripped), the sizes of the axes (antennas, channels,
times, Jones terms, real and imaginary part and flag, spectral windows), header values and the data at antenna, channel, time, Jones
term and part. The data of the only spectral window are given when there is one; `njones` of the header is the size of the axis. -/
structure BpFile where
  delay : Bool
  types : List String
  nAnt : ℕ
  nFreq : ℕ
  nTime : ℕ
  nJones : ℕ
  nArr : ℕ
  nWin : ℕ
  xorient : String
  chwidth : ℚ
  freqStart : ℚ
  timeStart : ℚ
  timeDelt : ℚ
  inttime : ℚ
  data : ℕ → ℕ → ℕ → ℕ → ℕ → ℚ

/-- What is used of the observation; `julian` is `obs_julian_date` of line 644. -/
structure BpObs where
  nPol : ℕ
  nTile : ℕ
  nFreq : ℕ
  freqRes : ℚ
  freq0 : ℚ
  timeRes : ℚ
  julian : ℚ

/-- The data without the spectral window (calibration_utils.py 403-408): the mean is taken over the first axis of the array, which
is that of the antennas, since NumPy has the axes of a FITS file in reverse order. -/
def dropWindow (c : BpFile) : BpFile :=
  { c with nAnt := c.nWin, data := fun _ f t j r => ((List.range c.nAnt).map fun a => c.data a f t j r).sum / c.nAnt }

/-- The exchange of the polarisations (calibration_utils.py 440-450). The right-hand sides are views of the array written to: the first
assignment overwrites what the second reads. -/
def orientJones (c : BpFile) (nPol : ℕ) : BpFile :=
  { c with data := fun a f t j r => c.data a f t (if j = 0 then 1 else if j = 2 ∧ 2 < nPol then 3 else j) r }

/-- The data after the tests of the polarisations (calibration_utils.py 424-450), `none` when the file is skipped. -/
def bpJones (c : BpFile) (o : BpObs) : Py (Option BpFile) :=
  if c.nJones < o.nPol then .ok none
  else
    let c := { c with nJones := o.nPol }
    if c.xorient = "north" ∨ c.xorient = "south" then
      if c.nJones < 2 ∨ (2 < o.nPol ∧ c.nJones < 4) then .error .indexError
      else .ok (some (orientJones c o.nPol))
    else .ok (some c)

/-- The adaptation to the channels of the observation (calibration_utils.py 452-527). Averaging down indexes with the positions of
flagged entries, of which the first must exist, and then slices with floats (a `TypeError`). Interpolating reads the array with its
axes in the wrong order and writes beyond the last channel: for three channels or more this is a `ValueError`; smaller observations
are taken to raise it too. Positions of flagged entries beyond an axis (`IndexError` instead of `TypeError`) are not modelled. -/
def bpChannels (c : BpFile) (o : BpObs) : Py (Option BpFile) :=
  if c.chwidth = o.freqRes then .ok (some c)
  else
    let factor := o.freqRes / c.chwidth
    let test := if 1 ≤ factor then factor - ⌊factor⌋ else 1 / factor - ⌊1 / factor⌋
    if test ≠ 0 then .ok none
    else if c.freqStart ≠ o.freq0 then .ok none
    else if 1 < factor then
      if c.nArr < 3 then .error .indexError
      else if ∃ a ∈ List.range c.nAnt, ∃ f ∈ List.range c.nFreq, ∃ t ∈ List.range c.nTime, ∃ j ∈ List.range c.nJones, |c.data a f t j 2| = 1
      then .error .typeError
      else .error .indexError
    else .error .valueError

/-- The choice of a time (calibration_utils.py 529-657). Files per pointing compare the delays of the observation, which are strings
(obs.py 333), with numbers, so that no pointing is found. The average over time reads an attribute of a dictionary. Otherwise a
single time is selected, which leaves an array of four axes: the result says that it has to be skipped (`none`) or that the axis of
times is missing (`false`). All entries of `time_array` are the same. -/
def bpTimes (c : BpFile) (o : BpObs) : Py (Option Bool) :=
  if c.nTime = 1 then .ok (some true)
  else if (c.inttime < 2000 ∧ 1600 < c.inttime) ∨ (c.timeDelt < 2000 ∧ 1600 < c.timeDelt) then .ok none
  else if ⌊c.timeDelt⌋ = ⌊o.timeRes⌋ then .error .attributeError
  else if c.nTime = 0 then .error .indexError
  else
    let delta := c.inttime / (60 * 60 * 24)
    let t := c.timeStart + delta
    if o.julian < t - 2 * delta ∨ t + 2 * delta < o.julian then .ok none else .ok (some false)

/-- The index in an array of shape `dims` of the entry with index `idx` of the array without its axes of length one (`np.squeeze`). -/
def fillAxes : List ℕ → List ℕ → List ℕ
  | [], _ => []
  | d :: ds, is =>
    if d = 1 then 0 :: fillAxes ds is
    else match is with
      | [] => 0 :: fillAxes ds []
      | i :: is => i :: fillAxes ds is

/-- Conversion to an integer, towards zero. -/
def truncInt (x : ℚ) : ℤ := if 0 ≤ x then ⌊x⌋ else ⌈x⌉

/-- The bandpass gains at polarisation, tile and channel, and the remaining gains at polarisation, channel and tile; `none` when not
finite. -/
structure BpOut (K : Type) where
  gain : ℕ → ℕ → ℕ → ℤ
  rem : ℕ → ℕ → ℕ → Option K

/-- The gains of the bandpass (calibration_utils.py 665-674): `gain` is made from the integer `cal_gain_init`, so that the complex
values assigned to it lose their imaginary parts and are truncated. The array assigned has the axes antenna, channel, polarisation
and must have the shape of the last axes of `gain`. -/
def bpGains (c : BpFile) (o : BpObs) : Py (ℕ → ℕ → ℕ → ℤ) :=
  let src := [c.nAnt, c.nFreq, o.nPol]
  let m := (src.filter (· ≠ 1)).length
  if src.filter (· ≠ 1) = [min o.nPol 2, o.nTile, o.nFreq].drop (3 - m) then
    .ok fun p t f =>
      match fillAxes src ([p, t, f].drop (3 - m)) with
      | [a, g, j] => truncInt (c.data a g 0 j 0)
      | _ => 0
  else .error .valueError

section

variable {K : Type} [Field K]

/-- `transfer_bandpass` (calibration_utils.py 322-689) for a calibration with `min(n_pol, 2)` polarisations and gains at polarisation,
channel and tile; `none` when it is skipped (a missing file, `file = none`, or a `RuntimeWarning`). -/
def transferBandpass (file : Option BpFile) (o : BpObs) (cal : ℕ → ℕ → ℕ → K) : Py (Option (BpOut K)) :=
  match file with
  | none => .ok none
  | some c =>
    if c.delay then .ok none
    else do
      let lay ← layoutOf c.types
      if lay = .other ∨ (lay = .fall2018 ∧ c.nWin ≠ 1) then .ok none
      else
        let c1 := if lay = .fall2018 then dropWindow c else c
        match ← bpJones c1 o with
        | none => .ok none
        | some c2 =>
          match ← bpChannels c2 o with
          | none => .ok none
          | some c3 =>
            match ← bpTimes c3 o with
            | none => .ok none
            | some hasTime =>
              if c1.nAnt ≠ o.nTile then .ok none
              else if hasTime = false then .error .indexError
              else do
                let g ← bpGains c3 o
                if o.nFreq = o.nTile then
                  .ok (some ⟨g, fun p f t => if g p f t = 0 then none else some (cal p f t / (g p f t : K))⟩)
                else .error .valueError

/-- The bandpass and the remaining gains (calibration_utils.py 724-733 and the rest of the function): those of the file, or what
`vis_cal_bandpass` computes otherwise (`fit`, C37). -/
def bandpassStep {O : Type} (file : Option (Option BpFile)) (o : BpObs) (cal : ℕ → ℕ → ℕ → K) (ofFile : BpOut K → O) (fit : Py O) : Py O :=
  match file with
  | none => fit
  | some f => do
    match ← transferBandpass f o cal with
    | some out => .ok (ofFile out)
    | none => fit

end

end PyFHD
