import Verif.Model.CalStats

/-!
# Model of calibration_utils.py: calibration with the auto-correlations

`vis_extract_autocorr`, `vis_cal_auto_init` and `vis_cal_auto_fit`. Arrays are functions of their
indices. A value that may be `NaN` is an `Option`.
-/

namespace PyFHD

/-! ## `vis_extract_autocorr` -/

section Extract

variable {R : Type} [Field R]

/-- `autocorr_i` (calibration_utils.py 46-48). -/
def autoSamples (tileA tileB : List ℤ) : List ℕ :=
  (List.range tileA.length).filter fun b => tileA.getD b 0 = tileB.getD b 0

/-- `auto_tile_i` before the averaging (calibration_utils.py 50). -/
def autoTileOf (tileA tileB : List ℤ) : List ℤ :=
  (autoSamples tileA tileB).map fun b => tileA.getD b 0 - 1

/-- The auto-correlations: one column for each entry of `tiles`. -/
structure AutoCorr (R : Type) where
  tiles : List ℤ
  corr : ℕ → ℕ → ℕ → R

/-- `time_inds` (calibration_utils.py 69). -/
def timeInds (timeUse : List ℤ) : List ℕ :=
  (List.range timeUse.length).filter fun t => timeUse.getD t 0 ≠ 0

/-- The samples averaged for one tile (calibration_utils.py 71-72): positions in the list of
auto-correlations, an `IndexError` when a used time step is beyond the last one of the tile. -/
def autoTimes (tiles : List ℤ) (times : List ℕ) (t : ℤ) : Py (List ℕ) :=
  let bl := (List.range tiles.length).filter fun k => tiles.getD k 0 = t
  times.mapM fun i => match bl[i]? with
    | none => .error .indexError
    | some k => .ok k

/-- One tile averaged over time (calibration_utils.py 71-88) for one polarisation: `vals f k` is
`auto_vals`. With at most one used time step an array of shape `(n_freq, 1)` (or `(n_freq, 0)`) is
assigned to one of shape `(n_freq,)`, which fails unless both are 1. -/
def autoMean (nFreq : ℕ) (tiles : List ℤ) (times : List ℕ) (vals : ℕ → ℕ → R) (t : ℤ) :
    Py (ℕ → R) := do
  let ks ← autoTimes tiles times t
  match ks with
  | [] => .error .valueError
  | [k] => if nFreq = 1 then .ok fun f => vals f k else .error .valueError
  | _ => .ok fun f => (ks.map fun k => vals f k).sum / (times.length : R)

/-- `vis_extract_autocorr` (calibration_utils.py 18-96). `vis` is the real part of the visibilities; the
result without auto-correlations is `none`. -/
def extractAutocorr (nPol nFreq : ℕ) (tileA tileB timeUse : List ℤ) (timeAverage : Bool)
    (vis : ℕ → ℕ → ℕ → R) : Py (Option (AutoCorr R)) :=
  let smp := autoSamples tileA tileB
  let tiles := autoTileOf tileA tileB
  if smp = [] then .ok none
  else
    let vals : ℕ → ℕ → ℕ → R := fun p f k => vis p f (smp.getD k 0)
    if timeAverage then do
      let single := npUnique tiles
      let cols ← (List.range nPol).mapM fun p =>
        single.mapM (autoMean nFreq tiles (timeInds timeUse) (vals p))
      .ok (some ⟨single, fun p f k => (cols.getD p []).getD k (fun _ => 0) f⟩)
    else .ok (some ⟨tiles, vals⟩)

end Extract

/-! ## `vis_cal_auto_init` -/

section Init

variable {R : Type} [Field R] [LinearOrder R]

/-- The position in `auto_tile_i` that is written last for a tile. -/
def lastAuto (tiles : List ℕ) (t : ℕ) : Option ℕ :=
  ((List.range tiles.length).filter fun k => tiles.getD k 0 = t).getLast?

/-- `weight_invert` of a real number that may be `NaN` (pyfhd_utils.py 640-721): `NaN` gives 0. -/
def invNaN : Option R → R
  | none => 0
  | some x => weightInvertEntry (fun y : R => |y|) id false none false x

/-- Sum of values that may be `NaN`. -/
def sumNaN : List (Option R) → Option R
  | [] => some 0
  | x :: l => do let a ← x; let b ← sumNaN l; return a + b

/-- `np.mean` of values that may be `NaN`, for a non-empty list. -/
def meanNaN (l : List (Option R)) : Option R := (sumNaN l).map fun s => s / (l.length : R)

/-- The gains before the scaling (calibration_utils.py 152-159): the square root of the ratio of the data to the
model auto-correlation, 1 for tiles without one. `sqrt` is `none` (`NaN`) for negative numbers. -/
def autoGain0 (sqrt : R → Option R) (tiles : List ℕ) (autos models : ℕ → ℕ → Option R)
    (f t : ℕ) : Option R :=
  match lastAuto tiles t with
  | none => some 1
  | some k => (autos f k).bind fun a => sqrt (a * invNaN (models f k))

/-- The gains of one polarisation (calibration_utils.py 156-164): scaled by `scale` and the inverse of the mean,
`NaN` and numbers that are not positive replaced by 1. The gains of the source are complex
numbers with zero imaginary part. -/
def autoInitPol (sqrt : R → Option R) (nFreq nTile : ℕ) (tiles : List ℕ)
    (autos models : ℕ → ℕ → Option R) (scale : Option R) (f t : ℕ) : R :=
  let g := autoGain0 sqrt tiles autos models
  let mean := meanNaN ((samples nFreq nTile).map fun s => g s.1 s.2)
  match (g f t).bind fun x => scale.map fun s => x * (s * invNaN mean) with
  | none => 1
  | some x => if x ≤ 0 then 1 else x

/-- `vis_cal_auto_init` (calibration_utils.py 99-165). `scale p` is the square root of the ratio of the
resistant means of the data and the model (148-151); tiles out of range raise. -/
def visCalAutoInit (sqrt : R → Option R) (nFreq nTile : ℕ) (tiles : List ℕ)
    (autos models : ℕ → ℕ → ℕ → Option R) (scale : ℕ → Option R) : Py (ℕ → ℕ → ℕ → R) :=
  if ∀ t ∈ tiles, t < nTile then
    .ok fun p => autoInitPol sqrt nFreq nTile tiles (autos p) (models p) (scale p)
  else .error .indexError

end Init

/-! ## `vis_cal_auto_fit` -/

section Fit

variable {K R : Type} [Field K] [Field R] [LinearOrder R]

/-- The frequencies of the fit (calibration_utils.py 1291-1301): when some frequency is flagged, it and
its neighbours are left out. -/
def fitFreqs (nFreq : ℕ) (freqUse : ℕ → ℤ) : List ℕ :=
  let flagged := (List.range nFreq).filter fun f => freqUse f = 0
  if flagged = [] then (List.range nFreq).filter fun f => freqUse f ≠ 0
  else (List.range nFreq).filter fun f => freqUse f ≠ 0 ∧
    ∀ i ∈ flagged, ¬ (max 0 ((i : ℤ) - 1) ≤ f ∧ (f : ℤ) < min (nFreq : ℤ) (i + 2))

/-- Inputs of the fit of one polarisation. `mag` is the absolute value, `phase` the factor
`exp(1j * arctan2(...))`, `lstsq x y` the slope and offset found by `np.linalg.lstsq`; `auto f t`
is the square root of the ratio of data and model auto-correlation. -/
structure AutoFitIn (K R : Type) where
  mag : K → R
  phase : K → K
  cast : R → K
  lstsq : List R → List R → R × R
  nFreq : ℕ
  freqUse : ℕ → ℤ
  auto : ℕ → ℕ → Option R

/-- Slope and offset for tile `t` with the gains `gain` (calibration_utils.py 1318-1339): the data of the fit are
the frequencies without `NaN`. -/
def fitSingle (c : AutoFitIn K R) (gain : ℕ → ℕ → K) (t : ℕ) : R × R :=
  let fs := (fitFreqs c.nFreq c.freqUse).filter fun f => (c.auto f t).isSome
  c.lstsq (fs.map fun f => |(c.auto f t).getD 0|) (fs.map fun f => c.mag (gain f t))

/-- The gain of one frequency of tile `t` after the fit (calibration_utils.py 1342-1344), `none` for `NaN`. -/
def fitGain (c : AutoFitIn K R) (gain : ℕ → ℕ → K) (t f : ℕ) : Option K :=
  (c.auto f t).map fun a =>
    c.cast (|a| * (fitSingle c gain t).1 + (fitSingle c gain t).2) * c.phase (gain f t)

/-- Result of `vis_cal_auto_fit` for one polarisation: the gains and the arrays `fit_slope` and
`fit_offset`. -/
structure AutoFitOut (K R : Type) where
  gain : ℕ → ℕ → Option K
  slope : ℕ → R
  offset : ℕ → R

/-- The loop over the tiles with auto-correlations (calibration_utils.py 1315-1346), all different; `junk1`,
`junk2` are the contents of `np.empty`. Repeated tiles, whose second fit would start from the
result of the first, are not modelled. -/
def autoFitPol (c : AutoFitIn K R) (gain : ℕ → ℕ → K) (tiles : List ℕ) (junk1 junk2 : ℕ → R) :
    AutoFitOut K R :=
  { gain := fun f t => if t ∈ tiles then fitGain c gain t f else some (gain f t)
    slope := fun t => if t ∈ tiles then (fitSingle c gain t).1 else junk1 t
    offset := fun t => if t ∈ tiles then (fitSingle c gain t).2 else junk2 t }

/-- `cal["auto_scale"]` of one polarisation (calibration_utils.py 1347). -/
def autoScale (nTile : ℕ) (tiles : List ℕ) (o : AutoFitOut K R) : R :=
  ((List.range nTile).map o.slope).sum / (tiles.length : R)

/-- `cal["auto_params"]` (calibration_utils.py 1348-1350): of shape `(n_pol, n_pol, n_tile)`, row 0 the offsets
and row 1 the slopes; without a second row an `IndexError`. -/
def autoParams (nPol : ℕ) (o : ℕ → AutoFitOut K R) : Py (ℕ → ℕ → ℕ → R) :=
  if nPol < 2 then .error .indexError
  else .ok fun r p t => if r = 0 then (o p).offset t else (o p).slope t

end Fit

end PyFHD
