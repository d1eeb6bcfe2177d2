import Verif.Model.CalApply
import Verif.Model.Flagging

/-!
# Model of the statistics: `resistant_mean`, `vis_noise_calc`, `vis_baseline_hist`

Arithmetic is exact. A value that NumPy makes `NaN` is `none`. Standard deviations are represented by
their squares, so that no square root is needed.
-/

namespace PyFHD

/-! ## `resistant_mean` -/

section Resistant

variable {R : Type} [Field R] [LinearOrder R]

/-- `np.mean`, `NaN` for an empty array. -/
def npMeanO (l : List R) : Option R := if l = [] then none else some (l.sum / (l.length : R))

/-- `np.var`, the square of `np.std`, of a non-empty array. -/
def npVar (l : List R) : R :=
  (l.map fun x => (x - l.sum / (l.length : R)) ^ 2).sum / (l.length : R)

/-- `np.polyval(sigma_coeff, x)` with the default coefficients (pyfhd_utils.py 1020-1027). -/
def sigmaPoly (x : R) : R :=
  ((20142 / 1000000 * x - 23584 / 100000) * x + 90723 / 100000) * x - 15405 / 100000

/-- `deviationsX` and the correction of sigma (pyfhd_utils.py 1074-1076). -/
def sigmaCorr (dev : R) : R := if max dev 1 ≤ 9 / 2 then sigmaPoly (max dev 1) else 1

/-- `no_outliers` (pyfhd_utils.py 1059-1068). -/
def noOutliers (a : List R) (dev : R) : List R :=
  let m := npMedian a
  let mad := npMedian (a.map fun x => |x - m|) / (6745 / 10000)
  a.filter fun x => |x - m| ≤ dev * mad

/-- `resistant_mean` (pyfhd_utils.py 1016-1083) of a real array with the default constants. The test
`abs_dev <= abs(sigma * deviations)` (1077-1081) is written with squares. `NaN` for an empty
selection. Simplifications: complex arrays and negative `deviations` are not modelled; when
`no_outliers` is empty no element equals the median, so that nothing is selected, as in the source. -/
def resistantMean (a : List R) (dev : R) : Option R :=
  let m := npMedian a
  npMeanO (a.filter fun x =>
    (x - m) ^ 2 * sigmaCorr dev ^ 2 ≤ npVar (noOutliers a dev) * dev ^ 2)

end Resistant

/-! ## `vis_noise_calc` -/

/-- The used pairs at one frequency (pyfhd_utils.py 1329-1333). -/
def noisePairs (w : Weights) (e d : List ℕ) (p f : ℕ) : List (ℕ × ℕ) :=
  (e.zip d).filter fun q => max (w p f q.1) 0 * max (w p f q.2) 0 ≠ 0

/-- The square of the noise of one polarisation and frequency (pyfhd_utils.py 1325-1335): zero
without any used pair; `im` is the imaginary part of the visibilities. -/
def noiseSq (im : ℕ → ℕ → ℕ → ℚ) (w : Weights) (e d : List ℕ) (p f : ℕ) : ℚ :=
  let l := (noisePairs w e d p f).map fun q => im p f q.1 - im p f q.2
  if l = [] then 0 else npVar l / 2

/-- `vis_noise_calc` (pyfhd_utils.py 1290-1337): the squares of the noise. Given index arrays of
different lengths do not broadcast (a single index, which would, is not modelled); without index
arrays the weights are split first. -/
def visNoiseCalc (o : FlagObs) (nb : ℕ) (im : ℕ → ℕ → ℕ → ℚ) (w : Weights)
    (biUse : Option (List ℕ × List ℕ)) : Py (ℕ → ℕ → ℚ) :=
  if o.nTime < 2 then .ok fun _ _ => 0
  else match biUse with
    | some (e, d) =>
      if e.length ≠ d.length then .error .valueError
      else if ∀ b ∈ e ++ d, b < nb then .ok (noiseSq im w e d)
      else .error .indexError
    | none => match splitVisWeights o nb w with
      | .error err => .error err
      | .ok (.weightsOnly _) => .error .valueError
      | .ok (.pair w' e d) => .ok (noiseSq im w' e d)

/-! ## `vis_baseline_hist` -/

/-- `dist_arr` flattened (calibration_utils.py 1511-1516): the lengths of the baselines for every
frequency and sample. -/
def blDist (o : FlagObs) (q : UvParams) : List ℚ :=
  (samples o.nFreq o.nBl).map fun s => vwuDist o q s.1 s.2

/-- Mean ratio and square of the relative sigma of the samples `inds` of one bin (calibration_utils.py
1526-1544); `mag` is the absolute value. Line 1531 reduces the indices to the samples with a nonzero
model, but `model_vals` keeps the models of all samples of the bin: `ValueError` when the lengths
differ, unless a single one is left, which is broadcast. -/
def blBin {K S : Type} [Sub K] (mag : K → ℚ) (cal model : S → K) (inds : List S) : Py (ℚ × ℚ) :=
  let use := inds.filter fun i => 0 < mag (model i)
  let mean := (inds.map fun i => mag (model i)).sum / (inds.length : ℚ)
  if use.length = inds.length then
    -- 1526, 1532-1533: nothing in the bin, or nothing left
    if use = [] then .ok (0, 0)
    else
      let res := inds.map fun i => mag (cal i - model i)
      .ok (res.sum / (inds.length : ℚ) / mean, npVar res / mean ^ 2)
  else match use with
    | [] => .ok (0, 0)
    | [j] =>
      let res := inds.map fun i => mag (cal j - model i)
      .ok (res.sum / (inds.length : ℚ) / mean, npVar res / mean ^ 2)
    | _ => .error .valueError

/-- One polarisation of `vis_baseline_hist` (calibration_utils.py 1524-1547). -/
def blPol {K : Type} [Sub K] (o : FlagObs) (mag : K → ℚ) (cal model : ℕ → ℕ → K)
    (r : HistResult) : Py (List (ℚ × ℚ)) :=
  (List.range r.bins.length).mapM fun i => match riSlice r.ri i with
    | none => .error .indexError
    | some inds => blBin mag (fun s : ℕ × ℕ => cal s.1 s.2) (fun s => model s.1 s.2)
        (inds.map fun j => (samples o.nFreq o.nBl).getD j (0, 0))

/-- `vis_baseline_hist` (calibration_utils.py 1484-1552): for every polarisation and bin the mean ratio
and the square of the relative sigma. The histogram has bins of width 5 from the shortest to the
longest baseline. -/
def visBaselineHist {K : Type} [Sub K] (o : FlagObs) (q : UvParams) (mag : K → ℚ)
    (cal model : ℕ → ℕ → ℕ → K) : Py (List (List (ℚ × ℚ))) := do
  let r ← histogram (blDist o q) 5 none (some o.minBaseline) (some o.maxBaseline)
  (List.range o.nPol).mapM fun p => blPol o mag (cal p) (model p) r

end PyFHD
