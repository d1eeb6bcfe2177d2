import Verif.Model.Arrays
import Mathlib.Algebra.Star.Basic

/-!
# Model of calibration_utils.py: applying gains, auto-correlation ratios, bandpass, adaptive gain

Arrays are functions of their indices (polarisation, frequency, tile or baseline sample) with the
shapes as separate parameters. Arithmetic is exact.
-/

namespace PyFHD

/-! ## `vis_calibration_apply` -/

section Apply

variable {K R : Type} [Field K] [StarRing K] [DecidableEq K] [Field R] [LinearOrder R]

/-- The inputs of `vis_calibration_apply`. `mag` is the absolute value; `nTimes` is
`obs.get("n_times")`; `model` and `weights` are given when they are arrays. -/
structure CalApplyIn (K R : Type) where
  mag : K → R
  re : K → R
  nPolVis : ℕ
  nPolGain : ℕ
  nFreq : ℕ
  nTile : ℕ
  tileA : List ℤ
  tileB : List ℤ
  gain : ℕ → ℕ → ℕ → K
  vis : ℕ → ℕ → ℕ → K
  model : Option (ℕ → ℕ → ℕ → K)
  weights : Option (ℕ → ℕ → ℕ → K)
  clip : K → K
  nTimes : Option ℕ

/-- Row of the gains for a tile number (calibration_utils.py 1396-1397 and 1411-1421): the number
minus 1, negative values counting from the end. -/
def tileRow (nTile : ℕ) (t : ℤ) : Option ℕ := pyIndex nTile (t - 1)

/-- `gain_pol_arr1` and `gain_pol_arr2` (calibration_utils.py 1400-1401). -/
def gainPol : List (ℕ × ℕ) := [(0, 0), (1, 1), (0, 1), (1, 0)]

/-- One product of the visibilities divided by the gains (calibration_utils.py 1416-1423), with the
gains of polarisations `p1`, `p2` and the rows `ra`, `rb` of the tiles. -/
def applyPol (c : CalApplyIn K R) (p p1 p2 : ℕ) (ra rb : List ℕ) : ℕ → ℕ → K := fun f b =>
  c.vis p f b * weightInvertEntry c.mag c.re true none false
    (c.gain p1 f (ra.getD b 0) * star (c.gain p2 f (rb.getD b 0)))

/-- The products that have been divided (calibration_utils.py 1415-1423): `IndexError` for a fifth
product or for gains without the second polarisation. -/
def applyPols (c : CalApplyIn K R) (ra rb : List ℕ) : Py (ℕ → ℕ → ℕ → K) :=
  if ∀ p < c.nPolVis, ∃ q, gainPol[p]? = some q ∧ q.1 < c.nPolGain ∧ q.2 < c.nPolGain then
    .ok fun p => match gainPol[p]? with
      | some q => applyPol c p q.1 q.2 ra rb
      | none => c.vis p
  else .error .indexError

/-- `vis_sum`, whose argument is the cross phase (calibration_utils.py 1438-1470): the visibilities
`xy`, `yx` and models are summed over time with clipped weights, and only entries with a nonzero
total weight are used. The rounding of `len(tile_a_i) / n_times` is that of natural numbers. -/
def crossPhaseSum (c : CalApplyIn K R) (vis model weights : ℕ → ℕ → ℕ → K) (nTimes : ℕ) : K :=
  let nb := c.tileA.length / nTimes
  let w := fun f t b => c.clip (weights 0 f (t * nb + b))
  let avg := fun (a : ℕ → ℕ → K) f b =>
    ((List.range nTimes).map fun t => a f (t * nb + b) * w f t b).sum
  let use := ((List.range c.nFreq).flatMap fun f => (List.range nb).map fun b => (f, b)).filter
    fun q => ((List.range nTimes).map fun t => w q.1 t q.2).sum ≠ 0
  (use.map fun q => star (avg (vis 2) q.1 q.2) * avg (model 2) q.1 q.2).sum
    + (use.map fun q => avg (vis 3) q.1 q.2 * star (avg (model 3) q.1 q.2)).sum

/-- `vis_calibration_apply` (calibration_utils.py 1354-1481): the visibilities and `vis_sum`. Line
1438 reads `obs["n_times"]`; lines 1478-1479 multiply by `exp(0)`. -/
def visCalibrationApply (c : CalApplyIn K R) : Py ((ℕ → ℕ → ℕ → K) × Option K) := do
  let some ra := c.tileA.mapM (tileRow c.nTile) | .error .indexError
  let some rb := c.tileB.mapM (tileRow c.nTile) | .error .indexError
  let vis ← applyPols c ra rb
  if c.nPolVis = 4 then
    let sum ← match c.model, c.weights with
      | some m, some w => match c.nTimes with
        | none => .error .keyError
        | some nt => if nt = 0 then .error .zeroDivision else .ok (some (crossPhaseSum c vis m w nt))
      | _, _ => .ok none
    return (fun p f b => if p = 2 ∨ p = 3 then vis p f b * 1 else vis p f b, sum)
  else return (vis, none)

end Apply

/-! ## `cal_auto_ratio_divide` and `cal_auto_ratio_remultiply` -/

section AutoRatio

variable {K R : Type} [Field K] [Field R] [LinearOrder R]

/-- The auto ratios of `cal_auto_ratio_divide` (calibration_utils.py 1587-1594). `junk` is the content of
`np.empty`; `sqrt` is the square root; `autos` has one row per auto-correlation. The reference
is the row `auto_tile_i[ref_antenna]`, out of range an `IndexError`. -/
def autoRatio (sqrt : R → R) (nFreq nPol nAuto : ℕ) (refAntenna : ℕ) (autoTile : List ℕ)
    (autos junk : ℕ → ℕ → ℕ → R) : Py (ℕ → ℕ → ℕ → R) :=
  match autoTile[refAntenna]? with
  | none => .error .indexError
  | some r =>
    if r < nAuto then
      .ok fun p f t =>
        if p < nPol ∧ f < nFreq then
          match (List.range autoTile.length).filter fun k => autoTile.getD k 0 = t with
          | [] => junk p f t
          | k :: _ => sqrt (autos p f k
              * weightInvertEntry (fun x : R => |x|) id false none false (autos p f r))
        else junk p f t
    else .error .indexError

/-- `cal_auto_ratio_divide` (calibration_utils.py 1555-1596): every tile's gains are multiplied by the
inverse of its ratio. `cast` reads a real number as a gain. -/
def autoRatioDivide (cast : R → K) (nPol : ℕ) (ratio : ℕ → ℕ → ℕ → R) (gain : ℕ → ℕ → ℕ → K) :
    ℕ → ℕ → ℕ → K := fun p f t =>
  if p < nPol then
    gain p f t * cast (weightInvertEntry (fun x : R => |x|) id false none false (ratio p f t))
  else gain p f t

/-- `cal_auto_ratio_remultiply` (calibration_utils.py 1599-1627): the gains of the tiles with
auto-correlations are multiplied by the absolute value of their ratio. -/
def autoRatioRemultiply (cast : R → K) (nPol : ℕ) (ratio : ℕ → ℕ → ℕ → R) (autoTile : List ℕ)
    (gain : ℕ → ℕ → ℕ → K) : ℕ → ℕ → ℕ → K := fun p f t =>
  if p < nPol ∧ t ∈ autoTile then gain p f t * cast |ratio p f t| else gain p f t

end AutoRatio

/-! ## `vis_cal_bandpass` -/

section Bandpass

variable {K R : Type} [Field K] [DecidableEq K] [Field R] [DecidableEq R]

/-- NumPy `a / b`: not finite for a zero divisor, modelled as `none`. -/
def npDiv (a b : K) : Option K := if b = 0 then none else some (a / b)

/-- The bandpass of a group of tiles at frequency `f` (calibration_utils.py 783-798 and 822-837): the
robust mean over the tiles of the gain amplitudes, each normalised by the robust mean of the
tile's amplitudes over the used frequencies. `rmean` is `resistant_mean(., 2)`, a parameter;
`mag` the absolute value. -/
def bandpassSingle (mag : K → R) (rmean : List R → R) (gain : ℕ → ℕ → K)
    (freqUse tiles : List ℕ) (f : ℕ) : R :=
  rmean (tiles.map fun t =>
    let m := rmean (freqUse.map fun f => mag (gain f t))
    if m ≠ 0 then mag (gain f t) / m else 0)

/-- Bandpass and remainder of one polarisation. An entry of the remainder is `none` when the division
gives no finite number. -/
structure BandpassOut (K : Type) where
  bandpass : ℕ → ℕ → K
  remainder : ℕ → ℕ → Option K

/-- `vis_cal_bandpass` without cable groups (calibration_utils.py 819-849): all tiles, used or not, get
the same bandpass. `cast` reads a real number as a gain. -/
def bandpassGlobal (cast : R → K) (mag : K → R) (rmean : List R → R) (gain : ℕ → ℕ → K)
    (freqUse tileUse : List ℕ) : BandpassOut K :=
  let bp := fun f => cast (bandpassSingle mag rmean gain freqUse tileUse f)
  { bandpass := fun f _ => if f ∈ freqUse then bp f else 0
    remainder := fun f t => if f ∈ freqUse then npDiv (gain f t) (bp f) else some (gain f t) }

/-- The tiles averaged for one cable length (calibration_utils.py 746-774). -/
def cableTiles (global : Bool) (cable : ℕ → ℕ) (tileUse : List ℕ) (c : ℕ) : List ℕ :=
  if global then tileUse else tileUse.filter fun t => cable t = c

/-- One pass of the loop over the cable lengths (calibration_utils.py 768-806): `gain2`. -/
def cableStep (cast : R → K) (mag : K → R) (rmean : List R → R) (gain : ℕ → ℕ → K)
    (freqUse tileUse : List ℕ) (cable : ℕ → ℕ) (global : Bool) (gain2 : ℕ → ℕ → K) (c : ℕ) :
    ℕ → ℕ → K :=
  let tiles := cableTiles global cable tileUse c
  fun f t => if f ∈ freqUse ∧ t ∈ tiles
    then cast (bandpassSingle mag rmean gain freqUse tiles f) else gain2 f t

/-- `vis_cal_bandpass` with cable groups (calibration_utils.py 738-817): `cables` are the distinct cable
lengths, `cable` that of a tile. The global bandpass is used when a group has no used tile (754-758)
or for the auto ratio calibration (765-767). -/
def bandpassCable (cast : R → K) (mag : K → R) (rmean : List R → R) (gain : ℕ → ℕ → K)
    (freqUse tileUse cables : List ℕ) (cable : ℕ → ℕ) (autoRatioCal : Bool) : BandpassOut K :=
  let global := autoRatioCal || cables.any fun c => (tileUse.filter fun t => cable t = c).isEmpty
  let gain2 := cables.foldl (cableStep cast mag rmean gain freqUse tileUse cable global)
    fun _ _ => 0
  { bandpass := gain2
    remainder := fun f t => if f ∈ freqUse then npDiv (gain f t) (gain2 f t)
      else some (gain f t) }

end Bandpass

/-! ## `calculate_adaptive_gain` -/

section Adaptive

variable {R : Type} [Field R] [LinearOrder R]

/-- NumPy `median`: mean of the two middle entries of the sorted list. -/
def npMedian (l : List R) : R :=
  let s := l.insertionSort (· ≤ ·)
  (s.getD ((l.length - 1) / 2) 0 + s.getD (l.length / 2) 0) / 2

/-- The estimate of the final convergence (calibration_utils.py 1683-1693), for nonzero gains: the median
of the last four (or fewer) single estimates. -/
def finalConvergence (gains conv : List R) (iter : ℕ) : R :=
  npMedian (((List.range (iter - 1)).map fun i =>
    max 0 (((1 + gains.getD i 0) * conv.getD (i + 1) 0 - conv.getD i 0) / gains.getD i 0)).drop
      (iter - 5))

/-- The new gain after the first iterations (calibration_utils.py 1694-1716). `none` is NaN: `0/0`; a
nonzero number over zero is infinite, which makes `new_gain` minus infinity and leaves the lower
bound. `base + last` is taken to be nonzero. -/
def adaptiveGain (gains conv : List R) (iter : ℕ) (base final : R) : Option R :=
  let last := gains.getD (iter - 1) 0
  let lastConv := conv.getD (iter - 2) 0
  let newConv := conv.getD (iter - 1) 0
  let predicted := (final * last + lastConv) / (base + last)
  let den := (lastConv - final) / (base + last)
  if den = 0 then (if predicted - newConv = 0 then none else some (base / 2))
  else
    let delta := (predicted - newConv) / den
    some (max (base / 2) ((1 - |delta| + last) / 2))

/-- `calculate_adaptive_gain` (calibration_utils.py 1630-1722): the gain (`none` for NaN) and the gain list
with the gain stored at `iter`. Lists shorter than `iter` are an `IndexError`. -/
def calculateAdaptiveGain (gains conv : List R) (iter : ℕ) (base : R) (final : Option R) :
    Py (Option R × List (Option R)) :=
  if iter < gains.length ∧ (2 < iter → iter ≤ conv.length) then
    let g := if 2 < iter then
        adaptiveGain gains conv iter base (final.getD (finalConvergence gains conv iter))
      else some base
    .ok (g, (gains.map some).set iter g)
  else .error .indexError

end Adaptive

end PyFHD
