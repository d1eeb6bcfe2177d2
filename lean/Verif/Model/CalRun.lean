import Verif.Model.CalSolve

/-!
# Model of the whole of `vis_calibrate_subroutine`

The visibilities that enter the solver (average over time, limits of baseline length, flags), the tiles and channels solved for,
and what is written into the gains. `calibration_weights` is not set (`calibrate` does not). Visibilities are numbers; if the
gains become NaN the outcome is not modelled (`none`).
-/

namespace PyFHD

variable {K R : Type} [Field K] [StarRing K] [DecidableEq K] [Field R] [LinearOrder R]

/-- The arguments and options. Visibilities and weights are indexed by polarisation, channel and sample (baseline `b` at time `t` is
sample `t * nBl + b`); tiles are counted from zero. `norm x y` is the square root of `x ** 2 + y ** 2`. -/
structure CalRunIn (K R : Type) where
  mag : K → R
  cast : R → K
  norm : R → R → R
  nPol : ℕ
  nFreq : ℕ
  nTile : ℕ
  nTime : ℕ
  nBl : ℕ
  vis : ℕ → ℕ → ℕ → K
  model : ℕ → ℕ → ℕ → K
  weight : ℕ → ℕ → ℕ → R
  tileA : ℕ → ℕ
  tileB : ℕ → ℕ
  tileUse : ℕ → Bool
  freqUse : ℕ → Bool
  uu : ℕ → R
  vv : ℕ → R
  freq : ℕ → R
  kpix : R
  dimension : R
  elements : R
  minBaseline : R
  maxBaseline : R
  minCal : R
  maxCal : R
  timeAverage : Bool
  gain : ℕ → ℕ → ℕ → K
  maxIter : ℕ
  phaseFitIter : ℕ
  thresh : R
  adaptive : Bool
  base : R
  noRef : Bool

namespace CalRunIn

variable (c : CalRunIn K R)

/-- The shortest baseline (vis_calibrate_subroutine.py 64-68); an option of zero counts as not given. -/
def minLen : R := if c.minCal = 0 then c.minBaseline else max c.minCal c.minBaseline

/-- The longest baseline (vis_calibrate_subroutine.py 69-73). -/
def maxLen : R := if c.maxCal = 0 then c.maxBaseline else min c.maxCal c.maxBaseline

/-- The number of iterations that fit phases only (vis_calibrate_subroutine.py 114-118). -/
def phaseIter : ℕ := if c.phaseFitIter = 0 then min (c.maxIter / 4) 4 else c.phaseFitIter

/-- The number of baselines after averaging (vis_calibrate_subroutine.py 135-169). -/
def nB : ℕ := if c.timeAverage then c.nBl else c.nBl * c.nTime

/-- The samples averaged into baseline `b` (vis_calibrate_subroutine.py 144-156, the reshaped arrays). -/
def samplesOf (b : ℕ) : List ℕ := if c.timeAverage then (List.range c.nTime).map fun t => t * c.nBl + b else [b]

/-- Weights are clipped to the range from 0 to 1 (vis_calibrate_subroutine.py 149-151, 162-163). -/
def clip (p f s : ℕ) : R := min (max (c.weight p f s) 0) 1

/-- `flag_dist_cut` (vis_calibrate_subroutine.py 171-175 and 196-201): too short or too long, or beyond half of the uv plane (the limits
of the two axes exchanged). -/
def isCut (f b : ℕ) : Bool :=
  let kx := c.uu b / c.kpix
  let ky := c.vv b / c.kpix
  let dist := c.norm kx ky * c.freq f * c.kpix
  decide (dist < c.minLen ∨ c.maxLen < dist ∨ c.elements / 2 < |kx| * c.freq f ∨ c.dimension / 2 < |ky| * c.freq f)

/-- The weight of a baseline (vis_calibrate_subroutine.py 156, 166 and 205-206). -/
def blWeight (p f b : ℕ) : R := if c.isCut f b then 0 else ((c.samplesOf b).map (c.clip p f)).sum

/-- The weighted average of an array of visibilities (vis_calibrate_subroutine.py 152-155, 164-165 and 207-208). -/
def average (p : ℕ) (x : ℕ → ℕ → ℕ → K) (f b : ℕ) : K :=
  ((c.samplesOf b).map fun s => x p f s * c.cast (c.clip p f s)).sum * c.cast (invR (c.blWeight p f b))

/-- The channels solved for (vis_calibrate_subroutine.py 211, 213 and 215). -/
def freqs (p : ℕ) : List ℕ := (List.range c.nFreq).filter fun f =>
  decide (0 < ((List.range c.nB).map (c.blWeight p f)).sum) && c.freqUse f

/-- The baselines in use (vis_calibrate_subroutine.py 214 and 216). -/
def bls (p : ℕ) : List ℕ := (List.range c.nB).filter fun b =>
  decide (((List.range c.nFreq).map fun f => c.blWeight p f b).sum ≠ 0)

/-- The tiles solved for (vis_calibrate_subroutine.py 217-219). -/
def tiles (p : ℕ) : List ℕ := solveTiles c.nTile ((c.bls p).map c.tileA) ((c.bls p).map c.tileB) c.tileUse

/-- The tiles set to NaN (vis_calibrate_subroutine.py 220-222): flagged and without a baseline in use. -/
def nanTile (p t : ℕ) : Bool :=
  decide (((c.bls p).map c.tileA).count t + ((c.bls p).map c.tileB).count t = 0) && !c.tileUse t

/-- The baselines that enter the solver at a channel (vis_calibrate_subroutine.py 225-237 and 259-264). -/
def blData (p f : ℕ) : List (CalBaseline K R) :=
  let posA := tilePositions (c.tiles p) ((c.bls p).map c.tileA)
  let posB := tilePositions (c.tiles p) ((c.bls p).map c.tileB)
  List.zipWith (fun ab b => ⟨ab.1, ab.2, c.average p c.vis f b, c.average p c.model f b, c.blWeight p f b⟩)
    (posA.zip posB) (c.bls p)

/-- The position of the reference tile, tile 1 if it is solved for, else the first (vis_calibrate_subroutine.py 59 and
239-248). -/
def refPos (p : ℕ) : ℕ := if 1 ∈ c.tiles p then (c.tiles p).idxOf 1 else 0

/-- The input of the solver at a channel. -/
def solveIn (p f : ℕ) : SolveIn K R where
  mag := c.mag
  cast := c.cast
  nTile := (c.tiles p).length
  eqs := doubleEqs (c.blData p f)
  wts := none
  maxIter := c.maxIter
  phaseIter := c.phaseIter
  thresh := c.thresh
  adaptive := c.adaptive
  base := c.base
  refTile := c.refPos p
  noRef := c.noRef

end CalRunIn

/-- The results for a polarisation (vis_calibrate_subroutine.py 444-447); `none` is NaN. -/
structure CalRunPol (K R : Type) where
  gain : ℕ → ℕ → Option K
  convergence : ℕ → ℕ → R
  iter : ℕ → ℕ → ℕ
  nConverged : ℕ

/-- Whether a channel counts as converged (vis_calibrate_subroutine.py 378 and 385). -/
def SolveStop.isConverged : SolveStop → Bool
  | .converged => true
  | .loose _ => true
  | _ => false

/-- One polarisation (vis_calibrate_subroutine.py 124-447). Without tiles `tile_use[0]` is an `IndexError` (242; `histogram` may raise
before); without channels `gain_curr` has no value in the first polarisation (433). The treatment of NaN in 433-440 looks at the last
channel only and is not modelled. -/
def calRunPol (c : CalRunIn K R) (p : ℕ) : Py (Option (CalRunPol K R)) := do
  if (c.tiles p).isEmpty then .error .indexError
  else if (c.freqs p).isEmpty && p == 0 then .error .nameError
  else
    let outs ← (c.freqs p).mapM fun f => solve (c.solveIn p f) ((c.tiles p).map (c.gain p f))
    match outs.mapM id with
    | none => return none
    | some rs =>
      let at? (f : ℕ) : Option (SolveOut K R) := if f ∈ c.freqs p then rs[(c.freqs p).idxOf f]? else none
      return some {
        gain := fun f t =>
          if t < c.nTile ∧ c.nanTile p t = true then none
          else if t ∈ c.tiles p then
            match at? f with
            | some r => r.gain[(c.tiles p).idxOf t]?
            | none => some (c.gain p f t)
          else some (c.gain p f t)
        convergence := fun f t =>
          if t ∈ c.tiles p then
            match at? f with
            | some r => r.convergence.getD ((c.tiles p).idxOf t) 0
            | none => 0
          else 0
        iter := fun f t =>
          if t ∈ c.tiles p then
            match at? f with
            | some r => r.iter
            | none => 0
          else 0
        nConverged := (rs.filter fun r => r.stop.isConverged).length }

/-- The results of the routine: the polarisations and `n_vis_cal`. -/
structure CalRunOut (K R : Type) where
  pols : List (CalRunPol K R)
  nVisCal : ℕ

/-- `n_vis_cal` (vis_calibrate_subroutine.py 449): `weight` is that of the last polarisation. -/
def nVisCal (c : CalRunIn K R) : ℕ :=
  ((List.range c.nFreq).map fun f =>
    ((List.range c.nB).filter fun b => decide (c.blWeight (c.nPol - 1) f b ≠ 0)).length).sum

/-- `vis_calibrate_subroutine` (vis_calibrate_subroutine.py 9-451). -/
def calRun (c : CalRunIn K R) : Py (Option (CalRunOut K R)) := do
  let pols ← (List.range c.nPol).mapM (calRunPol c)
  match pols.mapM id with
  | none => return none
  | some ps => return some ⟨ps, nVisCal c⟩

end PyFHD
