import Verif.Model.CalApply

/-!
# Model of the gain solver, vis_calibrate_subroutine.py

The solution at one frequency. Gains, data and model visibilities lie in a field `K` with a
conjugation, absolute values in an ordered field `R`; `mag` is the absolute value and `cast` reads a
real number as an element of `K`. Data and model visibilities are numbers (no NaN).
-/

namespace PyFHD

variable {K R : Type} [Field K] [StarRing K] [DecidableEq K] [Field R] [LinearOrder R]

/-- A baseline in use at this frequency: the positions of its tiles in the list of used tiles, data,
model and weight. -/
structure CalBaseline (K R : Type) where
  a : ℕ
  b : ℕ
  data : K
  model : K
  weight : R

/-- An equation: `data = gain a * conj (gain b) * model`. -/
structure CalEq (K : Type) where
  a : ℕ
  b : ℕ
  data : K
  model : K

/-- The equations at one frequency (vis_calibrate_subroutine.py 259-278): every baseline, then every
baseline conjugated with its tiles swapped, where the weight is positive. -/
def doubleEqs (bl : List (CalBaseline K R)) : List (CalEq K) :=
  ((bl.filter fun x => 0 < x.weight).map fun x => ⟨x.a, x.b, x.data, x.model⟩)
    ++ (bl.filter fun x => 0 < x.weight).map fun x => ⟨x.b, x.a, star x.data, star x.model⟩

/-- The tiles solved for (vis_calibrate_subroutine.py 219): those with a baseline in use that are not
flagged. `as`, `bs` are the tiles of the baselines in use. -/
def solveTiles (nTile : ℕ) (as bs : List ℕ) (tileUse : ℕ → Bool) : List ℕ :=
  (List.range nTile).filter fun t => decide (0 < as.count t + bs.count t) && tileUse t

/-- Positions of the tiles of the baselines among the tiles solved for (vis_calibrate_subroutine.py
225-237): initially 0, then set for one solved tile after the other. The baselines found with
the reverse indices of the histogram are those of the tile (C02). -/
def tilePositions (tiles : List ℕ) (as : List ℕ) : List ℕ :=
  (List.range tiles.length).foldl
    (fun pos i => List.zipWith (fun a p => if a = tiles.getD i 0 then i else p) as pos)
    (as.map fun _ => 0)

/-- Options and data of the solver at one frequency. `wts` are the baseline weights of
`calibration_weights` (for all the doubled baselines), `refTile` the position of the reference
tile. -/
structure SolveIn (K R : Type) where
  mag : K → R
  cast : R → K
  nTile : ℕ
  eqs : List (CalEq K)
  wts : Option (List R)
  maxIter : ℕ
  phaseIter : ℕ
  thresh : R
  adaptive : Bool
  base : R
  refTile : ℕ
  noRef : Bool

/-- `weight_invert` of a non-negative real number. -/
def invR (x : R) : R := weightInvertEntry (fun x : R => |x|) id false none false x

/-- The least squares solution of `xs * g = ys` for one unknown (`np.linalg.lstsq`), of least norm:
zero if all of `xs` vanish. -/
def lstsq1 (xs ys : List K) : K :=
  let d := (xs.map fun x => star x * x).sum
  if d = 0 then 0 else (List.zipWith (fun x y => star x * y) xs ys).sum / d

/-- The weighted solution (vis_calibrate_subroutine.py 311-324): the weights are the first ones of the
list, not those of the equations. `none` when the denominator vanishes (NaN). -/
def weighted1 (cast : R → K) (w : List R) (xs ys : List K) : Option K :=
  let xd := List.zipWith (fun x (r : R) => star x * cast r) xs w
  npDiv (List.zipWith (fun y d => y * d) ys xd).sum (List.zipWith (fun x d => x * d) xs xd).sum

namespace SolveIn

variable (s : SolveIn K R)

/-- The equations of a tile (vis_calibrate_subroutine.py 281-289). -/
def eqsOf (t : ℕ) : List (CalEq K) := s.eqs.filter fun e => e.a = t

/-- `gain_new[tile_i]` (vis_calibrate_subroutine.py 307-330), zero for fewer than five equations. -/
def newGain (gain : List K) (t : ℕ) : Option K :=
  if 5 ≤ (s.eqsOf t).length then
    let xs := (s.eqsOf t).map fun e => e.model * star (gain.getD e.b 0)
    let ys := (s.eqsOf t).map fun e => e.data
    match s.wts with
    | some w => weighted1 s.cast w xs ys
    | none => some (lstsq1 xs ys)
  else some 0

/-- The gains at the start (vis_calibrate_subroutine.py 256 and 295-297): zero for tiles with fewer than
five equations. -/
def startGain (gain : List K) : List K :=
  (List.range s.nTile).map fun t => if (s.eqsOf t).length < 5 then 0 else gain.getD t 0

/-- The phase-only part (vis_calibrate_subroutine.py 337-339). -/
def phaseOnly (i : ℕ) (old : K) (new : Option K) : Option K :=
  if i < s.phaseIter then new.map fun n => n * s.cast (s.mag old * invR (s.mag n)) else new

/-- The damping factor (vis_calibrate_subroutine.py 340-349). `hist` holds the earlier factors, `none`
for NaN, which makes all later ones NaN; `stricts` are the earlier convergences. -/
def convGain (i : ℕ) (hist : List (Option R)) (stricts : List R) : Option R :=
  if s.adaptive then
    if 2 < i then
      match hist.getD (i - 1) none with
      | none => none
      | some _ => adaptiveGain (hist.map fun g => g.getD 0) stricts i s.base 0
    else some s.base
  else some s.base

/-- The damped gain of a tile (vis_calibrate_subroutine.py 350-362): the weighted average, replaced by
`(new + 2 old) / 3` if it is found to diverge, and by the old gain if it is not a number. The sum of the two factors is
taken to be nonzero. -/
def damp (cg : Option R) (old : K) (new : Option K) : K :=
  match cg, new with
  | some c, some n =>
    let curr := (n * s.cast c + old * s.cast s.base) / s.cast (s.base + c)
    if s.mag curr * invR (s.mag old) < s.mag old / 2 then (n + old * 2) / 3 else curr
  | _, _ => old

/-- Referencing the phases (vis_calibrate_subroutine.py 363-366): `none` (all gains NaN) if the gain of
the reference tile is zero. -/
def refer (gain : List K) : Option (List K) :=
  if s.noRef then some gain
  else
    let r := gain.getD s.refTile 0
    if r = 0 then none else some (gain.map fun g => g * (star r / s.cast (s.mag r)))

end SolveIn

/-- What one iteration of the solver gives: the sum of the new gains is zero (vis_calibrate_subroutine.py
333-336), the gains are not numbers, or new gains with the two measures of convergence. -/
inductive SolveStep (K R : Type)
  | allZero (gain : List K)
  | nan
  | ok (gain : List K) (cg : Option R) (strict loose : R)

/-- Relative change of the gains (vis_calibrate_subroutine.py 367-372). -/
def relChange (mag : K → R) (curr old : List K) : List R :=
  List.zipWith (fun c o => mag (c - o) * invR (mag o)) curr old

/-- One iteration (vis_calibrate_subroutine.py 303-374). -/
def solveStep (s : SolveIn K R) (i : ℕ) (gain : List K) (hist : List (Option R))
    (stricts : List R) : SolveStep K R :=
  let new := (List.range s.nTile).map (s.newGain gain)
  if new.all (fun g => g = some 0) then .allZero (new.map fun g => g.getD 0)
  else
    let new' := List.zipWith (s.phaseOnly i) gain new
    let cg := s.convGain i hist stricts
    match s.refer (List.zipWith (s.damp cg) gain new') with
    | none => .nan
    | some curr =>
      let d := relChange s.mag curr gain
      .ok curr cg (d.foldl max (d.headD 0)) (d.sum / (d.length : R))

/-- Why the solver stopped. -/
inductive SolveStop
  | zero | converged | loose (backed : Bool) | diverged | exhausted
  deriving DecidableEq, Repr

/-- The tests after iteration `i` (vis_calibrate_subroutine.py 375-416), with the convergences of the
earlier iterations. -/
def stopTest (s : SolveIn K R) (i : ℕ) (stricts : List R) (strict loose loosePrev : R) :
    Option SolveStop :=
  if s.phaseIter + 3 < i then
    if strict ≤ s.thresh then some .converged
    else if loosePrev ≤ loose then
      if loose ≤ s.thresh ∨ loosePrev ≤ s.thresh then some (.loose (decide (loose ≤ s.thresh)))
      else
        let t1 := match idlMedian (slice stricts (i - 4) i) with
          | .ok m => decide (m ≤ strict)
          | .error _ => false
        let t2 := stricts.any fun c => decide (c * (3 / 2) ≤ strict)
        if t1 || t2 then some .diverged else none
    else none
  else none

/-- What the solver leaves for one frequency: gains, iteration number (`conv_iter`), reason, the
reported convergence of every tile, and the two measures of convergence of all iterations. -/
structure SolveOut (K R : Type) where
  gain : List K
  iter : ℕ
  stop : SolveStop
  convergence : List R
  stricts : List R
  looses : List R

/-- The loop (vis_calibrate_subroutine.py 302-426); `fuel` is the number of iterations left after this
one, `none` means the gains are not numbers (the further course is not modelled). Lines 390-391
are without effect, being overwritten by 423-426. -/
def solveFrom (s : SolveIn K R) : ℕ → ℕ → List K → List (Option R) → List R → List R →
    Option (SolveOut K R)
  | fuel, i, gain, hist, stricts, looses =>
    match solveStep s i gain hist stricts with
    | .nan => none
    | .allZero g => some ⟨g, i, .zero, relChange s.mag g gain, stricts, looses⟩
    | .ok curr cg strict loose =>
      match stopTest s i stricts strict loose (looses.getLastD 0) with
      | some (.loose true) =>
        some ⟨gain, i, .loose true, relChange s.mag gain gain, stricts ++ [strict], looses ++ [loose]⟩
      | some .diverged =>
        some ⟨gain, i - 1, .diverged, gain.map fun _ => stricts.getLastD 0, stricts ++ [strict],
          looses ++ [loose]⟩
      | some st =>
        some ⟨curr, i, st, relChange s.mag curr gain, stricts ++ [strict], looses ++ [loose]⟩
      | none =>
        match fuel with
        | 0 =>
          some ⟨curr, i, .exhausted, relChange s.mag curr gain, stricts ++ [strict],
            looses ++ [loose]⟩
        | fuel + 1 =>
          solveFrom s fuel (i + 1) curr (hist ++ [cg]) (stricts ++ [strict]) (looses ++ [loose])

/-- Whether all tiles have the same number of equations, at least five (vis_calibrate_subroutine.py 281-293): `np.array(..., dtype=object)`
of index arrays of one shape is an array of three axes, whose rows hold objects. -/
def SolveIn.evenly (s : SolveIn K R) : Bool :=
  decide (0 < s.nTile ∧ 5 ≤ (s.eqsOf 0).length ∧ ∀ t < s.nTile, (s.eqsOf t).length = (s.eqsOf 0).length)

/-- The solver at one frequency (vis_calibrate_subroutine.py 254-432). Fewer than five iterations give
a warning only (83-92), as the test for less than one comes after it; with none at all line 417 reads a
variable that was never set. An array of objects is no index (`IndexError` in 312 or 326). -/
def solve (s : SolveIn K R) (gain : List K) : Py (Option (SolveOut K R)) :=
  match s.maxIter with
  | 0 => .error .nameError
  | n + 1 => if s.evenly then .error .indexError else .ok (solveFrom s n 0 (s.startGain gain) [] [] [])

end PyFHD
