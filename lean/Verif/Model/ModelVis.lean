import Verif.Model.Arrays

/-!
# Model of `flag_model_visibilities` (source_modeling/vis_model_transfer.py)

The function moves whole columns (all polarisations and channels of one sample); a column is an element
of an arbitrary type `V`.
-/

namespace PyFHD

/-- The entries `time`, `antenna1` and `antenna2` of `params`, one per sample. -/
structure VisParams where
  time : List ℚ
  ant1 : List ℕ
  ant2 : List ℕ

/-- `_FlaggingInfoCounter` (vis_model_transfer.py 169-224). -/
structure FlagInfo where
  uniqueTimes : List ℚ
  numVisis : ℕ
  antNames : List ℕ
  numAutos : ℕ
  numAutosPerTime : ℕ
  numCrossPerTime : ℕ
  perStep : ℕ
  crossLocs : List ℕ
  autoLocs : List ℕ
  ant1 : List ℕ
  ant2 : List ℕ

/-- `np.where(mask)[0]`. -/
def whereTrue (mask : List Bool) : List ℕ :=
  (List.range mask.length).filter fun i => mask.getD i false

/-- The constructor of `_FlaggingInfoCounter` (vis_model_transfer.py 172-224). The two antenna
arrays are taken to have the same length. -/
def flagInfo (p : VisParams) : FlagInfo :=
  let names := npUnique (npUnique p.ant1 ++ npUnique p.ant2)
  let autos := List.zipWith (fun a b => decide (a = b)) p.ant1 p.ant2
  let crosses := List.zipWith (fun a b => decide (a ≠ b)) p.ant1 p.ant2
  let numAutos := autos.countP id
  let perAuto := if numAutos = 0 then 0 else names.length
  let perCross := names.length * (names.length - 1) / 2
  { uniqueTimes := npUnique p.time
    numVisis := p.ant1.length
    antNames := names
    numAutos := numAutos
    numAutosPerTime := perAuto
    numCrossPerTime := perCross
    perStep := perCross + perAuto
    crossLocs := whereTrue (crosses.take (perCross + perAuto))
    autoLocs := whereTrue (autos.take (perCross + perAuto))
    ant1 := p.ant1.take (perCross + perAuto)
    ant2 := p.ant2.take (perCross + perAuto) }

/-- `np.min(np.abs(times - t))` (vis_model_transfer.py 274); `none` for an empty array, where NumPy raises. -/
def minDist (times : List ℚ) (t : ℚ) : Option ℚ := (times.map fun m => |m - t|).min?

/-- The scan of `np.argmin` over `np.abs(times - t)`: best index so far, its distance, next index. -/
def argminScan (t : ℚ) : List ℚ → ℕ → ℚ → ℕ → ℕ
  | [], best, _, _ => best
  | m :: ms, best, d, i => if |m - t| < d then argminScan t ms i |m - t| (i + 1)
      else argminScan t ms best d (i + 1)

/-- `np.argmin(np.abs(times - t))` (vis_model_transfer.py 302): the first index of the smallest distance. -/
def nearestTime (times : List ℚ) (t : ℚ) : Option ℕ :=
  match times with
  | [] => none
  | m :: ms => some (argminScan t ms 0 |m - t| 1)

/-- The offset in seconds (vis_model_transfer.py 270-285). `rnd` is `np.round(_, 2)`. `none` when one of the
arrays is empty. -/
def timeOffset (rnd : ℚ → ℚ) (dataTimes modelTimes : List ℚ) : Option ℚ :=
  match dataTimes.mapM (minDist modelTimes) with
  | none => none
  | some ds => if ds = [] then none else
      some (rnd ((ds.map fun d => d * 86400).sum / (ds.length : ℚ)))

/-- The model times after the correction for a constant offset (vis_model_transfer.py 290-294). -/
def shiftTimes (off timeRes : ℚ) (modelTimes : List ℚ) : List ℚ :=
  if 1 / 2 / 2 ≤ off ∧ off ≤ timeRes / 2 then modelTimes.map fun m => m + off / 86400 else modelTimes

/-- The model time step for each data time step (vis_model_transfer.py 270-319): `exit()` unless they are
different. Empty arrays: `np.min` of an empty array of model times raises; without data times the
function fails at `np.max` (376). -/
def matchTimes (rnd : ℚ → ℚ) (timeRes : ℚ) (dataTimes modelTimes : List ℚ) : Py (List ℕ) :=
  match timeOffset rnd dataTimes modelTimes with
  | none => .error .valueError
  | some off =>
    let shifted := shiftTimes off timeRes modelTimes
    let use := dataTimes.filterMap (nearestTime shifted)
    if dataTimes.length ≠ (npUnique use).length then .error .systemExit else .ok use

/-- `flag_indexes` (vis_model_transfer.py 369-388): the one-based indices of tiles without data. Tile
names are numbers. -/
def flagIndexes (tileNames : List ℕ) (dataNames : List ℕ) : List ℕ :=
  if dataNames.foldl max 0 > tileNames.length then
    ((List.range tileNames.length).filter fun i => decide (tileNames.getD i 0 ∉ dataNames)).map (· + 1)
  else
    ((List.range tileNames.length).map (· + 1)).filter fun n => decide (n ∉ dataNames)

/-- Assignment through an index array, `dst[idx] = vals`: `vals` is broadcast when it has one element, a different
number raises a `ValueError`, an index out of range an `IndexError`. -/
def fancyAssign {V : Type} (dst : List V) (idx : List ℕ) (vals : List V) : Py (List V) :=
  if idx.any fun i => decide (dst.length ≤ i) then .error .indexError
  else if vals.length = idx.length then
    .ok ((idx.zip vals).foldl (fun l iv => l.set iv.1 iv.2) dst)
  else
    match vals with
    | [v] => .ok (idx.foldl (fun l i => l.set i v) dst)
    | _ => .error .valueError

/-- Reading through an index array, `src[idx]`. -/
def fancyRead {V : Type} (src : List V) (idx : List ℕ) : Py (List V) :=
  match idx.mapM fun i => src[i]? with
  | none => .error .indexError
  | some l => .ok l

/-- One assignment of the loop over time steps (vis_model_transfer.py 432-441 and 445-454). -/
def copyStep {V : Type} (vis : List V) (dst : List V) (flagInds modelInds : List ℕ) : Py (List V) := do
  let vals ← fancyRead vis modelInds
  fancyAssign dst flagInds vals

/-- `include_per_time` (vis_model_transfer.py 397-405). -/
def includePerTime (flags : List ℕ) (m : FlagInfo) : List Bool :=
  List.zipWith (fun a b => decide (a ∉ flags) && decide (b ∉ flags)) m.ant1 m.ant2

/-- `include_auto_per_time` (vis_model_transfer.py 417-420): places in the list of included samples. -/
def includeAutoPerTime (flags : List ℕ) (m : FlagInfo) : List ℕ :=
  let kept := (List.zip m.ant1 m.ant2).filter fun ab => decide (ab.1 ∉ flags) && decide (ab.2 ∉ flags)
  whereTrue (kept.map fun ab => decide (ab.1 = ab.2))

/-- One pass of the loop over time steps (vis_model_transfer.py 429-454), for the model step `s.1` and the data
step `s.2`. -/
def flagModelStep {V : Type} (vis : List V) (d m : FlagInfo) (cross auto : List ℕ) (includeAutos : Bool)
    (dst : List V) (s : ℕ × ℕ) : Py (List V) := do
  let dst ← copyStep vis dst (d.crossLocs.map fun j => s.2 * d.perStep + j)
    (cross.map fun j => s.1 * m.perStep + j)
  if includeAutos then
    copyStep vis dst (d.autoLocs.map fun j => s.2 * d.perStep + j)
      (auto.map fun j => s.1 * m.perStep + j)
  else .ok dst

/-- `include_autos` (vis_model_transfer.py 342-358). -/
def includeAutos (m : FlagInfo) : Bool :=
  decide (m.numAutos ≠ 0 ∧ m.uniqueTimes.length * m.antNames.length ≤ m.numAutos)

/-- `flag_model_visibilities` (vis_model_transfer.py 227-456) for the columns `vis` of the model.
`timeRes` is `obs["time_res"]`. -/
def flagModelVisibilities {V : Type} [Zero V] (rnd : ℚ → ℚ) (timeRes : ℚ) (tileNames : List ℕ)
    (pd pm : VisParams) (vis : List V) : Py (List V) := do
  let d := flagInfo pd
  let m := flagInfo pm
  let use ← matchTimes rnd timeRes d.uniqueTimes m.uniqueTimes
  if m.antNames.length < d.antNames.length then .error .systemExit
  else
    let flags := flagIndexes tileNames d.antNames
    (use.zipIdx).foldlM (flagModelStep vis d m (whereTrue (includePerTime flags m))
      (includeAutoPerTime flags m) (includeAutos m)) (List.replicate d.numVisis 0)

end PyFHD
