import Verif.Model.Flagging

/-!
# Model of `vis_flag` (flagging/flagging.py 210-359)

Moduli of visibilities are given (`data`); standard deviations come from a parameter, `none` standing for the NaN of an
empty array; comparisons with NaN are false. Tile numbers are positive. Arrays have at least as many entries as the counts in `obs` say.
-/

namespace PyFHD

/-- The inputs of `vis_flag`. `data f b` is `data_abs`; `memory` is what `np.empty` finds in the
memory it gets. -/
structure VfIn (R : Type) where
  obs : FlagObs
  uu : ℕ → ℚ
  vv : ℕ → ℚ
  norm : ℚ → ℚ → ℚ
  data : ℕ → ℕ → R
  std : List R → Option R
  memory : ℕ → R

namespace VfIn

variable {R : Type} [Field R] [LinearOrder R] (v : VfIn R)

/-- `uv_dist` and the baselines that are cut (flagging.py 252-259). -/
def cutBaselines (mid : ℚ) (w : Weights) : Weights := fun p f b =>
  let d := v.norm (v.uu b) (v.vv b) * mid
  if p < v.obs.nPol ∧ (d < v.obs.minBaseline ∨ v.obs.maxBaseline < d) then 0 else w p f b

/-- The contribution of one polarisation to a figure of merit (flagging.py 276-279 and 285-287): the standard deviation of the
usable data if there are more than ten. Without NaN the deviation of a list that is not empty is a number. -/
def fomPol (w : Weights) (p : ℕ) (samples : List (ℕ × ℕ)) : R :=
  let use := samples.filter fun s => decide (0 < w p s.1 s.2 ∧ 0 < v.data s.1 s.2)
  if 10 < use.length then (v.std (use.map fun s => v.data s.1 s.2)).getD 0 else 0

/-- The samples of all channels at some baselines, row by row. -/
def allChannels (bs : List ℕ) : List (ℕ × ℕ) := (List.range v.obs.nFreq).flatMap fun f => bs.map fun b => (f, b)

/-- The baselines of a tile, by its number counted from 0 (flagging.py 263-272). -/
def tileBaselines (t : ℕ) : List ℕ :=
  ((List.range v.obs.nBl).filter fun b => decide (v.obs.tileA.getD b 0 - 1 = t)) ++
    (List.range v.obs.nBl).filter fun b => decide (v.obs.tileB.getD b 0 - 1 = t)

/-- `tile_fom` (flagging.py 261-279): the array is not initialised. -/
def tileFom (w : Weights) (t : ℕ) : R :=
  v.memory t + ((List.range (min v.obs.nPol 2)).map fun p => v.fomPol w p (v.allChannels (v.tileBaselines t))).sum

/-- `freq_fom` (flagging.py 281-287). -/
def freqFom (w : Weights) (f : ℕ) : R :=
  ((List.range (min v.obs.nPol 2)).map fun p =>
    v.fomPol w p ((List.range v.obs.nBl).map fun b => (f, b))).sum

/-- The end of a time step (flagging.py 331-333). -/
def timeEnd (t : ℕ) : ℕ := if t + 1 < v.obs.nTime then v.obs.binOffset (t + 1) else v.obs.nBl

/-- `time_fom` (flagging.py 337-345): the values need not be positive here. -/
def timeFom (w : Weights) (t : ℕ) : R :=
  ((List.range (min v.obs.nPol 2)).map fun p =>
    let use := (v.allChannels ((List.range v.obs.nBl).filter fun b =>
      decide (v.obs.binOffset t ≤ b ∧ b < v.timeEnd t))).filter fun s => decide (0 < w p s.1 s.2)
    if 10 < use.length then (v.std (use.map fun s => v.data s.1 s.2)).getD 0 else 0).sum

end VfIn

/-- `idl_median` with a width (pyfhd_utils.py 1368-1377), or without (1383-1385, a number for all places). Away from the ends,
scipy's `median_filter` takes the middle of the sorted window. A width of 1 gives an empty slice. -/
def idlMedianWidth {R : Type} [Field R] [LinearOrder R] (width : ℕ) (x : List R) :
    Py (ℕ → R) :=
  if width = 0 then
    match idlMedian x with
    | .error e => .error e
    | .ok m => .ok fun _ => m
  else
    let hw := width / 2
    .ok fun i =>
      if hw ≠ 0 ∧ hw ≤ i ∧ i < x.length - hw then
        ((slice x (i - hw) (i - hw + width)).insertionSort (· ≤ ·)).getD (width / 2) 0
      else x.getD i 0

/-- A deviation test with `>`: false for NaN. -/
def devGt {R : Type} [Field R] [LinearOrder R] (k x : R) : Option R → Bool
  | none => false
  | some d => decide (k * d < |x|)

/-- A deviation test with `<=`: false for NaN. -/
def devLe {R : Type} [Field R] [LinearOrder R] (k x : R) : Option R → Bool
  | none => false
  | some d => decide (|x| ≤ k * d)

/-- The two passes over figures of merit of tiles or times (flagging.py 290-292, 300-302, 306-307, 311-313; 346-356): `k` is the
factor of the second pass. -/
def fomCut {R : Type} [Field R] [LinearOrder R] (std : List R → Option R) (k : R) (n : ℕ)
    (fom : ℕ → R) : Py (List ℕ) := do
  let nz := (List.range n).filter fun i => decide (fom i ≠ 0)
  let mean ← idlMedian (nz.map fom)
  let dev := std (nz.map fom)
  let cut0 := (List.range n).filter fun i => devLe 6 (mean - fom i) dev || decide (fom i ≠ 0)
  let mean2 ← idlMedian (cut0.map fom)
  let dev2 := std (cut0.map fom)
  return (List.range n).filter fun i => devGt k (mean2 - fom i) dev2 || decide (fom i = 0)

/-- The two passes over the channels (flagging.py 289, 294-298, 303-305, 308-309, 314-316). -/
def freqCut {R : Type} [Field R] [LinearOrder R] (std : List R → Option R) (n : ℕ) (fom : ℕ → R) :
    Py (List ℕ) := do
  let nz := (List.range n).filter fun i => decide (fom i ≠ 0)
  let mean1 ← idlMedianWidth (n / 20) (nz.map fom)
  let mean : ℕ → R := fun f => if f ∈ nz then mean1 (nz.idxOf f) else 0
  let dev := std (nz.map fun f => fom f - mean f)
  let cut0 := (List.range n).filter fun i => devLe 6 (mean i - fom i) dev || decide (fom i ≠ 0)
  let mean2 ← idlMedianWidth (n / 20) ((List.range n).map fom)
  let dev2 := std (cut0.map fun f => fom f - mean2 f)
  return (List.range n).filter fun i => devGt 3 (mean2 i - fom i) dev2 || decide (fom i = 0)

/-- What `vis_flag` returns: the weights, and what it changes in `obs`. -/
structure VfOut where
  weights : Weights
  tileUse : ℕ → ℤ
  freqUse : ℕ → ℤ
  nVis : ℕ

namespace VfIn

variable {R : Type} [Field R] [LinearOrder R] (v : VfIn R)

/-- The weights after the cuts of tiles and channels (flagging.py 318-329). -/
def applyCuts (tiles freqs : List ℕ) (w : Weights) : Weights := fun p f b =>
  if p < v.obs.nPol ∧ (f ∈ freqs ∨
      (tiles.any fun t => decide (v.obs.tileA.getD b 0 = (t : ℤ) + 1 ∨ v.obs.tileB.getD b 0 = (t : ℤ) + 1)) = true)
  then 0 else w p f b

/-- The number of tiles considered (flagging.py 249-251). -/
def nTilesUse : Option ℕ :=
  match maxZ? v.obs.tileA, maxZ? v.obs.tileB with
  | some a, some b => some (max a b).toNat
  | _, _ => none

/-- `vis_flag` (flagging.py 210-359). The names of the tiles that are cut are looked up for the log. If a time step is cut, the
attribute `size` of a tuple is asked for (355). -/
def visFlag (w : Weights) : Py VfOut := do
  match v.nTilesUse with
  | none => .error .valueError
  | some nt =>
    let mid ← idlMedian ((List.range v.obs.nFreq).map v.obs.freq)
    let w1 := v.cutBaselines mid w
    let tiles ← fomCut v.std 3 nt (v.tileFom w1)
    let freqs ← freqCut v.std v.obs.nFreq (v.freqFom w1)
    if tiles.any (fun t => decide (v.obs.tileNames.length ≤ t ∨ v.obs.nTile ≤ t)) then .error .indexError
    else
      let w2 := v.applyCuts tiles freqs w1
      let times ← fomCut v.std 6 v.obs.nTime (v.timeFom w2)
      if times ≠ [] then .error .attributeError
      else return {
        weights := w2
        tileUse := fun t => if t ∈ tiles then 0 else v.obs.tileUse t
        freqUse := fun f => if f ∈ freqs then 0 else v.obs.freqUse f
        nVis := ((List.range v.obs.nFreq).map fun f =>
          ((List.range v.obs.nBl).filter fun b => decide (0 < w2 0 f b)).length).sum }

end VfIn

/-- A call of `vis_flag`, which needs five arguments. -/
def callVisFlag {V : Type} (f : V → V → V → V → V → Py (V × V)) : List V → Py (V × V)
  | [a, b, c, d, e] => f a b c d e
  | _ => .error .typeError

/-- The call in `main` (pyfhd.py 307). -/
def mainVisFlag {V : Type} (f : V → V → V → V → V → Py (V × V)) (vis w obs params : V) : Py (V × V) :=
  callVisFlag f [vis, w, obs, params]

end PyFHD
