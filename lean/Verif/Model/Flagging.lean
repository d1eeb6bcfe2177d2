import Verif.Model.Arrays

/-!
# Model of the visibility weights: `vis_weights_update`, `split_vis_weights`
(pyfhd_utils.py) and `vis_flag_tiles`, `vis_flag_basic` (flagging.py)

A weights array of shape `(n_pol, n_freq, n_baselines)` is a function of the three indices; only
indices inside the shape mean anything.
-/

namespace PyFHD

/-- `vis_weights`. -/
abbrev Weights := ℕ → ℕ → ℕ → ℚ

/-- The parts of `obs` and of `obs["baseline_info"]` that the weight functions read. Arrays are
functions of their index with the length given by the count beside them (`n_freq`, `n_tile`,
`n_time`); `tileA` and `tileB` have one entry per baseline sample. -/
structure FlagObs where
  nPol : ℕ
  nFreq : ℕ
  nTile : ℕ
  nTime : ℕ
  dimension : ℕ
  elements : ℕ
  kpix : ℚ
  minBaseline : ℚ
  maxBaseline : ℚ
  freq : ℕ → ℚ
  freqUse : ℕ → ℤ
  tileUse : ℕ → ℤ
  timeUse : ℕ → ℤ
  tileA : List ℤ
  tileB : List ℤ
  binOffset : ℕ → ℕ
  tileNames : List String

/-- Number of baseline samples. -/
def FlagObs.nBl (o : FlagObs) : ℕ := o.tileA.length

/-! ## `vis_weights_update` -/

/-- Inputs besides `obs`: the coordinates and the size of the kernel. `norm x y` stands for
`np.sqrt(x**2 + y**2)`. -/
structure UvParams where
  uu : ℕ → ℚ
  vv : ℕ → ℚ
  norm : ℚ → ℚ → ℚ
  psfDim : ℕ

/-- `kx_arr` after the conjugation of the baselines with `ky > 0` (pyfhd_utils.py 1130, 1137-1139). -/
def vwuKx (o : FlagObs) (q : UvParams) (b : ℕ) : ℚ :=
  if 0 < q.vv b / o.kpix then -(q.uu b / o.kpix) else q.uu b / o.kpix

/-- `ky_arr` after the conjugation (pyfhd_utils.py 1131, 1140). -/
def vwuKy (o : FlagObs) (q : UvParams) (b : ℕ) : ℚ :=
  if 0 < q.vv b / o.kpix then -(q.vv b / o.kpix) else q.vv b / o.kpix

/-- `dist_test` (pyfhd_utils.py 1132-1133). -/
def vwuDist (o : FlagObs) (q : UvParams) (f b : ℕ) : ℚ :=
  o.freq f * (q.norm (q.uu b / o.kpix) (q.vv b / o.kpix) * o.kpix)

/-- `xmin`, `ymin` of every sample (pyfhd_utils.py 1144-1166) up to the weight flags: the lower corner of the
kernel footprint, or `-1, -1` for samples outside the grid or the baseline range. -/
def vwuMin (o : FlagObs) (q : UvParams) (f b : ℕ) : ℚ × ℚ :=
  let xmin0 : ℚ := (⌊o.freq f * vwuKx o q b⌋ : ℤ) + (o.dimension : ℚ) / 2 - ((q.psfDim : ℚ) / 2 - 1)
  let ymin0 : ℚ := (⌊o.freq f * vwuKy o q b⌋ : ℤ) + (o.elements : ℚ) / 2 - ((q.psfDim : ℚ) / 2 - 1)
  -- 1149-1154
  let (xmin1, ymin1) := if xmin0 ≤ 0 ∨ xmin0 + q.psfDim - 1 ≥ (o.dimension : ℚ) - 1
    then ((-1 : ℚ), (-1 : ℚ)) else (xmin0, ymin0)
  -- 1155-1160
  let (xmin2, ymin2) := if ymin1 ≤ 0 ∨ ymin1 + q.psfDim - 1 ≥ (o.elements : ℚ) - 1
    then ((-1 : ℚ), (-1 : ℚ)) else (xmin1, ymin1)
  -- 1164-1166
  if vwuDist o q f b < o.minBaseline ∨ vwuDist o q f b > o.maxBaseline
    then (-1, -1) else (xmin2, ymin2)

/-- `tile_cut_i[0] + 1` (pyfhd_utils.py 1172, 1176). -/
def tileCut (o : FlagObs) : List ℤ :=
  ((List.range o.nTile).filter fun t => o.tileUse t = 0).map fun (t : ℕ) => (t : ℤ) + 1

/-- `time_bin` (pyfhd_utils.py 1183-1186): the last time step whose slice holds the sample, `0` by default. The
offsets are extended by the number of samples. -/
def timeBin (o : FlagObs) : ℕ → ℕ :=
  (List.range o.nTime).foldl (fun tb t => fun b =>
    if o.binOffset t ≤ b ∧ b < (if t + 1 < o.nTime then o.binOffset (t + 1) else o.nBl)
    then t else tb b) fun _ => 0

/-- `w[0:n_pol, cond] = 0`. -/
def zeroWhere (nPol : ℕ) (w : Weights) (c : ℕ → ℕ → Bool) : Weights := fun p f b =>
  if p < nPol ∧ c f b = true then 0 else w p f b

/-- Result of `vis_weights_update`: the weights, `obs["n_vis"]` and, unless the function returns
early, the sums of the use flags. -/
structure VwuResult where
  weights : Weights
  nVis : ℕ
  flagSums : Option (ℤ × ℤ × ℤ)

/-- Samples in row-major order. -/
def samples (nf nb : ℕ) : List (ℕ × ℕ) :=
  (List.range nf).flatMap fun f => (List.range nb).map fun b => (f, b)

/-- The flagging of unused tiles inside `vis_weights_update` (pyfhd_utils.py 1172-1180); the
scalar -1 that `array_match` returns when nothing matches is used as an index. -/
def tileFlagStep (o : FlagObs) (w : Weights) : Py Weights :=
  if tileCut o ≠ [] then do
    let m ← arrayMatch o.tileA (some (tileCut o)) (some o.tileB)
    match m with
    | none => pure (zeroWhere o.nPol w fun _ b => decide (b + 1 = o.nBl))
    | some l => pure (zeroWhere o.nPol w fun _ b => decide (b ∈ l))
  else pure w

/-- `vis_weights_update` (pyfhd_utils.py 1106-1211). -/
def visWeightsUpdate (o : FlagObs) (q : UvParams) (w : Weights) : Py VwuResult := do
  -- 1169-1171
  let w1 := zeroWhere o.nPol w fun f _ => decide (o.freqUse f = 0)
  let w2 ← tileFlagStep o w1
  -- 1182-1190
  let w3 := zeroWhere o.nPol w2 fun _ b => decide (o.timeUse (timeBin o b) = 0 ∧ 0 < o.nTime)
  -- 1192-1195
  let w4 := zeroWhere o.nPol w3 fun f b => decide ((vwuMin o q f b).1 < 0)
  -- 1196-1198
  let xy : ℕ × ℕ → ℚ × ℚ := fun s =>
    if w3 0 s.1 s.2 ≤ 0 then (-1, -1) else vwuMin o q s.1 s.2
  let xs := (samples o.nFreq o.nBl).map fun s => (xy s).1
  let ys := (samples o.nFreq o.nBl).map fun s => (xy s).2
  match listMax? xs, listMax? ys with
  | some mx, some my =>
    -- 1200-1202
    if min mx my < 0 then return ⟨w4, 0, none⟩
    else
      -- 1204-1209
      let r ← histogram ((samples o.nFreq o.nBl).map fun s => (xy s).1 + (xy s).2 * o.dimension)
        1 none (some 0) none
      return ⟨w4, r.hist.sum, some
        (((List.range o.nTime).map fun t => 1 - o.timeUse t).sum,
          ((List.range o.nTile).map fun t => 1 - o.tileUse t).sum,
          ((List.range o.nFreq).map fun t => 1 - o.freqUse t).sum)⟩
  | _, _ => .error .valueError

/-! ## `split_vis_weights` -/

/-- `bin_i` before the cuts (pyfhd_utils.py 1240-1247): only the first `n_time // 2` time steps are numbered. -/
def splitBin0 (o : FlagObs) (nb : ℕ) : ℕ → ℤ :=
  (List.range (o.nTime / 2)).foldl (fun bi t => fun b =>
    -- bin_end[t] + 1
    if o.binOffset t ≤ b ∧ b < (if t + 1 < o.nTime then o.binOffset (t + 1) else nb)
    then (t : ℤ) else bi b) fun _ => -1

/-- `time_use` of the pairs (pyfhd_utils.py 1250-1258), counted from the first used step `start`. -/
def splitTimeUse (o : FlagObs) (start t : ℕ) : ℤ :=
  let nt3 := (o.nTime - start) / 2 * 2
  if start ≤ t ∧ t < start + nt3 then
    o.timeUse (start + (t - start) / 2 * 2) * o.timeUse (start + (t - start) / 2 * 2 + 1)
  else 0

/-- `bin_i` after the cuts (pyfhd_utils.py 1259-1264). -/
def splitBin (o : FlagObs) (nb start b : ℕ) : ℤ :=
  if ∃ t, t < o.nTime ∧ splitTimeUse o start t ≤ 0 ∧ splitBin0 o nb b = t then -1
  else splitBin0 o nb b

/-- Result of `split_vis_weights`: the bare weights for fewer than two time steps, otherwise the
weights and the two index lists. -/
inductive SplitResult
  | weightsOnly (w : Weights)
  | pair (w : Weights) (even odd : List ℕ)

/-- `bi_use[0]` and `bi_use[1]` (pyfhd_utils.py 1266). Python's `%` gives `-1 % 2 == 1`. -/
def evenAll (o : FlagObs) (nb start : ℕ) : List ℕ :=
  (List.range nb).filter fun b => splitBin o nb start b % 2 = 0

@[inherit_doc evenAll]
def oddAll (o : FlagObs) (nb start : ℕ) : List ℕ :=
  (List.range nb).filter fun b => splitBin o nb start b % 2 = 1

/-- `bi_use[0]` and `bi_use[1]` after cutting the longer one (pyfhd_utils.py 1270-1273). -/
def cutLonger (e d : List ℕ) : List ℕ × List ℕ :=
  if e.length < d.length then (e, d.take e.length)
  else if d.length < e.length then (e.take d.length, d)
  else (e, d)

/-- `flag_use` for the `k`-th pair (pyfhd_utils.py 1277-1280). -/
def flagUse (w : Weights) (e d : List ℕ) (p f k : ℕ) : ℚ :=
  min (max (w p f (e.getD k 0)) 0) (min (w p f (d.getD k 0)) 1)

/-- The weights after the loop over the polarisations (pyfhd_utils.py 1275-1285): zero, then the even samples,
then the odd samples. -/
def splitApply (o : FlagObs) (w : Weights) (e d : List ℕ) : Weights := fun p f b =>
  if p < o.nPol then
    if b ∈ d then flagUse w e d p f (d.idxOf b)
    else if b ∈ e then flagUse w e d p f (e.idxOf b)
    else 0
  else w p f b

/-- `split_vis_weights` (pyfhd_utils.py 1214-1287); `nb` is the last dimension of the weights. -/
def splitVisWeights (o : FlagObs) (nb : ℕ) (w : Weights) : Py SplitResult :=
  if o.nTime < 2 then .ok (.weightsOnly w)
  else
    match (List.range o.nTime).find? fun t => o.timeUse t ≠ 0 with
    | none => .error .valueError
    | some start =>
      let bi := cutLonger (evenAll o nb start) (oddAll o nb start)
      .ok (.pair (splitApply o w bi.1 bi.2) bi.1 bi.2)

/-! ## Basic flagging -/

/-- `str.strip()`. -/
def pyStrip (s : String) : String :=
  String.ofList ((s.toList.dropWhile Char.isWhitespace).reverse.dropWhile Char.isWhitespace).reverse

/-- `vis_flag_tiles` (flagging.py 7-61). Every listed name that is found makes `np.ndarray` look
for the missing attribute `append` (40). Otherwise the list of tiles is empty and its histogram
(47) has no maximum. The code after line 47 is never reached, so only its absence of effect is
modelled. Non-string names are not modelled. -/
def visFlagTiles (o : FlagObs) (w : Weights) (names : List String) : Py Weights := do
  let _ ← names.foldlM (fun (acc : List ℕ) n =>
    if pyStrip n ∈ o.tileNames then (.error .attributeError : Py (List ℕ)) else .ok acc) []
  let _ ← histogram (toQ o.tileA) 1 none (some 1) none
  let _ ← histogram (toQ o.tileB) 1 none (some 1) none
  let _ ← histogram [] 1 none (some 1) none
  return w

/-- Options of `vis_flag_basic`. `freqStart`, `freqEnd` are `none` when unset or zero. -/
structure FlagConfig where
  freqStart : Option ℚ
  freqEnd : Option ℚ
  flagTiles : List String
  flagFrequencies : Bool

/-- Is some weight of the channel positive (`np.max(..., axis=1) > 0`)? -/
def chanHas (w : Weights) (nb p f : ℕ) : Bool := (List.range nb).any fun b => decide (0 < w p f b)

/-- Is some weight of the baseline positive (`np.max(..., axis=0) > 0`)? -/
def blHas (w : Weights) (nf p b : ℕ) : Bool := (List.range nf).any fun f => decide (0 < w p f b)

/-- Channels removed by the channel-edge rule (flagging.py 129-139); `freq_avg` is `768 // n_freq`.
NumPy's remainder by zero is zero. -/
def edgeChannel (nFreq c : ℕ) : Bool :=
  let freqAvg := 768 / nFreq
  let width : ℤ := ⌈(2 : ℚ) / (freqAvg : ℚ)⌉
  let coarse : ℤ := ((32 / freqAvg : ℕ) : ℤ)
  let fine : ℤ := if coarse = 0 then 0 else (c : ℤ) % coarse
  decide (min fine (coarse - 1 - fine) < width)

/-- Weights after lines 105-139 of flagging.py. -/
def basicWeights1 (o : FlagObs) (c : FlagConfig) (w : Weights) : Py Weights := do
  let w1 : Weights := match c.freqStart with
    | some s => fun p f b => if o.freq f / 1000000 < s then 0 else w p f b
    | none => w
  let w2 : Weights := match c.freqEnd with
    | some s => fun p f b => if o.freq f / 1000000 > s then 0 else w1 p f b
    | none => w1
  let w3 ← if c.flagTiles.length > 0 then visFlagTiles o w2 c.flagTiles else .ok w2
  if c.flagFrequencies then
    if 768 / o.nFreq = 0 then .error .zeroDivision
    else .ok fun p f b => if edgeChannel o.nFreq f then 0 else w3 p f b
  else .ok w3

/-- `tile_use` of one polarisation (flagging.py 156-159): tile `t` (zero based) is an end of a baseline with a
positive weight. Indices are normalised as Python does. -/
def tileHas (o : FlagObs) (w : Weights) (p t : ℕ) : Bool :=
  (List.range o.nBl).any fun b => blHas w o.nFreq p b &&
    (pyIndex o.nTile (o.tileA.getD b 0 - 1) == some t ||
      pyIndex o.nTile (o.tileB.getD b 0 - 1) == some t)

/-- Bitwise `a & b` of two's complement integers, only needed for `a ∈ {0, 1}`. -/
def bitAnd01 (a : Bool) (b : ℤ) : Bool := a && decide (b % 2 = 1)

/-- Result of `vis_flag_basic`. -/
structure BasicResult where
  weights : Weights
  freqUse : ℕ → ℤ
  tileUse : ℕ → ℤ
  nTimeFlag : ℕ
  nTileFlag : ℕ
  nFreqFlag : ℕ

/-- `vis_flag_basic` (flagging.py 64-207). `visNonzero p f b` says that `np.abs(vis) > 0` there.
Assumes `n_pol` polarisations and at least one channel and baseline (`np.max` of an empty axis
raises). A tile number outside the tiles raises. The slice bound of line 192 is truncated at zero
instead of wrapping to the end when the next time step starts at sample zero. -/
def visFlagBasic (o : FlagObs) (c : FlagConfig) (visNonzero : ℕ → ℕ → ℕ → Bool) (w : Weights) :
    Py BasicResult := do
  let w1 ← basicWeights1 o c w
  if o.nFreq = 0 ∨ o.nBl = 0 then .error .valueError
  else if ∃ b, b < o.nBl ∧ ((List.range o.nPol).any fun p => blHas w1 o.nFreq p b) = true ∧
      (pyIndex o.nTile (o.tileA.getD b 0 - 1) = none ∨
        pyIndex o.nTile (o.tileB.getD b 0 - 1) = none) then .error .indexError
  else
    -- 143-160
    let freqUse : ℕ → Bool := fun f => (List.range o.nPol).all fun p => chanHas w1 o.nBl p f
    let tileUse : ℕ → Bool := fun t => (List.range o.nPol).all fun p => tileHas o w1 p t
    -- 165-183
    let w2 : Weights :=
      if c.flagFrequencies = false ∧ ((List.range o.nFreq).any fun f => !freqUse f) = true then
        fun p f b =>
          if p < o.nPol ∧ chanHas w1 o.nBl p f = false ∧ blHas w1 o.nFreq p b = true ∧
            visNonzero p f b = true then 1 else w1 p f b
      else w1
    let freqUse2 : ℕ → Bool := if c.flagFrequencies then freqUse else fun _ => true
    -- 186-192: the upper bound of the slice is one short
    let w3 : Weights :=
      if ((List.range o.nTime).any fun t => decide (o.timeUse t ≤ 0)) = true then fun p f b =>
        if ((List.range o.nTime).any fun t => decide (o.timeUse t ≤ 0 ∧ o.binOffset t ≤ b ∧
            b < (if t + 1 < o.nTime then o.binOffset (t + 1) else o.nBl) - 1)) = true
        then 0 else w2 p f b
      else w2
    -- 194-205
    let tileUse' : ℕ → ℤ := fun t => if bitAnd01 (tileUse t) (o.tileUse t) then 1 else 0
    let freqUse' : ℕ → ℤ := fun f => if bitAnd01 (freqUse2 f) (o.freqUse f) then 1 else 0
    return ⟨w3, freqUse', tileUse',
      (List.range o.nTime).countP fun t => decide (o.timeUse t = 0),
      (List.range o.nTile).countP fun t => decide (tileUse' t = 0),
      (List.range o.nFreq).countP fun f => decide (freqUse' f = 0)⟩

end PyFHD
