import Verif.Model.ObsMeta
import Verif.Model.DataSetup
import Verif.Model.Flagging
import Verif.Model.CalApply

/-!
# Model of `create_obs` as a whole (obs.py 17-266)

The pieces are those of `DataSetup` and `ObsMeta`; here they are put together in the order of the source. Positions on the sky, the
dictionary of HEALPix settings and constants are left out.
-/

namespace PyFHD

/-- `pyfhd_header["n_tile"]` (uvfits.py 74): a constant. -/
def headerTiles : ℕ := 128

/-- The renumbering loop (obs.py 139-149) over `n_tile` tiles: an antenna table with fewer entries raises an `IndexError`, of a longer one
only the first entries are used. -/
def renumberTiles (nTile : ℕ) (numbers ants : List ℕ) : Py (List ℕ) :=
  if numbers.length < nTile then .error .indexError
  else .ok ((List.range nTile).foldl (renumberStep numbers) ants)

/-- `meta["jdate"]` (obs.py 300-304): the times at the last samples of the integrations; an index -1 means the last sample. -/
def jdates (time : List ℤ) : List ℤ :=
  (idlArgunique time).map fun i => ((pyIndex time.length i).bind fun k => time[k]?).getD 0

/-- What `create_obs` reads from the header, the file, the antenna table, the metafits file and the options. `mod` is the modulus of the baseline codes,
`deg` is `180 / pi`. Coordinates `uv` have one pair per sample. -/
structure ObsIn where
  cfgPol : ℕ
  headerPol : ℕ
  freq : List ℚ
  freqRes : ℚ
  nFreqAvg : Option ℕ
  time : List ℤ
  ant1 : List ℕ
  ant2 : List ℕ
  codes : Option (List ℕ)
  mod : ℕ
  numbers : List ℕ
  uv : List (ℝ × ℝ)
  deg : ℚ
  imaging : ImagingOptions
  minBaseline : Option ℝ
  metafits : Option (MetaHdr × List MetaRow)
  alt : ℚ
  simulation : Bool
  overrideRa : Option ℚ
  overrideDec : Option ℚ
  timeCut : Option (List ℤ)

/-- The observation that `create_obs` returns. -/
structure ObsOut where
  nPol : ℕ
  nTile : ℕ
  nFreq : ℕ
  nTime : ℕ
  nBaselines : ℤ
  nVis : ℕ
  binOffset : List ℤ
  jdate : List ℤ
  freq : List ℚ
  freqCenter : ℚ
  fbin : List ℕ
  freqUse : List ℤ
  tileA : List ℕ
  tileB : List ℕ
  timeUse : List ℕ
  tileUse : List ℤ
  grid : ImagingGrid
  minBaseline : ℝ
  maxBaseline : ℝ
  obsx : ℕ
  obsy : ℕ
  nTimeFlag : ℕ
  nTileFlag : ℕ
  nFreqFlag : ℕ
  info : ObsMeta

/-- `create_obs` (obs.py 17-266). The sum of `time_use` is taken from the number of integrations in line 228. -/
noncomputable def createObs (i : ObsIn) : Py ObsOut := do
  -- 61-78
  let tb ← timeBlocks i.time
  -- 80-94
  let fbin ← createFbin i.freq ((i.nFreqAvg.getD 1 : ℕ) * i.freqRes)
  -- 96-127
  let ants ← antennaNumbers i.ant1 i.ant2 i.codes i.mod headerTiles
  -- 139-154
  let a ← renumberTiles headerTiles i.numbers ants.1
  let b ← renumberTiles headerTiles i.numbers ants.2
  -- 158-203
  let pts := uvPoints (i.freq.map fun (x : ℚ) => (x : ℝ)) i.uv
  let g ← imagingGrid i.deg i.imaging
  let hi ← maxBaselineOf (g.kpix : ℝ) g.dimension g.elements pts
  let lo ← minBaselineOf i.minBaseline pts
  -- 205-232
  let m ← readMetafits i.metafits i.alt i.simulation i.overrideRa i.overrideDec
  let tu ← timeUse (i.timeCut.getD []) tb.nTime m.timeRes
  return { nPol := if i.cfgPol = 0 then i.headerPol else i.cfgPol, nTile := headerTiles, nFreq := i.freq.length, nTime := tb.nTime,
           nBaselines := tb.nBaselines, nVis := i.time.length * i.freq.length, binOffset := tb.binOffset, jdate := jdates i.time,
           freq := i.freq, freqCenter := npMedian i.freq, fbin := fbin, freqUse := List.replicate i.freq.length 1, tileA := a, tileB := b,
           timeUse := tu, tileUse := (tileUse m).1, grid := g, minBaseline := lo, maxBaseline := hi, obsx := g.dimension / 2,
           obsy := g.elements / 2, nTimeFlag := tb.nTime - tu.sum, nTileFlag := (tileUse m).2, nFreqFlag := 0, info := m }

end PyFHD
