import Verif.Model.Arrays

/-!
# Model of the HEALPix regridding (healpix/healpix_utils.py) and of the export's channel averaging
-/

namespace PyFHD

/-- One entry of the map of `healpix_cnv_generate`: an image pixel, the HEALPix pixels it contributes to, and the
weights. -/
structure HpxEntry where
  iUse : ℕ
  ija : List ℕ
  sa : List ℚ
  deriving DecidableEq

/-- `x_frac`, `y_frac` (healpix_utils.py 221-222). -/
def hpxFrac (q : ℚ) : ℚ := 1 - (q - ⌊q⌋)

/-- The image pixels at one corner (healpix_utils.py 224-225, 234, 237); `ux`, `uy` are `floor` or `ceil`. -/
def hpxCorner (D : ℕ) (px : List (ℚ × ℚ)) (ux uy : ℚ → ℤ) : List ℤ :=
  px.map fun q => ux q.1 + D * uy q.2

/-- The HEALPix pixels and weights of one corner for one image pixel (healpix_utils.py 261-265, with the same form in 266-280).
The source writes them to consecutive slices of an array whose ends are the cumulative counts; the model
concatenates. -/
def hpxPart (h : HistResult) (w : ℚ × ℚ → ℚ) (px : List (ℚ × ℚ)) (ind : ℕ) : Py (List ℕ × List ℚ) :=
  if 0 < h.hist.getD ind 0 then
    match riSlice h.ri ind with
    | some l => .ok (l, l.map fun p => w (px.getD p (0, 0)))
    | none => .error .indexError
  else .ok ([], [])

/-- One pass of the loop over the image pixels (healpix_utils.py 253-284). -/
def hpxEntry (px : List (ℚ × ℚ)) (h00 h01 h10 h11 : HistResult) (minBin : ℤ) (ind : ℕ) : Py HpxEntry := do
  let a ← hpxPart h00 (fun q => hpxFrac q.1 * hpxFrac q.2) px ind
  let b ← hpxPart h01 (fun q => hpxFrac q.1 * (1 - hpxFrac q.2)) px ind
  let c ← hpxPart h10 (fun q => (1 - hpxFrac q.1) * hpxFrac q.2) px ind
  let d ← hpxPart h11 (fun q => (1 - hpxFrac q.1) * (1 - hpxFrac q.2)) px ind
  return ⟨((ind : ℤ) + minBin).toNat, a.1 ++ b.1 ++ c.1 ++ d.1, a.2 ++ b.2 ++ c.2 ++ d.2⟩

/-- `healpix_cnv_generate` (healpix_utils.py 221-284) from the pixel coordinates `px` of the HEALPix pixels, which come from
healpy and astropy, for an image of `D` by `E` pixels. Coordinates that are not a number (directions that cannot be projected) and the
branch that does not read a list of pixels (174-199) are not modelled. -/
def hpxGenerate (D E : ℕ) (px : List (ℚ × ℚ)) : Py (List HpxEntry) :=
  match minZ? (hpxCorner D px Int.floor Int.floor), maxZ? (hpxCorner D px Int.ceil Int.ceil) with
  | some mn, some mx => do
    let lo : ℤ := max mn 0
    let hi : ℤ := min mx ((D : ℤ) * E - 1)
    let h00 ← histogram (toQ (hpxCorner D px Int.floor Int.floor)) 1 none (some (lo : ℚ)) (some (hi : ℚ))
    let h01 ← histogram (toQ (hpxCorner D px Int.floor Int.ceil)) 1 none (some (lo : ℚ)) (some (hi : ℚ))
    let h10 ← histogram (toQ (hpxCorner D px Int.ceil Int.floor)) 1 none (some (lo : ℚ)) (some (hi : ℚ))
    let h11 ← histogram (toQ (hpxCorner D px Int.ceil Int.ceil)) 1 none (some (lo : ℚ)) (some (hi : ℚ))
    let htot := (List.range h00.hist.length).map fun i =>
      h00.hist.getD i 0 + h01.hist.getD i 0 + h10.hist.getD i 0 + h11.hist.getD i 0
    (nonzeroIdx htot).mapM (hpxEntry px h00 h01 h10 h11 lo)
  | _, _ => .error .valueError

/-- The assignment `hpx_map[ija] += sa * value` (healpix_utils.py 53): all sums are formed from the old map, then
assigned in order. -/
def hpxAdd (m : List ℚ) (v : ℚ) (e : HpxEntry) : Py (List ℚ) :=
  if e.ija.all (· < m.length) then
    .ok ((e.ija.zip e.sa).foldl (fun acc ps => acc.set ps.1 (m.getD ps.1 0 + ps.2 * v)) m)
  else .error .indexError

/-- One pass of the loop of `healpix_cnv_apply` (healpix_utils.py 49-53). -/
def hpxApplyStep (img : List ℚ) (m : List ℚ) (e : HpxEntry) : Py (List ℚ) :=
  match img[e.iUse]? with
  | none => .error .indexError
  | some v => hpxAdd m v e

/-- `healpix_cnv_apply` (healpix_utils.py 46-54) for `n` HEALPix pixels and the flattened image. -/
def hpxApply (n : ℕ) (img : List ℚ) (cnv : List HpxEntry) : Py (List ℚ) :=
  cnv.foldlM (hpxApplyStep img) (List.replicate n 0)

/-! ## The list of HEALPix pixels of an observation -/

/-- A file with a list of pixels: its distance from the observation in degrees, and its frequency. -/
structure HpxFile where
  name : String
  separation : ℚ
  freq : ℚ
  deriving DecidableEq

/-- `np.abs(angle_difference(..., nearest=True))` (healpix_utils.py 130-142, pyfhd_utils.py 946), where the separation in
degrees is combined with `2 * pi`. -/
def hpxDist (pi : ℚ) (f : HpxFile) : ℚ := |max f.separation (2 * pi - f.separation)|

/-- The smallest element of a list, starting with `m`. -/
def hpxMin (m : ℚ) (l : List ℚ) : ℚ := l.foldl min m

/-- `np.argmin`: the first element with the smallest value. -/
def firstMin (val : HpxFile → ℚ) : HpxFile → List HpxFile → HpxFile
  | f, [] => f
  | f, g :: rest => if val g < val f then firstMin val g rest else firstMin val f rest

/-- The choice of the file (healpix_utils.py 101-154); the frequency is in MHz. -/
def hpxChoose (pi freq : ℚ) : List HpxFile → Option HpxFile
  | [] => none
  | f :: rest =>
    let use := hpxMin (hpxDist pi f) (rest.map (hpxDist pi))
    match (f :: rest).filter fun g => decide (|hpxDist pi g - use| ≤ 1) with
    | [] => none
    | g :: gs => some (firstMin (fun h => |h.freq - freq|) g gs)

/-! ## Averaging over channels in the export -/

/-- `freq_bin_i2` (healpix_utils.py 486). -/
def expBin (nAvg c : ℕ) : ℕ := c / nAvg

/-- `nf` (healpix_utils.py 487). -/
def expNf (nFreq nAvg : ℕ) : ℕ := ((List.range nFreq).map (expBin nAvg)).foldl max 0 + 1

/-- `fi_use` (healpix_utils.py 525-527). -/
def expChannels (nFreq nAvg : ℕ) (freqUse : ℕ → ℤ) (fi : ℕ) : List ℕ :=
  (List.range nFreq).filter fun c => expBin nAvg c == fi && decide (0 < freqUse c)

/-- `n_freq_use` (export.py 96). -/
def expNfUse (nFreq nAvg : ℕ) : ℕ := (⌊(nFreq : ℚ) / nAvg⌋).toNat

/-- `nf_vis_use` (export.py 170-178). -/
def expNfVis (nFreq nAvg : ℕ) (nfVis : List ℚ) : List ℚ :=
  (List.range (expNfUse nFreq nAvg)).map fun i => (slice nfVis (i * nAvg) ((i + 1) * nAvg)).sum

/-- The sizes used by the export (export.py 62-92). Options that are not given are `none`; `ps_degpix` may be 0. -/
structure ExpCfg where
  kbinsize : Option ℚ
  fov : Option ℚ
  kspan : Option ℚ
  dimension : Option ℚ
  degpix : Option ℚ

/-- `kbinsize` (export.py 62-69); `deg` stands for `180 / pi`. -/
def expKbin (deg : ℚ) (c : ExpCfg) (kpix : ℚ) : Py ℚ :=
  match c.kbinsize, c.fov with
  | some k, _ => .ok k
  | none, some f => if f = 0 then .error .zeroDivision else .ok (deg / f)
  | none, none => .ok kpix

/-- `dimension_use` before the conversion to an integer (export.py 73-80). -/
def expDim (fov kbin obsDegpix : ℚ) (c : ExpCfg) : ℚ :=
  match c.kspan, c.dimension, c.degpix with
  | some k, _, _ => k / kbin
  | none, some d, _ => d
  | none, none, some g => if g = 0 then fov / obsDegpix else fov / g
  | none, none, none => fov / obsDegpix

/-- `dimension_use` and `degpix_use` (export.py 62-92). The Python division by a zero `kbinsize` raises. -/
def expSize (deg kpix obsDegpix : ℚ) (c : ExpCfg) : Py (ℤ × ℚ) := do
  let kbin ← expKbin deg c kpix
  if kbin = 0 then .error .zeroDivision
  else
    let fov := deg / kbin
    let dim := pyInt (expDim fov kbin obsDegpix c)
    if dim = 0 then .error .zeroDivision else .ok (dim, fov / dim)

/-- The name of an exported file (export.py 218). -/
def exportName (obsId cube pol : List Char) : List Char :=
  obsId ++ ('_' :: cube) ++ ('_' :: pol) ++ ".h5".toList

/-- One pass of the loops of the export (export.py 151-222): `weights` is the name `vis_weights_use`, `none` when it is not bound.
What is computed and saved is `freqSplit` of the weights, the polarization and the baselines. -/
def exportStep {W B α : Type} (obsId : List Char) (polNames : List (List Char)) (weights : Option W)
    (freqSplit : W → ℕ → B → α) (cube : List Char) (b : B) (pol : ℕ) : Py (List Char × α) :=
  match weights with
  | none => .error .nameError
  | some w =>
    match polNames[pol]? with
    | none => .error .indexError
    | some name => .ok (exportName obsId cube name, freqSplit w pol b)

/-- The loops of the export (export.py 57-60, 127-138, 147-222). The weights are bound in the branch of `split_ps_export` only; in
the other branch there is one set of baselines. The result is the list of files written. -/
def exportFiles {W B α : Type} (split : Bool) (obsId : List Char) (polNames : List (List Char)) (splitWeights : W)
    (splitBi : B × B) (zeroBi : B) (freqSplit : W → ℕ → B → α) (nPol : ℕ) : Py (List (List Char × α)) :=
  let iters : List (List Char × B) :=
    if split then [("hpx_even".toList, splitBi.1), ("hpx_odd".toList, splitBi.2)]
    else [("healpix_cube".toList, zeroBi)]
  let weights := if split then some splitWeights else none
  (iters.flatMap fun it => (List.range nPol).map fun pol => (it, pol)).mapM fun (itp : (List Char × B) × ℕ) =>
    exportStep obsId polNames weights freqSplit itp.1.1 itp.1.2 itp.2

end PyFHD
