import Mathlib.Data.Nat.Log
import Verif.Model.Arrays
import Verif.Model.Histogram

/-!
# Model of the data import: uvfits.py and obs.py
-/

namespace PyFHD

/-! ## Baseline codes -/

/-- `antenna_mod_index` (uvfits.py 266-272): the number by which the baseline codes are divided, guessed
from the smallest code. `floor(log(x)/log(2))` is taken to be exact. -/
def antennaMod (m : ℕ) : ℕ :=
  let mod := 2 ^ Nat.log 2 m
  let tileB := m % mod
  if 1 < tileB ∧ m % 2 = 1 then mod / 2 ^ Nat.log 2 tileB else mod

/-- The branch of `create_params` without antenna columns (uvfits.py 262-275): the two
antenna numbers of every baseline code. An empty list makes `np.min` raise. -/
def decodeBaselines (codes : List ℕ) : Py (List (ℕ × ℕ)) :=
  match codes.min? with
  | none => .error .valueError
  | some m => .ok (codes.map fun c => (c / antennaMod m, c % antennaMod m))

/-! ## Group parameters -/

/-- The validation of the group parameters of the file (uvfits.py 134-188): `list.index` of a name that
is missing raises a `ValueError`; a name at place 0 is taken for missing. -/
def validateParams (params : List String) : Py Unit :=
  let ok1 := params.contains "UU" && params.contains "VV" && params.contains "WW"
  let base : Py Bool :=
    if params.contains "ANTENNA1" && params.contains "ANTENNA2" then .ok true
    else
      match params.findIdx? (· == "BASELINE") with
      | none => .error .valueError
      | some i => .ok (decide (i ≠ 0))
  match base with
  | .error e => .error e
  | .ok ok2 =>
    match params.findIdx? (· == "DATE") with
    | none => .error .valueError
    | some i => if ok1 && ok2 && decide (i ≠ 0) then .ok () else .error .keyError

/-! ## Frequencies -/

/-- `frequency_array` (uvfits.py 87-90). -/
def frequencyArray (n : ℕ) (crpix cdelt crval : ℚ) : List ℚ :=
  (List.range n).map fun (k : ℕ) => ((k : ℚ) - (crpix - 1)) * cdelt + crval

/-! ## Visibilities -/

/-- An array: its shape and its entries. -/
structure NdArray (α : Type) where
  shape : List ℕ
  get : List ℕ → α

/-- The index into the full array of an index into the squeezed one. -/
def unsqueeze : List ℕ → List ℕ → List ℕ
  | [], _ => []
  | 1 :: s, ix => 0 :: unsqueeze s ix
  | _ :: s, [] => 0 :: unsqueeze s []
  | _ :: s, i :: ix => i :: unsqueeze s ix

/-- `np.squeeze`: axes of length 1 are removed. -/
def NdArray.squeeze {α : Type} (a : NdArray α) : NdArray α :=
  ⟨a.shape.filter (· ≠ 1), fun ix => a.get (unsqueeze a.shape ix)⟩

/-- `extract_visibilities` (uvfits.py 319-340): visibilities and weights with axes polarisation,
frequency, baseline. `cfgPol` is the option `n_pol`, 0 for the number in the header. Real and
imaginary part are combined by `mk`. -/
def extractVisibilities {α C : Type} (mk : α → α → C) (a : NdArray α) (cfgPol headerPol : ℕ) :
    Py (NdArray C × NdArray α) :=
  let d := a.squeeze
  let nPol := if cfgPol = 0 then headerPol else cfgPol
  match d.shape with
  | [nb, nf, np, nc] =>
    if nPol ≤ np ∧ 3 ≤ nc then
      .ok (⟨[nPol, nf, nb], fun ix => mk (d.get [ix.getD 2 0, ix.getD 1 0, ix.getD 0 0, 0])
            (d.get [ix.getD 2 0, ix.getD 1 0, ix.getD 0 0, 1])⟩,
        ⟨[nPol, nf, nb], fun ix => d.get [ix.getD 2 0, ix.getD 1 0, ix.getD 0 0, 2]⟩)
    else .error .indexError
  | s => if 4 < s.length then .error .systemExit else .error .indexError

/-! ## Observation -/

/-- Cumulative sums. -/
def cumsum (acc : ℤ) : List ℤ → List ℤ
  | [] => []
  | x :: xs => (acc + x) :: cumsum (acc + x) xs

/-- The widths of the time blocks (obs.py 64-70). -/
def binWidths (b0i : List ℤ) : List ℤ :=
  match b0i with
  | [] => []
  | b :: _ => (b + 1) :: List.zipWith (fun y x => y - x) b0i.tail b0i

/-- What `create_obs` derives from the times. -/
structure TimeBlocks where
  nTime : ℕ
  binOffset : List ℤ
  nBaselines : ℤ
  deriving DecidableEq, Repr

/-- The time blocks of `create_obs` (obs.py 61-75). With a single time `bin_width` is a number and
the assignment to its elements raises a `TypeError`. Times are integers here. -/
def timeBlocks (time : List ℤ) : Py TimeBlocks :=
  let b0i := idlArgunique time
  if 1 < b0i.length then
    let w := binWidths b0i
    .ok ⟨b0i.length, 0 :: cumsum 0 (w.take (b0i.length - 1)), w.headD 0⟩
  else .error .typeError

/-- Assigning one value at several places. -/
def setAll (l : List ℕ) (ps : List ℕ) (v : ℕ) : List ℕ := ps.foldl (fun l p => l.set p v) l

/-- The loop over the bins of a frequency histogram (obs.py 89-92 and 527-530) up to bin `nb`. -/
def fbinLoop (ri : List ℕ) (nFreq nb : ℕ) : List ℕ :=
  (List.range nb).foldl (fun l b => setAll l ((riSlice ri b).getD []) b) (List.replicate nFreq 0)

/-- `fbin_i` of `create_obs` (obs.py 86-93), with the width of the bins. -/
def createFbin (freq : List ℚ) (w : ℚ) : Py (List ℕ) :=
  match histogram freq w with
  | .error e => .error e
  | .ok r => .ok (fbinLoop r.ri freq.length r.hist.length)

/-- `fbin_i` of `update_obs` (obs.py 525-530 and 544): the loop ends before the last bin. -/
def updateFbin (freq : List ℚ) (w : ℚ) : Py (List ℕ) :=
  match histogram freq w with
  | .error e => .error e
  | .ok r => .ok (fbinLoop r.ri freq.length (r.hist.length - 1))

/-- One pass of the renumbering loop (obs.py 139-149): the compared array is the one written to. -/
def renumberStep (numbers : List ℕ) (ants : List ℕ) (i : ℕ) : List ℕ :=
  ants.map fun a => if a = numbers.getD i 0 then i + 1 else a

/-- The renumbering of antenna numbers (obs.py 139-149) for antenna numbers read from the file, where
`params["antenna1"]` and `baseline_info["tile_a"]` are the same array. `n_tile` is taken
to be the length of the antenna table; in the code it is always 128, see `renumberTiles` in
`Model/ObsCreate.lean`. -/
def renumber (numbers : List ℕ) (ants : List ℕ) : List ℕ :=
  (List.range numbers.length).foldl (renumberStep numbers) ants

/-- The options of the imaging grid; `none` for an option that is `None`. -/
structure ImagingOptions where
  fov : Option ℚ
  kbinsize : Option ℚ
  dimension : Option ℕ
  elements : Option ℕ

/-- The imaging grid of the observation: `obs["kpix"]`, `obs["dimension"]`, `obs["elements"]` and
`obs["degpix"]`. -/
structure ImagingGrid where
  kpix : ℚ
  dimension : ℕ
  elements : ℕ
  degpix : ℚ
  deriving DecidableEq, Repr

/-- The value of `obs["kpix"]` after each of the two statements that set it (obs.py 165-170). `deg` is
`180 / pi`. Python's division by zero raises. -/
def setKpix (deg : ℚ) (o : ImagingOptions) : Py (Option ℚ) :=
  let first : Py (Option ℚ) :=
    match o.fov with
    | none => .ok none
    | some f => if f = 0 then .error .zeroDivision else .ok (some (deg / f))
  match first with
  | .error e => .error e
  | .ok _ =>
    match o.kbinsize with
    | none => .ok (some (1 / 2))
    | some k => .ok (some k)

/-- The image size (obs.py 173-187): with neither option the configuration key `kpix`, which does not
exist, is read. -/
def setDimensions (o : ImagingOptions) : Py (ℕ × ℕ) :=
  match o.dimension, o.elements with
  | none, none => .error .keyError
  | some d, none => .ok (d, d)
  | none, some e => .ok (e, e)
  | some d, some e => .ok (d, e)

/-- The imaging grid of `create_obs` (obs.py 165-191). The pixel size uses the option `dimension`
rather than the value stored in the observation. -/
def imagingGrid (deg : ℚ) (o : ImagingOptions) : Py ImagingGrid := do
  let k ← setKpix deg o
  let (d, e) ← setDimensions o
  match k, o.dimension with
  | none, _ => .error .keyError
  | some _, none => .error .typeError
  | some kp, some cfg =>
    if kp * cfg = 0 then .error .zeroDivision else .ok ⟨kp, d, e, deg / (kp * cfg)⟩

/-- One pass of the loop over `time_cut` (obs.py 212-227) with the element `v`, which is used as an
index. `np.ceil` gives floating point numbers, which cannot be used as limits of a slice;
`min` returns its first argument unless the second is smaller. -/
def timeCutStep (cuts : List ℤ) (nTime : ℕ) (timeRes : ℚ) (use : List ℕ) (v : ℤ) : Py (List ℕ) :=
  match pyIndex cuts.length v with
  | none => .error .indexError
  | some j =>
    let c : ℤ := cuts.getD j 0
    if c < 0 then
      let start : ℚ := (nTime : ℚ) - max (⌈|(c : ℚ)| / timeRes⌉ : ℚ) 0
      if (nTime : ℚ) - 1 < start then
        -- the start is the integer `n_time - 1`
        .ok (use.take (nTime - 1) ++ (use.drop (nTime - 1)).map fun _ => 0)
      else .error .typeError
    else
      let stop : ℚ := |(c : ℚ)| / timeRes - 1
      if (nTime : ℚ) - 1 < stop then
        -- the end is the integer `n_time - 1`
        if 0 < nTime then .ok (use.map fun _ => 0) else .ok use
      else if 0 ≤ stop then .error .typeError
      else .ok use

/-- `time_use` (obs.py 207-227) for a list of integer cuts. A list of other numbers or of strings (what
the command line gives) raises a `TypeError` at its first use as an index. -/
def timeUse (cuts : List ℤ) (nTime : ℕ) (timeRes : ℚ) : Py (List ℕ) :=
  cuts.foldlM (timeCutStep cuts nTime timeRes) (List.replicate nTime 1)

end PyFHD
