import Verif.Model.UvfitsHeader

/-!
# Model of the import and the export of model visibilities

`import_vis_model_from_uvfits` and `convert_vis_model_arr_to_sav` (source_modeling/vis_model_transfer.py 123-166, 459-522),
`run_command` (pyfhd_utils.py 1086-1103) and `convert_sav_to_dict` (io/pyfhd_io.py 641-693).
-/

namespace PyFHD

/-! ## Model visibilities from a uvfits file -/

/-- What is read from a uvfits file. `nFreq`, `nPol` are the cards `NAXIS4`, `NAXIS3`, the next three the axis of the frequencies. -/
structure UvFile (α : Type) where
  cards : UvCards
  cols : List GroupCol
  nFreq : ℕ
  nPol : ℕ
  crpix : ℚ
  cdelt : ℚ
  crval : ℚ
  data : NdArray α

/-- The frequencies of the file (uvfits.py 87-90). -/
def UvFile.freqs {α : Type} (f : UvFile α) : List ℚ := frequencyArray f.nFreq f.crpix f.cdelt f.crval

/-- `import_vis_model_from_uvfits` (vis_model_transfer.py 145-166) for the file found at `model_file_path`; `obsFreq` is the
number of channels of the observation, `cfgPol` the option `n_pol`. -/
def importModelUvfits {α C : Type} (mk : α → α → C) (sites : String → Option Site) (fits : ℚ → String) (instrument : String)
    (f : UvFile α) (obsFreq cfgPol : ℕ) : Py (NdArray C × GroupParams) := do
  let _ ← uvHeader sites fits instrument f.cards f.cols
  if f.nFreq ≠ obsFreq then .error .systemExit
  else do
    let names := f.cols.map GroupCol.name
    let params ← createParams f.cols (names.contains "ANTENNA1" && names.contains "ANTENNA2")
    let vis ← extractVisibilities mk f.data cfgPol f.nPol
    return (vis.1, params)

/-! ## Commands -/

/-- Whitespace for `str.split()`; only the ASCII characters. -/
def pySpace (c : Char) : Bool := c == ' ' || c == '\t' || c == '\n' || c == '\r' || c == '\x0b' || c == '\x0c'

/-- `str.split()`, with the word read so far in reverse. -/
def splitWords : List Char → List Char → List (List Char)
  | [], w => if w = [] then [] else [w.reverse]
  | c :: cs, w =>
    if pySpace c then (if w = [] then splitWords cs [] else w.reverse :: splitWords cs [])
    else splitWords cs (c :: w)

/-- `run_command` (pyfhd_utils.py 1098-1103): what is printed, `exec` runs a program with its arguments. Not modelled: an empty
command, a program that is missing. -/
def runCommand (exec : List (List Char) → List Char) (cmd : List Char) (dry : Bool) : List Char :=
  if dry then "This was a dry run, not launching IDL code\n".toList else exec (splitWords cmd [])

/-! ## Model visibilities for IDL -/

/-- An array in the file for IDL: its name, its shape and its entries. -/
structure IdlData (C : Type) where
  name : List Char
  arr : NdArray C

/-- The names of the polarisations (vis_model_transfer.py 484). -/
def idlPolNames : List String := ["XX", "YY", "XY", "YX"]

/-- `vis_model_arr[pol].transpose()` (vis_model_transfer.py 496). -/
def polTransposed {C : Type} (a : NdArray C) (pol : ℕ) : Py (NdArray C) :=
  match a.shape with
  | [np, nf, nb] => if pol < np then .ok ⟨[nb, nf], fun ix => a.get [pol, ix.getD 1 0, ix.getD 0 0]⟩ else .error .indexError
  | _ => .error .valueError

/-- The arrays written (vis_model_transfer.py 490-498). An array without three axes is not modelled (`valueError`). -/
def idlDatasets {C : Type} (a : NdArray C) (obsId : List Char) (nPol : ℕ) : Py (List (IdlData C)) :=
  ((idlPolNames.take nPol).zipIdx).mapM fun np => do
    let d ← polTransposed a np.2
    return ⟨obsId ++ "_vis_model_".toList ++ np.1.toList, d⟩

/-- The command (vis_model_transfer.py 520). -/
def idlCommand (dir obsId : List Char) (nPol : ℕ) : List Char :=
  "idl -IDL_DEVICE ps -e convert_model_arr_to_sav -args ".toList ++ dir ++ [' '] ++ obsId ++ [' '] ++ (Nat.repr nPol).toList

/-- A directory given by a path from the directory `cwd`. Simplification: the parts `..` and `.` are kept. -/
def resolveDir (cwd path : List Char) : List Char :=
  if path.head? = some '/' then path else cwd ++ '/' :: path

/-- What is left by `convert_vis_model_arr_to_sav` (vis_model_transfer.py 484-522): the file with its arrays, the working directory
and the arguments with which IDL is run. -/
structure IdlRun (C : Type) where
  file : List Char
  datasets : List (IdlData C)
  cwd : List Char
  argv : List (List Char)

/-- `convert_vis_model_arr_to_sav` (vis_model_transfer.py 484-522) in the directory `cwd`. Not modelled: the copy of the template, an
output directory that is missing. -/
def convertModelToSav {C : Type} (cwd : List Char) (a : NdArray C) (obsId dir : List Char) (nPol : ℕ) : Py (IdlRun C) := do
  let ds ← idlDatasets a obsId nPol
  return ⟨resolveDir cwd (dir ++ '/' :: obsId ++ "_vis_model.h5".toList), ds, resolveDir cwd dir,
    splitWords (idlCommand dir obsId nPol) []⟩

/-! ## IDL files -/

/-- A file: is it a compressed IDL file, and its content. -/
structure SavFile (B : Type) where
  compressed : Bool
  content : B

/-- The name of the decompressed copy (pyfhd_io.py 680). -/
def savTemp (tmpDir savPath : List Char) : List Char :=
  tmpDir ++ '/' :: ((List.splitOnP (· == '/') savPath).getLastD [])

/-- `convert_sav_to_dict` (pyfhd_io.py 673-693): what is returned and the files afterwards. `parse` reads the content of an
uncompressed file and `expand` decompresses; the copy is written by `readsav`. Files are found under one path each. If the copy
is the file itself then what `readsav` returns is not modelled: it reads the file while it writes it. -/
def convertSav {B V : Type} (parse : B → V) (expand : B → B) (fs : List Char → Option (SavFile B)) (savPath tmpDir : List Char) :
    Py V × (List Char → Option (SavFile B)) :=
  match fs savPath with
  | none => (.error .systemExit, fs)
  | some f =>
    if f.compressed then
      (.ok (parse (expand f.content)), fun p => if p = savTemp tmpDir savPath then some ⟨false, expand f.content⟩ else fs p)
    else (.ok (parse f.content), fs)

end PyFHD
