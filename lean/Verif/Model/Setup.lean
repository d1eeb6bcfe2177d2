import Mathlib.Data.Rat.Defs
import Mathlib.Algebra.Order.Ring.Rat
import Verif.Model.Basic

/-!
# Model of the set-up: `pyfhd_setup` and `write_collated_yaml_config` (pyfhd_tools/pyfhd_setup.py)
-/

namespace PyFHD

/-- The options that `pyfhd_setup` looks at or changes. An option with type `Path` is `None` or a path, and is always
true in a condition. `modelVisibilities` is `none` when the configuration has no such key (the parser does not
define it). Warnings and log messages are not modelled. -/
structure SetupCfg where
  inputPath : String
  obsId : String
  recalculateAll : Bool
  recalculateBeam : Bool
  recalculateGrid : Bool
  recalculateMapfn : Bool
  snapshotHealpixExport : Bool
  saveVisibilities : Bool
  beamOffsetTime : ℚ
  beamPerBaseline : Bool
  interpolateKernel : Bool
  calBpTransfer : Option String
  reflectionHyperresolve : Bool
  reflectionModeFile : Bool
  reflectionModeDelay : Bool
  reflectionModeTheory : ℚ
  calBaseGain : Option ℚ
  diffuseCalibrate : Option String
  calibrationCatalog : Option String
  transferCalibration : Option String
  transferModelUv : Option String
  transferWeights : Option String
  diffuseModel : Option String
  modelCatalog : Option String
  allowSidelobeModelSources : Bool
  modelVisibilities : Option Bool
  modelFilePath : String
  modelFileType : String
  runSimulation : Bool
  inSituSimInput : Option String
  eorVisFilepath : Option String
  enhanceEor : ℚ
  simNoise : Option String
  restrictHealpixInds : Bool
  healpixInds : Option String
  padUvImage : ℚ
  ringRadiusMulti : ℚ
  ringRadius : ℚ
  gridPsfFile : List String
  idlVariablesFile : Option String
  deriving DecidableEq

/-- The file system: which paths exist, the absolute form of a path, and the path of a file in a directory. -/
structure FileSys where
  exist : String → Bool
  abs : String → String
  join : String → String → String

/-- How `pyfhd_setup` ends: the program exits with a status, an exception, or a configuration. -/
inductive SetupResult
  | exit (status : ℕ)
  | raise (e : PyErr)
  | ok (c : SetupCfg)
  deriving DecidableEq

/-- The number returned by `_check_file_exists` (pyfhd_setup.py 1031-1043). -/
def checkFile (fs : FileSys) : Option String → ℕ
  | none => 0
  | some p => if fs.exist p then 0 else 1

/-- The same for an option that is a string, where the empty string is false (pyfhd_setup.py 1031). -/
def checkText (fs : FileSys) : Option String → ℕ
  | none => 0
  | some p => if p = "" then 0 else if fs.exist p then 0 else 1

/-- The value of the option after `_check_file_exists` (pyfhd_setup.py 1042). -/
def absFile (fs : FileSys) (o : Option String) : Option String :=
  o.map fun p => if fs.exist p then fs.abs p else p

/-- One if a condition holds. -/
def one (b : Bool) : ℕ := if b then 1 else 0

/-- The three required inputs (pyfhd_setup.py 1299-1321). -/
def inputErrors (fs : FileSys) (c : SetupCfg) : ℕ :=
  one (!fs.exist c.inputPath) + one (!fs.exist (fs.join c.inputPath (c.obsId ++ ".uvfits"))) +
    one (!fs.exist (fs.join c.inputPath (c.obsId ++ ".metafits")))

/-- The number of reflection modes as counted by nested conditional expressions (pyfhd_setup.py 1388-1396). -/
def logicTest (c : SetupCfg) : ℕ :=
  if c.reflectionModeFile then 1
  else if c.reflectionModeDelay then 0 + 1
  else if c.reflectionModeTheory ≠ 0 then 0 + 1 else 0

/-- The errors for one entry of `grid_psf_file` (pyfhd_setup.py 1546-1556). An empty name is false in the
condition of `_check_file_exists`, but has neither suffix. -/
def psfError (fs : FileSys) (f : String) : ℕ :=
  if f.endsWith ".sav" then checkFile fs (some f)
  else if f.endsWith ".npz" then checkFile fs (some f)
  else 1

/-- All errors counted (pyfhd_setup.py 1296-1560). The block
for the value `"sav"` of `model_file_path` (1467-1503) never runs, since the value is a `Path`, which is not equal to
any string. -/
def setupErrors (fs : FileSys) (c : SetupCfg) : ℕ :=
  inputErrors fs c + checkFile fs c.calBpTransfer + checkFile fs c.diffuseCalibrate +
    checkFile fs c.calibrationCatalog + checkFile fs c.transferCalibration +
    checkFile fs c.transferModelUv + checkFile fs c.transferWeights + checkFile fs c.diffuseModel +
    checkFile fs c.modelCatalog +
    one (c.allowSidelobeModelSources && c.modelVisibilities == some false) +
    checkFile fs (some c.modelFilePath) +
    one (!c.runSimulation && (c.inSituSimInput.isSome || c.eorVisFilepath.isSome || c.simNoise.isSome)) +
    checkFile fs c.inSituSimInput + checkFile fs c.eorVisFilepath +
    one (decide (1 < c.enhanceEor) && c.eorVisFilepath.isSome) + checkFile fs c.simNoise +
    (if c.restrictHealpixInds then checkFile fs c.healpixInds else 0) +
    (c.gridPsfFile.map (psfError fs)).sum + checkText fs c.idlVariablesFile

/-- The changes made to the configuration (pyfhd_setup.py 1323-1541). -/
def setupConfig (fs : FileSys) (c : SetupCfg) : SetupCfg :=
  { c with
    recalculateBeam := c.recalculateAll || c.recalculateBeam
    recalculateGrid := c.recalculateAll || c.recalculateGrid
    recalculateMapfn := c.recalculateAll || c.recalculateMapfn
    saveVisibilities := c.saveVisibilities || (c.snapshotHealpixExport && !c.saveVisibilities)
    beamOffsetTime := if c.beamOffsetTime < 0 then 0 else c.beamOffsetTime
    interpolateKernel := if c.beamPerBaseline && c.interpolateKernel then false else c.interpolateKernel
    calBpTransfer := absFile fs c.calBpTransfer
    reflectionHyperresolve :=
      if c.reflectionHyperresolve && c.reflectionModeFile then false else c.reflectionHyperresolve
    reflectionModeFile := if 1 < logicTest c then false else c.reflectionModeFile
    reflectionModeDelay := if 1 < logicTest c then false else c.reflectionModeDelay
    reflectionModeTheory := if 1 < logicTest c then 1 else c.reflectionModeTheory
    calBaseGain := if c.calBaseGain.isNone then some (3 / 4) else c.calBaseGain
    diffuseCalibrate := absFile fs c.diffuseCalibrate
    calibrationCatalog := absFile fs c.calibrationCatalog
    transferCalibration := absFile fs c.transferCalibration
    transferModelUv := absFile fs c.transferModelUv
    transferWeights := absFile fs c.transferWeights
    diffuseModel := absFile fs c.diffuseModel
    modelCatalog := absFile fs c.modelCatalog
    modelFilePath := if fs.exist c.modelFilePath then fs.abs c.modelFilePath else c.modelFilePath
    inSituSimInput := absFile fs c.inSituSimInput
    eorVisFilepath := absFile fs c.eorVisFilepath
    simNoise := absFile fs c.simNoise
    healpixInds := if c.restrictHealpixInds then absFile fs c.healpixInds else c.healpixInds
    ringRadius := c.padUvImage * c.ringRadiusMulti
    idlVariablesFile := if c.idlVariablesFile = some "" then some "" else absFile fs c.idlVariablesFile }

/-- `pyfhd_setup` (pyfhd_setup.py 1291-1602): `exit()` without argument ends the program with status 0. -/
def setup (fs : FileSys) (c : SetupCfg) : SetupResult :=
  if c.allowSidelobeModelSources && c.modelVisibilities.isNone then .raise .keyError
  else if setupErrors fs c ≠ 0 then .exit 0
  else .ok (setupConfig fs c)

/-! ## The configuration file -/

/-- The value of an option: numbers by the text Python prints for them; strings and paths as text. -/
inductive CfgVal
  | none
  | num (text : String)
  | bool (b : Bool)
  | list (l : List String)
  | text (s : String)
  deriving DecidableEq

/-- The keys that are not written (pyfhd_setup.py 1077-1086). -/
def skippedKeys : List String :=
  ["top_level_dir", "log_name", "log_time", "commit", "obs_id", "config_file", "grid_psf_file_sav",
    "grid_psf_file_npz"]

/-- `key.replace("_", "-")` (pyfhd_setup.py 1089). -/
def dashKey (k : List Char) : List Char := k.map fun ch => if ch = '_' then '-' else ch

/-- The text after the colon for a string (pyfhd_setup.py 1110). -/
def quoteText (s : List Char) : List Char := '\'' :: (s ++ ['\''])

/-- The text for the entries of a list after the first (pyfhd_setup.py 1103-1104). -/
def quoteRest : List (List Char) → List Char
  | [] => [']']
  | s :: rest => [',', ' '] ++ (quoteText s ++ quoteRest rest)

/-- One line of the file: the key and the text after the colon, if a line is written
(pyfhd_setup.py 1088-1110). Lists are written under the key itself, everything else under the key with
dashes; an empty list is not written. -/
def yamlLine (key : String) (v : CfgVal) : Option (List Char × List Char) :=
  match v with
  | .none => some (dashKey key.toList, ['~'])
  | .num t => some (dashKey key.toList, t.toList)
  | .bool b => some (dashKey key.toList, (if b then "True" else "False").toList)
  | .list [] => none
  | .list (s :: rest) =>
    some (key.toList, '[' :: (quoteText s.toList ++ quoteRest (rest.map String.toList)))
  | .text s => some (dashKey key.toList, quoteText s.toList)

/-- `write_collated_yaml_config` (pyfhd_setup.py 1069-1110), as the list of key and text. -/
def writeYaml (cfg : List (String × CfgVal)) : List (List Char × List Char) :=
  (cfg.filter fun kv => !skippedKeys.contains kv.1).filterMap fun kv => yamlLine kv.1 kv.2

/-! Reading the file: a part of YAML and of configargparse, not code of the repository. -/

/-- Reads a single-quoted YAML scalar after the opening quote: two quotes stand for one; returns the text and what
follows the closing quote, `none` if there is no closing quote. -/
def readQuoted : List Char → Option (List Char × List Char)
  | [] => none
  | '\'' :: '\'' :: rest =>
    match readQuoted rest with
    | some (s, r) => some ('\'' :: s, r)
    | none => none
  | '\'' :: rest => some ([], rest)
  | c :: rest =>
    match readQuoted rest with
    | some (s, r) => some (c :: s, r)
    | none => none

/-- Reads the entries of a flow sequence of quoted scalars; the first argument bounds their number. -/
def readSeq : ℕ → List Char → Option (List (List Char))
  | 0, _ => none
  | n + 1, '\'' :: cs =>
    match readQuoted cs with
    | some (s, [']']) => some [s]
    | some (s, ',' :: ' ' :: rest) =>
      match readSeq n rest with
      | some l => some (s :: l)
      | none => none
    | _ => none
  | _ + 1, _ => none

/-- The value read from a text: `none` if it is not valid. -/
inductive YVal
  | null
  | plain (s : List Char)
  | seq (l : List (List Char))
  deriving DecidableEq

/-- Reads the text after the colon. -/
def readYaml (t : List Char) : Option YVal :=
  match t with
  | ['~'] => some .null
  | '[' :: cs =>
    match readSeq cs.length cs with
    | some l => some (.seq l)
    | none => none
  | '\'' :: cs =>
    match readQuoted cs with
    | some (s, []) => some (.plain s)
    | _ => none
  | cs => some (.plain cs)

/-- What configargparse makes of the file: a null is ignored, an unknown key ends the program, otherwise the option gets
the text. -/
def readConfig (known : List (List Char)) :
    List (List Char × List Char) → Py (List (List Char × YVal))
  | [] => .ok []
  | (k, t) :: rest =>
    match readYaml t with
    | none => .error .valueError
    | some .null => readConfig known rest
    | some v =>
      if known.contains k then
        match readConfig known rest with
        | .ok l => .ok ((k, v) :: l)
        | .error e => .error e
      else .error .systemExit

end PyFHD
