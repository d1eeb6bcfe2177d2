import Mathlib.Data.List.SplitOn
import Mathlib.Data.Rat.Floor
import Verif.Model.Basic

/-!
# Model of the start and end of a run: `pyfhd_logger` (pyfhd_tools/pyfhd_setup.py), `retrieve_gitdict`
(pyfhd_tools/git_helper.py), `_print_time_diff` and `finish_pyfhd` (pyfhd.py)
-/

namespace PyFHD

/-- A path, as its parts below the root. Relative paths are taken with the working directory in front; links and the part
`..` are not modelled. -/
abbrev DiskPath := List (List Char)

/-- What is on disk: which paths are directories and which are files. Permissions are not modelled. -/
structure Disk where
  dir : DiskPath → Bool
  file : DiskPath → Bool

/-- The errors of the file system that can occur. -/
inductive DiskErr
  | fileExists
  | fileNotFound
  | isADirectory
  deriving DecidableEq

/-- `Path.mkdir` without options (Python library): the parent has to be there, the path not. -/
def mkdir (d : Disk) (p : DiskPath) : Except DiskErr Disk :=
  if d.dir p || d.file p then .error .fileExists
  else if d.dir p.dropLast then .ok { d with dir := fun q => q == p || d.dir q }
  else .error .fileNotFound

/-- Opening a log file for appending, as `logging.FileHandler` does (Python library). -/
def openLog (d : Disk) (p : DiskPath) : Except DiskErr Disk :=
  if d.dir p then .error .isADirectory
  else if d.dir p.dropLast then .ok { d with file := fun q => q == p || d.file q }
  else .error .fileNotFound

/-- The parts of a text used as a path: between slashes, without empty ones and dots (Python library). -/
def pathParts (s : List Char) : DiskPath :=
  (s.splitOnP (· == '/')).filter fun p => !(p == [] || p == ['.'])

/-- `description.replace(" ", "_")` (pyfhd_setup.py 1155, 1222). -/
def underscored (s : List Char) : List Char := s.map fun c => if c = ' ' then '_' else c

/-- The name of the run, used for the log and the configuration files (pyfhd_setup.py 1151-1156). `time` is the time of the start
as `strftime("%Y_%m_%d_%H_%M_%S")`. -/
def runLogName (description : Option (List Char)) (time : List Char) : List Char :=
  match description with
  | none => "pyfhd_".toList ++ time
  | some s => "pyfhd_".toList ++ underscored s ++ "_".toList ++ time

/-- The name of the directory of the run (pyfhd_setup.py 1219-1222). -/
def runDirName (description : Option (List Char)) (time : List Char) : List Char :=
  match description with
  | none => "pyfhd_".toList ++ time
  | some s => "pyfhd_".toList ++ underscored s

/-- The options that `pyfhd_logger` looks at. -/
structure DirCfg where
  outputPath : DiskPath
  description : Option (List Char)
  silent : Bool
  logFile : Bool

/-- What `pyfhd_logger` leaves: the disk, the directory of the run, whether it was there before (and a warning is given), the
path of the log file, and whether messages were printed about the creation of the output path. -/
structure RunDir where
  disk : Disk
  outputDir : DiskPath
  existed : Bool
  logPath : Option DiskPath
  printed : Bool

/-- The directories and the log file made by `pyfhd_logger` (pyfhd_setup.py 1207-1234, 1252-1261). -/
def makeRunDir (disk : Disk) (c : DirCfg) (time : List Char) : Except DiskErr RunDir :=
  match (if disk.dir c.outputPath then .ok disk else mkdir disk c.outputPath) with
  | .error e => .error e
  | .ok disk1 =>
    let out := c.outputPath ++ pathParts (runDirName c.description time)
    match (if disk1.dir out then .ok disk1 else mkdir disk1 out) with
    | .error e => .error e
    | .ok disk2 =>
      let log := out ++ pathParts (runLogName c.description time ++ ".log".toList)
      match (if c.logFile then openLog disk2 log else .ok disk2) with
      | .error e => .error e
      | .ok disk3 =>
        .ok { disk := disk3, outputDir := out, existed := disk1.dir out,
              logPath := if c.logFile then some log else none, printed := !disk.dir c.outputPath }

/-! ## Messages -/

/-- A handler of the root logger. -/
inductive LogHandler
  | terminal
  | file (p : DiskPath)
  deriving DecidableEq

/-- Where a message ends. -/
inductive Sink
  | screen
  | log (p : DiskPath)
  deriving DecidableEq

/-- The handlers of the root logger after `pyfhd_logger` (pyfhd_setup.py 1195-1203, 1231-1234): new ones are added to those there
are. -/
def addHandlers (hs : List LogHandler) (silent : Bool) (logPath : Option DiskPath) : List LogHandler :=
  hs ++ (if silent then [] else [.terminal]) ++ (match logPath with | some p => [.file p] | none => [])

/-- The handlers after the end of a run (pyfhd.py 87-89, pyfhd_setup.py 1582-1584): they are closed and stay in the list; a file
handler opened for appending opens its file again at the next message (Python library). -/
def closeHandlers (hs : List LogHandler) : List LogHandler := hs

/-- Where a message goes (Python library): to every handler; without handlers, warnings and errors go to the screen. -/
def deliver (hs : List LogHandler) (warning : Bool) : List Sink :=
  if hs = [] then (if warning then [.screen] else [])
  else hs.map fun h => match h with
    | .terminal => .screen
    | .file p => .log p

/-- `line.lstrip()` (pyfhd_setup.py 1192), for blanks. -/
def stripLeft (s : List Char) : List Char := s.dropWhile (· == ' ')

/-- `.replace("|    ", "")` (pyfhd_setup.py 1192). -/
def dropBarBlanks : List Char → List Char
  | '|' :: ' ' :: ' ' :: ' ' :: ' ' :: rest => dropBarBlanks rest
  | c :: rest => c :: dropBarBlanks rest
  | [] => []

/-- One line of the first message (pyfhd_setup.py 1190-1193). -/
def bannerLine (s : List Char) : List Char :=
  (dropBarBlanks ((stripLeft s).map fun c => if c = '_' then ' ' else c)).filter fun c => c != '|'

/-! ## The commit -/

/-- `retrieve_gitdict` (git_helper.py 18-34): the text of the file with the information, if there is one. The first line is the
description of the commit. -/
def gitDescribe (info : Option (List Char)) : Py (Option (List Char)) :=
  match info with
  | none => .ok none
  | some text =>
    match text.splitOnP (· == '\n') with
    | l0 :: _ :: _ :: _ => .ok (some l0)
    | _ => .error .indexError

/-- The commit that is recorded (pyfhd_setup.py 1137-1149). `git` is what `git rev-parse HEAD` writes to its standard output in
the working directory; the result of `replace` in 1149 is not used. That the program git exists is assumed. -/
def recordedCommit (info : Option (List Char)) (git : List Char) : Py (List Char) :=
  match gitDescribe info with
  | .error e => .error e
  | .ok (some d) => .ok d
  | .ok none => .ok git

/-! ## Durations -/

/-- Rounding to the nearest integer, halves to the even one (Python `round`). -/
def roundEven (x : ℚ) : ℤ :=
  let f := ⌊x⌋
  if x - f < 1 / 2 then f else if 1 / 2 < x - f then f + 1 else if f % 2 = 0 then f else f + 1

/-- A duration as it is written: milliseconds or seconds with five decimals, or as `timedelta` with days, hours, minutes,
seconds and microseconds. -/
inductive Duration
  | millis (q : ℚ)
  | seconds (q : ℚ)
  | delta (days hours minutes seconds micros : ℤ)
  deriving DecidableEq

/-- `timedelta(seconds=t)` and its parts as printed (Python library, used in pyfhd.py 53, 69). -/
def timeDelta (t : ℚ) : Duration :=
  let us := roundEven (t * 1000000)
  let s := us / 1000000
  .delta (s / 86400) (s % 86400 / 3600) (s % 3600 / 60) (s % 60) (us % 1000000)

/-- `_print_time_diff` (pyfhd.py 51-62). -/
def timeDiff (start stop : ℚ) : Duration :=
  let t := stop - start
  if 60 < t then timeDelta (stop - start)
  else if t < 1 then .millis (roundEven (t * 1000 * 100000) / 100000)
  else .seconds (roundEven (t * 100000) / 100000)

end PyFHD
