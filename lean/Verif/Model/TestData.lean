import Verif.Model.RunDir
import Verif.Model.Basic

/-!
# Model of the tools that read test data and print types (pyfhd_tools/test_utils.py)

`get_data` (12-53), `get_data_items` (56-90), `get_data_sav` (93-124), `get_savs` (127-153) and `print_types` (258-295). The readers
(`readsav`, `np.load`) are parameters; a path is absolute or given by its parts.
-/

namespace PyFHD

/-- What a file holds: a dictionary (`readsav` with `python_dict=True`), a NumPy array without axes whose only element is a dictionary, or any
other array, with the number of its elements. Archives of several arrays (`.npz`) are not modelled. -/
inductive Loaded (V : Type)
  | dict (entries : List (String × V))
  | boxed (entries : List (String × V))
  | array (size : ℕ)

/-- The two readers. -/
structure Readers (V : Type) where
  readsav : DiskPath → Py (Loaded V)
  npLoad : DiskPath → Py (Loaded V)

/-- `Path(data_dir, file)` (test_utils.py 35, 42, 146, 150; Python library): an absolute name replaces the directory. -/
def joinPath (dir : DiskPath) (file : List Char) : DiskPath :=
  if file.head? = some '/' then pathParts file else dir ++ pathParts file

/-- `path.suffix` (Python library): the last part of the path from its last dot on, nothing if this is its first or last character. -/
def pathSuffix (p : DiskPath) : List Char :=
  let name := p.getLast?.getD []
  let tail := name.reverse.takeWhile (· != '.')
  let i := name.length - tail.length - 1
  if '.' ∈ name ∧ 0 < i ∧ tail ≠ [] then name.drop i else []

/-- One file as `get_data` reads it (test_utils.py 35-39, 42-46). -/
def readTest {V : Type} (r : Readers V) (dir : DiskPath) (file : List Char) : Py (Loaded V) :=
  let p := joinPath dir file
  if pathSuffix p = ".sav".toList then r.readsav p else r.npLoad p

/-- What the functions return: one value, or the list of values if further files are given. -/
inductive Several (A : Type)
  | one (a : A)
  | list (l : List A)
  deriving DecidableEq

/-- The files one after the other with a reader for one of them: `get_data` (test_utils.py 40-53), and in the same way the other
functions (79-90, 115-124, 147-153). -/
def readSeveral {A : Type} (f : List Char → Py A) (file : List Char) (args : List (List Char)) : Py (Several A) := do
  let a ← f file
  if 0 < args.length then do
    let l ← args.mapM f
    pure (.list (a :: l))
  else pure (.one a)

/-- `get_data` (test_utils.py 12-53). -/
def getData {V : Type} (r : Readers V) (dir : DiskPath) (file : List Char) (args : List (List Char)) : Py (Several (Loaded V)) :=
  readSeveral (readTest r dir) file args

/-- `list(d.keys())[0]` and the value of this key. -/
def firstValue {V : Type} : List (String × V) → Py V
  | [] => .error .indexError
  | kv :: _ => .ok kv.2

/-- `data.item()` and the value of its first key (test_utils.py 76-78): dictionaries have no `item`, arrays of more than one element (or none)
refuse, and the element of other arrays has no `keys`. -/
def itemValue {V : Type} : Loaded V → Py V
  | .dict _ => .error .attributeError
  | .boxed e => firstValue e
  | .array n => if n = 1 then .error .attributeError else .error .valueError

/-- `get_data_items` (test_utils.py 56-90). -/
def getDataItems {V : Type} (r : Readers V) (dir : DiskPath) (file : List Char) (args : List (List Char)) : Py (Several V) :=
  readSeveral (fun f => do let d ← readTest r dir f; itemValue d) file args

/-- The value of the first key (test_utils.py 113-114): arrays have no `keys`. -/
def savValue {V : Type} : Loaded V → Py V
  | .dict e => firstValue e
  | .boxed _ => .error .attributeError
  | .array _ => .error .attributeError

/-- `get_data_sav` (test_utils.py 93-124). -/
def getDataSav {V : Type} (r : Readers V) (dir : DiskPath) (file : List Char) (args : List (List Char)) : Py (Several V) :=
  readSeveral (fun f => do let d ← readTest r dir f; savValue d) file args

/-- `get_savs` (test_utils.py 127-153): read with `readsav` whatever the extension. -/
def getSavs {V : Type} (r : Readers V) (dir : DiskPath) (file : List Char) (args : List (List Char)) : Py (Several (Loaded V)) :=
  readSeveral (fun f => r.readsav (joinPath dir f)) file args

/-! ## `print_types` -/

mutual
/-- A value as `print_types` sees it: an array with the texts of its type and shape and, if it has a first element, the text of the type of that and,
if that is an array itself, the text of its element type; a dictionary; an object of the class `object` itself, with its text; or
anything else with the text of its type. -/
inductive Shown
  | array (dtype shape : String) (first : Option (String × Option String))
  | dict (d : ShownDict)
  | object (text : String)
  | other (type : String)
/-- A dictionary of such values. -/
inductive ShownDict
  | nil
  | cons (key : String) (v : Shown) (rest : ShownDict)
end

/-- `indent_level * 2 * ' '`. -/
def blanks (indent : ℕ) : String := String.ofList (List.replicate (indent * 2) ' ')

mutual
/-- The lines for one key (test_utils.py 276-295) and the exception that ends the printing: an array without a first element raises before its
line is printed. -/
def printShown (name key : String) (indent : ℕ) : Shown → List String × Option PyErr
  | .array _ _ none => ([], some .indexError)
  | .array dtype shape (some (t, inner)) =>
    ([name ++ "[" ++ key ++ "] : " ++ dtype ++ " " ++ shape, blanks indent ++ "Inside Type: " ++ t] ++
      (match inner with
        | none => []
        | some d => [blanks indent ++ "NumPy Array Dtype: " ++ d]), none)
  | .dict d =>
    let r := printTypes ("  " ++ key) (indent + 2) d
    ((name ++ "[" ++ key ++ "]  : <class 'dict'>") :: r.1, r.2)
  | .object text => ([name ++ "[" ++ key ++ "]  : <class 'object'>", text], none)
  | .other t => ([name ++ "[" ++ key ++ "]  : " ++ t], none)
/-- `print_types` (test_utils.py 258-295): the lines printed, and the exception if there is one. -/
def printTypes (name : String) (indent : ℕ) : ShownDict → List String × Option PyErr
  | .nil => ([], none)
  | .cons k v rest =>
    match printShown name k indent v with
    | (l, some e) => (l, some e)
    | (l, none) =>
      let r := printTypes name indent rest
      (l ++ r.1, r.2)
end

end PyFHD
