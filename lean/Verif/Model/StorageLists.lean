import Verif.Model.Storage

/-!
# Model of saving and loading lists (io/pyfhd_io.py)

Lists of single values and lists of one-dimensional arrays or lists. Not modelled: deeper nesting, integers that do
not fit into 64 bits, the keys in `to_chunk` and `variable_lengths`.
-/

namespace PyFHD

/-- A single value in a list. -/
inductive Scal
  | none
  | bool (b : Bool)
  | int (n : ℤ)
  | flt (x : Flt)
  | cplx (re im : Flt)
  | str (s : String)
  deriving DecidableEq

/-- An item of a list: a single value, or a one-dimensional array (`isArr`) or list of values. -/
inductive LItem
  | one (s : Scal)
  | seq (isArr : Bool) (l : List Scal)
  deriving DecidableEq

/-- The rank of the type of a value in NumPy's promotion: truth values, integers, floats, complex numbers, strings,
objects. -/
def Scal.rank : Scal → ℕ
  | .bool _ => 0
  | .int _ => 1
  | .flt _ => 2
  | .cplx _ _ => 3
  | .str _ => 4
  | .none => 5

/-- A value as a truth value. -/
def Scal.toBool : Scal → Bool
  | .bool b => b
  | _ => false

/-- A value as an integer. -/
def Scal.toInt : Scal → ℤ
  | .bool b => if b then 1 else 0
  | .int n => n
  | _ => 0

/-- A value as a floating point number (exact). -/
def Scal.toFlt : Scal → Flt
  | .flt x => x
  | .bool b => some (if b then 1 else 0)
  | .int n => some n
  | _ => Option.none

/-- A value as a complex number. -/
def Scal.toCplx : Scal → Flt × Flt
  | .cplx a b => (a, b)
  | s => (s.toFlt, some 0)

/-- A value as a string; `render` is Python's `str` of a number. -/
def Scal.toStr (render : Scal → String) : Scal → String
  | .str s => s
  | s => render s

/-- A value as an entry of an object array. Beside strings, numbers are given as the strings that `astype(bytes)` will make of
them (pyfhd_io.py 143). -/
def Scal.toObj (render : Scal → String) (beside : Bool) : Scal → Obj
  | .none => .none
  | .str s => .str s
  | .cplx a b => if beside then .str (render (.cplx a b)) else .cplx a b
  | s => if beside then .str (render s) else .flt s.toFlt

/-- The largest rank in a list. -/
def maxRank (l : List Scal) : ℕ := l.foldr (fun s m => max s.rank m) 0

/-- `np.array` of a list of single values: the type is the one to which all can be converted. An empty list is an array of
floats. -/
def npArray1 (render : Scal → String) (l : List Scal) : HArr :=
  if l = [] then .flts []
  else if maxRank l = 0 then .bools (l.map Scal.toBool)
  else if maxRank l = 1 then .ints (l.map Scal.toInt)
  else if maxRank l = 2 then .flts (l.map Scal.toFlt)
  else if maxRank l = 3 then .cplxs (l.map Scal.toCplx)
  else if maxRank l = 4 then .strs (l.map (Scal.toStr render))
  else .objs (l.map (Scal.toObj render (l.any fun s => decide (s.rank = 4))))

/-- The entries of the items if all are single values. -/
def allOnes : List LItem → Option (List Scal)
  | [] => some []
  | .one s :: t => (allOnes t).map (s :: ·)
  | .seq _ _ :: _ => Option.none

/-- The rows if all items are arrays or lists. -/
def allSeqs : List LItem → Option (List (Bool × List Scal))
  | [] => some []
  | .seq b l :: t => (allSeqs t).map ((b, l) :: ·)
  | .one _ :: _ => Option.none

/-- What `np.array(value)` makes of a list: an array with its shape, or `none`, a `ValueError` that the list is
inhomogeneous. -/
def npArray (render : Scal → String) (l : List LItem) : Option (List ℕ × HArr) :=
  match allOnes l with
  | some s => some ([s.length], npArray1 render s)
  | Option.none =>
    match allSeqs l with
    | some rows =>
      let n := (rows.headD (true, [])).2.length
      if rows.all fun r => decide (r.2.length = n) then
        some ([rows.length, n], npArray1 render (rows.flatMap Prod.snd))
      else Option.none
    | Option.none => Option.none

/-- A dataset of a list: an array, or rows of different lengths. -/
inductive LDataset
  | array (shape : List ℕ) (a : HArr)
  | rows (l : List HArr)
  deriving DecidableEq

/-- The kinds that `dtype_picker` knows. -/
def HArr.isNum : HArr → Bool
  | .ints _ => true
  | .flts _ => true
  | .cplxs _ => true
  | _ => false

/-- `value[i] = format_array(arr)` for the items of an object array (pyfhd_io.py 271-272): a list has no attribute `size`, nor
has a number of Python. -/
def formatRow (render' : Obj → String) (render : Scal → String) : LItem → Py HArr
  | .seq true l => formatArray render' (npArray1 render l)
  | _ => .error .attributeError

/-- The branch for lists that are not homogeneous (pyfhd_io.py 266-273): a warning, for which there has to be a logger, and
rows of the type of the first one. `cast` is the conversion to that type; types other than numbers are not modelled (they
are an error here). -/
def saveRagged (render' : Obj → String) (render : Scal → String) (cast : HArr → HArr → HArr) (logger : Bool)
    (l : List LItem) : Py LDataset :=
  if logger then
    match l.mapM (formatRow render' render) with
    | .error e => .error e
    | .ok rows =>
      if rows.all HArr.isNum then .ok (.rows (rows.map (cast (rows.headD (.flts []))))) else .error .typeError
  else .error .attributeError

/-- `save_dataset` for a list (pyfhd_io.py 251-280). An error of `format_array` for a string that is not ASCII is a `ValueError`
and caught; it is logged, and then `data_dtype` has no value. -/
def saveList (render' : Obj → String) (render : Scal → String) (conv : ℤ → ℤ) (cast : HArr → HArr → HArr)
    (logger : Bool) (l : List LItem) : Py LDataset :=
  match npArray render l with
  | Option.none => saveRagged render' render cast logger l
  | some (shape, a) =>
    match formatArray render' a with
    | .error _ => .error (if logger then .nameError else .attributeError)
    | .ok a =>
      match storeArr conv a with
      | .error e => .error e
      | .ok a => .ok (.array shape a)

/-- What `load_dataset` returns for a dataset of a list: an array, or an object array of arrays. -/
inductive LLoaded
  | array (shape : List ℕ) (a : HArr)
  | rows (l : List HArr)
  deriving DecidableEq

/-- `load_dataset` (pyfhd_io.py 444-455) of a dataset of a list, which has an axis. -/
def loadList : LDataset → Py LLoaded
  | .array shape (.bytes l) => (decodeBytes l).map fun l => .array shape (.strs l)
  | .array shape a => .ok (.array shape a)
  | .rows l => .ok (.rows l)

/-- Saving a list in a dictionary with other keys, and loading it. -/
def listRoundTrip (render' : Obj → String) (render : Scal → String) (conv : ℤ → ℤ) (cast : HArr → HArr → HArr)
    (logger : Bool) (l : List LItem) : Py LLoaded := do
  let d ← saveList render' render conv cast logger l
  loadList d

end PyFHD
