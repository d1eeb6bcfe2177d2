import Verif.Model.Basic

/-!
# Model of saving and loading (io/pyfhd_io.py)

Floating point numbers are rational numbers or NaN (`none`). An array is given by its shape and its entries in C
order. Not modelled: lists, paths, the options `to_chunk` and `variable_lengths`, record arrays, keys that contain
`/` (HDF5 reads them as paths). The behaviour of h5py that is used is stated at the definitions.
-/

namespace PyFHD

/-- A floating point number, `none` for NaN. -/
abbrev Flt := Option ℚ

/-- An entry of an object array. -/
inductive Obj
  | none
  | flt (x : Flt)
  | cplx (re im : Flt)
  | str (s : String)
  deriving DecidableEq

/-- The entries of an array, by kind of its dtype. `bytes` are byte strings (dtype kind `S`), `strs` strings
(kind `U`). -/
inductive HArr
  | ints (l : List ℤ)
  | flts (l : List Flt)
  | cplxs (l : List (Flt × Flt))
  | bools (l : List Bool)
  | strs (l : List String)
  | bytes (l : List String)
  | objs (l : List Obj)
  deriving DecidableEq

/-- `_is_string` and `_is_complex` (pyfhd_io.py 37-74). -/
def Obj.isStr : Obj → Bool
  | .str _ => true
  | _ => false

/-- See `Obj.isStr`. -/
def Obj.isCplx : Obj → Bool
  | .cplx _ _ => true
  | _ => false

/-- A string that can be stored as bytes: `astype(bytes)` raises a `UnicodeEncodeError` for others. -/
def isAscii (s : String) : Bool := s.toList.all fun c => decide (c.toNat < 128)

/-- `str.astype(bytes)` for the entries of an array. -/
def toBytes (l : List String) : Py (List String) :=
  if l.all isAscii then .ok l else .error .valueError

/-- What `array[array == None] = v` makes of an entry. -/
def Obj.fill (v : Obj) : Obj → Obj
  | .none => v
  | o => o

/-- An entry as a string for `astype(bytes)`; `render` is Python's `str` of a number. -/
def Obj.render (render : Obj → String) : Obj → String
  | .str s => s
  | o => render o

/-- An entry as a `float64`. -/
def Obj.toFlt : Obj → Flt
  | .flt x => x
  | _ => Option.none

/-- An entry as a `complex128`. -/
def Obj.toCplx : Obj → Flt × Flt
  | .flt x => (x, some 0)
  | .cplx a b => (a, b)
  | _ => (Option.none, Option.none)

/-- `array[np.isnan(array.real)] = np.nan * 0j` for an entry (pyfhd_io.py 153). -/
def cplxNan (z : Flt × Flt) : Flt × Flt := if z.1 = Option.none then (Option.none, Option.none) else z

/-- `format_array` (pyfhd_io.py 134-162). -/
def formatArray (render : Obj → String) (a : HArr) : Py HArr :=
  match a with
  | .strs l => (toBytes l).map HArr.bytes
  | .objs [] => .ok (.objs [])
  | .objs l =>
    if l.any Obj.isStr then
      (toBytes ((l.map (Obj.fill (.str ""))).map (Obj.render render))).map HArr.bytes
    else
      let l := l.map (Obj.fill (.flt none))
      if l.any Obj.isCplx then .ok (.cplxs (l.map fun o => cplxNan o.toCplx))
      else .ok (.flts (l.map Obj.toFlt))
  | a => .ok a

/-- The argument of `format_array` after the call: the replacement of `None` is made in place
(pyfhd_io.py 142 and 148). -/
def formatArrayArg (a : HArr) : HArr :=
  match a with
  | .objs l =>
    if l.any Obj.isStr then .objs (l.map (Obj.fill (.str ""))) else .objs (l.map (Obj.fill (.flt none)))
  | a => a

/-- A value of a dictionary other than a dictionary. -/
inductive Leaf
  | none
  | int (n : ℤ)
  | flt (x : Flt)
  | cplx (re im : Flt)
  | bool (b : Bool)
  | str (s : String)
  | array (shape : List ℕ) (a : HArr)
  deriving DecidableEq

mutual
/-- A value of a dictionary. -/
inductive Val
  | leaf (l : Leaf)
  | dict (d : Dict)
/-- A dictionary, in insertion order. -/
inductive Dict
  | nil
  | cons (k : String) (v : Val) (rest : Dict)
end

/-- A dataset of an HDF5 file: without data, a number, a string, an array. -/
inductive Dataset
  | empty
  | scalar (l : Leaf)
  | str (s : String)
  | array (shape : List ℕ) (a : HArr)

mutual
/-- A member of an HDF5 group. -/
inductive Node
  | data (d : Dataset)
  | group (g : Group)
/-- A group (or file): members with their names in the order in which h5py lists them, each with the attribute of the
same name, which says whether the member stands for `None`. -/
inductive Group
  | nil
  | cons (k : String) (isNone : Bool) (n : Node) (rest : Group)
end

/-- A new member; h5py lists the members in the order of their names. -/
def Group.insert (k : String) (isNone : Bool) (n : Node) : Group → Group
  | .nil => .cons k isNone n .nil
  | .cons k' b' n' rest =>
    if k < k' then .cons k isNone n (.cons k' b' n' rest) else .cons k' b' n' (rest.insert k isNone n)

/-- `len(h5_file.keys())`. -/
def Group.size : Group → ℕ
  | .nil => 0
  | .cons _ _ _ rest => rest.size + 1

/-- The entries of an array as stored with the type of `dtype_picker` (pyfhd_io.py 26-34); `conv` is the conversion of
an integer to `int64`. Entries of other kinds are already stored in double precision here. An object array that
is left over has no HDF5 type, and h5py raises. -/
def storeArr (conv : ℤ → ℤ) : HArr → Py HArr
  | .ints l => .ok (.ints (l.map conv))
  | .objs _ => .error .typeError
  | .strs _ => .error .typeError
  | a => .ok a

/-- `save_dataset` for a value other than a dictionary (pyfhd_io.py 214-298). h5py refuses compression for
arrays without axes. -/
def saveLeaf (render : Obj → String) (conv : ℤ → ℤ) (l : Leaf) : Py (Dataset × Bool) :=
  match l with
  | .none => .ok (.empty, true)
  | .str s => .ok (.str s, false)
  | .array shape a =>
    match formatArray render a with
    | .error e => .error e
    | .ok a =>
      match storeArr conv a with
      | .error e => .error e
      | .ok a => if shape = [] then .error .typeError else .ok (.array shape a, false)
  | l => .ok (.scalar l, false)

mutual
/-- `save_dataset` (pyfhd_io.py 165-298): the new member, and whether it stands for `None`. -/
def saveVal (render : Obj → String) (conv : ℤ → ℤ) : Val → Py (Node × Bool)
  | .leaf l =>
    match saveLeaf render conv l with
    | .error e => .error e
    | .ok (d, b) => .ok (.data d, b)
  | .dict d =>
    match saveDict render conv .nil d with
    | .error e => .error e
    | .ok g => .ok (.group g, false)
/-- `dict_to_group` (pyfhd_io.py 330-333) and the loop over the keys in `save` (pyfhd_io.py 401-406), into the group `g`. -/
def saveDict (render : Obj → String) (conv : ℤ → ℤ) (g : Group) : Dict → Py Group
  | .nil => .ok g
  | .cons k v rest =>
    match saveVal render conv v with
    | .error e => .error e
    | .ok (n, b) => saveDict render conv (g.insert k b n) rest
end

/-- `_decode_byte_arr` of an array: `np.vectorize` raises for an empty one. -/
def decodeBytes (l : List String) : Py (List String) :=
  if l = [] then .error .valueError else .ok l

/-- `load_dataset` (pyfhd_io.py 444-455). `strDtype` says whether the object that h5py returns for a
single string has the attribute `dtype` (an object of NumPy's type `bytes_`, which is
decoded into a string) or not (Python's `bytes`). -/
def loadData (strDtype : Bool) (isNone : Bool) (d : Dataset) : Py Leaf :=
  if isNone then .ok .none
  else
    match d with
    | .empty => .error .attributeError
    | .scalar l => .ok l
    | .str s => if strDtype then .ok (.str s) else .error .attributeError
    | .array shape (.bytes l) => (decodeBytes l).map fun l => .array shape (.strs l)
    | .array shape a => .ok (.array shape a)

mutual
/-- The value of a member of a group (pyfhd_io.py 475-479 and 532-536). -/
def loadNode (strDtype : Bool) (isNone : Bool) : Node → Py Val
  | .data d => (loadData strDtype isNone d).map Val.leaf
  | .group g => (loadGroup strDtype g).map Val.dict
/-- `group_to_dict` (pyfhd_io.py 473-480), and the loop over the keys in `load` (pyfhd_io.py 528-537). -/
def loadGroup (strDtype : Bool) : Group → Py Dict
  | .nil => .ok .nil
  | .cons k b n rest =>
    match loadNode strDtype b n with
    | .error e => .error e
    | .ok v =>
      match loadGroup strDtype rest with
      | .error e => .error e
      | .ok d => .ok (.cons k v d)
end

/-- `h5_file[key][:]` (pyfhd_io.py 525): the stored array; a dataset without axes and a group cannot be sliced. -/
def sliceAll : Node → Py Leaf
  | .data (.array shape a) => .ok (.array shape a)
  | .data _ => .error .valueError
  | .group _ => .error .typeError

/-- `load` (pyfhd_io.py 516-540) without `lazy_load`. -/
def load (strDtype : Bool) (file : Group) : Py Val :=
  match file with
  | .cons _ _ n .nil => (sliceAll n).map Val.leaf
  | g => (loadGroup strDtype g).map Val.dict

/-- `save` (pyfhd_io.py 388-411) of a dictionary. -/
def save (render : Obj → String) (conv : ℤ → ℤ) (d : Dict) : Py Group := saveDict render conv .nil d

/-- `save` (pyfhd_io.py 388-411) of an array under the name `name`. -/
def saveArray (render : Obj → String) (conv : ℤ → ℤ) (name : String) (shape : List ℕ) (a : HArr) :
    Py Group := saveDict render conv .nil (.cons name (.leaf (.array shape a)) .nil)

end PyFHD
