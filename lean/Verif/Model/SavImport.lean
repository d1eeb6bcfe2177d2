import Verif.Model.Basic
import Mathlib.Algebra.BigOperators.Group.List.Basic
import Mathlib.Data.Rat.Floor

/-!
# Reading IDL files: model visibilities, structures and beams

`vis_model_transfer` and `import_vis_model_from_sav` (PyFHD/source_modeling/vis_model_transfer.py 16-122), the check of
`import_vis_model_from_uvfits` (124-172), `recarray_to_dict` (PyFHD/io/pyfhd_io.py 543-638) and `create_psf`
(PyFHD/beam_setup/beam.py 99-168).

`readsav` itself is not modelled: the functions here start from what it returns. An array is its shape and its entries as a function
of the list of indices (first index first).
-/

namespace PyFHD

/-- A NumPy array. -/
structure Nd (α : Type) where
  shape : List ℕ
  entry : List ℕ → α

namespace Nd

variable {α : Type}

/-- `a.size`. -/
def size (a : Nd α) : ℕ := a.shape.prod

/-- `a[i]` for an array with an axis. -/
def row (a : Nd α) (i : ℕ) : Nd α := ⟨a.shape.tail, fun l => a.entry (i :: l)⟩

/-- `a.transpose()`. -/
def transpose (a : Nd α) : Nd α := ⟨a.shape.reverse, fun l => a.entry l.reverse⟩

/-- `a` in an assignment to a place of shape `t`: axes of length one are missing in front or are repeated, further axes in front must
have length one; `none` is the `ValueError`. -/
def broadcastTo (t : List ℕ) (a : Nd α) : Option (Nd α) :=
  let extra := a.shape.length - t.length
  let s := List.replicate (t.length - a.shape.length) 1 ++ a.shape.drop extra
  if (a.shape.take extra).all (· = 1) ∧ (List.zipWith (fun n m : ℕ => decide (m = n ∨ m = 1)) t s).all id then
    some ⟨t, fun l => a.entry (List.replicate extra 0 ++
      (List.zipWith (fun i m : ℕ => if m = 1 then 0 else i) l s).drop (t.length - a.shape.length))⟩
  else none

end Nd

/-! ## Model visibilities -/

/-- The variable `vis_model_ptr` of a file: an array, or an object array with one array in it. -/
inductive SavVis (K : Type)
  | plain (a : Nd K)
  | pointer (a : Nd K)

/-- `if curr_vis_model.size == 1: curr_vis_model = curr_vis_model[0]` (vis_model_transfer.py 90-91, 109-110). -/
def SavVis.unpack {K : Type} : SavVis K → Py (Nd K)
  | .pointer a => .ok a
  | .plain a => if a.size = 1 then (if a.shape = [] then .error .indexError else .ok (a.row 0)) else .ok a

/-- The file of a polarisation (vis_model_transfer.py 79-92, 99-111): the name of the polarisation is looked up, a missing file ends
the run. -/
def readPol {K : Type} (files : List Char → Option (SavVis K)) (polNames : List (List Char)) (p : ℕ) : Py (Nd K) :=
  match polNames[p]? with
  | none => .error .indexError
  | some name =>
    match files name with
    | none => .error .systemExit
    | some v =>
      match v.unpack with
      | .error e => .error e
      | .ok a => .ok a.transpose

/-- The assignment `vis_model_arr[pol_i] = ...` of the first or a further polarisation (vis_model_transfer.py 96, 111). -/
def assignPol {K : Type} (shape : List ℕ) (a : Nd K) : Py (Nd K) :=
  match a.broadcastTo shape with
  | none => .error .valueError
  | some b => .ok b

/-- `import_vis_model_from_sav` (vis_model_transfer.py 48-122). `params` is what `recarray_to_dict` gives for the file of parameters,
`none` if there is no such file. -/
def importSav {K P : Type} [Inhabited K] (params : Option P) (files : List Char → Option (SavVis K)) (polNames : List (List Char))
    (nPol : ℕ) : Py (Nd K × P) :=
  match params with
  | none => .error .systemExit
  | some q =>
    match readPol files polNames 0 with
    | .error e => .error e
    | .ok first =>
      if nPol = 0 then .error .indexError
      else
        match (List.range' 1 (nPol - 1)).mapM fun p => (readPol files polNames p).bind (assignPol first.shape) with
        | .error e => .error e
        | .ok rest =>
          .ok (⟨nPol :: first.shape, fun l => (((first :: rest)[l.headD 0]?).map fun a => a.entry l.tail).getD default⟩, q)

/-- `vis_model_transfer` (vis_model_transfer.py 16-46) with the check of `import_vis_model_from_uvfits` (124-172): `sav` is the
result of the one function, `uvfits` the number of channels of the file and its visibilities and parameters (`extract_visibilities`
and `create_params` are modelled in DataSetup). -/
def visModelTransfer {V : Type} (fileType : List Char) (nFreq : ℕ) (sav : Py V) (uvfits : Py (ℕ × Py V)) : Py V :=
  if fileType = "sav".toList then sav
  else if fileType = "uvfits".toList then
    match uvfits with
    | .error e => .error e
    | .ok (n, v) => if n ≠ nFreq then .error .systemExit else v
  else .error .systemExit

/-! ## Structures -/

/-- An array of numbers: are they integers, the shape, the entries (`none` is NaN). -/
structure NumArr extends Nd (Option ℚ) where
  isInt : Bool

/-- What `readsav` returns. `objs` is a one-dimensional object array (or array of byte strings), `recs` a record array: the columns with
their names. Byte strings are taken as the characters they stand for. Not modelled: object arrays of more than one dimension. -/
inductive Sav
  | nul
  | num (isInt : Bool) (v : Option ℚ)
  | bytes (s : List Char)
  | nums (a : NumArr)
  | objs (xs : List Sav)
  | recs (fields : List (List Char × Sav))

/-- What `recarray_to_dict` makes of it. `objArr` is an object array, `lst` a list. -/
inductive SavOut
  | nul
  | num (isInt : Bool) (v : Option ℚ)
  | text (s : List Char)
  | strs (l : List (List Char))
  | arr (a : NumArr)
  | objArr (xs : List Sav)
  | lst (xs : List Sav)
  | dict (fields : List (List Char × SavOut))

/-- `str.strip()`, for the white space of ASCII. -/
def stripChars (s : List Char) : List Char :=
  ((s.dropWhile Char.isWhitespace).reverse.dropWhile Char.isWhitespace).reverse

/-- `if data[key].size == 1: data[key] = data[key][0]` (pyfhd_io.py 577-578). -/
def Sav.unpack : Sav → Py Sav
  | .nums a =>
    if a.size = 1 then
      match a.shape with
      | [] => .error .indexError
      | [_] => .ok (.num a.isInt (a.entry [0]))
      | _ :: _ :: _ => .ok (.nums ⟨a.toNd.row 0, a.isInt⟩)
    else .ok (.nums a)
  | .objs [x] => .ok x
  | v => .ok v

/-- The null pointers made NaN (pyfhd_io.py 587-589, 610-613). -/
def Sav.noNull : Sav → Sav
  | .nul => .num false none
  | v => v

/-- Is it `None`? -/
def Sav.isNul : Sav → Bool
  | .nul => true
  | _ => false

/-- Does the comparison with `None` have no truth value (pyfhd_io.py 587)? For arrays of one number it has. Simplified: all object arrays
and record arrays behind a null pointer are taken to have none. -/
def Sav.noTruth : Sav → Bool
  | .nums a => decide (a.size ≠ 1)
  | .objs _ => true
  | .recs _ => true
  | _ => false

/-- Assignment into an array of integers (drops the fraction; what NaN becomes is not defined, here it stays) or of floats. -/
def castTo (isInt : Bool) (v : Option ℚ) : Option ℚ := if isInt then v.map fun q => if 0 ≤ q then (⌊q⌋ : ℚ) else (⌈q⌉ : ℚ) else v

/-- `new_array[idx] = data[key][idx]` (pyfhd_io.py 625-626); `none` is the `ValueError`. Simplified: byte strings, object arrays and
record arrays are refused. -/
def stackRow (a : NumArr) : Sav → Option (Nd (Option ℚ))
  | .nums b => (b.broadcastTo a.shape).map fun c => ⟨c.shape, fun l => castTo a.isInt (c.entry l)⟩
  | .num _ v => if a.isInt ∧ v = none then none else some ⟨a.shape, fun _ => castTo a.isInt v⟩
  | _ => none

/-- Object arrays of arrays of numbers (pyfhd_io.py 604-627, 636-637): stacked, or a list. -/
def stackArrays (a : NumArr) (xs : List Sav) : SavOut :=
  match (xs.map Sav.noNull).mapM (stackRow a) with
  | some rows => .arr ⟨⟨xs.length :: a.shape, fun l => ((rows[l.headD 0]?).map fun r => r.entry l.tail).getD none⟩, a.isInt⟩
  | none => .lst (xs.map Sav.noNull)

/-- `[x.decode().strip() for x in data[key]]` (pyfhd_io.py 596). -/
def decodeAll (xs : List Sav) : Py (List (List Char)) :=
  xs.mapM fun x => match x with
    | .bytes s => .ok (stripChars s)
    | _ => .error .attributeError

/-- Null pointer in front (pyfhd_io.py 585-593). -/
def nullsFirst (xs : List Sav) : Py SavOut :=
  if xs.any Sav.noTruth then .error .valueError
  else if xs.all Sav.isNul then .ok (.arr ⟨⟨[xs.length], fun _ => none⟩, false⟩)
  else .ok (.objArr (xs.map Sav.noNull))

mutual
/-- The body of the loop of `recarray_to_dict` (pyfhd_io.py 580-637), after the unpacking. Not modelled: object arrays of object arrays
(628-635, see `vstackReshape`), left as they are here. -/
def Sav.convert : Sav → Py SavOut
  | .nul => .ok .nul
  | .num i v => .ok (.num i v)
  | .bytes s => .ok (.text s)
  | .nums a => if a.size = 0 then .error .indexError else .ok (.arr a)
  | .recs fs => (convertFields fs).map .dict
  | .objs [] => .error .indexError
  | .objs (.recs fs :: _) => (convertFields fs).map .dict
  | .objs (.nul :: xs) => nullsFirst (.nul :: xs)
  | .objs (.bytes s :: xs) => (decodeAll (.bytes s :: xs)).map .strs
  | .objs (.nums a :: xs) => .ok (stackArrays a (.nums a :: xs))
  | .objs (.num i v :: xs) => .ok (.objArr (.num i v :: xs))
  | .objs (.objs ys :: xs) => .ok (.objArr (.objs ys :: xs))
/-- The loop over the keys of a record array (pyfhd_io.py 570-583): names in lower case, every value unpacked and converted. The unpacking
of `Sav.unpack` is written out so that the recursion is seen to end (`convertFields_cons`). -/
def convertFields : List (List Char × Sav) → Py (List (List Char × SavOut))
  | [] => .ok []
  | (name, .objs [x]) :: rest =>
    match x.convert, convertFields rest with
    | .ok v, .ok r => .ok ((name.map Char.toLower, v) :: r)
    | .error e, _ => .error e
    | _, .error e => .error e
  | (name, x) :: rest =>
    match x.unpack with
    | .error e => .error e
    | .ok (.num i v) =>
      match convertFields rest with
      | .ok r => .ok ((name.map Char.toLower, .num i v) :: r)
      | .error e => .error e
    | .ok (.nums a) =>
      match (if a.size = 0 then .error .indexError else .ok (.arr a) : Py SavOut), convertFields rest with
      | .ok v, .ok r => .ok ((name.map Char.toLower, v) :: r)
      | .error e, _ => .error e
      | _, .error e => .error e
    | .ok _ =>
      match x.convert, convertFields rest with
      | .ok v, .ok r => .ok ((name.map Char.toLower, v) :: r)
      | .error e, _ => .error e
      | _, .error e => .error e
end

/-- `recarray_to_dict` (pyfhd_io.py 543-638) of a record array. -/
def recarrayToDict (fields : List (List Char × Sav)) : Py SavOut := (convertFields fields).map .dict

/-! ## Object arrays of object arrays -/

/-- The rows that `np.vstack` takes of an array. -/
def vRows {α : Type} (a : Nd α) : List (Nd α) :=
  match a.shape with
  | [] => [⟨[1], fun _ => a.entry []⟩]
  | [_] => [a]
  | n :: _ :: _ => (List.range n).map a.row

/-- One pass of the loop for object arrays of arrays (pyfhd_io.py 632-635): `np.vstack` of the `xs`, then `reshape` to the shape of
the object array (here one axis) followed by that of the first element; `none` is the `ValueError`. -/
def vstackReshape {α : Type} (xs : List (Nd α)) : Option (Nd (Option α)) :=
  match xs with
  | [] => none
  | x :: _ =>
    let rows := xs.flatMap vRows
    let per := (vRows x).length
    if rows.all (fun r => decide (r.shape = ((vRows x).headD x).shape)) ∧ rows.length = xs.length * per then
      some ⟨xs.length :: x.shape, fun l =>
        match x.shape with
        | _ :: _ :: _ => (rows[l.headD 0 * per + l.tail.headD 0]?).map fun r => r.entry l.tail.tail
        | _ => (rows[l.headD 0]?).map fun r => r.entry l.tail⟩
    else none

/-! ## The beam -/

/-- What `create_psf` returns: the beam of a file that `readsav` read, with the path of the copy it writes; what `load` returns; `None`. -/
inductive PsfOut (B L : Type)
  | fromSav (beam : Nd B) (id : Nd B) (copy : List Char)
  | loaded (l : L)
  | nothing

/-- `create_psf` (beam.py 99-168) for a path given by its directory with a slash, its stem and its suffix. `sav` are the arrays
`beam_ptr` and `id` of the structure in the file, their indices reversed with respect to IDL (baseline, frequency, polarisation); the
conversion of their elements is `recarray_to_dict`, and not repeated here. The suffix `.hdf5` is read like `.h5`. -/
def createPsf {B L : Type} (dir stem suffix : List Char) (sav : Py (Nd B × Nd B)) (load : Py L) : Py (PsfOut B L) :=
  if suffix = ".sav".toList then
    match sav with
    | .error e => .error e
    | .ok (beam, id) =>
      let t := beam.transpose
      if t.shape.length < 3 ∨ t.shape.getD 2 0 = 0 then .error .indexError
      else .ok (.fromSav ⟨t.shape.eraseIdx 2, fun l => t.entry (l.take 2 ++ 0 :: l.drop 2)⟩ id.transpose (dir ++ stem ++ ".h5".toList))
  else if suffix = ".h5".toList ∨ suffix = ".hdf5".toList then
    match load with
    | .error e => .error e
    | .ok l => .ok (.loaded l)
  else if suffix = ".fits".toList then .error .systemExit
  else .ok .nothing

end PyFHD
