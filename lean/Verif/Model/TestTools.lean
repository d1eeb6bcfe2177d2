import Verif.Model.SavImport

/-!
# Model of the tools for comparisons with IDL (pyfhd_tools/test_utils.py)

`try_assert_all_close` (156-192), `convert_to_h5` (195-225) and `sav_file_vis_arr_swap_axes` (228-255). The functions that
only read files (12-153) and `print_types` (258-295) are in `TestData`.
-/

namespace PyFHD

/-- One element against its target as `assert_allclose` compares them (test_utils.py 177), with its default relative tolerance of one
in ten million: `|actual - target| <= atol + rtol * |target|`, and NaN is equal to NaN only. -/
def closeAt (tol : ℚ) : Option ℚ → Option ℚ → Bool
  | some a, some t => decide (|a - t| ≤ tol + 1 / 10000000 * |t|)
  | none, none => true
  | _, _ => false

/-- `try_assert_all_close` (test_utils.py 156-192): what is printed, `true` for "Test Passed". Numbers are finite or NaN. Arrays of
different shape fail, except that a single number stands for an array of any shape, which is not modelled. -/
def tryAssertAllClose (actual target : Nd (Option ℚ)) (indices : List (List ℕ)) (tol : ℚ) : Bool :=
  decide (actual.shape = target.shape) && indices.all fun l => closeAt tol (actual.entry l) (target.entry l)

/-- A file to convert: the kind is that of its extension. The values are what `recarray_to_dict` returns for a `.sav` file, and the
dictionary in a `.npy` file. -/
inductive TestFile (V : Type)
  | sav (entries : Py (List (String × V)))
  | npy (entries : Py (List (String × V)))
  | other

/-- An entry of a dictionary is set: in its place if the key is there, else at the end. -/
def dictPut {V : Type} (d : List (String × V)) (k : String) (v : V) : List (String × V) :=
  if k ∈ d.map Prod.fst then d.map fun kv => if kv.1 = k then (k, v) else kv else d ++ [(k, v)]

/-- The loop of `convert_to_h5` (test_utils.py 216-224): `var` keeps its value for a file that has neither extension. -/
def convertLoop {V : Type} : List (TestFile V) → Option (List (String × V)) → List (String × V) → Py (List (String × V))
  | [], _, saved => .ok saved
  | f :: fs, var, saved => do
    let var ← match f with
      | .sav e => e.map some
      | .npy e => e.map some
      | .other => .ok var
    match var with
    | none => .error .nameError
    | some entries => convertLoop fs (some entries) (entries.foldl (fun d kv => dictPut d kv.1 kv.2) saved)

/-- The dictionary that `convert_to_h5` saves (test_utils.py 195-225). The `UnboundLocalError` is a `NameError`. -/
def convertToH5 {V : Type} (files : List (TestFile V)) : Py (List (String × V)) := convertLoop files none []

/-- `sav_file_vis_arr_swap_axes` (test_utils.py 228-255). -/
def swapVisAxes {K : Type} [Inhabited K] (pols : List (Nd K)) : Py (Nd K) :=
  match pols with
  | [] => .error .indexError
  | first :: _ =>
    match first.shape with
    | nBl :: nFreq :: _ => do
      let planes ← pols.mapM fun a => assignPol [nFreq, nBl] a.transpose
      pure ⟨[pols.length, nFreq, nBl], fun l => ((planes[l.headD 0]?).map fun a => a.entry l.tail).getD default⟩
    | _ => .error .indexError

end PyFHD
