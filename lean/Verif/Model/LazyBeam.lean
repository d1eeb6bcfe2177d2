import Verif.Model.Storage
import Verif.Model.Flagging

/-!
# Model of beams that are loaded lazily (`lazy_load_beam`)

A lazily loaded beam is the open HDF5 file; the functions that use it read its members with `[0]` and `[:]`. Not
modelled: the chunks in which the kernels are stored, kernels as object arrays.
-/

namespace PyFHD

/-- `psf`: a dictionary, or an open HDF5 file. -/
inductive BeamSrc
  | inMemory (d : Dict)
  | lazyFile (g : Group)

/-- `create_psf` for an HDF5 file (beam.py 150-162), that is `load` (pyfhd_io.py 516-540). A file with a single
member gives an array and not a dictionary; the first access to it by a name raises (pyfhd.py 209). -/
def loadBeam (lazy strDtype : Bool) (file : Group) : Py BeamSrc :=
  if lazy then .ok (.lazyFile file)
  else
    match load strDtype file with
    | .error e => .error e
    | .ok (.dict d) => .ok (.inMemory d)
    | .ok (.leaf _) => .error .indexError

/-- `psf[key]` for a dictionary. -/
def beamDictGet (key : String) : Dict → Py Val
  | .nil => .error .keyError
  | .cons k v rest => if key = k then .ok v else beamDictGet key rest

/-- `psf[key]` for a file. -/
def groupGet (key : String) : Group → Py Node
  | .nil => .error .keyError
  | .cons k _ n rest => if key = k then .ok n else groupGet key rest

/-- `a[0]` for an array with one axis. -/
def headOf : HArr → Py Leaf
  | .ints (x :: _) => .ok (.int x)
  | .flts (x :: _) => .ok (.flt x)
  | .cplxs (x :: _) => .ok (.cplx x.1 x.2)
  | .bools (x :: _) => .ok (.bool x)
  | .strs (x :: _) => .ok (.str x)
  | .bytes (x :: _) => .ok (.str x)
  | .objs (.flt x :: _) => .ok (.flt x)
  | .objs (.cplx a b :: _) => .ok (.cplx a b)
  | .objs (.str s :: _) => .ok (.str s)
  | .objs (.none :: _) => .ok .none
  | _ => .error .indexError

/-- `h5_file[key][0]`: h5py raises a `ValueError` for datasets without axes (`Illegal slicing argument for
scalar dataspace`) and without data, and a `TypeError` for groups. For more than one axis the result is an array, with
which no number can be formed: `TypeError` stands for what follows. -/
def firstEntry : Node → Py Leaf
  | .data (.array [_] a) => headOf a
  | .data (.array (_ :: _ :: _) _) => .error .typeError
  | .data _ => .error .valueError
  | .group _ => .error .typeError

/-- A number of the beam: `psf[key]`, and `psf[key][0]` for a file (beam_utils.py 116-126, pyfhd_utils.py 1141-1143,
gridding_utils.py 144-148, 592-596 and 738-740, visibility_grid.py 145-150). -/
def beamNumber (key : String) : BeamSrc → Py Leaf
  | .inMemory d =>
    match beamDictGet key d with
    | .error e => .error e
    | .ok (.leaf l) => .ok l
    | .ok (.dict _) => .error .typeError
  | .lazyFile g =>
    match groupGet key g with
    | .error e => .error e
    | .ok n => firstEntry n

/-- An array of the beam: `psf[key]`, and `psf[key][:]` for a file (beam_utils.py 117 and 125, visibility_grid.py
147 and 151, export.py 85-87). -/
def beamArray (key : String) : BeamSrc → Py Leaf
  | .inMemory d =>
    match beamDictGet key d with
    | .error e => .error e
    | .ok (.leaf l) => .ok l
    | .ok (.dict _) => .error .typeError
  | .lazyFile g =>
    match groupGet key g with
    | .error e => .error e
    | .ok n => sliceAll n

/-- The size of the kernel as it enters the arithmetic (pyfhd_utils.py 1144-1151): a number, or an array with one
entry, which is repeated along the axes of the other operand. Modelled for whole numbers that are not negative; `TypeError`
stands for everything else. -/
def kernelSize : Leaf → Py ℕ
  | .int n => if 0 ≤ n then .ok n.toNat else .error .typeError
  | .array [1] (.ints [n]) => if 0 ≤ n then .ok n.toNat else .error .typeError
  | _ => .error .typeError

/-- `vis_weights_update` (pyfhd_utils.py 1106-1211) with the beam: the size of the kernel is read first (1141-1143). -/
def visWeightsUpdateB (psf : BeamSrc) (o : FlagObs) (uu vv : ℕ → ℚ) (norm : ℚ → ℚ → ℚ) (w : Weights) :
    Py VwuResult := do
  let l ← beamNumber "dim" psf
  let d ← kernelSize l
  visWeightsUpdate o ⟨uu, vv, norm, d⟩ w

end PyFHD
