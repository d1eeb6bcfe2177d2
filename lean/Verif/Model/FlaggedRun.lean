import Verif.Model.ExportFiles

/-!
# Model of a run that begins with the basic flagging (pyfhd.py 229-513)
-/

namespace PyFHD

/-- What the run works on after the basic flagging (pyfhd.py 229-233): the flags of channels and tiles and the weights are replaced. The counts of flags
in `obs` are not used by the stages after. -/
def RunIn.basicFlagged (x : RunIn) (r : BasicResult) : RunIn :=
  { x with obs := { x.obs with freqUse := r.freqUse, tileUse := r.tileUse }, weights := r.weights }

/-- The basic flagging of a run (pyfhd.py 228-233): `np.abs(vis_arr) > 0` says that a visibility is not zero. -/
noncomputable def RunIn.basic (x : RunIn) (c : FlagConfig) : Py BasicResult :=
  visFlagBasic x.obs c (fun p f s => by classical exact decide (x.vis p f s ≠ 0)) x.weights

/-- A run with `flag_basic` (pyfhd.py 228-513). -/
noncomputable def flaggedRun (x : RunIn) (c : FlagConfig) : Py RunOut := do
  let r ← x.basic c
  imagingRun (x.basicFlagged r)

/-- The HEALPix files of a run with `flag_basic` (pyfhd.py 228-531). -/
noncomputable def flaggedFiles (x : RunIn) (c : FlagConfig) (e : ExportIn) (q : FileIn) (nf : ℕ → ℕ) : Py (List RunFile) := do
  let r ← x.basic c
  let R ← imagingRun (x.basicFlagged r)
  runFiles (x.basicFlagged r) e q R nf

end PyFHD
