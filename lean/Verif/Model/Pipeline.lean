import Verif.Model.Basic

/-!
# Model of the run: `main` (pyfhd.py)

The order of the stages, the saving and loading of checkpoints, and which variables are bound when. The
numerical stages are parameters: any functions of the values they receive. All Python objects have
one type `V`.
-/

namespace PyFHD

/-- The observable actions of a run, in order: files written and calls of the exporting functions with
the values they receive. -/
inductive Event (V File : Type) where
  | rawVis (v : V)
  | rawWeights (w : V)
  | obsCheckpoint (f : File)
  | calCheckpoint (f : File)
  | gridCheckpoint (f : File)
  | saveObs (v : V)
  | saveParams (v : V)
  | saveCal (v : V)
  | saveWeights (v : V)
  | saveVis (v : V)
  | quickview (args : List V)
  | healpix (args : List V)
  | finished
  deriving DecidableEq

/-- How a run that raises no exception ends: at the end of `main`, or by the option `cal_stop`. -/
inductive Outcome
  | done | calStop
  deriving DecidableEq

/-- A piece of a run: the actions performed, and the value or the exception. -/
abbrev Run (V File α : Type) := List (Event V File) × Py α

/-- No action. -/
def Run.pure {V File α : Type} (a : α) : Run V File α := ([], .ok a)

/-- A computation without actions. -/
def Run.lift {V File α : Type} (x : Py α) : Run V File α := ([], x)

/-- One action. -/
def Run.emit {V File : Type} (e : Event V File) : Run V File Unit := ([e], .ok ())

/-- One action, under a condition. -/
def Run.emitIf {V File : Type} (c : Bool) (e : Event V File) : Run V File Unit :=
  if c then Run.emit e else Run.pure ()

/-- One piece after another: an exception ends the run. -/
def Run.bind {V File α β : Type} (m : Run V File α) (f : α → Run V File β) : Run V File β :=
  match m.2 with
  | .error e => (m.1, .error e)
  | .ok a => (m.1 ++ (f a).1, (f a).2)

/-- The options used by `main`. A checkpoint option is `None` or the file at the path. `calibrationKey` is the value of
`pyfhd_config["calibration_checkpoint"]`, `none` if the dictionary has no such key. -/
structure RunCfg (File : Type) where
  saveCheckpoints : Bool
  obsCheckpoint : Option File
  calibrateCheckpoint : Option File
  calibrationKey : Option Bool
  griddingCheckpoint : Option File
  saveVisibilities : Bool
  saveWeights : Bool
  deproject : Bool
  flagBasic : Bool
  flagModel : Bool
  calibrate : Bool
  flagVisibilities : Bool
  calStop : Bool
  saveObs : Bool
  saveParams : Bool
  saveCal : Bool
  recalculateGrid : Bool
  exportImages : Bool
  healpixExport : Bool

/-- The stages: the functions that `main` calls. `gridPol` is `visibility_grid` for a polarization: `none` for an
empty dictionary, otherwise image, weights, variance, filter, `nf_vis` and model plane. -/
structure Stages (V File : Type) where
  save : List (String × V) → File
  load : File → Py (List (String × V))
  readData : Py (V × V × V × V)
  makeObs : V → V → Py V
  createPsf : Py (Option V)
  deproject : V → V → V → Py V
  flagBasic : V → V → V → Py (V × V)
  weightsUpdate : V → V → V → V → Py (V × V)
  modelTransfer : V → Py (V × V)
  flagModel : V → V → V → V → Py V
  calibrate : V → V → V → V → V → Py (V × V × V)
  nPol : V → ℕ
  quMixing : V → V → V → V → V → Py V
  visFlag : V → V → V → V → Py (V × V)
  noise : V → V → V → Py V
  isNone : V → Bool
  row : V → ℕ → Py V
  gridPol : V → V → V → V → V → ℕ → Bool → Bool → V → Py (Option (V × V × V × V × V × V))
  setNfVis : V → V → V
  emptyPlane : V
  stack : List V → V
  crosspol : V → Py V

/-- `d[key]` for a dictionary. -/
def dictGet {V : Type} (d : List (String × V)) (key : String) : Py V :=
  match d.lookup key with
  | some v => .ok v
  | none => .error .keyError

/-- The variables after the first part of `main`. -/
structure Imported (V : Type) where
  obs : V
  params : V
  visArr : V
  visWeights : V

/-- The dictionary of the observation checkpoint (pyfhd.py 172-177). -/
def Imported.toDict {V : Type} (s : Imported V) : List (String × V) :=
  [("obs", s.obs), ("params", s.params), ("vis_arr", s.visArr), ("vis_weights", s.visWeights)]

/-- Reading a dictionary as observation checkpoint (pyfhd.py 194-197). -/
def Imported.ofDict {V : Type} (d : List (String × V)) : Py (Imported V) :=
  (dictGet d "obs").bind fun o => (dictGet d "params").bind fun p =>
  (dictGet d "vis_arr").bind fun v => (dictGet d "vis_weights").bind fun w => .ok ⟨o, p, v, w⟩

/-- Import of the data (pyfhd.py 111-189). The path for the weights is looked up in the configuration, where it is
only set when the visibilities are saved (136 and 148). -/
def importFresh {V File : Type} (S : Stages V File) (c : RunCfg File) : Run V File (Imported V) :=
  (Run.lift S.readData).bind fun (hdr, params, vis, w) =>
  (Run.emitIf c.saveVisibilities (.rawVis vis)).bind fun _ =>
  (if c.saveWeights then
      (if c.saveVisibilities then Run.emit (.rawWeights w) else Run.lift (.error .keyError))
    else Run.pure ()).bind fun _ =>
  (Run.lift (S.makeObs hdr params)).bind fun obs =>
  (Run.emitIf c.saveCheckpoints (.obsCheckpoint (S.save (Imported.toDict ⟨obs, params, vis, w⟩)))).bind
    fun _ => Run.pure ⟨obs, params, vis, w⟩

/-- The first part of `main` (pyfhd.py 107-200): `none` if the variables stay unbound. -/
def importPhase {V File : Type} (S : Stages V File) (c : RunCfg File) :
    Run V File (Option (Imported V)) :=
  if c.obsCheckpoint.isNone && c.calibrateCheckpoint.isNone then
    (importFresh S c).bind fun s => Run.pure (some s)
  else match c.obsCheckpoint with
    | some f => (Run.lift ((S.load f).bind Imported.ofDict)).bind fun s => Run.pure (some s)
    | none => Run.pure none

/-- Reading the beam (pyfhd.py 204-214): a `None` cannot be indexed. The comparison of a shape with 1
is never true, so `beam_per_baseline` keeps its value. -/
def psfPhase {V File : Type} (S : Stages V File) : Run V File V :=
  Run.lift (match S.createPsf with
    | .error e => .error e
    | .ok none => .error .typeError
    | .ok (some p) => .ok p)

/-- The variables after calibration. `cal` may be unbound. -/
structure Calibrated (V : Type) where
  obs : V
  params : V
  visArr : V
  visModel : V
  visWeights : V
  cal : Option V

/-- The dictionary of the calibration checkpoint (pyfhd.py 319-326). -/
def calDict {V : Type} (obs params vis mdl w cal : V) : List (String × V) :=
  [("obs", obs), ("params", params), ("vis_arr", vis), ("vis_model_arr", mdl), ("vis_weights", w),
    ("cal", cal)]

/-- Reading a dictionary as calibration checkpoint (pyfhd.py 343-348). -/
def Calibrated.ofDict {V : Type} (d : List (String × V)) : Py (Calibrated V) :=
  (dictGet d "obs").bind fun o => (dictGet d "params").bind fun p =>
  (dictGet d "vis_arr").bind fun v => (dictGet d "vis_model_arr").bind fun m =>
  (dictGet d "vis_weights").bind fun w => (dictGet d "cal").bind fun cal =>
  .ok ⟨o, p, v, m, w, some cal⟩

/-- Steps before calibration (pyfhd.py 218-256). -/
def preCal {V File : Type} (S : Stages V File) (c : RunCfg File) (psf : V) (s : Imported V) :
    Py (Imported V × V) :=
  (if c.deproject then S.deproject s.obs s.params s.visArr else .ok s.visArr).bind fun vis =>
  (if c.flagBasic then S.flagBasic s.visWeights vis s.obs else .ok (s.visWeights, s.obs)).bind
    fun (w, obs) =>
  (S.weightsUpdate w obs psf s.params).bind fun (w, obs) =>
  (S.modelTransfer obs).bind fun (mdl, pm) =>
  (if c.flagModel then S.flagModel mdl s.params pm obs else .ok mdl).bind fun mdl =>
  .ok (⟨obs, s.params, vis, w⟩, mdl)

/-- Calibration (pyfhd.py 269-312). -/
def doCal {V File : Type} (S : Stages V File) (c : RunCfg File) (psf : V) (s : Imported V) (mdl : V) :
    Py (Calibrated V × V) :=
  (S.calibrate s.obs s.params s.visArr s.visWeights mdl).bind fun (vis, cal, obs) =>
  (if 4 ≤ S.nPol obs then S.quMixing vis mdl s.visWeights obs cal else .ok cal).bind fun cal =>
  (S.weightsUpdate s.visWeights obs psf s.params).bind fun (w, obs) =>
  (if c.flagVisibilities then S.visFlag vis w obs s.params else .ok (w, obs)).bind fun (w, obs) =>
  (S.noise obs vis w).bind fun obs =>
  .ok (⟨obs, s.params, vis, mdl, w, some cal⟩, cal)

/-- The second part of `main` (pyfhd.py 217-351). -/
def calPhase {V File : Type} (S : Stages V File) (c : RunCfg File) (psf : V)
    (s : Option (Imported V)) : Run V File (Calibrated V) :=
  match c.calibrateCheckpoint with
  | none =>
    match s with
    | none => Run.lift (.error .nameError)
    | some s =>
      (Run.lift (preCal S c psf s)).bind fun (s, mdl) =>
      if c.calibrate then
        (Run.lift (doCal S c psf s mdl)).bind fun (r, cal) =>
        (Run.emitIf c.saveCheckpoints (.calCheckpoint (S.save
          (calDict r.obs r.params r.visArr r.visModel r.visWeights cal)))).bind fun _ => Run.pure r
      else Run.pure ⟨s.obs, s.params, s.visArr, mdl, s.visWeights, none⟩
  | some f =>
    match c.calibrationKey with
    | none => Run.lift (.error .keyError)
    | some true => Run.lift ((S.load f).bind Calibrated.ofDict)
    | some false =>
      match s with
      | none => Run.lift (.error .nameError)
      | some _ => Run.lift (.error .nameError)

/-- Saving and leaving with `cal_stop` (pyfhd.py 353-404). -/
def stopPhase {V File : Type} (c : RunCfg File) (r : Calibrated V) : Run V File Outcome :=
  (Run.emitIf c.saveObs (.saveObs r.obs)).bind fun _ =>
  (Run.emitIf c.saveParams (.saveParams r.params)).bind fun _ =>
  (if c.saveCal && c.calibrate then
      (match r.cal with
        | some v => Run.emit (.saveCal v)
        | none => Run.lift (.error .nameError))
    else Run.pure ()).bind fun _ =>
  (Run.emitIf c.saveWeights (.saveWeights r.visWeights)).bind fun _ =>
  (Run.emitIf c.saveVisibilities (.saveVis r.visArr)).bind fun _ =>
  (Run.emit .finished).bind fun _ => Run.pure .calStop

/-- The planes. -/
structure GridVars (V : Type) where
  image : V
  weights : V
  variance : V
  filter : V
  model : Option V

/-- The loop variables of gridding: planes so far, filter, and the observation. -/
structure GridAcc (V : Type) where
  obs : V
  images : List V
  weights : List V
  variances : List V
  models : List V
  filter : V

/-- One polarization (pyfhd.py 423-457). -/
def gridPolStep {V File : Type} (S : Stages V File) (psf : V) (r : Calibrated V) (a : GridAcc V) (pol : ℕ) :
    Py (GridAcc V) :=
  (S.row r.visArr pol).bind fun vis => (S.row r.visWeights pol).bind fun w =>
  (S.row r.visModel pol).bind fun mdl =>
  (S.gridPol vis w a.obs psf r.params pol (pol == 0) (decide (1 < pol)) mdl).bind fun out =>
  match out with
  | none => .error .systemExit
  | some (im, wt, var, filt, nf, m) =>
    .ok ⟨S.setNfVis a.obs nf, a.images ++ [im], a.weights ++ [wt], a.variances ++ [var],
      a.models ++ [m], if pol == 0 then filt else a.filter⟩

/-- Gridding of all polarizations and the reformatting for four of them (pyfhd.py 406-463). -/
def doGrid {V File : Type} (S : Stages V File) (psf : V) (r : Calibrated V) :
    Py (V × GridVars V) :=
  ((List.range (S.nPol r.obs)).foldlM (gridPolStep S psf r)
    ⟨r.obs, [], [], [], [], S.emptyPlane⟩).bind fun a =>
  let hasModel := !S.isNone r.visModel
  if S.nPol a.obs = 4 then
    (S.crosspol (S.stack a.images)).bind fun im => (S.crosspol (S.stack a.weights)).bind fun wt =>
    (if hasModel then (S.crosspol (S.stack a.models)).bind fun m => .ok (some m) else .ok none).bind
      fun m => .ok (a.obs, ⟨im, wt, S.stack a.variances, a.filter, m⟩)
  else .ok (a.obs, ⟨S.stack a.images, S.stack a.weights, S.stack a.variances, a.filter,
    if hasModel then some (S.stack a.models) else none⟩)

/-- The dictionary of the gridding checkpoint (pyfhd.py 465-472). -/
def gridDict {V : Type} (g : GridVars V) : List (String × V) :=
  [("image_uv", g.image), ("weights_uv", g.weights), ("variance_uv", g.variance),
    ("uniform_filter_uv", g.filter)] ++
  (match g.model with
    | some m => [("model_uv", m)]
    | none => [])

/-- Reading a dictionary as gridding checkpoint (pyfhd.py 490-495). -/
def GridVars.ofDict {V : Type} (d : List (String × V)) : Py (GridVars V) :=
  (dictGet d "image_uv").bind fun i => (dictGet d "weights_uv").bind fun w =>
  (dictGet d "variance_uv").bind fun v => (dictGet d "uniform_filter_uv").bind fun f =>
  .ok ⟨i, w, v, f, d.lookup "model_uv"⟩

/-- The third part of `main` (pyfhd.py 406-498): the observation and the planes, if bound. -/
def gridPhase {V File : Type} (S : Stages V File) (c : RunCfg File) (psf : V) (r : Calibrated V) :
    Run V File (V × Option (GridVars V)) :=
  match c.griddingCheckpoint with
  | none =>
    if c.recalculateGrid then
      (Run.lift (doGrid S psf r)).bind fun (obs, g) =>
      (Run.emitIf c.saveCheckpoints (.gridCheckpoint (S.save (gridDict g)))).bind fun _ =>
      Run.pure (obs, some g)
    else Run.pure (r.obs, none)
  | some f => (Run.lift ((S.load f).bind GridVars.ofDict)).bind fun g => Run.pure (r.obs, some g)

/-- The last part of `main` (pyfhd.py 502-533). -/
def outPhase {V File : Type} (c : RunCfg File) (psf : V) (r : Calibrated V) (obs : V)
    (g : Option (GridVars V)) : Run V File Outcome :=
  (if c.exportImages then
      (match r.cal, g with
        | some cal, some ⟨im, wt, var, filt, some m⟩ =>
          Run.emit (.quickview [obs, psf, r.params, cal, r.visArr, r.visWeights, im, wt, var, filt, m])
        | _, _ => Run.lift (.error .nameError))
    else Run.pure ()).bind fun _ =>
  (if c.healpixExport then
      (match r.cal with
        | some cal =>
          Run.emit (.healpix [obs, psf, cal, r.params, r.visArr, r.visModel, r.visWeights])
        | none => Run.lift (.error .nameError))
    else Run.pure ()).bind fun _ =>
  (Run.emit .finished).bind fun _ => Run.pure .done

/-- `main` after calibration (pyfhd.py 353-533). -/
def finishRun {V File : Type} (S : Stages V File) (c : RunCfg File) (psf : V) (r : Calibrated V) :
    Run V File Outcome :=
  if c.calStop then stopPhase c r
  else (gridPhase S c psf r).bind fun (obs, g) => outPhase c psf r obs g

/-- `main` after the import (pyfhd.py 202-533). -/
def restRun {V File : Type} (S : Stages V File) (c : RunCfg File) (s : Option (Imported V)) :
    Run V File Outcome :=
  (psfPhase S).bind fun psf => (calPhase S c psf s).bind fun r => finishRun S c psf r

/-- `main` (pyfhd.py 92-533) after the set-up. -/
def mainRun {V File : Type} (S : Stages V File) (c : RunCfg File) : Run V File Outcome :=
  (importPhase S c).bind fun s => restRun S c s

end PyFHD
