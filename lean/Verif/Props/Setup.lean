import Mathlib.Tactic.NormNum
import Mathlib.Tactic.Linarith
import Verif.Model.Setup

/-!
# Properties of the set-up (C52, C53, C54, C75)
-/

namespace PyFHD

/-! ## Specification -/

namespace Spec

/-- A path that is given exists. -/
def FileOk (fs : FileSys) (o : Option String) : Prop := ∀ p, o = some p → fs.exist p = true

/-- The requirements on files and on the simulation options. -/
structure FilesOk (fs : FileSys) (c : SetupCfg) : Prop where
  input : fs.exist c.inputPath = true
  uvfits : fs.exist (fs.join c.inputPath (c.obsId ++ ".uvfits")) = true
  metafits : fs.exist (fs.join c.inputPath (c.obsId ++ ".metafits")) = true
  calBpTransfer : FileOk fs c.calBpTransfer
  diffuseCalibrate : FileOk fs c.diffuseCalibrate
  calibrationCatalog : FileOk fs c.calibrationCatalog
  transferCalibration : FileOk fs c.transferCalibration
  transferModelUv : FileOk fs c.transferModelUv
  transferWeights : FileOk fs c.transferWeights
  diffuseModel : FileOk fs c.diffuseModel
  modelCatalog : FileOk fs c.modelCatalog
  modelFilePath : fs.exist c.modelFilePath = true
  inSituSimInput : FileOk fs c.inSituSimInput
  eorVisFilepath : FileOk fs c.eorVisFilepath
  simNoise : FileOk fs c.simNoise
  healpixInds : c.restrictHealpixInds = true → FileOk fs c.healpixInds
  gridPsfFile : ∀ f ∈ c.gridPsfFile,
    (f.endsWith ".sav" = true ∨ f.endsWith ".npz" = true) ∧ fs.exist f = true
  idlVariablesFile : ∀ p, c.idlVariablesFile = some p → p ≠ "" → fs.exist p = true
  simulation : c.runSimulation = false →
    c.inSituSimInput = none ∧ c.eorVisFilepath = none ∧ c.simNoise = none

/-- A valid configuration: also `enhance_eor` above 1 needs `eor_vis_filepath`, and
`allow_sidelobe_model_sources` needs `model_visibilities`. -/
structure ValidSetup (fs : FileSys) (c : SetupCfg) : Prop extends FilesOk fs c where
  enhance : 1 < c.enhanceEor → c.eorVisFilepath ≠ none
  sidelobe : c.allowSidelobeModelSources = true → c.modelVisibilities = some true

/-- The paths that are named by the options that are checked. -/
def checkedPaths (fs : FileSys) (c : SetupCfg) : List String :=
  [c.inputPath, fs.join c.inputPath (c.obsId ++ ".uvfits"),
    fs.join c.inputPath (c.obsId ++ ".metafits"), c.modelFilePath] ++
  [c.calBpTransfer, c.diffuseCalibrate, c.calibrationCatalog, c.transferCalibration,
    c.transferModelUv, c.transferWeights, c.diffuseModel, c.modelCatalog, c.inSituSimInput,
    c.eorVisFilepath, c.simNoise, c.healpixInds, c.idlVariablesFile].filterMap id ++ c.gridPsfFile

end Spec

/-! ## Lemmas -/

theorem checkFile_eq_zero (fs : FileSys) (o : Option String) :
    checkFile fs o = 0 ↔ Spec.FileOk fs o := by
  cases o with
  | none => simp [checkFile, Spec.FileOk]
  | some p =>
    by_cases h : fs.exist p = true <;> simp [checkFile, Spec.FileOk, h]

theorem checkText_eq_zero (fs : FileSys) (o : Option String) :
    checkText fs o = 0 ↔ ∀ p, o = some p → p ≠ "" → fs.exist p = true := by
  cases o with
  | none => simp [checkText]
  | some p =>
    by_cases h : fs.exist p = true <;> by_cases h2 : p = "" <;> simp_all [checkText]

theorem one_eq_zero (b : Bool) : one b = 0 ↔ b = false := by
  cases b <;> simp [one]

theorem psfError_eq_zero (fs : FileSys) (f : String) :
    psfError fs f = 0 ↔ (f.endsWith ".sav" = true ∨ f.endsWith ".npz" = true) ∧ fs.exist f = true := by
  unfold psfError
  by_cases h1 : f.endsWith ".sav" = true
  · rw [if_pos h1, checkFile_eq_zero]; simp [Spec.FileOk, h1]
  · rw [if_neg h1]
    by_cases h2 : f.endsWith ".npz" = true
    · rw [if_pos h2, checkFile_eq_zero]; simp [Spec.FileOk, h2]
    · rw [if_neg h2]; simp [h1, h2]

theorem setupErrors_eq_zero (fs : FileSys) (c : SetupCfg) :
    setupErrors fs c = 0 ↔ Spec.FilesOk fs c ∧ ¬(1 < c.enhanceEor ∧ c.eorVisFilepath ≠ none) ∧
      ¬(c.allowSidelobeModelSources = true ∧ c.modelVisibilities = some false) := by
  have hsum : (c.gridPsfFile.map (psfError fs)).sum = 0 ↔ ∀ f ∈ c.gridPsfFile,
      (f.endsWith ".sav" = true ∨ f.endsWith ".npz" = true) ∧ fs.exist f = true := by
    induction c.gridPsfFile with
    | nil => simp
    | cons f l ih =>
      rw [List.map_cons, List.sum_cons, Nat.add_eq_zero_iff, ih, psfError_eq_zero, List.forall_mem_cons]
  have hheal : (if c.restrictHealpixInds then checkFile fs c.healpixInds else 0) = 0 ↔
      (c.restrictHealpixInds = true → Spec.FileOk fs c.healpixInds) := by
    by_cases h : c.restrictHealpixInds = true <;> simp [h, checkFile_eq_zero]
  unfold setupErrors inputErrors
  simp only [Nat.add_eq_zero_iff, hsum, hheal, checkFile_eq_zero, checkText_eq_zero, one_eq_zero]
  constructor
  · intro h
    obtain ⟨⟨⟨⟨⟨⟨⟨⟨⟨⟨⟨⟨⟨⟨⟨⟨⟨⟨⟨⟨h1, h2⟩, h3⟩, h4⟩, h5⟩, h6⟩, h7⟩, h8⟩, h9⟩, h10⟩, h11⟩, h12⟩, h13⟩, h14⟩,
      h15⟩, h16⟩, h17⟩, h18⟩, h19⟩, h20⟩, h21⟩ := h
    refine ⟨⟨by simpa using h1, by simpa using h2, by simpa using h3, h4, h5, h6, h7, h8, h9, h10, h11,
      h13 _ rfl, h15, h16, h18, h19, h20, h21, ?_⟩, ?_, ?_⟩
    · intro hs
      simp only [hs, Bool.not_false, Bool.true_and, Bool.or_eq_false_iff,
        Option.isSome_eq_false_iff, Option.isNone_iff_eq_none] at h14
      exact ⟨h14.1.1, h14.1.2, h14.2⟩
    · rintro ⟨ha, hb⟩
      simp [ha, hb] at h17
    · rintro ⟨ha, hb⟩
      simp [ha, hb] at h12
  · rintro ⟨⟨h1, h2, h3, h4, h5, h6, h7, h8, h9, h10, h11, h13, h15, h16, h18, h19, h20, h21, h14⟩, h17, h12⟩
    refine ⟨⟨⟨⟨⟨⟨⟨⟨⟨⟨⟨⟨⟨⟨⟨⟨⟨⟨⟨⟨by simp [h1], by simp [h2]⟩, by simp [h3]⟩, h4⟩, h5⟩, h6⟩, h7⟩, h8⟩, h9⟩, h10⟩, h11⟩, ?_⟩, ?_⟩, ?_⟩,
      h15⟩, h16⟩, ?_⟩, h18⟩, h19⟩, h20⟩, h21⟩
    · cases ha : c.allowSidelobeModelSources with
      | false => rfl
      | true =>
        rw [Bool.true_and]
        by_contra hb
        exact h12 ⟨ha, by simpa using hb⟩
    · intro p hp; cases hp; exact h13
    · cases hs : c.runSimulation with
      | true => rfl
      | false => obtain ⟨a, b, d⟩ := h14 hs; simp [a, b, d]
    · by_cases ha : 1 < c.enhanceEor
      · have : c.eorVisFilepath = none := by
          by_contra hb; exact h17 ⟨ha, hb⟩
        simp [this]
      · simp [ha]

/-! ## C52: invalid configurations stop the program -/

/-- The program goes on exactly when the file requirements hold, `enhance_eor` is not above 1 together with
`eor_vis_filepath`, and `allow_sidelobe_model_sources` is off or `model_visibilities` is on. -/
theorem C52_continues_iff_partial (fs : FileSys) (c : SetupCfg) :
    (∃ c', setup fs c = .ok c') ↔
      Spec.FilesOk fs c ∧ ¬(1 < c.enhanceEor ∧ c.eorVisFilepath ≠ none) ∧
        (c.allowSidelobeModelSources = true → c.modelVisibilities = some true) := by
  unfold setup
  by_cases h : (c.allowSidelobeModelSources && c.modelVisibilities.isNone) = true
  · rw [if_pos h]
    simp only [Bool.and_eq_true, Option.isNone_iff_eq_none] at h
    simp [h.1, h.2]
  · rw [if_neg h]
    by_cases he : setupErrors fs c = 0
    · rw [if_neg (by simpa using he)]
      rw [setupErrors_eq_zero] at he
      refine ⟨fun _ => ⟨he.1, he.2.1, fun ha => ?_⟩, fun _ => ⟨_, rfl⟩⟩
      rcases hm : c.modelVisibilities with _ | b
      · simp [ha, hm] at h
      · cases b
        · exact absurd ⟨ha, hm⟩ he.2.2
        · rfl
    · rw [if_pos he]
      constructor
      · rintro ⟨c', h'⟩; cases h'
      · rintro ⟨h1, h2, h3⟩
        refine absurd ((setupErrors_eq_zero fs c).mpr ⟨h1, h2, ?_⟩) he
        rintro ⟨ha, hb⟩
        rw [h3 ha] at hb; cases hb

/-- If `allow_sidelobe_model_sources` is off and `enhance_eor` is not above 1, then the program goes on exactly for the valid
configurations, and otherwise exits. -/
theorem C52_exit_iff_invalid_partial (fs : FileSys) (c : SetupCfg)
    (ha : c.allowSidelobeModelSources = false) (he : c.enhanceEor ≤ 1) :
    ((∃ c', setup fs c = .ok c') ↔ Spec.ValidSetup fs c) ∧
      ((∃ s, setup fs c = .exit s) ↔ ¬Spec.ValidSetup fs c) := by
  have h1 : (∃ c', setup fs c = .ok c') ↔ Spec.ValidSetup fs c := by
    rw [C52_continues_iff_partial]
    constructor
    · rintro ⟨a, _, _⟩
      exact ⟨a, fun h => absurd h (not_lt.mpr he), fun h => by rw [ha] at h; cases h⟩
    · intro h
      exact ⟨h.toFilesOk, fun h' => absurd h'.1 (not_lt.mpr he), h.sidelobe⟩
  refine ⟨h1, ?_⟩
  rw [← h1]
  unfold setup
  rw [if_neg (by simp [ha])]
  by_cases he : setupErrors fs c = 0
  · rw [if_neg (by simpa using he)]; simp
  · rw [if_pos he]; simp

/-- Without the three input files, or with any missing file of a checked option, the program never goes on. -/
theorem C52_missing_file_stops (fs : FileSys) (c : SetupCfg) (h : ¬Spec.FilesOk fs c) :
    ∀ c', setup fs c ≠ .ok c' := by
  intro c' h'
  exact h ((C52_continues_iff_partial fs c).mp ⟨c', h'⟩).1

/-- **Violation.** A valid configuration with `enhance_eor` above 1, so with `eor_vis_filepath`, is
always stopped. -/
theorem C52_valid_enhance_stops (fs : FileSys) (c : SetupCfg) (hv : Spec.ValidSetup fs c)
    (he : 1 < c.enhanceEor) : setup fs c = .exit 0 := by
  have hne : setupErrors fs c ≠ 0 := by
    rw [Ne, setupErrors_eq_zero]
    rintro ⟨_, h, _⟩
    exact h ⟨he, hv.enhance he⟩
  unfold setup
  rw [if_neg, if_pos hne]
  intro h
  simp only [Bool.and_eq_true, Option.isNone_iff_eq_none] at h
  rw [hv.sidelobe h.1] at h
  exact absurd h.2 (by simp)

/-- **Violation.** `enhance_eor` above 1 without `eor_vis_filepath`, which is not valid, is
accepted. -/
theorem C52_invalid_enhance_accepted (fs : FileSys) (c : SetupCfg) (hf : Spec.FilesOk fs c)
    (ha : c.allowSidelobeModelSources = false) (he : 1 < c.enhanceEor)
    (hn : c.eorVisFilepath = none) :
    ¬Spec.ValidSetup fs c ∧ ∃ c', setup fs c = .ok c' := by
  refine ⟨fun h => h.enhance he hn, (C52_continues_iff_partial fs c).mpr ⟨hf, fun h => h.2 hn, ?_⟩⟩
  intro h; rw [ha] at h; cases h

/-- **Violation.** With `allow_sidelobe_model_sources` the set-up raises a `KeyError` for every configuration made by the
parser, which has no `model_visibilities`. -/
theorem C52_sidelobe_raises (fs : FileSys) (c : SetupCfg)
    (ha : c.allowSidelobeModelSources = true) (hm : c.modelVisibilities = none) :
    setup fs c = .raise .keyError := by
  simp [setup, ha, hm]

theorem checkFile_congr {fs fs' : FileSys} {o : Option String}
    (h : ∀ p, o = some p → fs.exist p = fs'.exist p) : checkFile fs o = checkFile fs' o := by
  cases o with
  | none => rfl
  | some p => simp [checkFile, h p rfl]

theorem absFile_congr {fs fs' : FileSys} {o : Option String} (ha : fs.abs = fs'.abs)
    (h : ∀ p, o = some p → fs.exist p = fs'.exist p) : absFile fs o = absFile fs' o := by
  cases o with
  | none => rfl
  | some p => simp [absFile, h p rfl, ha]

/-- **Violation.** Only the paths named by the options are looked at: files that are needed inside the model directory
(the saved parameters and visibilities) or by `beam_file_path` and the checkpoint options have no influence. -/
theorem C52_other_files_not_checked (fs fs' : FileSys) (c : SetupCfg) (habs : fs.abs = fs'.abs)
    (hj : fs.join = fs'.join) (h : ∀ p ∈ Spec.checkedPaths fs c, fs.exist p = fs'.exist p) :
    setup fs c = setup fs' c := by
  have hopt : ∀ o ∈ [c.calBpTransfer, c.diffuseCalibrate, c.calibrationCatalog, c.transferCalibration,
      c.transferModelUv, c.transferWeights, c.diffuseModel, c.modelCatalog, c.inSituSimInput,
      c.eorVisFilepath, c.simNoise, c.healpixInds, c.idlVariablesFile],
      ∀ p, o = some p → fs.exist p = fs'.exist p := by
    intro o ho p hp
    apply h
    unfold Spec.checkedPaths
    refine List.mem_append_left _ (List.mem_append_right _ ?_)
    rw [List.mem_filterMap]
    exact ⟨o, ho, hp⟩
  have hpsf : ∀ f ∈ c.gridPsfFile, psfError fs f = psfError fs' f := by
    intro f hf
    have : fs.exist f = fs'.exist f := h f (List.mem_append_right _ hf)
    simp [psfError, checkFile, this]
  have hin : ∀ p ∈ [c.inputPath, fs.join c.inputPath (c.obsId ++ ".uvfits"),
    fs.join c.inputPath (c.obsId ++ ".metafits"), c.modelFilePath], fs.exist p = fs'.exist p := by
    intro p hp
    exact h p (List.mem_append_left _ (List.mem_append_left _ hp))
  have e1 : inputErrors fs c = inputErrors fs' c := by
    unfold inputErrors
    rw [hin c.inputPath (by simp), hin _ (by simp : fs.join c.inputPath (c.obsId ++ ".uvfits") ∈ _),
      hin _ (by simp : fs.join c.inputPath (c.obsId ++ ".metafits") ∈ _), hj]
  have em : fs.exist c.modelFilePath = fs'.exist c.modelFilePath := hin _ (by simp)
  have e2 : checkText fs c.idlVariablesFile = checkText fs' c.idlVariablesFile := by
    have := hopt c.idlVariablesFile (by simp)
    rcases hq : c.idlVariablesFile with _ | p
    · rfl
    · simp [checkText, this p hq]
  have es : (c.gridPsfFile.map (psfError fs)) = c.gridPsfFile.map (psfError fs') :=
    List.map_congr_left hpsf
  have err : setupErrors fs c = setupErrors fs' c := by
    unfold setupErrors
    rw [e1, e2, es, checkFile_congr (hopt c.calBpTransfer (by simp)),
      checkFile_congr (hopt c.diffuseCalibrate (by simp)),
      checkFile_congr (hopt c.calibrationCatalog (by simp)),
      checkFile_congr (hopt c.transferCalibration (by simp)),
      checkFile_congr (hopt c.transferModelUv (by simp)),
      checkFile_congr (hopt c.transferWeights (by simp)),
      checkFile_congr (hopt c.diffuseModel (by simp)), checkFile_congr (hopt c.modelCatalog (by simp)),
      checkFile_congr (hopt c.inSituSimInput (by simp)),
      checkFile_congr (hopt c.eorVisFilepath (by simp)), checkFile_congr (hopt c.simNoise (by simp)),
      checkFile_congr (hopt c.healpixInds (by simp)),
      checkFile_congr (o := some c.modelFilePath) (fs' := fs') (by intro p hp; cases hp; exact em)]
  have cfg : setupConfig fs c = setupConfig fs' c := by
    unfold setupConfig
    rw [absFile_congr habs (hopt c.calBpTransfer (by simp)),
      absFile_congr habs (hopt c.diffuseCalibrate (by simp)),
      absFile_congr habs (hopt c.calibrationCatalog (by simp)),
      absFile_congr habs (hopt c.transferCalibration (by simp)),
      absFile_congr habs (hopt c.transferModelUv (by simp)),
      absFile_congr habs (hopt c.transferWeights (by simp)),
      absFile_congr habs (hopt c.diffuseModel (by simp)),
      absFile_congr habs (hopt c.modelCatalog (by simp)),
      absFile_congr habs (hopt c.inSituSimInput (by simp)),
      absFile_congr habs (hopt c.eorVisFilepath (by simp)),
      absFile_congr habs (hopt c.simNoise (by simp)), absFile_congr habs (hopt c.healpixInds (by simp)),
      absFile_congr habs (hopt c.idlVariablesFile (by simp)), em, habs]
  unfold setup
  rw [err, cfg]

/-! ## C53: conflicting options -/

/-- After a successful set-up: per-baseline beams exclude the interpolated kernel, a snapshot export saves the visibilities,
`recalculate_all` turns on every recalculation, a negative offset time is 0 and others are kept, and the mode file excludes
the hyper-resolved fit. Missing: at most one reflection mode is on, which is false (`C53_modes_kept`). -/
theorem C53_conflicts_partial (fs : FileSys) (c c' : SetupCfg) (h : setup fs c = .ok c') :
    (c'.beamPerBaseline = true → c'.interpolateKernel = false) ∧
    (c'.snapshotHealpixExport = true → c'.saveVisibilities = true) ∧
    (c'.recalculateAll = true →
      c'.recalculateBeam = true ∧ c'.recalculateGrid = true ∧ c'.recalculateMapfn = true) ∧
    c'.beamOffsetTime = max 0 c.beamOffsetTime ∧
    ¬(c'.reflectionHyperresolve = true ∧ c'.reflectionModeFile = true) ∧
    c'.calBaseGain = some (c.calBaseGain.getD (3 / 4)) := by
  have hc : c' = setupConfig fs c := by
    unfold setup at h
    split_ifs at h
    exact (SetupResult.ok.inj h).symm
  subst hc
  have hl : ¬1 < logicTest c := by
    unfold logicTest; split_ifs <;> omega
  refine ⟨?_, ?_, ?_, ?_, ?_, ?_⟩
  · intro hb
    have hb : c.beamPerBaseline = true := hb
    show (if _ then _ else _) = false
    rw [hb]
    cases c.interpolateKernel <;> rfl
  · intro hb
    have hb : c.snapshotHealpixExport = true := hb
    show (c.saveVisibilities || (c.snapshotHealpixExport && !c.saveVisibilities)) = true
    rw [hb]
    cases c.saveVisibilities <;> rfl
  · intro hb
    have hb : c.recalculateAll = true := hb
    simp [setupConfig, hb]
  · show (if _ then _ else _) = _
    split_ifs with h0
    · rw [max_eq_left h0.le]
    · rw [max_eq_right (not_lt.mp h0)]
  · rintro ⟨h1, h2⟩
    have h2 : (if 1 < logicTest c then false else c.reflectionModeFile) = true := h2
    rw [if_neg hl] at h2
    have h1 : (if c.reflectionHyperresolve && c.reflectionModeFile then false
      else c.reflectionHyperresolve) = true := h1
    rw [h2] at h1
    cases hh : c.reflectionHyperresolve <;> simp [hh] at h1
  · show (if _ then _ else _) = _
    cases c.calBaseGain <;> simp

/-- What the user gave for options without conflict is kept: an option is changed only in the cases named. -/
theorem C53_others_kept_partial (fs : FileSys) (c c' : SetupCfg) (h : setup fs c = .ok c') :
    (c.recalculateAll = false → c'.recalculateBeam = c.recalculateBeam ∧
      c'.recalculateGrid = c.recalculateGrid ∧ c'.recalculateMapfn = c.recalculateMapfn) ∧
    (c.snapshotHealpixExport = false → c'.saveVisibilities = c.saveVisibilities) ∧
    (c.beamPerBaseline = false → c'.interpolateKernel = c.interpolateKernel) ∧
    (c.reflectionModeFile = false → c'.reflectionHyperresolve = c.reflectionHyperresolve) ∧
    (∀ p, c.transferCalibration = some p → c'.transferCalibration = some (fs.abs p)) ∧
    (∀ p, c.modelCatalog = some p → c'.modelCatalog = some (fs.abs p)) ∧
    c'.modelFilePath = fs.abs c.modelFilePath ∧
    c'.gridPsfFile = c.gridPsfFile ∧ c'.enhanceEor = c.enhanceEor := by
  have hf := ((C52_continues_iff_partial fs c).mp ⟨c', h⟩).1
  have hc : c' = setupConfig fs c := by
    unfold setup at h
    split_ifs at h
    exact (SetupResult.ok.inj h).symm
  subst hc
  refine ⟨?_, ?_, ?_, ?_, ?_, ?_, ?_, rfl, rfl⟩
  · intro ha; simp [setupConfig, ha]
  · intro ha; simp [setupConfig, ha]
  · intro ha; simp [setupConfig, ha]
  · intro ha; simp [setupConfig, ha]
  · intro p hp
    simp [setupConfig, hp, absFile, hf.transferCalibration p hp]
  · intro p hp
    simp [setupConfig, hp, absFile, hf.modelCatalog p hp]
  · simp [setupConfig, hf.modelFilePath]

/-- **Violation.** The reflection modes are never changed: if several are on, they stay on. -/
theorem C53_modes_kept (fs : FileSys) (c c' : SetupCfg) (h : setup fs c = .ok c') :
    c'.reflectionModeFile = c.reflectionModeFile ∧ c'.reflectionModeDelay = c.reflectionModeDelay ∧
      c'.reflectionModeTheory = c.reflectionModeTheory := by
  have hc : c' = setupConfig fs c := by
    unfold setup at h
    split_ifs at h
    exact (SetupResult.ok.inj h).symm
  subst hc
  have hl : ¬1 < logicTest c := by
    unfold logicTest; split_ifs <;> omega
  refine ⟨?_, ?_, ?_⟩ <;> · show (if _ then _ else _) = _; rw [if_neg hl]

/-! ## C75: the status of a stopped run -/

/-- **Violation.** A set-up that finds errors always ends the program with status 0, the status of
success. -/
theorem C75_exit_status_zero (fs : FileSys) (c : SetupCfg) (s : ℕ) (h : setup fs c = .exit s) :
    s = 0 := by
  unfold setup at h
  split_ifs at h
  exact (SetupResult.exit.inj h).symm

/-! ### A case -/

/-- A file system with six files. -/
def exFs : FileSys where
  exist p := ["in", "in/1.uvfits", "in/1.metafits", "eor.h5", "cat.skyh5", "a.npz"].contains p
  abs p := "/w/" ++ p
  join a b := a ++ "/" ++ b

/-- A configuration with conflicts but no errors. -/
def exSetup : SetupCfg where
  inputPath := "in"
  obsId := "1"
  recalculateAll := true
  recalculateBeam := false
  recalculateGrid := false
  recalculateMapfn := false
  snapshotHealpixExport := true
  saveVisibilities := false
  beamOffsetTime := -3
  beamPerBaseline := true
  interpolateKernel := true
  calBpTransfer := none
  reflectionHyperresolve := true
  reflectionModeFile := true
  reflectionModeDelay := true
  reflectionModeTheory := 150
  calBaseGain := none
  diffuseCalibrate := none
  calibrationCatalog := some "cat.skyh5"
  transferCalibration := none
  transferModelUv := none
  transferWeights := none
  diffuseModel := none
  modelCatalog := none
  allowSidelobeModelSources := false
  modelVisibilities := none
  modelFilePath := "in"
  modelFileType := "sav"
  runSimulation := true
  inSituSimInput := none
  eorVisFilepath := some "eor.h5"
  enhanceEor := 1
  simNoise := none
  restrictHealpixInds := true
  healpixInds := none
  padUvImage := 1
  ringRadiusMulti := 10
  ringRadius := 0
  gridPsfFile := ["a.npz"]
  idlVariablesFile := none

example : setup exFs exSetup = .ok (setupConfig exFs exSetup) := by decide +kernel
example : (setupConfig exFs exSetup).reflectionModeFile = true ∧
    (setupConfig exFs exSetup).reflectionModeDelay = true ∧
    (setupConfig exFs exSetup).reflectionModeTheory = 150 ∧
    (setupConfig exFs exSetup).beamOffsetTime = 0 ∧
    (setupConfig exFs exSetup).interpolateKernel = false := by decide +kernel
example : Spec.FilesOk exFs exSetup ∧ Spec.ValidSetup exFs { exSetup with enhanceEor := 2 } := by
  have h : Spec.FilesOk exFs exSetup :=
    ((C52_continues_iff_partial exFs exSetup).mp ⟨setupConfig exFs exSetup, by decide +kernel⟩).1
  have h2 : Spec.FilesOk exFs { exSetup with enhanceEor := 2 } := { h with }
  exact ⟨h, ⟨h2, fun _ => by decide, fun ha => by cases ha⟩⟩
example : setup exFs { exSetup with enhanceEor := 2 } = .exit 0 := by decide +kernel
example : setup exFs { exSetup with enhanceEor := 2, eorVisFilepath := none } ≠ .exit 0 := by
  decide +kernel
example : setup exFs { exSetup with modelCatalog := some "no.skyh5" } = .exit 0 := by decide +kernel
example : setup exFs { exSetup with allowSidelobeModelSources := true } = .raise .keyError := by
  decide +kernel
/-- The file with the model parameters is missing, and not one of the checked paths. -/
example : exFs.exist "in/1_params.sav" = false ∧ "in/1_params.sav" ∉ Spec.checkedPaths exFs exSetup := by
  decide +kernel

/-! ## C54: the configuration file -/

theorem readQuoted_length : ∀ (cs t r : List Char), readQuoted cs = some (t, r) →
    t.length + t.count '\'' + 1 + r.length = cs.length := by
  intro cs
  induction cs using readQuoted.induct with
  | case1 => intro t r h; simp [readQuoted] at h
  | case2 rest s r' hs ih =>
    intro t r h
    simp only [readQuoted, hs, Option.some.injEq, Prod.mk.injEq] at h
    obtain ⟨rfl, rfl⟩ := h
    have := ih _ _ hs
    simp only [List.length_cons, List.count_cons_self]
    omega
  | case3 rest hs ih =>
    intro t r h
    simp [readQuoted, hs] at h
  | case4 rest hne =>
    intro t r h
    rw [readQuoted] at h
    · simp only [Option.some.injEq, Prod.mk.injEq] at h
      obtain ⟨rfl, rfl⟩ := h
      simp; omega
    · exact hne
  | case5 c rest h1 h2 s r' hs ih =>
    intro t r h
    rw [readQuoted] at h
    · simp only [hs, Option.some.injEq, Prod.mk.injEq] at h
      obtain ⟨rfl, rfl⟩ := h
      have := ih _ _ hs
      have hc : c ≠ '\'' := fun hc => h2 hc
      simp only [List.length_cons, List.count_cons_of_ne hc]
      omega
    · exact h1
    · exact h2
  | case6 c rest h1 h2 hs ih =>
    intro t r h
    rw [readQuoted] at h
    · simp [hs] at h
    · exact h1
    · exact h2

theorem readQuoted_plain : ∀ (s r : List Char), '\'' ∉ s → r.head? ≠ some '\'' →
    readQuoted (s ++ '\'' :: r) = some (s, r) := by
  intro s
  induction s with
  | nil =>
    intro r _ hr
    rw [List.nil_append]
    cases r with
    | nil => rfl
    | cons d r =>
      rw [readQuoted]
      intro rest h
      simp at h
      exact hr (by simp [h.1])
  | cons c s ih =>
    intro r hs hr
    simp only [List.mem_cons, not_or] at hs
    rw [List.cons_append, readQuoted, ih r hs.2 hr]
    · intro rest h; exact absurd h.symm hs.1
    · intro h; exact absurd h.symm hs.1

/-- A text is read back from the file exactly when it contains no quote. -/
theorem C54_text_iff (s : List Char) :
    readYaml (quoteText s) = some (.plain s) ↔ '\'' ∉ s := by
  have e : readYaml (quoteText s) = match readQuoted (s ++ ['\'']) with
      | some (s, []) => some (.plain s)
      | _ => none := rfl
  rw [e]
  constructor
  · intro h
    rcases hq : readQuoted (s ++ ['\'']) with _ | ⟨t, r⟩
    · rw [hq] at h; cases h
    · rw [hq] at h
      cases r with
      | cons a b => cases h
      | nil =>
        have ht : t = s := by
          have := Option.some.inj h
          exact YVal.plain.inj this
        have := readQuoted_length _ _ _ hq
        rw [ht] at this
        simp at this
        exact fun hm => by have := List.count_pos_iff.mpr hm; omega
  · intro h
    rw [readQuoted_plain s [] h (by simp)]

theorem readSeq_write (rest : List (List Char)) : ∀ (n : ℕ) (s : List Char),
    (∀ t ∈ s :: rest, '\'' ∉ t) → rest.length < n →
    readSeq n (quoteText s ++ quoteRest rest) = some (s :: rest) := by
  induction rest with
  | nil =>
    intro n s h hn
    obtain ⟨m, rfl⟩ : ∃ m, n = m + 1 := ⟨n - 1, by simp at hn; omega⟩
    have : quoteText s ++ quoteRest [] = '\'' :: (s ++ '\'' :: [']']) := by
      simp [quoteText, quoteRest]
    rw [this]
    simp only [readSeq]
    rw [readQuoted_plain s [']'] (h s (by simp)) (by decide)]
    rfl
  | cons t rest ih =>
    intro n s h hn
    obtain ⟨m, rfl⟩ : ∃ m, n = m + 1 := ⟨n - 1, by simp at hn; omega⟩
    have : quoteText s ++ quoteRest (t :: rest) =
        '\'' :: (s ++ '\'' :: (',' :: ' ' :: (quoteText t ++ quoteRest rest))) := by
      simp [quoteText, quoteRest]
    rw [this]
    simp only [readSeq]
    rw [readQuoted_plain s _ (h s (by simp)) (by simp)]
    simp only []
    rw [ih m t (fun u hu => h u (List.mem_cons_of_mem _ hu)) (by simp at hn; omega)]

theorem quoteRest_length (l : List (List Char)) : l.length < (quoteRest l).length := by
  induction l with
  | nil => simp [quoteRest]
  | cons a l ih => simp only [quoteRest, List.length_append, List.length_cons]; omega

namespace Spec

/-- What the file should give back for an option with its value: nothing for `None` and an empty list. -/
def cfgBack : CfgVal → Option YVal
  | .none => none
  | .num t => some (.plain t.toList)
  | .bool b => some (.plain (if b then "True" else "False").toList)
  | .list [] => none
  | .list l => some (.seq (l.map String.toList))
  | .text s => some (.plain s.toList)

/-- The text of a number: it does not begin with a quote or bracket and is not a tilde. -/
def NumText (t : String) : Prop :=
  t.toList.head? ≠ some '\'' ∧ t.toList.head? ≠ some '[' ∧ t.toList ≠ ['~']

/-- Values without quotes. -/
def NoQuote : CfgVal → Prop
  | .num t => NumText t
  | .list l => ∀ s ∈ l, '\'' ∉ s.toList
  | .text s => '\'' ∉ s.toList
  | _ => True

/-- The name under which an option must be found for its value to be accepted: options have dashes, lists are written with the name
as it is. -/
def NameKnown (known : List (List Char)) (k : String) (v : CfgVal) : Prop :=
  match v with
  | .none => True
  | .list [] => True
  | .list _ => k.toList ∈ known
  | _ => k.toList.map (fun ch => if ch = '_' then '-' else ch) ∈ known

/-- The name used in the file. -/
def fileName (k : String) (v : CfgVal) : List Char :=
  match v with
  | .list _ => k.toList
  | _ => k.toList.map (fun ch => if ch = '_' then '-' else ch)

end Spec

theorem readYaml_num (t : String) (h : Spec.NumText t) :
    readYaml t.toList = some (.plain t.toList) := by
  obtain ⟨h1, h2, h3⟩ := h
  revert h1 h2 h3
  generalize t.toList = l
  intro h1 h2 h3
  unfold readYaml
  split
  · exact absurd rfl h3
  · exact absurd rfl h2
  · exact absurd rfl h1
  · rfl

theorem yamlLine_read (k : String) (v : CfgVal) (hv : Spec.NoQuote v) :
    (Spec.cfgBack v = none → yamlLine k v = none ∨ ∃ t, yamlLine k v = some t ∧ readYaml t.2 = some .null) ∧
    (∀ y, Spec.cfgBack v = some y → y ≠ .null ∧
      ∃ t, yamlLine k v = some (Spec.fileName k v, t) ∧ readYaml t = some y) := by
  cases v with
  | none => exact ⟨fun _ => .inr ⟨_, rfl, rfl⟩, fun y h => by cases h⟩
  | num t =>
    refine ⟨fun h => (by cases h), fun y h => ?_⟩
    have := Option.some.inj h; subst this
    exact ⟨by simp, _, rfl, readYaml_num t hv⟩
  | bool b =>
    refine ⟨fun h => (by cases h), fun y h => ?_⟩
    have := Option.some.inj h; subst this
    refine ⟨by simp, _, rfl, ?_⟩
    cases b <;> rfl
  | list l =>
    cases l with
    | nil => exact ⟨fun _ => .inl rfl, fun y h => by cases h⟩
    | cons s rest =>
      refine ⟨fun h => (by cases h), fun y h => ?_⟩
      have := Option.some.inj h; subst this
      refine ⟨by simp, _, rfl, ?_⟩
      have hr : readSeq (quoteText s.toList ++ quoteRest (rest.map String.toList)).length
          (quoteText s.toList ++ quoteRest (rest.map String.toList)) =
          some (s.toList :: rest.map String.toList) := by
        apply readSeq_write
        · intro t ht
          rw [← List.map_cons, List.mem_map] at ht
          obtain ⟨u, hu, rfl⟩ := ht
          exact hv u hu
        · have := quoteRest_length (rest.map String.toList)
          rw [List.length_append]; omega
      simp only [readYaml, hr]
      rfl
  | text s =>
    refine ⟨fun h => (by cases h), fun y h => ?_⟩
    have := Option.some.inj h; subst this
    exact ⟨by simp, _, rfl, (C54_text_iff _).mpr hv⟩

theorem cfgBack_known {known : List (List Char)} {k : String} {v : CfgVal} {y : YVal}
    (hk : Spec.NameKnown known k v) (hy : Spec.cfgBack v = some y) : Spec.fileName k v ∈ known := by
  cases v with
  | none => cases hy
  | num t => exact hk
  | bool b => exact hk
  | text s => exact hk
  | list l =>
    cases l with
    | nil => cases hy
    | cons s rest => exact hk

theorem readConfig_lines (known : List (List Char)) : ∀ (cfg : List (String × CfgVal)),
    (∀ kv ∈ cfg, Spec.NoQuote kv.2 ∧ Spec.NameKnown known kv.1 kv.2) →
    readConfig known (cfg.filterMap fun kv => yamlLine kv.1 kv.2) =
      .ok (cfg.filterMap fun kv => (Spec.cfgBack kv.2).map fun y => (Spec.fileName kv.1 kv.2, y)) := by
  intro cfg
  induction cfg with
  | nil => intro _; rfl
  | cons kv cfg ih =>
    intro h
    obtain ⟨k, v⟩ := kv
    have ih := ih fun kv hkv => h kv (List.mem_cons_of_mem _ hkv)
    obtain ⟨hv, hk⟩ := h (k, v) (by simp)
    obtain ⟨hn, hs⟩ := yamlLine_read k v hv
    rcases hb : Spec.cfgBack v with _ | y
    · rw [List.filterMap_cons_none (f := fun kv : String × CfgVal => (Spec.cfgBack kv.2).map fun y =>
        (Spec.fileName kv.1 kv.2, y)) (by simp [hb])]
      rcases hn hb with h1 | ⟨⟨k', t⟩, h1, h2⟩
      · rw [List.filterMap_cons_none (f := fun kv : String × CfgVal => yamlLine kv.1 kv.2) h1]
        exact ih
      · rw [List.filterMap_cons_some (f := fun kv : String × CfgVal => yamlLine kv.1 kv.2) h1]
        simp only [readConfig]
        rw [show readYaml t = some .null from h2]
        exact ih
    · obtain ⟨hy, t, h1, h2⟩ := hs y hb
      rw [List.filterMap_cons_some (f := fun kv : String × CfgVal => (Spec.cfgBack kv.2).map fun y =>
        (Spec.fileName kv.1 kv.2, y)) (b := (Spec.fileName k v, y)) (by simp [hb]),
        List.filterMap_cons_some (f := fun kv : String × CfgVal => yamlLine kv.1 kv.2) h1]
      have hkn : known.contains (Spec.fileName k v) = true := by
        rw [List.contains_iff_mem]; exact cfgBack_known hk hb
      simp only [readConfig]
      rw [h2]
      cases y with
      | null => exact absurd rfl hy
      | plain s => simp only [hkn, ↓reduceIte]; rw [ih]
      | seq l => simp only [hkn, ↓reduceIte]; rw [ih]

/-- The file gives back every option with its value, if all names in it are names of options and no text has a quote. The keys
that are not written are the ones the program sets itself or takes from the command line. -/
theorem C54_round_trip_partial (known : List (List Char)) (cfg : List (String × CfgVal))
    (h : ∀ kv ∈ cfg, kv.1 ∉ ["top_level_dir", "log_name", "log_time", "commit", "obs_id", "config_file",
      "grid_psf_file_sav", "grid_psf_file_npz"] → Spec.NoQuote kv.2 ∧ Spec.NameKnown known kv.1 kv.2) :
    readConfig known (writeYaml cfg) =
      .ok ((cfg.filter fun kv => decide (kv.1 ∉ ["top_level_dir", "log_name", "log_time", "commit",
        "obs_id", "config_file", "grid_psf_file_sav", "grid_psf_file_npz"])).filterMap
        fun kv => (Spec.cfgBack kv.2).map fun y => (Spec.fileName kv.1 kv.2, y)) := by
  have e : (cfg.filter fun kv => !skippedKeys.contains kv.1) =
      cfg.filter fun kv => decide (kv.1 ∉ ["top_level_dir", "log_name", "log_time", "commit",
        "obs_id", "config_file", "grid_psf_file_sav", "grid_psf_file_npz"]) := by
    apply List.filter_congr
    intro kv _
    rw [Bool.eq_iff_iff]
    simp [skippedKeys]
  unfold writeYaml
  rw [e]
  apply readConfig_lines
  intro kv hkv
  rw [List.mem_filter] at hkv
  exact h kv hkv.1 (by simpa using hkv.2)

theorem readConfig_unknown (known : List (List Char)) : ∀ (ls : List (List Char × List Char)) (k t : List Char),
    (k, t) ∈ ls → k ∉ known → readYaml t ≠ some .null → ∀ r, readConfig known ls ≠ .ok r := by
  intro ls
  induction ls with
  | nil => intro k t h; cases h
  | cons kt ls ih =>
    intro k t hm hk ht r h
    obtain ⟨k', t'⟩ := kt
    rw [readConfig.eq_def] at h
    simp only [] at h
    rcases List.mem_cons.mp hm with h1 | h1
    · cases h1
      split at h
      · cases h
      · exact ht ‹_›
      · rw [if_neg (by rwa [List.contains_iff_mem])] at h
        cases h
    · have := ih k t h1 hk ht
      split at h
      · cases h
      · exact this r h
      · split at h
        · split at h
          · exact this _ ‹_›
          · cases h
        · cases h

/-- **Violation.** A configuration with `output_dir`, which every successful set-up adds and which is not the name of an option, is
written to a file that cannot be read back. -/
theorem C54_output_dir_not_read (known : List (List Char)) (cfg : List (String × CfgVal)) (dir : String)
    (hk : "output-dir".toList ∉ known) (h : ("output_dir", CfgVal.text dir) ∈ cfg) :
    ∀ r, readConfig known (writeYaml cfg) ≠ .ok r := by
  have hm : ("output-dir".toList, quoteText dir.toList) ∈ writeYaml cfg := by
    unfold writeYaml
    rw [List.mem_filterMap]
    refine ⟨("output_dir", .text dir), ?_, ?_⟩
    swap
    · have : dashKey "output_dir".toList = "output-dir".toList := by decide +kernel
      simp only [yamlLine, this]
    rw [List.mem_filter]
    exact ⟨h, by show (!skippedKeys.contains "output_dir") = true; decide⟩
  refine readConfig_unknown known _ _ _ hm hk ?_
  have e : readYaml (quoteText dir.toList) = match readQuoted (dir.toList ++ ['\'']) with
      | some (s, []) => some (.plain s)
      | _ => none := rfl
  rw [e]
  split <;> simp

/-- **Violation.** A non-empty list option with an underscore in its name is written under a name that is not the name of an option with
dashes, so the file cannot be read back. -/
theorem C54_list_not_read (known : List (List Char)) (cfg : List (String × CfgVal)) (k s : String)
    (l : List String) (hk : k.toList ∉ known) (hs : k ∉ skippedKeys)
    (h : (k, CfgVal.list (s :: l)) ∈ cfg) : ∀ r, readConfig known (writeYaml cfg) ≠ .ok r := by
  have hm : (k.toList, '[' :: (quoteText s.toList ++ quoteRest (l.map String.toList))) ∈ writeYaml cfg := by
    unfold writeYaml
    rw [List.mem_filterMap]
    refine ⟨(k, .list (s :: l)), ?_, rfl⟩
    rw [List.mem_filter]
    exact ⟨h, by simpa using hs⟩
  refine readConfig_unknown known _ _ _ hm hk ?_
  unfold readYaml
  split
  · rename_i h; cases h
  · split <;> simp
  · rename_i h; cases h
  · simp

/-! ### Cases -/

/-- Some options and their values. -/
def exCfgVals : List (String × CfgVal) :=
  [("obs_id", .text "1"), ("n_pol", .num "2"), ("deproject", .bool false), ("psf", .list ["a.sav", "b.npz"]),
    ("output_path", .text "/out put"), ("FoV", .none), ("cut", .list [])]

/-- The names of the options. -/
def exKnown : List (List Char) := ["n-pol", "deproject", "psf", "output-path", "FoV", "cut"].map String.toList

example : ∀ kv ∈ exCfgVals, kv.1 ∉ ["top_level_dir", "log_name", "log_time", "commit", "obs_id", "config_file",
    "grid_psf_file_sav", "grid_psf_file_npz"] →
    Spec.NoQuote kv.2 ∧ Spec.NameKnown exKnown kv.1 kv.2 := by
  intro kv hkv
  simp only [exCfgVals, List.mem_cons, List.not_mem_nil, or_false] at hkv
  rcases hkv with rfl | rfl | rfl | rfl | rfl | rfl | rfl
  · intro h; exact absurd (by decide) h
  all_goals intro _; simp only [Spec.NoQuote, Spec.NameKnown, Spec.NumText]; decide +kernel
example : readConfig exKnown (writeYaml exCfgVals) =
    .ok [("n-pol".toList, .plain "2".toList), ("deproject".toList, .plain "False".toList),
      ("psf".toList, .seq ["a.sav".toList, "b.npz".toList]),
      ("output-path".toList, .plain "/out put".toList)] := by decide +kernel
example : readConfig exKnown (writeYaml (exCfgVals ++ [("output_dir", .text "/out/pyfhd_1")])) =
    .error .systemExit := by decide +kernel
example : "output-dir".toList ∉ exKnown ∧ "flag_tiles".toList ∉ exKnown ∧ "flag_tiles" ∉ skippedKeys := by
  decide +kernel
example : readYaml (quoteText "it's".toList) = none := by decide +kernel

end PyFHD
