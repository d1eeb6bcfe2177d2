import Verif.Props.Pipeline
import Verif.Props.OutputFiles
import Verif.Props.ModelImport

/-!
# Theorems tightened after wrong programs had passed (seventh part)
-/

namespace PyFHD

/-- **C94**, before calibration: the visibilities are deprojected and flagged only on request; the weights that are updated are those after flagging,
the model is made for the observation after the update and flagged only on request, and calibration works on the results of these steps. -/
theorem C94_before {V File : Type} (S : Stages V File) (c : RunCfg File) (psf : V) (s s' : Imported V) (mdl : V)
    (h : preCal S c psf s = .ok (s', mdl)) :
    ∃ w0 obs0 mdl0 pm,
      (c.deproject = false → s'.visArr = s.visArr) ∧
      (c.deproject = true → S.deproject s.obs s.params s.visArr = .ok s'.visArr) ∧
      (c.flagBasic = false → w0 = s.visWeights ∧ obs0 = s.obs) ∧
      (c.flagBasic = true → S.flagBasic s.visWeights s'.visArr s.obs = .ok (w0, obs0)) ∧
      S.weightsUpdate w0 obs0 psf s.params = .ok (s'.visWeights, s'.obs) ∧
      S.modelTransfer s'.obs = .ok (mdl0, pm) ∧
      (c.flagModel = false → mdl = mdl0) ∧
      (c.flagModel = true → S.flagModel mdl0 s.params pm s'.obs = .ok mdl) ∧
      s'.params = s.params := by
  unfold preCal at h
  cases h1 : (if c.deproject then S.deproject s.obs s.params s.visArr else .ok s.visArr) with
  | error e => rw [h1] at h; simp [Except.bind] at h
  | ok vis =>
  rw [h1] at h
  simp only [Except.bind] at h
  cases h2 : (if c.flagBasic then S.flagBasic s.visWeights vis s.obs else .ok (s.visWeights, s.obs)) with
  | error e => rw [h2] at h; simp at h
  | ok x =>
  obtain ⟨w0, obs0⟩ := x
  rw [h2] at h
  simp only [] at h
  cases h3 : S.weightsUpdate w0 obs0 psf s.params with
  | error e => rw [h3] at h; simp at h
  | ok x =>
  obtain ⟨w1, obs1⟩ := x
  rw [h3] at h
  simp only [] at h
  cases h4 : S.modelTransfer obs1 with
  | error e => rw [h4] at h; simp at h
  | ok x =>
  obtain ⟨mdl0, pm⟩ := x
  rw [h4] at h
  simp only [] at h
  cases h5 : (if c.flagModel then S.flagModel mdl0 s.params pm obs1 else .ok mdl0) with
  | error e => rw [h5] at h; simp at h
  | ok m =>
  rw [h5] at h
  simp only [Except.ok.injEq, Prod.mk.injEq] at h
  obtain ⟨rfl, rfl⟩ := h
  refine ⟨w0, obs0, mdl0, pm, ?_, ?_, ?_, ?_, h3, h4, ?_, ?_, rfl⟩
  · intro hd
    rw [hd] at h1
    exact (Except.ok.inj h1).symm
  · intro hd
    rw [hd] at h1
    exact h1
  · intro hd
    rw [hd] at h2
    cases h2
    exact ⟨rfl, rfl⟩
  · intro hd
    rw [hd] at h2
    exact h2
  · intro hd
    rw [hd] at h5
    exact (Except.ok.inj h5).symm
  · intro hd
    rw [hd] at h5
    exact h5

/-- A run with all three options on. -/
example : ∃ s mdl, preCal exStages { exCfg with deproject := true, flagBasic := true, flagModel := true } 1 ⟨2, 3, 4, 5⟩ = .ok (s, mdl) :=
  ⟨_, _, rfl⟩

/-- **C222**, the names: every file is named after the observation, an underscore and what it holds. -/
theorem C222_names {V : Type} (c : QvSave) (a : QvArgs V) (f : SavedFile V) (hf : f ∈ qvSaved c a) :
    ∃ dir what : String, (dir, what) ∈ [("metadata", "obs"), ("metadata", "params"), ("gridding", "image_uv"), ("gridding", "weights_uv"),
      ("gridding", "variance_uv"), ("gridding", "uniform_filter_uv"), ("gridding", "model_uv"), ("visibilities", "calibrated_vis_arr"),
      ("calibration", "cal"), ("visibilities", "calibrated_vis_weights")] ∧
      f.1 = dir.toList ∧ f.2.1 = c.obsId ++ ("_" ++ what ++ ".h5").toList := by
  have key : ∀ (dir what : String) (v : V), f = savedFile c dir what v → f.1 = dir.toList ∧ f.2.1 = c.obsId ++ ("_" ++ what ++ ".h5").toList := by
    rintro dir what v rfl
    refine ⟨rfl, ?_⟩
    simp [savedFile]
  rcases (C222_saved_partial c a f).1 hf with ⟨-, h⟩ | ⟨-, h⟩ | ⟨-, h⟩ | ⟨-, -, h | h | h | h | h⟩ | ⟨-, -, h⟩ | ⟨-, h⟩ <;>
  · exact ⟨_, _, by simp, key _ _ _ h⟩

example : ("metadata".toList, "7_obs.h5".toList, 1) ∈
    qvSaved ⟨['7'], [], true, true, true, true, true, true, true⟩ (⟨1, 2, 3, 4, 5, 6, 7, 8, 9, 10⟩ : QvArgs ℕ) := by decide +kernel

/-- **C227**, running a command: in a dry run no program is run, otherwise the program is run with the words of the command. -/
theorem C227_run (exec exec' : List (List Char) → List Char) (cmd : List Char) :
    runCommand exec cmd true = runCommand exec' cmd true ∧
    ∀ (w : List Char) (ws : List (List Char)), (∀ v ∈ w :: ws, v ≠ [] ∧ ∀ c ∈ v, pySpace c = false) →
      runCommand exec (w ++ ws.flatMap fun v => ' ' :: v) false = exec (w :: ws) := by
  refine ⟨rfl, fun w ws h => ?_⟩
  show exec (splitWords _ []) = _
  congr 1
  induction ws generalizing w with
  | nil =>
    rw [List.flatMap_nil, List.append_nil]
    exact splitWords_last (h w (by simp)).2 (h w (by simp)).1
  | cons v vs ih =>
    rw [List.flatMap_cons, List.cons_append, splitWords_blank (h w (by simp)).2 (h w (by simp)).1, ih v fun u hu => h u (by simp at hu ⊢; tauto)]

example : runCommand (fun a => a.flatMap id) "idl -e x".toList false = "idl-ex".toList ∧
    runCommand (fun a => a.flatMap id) "idl -e x".toList true = "This was a dry run, not launching IDL code\n".toList := by decide +kernel

end PyFHD
