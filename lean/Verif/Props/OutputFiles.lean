import Verif.Model.OutputFiles
import Verif.Props.Pipeline
import Mathlib.Tactic.Linarith
import Mathlib.Data.List.Nodup
import Mathlib.Data.List.TakeWhile
import Mathlib.Tactic.FieldSimp
import Mathlib.Tactic.Ring

/-!
# C222 - C225: the files of a run
-/

namespace PyFHD

/-! ## C222: what was asked for is saved -/

section
variable {V File : Type}

/-- Does an action write a result of the run: the observation, parameters, calibration, calibrated data or weights, planes, images? -/
def Spec.writesResult : Event V File → Prop
  | .saveObs _ | .saveParams _ | .saveCal _ | .saveWeights _ | .saveVis _ | .quickview _ => True
  | _ => False

/-- **C222 is violated**: without the export of images a run to the end saves none of its results, whatever was asked for. -/
theorem C222_nothing_without_images (S : Stages V File) (c : RunCfg File) (hs : c.calStop = false) (hi : c.exportImages = false) :
    ∀ e ∈ (mainRun S c).1, ¬Spec.writesResult e := by
  have h1 : (importPhase S c).All fun e => ¬Spec.writesResult e := by
    unfold importPhase
    split_ifs
    · refine Run.All.bind ?_ fun _ => Run.All.pure _
      unfold importFresh
      refine (Run.All.lift _).bind fun x => (Run.All.emitIf (by exact not_false)).bind fun _ => Run.All.bind ?_ fun _ =>
        (Run.All.lift _).bind fun _ => (Run.All.emitIf (by exact not_false)).bind fun _ => Run.All.pure _
      split_ifs
      · exact Run.All.emit (by exact not_false)
      · exact Run.All.lift _
      · exact Run.All.pure _
    · split
      · exact (Run.All.lift _).bind fun _ => Run.All.pure _
      · exact Run.All.pure _
  have h2 : ∀ psf s, (calPhase S c psf s).All fun e => ¬Spec.writesResult e := by
    intro psf s
    unfold calPhase
    split
    · split
      · exact Run.All.lift _
      · refine (Run.All.lift _).bind fun x => ?_
        split_ifs
        · exact (Run.All.lift _).bind fun _ => (Run.All.emitIf (by exact not_false)).bind fun _ => Run.All.pure _
        · exact Run.All.pure _
    · split
      · exact Run.All.lift _
      · exact Run.All.lift _
      · split <;> exact Run.All.lift _
  have h3 : ∀ psf r, (finishRun S c psf r).All fun e => ¬Spec.writesResult e := by
    intro psf r
    unfold finishRun
    rw [hs, if_neg (by simp)]
    refine Run.All.bind ?_ fun x => ?_
    · unfold gridPhase
      split
      · split_ifs
        · exact (Run.All.lift _).bind fun _ => (Run.All.emitIf (by exact not_false)).bind fun _ => Run.All.pure _
        · exact Run.All.pure _
      · exact (Run.All.lift _).bind fun _ => Run.All.pure _
    · obtain ⟨obs, g⟩ := x
      unfold outPhase
      rw [hi]
      dsimp only
      rw [if_neg (by simp)]
      refine (Run.All.pure _).bind fun _ => Run.All.bind ?_ fun _ => (Run.All.emit (by exact not_false)).bind fun _ => Run.All.pure _
      split_ifs
      · split
        · exact Run.All.emit (by exact not_false)
        · exact Run.All.lift _
      · exact Run.All.pure _
  unfold mainRun restRun
  exact h1.bind fun s => (Run.All.lift _).bind fun psf => (h2 _ _).bind fun r => h3 _ _

end

/-- A run that ends normally, asked to save everything but not to export images. -/
example : (mainRun exStages { exCfg with exportImages := false, saveObs := true, saveCal := true, calStop := false }).2 = .ok .done := by decide +kernel

section
variable {V : Type}

/-- **C222**, with the export of images: what is saved is what was asked for, under the name of the observation. The gridded planes
are saved only in a run that computes them. Missing: the model visibilities, which are never saved. -/
theorem C222_saved_partial (c : QvSave) (a : QvArgs V) (f : SavedFile V) :
    f ∈ qvSaved c a ↔
      (c.saveObs = true ∧ f = savedFile c "metadata" "obs" a.obs) ∨
      (c.saveParams = true ∧ f = savedFile c "metadata" "params" a.params) ∨
      (c.saveVisibilities = true ∧ f = savedFile c "visibilities" "calibrated_vis_arr" a.visArr) ∨
      (c.saveVisibilities = true ∧ c.recalculateGrid = true ∧ (f = savedFile c "gridding" "image_uv" a.imageUv ∨
        f = savedFile c "gridding" "weights_uv" a.weightsUv ∨ f = savedFile c "gridding" "variance_uv" a.varianceUv ∨
        f = savedFile c "gridding" "uniform_filter_uv" a.filterUv ∨ f = savedFile c "gridding" "model_uv" a.modelUv)) ∨
      (c.saveCal = true ∧ c.calibrate = true ∧ f = savedFile c "calibration" "cal" a.cal) ∨
      (c.saveWeights = true ∧ f = savedFile c "visibilities" "calibrated_vis_weights" a.visWeights) := by
  have hif : ∀ (q : Prop) [Decidable q] (l : List (SavedFile V)), (f ∈ if q then l else []) ↔ q ∧ f ∈ l := by
    intro q _ l
    by_cases h : q <;> simp [h]
  unfold qvSaved
  simp only [List.mem_append, hif, List.mem_cons, List.not_mem_nil, or_false, Bool.and_eq_true]
  constructor
  · rintro ((((h | h) | ⟨h, ⟨h', h''⟩ | h'⟩) | ⟨⟨h, h'⟩, h''⟩) | h)
    · exact Or.inl h
    · exact Or.inr (Or.inl h)
    · exact Or.inr (Or.inr (Or.inr (Or.inl ⟨h, h', h''⟩)))
    · exact Or.inr (Or.inr (Or.inl ⟨h, h'⟩))
    · exact Or.inr (Or.inr (Or.inr (Or.inr (Or.inl ⟨h, h', h''⟩))))
    · exact Or.inr (Or.inr (Or.inr (Or.inr (Or.inr h))))
  · rintro (h | h | ⟨h, h'⟩ | ⟨h, h', h''⟩ | ⟨h, h', h''⟩ | h)
    · exact Or.inl (Or.inl (Or.inl (Or.inl h)))
    · exact Or.inl (Or.inl (Or.inl (Or.inr h)))
    · exact Or.inl (Or.inl (Or.inr ⟨h, Or.inr h'⟩))
    · exact Or.inl (Or.inl (Or.inr ⟨h, Or.inl ⟨h', h''⟩⟩))
    · exact Or.inl (Or.inr ⟨⟨h, h'⟩, h''⟩)
    · exact Or.inr h

/-- **C222**: no file is written over by another one. -/
theorem C222_paths_distinct (c : QvSave) (a : QvArgs V) : ((qvSaved c a).map fun f => (f.1, f.2.1)).Nodup := by
  unfold qvSaved savedFile
  cases c.saveObs <;> cases c.saveParams <;> cases c.saveVisibilities <;> cases c.recalculateGrid <;> cases c.saveCal <;>
    cases c.calibrate <;> cases c.saveWeights <;> simp

end

/-! ## C223: names of the images -/

theorem append_sep_inj {a b r s : List Char} (ha : '_' ∉ a) (hb : '_' ∉ b) (h : a ++ '_' :: r = b ++ '_' :: s) : a = b ∧ r = s := by
  induction a generalizing b with
  | nil =>
    cases b with
    | nil => simpa using h
    | cons y b => simp at h; simp at hb; exact absurd h.1 hb.1
  | cons x a ih =>
    cases b with
    | nil => simp at h; simp at ha; exact absurd h.1.symm ha.1
    | cons y b =>
      simp only [List.cons_append, List.cons.injEq] at h
      obtain ⟨e1, e2⟩ := ih (fun hx => ha (by simp [hx])) (fun hx => hb (by simp [hx])) h.2
      exact ⟨by rw [h.1, e1], e2⟩

theorem filterName_sep (f : List Char) : '_' ∉ filterName f := by
  unfold filterName
  rw [List.mem_reverse]
  intro h
  have := List.mem_takeWhile_imp h
  simp at this

/-- **C223**, one run: the images of different polarisations and different products have different names. -/
theorem C223_distinct_partial (c : QvSave) (pols : List (List Char)) (hp : pols.Nodup)
    (hf : filterName c.imageFilter ≠ "beam".toList ∧ filterName c.imageFilter ≠ "uv".toList) : (fitsFiles c pols).Nodup := by
  have hs := filterName_sep c.imageFilter
  obtain ⟨h1, h2⟩ := hf
  have two : ∀ (a b x y u v : List Char), '_' ∉ a → '_' ∉ b →
      c.obsId ++ '_' :: (a ++ '_' :: u) = c.obsId ++ '_' :: (b ++ '_' :: v) → a = b ∧ u = v := by
    intro a b x y u v ha hb h
    have := List.append_cancel_left h
    rw [List.cons.injEq] at this
    exact append_sep_inj ha hb this.2
  have pol : ∀ p q : List Char, p ++ ".fits".toList = q ++ ".fits".toList → p = q := fun p q h => List.append_cancel_right h
  have sep : ∀ w ∈ ["dirty", "model", "residual", "beam", "uv", "weights"], '_' ∉ w.toList := by decide
  have s1 := sep "dirty" (by decide)
  have s2 := sep "model" (by decide)
  have s3 := sep "residual" (by decide)
  have s4 := sep "beam" (by decide)
  have s5 := sep "uv" (by decide)
  have n1 : "dirty".toList ≠ "model".toList := by decide
  have n2 : "dirty".toList ≠ "residual".toList := by decide
  have n3 : "model".toList ≠ "residual".toList := by decide
  have n4 : "beam".toList ≠ "uv".toList := by decide
  unfold fitsFiles fitsOf
  generalize filterName c.imageFilter = f at *
  generalize "dirty".toList = d at *
  generalize "model".toList = m at *
  generalize "residual".toList = r at *
  generalize "beam".toList = b at *
  generalize "uv".toList = u at *
  generalize "weights".toList = w at *
  generalize ".fits".toList = e at *
  have nodup : ∀ p : List Char, [c.obsId ++ '_' :: (f ++ '_' :: (d ++ '_' :: (p ++ e))), c.obsId ++ '_' :: (f ++ '_' :: (m ++ '_' :: (p ++ e))),
      c.obsId ++ '_' :: (f ++ '_' :: (r ++ '_' :: (p ++ e))), c.obsId ++ '_' :: (b ++ '_' :: (p ++ e)),
      c.obsId ++ '_' :: (u ++ '_' :: (w ++ '_' :: (p ++ e)))].Nodup := by
    intro p
    simp only [List.nodup_cons, List.mem_cons, List.not_mem_nil, or_false, not_false_eq_true, List.nodup_nil, and_true, not_or]
    refine ⟨⟨?_, ?_, ?_, ?_⟩, ⟨?_, ?_, ?_⟩, ⟨?_, ?_⟩, ?_⟩ <;> intro h
    · exact n1 (append_sep_inj s1 s2 (two _ _ [] [] _ _ hs hs h).2).1
    · exact n2 (append_sep_inj s1 s3 (two _ _ [] [] _ _ hs hs h).2).1
    · exact h1 (two _ _ [] [] _ _ hs s4 h).1
    · exact h2 (two _ _ [] [] _ _ hs s5 h).1
    · exact n3 (append_sep_inj s2 s3 (two _ _ [] [] _ _ hs hs h).2).1
    · exact h1 (two _ _ [] [] _ _ hs s4 h).1
    · exact h2 (two _ _ [] [] _ _ hs s5 h).1
    · exact h1 (two _ _ [] [] _ _ hs s4 h).1
    · exact h2 (two _ _ [] [] _ _ hs s5 h).1
    · exact n4 (two _ _ [] [] _ _ s4 s5 h).1
  rw [List.nodup_flatMap]
  refine ⟨fun p _ => nodup p, hp.imp ?_⟩
  intro p q hpq x hx hy
  apply hpq
  simp only [List.mem_cons, List.not_mem_nil, or_false] at hx hy
  have same : ∀ a : List Char, '_' ∉ a → a ++ '_' :: (p ++ e) = a ++ '_' :: (q ++ e) → p = q :=
    fun a ha h => pol _ _ (append_sep_inj ha ha h).2
  have ww : w ++ '_' :: (p ++ e) = w ++ '_' :: (q ++ e) → p = q := by
    intro h
    have := List.append_cancel_left h
    rw [List.cons.injEq] at this
    exact pol _ _ this.2
  rcases hx with hx | hx | hx | hx | hx <;> rcases hy with hy | hy | hy | hy | hy <;> rw [hx] at hy
  · exact same d s1 (two _ _ [] [] _ _ hs hs hy).2
  · exact absurd (append_sep_inj s1 s2 (two _ _ [] [] _ _ hs hs hy).2).1 n1
  · exact absurd (append_sep_inj s1 s3 (two _ _ [] [] _ _ hs hs hy).2).1 n2
  · exact absurd (two _ _ [] [] _ _ hs s4 hy).1 h1
  · exact absurd (two _ _ [] [] _ _ hs s5 hy).1 h2
  · exact absurd (append_sep_inj s2 s1 (two _ _ [] [] _ _ hs hs hy).2).1.symm n1
  · exact same m s2 (two _ _ [] [] _ _ hs hs hy).2
  · exact absurd (append_sep_inj s2 s3 (two _ _ [] [] _ _ hs hs hy).2).1 n3
  · exact absurd (two _ _ [] [] _ _ hs s4 hy).1 h1
  · exact absurd (two _ _ [] [] _ _ hs s5 hy).1 h2
  · exact absurd (append_sep_inj s3 s1 (two _ _ [] [] _ _ hs hs hy).2).1.symm n2
  · exact absurd (append_sep_inj s3 s2 (two _ _ [] [] _ _ hs hs hy).2).1.symm n3
  · exact same r s3 (two _ _ [] [] _ _ hs hs hy).2
  · exact absurd (two _ _ [] [] _ _ hs s4 hy).1 h1
  · exact absurd (two _ _ [] [] _ _ hs s5 hy).1 h2
  · exact absurd (two _ _ [] [] _ _ s4 hs hy).1.symm h1
  · exact absurd (two _ _ [] [] _ _ s4 hs hy).1.symm h1
  · exact absurd (two _ _ [] [] _ _ s4 hs hy).1.symm h1
  · exact pol _ _ (two _ _ [] [] _ _ s4 s4 hy).2
  · exact absurd (two _ _ [] [] _ _ s4 s5 hy).1 n4
  · exact absurd (two _ _ [] [] _ _ s5 hs hy).1.symm h2
  · exact absurd (two _ _ [] [] _ _ s5 hs hy).1.symm h2
  · exact absurd (two _ _ [] [] _ _ s5 hs hy).1.symm h2
  · exact absurd (two _ _ [] [] _ _ s5 s4 hy).1.symm n4
  · exact ww (two _ _ [] [] _ _ s5 s5 hy).2

/-- The filters that can be chosen (pyfhd_setup.py 615-622). -/
def Spec.filters : List String :=
  ["filter_uv_uniform", "filter_uv_hanning", "filter_uv_natural", "filter_uv_radial", "filter_uv_tapered_uniform", "filter_uv_optimal"]

/-- The hypothesis of `C223_distinct_partial` holds for every filter that can be chosen. -/
example : ∀ f ∈ Spec.filters, filterName f.toList ≠ "beam".toList ∧ filterName f.toList ≠ "uv".toList := by decide +kernel

/-- **C223 is violated** between runs: the images made with the uniform filter and with the tapered uniform filter have the same names, for
every observation and all polarisations, so that the second run replaces the images of the first. -/
theorem C223_filters_collide (c : QvSave) (pols : List (List Char)) :
    fitsFiles { c with imageFilter := "filter_uv_tapered_uniform".toList } pols
      = fitsFiles { c with imageFilter := "filter_uv_uniform".toList } pols := by
  have h : filterName "filter_uv_tapered_uniform".toList = filterName "filter_uv_uniform".toList := by decide +kernel
  unfold fitsFiles fitsOf
  rw [h]

/-! ## C224: positions in the images -/

namespace Spec

/-- Position in the plane of projection of the centre of pixel `(x, y)`, both counted from zero: what `pixel_to_radec` (unit_conv.py 181-201)
gives to the projection; it uses no matrix. -/
def planeOf (a : AstrGrid) (x y : ℚ) : ℚ × ℚ := (a.cdelt.1 * (x + 1 - a.crpix.1), a.cdelt.2 * (y + 1 - a.crpix.2))

/-- Position in the plane of projection according to the cards of a header, as the FITS standard defines it. -/
def planeOfCards (h : PlaneCards) (x y : ℚ) : ℚ × ℚ :=
  (h.cd11 * (x + 1 - h.crpix1) + h.cd12 * (y + 1 - h.crpix2), h.cd21 * (x + 1 - h.crpix1) + h.cd22 * (y + 1 - h.crpix2))

/-- The matrix that `create_obs` sets. -/
def unitMatrix (a : AstrGrid) : Prop := a.cd11 = 1 ∧ a.cd12 = 0 ∧ a.cd21 = 0 ∧ a.cd22 = 1

end Spec

/-- **C224**, images of even size: every pixel has in the header the position that the program gives it. -/
theorem C224_even_partial (a : AstrGrid) (hm : Spec.unitMatrix a) (k : ℕ) (degpix x y : ℚ) :
    Spec.planeOfCards (imageCards (a.update (2 * k) degpix)).1 x y = Spec.planeOf (a.update (2 * k) degpix) x y := by
  obtain ⟨m1, m2, m3, m4⟩ := hm
  have hk : pyInt (((2 * k : ℕ) : ℚ) / 2 + 1) = ((k + 1 : ℕ) : ℤ) := by
    have : ((2 * k : ℕ) : ℚ) / 2 + 1 = ((k + 1 : ℕ) : ℤ) := by push_cast; ring
    rw [this]
    unfold pyInt
    rw [if_pos (by positivity), Int.floor_intCast]
  simp only [Spec.planeOfCards, Spec.planeOf, imageCards, AstrGrid.update, m1, m2, m3, m4, hk]
  push_cast
  refine Prod.ext ?_ ?_ <;> dsimp only <;> ring

/-- **C224 is violated** for images of odd size: in the header every pixel is half a pixel from where the program puts it. -/
theorem C224_odd_half_pixel (a : AstrGrid) (hm : Spec.unitMatrix a) (k : ℕ) (degpix x y : ℚ) :
    Spec.planeOfCards (imageCards (a.update (2 * k + 1) degpix)).1 x y
      = Spec.planeOf (a.update (2 * k + 1) degpix) (x + 1 / 2) (y + 1 / 2) := by
  obtain ⟨m1, m2, m3, m4⟩ := hm
  have hk : pyInt (((2 * k + 1 : ℕ) : ℚ) / 2 + 1) = ((k + 1 : ℕ) : ℤ) := by
    unfold pyInt
    rw [if_pos (by positivity), Int.floor_eq_iff]
    push_cast
    constructor <;> linarith
  simp only [Spec.planeOfCards, Spec.planeOf, imageCards, AstrGrid.update, m1, m2, m3, m4, hk]
  push_cast
  refine Prod.ext ?_ ?_ <;> dsimp only <;> ring

theorem cardsAfter_matrix (a : AstrGrid) (hm : Spec.unitMatrix a) (d : ℕ) (degpix : ℚ) (n : ℕ) :
    (cardsAfter a d degpix n).2.cd11 = degpix ^ (n + 1) ∧ (cardsAfter a d degpix n).2.cd12 = 0 ∧
    (cardsAfter a d degpix n).2.cd21 = 0 ∧ (cardsAfter a d degpix n).2.cd22 = degpix ^ (n + 1) := by
  obtain ⟨m1, m2, m3, m4⟩ := hm
  induction n with
  | zero => simp [cardsAfter, imageCards, AstrGrid.update, m1, m2, m3, m4]
  | succ n ih =>
    obtain ⟨e1, e2, e3, e4⟩ := ih
    simp [cardsAfter, imageCards, AstrGrid.update, e1, e2, e3, e4, pow_succ]

/-- **C224 is violated** when images are exported again with the same observation: the matrix in the header is multiplied by the size of a
pixel once more each time, although the images are the same. -/
theorem C224_again (a : AstrGrid) (hm : Spec.unitMatrix a) (k : ℕ) (degpix x y : ℚ) (n : ℕ) :
    Spec.planeOfCards (cardsAfter a (2 * k) degpix n).1 x y
      = (degpix ^ n * (Spec.planeOf (a.update (2 * k) degpix) x y).1, degpix ^ n * (Spec.planeOf (a.update (2 * k) degpix) x y).2) := by
  have hk : pyInt (((2 * k : ℕ) : ℚ) / 2 + 1) = ((k + 1 : ℕ) : ℤ) := by
    have : ((2 * k : ℕ) : ℚ) / 2 + 1 = ((k + 1 : ℕ) : ℤ) := by push_cast; ring
    rw [this]
    unfold pyInt
    rw [if_pos (by positivity), Int.floor_intCast]
  have hmat := cardsAfter_matrix a hm (2 * k) degpix n
  have hc : (cardsAfter a (2 * k) degpix n).1 = ⟨degpix ^ (n + 1), 0, 0, degpix ^ (n + 1), ((k + 1 : ℕ) : ℤ), ((k + 1 : ℕ) : ℤ)⟩ := by
    obtain ⟨e1, e2, e3, e4⟩ := hmat
    cases n with
    | zero =>
      simp only [cardsAfter, imageCards, AstrGrid.update] at e1 e2 e3 e4 ⊢
      rw [e1, e2, e3, e4, hk]
    | succ n =>
      simp only [cardsAfter, imageCards, AstrGrid.update] at e1 e2 e3 e4 ⊢
      rw [e1, e2, e3, e4, hk]
  rw [hc]
  simp only [Spec.planeOfCards, Spec.planeOf, AstrGrid.update]
  push_cast
  refine Prod.ext ?_ ?_ <;> dsimp only <;> ring

/-- An observation of 1024 pixels of a tenth of a degree. -/
def exAstr : AstrGrid := ⟨1, 0, 0, 1, (1 / 10, 1 / 10), (513, 513)⟩

example : Spec.unitMatrix exAstr := ⟨rfl, rfl, rfl, rfl⟩

example : Spec.planeOfCards (cardsAfter exAstr 1024 (1 / 10) 0).1 522 512 = (1, 0) ∧
    Spec.planeOfCards (cardsAfter exAstr 1024 (1 / 10) 1).1 522 512 = (1 / 10, 0) := by decide +kernel

/-! ## C225: coordinates of the uv weights -/

/-- **C225**: in the files of uv weights the pixel `i` columns and `j` rows from the middle has the coordinates of the baselines gridded there:
`i` and `j` times the size of a cell, in wavelengths. -/
theorem C225_uv_coordinates (k : ℕ) (kpix : ℚ) (i j : ℤ) :
    Spec.planeOfCards (uvCards (2 * k) kpix) (k + i) (k + j) = (kpix * i, kpix * j) := by
  simp only [Spec.planeOfCards, uvCards]
  push_cast
  refine Prod.ext ?_ ?_ <;> dsimp only <;> ring

example : Spec.planeOfCards (uvCards 2048 (1 / 2)) 1024 1030 = (0, 3) := by decide +kernel

end PyFHD
