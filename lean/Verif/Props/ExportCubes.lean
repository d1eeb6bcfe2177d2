import Verif.Model.ExportCubes
import Verif.Props.Healpix

/-!
# C282, C283: what exported HEALPix cubes hold
-/

namespace PyFHD

open Spec

/-- All images have the size of the plane, and there is one for every averaged channel. -/
structure Spec.CubesFit (c : CubeIn) (D E : ℕ) : Prop where
  beam : expNfUse c.nFreq c.nAvg ≤ c.beam.length ∧ ∀ l ∈ c.beam, l.length = D * E
  weights : expNfUse c.nFreq c.nAvg ≤ c.weights.length ∧ ∀ l ∈ c.weights, l.length = D * E
  variance : expNfUse c.nFreq c.nAvg ≤ c.variance.length ∧ ∀ l ∈ c.variance, l.length = D * E
  modelImage : expNfUse c.nFreq c.nAvg ≤ c.modelImage.length ∧ ∀ l ∈ c.modelImage, l.length = D * E
  dirty : expNfUse c.nFreq c.nAvg ≤ c.dirty.length ∧ ∀ l ∈ c.dirty, l.length = D * E

/-- The value at column `a` and row `b` of a flattened image with `D` columns. -/
def Spec.pixelAt (D : ℕ) (img : List ℚ) (a b : ℕ) : ℚ := img.getD (a + D * b) 0

/-- The cube `q` shows the images `image`: it has a map for every averaged channel, and where HEALPix pixel `p` lies at `(x, y)` within the
cell `(i, j)` of the image, the value is interpolated between the corners. -/
def Spec.Shows (D n p i j : ℕ) (x y : ℚ) (q : List (List ℚ)) (image : ℕ → List ℚ) : Prop :=
  q.length = n ∧ ∀ k < n, ∃ m, q[k]? = some m ∧ m[p]? = some (bilinear (pixelAt D (image k)) x y i j)

theorem mapM_range_all {α : Type _} (n : ℕ) (f : ℕ → Py α) (g : ℕ → α) (h : ∀ i < n, f i = .ok (g i)) :
    (List.range n).mapM f = .ok ((List.range n).map g) :=
  mapM_ok f g _ fun i hi => h i (List.mem_range.1 hi)

theorem exportCube_shows (c : CubeIn) (D E : ℕ) (px : List (ℚ × ℚ)) (hgen : hpxGenerate D E px = .ok c.cnv) (hn : c.nPix = px.length)
    (p i j : ℕ) (x y : ℚ) (hp : px[p]? = some (x, y)) (hx : (i : ℚ) < x ∧ x < i + 1) (hy : (j : ℚ) < y ∧ y < j + 1) (hi : i + 1 < D)
    (hj : j + 1 < E) (image : ℕ → Option (List ℚ)) (img : ℕ → List ℚ)
    (himg : ∀ k < expNfUse c.nFreq c.nAvg, image k = some (img k) ∧ (img k).length = D * E) :
    ∃ q, exportCube c image = .ok q ∧ Shows D (expNfUse c.nFreq c.nAvg) p i j x y q img := by
  obtain ⟨cnv, hc, h⟩ := C55_bilinear_partial D E px p i j x y hp hx hy hi hj
  rw [hgen] at hc
  injection hc with hc
  subst hc
  have h2 : ∀ k, ∃ m, k < expNfUse c.nFreq c.nAvg → hpxApply c.nPix (img k) c.cnv = .ok m ∧
      m[p]? = some (bilinear (pixelAt D (img k)) x y i j) := by
    intro k
    by_cases hk : k < expNfUse c.nFreq c.nAvg
    · obtain ⟨m, m1, -, m2⟩ := h (img k) (himg k hk).2
      exact ⟨m, fun _ => ⟨by rw [hn]; exact m1, m2⟩⟩
    · exact ⟨[], fun h => absurd h hk⟩
  choose m hm using h2
  refine ⟨(List.range (expNfUse c.nFreq c.nAvg)).map m, ?_, by simp, fun k hk => ⟨m k, ?_, (hm k hk).2⟩⟩
  · unfold exportCube
    refine mapM_range_all _ _ m fun k hk => ?_
    rw [(himg k hk).1]
    exact (hm k hk).1
  · rw [List.getElem?_map, List.getElem?_range hk]
    rfl

theorem images_fit (c : CubeIn) (D E : ℕ) (l : List (List ℚ)) (h : expNfUse c.nFreq c.nAvg ≤ l.length ∧ ∀ a ∈ l, a.length = D * E) :
    ∀ k < expNfUse c.nFreq c.nAvg, l[k]? = some (l.getD k []) ∧ (l.getD k []).length = D * E := by
  intro k hk
  have hk' : k < l.length := by omega
  have e : l.getD k [] = l[k] := by simp [List.getD, List.getElem?_eq_getElem hk']
  rw [e]
  exact ⟨List.getElem?_eq_getElem hk', h.2 _ (List.getElem_mem hk')⟩

/-- **C282**, for HEALPix pixels that lie strictly within a cell of the image: every map of every cube is the interpolated image of its
averaged channel, and that of the beam is the beam times the number of visibilities of the channels averaged. Missing: pixels on the lines of
the grid, where the maps are zero (`C55_integer_zero`), and the channels left over (`C56_tail_lost`). -/
theorem C282_cubes_partial (c : CubeIn) (D E : ℕ) (hfit : CubesFit c D E) (hnf : c.nfVis.length = c.nFreq) (hmod : c.model = true)
    (px : List (ℚ × ℚ)) (hgen : hpxGenerate D E px = .ok c.cnv) (hn : c.nPix = px.length) (p i j : ℕ) (x y : ℚ)
    (hp : px[p]? = some (x, y)) (hx : (i : ℚ) < x ∧ x < i + 1) (hy : (j : ℚ) < y ∧ y < j + 1) (hi : i + 1 < D) (hj : j + 1 < E) :
    ∃ file, exportContents c = .ok file ∧
      Shows D (c.nFreq / c.nAvg) p i j x y file.weights (c.weights.getD · []) ∧
      Shows D (c.nFreq / c.nAvg) p i j x y file.variance (c.variance.getD · []) ∧
      Shows D (c.nFreq / c.nAvg) p i j x y file.model (c.modelImage.getD · []) ∧
      Shows D (c.nFreq / c.nAvg) p i j x y file.data.2 (c.dirty.getD · []) ∧
      file.beamSquared.length = c.nFreq / c.nAvg ∧ ∀ k < c.nFreq / c.nAvg, ∃ m, file.beamSquared[k]? = some m ∧
        m[p]? = some ((∑ a ∈ Finset.range c.nAvg, c.nfVis.getD (k * c.nAvg + a) 0) *
          bilinear (pixelAt D (c.beam.getD k [])) x y i j) := by
  have he : expNfUse c.nFreq c.nAvg = c.nFreq / c.nAvg := expNfUse_eq _ _
  obtain ⟨b, b1, b2, b3⟩ := exportCube_shows c D E px hgen hn p i j x y hp hx hy hi hj c.beamImage
    (fun k => (c.beam.getD k []).map (· * (expNfVis c.nFreq c.nAvg c.nfVis).getD k 0)) (by
      intro k hk
      obtain ⟨h1, h2⟩ := images_fit c D E c.beam hfit.beam k hk
      refine ⟨?_, by rw [List.length_map]; exact h2⟩
      unfold CubeIn.beamImage
      rw [h1]
      rfl)
  obtain ⟨w, w1, w2⟩ := exportCube_shows c D E px hgen hn p i j x y hp hx hy hi hj (c.weights[·]?) _ (images_fit c D E _ hfit.weights)
  obtain ⟨v, v1, v2⟩ := exportCube_shows c D E px hgen hn p i j x y hp hx hy hi hj (c.variance[·]?) _ (images_fit c D E _ hfit.variance)
  obtain ⟨m, m1, m2⟩ := exportCube_shows c D E px hgen hn p i j x y hp hx hy hi hj (c.modelImage[·]?) _ (images_fit c D E _ hfit.modelImage)
  obtain ⟨d, d1, d2⟩ := exportCube_shows c D E px hgen hn p i j x y hp hx hy hi hj (c.dirty[·]?) _ (images_fit c D E _ hfit.dirty)
  rw [he] at b2 b3 w2 v2 m2 d2
  refine ⟨⟨b, w, v, m, (if !c.residual && c.model then "dirty_cube" else "res_cube", d)⟩, ?_, w2, v2, m2, d2, b2, fun k hk => ?_⟩
  · unfold exportContents
    simp only [hmod, b1, w1, v1, m1, d1, bind, Except.bind]
    rfl
  · obtain ⟨a, a1, a2⟩ := b3 k hk
    refine ⟨a, a1, a2.trans ?_⟩
    congr 1
    have hs := C56_nf_vis_sum c.nFreq c.nAvg c.nfVis hnf k hk
    have hg : (expNfVis c.nFreq c.nAvg c.nfVis).getD k 0 = ∑ a ∈ Finset.range c.nAvg, c.nfVis.getD (k * c.nAvg + a) 0 := by
      rw [List.getD_eq_getElem?_getD, hs]
      rfl
    simp only [hg]
    have hpix : ∀ a b, pixelAt D ((c.beam.getD k []).map (· * ∑ a ∈ Finset.range c.nAvg, c.nfVis.getD (k * c.nAvg + a) 0)) a b =
        pixelAt D (c.beam.getD k []) a b * ∑ a ∈ Finset.range c.nAvg, c.nfVis.getD (k * c.nAvg + a) 0 := by
      intro a b
      unfold pixelAt
      generalize c.beam.getD k [] = l
      rw [List.getD_eq_getElem?_getD, List.getElem?_map, List.getD_eq_getElem?_getD]
      cases l[a + D * b]? with
      | none => exact (zero_mul _).symm
      | some v => rfl
    unfold bilinear
    simp only [hpix]
    ring

/-! ## C283 -/

/-- Number by number difference of two cubes. -/
def Spec.cubeDiff (a b : List (List ℚ)) : List (List ℚ) := List.zipWith (List.zipWith fun s t => s - t) a b

theorem hpxApply_sub (n : ℕ) (cnv : List HpxEntry) (a b r1 r2 : List ℚ) (h1 : hpxApply n a cnv = .ok r1) (h2 : hpxApply n b cnv = .ok r2) :
    hpxApply n (List.zipWith (fun s t => s - t) a b) cnv = .ok (List.zipWith (fun s t => s - t) r1 r2) := by
  have h := C55_linear n cnv a b 1 (-1) r1 r2 h1 h2
  have e : (fun s t : ℚ => 1 * s + -1 * t) = fun s t => s - t := by
    funext s t
    ring
  rw [e] at h
  exact h

theorem mapM_all_inv {α β : Type} (f : α → Py β) : ∀ (l : List α) (r : List β), l.mapM f = .ok r →
    r.length = l.length ∧ ∀ (i : ℕ) (x : α), l[i]? = some x → ∃ y, r[i]? = some y ∧ f x = .ok y := by
  intro l
  induction l with
  | nil =>
    intro r h
    rw [List.mapM_nil] at h
    cases h
    exact ⟨rfl, fun i x h => by cases i <;> cases h⟩
  | cons a l ih =>
    intro r h
    rw [List.mapM_cons] at h
    simp only [bind, Except.bind, pure, Except.pure] at h
    cases ha : f a with
    | error e => rw [ha] at h; cases h
    | ok y =>
      rw [ha] at h
      cases hl : l.mapM f with
      | error e => simp only [hl] at h; cases h
      | ok ys =>
        simp only [hl] at h
        cases h
        obtain ⟨h1, h2⟩ := ih ys hl
        refine ⟨by simp [h1], fun i x hi => ?_⟩
        cases i with
        | zero => cases hi; exact ⟨y, rfl, ha⟩
        | succ i => exact h2 i x hi

/-- What can be said about the maps of any cube. -/
theorem exportCube_get (c : CubeIn) (image : ℕ → Option (List ℚ)) (q : List (List ℚ)) (h : exportCube c image = .ok q) :
    q.length = expNfUse c.nFreq c.nAvg ∧ ∀ k < expNfUse c.nFreq c.nAvg, ∃ img, image k = some img ∧
      hpxApply c.nPix img c.cnv = .ok (q.getD k []) := by
  unfold exportCube at h
  obtain ⟨h1, h2⟩ := mapM_all_inv _ _ _ h
  rw [List.length_range] at h1
  refine ⟨h1, fun k hk => ?_⟩
  obtain ⟨v, v1, v2⟩ := h2 k k (by rw [List.getElem?_range hk])
  cases hi : image k with
  | none => rw [hi] at v2; cases v2
  | some img =>
    rw [hi] at v2
    refine ⟨img, rfl, ?_⟩
    rw [List.getD_eq_getElem?_getD, v1]
    exact v2

theorem exportContents_inv (c : CubeIn) (file : CubeFile) (h : exportContents c = .ok file) : c.model = true ∧
    exportCube c (c.modelImage[·]?) = .ok file.model ∧ exportCube c (c.dirty[·]?) = .ok file.data.2 ∧
    file.data.1 = if !c.residual && c.model then "dirty_cube" else "res_cube" := by
  unfold exportContents at h
  cases hm : c.model with
  | false => rw [hm] at h; cases h
  | true =>
    simp only [hm, bind, Except.bind] at h
    cases h1 : exportCube c c.beamImage with
    | error e => rw [h1] at h; cases h
    | ok b =>
      cases h2 : exportCube c (c.weights[·]?) with
      | error e => rw [h1, h2] at h; cases h
      | ok w =>
        cases h3 : exportCube c (c.variance[·]?) with
        | error e => rw [h1, h2, h3] at h; cases h
        | ok v =>
          cases h4 : exportCube c (c.modelImage[·]?) with
          | error e => rw [h1, h2, h3, h4] at h; cases h
          | ok m =>
            cases h5 : exportCube c (c.dirty[·]?) with
            | error e => rw [h1, h2, h3, h4, h5] at h; cases h
            | ok d =>
              rw [h1, h2, h3, h4, h5] at h
              cases h
              exact ⟨rfl, rfl, rfl, rfl⟩

/-- **C283 fails**: `obs["residual"]` is never set (obs.py 243), and then no file holds a residual cube. -/
theorem C283_no_residual (c : CubeIn) (hres : c.residual = false) (file : CubeFile) (h : exportContents c = .ok file) :
    "res_cube" ∉ file.names ∧ "dirty_cube" ∈ file.names := by
  obtain ⟨hm, -, -, hn⟩ := exportContents_inv c file h
  rw [hres, hm] at hn
  unfold CubeFile.names
  rw [hn]
  decide

/-- **C283**, what is left: the difference of the dirty and the model cube is the cube of the residual images. -/
theorem C283_difference_partial (c : CubeIn) (file : CubeFile) (h : exportContents c = .ok file) :
    exportCube c (fun i => (c.dirty[i]?).bind fun d => (c.modelImage[i]?).map fun m => List.zipWith (fun s t => s - t) d m) =
      .ok (cubeDiff file.data.2 file.model) := by
  obtain ⟨-, hm, hd, -⟩ := exportContents_inv c file h
  obtain ⟨l1, g1⟩ := exportCube_get c _ _ hm
  obtain ⟨l2, g2⟩ := exportCube_get c _ _ hd
  have e : cubeDiff file.data.2 file.model = (List.range (expNfUse c.nFreq c.nAvg)).map fun k =>
      List.zipWith (fun s t => s - t) (file.data.2.getD k []) (file.model.getD k []) := by
    refine List.ext_getElem? fun k => ?_
    unfold cubeDiff
    rw [List.getElem?_zipWith, List.getElem?_map]
    by_cases hk : k < expNfUse c.nFreq c.nAvg
    · simp only [List.getElem?_range hk, List.getD_eq_getElem?_getD, Option.map_some,
        List.getElem?_eq_getElem (by omega : k < file.data.2.length), List.getElem?_eq_getElem (by omega : k < file.model.length)]
      rfl
    · rw [List.getElem?_eq_none (by omega : file.data.2.length ≤ k),
        List.getElem?_eq_none (by rw [List.length_range]; omega : (List.range (expNfUse c.nFreq c.nAvg)).length ≤ k)]
      rfl
  rw [e]
  unfold exportCube
  refine mapM_range_all _ _ _ fun k hk => ?_
  obtain ⟨a, a1, a2⟩ := g1 k hk
  obtain ⟨b, b1, b2⟩ := g2 k hk
  have e1 : c.modelImage[k]? = some a := a1
  have e2 : c.dirty[k]? = some b := b1
  simp only [e1, e2]
  exact hpxApply_sub _ _ _ _ _ _ b2 a2

/-! ## Example: five channels averaged in pairs, a plane of 4 by 4 pixels and the four HEALPix pixels of `exPx` -/

/-- The map of `exPx`. -/
def exCnv : List HpxEntry := (hpxGenerate 4 4 exPx).toOption.getD []

/-- An export with two averaged channels. -/
def exExport : CubeIn where
  nFreq := 5
  nAvg := 2
  cnv := exCnv
  nPix := 4
  beam := [List.replicate 16 2, List.replicate 16 3]
  weights := (List.range 3).map fun k => (List.range 16).map fun i => k + i
  variance := (List.range 3).map fun k => (List.range 16).map fun i => 2 * k + i
  modelImage := (List.range 3).map fun k => (List.range 16).map fun i => k * i
  dirty := (List.range 3).map fun k => (List.range 16).map fun i => k * i + 1
  nfVis := [1, 2, 3, 4, 5]
  residual := false
  model := true

example : hpxGenerate 4 4 exPx = .ok exExport.cnv ∧ exExport.nPix = exPx.length ∧ exPx[0]? = some (5 / 4, 3 / 2) ∧
    (exportContents exExport).map (fun f => (f.beamSquared, f.data.2, f.model, f.names)) = 
      .ok ([[6, 0, 6, 0], [21, 0, 21, 0]], [[1, 0, 1, 0], [33 / 4, 0, 13 / 2, 0]], [[0, 0, 0, 0], [29 / 4, 0, 11 / 2, 0]],
        ["beam_squared_cube", "weights_cube", "variance_cube", "model_cube", "dirty_cube"]) := by
  decide +kernel

example : CubesFit exExport 4 4 where
  beam := by decide +kernel
  weights := by decide +kernel
  variance := by decide +kernel
  modelImage := by decide +kernel
  dirty := by decide +kernel

end PyFHD
