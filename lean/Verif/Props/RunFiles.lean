import Verif.Model.ExportFiles
import Verif.Props.WholeExport
import Verif.Props.WholeExportUnits
import Verif.Props.WholeExportNumbers
import Verif.Props.WholeExportDirection
import Verif.Props.ExportCubes

/-!
# C308, C309, C310: the HEALPix files that a run writes
-/

namespace PyFHD

open Spec

/-! ## Lemmas on the map -/

/-- A function that goes with `a + s * v` for rational `s`. -/
def Spec.Goes {K L : Type _} [Field K] [Field L] (φ : K → L) : Prop :=
  φ 0 = 0 ∧ ∀ (a v : K) (s : ℚ), φ (a + (s : K) * v) = φ a + (s : L) * φ v

theorem fieldAdd_map {K L : Type _} [Field K] [Field L] (φ : K → L) (hφ : Goes φ) (m : List K) (v : K) (e : HpxEntry) :
    fieldAdd (m.map φ) (φ v) e = (fieldAdd m v e).map (List.map φ) := by
  unfold fieldAdd
  rw [List.length_map]
  split_ifs with h
  · have hget : ∀ i, (m.map φ).getD i 0 = φ (m.getD i 0) := by
      intro i
      rw [List.getD_eq_getElem?_getD, List.getD_eq_getElem?_getD, List.getElem?_map]
      cases m[i]? with
      | none => exact hφ.1.symm
      | some a => rfl
    have gen : ∀ (L' : List (ℕ × ℚ)) (u : List K), L'.foldl (fun acc ps => acc.set ps.1 ((m.map φ).getD ps.1 0 + (ps.2 : L) * φ v)) (u.map φ) =
        (L'.foldl (fun acc ps => acc.set ps.1 (m.getD ps.1 0 + (ps.2 : K) * v)) u).map φ := by
      intro L'
      induction L' with
      | nil => intro u; rfl
      | cons q L' ih =>
        intro u
        rw [List.foldl_cons, List.foldl_cons, ← ih, List.map_set, hφ.2, hget]
    show Except.ok _ = Except.ok _
    rw [gen]
  · rfl

theorem fieldApply_map {K L : Type _} [Field K] [Field L] (φ : K → L) (hφ : Goes φ) (n : ℕ) (img : List K) (cnv : List HpxEntry) :
    fieldApply n (img.map φ) cnv = (fieldApply n img cnv).map (List.map φ) := by
  unfold fieldApply
  have gen : ∀ (l : List HpxEntry) (m : List K), l.foldlM (fieldStep (img.map φ)) (m.map φ) =
      Except.map (List.map φ) (l.foldlM (fieldStep img) m) := by
    intro l
    induction l with
    | nil => intro m; rfl
    | cons e l ih =>
      intro m
      rw [List.foldlM_cons, List.foldlM_cons]
      have hstep : fieldStep (img.map φ) (m.map φ) e = (fieldStep img m e).map (List.map φ) := by
        unfold fieldStep
        rw [List.getElem?_map]
        cases img[e.iUse]? with
        | none => rfl
        | some v => exact fieldAdd_map φ hφ m v e
      rw [hstep]
      cases fieldStep img m e with
      | error e => rfl
      | ok m' => exact ih m'
  have h0 : (List.replicate n (0 : L)) = (List.replicate n (0 : K)).map φ := by
    rw [List.map_replicate, hφ.1]
  rw [h0]
  exact gen cnv _

/-- For rational images the map is that of `Model/Healpix`. -/
theorem fieldApply_rat (n : ℕ) (img : List ℚ) (cnv : List HpxEntry) : fieldApply n img cnv = hpxApply n img cnv := by
  have : ∀ (m : List ℚ) (v : ℚ) (e : HpxEntry), fieldAdd m v e = hpxAdd m v e := by
    intro m v e
    unfold fieldAdd hpxAdd
    simp only [Rat.cast_id]
  have hs : (fieldStep img : List ℚ → HpxEntry → Py (List ℚ)) = hpxApplyStep img := by
    funext m e
    unfold fieldStep hpxApplyStep
    cases img[e.iUse]? with
    | none => rfl
    | some v => exact this m v e
  unfold fieldApply hpxApply
  rw [hs]

/-- For images with rational values the real map has the rational values of `Model/Healpix`. -/
theorem fieldApply_cast (n : ℕ) (img : List ℚ) (cnv : List HpxEntry) :
    fieldApply n (img.map fun a : ℚ => (a : ℝ)) cnv = (hpxApply n img cnv).map (List.map fun a : ℚ => (a : ℝ)) := by
  rw [← fieldApply_rat]
  exact fieldApply_map (fun a : ℚ => (a : ℝ)) ⟨Rat.cast_zero, fun a v s => by push_cast; simp⟩ n img cnv

theorem Spec.Goes.scale (k : ℝ) : Goes fun a : ℝ => k * a := ⟨mul_zero k, fun a v s => by ring⟩

/-- The map fits the images, which have an even number of rows, and the list of pixels. -/
structure Spec.MapFits (n : ℕ) (q : FileIn) : Prop where
  rows : 0 < n ∧ n % 2 = 0
  image : ∀ e ∈ q.cnv, e.iUse < n * n
  pixels : ∀ e ∈ q.cnv, ∀ i ∈ e.ija, i < q.nPix
  beam : ∀ p i, (q.beam p i).length = n * n

theorem fieldApply_ok (n : ℕ) (q : FileIn) (h : MapFits n q) (l : List ℝ) (hl : l.length = n * n) :
    ∃ m, fieldApply q.nPix l q.cnv = .ok m ∧ m.length = q.nPix := by
  unfold fieldApply
  have gen : ∀ (L : List HpxEntry), (∀ e ∈ L, e ∈ q.cnv) → ∀ m : List ℝ, m.length = q.nPix → ∃ m', L.foldlM (fieldStep l) m = .ok m' ∧
      m'.length = q.nPix := by
    intro L
    induction L with
    | nil => intro _ m hm; exact ⟨m, rfl, hm⟩
    | cons e L ih =>
      intro hL m hm
      have he := hL e (by simp)
      obtain ⟨v, hv⟩ : ∃ v, l[e.iUse]? = some v := ⟨_, List.getElem?_eq_getElem (by rw [hl]; exact h.image e he)⟩
      rw [List.foldlM_cons]
      have hst : fieldStep l m e = fieldAdd m v e := by
        unfold fieldStep
        rw [hv]
      rw [hst]
      simp only [bind, Except.bind]
      have : ∃ m', fieldAdd m v e = .ok m' ∧ m'.length = q.nPix := by
        unfold fieldAdd
        rw [if_pos (List.all_eq_true.2 fun i hi => by simpa [hm] using h.pixels e he i hi)]
        refine ⟨_, rfl, ?_⟩
        have len : ∀ (L' : List (ℕ × ℚ)) (u : List ℝ), (L'.foldl (fun acc ps => acc.set ps.1 (m.getD ps.1 0 + (ps.2 : ℝ) * v)) u).length =
            u.length := by
          intro L'
          induction L' with
          | nil => intro u; rfl
          | cons q L' ih => intro u; rw [List.foldl_cons, ih, List.length_set]
        rw [len, hm]
      obtain ⟨m', e1, e2⟩ := this
      rw [e1]
      exact ih (fun e' he' => hL e' (List.mem_cons_of_mem _ he')) m' e2
  exact gen q.cnv (fun _ he => he) (List.replicate q.nPix (0 : ℝ)) (List.length_replicate ..)

/-! ## Lemmas on the images -/

/-- The image of a plane: the real part of the transform of the plane times the mask of the threshold, in units of the area of a pixel. -/
theorem splitImage_value (n : ℕ) (d : ℝ) (k : ℕ) (P : Plane ℂ) :
    splitImage n d k P = (thresholdMask n 0 none).map fun mask => fun i j =>
      (uvToImage n n (fun a b => P a b * (mask a b : ℂ)) i j).re * ((d * (Real.pi / 180)) ^ 2)⁻¹ * k := by
  cases hm : thresholdMask n 0 none with
  | error e =>
    unfold splitImage dirtyImage
    simp [imgThreshold, hm, Except.map]
  | ok mask =>
    set o : ImgOpts := { uniform := fun _ => .error .typeError, degpix := some d } with ho
    have : ∃ c, dirtyImage o n n P = .ok ⟨n, n, imgFinish o (imgDegpix o ⟨n, n, fun a b => P a b * (mask a b : ℂ), fun a b => P a b * (mask a b : ℂ), true⟩),
        .none, c⟩ := by
      unfold dirtyImage
      simp [imgThreshold, hm, imgMask, imgFilter, imgPad, imgDegpix, ImgState.inplace, ho]
    obtain ⟨c, hc⟩ := this
    unfold splitImage
    rw [← ho, hc]
    show Except.ok _ = Except.ok _
    congr 1
    funext i j
    simp only []
    rw [finish_degpix o rfl rfl]
    simp only [ho, Bool.false_eq_true, if_false, Spec.pixelFactor]
    rw [← Complex.ofReal_mul, Complex.ofReal_re]

/-- The image of a plane that is multiplied by a real factor. -/
theorem splitImage_scaled (n : ℕ) (d : ℝ) (k : ℝ) (P : Plane ℂ) :
    splitImage n d 1 (fun i j => P i j * (k : ℂ)) = (splitImage n d 1 P).map fun im => fun i j => k * im i j := by
  rw [splitImage_value, splitImage_value]
  cases thresholdMask n 0 none with
  | error e => rfl
  | ok mask =>
    show Except.ok _ = Except.ok _
    congr 1
    funext i j
    have : (fun a b => P a b * (k : ℂ) * (mask a b : ℂ)) = fun a b => P a b * (mask a b : ℂ) * (k : ℂ) := by
      funext a b
      ring
    simp only []
    rw [this, uvToImage_smul n n (fun a b => P a b * (mask a b : ℂ)) (k : ℂ), Complex.re_mul_ofReal]
    ring

/-- Multiplying the image by the number of visibilities (as the code does) gives the image of the multiplied plane. -/
theorem splitImage_count (n : ℕ) (d : ℝ) (k : ℕ) (P : Plane ℂ) : splitImage n d k P = splitImage n d 1 fun i j => P i j * k := by
  have := splitImage_scaled n d k P
  rw [show (fun i j => P i j * (k : ℂ)) = fun i j => P i j * ((k : ℝ) : ℂ) by push_cast; rfl, this, splitImage_value, splitImage_value]
  cases thresholdMask n 0 none with
  | error e => rfl
  | ok mask =>
    show Except.ok _ = Except.ok _
    congr 1
    funext i j
    push_cast
    ring

/-- The list of values of the image of a plane: the real part of its Fourier sum, in units of the area of a pixel. -/
noncomputable def Spec.realImage (n : ℕ) (d : ℝ) (P : Plane ℂ) : List ℝ :=
  (List.range (n * n)).map fun k => (fourier n n P (k / n) (k % n)).re / (d * (Real.pi / 180)) ^ 2

theorem planeImage_some (n : ℕ) (hn : 0 < n) (h2 : n % 2 = 0) (q : FileIn) (ps : List (Plane ℂ)) (i : ℕ) (P : Plane ℂ) (h : ps[i]? = some P) :
    planeImage n q ps i = .ok (realImage n q.degpix P) := by
  obtain ⟨im, e1, e2⟩ := C105_image n hn h2 q.degpix 1 P
  unfold planeImage
  rw [h]
  simp only [e1]
  unfold realImage flatImage
  congr 1
  refine List.map_congr_left fun k _ => ?_
  rw [e2, show (fun a b => P a b * ((1 : ℕ) : ℂ)) = P by funext a b; rw [Nat.cast_one, mul_one]]

theorem realImage_length (n : ℕ) (d : ℝ) (P : Plane ℂ) : (realImage n d P).length = n * n := by
  simp [realImage]

/-! ## Lemmas on the cubes -/

theorem fileCube_congr (nf : ℕ) (q : FileIn) (f g : ℕ → Py (List ℝ)) (h : ∀ i < nf, f i = g i) : fileCube nf q f = fileCube nf q g := by
  unfold fileCube
  have gen : ∀ l : List ℕ, (∀ i ∈ l, i < nf) → (l.mapM fun i => mapRow q (f i)) =
      l.mapM fun i => mapRow q (g i) := by
    intro l
    induction l with
    | nil => intro _; rfl
    | cons a l ih =>
      intro hl
      rw [List.mapM_cons, List.mapM_cons, h a (hl a (by simp)), ih fun i hi => hl i (List.mem_cons_of_mem _ hi)]
  exact gen _ fun i hi => List.mem_range.1 hi

/-- A cube that is made exists and has its images mapped. -/
theorem fileCube_ok (n nf : ℕ) (q : FileIn) (h : MapFits n q) (f : ℕ → Py (List ℝ)) (im : ℕ → List ℝ) (hf : ∀ i < nf, f i = .ok (im i))
    (hl : ∀ i < nf, (im i).length = n * n) :
    ∃ c, fileCube nf q f = .ok c ∧ c.length = nf ∧ (∀ i < nf, ∃ m, c[i]? = some m ∧ fieldApply q.nPix (im i) q.cnv = .ok m) ∧
      ∀ m ∈ c, m.length = q.nPix := by
  have ex : ∀ (l : List ℕ), (∀ i ∈ l, i < nf) → ∃ c, (l.mapM fun i => mapRow q (f i)) = .ok c := by
    intro l
    induction l with
    | nil => intro _; exact ⟨[], rfl⟩
    | cons a l ih =>
      intro hL
      obtain ⟨c, hc⟩ := ih fun i hi => hL i (List.mem_cons_of_mem _ hi)
      have ha := hL a (by simp)
      obtain ⟨m, hm, -⟩ := fieldApply_ok n q h (im a) (hl a ha)
      refine ⟨m :: c, ?_⟩
      rw [List.mapM_cons, hf a ha]
      have hr : mapRow q (.ok (im a)) = .ok m := hm
      simp only [hr, bind, Except.bind, hc, pure, Except.pure]
  obtain ⟨c, hc⟩ := ex (List.range nf) fun i hi => List.mem_range.1 hi
  obtain ⟨c1, c2⟩ := mapM_all_inv _ _ _ hc
  have key : ∀ i < nf, ∃ m, c[i]? = some m ∧ fieldApply q.nPix (im i) q.cnv = .ok m := by
    intro i hi
    obtain ⟨m, e1, e2⟩ := c2 i i (List.getElem?_range hi)
    rw [hf i hi] at e2
    exact ⟨m, e1, e2⟩
  rw [List.length_range] at c1
  refine ⟨c, hc, c1, key, fun m hm => ?_⟩
  obtain ⟨i, hi, rfl⟩ := List.mem_iff_getElem.1 hm
  rw [c1] at hi
  obtain ⟨m, e1, e2⟩ := key i hi
  obtain ⟨m', e3, e4⟩ := fieldApply_ok n q h (im i) (hl i hi)
  rw [e2] at e3
  rw [List.getElem?_eq_getElem (c1 ▸ hi)] at e1
  rw [Option.some.inj e1, Except.ok.inj e3, e4]

/-- A cube of multiplied images. -/
theorem fileCube_scaled (nf : ℕ) (q : FileIn) (k : ℝ) (f g : ℕ → Py (List ℝ)) (h : ∀ i < nf, g i = (f i).map (List.map (k * ·))) :
    fileCube nf q g = (fileCube nf q f).map (List.map (List.map (k * ·))) := by
  unfold fileCube
  have gen : ∀ l : List ℕ, (∀ i ∈ l, i < nf) → (l.mapM fun i => mapRow q (g i)) =
      Except.map (List.map (List.map (k * ·))) (l.mapM fun i => mapRow q (f i)) := by
    intro l
    induction l with
    | nil => intro _; rfl
    | cons a l ih =>
      intro hl
      rw [List.mapM_cons, List.mapM_cons, h a (hl a (by simp)), ih fun i hi => hl i (List.mem_cons_of_mem _ hi)]
      have hrow : mapRow q ((f a).map (List.map (k * ·))) = (mapRow q (f a)).map (List.map (k * ·)) := by
        cases f a with
        | error e => rfl
        | ok im => exact fieldApply_map _ (Goes.scale k) q.nPix im q.cnv
      rw [hrow]
      cases mapRow q (f a) with
      | error e => rfl
      | ok m =>
        cases l.mapM fun i => mapRow q (f i) with
        | error e => rfl
        | ok c => rfl
  exact gen _ fun i hi => List.mem_range.1 hi

/-! ## C308 -/

/-- What the file of polarisation `p` holds, for planes `P i` of the averaged channels `i < nf` with `n i` visibilities: the maps of their images,
and that of the squared beam times the number of visibilities. -/
structure Spec.HoldsMaps (n nf : ℕ) (q : FileIn) (p : ℕ) (P : ℕ → SplitPlanes ℂ) (cnt : ℕ → ℝ) (f : RunFile) : Prop where
  rows : f.beamSquared.length = nf ∧ f.weights.length = nf ∧ f.variance.length = nf ∧ f.model.length = nf ∧ f.dirty.length = nf
  beam : ∀ i < nf, ∃ m, f.beamSquared[i]? = some m ∧ fieldApply q.nPix ((q.beam p i).map (· * cnt i)) q.cnv = .ok m
  weights : ∀ i < nf, ∃ m, f.weights[i]? = some m ∧ fieldApply q.nPix (realImage n q.degpix (P i).weights) q.cnv = .ok m
  variance : ∀ i < nf, ∃ m, f.variance[i]? = some m ∧ fieldApply q.nPix (realImage n q.degpix (P i).variance) q.cnv = .ok m
  model : ∀ i < nf, ∃ m, f.model[i]? = some m ∧ fieldApply q.nPix (realImage n q.degpix (P i).model) q.cnv = .ok m
  dirty : ∀ i < nf, ∃ m, f.dirty[i]? = some m ∧ fieldApply q.nPix (realImage n q.degpix (P i).dirty) q.cnv = .ok m

theorem exportFile_ok (n nFreq nAvg : ℕ) (q : FileIn) (h : MapFits n q) (p : ℕ) (st : SplitState ℂ) (hp : expNfUse nFreq nAvg ≤ st.planes.length) :
    ∃ f, exportFile n nFreq nAvg q p st = .ok f ∧
      HoldsMaps n (expNfUse nFreq nAvg) q p (fun i => st.planes.getD i zeroPlanes) (fun i => ((st.counts nFreq nAvg i : ℚ) : ℝ)) f := by
  have pl : ∀ (F : SplitPlanes ℂ → Plane ℂ), ∀ i < expNfUse nFreq nAvg, planeImage n q (st.planes.map F) i =
      .ok (realImage n q.degpix (F (st.planes.getD i zeroPlanes))) := by
    intro F i hi
    refine planeImage_some _ h.rows.1 h.rows.2 _ _ _ _ ?_
    rw [List.getElem?_map, List.getD_eq_getElem?_getD, List.getElem?_eq_getElem (by omega)]
    rfl
  have cube : ∀ (F : SplitPlanes ℂ → Plane ℂ), ∃ c, fileCube (expNfUse nFreq nAvg) q (planeImage n q (st.planes.map F)) = .ok c ∧
      c.length = expNfUse nFreq nAvg ∧ ∀ i < expNfUse nFreq nAvg, ∃ m, c[i]? = some m ∧
        fieldApply q.nPix (realImage n q.degpix (F (st.planes.getD i zeroPlanes))) q.cnv = .ok m := by
    intro F
    obtain ⟨c, c1, c2, c3, -⟩ := fileCube_ok n _ q h _ _ (pl F) fun i _ => realImage_length _ _ _
    exact ⟨c, c1, c2, c3⟩
  obtain ⟨b, b1, b2, b3, -⟩ := fileCube_ok n (expNfUse nFreq nAvg) q h
    (fun i => .ok ((q.beam p i).map (· * ((st.counts nFreq nAvg i : ℚ) : ℝ)))) _ (fun _ _ => rfl) fun i _ => by rw [List.length_map, h.beam]
  obtain ⟨w, w1, w2, w3⟩ := cube fun P => P.weights
  obtain ⟨v, v1, v2, v3⟩ := cube fun P => P.variance
  obtain ⟨m, m1, m2, m3⟩ := cube fun P => P.model
  obtain ⟨d, d1, d2, d3⟩ := cube fun P => P.dirty
  refine ⟨⟨b, w, v, m, d⟩, ?_, ⟨⟨b2, w2, v2, m2, d2⟩, b3, w3, v3, m3, d3⟩⟩
  unfold exportFile
  simp only [bind, Except.bind, b1, w1, v1, m1, d1]

theorem mapM_ok_of {α β : Type} (F : α → Py β) (Q : α → β → Prop) : ∀ l : List α, (∀ a ∈ l, ∃ b, F a = .ok b ∧ Q a b) →
    ∃ r, l.mapM F = .ok r ∧ List.Forall₂ Q l r := by
  intro l
  induction l with
  | nil => intro _; exact ⟨[], rfl, .nil⟩
  | cons a l ih =>
    intro h
    obtain ⟨b, b1, b2⟩ := h a (by simp)
    obtain ⟨r, r1, r2⟩ := ih fun a' ha' => h a' (List.mem_cons_of_mem _ ha')
    refine ⟨b :: r, ?_, .cons b2 r2⟩
    rw [List.mapM_cons, b1]
    simp only [bind, Except.bind, r1, pure, Except.pure]

theorem expNfUse_le (nFreq nAvg : ℕ) : expNfUse nFreq nAvg ≤ expNf nFreq nAvg := by
  rw [expNfUse_eq]
  by_cases hf : 0 < nFreq
  · rw [expNf_eq _ _ hf]
    by_cases ha : nAvg = 0
    · subst ha; simp
    · calc nFreq / nAvg ≤ (nFreq - 1 + nAvg) / nAvg := Nat.div_le_div_right (by omega)
        _ = (nFreq - 1) / nAvg + 1 := Nat.add_div_right _ (by omega)
  · have : nFreq = 0 := by omega
    subst this
    simp

/-- The files hold the maps, with the counts as the code computes them. -/
theorem runFiles_hold (x : RunIn) (h : RunFits x) (R : RunOut) (e : ExportIn) (he : ExportFits x e) (hgr : ExportGrids x e) (q : FileIn)
    (hq : MapFits e.dim q) (nf : ℕ → ℕ) :
    ∃ out files, exportRun x e R nf = .ok out ∧ runFiles x e q R nf = .ok files ∧ files.length = 2 * x.obs.nPol ∧
      ∀ k < 2 * x.obs.nPol, ∃ st f, out[k]? = some st ∧ files[k]? = some f ∧
        HoldsMaps e.dim (expNfUse x.obs.nFreq e.nAvg) q (k % x.obs.nPol) (fun i => st.planes.getD i zeroPlanes)
          (fun i => ((st.counts x.obs.nFreq e.nAvg i : ℚ) : ℝ)) f := by
  obtain ⟨out, o1, o2, o3⟩ := C301_exports x h R e he hgr nf
  obtain ⟨files, f1, f2⟩ := mapM_ok_of (fun ps : ℕ × SplitState ℂ => exportFile e.dim x.obs.nFreq e.nAvg q ps.1 ps.2)
    (fun ps f => HoldsMaps e.dim (expNfUse x.obs.nFreq e.nAvg) q ps.1 (fun i => ps.2.planes.getD i zeroPlanes)
      (fun i => ((ps.2.counts x.obs.nFreq e.nAvg i : ℚ) : ℝ)) f) ((List.range x.obs.nPol ++ List.range x.obs.nPol).zip out) (by
    rintro ⟨p, st⟩ hps
    refine exportFile_ok _ _ _ q hq p st ?_
    rw [o3 st (List.of_mem_zip hps).2]
    exact expNfUse_le _ _)
  have hzl : ((List.range x.obs.nPol ++ List.range x.obs.nPol).zip out).length = 2 * x.obs.nPol := by
    rw [List.length_zip, List.length_append, List.length_range, o2]
    omega
  refine ⟨out, files, o1, ?_, by rw [← f2.length_eq, hzl], fun k hk => ?_⟩
  · unfold runFiles
    simp only [bind, Except.bind, o1]
    exact f1
  · have hk1 : k < ((List.range x.obs.nPol ++ List.range x.obs.nPol).zip out).length := by rw [hzl]; exact hk
    have hk2 : k < files.length := by rw [← f2.length_eq, hzl]; exact hk
    have hk3 : k < out.length := by rw [o2]; exact hk
    have key := (List.forall₂_iff_get.1 f2).2 k hk1 hk2
    refine ⟨out[k], files[k], List.getElem?_eq_getElem hk3, List.getElem?_eq_getElem hk2, ?_⟩
    simp only [List.get_eq_getElem, List.getElem_zip] at key
    have hp : (List.range x.obs.nPol ++ List.range x.obs.nPol)[k]'(by simp; omega) = k % x.obs.nPol := by
      rw [List.getElem_append]
      split_ifs with hlt
      · rw [List.length_range] at hlt
        rw [List.getElem_range, Nat.mod_eq_of_lt hlt]
      · rw [List.length_range] at hlt
        rw [List.getElem_range, List.length_range, Nat.mod_eq_sub_mod (by omega), Nat.mod_eq_of_lt (by omega)]
    rw [hp] at key
    exact key

/-- The number of visibilities of an averaged channel is the sum over its channels. -/
theorem counts_sum (st : SplitState ℂ) (nFreq nAvg i : ℕ) (hi : i < nFreq / nAvg) :
    ((st.counts nFreq nAvg i : ℚ) : ℝ) = ∑ k ∈ Finset.range nAvg, (st.nfVis (i * nAvg + k) : ℝ) := by
  unfold SplitState.counts
  rw [List.getD_eq_getElem?_getD, C56_nf_vis_sum nFreq nAvg _ (by simp) i hi, Option.getD_some, Rat.cast_sum]
  refine Finset.sum_congr rfl fun k hk => ?_
  have hk := Finset.mem_range.1 hk
  have hlt : i * nAvg + k < nFreq := by
    calc i * nAvg + k < (i + 1) * nAvg := by rw [Nat.add_mul, Nat.one_mul]; omega
      _ ≤ nFreq / nAvg * nAvg := Nat.mul_le_mul_right _ (by omega)
      _ ≤ nFreq := Nat.div_mul_le_self _ _
  rw [List.getD_eq_getElem?_getD, List.getElem?_map, List.getElem?_range hlt]
  simp

/-- **C308.** The export after a run writes one file per half and polarisation, the polarisations of the even samples first, and each file holds, for
every averaged channel, the maps of the images of the planes of its own half and polarisation, and that of the squared beam times the number
of visibilities of its channels. -/
theorem C308_files (x : RunIn) (h : RunFits x) (R : RunOut) (e : ExportIn) (he : ExportFits x e) (hgr : ExportGrids x e) (q : FileIn)
    (hq : MapFits e.dim q) (nf : ℕ → ℕ) :
    ∃ out files, exportRun x e R nf = .ok out ∧ runFiles x e q R nf = .ok files ∧ files.length = 2 * x.obs.nPol ∧
      ∀ k < 2 * x.obs.nPol, ∃ st f, out[k]? = some st ∧ files[k]? = some f ∧
        HoldsMaps e.dim (x.obs.nFreq / e.nAvg) q (k % x.obs.nPol) (fun i => st.planes.getD i zeroPlanes)
          (fun i => ∑ c ∈ Finset.range e.nAvg, (st.nfVis (i * e.nAvg + c) : ℝ)) f := by
  obtain ⟨out, files, a1, a2, a3, a4⟩ := runFiles_hold x h R e he hgr q hq nf
  refine ⟨out, files, a1, a2, a3, fun k hk => ?_⟩
  obtain ⟨st, f, b1, b2, b3⟩ := a4 k hk
  rw [expNfUse_eq] at b3
  exact ⟨st, f, b1, b2, b3.rows, fun i hi => by rw [← counts_sum st _ _ i hi]; exact b3.beam i hi, b3.weights, b3.variance, b3.model, b3.dirty⟩

theorem exportFile_equal (n nFreq nAvg : ℕ) (q : FileIn) (p : ℕ) (st : SplitState ℂ) (h : ∀ P ∈ st.planes, P.dirty = P.model) (f : RunFile)
    (hf : exportFile n nFreq nAvg q p st = .ok f) : f.dirty = f.model := by
  unfold exportFile at hf
  simp only [bind, Except.bind] at hf
  rw [show (st.planes.map fun P => P.dirty) = st.planes.map fun P => P.model from List.map_congr_left h] at hf
  split at hf <;> try cases hf
  split at hf <;> try cases hf
  split at hf <;> try cases hf
  split at hf <;> try cases hf
  rfl

/-- **C308**, exact gains: if gains exist that explain the data exactly (and that the fits can represent), then in every file that is written after the
run the cube of the data is that of the model. -/
theorem C308_exact (x : RunIn) (h : RunFits x) (g : Gains)
    (hg : ∀ w, visWeightsUpdate x.obs x.uv x.weights = .ok w → ExactSetup x w.weights g)
    (hdata : ∀ p < x.obs.nPol, ∀ s < x.cal.run.nBl * x.cal.run.nTime, ∀ f, UsedSample x p f s →
      x.vis p f s = g p f (x.cal.run.tileA s) * star (g p f (x.cal.run.tileB s)) * x.model p f s)
    (R : RunOut) (hR : imagingRun x = .ok R) (e : ExportIn) (he : ExportFits x e) (q : FileIn) (nf : ℕ → ℕ) (files : List RunFile)
    (hfiles : runFiles x e q R nf = .ok files) : ∀ f ∈ files, f.dirty = f.model := by
  unfold runFiles at hfiles
  simp only [bind, Except.bind] at hfiles
  cases ho : exportRun x e R nf with
  | error er => rw [ho] at hfiles; cases hfiles
  | ok out =>
    rw [ho] at hfiles
    simp only [] at hfiles
    intro f hf
    have hplanes := C301_exact x h g hg hdata R hR e he nf out ho
    obtain ⟨l1, l2⟩ := mapM_all_inv _ _ _ hfiles
    obtain ⟨k, hk, rfl⟩ := List.mem_iff_getElem.1 hf
    have hk' := hk
    rw [l1] at hk'
    obtain ⟨y, y1, y2⟩ := l2 k _ (List.getElem?_eq_getElem hk')
    rw [List.getElem?_eq_getElem hk] at y1
    rw [Option.some.inj y1]
    exact exportFile_equal _ _ _ q _ _ (hplanes _ (List.of_mem_zip (List.getElem_mem hk')).2) y y2

/-! ## C309 -/

/-- **C309**, flagged samples: other data and models at samples that are not in use give the same files. -/
theorem C309_flagged (x : RunIn) (h : RunFits x) (v m : ℕ → ℕ → ℕ → ℂ)
    (hvm : ∀ p < x.obs.nPol, ∀ f b, b < x.obs.nBl → UsedSample x p f b → v p f b = x.vis p f b ∧ m p f b = x.model p f b)
    (R : RunOut) (hR : imagingRun x = .ok R) :
    ∃ R', imagingRun (withSky x v m) = .ok R' ∧ ∀ (e : ExportIn) (_ : ExportFits x e) (q : FileIn) (im : ℕ → ℕ → ℕ → ℚ) (nf : ℕ → ℕ),
      runFiles (withSky x v m) { e with im := im } q R' nf = runFiles x e q R nf := by
  obtain ⟨R', hR', -, key⟩ := C302_flagged x h v m hvm R hR
  refine ⟨R', hR', fun e he q im nf => ?_⟩
  unfold runFiles
  rw [key e he im nf]
  rfl

/-- **C309**, numbers of tiles: with tiles numbered in another way, the tile of reference the same, the files are the same. -/
theorem C309_numbers (π : Equiv.Perm ℕ) (x x' : RunIn) (h : RunFits x) (hx : RenamedRun π x x') (hπ : ∀ t, π t < x.obs.nTile ↔ t < x.obs.nTile)
    (hsame : SameBaselines x.cal.run)
    (href : x.cal.run.noRef = false → ∀ w, visWeightsUpdate x.obs x.uv x.weights = .ok w → ∀ p < x.obs.nPol,
      refTile ((renumbered (x.calIn w.weights).run π).tiles p) = π (refTile ((x.calIn w.weights).run.tiles p)))
    (R : RunOut) (hR : imagingRun x = .ok R) :
    ∃ R', imagingRun x' = .ok R' ∧ ∀ (e : ExportIn) (_ : ExportFits x e) (q : FileIn) (nf : ℕ → ℕ),
      runFiles x' e q R' nf = runFiles x e q R nf := by
  obtain ⟨R', hR', -, key⟩ := C304_numbers π x x' h hx hπ hsame href R hR
  refine ⟨R', hR', fun e he q nf => ?_⟩
  have h1 : x'.obs.nPol = x.obs.nPol := by rw [hx.obs]; rfl
  have h2 : x'.obs.nFreq = x.obs.nFreq := by rw [hx.obs]; rfl
  unfold runFiles
  rw [key e he nf, h1, h2]

/-- **C309**, direction: with some samples taken in the other direction the files are the same. -/
theorem C309_direction (x : RunIn) (h : RunFits x) (rev : ℕ → Bool) (ht : Turnable x rev) (R : RunOut) (hR : imagingRun x = .ok R) :
    ∃ R', imagingRun (turnedRun x rev) = .ok R' ∧ ∀ (e : ExportIn) (_ : ExportFits x e) (_ : 0 < e.kbin) (_ : e.mask = false) (q : FileIn)
      (im : ℕ → ℕ → ℕ → ℚ) (nf : ℕ → ℕ), runFiles (turnedRun x rev) { e with im := im } q R' nf = runFiles x e q R nf := by
  obtain ⟨R', hR', key⟩ := C307_direction x h rev ht R hR
  refine ⟨R', hR', fun e he hk hm q im nf => ?_⟩
  unfold runFiles
  rw [key e he hk hm im nf]
  rfl

/-! ## C310 -/

/-- The file in other units: data and model are multiplied, the rest is the same. -/
def Spec.FileInUnits (k : ℝ) (f f' : RunFile) : Prop :=
  f'.dirty = f.dirty.map (List.map (k * ·)) ∧ f'.model = f.model.map (List.map (k * ·)) ∧ f'.weights = f.weights ∧ f'.variance = f.variance ∧
    f'.beamSquared = f.beamSquared

theorem planeImage_scaled (n : ℕ) (q : FileIn) (k : ℝ) (F : SplitPlanes ℂ → Plane ℂ) (ps ps' : List (SplitPlanes ℂ))
    (h : List.Forall₂ (fun P P' => ∀ y x, F P' y x = k * F P y x) ps ps') (i : ℕ) :
    planeImage n q (ps'.map F) i = (planeImage n q (ps.map F) i).map (List.map (k * ·)) := by
  unfold planeImage
  rw [List.getElem?_map, List.getElem?_map]
  by_cases hi : i < ps.length
  · have hi' : i < ps'.length := by rw [← h.length_eq]; exact hi
    have hs := (List.forall₂_iff_get.1 h).2 i hi hi'
    simp only [List.get_eq_getElem] at hs
    rw [List.getElem?_eq_getElem hi, List.getElem?_eq_getElem hi']
    simp only [Option.map_some]
    rw [show F ps'[i] = fun a b => F ps[i] a b * (k : ℂ) by funext a b; rw [hs, mul_comm], splitImage_scaled]
    cases splitImage n q.degpix 1 (F ps[i]) with
    | error e => rfl
    | ok im =>
      simp only [Except.map]
      congr 1
      unfold flatImage
      rw [List.map_map]
      rfl
  · have hi' : ¬i < ps'.length := by rw [← h.length_eq]; exact hi
    rw [List.getElem?_eq_none (by omega), List.getElem?_eq_none (by omega)]
    rfl

theorem exportFile_scaled (n nFreq nAvg : ℕ) (q : FileIn) (p : ℕ) (k : ℝ) (st st' : SplitState ℂ) (h : ExportScaled k st st') (f : RunFile)
    (hf : exportFile n nFreq nAvg q p st = .ok f) : ∃ f', exportFile n nFreq nAvg q p st' = .ok f' ∧ FileInUnits k f f' := by
  obtain ⟨hp, -, hn⟩ := h
  have hw : (st'.planes.map fun P => P.weights) = st.planes.map fun P => P.weights := by
    generalize st.planes = a at hp
    generalize st'.planes = b at hp
    induction hp with
    | nil => rfl
    | cons h _ ih => rw [List.map_cons, List.map_cons, ih, h.2.2.1]
  have hv : (st'.planes.map fun P => P.variance) = st.planes.map fun P => P.variance := by
    generalize st.planes = a at hp
    generalize st'.planes = b at hp
    induction hp with
    | nil => rfl
    | cons h _ ih => rw [List.map_cons, List.map_cons, ih, h.2.2.2]
  have hc : st'.counts nFreq nAvg = st.counts nFreq nAvg := by
    unfold SplitState.counts
    rw [hn]
  have hm := fileCube_scaled (expNfUse nFreq nAvg) q k _ _ fun i _ =>
    planeImage_scaled n q k (fun P => P.model) st.planes st'.planes (hp.imp fun _ _ h => h.2.1) i
  have hd := fileCube_scaled (expNfUse nFreq nAvg) q k _ _ fun i _ =>
    planeImage_scaled n q k (fun P => P.dirty) st.planes st'.planes (hp.imp fun _ _ h => h.1) i
  unfold exportFile at hf ⊢
  simp only [bind, Except.bind] at hf ⊢
  rw [hw, hv, hc, hm, hd]
  generalize fileCube (expNfUse nFreq nAvg) q (fun i => .ok ((q.beam p i).map (· * ((st.counts nFreq nAvg i : ℚ) : ℝ)))) = B at hf ⊢
  generalize fileCube (expNfUse nFreq nAvg) q (planeImage n q (st.planes.map fun P => P.weights)) = W at hf ⊢
  generalize fileCube (expNfUse nFreq nAvg) q (planeImage n q (st.planes.map fun P => P.variance)) = V at hf ⊢
  generalize fileCube (expNfUse nFreq nAvg) q (planeImage n q (st.planes.map fun P => P.model)) = M at hf ⊢
  generalize fileCube (expNfUse nFreq nAvg) q (planeImage n q (st.planes.map fun P => P.dirty)) = D at hf ⊢
  cases B with
  | error e => cases hf
  | ok B =>
    cases W with
    | error e => cases hf
    | ok W =>
      cases V with
      | error e => cases hf
      | ok V =>
        cases M with
        | error e => cases hf
        | ok M =>
          cases D with
          | error e => cases hf
          | ok D =>
            rw [← Except.ok.inj hf]
            exact ⟨_, rfl, rfl, rfl, rfl, rfl, rfl⟩

/-- **C310.** In other units of flux the files that are written after a run hold cubes of data and model multiplied by the factor, and the same cubes of
weights, variances and squared beams. -/
theorem C310_units (x : RunIn) (h : RunFits x) (hi : ImagesFit x) (hres : ∀ p, 0 < (x.grid p).res) (k : ℝ) (hk : k ≠ 0) (R : RunOut)
    (hR : imagingRun x = .ok R) :
    ∃ R', imagingRun (withSky x (fun p f b => k * x.vis p f b) fun p f b => k * x.model p f b) = .ok R' ∧
      ∀ (e : ExportIn) (_ : ExportFits x e) (_ : 0 < e.res) (q : FileIn) (im : ℕ → ℕ → ℕ → ℚ) (nf : ℕ → ℕ) (files : List RunFile),
        runFiles x e q R nf = .ok files → ∃ files',
          runFiles (withSky x (fun p f b => k * x.vis p f b) fun p f b => k * x.model p f b) { e with im := im } q R' nf = .ok files' ∧
          List.Forall₂ (FileInUnits k) files files' := by
  obtain ⟨R', hR', key⟩ := C303_units x h hi hres k hk R hR
  refine ⟨R', hR', fun e he hr q im nf files hf => ?_⟩
  unfold runFiles at hf ⊢
  simp only [bind, Except.bind] at hf ⊢
  cases ho : exportRun x e R nf with
  | error er => rw [ho] at hf; cases hf
  | ok out =>
    rw [ho] at hf
    obtain ⟨out', o1, o2⟩ := key e he hr im nf out ho
    rw [o1]
    simp only [] at hf ⊢
    change ∃ files', ((List.range x.obs.nPol ++ List.range x.obs.nPol).zip out').mapM _ = _ ∧ _
    generalize List.range x.obs.nPol ++ List.range x.obs.nPol = pols at hf ⊢
    clear ho o1
    induction o2 generalizing pols files with
    | nil =>
      rw [List.zip_nil_right] at hf ⊢
      refine ⟨[], rfl, ?_⟩
      rw [← Except.ok.inj hf]
      exact .nil
    | @cons st st' l l' hst _ ih =>
      cases pols with
      | nil =>
        refine ⟨[], rfl, ?_⟩
        rw [← Except.ok.inj hf]
        exact .nil
      | cons p pols =>
        rw [List.zip_cons_cons, List.mapM_cons] at hf ⊢
        simp only [bind, Except.bind, pure, Except.pure] at hf ⊢
        cases hf1 : exportFile e.dim x.obs.nFreq e.nAvg q p st with
        | error er => rw [hf1] at hf; cases hf
        | ok f =>
          rw [hf1] at hf
          obtain ⟨f', f1, f2⟩ := exportFile_scaled _ _ _ q p k st st' hst f hf1
          have f1' : exportFile e.dim (withSky x (fun p f b => k * x.vis p f b) fun p f b => k * x.model p f b).obs.nFreq e.nAvg q p st' = .ok f' := f1
          rw [f1']
          simp only [] at hf ⊢
          cases hr2 : (pols.zip l).mapM (fun ps : ℕ × SplitState ℂ => exportFile e.dim x.obs.nFreq e.nAvg q ps.1 ps.2) with
          | error er => rw [hr2] at hf; cases hf
          | ok fs =>
            rw [hr2] at hf
            obtain ⟨fs', g1, g2⟩ := ih fs pols hr2
            rw [g1]
            refine ⟨_, rfl, ?_⟩
            rw [← Except.ok.inj hf]
            exact .cons f2 g2

/-! ## Examples -/

/-- A map with one pixel of the sky, half of each of two pixels of the image, and beams of ones. -/
noncomputable def exFileIn : FileIn where
  degpix := 1
  cnv := [⟨3, [0], [1/2]⟩, ⟨4, [0], [1/2]⟩]
  nPix := 1
  beam := fun _ _ => List.replicate (24 * 24) 1

theorem exFileIn_fits : MapFits 24 exFileIn where
  rows := ⟨by norm_num, by norm_num⟩
  image := by
    intro e he
    simp only [exFileIn, List.mem_cons, List.not_mem_nil, or_false] at he
    rcases he with rfl | rfl <;> norm_num
  pixels := by
    intro e he i hi
    simp only [exFileIn, List.mem_cons, List.not_mem_nil, or_false] at he
    rcases he with rfl | rfl <;> · simp only [List.mem_cons, List.not_mem_nil, or_false] at hi; subst hi; exact Nat.one_pos
  beam := fun _ _ => List.length_replicate ..

/-- The hypotheses of C308 and C310 are met: there are four files, with the model as data; in twice the unit they hold twice the values. -/
example : ∃ fit R R' files files', imagingRun (exWholeRun fit) = .ok R ∧ runFiles (exWholeRun fit) (exExportRun fit) exFileIn R (fun _ => 0) = .ok files ∧
    files.length = 4 ∧ (∀ f ∈ files, f.dirty = f.model) ∧
    imagingRun (withSky (exWholeRun fit) (fun p f b => (2 : ℝ) * (exWholeRun fit).vis p f b) fun p f b => (2 : ℝ) * (exWholeRun fit).model p f b) = .ok R' ∧
    runFiles (withSky (exWholeRun fit) (fun p f b => (2 : ℝ) * (exWholeRun fit).vis p f b) fun p f b => (2 : ℝ) * (exWholeRun fit).model p f b)
      (exExportRun fit) exFileIn R' (fun _ => 0) = .ok files' ∧ List.Forall₂ (FileInUnits 2) files files' := by
  obtain ⟨fit, hfit⟩ := exists_leastSquaresFit
  obtain ⟨R, hR⟩ := exWholeRun_ok fit hfit
  obtain ⟨out, files, -, h2, h3, -⟩ := C308_files _ (exWholeRun_fits fit) R _ (exExportRun_fits fit) (exExportRun_grids fit) exFileIn exFileIn_fits fun _ => 0
  obtain ⟨R', a1, a2⟩ := C310_units _ (exWholeRun_fits fit) (exWholeRun_images fit) (fun p => by norm_num [exWholeRun, exGrid]) 2 two_ne_zero R hR
  obtain ⟨files', b1, b2⟩ := a2 _ (exExportRun_fits fit) (Nat.succ_pos 2) exFileIn (exExportRun fit).im _ files h2
  refine ⟨fit, R, R', files, files', hR, h2, h3, ?_, a1, b1, b2⟩
  exact C308_exact _ (exWholeRun_fits fit) (fun _ _ _ => ((2 : ℝ) : ℂ)) (fun w hw => by
      obtain ⟨w', b1, b2⟩ := exWholeRun_weights
      have : w = w' := by
        have hw' : visWeightsUpdate exAfter exAfterUv (fun _ _ _ => 1) = .ok w := hw
        rw [b1] at hw'
        exact (Except.ok.inj hw').symm
      subst this
      exact exWholeRun_exact fit hfit w.weights b2)
      (fun p _ s _ f _ => by
        show (4 : ℂ) * ((p + f + s + 1 : ℕ) : ℂ) = ((2 : ℝ) : ℂ) * star ((2 : ℝ) : ℂ) * ((p + f + s + 1 : ℕ) : ℂ)
        rw [Complex.star_def, Complex.conj_ofReal]
        norm_num) R hR _ (exExportRun_fits fit) exFileIn _ files h2

/-- The hypotheses of C309 are met: with the second baseline turned round the four files are the same. -/
example : ∃ fit R R' files, imagingRun (exWholeRun fit) = .ok R ∧ imagingRun (turnedRun (exWholeRun fit) fun s => s % 2 == 1) = .ok R' ∧
    runFiles (exWholeRun fit) (exExportRun fit) exFileIn R (fun _ => 0) = .ok files ∧
    runFiles (turnedRun (exWholeRun fit) fun s => s % 2 == 1) (exExportRun fit) exFileIn R' (fun _ => 0) = .ok files ∧ files.length = 4 := by
  obtain ⟨fit, hfit⟩ := exists_leastSquaresFit
  obtain ⟨R, hR⟩ := exWholeRun_ok fit hfit
  obtain ⟨out, files, -, h2, h3, -⟩ := C308_files _ (exWholeRun_fits fit) R _ (exExportRun_fits fit) (exExportRun_grids fit) exFileIn exFileIn_fits fun _ => 0
  obtain ⟨R', a1, a2⟩ := C309_direction (exWholeRun fit) (exWholeRun_fits fit) _ (exWholeRun_turnable fit) R hR
  exact ⟨fit, R, R', files, hR, a1, h2, (a2 _ (exExportRun_fits fit) (by norm_num [exExportRun]) rfl exFileIn (exExportRun fit).im _).trans h2, h3⟩

end PyFHD
