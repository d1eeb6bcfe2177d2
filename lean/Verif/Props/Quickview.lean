import Verif.Model.Quickview
import Verif.Props.ImagingOpts
import Verif.Props.Regions

/-!
# C100-C104: the exported images
-/

namespace PyFHD

open Complex

/-! ## One image -/

theorem mapM_range_ok {β : Type _} (f : ℕ → Py β) : ∀ (l : List ℕ) (r : List β),
    l.mapM f = .ok r → r.length = l.length ∧ ∀ i (hi : i < l.length), ∃ b, r[i]? = some b ∧ f l[i] = .ok b := by
  intro l
  induction l with
  | nil =>
    intro r h
    injection h with h
    rw [← h]
    exact ⟨rfl, fun i hi => absurd hi (by simp)⟩
  | cons a l ih =>
    intro r h
    rw [List.mapM_cons] at h
    simp only [bind, Except.bind, pure, Except.pure] at h
    split at h
    · simp at h
    · next b hb =>
      split at h
      · simp at h
      · next t ht =>
        injection h with h
        obtain ⟨h1, h2⟩ := ih t ht
        rw [← h]
        refine ⟨by simp [h1], fun i hi => ?_⟩
        cases i with
        | zero => exact ⟨b, by simp, by simpa using hb⟩
        | succ i =>
          obtain ⟨c, hc1, hc2⟩ := h2 i (by simpa using hi)
          exact ⟨c, by simpa using hc1, by simpa using hc2⟩

theorem finish_re (o : ImgOpts) (hn : o.norm = none) (s : ImgState) (k l : ℕ) :
    (imgFinish o (imgDegpix o s) k l).re =
      (uvToImage s.rows s.cols s.use k l).re * Spec.pixelFactor o.degpix *
        (match o.beam with | none => 1 | some b => b k l) := by
  have h := finish_degpix { o with beam := none } rfl hn s k l
  have h1 : imgFinish o (imgDegpix o s) k l
      = imgFinish { o with beam := none } (imgDegpix { o with beam := none } s) k l *
        (match o.beam with | none => 1 | some b => ((b k l : ℝ) : ℂ)) := by
    unfold imgFinish imgDegpix
    cases o.beam <;> simp only [hn, mul_one]
  rw [h1, h]
  simp only []
  have h2 : (match o.beam with | none => (1 : ℂ) | some b => ((b k l : ℝ) : ℂ))
      = (((match o.beam with | none => 1 | some b => b k l) : ℝ) : ℂ) := by
    cases o.beam <;> simp
  rw [h2, Complex.re_mul_ofReal, Complex.re_mul_ofReal]
  split_ifs <;> simp

theorem fourier_congr (n m : ℕ) (f g : Plane ℂ) (h : ∀ a < n, ∀ b < m, f a b = g a b) (k l : ℕ) :
    Spec.fourier n m f k l = Spec.fourier n m g k l := by
  unfold Spec.fourier
  congr 1
  apply Finset.sum_congr rfl
  intro a ha
  apply Finset.sum_congr rfl
  intro b hb
  rw [h a (Finset.mem_range.1 ha) b (Finset.mem_range.1 hb)]

/-- An image of `quickview`, without padding: the filtered plane is transformed; and what becomes of the plane. -/
theorem qv_image (o : ImgOpts) (n : ℕ) (hn : 0 < n) (hn2 : n % 2 = 0) (ht : o.threshold = some 0)
    (hw : o.width = none) (hm : o.mask = none) (hp : o.pad = some 1) (hc : o.norm = none)
    (g : Plane ℚ)
    (hf : o.filter = .sameSize g ∨
      o.filter = .otherSize ∧ ∀ a, o.uniform a = .ok (fun i j => a i j * (g i j : ℂ), g))
    (plane : Plane ℂ) :
    ∃ out, dirtyImage o n n plane = .ok out ∧ out.rows = n ∧ out.cols = n ∧ out.filter = .sameSize g ∧
      (∀ k l, (out.image k l).re =
        (Spec.fourier n n (fun i j => plane i j * (g i j : ℂ)) k l).re * Spec.pixelFactor o.degpix *
          (match o.beam with | none => 1 | some b => b k l)) ∧
      (∀ i < n, ∀ j < n, out.caller i j =
        match o.filter with | .sameSize _ => plane i j * (g i j : ℂ) | _ => plane i j) := by
  obtain ⟨mask, h1, h2⟩ := C96_default_keeps n hn
  have e1 : imgThreshold o ⟨n, n, plane, plane, true⟩
      = .ok ((⟨n, n, plane, plane, true⟩ : ImgState).inplace fun i j v => v * (mask i j : ℂ)) := by
    unfold imgThreshold
    simp only [ht, hw, h1, ne_eq, not_true_eq_false, if_false]
  have e2 : ∃ s : ImgState, imgFilter o (imgMask o
        ((⟨n, n, plane, plane, true⟩ : ImgState).inplace fun i j v => v * (mask i j : ℂ))) = .ok (s, .sameSize g) ∧
      s.rows = n ∧ s.cols = n ∧
      (∀ i < n, ∀ j < n, s.use i j = plane i j * (g i j : ℂ)) ∧
      (∀ i < n, ∀ j < n, s.caller i j =
        match o.filter with | .sameSize _ => plane i j * (g i j : ℂ) | _ => plane i j) := by
    unfold imgFilter imgMask
    rcases hf with hf | ⟨hf, hu⟩
    · simp only [hm, hf]
      refine ⟨_, rfl, rfl, rfl, ?_, ?_⟩
      · intro i hi j hj
        simp only [ImgState.inplace, h2 i hi j hj, Rat.cast_one, mul_one]
      · intro i hi j hj
        simp only [ImgState.inplace, if_true, h2 i hi j hj, Rat.cast_one, mul_one]
    · simp only [hm, hf, hu]
      refine ⟨_, rfl, rfl, rfl, ?_, ?_⟩
      · intro i hi j hj
        simp only [ImgState.inplace, ImgState.fresh, h2 i hi j hj, Rat.cast_one, mul_one]
      · intro i hi j hj
        simp only [ImgState.inplace, ImgState.fresh, if_true, h2 i hi j hj, Rat.cast_one, mul_one]
  obtain ⟨s, e3, s1, s2, s3, s4⟩ := e2
  have e4 := imgPad_nat o s (by rw [s1, s2]) (by rw [s1]; exact hn2) 1 le_rfl (by simpa using hp)
  unfold dirtyImage
  simp only [e1, e3, e4]
  have hr : ∀ s' : ImgState, (imgDegpix o s').rows = s'.rows ∧ (imgDegpix o s').cols = s'.cols := by
    intro s'; unfold imgDegpix; split <;> exact ⟨rfl, rfl⟩
  refine ⟨_, rfl, ?_, ?_, rfl, ?_, ?_⟩
  · show (imgDegpix o _).rows = _
    rw [(hr _).1]; show 1 * s.rows = _; rw [s1, one_mul]
  · show (imgDegpix o _).cols = _
    rw [(hr _).2]; show 1 * s.rows = _; rw [s1, one_mul]
  · intro k l
    show (imgFinish o (imgDegpix o _) k l).re = _
    rw [finish_re o hc]
    congr 2
    simp only [ImgState.fresh, s1, one_mul, Nat.sub_self, Nat.mul_zero, Nat.zero_le, zero_add, true_and,
      Nat.sub_zero, Nat.cast_one, one_pow, mul_one]
    rw [C97_fourier n n hn hn hn2 hn2]
    congr 1
    apply fourier_congr
    intro a ha b hb
    rw [if_pos ⟨ha, hb⟩, s3 a ha b hb]
  · intro i hi j hj
    show (imgDegpix o _).caller i j = _
    have : ∀ s' : ImgState, s'.aliased = false → (imgDegpix o s').caller = s'.caller := by
      intro s' h'
      unfold imgDegpix
      cases o.degpix <;> simp [ImgState.inplace, h']
    rw [this _ rfl]
    exact s4 i hi j hj

/-! ## All images -/

/-- Every polarisation for which all images are made. -/
theorem quickview_pols (q : QvIn) (out : QvOut) (h : quickview q = .ok out) :
    ∃ R : ℕ → QvPol, (∀ p < q.nPol, qvPol q p = .ok (R p)) ∧
      (∀ p < q.nPol, out.imageUv p = (R p).imageAfter ∧ out.modelUv p = (R p).modelAfter ∧
        (out.weightsUv p = if 4 ≤ q.nPol then splitComplex (fun p => (R p).weightsAfter) p
          else (R p).weightsAfter)) ∧
      out.polNames = qvNames q ∧
      out.files = (List.range q.nPol).flatMap fun p =>
        let sp (a : ℕ → Plane ℝ) : ℕ → Plane ℝ := if 4 ≤ q.nPol then splitReal a else a
        let name := (qvNames q).getD p ""
        [⟨.dirty, name, .plane fun i j => sp (fun p i j => (R p).dirty i j * (R p).renorm) p i j
            * qvCorrection (q.beam p i j)⟩,
          ⟨.model, name, .plane fun i j => sp (fun p i j => (R p).model i j * (R p).renorm) p i j
            * qvCorrection (q.beam p i j)⟩,
          ⟨.residual, name, .plane fun i j => sp (fun p i j =>
            (R p).dirty i j * (R p).renorm - (R p).model i j * (R p).renorm) p i j
            * qvCorrection (q.beam p i j)⟩,
          ⟨.beam, name, .plane (q.beam p)⟩,
          ⟨.uvWeights, name, .cube fun r i j => ‖out.weightsUv r i j‖ * q.nVis⟩] := by
  unfold quickview at h
  simp only [bind, Except.bind, pure, Except.pure] at h
  split at h
  · simp at h
  · next pols hp =>
    obtain ⟨h1, h2⟩ := mapM_range_ok _ _ _ hp
    rw [List.length_range] at h1
    have hget : ∀ p < q.nPol, ∃ b, pols[p]? = some b ∧ qvPol q p = .ok b := by
      intro p hp
      obtain ⟨b, hb1, hb2⟩ := h2 p (by rwa [List.length_range])
      rw [List.getElem_range] at hb2
      exact ⟨b, hb1, hb2⟩
    let R : ℕ → QvPol := fun p => (pols[p]?).getD ⟨fun _ _ => 0, fun _ _ => 0, 0, fun _ _ => 0, fun _ _ => 0, fun _ _ => 0⟩
    have hR : ∀ p < q.nPol, pols[p]? = some (R p) := by
      intro p hp
      obtain ⟨b, hb, -⟩ := hget p hp
      simp only [R, hb, Option.getD_some]
    have hRn : ∀ p, ¬ p < q.nPol → pols[p]? = none := fun p hp => by
      rw [List.getElem?_eq_none_iff, h1]; omega
    have hw : (fun p => (pols[p]?.map (·.weightsAfter)).getD (fun _ _ => 0)) = fun p => (R p).weightsAfter := by
      funext p
      by_cases hp : p < q.nPol
      · simp only [hR p hp, Option.map_some, Option.getD_some]
      · simp only [R, hRn p hp, Option.map_none, Option.getD_none]
    have hs : ∀ (g : QvPol → Plane ℝ), (∀ i j, g ⟨fun _ _ => 0, fun _ _ => 0, 0, fun _ _ => 0, fun _ _ => 0, fun _ _ => 0⟩ i j = 0) →
        (fun p i j => (pols[p]?.map fun r => g r i j * r.renorm).getD 0)
        = fun p i j => g (R p) i j * (R p).renorm := by
      intro g hg
      funext p i j
      by_cases hp : p < q.nPol
      · simp only [hR p hp, Option.map_some, Option.getD_some]
      · simp only [R, hRn p hp, Option.map_none, Option.getD_none, mul_zero]
    injection h with h
    refine ⟨R, ?_, ?_, ?_, ?_⟩
    · intro p hp
      obtain ⟨b, hb1, hb2⟩ := hget p hp
      rw [hR p hp] at hb1
      injection hb1 with hb1
      rw [hb2, hb1]
    · intro p hp
      rw [← h]
      refine ⟨?_, ?_, ?_⟩
      · simp only [hR p hp, Option.map_some, Option.getD_some]
      · simp only [hR p hp, Option.map_some, Option.getD_some]
      · simp only [hw]
        split_ifs <;> rfl
    · rw [← h]
    · rw [← h]
      have hd := hs (·.dirty) fun _ _ => rfl
      have hm := hs (·.model) fun _ _ => rfl
      simp only [hw]
      have hd' := fun p i j => congrFun (congrFun (congrFun hd p) i) j
      have hm' := fun p i j => congrFun (congrFun (congrFun hm p) i) j
      simp only [hd', hm']

/-- The files of one polarisation. -/
theorem mem_files {β : Type _} (n p : ℕ) (hp : p < n) (g : ℕ → List β) (x : β) (hx : x ∈ g p) :
    x ∈ (List.range n).flatMap g := List.mem_flatMap.2 ⟨p, List.mem_range.2 hp, hx⟩

/-- The parts of the files of one polarisation, one by one. -/
theorem quickview_files (q : QvIn) (out : QvOut) (h : quickview q = .ok out) :
    ∃ R : ℕ → QvPol, (∀ p < q.nPol, qvPol q p = .ok (R p)) ∧
      (∀ p < q.nPol, out.imageUv p = (R p).imageAfter ∧ out.modelUv p = (R p).modelAfter ∧
        (out.weightsUv p = if 4 ≤ q.nPol then splitComplex (fun p => (R p).weightsAfter) p
          else (R p).weightsAfter)) ∧
      out.polNames = qvNames q ∧
      ∀ p < q.nPol,
        (⟨.dirty, out.polNames.getD p "", .plane fun i j => (if 4 ≤ q.nPol then
            splitReal (fun p i j => (R p).dirty i j * (R p).renorm)
            else (fun p i j => (R p).dirty i j * (R p).renorm)) p i j * qvCorrection (q.beam p i j)⟩ : QvFile) ∈ out.files ∧
        (⟨.model, out.polNames.getD p "", .plane fun i j => (if 4 ≤ q.nPol then
            splitReal (fun p i j => (R p).model i j * (R p).renorm)
            else (fun p i j => (R p).model i j * (R p).renorm)) p i j * qvCorrection (q.beam p i j)⟩ : QvFile) ∈ out.files ∧
        (⟨.residual, out.polNames.getD p "", .plane fun i j => (if 4 ≤ q.nPol then
            splitReal (fun p i j => (R p).dirty i j * (R p).renorm - (R p).model i j * (R p).renorm)
            else (fun p i j => (R p).dirty i j * (R p).renorm - (R p).model i j * (R p).renorm)) p i j
              * qvCorrection (q.beam p i j)⟩ : QvFile) ∈ out.files ∧
        (⟨.uvWeights, out.polNames.getD p "", .cube fun r i j => ‖out.weightsUv r i j‖ * q.nVis⟩ : QvFile)
          ∈ out.files := by
  obtain ⟨R, h0, h1, h2, h3⟩ := quickview_pols q out h
  refine ⟨R, h0, h1, h2, fun p hp => ?_⟩
  rw [h2, h3]
  exact ⟨mem_files _ p hp _ _ (List.mem_cons_self ..),
    mem_files _ p hp _ _ (List.mem_cons_of_mem _ (List.mem_cons_self ..)),
    mem_files _ p hp _ _ (List.mem_cons_of_mem _ (List.mem_cons_of_mem _ (List.mem_cons_self ..))),
    mem_files _ p hp _ _ (List.mem_cons_of_mem _ (List.mem_cons_of_mem _ (List.mem_cons_of_mem _
      (List.mem_cons_of_mem _ (List.mem_cons_self ..)))))⟩

/-- **C100.** Whenever images are exported, each polarisation has a dirty, a model and a residual image, and
the residual is the difference of the other two at every pixel. -/
theorem C100_residual (q : QvIn) (out : QvOut) (h : quickview q = .ok out) (p : ℕ) (hp : p < q.nPol) :
    ∃ name d m r, (⟨.dirty, name, .plane d⟩ : QvFile) ∈ out.files ∧
      (⟨.model, name, .plane m⟩ : QvFile) ∈ out.files ∧
      (⟨.residual, name, .plane r⟩ : QvFile) ∈ out.files ∧
      out.polNames.getD p "" = name ∧ ∀ i j, r i j = d i j - m i j := by
  obtain ⟨R, -, -, -, h3⟩ := quickview_files q out h
  obtain ⟨f1, f2, f3, -⟩ := h3 p hp
  refine ⟨_, _, _, _, f1, f2, f3, rfl, fun i j => ?_⟩
  by_cases h4 : 4 ≤ q.nPol
  · simp only [if_pos h4, splitReal]
    split_ifs <;> simp <;> ring
  · simp only [if_neg h4]; ring

/-- **C102** does not hold: with padding no image is exported; unless the padded size is the size of the planes
the export raises an exception. -/
theorem C102_padding_raises (q : QvIn) (hp : 0 < q.nPol) (hs : q.size ≠ q.n) :
    ∃ e, quickview q = .error e := by
  have h0 : ∃ e, qvPol q 0 = .error e := by
    unfold qvPol
    simp only [bind, Except.bind]
    split
    · exact ⟨_, rfl⟩
    · split
      · exact ⟨_, rfl⟩
      · have : ∀ f, ∃ e, qvFilter q f = .error e := by
          intro f
          unfold qvFilter
          cases f with
          | sameSize g => exact ⟨_, if_neg hs⟩
          | none => exact ⟨_, rfl⟩
          | otherSize => exact ⟨_, rfl⟩
        split
        · exact ⟨_, rfl⟩
        · next hf =>
          obtain ⟨e, he⟩ := this ‹ImgOut›.filter
          rw [he] at hf
          simp at hf
  obtain ⟨e, he⟩ := mapM_error (qvPol q) (List.range q.nPol) 0 (List.mem_range.2 hp) h0
  unfold quickview
  simp only [bind, Except.bind, he]
  exact ⟨e, rfl⟩

/-- **C102**, in numbers: a padding of 2 or more. -/
theorem C102_padding_two_raises (q : QvIn) (hp : 0 < q.nPol) (hn : 0 < q.n) (hpad : 2 ≤ q.pad) :
    ∃ e, quickview q = .error e := by
  apply C102_padding_raises q hp
  unfold QvIn.size
  have hn' : (1 : ℚ) ≤ q.n := by exact_mod_cast hn
  have h1 : ((2 * q.n : ℕ) : ℤ) ≤ ⌊(q.n : ℚ) * q.pad⌋ := by
    rw [Int.le_floor]; push_cast; nlinarith
  unfold pyInt
  rw [if_pos (by nlinarith)]
  omega

/-! ## The values of the images -/

/-- The correction for the beam: its inverse where it is at least 0.001, else 0. -/
theorem qvCorrection_eq (b : ℝ) : qvCorrection b = if 1 / 1000 ≤ b then 1 / b else 0 := by
  unfold qvCorrection weightInvertEntry npRecip
  simp only [Bool.or_self, Bool.false_eq_true, if_false, id]
  by_cases h : (1 / 1000 : ℝ) ≤ b
  · have hb : b ≠ 0 := by intro hb; rw [hb] at h; norm_num at h
    rw [if_pos (decide_eq_true h), if_pos h, if_neg hb]; simp
  · rw [if_neg (by simpa using h), if_neg h]

/-- The filter of a polarisation is applied by multiplication and depends on the counts and weights only. -/
def Spec.Filter (q : QvIn) (g : ℕ → Plane ℚ) : Prop :=
  ∀ p a, q.uniform (q.weightsUv p) a = .ok (fun i j => a i j * (g p i j : ℂ), g p)

theorem size_pad_one (q : QvIn) (hpad : q.pad = 1) : q.size = q.n := by
  unfold QvIn.size
  rw [hpad, mul_one]
  unfold pyInt
  rw [if_pos (Nat.cast_nonneg _), Int.floor_natCast, Int.toNat_natCast]

/-- The images of one polarisation. -/
theorem qvPol_ok (q : QvIn) (hn : 0 < q.n) (hn2 : q.n % 2 = 0) (hpad : q.pad = 1) (g : ℕ → Plane ℚ)
    (hg : Spec.Filter q g) (p : ℕ) :
    ∃ r, qvPol q p = .ok r ∧
      (∀ i j, r.dirty i j = (Spec.fourier q.n q.n (fun i j => q.imageUv p i j * (g p i j : ℂ)) i j).re *
        Spec.pixelFactor (some q.degpix) * (if q.optimal then q.beam p i j else 1)) ∧
      (∀ i j, r.model i j = (Spec.fourier q.n q.n (fun i j => q.modelUv p i j * (g p i j : ℂ)) i j).re *
        Spec.pixelFactor (some q.degpix) * (if q.optimal then q.beam p i j else 1)) ∧
      r.renorm = 1 / ((Spec.fourier q.n q.n (fun i j => q.weightsUv p i j * (g p i j : ℂ))
          (q.n / 2) (q.n / 2)).re * Spec.pixelFactor (some q.degpix) *
          (if q.optimal then q.beam p (q.n / 2) (q.n / 2) else 1)) *
        q.beam p (q.n / 2) (q.n / 2) ^ 2 / (q.degpix * (Real.pi / 180)) ^ 2 ∧
      (∀ i < q.n, ∀ j < q.n, r.imageAfter i j = q.imageUv p i j ∧
        r.modelAfter i j = q.modelUv p i j * (g p i j : ℂ) ∧
        r.weightsAfter i j = q.weightsUv p i j * (g p i j : ℂ)) := by
  have hsize := size_pad_one q hpad
  have hb : ∀ i j, (match (if q.optimal then some (q.beam p) else none : Option (Plane ℝ)) with
      | none => (1 : ℝ) | some b => b i j) = if q.optimal then q.beam p i j else 1 := by
    intro i j
    cases q.optimal <;> simp
  obtain ⟨o1, a1, a2, a3, a4, a5, a6⟩ := qv_image
    { q.opts p with filter := .otherSize, notReal := decide (1 < p) } q.n hn hn2 rfl rfl rfl
    (by simp [QvIn.opts, hpad]) rfl (g p) (Or.inr ⟨rfl, fun a => hg p a⟩) (q.imageUv p)
  obtain ⟨o2, b1, b2, b3, b4, b5, b6⟩ := qv_image
    { q.opts p with filter := .sameSize (g p), notReal := decide (1 < p) } q.n hn hn2 rfl rfl rfl
    (by simp [QvIn.opts, hpad]) rfl (g p) (Or.inl rfl) (q.modelUv p)
  obtain ⟨o3, c1, c2, c3, c4, c5, c6⟩ := qv_image
    { q.opts p with filter := .sameSize (g p) } q.n hn hn2 rfl rfl rfl
    (by simp [QvIn.opts, hpad]) rfl (g p) (Or.inl rfl) (q.weightsUv p)
  refine ⟨⟨fun i j => (o1.image i j).re, fun i j => (o2.image i j).re, qvRenorm q p o3, o1.caller, o2.caller,
    o3.caller⟩, ?_, ?_, ?_, ?_, ?_⟩
  · unfold qvPol
    simp only [bind, Except.bind, pure, Except.pure, a1, qvAssign, a2, a3, hsize, and_self, if_true, a4,
      qvFilter, b1, b2, b3, c1]
  · intro i j
    show (o1.image i j).re = _
    rw [a5, ← hb]; rfl
  · intro i j
    show (o2.image i j).re = _
    rw [b5, ← hb]; rfl
  · show qvRenorm q p o3 = _
    unfold qvRenorm
    rw [hsize, c5, ← hb]; rfl
  · intro i hi j hj
    exact ⟨a6 i hi j hj, b6 i hi j hj, c6 i hi j hj⟩

theorem quickview_ok (q : QvIn) (hn : 0 < q.n) (hn2 : q.n % 2 = 0) (hpad : q.pad = 1) (g : ℕ → Plane ℚ)
    (hg : Spec.Filter q g) : ∃ out, quickview q = .ok out := by
  choose R hR _ using fun p => qvPol_ok q hn hn2 hpad g hg p
  unfold quickview
  rw [mapM_ok (qvPol q) R _ fun p _ => hR p]
  exact ⟨_, rfl⟩

/-- The brightness of a pixel: the filtered plane transformed, divided by the mean of the filtered weights
and the area of a pixel, times the square of the beam at the centre, over the beam at the pixel. -/
noncomputable def Spec.brightness (q : QvIn) (g : Plane ℚ) (p : ℕ) (plane : Plane ℂ) (i j : ℕ) : ℝ :=
  if q.beam p i j < 1 / 1000 then 0
  else (Spec.fourier q.n q.n (fun i j => plane i j * (g i j : ℂ)) i j).re
    / ((∑ a ∈ Finset.range q.n, ∑ b ∈ Finset.range q.n, q.weightsUv p a b * (g a b : ℂ)) / ((q.n : ℂ) * q.n)).re
    / (q.degpix * (Real.pi / 180)) ^ 2
    * (q.beam p (q.n / 2) (q.n / 2) ^ 2 / q.beam p i j)

theorem fourier_centre (n : ℕ) (hn : 0 < n) (hn2 : n % 2 = 0) (f : Plane ℂ) :
    Spec.fourier n n f (n / 2) (n / 2)
      = (∑ a ∈ Finset.range n, ∑ b ∈ Finset.range n, f a b) / ((n : ℂ) * n) := by
  rw [← C97_fourier n n hn hn hn2 hn2, C97_centre n n hn hn]

/-- **C100**, the values: without padding and for any filter but `filter_uv_optimal` the dirty and the model image
of every polarisation (except the last one of four) are the brightness of the gridded data and
model. -/
theorem C100_brightness (q : QvIn) (hn : 0 < q.n) (hn2 : q.n % 2 = 0) (hpad : q.pad = 1) (ho : q.optimal = false)
    (hk : q.kpix ≠ 0) (g : ℕ → Plane ℚ) (hg : Spec.Filter q g) :
    ∃ out, quickview q = .ok out ∧ ∀ p < q.nPol, q.nPol < 4 ∨ p ≠ 3 →
      ∃ d m, (⟨.dirty, out.polNames.getD p "", .plane d⟩ : QvFile) ∈ out.files ∧
        (⟨.model, out.polNames.getD p "", .plane m⟩ : QvFile) ∈ out.files ∧
        ∀ i j, d i j = Spec.brightness q (g p) p (q.imageUv p) i j ∧
          m i j = Spec.brightness q (g p) p (q.modelUv p) i j := by
  obtain ⟨out, h⟩ := quickview_ok q hn hn2 hpad g hg
  refine ⟨out, h, fun p hp h3 => ?_⟩
  obtain ⟨R, r1, -, -, r3⟩ := quickview_files q out h
  obtain ⟨f1, f2, -, -⟩ := r3 p hp
  obtain ⟨r, e1, e2, e3, e4, -⟩ := qvPol_ok q hn hn2 hpad g hg p
  have hr : R p = r := by
    have := r1 p hp
    rw [e1] at this
    injection this with this
    exact this.symm
  have hsp : ∀ a : ℕ → Plane ℝ, (if 4 ≤ q.nPol then splitReal a else a) p = a p := by
    intro a
    split_ifs with h4
    · unfold splitReal
      rw [if_neg (by omega)]
    · rfl
  have hd0 : q.degpix * (Real.pi / 180) ≠ 0 := by
    unfold QvIn.degpix
    rw [size_pad_one q hpad]
    have : (q.n : ℝ) ≠ 0 := by exact_mod_cast hn.ne'
    have hpi := Real.pi_ne_zero
    positivity
  have hval : ∀ (F : ℝ) (i j : ℕ),
      F * Spec.pixelFactor (some q.degpix) * (if q.optimal then q.beam p i j else 1) * r.renorm
        * qvCorrection (q.beam p i j)
      = if q.beam p i j < 1 / 1000 then 0 else F
          / ((∑ a ∈ Finset.range q.n, ∑ b ∈ Finset.range q.n, q.weightsUv p a b * (g p a b : ℂ)) / ((q.n : ℂ) * q.n)).re
          / (q.degpix * (Real.pi / 180)) ^ 2 * (q.beam p (q.n / 2) (q.n / 2) ^ 2 / q.beam p i j) := by
    intro F i j
    rw [e4, fourier_centre q.n hn hn2, qvCorrection_eq]
    simp only [ho, Bool.false_eq_true, if_false, mul_one, Spec.pixelFactor]
    by_cases hb : q.beam p i j < 1 / 1000
    · rw [if_pos hb, if_neg (not_le.2 hb), mul_zero]
    · rw [if_neg hb, if_pos (not_lt.1 hb)]
      by_cases hW : ((∑ a ∈ Finset.range q.n, ∑ b ∈ Finset.range q.n, q.weightsUv p a b * (g p a b : ℂ))
          / ((q.n : ℂ) * q.n)).re = 0
      · rw [hW]; simp
      · field_simp
  refine ⟨_, _, f1, f2, fun i j => ?_⟩
  simp only [hsp]
  rw [hr, e2, e3, hval, hval]
  exact ⟨rfl, rfl⟩

/-- **C100**, the units: if every visibility of a polarisation is the flux `S`, so that the gridded data
are `S` times the gridded weights, the central pixel of the dirty image is `S` times the beam there over
the area of a pixel. -/
theorem C100_central_source (q : QvIn) (hn : 0 < q.n) (hn2 : q.n % 2 = 0) (hpad : q.pad = 1) (ho : q.optimal = false)
    (hk : q.kpix ≠ 0) (g : ℕ → Plane ℚ) (hg : Spec.Filter q g) (p : ℕ) (hp : p < q.nPol) (h3 : q.nPol < 4 ∨ p ≠ 3)
    (S : ℝ) (hS : ∀ a b, q.imageUv p a b = (S : ℂ) * q.weightsUv p a b)
    (hW : ((∑ a ∈ Finset.range q.n, ∑ b ∈ Finset.range q.n, q.weightsUv p a b * (g p a b : ℂ))
      / ((q.n : ℂ) * q.n)).re ≠ 0) (hb : 1 / 1000 ≤ q.beam p (q.n / 2) (q.n / 2)) :
    ∃ out d, quickview q = .ok out ∧ (⟨.dirty, out.polNames.getD p "", .plane d⟩ : QvFile) ∈ out.files ∧
      d (q.n / 2) (q.n / 2) = S * q.beam p (q.n / 2) (q.n / 2) / (q.degpix * (Real.pi / 180)) ^ 2 := by
  obtain ⟨out, h, h'⟩ := C100_brightness q hn hn2 hpad ho hk g hg
  obtain ⟨d, m, h1, -, h2⟩ := h' p hp h3
  refine ⟨out, d, h, h1, ?_⟩
  rw [(h2 _ _).1]
  unfold Spec.brightness
  rw [if_neg (not_lt.2 hb), fourier_centre q.n hn hn2]
  have e : (∑ a ∈ Finset.range q.n, ∑ b ∈ Finset.range q.n, q.imageUv p a b * (g p a b : ℂ)) / ((q.n : ℂ) * q.n)
      = (S : ℂ) * ((∑ a ∈ Finset.range q.n, ∑ b ∈ Finset.range q.n, q.weightsUv p a b * (g p a b : ℂ))
        / ((q.n : ℂ) * q.n)) := by
    rw [← mul_div_assoc, Finset.mul_sum]
    congr 1
    apply Finset.sum_congr rfl
    intro a _
    rw [Finset.mul_sum]
    apply Finset.sum_congr rfl
    intro b _
    rw [hS]; ring
  rw [e, Complex.re_ofReal_mul]
  generalize ((∑ a ∈ Finset.range q.n, ∑ b ∈ Finset.range q.n, q.weightsUv p a b * (g p a b : ℂ))
        / ((q.n : ℂ) * q.n)).re = W at hW ⊢
  have hb' : q.beam p (q.n / 2) (q.n / 2) ≠ 0 := by
    intro h0; rw [h0] at hb; norm_num at hb
  by_cases hd : q.degpix * (Real.pi / 180) = 0
  · simp [hd]
  · field_simp

/-! ## C101, C103, C104 -/

/-- **C101** does not hold: the file of uv weights of every polarisation holds the same data, the planes of all
polarisations, and these have been multiplied by the filter. -/
theorem C101_weights_wrong (q : QvIn) (hn : 0 < q.n) (hn2 : q.n % 2 = 0) (hpad : q.pad = 1) (hp4 : q.nPol < 4)
    (g : ℕ → Plane ℚ) (hg : Spec.Filter q g) :
    ∃ out c, quickview q = .ok out ∧
      (∀ p < q.nPol, (⟨.uvWeights, out.polNames.getD p "", .cube c⟩ : QvFile) ∈ out.files) ∧
      ∀ r < q.nPol, ∀ i < q.n, ∀ j < q.n, c r i j = ‖q.weightsUv r i j * (g r i j : ℂ)‖ * q.nVis := by
  obtain ⟨out, h⟩ := quickview_ok q hn hn2 hpad g hg
  obtain ⟨R, r1, r0, -, r3⟩ := quickview_files q out h
  refine ⟨out, _, h, fun p hp => (r3 p hp).2.2.2, ?_⟩
  · intro r hr i hi j hj
    obtain ⟨x, e1, -, -, -, e5⟩ := qvPol_ok q hn hn2 hpad g hg r
    have hx : R r = x := by
      have := r1 r hr
      rw [e1] at this
      injection this with this
      exact this.symm
    rw [(r0 r hr).2.2, if_neg (by omega), hx, (e5 i hi j hj).2.2]

/-- **C103**, the gridded data are kept. -/
theorem C103_data_kept_partial (q : QvIn) (hn : 0 < q.n) (hn2 : q.n % 2 = 0) (hpad : q.pad = 1) (g : ℕ → Plane ℚ)
    (hg : Spec.Filter q g) : ∃ out, quickview q = .ok out ∧
      ∀ p < q.nPol, ∀ i < q.n, ∀ j < q.n, out.imageUv p i j = q.imageUv p i j := by
  obtain ⟨out, h⟩ := quickview_ok q hn hn2 hpad g hg
  obtain ⟨R, r1, r0, -⟩ := quickview_pols q out h
  refine ⟨out, h, fun p hp i hi j hj => ?_⟩
  obtain ⟨x, e1, -, -, -, e5⟩ := qvPol_ok q hn hn2 hpad g hg p
  have hx : R p = x := by
    have := r1 p hp
    rw [e1] at this
    injection this with this
    exact this.symm
  rw [(r0 p hp).1, hx, (e5 i hi j hj).1]

/-- **C103** does not hold for the model and the weights: both are multiplied by the filter. -/
theorem C103_model_weights_filtered (q : QvIn) (hn : 0 < q.n) (hn2 : q.n % 2 = 0) (hpad : q.pad = 1)
    (g : ℕ → Plane ℚ) (hg : Spec.Filter q g) : ∃ out, quickview q = .ok out ∧
      ∀ p < q.nPol, ∀ i < q.n, ∀ j < q.n, out.modelUv p i j = q.modelUv p i j * (g p i j : ℂ) ∧
        (q.nPol < 4 ∨ p < 2 → out.weightsUv p i j = q.weightsUv p i j * (g p i j : ℂ)) := by
  obtain ⟨out, h⟩ := quickview_ok q hn hn2 hpad g hg
  obtain ⟨R, r1, r0, -⟩ := quickview_pols q out h
  refine ⟨out, h, fun p hp i hi j hj => ?_⟩
  obtain ⟨x, e1, -, -, -, e5⟩ := qvPol_ok q hn hn2 hpad g hg p
  have hx : R p = x := by
    have := r1 p hp
    rw [e1] at this
    injection this with this
    exact this.symm
  refine ⟨by rw [(r0 p hp).2.1, hx, (e5 i hi j hj).2.1], fun h4 => ?_⟩
  rw [(r0 p hp).2.2]
  have : (if 4 ≤ q.nPol then splitComplex (fun p => (R p).weightsAfter) p else (R p).weightsAfter)
      = (R p).weightsAfter := by
    split_ifs with h4'
    · unfold splitComplex
      rw [if_neg (by omega), if_neg (by omega)]
    · rfl
  rw [this, hx, (e5 i hi j hj).2.2]

/-- **C103**, the names of the polarisations in `obs` are changed too when there are four, so that
cubes exported afterwards are named differently. -/
theorem C103_names_changed (q : QvIn) (a b c d : String) (t : List String) (h4 : 4 ≤ q.nPol)
    (hnames : q.polNames = a :: b :: c :: d :: t) (out : QvOut) (h : quickview q = .ok out) :
    out.polNames = a :: b :: (c ++ "_real") :: (c ++ "_imag") :: t := by
  obtain ⟨R, -, -, r2, -⟩ := quickview_pols q out h
  rw [r2]
  unfold qvNames
  rw [if_pos h4, hnames]
  rfl

/-- **C104** does not hold: with four polarisations the images of the imaginary part are zero whatever the
data. -/
theorem C104_imaginary_zero (q : QvIn) (h4 : q.nPol = 4) (out : QvOut) (h : quickview q = .ok out) :
    ∃ d m r, (⟨.dirty, out.polNames.getD 3 "", .plane d⟩ : QvFile) ∈ out.files ∧
      (⟨.model, out.polNames.getD 3 "", .plane m⟩ : QvFile) ∈ out.files ∧
      (⟨.residual, out.polNames.getD 3 "", .plane r⟩ : QvFile) ∈ out.files ∧
      ∀ i j, d i j = 0 ∧ m i j = 0 ∧ r i j = 0 := by
  obtain ⟨R, -, -, -, r3⟩ := quickview_files q out h
  obtain ⟨f1, f2, f3, -⟩ := r3 3 (by omega)
  refine ⟨_, _, _, f1, f2, f3, fun i j => ?_⟩
  simp [h4, splitReal]

/-- **C104**, and the same holds for the weights: the plane of the imaginary part is zero, in the files and in memory, and that of XY
loses its imaginary part. -/
theorem C104_weights_zero (q : QvIn) (h4 : q.nPol = 4) (out : QvOut) (h : quickview q = .ok out) :
    (∃ cube, (⟨.uvWeights, out.polNames.getD 3 "", .cube cube⟩ : QvFile) ∈ out.files ∧ ∀ i j, cube 3 i j = 0) ∧
    (∀ i j, out.weightsUv 3 i j = 0) ∧ ∀ i j, (out.weightsUv 2 i j).im = 0 := by
  obtain ⟨R, -, r1, -, r3⟩ := quickview_files q out h
  obtain ⟨-, -, -, f4⟩ := r3 3 (by omega)
  have h3 : ∀ i j, out.weightsUv 3 i j = 0 := by
    intro i j
    rw [(r1 3 (by omega)).2.2]
    simp [h4, splitComplex]
  refine ⟨⟨_, f4, fun i j => ?_⟩, h3, fun i j => ?_⟩
  · rw [h3]
    simp
  · rw [(r1 2 (by omega)).2.2]
    simp [h4, splitComplex]

/-- **C104**, the real part is exported. -/
theorem C104_real_part_partial (q : QvIn) (hn : 0 < q.n) (hn2 : q.n % 2 = 0) (hpad : q.pad = 1)
    (ho : q.optimal = false) (hk : q.kpix ≠ 0) (h4 : q.nPol = 4) (g : ℕ → Plane ℚ) (hg : Spec.Filter q g)
    (a b c e : String) (t : List String) (hnames : q.polNames = a :: b :: c :: e :: t) :
    ∃ out d, quickview q = .ok out ∧ (⟨.dirty, c ++ "_real", .plane d⟩ : QvFile) ∈ out.files ∧
      ∀ i j, d i j = Spec.brightness q (g 2) 2 (q.imageUv 2) i j := by
  obtain ⟨out, h, h'⟩ := C100_brightness q hn hn2 hpad ho hk g hg
  obtain ⟨d, m, h1, -, h2⟩ := h' 2 (by omega) (Or.inr (by omega))
  rw [C103_names_changed q a b c e t (by omega) hnames out h] at h1
  exact ⟨out, d, h, h1, fun i j => (h2 i j).1⟩

/-! ## Example -/

/-- Two polarisations of 4 by 4 cells, all weights 2, a source of flux 3 at the centre, a filter of 1/2. -/
noncomputable def exQv : QvIn where
  nPol := 2
  n := 4
  pad := 1
  kpix := 1 / 2
  nVis := 5
  optimal := false
  polNames := ["XX", "YY", "XY", "YX", "I", "Q", "U", "V"]
  imageUv := fun _ _ _ => 6
  modelUv := fun _ _ _ => 2
  weightsUv := fun _ _ _ => 2
  uniform := fun _ a => .ok (fun i j => a i j * ((1 / 2 : ℚ) : ℂ), fun _ _ => 1 / 2)
  beam := fun _ _ _ => 1

theorem exQv_filter : Spec.Filter exQv fun _ _ _ => 1 / 2 := fun _ _ => rfl

example : ∃ out d, quickview exQv = .ok out ∧ (⟨.dirty, out.polNames.getD 1 "", .plane d⟩ : QvFile) ∈ out.files ∧
    d 2 2 = 3 / (exQv.degpix * (Real.pi / 180)) ^ 2 := by
  have h := C100_central_source exQv (by norm_num [exQv]) (by norm_num [exQv]) rfl rfl (by norm_num [exQv])
    _ exQv_filter 1 (by norm_num [exQv]) (Or.inl (by norm_num [exQv])) 3 (by intro a b; norm_num [exQv])
    (by norm_num [exQv]) (by norm_num [exQv])
  simpa [exQv] using h

example : ∃ out, quickview exQv = .ok out ∧ out.modelUv 1 2 3 = 1 := by
  obtain ⟨out, h, h1⟩ := C103_model_weights_filtered exQv (by norm_num [exQv]) (by norm_num [exQv]) rfl _ exQv_filter
  refine ⟨out, h, ?_⟩
  rw [(h1 1 (by norm_num [exQv]) 2 (by norm_num [exQv]) 3 (by norm_num [exQv])).1]
  norm_num [exQv]

example : ∃ out, quickview { exQv with nPol := 4 } = .ok out ∧ out.weightsUv 3 1 2 = 0 ∧ exQv.weightsUv 3 1 2 = 2 := by
  obtain ⟨out, h⟩ := quickview_ok { exQv with nPol := 4 } (by norm_num [exQv]) (by norm_num [exQv]) rfl
    (fun _ _ _ => 1 / 2) fun _ _ => rfl
  exact ⟨out, h, (C104_weights_zero _ rfl out h).2.1 1 2, rfl⟩

example : ∃ e, quickview { exQv with pad := 2 } = .error e :=
  C102_padding_two_raises _ (by norm_num [exQv]) (by norm_num [exQv]) le_rfl

end PyFHD
