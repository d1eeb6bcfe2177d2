import Verif.Model.BeamBaseline
import Verif.Props.ImagingOpts

/-!
# Properties of the kernels made per baseline (C130-C135)
-/

namespace PyFHD

open Finset

/-! ## C130: summing down -/

theorem sum_by_blocks {K : Type _} [AddCommMonoid K] (g : ℕ → K) (D r : ℕ) :
    ∑ a ∈ range D, ∑ i ∈ range r, g (a * r + i) = ∑ x ∈ range (D * r), g x := by
  induction D with
  | zero => simp
  | succ D ih =>
    rw [sum_range_succ, ih, Nat.succ_mul, sum_range_add]

/-- **C130.** A pixel of the kernel is the sum over the square of `res` by `res` pixels of the finer plane in its place. -/
theorem C130_block_sums {K : Type _} [AddCommMonoid K] (D res : ℕ) (hr : 0 < res) (p : Plane K) :
    ∃ v, sumDown D res (D * res) p = .ok v ∧ ∀ a < D, ∀ b < D,
      v (a * D + b) = ∑ i ∈ range res, ∑ j ∈ range res, p (a * res + i) (b * res + j) := by
  have hdiv : D * res / res = D := Nat.mul_div_cancel _ hr
  unfold sumDown
  simp only [hdiv]
  rw [if_neg (by omega), if_neg (by push Not; ring), if_neg (by simp)]
  refine ⟨_, rfl, ?_⟩
  intro a ha b hb
  have hD : 0 < D := by omega
  have e1 : (a * D + b) / D = a := by
    rw [Nat.mul_comm, Nat.mul_add_div hD, Nat.div_eq_of_lt hb, Nat.add_zero]
  have e2 : (a * D + b) % D = b := by
    rw [Nat.mul_comm, Nat.mul_add_mod, Nat.mod_eq_of_lt hb]
  simp only [e1, e2]
  rw [← sum_by_blocks]
  apply sum_congr rfl
  intro i hi
  rw [mem_range] at hi
  apply sum_congr rfl
  intro j hj
  rw [mem_range] at hj
  have hij : i * res + j < res * res := by
    calc i * res + j < i * res + res := by omega
      _ = (i + 1) * res := by ring
      _ ≤ res * res := Nat.mul_le_mul_right _ hi
  have hk : (b * D + a) * (res * res) + (i * res + j) = ((b * D + a) * res + i) * res + j := by ring
  rw [hk]
  have f1 : (((b * D + a) * res + i) * res + j) / res = (b * D + a) * res + i := by
    rw [Nat.mul_comm _ res, Nat.mul_add_div hr, Nat.div_eq_of_lt hj, Nat.add_zero]
  have f2 : (((b * D + a) * res + i) * res + j) % res = j := by
    rw [Nat.mul_comm _ res, Nat.mul_add_mod, Nat.mod_eq_of_lt hj]
  have hai : a * res + i < res * D := by
    calc a * res + i < a * res + res := by omega
      _ = (a + 1) * res := by ring
      _ ≤ D * res := Nat.mul_le_mul_right _ ha
      _ = res * D := Nat.mul_comm _ _
  have f3 : ((b * D + a) * res + i) % (res * D) = a * res + i := by
    rw [show (b * D + a) * res + i = (res * D) * b + (a * res + i) by ring, Nat.mul_add_mod, Nat.mod_eq_of_lt hai]
  have f4 : (((b * D + a) * res + i) * res + j) / (res * D * res) = b := by
    rw [Nat.mul_comm (res * D) res, ← Nat.div_div_eq_div_mul, f1,
      show (b * D + a) * res + i = (res * D) * b + (a * res + i) by ring, Nat.mul_add_div (Nat.mul_pos hr hD),
      Nat.div_eq_of_lt hai, Nat.add_zero]
  rw [f1, f2, f3, f4]
  have hbj : b * res + j < D * res := by
    calc b * res + j < b * res + res := by omega
      _ = (b + 1) * res := by ring
      _ ≤ D * res := Nat.mul_le_mul_right _ hb
  have hDr : 0 < D * res := Nat.mul_pos hD hr
  have g0 : ((a * res + i) * D + b) * res + j = (D * res) * (a * res + i) + (b * res + j) := by ring
  rw [g0, Nat.mul_add_div hDr, Nat.div_eq_of_lt hbj, Nat.mul_add_mod, Nat.mod_eq_of_lt hbj, Nat.add_zero]

/-- **C130**, nothing is lost: the sum of the kernel is the sum of the finer plane. -/
theorem C130_total {K : Type _} [AddCommMonoid K] (D res : ℕ) (hr : 0 < res) (p : Plane K) :
    ∃ v, sumDown D res (D * res) p = .ok v ∧
      ∑ k ∈ range (D * D), v k = ∑ x ∈ range (D * res), ∑ y ∈ range (D * res), p x y := by
  obtain ⟨v, h1, h2⟩ := C130_block_sums D res hr p
  refine ⟨v, h1, ?_⟩
  rw [← sum_by_blocks v D D]
  calc _ = ∑ a ∈ range D, ∑ b ∈ range D, ∑ i ∈ range res, ∑ j ∈ range res, p (a * res + i) (b * res + j) := by
        apply sum_congr rfl
        intro a ha
        apply sum_congr rfl
        intro b hb
        exact h2 a (mem_range.1 ha) b (mem_range.1 hb)
    _ = ∑ a ∈ range D, ∑ i ∈ range res, ∑ b ∈ range D, ∑ j ∈ range res, p (a * res + i) (b * res + j) := by
        apply sum_congr rfl
        intro a _
        rw [sum_comm]
    _ = _ := by
        rw [← sum_by_blocks (fun x => ∑ y ∈ range (D * res), p x y)]
        apply sum_congr rfl
        intro a _
        apply sum_congr rfl
        intro i _
        rw [← sum_by_blocks (p (a * res + i))]

/-- A window whose size is not the kernel's times the resolution raises. -/
theorem C130_window_raises {K : Type _} [AddCommMonoid K] (D res W : ℕ) (hr : 0 < res) (hW : W ≠ D * res) (p : Plane K) :
    sumDown D res W p = .error .valueError := by
  unfold sumDown
  simp only []
  rw [if_neg (by omega)]
  by_cases h : W * W ≠ res * (W / res) * (W / res) * res
  · rw [if_pos h]
  · rw [if_neg h, if_pos]
    push Not at h
    intro h2
    apply hW
    have h3 : W = W / res * res := by
      have : W * W = (W / res * res) * (W / res * res) := by rw [h]; ring
      exact Nat.mul_self_inj.1 this
    have h4 : W / res = D := Nat.mul_self_inj.1 h2
    rw [h3, h4]

/-! ## C131: the kernel is the transform of the beam -/

/-- The Fourier transform of an image of `N` by `N` pixels with direction cosines `l`, `m`, at `u`, `v`. -/
noncomputable def Spec.beamTransform (N : ℕ) (beam : Plane ℂ) (l m : Plane ℝ) (u v : ℝ) : ℂ :=
  (∑ i ∈ range N, ∑ j ∈ range N, beam i j * Complex.exp (-(2 * Real.pi * Complex.I * ((l i j * u + m i j * v : ℝ) : ℂ)))) /
    ((N : ℂ) * N)

/-- **C131.** The kernel of a visibility is the transform of the beam, at the distance of the pixels from the visibility, summed over
the finer pixels; the finer pixels are `κ` wide and the image has pixels that fit (`1 / (N κ)`). -/
theorem C131_kernel (c : BpbIn) (hd : 0 < c.dim) (hd2 : c.dim % 2 = 0) (hr : 0 < c.res) (hw : c.bot + c.psfDim * c.res = c.top + 1)
    (ht : c.top < c.dim) (κ : ℝ) (hκ : κ ≠ 0)
    (hl : ∀ i < c.dim, ∀ j < c.dim, c.l i j = ((j : ℝ) - c.dim / 2) / (c.dim * κ))
    (hm : ∀ i < c.dim, ∀ j < c.dim, c.m i j = ((i : ℝ) - c.dim / 2) / (c.dim * κ))
    (hn : ∀ i j, c.n i j = 0) (b f : ℕ) :
    ∃ v, c.kernel b f = .ok v ∧ ∀ row < c.psfDim, ∀ col < c.psfDim, v (row * c.psfDim + col) =
      ∑ i ∈ range c.res, ∑ j ∈ range c.res, Spec.beamTransform c.dim c.beam c.l c.m
        (c.x (c.xmin + c.psfDim / 2) + (((c.bot + col * c.res + j : ℕ) : ℝ) - c.dim / 2) * κ - c.uu b * c.freq f)
        (c.y (c.ymin + c.psfDim / 2) + (((c.bot + row * c.res + i : ℕ) : ℝ) - c.dim / 2) * κ - c.vv b * c.freq f) := by
  obtain ⟨out, h1, -, -, h2⟩ := C97_image { notReal := true, uniform := fun _ => .error .typeError } c.dim hd hd2 rfl rfl rfl rfl rfl
    rfl rfl (c.phased b f)
  have hW : min (c.top + 1) c.dim - c.bot = c.psfDim * c.res := by omega
  obtain ⟨v, h3, h4⟩ := C130_block_sums c.psfDim c.res hr fun i j => out.image (c.bot + i) (c.bot + j)
  refine ⟨v, ?_, ?_⟩
  · unfold BpbIn.kernel
    rw [h1]
    simp only [bind, Except.bind]
    rw [hW, h3]
  · intro row hrow col hcol
    rw [h4 row hrow col hcol]
    apply sum_congr rfl
    intro i _
    apply sum_congr rfl
    intro j _
    rw [h2]
    simp only [if_true, Spec.pixelFactor, Complex.ofReal_one, mul_one]
    unfold Spec.fourier Spec.beamTransform
    congr 1
    apply sum_congr rfl
    intro p hp
    apply sum_congr rfl
    intro q hq
    rw [mem_range] at hp hq
    unfold BpbIn.phased
    simp only []
    rw [mul_assoc, ← Complex.exp_add, hl p hp q hq, hm p hp q hq, hn]
    congr 2
    have hN : (c.dim : ℂ) ≠ 0 := by exact_mod_cast hd.ne'
    have hκ' : (κ : ℂ) ≠ 0 := by exact_mod_cast hκ
    push_cast
    field_simp
    ring

/-! ## C132: the clip of the kernels -/

theorem clipEntry_eq (thr : ℝ) (z : ℂ) :
    BpbIn.clipEntry thr z = ((max (‖z‖ - thr) 0 : ℝ) : ℂ) * Complex.exp (z.arg * Complex.I) := by
  unfold BpbIn.clipEntry
  rw [Complex.exp_mul_I]
  push_cast
  ring

/-- **C132.** The clip keeps the phase of every entry before the common factor of its kernel, sets entries up to the threshold to zero,
and the sum of each kernel is kept, whenever something is left of it. -/
theorem C132_clip_partial (c : BpbIn) (hc : c.clipFloor = true) (rows : List (ℕ → ℂ)) (r : ℕ → ℂ) (hr : r ∈ rows)
    (hleft : ∑ k ∈ range (c.psfDim * c.psfDim), BpbIn.clipEntry (c.maxAmp rows / c.maskThreshold) (r k) ≠ 0) :
    ∃ q : ℕ → ℂ, (fun k => some (q k)) ∈ c.clipRows rows ∧
      ∑ k ∈ range (c.psfDim * c.psfDim), q k = ∑ k ∈ range (c.psfDim * c.psfDim), r k ∧
      (∀ k, ‖r k‖ ≤ c.maxAmp rows / c.maskThreshold → q k = 0) ∧
      ∃ s : ℂ, ∀ k, ‖r k‖ ≠ 0 → q k = s * (((max (‖r k‖ - c.maxAmp rows / c.maskThreshold) 0 / ‖r k‖ : ℝ) : ℂ) * r k) := by
  generalize hthr : c.maxAmp rows / c.maskThreshold = thr at *
  refine ⟨fun k => BpbIn.clipEntry thr (r k) *
    ((∑ k ∈ range (c.psfDim * c.psfDim), r k) / ∑ k ∈ range (c.psfDim * c.psfDim), BpbIn.clipEntry thr (r k)), ?_, ?_, ?_, ?_⟩
  · unfold BpbIn.clipRows
    rw [if_pos hc]
    simp only [hthr]
    refine List.mem_map.2 ⟨r, hr, ?_⟩
    funext k
    rw [if_neg hleft]
  · rw [← sum_mul, mul_div_cancel₀ _ hleft]
  · intro k hk
    simp only [clipEntry_eq]
    rw [max_eq_right (by linarith)]
    simp
  · refine ⟨(∑ k ∈ range (c.psfDim * c.psfDim), r k) / ∑ k ∈ range (c.psfDim * c.psfDim), BpbIn.clipEntry thr (r k), ?_⟩
    intro k hk
    have hk' : ((‖r k‖ : ℝ) : ℂ) ≠ 0 := by exact_mod_cast hk
    have : Complex.exp ((r k).arg * Complex.I) = r k / ((‖r k‖ : ℝ) : ℂ) := by
      rw [eq_div_iff hk', mul_comm]
      exact Complex.norm_mul_exp_arg_mul_I (r k)
    generalize ((∑ k ∈ range (c.psfDim * c.psfDim), r k) / ∑ k ∈ range (c.psfDim * c.psfDim), BpbIn.clipEntry thr (r k)) = s
    simp only [clipEntry_eq, this]
    push_cast
    field_simp

/-- **C132 fails** for a kernel that is nowhere above the threshold, which comes from the largest value in the whole group: all its entries are
NaN. -/
theorem C132_faint_kernel_nan (c : BpbIn) (hc : c.clipFloor = true) (rows : List (ℕ → ℂ)) (i : ℕ) (hi : i < rows.length)
    (hfaint : ∀ k < c.psfDim * c.psfDim, ‖rows[i] k‖ ≤ c.maxAmp rows / c.maskThreshold) :
    ∃ q, (c.clipRows rows)[i]? = some q ∧ ∀ k, q k = none := by
  unfold BpbIn.clipRows
  rw [if_pos hc]
  simp only [List.getElem?_map, List.getElem?_eq_getElem hi, Option.map_some]
  refine ⟨_, rfl, fun k => ?_⟩
  rw [if_pos]
  apply sum_eq_zero
  intro k hk
  rw [clipEntry_eq, max_eq_right (by linarith [hfaint k (mem_range.1 hk)])]
  simp

/-- Without the option the kernels are left alone. -/
theorem C132_no_clip (c : BpbIn) (hc : c.clipFloor = false) (rows : List (ℕ → ℂ)) :
    c.clipRows rows = rows.map fun r k => some (r k) := by
  unfold BpbIn.clipRows
  rw [if_neg (by rw [hc]; simp)]

/-! ## C133: the integrals of the beam -/

/-- What is added to the integral of a channel by visibilities numbered from `ii`. -/
noncomputable def integralAdded (res : ℕ) (rows : List (ℕ → ℂ)) (f : ℕ) : ℕ → List ℕ → ℂ
  | _, [] => 0
  | ii, g :: gs => (if g = f then (rows.map fun r => r ii).sum / ((res : ℂ) ^ 2) else 0) + integralAdded res rows f (ii + 1) gs

theorem beamIntegrals_spec (psfDim res : ℕ) (rows : List (ℕ → ℂ)) : ∀ (fs : List ℕ) (ii : ℕ) (s : BeamIntegrals),
    (psfDim * psfDim < ii + fs.length → fs ≠ [] → beamIntegrals psfDim res rows ii fs s = .error .indexError) ∧
    (ii + fs.length ≤ psfDim * psfDim → ∃ s', beamIntegrals psfDim res rows ii fs s = .ok s' ∧
      ∀ f, s'.beam f = s.beam f + integralAdded res rows f ii fs ∧ s'.count f = s.count f + fs.count f) := by
  intro fs
  induction fs with
  | nil =>
    intro ii s
    refine ⟨fun _ h => absurd rfl h, fun _ => ⟨s, rfl, fun f => ?_⟩⟩
    simp [integralAdded]
  | cons g gs ih =>
    intro ii s
    unfold beamIntegrals integralStep
    constructor
    · intro h _
      by_cases hii : psfDim * psfDim ≤ ii
      · rw [if_pos hii]
      · rw [if_neg hii]
        simp only []
        refine (ih (ii + 1) _).1 (by simp only [List.length_cons] at h; omega) ?_
        intro hnil
        rw [hnil] at h
        simp only [List.length_cons, List.length_nil] at h
        omega
    · intro h
      simp only [List.length_cons] at h
      rw [if_neg (by omega)]
      simp only []
      obtain ⟨s', h1, h2⟩ := (ih (ii + 1) ⟨_, _, _⟩).2 (by omega)
      refine ⟨s', h1, fun f => ?_⟩
      obtain ⟨e1, e2⟩ := h2 f
      rw [e1, e2]
      simp only [Function.update_apply, integralAdded, List.count_cons]
      by_cases hgf : f = g
      · subst hgf
        simp only [if_true, beq_self_eq_true]
        exact ⟨by ring, by omega⟩
      · simp only [hgf, Ne.symm hgf, if_false, zero_add, beq_iff_eq]
        simp

/-- **C133, as far as it holds**: the number of visibilities of each channel. -/
theorem C133_counts_partial (psfDim res : ℕ) (rows : List (ℕ → ℂ)) (fs : List ℕ) (s : BeamIntegrals)
    (h : fs.length ≤ psfDim * psfDim) : ∃ s', beamIntegrals psfDim res rows 0 fs s = .ok s' ∧
      ∀ f, s'.count f = s.count f + fs.count f := by
  obtain ⟨s', h1, h2⟩ := (beamIntegrals_spec psfDim res rows fs 0 s).2 (by omega)
  exact ⟨s', h1, fun f => (h2 f).2⟩

/-- **C133 fails**: the sums are over the visibilities, not over the pixels. For a single visibility the first pixel of its kernel is added
instead of the sum of all. -/
theorem C133_first_pixel (psfDim res : ℕ) (hp : 0 < psfDim) (row : ℕ → ℂ) (f : ℕ) (s : BeamIntegrals) :
    ∃ s', beamIntegrals psfDim res [row] 0 [f] s = .ok s' ∧ s'.beam f = s.beam f + row 0 / (res : ℂ) ^ 2 := by
  obtain ⟨s', h1, h2⟩ := (beamIntegrals_spec psfDim res [row] [f] 0 s).2
    (by simp only [List.length_cons, List.length_nil]; exact Nat.mul_pos hp hp)
  refine ⟨s', h1, ?_⟩
  rw [(h2 f).1]
  simp [integralAdded]

/-- **C133 fails**: more visibilities than pixels in the kernel raise. -/
theorem C133_many_raise (psfDim res : ℕ) (rows : List (ℕ → ℂ)) (fs : List ℕ) (s : BeamIntegrals)
    (h : psfDim * psfDim < fs.length) : beamIntegrals psfDim res rows 0 fs s = .error .indexError := by
  apply (beamIntegrals_spec psfDim res rows fs 0 s).1 (by omega)
  rintro rfl
  simp at h

/-! ## C134: the window of the beam -/

theorem intermediateRes_small (res : ℕ) (h : res ≤ 2) : intermediateRes res = res := by
  unfold intermediateRes
  apply min_eq_right
  rcases Nat.eq_zero_or_pos res with rfl | hp
  · omega
  · have : 1 ≤ ⌈Real.sqrt res / 2⌉₊ := by
      rw [Nat.one_le_ceil_iff]
      have : (0 : ℝ) < res := by exact_mod_cast hp
      have := Real.sqrt_pos.2 this
      linarith
    omega

theorem intermediateRes_large (res : ℕ) (h : 3 ≤ res) : intermediateRes res < res := by
  unfold intermediateRes
  apply min_lt_of_left_lt
  by_cases h4 : res ≤ 4
  · have : ⌈Real.sqrt res / 2⌉₊ ≤ 1 := by
      apply Nat.ceil_le.2
      have h1 : (res : ℝ) ≤ 2 ^ 2 := by
        have : (res : ℝ) ≤ 4 := by exact_mod_cast h4
        linarith
      have := Real.sqrt_le_sqrt h1
      rw [Real.sqrt_sq (by norm_num)] at this
      push_cast
      linarith
    omega
  · push Not at h4
    have h1 : (⌈Real.sqrt res / 2⌉₊ : ℝ) < Real.sqrt res / 2 + 1 := Nat.ceil_lt_add_one (by positivity)
    have h2 : Real.sqrt res ≤ res / 2 := by
      have h5 : (4 : ℝ) ≤ res := by exact_mod_cast h4.le
      rw [Real.sqrt_le_left (by linarith)]
      nlinarith
    have h3 : ((⌈Real.sqrt res / 2⌉₊ * 2 : ℕ) : ℝ) < (res : ℝ) := by
      push_cast
      have h5 : (4 : ℝ) ≤ res := by exact_mod_cast h4.le
      linarith
    exact_mod_cast h3

theorem pyInt_int (z : ℤ) : pyInt (z : ℚ) = z := by unfold pyInt; simp

/-- The window in general, for kernels and images of even size. -/
theorem window_eq (h res g : ℕ) : imageBot (2 * h) res (2 * g) = (g : ℤ) - h * intermediateRes res ∧
    imageTop (2 * h) res (2 * g) = (g : ℤ) - h * intermediateRes res + 2 * h * res - 1 := by
  unfold imageBot imageTop
  constructor
  · rw [← pyInt_int ((g : ℤ) - h * intermediateRes res)]
    congr 1
    push_cast
    ring
  · rw [← pyInt_int ((g : ℤ) - h * intermediateRes res + 2 * h * res - 1)]
    congr 1
    push_cast
    ring

/-- **C134, as far as it holds**: the window has the size of the kernel, and for a resolution of 1 or 2 the centre of the image comes to
the pixel with which the phases are made. -/
theorem C134_window_partial (h res g : ℕ) :
    imageTop (2 * h) res (2 * g) + 1 - imageBot (2 * h) res (2 * g) = 2 * h * res ∧
    (res ≤ 2 → imageBot (2 * h) res (2 * g) + (2 * h / 2 : ℕ) * res = (2 * g / 2 : ℕ)) := by
  obtain ⟨h1, h2⟩ := window_eq h res g
  refine ⟨by rw [h1, h2]; ring, fun hr => ?_⟩
  rw [h1, intermediateRes_small res hr, Nat.mul_div_cancel_left _ (by norm_num), Nat.mul_div_cancel_left _ (by norm_num)]
  ring

/-- **C134 fails** for a resolution of 3 or more: the centre of the image is before that pixel, so that every kernel is displaced. -/
theorem C134_displaced (h res g : ℕ) (hh : 0 < h) (hr : 3 ≤ res) :
    (2 * g / 2 : ℕ) < imageBot (2 * h) res (2 * g) + (2 * h / 2 : ℕ) * res := by
  rw [(window_eq h res g).1, Nat.mul_div_cancel_left _ (by norm_num), Nat.mul_div_cancel_left _ (by norm_num)]
  have := intermediateRes_large res hr
  have h1 : ((h * intermediateRes res : ℕ) : ℤ) < ((h * res : ℕ) : ℤ) := by
    exact_mod_cast Nat.mul_lt_mul_of_pos_left this hh
  push_cast at h1
  linarith

/-! ## C135: the coordinates used -/

/-- **C135, as far as it holds**: with one channel, or one baseline, the kernel is made with the coordinates of the visibility (sample of channel `f`
and baseline `b`). -/
theorem C135_own_coordinates_partial (nFreq nBl f b : ℕ) (hf : f < nFreq) (hb : b < nBl) (h : nFreq = 1 ∨ nBl = 1) :
    bpbSample nFreq (f * nBl + b) = (f, b) := by
  unfold bpbSample
  rcases h with h | h
  · have : f = 0 := by omega
    simp [h, this, Nat.mod_one]
  · have : b = 0 := by omega
    simp [h, this, Nat.mod_eq_of_lt hf, Nat.div_eq_of_lt hf]

/-- Which samples get the kernel of their own coordinates. -/
theorem C135_own_iff_partial (nFreq nBl f b : ℕ) (hf : f < nFreq) (hb : b < nBl) :
    bpbSample nFreq (f * nBl + b) = (f, b) ↔ f * (nBl - 1) = b * (nFreq - 1) := by
  unfold bpbSample
  obtain ⟨n, rfl⟩ : ∃ n, nFreq = n + 1 := ⟨nFreq - 1, by omega⟩
  obtain ⟨m, rfl⟩ : ∃ m, nBl = m + 1 := ⟨nBl - 1, by omega⟩
  simp only [Nat.add_sub_cancel, Prod.mk.injEq]
  constructor
  · rintro ⟨h1, h2⟩
    have := Nat.div_add_mod (f * (m + 1) + b) (n + 1)
    rw [h1, h2] at this
    linarith
  · intro h
    have e : f * (m + 1) + b = (n + 1) * b + f := by linarith
    rw [e, Nat.mul_add_mod, Nat.mod_eq_of_lt hf, Nat.mul_add_div (by omega), Nat.div_eq_of_lt hf, Nat.add_zero]
    exact ⟨rfl, rfl⟩

/-- **C135 fails** otherwise: the second baseline of the first channel gets the kernel of the first baseline at the second channel, while the
last sample gets its own. -/
theorem C135_other_coordinates (nFreq nBl : ℕ) (hf : 2 ≤ nFreq) (hb : 2 ≤ nBl) :
    bpbSample nFreq (0 * nBl + 1) = (1, 0) ∧
    bpbSample nFreq ((nFreq - 1) * nBl + (nBl - 1)) = (nFreq - 1, nBl - 1) := by
  unfold bpbSample
  refine ⟨by rw [Nat.zero_mul, Nat.zero_add, Nat.mod_eq_of_lt hf, Nat.div_eq_of_lt hf], ?_⟩
  have e : (nFreq - 1) * nBl + (nBl - 1) = nFreq * (nBl - 1) + (nFreq - 1) := by
    obtain ⟨a, rfl⟩ : ∃ a, nFreq = a + 1 := ⟨nFreq - 1, by omega⟩
    obtain ⟨b, rfl⟩ : ∃ b, nBl = b + 1 := ⟨nBl - 1, by omega⟩
    simp only [Nat.add_sub_cancel]
    ring
  rw [e, Nat.mul_add_mod, Nat.mod_eq_of_lt (by omega), Nat.mul_add_div (by omega), Nat.div_eq_of_lt (by omega), Nat.add_zero]

/-! ## Examples -/

/-- The plane of the comment in the code. -/
example : (match sumDown 2 2 4 (fun i j => (4 * i + j + 1 : ℕ)) with
    | .ok v => (List.range 4).map v
    | .error _ => []) = [14, 22, 46, 54] := by decide +kernel

/-- An image of 8 by 8 pixels for a kernel of 2 by 2 pixels with a resolution of 2; pixels of half a wavelength. -/
noncomputable def exBpb : BpbIn where
  dim := 8
  beam := fun i j => if i = 4 ∧ j = 4 then 1 else 0
  l := fun _ j => ((j : ℝ) - (8 : ℕ) / 2) / ((8 : ℕ) * (1 / 2))
  m := fun i _ => ((i : ℝ) - (8 : ℕ) / 2) / ((8 : ℕ) * (1 / 2))
  n := fun _ _ => 0
  psfDim := 2
  res := 2
  bot := 2
  top := 5
  uu := fun _ => 1 / 3
  vv := fun _ => 1 / 5
  ww := fun _ => 7
  freq := fun f => 2 + f
  x := fun i => (i : ℝ) - 5
  y := fun i => (i : ℝ) - 5
  xmin := 3
  ymin := 6
  clipFloor := true
  maskThreshold := 2

example : ∃ v, exBpb.kernel 0 1 = .ok v ∧ ∀ row < 2, ∀ col < 2, v (row * 2 + col) =
    ∑ i ∈ range 2, ∑ j ∈ range 2, Spec.beamTransform 8 exBpb.beam exBpb.l exBpb.m
        (exBpb.x (3 + 2 / 2) + (((2 + col * 2 + j : ℕ) : ℝ) - (8 : ℕ) / 2) * (1 / 2) - exBpb.uu 0 * exBpb.freq 1)
        (exBpb.y (6 + 2 / 2) + (((2 + row * 2 + i : ℕ) : ℝ) - (8 : ℕ) / 2) * (1 / 2) - exBpb.vv 0 * exBpb.freq 1) :=
  C131_kernel exBpb (by norm_num [exBpb]) (by norm_num [exBpb]) (by norm_num [exBpb]) (by norm_num [exBpb]) (by norm_num [exBpb])
    (1 / 2) (by norm_num) (fun i _ j _ => rfl) (fun i _ j _ => rfl) (fun _ _ => rfl) 0 1

/-- Two kernels: the second is nowhere above half of the largest value. -/
noncomputable def exRows : List (ℕ → ℂ) := [fun k => if k = 0 then 4 else 3, fun _ => 2]

theorem exRows_max : exBpb.maxAmp exRows / exBpb.maskThreshold = 2 := by
  have : (List.range (2 * 2)) = [0, 1, 2, 3] := rfl
  simp only [BpbIn.maxAmp, exRows, exBpb, this, List.map_cons, List.map_nil, List.foldr_cons, List.foldr_nil]
  norm_num

example : (∃ q, (exBpb.clipRows exRows)[1]? = some q ∧ ∀ k, q k = none) := by
  apply C132_faint_kernel_nan exBpb rfl exRows 1 (by simp [exRows])
  intro k _
  rw [exRows_max]
  change ‖(2 : ℂ)‖ ≤ 2
  simp

example : ∑ k ∈ range (exBpb.psfDim * exBpb.psfDim),
    BpbIn.clipEntry (exBpb.maxAmp exRows / exBpb.maskThreshold) ((fun k => if k = 0 then 4 else 3 : ℕ → ℂ) k) ≠ 0 := by
  rw [exRows_max]
  have h4 : (4 : ℂ).arg = 0 := by rw [Complex.arg_eq_zero_iff]; norm_num
  have h3 : (3 : ℂ).arg = 0 := by rw [Complex.arg_eq_zero_iff]; norm_num
  simp only [exBpb, clipEntry_eq]
  norm_num [sum_range_succ, h3, h4]

/-- A kernel of four pixels of which the first is zero: nothing is added. -/
example : ∃ s', beamIntegrals 2 1 [fun k => (k : ℂ)] 0 [3] ⟨fun _ => 0, fun _ => 0, fun _ => 0⟩ = .ok s' ∧ s'.beam 3 = 0 ∧
    ∑ k ∈ range 4, (fun k => (k : ℂ)) k = 6 := by
  obtain ⟨s', h1, h2⟩ := C133_first_pixel 2 1 (by norm_num) (fun k => (k : ℂ)) 3 ⟨fun _ => 0, fun _ => 0, fun _ => 0⟩
  refine ⟨s', h1, by rw [h2]; norm_num, by norm_num [sum_range_succ]⟩

example : ∃ s', beamIntegrals 2 1 [fun k => (k : ℂ), fun _ => 1, fun _ => 2] 0 [3, 5, 3] ⟨fun _ => 0, fun _ => 0, fun _ => 0⟩ = .ok s' ∧
    s'.count 3 = 2 ∧ s'.count 5 = 1 := by
  obtain ⟨s', h1, h2⟩ := C133_counts_partial 2 1 [fun k => (k : ℂ), fun _ => 1, fun _ => 2] [3, 5, 3]
    ⟨fun _ => 0, fun _ => 0, fun _ => 0⟩ (by decide)
  exact ⟨s', h1, by rw [h2]; rfl, by rw [h2]; rfl⟩

example : imageBot 14 1 56 = 21 ∧ imageBot 14 1 56 + (14 / 2 : ℕ) * 1 = (56 / 2 : ℕ) ∧
    (56 / 2 : ℕ) < imageBot 14 100 56 + (14 / 2 : ℕ) * 100 := by
  refine ⟨?_, ?_, C134_displaced 7 100 28 (by norm_num) (by norm_num)⟩
  · rw [(window_eq 7 1 28).1, intermediateRes_small 1 (by norm_num)]
    norm_num
  · exact_mod_cast (C134_window_partial 7 1 28).2 (by norm_num)

example : bpbSample 3 (0 * 4 + 1) = (1, 0) ∧ bpbSample 1 (0 * 4 + 3) = (0, 3) ∧ bpbSample 3 (1 * 4 + 0) = (1, 1) := by decide

end PyFHD
