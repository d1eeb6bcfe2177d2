import Verif.Props.RelationsThird
import Verif.Props.Imaging

/-!
# Gridding and imaging together (C234, C235)
-/

namespace PyFHD

open Spec

namespace Spec

/-- A uv plane seen by one sample: the plane under its footprint, weighted with its kernel, which is that of the bin `fb`. -/
def sampled {K : Type} [Field K] (g : VisGridIn K) (fb : ℕ) (P : Plane K) (f b : ℕ) : K :=
  ∑ i ∈ Finset.range g.psfDim, ∑ j ∈ Finset.range g.psfDim,
    kernelAt g fb f b (i * g.psfDim + j) * P (y0 g.toGridIn f b + i) (x0 g.toGridIn f b + j)

/-- The samples that are gridded. -/
def griddedSamples {K : Type} (g : VisGridIn K) : List (ℕ × ℕ) :=
  (g.fiUse.flatMap fun f => g.biUse.map fun b => (f, b)).filter fun s => decide (Gridable g.toGridIn s.1 s.2)

end Spec

theorem sum_footprint {K : Type} [AddCommMonoid K] (n d o : ℕ) (h : o + d ≤ n) (F : ℕ → ℕ → K) :
    ∑ y ∈ Finset.range n, (if o ≤ y ∧ y < o + d then F (y - o) y else 0) = ∑ i ∈ Finset.range d, F i (o + i) := by
  rw [← Finset.sum_filter]
  symm
  refine Finset.sum_bij (fun i _ => o + i) ?_ ?_ ?_ ?_
  · intro i hi
    simp only [Finset.mem_range, Finset.mem_filter] at hi ⊢
    omega
  · intro a _ b _ hab
    omega
  · intro y hy
    simp only [Finset.mem_range, Finset.mem_filter] at hy
    exact ⟨y - o, Finset.mem_range.2 (by omega), by omega⟩
  · intro i _
    rw [Nat.add_sub_cancel_left]

section Adjoint

variable {K : Type} [Field K] [StarRing K]

/-- What one sample adds to the product of the gridded plane with another plane. -/
theorem sample_product (g : VisGridIn K) (fb : ℕ) (P : Plane K) (c : K) (f b : ℕ) :
    (∑ y ∈ Finset.range g.elements, ∑ x ∈ Finset.range g.dimension, star (P y x) *
      (if Reaches g.toGridIn f b y x then
        star (kernelAt g fb f b ((y - y0 g.toGridIn f b) * g.psfDim + (x - x0 g.toGridIn f b))) * c else 0))
    = if Gridable g.toGridIn f b then star (sampled g fb P f b) * c else 0 := by
  by_cases hG : Gridable g.toGridIn f b
  · rw [if_pos hG]
    have hx : x0 g.toGridIn f b + g.psfDim ≤ g.dimension := by
      obtain ⟨h1, h2⟩ := hG.1
      unfold x0; omega
    have hy : y0 g.toGridIn f b + g.psfDim ≤ g.elements := by
      obtain ⟨h1, h2⟩ := hG.2.1
      unfold y0; omega
    set X := x0 g.toGridIn f b
    set Y := y0 g.toGridIn f b
    have e : ∀ y x, star (P y x) * (if Reaches g.toGridIn f b y x then
        star (kernelAt g fb f b ((y - Y) * g.psfDim + (x - X))) * c else 0)
        = if Y ≤ y ∧ y < Y + g.psfDim then (if X ≤ x ∧ x < X + g.psfDim then
          star (kernelAt g fb f b ((y - Y) * g.psfDim + (x - X)) * P y x) * c else 0) else 0 := by
      intro y x
      by_cases h1 : Y ≤ y ∧ y < Y + g.psfDim
      · by_cases h2 : X ≤ x ∧ x < X + g.psfDim
        · rw [if_pos (show Reaches g.toGridIn f b y x from ⟨hG, h2.1, h2.2, h1.1, h1.2⟩), if_pos h1, if_pos h2, star_mul]
          ring
        · rw [if_neg (fun h : Reaches g.toGridIn f b y x => h2 ⟨h.2.1, h.2.2.1⟩), if_pos h1, if_neg h2, mul_zero]
      · rw [if_neg (fun h : Reaches g.toGridIn f b y x => h1 ⟨h.2.2.2.1, h.2.2.2.2⟩), if_neg h1, mul_zero]
    simp only [e]
    have e2 : ∀ y, (∑ x ∈ Finset.range g.dimension, if Y ≤ y ∧ y < Y + g.psfDim then
          (if X ≤ x ∧ x < X + g.psfDim then star (kernelAt g fb f b ((y - Y) * g.psfDim + (x - X)) * P y x) * c else 0)
          else 0)
        = if Y ≤ y ∧ y < Y + g.psfDim then ∑ j ∈ Finset.range g.psfDim,
            star (kernelAt g fb f b ((y - Y) * g.psfDim + j) * P y (X + j)) * c else 0 := by
      intro y
      by_cases h1 : Y ≤ y ∧ y < Y + g.psfDim
      · simp only [if_pos h1]
        exact sum_footprint g.dimension g.psfDim X hx fun j x =>
          star (kernelAt g fb f b ((y - Y) * g.psfDim + j) * P y x) * c
      · simp [if_neg h1]
    simp only [e2]
    rw [sum_footprint g.elements g.psfDim Y hy fun i y => ∑ j ∈ Finset.range g.psfDim,
      star (kernelAt g fb f b (i * g.psfDim + j) * P y (X + j)) * c]
    unfold sampled
    rw [star_sum, Finset.sum_mul]
    refine Finset.sum_congr rfl fun i _ => ?_
    rw [star_sum, Finset.sum_mul]
  · rw [if_neg hG]
    refine Finset.sum_eq_zero fun y _ => Finset.sum_eq_zero fun x _ => ?_
    rw [if_neg (fun h : Reaches g.toGridIn f b y x => hG h.1), mul_zero]

omit [StarRing K] in
theorem list_sum_filter {α : Type} (l : List α) (p : α → Prop) [DecidablePred p] (F : α → K) :
    (l.map fun s => if p s then F s else 0).sum = ((l.filter fun s => decide (p s)).map F).sum := by
  induction l with
  | nil => rfl
  | cons a t ih =>
    by_cases h : p a <;> simp [h, ih]

omit [StarRing K] in
theorem list_sum_comm {α : Type} (l : List α) (n m : ℕ) (F : α → ℕ → ℕ → K) :
    ∑ y ∈ Finset.range n, ∑ x ∈ Finset.range m, (l.map fun s => F s y x).sum
      = (l.map fun s => ∑ y ∈ Finset.range n, ∑ x ∈ Finset.range m, F s y x).sum := by
  induction l with
  | nil => simp
  | cons a t ih => simp only [List.map_cons, List.sum_cons, Finset.sum_add_distrib, ih]

/-- **C234** (square planes, one kernel for all channels). Gridding is the adjoint of sampling with the kernels: the product of the
gridded plane with any plane is, up to the number of samples, the product of the visibilities with what the samples see of this
plane. -/
theorem C234_adjoint_partial (g : VisGridIn K) (hsq : g.elements = g.dimension) (hf : g.freqAll ≠ [])
    (hl : ∀ b, 0 ≤ blLength g.toGridIn b) (hr : 0 < g.res) (hk : 0 < g.kpix) {fb : ℕ}
    (hfb : ∀ f ∈ g.fiUse, g.fbin f = fb) {o : VisGridOut K} (ho : visGridCore g = .ok (some o)) (P : Plane K) :
    o.nVis = (griddedSamples g).length ∧
    ∑ y ∈ Finset.range g.elements, ∑ x ∈ Finset.range g.dimension, star (P y x) * o.planes.image y x
      = ((griddedSamples g).map fun s => star (sampled g fb P s.1 s.2) * visOf g s.1 s.2).sum / o.nVis := by
  obtain ⟨o', h1, _, h3⟩ := C31_planes_partial g hsq hf hl hr hk
  rw [ho] at h1
  simp only [Except.ok.injEq] at h1
  subst h1
  obtain ⟨hn, hp⟩ := h3 o rfl
  constructor
  · rw [hn, range_filter_flat g.toGridIn fun s => decide (Gridable g.toGridIn s.1 s.2), List.countP_eq_length_filter]
    rfl
  · have e : ∀ y x, star (P y x) * o.planes.image y x = (g.flat.map fun s => star (P y x) *
        (if Reaches g.toGridIn s.1 s.2 y x then star (kernelAt g fb s.1 s.2
          ((y - y0 g.toGridIn s.1 s.2) * g.psfDim + (x - x0 g.toGridIn s.1 s.2))) *
            (visOf g s.1 s.2 / o.nVis) else 0)).sum := by
      intro y x
      rw [(hp y x).1, planes_flat g hfb (fun κ f b p => star (κ p) * visOf g f b / (o.nVis : K)) y x,
        ← List.sum_map_mul_left]
      simp only [mul_div_assoc]
    simp only [e]
    rw [list_sum_comm]
    simp only [sample_product]
    rw [list_sum_filter g.flat (fun s => Gridable g.toGridIn s.1 s.2)
      (fun s => star (sampled g fb P s.1 s.2) * (visOf g s.1 s.2 / o.nVis)), div_eq_mul_inv, ← List.sum_map_mul_right]
    simp only [div_eq_mul_inv, mul_assoc]
    rfl

/-- The hypotheses of C234 are met: both channels of this example share a kernel, and four samples are gridded. -/
example : let g : VisGridIn ℚ := { exVis false with fbin := fun _ => 1 }
    g.elements = g.dimension ∧ g.freqAll ≠ [] ∧ (∀ b, 0 ≤ blLength g.toGridIn b) ∧ 0 < g.res ∧ 0 < g.kpix ∧
    (∀ f ∈ g.fiUse, g.fbin f = 1) ∧ griddedSamples g = [(0, 0), (0, 1), (0, 2), (1, 0)] ∧
    (visGridCore g).map (fun o => o.map fun o => o.nVis) = .ok (some 4) ∧
    sampled g 1 (fun y x => (y : ℚ) + x) 0 1 = 6321 :=
  ⟨by decide, by decide, exGrid_len _ _ _ _ _, by decide, by decide +kernel, by decide, by decide +kernel,
    by decide +kernel, by decide +kernel⟩

end Adjoint

section Image

open Complex

namespace Spec

/-- The visibilities, without noise, of a source of flux 1 at pixel `(k, l)` of an image of `n` by `n` pixels. -/
noncomputable def unitSource (n k l : ℕ) : Plane ℂ := pointSource n n 1 ((k : ℤ) - n / 2) ((l : ℤ) - n / 2)

end Spec

/-- The transform compares the plane with that of a source. -/
theorem uvToImage_source (n : ℕ) (hn : 0 < n) (hn2 : n % 2 = 0) (f : Plane ℂ) (k l : ℕ) :
    uvToImage n n f k l = (∑ a ∈ Finset.range n, ∑ b ∈ Finset.range n, star (unitSource n k l a b) * f a b)
      / ((n : ℂ) * n) := by
  rw [C97_fourier n n hn hn hn2 hn2, Spec.fourier]
  congr 1
  refine Finset.sum_congr rfl fun a _ => Finset.sum_congr rfl fun b _ => ?_
  unfold unitSource pointSource
  rw [one_mul, mul_comm]
  congr 1
  obtain ⟨h, rfl⟩ : ∃ h, n = 2 * h := ⟨n / 2, by omega⟩
  have e : ((2 * h : ℕ) : ℤ) / 2 = h := by omega
  rw [e, Complex.star_def, ← Complex.exp_conj]
  congr 1
  simp only [map_mul, map_add, map_sub, map_div₀, Complex.conj_I, Complex.conj_ofReal, map_natCast, map_intCast, map_ofNat]
  push_cast
  ring

/-- The image of a symmetrised plane is the real part of the image. -/
theorem uvToImage_symmetrise (n : ℕ) (hn : 0 < n) (hn2 : n % 2 = 0) (f : Plane ℂ) (k l : ℕ) :
    uvToImage n n (symmetrise true n n f) k l = ((uvToImage n n f k l).re : ℂ) := by
  have h1 := C97_gridded_real n n hn hn hn2 hn2 f k l
  have h2 := C97_gridded_real n n hn hn hn2 hn2 (fun a b => I * f a b) k l
  have e : f = fun a b => 1 * symmetrise true n n f a b + (-I) * symmetrise true n n (fun a b => I * f a b) a b := by
    funext a b
    unfold symmetrise conjugateMirror npRoll1 npFlip
    simp only [if_true, star_mul', Complex.star_def, Complex.conj_I]
    linear_combination ((1 : ℂ) / 2) * (f a b - (starRingEnd ℂ) _) * Complex.I_mul_I
  have h3 := C97_linear n n (symmetrise true n n f) (symmetrise true n n fun a b => I * f a b) 1 (-I) k l
  rw [← e] at h3
  rw [h3]
  apply Complex.ext
  · simp [h2]
  · simp [h1]

/-- **C235** (square planes of even size, one kernel for all channels). The dirty image at a pixel compares the visibilities
with those a source at this pixel would have. -/
theorem C235_matched_partial (g : VisGridIn ℂ) (hsq : g.elements = g.dimension) (h0 : 0 < g.dimension)
    (h2 : g.dimension % 2 = 0) (hf : g.freqAll ≠ []) (hl : ∀ b, 0 ≤ blLength g.toGridIn b) (hr : 0 < g.res)
    (hk : 0 < g.kpix) {fb : ℕ} (hfb : ∀ f ∈ g.fiUse, g.fbin f = fb) {o : VisGridOut ℂ}
    (ho : visibilityGrid g = .ok (some o)) (k l : ℕ) :
    o.nVis = (griddedSamples g).length ∧
    let D := ((griddedSamples g).map fun s =>
      star (sampled g fb (unitSource g.dimension k l) s.1 s.2) * visOf g s.1 s.2).sum
        / (o.nVis * ((g.dimension : ℂ) * g.dimension))
    uvToImage g.dimension g.dimension o.planes.image k l = if g.noConjugate then D else (D.re : ℂ) := by
  unfold visibilityGrid at ho
  cases hc : visGridCore g with
  | error e => rw [hc] at ho; cases ho
  | ok r =>
    rw [hc] at ho
    cases r with
    | none => cases ho
    | some v =>
      have ho' : visGridFinish g v = o := by
        simpa [bind, Except.bind, pure, Except.pure] using ho
      obtain ⟨hn, had⟩ := C234_adjoint_partial g hsq hf hl hr hk hfb hc (unitSource g.dimension k l)
      have hcore : uvToImage g.dimension g.dimension v.planes.image k l = ((griddedSamples g).map fun s =>
          star (sampled g fb (unitSource g.dimension k l) s.1 s.2) * visOf g s.1 s.2).sum
            / (v.nVis * ((g.dimension : ℂ) * g.dimension)) := by
        rw [uvToImage_source g.dimension h0 h2]
        rw [hsq] at had
        rw [had, div_div]
      have hnv : o.nVis = v.nVis := by
        rw [← ho']; unfold visGridFinish; split_ifs <;> rfl
      refine ⟨hnv.trans hn, ?_⟩
      simp only []
      rw [hnv, ← hcore, ← ho']
      unfold visGridFinish
      by_cases hj : g.noConjugate = true
      · rw [if_pos hj, if_pos hj]
      · rw [if_neg hj, if_neg hj]
        show uvToImage _ _ (symmetrise true g.elements g.dimension v.planes.image) k l = _
        rw [hsq]
        exact uvToImage_symmetrise _ h0 h2 _ k l

/-- **C235**, a source: with the visibilities of a source of flux `S`, the dirty image at its pixel is `S` times a number that is
not negative, and positive as soon as one sample sees the source. -/
theorem C235_source_partial (g : VisGridIn ℂ) (hsq : g.elements = g.dimension) (h0 : 0 < g.dimension)
    (h2 : g.dimension % 2 = 0) (hf : g.freqAll ≠ []) (hl : ∀ b, 0 ≤ blLength g.toGridIn b) (hr : 0 < g.res)
    (hk : 0 < g.kpix) {fb : ℕ} (hfb : ∀ f ∈ g.fiUse, g.fbin f = fb) {o : VisGridOut ℂ}
    (ho : visibilityGrid g = .ok (some o)) (k l : ℕ) (S : ℝ)
    (hv : ∀ s ∈ griddedSamples g, visOf g s.1 s.2 = S * sampled g fb (unitSource g.dimension k l) s.1 s.2) :
    ∃ c : ℝ, 0 ≤ c ∧ uvToImage g.dimension g.dimension o.planes.image k l = ((S * c : ℝ) : ℂ) ∧
      ((∃ s ∈ griddedSamples g, sampled g fb (unitSource g.dimension k l) s.1 s.2 ≠ 0) → 0 < c) := by
  obtain ⟨hn, hi⟩ := C235_matched_partial g hsq h0 h2 hf hl hr hk hfb ho k l
  set q := fun s : ℕ × ℕ => Complex.normSq (sampled g fb (unitSource g.dimension k l) s.1 s.2) with hq
  have hq0 : ∀ s, 0 ≤ q s := fun s => Complex.normSq_nonneg _
  have hsum : ((griddedSamples g).map fun s =>
      star (sampled g fb (unitSource g.dimension k l) s.1 s.2) * visOf g s.1 s.2).sum
        = ((S * ((griddedSamples g).map q).sum : ℝ) : ℂ) := by
    have : ∀ L : List (ℕ × ℕ), (∀ s ∈ L, visOf g s.1 s.2 = S * sampled g fb (unitSource g.dimension k l) s.1 s.2) →
        (L.map fun s => star (sampled g fb (unitSource g.dimension k l) s.1 s.2) * visOf g s.1 s.2).sum
          = ((S * (L.map q).sum : ℝ) : ℂ) := by
      intro L
      induction L with
      | nil => intro _; simp
      | cons a t ih =>
        intro hL
        simp only [List.map_cons, List.sum_cons]
        rw [ih fun s hs => hL s (by simp [hs]), hL a (by simp)]
        have := Complex.normSq_eq_conj_mul_self (z := sampled g fb (unitSource g.dimension k l) a.1 a.2)
        simp only [hq]
        push_cast
        rw [this, Complex.star_def]
        ring
    exact this _ hv
  refine ⟨((griddedSamples g).map q).sum / (o.nVis * ((g.dimension : ℝ) * g.dimension)), ?_, ?_, ?_⟩
  · refine div_nonneg (List.sum_nonneg ?_) (by positivity)
    intro x hx
    obtain ⟨s, _, rfl⟩ := List.mem_map.1 hx
    exact hq0 s
  · simp only [hsum] at hi
    have hD : ((S * ((griddedSamples g).map q).sum : ℝ) : ℂ) / (o.nVis * ((g.dimension : ℂ) * g.dimension))
        = ((S * (((griddedSamples g).map q).sum / (o.nVis * ((g.dimension : ℝ) * g.dimension))) : ℝ) : ℂ) := by
      push_cast
      ring
    rw [hi, hD, Complex.ofReal_re]
    split_ifs <;> rfl
  · rintro ⟨s, hs, hne⟩
    have hpos : 0 < ((griddedSamples g).map q).sum := by
      refine lt_of_lt_of_le (Complex.normSq_pos.2 hne) (List.single_le_sum ?_ _ (List.mem_map.2 ⟨s, hs, rfl⟩))
      intro x hx
      obtain ⟨s, _, rfl⟩ := List.mem_map.1 hx
      exact hq0 s
    have h1 : (0 : ℝ) < o.nVis := by
      rw [hn]
      exact_mod_cast List.length_pos_of_mem hs
    have h3 : (0 : ℝ) < g.dimension := by exact_mod_cast h0
    positivity

/-- An observation of a source of flux 3 at pixel `(5, 6)`, with kernels of one cell. -/
noncomputable def exSource : VisGridIn ℂ :=
  let g : VisGridIn ℂ :=
    { toGridIn := (exVis false).toGridIn
      fbin := fun _ => 0
      kern := fun _ _ _ p => if p = 0 then 1 else 0
      group := fun _ => 0
      vis := fun _ _ => 0
      interp := false
      noConjugate := false }
  { g with vis := fun f b =>
      let v : ℂ := (3 : ℝ) * sampled g 0 (unitSource 16 5 6) f b
      if Mirrored g.toGridIn b then star v else v }

/-- It meets the hypotheses of C235, it is gridded, and the samples see the source. -/
example : exSource.elements = exSource.dimension ∧ exSource.dimension = 16 ∧ exSource.freqAll ≠ [] ∧
    (∀ b, 0 ≤ blLength exSource.toGridIn b) ∧ 0 < exSource.res ∧ 0 < exSource.kpix ∧
    (∀ f ∈ exSource.fiUse, exSource.fbin f = 0) ∧ (∃ o, visibilityGrid exSource = .ok (some o)) ∧
    (∀ s : ℕ × ℕ, visOf exSource s.1 s.2 = (3 : ℝ) * sampled exSource 0 (unitSource 16 5 6) s.1 s.2) ∧
    (0, 1) ∈ griddedSamples exSource ∧ sampled exSource 0 (unitSource 16 5 6) 0 1 ≠ 0 := by
  have hl : ∀ b, 0 ≤ blLength exSource.toGridIn b := exGrid_len _ _ _ _ _
  have hm : (0, 1) ∈ griddedSamples exSource :=
    show (0, 1) ∈ griddedSamples (exVis false) by decide +kernel
  refine ⟨rfl, rfl, by show [1, 3 / 2] ≠ []; simp, hl, by show 0 < 4; omega, by show (0 : ℚ) < 1; norm_num, fun _ _ => rfl, ?_, ?_, hm, ?_⟩
  · obtain ⟨o, h1, h2, _⟩ := C31_planes_partial exSource rfl (by show [1, 3 / 2] ≠ []; simp) hl (by show 0 < 4; omega)
      (by show (0 : ℚ) < 1; norm_num)
    cases o with
    | none =>
      have : Gridable exSource.toGridIn (chanOf exSource.toGridIn 1) (blOf exSource.toGridIn 1) :=
        show Gridable (exVis false).toGridIn (chanOf (exVis false).toGridIn 1) (blOf (exVis false).toGridIn 1) by
          decide +kernel
      exact absurd this (h2.1 rfl 1 (show 1 < (exVis false).fiUse.length * (exVis false).biUse.length by decide))
    | some o =>
      refine ⟨visGridFinish exSource o, ?_⟩
      unfold visibilityGrid
      rw [h1]
      rfl
  · intro s
    unfold visOf
    by_cases hM : Mirrored exSource.toGridIn s.2
    · rw [if_pos hM]
      show star (if Mirrored exSource.toGridIn s.2 then _ else _) = _
      rw [if_pos hM, star_star]
      rfl
    · rw [if_neg hM]
      show (if Mirrored exSource.toGridIn s.2 then _ else _) = _
      rw [if_neg hM]
      rfl
  · have : sampled exSource 0 (unitSource 16 5 6) 0 1
        = unitSource 16 5 6 (y0 exSource.toGridIn 0 1) (x0 exSource.toGridIn 0 1) := by
      unfold sampled
      show ∑ i ∈ Finset.range 2, ∑ j ∈ Finset.range 2,
        (if i * 2 + j = 0 then (1 : ℂ) else 0) * _ = _
      simp [Finset.sum_range_succ]
    rw [this]
    unfold unitSource pointSource
    rw [one_mul]
    exact Complex.exp_ne_zero _

end Image

end PyFHD
