import Verif.Props.CalApply
import Verif.Props.CalStats
import Mathlib.Analysis.SpecialFunctions.Complex.Arg
import Mathlib.Algebra.BigOperators.Group.Finset.Basic
import Mathlib.Analysis.Real.Pi.Bounds

/-!
# C35 and C40: the cross phase and the final convergence
-/

namespace PyFHD

open Complex

/-! ## C35: the cross phase -/

/-- A visibility summed over time with the weights of the first product clipped to `[0, 1]`. -/
noncomputable def Spec.timeSum (nb nt : ℕ) (weights a : ℕ → ℕ → ℕ → ℂ) (p f b : ℕ) : ℂ :=
  ∑ t ∈ Finset.range nt, a p f (t * nb + b) * ((min 1 (max 0 (weights 0 f (t * nb + b)).re) : ℝ) : ℂ)

/-- The squared difference between data and model in the products XY and YX when the data are turned
by the phase `θ` and its opposite. -/
noncomputable def Spec.crossChi2 (nf nb nt : ℕ) (weights vis model : ℕ → ℕ → ℕ → ℂ) (θ : ℝ) : ℝ :=
  ∑ f ∈ Finset.range nf, ∑ b ∈ Finset.range nb,
    (‖Spec.timeSum nb nt weights vis 2 f b * exp (θ * I) - Spec.timeSum nb nt weights model 2 f b‖ ^ 2 +
     ‖Spec.timeSum nb nt weights vis 3 f b * exp (-(θ * I)) - Spec.timeSum nb nt weights model 3 f b‖ ^ 2)

theorem list_sum_range {M : Type} [AddCommMonoid M] (n : ℕ) (g : ℕ → M) :
    ((List.range n).map g).sum = ∑ i ∈ Finset.range n, g i := by
  induction n with
  | zero => rfl
  | succ n ih => rw [List.range_succ, List.map_append, List.sum_append, ih, Finset.sum_range_succ]; simp

theorem list_sum_filter_zero {α M : Type} [AddCommMonoid M] (l : List α) (p : α → Bool) (g : α → M)
    (h : ∀ a ∈ l, p a = false → g a = 0) : ((l.filter p).map g).sum = (l.map g).sum := by
  induction l with
  | nil => rfl
  | cons a l ih =>
    have ih' := ih fun b hb => h b (List.mem_cons_of_mem _ hb)
    rw [List.filter_cons]
    cases hp : p a with
    | true => simp only [if_true, List.map_cons, List.sum_cons, ih']
    | false =>
      simp only [Bool.false_eq_true, if_false, List.map_cons, List.sum_cons, ih',
        h a (List.mem_cons_self ..) hp, zero_add]

theorem list_sum_flatMap_range {M : Type} [AddCommMonoid M] (n m : ℕ) (g : ℕ × ℕ → M) :
    (((List.range n).flatMap fun f => (List.range m).map fun b => (f, b)).map g).sum
      = ∑ f ∈ Finset.range n, ∑ b ∈ Finset.range m, g (f, b) := by
  rw [List.map_flatMap, List.flatMap, List.sum_flatten, List.map_map, ← list_sum_range]
  congr 1
  apply List.map_congr_left
  intro f _
  simp only [Function.comp, List.map_map]
  exact list_sum_range m _

/-- The sum of the model, over all entries. -/
theorem crossPhaseSum_eq (c : CalApplyIn ℂ ℝ)
    (hclip : ∀ x, c.clip x = ((min 1 (max 0 x.re) : ℝ) : ℂ)) (vis model weights : ℕ → ℕ → ℕ → ℂ)
    (nt : ℕ) :
    crossPhaseSum c vis model weights nt =
      ∑ f ∈ Finset.range c.nFreq, ∑ b ∈ Finset.range (c.tileA.length / nt),
        (star (Spec.timeSum (c.tileA.length / nt) nt weights vis 2 f b)
            * Spec.timeSum (c.tileA.length / nt) nt weights model 2 f b
          + Spec.timeSum (c.tileA.length / nt) nt weights vis 3 f b
            * star (Spec.timeSum (c.tileA.length / nt) nt weights model 3 f b)) := by
  have havg : ∀ (a : ℕ → ℕ → ℕ → ℂ) (p f b : ℕ),
      ((List.range nt).map fun t => a p f (t * (c.tileA.length / nt) + b) *
        c.clip (weights 0 f (t * (c.tileA.length / nt) + b))).sum
      = Spec.timeSum (c.tileA.length / nt) nt weights a p f b := by
    intro a p f b
    rw [list_sum_range]
    unfold Spec.timeSum
    apply Finset.sum_congr rfl
    intro t _
    rw [hclip]
  have hzero : ∀ (a : ℕ → ℕ → ℕ → ℂ) (p f b : ℕ),
      ((List.range nt).map fun t => c.clip (weights 0 f (t * (c.tileA.length / nt) + b))).sum = 0 →
      Spec.timeSum (c.tileA.length / nt) nt weights a p f b = 0 := by
    intro a p f b h
    rw [list_sum_range] at h
    have h' : ∑ t ∈ Finset.range nt,
        (min 1 (max 0 (weights 0 f (t * (c.tileA.length / nt) + b)).re) : ℝ) = 0 := by
      have := congrArg Complex.re h
      rw [Complex.re_sum, Complex.zero_re] at this
      refine Eq.trans ?_ this
      apply Finset.sum_congr rfl
      intro t _
      rw [hclip, Complex.ofReal_re]
    rw [Finset.sum_eq_zero_iff_of_nonneg (fun t _ => le_min zero_le_one (le_max_left _ _))] at h'
    unfold Spec.timeSum
    apply Finset.sum_eq_zero
    intro t ht
    rw [h' t ht, Complex.ofReal_zero, mul_zero]
  unfold crossPhaseSum
  simp only [havg]
  rw [list_sum_filter_zero, list_sum_filter_zero, list_sum_flatMap_range, list_sum_flatMap_range,
    ← Finset.sum_add_distrib]
  · apply Finset.sum_congr rfl
    intro f _
    rw [← Finset.sum_add_distrib]
  · intro q _ hq
    rw [hzero vis 3 q.1 q.2 (by simpa using hq), zero_mul]
  · intro q _ hq
    rw [hzero model 2 q.1 q.2 (by simpa using hq), mul_zero]

theorem norm_sub_sq_re (v m z : ℂ) (hz : ‖z‖ = 1) :
    ‖v * z - m‖ ^ 2 = ‖v‖ ^ 2 + ‖m‖ ^ 2 - 2 * (star z * (star v * m)).re := by
  rw [← Complex.normSq_eq_norm_sq, ← Complex.normSq_eq_norm_sq, ← Complex.normSq_eq_norm_sq,
    Complex.normSq_sub, Complex.normSq_mul, Complex.normSq_eq_norm_sq z, hz]
  have : (v * z * (starRingEnd ℂ) m).re = (star z * (star v * m)).re := by
    rw [← Complex.conj_re]
    congr 1
    simp only [map_mul, Complex.conj_conj, Complex.star_def]
    ring
  rw [this]
  ring

theorem crossChi2_eq (nf nb nt : ℕ) (weights vis model : ℕ → ℕ → ℕ → ℂ) (θ : ℝ) :
    Spec.crossChi2 nf nb nt weights vis model θ =
      (∑ f ∈ Finset.range nf, ∑ b ∈ Finset.range nb,
        (‖Spec.timeSum nb nt weights vis 2 f b‖ ^ 2 + ‖Spec.timeSum nb nt weights model 2 f b‖ ^ 2 +
         (‖Spec.timeSum nb nt weights vis 3 f b‖ ^ 2 + ‖Spec.timeSum nb nt weights model 3 f b‖ ^ 2)))
      - 2 * (exp (-(θ * I)) * ∑ f ∈ Finset.range nf, ∑ b ∈ Finset.range nb,
        (star (Spec.timeSum nb nt weights vis 2 f b) * Spec.timeSum nb nt weights model 2 f b
          + Spec.timeSum nb nt weights vis 3 f b * star (Spec.timeSum nb nt weights model 3 f b))).re := by
  have e1 : ‖exp (θ * I)‖ = 1 := Complex.norm_exp_ofReal_mul_I θ
  have e3 : star (exp (θ * I)) = exp (-(θ * I)) := by
    rw [Complex.star_def, ← Complex.exp_conj]; simp
  have e2 : ‖exp (-(θ * I))‖ = 1 := by rw [← e3, norm_star, e1]
  have e4 : star (exp (-(θ * I))) = exp (θ * I) := by rw [← e3, star_star]
  unfold Spec.crossChi2
  rw [Finset.mul_sum, Complex.re_sum, Finset.mul_sum, ← Finset.sum_sub_distrib]
  apply Finset.sum_congr rfl
  intro f _
  rw [Finset.mul_sum, Complex.re_sum, Finset.mul_sum, ← Finset.sum_sub_distrib]
  apply Finset.sum_congr rfl
  intro b _
  rw [norm_sub_sq_re _ _ _ e1, norm_sub_sq_re _ _ _ e2, e3, e4, mul_add, Complex.add_re]
  have : (exp (θ * I) * (star (Spec.timeSum nb nt weights vis 3 f b) *
      Spec.timeSum nb nt weights model 3 f b)).re
      = (exp (-(θ * I)) * (Spec.timeSum nb nt weights vis 3 f b *
        star (Spec.timeSum nb nt weights model 3 f b))).re := by
    rw [← Complex.conj_re, ← e3]
    congr 1
    simp only [map_mul, Complex.star_def, Complex.conj_conj]
  rw [this]
  ring

/-- **C35**, the phase: if `n_times` is supplied, the phase that `vis_calibration_apply` computes (the
argument of the sum) minimises the squared difference between data and model in XY and YX over
all phases. -/
theorem C35_phase_least_squares (c : CalApplyIn ℂ ℝ)
    (hclip : ∀ x, c.clip x = ((min 1 (max 0 x.re) : ℝ) : ℂ))
    (hA : ∀ t ∈ c.tileA, 1 ≤ t ∧ t ≤ c.nTile) (hB : ∀ t ∈ c.tileB, 1 ≤ t ∧ t ≤ c.nTile)
    (h4 : c.nPolVis = 4) (hp : 2 ≤ c.nPolGain) {m w : ℕ → ℕ → ℕ → ℂ} (hm : c.model = some m)
    (hw : c.weights = some w) {nt : ℕ} (ht : c.nTimes = some nt) (hnt : nt ≠ 0) :
    ∃ vis s, visCalibrationApply c = .ok (vis, some s) ∧
      ∀ θ, Spec.crossChi2 c.nFreq (c.tileA.length / nt) nt w vis m (Complex.arg s)
        ≤ Spec.crossChi2 c.nFreq (c.tileA.length / nt) nt w vis m θ := by
  obtain ⟨vis, h1, _⟩ := apply_value c (by omega) (Or.inr hp)
  refine ⟨fun p f b => if p = 2 ∨ p = 3 then vis p f b * 1 else vis p f b,
    crossPhaseSum c vis m w nt, ?_, fun θ => ?_⟩
  · unfold visCalibrationApply
    rw [mapM_tileRow _ _ hA, mapM_tileRow _ _ hB]
    simp only [h1, bind, Except.bind, if_pos h4, hm, hw, ht, if_neg hnt]
    rfl
  · have hv : (fun p f b => if p = 2 ∨ p = 3 then vis p f b * 1 else vis p f b) = vis := by
      funext p f b; split_ifs <;> simp
    rw [hv, crossChi2_eq, crossChi2_eq, ← crossPhaseSum_eq c hclip]
    set S := crossPhaseSum c vis m w nt
    have h2 : (exp (-(θ * I)) * S).re ≤ ‖S‖ := by
      refine le_trans (Complex.re_le_norm _) ?_
      rw [norm_mul, show -(θ * I) = ((-θ : ℝ) : ℂ) * I by push_cast; ring,
        Complex.norm_exp_ofReal_mul_I, one_mul]
    have h3 : (exp (-(Complex.arg S * I)) * S).re = ‖S‖ := by
      have h5 := Complex.norm_mul_exp_arg_mul_I S
      conv_lhs => rw [← h5]
      rw [mul_comm, mul_assoc, ← Complex.exp_add, Complex.norm_mul_exp_arg_mul_I]
      simp
    linarith

/-- **C35**, a phase in the data is found: if the calibrated data are the model turned by a phase `φ` in
XY and by its opposite in YX, and the model is not zero throughout, the phase is `-φ`. -/
theorem C35_phase_found (c : CalApplyIn ℂ ℝ)
    (hclip : ∀ x, c.clip x = ((min 1 (max 0 x.re) : ℝ) : ℂ)) (vis m w : ℕ → ℕ → ℕ → ℂ) (nt : ℕ)
    (φ : ℝ) (hφ : -Real.pi < -φ ∧ -φ ≤ Real.pi)
    (hxy : ∀ f b, vis 2 f b = m 2 f b * exp (φ * I))
    (hyx : ∀ f b, vis 3 f b = m 3 f b * exp (-(φ * I)))
    (hne : ∃ f < c.nFreq, ∃ b < c.tileA.length / nt,
      Spec.timeSum (c.tileA.length / nt) nt w m 2 f b ≠ 0 ∨
      Spec.timeSum (c.tileA.length / nt) nt w m 3 f b ≠ 0) :
    Complex.arg (crossPhaseSum c vis m w nt) = -φ := by
  rw [crossPhaseSum_eq c hclip]
  set nb := c.tileA.length / nt
  have h2 : ∀ f b, Spec.timeSum nb nt w vis 2 f b = Spec.timeSum nb nt w m 2 f b * exp (φ * I) := by
    intro f b
    unfold Spec.timeSum
    rw [Finset.sum_mul]
    apply Finset.sum_congr rfl
    intro t _
    rw [hxy]; ring
  have h3 : ∀ f b, Spec.timeSum nb nt w vis 3 f b = Spec.timeSum nb nt w m 3 f b * exp (-(φ * I)) := by
    intro f b
    unfold Spec.timeSum
    rw [Finset.sum_mul]
    apply Finset.sum_congr rfl
    intro t _
    rw [hyx]; ring
  have hs : star (exp (φ * I)) = exp (-(φ * I)) := by
    rw [Complex.star_def, ← Complex.exp_conj]; simp
  have hsum : (∑ f ∈ Finset.range c.nFreq, ∑ b ∈ Finset.range nb,
        (star (Spec.timeSum nb nt w vis 2 f b) * Spec.timeSum nb nt w m 2 f b
          + Spec.timeSum nb nt w vis 3 f b * star (Spec.timeSum nb nt w m 3 f b)))
      = ((∑ f ∈ Finset.range c.nFreq, ∑ b ∈ Finset.range nb,
          (‖Spec.timeSum nb nt w m 2 f b‖ ^ 2 + ‖Spec.timeSum nb nt w m 3 f b‖ ^ 2) : ℝ) : ℂ)
        * exp (((-φ : ℝ) : ℂ) * I) := by
    rw [Complex.ofReal_sum, Finset.sum_mul]
    apply Finset.sum_congr rfl
    intro f _
    rw [Complex.ofReal_sum, Finset.sum_mul]
    apply Finset.sum_congr rfl
    intro b _
    rw [h2, h3, star_mul, hs, Complex.ofReal_add, ← Complex.normSq_eq_norm_sq,
      ← Complex.normSq_eq_norm_sq, Complex.normSq_eq_conj_mul_self, Complex.normSq_eq_conj_mul_self,
      show ((-φ : ℝ) : ℂ) * I = -(φ * I) by push_cast; ring]
    simp only [Complex.star_def]
    ring
  rw [hsum]
  have hpos : 0 < ∑ f ∈ Finset.range c.nFreq, ∑ b ∈ Finset.range nb,
      (‖Spec.timeSum nb nt w m 2 f b‖ ^ 2 + ‖Spec.timeSum nb nt w m 3 f b‖ ^ 2) := by
    obtain ⟨f, hf, b, hb, h⟩ := hne
    apply Finset.sum_pos' (fun f _ => Finset.sum_nonneg fun b _ => by positivity)
    refine ⟨f, Finset.mem_range.2 hf, ?_⟩
    apply Finset.sum_pos' (fun b _ => by positivity)
    refine ⟨b, Finset.mem_range.2 hb, ?_⟩
    rcases h with h | h
    · have := norm_pos_iff.2 h; positivity
    · have := norm_pos_iff.2 h; positivity
  rw [Complex.arg_real_mul _ hpos, Complex.arg_exp_mul_I]
  exact (toIocMod_eq_self _).2 ⟨hφ.1, by linarith [hφ.2]⟩

/-- One baseline of two tiles at one time, four products, all models 1, and a phase of 1 in XY and YX. -/
noncomputable def exPhase : CalApplyIn ℂ ℝ where
  mag := fun x => ‖x‖
  re := Complex.re
  nPolVis := 4
  nPolGain := 2
  nFreq := 1
  nTile := 2
  tileA := [1]
  tileB := [2]
  gain := fun _ _ _ => 1
  vis := fun p _ _ => if p = 2 then exp (I) else if p = 3 then exp (-I) else 1
  model := some fun _ _ _ => 1
  weights := some fun _ _ _ => 1
  clip := fun x => ((min 1 (max 0 x.re) : ℝ) : ℂ)
  nTimes := some 1

example : ∃ vis s, visCalibrationApply exPhase = .ok (vis, some s) := by
  obtain ⟨v, s, h, -⟩ := C35_phase_least_squares exPhase (fun _ => rfl) (by simp [exPhase])
    (by simp [exPhase]) rfl (by simp [exPhase]) rfl rfl rfl one_ne_zero
  exact ⟨v, s, h⟩

example : Complex.arg (crossPhaseSum exPhase exPhase.vis (fun _ _ _ => 1) (fun _ _ _ => 1) 1) = -1 := by
  have hpi := Real.pi_gt_three
  apply C35_phase_found exPhase (fun _ => rfl) _ _ _ _ 1 ⟨by linarith, by linarith⟩
  · intro f b; simp [exPhase]
  · intro f b; simp [exPhase]
  · exact ⟨0, by simp [exPhase], 0, by simp [exPhase], Or.inl (by simp [Spec.timeSum])⟩

/-! ## C40: the final convergence -/

section Adaptive

variable {R : Type} [Field R] [LinearOrder R] [IsStrictOrderedRing R]

/-- **C40**, the estimate of the final convergence: if every convergence lies between the last one
and a limit `F` as the gain says (`conv[i+1] = (conv[i] + gain[i] F) / (1 + gain[i])`), the
gain without a final convergence is that with the final convergence `F`. -/
theorem C40_final_convergence (gains conv : List R) (iter : ℕ) (base F : R) (hF : 0 ≤ F)
    (hg : ∀ i < iter - 1, gains.getD i 0 ≠ 0)
    (hc : ∀ i < iter - 1, (1 + gains.getD i 0) * conv.getD (i + 1) 0 = conv.getD i 0 + gains.getD i 0 * F) :
    calculateAdaptiveGain gains conv iter base none = calculateAdaptiveGain gains conv iter base (some F) := by
  unfold calculateAdaptiveGain
  by_cases hi : 2 < iter
  · have : finalConvergence gains conv iter = F := by
      unfold finalConvergence
      apply npMedian_majority
      have h1 : ((List.range (iter - 1)).map fun i =>
          max 0 (((1 + gains.getD i 0) * conv.getD (i + 1) 0 - conv.getD i 0) / gains.getD i 0))
          = List.replicate (iter - 1) F := by
        rw [← List.length_range (n := iter - 1), ← List.map_const', List.length_range]
        apply List.map_congr_left
        intro i hi'
        have hlt := List.mem_range.1 hi'
        rw [hc i hlt, add_sub_cancel_left, mul_div_cancel_left₀ _ (hg i hlt), max_eq_right hF]
      rw [h1, List.drop_replicate, List.length_replicate, List.count_replicate_self]
      omega
    simp only [this, Option.getD_none, Option.getD_some]
  · simp only [if_neg hi]

/-- **C40**, the value: with a final convergence, and a last convergence that differs from it, the gain
after the first three iterations is the mean of the last gain and 1 less the relative error of the
predicted convergence, or half the base gain if this is larger. -/
theorem C40_value (gains conv : List R) (iter : ℕ) (base F : R)
    (h1 : iter < gains.length) (h2 : 2 < iter) (h3 : iter ≤ conv.length)
    (last prev new : R) (hl : gains[iter - 1]? = some last) (hp : conv[iter - 2]? = some prev)
    (hn : conv[iter - 1]? = some new) (hb : base + last ≠ 0) (hne : prev ≠ F) :
    ∃ l, calculateAdaptiveGain gains conv iter base (some F) = .ok (some (max (base / 2)
      ((last + (1 - |(F * last + prev - (base + last) * new) / (prev - F)|)) / 2)), l) := by
  have e1 : gains.getD (iter - 1) 0 = last := by rw [List.getD, hl]; rfl
  have e2 : conv.getD (iter - 2) 0 = prev := by rw [List.getD, hp]; rfl
  have e3 : conv.getD (iter - 1) 0 = new := by rw [List.getD, hn]; rfl
  unfold calculateAdaptiveGain
  rw [if_pos ⟨h1, fun _ => h3⟩]
  have hd : (prev - F) / (base + last) ≠ 0 := div_ne_zero (sub_ne_zero.2 hne) hb
  have : ((F * last + prev) / (base + last) - new) / ((prev - F) / (base + last))
      = (F * last + prev - (base + last) * new) / (prev - F) := by
    have := sub_ne_zero.2 hne
    field_simp
  simp only [if_pos h2, Option.getD_some, adaptiveGain, e1, e2, e3, if_neg hd, this]
  rw [show 1 - |(F * last + prev - (base + last) * new) / (prev - F)| + last
    = last + (1 - |(F * last + prev - (base + last) * new) / (prev - F)|) by ring]
  exact ⟨_, rfl⟩

/-- Convergences 9, 5, 3, 2 with gains 1 approach the limit 1. -/
example : (∀ i < 3, (1 + ([1, 1, 1, 1, 0] : List ℚ).getD i 0) * ([9, 5, 3, 2] : List ℚ).getD (i + 1) 0
      = ([9, 5, 3, 2] : List ℚ).getD i 0 + ([1, 1, 1, 1, 0] : List ℚ).getD i 0 * 1) ∧
    (calculateAdaptiveGain (R := ℚ) [1, 1, 1, 1, 0] [9, 5, 3, 2] 4 1 none).map (·.1) = .ok (some 1) := by
  decide +kernel

end Adaptive

end PyFHD
