import Verif.Model.FloatSum
import Verif.Lemmas.FloatRound
import Verif.Props.VisGrid
import Verif.Props.Planes

/-!
# Sums in floating point arithmetic (C240, C241)
-/

namespace PyFHD

open Spec

variable {p : ℕ} {rnd : ℚ → ℚ}

/-- The same terms but for the order and for zeros. -/
def Spec.SameTerms (l l' : List ℚ) : Prop := (l.filter (· ≠ 0)).Perm (l'.filter (· ≠ 0))

/-- The sum of the sizes of the terms. -/
def Spec.sizeSum (l : List ℚ) : ℚ := (l.map fun x => |x|).sum

theorem sum_filter_ne (l : List ℚ) : (l.filter (· ≠ 0)).sum = l.sum := by
  induction l with
  | nil => rfl
  | cons a l ih =>
    rw [List.filter_cons]
    by_cases h : a = 0
    · simp [h, ← ih]
    · simp [h, ← ih]

theorem sizeSum_filter_ne (l : List ℚ) : sizeSum (l.filter (· ≠ 0)) = sizeSum l := by
  unfold sizeSum
  induction l with
  | nil => rfl
  | cons a l ih =>
    rw [List.filter_cons]
    by_cases h : a = 0
    · simp [h, ← ih]
    · simp [h, ← ih]

theorem SameTerms.sum_eq {l l' : List ℚ} (h : SameTerms l l') : l.sum = l'.sum := by
  rw [← sum_filter_ne l, ← sum_filter_ne l']
  exact List.Perm.sum_eq h

theorem SameTerms.sizeSum_eq {l l' : List ℚ} (h : SameTerms l l') : sizeSum l = sizeSum l' := by
  rw [← sizeSum_filter_ne l, ← sizeSum_filter_ne l']
  exact (List.Perm.map _ h).sum_eq

theorem sizeSum_nonneg (l : List ℚ) : 0 ≤ sizeSum l := by
  apply List.sum_nonneg
  intro x hx
  obtain ⟨y, -, rfl⟩ := List.mem_map.1 hx
  exact abs_nonneg y

theorem sizeSum_append (l l' : List ℚ) : sizeSum (l ++ l') = sizeSum l + sizeSum l' := by
  unfold sizeSum; simp

theorem sizeSum_mul (c : ℚ) (l : List ℚ) : sizeSum (l.map (c * ·)) = |c| * sizeSum l := by
  unfold sizeSum
  rw [List.map_map, ← List.sum_map_mul_left]
  congr 1
  apply List.map_congr_left
  intro x _
  exact abs_mul c x

theorem sizeSum_div (n : ℕ) (l : List ℚ) : sizeSum (l.map (· / (n : ℚ))) = sizeSum l / n := by
  have : (l.map (· / (n : ℚ))) = l.map ((1 / (n : ℚ)) * ·) := by
    apply List.map_congr_left
    intro x _
    ring
  rw [this, sizeSum_mul, abs_of_nonneg (by positivity)]
  ring

theorem sum_mul_list (c : ℚ) (l : List ℚ) : (l.map (c * ·)).sum = c * l.sum := by
  induction l with
  | nil => simp
  | cons a l ih => simp only [List.map_cons, List.sum_cons, ih]; ring

theorem sum_div_list (n : ℕ) (l : List ℚ) : (l.map (· / (n : ℚ))).sum = l.sum / n := by
  induction l with
  | nil => simp
  | cons a l ih => simp only [List.map_cons, List.sum_cons, ih]; ring

/-- One more rounding. -/
theorem round_step (h : Rounding p rnd) {a b e A : ℚ} (h1 : |a - b| ≤ e) (h2 : |b| ≤ A) :
    |rnd a - b| ≤ e * (1 + 1 / 2 ^ p) + A * (1 / 2 ^ p) := by
  have hr := h.rel a
  rw [div_eq_mul_one_div] at hr
  have hu : (0 : ℚ) ≤ 1 / 2 ^ p := by positivity
  have h3 : |a| ≤ A + e := by
    have := abs_add_le b (a - b)
    rw [add_sub_cancel] at this
    linarith
  have h4 : |rnd a - b| ≤ |rnd a - a| + |a - b| := abs_sub_le _ _ _
  have h5 : |a| * (1 / 2 ^ p) ≤ (A + e) * (1 / 2 ^ p) := mul_le_mul_of_nonneg_right h3 hu
  linarith

/-- The error of a computation is at most that of as many roundings as a term has, relative to the sum of the sizes of the terms. -/
theorem accum_error (h : Rounding p rnd) (t : Accum) :
    |t.value rnd - t.terms.sum| ≤ ((1 + 1 / 2 ^ p) ^ t.depth - 1) * sizeSum t.terms ∧ |t.terms.sum| ≤ sizeSum t.terms := by
  have hu : (0 : ℚ) ≤ 1 / 2 ^ p := by positivity
  have h1u : (1 : ℚ) ≤ 1 + 1 / 2 ^ p := by linarith
  have hpow : ∀ {a b : ℕ}, a ≤ b → ((1 : ℚ) + 1 / 2 ^ p) ^ a ≤ (1 + 1 / 2 ^ p) ^ b := fun hab => pow_le_pow_right₀ h1u hab
  have hone : ∀ a : ℕ, (1 : ℚ) ≤ (1 + 1 / 2 ^ p) ^ a := fun a => one_le_pow₀ h1u
  induction t with
  | leaf x => simp [Accum.value, Accum.terms, Accum.depth, sizeSum]
  | add l r hl hr =>
    obtain ⟨l1, l2⟩ := hl
    obtain ⟨r1, r2⟩ := hr
    have hA := sizeSum_nonneg l.terms
    have hB := sizeSum_nonneg r.terms
    simp only [Accum.value, Accum.terms, Accum.depth, List.sum_append, sizeSum_append]
    have hsum : |l.terms.sum + r.terms.sum| ≤ sizeSum l.terms + sizeSum r.terms := le_trans (abs_add_le _ _) (by linarith)
    refine ⟨?_, hsum⟩
    have hl' := mul_le_mul_of_nonneg_right (sub_le_sub_right (hpow (le_max_left l.depth r.depth)) 1) hA
    have hr' := mul_le_mul_of_nonneg_right (sub_le_sub_right (hpow (le_max_right l.depth r.depth)) 1) hB
    have hd : |l.value rnd + r.value rnd - (l.terms.sum + r.terms.sum)| ≤
        ((1 + 1 / 2 ^ p) ^ max l.depth r.depth - 1) * (sizeSum l.terms + sizeSum r.terms) := by
      have e : l.value rnd + r.value rnd - (l.terms.sum + r.terms.sum) = (l.value rnd - l.terms.sum) + (r.value rnd - r.terms.sum) := by ring
      rw [e]
      refine le_trans (abs_add_le _ _) ?_
      linarith
    have := round_step h hd hsum
    refine le_trans this (le_of_eq ?_)
    rw [pow_succ]
    ring
  | mul c t ht =>
    obtain ⟨t1, t2⟩ := ht
    simp only [Accum.value, Accum.terms, Accum.depth, sum_mul_list, sizeSum_mul]
    have hsum : |c * t.terms.sum| ≤ |c| * sizeSum t.terms := by
      rw [abs_mul]; exact mul_le_mul_of_nonneg_left t2 (abs_nonneg c)
    refine ⟨?_, hsum⟩
    have hd : |c * t.value rnd - c * t.terms.sum| ≤ ((1 + 1 / 2 ^ p) ^ t.depth - 1) * (|c| * sizeSum t.terms) := by
      rw [← mul_sub, abs_mul]
      refine le_trans (mul_le_mul_of_nonneg_left t1 (abs_nonneg c)) (le_of_eq (by ring))
    refine le_trans (round_step h hd hsum) (le_of_eq ?_)
    rw [pow_succ]
    ring
  | div t n ht =>
    obtain ⟨t1, t2⟩ := ht
    simp only [Accum.value, Accum.terms, Accum.depth, sum_div_list, sizeSum_div]
    have hA := sizeSum_nonneg t.terms
    have hn : (0 : ℚ) ≤ 1 / n := by positivity
    have hsum : |t.terms.sum / n| ≤ sizeSum t.terms / n := by
      rw [abs_div, abs_of_nonneg (Nat.cast_nonneg n : (0 : ℚ) ≤ n)]
      exact div_le_div_of_nonneg_right t2 (Nat.cast_nonneg n)
    refine ⟨?_, hsum⟩
    have hrec : |rnd (1 / (n : ℚ)) - 1 / n| ≤ 1 / n * (1 / 2 ^ p) := by
      have := h.rel (1 / (n : ℚ))
      rw [abs_of_nonneg hn] at this
      exact le_trans this (le_of_eq (div_eq_mul_one_div _ _))
    have hrb : |rnd (1 / (n : ℚ))| ≤ 1 / n * (1 + 1 / 2 ^ p) := by
      have := abs_add_le (rnd (1 / (n : ℚ)) - 1 / n) (1 / n)
      rw [sub_add_cancel, abs_of_nonneg hn] at this
      linarith
    have hd : |t.value rnd * rnd (1 / n) - t.terms.sum / n| ≤
        ((1 + 1 / 2 ^ p) ^ (t.depth + 1) - 1) * (sizeSum t.terms / n) := by
      have e : t.value rnd * rnd (1 / n) - t.terms.sum / n =
          (t.value rnd - t.terms.sum) * rnd (1 / n) + t.terms.sum * (rnd (1 / n) - 1 / n) := by ring
      rw [e]
      refine le_trans (abs_add_le _ _) ?_
      rw [abs_mul, abs_mul]
      have a1 : |t.value rnd - t.terms.sum| * |rnd (1 / (n : ℚ))| ≤
          (((1 + 1 / 2 ^ p) ^ t.depth - 1) * sizeSum t.terms) * (1 / n * (1 + 1 / 2 ^ p)) :=
        mul_le_mul t1 hrb (abs_nonneg _) (mul_nonneg (by have := hone t.depth; linarith) hA)
      have a2 : |t.terms.sum| * |rnd (1 / (n : ℚ)) - 1 / n| ≤ sizeSum t.terms * (1 / n * (1 / 2 ^ p)) :=
        mul_le_mul t2 hrec (abs_nonneg _) hA
      refine le_trans (add_le_add a1 a2) (le_of_eq ?_)
      rw [pow_succ]
      ring
    refine le_trans (round_step h hd hsum) (le_of_eq ?_)
    rw [show t.depth + 2 = (t.depth + 1) + 1 from rfl, pow_succ _ (t.depth + 1)]
    ring
  | fma l c r hl hr =>
    obtain ⟨l1, l2⟩ := hl
    obtain ⟨r1, r2⟩ := hr
    have hA := sizeSum_nonneg l.terms
    have hB : 0 ≤ |c| * sizeSum r.terms := mul_nonneg (abs_nonneg c) (sizeSum_nonneg r.terms)
    simp only [Accum.value, Accum.terms, Accum.depth, List.sum_append, sizeSum_append, sum_mul_list, sizeSum_mul]
    have hs2 : |c * r.terms.sum| ≤ |c| * sizeSum r.terms := by
      rw [abs_mul]; exact mul_le_mul_of_nonneg_left r2 (abs_nonneg c)
    have hsum : |l.terms.sum + c * r.terms.sum| ≤ sizeSum l.terms + |c| * sizeSum r.terms := le_trans (abs_add_le _ _) (by linarith)
    refine ⟨?_, hsum⟩
    have hl' := mul_le_mul_of_nonneg_right (sub_le_sub_right (hpow (le_max_left l.depth r.depth)) 1) hA
    have hr' := mul_le_mul_of_nonneg_right (sub_le_sub_right (hpow (le_max_right l.depth r.depth)) 1) hB
    have hr'' : |c * r.value rnd - c * r.terms.sum| ≤ ((1 + 1 / 2 ^ p) ^ r.depth - 1) * (|c| * sizeSum r.terms) := by
      rw [← mul_sub, abs_mul]
      refine le_trans (mul_le_mul_of_nonneg_left r1 (abs_nonneg c)) (le_of_eq (by ring))
    have hd : |l.value rnd + c * r.value rnd - (l.terms.sum + c * r.terms.sum)| ≤
        ((1 + 1 / 2 ^ p) ^ max l.depth r.depth - 1) * (sizeSum l.terms + |c| * sizeSum r.terms) := by
      have e : l.value rnd + c * r.value rnd - (l.terms.sum + c * r.terms.sum) =
          (l.value rnd - l.terms.sum) + (c * r.value rnd - c * r.terms.sum) := by ring
      rw [e]
      refine le_trans (abs_add_le _ _) ?_
      linarith
    refine le_trans (round_step h hd hsum) (le_of_eq ?_)
    rw [pow_succ]
    ring

/-- The error of `m` roundings. -/
theorem roundings_le (m : ℕ) (hm : m < 2 ^ p) : (1 + 1 / 2 ^ p : ℚ) ^ m - 1 ≤ m / (2 ^ p - m) := by
  have hP : (0 : ℚ) < 2 ^ p := by positivity
  have key : ∀ m : ℕ, m < 2 ^ p → (1 + 1 / 2 ^ p : ℚ) ^ m * (2 ^ p - m) ≤ 2 ^ p := by
    intro m
    induction m with
    | zero => intro _; simp
    | succ m ih =>
      intro hm
      have h1 := ih (by omega)
      have hm' : ((m : ℚ) + 1) < 2 ^ p := by exact_mod_cast hm
      have h2 : (1 + 1 / 2 ^ p : ℚ) * (2 ^ p - ((m : ℚ) + 1)) ≤ 2 ^ p - m := by
        have e : (1 + 1 / 2 ^ p : ℚ) * (2 ^ p - ((m : ℚ) + 1)) = 2 ^ p - m - ((m : ℚ) + 1) / 2 ^ p := by
          field_simp
          ring
        rw [e]
        have : (0 : ℚ) ≤ ((m : ℚ) + 1) / 2 ^ p := by positivity
        linarith
      push_cast
      calc (1 + 1 / 2 ^ p : ℚ) ^ (m + 1) * (2 ^ p - ((m : ℚ) + 1))
          = (1 + 1 / 2 ^ p) ^ m * ((1 + 1 / 2 ^ p) * (2 ^ p - ((m : ℚ) + 1))) := by rw [pow_succ]; ring
        _ ≤ (1 + 1 / 2 ^ p) ^ m * (2 ^ p - m) := mul_le_mul_of_nonneg_left h2 (by positivity)
        _ ≤ 2 ^ p := h1
  have hm' : (m : ℚ) < 2 ^ p := by exact_mod_cast hm
  have hd : (0 : ℚ) < 2 ^ p - m := by linarith
  have := key m hm
  rw [sub_le_iff_le_add, ← sub_nonneg]
  have e : (m : ℚ) / (2 ^ p - m) + 1 - (1 + 1 / 2 ^ p) ^ m = (2 ^ p - (1 + 1 / 2 ^ p : ℚ) ^ m * (2 ^ p - m)) / (2 ^ p - m) := by
    field_simp
    ring
  rw [e]
  exact div_nonneg (by linarith) hd.le

/-! ## C240: the planes -/

/-- The two parts of a complex number. -/
structure Spec.Parts (K : Type) [Field K] [StarRing K] where
  re : K →+ ℚ
  im : K →+ ℚ
  re_one : re 1 = 1
  im_one : im 1 = 0
  re_mul : ∀ x y, re (x * y) = re x * re y - im x * im y
  im_mul : ∀ x y, im (x * y) = re x * im y + im x * re y
  re_star : ∀ x, re (star x) = re x
  im_star : ∀ x, im (star x) = -im x

variable {K : Type} [Field K] [StarRing K]

theorem Spec.Parts.cast (P : Parts K) (n : ℕ) : P.re n = n ∧ P.im n = 0 := by
  induction n with
  | zero => simp
  | succ n ih =>
    push_cast
    rw [map_add, map_add, ih.1, ih.2, P.re_one, P.im_one]
    simp

theorem Spec.Parts.div (P : Parts K) (x : K) (n : ℕ) : P.re (x / n) = P.re x / n ∧ P.im (x / n) = P.im x / n := by
  by_cases hn : n = 0
  · subst hn
    simp
  · have hq : (n : ℚ) ≠ 0 := by exact_mod_cast hn
    have hK : (n : K) ≠ 0 := by
      intro h
      have := (P.cast n).1
      rw [h, map_zero] at this
      exact hq this.symm
    have e : x / n * n = x := div_mul_cancel₀ x hK
    have h1 := congrArg P.re e
    have h2 := congrArg P.im e
    rw [P.re_mul, (P.cast n).1, (P.cast n).2, mul_zero, sub_zero] at h1
    rw [P.im_mul, (P.cast n).1, (P.cast n).2, mul_zero, zero_add] at h2
    exact ⟨by rw [← h1]; field_simp, by rw [← h2]; field_simp⟩

/-- The samples that reach a pixel, with the place of the pixel in the footprint of each. -/
def Spec.reaching (g : GridIn) (y x : ℕ) : List (ℕ × ℕ) :=
  ((List.range (g.fiUse.length * g.biUse.length)).filter fun k => decide (Reaches g (chanOf g k) (blOf g k) y x)).map fun k =>
    (k, (y - y0 g (chanOf g k) (blOf g k)) * g.psfDim + (x - x0 g (chanOf g k) (blOf g k)))

theorem sumReaching_list (g : GridIn) (y x : ℕ) (c : ℕ → ℕ → ℚ) :
    sumReaching g y x c = ((reaching g y x).map fun s => c s.1 s.2).sum := by
  unfold sumReaching reaching
  rw [List.map_map, ← Finset.sum_filter]
  rw [← List.sum_toFinset _ (List.nodup_range.filter _)]
  apply Finset.sum_congr
  · ext k
    simp
  · intro k _
    rfl

omit [StarRing K] in
theorem sumReaching_hom (φ : K →+ ℚ) (g : GridIn) (y x : ℕ) (c : ℕ → ℕ → K) :
    φ (sumReaching g y x c) = sumReaching g y x fun k q => φ (c k q) := by
  unfold sumReaching
  rw [map_sum]
  apply Finset.sum_congr rfl
  intro k _
  split_ifs <;> simp

theorem flatMap_two (l : List (ℕ × ℕ)) (a b : ℕ × ℕ → ℚ) : (l.flatMap fun s => [a s, b s]).sum = (l.map fun s => a s + b s).sum := by
  induction l with
  | nil => rfl
  | cons s l ih => simp only [List.flatMap_cons, List.sum_append, ih, List.map_cons, List.sum_cons, List.sum_nil]; ring


/-- **C240** (square planes, as C31). However the real part of a pixel of the image is computed from the parts of kernels and visibilities
(in any order, with visibilities of equal kernels added first or not), it differs from that of the exact sum by at most as many
rounding errors as a term has, relative to the sum of the sizes of the terms. -/
theorem C240_real_partial (h : Rounding p rnd) (P : Parts K) (g : VisGridIn K) (hsq : g.elements = g.dimension) (hf : g.freqAll ≠ [])
    (hl : ∀ b, 0 ≤ blLength g.toGridIn b) (hr : 0 < g.res) (hk : 0 < g.kpix) {out : VisGridOut K}
    (ho : visGridCore g = .ok (some out)) (y x : ℕ) (t : Accum)
    (ht : SameTerms t.terms ((reaching g.toGridIn y x).flatMap fun s =>
      [P.re (usedKernel g s.1 s.2) * P.re (visOf g (chanOf g.toGridIn s.1) (blOf g.toGridIn s.1)) / out.nVis,
       P.im (usedKernel g s.1 s.2) * P.im (visOf g (chanOf g.toGridIn s.1) (blOf g.toGridIn s.1)) / out.nVis])) :
    |t.value rnd - P.re (out.planes.image y x)| ≤ ((1 + 1 / 2 ^ p) ^ t.depth - 1) * sizeSum t.terms := by
  obtain ⟨o, h1, -, h3⟩ := C31_planes_partial g hsq hf hl hr hk
  rw [ho] at h1
  injection h1 with h1
  obtain ⟨-, h4⟩ := h3 out h1.symm
  have e : P.re (out.planes.image y x) = t.terms.sum := by
    rw [(h4 y x).1, sumReaching_hom, sumReaching_list, SameTerms.sum_eq ht, flatMap_two]
    congr 1
    apply List.map_congr_left
    intro s _
    rw [(P.div _ _).1, P.re_mul, P.re_star, P.im_star]
    ring
  rw [e]
  exact (accum_error h t).1

/-- **C240**, the imaginary part. -/
theorem C240_imaginary_partial (h : Rounding p rnd) (P : Parts K) (g : VisGridIn K) (hsq : g.elements = g.dimension) (hf : g.freqAll ≠ [])
    (hl : ∀ b, 0 ≤ blLength g.toGridIn b) (hr : 0 < g.res) (hk : 0 < g.kpix) {out : VisGridOut K}
    (ho : visGridCore g = .ok (some out)) (y x : ℕ) (t : Accum)
    (ht : SameTerms t.terms ((reaching g.toGridIn y x).flatMap fun s =>
      [P.re (usedKernel g s.1 s.2) * P.im (visOf g (chanOf g.toGridIn s.1) (blOf g.toGridIn s.1)) / out.nVis,
       -(P.im (usedKernel g s.1 s.2) * P.re (visOf g (chanOf g.toGridIn s.1) (blOf g.toGridIn s.1)) / out.nVis)])) :
    |t.value rnd - P.im (out.planes.image y x)| ≤ ((1 + 1 / 2 ^ p) ^ t.depth - 1) * sizeSum t.terms := by
  obtain ⟨o, h1, -, h3⟩ := C31_planes_partial g hsq hf hl hr hk
  rw [ho] at h1
  injection h1 with h1
  obtain ⟨-, h4⟩ := h3 out h1.symm
  have e : P.im (out.planes.image y x) = t.terms.sum := by
    rw [(h4 y x).1, sumReaching_hom, sumReaching_list, SameTerms.sum_eq ht, flatMap_two]
    congr 1
    apply List.map_congr_left
    intro s _
    rw [(P.div _ _).2, P.im_mul, P.re_star, P.im_star]
    ring
  rw [e]
  exact (accum_error h t).1


/-- The factor in C240 is about the number of roundings divided by `2 ^ p`; no term has more roundings than the computation has steps. -/
theorem C240_factor (t : Accum) (ht : t.depth < 2 ^ p) : ((1 + 1 / 2 ^ p : ℚ) ^ t.depth - 1) ≤ t.depth / (2 ^ p - t.depth) :=
  roundings_le _ ht

theorem accum_zero (h : Rounding p rnd) (t : Accum) (ht : ∀ x ∈ t.terms, x = 0) : t.value rnd = 0 := by
  have h0 : sizeSum t.terms = 0 := by
    unfold sizeSum
    apply List.sum_eq_zero
    intro x hx
    obtain ⟨z, hz, rfl⟩ := List.mem_map.1 hx
    rw [ht z hz, abs_zero]
  have h1 : t.terms.sum = 0 := List.sum_eq_zero ht
  have := (accum_error h t).1
  rw [h0, h1, mul_zero, sub_zero] at this
  exact abs_eq_zero.1 (le_antisymm this (abs_nonneg _))

/-- **C240**: a pixel that no visibility reaches is exactly zero. -/
theorem C240_empty_pixel (h : Rounding p rnd) (g : GridIn) (y x : ℕ) (term : ℕ × ℕ → List ℚ)
    (hn : ∀ k < g.fiUse.length * g.biUse.length, ¬ Reaches g (chanOf g k) (blOf g k) y x) (t : Accum)
    (ht : SameTerms t.terms ((reaching g y x).flatMap term)) : t.value rnd = 0 := by
  apply accum_zero h
  have he : reaching g y x = [] := by
    unfold reaching
    rw [List.map_eq_nil_iff, List.filter_eq_nil_iff]
    intro k hk
    simpa using hn k (List.mem_range.1 hk)
  rw [he, List.flatMap_nil] at ht
  unfold SameTerms at ht
  rw [List.filter_nil, List.perm_nil, List.filter_eq_nil_iff] at ht
  intro z hz
  simpa using ht z hz

/-! ## C241: symmetrising -/

/-- Rounding does not depend on the sign. -/
def Spec.Symmetric (rnd : ℚ → ℚ) : Prop := ∀ x, rnd (-x) = -rnd x

theorem roundFloat_symmetric (p : ℕ) : Symmetric (roundFloat p) := by
  intro q
  unfold roundFloat
  rcases lt_trichotomy q 0 with h | h | h
  · rw [if_neg (by simpa using h.ne), if_pos (by simpa using h), if_neg h.ne, if_neg (by simpa using h.le)]
    simp
  · subst h; simp
  · rw [if_neg (by simpa using h.ne'), if_neg (by simpa using h.le), if_neg h.ne', if_pos h, neg_neg]

theorem mirror_idx {n m : ℕ} (a : Plane ℚ) {i j : ℕ} (hi : i < n) (hj : j < m) :
    npRoll1 n m (npFlip n m a) i j = a (negIdx n i) (negIdx m j) := by
  unfold npRoll1 npFlip
  simp [flip_roll_idx hi, flip_roll_idx hj]

/-- **C241.** In floating point arithmetic too, the symmetrised plane is exactly its own conjugate mirror image. -/
theorem C241_hermitian (hs : Symmetric rnd) (n m : ℕ) (re im : Plane ℚ) (i j : ℕ) (hi : i < n) (hj : j < m) :
    (symmetriseR rnd n m re im).1 (negIdx n i) (negIdx m j) = (symmetriseR rnd n m re im).1 i j ∧
    (symmetriseR rnd n m re im).2 (negIdx n i) (negIdx m j) = -(symmetriseR rnd n m re im).2 i j := by
  have hi' : negIdx n i < n := negIdx_lt (by omega)
  have hj' : negIdx m j < m := negIdx_lt (by omega)
  unfold symmetriseR
  simp only [mirror_idx _ hi hj, mirror_idx _ hi' hj', negIdx_negIdx hi, negIdx_negIdx hj]
  refine ⟨by rw [add_comm], ?_⟩
  rw [← hs, ← neg_mul, ← hs]
  congr 3
  ring

/-- Doubling is exact. -/
def Spec.Doubling (rnd : ℚ → ℚ) : Prop := ∀ x, rnd (2 * x) = 2 * rnd x

theorem floatExp_double {q : ℚ} (h : 0 < q) : floatExp (2 * q) = floatExp q + 1 := by
  have h1 : (1 : ℚ) < 2 := by norm_num
  have h2 : (2 : ℚ) ≠ 0 := by norm_num
  obtain ⟨a1, a2⟩ := floatExp_spec h
  obtain ⟨b1, b2⟩ := floatExp_spec (q := 2 * q) (by linarith)
  have c1 : (2 : ℚ) ^ (floatExp q + 1) ≤ 2 * q := by rw [zpow_add_one₀ h2]; linarith
  have c2 : 2 * q < (2 : ℚ) ^ (floatExp q + 1 + 1) := by rw [zpow_add_one₀ h2]; linarith
  have d1 := (zpow_lt_zpow_iff_right₀ h1).1 (lt_of_le_of_lt b1 c2)
  have d2 := (zpow_lt_zpow_iff_right₀ h1).1 (lt_of_le_of_lt c1 b2)
  omega

theorem roundFloat_doubling (p : ℕ) : Doubling (roundFloat p) := by
  have h2 : (2 : ℚ) ≠ 0 := by norm_num
  have key : ∀ q : ℚ, 0 < q → roundPos p (2 * q) = 2 * roundPos p q := by
    intro q hq
    unfold roundPos
    simp only []
    rw [floatExp_double hq, show floatExp q + 1 - (p : ℤ) + 1 = (floatExp q - p + 1) + 1 by ring, zpow_add_one₀ h2]
    have e : 2 * q / ((2 : ℚ) ^ (floatExp q - (p : ℤ) + 1) * 2) = q / (2 : ℚ) ^ (floatExp q - (p : ℤ) + 1) := by
      rw [mul_comm ((2 : ℚ) ^ _) 2, mul_div_mul_left _ _ h2]
    rw [e]
    ring
  intro q
  unfold roundFloat
  rcases lt_trichotomy q 0 with h | h | h
  · rw [if_neg (by linarith), if_neg (by linarith), if_neg h.ne, if_neg (by linarith), show -(2 * q) = 2 * -q by ring, key _ (by linarith)]
    ring
  · subst h; simp
  · rw [if_neg (by linarith), if_pos (by linarith), if_neg h.ne', if_pos h, key q h]

/-- **C241**: symmetrising changes nothing where a plane is its own conjugate mirror image already. -/
theorem C241_fixed (h : Rounding p rnd) (hd : Doubling rnd) (n m : ℕ) (re im : Plane ℚ) (i j : ℕ)
    (hi : i < n) (hj : j < m) (hr : rnd (re i j) = re i j) (hm : rnd (im i j) = im i j)
    (e1 : re (negIdx n i) (negIdx m j) = re i j) (e2 : im (negIdx n i) (negIdx m j) = -im i j) :
    (symmetriseR rnd n m re im).1 i j = re i j ∧ (symmetriseR rnd n m re im).2 i j = im i j := by
  have h1 : rnd 1 = 1 := by
    have := h.int 1
    simpa using this (by rw [abs_one]; exact one_le_pow₀ (by norm_num))
  have hhalf : rnd (1 / 2) = 1 / 2 := by
    have := hd (1 / 2)
    rw [show (2 : ℚ) * (1 / 2) = 1 by norm_num, h1] at this
    linarith
  unfold symmetriseR
  simp only [mirror_idx _ hi hj, e1, e2, hhalf]
  constructor
  · rw [← two_mul, hd, hr, show 2 * re i j * (1 / 2) = re i j by ring, hr]
  · rw [neg_neg, ← two_mul, hd, hm, show 2 * im i j * (1 / 2) = im i j by ring, hm]

/-! ## Cases -/

/-- The rounding of the processor is as assumed. -/
example : Rounding 53 (roundFloat 53) ∧ Symmetric (roundFloat 53) ∧ Doubling (roundFloat 53) :=
  ⟨roundFloat_rounding (by decide), roundFloat_symmetric 53, roundFloat_doubling 53⟩

/-- Real numbers as complex numbers. -/
def exParts : Parts ℚ where
  re := AddMonoidHom.id ℚ
  im := 0
  re_one := rfl
  im_one := rfl
  re_mul := fun x y => by simp
  im_mul := fun x y => by simp
  re_star := fun x => by simp
  im_star := fun x => by simp

/-- A pixel with two visibilities, computed with three binary digits: the visibilities divided by 4, then multiplied with the kernels and
added. -/
def exAccum : Accum := .fma (.mul 22 (.div (.leaf 1) 4)) 114 (.div (.leaf 2) 4)

/-- The hypotheses of C240 are met, and there is an error. -/
example : (exVis false).elements = (exVis false).dimension ∧ (exVis false).freqAll ≠ [] ∧ (∀ b, 0 ≤ blLength (exVis false).toGridIn b) ∧
    0 < (exVis false).res ∧ 0 < (exVis false).kpix ∧
    (visGridCore (exVis false)).map (fun o => o.map fun o => (o.nVis, o.planes.image 8 9)) = .ok (some (4, 125 / 2)) ∧
    SameTerms exAccum.terms ((reaching (exVis false).toGridIn 8 9).flatMap fun s =>
      [exParts.re (usedKernel (exVis false) s.1 s.2) *
        exParts.re (visOf (exVis false) (chanOf (exVis false).toGridIn s.1) (blOf (exVis false).toGridIn s.1)) / 4,
       exParts.im (usedKernel (exVis false) s.1 s.2) *
        exParts.im (visOf (exVis false) (chanOf (exVis false).toGridIn s.1) (blOf (exVis false).toGridIn s.1)) / 4]) ∧
    exAccum.depth = 4 ∧ exAccum.value (roundFloat 3) = 64 := by
  unfold SameTerms
  refine ⟨by decide, by decide, exGrid_len _ _ _ _ _, by decide, by decide +kernel, by decide +kernel, by decide +kernel, rfl,
    by decide +kernel⟩

/-- A pixel that nothing reaches. -/
example : (∀ k < (exVis false).fiUse.length * (exVis false).biUse.length,
    ¬ Reaches (exVis false).toGridIn (chanOf (exVis false).toGridIn k) (blOf (exVis false).toGridIn k) 0 0) := by
  decide +kernel

/-- Symmetrising with three binary digits: the sum `5 + 4` is rounded, on both sides. -/
example : (symmetriseR (roundFloat 3) 3 1 (fun i _ => [1, 5, 4].getD i 0) fun i _ => [0, 5, -4].getD i 0).1 1 0 = 4 ∧
    (symmetriseR (roundFloat 3) 3 1 (fun i _ => [1, 5, 4].getD i 0) fun i _ => [0, 5, -4].getD i 0).1 2 0 = 4 ∧
    (symmetriseR (roundFloat 3) 3 1 (fun i _ => [1, 5, 4].getD i 0) fun i _ => [0, 5, -4].getD i 0).2 1 0 = 4 ∧
    (symmetriseR (roundFloat 3) 3 1 (fun i _ => [1, 5, 4].getD i 0) fun i _ => [0, 5, -4].getD i 0).2 2 0 = -4 := by
  decide +kernel

end PyFHD
