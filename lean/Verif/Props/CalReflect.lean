import Verif.Model.CalReflect
import Mathlib.Analysis.SpecialFunctions.Complex.Arg
import Mathlib.Analysis.SpecialFunctions.Complex.Log
import Mathlib.RingTheory.RootsOfUnity.Complex
import Mathlib.Tactic.LinearCombination

/-!
# Cable reflections (C148 to C155)
-/

namespace PyFHD

open Complex

namespace Spec

/-- A reflection of complex amplitude `A` with `mode` turns over the band, at channel `f` of `N`. -/
noncomputable def reflection (N : ℕ) (A : ℂ) (mode : ℝ) (f : ℕ) : ℂ := A * exp (-(2 * Real.pi * mode * f / N : ℝ) * I)

/-- What a reflection leaves of a signal: the sum of squares over the channels. -/
noncomputable def leftOver (fs : List ℕ) (g h : ℕ → ℂ) : ℝ := (fs.map fun f => ‖g f - h f‖ ^ 2).sum

/-- A signal minus its mean over the channels. -/
noncomputable def minusMean (fs : List ℕ) (g : ℕ → ℂ) (f : ℕ) : ℂ := g f - (fs.map g).sum / fs.length

/-- The modes within 2.5 of the nominal one in steps of 0.05. -/
def Tried (mode0 mode : ℝ) : Prop := ∃ k : ℤ, -50 ≤ k ∧ k ≤ 50 ∧ mode = mode0 + k / 20

end Spec

open Spec

/-! ## Helpers -/

theorem firstMax_spec (l : List ℝ) (hl : l ≠ []) :
    ∃ h : firstMax l < l.length, ∀ y ∈ l, y ≤ l[firstMax l] := by
  have hex : ∃ x ∈ l, ∀ y ∈ l, y ≤ x := by
    induction l with
    | nil => exact absurd rfl hl
    | cons a l ih =>
      by_cases h : l = []
      · subst h; exact ⟨a, by simp, by simp⟩
      · obtain ⟨x, hx, hm⟩ := ih h
        rcases le_total a x with hax | hax
        · exact ⟨x, by simp [hx], by
            intro y hy
            rcases List.mem_cons.mp hy with rfl | hy
            · exact hax
            · exact hm y hy⟩
        · exact ⟨a, by simp, by
            intro y hy
            rcases List.mem_cons.mp hy with rfl | hy
            · exact le_refl _
            · exact (hm y hy).trans hax⟩
  obtain ⟨x, hx, hm⟩ := hex
  have hlt : firstMax l < l.length := List.findIdx_lt_length_of_exists ⟨x, hx, by simpa using hm⟩
  refine ⟨hlt, ?_⟩
  exact of_decide_eq_true (List.findIdx_getElem (xs := l) (w := hlt))

theorem modeGrid_length (mode0 : ℝ) : (modeGrid mode0).length = 101 := by simp [modeGrid]

theorem mem_modeGrid (mode0 mode : ℝ) : mode ∈ modeGrid mode0 ↔ Tried mode0 mode := by
  unfold modeGrid Tried
  rw [List.mem_map]
  constructor
  · rintro ⟨k, hk, rfl⟩
    rw [List.mem_range] at hk
    refine ⟨(k : ℤ) - 50, by omega, by omega, ?_⟩
    push_cast
    ring
  · rintro ⟨k, h1, h2, rfl⟩
    refine ⟨(k + 50).toNat, List.mem_range.mpr (by omega), ?_⟩
    have : (((k + 50).toNat : ℕ) : ℝ) = ((k + 50 : ℤ) : ℝ) := by
      rw [← Int.cast_natCast, Int.toNat_of_nonneg (by omega)]
    rw [this]
    push_cast
    ring

/-- What `hyperFit` gives: a mode that was tried, whose sum is at least that of every mode tried, and amplitude and phase of the sum. -/
theorem hyperFit_spec (N : ℕ) (fs : List ℕ) (g : ℕ → ℂ) (mode0 : ℝ) :
    Tried mode0 (hyperFit N fs g mode0).mode ∧
    (∀ m, Tried mode0 m → ‖testFit N fs g m‖ ≤ ‖testFit N fs g (hyperFit N fs g mode0).mode‖) ∧
    (hyperFit N fs g mode0).amp = ‖testFit N fs g (hyperFit N fs g mode0).mode‖ / fs.length ∧
    (hyperFit N fs g mode0).phase = arg (testFit N fs g (hyperFit N fs g mode0).mode) := by
  obtain ⟨hk, hm⟩ := firstMax_spec (((modeGrid mode0).map (testFit N fs g)).map fun z => ‖z‖)
    (by rw [← List.length_pos_iff]; simp [modeGrid_length])
  set k := firstMax (((modeGrid mode0).map (testFit N fs g)).map fun z => ‖z‖) with hkdef
  have hk' : k < (modeGrid mode0).length := by simpa using hk
  have hmode : (hyperFit N fs g mode0).mode = (modeGrid mode0)[k] := by
    unfold hyperFit
    simp only []
    rw [← hkdef, List.getD_eq_getElem?_getD, List.getElem?_eq_getElem hk', Option.getD_some]
  have hfit : ((modeGrid mode0).map (testFit N fs g)).getD k 0 = testFit N fs g (modeGrid mode0)[k] := by
    rw [List.getD_eq_getElem?_getD, List.getElem?_map, List.getElem?_eq_getElem hk']
    rfl
  refine ⟨?_, ?_, ?_, ?_⟩
  · rw [hmode, ← mem_modeGrid]
    exact List.getElem_mem _
  · intro m hmt
    rw [hmode]
    have := hm ‖testFit N fs g m‖ (List.mem_map.mpr ⟨_, List.mem_map.mpr ⟨m, (mem_modeGrid _ _).mpr hmt, rfl⟩, rfl⟩)
    rwa [List.getElem_map, List.getElem_map] at this
  · rw [hmode]
    unfold hyperFit
    simp only []
    rw [← hkdef, hfit]
  · rw [hmode]
    unfold hyperFit
    simp only []
    rw [← hkdef, hfit]

/-- The reflection that is applied, with the complex amplitude `A` for which amplitude and phase stand. -/
theorem refl_at (r : Refl) (N f : ℕ) (A : ℂ) (h : r.amp * exp (I * r.phase) = A) : r.at N f = reflection N A r.mode f := by
  unfold Refl.at reflection
  rw [Complex.exp_add, ← h]
  have : -I * 2 * Real.pi * (r.mode * f / N : ℂ) = -((2 * Real.pi * r.mode * f / N : ℝ) : ℂ) * I := by
    push_cast; ring
  rw [this]
  ring

theorem polar_div (z : ℂ) (n : ℕ) : ((‖z‖ / n : ℝ) : ℂ) * exp (I * (arg z : ℂ)) = z / n := by
  have := Complex.norm_mul_exp_arg_mul_I z
  rw [mul_comm I]
  push_cast
  rw [div_mul_eq_mul_div, this]

theorem hyperFit_at (N : ℕ) (fs : List ℕ) (g : ℕ → ℂ) (mode0 : ℝ) (f : ℕ) :
    (hyperFit N fs g mode0).at N f =
      reflection N (testFit N fs g (hyperFit N fs g mode0).mode / fs.length) (hyperFit N fs g mode0).mode f := by
  obtain ⟨_, _, h3, h4⟩ := hyperFit_spec N fs g mode0
  apply refl_at
  rw [h3, h4]
  exact polar_div _ _

/-! ## C148: the best reflection -/

theorem testFit_eq (N : ℕ) (fs : List ℕ) (g : ℕ → ℂ) (m : ℝ) :
    testFit N fs g m = (fs.map fun (f : ℕ) => exp ((2 * Real.pi * m * f / N : ℝ) * I) * g f).sum := by
  unfold testFit
  congr 1
  apply List.map_congr_left
  intro f _
  congr 2
  push_cast
  ring

/-- The sum of squares left over, by completing the square. -/
theorem leftOver_eq (N : ℕ) (fs : List ℕ) (g : ℕ → ℂ) (A : ℂ) (m : ℝ) (hfs : fs ≠ []) :
    leftOver fs g (reflection N A m) =
      (fs.map fun f => ‖g f‖ ^ 2).sum - ‖testFit N fs g m‖ ^ 2 / fs.length
        + fs.length * ‖A - testFit N fs g m / fs.length‖ ^ 2 := by
  have hn : (fs.length : ℝ) ≠ 0 := by
    have := List.length_pos_iff.mpr hfs
    positivity
  -- one channel
  have hone : ∀ f : ℕ, ‖g f - reflection N A m f‖ ^ 2 =
      ‖g f‖ ^ 2 - 2 * (exp ((2 * Real.pi * m * f / N : ℝ) * I) * g f * (starRingEnd ℂ) A).re + ‖A‖ ^ 2 := by
    intro f
    set e : ℂ := exp ((2 * Real.pi * m * f / N : ℝ) * I) with he
    have hne : ‖e‖ = 1 := Complex.norm_exp_ofReal_mul_I _
    have hrefl : reflection N A m f = A * (starRingEnd ℂ) e := by
      unfold reflection
      rw [he, ← Complex.exp_conj]
      congr 2
      rw [map_mul, Complex.conj_I, Complex.conj_ofReal]
      ring
    have hsplit : ‖g f - reflection N A m f‖ = ‖e * g f - A‖ := by
      have hee : e * (starRingEnd ℂ) e = 1 := by
        rw [Complex.mul_conj, Complex.normSq_eq_norm_sq, hne]; norm_num
      have : e * g f - A = e * (g f - reflection N A m f) := by
        rw [hrefl]; linear_combination A * hee
      rw [this, norm_mul, hne, one_mul]
    rw [hsplit]
    have hsub : ‖e * g f - A‖ ^ 2 = ‖e * g f‖ ^ 2 - 2 * (e * g f * (starRingEnd ℂ) A).re + ‖A‖ ^ 2 := by
      rw [← Complex.normSq_eq_norm_sq, ← Complex.normSq_eq_norm_sq, ← Complex.normSq_eq_norm_sq, Complex.normSq_sub]
      ring
    rw [hsub, norm_mul, hne, one_mul]
  have hsum : ∀ l : List ℕ, (l.map fun f => ‖g f - reflection N A m f‖ ^ 2).sum =
      (l.map fun f => ‖g f‖ ^ 2).sum - 2 * (testFit N l g m * (starRingEnd ℂ) A).re + l.length * ‖A‖ ^ 2 := by
    intro l
    rw [testFit_eq]
    induction l with
    | nil => simp
    | cons f l ih =>
      simp only [List.map_cons, List.sum_cons, List.length_cons, ih, hone f, add_mul, Complex.add_re]
      push_cast
      ring
  unfold leftOver
  rw [hsum fs]
  set S := testFit N fs g m with hS
  have hlast : ‖A - S / fs.length‖ ^ 2 = ‖A‖ ^ 2 - 2 * (S * (starRingEnd ℂ) A).re / fs.length + ‖S‖ ^ 2 / fs.length ^ 2 := by
    rw [← Complex.normSq_eq_norm_sq, ← Complex.normSq_eq_norm_sq, ← Complex.normSq_eq_norm_sq, Complex.normSq_sub, Complex.normSq_div]
    have h1 : Complex.normSq (fs.length : ℂ) = (fs.length : ℝ) ^ 2 := by
      rw [← Complex.ofReal_natCast, Complex.normSq_ofReal]; ring
    have h2 : (A * (starRingEnd ℂ) (S / fs.length)).re = (S * (starRingEnd ℂ) A).re / fs.length := by
      have : A * (starRingEnd ℂ) (S / fs.length) = (((fs.length : ℝ)⁻¹ : ℝ) : ℂ) * (starRingEnd ℂ) (S * (starRingEnd ℂ) A) := by
        rw [map_div₀, map_mul, Complex.conj_conj, ← Complex.ofReal_natCast, Complex.conj_ofReal, Complex.ofReal_inv]
        ring
      rw [this, Complex.re_ofReal_mul, Complex.conj_re]
      ring
    rw [h1, h2]
    ring
  rw [hlast]
  field_simp
  ring

/-- **C148**: of all reflections with a mode that is tried, any amplitude and any phase, the one that is applied leaves the smallest sum
of squares of the gains minus their mean, over the channels in use. -/
theorem C148_best_fit (N : ℕ) (fs : List ℕ) (hfs : fs ≠ []) (res : ℕ → ℂ) (mode0 : ℝ) :
    Tried mode0 (hyperFit N fs (residGain fs res) mode0).mode ∧
    ∀ (mode : ℝ) (A : ℂ), Tried mode0 mode →
      leftOver fs (minusMean fs res) ((hyperFit N fs (residGain fs res) mode0).at N)
        ≤ leftOver fs (minusMean fs res) (reflection N A mode) := by
  have hres : residGain fs res = minusMean fs res := rfl
  rw [hres]
  set g := minusMean fs res
  obtain ⟨h1, h2, _, _⟩ := hyperFit_spec N fs g mode0
  refine ⟨h1, fun mode A hm => ?_⟩
  set m := (hyperFit N fs g mode0).mode
  have hat : (hyperFit N fs g mode0).at N = reflection N (testFit N fs g m / fs.length) m :=
    funext fun f => hyperFit_at N fs g mode0 f
  rw [hat, leftOver_eq N fs g _ m hfs, leftOver_eq N fs g A mode hfs, sub_self, norm_zero]
  have hn : 0 < (fs.length : ℝ) := by exact_mod_cast List.length_pos_iff.mpr hfs
  have h3 : ‖testFit N fs g mode‖ ^ 2 / fs.length ≤ ‖testFit N fs g m‖ ^ 2 / fs.length :=
    div_le_div_of_nonneg_right (pow_le_pow_left₀ (norm_nonneg _) (h2 mode hm) 2) hn.le
  have h4 : 0 ≤ (fs.length : ℝ) * ‖A - testFit N fs g mode / fs.length‖ ^ 2 := by positivity
  have h5 : (fs.length : ℝ) * (0 : ℝ) ^ 2 = 0 := by ring
  linarith

/-! ## C149: a reflection is recovered -/

/-- The turns of a whole number of periods over the band cancel. -/
theorem turns_cancel (N : ℕ) (hN : 0 < N) (k : ℤ) (hk : ¬(N : ℤ) ∣ k) :
    ((List.range N).map fun (f : ℕ) => exp ((2 * Real.pi * k * f / N : ℝ) * I)).sum = 0 := by
  set w : ℂ := exp ((2 * Real.pi * k / N : ℝ) * I) with hw
  have hN' : (N : ℂ) ≠ 0 := by exact_mod_cast hN.ne'
  have hterm : ∀ f : ℕ, exp ((2 * Real.pi * k * f / N : ℝ) * I) = w ^ f := by
    intro f
    rw [hw, ← Complex.exp_nat_mul]
    congr 1
    push_cast
    ring
  have hwN : w ^ N = 1 := by
    rw [hw, ← Complex.exp_nat_mul, Complex.exp_eq_one_iff]
    refine ⟨k, ?_⟩
    push_cast
    field_simp
  have hw1 : w ≠ 1 := by
    intro h
    rw [hw, Complex.exp_eq_one_iff] at h
    obtain ⟨n, hn⟩ := h
    apply hk
    refine ⟨n, ?_⟩
    have hpi : (Real.pi : ℂ) ≠ 0 := by exact_mod_cast Real.pi_ne_zero
    have : (k : ℂ) = N * n := by
      have h2 : (2 * Real.pi * I : ℂ) ≠ 0 := Complex.two_pi_I_ne_zero
      have h3 : (k : ℂ) / N * (2 * Real.pi * I) = n * (2 * Real.pi * I) := by
        rw [← hn]; push_cast; ring
      have h4 := mul_right_cancel₀ h2 h3
      rw [div_eq_iff hN'] at h4
      rw [h4]; ring
    exact_mod_cast this
  rw [show (fun (f : ℕ) => exp ((2 * Real.pi * k * f / N : ℝ) * I)) = fun f => w ^ f from funext hterm]
  have hsum : ((List.range N).map fun f => w ^ f).sum = ∑ f ∈ Finset.range N, w ^ f := by
    clear_value w
    clear * -
    induction N with
    | zero => simp
    | succ n ih => rw [List.range_succ, List.map_append, List.sum_append, ih, Finset.sum_range_succ]; simp
  rw [hsum]
  have := mul_geom_sum w N
  rw [hwN, sub_self] at this
  exact (mul_eq_zero.mp this).resolve_left (sub_ne_zero.mpr hw1)

/-- Turns that are not all the same do not add up to their number. -/
theorem turns_lt (N : ℕ) (hN : 2 ≤ N) (d : ℝ) (hd : d ≠ 0) (hdN : |d| < N) :
    ‖((List.range N).map fun (f : ℕ) => exp ((2 * Real.pi * d * f / N : ℝ) * I)).sum‖ < N := by
  have hN0 : (0 : ℝ) < N := by exact_mod_cast (by omega : 0 < N)
  set w : ℂ := exp ((2 * Real.pi * d / N : ℝ) * I) with hw
  have hnw : ‖w‖ = 1 := Complex.norm_exp_ofReal_mul_I _
  have hterm : ∀ f : ℕ, exp ((2 * Real.pi * d * f / N : ℝ) * I) = w ^ f := by
    intro f
    rw [hw, ← Complex.exp_nat_mul]
    congr 1
    push_cast
    ring
  have hw1 : w ≠ 1 := by
    intro h
    rw [hw, Complex.exp_eq_one_iff] at h
    obtain ⟨n, hn⟩ := h
    have hN' : (N : ℂ) ≠ 0 := by exact_mod_cast hN0.ne'
    have h2 : (2 * Real.pi * I : ℂ) ≠ 0 := Complex.two_pi_I_ne_zero
    have h3 : (d : ℂ) / N * (2 * Real.pi * I) = n * (2 * Real.pi * I) := by
      rw [← hn]; push_cast; ring
    have h4 := mul_right_cancel₀ h2 h3
    rw [div_eq_iff hN'] at h4
    have h5 : d = n * N := by exact_mod_cast h4
    have hn0 : n ≠ 0 := by rintro rfl; apply hd; rw [h5]; simp
    have h6 : (1 : ℝ) ≤ |(n : ℝ)| := by exact_mod_cast Int.one_le_abs hn0
    rw [h5, abs_mul, abs_of_pos hN0] at hdN
    nlinarith
  have h12 : ‖1 + w‖ < 2 := by
    have hre : w.re < 1 := by
      rcases lt_or_eq_of_le (Complex.re_le_norm w) with h | h
      · rwa [hnw] at h
      · exfalso
        apply hw1
        rw [hnw] at h
        have hns : Complex.normSq w = 1 := by rw [Complex.normSq_eq_norm_sq, hnw]; norm_num
        rw [Complex.normSq_apply, h] at hns
        have him : w.im = 0 := by nlinarith [mul_self_nonneg w.im]
        exact Complex.ext (by simpa using h) (by simpa using him)
    have hsq : ‖1 + w‖ ^ 2 < 2 ^ 2 := by
      have h1 : ‖1 + w‖ ^ 2 = Complex.normSq 1 + Complex.normSq w + 2 * (1 * (starRingEnd ℂ) w).re := by
        rw [← Complex.normSq_eq_norm_sq, Complex.normSq_add]
      rw [h1, Complex.normSq_eq_norm_sq w, hnw, one_mul, Complex.conj_re, map_one]
      linarith
    exact lt_of_pow_lt_pow_left₀ 2 (by norm_num) hsq
  rw [show (fun (f : ℕ) => exp ((2 * Real.pi * d * f / N : ℝ) * I)) = fun f => w ^ f from funext hterm]
  obtain ⟨n, rfl⟩ : ∃ n, N = n + 2 := ⟨N - 2, by omega⟩
  have hsplit : ((List.range (n + 2)).map fun f => w ^ f).sum = 1 + w + ((List.range n).map fun f => w ^ (f + 2)).sum := by
    rw [List.range_succ_eq_map, List.range_succ_eq_map]
    simp only [List.map_cons, List.map_map, List.sum_cons, Function.comp_def, pow_zero, Nat.succ_eq_add_one]
    rw [pow_one]
    ring
  rw [hsplit]
  have hrest : ∀ k : ℕ, ‖((List.range k).map fun f => w ^ (f + 2)).sum‖ ≤ k := by
    intro k
    induction k with
    | zero => simp
    | succ k ih =>
      rw [List.range_succ, List.map_append, List.sum_append]
      refine (norm_add_le _ _).trans ?_
      simp only [List.map_cons, List.map_nil, List.sum_cons, List.sum_nil, add_zero, norm_pow, hnw, one_pow]
      push_cast
      linarith
  calc ‖1 + w + ((List.range n).map fun f => w ^ (f + 2)).sum‖
      ≤ ‖1 + w‖ + ‖((List.range n).map fun f => w ^ (f + 2)).sum‖ := norm_add_le _ _
    _ < 2 + n := add_lt_add_of_lt_of_le h12 (hrest n)
    _ = ((n + 2 : ℕ) : ℝ) := by push_cast; ring

/-- The product of a reflection with the turns of a mode. -/
theorem testFit_reflection (N : ℕ) (fs : List ℕ) (A : ℂ) (M m : ℝ) :
    testFit N fs (reflection N A M) m = A * (fs.map fun (f : ℕ) => exp ((2 * Real.pi * (m - M) * f / N : ℝ) * I)).sum := by
  rw [testFit_eq, ← List.sum_map_mul_left]
  congr 1
  apply List.map_congr_left
  intro f _
  unfold reflection
  rw [mul_left_comm, ← Complex.exp_add]
  congr 2
  push_cast
  ring

theorem sum_reflection (N : ℕ) (fs : List ℕ) (A : ℂ) (M : ℝ) :
    (fs.map (reflection N A M)).sum = A * (fs.map fun (f : ℕ) => exp ((2 * Real.pi * (-M) * f / N : ℝ) * I)).sum := by
  rw [← List.sum_map_mul_left]
  congr 1
  apply List.map_congr_left
  intro f _
  unfold reflection
  congr 2
  push_cast
  ring

theorem testFit_congr (N : ℕ) (fs : List ℕ) (g h : ℕ → ℂ) (m : ℝ) (hgh : ∀ f ∈ fs, g f = h f) : testFit N fs g m = testFit N fs h m := by
  unfold testFit
  congr 1
  apply List.map_congr_left
  intro f hf
  rw [hgh f hf]

theorem tried_close {mode0 m M : ℝ} (h1 : Tried mode0 m) (h2 : Tried mode0 M) : |m - M| ≤ 5 := by
  obtain ⟨k, a1, a2, rfl⟩ := h1
  obtain ⟨l, b1, b2, rfl⟩ := h2
  have : mode0 + (k : ℝ) / 20 - (mode0 + (l : ℝ) / 20) = ((k - l : ℤ) : ℝ) / 20 := by push_cast; ring
  rw [this, abs_le]
  have h3 : (-100 : ℝ) ≤ ((k - l : ℤ) : ℝ) := by exact_mod_cast (by omega : (-100 : ℤ) ≤ k - l)
  have h4 : ((k - l : ℤ) : ℝ) ≤ 100 := by exact_mod_cast (by omega : (k - l : ℤ) ≤ 100)
  constructor <;> linarith

/-- **C149**, when all channels are in use: gains that are a constant plus a reflection with a whole number of turns give back that
reflection: its mode, its amplitude and its phase. -/
theorem C149_recovered_partial (N : ℕ) (hN : 5 < N) (c A : ℂ) (hA : A ≠ 0) (M : ℕ) (h0 : 0 < M) (hM : M < N) (mode0 : ℝ)
    (htried : Tried mode0 M) (res : ℕ → ℂ) (hres : ∀ f, f < N → res f = c + reflection N A M f) :
    (hyperFit N (List.range N) (residGain (List.range N) res) mode0).mode = M ∧
    ∀ f, (hyperFit N (List.range N) (residGain (List.range N) res) mode0).at N f = reflection N A M f := by
  have hNpos : 0 < N := by omega
  have hNC : (N : ℂ) ≠ 0 := by exact_mod_cast hNpos.ne'
  have hndvd : ¬(N : ℤ) ∣ -(M : ℤ) := by
    rw [dvd_neg]
    intro h
    have := Int.natCast_dvd_natCast.mp h
    exact absurd (Nat.le_of_dvd h0 this) (by omega)
  -- the mean of the reflection is zero
  have hmean : ((List.range N).map (reflection N A M)).sum = 0 := by
    rw [sum_reflection]
    have := turns_cancel N hNpos (-(M : ℤ)) hndvd
    push_cast at this ⊢
    rw [this, mul_zero]
  have hsumres : ((List.range N).map res).sum = N * c := by
    have h1 : (List.range N).map res = (List.range N).map fun f => c + reflection N A M f :=
      List.map_congr_left fun f hf => hres f (List.mem_range.mp hf)
    rw [h1, List.sum_map_add, hmean]
    simp
  have hg : ∀ f ∈ List.range N, residGain (List.range N) res f = reflection N A M f := by
    intro f hf
    unfold residGain
    rw [hsumres, hres f (List.mem_range.mp hf), List.length_range, mul_div_cancel_left₀ _ hNC]
    ring
  set g := residGain (List.range N) res with hgdef
  have hfit : ∀ m, testFit N (List.range N) g m
      = A * ((List.range N).map fun (f : ℕ) => exp ((2 * Real.pi * (m - M) * f / N : ℝ) * I)).sum := fun m => by
    rw [testFit_congr N _ g _ m hg, testFit_reflection]
  have hfitM : testFit N (List.range N) g M = A * N := by
    rw [hfit]
    simp
  obtain ⟨h1, h2, _, _⟩ := hyperFit_spec N (List.range N) g mode0
  have hmode : (hyperFit N (List.range N) g mode0).mode = M := by
    by_contra hne
    have hclose := tried_close h1 htried
    have hlt := turns_lt N (by omega) ((hyperFit N (List.range N) g mode0).mode - M) (sub_ne_zero.mpr hne)
      (lt_of_le_of_lt hclose (by exact_mod_cast hN))
    have hge := h2 M htried
    rw [hfitM, hfit, norm_mul, norm_mul, Complex.norm_natCast] at hge
    have hApos : 0 < ‖A‖ := norm_pos_iff.mpr hA
    have := le_of_mul_le_mul_left hge hApos
    linarith
  refine ⟨hmode, fun f => ?_⟩
  rw [hyperFit_at, hmode, hfitM, List.length_range, mul_div_cancel_right₀ _ hNC]

/-- **C149 is violated** as soon as one channel is flagged, here the last: the fitted reflection has another mode, or an amplitude that is
smaller by the factor `1 - 1/(N-1)²`. -/
theorem C149_flagged_biased (N : ℕ) (hN : 5 < N) (c A : ℂ) (M : ℕ) (h0 : 0 < M) (hM : M < N) (mode0 : ℝ)
    (res : ℕ → ℂ) (hres : ∀ f, f < N → res f = c + reflection N A M f)
    (hmode : (hyperFit N (List.range (N - 1)) (residGain (List.range (N - 1)) res) mode0).mode = M) (f : ℕ) :
    (hyperFit N (List.range (N - 1)) (residGain (List.range (N - 1)) res) mode0).at N f
      = reflection N (A * (1 - 1 / ((N : ℂ) - 1) ^ 2)) M f := by
  obtain ⟨n, rfl⟩ : ∃ n, N = n + 1 := ⟨N - 1, by omega⟩
  rw [Nat.add_sub_cancel] at hmode ⊢
  have hn : (n : ℂ) ≠ 0 := by exact_mod_cast (by omega : n ≠ 0)
  have hndvd : ∀ s : ℤ, s = 1 ∨ s = -1 → ¬((n + 1 : ℕ) : ℤ) ∣ s * (M : ℤ) := by
    intro s hs h
    have h' : ((n + 1 : ℕ) : ℤ) ∣ (M : ℤ) := by
      rcases hs with rfl | rfl
      · simpa using h
      · simpa using h
    have := Int.natCast_dvd_natCast.mp h'
    exact absurd (Nat.le_of_dvd h0 this) (by omega)
  have hpart : ∀ s : ℤ, s = 1 ∨ s = -1 →
      ((List.range n).map fun (f : ℕ) => exp ((2 * Real.pi * (s * M) * f / (n + 1 : ℕ) : ℝ) * I)).sum
        = -exp ((2 * Real.pi * (s * M) * n / (n + 1 : ℕ) : ℝ) * I) := by
    intro s hs
    have := turns_cancel (n + 1) (by omega) (s * M) (hndvd s hs)
    rw [List.range_succ, List.map_append, List.sum_append] at this
    simp only [List.map_cons, List.map_nil, List.sum_cons, List.sum_nil, add_zero] at this
    rw [← sub_eq_zero, sub_neg_eq_add]
    push_cast at this ⊢
    exact this
  set P : ℂ := exp ((2 * Real.pi * ((1 : ℤ) * M) * n / (n + 1 : ℕ) : ℝ) * I) with hP
  set Q : ℂ := exp ((2 * Real.pi * ((-1 : ℤ) * M) * n / (n + 1 : ℕ) : ℝ) * I) with hQ
  have hPQ : P * Q = 1 := by
    rw [hP, hQ, ← Complex.exp_add]
    rw [show ((2 * Real.pi * ((1 : ℤ) * M) * n / (n + 1 : ℕ) : ℝ) : ℂ) * I + ((2 * Real.pi * ((-1 : ℤ) * M) * n / (n + 1 : ℕ) : ℝ) : ℂ) * I
      = 0 by push_cast; ring]
    exact Complex.exp_zero
  have hsumrefl : ((List.range n).map (reflection (n + 1) A M)).sum = A * (-Q) := by
    rw [sum_reflection, ← hpart (-1) (by simp)]
    congr 3
    funext f
    congr 3
    push_cast
    ring
  have hsumres : ((List.range n).map res).sum = n * c - A * Q := by
    have h1 : (List.range n).map res = (List.range n).map fun f => c + reflection (n + 1) A M f :=
      List.map_congr_left fun f hf => hres f (by have := List.mem_range.mp hf; omega)
    rw [h1, List.sum_map_add, hsumrefl]
    simp
    ring
  have hturn : ((List.range n).map fun (f : ℕ) => exp ((2 * Real.pi * (M : ℝ) * f / (n + 1 : ℕ) : ℝ) * I)).sum = -P := by
    rw [hP, ← hpart 1 (by simp)]
    congr 3
    funext f
    congr 3
    push_cast
    ring
  have hfit : testFit (n + 1) (List.range n) (residGain (List.range n) res) M = n * A - A / n := by
    have hg : ∀ f ∈ List.range n, residGain (List.range n) res f = reflection (n + 1) A M f + A * Q / n := by
      intro f hf
      unfold residGain
      rw [hsumres, hres f (by have := List.mem_range.mp hf; omega), List.length_range]
      field_simp
      ring
    rw [testFit_congr _ _ _ _ _ hg]
    have hsplit : testFit (n + 1) (List.range n) (fun f => reflection (n + 1) A M f + A * Q / n) M
        = testFit (n + 1) (List.range n) (reflection (n + 1) A M) M
          + ((List.range n).map fun (f : ℕ) => exp ((2 * Real.pi * (M : ℝ) * f / (n + 1 : ℕ) : ℝ) * I)).sum * (A * Q / n) := by
      rw [testFit_eq, testFit_eq, ← List.sum_map_mul_right, ← List.sum_map_add]
      congr 1
      apply List.map_congr_left
      intro f _
      ring
    rw [hsplit, testFit_reflection, hturn]
    have hconst : ((List.range n).map fun (f : ℕ) => exp ((2 * Real.pi * ((M : ℝ) - M) * f / (n + 1 : ℕ) : ℝ) * I)).sum = n := by
      simp
    rw [hconst]
    linear_combination (-(A / n)) * hPQ
  rw [hyperFit_at, hmode, hfit, List.length_range]
  congr 1
  push_cast
  rw [add_sub_cancel_right]
  field_simp

/-- **C149 is violated**: with the last channel flagged no reflection of a whole number of turns is recovered. -/
theorem C149_flagged_not_recovered (N : ℕ) (hN : 5 < N) (c A : ℂ) (hA : A ≠ 0) (M : ℕ) (h0 : 0 < M) (hM : M < N) (mode0 : ℝ)
    (res : ℕ → ℂ) (hres : ∀ f, f < N → res f = c + reflection N A M f) :
    ¬((hyperFit N (List.range (N - 1)) (residGain (List.range (N - 1)) res) mode0).mode = M ∧
      ∀ f, (hyperFit N (List.range (N - 1)) (residGain (List.range (N - 1)) res) mode0).at N f = reflection N A M f) := by
  rintro ⟨hm, hat⟩
  have h := C149_flagged_biased N hN c A M h0 hM mode0 res hres hm 0
  rw [hat 0] at h
  unfold reflection at h
  have he : exp (-((2 * Real.pi * (M : ℝ) * (0 : ℕ) / N : ℝ) : ℂ) * I) ≠ 0 := Complex.exp_ne_zero _
  have h1 := mul_right_cancel₀ he h
  have hn : ((N : ℂ) - 1) ≠ 0 := by
    rw [sub_ne_zero]
    exact_mod_cast (by omega : N ≠ 1)
  have h2 : A * (1 / ((N : ℂ) - 1) ^ 2) = 0 := by linear_combination h1
  rcases mul_eq_zero.mp h2 with h3 | h3
  · exact hA h3
  · exact (div_ne_zero one_ne_zero (pow_ne_zero 2 hn)) h3

/-- Eight channels, a reflection with two turns, amplitude one and phase zero on top of a constant, nominal mode 1.5. -/
example : (hyperFit 8 (List.range 8) (residGain (List.range 8) fun f => 3 + reflection 8 1 (2 : ℕ) f) (3 / 2)).mode = 2 := by
  have := (C149_recovered_partial 8 (by norm_num) 3 1 one_ne_zero 2 (by norm_num) (by norm_num) (3 / 2)
    ⟨10, by norm_num, by norm_num, by norm_num⟩ _ (fun f _ => rfl)).1
  simpa using this

example : ¬((hyperFit 8 (List.range 7) (residGain (List.range 7) fun f => 3 + reflection 8 1 (2 : ℕ) f) (3 / 2)).mode = (2 : ℕ) ∧
      ∀ f, (hyperFit 8 (List.range 7) (residGain (List.range 7) fun f => 3 + reflection 8 1 (2 : ℕ) f) (3 / 2)).at 8 f = reflection 8 1 (2 : ℕ) f) :=
  C149_flagged_not_recovered 8 (by norm_num) 3 1 one_ne_zero 2 (by norm_num) (by norm_num) (3 / 2) _ (fun f _ => rfl)

/-! ## C150: the delay of the nominal mode -/

theorem reflMax_ge (l : List ℝ) : ∀ a, a ≤ l.foldl max a ∧ ∀ x ∈ l, x ≤ l.foldl max a := by
  induction l with
  | nil => intro a; simp
  | cons y l ih =>
    intro a
    obtain ⟨h1, h2⟩ := ih (max a y)
    refine ⟨(le_max_left _ _).trans h1, ?_⟩
    intro x hx
    rcases List.mem_cons.mp hx with rfl | hx
    · exact (le_max_right _ _).trans h1
    · exact h2 x hx

theorem reflMax_le (l : List ℝ) (b : ℝ) : ∀ a, a ≤ b → (∀ x ∈ l, x ≤ b) → l.foldl max a ≤ b := by
  induction l with
  | nil => intro a h _; exact h
  | cons y l ih => intro a h hl; exact ih _ (max_le h (hl y (by simp))) fun x hx => hl x (by simp [hx])

theorem reflMin_le (l : List ℝ) : ∀ a, l.foldl min a ≤ a ∧ ∀ x ∈ l, l.foldl min a ≤ x := by
  induction l with
  | nil => intro a; simp
  | cons y l ih =>
    intro a
    obtain ⟨h1, h2⟩ := ih (min a y)
    refine ⟨h1.trans (min_le_left _ _), ?_⟩
    intro x hx
    rcases List.mem_cons.mp hx with rfl | hx
    · exact h1.trans (min_le_right _ _)
    · exact h2 x hx

theorem reflMin_ge (l : List ℝ) (b : ℝ) : ∀ a, b ≤ a → (∀ x ∈ l, b ≤ x) → b ≤ l.foldl min a := by
  induction l with
  | nil => intro a h _; exact h
  | cons y l ih => intro a h hl; exact ih _ (le_min h (hl y (by simp))) fun x hx => hl x (by simp [hx])

/-- Channels at equal distances. -/
noncomputable def Spec.channels (N : ℕ) (nu0 dnu : ℝ) : List ℝ := (List.range N).map fun (k : ℕ) => nu0 + k * dnu

theorem bandOf_channels (N : ℕ) (hN : 2 ≤ N) (nu0 dnu : ℝ) (hd : 0 < dnu) : bandOf (Spec.channels N nu0 dnu) = N * dnu := by
  have hmem : ∀ x, x ∈ Spec.channels N nu0 dnu ↔ ∃ k, k < N ∧ x = nu0 + k * dnu := by
    intro x
    unfold Spec.channels
    rw [List.mem_map]
    constructor
    · rintro ⟨k, hk, rfl⟩; exact ⟨k, List.mem_range.mp hk, rfl⟩
    · rintro ⟨k, hk, rfl⟩; exact ⟨k, List.mem_range.mpr hk, rfl⟩
  have hlen : (Spec.channels N nu0 dnu).length = N := by simp [Spec.channels]
  have hhead : (Spec.channels N nu0 dnu).headD 0 = nu0 := by
    obtain ⟨n, rfl⟩ : ∃ n, N = n + 1 := ⟨N - 1, by omega⟩
    simp [Spec.channels, List.range_succ_eq_map]
  have hN1 : ((N : ℝ) - 1) ≠ 0 := by
    have : (2 : ℝ) ≤ N := by exact_mod_cast hN
    linarith
  have hcast : ((N - 1 : ℕ) : ℝ) = (N : ℝ) - 1 := by
    rw [Nat.cast_sub (by omega)]; simp
  have hmax : (Spec.channels N nu0 dnu).foldl max nu0 = nu0 + (N - 1 : ℝ) * dnu := by
    apply le_antisymm
    · apply reflMax_le
      · have : (0 : ℝ) ≤ (N : ℝ) - 1 := by rw [← hcast]; positivity
        nlinarith
      · intro x hx
        obtain ⟨k, hk, rfl⟩ := (hmem x).mp hx
        have : (k : ℝ) ≤ (N : ℝ) - 1 := by rw [← hcast]; exact_mod_cast (by omega : k ≤ N - 1)
        nlinarith
    · refine (reflMax_ge _ _).2 _ ((hmem _).mpr ⟨N - 1, by omega, ?_⟩)
      rw [hcast]
  have hmin : (Spec.channels N nu0 dnu).foldl min nu0 = nu0 := by
    apply le_antisymm
    · exact (reflMin_le _ _).1
    · apply reflMin_ge
      · exact le_refl _
      · intro x hx
        obtain ⟨k, hk, rfl⟩ := (hmem x).mp hx
        have : (0 : ℝ) ≤ k := by positivity
        nlinarith
  unfold bandOf
  rw [hhead, hlen, hmax, hmin]
  field_simp
  ring

/-- **C150**: for channels at equal distances the nominal reflection of a cable that is to be fitted is that of a wave delayed by twice
the length of the cable at the speed in the cable. -/
theorem C150_round_trip (N : ℕ) (hN : 2 ≤ N) (nu0 dnu : ℝ) (hd : 0 < dnu) (c0 : ℝ) (k : Cable) (hflag : 1 ≤ k.flag) (A : ℂ) (f : ℕ) :
    reflection N A (theoryMode c0 (Spec.channels N nu0 dnu) k) f =
      A * exp (-(2 * Real.pi * (2 * k.length / (c0 * k.vf)) * ((nu0 + f * dnu) - nu0) : ℝ) * I) := by
  have hN0 : (N : ℝ) ≠ 0 := by
    have : (2 : ℝ) ≤ N := by exact_mod_cast hN
    linarith
  unfold theoryMode reflection
  rw [bandOf_channels N hN nu0 dnu hd, min_eq_right (le_trans hflag (le_max_right _ _))]
  congr 3
  congr 2
  field_simp
  ring

/-- A cable of 150 metres with a velocity factor of 0.81. -/
example (A : ℂ) : reflection 384 A (theoryMode 299792458 (Spec.channels 384 167e6 80e3) ⟨150, 0.81, 1⟩) 3 =
      A * exp (-(2 * Real.pi * (2 * 150 / (299792458 * 0.81)) * ((167e6 + (3 : ℕ) * 80e3) - 167e6) : ℝ) * I) :=
  C150_round_trip 384 (by norm_num) 167e6 80e3 (by norm_num) 299792458 ⟨150, 0.81, 1⟩ (le_refl _) A 3

/-! ## C151: which tiles are fitted -/

/-- **C151**: tiles that are not in use, that are marked in the table of cables as not to be fitted, or (without auto-correlations)
whose cable is not of the length asked for, or of the length excluded, keep their gains. -/
theorem C151_untouched_partial (c : ReflIn) (c0 : ℝ) (freqs : List ℝ) (theory : ℝ) (cables : ℕ → Cable)
    (hmode : ∀ t, c.mode t = nominalMode c0 freqs theory c.autos.isSome (cables t)) (t f : ℕ)
    (h : c.use t = false ∨ (cables t).flag ≤ 0 ∨ (c.autos = none ∧ 1 < theory ∧ (cables t).length ≠ theory) ∨
      (c.autos = none ∧ theory < -1 ∧ (cables t).length = -theory)) :
    c.after f t = some (c.gain f t) := by
  unfold ReflIn.after
  rw [if_pos]
  rcases h with h | h | ⟨h1, h2, h3⟩ | ⟨h1, h2, h3⟩
  · exact Or.inl h
  · refine Or.inr ?_
    rw [hmode]
    unfold nominalMode theoryMode
    rw [max_eq_left h]
    simp
  · refine Or.inr ?_
    rw [hmode, h1]
    unfold nominalMode modeFitOf cableFactor
    rw [if_pos (by rw [abs_of_pos (by linarith)]; exact h2)]
    have : theory > 0 := by linarith
    simp [this, h3]
  · refine Or.inr ?_
    rw [hmode, h1]
    unfold nominalMode modeFitOf cableFactor
    rw [if_pos (by rw [abs_of_neg (by linarith)]; linarith)]
    have h4 : ¬theory > 0 := by linarith
    have h5 : |theory| = -theory := abs_of_neg (by linarith)
    simp [h4, h3, h5]

/-- **C151**: the other tiles, in use and with a mode other than zero, get the fitted reflection. -/
theorem C151_fitted_partial (c : ReflIn) (t f : ℕ) (hau : c.autos = none) (huse : c.use t = true) (hm : c.mode t ≠ 0) :
    c.after f t = some (c.gain f t * (1 + (hyperFit c.N c.fs (residGain c.fs fun f => c.res f t) (c.mode t)).at c.N f)) := by
  unfold ReflIn.after ReflIn.fit
  rw [if_neg (by simp [huse, hm]), hau]

/-- **C151 is violated** with auto-correlations: the length asked for or excluded has no influence on the modes. -/
theorem C151_selection_ignored (c0 : ℝ) (freqs : List ℝ) (theory theory' : ℝ) (k : Cable) :
    nominalMode c0 freqs theory true k = nominalMode c0 freqs theory' true k := by
  have h : ∀ x, cableFactor x true k = 1 := by
    intro x
    cases x <;> rfl
  unfold nominalMode
  rw [h, h]

/-! ## C152: the tiles to compare with -/

/-- **C152**, for the search of the mode: the auto-correlations of a tile are compared with those of the tiles in use whose cables give
another mode. -/
theorem C152_mode_search_partial (c : ReflIn) (tile t : ℕ) :
    t ∈ c.others (c.mode tile) ↔ t < c.nTile ∧ c.use t = true ∧ 0 < c.mode t ∧ 1 / 100 < |c.mode t - c.mode tile| := by
  unfold ReflIn.others
  simp only [List.mem_filter, List.mem_range, Bool.and_eq_true, decide_eq_true_eq]
  tauto

theorem grid_zero (mode0 : ℝ) : (modeGrid mode0).getD 0 0 = mode0 - 5 / 2 := by
  unfold modeGrid
  rw [List.range_succ_eq_map]
  simp only [List.map_cons, List.getD_cons_zero, Nat.cast_zero]
  ring

theorem autoMode_tried (c : ReflIn) (a : ℕ → ℕ → Option ℝ) (tile : ℕ) : Tried (c.mode tile) (c.autoMode a tile) := by
  unfold ReflIn.autoMode
  split_ifs
  · rw [grid_zero]
    exact ⟨-50, by norm_num, by norm_num, by push_cast; ring⟩
  · exact (hyperFit_spec _ _ _ _).1

/-- **C152 is violated** in the fit of amplitude and phase: unless the mode found is the nominal one, the tile itself and all tiles in use
with the same nominal mode are among the tiles whose phases are subtracted. -/
theorem C152_own_cable_included (c : ReflIn) (a : ℕ → ℕ → Option ℝ) (tile : ℕ) (hmode : 0 < c.mode tile)
    (hfound : c.autoMode a tile ≠ c.mode tile) (t : ℕ) (ht : t < c.nTile) (huse : c.use t = true) (hsame : c.mode t = c.mode tile) :
    t ∈ c.others (c.autoMode a tile) := by
  obtain ⟨k, h1, h2, hk⟩ := autoMode_tried c a tile
  unfold ReflIn.others
  simp only [List.mem_filter, List.mem_range, Bool.and_eq_true, decide_eq_true_eq]
  refine ⟨ht, ⟨huse, by rw [hsame]; exact hmode⟩, ?_⟩
  rw [hsame, hk]
  have hk0 : k ≠ 0 := by
    rintro rfl
    apply hfound
    rw [hk]
    simp
  have h3 : (1 : ℝ) ≤ |(k : ℝ)| := by exact_mod_cast Int.one_le_abs hk0
  rw [show c.mode tile - (c.mode tile + (k : ℝ) / 20) = -((k : ℝ) / 20) by ring, abs_neg, abs_div]
  rw [show |(20 : ℝ)| = 20 by norm_num]
  linarith

/-! ## C153: only phases change with auto-correlations -/

/-- **C153**: with auto-correlations the reflection fit keeps the amplitudes of the gains. -/
theorem C153_amplitudes_kept (c : ReflIn) (a : ℕ → ℕ → Option ℝ) (hau : c.autos = some a) (f t : ℕ) (g : ℂ) (h : c.after f t = some g) :
    ‖g‖ = ‖c.gain f t‖ := by
  unfold ReflIn.after at h
  split_ifs at h
  · rw [← Option.some.inj h]
  · rw [hau] at h
    cases hfit : c.fit t with
    | none => rw [hfit] at h; cases h
    | some r =>
      rw [hfit] at h
      simp only [Option.some.injEq] at h
      rw [← h, norm_mul, mul_comm I, Complex.norm_exp_ofReal_mul_I, mul_one]

/-! ## C154: tiles without auto-correlations -/

theorem copiedRow_keep (l : List (Option ℝ)) (t : ℕ) (x : ℝ) (hx : l.getD t none = some x)
    (hnext : t + 1 < l.length → l.getD (t + 1) none ≠ none) : copiedRow l t = some x := by
  unfold copiedRow
  rw [hx]
  simp only []
  rw [if_neg]
  rintro ⟨h1, h2⟩
  exact hnext h1 h2

/-- **C154**, for tiles that are not followed by a tile without auto-correlations: they are divided by their own mean. -/
theorem C154_normalised_partial (c : ReflIn) (a : ℕ → ℕ → Option ℝ) (t f : ℕ) (ht : t < c.nTile) (x m : ℝ) (hx : a f t = some x)
    (hm : nanMeanR ((List.range c.N).map fun f => a f t) = some m) (hm0 : m ≠ 0)
    (hnext : t + 1 < c.nTile → ∃ f', f' < c.N ∧ a f' (t + 1) ≠ none) : c.normAuto a f t = some (x / m) := by
  have hget : ∀ s, s < c.nTile → ((List.range c.nTile).map fun t => nanMeanR ((List.range c.N).map fun f => a f t)).getD s none
      = nanMeanR ((List.range c.N).map fun f => a f s) := by
    intro s hs
    rw [List.getD_eq_getElem?_getD, List.getElem?_map, List.getElem?_range hs]
    rfl
  unfold ReflIn.normAuto
  rw [copiedRow_keep _ t m (by rw [hget t ht, hm])]
  · rw [hx]
    unfold optDiv
    simp only []
    rw [if_neg hm0]
  · intro h
    rw [List.length_map, List.length_range] at h
    rw [hget _ h]
    obtain ⟨f', h1, h2⟩ := hnext h
    unfold nanMeanR
    simp only []
    rw [if_neg]
    · simp
    · obtain ⟨y, hy⟩ := Option.ne_none_iff_exists'.mp h2
      intro hnil
      have : y ∈ ((List.range c.N).map fun f => a f (t + 1)).filterMap id := by
        rw [List.mem_filterMap]
        exact ⟨some y, List.mem_map.mpr ⟨f', List.mem_range.mpr h1, hy⟩, rfl⟩
      rw [hnil] at this
      cases this

theorem nanMeanR_none (l : List (Option ℝ)) (h : ∀ x ∈ l, x = none) : nanMeanR l = none := by
  unfold nanMeanR
  simp only []
  rw [if_pos]
  rw [List.filterMap_eq_nil_iff]
  intro x hx
  rw [h x hx]
  rfl

/-- **C154 is violated**: if a tile has no auto-correlations, those of the tile before it are not used either, and that tile is given a
mode 2.5 below the nominal one whatever its data. -/
theorem C154_neighbour_lost (c : ReflIn) (a : ℕ → ℕ → Option ℝ) (t : ℕ) (ht : t + 1 < c.nTile)
    (hmissing : ∀ f, f < c.N → a f (t + 1) = none) (hfs : c.fs ≠ []) :
    (∀ f, c.normAuto a f t = none) ∧ c.autoMode a t = c.mode t - 5 / 2 := by
  have hget : ∀ s, s < c.nTile → ((List.range c.nTile).map fun t => nanMeanR ((List.range c.N).map fun f => a f t)).getD s none
      = nanMeanR ((List.range c.N).map fun f => a f s) := by
    intro s hs
    rw [List.getD_eq_getElem?_getD, List.getElem?_map, List.getElem?_range hs]
    rfl
  have hnext : nanMeanR ((List.range c.N).map fun f => a f (t + 1)) = none := by
    apply nanMeanR_none
    intro x hx
    obtain ⟨f, hf, rfl⟩ := List.mem_map.mp hx
    exact hmissing f (List.mem_range.mp hf)
  have hnone : ∀ f, c.normAuto a f t = none := by
    intro f
    unfold ReflIn.normAuto copiedRow
    rw [hget t (by omega), hget (t + 1) ht, hnext]
    have hlen : t + 1 < ((List.range c.nTile).map fun t => nanMeanR ((List.range c.N).map fun f => a f t)).length := by
      simpa using ht
    have hdiv : ∀ x, optDiv x none = none := by
      intro x
      cases x <;> rfl
    cases nanMeanR ((List.range c.N).map fun f => a f t) with
    | none => exact hdiv _
    | some x =>
      simp only [hlen, and_self, if_true]
      exact hdiv _
  refine ⟨hnone, ?_⟩
  obtain ⟨f, hf⟩ := List.exists_mem_of_ne_nil _ hfs
  unfold ReflIn.autoMode
  rw [if_pos, grid_zero]
  refine ⟨f, hf, ?_⟩
  unfold ReflIn.resAuto ReflIn.autoShape
  rw [hnone f]
  rfl

/-! ## C155: the fit to the phases -/

/-- **C155**: when all channels are in use and the phases of a tile minus those of the others are those of a reflection with a whole
number of turns over the band, the gains are turned by exactly these phases. -/
theorem C155_phases_recovered (c : ReflIn) (a : ℕ → ℕ → Option ℝ) (hau : c.autos = some a) (hN : 0 < c.N) (hfs : c.fs = List.range c.N)
    (tile : ℕ) (huse : c.use tile = true) (hm0 : c.mode tile ≠ 0) (M : ℕ) (h0 : 0 < M) (hM : 2 * M < c.N)
    (hfound : c.autoMode a tile = M) (hoth : c.others M ≠ []) (b phi : ℝ)
    (hphase : ∀ f, f < c.N → c.phaseDiff M tile f = b * Real.sin (phi - 2 * Real.pi * M * f / c.N)) (f : ℕ) (hf : f < c.N) :
    c.after f tile = some (c.gain f tile * exp (I * (c.phaseDiff M tile f : ℂ))) := by
  have hNC : (c.N : ℂ) ≠ 0 := by exact_mod_cast hN.ne'
  set S := testFit c.N c.fs (fun f => (c.phaseDiff M tile f : ℂ)) M with hS
  have hsum : S = b * c.N * exp (phi * I) / (2 * I) := by
    have hterm : ∀ g ∈ List.range c.N, exp ((2 * Real.pi * (M : ℝ) * g / c.N : ℝ) * I) * (c.phaseDiff M tile g : ℂ)
        = b / (2 * I) * exp (phi * I) + -(b / (2 * I) * exp (-phi * I)) * exp ((2 * Real.pi * ((2 * M : ℕ) : ℤ) * g / c.N : ℝ) * I) := by
      intro g hg
      rw [hphase g (List.mem_range.mp hg)]
      set th : ℝ := 2 * Real.pi * M * g / c.N with hth
      have h1 : exp ((2 * Real.pi * ((2 * M : ℕ) : ℤ) * g / c.N : ℝ) * I) = exp ((th : ℂ) * I) * exp ((th : ℂ) * I) := by
        rw [← Complex.exp_add, hth]
        congr 1
        push_cast
        ring
      have h2 : ((b * Real.sin (phi - th) : ℝ) : ℂ)
          = b / (2 * I) * (exp (phi * I) * exp (-(th : ℂ) * I) - exp (-phi * I) * exp ((th : ℂ) * I)) := by
        rw [← Complex.exp_add, ← Complex.exp_add]
        push_cast
        rw [Complex.sin]
        have e1 : -((phi : ℂ) - th) * I = -phi * I + th * I := by ring
        have e2 : ((phi : ℂ) - th) * I = phi * I + -th * I := by ring
        rw [e1, e2]
        field_simp
        rw [Complex.I_sq]
        ring
      have h3 : exp ((th : ℂ) * I) * exp (-(th : ℂ) * I) = 1 := by
        rw [← Complex.exp_add, show (th : ℂ) * I + -(th : ℂ) * I = 0 by ring, Complex.exp_zero]
      rw [h1, h2]
      linear_combination (b / (2 * I) * exp (phi * I)) * h3
    rw [hS, testFit_eq, hfs, List.map_congr_left hterm, List.sum_map_add, List.sum_map_mul_left (f := fun a : ℕ => exp ((2 * Real.pi * ((2 * M : ℕ) : ℤ) * a / c.N : ℝ) * I))]
    have hcancel := turns_cancel c.N hN ((2 * M : ℕ) : ℤ) (by
      intro h
      have := Int.natCast_dvd_natCast.mp h
      exact absurd (Nat.le_of_dvd (by omega) this) (by omega))
    rw [hcancel]
    simp
    ring
  have hrefl : c.fit tile = some ⟨M, 2 * ‖S‖ / c.fs.length, arg S + Real.pi / 2⟩ := by
    unfold ReflIn.fit
    rw [hau]
    simp only []
    rw [hfound]
    unfold ReflIn.phaseRefl
    rw [if_neg hoth]
  have hlen : c.fs.length = c.N := by rw [hfs, List.length_range]
  have hA : (((2 * ‖S‖ / c.fs.length : ℝ) : ℂ)) * exp (I * ((arg S + Real.pi / 2 : ℝ) : ℂ)) = b * exp (phi * I) := by
    have hpol := Complex.norm_mul_exp_arg_mul_I S
    have hexp : exp (I * ((arg S + Real.pi / 2 : ℝ) : ℂ)) = exp (arg S * I) * I := by
      have : I * ((arg S + Real.pi / 2 : ℝ) : ℂ) = arg S * I + (Real.pi / 2 : ℂ) * I := by push_cast; ring
      rw [this, Complex.exp_add, Complex.exp_pi_div_two_mul_I]
    rw [hexp, hlen]
    push_cast
    have : (2 * (‖S‖ : ℂ) / c.N) * (exp (arg S * I) * I) = 2 * I / c.N * (‖S‖ * exp (arg S * I)) := by ring
    rw [this, hpol, hsum]
    field_simp
  unfold ReflIn.after
  rw [if_neg (by simp [huse, hm0]), hrefl, hau]
  simp only []
  rw [refl_at _ c.N f (b * exp (phi * I)) hA, hphase f hf]
  congr 3
  congr 1
  unfold reflection
  rw [mul_assoc, ← Complex.exp_add]
  have : (phi : ℂ) * I + -((2 * Real.pi * (M : ℝ) * f / c.N : ℝ) : ℂ) * I = ((phi - 2 * Real.pi * M * f / c.N : ℝ) : ℂ) * I := by
    push_cast; ring
  rw [this, Complex.im_ofReal_mul, Complex.exp_ofReal_mul_I_im]

/-! ## A small array -/

/-- Eight channels and three tiles. The cable of the first gives mode 4.5, that of the second mode 20, the third is not in use. The phases
of the first tile are those of a reflection with two turns; no auto-correlation could be computed. -/
noncomputable def exRefl : ReflIn where
  N := 8
  nTile := 3
  fs := List.range 8
  use t := decide (t < 2)
  mode t := if t = 0 then 9 / 2 else 20
  gain _ _ := 2
  res f t := if t = 0 then exp ((Real.sin (0 - 2 * Real.pi * (2 : ℕ) * f / (8 : ℕ)) : ℝ) * I) else 1
  autos := some fun _ _ => none

theorem exRefl_mode : exRefl.autoMode (fun _ _ => none) 0 = (2 : ℕ) := by
  have h := (C154_neighbour_lost exRefl (fun _ _ => none) 0 (by simp [exRefl]) (fun _ _ => rfl) (by simp [exRefl])).2
  rw [h]
  simp only [exRefl, if_true]
  norm_num

theorem exRefl_others : exRefl.others (2 : ℕ) = [0, 1] := by
  unfold ReflIn.others
  have : List.range exRefl.nTile = [0, 1, 2] := rfl
  rw [this]
  simp only [exRefl, List.filter_cons, List.filter_nil]
  norm_num [abs_of_pos]

theorem exRefl_phase (f : ℕ) : exRefl.phaseDiff (2 : ℕ) 0 f = 1 / 2 * Real.sin (0 - 2 * Real.pi * (2 : ℕ) * f / exRefl.N) := by
  unfold ReflIn.phaseDiff
  rw [exRefl_others]
  have harg : arg (exRefl.res f 0) = Real.sin (0 - 2 * Real.pi * (2 : ℕ) * f / (8 : ℕ)) := by
    simp only [exRefl, if_true]
    apply Complex.arg_exp_mul_I .. |>.trans
    rw [toIocMod_eq_self]
    have h1 := Real.neg_one_le_sin (0 - 2 * Real.pi * (2 : ℕ) * f / (8 : ℕ))
    have h2 := Real.sin_le_one (0 - 2 * Real.pi * (2 : ℕ) * f / (8 : ℕ))
    have h3 := Real.two_le_pi
    constructor <;> linarith
  have harg1 : arg (exRefl.res f 1) = 0 := by simp [exRefl]
  simp only [List.map_cons, List.map_nil, List.sum_cons, List.sum_nil, List.length_cons, List.length_nil, harg, harg1]
  show _ = 1 / 2 * Real.sin (0 - 2 * Real.pi * (2 : ℕ) * f / (8 : ℕ))
  push_cast
  ring

/-- The gains of the first tile are turned by half the phases of the reflection, the tile being among those it is compared with. -/
example (f : ℕ) (hf : f < 8) : exRefl.after f 0 = some (2 * exp (I * (exRefl.phaseDiff (2 : ℕ) 0 f : ℂ))) :=
  C155_phases_recovered exRefl (fun _ _ => none) rfl (by simp [exRefl]) rfl 0 (by simp [exRefl]) (by simp [exRefl]) 2 (by norm_num)
    (by simp [exRefl]) exRefl_mode (by rw [exRefl_others]; simp) (1 / 2) 0 (fun f _ => exRefl_phase f) f hf

example : (0 : ℕ) ∈ exRefl.others (exRefl.autoMode (fun _ _ => none) 0) :=
  C152_own_cable_included exRefl _ 0 (by simp [exRefl]) (by rw [exRefl_mode]; simp [exRefl]; norm_num) 0 (by simp [exRefl])
    (by simp [exRefl]) rfl

example : exRefl.after 3 2 = some (exRefl.gain 3 2) := by
  unfold ReflIn.after
  rw [if_pos (Or.inl (by simp [exRefl]))]

/-- Three tiles with cables of 150, 90 and 150 metres; only those of 150 metres are to be fitted. -/
noncomputable def exCables (t : ℕ) : Cable := if t = 1 then ⟨90, 0.81, 1⟩ else ⟨150, 0.81, 1⟩

noncomputable def exPlain : ReflIn where
  N := 8
  nTile := 3
  fs := List.range 8
  use _ := true
  mode t := nominalMode 299792458 (Spec.channels 8 167e6 80e3) 150 false (exCables t)
  gain f t := f + t
  res f t := f + t
  autos := none

example : exPlain.after 3 1 = some 4 := by
  have h := C151_untouched_partial exPlain 299792458 (Spec.channels 8 167e6 80e3) 150 exCables (fun _ => rfl) 1 3
    (Or.inr (Or.inr (Or.inl ⟨rfl, by norm_num, by simp [exCables]⟩)))
  rw [h]
  simp [exPlain]
  norm_num

example : exPlain.after 3 0 =
    some (exPlain.gain 3 0 * (1 + (hyperFit 8 (List.range 8) (residGain (List.range 8) fun f => exPlain.res f 0) (exPlain.mode 0)).at 8 3)) := by
  refine C151_fitted_partial exPlain 0 3 rfl rfl ?_
  show nominalMode _ _ _ _ _ ≠ 0
  unfold nominalMode theoryMode
  rw [bandOf_channels 8 (by norm_num) _ _ (by norm_num)]
  simp [exCables, modeFitOf, cableFactor]
  norm_num

/-- Two tiles, the second with auto-correlations. -/
example : ({ exRefl with nTile := 2, autos := some fun f _ => some (f + 1) } : ReflIn).normAuto (fun f _ => some (f + 1)) 2 1
    = some (3 / (9 / 2)) := by
  refine (C154_normalised_partial _ _ 1 2 (by simp) 3 (9 / 2) (by norm_num) ?_ (by norm_num) (by intro h; simp at h)).trans rfl
  unfold nanMeanR
  simp [exRefl, List.range_succ]
  norm_num

end PyFHD
