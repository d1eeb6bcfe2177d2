import Verif.Props.CalRun

/-!
# C265, C266: errors of the amplitudes of the starting gains

The data are those of some gains, and the starting gains have the right phases, up to a common one.
-/

set_option linter.unusedSectionVars false

namespace PyFHD

variable {K R : Type} [Field K] [StarRing K] [DecidableEq K] [Field R] [LinearOrder R] [IsStrictOrderedRing R]

namespace Spec

/-- The gains are those of `G` with amplitudes multiplied by numbers from `lo` to `hi`, and a common phase. -/
def AmplitudesOff (φ : R →+* K) (lo hi : R) (G gain : List K) : Prop :=
  gain.length = G.length ∧ ∃ (x : ℕ → R) (u : K), star u * u = 1 ∧
    ∀ t, lo ≤ x t ∧ x t ≤ hi ∧ gain.getD t 0 = G.getD t 0 * φ (x t) * u

/-- By which factor an amplitude is wrong, if it is multiplied by `x`. -/
def offBy (x : R) : R := max x x⁻¹

end Spec

open Spec

section Solver

variable (s : SolveIn K R) (φ : R →+* K)

theorem unit_ne_zero {u : K} (hu : star u * u = 1) : u ≠ 0 := by
  rintro rfl
  simp at hu

/-- Sums of squares of magnitudes. -/
theorem real_sum {α : Type} (l : List α) (x : α → K) (q : α → R) (h : ∀ e ∈ l, x e = φ (q e)) :
    (l.map x).sum = φ (l.map q).sum := by
  rw [map_list_sum, List.map_map]
  congr 1
  exact List.map_congr_left h

theorem wsum_le {α : Type} (l : List α) (a b : α → R) (h : ∀ e ∈ l, a e ≤ b e) : (l.map a).sum ≤ (l.map b).sum := by
  induction l with
  | nil => simp
  | cons e l ih =>
    simp only [List.map_cons, List.sum_cons]
    exact add_le_add (h e (by simp)) (ih fun e' he' => h e' (by simp [he']))

/-- The new gain of a tile has the amplitude of the true gain times a mean of the inverse errors of the others. -/
theorem newGain_off (hmag : ComplexAbs s.mag φ) (hw : s.wts = none) (G gain : List K)
    (hp : Perfect s.eqs G) (hd : Determined s.nTile s.eqs G) (lo hi : R) (hlo : 0 < lo)
    (x : ℕ → R) (u : K) (hu : star u * u = 1) (hx : ∀ t, lo ≤ x t ∧ x t ≤ hi)
    (hg : ∀ t, gain.getD t 0 = G.getD t 0 * φ (x t) * u) (t : ℕ) (ht : t < s.nTile) :
    ∃ n, 1 ≤ n * hi ∧ n * lo ≤ 1 ∧ s.newGain gain t = some (G.getD t 0 * φ n * u) := by
  have hlohi : lo ≤ hi := (hx 0).1.trans (hx 0).2
  have hhi : 0 < hi := lt_of_lt_of_le hlo hlohi
  have hcount : (s.eqsOf t).length = s.eqs.countP (fun e => e.a = t) := by
    unfold SolveIn.eqsOf; rw [List.countP_eq_length_filter]
  unfold SolveIn.newGain
  rcases hd t ht with ⟨h5, e, he, hea, hem, heg⟩ | ⟨h5, h0⟩
  · rw [if_pos (by omega), hw]
    simp only []
    rw [lstsq1_map]
    set q : CalEq K → R := fun e => s.mag (e.model * star (G.getD e.b 0)) * s.mag (e.model * star (G.getD e.b 0)) with hq
    have hqn : ∀ e, 0 ≤ q e := fun e => mul_self_nonneg _
    have hxx : ((s.eqsOf t).map fun e => star (e.model * star (gain.getD e.b 0)) * (e.model * star (gain.getD e.b 0))).sum =
        φ ((s.eqsOf t).map fun e => q e * (x e.b * x e.b)).sum := by
      apply real_sum
      intro e _
      rw [hg, map_mul, hmag.sq, map_mul]
      simp only [star_mul', star_star, hmag.real]
      linear_combination (star e.model * G.getD e.b 0 * (e.model * star (G.getD e.b 0)) * (φ (x e.b) * φ (x e.b))) * hu
    have hxy : ((s.eqsOf t).map fun e => star (e.model * star (gain.getD e.b 0)) * e.data).sum =
        G.getD t 0 * u * φ ((s.eqsOf t).map fun e => q e * x e.b).sum := by
      rw [← real_sum φ (s.eqsOf t) (fun e => φ (q e * x e.b)) (fun e => q e * x e.b) (fun _ _ => rfl), ← List.sum_map_mul_left]
      congr 1
      apply List.map_congr_left
      intro e he
      unfold SolveIn.eqsOf at he
      obtain ⟨h1, h2⟩ := List.mem_filter.1 he
      simp only [decide_eq_true_eq] at h2
      rw [hp e h1, h2, hg, map_mul, hmag.sq]
      simp only [star_mul', star_star, hmag.real]
      ring
    have hpos : 0 < ((s.eqsOf t).map fun e => q e * (x e.b * x e.b)).sum := by
      have hmem : e ∈ s.eqsOf t := by
        unfold SolveIn.eqsOf
        exact List.mem_filter.2 ⟨he, by simpa using hea⟩
      have h1 : 0 < q e * (x e.b * x e.b) := by
        have hm : 0 < s.mag (e.model * star (G.getD e.b 0)) := by
          refine lt_of_le_of_ne (hmag.nonneg _) fun h => ?_
          have := (hmag.zero_iff _).1 h.symm
          rcases mul_eq_zero.1 this with h | h
          · exact hem h
          · exact heg (by rwa [star_eq_zero] at h)
        have := (hlo.trans_le (hx e.b).1)
        rw [hq]
        positivity
      refine lt_of_lt_of_le h1 (List.single_le_sum ?_ _ (List.mem_map.2 ⟨e, hmem, rfl⟩))
      intro y hy
      obtain ⟨z, _, rfl⟩ := List.mem_map.1 hy
      exact mul_nonneg (hqn z) (mul_self_nonneg _)
    set D := ((s.eqsOf t).map fun e => q e * (x e.b * x e.b)).sum with hD
    set N := ((s.eqsOf t).map fun e => q e * x e.b).sum with hN
    have hDne : φ D ≠ 0 := by rw [Ne, map_eq_zero]; exact hpos.ne'
    rw [hxx, hxy, if_neg hDne]
    refine ⟨N / D, ?_, ?_, ?_⟩
    · rw [div_mul_eq_mul_div, le_div_iff₀ hpos, one_mul, hN, ← List.sum_map_mul_right, hD]
      apply wsum_le
      intro e _
      have h1 := hx e.b
      have h2 : 0 < x e.b := hlo.trans_le h1.1
      have := mul_le_mul_of_nonneg_left h1.2 (mul_nonneg (hqn e) h2.le)
      linarith
    · rw [div_mul_eq_mul_div, div_le_iff₀ hpos, one_mul, hN, ← List.sum_map_mul_right, hD]
      apply wsum_le
      intro e _
      have h1 := hx e.b
      have h2 : 0 < x e.b := hlo.trans_le h1.1
      have := mul_le_mul_of_nonneg_left h1.1 (mul_nonneg (hqn e) h2.le)
      linarith
    · rw [map_div₀]
      congr 1
      ring
  · rw [if_neg (by omega), h0]
    refine ⟨hi⁻¹, by rw [inv_mul_cancel₀ hhi.ne'], ?_, by simp⟩
    rw [inv_mul_le_iff₀ hhi, mul_one]
    exact hlohi

/-- During the fit of phases the amplitudes stay. -/
theorem phaseOnly_off (hmag : ComplexAbs s.mag φ) (hc : s.cast = φ) (i : ℕ) (G u : K) (hu : star u * u = 1) (x n : R) (hx : 0 < x)
    (hn : 0 < n) :
    s.phaseOnly i (G * φ x * u) (some (G * φ n * u)) = some (G * φ (if i < s.phaseIter then x else n) * u) := by
  unfold SolveIn.phaseOnly
  split_ifs
  · have hmu : s.mag u = 1 := by
      have := hmag.sq u
      rw [hu, ← map_one φ] at this
      have h1 := ComplexAbs.real_inj this
      have h2 := hmag.nonneg u
      nlinarith
    rw [Option.map_some, hc, invR_eq, hmag.mul, hmag.mul, hmag.mul, hmag.mul, hmu, hmag.of_real x hx.le, hmag.of_real n hn.le]
    by_cases h0 : s.mag G = 0
    · rw [(hmag.zero_iff G).1 h0]
      simp
    · rw [if_neg (by rw [mul_one]; exact mul_ne_zero h0 hn.ne')]
      congr 1
      have e : s.mag G * x * 1 * (s.mag G * n * 1)⁻¹ = x / n := by field_simp
      have hne : φ n ≠ 0 := by rw [Ne, map_eq_zero]; exact hn.ne'
      rw [e, map_div₀]
      field_simp
  · rfl

/-- Damping takes a mean of the old and the new amplitude. -/
theorem damp_off (hc : s.cast = φ) (hb : 0 < s.base) (cg : Option R) (hcg : ∀ c, cg = some c → 0 < c) (G u : K) (x n : R) :
    ∃ w, 0 ≤ w ∧ w ≤ 1 ∧ s.damp cg (G * φ x * u) (some (G * φ n * u)) = G * φ (w * n + (1 - w) * x) * u := by
  unfold SolveIn.damp
  cases cg with
  | none => exact ⟨0, le_refl _, zero_le_one, by simp⟩
  | some c =>
    have hc0 := hcg c rfl
    have hs : 0 < s.base + c := add_pos hb hc0
    have hne : φ (s.base + c) ≠ 0 := by rw [Ne, map_eq_zero]; exact hs.ne'
    have h3 : (3 : K) ≠ 0 := by
      have : φ 3 ≠ 0 := by rw [Ne, map_eq_zero]; norm_num
      rwa [map_ofNat] at this
    simp only [hc]
    split_ifs
    · refine ⟨1 / 3, by norm_num, by norm_num, ?_⟩
      rw [div_eq_iff h3]
      have : φ (1 / 3 * n + (1 - 1 / 3) * x) * 3 = φ n + φ x * 2 := by
        rw [show (3 : K) = φ 3 by rw [map_ofNat], show (2 : K) = φ 2 by rw [map_ofNat], ← map_mul, ← map_mul, ← map_add]
        congr 1
        ring
      linear_combination (-(G * u)) * this
    · refine ⟨c / (s.base + c), by positivity, by rw [div_le_one hs]; linarith, ?_⟩
      rw [div_eq_iff hne]
      have : φ (c / (s.base + c) * n + (1 - c / (s.base + c)) * x) * φ (s.base + c) = φ n * φ c + φ x * φ s.base := by
        rw [← map_mul, ← map_mul, ← map_mul, ← map_add]
        congr 1
        field_simp
        ring
      linear_combination (-(G * u)) * this

theorem convGain_pos (hb : 0 < s.base) (i : ℕ) (hist : List (Option R)) (stricts : List R) (c : R)
    (h : s.convGain i hist stricts = some c) : 0 < c := by
  unfold SolveIn.convGain at h
  split_ifs at h with h1 h2
  · split at h
    · simp at h
    · unfold adaptiveGain at h
      simp only [] at h
      split_ifs at h with h3 h4
      · injection h with h; rw [← h]; exact half_pos hb
      · injection h with h; rw [← h]; exact lt_of_lt_of_le (half_pos hb) (le_max_left _ _)
  · injection h with h; rw [← h]; exact hb
  · injection h with h; rw [← h]; exact hb

theorem getD_zipWith0 {α β γ : Type} (f : α → β → γ) (a : List α) (b : List β) (da : α) (db : β) (dc : γ) (t : ℕ) (h1 : t < a.length)
    (h2 : t < b.length) : (List.zipWith f a b).getD t dc = f (a.getD t da) (b.getD t db) := by
  have h3 : t < (List.zipWith f a b).length := by simp [h1, h2]
  simp only [List.getD, List.getElem?_eq_getElem h1, List.getElem?_eq_getElem h2, List.getElem?_eq_getElem h3, Option.getD_some,
    List.getElem_zipWith]

/-- One iteration keeps the amplitudes between the bounds, if these are inverse to each other. -/
theorem solveStep_off (hmag : ComplexAbs s.mag φ) (hc : s.cast = φ) (hb : 0 < s.base) (hw : s.wts = none) (G gain : List K)
    (hG : G.length = s.nTile) (hp : Perfect s.eqs G) (hd : Determined s.nTile s.eqs G)
    (href : s.noRef = false → G.getD s.refTile 0 ≠ 0) (L : R) (hL : 1 ≤ L) (ho : AmplitudesOff φ L⁻¹ L G gain) (i : ℕ)
    (hist : List (Option R)) (stricts : List R) :
    (∃ g, solveStep s i gain hist stricts = .allZero g ∧ AmplitudesOff φ L⁻¹ L G g) ∨
    ∃ curr cg strict loose, solveStep s i gain hist stricts = .ok curr cg strict loose ∧ AmplitudesOff φ L⁻¹ L G curr := by
  obtain ⟨hlen, x, u, hu, hx⟩ := ho
  have hL0 : 0 < L := lt_of_lt_of_le zero_lt_one hL
  have hLi : 0 < L⁻¹ := inv_pos.2 hL0
  have hnew : ∀ t, ∃ n, L⁻¹ ≤ n ∧ n ≤ L ∧ (t < s.nTile → s.newGain gain t = some (G.getD t 0 * φ n * u)) := by
    intro t
    by_cases ht : t < s.nTile
    · obtain ⟨n, h1, h2, h3⟩ := newGain_off s φ hmag hw G gain hp hd L⁻¹ L hLi x u hu (fun t => ⟨(hx t).1, (hx t).2.1⟩)
        (fun t => (hx t).2.2) t ht
      refine ⟨n, ?_, ?_, fun _ => h3⟩
      · rw [inv_le_iff_one_le_mul₀ hL0]; exact h1
      · rw [mul_inv_le_iff₀ hL0, one_mul] at h2; exact h2
    · exact ⟨x t, (hx t).1, (hx t).2.1, fun h => absurd h ht⟩
  choose n hn1 hn2 hn3 using hnew
  have hu0 := unit_ne_zero hu
  unfold solveStep
  set new := (List.range s.nTile).map (s.newGain gain) with hnewdef
  have hnl : new.length = s.nTile := by rw [hnewdef]; simp
  have hget : ∀ t, t < s.nTile → new.getD t none = some (G.getD t 0 * φ (n t) * u) := by
    intro t ht
    rw [← hn3 t ht, hnewdef]
    simp [List.getD, ht]
  simp only []
  split_ifs with hall
  · left
    refine ⟨_, rfl, ?_⟩
    have hzero : ∀ t, G.getD t 0 = 0 := by
      intro t
      by_cases ht : t < s.nTile
      · have hm : s.newGain gain t ∈ new := List.mem_map.2 ⟨t, List.mem_range.2 ht, rfl⟩
        have := List.all_eq_true.1 hall _ hm
        simp only [decide_eq_true_eq, hn3 t ht, Option.some.injEq] at this
        rcases mul_eq_zero.1 this with h | h
        · rcases mul_eq_zero.1 h with h | h
          · exact h
          · rw [map_eq_zero] at h
            exact absurd h (hLi.trans_le (hn1 t)).ne'
        · exact absurd h hu0
      · simp [List.getD, List.getElem?_eq_none (by omega : G.length ≤ t)]
    refine ⟨by simp [hnl, hG], x, u, hu, fun t => ⟨(hx t).1, (hx t).2.1, ?_⟩⟩
    rw [hzero t, zero_mul, zero_mul]
    by_cases ht : t < s.nTile
    · have h1 := hget t ht
      rw [hzero t, zero_mul, zero_mul] at h1
      have h2 : t < new.length := by omega
      simp only [List.getD, List.getElem?_eq_getElem h2, Option.getD_some] at h1
      simp [List.getD, h2, h1]
    · simp [List.getD, List.getElem?_eq_none (by simp [hnl]; omega : (new.map fun g => g.getD 0).length ≤ t)]
  · right
    set pre := List.zipWith (s.damp (s.convGain i hist stricts)) gain (List.zipWith (s.phaseOnly i) gain new) with hpre
    have hprel : pre.length = s.nTile := by rw [hpre]; simp [hnl, hlen, hG]
    have hpreg : ∀ t, ∃ y, L⁻¹ ≤ y ∧ y ≤ L ∧ pre.getD t 0 = G.getD t 0 * φ y * u := by
      intro t
      by_cases ht : t < s.nTile
      · have h1 : t < gain.length := by omega
        rw [hpre, getD_zipWith0 _ _ _ 0 none 0 t h1 (by simp [hnl, hlen, hG, ht]),
          getD_zipWith0 _ _ _ 0 none none t h1 (by omega), hget t ht, (hx t).2.2,
          phaseOnly_off s φ hmag hc i _ u hu _ _ (hLi.trans_le (hx t).1) (hLi.trans_le (hn1 t))]
        obtain ⟨w, w0, w1, hwd⟩ := damp_off s φ hc hb (s.convGain i hist stricts)
          (fun c h => convGain_pos s hb i hist stricts c h) (G.getD t 0) u (x t) (if i < s.phaseIter then x t else n t)
        refine ⟨_, ?_, ?_, hwd⟩
        · have h2 : L⁻¹ ≤ (if i < s.phaseIter then x t else n t) := by split_ifs; exacts [(hx t).1, hn1 t]
          nlinarith [(hx t).1, mul_nonneg w0 (sub_nonneg.2 h2), mul_nonneg (sub_nonneg.2 w1) (sub_nonneg.2 (hx t).1)]
        · have h2 : (if i < s.phaseIter then x t else n t) ≤ L := by split_ifs; exacts [(hx t).2.1, hn2 t]
          nlinarith [(hx t).1, mul_nonneg w0 (sub_nonneg.2 h2), mul_nonneg (sub_nonneg.2 w1) (sub_nonneg.2 (hx t).2.1)]
      · refine ⟨x t, (hx t).1, (hx t).2.1, ?_⟩
        simp [List.getD, List.getElem?_eq_none (by omega : G.length ≤ t), List.getElem?_eq_none (by omega : pre.length ≤ t)]
    choose y hy1 hy2 hy3 using hpreg
    unfold SolveIn.refer
    cases hnr : s.noRef with
    | true =>
      simp only [if_true]
      exact ⟨_, _, _, _, rfl, by rw [hprel, hG], y, u, hu, fun t => ⟨hy1 t, hy2 t, hy3 t⟩⟩
    | false =>
      simp only [Bool.false_eq_true, if_false]
      have hr0 : pre.getD s.refTile 0 ≠ 0 := by
        rw [hy3]
        refine mul_ne_zero (mul_ne_zero (href hnr) ?_) hu0
        rw [Ne, map_eq_zero]
        exact (hLi.trans_le (hy1 _)).ne'
      rw [if_neg hr0]
      simp only []
      refine ⟨_, _, _, _, rfl, by simp [hprel, hG], y, u * (star (pre.getD s.refTile 0) / φ (s.mag (pre.getD s.refTile 0))), ?_, ?_⟩
      · have := hmag.phase_sq _ hr0
        rw [star_mul']
        linear_combination (star (star (pre.getD s.refTile 0) / φ (s.mag (pre.getD s.refTile 0))) *
          (star (pre.getD s.refTile 0) / φ (s.mag (pre.getD s.refTile 0)))) * hu + this
      · intro t
        refine ⟨hy1 t, hy2 t, ?_⟩
        rw [getD_map_mul, hy3, hc]
        ring

theorem solveFrom_off (hmag : ComplexAbs s.mag φ) (hc : s.cast = φ) (hb : 0 < s.base) (hw : s.wts = none) (G : List K)
    (hG : G.length = s.nTile) (hp : Perfect s.eqs G) (hd : Determined s.nTile s.eqs G)
    (href : s.noRef = false → G.getD s.refTile 0 ≠ 0) (L : R) (hL : 1 ≤ L) :
    ∀ (fuel i : ℕ) (gain : List K) (_ : AmplitudesOff φ L⁻¹ L G gain) (hist : List (Option R)) (stricts looses : List R),
      ∃ out, solveFrom s fuel i gain hist stricts looses = some out ∧ AmplitudesOff φ L⁻¹ L G out.gain := by
  intro fuel
  induction fuel with
  | zero =>
    intro i gain ho hist stricts looses
    unfold solveFrom
    rcases solveStep_off s φ hmag hc hb hw G gain hG hp hd href L hL ho i hist stricts with
      ⟨g, e, hg⟩ | ⟨curr, cg, strict, loose, e, hg⟩
    · rw [e]; exact ⟨_, rfl, hg⟩
    · rw [e]
      rcases stopTest_cases s i stricts strict loose (looses.getLastD 0) with e | e | e | e | e
      · simp only [e]; exact ⟨_, rfl, hg⟩
      · simp only [e]; exact ⟨_, rfl, hg⟩
      · simp only [e]; exact ⟨_, rfl, ho⟩
      · simp only [e]; exact ⟨_, rfl, hg⟩
      · simp only [e]; exact ⟨_, rfl, ho⟩
  | succ fuel ih =>
    intro i gain ho hist stricts looses
    unfold solveFrom
    rcases solveStep_off s φ hmag hc hb hw G gain hG hp hd href L hL ho i hist stricts with
      ⟨g, e, hg⟩ | ⟨curr, cg, strict, loose, e, hg⟩
    · rw [e]; exact ⟨_, rfl, hg⟩
    · rw [e]
      rcases stopTest_cases s i stricts strict loose (looses.getLastD 0) with e | e | e | e | e
      · simp only [e]; exact ih _ _ hg _ _ _
      · simp only [e]; exact ⟨_, rfl, hg⟩
      · simp only [e]; exact ⟨_, rfl, ho⟩
      · simp only [e]; exact ⟨_, rfl, hg⟩
      · simp only [e]; exact ⟨_, rfl, ho⟩

theorem startGain_off (G gain : List K) (hG : G.length = s.nTile) (hd : Determined s.nTile s.eqs G) (lo hi : R)
    (ho : AmplitudesOff φ lo hi G gain) : s.startGain gain = gain := by
  obtain ⟨hlen, x, u, hu, hx⟩ := ho
  unfold SolveIn.startGain
  apply List.ext_getElem
  · simp [hlen, hG]
  · intro t h1 h2
    simp only [List.getElem_map, List.getElem_range]
    have hg : gain.getD t 0 = gain[t] := by simp [List.getD, h2]
    have hcount : (s.eqsOf t).length = s.eqs.countP (fun e => e.a = t) := by
      unfold SolveIn.eqsOf; rw [List.countP_eq_length_filter]
    rcases hd t (by omega) with ⟨h5, _⟩ | ⟨h5, h0⟩
    · rw [if_neg (by omega), hg]
    · rw [if_pos (by omega), ← hg, (hx t).2.2, h0, zero_mul, zero_mul]

/-- **C265**, the solver at one channel: amplitudes within a factor `L` of the true ones stay so. -/
theorem C265_solver (hmag : ComplexAbs s.mag φ) (hc : s.cast = φ) (hb : 0 < s.base) (hw : s.wts = none) (hm : 0 < s.maxIter)
    (G gain : List K) (hG : G.length = s.nTile) (hp : Perfect s.eqs G) (hd : Determined s.nTile s.eqs G)
    (hu : ¬ SameNumber s.nTile s.eqs) (href : s.noRef = false → G.getD s.refTile 0 ≠ 0) (L : R) (hL : 1 ≤ L)
    (ho : AmplitudesOff φ L⁻¹ L G gain) :
    ∃ out, solve s gain = .ok (some out) ∧ AmplitudesOff φ L⁻¹ L G out.gain := by
  obtain ⟨n, hn⟩ : ∃ n, s.maxIter = n + 1 := ⟨s.maxIter - 1, by omega⟩
  rw [solve_uneven s n hn hu, startGain_off s φ G gain hG hd _ _ ho]
  simp only [Except.ok.injEq]
  exact solveFrom_off s φ hmag hc hb hw G hG hp hd href L hL n 0 gain ho [] [] []

/-! ## A common error -/

theorem map_off (G : List K) (x : R) (u : K) (t : ℕ) : (G.map fun g => g * φ x * u).getD t 0 = G.getD t 0 * φ x * u := by
  simp only [List.getD, List.getElem?_map]
  cases G[t]? <;> simp

/-- The change of an amplitude in an iteration that fits amplitudes. -/
def halfWay (x : R) : R := (x + x⁻¹) / 2

/-- The relative change of the gains. -/
def relHalf (x : R) : R := |halfWay x - x| * x⁻¹

theorem halfWay_pos {x : R} (hx : 0 < x) : 0 < halfWay x := by
  unfold halfWay
  positivity

theorem halfWay_ge {x : R} (hx : 0 < x) : 1 ≤ halfWay x := by
  unfold halfWay
  rw [le_div_iff₀ two_pos]
  have h1 : x * x⁻¹ = 1 := mul_inv_cancel₀ hx.ne'
  have h2 : 0 < x⁻¹ := inv_pos.2 hx
  nlinarith [sq_nonneg (x - x⁻¹), sq_nonneg (x + x⁻¹ - 2)]

theorem offBy_pos {x : R} (hx : 0 < x) : 0 < offBy x := lt_of_lt_of_le hx (le_max_left _ _)

theorem offBy_ge {x : R} (hx : 0 < x) : 1 ≤ offBy x := by
  unfold offBy
  rcases le_total 1 x with h | h
  · exact h.trans (le_max_left _ _)
  · exact ((one_le_inv₀ hx).2 h).trans (le_max_right _ _)

theorem offBy_of_ge {x : R} (hx : 1 ≤ x) : offBy x = x := by
  unfold offBy
  apply max_eq_left
  exact (inv_le_one_of_one_le₀ hx).trans hx

theorem halfWay_offBy (x : R) : halfWay x = halfWay (offBy x) := by
  unfold offBy halfWay
  rcases max_choice x x⁻¹ with h | h
  · rw [h]
  · rw [h, inv_inv, add_comm]

theorem halfWay_off {x : R} (hx : 0 < x) : offBy (halfWay x) - 1 ≤ (offBy x - 1) / 2 := by
  rw [offBy_of_ge (halfWay_ge hx), halfWay_offBy x]
  have h1 := offBy_ge hx
  have h2 := inv_le_one_of_one_le₀ h1
  unfold halfWay
  linarith

theorem relHalf_of_ge {x : R} (hx : 1 ≤ x) : relHalf x = (1 - x⁻¹ * x⁻¹) / 2 := by
  have h0 : 0 < x := lt_of_lt_of_le zero_lt_one hx
  have h2 := inv_le_one_of_one_le₀ hx
  have h1 : x * x⁻¹ = 1 := mul_inv_cancel₀ h0.ne'
  unfold relHalf halfWay
  rw [abs_of_nonpos (by linarith)]
  linear_combination (1 / 2 : R) * h1

theorem relHalf_le {x : R} (hx : 1 ≤ x) : relHalf x ≤ x - 1 := by
  rw [relHalf_of_ge hx]
  have h0 : 0 < x := lt_of_lt_of_le zero_lt_one hx
  have h1 : x * x⁻¹ = 1 := mul_inv_cancel₀ h0.ne'
  have h2 := inv_le_one_of_one_le₀ hx
  have h3 : 0 < x⁻¹ := inv_pos.2 h0
  nlinarith [mul_nonneg (sub_nonneg.2 h2) (sub_nonneg.2 hx), mul_nonneg (sub_nonneg.2 h2) (sub_nonneg.2 h2)]

/-- The changes get smaller. -/
theorem relHalf_lt {x : R} (hx : 1 ≤ x) (hne : 0 < relHalf (halfWay x)) : relHalf (halfWay x) < relHalf x := by
  have h0 : 0 < x := lt_of_lt_of_le zero_lt_one hx
  have hx1 : 1 < x := by
    rcases hx.lt_or_eq with h | h
    · exact h
    · exfalso
      rw [← h] at hne
      unfold relHalf halfWay at hne
      norm_num at hne
  have hy := halfWay_ge h0
  have hyx : halfWay x < x := by
    unfold halfWay
    have := inv_lt_one_of_one_lt₀ hx1
    linarith
  rw [relHalf_of_ge hy, relHalf_of_ge hx]
  have h1 : x⁻¹ < (halfWay x)⁻¹ := inv_strictAnti₀ (halfWay_pos h0) hyx
  have h2 : 0 < x⁻¹ := inv_pos.2 h0
  have h3 := mul_self_lt_mul_self h2.le h1
  linarith

/-- How many of the tiles have a gain. -/
def liveFraction (G : List K) : R := (G.map fun g => if g = 0 then (0 : R) else 1).sum / (G.length : R)

theorem liveFraction_pos (G : List K) (h : ∃ g ∈ G, g ≠ 0) : 0 < (liveFraction G : R) := by
  obtain ⟨g, hg, h0⟩ := h
  unfold liveFraction
  have hl : 0 < (G.length : R) := by exact_mod_cast List.length_pos_of_mem hg
  apply div_pos _ hl
  have h1 : (if g = 0 then (0 : R) else 1) ≤ (G.map fun g => if g = 0 then (0 : R) else 1).sum := by
    apply List.single_le_sum
    · intro y hy
      obtain ⟨z, _, rfl⟩ := List.mem_map.1 hy
      split_ifs <;> norm_num
    · exact List.mem_map.2 ⟨g, hg, rfl⟩
  rw [if_neg h0] at h1
  linarith

theorem mag_unit (hmag : ComplexAbs s.mag φ) {u : K} (hu : star u * u = 1) : s.mag u = 1 := by
  have := hmag.sq u
  rw [hu, ← map_one φ] at this
  have h1 := ComplexAbs.real_inj this
  have h2 := hmag.nonneg u
  nlinarith

theorem foldl_max_le_of (l : List R) (a b : R) (ha : a ≤ b) (h : ∀ x ∈ l, x ≤ b) : l.foldl max a ≤ b := by
  induction l generalizing a with
  | nil => exact ha
  | cons x l ih =>
    rw [List.foldl_cons]
    exact ih _ (max_le ha (h x (by simp))) fun y hy => h y (by simp [hy])

/-- The damping of a gain that has the right phase, if the test for divergence does not strike. -/
theorem damp_half (hmag : ComplexAbs s.mag φ) (hc : s.cast = φ) (hb : 0 < s.base) (G u : K) (hu : star u * u = 1) (x : R) (hx : 0 < x)
    (hG : s.mag G * x * (x * x) ≤ x * x + 1) :
    s.damp (some s.base) (G * φ x * u) (some (G * φ x⁻¹ * u)) = G * φ (halfWay x) * u := by
  unfold SolveIn.damp
  have hbb : s.base + s.base ≠ 0 := by positivity
  have hne : φ (s.base + s.base) ≠ 0 := by rw [Ne, map_eq_zero]; exact hbb
  have e : (G * φ x⁻¹ * u * φ s.base + G * φ x * u * φ s.base) / φ (s.base + s.base) = G * φ (halfWay x) * u := by
    rw [div_eq_iff hne]
    have : φ (halfWay x) * φ (s.base + s.base) = φ x⁻¹ * φ s.base + φ x * φ s.base := by
      rw [← map_mul, ← map_mul, ← map_mul, ← map_add]
      congr 1
      unfold halfWay
      ring
    linear_combination (-(G * u)) * this
  simp only [hc]
  rw [e, if_neg]
  rw [not_lt, invR_eq, hmag.mul, hmag.mul, hmag.mul, hmag.mul, mag_unit s φ hmag hu, hmag.of_real x hx.le,
    hmag.of_real _ (halfWay_pos hx).le]
  by_cases h0 : s.mag G = 0
  · simp [h0]
  · have hg : 0 < s.mag G := lt_of_le_of_ne (hmag.nonneg _) (Ne.symm h0)
    rw [if_neg (by rw [mul_one]; exact mul_ne_zero h0 hx.ne')]
    have e2 : s.mag G * halfWay x * 1 * (s.mag G * x * 1)⁻¹ = (x * x + 1) / (x * x) / 2 := by
      unfold halfWay
      field_simp
    rw [e2, mul_one]
    apply div_le_div_of_nonneg_right _ two_pos.le
    rw [le_div_iff₀ (by positivity)]
    exact hG

/-- A gain that has the right amplitude stays as it is. -/
theorem damp_keep (hc : s.cast = φ) (hb : 0 < s.base) (g : K) : s.damp (some s.base) g (some g) = g := by
  unfold SolveIn.damp
  have hbb : s.base + s.base ≠ 0 := by positivity
  have hne : φ (s.base + s.base) ≠ 0 := by rw [Ne, map_eq_zero]; exact hbb
  have h3 : (3 : K) ≠ 0 := by
    have : φ 3 ≠ 0 := by rw [Ne, map_eq_zero]; norm_num
    rwa [map_ofNat] at this
  simp only [hc]
  split_ifs
  · rw [div_eq_iff h3]; ring
  · rw [div_eq_iff hne, map_add]; ring

/-- The amplitudes after an iteration. -/
def nextAmp (i : ℕ) (x : R) : R := if i < s.phaseIter then x else halfWay x

theorem nextAmp_pos (i : ℕ) {x : R} (hx : 0 < x) : 0 < nextAmp s i x := by
  unfold nextAmp
  split_ifs
  exacts [hx, halfWay_pos hx]

/-- One iteration, the gains having a common error of amplitude. -/
theorem solveStep_common (hmag : ComplexAbs s.mag φ) (hc : s.cast = φ) (hb : 0 < s.base) (hw : s.wts = none) (ha : s.adaptive = false)
    (G : List K) (hG : G.length = s.nTile) (hp : Perfect s.eqs G) (hd : Determined s.nTile s.eqs G) (hne : ∃ g ∈ G, g ≠ 0)
    (href : s.noRef = false → G.getD s.refTile 0 ≠ 0) (x : R) (hx : 0 < x) (hsmall : ∀ g ∈ G, s.mag g * x * (x * x) ≤ x * x + 1)
    (u : K) (hu : star u * u = 1) (i : ℕ) (hist : List (Option R)) (stricts : List R) :
    ∃ u' cg strict loose, solveStep s i (G.map fun g => g * φ x * u) hist stricts =
        .ok (G.map fun g => g * φ (nextAmp s i x) * u') cg strict loose ∧ star u' * u' = 1 ∧
      (s.noRef = false → G.getD s.refTile 0 * u' = φ (s.mag (G.getD s.refTile 0))) ∧
      ((s.noRef = false → G.getD s.refTile 0 * u = φ (s.mag (G.getD s.refTile 0))) → s.phaseIter ≤ i →
        strict ≤ relHalf x ∧ loose = liveFraction G * relHalf x) := by
  have hu0 := unit_ne_zero hu
  have hφx : φ x ≠ 0 := by rw [Ne, map_eq_zero]; exact hx.ne'
  have hnew : ∀ t, t < s.nTile → s.newGain (G.map fun g => g * φ x * u) t = some (G.getD t 0 * φ x⁻¹ * u) := by
    intro t ht
    obtain ⟨n, h1, h2, h3⟩ := newGain_off s φ hmag hw G _ hp hd x x hx (fun _ => x) u hu (fun _ => ⟨le_refl _, le_refl _⟩)
      (map_off φ G x u) t ht
    rw [h3, eq_inv_of_mul_eq_one_left (le_antisymm h2 h1)]
  have hnewl : (List.range s.nTile).map (s.newGain (G.map fun g => g * φ x * u)) = G.map fun g => some (g * φ x⁻¹ * u) := by
    apply List.ext_getElem
    · simp [hG]
    · intro t h1 h2
      have ht : t < s.nTile := by simpa using h1
      have htG : t < G.length := by omega
      simp only [List.getElem_map, List.getElem_range]
      rw [hnew t ht]
      simp [List.getD, htG]
  have hcg : s.convGain i hist stricts = some s.base := by
    unfold SolveIn.convGain
    rw [ha]
    simp
  have hpre : List.zipWith (s.damp (some s.base)) (G.map fun g => g * φ x * u)
      (List.zipWith (s.phaseOnly i) (G.map fun g => g * φ x * u) (G.map fun g => some (g * φ x⁻¹ * u))) =
      G.map fun g => g * φ (nextAmp s i x) * u := by
    rw [List.zipWith_map, List.zipWith_self, List.zipWith_map, List.zipWith_self]
    apply List.map_congr_left
    intro g hg
    rw [phaseOnly_off s φ hmag hc i g u hu x x⁻¹ hx (inv_pos.2 hx)]
    unfold nextAmp
    split_ifs with hi
    · exact damp_keep s φ hc hb _
    · exact damp_half s φ hmag hc hb g u hu x hx (hsmall g hg)
  have hall : ¬ ((G.map fun g => some (g * φ x⁻¹ * u)).all fun g => decide (g = some 0)) = true := by
    intro h
    obtain ⟨g, hg, hg0⟩ := hne
    have := List.all_eq_true.1 h _ (List.mem_map.2 ⟨g, hg, rfl⟩)
    simp only [decide_eq_true_eq, Option.some.injEq] at this
    exact mul_ne_zero (mul_ne_zero hg0 (by rw [Ne, map_eq_zero]; exact inv_ne_zero hx.ne')) hu0 this
  have hny := nextAmp_pos s i hx
  have hφy : φ (nextAmp s i x) ≠ 0 := by rw [Ne, map_eq_zero]; exact hny.ne'
  have hrel : s.phaseIter ≤ i → relChange s.mag (G.map fun g => g * φ (nextAmp s i x) * u) (G.map fun g => g * φ x * u) =
      G.map fun g => (if g = 0 then (0 : R) else 1) * relHalf x := by
    intro hi
    unfold relChange
    rw [List.zipWith_map, List.zipWith_self]
    apply List.map_congr_left
    intro g _
    unfold nextAmp
    rw [if_neg (by omega)]
    have e : g * φ (halfWay x) * u - g * φ x * u = g * φ (halfWay x - x) * u := by rw [map_sub]; ring
    rw [e, hmag.mul, hmag.mul, hmag.mul, hmag.mul, mag_unit s φ hmag hu, hmag.of_real x hx.le, mul_one, mul_one, invR_eq]
    have ea : s.mag (φ (halfWay x - x)) = |halfWay x - x| := by
      have h1 := hmag.sq (φ (halfWay x - x))
      rw [hmag.real, ← map_mul] at h1
      have h2 := ComplexAbs.real_inj h1
      rw [← abs_mul_abs_self (halfWay x - x)] at h2
      exact (mul_self_inj (hmag.nonneg _) (abs_nonneg _)).1 h2
    rw [ea]
    by_cases h0 : g = 0
    · rw [if_pos h0, h0, (hmag.zero_iff (0 : K)).2 rfl]
      simp
    · have hm : s.mag g ≠ 0 := fun h => h0 ((hmag.zero_iff g).1 h)
      rw [if_neg h0, if_neg (mul_ne_zero hm hx.ne'), one_mul]
      unfold relHalf
      field_simp
  have hS : 0 ≤ relHalf x := mul_nonneg (abs_nonneg _) (inv_nonneg.2 hx.le)
  have hmeas : ∀ d : List R, (d = G.map fun g => (if g = 0 then (0 : R) else 1) * relHalf x) →
      d.foldl max (d.headD 0) ≤ relHalf x ∧ d.sum / (d.length : R) = liveFraction G * relHalf x := by
    intro d hd
    have hle : ∀ y ∈ d, y ≤ relHalf x := by
      intro y hy
      rw [hd] at hy
      obtain ⟨g, _, rfl⟩ := List.mem_map.1 hy
      split_ifs <;> simp [hS]
    refine ⟨foldl_max_le_of _ _ _ ?_ hle, ?_⟩
    · cases hd' : d with
      | nil => exact hS
      | cons a l => exact hle a (by rw [hd']; simp)
    · rw [hd, List.sum_map_mul_right, List.length_map]
      unfold liveFraction
      ring
  unfold solveStep
  rw [hnewl]
  simp only []
  rw [if_neg hall, hcg, hpre]
  unfold SolveIn.refer
  cases hnr : s.noRef with
  | true =>
    simp only [if_true]
    refine ⟨u, _, _, _, rfl, hu, fun h => by simp at h, fun _ hi => ?_⟩
    exact hmeas _ (hrel hi)
  | false =>
    simp only [Bool.false_eq_true, if_false]
    have hr0 := href hnr
    set r := G.getD s.refTile 0 with hr
    have hpr : r * φ (nextAmp s i x) * u ≠ 0 := mul_ne_zero (mul_ne_zero hr0 hφy) hu0
    rw [map_off, ← hr, if_neg hpr]
    simp only []
    have hmr : s.mag (r * φ (nextAmp s i x) * u) = s.mag r * nextAmp s i x := by
      rw [hmag.mul, hmag.mul, mag_unit s φ hmag hu, hmag.of_real _ hny.le, mul_one]
    have hmne : φ (s.mag r) ≠ 0 := by
      rw [Ne, map_eq_zero]
      exact fun h => hr0 ((hmag.zero_iff r).1 h)
    set v := star (r * φ (nextAmp s i x) * u) / s.cast (s.mag (r * φ (nextAmp s i x) * u)) with hv
    have hv' : v = star (r * u) / φ (s.mag r) := by
      rw [hv, hmr, hc, map_mul]
      simp only [star_mul', hmag.real]
      field_simp
    have hvv : star v * v = 1 := by
      have := hmag.phase_sq _ hpr
      rw [hv, hc]
      exact this
    have hgain : (G.map fun g => g * φ (nextAmp s i x) * u).map (fun g => g * v) = G.map fun g => g * φ (nextAmp s i x) * (u * v) := by
      rw [List.map_map]
      apply List.map_congr_left
      intro g _
      simp only [Function.comp]
      ring
    rw [hgain]
    refine ⟨u * v, _, _, _, rfl, ?_, fun _ => ?_, fun hal hi => ?_⟩
    · rw [star_mul']
      linear_combination (star v * v) * hu + hvv
    · have h1 := hmag.sq r
      rw [map_mul] at h1
      rw [hv', ← mul_assoc, ← mul_div_assoc, div_eq_iff hmne, h1, star_mul']
      linear_combination (r * star r) * hu
    · have hv1 : v = 1 := by
        rw [hv', hal trivial, hmag.real, div_self hmne]
      rw [hv1, mul_one]
      exact hmeas _ (hrel hi)

theorem solveFrom_common (hmag : ComplexAbs s.mag φ) (hc : s.cast = φ) (hb : 0 < s.base) (hw : s.wts = none) (ha : s.adaptive = false)
    (hth : 0 ≤ s.thresh) (G : List K) (hG : G.length = s.nTile) (hp : Perfect s.eqs G) (hd : Determined s.nTile s.eqs G)
    (hne : ∃ g ∈ G, g ≠ 0) (href : s.noRef = false → G.getD s.refTile 0 ≠ 0) (o : R) (ho : 1 ≤ o)
    (hsmall : ∀ g ∈ G, s.mag g * o * (o * o) ≤ o * o + 1) :
    ∀ (fuel i : ℕ) (x : R) (u : K) (hist : List (Option R)) (stricts looses : List R), 0 < x → star u * u = 1 →
      (0 < i → s.noRef = false → G.getD s.refTile 0 * u = φ (s.mag (G.getD s.refTile 0))) →
      offBy x - 1 ≤ (o - 1) / 2 ^ (i - s.phaseIter) →
      (s.phaseIter < i → 1 ≤ x) →
      (s.phaseIter + 1 < i → ∃ y, 1 ≤ y ∧ x = halfWay y ∧ looses.getLastD 0 = liveFraction G * relHalf y) →
      ∃ out x' u', solveFrom s fuel i (G.map fun g => g * φ x * u) hist stricts looses = some out ∧ 0 < x' ∧ star u' * u' = 1 ∧
        out.gain = (G.map fun g => g * φ x' * u') ∧ (out.stop = .converged ∨ out.stop = .exhausted ∧ out.iter = i + fuel) ∧
        offBy x' - 1 ≤ (o - 1) / 2 ^ (out.iter + 1 - s.phaseIter) ∧
        ∀ k, (o - 1) / 2 ^ k ≤ s.thresh → s.phaseIter + max 4 k ≤ i + fuel → i ≤ s.phaseIter + max 4 k →
          out.stop = .converged ∧ out.iter ≤ s.phaseIter + max 4 k := by
  have hpow : ∀ n : ℕ, (o - 1) / 2 ^ n ≤ o - 1 := by
    intro n
    apply div_le_self (by linarith)
    exact one_le_pow₀ (by norm_num)
  have hmono : ∀ m n : ℕ, m ≤ n → (o - 1) / 2 ^ n ≤ (o - 1) / 2 ^ m := by
    intro m n hmn
    apply div_le_div_of_nonneg_left (by linarith) (by positivity)
    exact pow_le_pow_right₀ (by norm_num) hmn
  have hsm : ∀ x : R, 0 < x → x ≤ o → ∀ g ∈ G, s.mag g * x * (x * x) ≤ x * x + 1 := by
    intro x hx hxo g hg
    have h1 := hsmall g hg
    have ho0 : 0 < o := lt_of_lt_of_le zero_lt_one ho
    have h2 : s.mag g * o ≤ 1 + (o * o)⁻¹ := by
      have : (s.mag g * o) * (o * o) ≤ (1 + (o * o)⁻¹) * (o * o) := by
        rw [add_mul, inv_mul_cancel₀ (by positivity), one_mul]
        exact h1
      exact le_of_mul_le_mul_right this (by positivity)
    have h3 : (o * o)⁻¹ ≤ (x * x)⁻¹ := inv_anti₀ (by positivity) (mul_self_le_mul_self hx.le hxo)
    have h4 : s.mag g * x ≤ s.mag g * o := mul_le_mul_of_nonneg_left hxo (hmag.nonneg _)
    have h5 : s.mag g * x * (x * x) ≤ (1 + (x * x)⁻¹) * (x * x) :=
      mul_le_mul_of_nonneg_right (by linarith) (by positivity)
    rwa [add_mul, inv_mul_cancel₀ (by positivity), one_mul] at h5
  have hκ : 0 < (liveFraction G : R) := liveFraction_pos G hne
  have hone : ∀ (i : ℕ) (x : R) (u : K) (hist : List (Option R)) (stricts looses : List R), 0 < x → star u * u = 1 →
      (0 < i → s.noRef = false → G.getD s.refTile 0 * u = φ (s.mag (G.getD s.refTile 0))) →
      offBy x - 1 ≤ (o - 1) / 2 ^ (i - s.phaseIter) →
      (s.phaseIter < i → 1 ≤ x) →
      (s.phaseIter + 1 < i → ∃ y, 1 ≤ y ∧ x = halfWay y ∧ looses.getLastD 0 = liveFraction G * relHalf y) →
      ∃ u' cg strict loose, solveStep s i (G.map fun g => g * φ x * u) hist stricts =
          .ok (G.map fun g => g * φ (nextAmp s i x) * u') cg strict loose ∧ star u' * u' = 1 ∧
        (s.noRef = false → G.getD s.refTile 0 * u' = φ (s.mag (G.getD s.refTile 0))) ∧
        (stopTest s i stricts strict loose (looses.getLastD 0) = none ∨
          stopTest s i stricts strict loose (looses.getLastD 0) = some .converged) ∧
        (∀ k, (o - 1) / 2 ^ k ≤ s.thresh → i = s.phaseIter + max 4 k →
          stopTest s i stricts strict loose (looses.getLastD 0) = some .converged) ∧
        offBy (nextAmp s i x) - 1 ≤ (o - 1) / 2 ^ (i + 1 - s.phaseIter) ∧
        (s.phaseIter < i + 1 → 1 ≤ nextAmp s i x) ∧
        (s.phaseIter + 1 < i + 1 → ∃ y, 1 ≤ y ∧ nextAmp s i x = halfWay y ∧ loose = liveFraction G * relHalf y) := by
    intro i x u hist stricts looses hx hu hal hoff h1 hprev
    have hxo : x ≤ o := by
      have := hpow (i - s.phaseIter)
      have h2 : x ≤ offBy x := le_max_left _ _
      linarith
    obtain ⟨u', cg, strict, loose, hstep, hu', hal', hm⟩ := solveStep_common s φ hmag hc hb hw ha G hG hp hd hne href x hx
      (hsm x hx hxo) u hu i hist stricts
    refine ⟨u', cg, strict, loose, hstep, hu', hal', ?_, ?_, ?_, ?_, ?_⟩
    · unfold stopTest
      split_ifs with hi hs hl hlt <;> try exact Or.inl rfl
      · exact Or.inr rfl
      all_goals
        exfalso
        obtain ⟨y, hy1, hy2, hy3⟩ := hprev (by omega)
        obtain ⟨hm1, hm2⟩ := hm (hal (by omega)) (by omega)
        rw [hy3, hm2] at hl
        have hle : relHalf y ≤ relHalf x := le_of_mul_le_mul_left hl hκ
        have hpos : 0 < relHalf x := lt_of_le_of_lt hth (lt_of_lt_of_le (not_le.1 hs) hm1)
        rw [hy2] at hpos hle
        exact absurd (relHalf_lt hy1 hpos) (not_lt.2 hle)
    · intro k hk hi
      have h4 : 4 ≤ max 4 k := le_max_left _ _
      have hk4 : k ≤ max 4 k := le_max_right _ _
      unfold stopTest
      rw [if_pos (by omega), if_pos]
      obtain ⟨hm1, -⟩ := hm (hal (by omega)) (by omega)
      have hx1 := h1 (by omega)
      have h2 := relHalf_le hx1
      rw [offBy_of_ge hx1] at hoff
      have h3 := hmono k (i - s.phaseIter) (by omega)
      linarith
    · unfold nextAmp
      split_ifs with hi
      · have e : i - s.phaseIter = i + 1 - s.phaseIter := by omega
        rw [← e]
        exact hoff
      · have e : i + 1 - s.phaseIter = (i - s.phaseIter) + 1 := by omega
        rw [e, pow_succ, ← div_div]
        have := halfWay_off hx
        linarith
    · intro hi
      unfold nextAmp
      rw [if_neg (by omega)]
      exact halfWay_ge hx
    · intro hi
      refine ⟨x, h1 (by omega), ?_, (hm (hal (by omega)) (by omega)).2⟩
      unfold nextAmp
      rw [if_neg (by omega)]
  intro fuel
  induction fuel with
  | zero =>
    intro i x u hist stricts looses hx hu hal hoff h1 hprev
    obtain ⟨u', cg, strict, loose, hstep, hu', hal', hstop, hconv, hoff', h1', hprev'⟩ :=
      hone i x u hist stricts looses hx hu hal hoff h1 hprev
    unfold solveFrom
    rw [hstep]
    rcases hstop with e | e
    · simp only [e]
      refine ⟨_, _, u', rfl, nextAmp_pos s i hx, hu', rfl, Or.inr ⟨rfl, rfl⟩, hoff', ?_⟩
      intro k hk h2 h3
      rw [hconv k hk (by omega)] at e
      cases e
    · simp only [e]
      exact ⟨_, _, u', rfl, nextAmp_pos s i hx, hu', rfl, Or.inl rfl, hoff', fun k _ _ h3 => ⟨rfl, h3⟩⟩
  | succ fuel ih =>
    intro i x u hist stricts looses hx hu hal hoff h1 hprev
    obtain ⟨u', cg, strict, loose, hstep, hu', hal', hstop, hconv, hoff', h1', hprev'⟩ :=
      hone i x u hist stricts looses hx hu hal hoff h1 hprev
    unfold solveFrom
    rw [hstep]
    rcases hstop with e | e
    · simp only [e]
      obtain ⟨out, x', v, h2, h3, h4, h5, h6, h7, h8⟩ := ih (i + 1) _ u' (hist ++ [cg]) (stricts ++ [strict]) (looses ++ [loose])
        (nextAmp_pos s i hx) hu' (fun _ => hal') hoff' h1' (by
          intro hi
          obtain ⟨y, hy1, hy2, hy3⟩ := hprev' hi
          exact ⟨y, hy1, hy2, by simpa using hy3⟩)
      refine ⟨out, x', v, h2, h3, h4, h5, ?_, h7, ?_⟩
      · rcases h6 with h6 | ⟨h6, h9⟩
        · exact Or.inl h6
        · exact Or.inr ⟨h6, by omega⟩
      · intro k hk h9 h10
        have hi : i ≠ s.phaseIter + max 4 k := by
          intro hi
          rw [hconv k hk hi] at e
          cases e
        exact h8 k hk (by omega) (by omega)
    · simp only [e]
      exact ⟨_, _, u', rfl, nextAmp_pos s i hx, hu', rfl, Or.inl rfl, hoff', fun k _ _ h3 => ⟨rfl, h3⟩⟩

/-- **C266**, the solver at one channel. -/
theorem C266_solver (hmag : ComplexAbs s.mag φ) (hc : s.cast = φ) (hb : 0 < s.base) (hw : s.wts = none) (ha : s.adaptive = false)
    (hth : 0 ≤ s.thresh) (hm : 0 < s.maxIter) (G : List K) (hG : G.length = s.nTile) (hp : Perfect s.eqs G)
    (hd : Determined s.nTile s.eqs G) (hs : ¬ SameNumber s.nTile s.eqs) (hne : ∃ g ∈ G, g ≠ 0)
    (href : s.noRef = false → G.getD s.refTile 0 ≠ 0) (x : R) (hx : 0 < x)
    (hsmall : ∀ g ∈ G, s.mag g * offBy x * (offBy x * offBy x) ≤ offBy x * offBy x + 1) (u : K) (hu : star u * u = 1) :
    ∃ out x' u', solve s (G.map fun g => g * φ x * u) = .ok (some out) ∧ 0 < x' ∧ star u' * u' = 1 ∧
      out.gain = (G.map fun g => g * φ x' * u') ∧ (out.stop = .converged ∨ out.stop = .exhausted ∧ out.iter = s.maxIter - 1) ∧
      offBy x' - 1 ≤ (offBy x - 1) / 2 ^ (out.iter + 1 - s.phaseIter) ∧
      ∀ k, (offBy x - 1) / 2 ^ k ≤ s.thresh → s.phaseIter + max 4 k < s.maxIter →
        out.stop = .converged ∧ out.iter ≤ s.phaseIter + max 4 k := by
  obtain ⟨n, hn⟩ : ∃ n, s.maxIter = n + 1 := ⟨s.maxIter - 1, by omega⟩
  have hso : AmplitudesOff φ x x G (G.map fun g => g * φ x * u) :=
    ⟨by simp, fun _ => x, u, hu, fun t => ⟨le_refl _, le_refl _, map_off φ G x u t⟩⟩
  obtain ⟨out, x', u', h1, h2, h3, h4, h5, h6, h7⟩ := solveFrom_common s φ hmag hc hb hw ha hth G hG hp hd hne href (offBy x)
    (offBy_ge hx) hsmall n 0 x u [] [] [] hx hu (fun h => absurd h (lt_irrefl 0)) (by simp) (fun h => absurd h (Nat.not_lt_zero _))
    (fun h => absurd h (Nat.not_lt_zero _))
  refine ⟨out, x', u', ?_, h2, h3, h4, ?_, h6, fun k hk hk2 => h7 k hk (by omega) (by omega)⟩
  · rw [solve_uneven s n hn hs, startGain_off s φ G _ hG hd _ _ hso, h1]
  · rcases h5 with h | ⟨h, h'⟩
    · exact Or.inl h
    · exact Or.inr ⟨h, by omega⟩

end Solver

/-! ## The whole routine -/

namespace Spec

/-- The gains `g` account exactly for all data in use, and these determine them: at least five equations for every tile, one of them with a
model. Not all tiles have equally many of them (C278). -/
structure Explained (c : CalRunIn K R) (p : ℕ) (g : ℕ → ℕ → K) : Prop where
  flags : FlagsAgree c p
  nonzero : ∀ f ∈ c.freqs p, ∀ t ∈ c.tiles p, g f t ≠ 0
  data : ∀ f ∈ c.freqs p, ∀ b ∈ c.bls p, ∀ s ∈ c.samplesOf b, 0 < c.weight p f s →
    c.vis p f s = g f (c.tileA b) * star (g f (c.tileB b)) * c.model p f s
  enough : ∀ f ∈ c.freqs p, ∀ t ∈ c.tiles p,
    5 ≤ baselinesOf c p f t ∧
    ∃ b ∈ c.bls p, 0 < c.blWeight p f b ∧ (c.tileA b = t ∨ c.tileB b = t) ∧ c.average p c.model f b ≠ 0
  differ : ∀ f ∈ c.freqs p, NumbersDiffer c p f

end Spec

variable (c : CalRunIn K R)

theorem explained_eqs (φ : R →+* K) (hc : c.cast = φ) (p : ℕ) (g : ℕ → ℕ → K) (h : Spec.Explained c p g) :
    ∀ f ∈ c.freqs p, Spec.Perfect (c.solveIn p f).eqs ((c.tiles p).map (g f)) ∧
      Spec.Determined (c.solveIn p f).nTile (c.solveIn p f).eqs ((c.tiles p).map (g f)) ∧
      ∀ a ∈ c.tiles p, ((c.tiles p).map (g f)).getD (tilePos (c.tiles p) a) 0 = g f a := by
  have hgetD : ∀ f ∈ c.freqs p, ∀ a ∈ c.tiles p,
      ((c.tiles p).map (g f)).getD (tilePos (c.tiles p) a) 0 = g f a := by
    intro f hf a ha
    have h1 : tilePos (c.tiles p) a < (c.tiles p).length := by
      unfold tilePos
      rw [if_pos ha]
      exact List.idxOf_lt_length_iff.2 ha
    have h2 := getD_tilePos (c.tiles p) a ha
    simp only [List.getD, List.getElem?_eq_getElem h1, Option.getD_some] at h2
    simp only [List.getD, List.getElem?_map, List.getElem?_eq_getElem h1, Option.map_some, Option.getD_some, h2]
  have hclip0 : ∀ f s, ¬ 0 < c.weight p f s → c.clip p f s = 0 := by
    intro f s h'
    unfold CalRunIn.clip
    rw [max_eq_right (not_lt.1 h')]
    exact min_eq_left zero_le_one
  have havg : ∀ f ∈ c.freqs p, ∀ b ∈ c.bls p, c.average p c.vis f b =
      g f (c.tileA b) * star (g f (c.tileB b)) * c.average p c.model f b := by
    intro f hf b hb
    unfold CalRunIn.average
    rw [← mul_assoc, ← List.sum_map_mul_left]
    congr 2
    apply List.map_congr_left
    intro s hs
    by_cases h0 : 0 < c.weight p f s
    · rw [h.data f hf b hb s hs h0]
      ring
    · rw [hclip0 f s h0, hc, map_zero]
      ring
  have hmem : ∀ f, ∀ e ∈ doubleEqs (c.blData p f), ∃ b ∈ c.bls p, 0 < c.blWeight p f b ∧
      (e = ⟨tilePos (c.tiles p) (c.tileA b), tilePos (c.tiles p) (c.tileB b), c.average p c.vis f b, c.average p c.model f b⟩ ∨
       e = ⟨tilePos (c.tiles p) (c.tileB b), tilePos (c.tiles p) (c.tileA b), star (c.average p c.vis f b),
          star (c.average p c.model f b)⟩) := by
    intro f e he
    rw [blData_eq] at he
    unfold doubleEqs at he
    rcases List.mem_append.1 he with h' | h'
    · obtain ⟨x, hx, rfl⟩ := List.mem_map.1 h'
      obtain ⟨hx1, hx2⟩ := List.mem_filter.1 hx
      obtain ⟨b, hb, rfl⟩ := List.mem_map.1 hx1
      exact ⟨b, hb, by simpa using hx2, Or.inl rfl⟩
    · obtain ⟨x, hx, rfl⟩ := List.mem_map.1 h'
      obtain ⟨hx1, hx2⟩ := List.mem_filter.1 hx
      obtain ⟨b, hb, rfl⟩ := List.mem_map.1 hx1
      exact ⟨b, hb, by simpa using hx2, Or.inr rfl⟩
  have hperf : ∀ f ∈ c.freqs p, Spec.Perfect (c.solveIn p f).eqs ((c.tiles p).map (g f)) := by
    intro f hf e he
    obtain ⟨b, hb, -, h' | h'⟩ := hmem f e he
    · obtain ⟨ha, hb'⟩ := flags_tiles h.flags b hb
      rw [h']
      simp only [hgetD f hf _ ha, hgetD f hf _ hb']
      exact havg f hf b hb
    · obtain ⟨ha, hb'⟩ := flags_tiles h.flags b hb
      rw [h']
      simp only [hgetD f hf _ ha, hgetD f hf _ hb', havg f hf b hb, star_mul', star_star]
      ring
  have hdet : ∀ f ∈ c.freqs p, Spec.Determined (c.solveIn p f).nTile (c.solveIn p f).eqs ((c.tiles p).map (g f)) := by
    intro f hf i hi
    left
    change i < (c.tiles p).length at hi
    have htm : (c.tiles p)[i] ∈ c.tiles p := List.getElem_mem hi
    have hpos : tilePos (c.tiles p) (c.tiles p)[i] = i := by
      unfold tilePos
      rw [if_pos htm]
      exact (tiles_nodup c p).idxOf_getElem i hi
    obtain ⟨h5, b, hb, hw, hab, hmod⟩ := h.enough f hf _ htm
    obtain ⟨hA, hB⟩ := flags_tiles h.flags b hb
    refine ⟨?_, ?_⟩
    · rw [← count_eqs c p f _ h.flags htm, hpos] at h5
      exact h5
    · have hin : (⟨tilePos (c.tiles p) (c.tileA b), tilePos (c.tiles p) (c.tileB b), c.average p c.vis f b,
          c.average p c.model f b, c.blWeight p f b⟩ : CalBaseline K R) ∈ (c.blData p f).filter fun x => 0 < x.weight := by
        rw [blData_eq]
        exact List.mem_filter.2 ⟨List.mem_map.2 ⟨b, hb, rfl⟩, by simpa using hw⟩
      rcases hab with h' | h'
      · refine ⟨_, List.mem_append_left _ (List.mem_map.2 ⟨_, hin, rfl⟩), ?_, hmod, ?_⟩
        · simp only [h', hpos]
        · simp only [hgetD f hf _ hB]
          exact h.nonzero f hf _ hB
      · refine ⟨_, List.mem_append_right _ (List.mem_map.2 ⟨_, hin, rfl⟩), ?_, ?_, ?_⟩
        · simp only [h', hpos]
        · simp only [Ne, star_eq_zero]
          exact hmod
        · simp only [hgetD f hf _ hA]
          exact h.nonzero f hf _ hA
  exact fun f hf => ⟨hperf f hf, hdet f hf, hgetD f hf⟩

theorem runPolOf_gain (p : ℕ) (O : ℕ → SolveOut K R) (f t : ℕ) (hf : f ∈ c.freqs p) (ht : t ∈ c.tiles p) :
    (runPolOf c p O).gain f t = (O f).gain[(c.tiles p).idxOf t]? ∧ (runPolOf c p O).iter f t = (O f).iter := by
  have hnan : ¬ (t < c.nTile ∧ c.nanTile p t = true) := by
    rintro ⟨-, h⟩
    have h1 := ((nanTile_iff c p t).1 h).2
    rw [((mem_tiles c p t).1 ht).2.2] at h1
    cases h1
  unfold runPolOf
  simp only []
  rw [if_neg hnan, if_pos ⟨ht, hf⟩, if_pos ⟨ht, hf⟩]
  exact ⟨rfl, rfl⟩

/-- **C265.** The data are those of the gains `g`; the starting gains have their phases, up to a common one at each channel, and amplitudes
within a factor `L` of theirs. Then the same holds for the gains that are returned, with the same factor, however many iterations are made and
whatever ends them. -/
theorem C265_amplitudes (φ : R →+* K) (hmag : Spec.ComplexAbs c.mag φ) (hc : c.cast = φ)
    (hb : 0 < c.base) (hm : 0 < c.maxIter) (p : ℕ) (g : ℕ → ℕ → K) (ht : c.tiles p ≠ []) (hf : c.freqs p ≠ [])
    (h : Spec.Explained c p g) (L : ℕ → R)
    (hstart : ∀ f ∈ c.freqs p, 1 ≤ L f ∧ ∃ v, star v * v = 1 ∧ ∀ t ∈ c.tiles p, ∃ x, (L f)⁻¹ ≤ x ∧ x ≤ L f ∧
      c.gain p f t = g f t * φ x * v) :
    ∃ r, calRunPol c p = .ok (some r) ∧ ∀ f ∈ c.freqs p, ∃ v, star v * v = 1 ∧ ∀ t ∈ c.tiles p, ∃ x, (L f)⁻¹ ≤ x ∧ x ≤ L f ∧
      r.gain f t = some (g f t * φ x * v) := by
  obtain ⟨href, hrefm⟩ := refPos_eq c p ht
  have hsol : ∀ f, f ∈ c.freqs p → ∃ out, solve (c.solveIn p f) ((c.tiles p).map (c.gain p f)) = .ok (some out) ∧
      Spec.AmplitudesOff φ (L f)⁻¹ (L f) ((c.tiles p).map (g f)) out.gain := by
    intro f hf
    obtain ⟨hperf, hdet, hget⟩ := explained_eqs c φ hc p g h f hf
    obtain ⟨hL, v, hv, hx⟩ := hstart f hf
    refine C265_solver (c.solveIn p f) φ hmag hc hb rfl hm ((c.tiles p).map (g f)) _ (by rw [List.length_map]; rfl) hperf hdet
      (not_sameNumber c p f h.flags (h.differ f hf)) ?_ (L f) hL ?_
    · intro _
      change ((c.tiles p).map (g f)).getD (c.refPos p) 0 ≠ 0
      rw [href, hget _ hrefm]
      exact h.nonzero f hf _ hrefm
    · refine ⟨by simp, ?_⟩
      have hx' : ∀ t, ∃ x, (L f)⁻¹ ≤ x ∧ x ≤ L f ∧ (t ∈ c.tiles p → c.gain p f t = g f t * φ x * v) := by
        intro t
        by_cases ht : t ∈ c.tiles p
        · obtain ⟨x, h1, h2, h3⟩ := hx t ht
          exact ⟨x, h1, h2, fun _ => h3⟩
        · exact ⟨1, inv_le_one_of_one_le₀ hL, hL, fun h => absurd h ht⟩
      choose x h1 h2 h3 using hx'
      refine ⟨fun i => x ((c.tiles p).getD i 0), v, hv, fun i => ⟨h1 _, h2 _, ?_⟩⟩
      by_cases hi : i < (c.tiles p).length
      · simp only [List.getD, List.getElem?_map, List.getElem?_eq_getElem hi, Option.map_some, Option.getD_some]
        exact h3 _ (List.getElem_mem hi)
      · simp [List.getD, List.getElem?_eq_none (by omega : (c.tiles p).length ≤ i)]
  have : Nonempty (SolveOut K R) := ⟨⟨[], 0, .zero, [], [], []⟩⟩
  choose! O hO1 hO2 using hsol
  refine ⟨_, calRunPol_of c p O ht (Or.inl hf) hO1, ?_⟩
  intro f hf
  obtain ⟨hlen, x, v, hv, hx⟩ := hO2 f hf
  refine ⟨v, hv, fun t htt => ⟨x ((c.tiles p).idxOf t), (hx _).1, (hx _).2.1, ?_⟩⟩
  rw [(runPolOf_gain c p O f t hf htt).1]
  have hlt := List.idxOf_lt_length_iff.2 htt
  have hlt' : (c.tiles p).idxOf t < (O f).gain.length := by rw [hlen, List.length_map]; exact hlt
  have h1 := (hx ((c.tiles p).idxOf t)).2.2
  simp only [List.getD, List.getElem?_map, List.getElem?_eq_getElem hlt, List.getElem?_eq_getElem hlt', Option.map_some, Option.getD_some,
    List.getElem_idxOf] at h1
  rw [List.getElem?_eq_getElem hlt', h1]

/-- **C266.** The data are those of the gains `g`, and the starting gains are these with a common error of amplitude `x` and a common phase at
each channel; no gain is so large that the test for divergence strikes, and the factor of the average is not adapted. Then the returned
gains have a common error again, halved in each iteration that fits amplitudes; no channel diverges; and all channels count as
converged, if there are iterations enough. -/
theorem C266_common_error_partial (φ : R →+* K) (hmag : Spec.ComplexAbs c.mag φ) (hc : c.cast = φ)
    (hb : 0 < c.base) (hm : 0 < c.maxIter) (ha : c.adaptive = false) (hth : 0 ≤ c.thresh) (p : ℕ) (g : ℕ → ℕ → K) (ht : c.tiles p ≠ [])
    (hf : c.freqs p ≠ []) (h : Spec.Explained c p g) (x : ℕ → R)
    (hstart : ∀ f ∈ c.freqs p, 0 < x f ∧ ∃ v, star v * v = 1 ∧ ∀ t ∈ c.tiles p, c.gain p f t = g f t * φ (x f) * v)
    (hsmall : ∀ f ∈ c.freqs p, ∀ t ∈ c.tiles p, c.mag (g f t) * Spec.offBy (x f) ^ 3 ≤ Spec.offBy (x f) ^ 2 + 1) :
    ∃ r, calRunPol c p = .ok (some r) ∧ (∀ f ∈ c.freqs p, ∃ y v, 0 < y ∧ star v * v = 1 ∧ ∀ t ∈ c.tiles p,
        r.gain f t = some (g f t * φ y * v) ∧ Spec.offBy y - 1 ≤ (Spec.offBy (x f) - 1) / 2 ^ (r.iter f t + 1 - c.phaseIter)) ∧
      ∀ k, (∀ f ∈ c.freqs p, (Spec.offBy (x f) - 1) / 2 ^ k ≤ c.thresh) → c.phaseIter + max 4 k < c.maxIter →
        r.nConverged = (c.freqs p).length ∧ ∀ f ∈ c.freqs p, ∀ t ∈ c.tiles p, r.iter f t ≤ c.phaseIter + max 4 k := by
  obtain ⟨href, hrefm⟩ := refPos_eq c p ht
  have hsol : ∀ f, f ∈ c.freqs p → ∃ out, solve (c.solveIn p f) ((c.tiles p).map (c.gain p f)) = .ok (some out) ∧
      (∃ y v, 0 < y ∧ star v * v = 1 ∧ out.gain = ((c.tiles p).map (g f)).map (fun z => z * φ y * v) ∧
      Spec.offBy y - 1 ≤ (Spec.offBy (x f) - 1) / 2 ^ (out.iter + 1 - c.phaseIter)) ∧
      ∀ k, (Spec.offBy (x f) - 1) / 2 ^ k ≤ c.thresh → c.phaseIter + max 4 k < c.maxIter →
        out.stop = .converged ∧ out.iter ≤ c.phaseIter + max 4 k := by
    intro f hf
    obtain ⟨hperf, hdet, hget⟩ := explained_eqs c φ hc p g h f hf
    obtain ⟨hx, v, hv, hxg⟩ := hstart f hf
    have e : (c.tiles p).map (c.gain p f) = ((c.tiles p).map (g f)).map fun z => z * φ (x f) * v := by
      rw [List.map_map]
      exact List.map_congr_left hxg
    obtain ⟨out, y, w, h1, h2, h3, h4, -, h6, h7⟩ := C266_solver (c.solveIn p f) φ hmag hc hb rfl ha hth hm ((c.tiles p).map (g f))
      (by rw [List.length_map]; rfl) hperf hdet (not_sameNumber c p f h.flags (h.differ f hf)) ⟨_, List.mem_map.2 ⟨_, hrefm, rfl⟩, h.nonzero f hf _ hrefm⟩ (by
        intro _
        change ((c.tiles p).map (g f)).getD (c.refPos p) 0 ≠ 0
        rw [href, hget _ hrefm]
        exact h.nonzero f hf _ hrefm) (x f) hx (by
        intro z hz
        obtain ⟨t, ht, rfl⟩ := List.mem_map.1 hz
        have := hsmall f hf t ht
        change c.mag _ * _ * _ ≤ _
        calc _ = c.mag (g f t) * Spec.offBy (x f) ^ 3 := by ring
          _ ≤ _ := this
          _ = _ := by ring) v hv
    rw [e]
    exact ⟨out, h1, ⟨y, w, h2, h3, h4, h6⟩, h7⟩
  have : Nonempty (SolveOut K R) := ⟨⟨[], 0, .zero, [], [], []⟩⟩
  choose! O hO1 hO2 hO3 using hsol
  refine ⟨_, calRunPol_of c p O ht (Or.inl hf) hO1, ?_, ?_⟩
  · intro f hf
    obtain ⟨y, v, hy, hv, hg, hoff⟩ := hO2 f hf
    refine ⟨y, v, hy, hv, fun t htt => ?_⟩
    obtain ⟨e1, e2⟩ := runPolOf_gain c p O f t hf htt
    rw [e1, e2]
    refine ⟨?_, hoff⟩
    have hlt := List.idxOf_lt_length_iff.2 htt
    rw [hg, List.getElem?_map, List.getElem?_map, List.getElem?_eq_getElem hlt, List.getElem_idxOf]
    rfl
  · intro k hk hk2
    refine ⟨?_, fun f hf t htt => ?_⟩
    · unfold runPolOf
      simp only []
      rw [List.filter_eq_self.2, List.length_map]
      intro o ho
      obtain ⟨f, hf, rfl⟩ := List.mem_map.1 ho
      rw [(hO3 f hf k (hk f hf) hk2).1]
      rfl
    · rw [(runPolOf_gain c p O f t hf htt).2]
      exact (hO3 f hf k (hk f hf) hk2).2

/-- **C266 is restricted**: if a gain is larger, the test for divergence strikes although the gain improves, so that the tile gets another error
than the others. -/
theorem C266_test_strikes (s : SolveIn K R) (φ : R →+* K) (hmag : Spec.ComplexAbs s.mag φ) (hc : s.cast = φ) (hb : 0 < s.base) (G : K)
    (x : R) (hx : 0 < x) (hG : x ^ 2 + 1 < s.mag G * x ^ 3) :
    s.damp (some s.base) (G * φ x) (some (G * φ x⁻¹)) = G * φ ((x⁻¹ + 2 * x) / 3) := by
  unfold SolveIn.damp
  have hbb : s.base + s.base ≠ 0 := by positivity
  have hne : φ (s.base + s.base) ≠ 0 := by rw [Ne, map_eq_zero]; exact hbb
  have h3 : (3 : K) ≠ 0 := by
    have : φ 3 ≠ 0 := by rw [Ne, map_eq_zero]; norm_num
    rwa [map_ofNat] at this
  have e : (G * φ x⁻¹ * φ s.base + G * φ x * φ s.base) / φ (s.base + s.base) = G * φ (halfWay x) := by
    rw [div_eq_iff hne]
    have : φ (halfWay x) * φ (s.base + s.base) = φ x⁻¹ * φ s.base + φ x * φ s.base := by
      rw [← map_mul, ← map_mul, ← map_mul, ← map_add]
      congr 1
      unfold halfWay
      ring
    linear_combination (-G) * this
  have h0 : s.mag G ≠ 0 := by
    intro h
    rw [h, zero_mul] at hG
    nlinarith [sq_nonneg x]
  simp only [hc]
  rw [e, if_pos]
  · rw [div_eq_iff h3, show (3 : K) = φ 3 by rw [map_ofNat], show (2 : K) = φ 2 by rw [map_ofNat], mul_assoc G (φ x) (φ 2), ← map_mul,
      ← mul_add, ← map_add, mul_assoc, ← map_mul]
    congr 2
    field_simp
  · rw [invR_eq, hmag.mul, hmag.mul, hmag.of_real x hx.le, hmag.of_real _ (halfWay_pos hx).le, if_neg (mul_ne_zero h0 hx.ne')]
    have e2 : s.mag G * halfWay x * (s.mag G * x)⁻¹ = (x ^ 2 + 1) / x ^ 2 / 2 := by
      unfold halfWay
      field_simp
    rw [e2]
    apply div_lt_div_of_pos_right _ two_pos
    rw [div_lt_iff₀ (by positivity)]
    calc _ < _ := hG
      _ = _ := by ring

/-! ## Examples -/

/-- Gains `scale` times those of `exRun` and five more iterations; the starting gains are off by `off`. -/
def exOff (adaptive : Bool) (scale : ℚ) (off : ℕ → ℚ) : CalRunIn ℚ ℚ :=
  { exRun 0 with
    vis := fun p f s => scale ^ 2 * (exRun 0).vis p f s
    gain := fun p f t => scale * (exRun 0).gain p f t * off t
    adaptive := adaptive
    maxIter := 8 }

/-- The gains that explain the data of `exOff`. -/
def exOffTrue (scale : ℚ) : ℕ → ℕ → ℚ := fun _ t => scale * [2, -1, 1 / 2, 3].getD t 0

theorem exOff_explained (a : Bool) (off : ℕ → ℚ) : Spec.Explained (exOff a (1 / 4) off) 0 (exOffTrue (1 / 4)) := by
  have e : Spec.Explained (exOff true (1 / 4) fun _ => 1) 0 (exOffTrue (1 / 4)) := by
    refine ⟨by unfold Spec.FlagsAgree; decide +kernel, by decide +kernel, by decide +kernel, by decide +kernel,
      by unfold Spec.NumbersDiffer; decide +kernel⟩
  exact ⟨e.flags, e.nonzero, e.data, e.enough, e.differ⟩

/-- The conditions of C265, with factors from 4/5 to 5/4. -/
example : (exOff true (1 / 4) fun t => if t = 0 then 5 / 4 else 4 / 5).cast = RingHom.id ℚ ∧
    Spec.Explained (exOff true (1 / 4) fun t => if t = 0 then 5 / 4 else 4 / 5) 0 (exOffTrue (1 / 4)) ∧
    (exOff true (1 / 4) fun t => if t = 0 then 5 / 4 else 4 / 5).freqs 0 ≠ [] ∧
    (exOff true (1 / 4) fun t => if t = 0 then 5 / 4 else 4 / 5).tiles 0 = [0, 1, 2] ∧
    ∀ f ∈ (exOff true (1 / 4) fun t => if t = 0 then 5 / 4 else 4 / 5).freqs 0, (1 : ℚ) ≤ 5 / 4 ∧ ∃ v : ℚ, star v * v = 1 ∧
      ∀ t ∈ (exOff true (1 / 4) fun t => if t = 0 then 5 / 4 else 4 / 5).tiles 0, ∃ x, (5 / 4)⁻¹ ≤ x ∧ x ≤ 5 / 4 ∧
        (exOff true (1 / 4) fun t => if t = 0 then 5 / 4 else 4 / 5).gain 0 f t = exOffTrue (1 / 4) f t * x * v := by
  refine ⟨rfl, exOff_explained _ _, by decide +kernel, by decide +kernel, fun f _ => ⟨by norm_num, 1, by simp, fun t _ => ?_⟩⟩
  refine ⟨if t = 0 then 5 / 4 else 4 / 5, ?_, ?_, ?_⟩
  · split_ifs <;> norm_num
  · split_ifs <;> norm_num
  · unfold exOff exOffTrue exRun
    simp

/-- The conditions of C266 with a common factor 5/4, and the result of eight iterations: the true gains `1 / 2`, `-1 / 4` and `1 / 8` to
better than one in a million, turned so that the gain of tile 1 is positive. -/
example : Spec.Explained (exOff false (1 / 4) fun _ => 5 / 4) 0 (exOffTrue (1 / 4)) ∧
    (∀ f ∈ (exOff false (1 / 4) fun _ => 5 / 4).freqs 0, ∀ t ∈ (exOff false (1 / 4) fun _ => 5 / 4).tiles 0,
      |exOffTrue (1 / 4) f t| * Spec.offBy (5 / 4 : ℚ) ^ 3 ≤ Spec.offBy (5 / 4 : ℚ) ^ 2 + 1) ∧
    (exOff false (1 / 4) fun _ => 5 / 4).phaseIter = 1 ∧
    (Spec.offBy (5 / 4 : ℚ) - 1) / 2 ^ 8 ≤ (exOff false (1 / 4) fun _ => 5 / 4).thresh ∧
    (match exRunShow (exOff false (1 / 4) fun _ => 5 / 4) with
      | some ((some a :: some b :: some d :: _) :: _, n, _) =>
          decide (|a + 1 / 2| < 1 / 1000000 ∧ |b - 1 / 4| < 1 / 1000000 ∧ |d + 1 / 8| < 1 / 1000000 ∧ n = 1)
      | _ => false) = true := by
  refine ⟨exOff_explained _ _, by decide +kernel, by decide +kernel, by decide +kernel, by decide +kernel⟩

/-- `C266_test_strikes` for a gain of 2, off by 5/4. -/
example : ((5 / 4 : ℚ)) ^ 2 + 1 < |2| * (5 / 4) ^ 3 := by norm_num

end PyFHD
