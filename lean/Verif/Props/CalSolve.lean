import Mathlib.Data.Rat.Star
import Mathlib.Tactic.FieldSimp
import Mathlib.Tactic.LinearCombination
import Verif.Lemmas.Arrays
import Verif.Model.CalSolve

/-!
# C38, C39 and the stopping rules: the gain solver
-/

set_option linter.unusedSectionVars false

namespace PyFHD

section Solve

variable {K R : Type} [Field K] [StarRing K] [DecidableEq K] [Field R] [LinearOrder R]

/-! ## C38 -/

/-- Iteration `i` fulfils one of the documented reasons to stop, given the largest (`stricts`) and the
mean (`looses`) relative change of the gains in every iteration: after the phase-only iterations
and three more, the largest change is within the threshold, or the mean change is not
smaller than before and: it or the one before is within the threshold, or the largest
change is at least that of three of the last four iterations, or at least 3/2 of that of some
iteration. -/
def Spec.StopAt (phase : ℕ) (thresh : R) (stricts looses : List R) (i : ℕ) : Prop :=
  phase + 3 < i ∧
    (stricts.getD i 0 ≤ thresh ∨
      (looses.getD (i - 1) 0 ≤ looses.getD i 0 ∧
        (looses.getD i 0 ≤ thresh ∨ looses.getD (i - 1) 0 ≤ thresh ∨
          3 ≤ (List.range 4).countP (fun k => stricts.getD (i - 4 + k) 0 ≤ stricts.getD i 0) ∨
          ∃ j < i, stricts.getD j 0 * (3 / 2) ≤ stricts.getD i 0)))

theorem getD_append_lt {α : Type _} (l : List α) (a d : α) (j : ℕ) (h : j < l.length) :
    (l ++ [a]).getD j d = l.getD j d := by
  simp [List.getD, List.getElem?_append_left h]

theorem getD_append_len {α : Type _} (l : List α) (a d : α) :
    (l ++ [a]).getD l.length d = a := by
  simp [List.getD]

theorem stopAt_append (phase : ℕ) (thresh : R) (stricts looses : List R) (a b : R) (j : ℕ)
    (h1 : j < stricts.length) (h2 : j < looses.length) :
    Spec.StopAt phase thresh (stricts ++ [a]) (looses ++ [b]) j ↔
      Spec.StopAt phase thresh stricts looses j := by
  unfold Spec.StopAt
  apply and_congr_right
  intro hj
  rw [getD_append_lt stricts a 0 j h1, getD_append_lt looses b 0 j h2,
    getD_append_lt looses b 0 (j - 1) (by omega)]
  have hc : (List.range 4).countP (fun k => (stricts ++ [a]).getD (j - 4 + k) 0 ≤ stricts.getD j 0)
      = (List.range 4).countP (fun k => stricts.getD (j - 4 + k) 0 ≤ stricts.getD j 0) := by
    apply List.countP_congr
    intro k hk
    rw [List.mem_range] at hk
    rw [getD_append_lt stricts a 0 _ (by omega)]
  have he : (∃ k < j, (stricts ++ [a]).getD k 0 * (3 / 2) ≤ stricts.getD j 0) ↔
      ∃ k < j, stricts.getD k 0 * (3 / 2) ≤ stricts.getD j 0 := by
    constructor <;> rintro ⟨k, hk, hh⟩ <;> refine ⟨k, hk, ?_⟩
    · rwa [getD_append_lt stricts a 0 k (by omega)] at hh
    · rwa [getD_append_lt stricts a 0 k (by omega)]
  rw [hc, he]

omit [LinearOrder R] in
theorem slice_last_four (l : List R) (h : 4 ≤ l.length) :
    slice l (l.length - 4) l.length = (List.range 4).map fun k => l.getD (l.length - 4 + k) 0 := by
  unfold slice
  rw [List.take_length]
  apply List.ext_getElem
  · simp; omega
  · intro k h1 h2
    have hk : l.length - 4 + k < l.length := by simp at h2; omega
    simp only [List.getElem_drop, List.getElem_map, List.getElem_range, List.getD,
      List.getElem?_eq_getElem hk, Option.getD_some]

omit [Field R] in
theorem median_four (l : List R) (h : l.length = 4) (x : R) :
    ∃ m, idlMedian l = .ok m ∧ (m ≤ x ↔ 3 ≤ l.countP (fun y => decide (y ≤ x))) := by
  obtain ⟨m, h1, _, h3, h4⟩ := idlMedian_rank l (by omega)
  refine ⟨m, h1, ?_⟩
  have h2 : (l.length + 1) / 2 = 2 := by omega
  rw [h2] at h3 h4
  constructor
  · intro hm
    have : l.countP (fun y => decide (y ≤ m)) ≤ l.countP (fun y => decide (y ≤ x)) :=
      List.countP_mono_left fun y _ hy => by
        simp only [decide_eq_true_eq] at hy ⊢; exact le_trans hy hm
    omega
  · intro hc
    by_contra hm
    rw [not_le] at hm
    have : l.countP (fun y => decide (y ≤ x)) ≤ l.countP (fun y => decide (y < m)) :=
      List.countP_mono_left fun y _ hy => by
        simp only [decide_eq_true_eq] at hy ⊢; exact lt_of_le_of_lt hy hm
    omega

omit [LinearOrder R] in
theorem getLastD_getD (l : List R) : l.getLastD 0 = l.getD (l.length - 1) 0 := by
  rw [List.getLastD_eq_getLast?, List.getLast?_eq_getElem?, List.getD]

omit [Field K] [StarRing K] [DecidableEq K] in
/-- The tests of the code are the documented reasons. -/
theorem stopTest_isSome (s : SolveIn K R) (i : ℕ) (stricts looses : List R) (strict loose : R)
    (h1 : stricts.length = i) (h2 : looses.length = i) :
    (stopTest s i stricts strict loose (looses.getLastD 0)).isSome ↔
      Spec.StopAt s.phaseIter s.thresh (stricts ++ [strict]) (looses ++ [loose]) i := by
  unfold stopTest Spec.StopAt
  by_cases hi : s.phaseIter + 3 < i
  swap
  · simp [hi]
  rw [if_pos hi, getLastD_getD]
  have e1 : (stricts ++ [strict]).getD i 0 = strict := by rw [← h1]; exact getD_append_len _ _ _
  have e2 : (looses ++ [loose]).getD i 0 = loose := by rw [← h2]; exact getD_append_len _ _ _
  have e3 : (looses ++ [loose]).getD (i - 1) 0 = looses.getD (i - 1) 0 :=
    getD_append_lt _ _ _ _ (by omega)
  rw [e1, e2, e3, h2]
  simp only [hi, true_and]
  generalize looses.getD (i - 1) 0 = lp
  by_cases c1 : strict ≤ s.thresh
  · simp [c1]
  rw [if_neg c1]
  by_cases c2 : lp ≤ loose
  swap
  · simp [c1, c2]
  rw [if_pos c2]
  by_cases c3 : loose ≤ s.thresh ∨ lp ≤ s.thresh
  · rw [if_pos c3]
    have : loose ≤ s.thresh ∨ lp ≤ s.thresh ∨
          3 ≤ (List.range 4).countP (fun k => (stricts ++ [strict]).getD (i - 4 + k) 0 ≤ strict) ∨
          ∃ j < i, (stricts ++ [strict]).getD j 0 * (3 / 2) ≤ strict := by tauto
    simp only [Option.isSome_some, true_iff]
    exact Or.inr ⟨c2, this⟩
  rw [if_neg c3]
  obtain ⟨m, hm, hmx⟩ := median_four (slice stricts (i - 4) i)
    (by unfold slice; simp; omega) strict
  simp only [hm]
  have hs : slice stricts (i - 4) i = (List.range 4).map fun k => stricts.getD (i - 4 + k) 0 := by
    have := slice_last_four stricts (by omega)
    rwa [h1] at this
  have hcount : (slice stricts (i - 4) i).countP (fun y => decide (y ≤ strict))
      = (List.range 4).countP (fun k => (stricts ++ [strict]).getD (i - 4 + k) 0 ≤ strict) := by
    rw [hs, List.countP_map]
    apply List.countP_congr
    intro k hk
    rw [List.mem_range] at hk
    rw [getD_append_lt stricts strict 0 _ (by omega)]
    rfl
  rw [hcount] at hmx
  have hany : (stricts.any fun c => decide (c * (3 / 2) ≤ strict)) = true ↔
      ∃ j < i, (stricts ++ [strict]).getD j 0 * (3 / 2) ≤ strict := by
    rw [List.any_eq_true]
    constructor
    · rintro ⟨c, hc, hh⟩
      obtain ⟨j, hj, rfl⟩ := List.mem_iff_getElem.1 hc
      refine ⟨j, by omega, ?_⟩
      rw [getD_append_lt stricts strict 0 j hj]
      simpa [List.getD, List.getElem?_eq_getElem hj] using hh
    · rintro ⟨j, hj, hh⟩
      rw [getD_append_lt stricts strict 0 j (by omega)] at hh
      refine ⟨stricts[j], List.getElem_mem _, ?_⟩
      simpa [List.getD, List.getElem?_eq_getElem (show j < stricts.length by omega)] using hh
  have hor : ((decide (m ≤ strict) || stricts.any fun c => decide (c * (3 / 2) ≤ strict)) = true) ↔
      (3 ≤ (List.range 4).countP (fun k => (stricts ++ [strict]).getD (i - 4 + k) 0 ≤ strict) ∨
        ∃ j < i, (stricts ++ [strict]).getD j 0 * (3 / 2) ≤ strict) := by
    rw [Bool.or_eq_true, hany, decide_eq_true_eq, hmx]
  by_cases c4 : (decide (m ≤ strict) || stricts.any fun c => decide (c * (3 / 2) ≤ strict)) = true
  · rw [if_pos c4]
    have := hor.1 c4
    simp only [Option.isSome_some, true_iff]
    right
    exact ⟨c2, by tauto⟩
  · rw [if_neg c4]
    rw [hor] at c4
    simp only [Option.isSome_none, Bool.false_eq_true, false_iff]
    rintro (h | ⟨_, h | h | h⟩)
    · exact c1 h
    · exact c3 (Or.inl h)
    · exact c3 (Or.inr h)
    · exact c4 h

/-- The last iteration of a run: its number `i`, the gains before it and the measures of all
iterations before it, none of which was a reason to stop. -/
structure LastStep (s : SolveIn K R) (N : ℕ) (out : SolveOut K R) (i : ℕ) (gain : List K)
    (hist : List (Option R)) (stricts looses : List R) : Prop where
  hs : stricts.length = i
  hl : looses.length = i
  hi : i ≤ N
  before : ∀ j < i, ¬ Spec.StopAt s.phaseIter s.thresh stricts looses j
  last : (∃ g, solveStep s i gain hist stricts = .allZero g ∧
      out = ⟨g, i, .zero, relChange s.mag g gain, stricts, looses⟩) ∨
    ∃ curr cg strict loose, solveStep s i gain hist stricts = .ok curr cg strict loose ∧
      out.stricts = stricts ++ [strict] ∧ out.looses = looses ++ [loose] ∧
      out.iter = (if out.stop = .diverged then i - 1 else i) ∧
      out.gain = (if out.stop = .diverged ∨ out.stop = .loose true then gain else curr) ∧
      out.convergence = (if out.stop = .diverged then gain.map fun _ => stricts.getLastD 0
        else relChange s.mag out.gain gain) ∧
      (stopTest s i stricts strict loose (looses.getLastD 0) = some out.stop ∨
        stopTest s i stricts strict loose (looses.getLastD 0) = none ∧ i = N ∧
          out.stop = .exhausted)

omit [Field K] [StarRing K] [DecidableEq K] in
theorem stopTest_cases (s : SolveIn K R) (i : ℕ) (stricts : List R) (a b c : R) :
    stopTest s i stricts a b c = none ∨ stopTest s i stricts a b c = some .converged ∨
      stopTest s i stricts a b c = some (.loose true) ∨
      stopTest s i stricts a b c = some (.loose false) ∨
      stopTest s i stricts a b c = some .diverged := by
  unfold stopTest
  split_ifs
  · tauto
  · by_cases h : b ≤ s.thresh <;> simp [h]
  · simp only []
    generalize (match idlMedian (slice stricts (i - 4) i) with
      | .ok m => decide (m ≤ a) | .error _ => false) = t1
    generalize (stricts.any fun c => decide (c * (3 / 2) ≤ a)) = t2
    cases t1 <;> cases t2 <;> simp
  · tauto
  · tauto

theorem solveFrom_last (s : SolveIn K R) : ∀ (fuel i : ℕ) (gain : List K) (hist : List (Option R))
    (stricts looses : List R) (out : SolveOut K R), stricts.length = i → looses.length = i →
    (∀ j < i, ¬ Spec.StopAt s.phaseIter s.thresh stricts looses j) →
    solveFrom s fuel i gain hist stricts looses = some out →
    ∃ i' gain' hist' stricts' looses', LastStep s (i + fuel) out i' gain' hist' stricts' looses' := by
  intro fuel
  induction fuel with
  | zero =>
    intro i gain hist stricts looses out h1 h2 h3 h
    refine ⟨i, gain, hist, stricts, looses, h1, h2, by omega, h3, ?_⟩
    unfold solveFrom at h
    cases hstep : solveStep s i gain hist stricts with
    | nan => rw [hstep] at h; simp at h
    | allZero g =>
      rw [hstep] at h; simp only [Option.some.injEq] at h
      exact Or.inl ⟨g, rfl, h.symm⟩
    | ok curr cg strict loose =>
      rw [hstep] at h
      right
      refine ⟨curr, cg, strict, loose, rfl, ?_⟩
      rcases stopTest_cases s i stricts strict loose (looses.getLastD 0) with e | e | e | e | e <;>
        (simp only [e, Option.some.injEq] at h; subst h; rw [e]; simp)
  | succ fuel ih =>
    intro i gain hist stricts looses out h1 h2 h3 h
    unfold solveFrom at h
    cases hstep : solveStep s i gain hist stricts with
    | nan => rw [hstep] at h; simp at h
    | allZero g =>
      rw [hstep] at h; simp only [Option.some.injEq] at h
      exact ⟨i, gain, hist, stricts, looses, h1, h2, by omega, h3, Or.inl ⟨g, hstep, h.symm⟩⟩
    | ok curr cg strict loose =>
      rw [hstep] at h
      rcases stopTest_cases s i stricts strict loose (looses.getLastD 0) with e | e | e | e | e
      · simp only [e] at h
        have hns : ¬ Spec.StopAt s.phaseIter s.thresh (stricts ++ [strict]) (looses ++ [loose]) i := by
          rw [← stopTest_isSome s i stricts looses strict loose h1 h2, e]; simp
        obtain ⟨i', gain', hist', stricts', looses', hL⟩ := ih (i + 1) curr (hist ++ [cg])
          (stricts ++ [strict]) (looses ++ [loose]) out (by simp [h1]) (by simp [h2])
          (by
            intro j hj
            by_cases hji : j = i
            · rw [hji]; exact hns
            · rw [stopAt_append _ _ _ _ _ _ _ (by omega) (by omega)]
              exact h3 j (by omega)) h
        refine ⟨i', gain', hist', stricts', looses', ?_⟩
        rw [show i + (fuel + 1) = i + 1 + fuel by omega]
        exact hL
      all_goals
        refine ⟨i, gain, hist, stricts, looses, h1, h2, by omega, h3, Or.inr
          ⟨curr, cg, strict, loose, hstep, ?_⟩⟩
        simp only [e, Option.some.injEq] at h; subst h; rw [e]; simp

/-- All tiles have the same number of equations, at least five. -/
def Spec.SameNumber (nTile : ℕ) (eqs : List (CalEq K)) : Prop :=
  0 < nTile ∧ ∃ n, 5 ≤ n ∧ ∀ t < nTile, eqs.countP (fun e => e.a = t) = n

omit [StarRing K] [DecidableEq K] [Field R] [LinearOrder R] in
theorem evenly_iff (s : SolveIn K R) : s.evenly = true ↔ Spec.SameNumber s.nTile s.eqs := by
  unfold SolveIn.evenly Spec.SameNumber SolveIn.eqsOf
  simp only [decide_eq_true_eq, ← List.countP_eq_length_filter]
  constructor
  · rintro ⟨h0, h1, h2⟩
    exact ⟨h0, _, h1, h2⟩
  · rintro ⟨h0, n, h1, h2⟩
    exact ⟨h0, by rw [h2 0 h0]; exact h1, fun t ht => by rw [h2 t ht, h2 0 h0]⟩

theorem solve_uneven (s : SolveIn K R) (n : ℕ) (hn : s.maxIter = n + 1) (hu : ¬ Spec.SameNumber s.nTile s.eqs) (gain : List K) :
    solve s gain = .ok (solveFrom s n 0 (s.startGain gain) [] [] []) := by
  unfold solve
  rw [hn]
  simp only []
  rw [if_neg (by rwa [evenly_iff])]

theorem solve_last (s : SolveIn K R) (gain : List K) (out : SolveOut K R)
    (h : solve s gain = .ok (some out)) :
    0 < s.maxIter ∧ ∃ i gain' hist stricts looses,
      LastStep s (s.maxIter - 1) out i gain' hist stricts looses := by
  unfold solve at h
  split at h
  · simp at h
  · rename_i n hn
    split_ifs at h
    simp only [Except.ok.injEq] at h
    refine ⟨by omega, ?_⟩
    have := solveFrom_last s n 0 (s.startGain gain) [] [] [] out rfl rfl (by simp) h
    rw [hn, Nat.succ_eq_add_one, Nat.add_sub_cancel]
    simpa using this

theorem allZero_gain (s : SolveIn K R) (i : ℕ) (gain : List K) (hist : List (Option R))
    (stricts : List R) (g : List K) (h : solveStep s i gain hist stricts = .allZero g) :
    ∀ x ∈ g, x = 0 := by
  unfold solveStep at h
  simp only [] at h
  split_ifs at h with hc
  · injection h with h
    subst h
    intro x hx
    obtain ⟨y, hy, rfl⟩ := List.mem_map.1 hx
    have := List.all_eq_true.1 hc y hy
    simp only [decide_eq_true_eq] at this
    rw [this]; rfl
  · split at h <;> simp at h

/-- **C38.** A run that gives numbers performs at most `max_cal_iter` iterations and reports an iteration number
below `max_cal_iter`. No iteration but the last fulfils one of the documented reasons to stop; it
stops before `max_cal_iter` iterations only if the last one does, or if all the new gains
vanish. -/
theorem C38_solver_terminates (s : SolveIn K R) (gain : List K) (out : SolveOut K R)
    (h : solve s gain = .ok (some out)) :
    out.looses.length = out.stricts.length ∧ out.stricts.length ≤ s.maxIter ∧
      out.iter < s.maxIter ∧
      (∀ j, j + 1 < out.stricts.length →
        ¬ Spec.StopAt s.phaseIter s.thresh out.stricts out.looses j) ∧
      (out.stricts.length = s.maxIter ∨
        (0 < out.stricts.length ∧
          Spec.StopAt s.phaseIter s.thresh out.stricts out.looses (out.stricts.length - 1)) ∨
        (out.stop = .zero ∧ out.iter = out.stricts.length ∧ ∀ g ∈ out.gain, g = 0)) := by
  obtain ⟨hm, i, gain', hist, stricts, looses, hs, hl, hi, hb, hlast⟩ := solve_last s gain out h
  rcases hlast with ⟨g, hstep, rfl⟩ | ⟨curr, cg, strict, loose, hstep, e1, e2, e3, e4, e5, e6⟩
  · simp only []
    refine ⟨by omega, by omega, by omega, fun j hj => hb j (by omega), ?_⟩
    right; right
    exact ⟨trivial, hs.symm, allZero_gain s i gain' hist stricts g hstep⟩
  · have hlen : out.stricts.length = i + 1 := by rw [e1]; simp [hs]
    refine ⟨by rw [e1, e2]; simp [hs, hl], by omega, ?_, ?_, ?_⟩
    · rw [e3]; split_ifs <;> omega
    · intro j hj
      rw [e1, e2, stopAt_append _ _ _ _ _ _ _ (by omega) (by omega)]
      exact hb j (by omega)
    · rcases e6 with e6 | ⟨_, e7, _⟩
      · right; left
        refine ⟨by omega, ?_⟩
        rw [hlen, Nat.add_sub_cancel, e1, e2,
          ← stopTest_isSome s i stricts looses strict loose hs hl, e6]
        rfl
      · left; omega

/-! ## C62 and C63: the number of iterations asked for, and backing up -/

/-- **C62 is violated**: with no iteration allowed the solver does not reject the option with a
`ValueError` but fails with a `NameError`. -/
theorem C62_no_iterations_name_error (s : SolveIn K R) (gain : List K) (h : s.maxIter = 0) :
    solve s gain = .error .nameError := by
  unfold solve; rw [h]

/-- **C62**, where it holds: any other number of iterations is accepted (unless all tiles have the same number of equations, C278). -/
theorem C62_iterations_accepted_partial (s : SolveIn K R) (gain : List K) (h : 0 < s.maxIter) (hu : ¬ Spec.SameNumber s.nTile s.eqs) :
    ∃ r, solve s gain = .ok r := by
  obtain ⟨n, hn⟩ : ∃ n, s.maxIter = n + 1 := ⟨s.maxIter - 1, by omega⟩
  exact ⟨_, solve_uneven s n hn hu gain⟩

/-- **C278 is violated**: if all tiles have the same number of equations, at least five, as in an array without flags and cuts, the solver
ends with an `IndexError` before the first iteration, whatever the data. -/
theorem C278_same_number_raises (s : SolveIn K R) (gain : List K) (h : 0 < s.maxIter) (hs : Spec.SameNumber s.nTile s.eqs) :
    solve s gain = .error .indexError := by
  unfold solve
  obtain ⟨n, hn⟩ : ∃ n, s.maxIter = n + 1 := ⟨s.maxIter - 1, by omega⟩
  rw [hn]
  simp only []
  rw [if_pos ((evenly_iff s).2 hs)]

theorem solveStep_measures (s : SolveIn K R) (i : ℕ) (gain : List K) (hist : List (Option R))
    (stricts : List R) (curr : List K) (cg : Option R) (strict loose : R)
    (h : solveStep s i gain hist stricts = .ok curr cg strict loose) :
    let d := relChange s.mag curr gain
    strict = d.foldl max (d.headD 0) ∧ loose = d.sum / (d.length : R) := by
  unfold solveStep at h
  simp only [] at h
  split_ifs at h with hc
  split at h
  · simp at h
  · injection h with h1 h2 h3 h4
    subst h1
    exact ⟨h3.symm, h4.symm⟩

theorem stopTest_loose (s : SolveIn K R) (i : ℕ) (stricts : List R) (a b c : R) (x : Bool)
    (h : stopTest s i stricts a b c = some (.loose x)) :
    (b ≤ s.thresh ∨ c ≤ s.thresh) ∧ s.thresh < a ∧ c ≤ b ∧ (x = true ↔ b ≤ s.thresh) := by
  unfold stopTest at h
  split_ifs at h with h1 h2 h3 h4 <;> simp only [Option.some.injEq, reduceCtorEq] at h
  · injection h with h
    refine ⟨h4, not_le.1 h2, h3, ?_⟩
    rw [← h, decide_eq_true_eq]
  · split_ifs at h; simp at h

/-- **C63 is violated**: when the solver stops because the mean change no longer decreases while only
the previous iteration met the threshold, the gains returned are not the previous ones but those of
the last iteration, whose mean change (that of the reported convergences) misses the
threshold. -/
theorem C63_not_backed_up (s : SolveIn K R) (gain : List K) (out : SolveOut K R)
    (h : solve s gain = .ok (some out)) (hstop : out.stop = .loose false) :
    out.looses.getD (out.looses.length - 2) 0 ≤ s.thresh ∧
      s.thresh < out.convergence.sum / (out.convergence.length : R) := by
  obtain ⟨hm, i, gain', hist, stricts, looses, hs, hl, hi, hb, hlast⟩ := solve_last s gain out h
  rcases hlast with ⟨g, hstep, rfl⟩ | ⟨curr, cg, strict, loose, hstep, e1, e2, e3, e4, e5, e6⟩
  · simp at hstop
  · rw [hstop] at e3 e4 e5 e6
    simp only [reduceCtorEq, if_false, or_self, and_false, or_false, SolveStop.loose.injEq,
      Bool.false_eq_true] at e3 e4 e5 e6
    obtain ⟨f1, f2, f3, f4⟩ := stopTest_loose s i stricts strict loose _ false e6
    have hloose : s.thresh < loose := by
      rw [← not_le, ← f4]; simp
    obtain ⟨_, hmean⟩ := solveStep_measures s i gain' hist stricts curr cg strict loose hstep
    have hprev : looses.getLastD 0 ≤ s.thresh := by
      rcases f1 with f1 | f1
      · exact absurd f1 (not_le.2 hloose)
      · exact f1
    have hi0 : 0 < i := by
      by_contra hc
      have : i = 0 := by omega
      unfold stopTest at e6
      rw [if_neg (by omega)] at e6
      simp at e6
    constructor
    · rw [e2, List.length_append, List.length_singleton, hl, show i + 1 - 2 = i - 1 by omega,
        getD_append_lt _ _ _ _ (by omega)]
      rw [getLastD_getD, hl] at hprev
      exact hprev
    · rw [e5, e4, ← hmean]; exact hloose

/-- **C63 is violated** the other way round: when the last iteration met the threshold its gains
are given up for the previous ones, and a change of zero is reported. -/
theorem C63_backed_up_when_met (s : SolveIn K R) (gain : List K) (out : SolveOut K R)
    (h : solve s gain = .ok (some out)) (hstop : out.stop = .loose true) :
    out.looses.getD (out.looses.length - 1) 0 ≤ s.thresh ∧
      out.convergence = relChange s.mag out.gain out.gain := by
  obtain ⟨hm, i, gain', hist, stricts, looses, hs, hl, hi, hb, hlast⟩ := solve_last s gain out h
  rcases hlast with ⟨g, hstep, rfl⟩ | ⟨curr, cg, strict, loose, hstep, e1, e2, e3, e4, e5, e6⟩
  · simp at hstop
  · rw [hstop] at e3 e4 e5 e6
    simp only [reduceCtorEq, if_false, or_true, if_true, and_false, or_false] at e3 e4 e5 e6
    obtain ⟨f1, f2, f3, f4⟩ := stopTest_loose s i stricts strict loose _ true e6
    constructor
    · rw [e2, List.length_append, List.length_singleton, hl, Nat.add_sub_cancel]
      rw [← hl, getD_append_len]
      exact f4.1 rfl
    · rw [e5, e4]

/-- **C63**, where it holds: after divergence the gains of the previous iteration are returned, with its
largest change as convergence of every tile and its iteration number; when the solver has
converged or used all iterations, the reported convergences are the relative changes of the last
iteration, so that their largest is the largest change recorded. -/
theorem C63_reported_convergence_partial (s : SolveIn K R) (gain : List K) (out : SolveOut K R)
    (h : solve s gain = .ok (some out)) :
    (out.stop = .diverged → out.iter + 2 = out.stricts.length ∧
      ∀ c ∈ out.convergence, c = out.stricts.getD out.iter 0) ∧
    (out.stop = .converged ∨ out.stop = .exhausted →
      out.iter + 1 = out.stricts.length ∧
      out.convergence.foldl max (out.convergence.headD 0) = out.stricts.getD out.iter 0) ∧
    (out.stop = .converged →
      out.convergence.foldl max (out.convergence.headD 0) ≤ s.thresh) := by
  obtain ⟨hm, i, gain', hist, stricts, looses, hs, hl, hi, hb, hlast⟩ := solve_last s gain out h
  rcases hlast with ⟨g, hstep, rfl⟩ | ⟨curr, cg, strict, loose, hstep, e1, e2, e3, e4, e5, e6⟩
  · simp
  · have hmax := (solveStep_measures s i gain' hist stricts curr cg strict loose hstep).1
    refine ⟨fun hst => ?_, fun hst => ?_, fun hst => ?_⟩
    · rw [hst] at e3 e5 e6
      simp only [if_true] at e3 e5
      have hi0 : 3 < i := by
        by_contra hc
        rcases e6 with e6 | e6
        · unfold stopTest at e6
          rw [if_neg (by omega)] at e6
          simp at e6
        · simp at e6
      refine ⟨by rw [e1, e3]; simp [hs]; omega, fun c hc => ?_⟩
      rw [e5] at hc
      obtain ⟨_, _, rfl⟩ := List.mem_map.1 hc
      rw [e1, e3, getD_append_lt _ _ _ _ (by omega), getLastD_getD, hs]
    · have h1 : ¬ out.stop = .diverged := by rintro hd; rw [hd] at hst; simp at hst
      have h2 : ¬ out.stop = .loose true := by rintro hd; rw [hd] at hst; simp at hst
      rw [if_neg h1] at e3 e5
      rw [if_neg (by tauto)] at e4
      refine ⟨by rw [e1, e3]; simp [hs], ?_⟩
      rw [e1, e3, ← hs, getD_append_len, e5, e4]
      exact hmax.symm
    · rw [hst] at e3 e4 e5 e6
      simp only [reduceCtorEq, if_false, or_self, and_false, or_false] at e3 e4 e5 e6
      rw [e5, e4, ← hmax]
      unfold stopTest at e6
      split_ifs at e6 with c1 c2 c3 c4 <;> simp only [Option.some.injEq, reduceCtorEq] at e6
      · exact c2
      · split_ifs at e6; simp at e6

end Solve

/-! ## C39 -/

section Fixed

variable {K R : Type} [Field K] [StarRing K] [DecidableEq K] [Field R] [LinearOrder R]
  [IsStrictOrderedRing R]

/-- `mag` is the absolute value of the complex numbers `K` over the real numbers `R`, embedded by
`φ`. -/
structure Spec.ComplexAbs (mag : K → R) (φ : R →+* K) : Prop where
  nonneg : ∀ z, 0 ≤ mag z
  sq : ∀ z, φ (mag z * mag z) = star z * z
  real : ∀ r, star (φ r) = φ r

namespace Spec.ComplexAbs

variable {mag : K → R} {φ : R →+* K} (h : Spec.ComplexAbs mag φ)

include h

theorem zero_iff (z : K) : mag z = 0 ↔ z = 0 := by
  constructor
  · intro hz
    have := h.sq z
    rw [hz, mul_zero, map_zero] at this
    rcases mul_eq_zero.1 this.symm with h0 | h0
    · rwa [star_eq_zero] at h0
    · exact h0
  · rintro rfl
    have := h.sq 0
    rw [mul_zero, map_eq_zero] at this
    exact mul_self_eq_zero.1 this

omit h in
theorem real_inj {a b : R} (e : φ a = φ b) : a = b := by
  rw [← sub_eq_zero, ← map_sub, map_eq_zero, sub_eq_zero] at e
  exact e

theorem mul (z w : K) : mag (z * w) = mag z * mag w := by
  have h1 : φ (mag (z * w) * mag (z * w)) = φ ((mag z * mag w) * (mag z * mag w)) := by
    rw [h.sq, star_mul', show (mag z * mag w) * (mag z * mag w) = (mag z * mag z) * (mag w * mag w) by ring,
      map_mul φ (mag z * mag z), h.sq, h.sq]
    ring
  have h2 := real_inj h1
  exact (mul_self_inj (h.nonneg _) (mul_nonneg (h.nonneg _) (h.nonneg _))).1 h2

theorem of_real (r : R) (hr : 0 ≤ r) : mag (φ r) = r := by
  have h1 := h.sq (φ r)
  rw [h.real, ← map_mul] at h1
  exact (mul_self_inj (h.nonneg _) hr).1 (real_inj h1)

theorem sum_sq (l : List K) : (l.map fun x => star x * x).sum = φ (l.map fun x => mag x * mag x).sum := by
  induction l with
  | nil => simp
  | cons a t ih => simp only [List.map_cons, List.sum_cons, map_add, ih, h.sq]

theorem sum_sq_ne_zero (l : List K) (hl : ∃ x ∈ l, x ≠ 0) :
    (l.map fun x => star x * x).sum ≠ 0 := by
  rw [h.sum_sq]
  obtain ⟨x, hx, hx0⟩ := hl
  have hpos : 0 < mag x * mag x := by
    have : 0 < mag x := lt_of_le_of_ne (h.nonneg x) (fun e => hx0 ((h.zero_iff x).1 e.symm))
    exact mul_pos this this
  have hle : mag x * mag x ≤ (l.map fun x => mag x * mag x).sum :=
    List.single_le_sum (l := l.map fun x => mag x * mag x)
      (by intro y hy; obtain ⟨z, _, rfl⟩ := List.mem_map.1 hy; exact mul_self_nonneg _)
      _ (List.mem_map.2 ⟨x, hx, rfl⟩)
  intro h0
  rw [map_eq_zero] at h0
  rw [h0] at hle
  exact absurd hpos (not_lt.2 hle)

/-- The phase factor of a nonzero number has absolute value 1. -/
theorem phase_sq (r : K) (hr : r ≠ 0) : star (star r / φ (mag r)) * (star r / φ (mag r)) = 1 := by
  have hm : φ (mag r) ≠ 0 := by
    rw [Ne, map_eq_zero]; exact fun e => hr ((h.zero_iff r).1 e)
  rw [star_div₀, star_star, h.real]
  have := h.sq r
  rw [map_mul] at this
  field_simp
  rw [pow_two, this]
  ring

end Spec.ComplexAbs

theorem invR_eq (x : R) : invR x = if x = 0 then 0 else x⁻¹ := by
  unfold invR weightInvertEntry npRecip
  by_cases h : x = 0 <;> simp [h]

/-- The gains account exactly for the data: `data = gain a * conj (gain b) * model`. -/
def Spec.Perfect (eqs : List (CalEq K)) (gain : List K) : Prop :=
  ∀ e ∈ eqs, e.data = gain.getD e.a 0 * star (gain.getD e.b 0) * e.model

/-- Every tile with five equations has one whose model and other gain do not vanish; tiles with
fewer have no gain. -/
def Spec.Determined (nTile : ℕ) (eqs : List (CalEq K)) (gain : List K) : Prop :=
  ∀ t < nTile,
    (5 ≤ eqs.countP (fun e => e.a = t) ∧ ∃ e ∈ eqs, e.a = t ∧ e.model ≠ 0 ∧ gain.getD e.b 0 ≠ 0) ∨
    (eqs.countP (fun e => e.a = t) < 5 ∧ gain.getD t 0 = 0)

theorem lstsq1_scaled (mag : K → R) (φ : R →+* K) (h : Spec.ComplexAbs mag φ) (g : K) (xs : List K)
    (hx : ∃ x ∈ xs, x ≠ 0) : lstsq1 xs (xs.map fun x => g * x) = g := by
  unfold lstsq1
  have hd := h.sum_sq_ne_zero xs hx
  simp only []
  rw [if_neg hd]
  have : (List.zipWith (fun x y => star x * y) xs (xs.map fun x => g * x)).sum
      = g * (xs.map fun x => star x * x).sum := by
    clear hd hx
    induction xs with
    | nil => simp
    | cons a t ih => simp only [List.map_cons, List.zipWith_cons_cons, List.sum_cons, ih]; ring
  rw [this, mul_div_assoc, div_self hd, mul_one]

theorem weighted1_scaled (cast : R → K) (w : List R) (g : K) (xs : List K) :
    weighted1 cast w xs (xs.map fun x => g * x) = none ∨
      weighted1 cast w xs (xs.map fun x => g * x) = some g := by
  unfold weighted1 npDiv
  simp only []
  set d := (List.zipWith (fun x d => x * d) xs
    (List.zipWith (fun x (r : R) => star x * cast r) xs w)).sum with hd
  by_cases h0 : d = 0
  · left; rw [if_pos h0]
  · right
    rw [if_neg h0]
    have : (List.zipWith (fun y d => y * d) (xs.map fun x => g * x)
        (List.zipWith (fun x (r : R) => star x * cast r) xs w)).sum = g * d := by
      rw [hd]
      clear h0 hd d
      induction xs generalizing w with
      | nil => simp
      | cons a t ih =>
        cases w with
        | nil => simp
        | cons b v =>
          simp only [List.map_cons, List.zipWith_cons_cons, List.sum_cons, ih]; ring
    rw [this, mul_div_assoc, div_self h0, mul_one]

/-- The new gain of a tile is the current one, or not a number (vanishing weights). -/
theorem newGain_perfect (s : SolveIn K R) (φ : R →+* K) (h : Spec.ComplexAbs s.mag φ)
    (gain : List K) (hp : Spec.Perfect s.eqs gain) (hd : Spec.Determined s.nTile s.eqs gain)
    (t : ℕ) (ht : t < s.nTile) :
    s.newGain gain t = none ∨ s.newGain gain t = some (gain.getD t 0) := by
  have hlen : (s.eqsOf t).length = s.eqs.countP (fun e => e.a = t) := by
    unfold SolveIn.eqsOf; rw [List.countP_eq_length_filter]
  unfold SolveIn.newGain
  rcases hd t ht with ⟨h5, e, he, hea, hem, heg⟩ | ⟨h5, h0⟩
  · rw [if_pos (by omega)]
    set xs := (s.eqsOf t).map fun e => e.model * star (gain.getD e.b 0) with hxs
    have hys : (s.eqsOf t).map (fun e => e.data) = xs.map fun x => gain.getD t 0 * x := by
      rw [hxs, List.map_map]
      apply List.map_congr_left
      intro e he
      unfold SolveIn.eqsOf at he
      obtain ⟨h1, h2⟩ := List.mem_filter.1 he
      simp only [decide_eq_true_eq] at h2
      simp only [Function.comp]
      rw [hp e h1, h2]; ring
    simp only []
    rw [hys]
    cases s.wts with
    | some w => exact weighted1_scaled s.cast w _ xs
    | none =>
      right
      simp only []
      rw [lstsq1_scaled s.mag φ h]
      refine ⟨e.model * star (gain.getD e.b 0), ?_, ?_⟩
      · rw [hxs]
        refine List.mem_map.2 ⟨e, ?_, rfl⟩
        unfold SolveIn.eqsOf
        exact List.mem_filter.2 ⟨he, by simpa using hea⟩
      · exact mul_ne_zero hem (by rw [Ne, star_eq_zero]; exact heg)
  · rw [if_neg (by omega), h0]; right; rfl

theorem phaseOnly_same (s : SolveIn K R) (φ : R →+* K) (h : Spec.ComplexAbs s.mag φ)
    (hc : s.cast = φ) (i : ℕ) (g : K) : s.phaseOnly i g (some g) = some g := by
  unfold SolveIn.phaseOnly
  split_ifs
  · rw [Option.map_some, hc, invR_eq]
    by_cases h0 : s.mag g = 0
    · rw [(h.zero_iff g).1 h0]; simp
    · rw [if_neg h0, mul_inv_cancel₀ h0, map_one, mul_one]
  · rfl

theorem damp_same (s : SolveIn K R) (φ : R →+* K) (hc : s.cast = φ) (cg : Option R)
    (hcg : ∀ c, cg = some c → s.base + c ≠ 0) (g : K) (n : Option K)
    (hn : n = none ∨ n = some g) : s.damp cg g n = g := by
  unfold SolveIn.damp
  rcases hn with rfl | rfl
  · cases cg <;> rfl
  · cases cg with
    | none => rfl
    | some c =>
      have h0 : φ (s.base + c) ≠ 0 := by rw [Ne, map_eq_zero]; exact hcg c rfl
      have h3 : (3 : K) ≠ 0 := by
        have : φ 3 ≠ 0 := by rw [Ne, map_eq_zero]; norm_num
        rwa [map_ofNat] at this
      simp only [hc]
      have e : (g * φ c + g * φ s.base) / φ (s.base + c) = g := by
        rw [div_eq_iff h0, map_add]; ring
      rw [e]
      split_ifs
      · rw [div_eq_iff h3]; ring
      · rfl

theorem convGain_ne (s : SolveIn K R) (hb : 0 < s.base) (i : ℕ) (hist : List (Option R))
    (stricts : List R) (c : R) (h : s.convGain i hist stricts = some c) : s.base + c ≠ 0 := by
  have hpos : 0 < c := by
    unfold SolveIn.convGain at h
    split_ifs at h with h1 h2
    · split at h
      · simp at h
      · unfold adaptiveGain at h
        simp only [] at h
        split_ifs at h with h3 h4
        · injection h with h; rw [← h]; exact half_pos hb
        · injection h with h; rw [← h]; exact lt_of_lt_of_le (half_pos hb) (le_max_left _ _)
    · injection h with h; rw [← h]; exact hb
    · injection h with h; rw [← h]; exact hb
  exact ne_of_gt (add_pos hb hpos)

/-- The common phase taken out of the gains: that of the reference tile. -/
def Spec.refPhase (s : SolveIn K R) (φ : R →+* K) (gain : List K) : K :=
  if s.noRef then 1 else star (gain.getD s.refTile 0) / φ (s.mag (gain.getD s.refTile 0))

theorem zipWith_same {α β γ : Type _} (f : α → β → γ) (g : α → γ) (a : List α) (b : List β)
    (hl : a.length = b.length)
    (h : ∀ i (h1 : i < a.length) (h2 : i < b.length), f a[i] b[i] = g a[i]) :
    List.zipWith f a b = a.map g := by
  apply List.ext_getElem
  · simp [hl]
  · intro i h1 h2
    simp only [List.getElem_zipWith, List.getElem_map]
    exact h i _ _

/-- **C39**, one iteration: when the gains account exactly for the data, an iteration returns them, up to
the common phase that makes the gain of the reference tile positive (none if no reference is
used), whatever the damping, the phase-only setting and the weights; in case all gains
vanish it stops with them. -/
theorem C39_step_fixed_point (s : SolveIn K R) (φ : R →+* K) (hmag : Spec.ComplexAbs s.mag φ)
    (hc : s.cast = φ) (hb : 0 < s.base) (gain : List K) (hlen : gain.length = s.nTile)
    (hp : Spec.Perfect s.eqs gain) (hd : Spec.Determined s.nTile s.eqs gain)
    (hr : s.noRef = false → gain.getD s.refTile 0 ≠ 0)
    (i : ℕ) (hist : List (Option R)) (stricts : List R) :
    (s.noRef = true ∧ (∀ g ∈ gain, g = 0) ∧ solveStep s i gain hist stricts = .allZero gain) ∨
    ∃ cg strict loose, solveStep s i gain hist stricts
      = .ok (gain.map fun g => g * Spec.refPhase s φ gain) cg strict loose := by
  unfold solveStep
  set new := (List.range s.nTile).map (s.newGain gain) with hnew
  have hnl : new.length = gain.length := by rw [hnew, hlen]; simp
  have hn : ∀ t (h1 : t < gain.length) (h2 : t < new.length),
      new[t] = none ∨ new[t] = some gain[t] := by
    intro t h1 h2
    have := newGain_perfect s φ hmag gain hp hd t (by omega)
    simp only [hnew, List.getElem_map, List.getElem_range]
    rw [show gain.getD t 0 = gain[t] by simp [List.getD, h1]] at this
    exact this
  simp only []
  split_ifs with hall
  · left
    have hz : ∀ t (h1 : t < gain.length), gain[t] = 0 ∧ new[t]'(by omega) = some 0 := by
      intro t h1
      have h2 : t < new.length := by omega
      have := List.all_eq_true.1 hall new[t] (List.getElem_mem h2)
      simp only [decide_eq_true_eq] at this
      rcases hn t h1 h2 with e | e
      · rw [e] at this; simp at this
      · rw [e] at this; injection this with h3; exact ⟨h3, by rw [e, h3]⟩
    have hg0 : ∀ g ∈ gain, g = 0 := by
      intro g hg
      obtain ⟨t, ht, rfl⟩ := List.mem_iff_getElem.1 hg
      exact (hz t ht).1
    refine ⟨?_, hg0, ?_⟩
    · cases hnr : s.noRef with
      | true => rfl
      | false =>
        exfalso
        apply hr hnr
        by_cases hlt : s.refTile < gain.length
        · simp only [List.getD, List.getElem?_eq_getElem hlt, Option.getD_some]
          exact (hz _ hlt).1
        · simp [List.getD, List.getElem?_eq_none (not_lt.1 hlt)]
    · congr 1
      apply List.ext_getElem
      · simp [hnl]
      · intro t h1 h2
        simp only [List.getElem_map]
        rw [(hz t h2).1, (hz t h2).2]; rfl
  · right
    have hdamp : List.zipWith (s.damp (s.convGain i hist stricts)) gain
        (List.zipWith (s.phaseOnly i) gain new) = gain := by
      conv_rhs => rw [← List.map_id gain]
      apply zipWith_same
      · simp [hnl]
      · intro t h1 h2
        rw [List.getElem_zipWith]
        apply damp_same s φ hc
        · exact fun c hcg => convGain_ne s hb i hist stricts c hcg
        · rcases hn t h1 (by omega) with e | e
          · left; rw [e]; unfold SolveIn.phaseOnly; split_ifs <;> rfl
          · right; rw [e]; exact phaseOnly_same s φ hmag hc i _
    rw [hdamp]
    unfold SolveIn.refer
    cases hnr : s.noRef with
    | true =>
      simp only [if_true, Spec.refPhase, hnr, mul_one, List.map_id']
      exact ⟨_, _, _, rfl⟩
    | false =>
      have h0 := hr hnr
      simp only [Bool.false_eq_true, if_false]
      rw [if_neg h0]
      simp only [Spec.refPhase, hnr, Bool.false_eq_true, if_false, hc]
      exact ⟨_, _, _, rfl⟩

theorem relChange_self (mag : K → R) (φ : R →+* K) (h : Spec.ComplexAbs mag φ) (g : List K) :
    ∀ d ∈ relChange mag g g, d = 0 := by
  intro d hd
  unfold relChange at hd
  rw [List.mem_iff_getElem] at hd
  obtain ⟨i, hi, rfl⟩ := hd
  rw [List.getElem_zipWith, sub_self, (h.zero_iff 0).2 rfl, zero_mul]

theorem getD_map_mul (gain : List K) (u : K) (i : ℕ) :
    (gain.map fun g => g * u).getD i 0 = gain.getD i 0 * u := by
  by_cases h : i < gain.length
  · simp [List.getD, h]
  · simp [List.getD, List.getElem?_eq_none (not_lt.1 h)]

/-- Gains with a common phase account for the same data. -/
theorem perfect_phase (eqs : List (CalEq K)) (gain : List K) (u : K) (hu : star u * u = 1)
    (hp : Spec.Perfect eqs gain) : Spec.Perfect eqs (gain.map fun g => g * u) := by
  intro e he
  rw [hp e he, getD_map_mul, getD_map_mul, star_mul']
  linear_combination (-(gain.getD e.a 0 * star (gain.getD e.b 0) * e.model)) * hu

theorem determined_phase (nTile : ℕ) (eqs : List (CalEq K)) (gain : List K) (u : K) (hu : u ≠ 0)
    (hd : Spec.Determined nTile eqs gain) :
    Spec.Determined nTile eqs (gain.map fun g => g * u) := by
  intro t ht
  rcases hd t ht with ⟨h5, e, he, h1, h2, h3⟩ | ⟨h5, h0⟩
  · left
    exact ⟨h5, e, he, h1, h2, by rw [getD_map_mul]; exact mul_ne_zero h3 hu⟩
  · right
    exact ⟨h5, by rw [getD_map_mul, h0, zero_mul]⟩

/-- From gains whose reference is already positive, the loop returns the gains. -/
theorem solveFrom_fixed (s : SolveIn K R) (φ : R →+* K) (hmag : Spec.ComplexAbs s.mag φ)
    (hc : s.cast = φ) (hb : 0 < s.base) (gain : List K) (hlen : gain.length = s.nTile)
    (hp : Spec.Perfect s.eqs gain) (hd : Spec.Determined s.nTile s.eqs gain)
    (hr : s.noRef = false → gain.getD s.refTile 0 ≠ 0)
    (hu : Spec.refPhase s φ gain = 1) :
    ∀ (fuel i : ℕ) (hist : List (Option R)) (stricts looses : List R),
      ∃ out, solveFrom s fuel i gain hist stricts looses = some out ∧ out.gain = gain := by
  intro fuel
  induction fuel with
  | zero =>
    intro i hist stricts looses
    unfold solveFrom
    rcases C39_step_fixed_point s φ hmag hc hb gain hlen hp hd hr i hist stricts with
      ⟨_, _, e⟩ | ⟨cg, strict, loose, e⟩
    · rw [e]; exact ⟨_, rfl, rfl⟩
    · rw [e, hu]
      simp only [mul_one, List.map_id']
      rcases stopTest_cases s i stricts strict loose (looses.getLastD 0) with e | e | e | e | e <;>
        (simp only [e]; exact ⟨_, rfl, rfl⟩)
  | succ fuel ih =>
    intro i hist stricts looses
    unfold solveFrom
    rcases C39_step_fixed_point s φ hmag hc hb gain hlen hp hd hr i hist stricts with
      ⟨_, _, e⟩ | ⟨cg, strict, loose, e⟩
    · rw [e]; exact ⟨_, rfl, rfl⟩
    · rw [e, hu]
      simp only [mul_one, List.map_id']
      rcases stopTest_cases s i stricts strict loose (looses.getLastD 0) with e | e | e | e | e
      · simp only [e]; exact ih _ _ _ _
      all_goals (simp only [e]; exact ⟨_, rfl, rfl⟩)

/-- After one referencing the gain of the reference tile is positive. -/
theorem refPhase_idem (s : SolveIn K R) (φ : R →+* K) (hmag : Spec.ComplexAbs s.mag φ)
    (gain : List K) (hr : s.noRef = false → gain.getD s.refTile 0 ≠ 0) :
    star (Spec.refPhase s φ gain) * Spec.refPhase s φ gain = 1 ∧
      Spec.refPhase s φ (gain.map fun g => g * Spec.refPhase s φ gain) = 1 ∧
      (s.noRef = false →
        (gain.map fun g => g * Spec.refPhase s φ gain).getD s.refTile 0
          = φ (s.mag (gain.getD s.refTile 0))) := by
  cases hnr : s.noRef with
  | true => simp [Spec.refPhase, hnr]
  | false =>
    have h0 := hr hnr
    have hm : φ (s.mag (gain.getD s.refTile 0)) ≠ 0 := by
      rw [Ne, map_eq_zero]; exact fun e => h0 ((hmag.zero_iff _).1 e)
    have e : (gain.map fun g => g * Spec.refPhase s φ gain).getD s.refTile 0
          = φ (s.mag (gain.getD s.refTile 0)) := by
      rw [getD_map_mul]
      simp only [Spec.refPhase, hnr, Bool.false_eq_true, if_false]
      rw [← mul_div_assoc, div_eq_iff hm, mul_comm, ← hmag.sq, map_mul]
    refine ⟨?_, ?_, fun _ => e⟩
    · simp only [Spec.refPhase, hnr, Bool.false_eq_true, if_false]
      exact hmag.phase_sq _ h0
    · conv_lhs => rw [Spec.refPhase]
      rw [e]
      simp only [hnr, Bool.false_eq_true, if_false]
      rw [hmag.real, hmag.of_real _ (hmag.nonneg _), div_self hm]

/-- **C39.** When the starting gains account exactly for the data, the whole solver returns them, up to
the common phase that makes the gain of the reference tile positive (none if no reference is used),
for every number of iterations, damping, threshold, and with or without baseline weights (unless all tiles have the same number of
equations, C278). -/
theorem C39_solver_fixed_point (s : SolveIn K R) (φ : R →+* K) (hmag : Spec.ComplexAbs s.mag φ)
    (hc : s.cast = φ) (hb : 0 < s.base) (hm : 0 < s.maxIter)
    (gain : List K) (hlen : gain.length = s.nTile)
    (hp : Spec.Perfect s.eqs gain) (hd : Spec.Determined s.nTile s.eqs gain) (hu : ¬ Spec.SameNumber s.nTile s.eqs)
    (hr : s.noRef = false → gain.getD s.refTile 0 ≠ 0) :
    ∃ out, solve s gain = .ok (some out) ∧
      out.gain = gain.map fun g => g * Spec.refPhase s φ gain := by
  have hstart : s.startGain gain = gain := by
    unfold SolveIn.startGain
    apply List.ext_getElem
    · simp [hlen]
    · intro t h1 h2
      simp only [List.getElem_map, List.getElem_range]
      have hg : gain.getD t 0 = gain[t] := by simp [List.getD, h2]
      have hcount : (s.eqsOf t).length = s.eqs.countP (fun e => e.a = t) := by
        unfold SolveIn.eqsOf; rw [List.countP_eq_length_filter]
      rcases hd t (by omega) with ⟨h5, _⟩ | ⟨h5, h0⟩
      · rw [if_neg (by omega), hg]
      · rw [if_pos (by omega), ← hg, h0]
  obtain ⟨n, hn⟩ : ∃ n, s.maxIter = n + 1 := ⟨s.maxIter - 1, by omega⟩
  rw [solve_uneven s n hn hu, hstart]
  simp only [Except.ok.injEq]
  obtain ⟨u1, u2, u3⟩ := refPhase_idem s φ hmag gain hr
  have hu0 : Spec.refPhase s φ gain ≠ 0 := by
    intro h0; rw [h0] at u1; simp at u1
  unfold solveFrom
  rcases C39_step_fixed_point s φ hmag hc hb gain hlen hp hd hr 0 [] [] with
    ⟨_, hz, e⟩ | ⟨cg, strict, loose, e⟩
  · rw [e]
    refine ⟨_, rfl, ?_⟩
    conv_lhs => rw [← List.map_id gain]
    apply List.map_congr_left
    intro g hg
    rw [hz g hg]; simp
  · rw [e]
    have hstop : stopTest s 0 [] strict loose (([] : List R).getLastD 0) = none := by
      unfold stopTest; rw [if_neg (by omega)]
    simp only [hstop]
    cases n with
    | zero => exact ⟨_, rfl, rfl⟩
    | succ n =>
      exact solveFrom_fixed s φ hmag hc hb _ (by simp [hlen]) (perfect_phase _ _ _ u1 hp)
        (determined_phase _ _ _ _ hu0 hd)
        (fun hnr => by
          rw [u3 hnr, Ne, map_eq_zero]
          exact fun e => hr hnr ((hmag.zero_iff _).1 e)) u2 n _ _ _ _

/-! ## C64: the reference tile -/

/-- **C64 is violated**: if the reference tile has fewer than five equations, some other new gain does not
vanish, and no other reference is asked for, none of the gains is a number. -/
theorem C64_reference_without_equations (s : SolveIn K R) (φ : R →+* K) (hmag : Spec.ComplexAbs s.mag φ)
    (hc : s.cast = φ) (hm : 0 < s.maxIter) (gain : List K) (hno : s.noRef = false)
    (href : s.refTile < s.nTile) (h5 : s.eqs.countP (fun e => e.a = s.refTile) < 5)
    (t : ℕ) (ht : t < s.nTile) (hnz : s.newGain (s.startGain gain) t ≠ some 0) :
    solve s gain = .ok none := by
  have hcount : (s.eqsOf s.refTile).length < 5 := by
    unfold SolveIn.eqsOf; rwa [← List.countP_eq_length_filter]
  obtain ⟨n, hn⟩ : ∃ n, s.maxIter = n + 1 := ⟨s.maxIter - 1, by omega⟩
  rw [solve_uneven s n hn (by
    rintro ⟨-, m, hm5, hall⟩
    have := hall _ href
    omega)]
  simp only [Except.ok.injEq]
  unfold solveFrom
  have hnan : solveStep s 0 (s.startGain gain) [] [] = .nan := by
    unfold solveStep
    simp only []
    rw [if_neg]
    · have hz : (List.zipWith (s.damp (s.convGain 0 [] [])) (s.startGain gain)
          (List.zipWith (s.phaseOnly 0) (s.startGain gain)
            ((List.range s.nTile).map (s.newGain (s.startGain gain))))).getD s.refTile 0 = 0 := by
        have hl : s.refTile < (List.zipWith (s.damp (s.convGain 0 [] [])) (s.startGain gain)
          (List.zipWith (s.phaseOnly 0) (s.startGain gain)
            ((List.range s.nTile).map (s.newGain (s.startGain gain))))).length := by
          simp [SolveIn.startGain, href]
        simp only [List.getD, List.getElem?_eq_getElem hl, Option.getD_some, List.getElem_zipWith,
          List.getElem_map, List.getElem_range]
        have h1 : (s.startGain gain)[s.refTile]'(by simp [SolveIn.startGain, href]) = 0 := by
          simp [SolveIn.startGain, hcount]
        have h2 : s.newGain (s.startGain gain) s.refTile = some 0 := by
          unfold SolveIn.newGain; rw [if_neg (by omega)]
        rw [h1, h2, phaseOnly_same s φ hmag hc]
        unfold SolveIn.damp
        cases s.convGain 0 [] [] with
        | none => rfl
        | some c => simp [(hmag.zero_iff 0).2 rfl]
      unfold SolveIn.refer
      simp only [hno, Bool.false_eq_true, if_false]
      rw [if_pos hz]
    · intro hall
      have := List.all_eq_true.1 hall (s.newGain (s.startGain gain) t)
        (List.mem_map.2 ⟨t, List.mem_range.2 ht, rfl⟩)
      simp only [decide_eq_true_eq] at this
      exact hnz this
  rw [hnan]

/-- **C64**, where it holds: with at least one iteration the gains are numbers if no reference tile is
used (and the tiles do not all have the same number of equations, C278). -/
theorem C64_numbers_without_reference_partial (s : SolveIn K R) (hm : 0 < s.maxIter) (hu : ¬ Spec.SameNumber s.nTile s.eqs)
    (gain : List K) (hno : s.noRef = true) : ∃ out, solve s gain = .ok (some out) := by
  have key : ∀ (fuel i : ℕ) (gain : List K) (hist : List (Option R)) (stricts looses : List R),
      ∃ out, solveFrom s fuel i gain hist stricts looses = some out := by
    intro fuel
    induction fuel with
    | zero =>
      intro i gain hist stricts looses
      unfold solveFrom
      cases hstep : solveStep s i gain hist stricts with
      | nan =>
        unfold solveStep SolveIn.refer at hstep
        simp only [hno, if_true] at hstep
        split_ifs at hstep
      | allZero g => exact ⟨_, rfl⟩
      | ok curr cg strict loose =>
        rcases stopTest_cases s i stricts strict loose (looses.getLastD 0) with e | e | e | e | e <;>
          (simp only [e]; exact ⟨_, rfl⟩)
    | succ fuel ih =>
      intro i gain hist stricts looses
      unfold solveFrom
      cases hstep : solveStep s i gain hist stricts with
      | nan =>
        unfold solveStep SolveIn.refer at hstep
        simp only [hno, if_true] at hstep
        split_ifs at hstep
      | allZero g => exact ⟨_, rfl⟩
      | ok curr cg strict loose =>
        rcases stopTest_cases s i stricts strict loose (looses.getLastD 0) with e | e | e | e | e
        · simp only [e]; exact ih _ _ _ _ _
        all_goals (simp only [e]; exact ⟨_, rfl⟩)
  obtain ⟨n, hn⟩ : ∃ n, s.maxIter = n + 1 := ⟨s.maxIter - 1, by omega⟩
  rw [solve_uneven s n hn hu]
  simp only [Except.ok.injEq]
  exact key _ _ _ _ _ _

/-! ## C65: calibration weights -/

theorem zipWith_take_right {α β γ : Type _} (f : α → β → γ) (a : List α) (w w' : List β)
    (h : w.take a.length = w'.take a.length) : List.zipWith f a w = List.zipWith f a w' := by
  induction a generalizing w w' with
  | nil => simp
  | cons x t ih =>
    cases w with
    | nil =>
      cases w' with
      | nil => rfl
      | cons b v => simp at h
    | cons b v =>
      cases w' with
      | nil => simp at h
      | cons b' v' =>
        simp only [List.length_cons, List.take_succ_cons, List.cons.injEq] at h
        rw [List.zipWith_cons_cons, List.zipWith_cons_cons, h.1, ih _ _ h.2]

theorem weighted1_take (cast : R → K) (w w' : List R) (xs ys : List K)
    (h : w.take xs.length = w'.take xs.length) : weighted1 cast w xs ys = weighted1 cast w' xs ys := by
  unfold weighted1
  rw [zipWith_take_right _ xs w w' h]

/-- **C65 is violated**: the weights of the baselines beyond the first `m`, where no tile has more than
`m` equations, have no influence on any new gain. -/
theorem C65_later_weights_ignored (s : SolveIn K R) (w w' : List R) (m : ℕ)
    (hm : ∀ t < s.nTile, s.eqs.countP (fun e => e.a = t) ≤ m) (hw : w.take m = w'.take m)
    (gain : List K) (t : ℕ) (ht : t < s.nTile) :
    { s with wts := some w }.newGain gain t = { s with wts := some w' }.newGain gain t := by
  have hl : (s.eqsOf t).length ≤ m := by
    have := hm t ht
    rwa [List.countP_eq_length_filter] at this
  unfold SolveIn.newGain
  simp only []
  change (if 5 ≤ (s.eqsOf t).length then weighted1 s.cast w _ _ else _) =
    (if 5 ≤ (s.eqsOf t).length then weighted1 s.cast w' _ _ else _)
  split_ifs
  · apply weighted1_take
    rw [List.length_map]
    have e1 : ∀ v : List R, v.take (s.eqsOf t).length = (v.take m).take (s.eqsOf t).length := by
      intro v; rw [List.take_take, min_eq_left hl]
    change w.take (s.eqsOf t).length = w'.take (s.eqsOf t).length
    rw [e1 w, e1 w', hw]
  · rfl

/-- **C65**, where it holds: equal weights have no influence, the solution is the unweighted one. -/
theorem C65_equal_weights_partial (s : SolveIn K R) (φ : R →+* K) (hmag : Spec.ComplexAbs s.mag φ)
    (hc : s.cast = φ) (hw0 : s.wts = none) (c : R) (hcpos : c ≠ 0) (n : ℕ)
    (gain : List K) (t : ℕ) (hn : s.eqs.countP (fun e => e.a = t) ≤ n)
    (hx : ∃ e ∈ s.eqs, e.a = t ∧ e.model ≠ 0 ∧ gain.getD e.b 0 ≠ 0) :
    { s with wts := some (List.replicate n c) }.newGain gain t = s.newGain gain t := by
  have hl : (s.eqsOf t).length ≤ n := by rwa [List.countP_eq_length_filter] at hn
  unfold SolveIn.newGain
  rw [hw0]
  simp only []
  change (if 5 ≤ (s.eqsOf t).length then
      weighted1 s.cast (List.replicate n c) ((s.eqsOf t).map fun e => e.model * star (gain.getD e.b 0))
        ((s.eqsOf t).map fun e => e.data) else _) = _
  split_ifs
  swap
  · rfl
  obtain ⟨e, he, hea, hem, heg⟩ := hx
  have hx' : ∃ x ∈ (s.eqsOf t).map (fun e => e.model * star (gain.getD e.b 0)), x ≠ 0 := by
    refine ⟨e.model * star (gain.getD e.b 0), List.mem_map.2 ⟨e, ?_, rfl⟩, ?_⟩
    · unfold SolveIn.eqsOf
      exact List.mem_filter.2 ⟨he, by simpa using hea⟩
    · exact mul_ne_zero hem (by rw [Ne, star_eq_zero]; exact heg)
  have hd := hmag.sum_sq_ne_zero _ hx'
  have hφ : φ c ≠ 0 := by rw [Ne, map_eq_zero]; exact hcpos
  generalize hxs : (s.eqsOf t).map (fun e => e.model * star (gain.getD e.b 0)) = xs at *
  generalize hys : (s.eqsOf t).map (fun e => e.data) = ys
  have hxl : xs.length ≤ n := by rw [← hxs]; simpa using hl
  have e1 : List.zipWith (fun x (r : R) => star x * s.cast r) xs (List.replicate n c)
      = xs.map fun x => star x * φ c := by
    apply List.ext_getElem
    · simp [hxl]
    · intro i h1 h2; simp [hc]
  have e2 : (List.zipWith (fun x d => x * d) xs (xs.map fun x => star x * φ c)).sum
      = φ c * (xs.map fun x => star x * x).sum := by
    clear * -
    induction xs with
    | nil => simp
    | cons a t ih => simp only [List.map_cons, List.zipWith_cons_cons, List.sum_cons, ih]; ring
  have e3 : (List.zipWith (fun y d => y * d) ys (xs.map fun x => star x * φ c)).sum
      = φ c * (List.zipWith (fun x y => star x * y) xs ys).sum := by
    clear * -
    induction xs generalizing ys with
    | nil => simp
    | cons a t ih =>
      cases ys with
      | nil => simp
      | cons b v => simp only [List.map_cons, List.zipWith_cons_cons, List.sum_cons, ih]; ring
  unfold weighted1 lstsq1 npDiv
  simp only []
  rw [e1, e2, e3, if_neg (mul_ne_zero hφ hd), if_neg hd, mul_div_mul_left _ _ hφ]

end Fixed

/-! ## C66: flagged tiles -/

theorem tilePositions_fold (tiles as : List ℕ) : ∀ n ≤ tiles.length, ∀ (pos : List ℕ),
    pos = (List.range n).foldl
      (fun pos i => List.zipWith (fun a p => if a = tiles.getD i 0 then i else p) as pos)
      (as.map fun _ => 0) →
    pos.length = as.length ∧ ∀ j (h1 : j < pos.length) (h2 : j < as.length),
      (as[j] ∉ tiles.take n → pos[j] = 0) ∧
      (as[j] ∈ tiles.take n → pos[j] < n ∧ tiles.getD pos[j] 0 = as[j]) := by
  intro n
  induction n with
  | zero => intro _ pos hp; subst hp; simp
  | succ n ih =>
    intro hn pos hp
    rw [List.range_succ, List.foldl_append] at hp
    simp only [List.foldl_cons, List.foldl_nil] at hp
    obtain ⟨hl, hih⟩ := ih (by omega) _ rfl
    generalize (List.range n).foldl
      (fun pos i => List.zipWith (fun a p => if a = tiles.getD i 0 then i else p) as pos)
      (as.map fun _ => 0) = prev at hp hl hih
    subst hp
    refine ⟨by simp [hl], ?_⟩
    intro j h1 h2
    simp only [List.getElem_zipWith]
    obtain ⟨i1, i2⟩ := hih j (by omega) h2
    have htn : tiles.getD n 0 = tiles[n]'(by omega) := by
      simp [List.getD, List.getElem?_eq_getElem (show n < tiles.length by omega)]
    have htake : tiles.take (n + 1) = tiles.take n ++ [tiles.getD n 0] := by
      rw [htn, List.take_concat_get' tiles n (by omega)]
    rw [htake]
    constructor
    · intro hnot
      rw [List.mem_append, List.mem_singleton, not_or] at hnot
      rw [if_neg hnot.2]
      exact i1 hnot.1
    · intro hmem
      split_ifs with he
      · exact ⟨by omega, he.symm⟩
      · rw [List.mem_append, List.mem_singleton] at hmem
        obtain ⟨k1, k2⟩ := i2 (by tauto)
        exact ⟨by omega, k2⟩

/-- **C66 is violated**: a baseline in use with a flagged tile enters the equations as a baseline of
the first tile solved for. -/
theorem C66_flagged_tile_counts_as_first (nTile : ℕ) (as bs : List ℕ) (tileUse : ℕ → Bool) (j : ℕ)
    (hj : j < as.length) (hflag : tileUse as[j] = false) :
    (tilePositions (solveTiles nTile as bs tileUse) as)[j]? = some 0 := by
  obtain ⟨hl, h⟩ := tilePositions_fold (solveTiles nTile as bs tileUse) as _ le_rfl _ rfl
  have hj' : j < (tilePositions (solveTiles nTile as bs tileUse) as).length := by
    unfold tilePositions; omega
  rw [List.getElem?_eq_getElem hj']
  congr 1
  apply (h j hj' hj).1
  rw [List.take_length]
  unfold solveTiles
  intro hmem
  have := (List.mem_filter.1 hmem).2
  rw [hflag] at this
  simp at this

/-- **C66**, where it holds: a baseline of a tile that is not flagged is put at the position of
that tile among the tiles solved for. -/
theorem C66_unflagged_tile_position_partial (nTile : ℕ) (as bs : List ℕ) (tileUse : ℕ → Bool) (j : ℕ)
    (hj : j < as.length) (hlt : as[j] < nTile) (huse : tileUse as[j] = true) :
    ∃ p, (tilePositions (solveTiles nTile as bs tileUse) as)[j]? = some p ∧
      (solveTiles nTile as bs tileUse)[p]? = some as[j] := by
  obtain ⟨hl, h⟩ := tilePositions_fold (solveTiles nTile as bs tileUse) as _ le_rfl _ rfl
  have hj' : j < (tilePositions (solveTiles nTile as bs tileUse) as).length := by
    unfold tilePositions; omega
  refine ⟨_, List.getElem?_eq_getElem hj', ?_⟩
  obtain ⟨p1, p2⟩ := (h j hj' hj).2 (by
    rw [List.take_length]
    unfold solveTiles
    refine List.mem_filter.2 ⟨List.mem_range.2 hlt, ?_⟩
    rw [huse, Bool.and_true, decide_eq_true_eq]
    have : 0 < as.count as[j] := List.count_pos_iff.2 (List.getElem_mem hj)
    omega)
  change (solveTiles nTile as bs tileUse).getD
    ((tilePositions (solveTiles nTile as bs tileUse) as)[j]) 0 = as[j] at p2
  change (tilePositions (solveTiles nTile as bs tileUse) as)[j] < _ at p1
  rw [List.getElem?_eq_getElem p1]
  simp only [List.getD, List.getElem?_eq_getElem p1, Option.getD_some] at p2
  rw [p2]

/-! ## Examples -/

/-- All pairs of six tiles, and one of them twice, with gains `1, 2, 1, 3, 1, 2`. -/
def exCalBl : List (CalBaseline ℚ ℚ) :=
  ((List.range 6).flatMap fun a => ((List.range 6).filter (a < ·)).map fun b =>
    ⟨a, b, [1, 2, 1, 3, 1, 2].getD a 0 * [1, 2, 1, 3, 1, 2].getD b 0 * (a + 1), a + 1, 1⟩) ++ [⟨0, 1, 6, 3, 1⟩]

/-- Solver options for `exCalBl`. -/
def exSolve (n : ℕ) : SolveIn ℚ ℚ :=
  { mag := fun z => |z|, cast := id, nTile := 6, eqs := doubleEqs exCalBl, wts := none,
    maxIter := n, phaseIter := 1, thresh := 1 / 1000, adaptive := false, base := 1, refTile := 1,
    noRef := false }

theorem exAbs : Spec.ComplexAbs (K := ℚ) (R := ℚ) (fun z => |z|) (RingHom.id ℚ) :=
  ⟨fun z => abs_nonneg z, fun z => by simp, fun _ => rfl⟩

instance (nTile : ℕ) (eqs : List (CalEq ℚ)) (gain : List ℚ) :
    Decidable (Spec.Determined nTile eqs gain) := by
  unfold Spec.Determined; infer_instance

instance (eqs : List (CalEq ℚ)) (gain : List ℚ) : Decidable (Spec.Perfect eqs gain) := by
  unfold Spec.Perfect; infer_instance

/-- The hypotheses of C39 hold, and its conclusion is checked. -/
example : Spec.Perfect (exSolve 8).eqs [1, 2, 1, 3, 1, 2] ∧
    Spec.Determined 6 (exSolve 8).eqs [1, 2, 1, 3, 1, 2] := by decide +kernel

example : ∃ out, solve (exSolve 8) [1, 2, 1, 3, 1, 2] = .ok (some out) ∧
    out.gain = [1, 2, 1, 3, 1, 2] := by
  obtain ⟨out, h1, h2⟩ := C39_solver_fixed_point (exSolve 8) (RingHom.id ℚ) exAbs rfl
    (by decide +kernel) (by decide +kernel) [1, 2, 1, 3, 1, 2] rfl (by decide +kernel)
    (by decide +kernel) ((evenly_iff _).not.1 (by decide +kernel)) (by decide +kernel)
  exact ⟨out, h1, by rw [h2]; decide +kernel⟩

/-- Data of all pairs of six tiles that no gains account for; model 1, start from unit gains. -/
def exBad (n : ℕ) (thresh : ℚ) : SolveIn ℚ ℚ :=
  { exSolve n with
    thresh := thresh, phaseIter := 0, refTile := 0
    eqs := doubleEqs (List.zipWith (fun x d => { x with data := d, model := (1 : ℚ) }) exCalBl
      [0, -1, 0, 2, 0, -3, -1, 0, 3, 0, 1, 1, 1, 2, 0, 0]) }

/-- The stop of a run, its number of iterations and reported iteration. -/
def exStop (s : SolveIn ℚ ℚ) : Option (SolveStop × ℕ × ℕ) :=
  match solve s [1, 1, 1, 1, 1, 1] with
  | .ok (some o) => some (o.stop, o.stricts.length, o.iter)
  | _ => none

/-- C38 and C63: all the ways to stop occur. -/
example : exStop (exBad 5 (1 / 5)) = some (.loose false, 5, 4) ∧
    exStop (exBad 5 (1 / 4)) = some (.loose true, 5, 4) ∧
    exStop (exBad 5 0) = some (.diverged, 5, 3) ∧
    exStop (exBad 5 1) = some (.converged, 5, 4) ∧
    exStop (exBad 3 1) = some (.exhausted, 3, 2) ∧
    exStop { exBad 5 1 with eqs := [] } = some (.zero, 0, 0) := by decide +kernel

/-- C62: no iterations. -/
example : solve (exSolve 0) [1, 1, 1, 1, 1, 1] = .error .nameError :=
  C62_no_iterations_name_error _ _ rfl

/-- C278: without the repeated baseline all tiles have five equations. -/
example : solve { exSolve 5 with eqs := doubleEqs (exCalBl.take 15) } [1, 2, 1, 3, 1, 2] = .error .indexError :=
  C278_same_number_raises _ _ (by decide +kernel) ((evenly_iff _).1 (by decide +kernel))

/-- C64: the reference tile has two equations only. -/
def exRef : SolveIn ℚ ℚ :=
  { exSolve 5 with nTile := 7, refTile := 6, eqs := (exSolve 5).eqs ++ [⟨0, 6, 1, 1⟩, ⟨6, 0, 1, 1⟩] }

example : solve exRef [1, 1, 1, 1, 1, 1, 1] = .ok none :=
  C64_reference_without_equations exRef (RingHom.id ℚ) exAbs rfl (by decide +kernel) _ rfl
    (by decide +kernel) (by decide +kernel) 0 (by decide +kernel) (by decide +kernel)

/-- C65: the weights of the first baselines matter, though other tiles' baselines, the later ones do
not. -/
example :
    { exBad 5 1 with wts := some (1 :: List.replicate 29 2) }.newGain [1, 1, 1, 1, 1, 1] 5
      ≠ { exBad 5 1 with wts := some (List.replicate 30 2) }.newGain [1, 1, 1, 1, 1, 1] 5 ∧
    ∀ t < 6, (exBad 5 1).eqs.countP (fun e => e.a = t) ≤ 6 := by decide +kernel

/-- C66: tile 1 is flagged, tiles 2 and 3 are solved for. -/
example : solveTiles 4 [1, 2, 1] [2, 3, 3] (fun t => t ≠ 1) = [2, 3] ∧
    tilePositions (solveTiles 4 [1, 2, 1] [2, 3, 3] (fun t => t ≠ 1)) [1, 2, 1] = [0, 0, 0] ∧
    tilePositions (solveTiles 4 [1, 2, 1] [2, 3, 3] (fun t => t ≠ 1)) [2, 3, 3] = [0, 1, 1] := by
  decide +kernel

end PyFHD
