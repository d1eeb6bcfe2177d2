import Verif.Props.CalRun

/-!
# Calibration: the numbers of the tiles, and channels on their own (C238, C239)
-/

set_option linter.unusedSectionVars false

namespace PyFHD

/-! ## Lists in another order -/

section Renum

variable {α β γ : Type}

/-- `g'` holds the entries of `g`, entry `t` at place `ρ t`. -/
def Renum (n : ℕ) (ρ : ℕ → ℕ) (g g' : List α) : Prop := g.length = n ∧ g'.length = n ∧ ∀ t < n, g'[ρ t]? = g[t]?

theorem renum_range_perm (n : ℕ) (ρ : ℕ → ℕ) (h1 : ∀ t < n, ρ t < n) (h2 : ∀ t < n, ∀ u < n, ρ t = ρ u → t = u) :
    ((List.range n).map ρ).Perm (List.range n) := by
  have hnd : ((List.range n).map ρ).Nodup := by
    rw [List.nodup_map_iff_inj_on List.nodup_range]
    intro x hx y hy e
    exact h2 x (List.mem_range.1 hx) y (List.mem_range.1 hy) e
  refine (List.Nodup.subperm hnd ?_).perm_of_length_le (by simp)
  intro x hx
  obtain ⟨t, ht, rfl⟩ := List.mem_map.1 hx
  exact List.mem_range.2 (h1 t (List.mem_range.1 ht))

variable {n : ℕ} {ρ : ℕ → ℕ}

theorem Renum.perm (h1 : ∀ t < n, ρ t < n) (h2 : ∀ t < n, ∀ u < n, ρ t = ρ u → t = u) {g g' : List α} (h : Renum n ρ g g') :
    g'.Perm g := by
  obtain ⟨l1, l2, h⟩ := h
  have e1 : g.map some = ((List.range n).map ρ).map fun i => g'[i]? := by
    apply List.ext_getElem
    · simp [l1]
    · intro i hi _
      have hi' : i < n := by simpa [l1] using hi
      simp only [List.getElem_map, List.getElem_range, h i hi']
      rw [List.getElem?_eq_getElem]
  have e2 : g'.map some = (List.range n).map fun i => g'[i]? := by
    apply List.ext_getElem
    · simp [l2]
    · intro i hi _
      have hi' : i < g'.length := by simpa using hi
      simp only [List.getElem_map, List.getElem_range]
      rw [List.getElem?_eq_getElem hi']
  have hp : (g'.map some).Perm (g.map some) := by
    rw [e1, e2]
    exact ((renum_range_perm n ρ h1 h2).map _).symm
  have := hp.filterMap id
  simpa [List.filterMap_map] using this

theorem Renum.map (f : α → β) {g g' : List α} (h : Renum n ρ g g') : Renum n ρ (g.map f) (g'.map f) := by
  obtain ⟨l1, l2, h⟩ := h
  refine ⟨by simp [l1], by simp [l2], fun t ht => ?_⟩
  simp [List.getElem?_map, h t ht]

theorem Renum.zip (f : α → β → γ) {a a' : List α} {b b' : List β} (h : Renum n ρ a a') (k : Renum n ρ b b') :
    Renum n ρ (List.zipWith f a b) (List.zipWith f a' b') := by
  obtain ⟨l1, l2, h⟩ := h
  obtain ⟨m1, m2, k⟩ := k
  refine ⟨by simp [l1, m1], by simp [l2, m2], fun t ht => ?_⟩
  simp [List.getElem?_zipWith, h t ht, k t ht]

theorem Renum.of_range (h1 : ∀ t < n, ρ t < n) (F F' : ℕ → α) (h : ∀ t < n, F' (ρ t) = F t) :
    Renum n ρ ((List.range n).map F) ((List.range n).map F') := by
  refine ⟨by simp, by simp, fun t ht => ?_⟩
  simp [ht, h1 t ht, h t ht]

theorem Renum.getD {g g' : List α} (h : Renum n ρ g g') (d : α) (t : ℕ) (ht : t < n) : g'.getD (ρ t) d = g.getD t d := by
  simp [List.getD, h.2.2 t ht]

theorem foldl_max_perm {R : Type} [LinearOrder R] [Zero R] {l l' : List R} (h : l'.Perm l) :
    l'.foldl max (l'.headD 0) = l.foldl max (l.headD 0) := by
  have key : ∀ (l : List R) (a : R), l.foldl max a = a ∨ l.foldl max a ∈ l := by
    intro l
    induction l with
    | nil => intro a; exact Or.inl rfl
    | cons b l ih =>
      intro a
      rw [List.foldl_cons]
      rcases ih (max a b) with e | e
      · rw [e]
        rcases max_choice a b with m | m
        · exact Or.inl m
        · rw [m]; exact Or.inr (by simp)
      · exact Or.inr (List.mem_cons_of_mem _ e)
  have ge0 : ∀ (l : List R) (a : R), a ≤ l.foldl max a := by
    intro l
    induction l with
    | nil => intro a; exact le_refl a
    | cons b l ih => intro a; exact le_trans (le_max_left a b) (ih _)
  have ge : ∀ (l : List R) (a : R), ∀ x ∈ l, x ≤ l.foldl max a := by
    intro l
    induction l with
    | nil => intro a x hx; cases hx
    | cons b l ih =>
      intro a x hx
      rcases List.mem_cons.1 hx with rfl | hx
      · exact le_trans (le_max_right a x) (ge0 l _)
      · exact ih _ x hx
  have mem : ∀ l : List R, l ≠ [] → l.foldl max (l.headD 0) ∈ l := by
    intro l hl
    rcases key l (l.headD 0) with e | e
    · rw [e]
      cases l with
      | nil => exact absurd rfl hl
      | cons a l => simp
    · exact e
  by_cases hl : l = []
  · subst hl
    rw [h.eq_nil]
  · have hl' : l' ≠ [] := fun e => hl (by rw [e] at h; exact h.symm.eq_nil)
    exact le_antisymm (ge l _ _ (h.mem_iff.1 (mem l' hl'))) (ge l' _ _ (h.mem_iff.2 (mem l hl)))

end Renum

variable {K R : Type} [Field K] [StarRing K] [DecidableEq K] [Field R] [LinearOrder R]

/-! ## The solver with other numbers of the tiles -/

section Solver

/-- The equation with the tiles renumbered. -/
def renumEq (ρ : ℕ → ℕ) (e : CalEq K) : CalEq K := ⟨ρ e.a, ρ e.b, e.data, e.model⟩

variable (s : SolveIn K R)

/-- The solver's input with the tiles renumbered. -/
def SolveIn.renum (ρ : ℕ → ℕ) (q : ℕ) : SolveIn K R := { s with eqs := s.eqs.map (renumEq ρ), refTile := q }

variable {ρ : ℕ → ℕ} {q : ℕ}

theorem eqsOf_renum (h2 : ∀ t < s.nTile, ∀ u < s.nTile, ρ t = ρ u → t = u) (he : ∀ e ∈ s.eqs, e.a < s.nTile ∧ e.b < s.nTile)
    (t : ℕ) (ht : t < s.nTile) : (s.renum ρ q).eqsOf (ρ t) = (s.eqsOf t).map (renumEq ρ) := by
  unfold SolveIn.eqsOf SolveIn.renum
  simp only []
  rw [List.filter_map]
  congr 1
  apply List.filter_congr
  intro e hm
  simp only [Function.comp, renumEq]
  exact decide_eq_decide.2 ⟨fun h => h2 _ (he e hm).1 _ ht h, fun h => by rw [h]⟩

theorem newGain_renum (h2 : ∀ t < s.nTile, ∀ u < s.nTile, ρ t = ρ u → t = u) (he : ∀ e ∈ s.eqs, e.a < s.nTile ∧ e.b < s.nTile)
    {g g' : List K} (hg : Renum s.nTile ρ g g') (t : ℕ) (ht : t < s.nTile) :
    (s.renum ρ q).newGain g' (ρ t) = s.newGain g t := by
  unfold SolveIn.newGain
  rw [eqsOf_renum s h2 he t ht]
  simp only [List.length_map, List.map_map]
  have hx : (s.eqsOf t).map ((fun e : CalEq K => e.model * star (g'.getD e.b 0)) ∘ renumEq ρ) =
      (s.eqsOf t).map fun e => e.model * star (g.getD e.b 0) := by
    apply List.map_congr_left
    intro e hm
    simp only [Function.comp, renumEq]
    rw [hg.getD 0 e.b (he e (List.mem_filter.1 hm).1).2]
  rw [hx]
  rfl

/-- Two outcomes of an iteration that differ by the numbers of the tiles only. -/
def StepRenum (n : ℕ) (ρ : ℕ → ℕ) : SolveStep K R → SolveStep K R → Prop
  | .allZero g, .allZero g' => Renum n ρ g g'
  | .nan, .nan => True
  | .ok g cg a b, .ok g' cg' a' b' => Renum n ρ g g' ∧ cg' = cg ∧ a' = a ∧ b' = b
  | _, _ => False

theorem solveStep_renum (h1 : ∀ t < s.nTile, ρ t < s.nTile) (h2 : ∀ t < s.nTile, ∀ u < s.nTile, ρ t = ρ u → t = u)
    (he : ∀ e ∈ s.eqs, e.a < s.nTile ∧ e.b < s.nTile) (hr : s.noRef = false → s.refTile < s.nTile ∧ q = ρ s.refTile) (i : ℕ) {g g' : List K}
    (hg : Renum s.nTile ρ g g') (hist : List (Option R)) (stricts : List R) :
    StepRenum s.nTile ρ (solveStep s i g hist stricts) (solveStep (s.renum ρ q) i g' hist stricts) := by
  have hnew : Renum s.nTile ρ ((List.range s.nTile).map (s.newGain g)) ((List.range s.nTile).map ((s.renum ρ q).newGain g')) :=
    Renum.of_range h1 _ _ fun t ht => newGain_renum s h2 he hg t ht
  have hall : ((List.range s.nTile).map ((s.renum ρ q).newGain g')).all (fun x => decide (x = some 0)) =
      ((List.range s.nTile).map (s.newGain g)).all fun x => decide (x = some 0) := by
    rw [Bool.eq_iff_iff, List.all_eq_true, List.all_eq_true]
    have := hnew.perm h1 h2
    exact ⟨fun h x hx => h x (this.mem_iff.2 hx), fun h x hx => h x (this.mem_iff.1 hx)⟩
  unfold solveStep
  rw [show (s.renum ρ q).nTile = s.nTile from rfl]
  simp only [hall]
  split_ifs with ha
  · exact hnew.map _
  · rw [show (s.renum ρ q).phaseOnly i = s.phaseOnly i from rfl, show (s.renum ρ q).damp = s.damp from rfl,
      show (s.renum ρ q).convGain i hist stricts = s.convGain i hist stricts from rfl]
    have hd := hg.zip (s.damp (s.convGain i hist stricts)) (hg.zip (s.phaseOnly i) hnew)
    generalize List.zipWith (s.damp (s.convGain i hist stricts)) g
      (List.zipWith (s.phaseOnly i) g ((List.range s.nTile).map (s.newGain g))) = D at hd ⊢
    generalize List.zipWith (s.damp (s.convGain i hist stricts)) g'
      (List.zipWith (s.phaseOnly i) g' ((List.range s.nTile).map ((s.renum ρ q).newGain g'))) = D' at hd ⊢
    have hrel : ∀ C C' : List K, Renum s.nTile ρ C C' → StepRenum s.nTile ρ
        (.ok C (s.convGain i hist stricts) ((relChange s.mag C g).foldl max ((relChange s.mag C g).headD 0))
          ((relChange s.mag C g).sum / ((relChange s.mag C g).length : R)))
        (.ok C' (s.convGain i hist stricts) ((relChange s.mag C' g').foldl max ((relChange s.mag C' g').headD 0))
          ((relChange s.mag C' g').sum / ((relChange s.mag C' g').length : R))) := by
      intro C C' hC
      have hp := (hC.zip (fun c o => s.mag (c - o) * invR (s.mag o)) hg).perm h1 h2
      exact ⟨hC, rfl, foldl_max_perm hp, by
        change (List.zipWith _ _ _).sum / ((List.zipWith _ _ _).length : R) = _
        rw [hp.sum_eq, hp.length_eq]
        rfl⟩
    unfold SolveIn.refer
    simp only []
    rw [show (s.renum ρ q).noRef = s.noRef from rfl, show (s.renum ρ q).refTile = q from rfl,
      show (s.renum ρ q).mag = s.mag from rfl, show (s.renum ρ q).cast = s.cast from rfl]
    by_cases hn : s.noRef = true
    · rw [if_pos hn, if_pos hn]
      exact hrel D D' hd
    · obtain ⟨hr1, hr2⟩ := hr (by simpa using hn)
      rw [if_neg hn, if_neg hn, hr2, hd.getD 0 _ hr1]
      split_ifs
      · trivial
      · exact hrel _ _ (hd.map _)

/-- Two results of the solver that differ by the numbers of the tiles only. -/
def OutRenum (n : ℕ) (ρ : ℕ → ℕ) (o o' : SolveOut K R) : Prop :=
  Renum n ρ o.gain o'.gain ∧ Renum n ρ o.convergence o'.convergence ∧ o'.iter = o.iter ∧ o'.stop = o.stop ∧
    o'.stricts = o.stricts ∧ o'.looses = o.looses

/-- The same, both missing or both there. -/
def OptRenum (n : ℕ) (ρ : ℕ → ℕ) : Option (SolveOut K R) → Option (SolveOut K R) → Prop
  | none, none => True
  | some o, some o' => OutRenum n ρ o o'
  | _, _ => False

theorem solveFrom_renum (h1 : ∀ t < s.nTile, ρ t < s.nTile) (h2 : ∀ t < s.nTile, ∀ u < s.nTile, ρ t = ρ u → t = u)
    (he : ∀ e ∈ s.eqs, e.a < s.nTile ∧ e.b < s.nTile) (hr : s.noRef = false → s.refTile < s.nTile ∧ q = ρ s.refTile) :
    ∀ (fuel i : ℕ) (g g' : List K) (hist : List (Option R)) (stricts looses : List R), Renum s.nTile ρ g g' →
    OptRenum s.nTile ρ (solveFrom s fuel i g hist stricts looses) (solveFrom (s.renum ρ q) fuel i g' hist stricts looses) := by
  intro fuel
  induction fuel with
  | zero =>
    intro i g g' hist stricts looses hg
    have hst := solveStep_renum s h1 h2 he hr i hg hist stricts
    have hrc : ∀ C C' D D' : List K, Renum s.nTile ρ C C' → Renum s.nTile ρ D D' →
      Renum s.nTile ρ (relChange s.mag C D) (relChange s.mag C' D') := fun C C' D D' hC hD => hC.zip _ hD
    unfold solveFrom
    rw [show stopTest (s.renum ρ q) = stopTest s from rfl, show (s.renum ρ q).mag = s.mag from rfl]
    cases hs : solveStep s i g hist stricts with
    | nan =>
      rw [hs] at hst
      cases hs' : solveStep (s.renum ρ q) i g' hist stricts with
      | nan => trivial
      | allZero g2 => rw [hs'] at hst; exact hst.elim
      | ok c2 cg2 a2 b2 => rw [hs'] at hst; exact hst.elim
    | allZero gz =>
      rw [hs] at hst
      cases hs' : solveStep (s.renum ρ q) i g' hist stricts with
      | nan => rw [hs'] at hst; exact hst.elim
      | allZero g2 => rw [hs'] at hst; exact ⟨hst, hrc _ _ _ _ hst hg, rfl, rfl, rfl, rfl⟩
      | ok c2 cg2 a2 b2 => rw [hs'] at hst; exact hst.elim
    | ok curr cg strict loose =>
      rw [hs] at hst
      cases hs' : solveStep (s.renum ρ q) i g' hist stricts with
      | nan => rw [hs'] at hst; exact hst.elim
      | allZero g2 => rw [hs'] at hst; exact hst.elim
      | ok c2 cg2 a2 b2 =>
        rw [hs'] at hst
        obtain ⟨hc, rfl, rfl, rfl⟩ := hst
        rcases stopTest_cases s i stricts a2 b2 (looses.getLastD 0) with e | e | e | e | e <;> simp only [e]
        · exact ⟨hc, hrc _ _ _ _ hc hg, rfl, rfl, rfl, rfl⟩
        · exact ⟨hc, hrc _ _ _ _ hc hg, rfl, rfl, rfl, rfl⟩
        · exact ⟨hg, hrc _ _ _ _ hg hg, rfl, rfl, rfl, rfl⟩
        · exact ⟨hc, hrc _ _ _ _ hc hg, rfl, rfl, rfl, rfl⟩
        · exact ⟨hg, hg.map _, rfl, rfl, rfl, rfl⟩
  | succ n ih =>
    intro i g g' hist stricts looses hg
    have hst := solveStep_renum s h1 h2 he hr i hg hist stricts
    have hrc : ∀ C C' D D' : List K, Renum s.nTile ρ C C' → Renum s.nTile ρ D D' →
      Renum s.nTile ρ (relChange s.mag C D) (relChange s.mag C' D') := fun C C' D D' hC hD => hC.zip _ hD
    unfold solveFrom
    rw [show stopTest (s.renum ρ q) = stopTest s from rfl, show (s.renum ρ q).mag = s.mag from rfl]
    cases hs : solveStep s i g hist stricts with
    | nan =>
      rw [hs] at hst
      cases hs' : solveStep (s.renum ρ q) i g' hist stricts with
      | nan => trivial
      | allZero g2 => rw [hs'] at hst; exact hst.elim
      | ok c2 cg2 a2 b2 => rw [hs'] at hst; exact hst.elim
    | allZero gz =>
      rw [hs] at hst
      cases hs' : solveStep (s.renum ρ q) i g' hist stricts with
      | nan => rw [hs'] at hst; exact hst.elim
      | allZero g2 => rw [hs'] at hst; exact ⟨hst, hrc _ _ _ _ hst hg, rfl, rfl, rfl, rfl⟩
      | ok c2 cg2 a2 b2 => rw [hs'] at hst; exact hst.elim
    | ok curr cg strict loose =>
      rw [hs] at hst
      cases hs' : solveStep (s.renum ρ q) i g' hist stricts with
      | nan => rw [hs'] at hst; exact hst.elim
      | allZero g2 => rw [hs'] at hst; exact hst.elim
      | ok c2 cg2 a2 b2 =>
        rw [hs'] at hst
        obtain ⟨hc, rfl, rfl, rfl⟩ := hst
        rcases stopTest_cases s i stricts a2 b2 (looses.getLastD 0) with e | e | e | e | e <;> simp only [e]
        · exact ih _ _ _ _ _ _ hc
        · exact ⟨hc, hrc _ _ _ _ hc hg, rfl, rfl, rfl, rfl⟩
        · exact ⟨hg, hrc _ _ _ _ hg hg, rfl, rfl, rfl, rfl⟩
        · exact ⟨hc, hrc _ _ _ _ hc hg, rfl, rfl, rfl, rfl⟩
        · exact ⟨hg, hg.map _, rfl, rfl, rfl, rfl⟩

theorem evenly_renum (h1 : ∀ t < s.nTile, ρ t < s.nTile) (h2 : ∀ t < s.nTile, ∀ u < s.nTile, ρ t = ρ u → t = u)
    (he : ∀ e ∈ s.eqs, e.a < s.nTile ∧ e.b < s.nTile) : (s.renum ρ q).evenly = s.evenly := by
  have hlen : ∀ t < s.nTile, ((s.renum ρ q).eqsOf (ρ t)).length = (s.eqsOf t).length := fun t ht => by
    rw [eqsOf_renum s h2 he t ht, List.length_map]
  have hsurj : ∀ u < s.nTile, ∃ t < s.nTile, ρ t = u := by
    intro u hu
    have hinj : Set.InjOn ρ (Finset.range s.nTile : Set ℕ) := fun a ha b hb e =>
      h2 a (by simpa using ha) b (by simpa using hb) e
    have hmaps : Set.MapsTo ρ (Finset.range s.nTile : Set ℕ) (Finset.range s.nTile : Set ℕ) := fun a ha => by
      simpa using h1 a (by simpa using ha)
    obtain ⟨t, ht, e⟩ := Finset.surjOn_of_injOn_of_card_le ρ hmaps hinj (le_refl _) (show u ∈ (Finset.range s.nTile : Set ℕ) by simpa using hu)
    exact ⟨t, by simpa using ht, e⟩
  rw [Bool.eq_iff_iff, evenly_iff, evenly_iff]
  unfold Spec.SameNumber
  simp only [SolveIn.eqsOf, ← List.countP_eq_length_filter] at hlen
  rw [show (s.renum ρ q).nTile = s.nTile from rfl]
  refine and_congr_right fun _ => exists_congr fun n => and_congr_right fun _ => ⟨fun h t ht => ?_, fun h u hu => ?_⟩
  · rw [← hlen t ht]
    exact h _ (h1 t ht)
  · obtain ⟨t, ht, rfl⟩ := hsurj u hu
    rw [hlen t ht]
    exact h t ht

theorem solve_renum (h1 : ∀ t < s.nTile, ρ t < s.nTile) (h2 : ∀ t < s.nTile, ∀ u < s.nTile, ρ t = ρ u → t = u)
    (he : ∀ e ∈ s.eqs, e.a < s.nTile ∧ e.b < s.nTile) (hr : s.noRef = false → s.refTile < s.nTile ∧ q = ρ s.refTile) (g g' : List K) (hg : Renum s.nTile ρ g g')
    (o : SolveOut K R) (ho : solve s g = .ok (some o)) :
    ∃ o', solve (s.renum ρ q) g' = .ok (some o') ∧ OutRenum s.nTile ρ o o' := by
  unfold solve at ho ⊢
  rw [show (s.renum ρ q).maxIter = s.maxIter from rfl]
  cases hm : s.maxIter with
  | zero => rw [hm] at ho; cases ho
  | succ n =>
    rw [hm] at ho
    have hev : (s.renum ρ q).evenly = s.evenly := evenly_renum s h1 h2 he
    simp only [hev] at ho ⊢
    by_cases hs : s.evenly = true
    · rw [if_pos hs] at ho
      cases ho
    rw [if_neg hs] at ho ⊢
    simp only [Except.ok.injEq] at ho ⊢
    have hst : Renum s.nTile ρ (s.startGain g) ((s.renum ρ q).startGain g') := by
      unfold SolveIn.startGain
      refine Renum.of_range h1 _ _ fun t ht => ?_
      rw [eqsOf_renum s h2 he t ht, List.length_map, hg.getD 0 t ht]
    have := solveFrom_renum s h1 h2 he hr n 0 _ _ [] [] [] hst
    rw [ho] at this
    cases ho' : solveFrom (s.renum ρ q) n 0 ((s.renum ρ q).startGain g') [] [] [] with
    | none => rw [ho'] at this; exact this.elim
    | some o' => rw [ho'] at this; exact ⟨o', rfl, this⟩

end Solver

/-! ## C238: the numbers of the tiles -/

/-- The same observation with tile `t` called `π t`. -/
def Spec.renumbered (c : CalRunIn K R) (π : Equiv.Perm ℕ) : CalRunIn K R :=
  { c with
    tileA := fun s => π (c.tileA s)
    tileB := fun s => π (c.tileB s)
    tileUse := fun t => c.tileUse (π.symm t)
    gain := fun p f t => c.gain p f (π.symm t) }

variable (c : CalRunIn K R)

theorem mem_tiles_renumbered (π : Equiv.Perm ℕ) (hπ : ∀ t, π t < c.nTile ↔ t < c.nTile) (p t : ℕ) :
    π t ∈ (Spec.renumbered c π).tiles p ↔ t ∈ c.tiles p := by
  rw [mem_tiles, mem_tiles]
  change (π t < c.nTile ∧ (∃ b ∈ c.bls p, π (c.tileA b) = π t ∨ π (c.tileB b) = π t) ∧ c.tileUse (π.symm (π t)) = true) ↔ _
  simp only [π.apply_eq_iff_eq, Equiv.symm_apply_apply, hπ]

theorem tilePos_lt (l : List ℕ) (a : ℕ) (h : a ∈ l) : tilePos l a < l.length := by
  unfold tilePos
  rw [if_pos h]
  exact List.idxOf_lt_length_iff.2 h

theorem tilePos_getD (l : List ℕ) (hn : l.Nodup) (i : ℕ) (h : i < l.length) : tilePos l (l.getD i 0) = i := by
  have e : l.getD i 0 = l[i] := by simp [List.getD, List.getElem?_eq_getElem h]
  rw [e]
  unfold tilePos
  rw [if_pos (List.getElem_mem h)]
  exact List.Nodup.idxOf_getElem hn i h

theorem tiles_renumbered (π : Equiv.Perm ℕ) (hπ : ∀ t, π t < c.nTile ↔ t < c.nTile) (p : ℕ) :
    ((Spec.renumbered c π).tiles p).Perm ((c.tiles p).map π) := by
  rw [List.perm_ext_iff_of_nodup (tiles_nodup _ p) ((tiles_nodup c p).map π.injective)]
  intro t
  have := mem_tiles_renumbered c π hπ p (π.symm t)
  rw [Equiv.apply_symm_apply] at this
  rw [this, List.mem_map]
  constructor
  · intro h
    exact ⟨_, h, Equiv.apply_symm_apply _ _⟩
  · rintro ⟨u, hu, rfl⟩
    rwa [Equiv.symm_apply_apply]

theorem solveIn_renumbered (π : Equiv.Perm ℕ) (hπ : ∀ t, π t < c.nTile ↔ t < c.nTile) (p f : ℕ) (hflag : Spec.FlagsAgree c p) :
    (Spec.renumbered c π).solveIn p f =
      (c.solveIn p f).renum (fun i => tilePos ((Spec.renumbered c π).tiles p) (π ((c.tiles p).getD i 0)))
        ((Spec.renumbered c π).refPos p) := by
  have hlen : ((Spec.renumbered c π).tiles p).length = (c.tiles p).length := by
    rw [(tiles_renumbered c π hπ p).length_eq, List.length_map]
  have heqs : doubleEqs ((Spec.renumbered c π).blData p f) =
      (doubleEqs (c.blData p f)).map
        (renumEq fun i => tilePos ((Spec.renumbered c π).tiles p) (π ((c.tiles p).getD i 0))) := by
    rw [blData_eq, blData_eq]
    change doubleEqs ((c.bls p).map fun b => ⟨tilePos ((Spec.renumbered c π).tiles p) (π (c.tileA b)),
      tilePos ((Spec.renumbered c π).tiles p) (π (c.tileB b)), c.average p c.vis f b, c.average p c.model f b, c.blWeight p f b⟩) = _
    unfold doubleEqs
    simp only [List.filter_map, List.map_append, List.map_map]
    have hin : ∀ b ∈ (c.bls p).filter ((fun x : CalBaseline K R => decide (0 < x.weight)) ∘ fun b =>
        ⟨tilePos (c.tiles p) (c.tileA b), tilePos (c.tiles p) (c.tileB b), c.average p c.vis f b, c.average p c.model f b,
          c.blWeight p f b⟩), c.tileA b ∈ c.tiles p ∧ c.tileB b ∈ c.tiles p := fun b hb =>
      flags_tiles hflag b (List.mem_filter.1 hb).1
    congr 1
    · apply List.map_congr_left
      intro b hb
      obtain ⟨ha, hb'⟩ := hin b hb
      simp only [Function.comp, renumEq, getD_tilePos _ _ ha, getD_tilePos _ _ hb']
    · apply List.map_congr_left
      intro b hb
      obtain ⟨ha, hb'⟩ := hin b hb
      simp only [Function.comp, renumEq, getD_tilePos _ _ ha, getD_tilePos _ _ hb']
  unfold SolveIn.renum
  conv_lhs => unfold CalRunIn.solveIn
  rw [heqs, hlen]
  rfl

/-- **C238.** Calling tile `t` by the number `π t` (in baselines, flags and starting gains) gives the gain, convergence and number of
iterations of tile `t` to tile `π t`, provided that the tile the phases refer to stays the same. -/
theorem C238_numbers (π : Equiv.Perm ℕ) (hπ : ∀ t, π t < c.nTile ↔ t < c.nTile) (p : ℕ) (hflag : Spec.FlagsAgree c p)
    (href : c.noRef = false → Spec.refTile ((Spec.renumbered c π).tiles p) = π (Spec.refTile (c.tiles p)))
    (r : CalRunPol K R) (h : calRunPol c p = .ok (some r)) :
    ∃ r', calRunPol (Spec.renumbered c π) p = .ok (some r') ∧ r'.nConverged = r.nConverged ∧
      ∀ f t, r'.gain f (π t) = r.gain f t ∧ r'.convergence f (π t) = r.convergence f t ∧ r'.iter f (π t) = r.iter f t := by
  obtain ⟨ht, O, hr, hO⟩ := calRunPol_ok c p r h
  have hf : c.freqs p ≠ [] ∨ p ≠ 0 := by
    by_contra hcon
    push Not at hcon
    unfold calRunPol at h
    rw [if_neg (by simpa using ht), if_pos (by rw [List.isEmpty_iff.2 hcon.1, hcon.2]; rfl)] at h
    cases h
  have hperm := tiles_renumbered c π hπ p
  have hlen : ((Spec.renumbered c π).tiles p).length = (c.tiles p).length := by rw [hperm.length_eq, List.length_map]
  have ht' : (Spec.renumbered c π).tiles p ≠ [] := fun e => ht (List.length_eq_zero_iff.1 (by rw [← hlen, e]; rfl))
  have hmem : ∀ i < (c.tiles p).length, (c.tiles p).getD i 0 ∈ c.tiles p := by
    intro i hi
    simp [List.getD, List.getElem?_eq_getElem hi]
  have h1 : ∀ i < (c.tiles p).length, tilePos ((Spec.renumbered c π).tiles p) (π ((c.tiles p).getD i 0)) < (c.tiles p).length := by
    intro i hi
    rw [← hlen]
    exact tilePos_lt _ _ ((mem_tiles_renumbered c π hπ p _).2 (hmem i hi))
  have h2 : ∀ i < (c.tiles p).length, ∀ j < (c.tiles p).length, tilePos ((Spec.renumbered c π).tiles p) (π ((c.tiles p).getD i 0)) =
      tilePos ((Spec.renumbered c π).tiles p) (π ((c.tiles p).getD j 0)) → i = j := by
    intro i hi j hj e
    have e1 := congrArg (fun k => ((Spec.renumbered c π).tiles p).getD k 0) e
    simp only [getD_tilePos _ _ ((mem_tiles_renumbered c π hπ p _).2 (hmem i hi)),
      getD_tilePos _ _ ((mem_tiles_renumbered c π hπ p _).2 (hmem j hj)), π.apply_eq_iff_eq] at e1
    rw [← tilePos_getD _ (tiles_nodup c p) i hi, e1, tilePos_getD _ (tiles_nodup c p) j hj]
  have heq : ∀ f, ∀ e ∈ (c.solveIn p f).eqs, e.a < (c.tiles p).length ∧ e.b < (c.tiles p).length := by
    intro f e he
    change e ∈ doubleEqs (c.blData p f) at he
    rw [blData_eq] at he
    unfold doubleEqs at he
    have hin : ∀ b ∈ c.bls p, tilePos (c.tiles p) (c.tileA b) < (c.tiles p).length ∧
        tilePos (c.tiles p) (c.tileB b) < (c.tiles p).length := fun b hb =>
      ⟨tilePos_lt _ _ (flags_tiles hflag b hb).1, tilePos_lt _ _ (flags_tiles hflag b hb).2⟩
    simp only [List.mem_append, List.mem_map, List.mem_filter] at he
    rcases he with ⟨x, ⟨⟨b, hb, rfl⟩, -⟩, rfl⟩ | ⟨x, ⟨⟨b, hb, rfl⟩, -⟩, rfl⟩
    · exact hin b hb
    · exact (hin b hb).symm
  have hsol : ∀ f, f ∈ c.freqs p → ∃ o', solve ((Spec.renumbered c π).solveIn p f)
      (((Spec.renumbered c π).tiles p).map ((Spec.renumbered c π).gain p f)) = .ok (some o') ∧
      OutRenum (c.tiles p).length (fun i => tilePos ((Spec.renumbered c π).tiles p) (π ((c.tiles p).getD i 0))) (O f) o' := by
    intro f hf
    rw [solveIn_renumbered c π hπ p f hflag]
    refine solve_renum (c.solveIn p f) h1 h2 (heq f) ?_ ((c.tiles p).map (c.gain p f)) _ ?_ (O f) (hO f hf)
    · intro hno
      obtain ⟨r1, r2⟩ := refPos_eq c p ht
      refine ⟨?_, ?_⟩
      · change c.refPos p < (c.tiles p).length
        rw [r1]
        exact tilePos_lt _ _ r2
      · change _ = tilePos _ (π ((c.tiles p).getD (c.refPos p) 0))
        rw [(refPos_eq (Spec.renumbered c π) p ht').1, href hno, r1, getD_tilePos _ _ r2]
    · refine ⟨by simp; rfl, by rw [List.length_map, hlen]; rfl, fun i hi => ?_⟩
      have hi' : i < (c.tiles p).length := hi
      have hm := (mem_tiles_renumbered c π hπ p _).2 (hmem i hi')
      have hlt := tilePos_lt _ _ hm
      have hg := getD_tilePos _ _ hm
      rw [List.getElem?_map, List.getElem?_map]
      simp only [List.getD] at hg hlt ⊢
      rw [List.getElem?_eq_getElem hi'] at hg hlt ⊢
      simp only [Option.getD_some] at hg hlt ⊢
      rw [List.getElem?_eq_getElem hlt] at hg ⊢
      simp only [Option.getD_some, Option.map_some] at hg ⊢
      rw [hg]
      change some (c.gain p f (π.symm (π _))) = _
      rw [Equiv.symm_apply_apply]
  have : Nonempty (SolveOut K R) := ⟨⟨[], 0, .zero, [], [], []⟩⟩
  choose! O' hO' hR using hsol
  refine ⟨_, calRunPol_of (Spec.renumbered c π) p O' ht' hf hO', ?_, ?_⟩
  · rw [hr]
    unfold runPolOf
    change (((c.freqs p).map O').filter fun r => r.stop.isConverged).length = (((c.freqs p).map O).filter fun r => r.stop.isConverged).length
    rw [List.filter_map, List.filter_map, List.length_map, List.length_map]
    congr 1
    apply List.filter_congr
    intro f hf
    simp only [Function.comp, (hR f hf).2.2.2.1]
  · intro f t
    rw [hr]
    have hnan : (Spec.renumbered c π).nanTile p (π t) = c.nanTile p t := by
      rw [Bool.eq_iff_iff, nanTile_iff, nanTile_iff]
      change ((∀ b ∈ c.bls p, π (c.tileA b) ≠ π t ∧ π (c.tileB b) ≠ π t) ∧ c.tileUse (π.symm (π t)) = false) ↔ _
      simp only [ne_eq, π.apply_eq_iff_eq, Equiv.symm_apply_apply]
    have hpos : t ∈ c.tiles p → (c.tiles p).idxOf t < (c.tiles p).length ∧
        tilePos ((Spec.renumbered c π).tiles p) (π ((c.tiles p).getD ((c.tiles p).idxOf t) 0)) =
          ((Spec.renumbered c π).tiles p).idxOf (π t) := by
      intro hm
      have hlt := List.idxOf_lt_length_iff.2 hm
      refine ⟨hlt, ?_⟩
      have e : (c.tiles p).getD ((c.tiles p).idxOf t) 0 = t := by simp [List.getD, List.getElem?_eq_getElem hlt]
      rw [e]
      unfold tilePos
      rw [if_pos ((mem_tiles_renumbered c π hπ p t).2 hm)]
    refine ⟨?_, ?_, ?_⟩
    · change (if π t < c.nTile ∧ (Spec.renumbered c π).nanTile p (π t) = true then none
        else if π t ∈ (Spec.renumbered c π).tiles p ∧ f ∈ c.freqs p then (O' f).gain[((Spec.renumbered c π).tiles p).idxOf (π t)]?
        else some (c.gain p f (π.symm (π t)))) =
        if t < c.nTile ∧ c.nanTile p t = true then none
        else if t ∈ c.tiles p ∧ f ∈ c.freqs p then (O f).gain[(c.tiles p).idxOf t]? else some (c.gain p f t)
      rw [hnan, Equiv.symm_apply_apply]
      simp only [hπ, mem_tiles_renumbered c π hπ]
      split_ifs with a b
      · rfl
      · obtain ⟨k1, k2⟩ := hpos b.1
        rw [← (hR f b.2).1.2.2 _ k1, ← k2]
      · rfl
    · change (if π t ∈ (Spec.renumbered c π).tiles p ∧ f ∈ c.freqs p then
          (O' f).convergence.getD (((Spec.renumbered c π).tiles p).idxOf (π t)) 0 else 0) =
        if t ∈ c.tiles p ∧ f ∈ c.freqs p then (O f).convergence.getD ((c.tiles p).idxOf t) 0 else 0
      simp only [mem_tiles_renumbered c π hπ]
      split_ifs with b
      · obtain ⟨k1, k2⟩ := hpos b.1
        rw [← (hR f b.2).2.1.getD 0 _ k1, ← k2]
      · rfl
    · change (if π t ∈ (Spec.renumbered c π).tiles p ∧ f ∈ c.freqs p then (O' f).iter else 0) =
        if t ∈ c.tiles p ∧ f ∈ c.freqs p then (O f).iter else 0
      simp only [mem_tiles_renumbered c π hπ]
      split_ifs with b
      · exact (hR f b.2).2.2.1
      · rfl

/-! ## C239: channels on their own -/

/-- **C239.** What is found at a channel depends on the visibilities and starting gains of this channel and polarisation only: those of
other channels can be anything. -/
theorem C239_channels (p f : ℕ) (v m g : ℕ → ℕ → ℕ → K) (hv : v p f = c.vis p f) (hm : m p f = c.model p f)
    (hg : g p f = c.gain p f) (r r' : CalRunPol K R) (h : calRunPol c p = .ok (some r))
    (h' : calRunPol { c with vis := v, model := m, gain := g } p = .ok (some r')) :
    r'.gain f = r.gain f ∧ r'.convergence f = r.convergence f ∧ r'.iter f = r.iter f := by
  obtain ⟨ht, O, hr, hO⟩ := calRunPol_ok c p r h
  obtain ⟨ht', O', hr', hO'⟩ := calRunPol_ok _ p r' h'
  have hOO : f ∈ c.freqs p → O' f = O f := by
    intro hf
    have a := hO f hf
    have b := hO' f hf
    have e : solve (({ c with vis := v, model := m, gain := g } : CalRunIn K R).solveIn p f)
        ((({ c with vis := v, model := m, gain := g } : CalRunIn K R).tiles p).map
          (({ c with vis := v, model := m, gain := g } : CalRunIn K R).gain p f)) =
        solve (c.solveIn p f) ((c.tiles p).map (c.gain p f)) := by
      have e1 : (({ c with vis := v, model := m, gain := g } : CalRunIn K R).tiles p).map
          (({ c with vis := v, model := m, gain := g } : CalRunIn K R).gain p f) = (c.tiles p).map (c.gain p f) := by
        change (c.tiles p).map (g p f) = _
        rw [hg]
      rw [e1]
      congr 1
      have e2 : ({ c with vis := v, model := m, gain := g } : CalRunIn K R).blData p f = c.blData p f := by
        rw [blData_eq, blData_eq]
        change (c.bls p).map (fun b => (⟨tilePos (c.tiles p) (c.tileA b), tilePos (c.tiles p) (c.tileB b),
          ((c.samplesOf b).map fun s => v p f s * c.cast (c.clip p f s)).sum * c.cast (invR (c.blWeight p f b)),
          ((c.samplesOf b).map fun s => m p f s * c.cast (c.clip p f s)).sum * c.cast (invR (c.blWeight p f b)),
          c.blWeight p f b⟩ : CalBaseline K R)) = _
        rw [hv, hm]
        rfl
      unfold CalRunIn.solveIn
      rw [e2]
      rfl
    rw [e, a] at b
    injection b with b
    injection b with b
    exact b.symm
  rw [hr, hr']
  unfold runPolOf
  refine ⟨funext fun t => ?_, funext fun t => ?_, funext fun t => ?_⟩
  · change (if t < c.nTile ∧ c.nanTile p t = true then none
      else if t ∈ c.tiles p ∧ f ∈ c.freqs p then (O' f).gain[(c.tiles p).idxOf t]? else some (g p f t)) = _
    simp only []
    split_ifs with a b
    · rfl
    · rw [hOO b.2]
    · rw [hg]
  · change (if t ∈ c.tiles p ∧ f ∈ c.freqs p then (O' f).convergence.getD ((c.tiles p).idxOf t) 0 else 0) = _
    simp only []
    split_ifs with b
    · rw [hOO b.2]
    · rfl
  · change (if t ∈ c.tiles p ∧ f ∈ c.freqs p then (O' f).iter else 0) = _
    simp only []
    split_ifs with b
    · rw [hOO b.2]
    · rfl

/-! ## Cases -/

/-- C238: tiles 0 and 2 exchange their numbers. -/
example : (∀ t, Equiv.swap 0 2 t < (exRun 1).nTile ↔ t < (exRun 1).nTile) ∧ Spec.FlagsAgree (exRun 1) 0 ∧
    Spec.refTile ((Spec.renumbered (exRun 1) (Equiv.swap 0 2)).tiles 0) = Equiv.swap 0 2 (Spec.refTile ((exRun 1).tiles 0)) ∧
    (Spec.renumbered (exRun 1) (Equiv.swap 0 2)).tileA 0 ≠ (exRun 1).tileA 0 ∧
    (exRunShow (exRun 1)).map (fun x => x.1.getD 0 []) = some [some (-271821872 / 135131721), some (2283606736934 / 2290858952957),
      some (-2486511277 / 4864529576), none] ∧
    (exRunShow (Spec.renumbered (exRun 1) (Equiv.swap 0 2))).map (fun x => x.1.getD 0 []) =
      some [some (-2486511277 / 4864529576), some (2283606736934 / 2290858952957), some (-271821872 / 135131721), none] := by
  refine ⟨?_, by unfold Spec.FlagsAgree; decide +kernel, by decide +kernel, by decide +kernel, by decide +kernel, by decide +kernel⟩
  intro t
  change _ < 4 ↔ t < 4
  rw [Equiv.swap_apply_def]
  split_ifs <;> omega

/-- Two channels in use. -/
def exChannels (x : ℚ) : CalRunIn ℚ ℚ :=
  { exRun 1 with freqUse := fun _ => true, vis := fun p f s => if f = 1 then x * (exRun 1).vis p f s else (exRun 1).vis p f s }

/-- C239: other data in the second channel change the second channel only. -/
example : (exChannels 3).vis 0 0 = (exChannels 1).vis 0 0 ∧
    (exRunShow (exChannels 1)).map (fun x => x.1.getD 0 []) = (exRunShow (exChannels 3)).map (fun x => x.1.getD 0 []) ∧
    (exRunShow (exChannels 1)).map (fun x => x.1.getD 1 []) ≠ (exRunShow (exChannels 3)).map (fun x => x.1.getD 1 []) ∧
    (exRunShow (exChannels 1)).map (fun x => (x.1.getD 0 []).getD 0 none) = some (some (-271821872 / 135131721)) := by
  refine ⟨rfl, by decide +kernel, by decide +kernel, by decide +kernel⟩

end PyFHD
