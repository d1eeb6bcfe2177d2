import Verif.Lemmas.Gridding
import Verif.Props.Arrays
import Mathlib.Algebra.BigOperators.Ring.List

/-! # Lemmas about combining visibilities that share a kernel -/

namespace PyFHD

open Spec

/-- `E` splits `[s, n)` into blocks `[s, e]` such that `P` holds at the end of each block and
nowhere else. -/
def Cover (P : ℕ → Prop) (n : ℕ) : ℕ → List ℕ → Prop
  | s, [] => s = n
  | s, e :: es => s ≤ e ∧ e < n ∧ (∀ k, s ≤ k → k < e → ¬ P k) ∧ Cover P n (e + 1) es

theorem cover_filter (P : ℕ → Prop) [DecidablePred P] (n : ℕ) (hP : 0 < n → P (n - 1)) :
    ∀ m s, s + m = n → Cover P n s ((List.range' s m).filter fun i => decide (P i)) := by
  intro m
  induction m with
  | zero => intro s h; simpa [Cover] using h
  | succ m ih =>
    intro s h
    have hrec := ih (s + 1) (by omega)
    rw [List.range'_succ]
    by_cases hs : P s
    · rw [List.filter_cons_of_pos (by simpa using hs)]
      exact ⟨le_refl _, by omega, fun k h1 h2 => by omega, hrec⟩
    · rw [List.filter_cons_of_neg (by simpa using hs)]
      cases hE : (List.range' (s + 1) m).filter fun i => decide (P i) with
      | nil =>
        rw [hE] at hrec
        exfalso
        apply hs
        have : s + 1 = n := hrec
        have h' := hP (by omega)
        have : n - 1 = s := by omega
        rwa [this] at h'
      | cons e es =>
        rw [hE] at hrec
        obtain ⟨h1, h2, h3, h4⟩ := hrec
        refine ⟨by omega, h2, fun k k1 k2 => ?_, h4⟩
        rcases Nat.eq_or_lt_of_le k1 with rfl | hlt
        · exact hs
        · exact h3 k hlt k2

/-- Place `i` ends a run of `l`. -/
def RunEnd (l : List ℤ) (i : ℕ) : Prop := i + 1 = l.length ∨ l[i + 1]? ≠ l[i]?

instance (l : List ℤ) : DecidablePred (RunEnd l) := fun i => by unfold RunEnd; infer_instance

theorem cover_runEnds (l : List ℤ) : Cover (RunEnd l) l.length 0 (runEnds l) := by
  have := cover_filter (RunEnd l) l.length (fun h => Or.inl (by omega)) l.length 0 (by omega)
  rw [← List.range_eq_range'] at this
  exact this

theorem block_const {l : List ℤ} {s e : ℕ} (he : e < l.length)
    (h : ∀ k, s ≤ k → k < e → ¬ RunEnd l k) : ∀ k, s ≤ k → k ≤ e → l[k]? = l[e]? := by
  intro k h1 h2
  obtain ⟨d, rfl⟩ : ∃ d, e = k + d := ⟨e - k, by omega⟩
  clear h2
  induction d generalizing k with
  | zero => rfl
  | succ d ih =>
    have hk := h k h1 (by omega)
    unfold RunEnd at hk
    push Not at hk
    have := ih (k + 1) (by omega) (by have : k + 1 + d = k + (d + 1) := by omega
                                      rw [this]; exact he)
      (by intro j j1 j2; exact h j j1 (by omega))
    rw [← hk.2, this]
    congr 1
    omega

/-- The pairs `(ui[r], ui0[r])`. -/
def blocks : ℕ → List ℕ → List (ℕ × ℕ)
  | _, [] => []
  | s, e :: es => (e, s) :: blocks (e + 1) es

theorem zip_blocks (E : List ℕ) (s : ℕ) :
    E.zip (s :: E.dropLast.map (· + 1)) = blocks s E := by
  induction E generalizing s with
  | nil => rfl
  | cons e es ih =>
    cases es with
    | nil => rfl
    | cons e' es' =>
      have := ih (e + 1)
      simp only [List.dropLast_cons_cons, List.map_cons, List.zip_cons_cons, blocks] at this ⊢
      rw [this]

theorem slice_append_drop {α : Type _} (l : List α) {s e : ℕ} (h1 : s ≤ e) :
    slice l s e ++ l.drop e = l.drop s := by
  unfold slice
  rw [List.drop_take]
  have : l.drop e = (l.drop s).drop (e - s) := by rw [List.drop_drop]; congr 1; omega
  rw [this, List.take_append_drop]

theorem slice_succ {α : Type _} {l : List α} {e : ℕ} {x : α} (h : l[e]? = some x) :
    slice l e (e + 1) = [x] := by
  unfold slice
  rw [List.drop_take]
  obtain ⟨h1, h2⟩ := List.getElem?_eq_some_iff.1 h
  rw [List.drop_eq_getElem_cons h1, h2]
  simp

theorem mem_slice {α : Type _} {l : List α} {s e : ℕ} {x : α} (h : x ∈ slice l s e) :
    ∃ k, s ≤ k ∧ k < e ∧ l[k]? = some x := by
  unfold slice at h
  obtain ⟨i, hi⟩ := List.mem_iff_getElem?.1 h
  rw [List.getElem?_drop] at hi
  obtain ⟨h1, h2⟩ := List.getElem?_eq_some_iff.1 hi
  rw [List.length_take] at h1
  refine ⟨s + i, by omega, by omega, ?_⟩
  rw [← hi, List.getElem?_take_of_lt (by omega)]

theorem sum_runBlocks {α M : Type _} [AddCommMonoid M] (l : List α) (f : α → M) (P : ℕ → Prop)
    (E : List ℕ) (s : ℕ) (h : Cover P l.length s E) :
    ((blocks s E).map fun b => ((slice l b.2 (b.1 + 1)).map f).sum).sum
      = ((l.drop s).map f).sum := by
  induction E generalizing s with
  | nil =>
    have : s = l.length := h
    subst this
    simp [blocks]
  | cons e es ih =>
    obtain ⟨h1, h2, _, h4⟩ := h
    simp only [blocks, List.map_cons, List.sum_cons]
    rw [ih _ h4, ← List.sum_append, ← List.map_append, slice_append_drop l (by omega)]

variable {K : Type _} [Field K] [StarRing K]

set_option linter.unusedSectionVars false

/-- The row made of one block. -/
def blockRow (kern : ℕ → ℕ → ℕ → ℕ → K) (σ : List (VisItem K)) (single : Prop) [Decidable single]
    (b : ℕ × ℕ) : Option (GridRow K) :=
  match σ[b.1]? with
  | none => none
  | some last =>
    let weight := b.1 - b.2 + 1
    let vis := if single ∨ weight > 1
      then ((slice σ b.2 (b.1 + 1)).map fun it => it.vis).sum else last.vis
    some ⟨kern last.fbin last.y last.x, vis, (weight : K)⟩

theorem rowsOfRuns_eq (kern : ℕ → ℕ → ℕ → ℕ → K) (σ : List (VisItem K)) (ui : List ℕ) :
    rowsOfRuns kern σ ui = (blocks 0 ui).filterMap
      (blockRow kern σ ((0 :: ui.dropLast.map (· + 1)).length = 1)) := by
  unfold rowsOfRuns
  simp only []
  rw [zip_blocks]
  rfl

/-- A sum over the rows of runs is the sum over the visibilities: `F` reads the kernel, `a` is what
a visibility contributes and `A` what a row reports for it. -/
theorem rowsOfRuns_sum (kern : ℕ → ℕ → ℕ → ℕ → K) (σ : List (VisItem K)) (ids : List ℤ)
    (hlen : ids.length = σ.length)
    (hk : ∀ (i j : ℕ) a b, σ[i]? = some a → σ[j]? = some b → ids[i]? = ids[j]? →
      kern a.fbin a.y a.x = kern b.fbin b.y b.x)
    (F : (ℕ → K) → K) :
    ((rowsOfRuns kern σ (runEnds ids)).map fun r => F r.kern * r.vis).sum
        = (σ.map fun it => F (kern it.fbin it.y it.x) * it.vis).sum ∧
    ((rowsOfRuns kern σ (runEnds ids)).map fun r => F r.kern * r.weight).sum
        = (σ.map fun it => F (kern it.fbin it.y it.x)).sum := by
  rw [rowsOfRuns_eq]
  have hcov := cover_runEnds ids
  rw [hlen] at hcov
  have key : ∀ (single : Prop) (inst : Decidable single) (E : List ℕ) (s : ℕ), Cover (RunEnd ids) σ.length s E →
      (((blocks s E).filterMap (blockRow kern σ single)).map fun r => F r.kern * r.vis).sum
        = ((blocks s E).map fun b => ((slice σ b.2 (b.1 + 1)).map
          fun it => F (kern it.fbin it.y it.x) * it.vis).sum).sum ∧
      (((blocks s E).filterMap (blockRow kern σ single)).map fun r => F r.kern * r.weight).sum
        = ((blocks s E).map fun b => ((slice σ b.2 (b.1 + 1)).map
          fun it => F (kern it.fbin it.y it.x)).sum).sum := by
    intro single inst E
    induction E with
    | nil => intro s _; simp [blocks]
    | cons e es ih =>
      rintro s ⟨h1, h2, h3, h4⟩
      obtain ⟨ih1, ih2⟩ := ih _ h4
      obtain ⟨last, hlast⟩ : ∃ x, σ[e]? = some x := ⟨_, List.getElem?_eq_getElem h2⟩
      have hrow : blockRow kern σ single (e, s) = some ⟨kern last.fbin last.y last.x,
          ((slice σ s (e + 1)).map fun it => it.vis).sum, ((e - s + 1 : ℕ) : K)⟩ := by
        unfold blockRow
        simp only [hlast]
        split_ifs with hc
        · rfl
        · push Not at hc
          have : s = e := by omega
          subst this
          rw [slice_succ hlast]
          simp
      have hconst : ∀ it ∈ slice σ s (e + 1),
          kern it.fbin it.y it.x = kern last.fbin last.y last.x := by
        intro it hit
        obtain ⟨k, k1, k2, k3⟩ := mem_slice hit
        exact hk k e it last k3 hlast (block_const (by rw [hlen]; exact h2) h3 k k1 (by omega))
      simp only [blocks, List.map_cons, List.sum_cons]
      rw [List.filterMap_cons_some hrow]
      simp only [List.map_cons, List.sum_cons, ih1, ih2]
      constructor
      · congr 1
        rw [← List.sum_map_mul_left]
        congr 1
        refine List.map_congr_left fun it hit => ?_
        rw [hconst it hit]
      · congr 1
        have : (slice σ s (e + 1)).map (fun it => F (kern it.fbin it.y it.x))
            = (slice σ s (e + 1)).map (fun _ => F (kern last.fbin last.y last.x)) :=
          List.map_congr_left fun it hit => by rw [hconst it hit]
        rw [this]
        simp only [List.map_const', List.sum_replicate, nsmul_eq_mul]
        have hl : (slice σ s (e + 1)).length = e - s + 1 := by
          unfold slice
          rw [List.length_drop, List.length_take]
          omega
        rw [hl, mul_comm]
  obtain ⟨k1, k2⟩ := key ((0 :: (runEnds ids).dropLast.map (· + 1)).length = 1) inferInstance
    _ _ hcov
  rw [k1, k2, sum_runBlocks _ _ _ _ _ hcov, sum_runBlocks _ _ _ _ _ hcov]
  simp

/-! ## The sort -/

theorem getD_map_range {α : Type _} (l : List α) (d : α) :
    (List.range l.length).map (fun i => l.getD i d) = l := by
  apply List.ext_getElem?
  intro i
  rw [List.getElem?_map]
  by_cases h : i < l.length
  · rw [List.getElem?_range h]
    simp [List.getD, h]
  · rw [List.getElem?_eq_none (by simpa using h), List.getElem?_eq_none (by simpa using h)]
    rfl

theorem argsort_map (ids : List ℤ) :
    (argsortStable ids).map (fun i => ids.getD i 0) = ids.insertionSort (· ≤ ·) := by
  unfold argsortStable
  rw [List.map_insertionSort (s := (· ≤ ·)) (hl := fun _ _ _ _ => Iff.rfl), getD_map_range]

theorem argsort_perm (ids : List ℤ) : (argsortStable ids).Perm (List.range ids.length) :=
  List.perm_insertionSort _ _

theorem filterMap_range {α : Type _} (l : List α) :
    (List.range l.length).filterMap (fun i => l[i]?) = l := by
  induction l using List.reverseRecOn with
  | nil => rfl
  | append_singleton l a ih =>
    rw [List.length_append, List.length_singleton, List.range_succ, List.filterMap_append]
    have h1 : (List.range l.length).filterMap (fun i => (l ++ [a])[i]?)
        = (List.range l.length).filterMap (fun i => l[i]?) := by
      refine List.filterMap_congr fun i hi => ?_
      rw [List.getElem?_append_left (by simpa using hi)]
    rw [h1, ih]
    simp

/-- The visibilities in the order of the sort. -/
theorem sorted_spec {α : Type _} (items : List α) (f : α → ℤ) :
    let σ := (argsortStable (items.map f)).filterMap fun i => items[i]?
    σ.Perm items ∧ σ.map f = (items.map f).insertionSort (· ≤ ·) := by
  intro σ
  have hp := argsort_perm (items.map f)
  rw [List.length_map] at hp
  constructor
  · have := hp.filterMap fun i => items[i]?
    rwa [filterMap_range] at this
  · rw [← argsort_map]
    have hin : ∀ i ∈ argsortStable (items.map f), i < items.length := by
      intro i hi
      simpa using hp.mem_iff.1 hi
    have gen : ∀ L : List ℕ, (∀ i ∈ L, i < items.length) →
        (L.filterMap fun i => items[i]?).map f = L.map fun i => (items.map f).getD i 0 := by
      intro L
      induction L with
      | nil => intro _; rfl
      | cons a t ih =>
        intro h
        have ha := h a (by simp)
        rw [List.filterMap_cons_some (List.getElem?_eq_getElem ha)]
        simp only [List.map_cons]
        rw [ih fun i hi => h i (List.mem_cons_of_mem _ hi)]
        simp [List.getD, ha]
    exact gen _ hin

/-! ## The identifiers -/

theorem le_groupMax (items : List (VisItem K)) (it : VisItem K) (h : it ∈ items) :
    it.gid < groupMax items := by
  unfold groupMax
  have gen : ∀ (l : List ℕ) (a : ℕ), a ≤ l.foldl max a ∧ ∀ x ∈ l, x ≤ l.foldl max a := by
    intro l
    induction l with
    | nil => intro a; simp
    | cons b t ih =>
      intro a
      obtain ⟨h1, h2⟩ := ih (max a b)
      simp only [List.foldl_cons, List.mem_cons]
      refine ⟨le_trans (le_max_left _ _) h1, ?_⟩
      rintro x (rfl | hx)
      · exact le_trans (le_max_right _ _) h1
      · exact h2 x hx
  have := (gen (items.map fun it => it.gid) 0).2 it.gid (List.mem_map.2 ⟨it, h, rfl⟩)
  omega

theorem xyfIndex_inj {res gmax : ℕ} {a b : VisItem K} (ax : a.x < res) (ay : a.y < res)
    (ag : a.gid < gmax) (bx : b.x < res) (by' : b.y < res) (bg : b.gid < gmax)
    (h : xyfIndex res gmax a = xyfIndex res gmax b) :
    a.x = b.x ∧ a.y = b.y ∧ a.fbin = b.fbin := by
  unfold xyfIndex at h
  have h' : (a.x + a.y * res + a.fbin * res ^ 2) * gmax + a.gid
      = (b.x + b.y * res + b.fbin * res ^ 2) * gmax + b.gid := by exact_mod_cast h
  have dec : ∀ {n q q' r r' : ℕ}, r < n → r' < n → q * n + r = q' * n + r' → q = q' ∧ r = r' := by
    intro n q q' r r' h1 h2 h3
    have e1 : (q * n + r) % n = r := by rw [Nat.add_comm, Nat.add_mul_mod_self_right, Nat.mod_eq_of_lt h1]
    have e2 : (q' * n + r') % n = r' := by rw [Nat.add_comm, Nat.add_mul_mod_self_right, Nat.mod_eq_of_lt h2]
    have hr : r = r' := by rw [← e1, ← e2, h3]
    subst hr
    exact ⟨Nat.eq_of_mul_eq_mul_right (by omega) (by omega : q * n = q' * n), rfl⟩
  obtain ⟨h1, _⟩ := dec ag bg h'
  have h2 : (a.y + a.fbin * res) * res + a.x = (b.y + b.fbin * res) * res + b.x := by
    have e : ∀ u v w : ℕ, (v + w * res) * res + u = u + v * res + w * res ^ 2 := by intros; ring
    rw [e, e]; exact h1
  obtain ⟨h3, h4⟩ := dec ax bx h2
  obtain ⟨h5, h6⟩ := dec (q := a.fbin) (q' := b.fbin) ay by' (by omega)
  exact ⟨h4, h6, h5⟩

/-- The combined rows give the same sums as the rows of the single visibilities. -/
theorem rowsDedup_sum (kern : ℕ → ℕ → ℕ → ℕ → K) (res : ℕ) (items : List (VisItem K))
    (hb : ∀ it ∈ items, it.x < res ∧ it.y < res) (F : (ℕ → K) → K) :
    ((rowsDedup kern res items).map fun r => F r.kern * r.vis).sum
        = ((rowsDirect kern items).map fun r => F r.kern * r.vis).sum ∧
    ((rowsDedup kern res items).map fun r => F r.kern * r.weight).sum
        = ((rowsDirect kern items).map fun r => F r.kern * r.weight).sum := by
  obtain ⟨hperm, hids⟩ := sorted_spec items (xyfIndex res (groupMax items))
  set σ := (argsortStable (items.map (xyfIndex res (groupMax items)))).filterMap
    fun i => items[i]? with hσ
  have hui : (idlArgunique ((items.map (xyfIndex res (groupMax items))).insertionSort
      (· ≤ ·))).map Int.toNat = runEnds (σ.map (xyfIndex res (groupMax items))) := by
    rw [← hids, C12_idl_argunique _ (by rw [hids]; exact List.pairwise_insertionSort _ _)]
    rw [List.map_map]
    conv_rhs => rw [← List.map_id (runEnds _)]
    refine List.map_congr_left fun i _ => ?_
    simp
  have hrows : rowsDedup kern res items
      = rowsOfRuns kern σ (runEnds (σ.map (xyfIndex res (groupMax items)))) := by
    unfold rowsDedup
    simp only [hui]
    rfl
  obtain ⟨h1, h2⟩ := rowsOfRuns_sum kern σ (σ.map (xyfIndex res (groupMax items))) (by simp) (by
    intro i j a b ha hb' hij
    simp only [List.getElem?_map, ha, hb', Option.map_some, Option.some.injEq] at hij
    have ma := hperm.mem_iff.1 (List.mem_of_getElem? ha)
    have mb := hperm.mem_iff.1 (List.mem_of_getElem? hb')
    obtain ⟨e1, e2, e3⟩ := xyfIndex_inj (hb a ma).1 (hb a ma).2 (le_groupMax _ _ ma)
      (hb b mb).1 (hb b mb).2 (le_groupMax _ _ mb) hij
    rw [e1, e2, e3]) F
  rw [hrows, h1, h2]
  unfold rowsDirect
  simp only [List.map_map, Function.comp_def, mul_one]
  exact ⟨(hperm.map _).sum_eq, (hperm.map _).sum_eq⟩

end PyFHD
