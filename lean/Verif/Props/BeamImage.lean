import Verif.Model.BeamImage
import Verif.Props.Regions
import Verif.Props.CalFlag
import Verif.Props.DataSetup
import Mathlib.Algebra.Order.BigOperators.Group.List

/-!
# Images of the beam (C140 to C147)
-/

set_option linter.unusedSectionVars false

namespace PyFHD

open Spec

/-! ## Histograms of natural numbers from zero -/

theorem nat_hist0 (l : List ℕ) (hne : l ≠ []) :
    ∃ h, histogram (labQ l) 1 none (some 0) none = .ok h ∧ (∀ v, h.hist.getD v 0 = l.count v) ∧
      ∀ v ∈ l, riSlice h.ri v = some (positions (fun d => d = v) l) := by
  set L : List ℤ := l.map fun (v : ℕ) => (v : ℤ) with hL
  obtain ⟨x, hx⟩ := List.exists_mem_of_ne_nil _ hne
  obtain ⟨r, hi, hr, hi0, hmax, hs⟩ := hist_min0_int L ⟨(x : ℤ), List.mem_map.mpr ⟨x, hx, rfl⟩, by omega⟩
  have hc : ∀ v : ℕ, L.count (0 + (v : ℤ)) = l.count v := by
    intro v
    rw [zero_add, hL]
    exact List.count_map_of_injective _ _ (fun a b h => by simpa using h) _
  refine ⟨r, hr, ?_, ?_⟩
  · intro v
    rw [hs.hist, List.getD_eq_getElem?_getD, List.getElem?_map]
    by_cases hv : v < (hi - 0 + 1).toNat
    · rw [List.getElem?_range hv, Option.map_some, Option.getD_some, hc]
    · rw [List.getElem?_eq_none (by simpa using hv), Option.map_none, Option.getD_none, eq_comm, List.count_eq_zero]
      intro h
      have := hmax (v : ℤ) (List.mem_map.mpr ⟨v, h, rfl⟩)
      omega
  · intro v hv
    have h1 := hmax (v : ℤ) (List.mem_map.mpr ⟨v, hv, rfl⟩)
    rw [hs.slices v (by omega)]
    congr 1
    unfold positions
    rw [hL, List.length_map]
    apply List.filter_congr
    intro p hp
    rw [List.mem_range] at hp
    rw [List.getElem?_map, List.getElem?_eq_getElem hp]
    simp only [Option.map_some, Option.any_some, decide_eq_decide]
    omega

theorem mem_nonzeroIdx0 (l : List ℕ) {h : HistResult} (hc : ∀ v, h.hist.getD v 0 = l.count v) (v : ℕ) :
    v ∈ nonzeroIdx h.hist ↔ v ∈ l := by
  rw [mem_nonzeroIdx, hc, Nat.ne_zero_iff_zero_lt, List.count_pos_iff]

theorem nonzeroIdx_sorted (l : List ℕ) : (nonzeroIdx l).Pairwise (· < ·) := (List.pairwise_lt_range).filter _

theorem sorted_singleton {l : List ℕ} (h : l.Pairwise (· < ·)) (g : ℕ) (hm : ∀ v, v ∈ l ↔ v = g) : l = [g] := by
  match l, h, hm with
  | [], _, hm => exact absurd ((hm g).mpr rfl) (by simp)
  | [a], _, hm => rw [(hm a).mp (by simp)]
  | a :: b :: t, h, hm =>
    have h1 := (hm a).mp (by simp)
    have h2 := (hm b).mp (by simp)
    have := (List.pairwise_cons.mp h).1 b (by simp)
    omega

theorem groupCounts_one {ids : List ℕ} (hne : ids ≠ []) {g : ℕ} (h : ∀ i ∈ ids, i = g) : groupCounts ids = .ok [ids.length] := by
  obtain ⟨r, hr, hc, _⟩ := nat_hist0 ids hne
  have hmem : ∀ v, v ∈ ids ↔ v = g := by
    intro v
    constructor
    · exact h v
    · rintro rfl
      obtain ⟨x, hx⟩ := List.exists_mem_of_ne_nil _ hne
      rwa [h x hx] at hx
  have h1 : nonzeroIdx r.hist = [g] :=
    sorted_singleton (nonzeroIdx_sorted _) g fun v => (mem_nonzeroIdx0 ids hc v).trans (hmem v)
  unfold groupCounts
  rw [hr]
  simp only [h1, List.map_cons, List.map_nil, hc]
  congr 2
  rw [List.count_eq_length]
  intro b hb
  exact (h b hb).symm

theorem groupCounts_many {ids : List ℕ} {a b : ℕ} (ha : a ∈ ids) (hb : b ∈ ids) (hab : a ≠ b) :
    ∃ c, groupCounts ids = .ok c ∧ 2 ≤ c.length := by
  obtain ⟨r, hr, hc, _⟩ := nat_hist0 ids (List.ne_nil_of_mem ha)
  refine ⟨_, by unfold groupCounts; rw [hr], ?_⟩
  rw [List.length_map]
  have h1 := (mem_nonzeroIdx0 ids hc a).mpr ha
  have h2 := (mem_nonzeroIdx0 ids hc b).mpr hb
  match h : nonzeroIdx r.hist, h1, h2 with
  | [x], h1, h2 =>
    rw [List.mem_singleton] at h1 h2
    exact absurd (h1.trans h2.symm) hab
  | x :: y :: t, _, _ => simp

theorem groupMean_one (dim n : ℕ) (hn : n ≠ 0) (prev g : ℕ → ℚ) :
    groupMean dim [n] prev g = .ok fun (p : ℕ) => g p + prev p / n := by
  show (Except.ok (fun (p : ℕ) => (prev p + g p * n) / n) : Py (ℕ → ℚ)) = _
  congr 1
  funext p
  have : (n : ℚ) ≠ 0 := by exact_mod_cast hn
  field_simp
  ring

theorem groupMean_many (dim : ℕ) {c : List ℕ} (hc : 2 ≤ c.length) (prev g : ℕ → ℚ) : ∃ e, groupMean dim c prev g = .error e := by
  match c, hc with
  | a :: b :: t, _ =>
    unfold groupMean
    simp only []
    split_ifs
    · exact ⟨_, rfl⟩
    · exact ⟨_, rfl⟩

theorem foldlM_ok {α β : Type _} (f : β → α → Py β) (g : β → α → β) : ∀ (l : List α) (b : β),
    (∀ a ∈ l, ∀ b, f b a = .ok (g b a)) → l.foldlM f b = .ok (l.foldl g b) := by
  intro l
  induction l with
  | nil => intro b _; rfl
  | cons a l ih =>
    intro b h
    rw [List.foldlM_cons, List.foldl_cons, h a (by simp) b]
    exact ih _ fun a' ha' => h a' (by simp [ha'])

theorem foldlM_error {α β : Type _} (f : β → α → Py β) : ∀ (l : List α) (a : α) (b : β), a ∈ l →
    (∀ b, ∃ e, f b a = .error e) → ∃ e, l.foldlM f b = .error e := by
  intro l
  induction l with
  | nil => intro a b h; cases h
  | cons a' l ih =>
    intro a b h he
    rw [List.foldlM_cons]
    rcases List.mem_cons.mp h with rfl | h
    · obtain ⟨e, he⟩ := he b
      exact ⟨e, by rw [he]; rfl⟩
    · cases hf : f b a' with
      | error e => exact ⟨e, rfl⟩
      | ok b' => exact ih a b' h he

/-! ## C140: the beam of an observation -/

namespace Spec

/-- All baselines have the same beam. -/
def OneGroup (ids : List ℕ) : Prop := ids ≠ [] ∧ ∃ g, ∀ i ∈ ids, i = g

/-- The channels in use. -/
def beamChannels (use : List Bool) : Finset ℕ := (Finset.range use.length).filter fun f => use.getD f false = true

end Spec

theorem channels_mem (m : BeamIn) (f : ℕ) : f ∈ m.channels ↔ f ∈ beamChannels m.freqUse := by
  unfold BeamIn.channels beamChannels
  simp

theorem channels_nodup (m : BeamIn) : m.channels.Nodup := List.nodup_range.filter _

theorem channels_sum {K : Type _} [AddCommMonoid K] (m : BeamIn) (g : ℕ → K) :
    (m.channels.map g).sum = ∑ f ∈ beamChannels m.freqUse, g f := by
  have : beamChannels m.freqUse = m.channels.toFinset := by
    ext f
    rw [List.mem_toFinset, channels_mem]
  rw [this, List.sum_toFinset _ (channels_nodup m)]

/-- The pure part of the loop over the channels. -/
theorem plain_fold (N : ℕ) (hN : N ≠ 0) (m : BeamIn) (G : ℕ → ℕ → ℚ) (c : ℕ → ℚ) : ∀ (l : List ℕ) (s : BeamAcc),
    (∀ b ∈ l, m.fnorm[b]? = some (c b)) → ∃ s', l.foldlM (m.plainStep [N] G) s = .ok s' ∧
      (∀ p, s'.base p = s.base p + (l.map fun b => G b p).sum) ∧ s'.norm = s.norm + (l.map c).sum := by
  intro l
  induction l with
  | nil => intro s _; exact ⟨s, rfl, by simp, by simp⟩
  | cons b l ih =>
    intro s h
    obtain ⟨s', h1, h2, h3⟩ := ih ⟨fun p => G b p + 0 / N, fun p => s.base p + (G b p + 0 / N), s.norm + c b⟩
      fun b' hb' => h b' (by simp [hb'])
    refine ⟨s', ?_, ?_, ?_⟩
    · rw [List.foldlM_cons]
      have : m.plainStep [N] G s b = .ok ⟨fun p => G b p + 0 / N, fun p => s.base p + (G b p + 0 / N), s.norm + c b⟩ := by
        unfold BeamIn.plainStep BeamIn.normOf
        simp only [bind, Except.bind, groupMean_one _ _ hN, h b (by simp), pure, Except.pure]
      rw [this]
      exact h1
    · intro p
      rw [h2 p]
      simp only [List.map_cons, List.sum_cons, zero_div, add_zero]
      ring
    · rw [h3, List.map_cons, List.sum_cons]; ring

/-- Without `square` and without a frequency, the beam is the sum of the beams of the channels in use divided by the sum of their norms, if all
baselines have the same beam. -/
theorem C140_average_partial (m : BeamIn) (pol : ℕ) (G : ℕ → ℕ → ℕ → ℚ) (hG : m.gauss = some G) (hg : OneGroup (m.ids pol))
    (bin : ℕ → ℕ) (norm : ℕ → ℚ) (hbin : ∀ f ∈ beamChannels m.freqUse, m.fbin[f]? = some (bin f))
    (hnorm : ∀ f ∈ beamChannels m.freqUse, m.fnorm[bin f]? = some (norm (bin f)))
    (hne : ∑ f ∈ beamChannels m.freqUse, norm (bin f) ≠ 0) :
    ∃ img, beamImage m pol none false = .ok img ∧ ∀ p, img p =
      some ((∑ f ∈ beamChannels m.freqUse, G pol (bin f) p) / ∑ f ∈ beamChannels m.freqUse, norm (bin f)) := by
  obtain ⟨hids, g, hg⟩ := hg
  have hN : (m.ids pol).length ≠ 0 := by simpa using hids
  have htake : takeFlat m.fbin m.channels = .ok (m.channels.map bin) := by
    unfold takeFlat
    apply mapM_ok
    intro f hf
    rw [hbin f ((channels_mem m f).mp hf)]
  obtain ⟨s, h1, h2, h3⟩ := plain_fold _ hN m (G pol) norm (m.channels.map bin) ⟨fun _ => 0, fun _ => 0, 0⟩ (by
    intro b hb
    obtain ⟨f, hf, rfl⟩ := List.mem_map.mp hb
    exact hnorm f ((channels_mem m f).mp hf))
  refine ⟨s.image, ?_, ?_⟩
  · unfold beamImage
    simp only [bind, Except.bind, groupCounts_one hids hg, Bool.false_eq_true, if_false, htake, hG, h1, pure, Except.pure]
  · intro p
    unfold BeamAcc.image npDiv
    rw [h2 p, h3]
    simp only [zero_add, List.map_map]
    have e1 := channels_sum m (fun f => G pol (bin f) p)
    have e2 := channels_sum m (fun f => norm (bin f))
    simp only [Function.comp_def]
    rw [e1, e2, if_neg hne]

/-! ## C144: groups of baselines -/

/-- **C144 is violated**: as soon as two baselines have different beams no image of the beam is made, for any frequency in use, with `square` or
without. -/
theorem C144_groups_raise (m : BeamIn) (pol : ℕ) {a b : ℕ} (ha : a ∈ m.ids pol) (hb : b ∈ m.ids pol) (hab : a ≠ b)
    (hG : m.gauss ≠ none) (hch : ∃ f, f ∈ beamChannels m.freqUse) (freq : Option ℕ) (square : Bool) :
    ∃ e, beamImage m pol freq square = .error e := by
  obtain ⟨c, hc, h2⟩ := groupCounts_many ha hb hab
  obtain ⟨G, hG⟩ := Option.ne_none_iff_exists'.mp hG
  obtain ⟨f0, hf0⟩ := hch
  rw [← channels_mem] at hf0
  unfold beamImage
  simp only [bind, Except.bind, hc]
  cases square with
  | true =>
    simp only [if_true]
    cases ht : takeFlat m.fbin (match freq with
      | some f => [f]
      | none => m.channels) with
    | error e => exact ⟨e, rfl⟩
    | ok l =>
      simp only [hG]
      have hl : l ≠ [] := by
        rintro rfl
        have hlen : ∀ idx : List ℕ, takeFlat m.fbin idx = .ok [] → idx = [] := by
          intro idx h
          unfold takeFlat at h
          cases idx with
          | nil => rfl
          | cons i t =>
            rw [List.mapM_cons] at h
            simp only [bind, Except.bind] at h
            split at h
            · cases h
            · split at h
              · cases h
              · cases h
        have := hlen _ ht
        cases freq with
        | some f => simp at this
        | none =>
          simp only at this
          rw [this] at hf0
          cases hf0
      obtain ⟨b0, hb0⟩ := List.exists_mem_of_ne_nil _ hl
      obtain ⟨e, he⟩ := foldlM_error (m.squareStep c (G pol) l) (l.dedup.insertionSort (· ≤ ·)) b0
        ⟨fun _ => 0, fun _ => 0, 0⟩ (by rw [List.mem_insertionSort, List.mem_dedup]; exact hb0) (by
          intro s
          obtain ⟨e, he⟩ := groupMean_many m.dimension h2 s.single (G pol b0)
          exact ⟨e, by unfold BeamIn.squareStep; simp only [bind, Except.bind, he]⟩)
      exact ⟨e, by rw [he]⟩
  | false =>
    simp only [Bool.false_eq_true, if_false]
    cases freq with
    | some f => exact ⟨_, rfl⟩
    | none =>
      simp only []
      cases ht : takeFlat m.fbin m.channels with
      | error e => exact ⟨e, rfl⟩
      | ok l =>
        simp only [hG]
        have hl : l ≠ [] := by
          rintro rfl
          unfold takeFlat at ht
          cases hch : m.channels with
          | nil => rw [hch] at hf0; cases hf0
          | cons i t =>
            rw [hch, List.mapM_cons] at ht
            simp only [bind, Except.bind] at ht
            split at ht
            · cases ht
            · split at ht
              · cases ht
              · cases ht
        obtain ⟨b0, hb0⟩ := List.exists_mem_of_ne_nil _ hl
        obtain ⟨e, he⟩ := foldlM_error (m.plainStep c (G pol)) l b0 ⟨fun _ => 0, fun _ => 0, 0⟩ hb0 (by
          intro s
          obtain ⟨e, he⟩ := groupMean_many m.dimension h2 (fun _ => 0) (G pol b0)
          exact ⟨e, by unfold BeamIn.plainStep; simp only [bind, Except.bind, he]⟩)
        exact ⟨e, by rw [he]⟩

/-! ## C142: the beam at one frequency -/

/-- The squared beam at one frequency is the square of the beam of its bin, divided by the norm of the bin. -/
theorem C142_one_frequency_partial (m : BeamIn) (pol : ℕ) (G : ℕ → ℕ → ℕ → ℚ) (hG : m.gauss = some G) (hg : OneGroup (m.ids pol))
    (f b : ℕ) (c : ℚ) (hb : m.fbin[f]? = some b) (hc : m.fnorm[b]? = some c) (hc0 : c ≠ 0) :
    beamImage m pol (some f) true = .ok fun (p : ℕ) => some (G pol b p ^ 2 / c) := by
  obtain ⟨hids, g, hg⟩ := hg
  have hN : (m.ids pol).length ≠ 0 := by simpa using hids
  have htake : takeFlat m.fbin [f] = .ok [b] := by
    unfold takeFlat
    rw [List.mapM_cons, hb]
    rfl
  have hsort : ([b] : List ℕ).dedup.insertionSort (· ≤ ·) = [b] := rfl
  unfold beamImage
  simp only [bind, Except.bind, groupCounts_one hids hg, if_true, htake, hG]
  rw [hsort, List.foldlM_cons]
  unfold BeamIn.squareStep BeamIn.normOf
  simp only [bind, Except.bind, groupMean_one _ _ hN, hc, pure, Except.pure, List.foldlM_nil]
  congr 1
  funext p
  unfold BeamAcc.image npDiv
  simp [hc0]

/-- **C142 is violated** without `square`: the beam at one frequency cannot be made. -/
theorem C142_plain_raises (m : BeamIn) (pol f : ℕ) : ∃ e, beamImage m pol (some f) false = .error e := by
  unfold beamImage
  simp only [bind, Except.bind, Bool.false_eq_true, if_false]
  cases groupCounts (m.ids pol) with
  | error e => exact ⟨e, rfl⟩
  | ok c => exact ⟨_, rfl⟩

/-! ## C143: beams without Gaussian parameters -/

/-- **C143 is violated**: from the gridding kernels alone no image of the beam is made, for any frequency in use. -/
theorem C143_kernels_raise (m : BeamIn) (pol : ℕ) (hG : m.gauss = none) (hch : ∃ f, f ∈ beamChannels m.freqUse)
    (freq : Option ℕ) (square : Bool) : ∃ e, beamImage m pol freq square = .error e := by
  obtain ⟨f0, hf0⟩ := hch
  rw [← channels_mem] at hf0
  unfold beamImage
  simp only [bind, Except.bind, hG]
  cases groupCounts (m.ids pol) with
  | error e => exact ⟨e, rfl⟩
  | ok c =>
    simp only []
    cases square with
    | true =>
      simp only [if_true]
      cases ht : takeFlat m.fbin (match freq with
        | some f => [f]
        | none => m.channels) with
      | error e => exact ⟨e, rfl⟩
      | ok l =>
        simp only []
        rw [if_neg]
        · exact ⟨_, rfl⟩
        · intro h
          have hl : l = [] := by
            rw [List.eq_nil_iff_forall_not_mem] at h ⊢
            intro a ha
            exact h a (by rw [List.mem_insertionSort, List.mem_dedup]; exact ha)
          subst hl
          have hlen : ∀ idx : List ℕ, takeFlat m.fbin idx = .ok [] → idx = [] := by
            intro idx h
            unfold takeFlat at h
            cases idx with
            | nil => rfl
            | cons i t =>
              rw [List.mapM_cons] at h
              simp only [bind, Except.bind] at h
              split at h
              · cases h
              · split at h
                · cases h
                · cases h
          have := hlen _ ht
          cases freq with
          | some f => simp at this
          | none =>
            simp only at this
            rw [this] at hf0
            cases hf0
    | false =>
      simp only [Bool.false_eq_true, if_false]
      cases freq with
      | some f => exact ⟨_, rfl⟩
      | none =>
        simp only []
        cases takeFlat m.fbin m.channels with
        | error e => exact ⟨e, rfl⟩
        | ok l => exact ⟨_, rfl⟩

/-! ## C141: the squared beam of an observation -/

theorem square_fold (N : ℕ) (hN : N ≠ 0) (m : BeamIn) (G : ℕ → ℕ → ℚ) (c : ℕ → ℚ) (use : List ℕ) : ∀ (l : List ℕ) (s : BeamAcc),
    (∀ b ∈ l, m.fnorm[b]? = some (c b)) → ∃ s', l.foldlM (m.squareStep [N] G use) s = .ok s' ∧
      s'.norm = s.norm + (l.map fun b => (use.count b : ℚ) * c b).sum ∧
      ∀ p, 0 < s.single p → (∀ b ∈ l, b ∈ use) → (∀ b ∈ l, 0 < G b p) →
        (l = [] → s'.base p = s.base p) ∧
        (l ≠ [] → s.base p + (l.map fun b => (use.count b : ℚ) * G b p ^ 2).sum < s'.base p) := by
  intro l
  induction l with
  | nil => intro s _; exact ⟨s, rfl, by simp, fun p _ _ _ => ⟨fun _ => rfl, fun h => absurd rfl h⟩⟩
  | cons b l ih =>
    intro s h
    set s1 : BeamAcc := ⟨fun p => G b p + s.single p / N, fun p => s.base p + use.count b * (G b p + s.single p / N) ^ 2,
      s.norm + use.count b * c b⟩ with hs1
    obtain ⟨s', h1, h2, h3⟩ := ih s1 fun b' hb' => h b' (by simp [hb'])
    refine ⟨s', ?_, ?_, ?_⟩
    · rw [List.foldlM_cons]
      have : m.squareStep [N] G use s b = .ok s1 := by
        unfold BeamIn.squareStep BeamIn.normOf
        simp only [bind, Except.bind, groupMean_one _ _ hN, h b (by simp), pure, Except.pure]
        rfl
      rw [this]
      exact h1
    · rw [h2, List.map_cons, List.sum_cons, hs1]; simp only []; ring
    · intro p hs huse hG
      refine ⟨fun h => by simp at h, fun _ => ?_⟩
      have hNp : (0 : ℚ) < N := by exact_mod_cast Nat.pos_of_ne_zero hN
      have hGb := hG b (by simp)
      have hq : 0 < s.single p / N := div_pos hs hNp
      have hcnt : (0 : ℚ) < use.count b := by
        exact_mod_cast List.count_pos_iff.mpr (huse b (by simp))
      have hlt : s.base p + use.count b * G b p ^ 2 < s1.base p := by
        rw [hs1]
        simp only []
        have : G b p ^ 2 < (G b p + s.single p / N) ^ 2 := by nlinarith
        nlinarith
      obtain ⟨e1, e2⟩ := h3 p (by rw [hs1]; simp only []; linarith) (fun b' hb' => huse b' (by simp [hb']))
        fun b' hb' => hG b' (by simp [hb'])
      rw [List.map_cons, List.sum_cons]
      cases l with
      | nil => rw [e1 rfl]; simpa using hlt
      | cons b' l =>
        have := e2 (by simp)
        linarith

theorem sum_by_count (use : List ℕ) (g : ℕ → ℚ) :
    ((use.dedup.insertionSort (· ≤ ·)).map fun b => (use.count b : ℚ) * g b).sum = (use.map g).sum := by
  rw [((List.perm_insertionSort (· ≤ ·) use.dedup).map _).sum_eq]
  have h := Finset.sum_list_map_count use g
  rw [h, ← List.sum_toFinset _ use.nodup_dedup]
  have e : use.dedup.toFinset = use.toFinset := by ext; simp
  rw [e]
  apply Finset.sum_congr rfl
  intro b _
  rw [nsmul_eq_mul]

/-- If all channels in use are in one bin, the squared beam of the observation is the square of the beam of that bin over its norm. -/
theorem C141_one_bin_partial (m : BeamIn) (pol : ℕ) (G : ℕ → ℕ → ℕ → ℚ) (hG : m.gauss = some G) (hg : OneGroup (m.ids pol))
    (hch : ∃ f, f ∈ beamChannels m.freqUse) (b : ℕ) (c : ℚ) (hbin : ∀ f ∈ beamChannels m.freqUse, m.fbin[f]? = some b)
    (hc : m.fnorm[b]? = some c) (hc0 : c ≠ 0) :
    beamImage m pol none true = .ok fun (p : ℕ) => some (G pol b p ^ 2 / c) := by
  obtain ⟨hids, g, hg⟩ := hg
  obtain ⟨f0, hf0⟩ := hch
  rw [← channels_mem] at hf0
  have hN : (m.ids pol).length ≠ 0 := by simpa using hids
  have htake : takeFlat m.fbin m.channels = .ok (m.channels.map fun _ => b) := by
    unfold takeFlat
    apply mapM_ok
    intro f hf
    rw [hbin f ((channels_mem m f).mp hf)]
  have hn : m.channels.length ≠ 0 := by
    intro h
    rw [List.length_eq_zero_iff] at h
    rw [h] at hf0
    cases hf0
  have hrep : (m.channels.map fun _ => b) = List.replicate m.channels.length b := by simp
  have hsort : (List.replicate m.channels.length b).dedup.insertionSort (· ≤ ·) = [b] := by
    obtain ⟨k, hk⟩ := Nat.exists_eq_succ_of_ne_zero hn
    rw [hk, List.replicate_dedup (by omega)]
    rfl
  unfold beamImage
  simp only [bind, Except.bind, groupCounts_one hids hg, if_true, htake, hG]
  rw [hrep, hsort, List.foldlM_cons]
  unfold BeamIn.squareStep BeamIn.normOf
  simp only [bind, Except.bind, groupMean_one _ _ hN, hc, pure, Except.pure, List.foldlM_nil]
  congr 1
  funext p
  unfold BeamAcc.image npDiv
  have hn' : (m.channels.length : ℚ) ≠ 0 := by exact_mod_cast hn
  have : (0 : ℚ) + ((List.replicate m.channels.length b).count b : ℚ) * c ≠ 0 := by
    rw [List.count_replicate_self, zero_add]; exact mul_ne_zero hn' hc0
  rw [if_neg this]
  simp only [List.count_replicate_self, zero_add, zero_div, add_zero]
  rw [mul_div_mul_left _ _ hn']

/-- **C141 is violated** with more than one bin: the beam of a bin is added to what is left of the bins before, so that the squared beam is too
bright wherever the beams are positive: above the sum over the channels in use of the squared beams, divided by the sum of the norms. -/
theorem C141_too_bright (m : BeamIn) (pol : ℕ) (G : ℕ → ℕ → ℕ → ℚ) (hG : m.gauss = some G) (hg : OneGroup (m.ids pol))
    (bin : ℕ → ℕ) (norm : ℕ → ℚ) (hbin : ∀ f ∈ beamChannels m.freqUse, m.fbin[f]? = some (bin f))
    (hnorm : ∀ f ∈ beamChannels m.freqUse, m.fnorm[bin f]? = some (norm (bin f)))
    (hpos : 0 < ∑ f ∈ beamChannels m.freqUse, norm (bin f))
    (hmore : ∃ f ∈ beamChannels m.freqUse, ∃ f' ∈ beamChannels m.freqUse, bin f ≠ bin f') :
    ∃ img, beamImage m pol none true = .ok img ∧ ∀ p, (∀ f ∈ beamChannels m.freqUse, 0 < G pol (bin f) p) →
      ∃ v, img p = some v ∧
        (∑ f ∈ beamChannels m.freqUse, G pol (bin f) p ^ 2) / ∑ f ∈ beamChannels m.freqUse, norm (bin f) < v := by
  obtain ⟨hids, g, hg⟩ := hg
  obtain ⟨f1, hf1, f2, hf2, hf12⟩ := hmore
  have hN : (m.ids pol).length ≠ 0 := by simpa using hids
  set use := m.channels.map bin with huse
  have htake : takeFlat m.fbin m.channels = .ok use := by
    unfold takeFlat
    apply mapM_ok
    intro f hf
    rw [hbin f ((channels_mem m f).mp hf)]
  set bins := use.dedup.insertionSort (· ≤ ·) with hbins
  have hmem : ∀ b, b ∈ bins ↔ b ∈ use := by
    intro b; rw [hbins, List.mem_insertionSort, List.mem_dedup]
  have hex : ∀ b ∈ bins, ∃ f ∈ beamChannels m.freqUse, b = bin f := by
    intro b hb
    rw [hmem, huse, List.mem_map] at hb
    obtain ⟨f, hf, rfl⟩ := hb
    exact ⟨f, (channels_mem m f).mp hf, rfl⟩
  have hn : ∀ b ∈ bins, m.fnorm[b]? = some (norm b) := by
    intro b hb
    obtain ⟨f, hf, rfl⟩ := hex b hb
    exact hnorm f hf
  have h1 : bin f1 ∈ bins := (hmem _).mpr (List.mem_map.mpr ⟨f1, (channels_mem m f1).mpr hf1, rfl⟩)
  have h2 : bin f2 ∈ bins := (hmem _).mpr (List.mem_map.mpr ⟨f2, (channels_mem m f2).mpr hf2, rfl⟩)
  obtain ⟨s, hs1, hs2, _⟩ := square_fold _ hN m (G pol) norm use bins ⟨fun _ => 0, fun _ => 0, 0⟩ hn
  have hsum : ∀ g : ℕ → ℚ, (bins.map fun b => (use.count b : ℚ) * g b).sum = ∑ f ∈ beamChannels m.freqUse, g (bin f) := by
    intro g
    rw [hbins, sum_by_count, huse, List.map_map]
    exact channels_sum m (fun f => g (bin f))
  refine ⟨s.image, ?_, ?_⟩
  · unfold beamImage
    simp only [bind, Except.bind, groupCounts_one hids hg, if_true, htake, hG]
    rw [← hbins, hs1]
    rfl
  · intro p hp
    have hGp : ∀ b ∈ bins, 0 < G pol b p := by
      intro b hb
      obtain ⟨f, hf, rfl⟩ := hex b hb
      exact hp f hf
    match hb : bins, h1, h2 with
    | [x], h1, h2 =>
      rw [List.mem_singleton] at h1 h2
      exact absurd (h1.trans h2.symm) hf12
    | b0 :: b1 :: t, _, _ =>
      rw [List.foldlM_cons] at hs1
      set s1 : BeamAcc := ⟨fun p => G pol b0 p + 0 / (m.ids pol).length,
        fun p => 0 + use.count b0 * (G pol b0 p + 0 / (m.ids pol).length) ^ 2, 0 + use.count b0 * norm b0⟩ with hs1'
      have hstep : m.squareStep [(m.ids pol).length] (G pol) use ⟨fun _ => 0, fun _ => 0, 0⟩ b0 = .ok s1 := by
        unfold BeamIn.squareStep BeamIn.normOf
        simp only [bind, Except.bind, groupMean_one _ _ hN, hn b0 (by simp), pure, Except.pure]
        rfl
      obtain ⟨s'', g1, _, g3⟩ := square_fold _ hN m (G pol) norm use (b1 :: t) s1 fun b hb' => hn b (by simp at hb' ⊢; tauto)
      rw [hstep] at hs1
      have hss : s'' = s := by
        have : (.ok s'' : Py BeamAcc) = .ok s := by rw [← g1, ← hs1]; rfl
        exact Except.ok.inj this
      subst hss
      have := (g3 p (by rw [hs1']; simpa using hGp b0 (by simp)) (fun b hb' => (hmem b).mp (by simp at hb' ⊢; tauto))
        fun b hb' => hGp b (by simp at hb' ⊢; tauto)).2 (by simp)
      have htot := hsum fun b => G pol b p ^ 2
      rw [List.map_cons, List.sum_cons] at htot
      have hbase : s1.base p = use.count b0 * G pol b0 p ^ 2 := by rw [hs1']; simp
      rw [hbase, htot] at this
      have hnorm' : s''.norm = ∑ f ∈ beamChannels m.freqUse, norm (bin f) := by
        rw [hs2, zero_add]; exact hsum norm
      refine ⟨s''.base p / s''.norm, ?_, ?_⟩
      · unfold BeamAcc.image npDiv
        rw [if_neg (by rw [hnorm']; exact hpos.ne')]
      · rw [hnorm']
        exact div_lt_div_of_pos_right this hpos

/-- Two channels in each of two bins, three baselines, two pixels. -/
def exBeam : BeamIn where
  dimension := 4
  elements := 4
  nPol := 2
  nFreq := 4
  gauss := some fun pol b p => (pol + b + 1 : ℚ) * (if p = 9 then 1 else if p = 10 then 1 / 2 else 1 / 100)
  ids := fun _ => [0, 0, 0]
  fbin := [0, 0, 1, 1]
  freqUse := [true, true, true, false]
  fnorm := [1, 2]
  obsx := 1
  obsy := 2

example : OneGroup (exBeam.ids 0) ∧ beamChannels exBeam.freqUse = {0, 1, 2} ∧
    (beamImage exBeam 0 none false).toOption.map (fun f => f 9) = some (some ((1 + 1 + 2) / (1 + 1 + 2))) ∧
    (beamImage exBeam 0 none true).toOption.map (fun f => f 9) = some (some ((1 + 1 + (2 + 1 / 3) ^ 2) / (1 + 1 + 2))) ∧
    (beamImage exBeam 0 (some 2) true).toOption.map (fun f => f 10) = some (some (1 / 2)) := by
  refine ⟨⟨by decide, 0, by decide⟩, by decide, ?_, ?_, ?_⟩ <;> decide +kernel

end PyFHD
