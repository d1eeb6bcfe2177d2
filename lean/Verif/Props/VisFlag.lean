import Verif.Model.VisFlag
import Verif.Props.CalFlag
import Verif.Props.Pipeline
import Verif.Props.CalApplyMore
import Mathlib.Analysis.Real.Sqrt
import Mathlib.Tactic.IntervalCases

/-!
# Properties of `vis_flag` (C110-C115)
-/

namespace PyFHD
open Spec

/-! ## Specification -/

namespace Spec

variable {R : Type} [Field R] [LinearOrder R]

/-- The distance of a baseline, at the median frequency, is inside the range asked for. -/
def UvInRange (v : VfIn R) (mid : ℚ) (b : ℕ) : Prop :=
  v.obs.minBaseline ≤ v.norm (v.uu b) (v.vv b) * mid ∧ v.norm (v.uu b) (v.vv b) * mid ≤ v.obs.maxBaseline

/-- Samples of a polarisation with a positive weight and a positive modulus on a baseline in range. -/
def UsableAt (v : VfIn R) (mid : ℚ) (w : Weights) (p f b : ℕ) : Prop :=
  UvInRange v mid b ∧ 0 < w p f b ∧ 0 < v.data f b

/-- Tile number `t` (counted from 1) is one of the two of a baseline. -/
def OfTile (v : VfIn R) (t b : ℕ) : Prop :=
  v.obs.tileA.getD b 0 = t ∨ v.obs.tileB.getD b 0 = t

open Classical in
/-- The usable samples of a channel. -/
noncomputable def channelUsable (v : VfIn R) (mid : ℚ) (w : Weights) (p f : ℕ) : Finset ℕ :=
  (Finset.range v.obs.nBl).filter fun b => UsableAt v mid w p f b

open Classical in
/-- The usable samples of tile `t`. -/
noncomputable def tileUsable (v : VfIn R) (mid : ℚ) (w : Weights) (p t : ℕ) : Finset (ℕ × ℕ) :=
  (Finset.range v.obs.nFreq ×ˢ Finset.range v.obs.nBl).filter fun s =>
    OfTile v t s.2 ∧ UsableAt v mid w p s.1 s.2

/-- `std` is the standard deviation up to rounding, a number for lists that are not empty. -/
def IsStd (std : List R → Option R) : Prop :=
  ∀ l : List R, l ≠ [] → ∃ d, std l = some d ∧ 0 ≤ d ∧ 9 / 10 * npVar l ≤ d ^ 2 ∧ d ^ 2 ≤ 11 / 10 * npVar l

/-- The baselines of a time step. -/
def InTime (v : VfIn R) (t b : ℕ) : Prop :=
  v.obs.binOffset t ≤ b ∧ b < (if t + 1 < v.obs.nTime then v.obs.binOffset (t + 1) else v.obs.nBl)

open Classical in
/-- The samples of a time step with a positive weight. -/
noncomputable def timeUsable (v : VfIn R) (w : Weights) (p t : ℕ) : Finset (ℕ × ℕ) :=
  (Finset.range v.obs.nFreq ×ˢ Finset.range v.obs.nBl).filter fun s => InTime v t s.2 ∧ 0 < w p s.1 s.2

end Spec

variable {R : Type} [Field R] [LinearOrder R]

/-! ## What a run that returns has done -/

theorem visFlag_ok (v : VfIn R) (w : Weights) (o : VfOut) (h : v.visFlag w = .ok o) :
    ∃ nt mid tiles freqs, v.nTilesUse = some nt ∧
      idlMedian ((List.range v.obs.nFreq).map v.obs.freq) = .ok mid ∧
      fomCut v.std 3 nt (v.tileFom (v.cutBaselines mid w)) = .ok tiles ∧
      freqCut v.std v.obs.nFreq (v.freqFom (v.cutBaselines mid w)) = .ok freqs ∧
      (∀ t ∈ tiles, t < v.obs.nTile) ∧
      o.weights = v.applyCuts tiles freqs (v.cutBaselines mid w) ∧
      fomCut v.std 6 v.obs.nTime (v.timeFom o.weights) = .ok [] ∧
      o.tileUse = (fun t => if t ∈ tiles then 0 else v.obs.tileUse t) ∧
      o.freqUse = (fun f => if f ∈ freqs then 0 else v.obs.freqUse f) ∧
      o.nVis = ((List.range v.obs.nFreq).map fun f =>
          ((List.range v.obs.nBl).filter fun b => decide (0 < o.weights 0 f b)).length).sum := by
  unfold VfIn.visFlag at h
  cases hn : v.nTilesUse with
  | none => rw [hn] at h; cases h
  | some nt =>
    rw [hn] at h
    simp only [bind, Except.bind, pure, Except.pure] at h
    cases hm : idlMedian ((List.range v.obs.nFreq).map v.obs.freq) with
    | error e => rw [hm] at h; cases h
    | ok mid =>
      rw [hm] at h
      simp only [] at h
      cases ht : fomCut v.std 3 nt (v.tileFom (v.cutBaselines mid w)) with
      | error e => rw [ht] at h; cases h
      | ok tiles =>
        rw [ht] at h
        simp only [] at h
        cases hf : freqCut v.std v.obs.nFreq (v.freqFom (v.cutBaselines mid w)) with
        | error e => rw [hf] at h; cases h
        | ok freqs =>
          rw [hf] at h
          simp only [] at h
          split at h
          · cases h
          · rename_i hlt
            cases hc : fomCut v.std 6 v.obs.nTime
                (v.timeFom (v.applyCuts tiles freqs (v.cutBaselines mid w))) with
            | error e => rw [hc] at h; cases h
            | ok times =>
              rw [hc] at h
              simp only [] at h
              split at h
              · cases h
              · rename_i hnil
                have hnil' : times = [] := by simpa using hnil
                subst hnil'
                simp only [Except.ok.injEq] at h
                subst h
                refine ⟨nt, mid, tiles, freqs, rfl, rfl, ht, hf, ?_, rfl, hc, rfl, rfl, rfl⟩
                intro t hmem
                have := hlt
                simp only [List.any_eq_true, decide_eq_true_eq, not_exists, not_and] at this
                have := this t hmem
                omega

theorem cutBaselines_in (v : VfIn R) (mid : ℚ) (w : Weights) (p f b : ℕ) (h : UvInRange v mid b) :
    v.cutBaselines mid w p f b = w p f b := by
  unfold VfIn.cutBaselines
  simp only []
  rw [if_neg]
  rintro ⟨_, h1 | h1⟩
  · exact absurd h.1 (not_le.2 h1)
  · exact absurd h.2 (not_le.2 h1)

theorem cutBaselines_out (v : VfIn R) (mid : ℚ) (w : Weights) (p f b : ℕ) (hp : p < v.obs.nPol)
    (h : ¬ UvInRange v mid b) : v.cutBaselines mid w p f b = 0 := by
  unfold VfIn.cutBaselines
  simp only []
  rw [if_pos]
  refine ⟨hp, ?_⟩
  by_contra hc
  rw [not_or, not_lt, not_lt] at hc
  exact h hc

theorem fomCut_ok (std : List R → Option R) (k : R) (n : ℕ) (fom : ℕ → R) (cut : List ℕ)
    (h : fomCut std k n fom = .ok cut) :
    ∃ m nz, nz = (List.range n).filter (fun i => decide (fom i ≠ 0)) ∧ 2 ≤ nz.length ∧
      (∃ cut0 : List ℕ, (∀ i, i ∈ cut0 → i < n) ∧ (∀ i < n, fom i ≠ 0 → i ∈ cut0) ∧
        ((∀ i < n, fom i ≠ 0) → cut0 = List.range n) ∧ cut0.length ≤ n ∧
        idlMedian (cut0.map fom) = .ok m ∧
        cut = (List.range n).filter fun i => devGt k (m - fom i) (std (cut0.map fom)) || decide (fom i = 0)) := by
  unfold fomCut at h
  simp only [bind, Except.bind, pure, Except.pure] at h
  cases hm : idlMedian (((List.range n).filter fun i => decide (fom i ≠ 0)).map fom) with
  | error e => rw [hm] at h; cases h
  | ok mean =>
    rw [hm] at h
    simp only [] at h
    set dev := std (((List.range n).filter fun i => decide (fom i ≠ 0)).map fom) with hdev
    set cut0 := (List.range n).filter fun i => devLe 6 (mean - fom i) dev || decide (fom i ≠ 0) with hcut0
    cases hm2 : idlMedian (cut0.map fom) with
    | error e => rw [hm2] at h; cases h
    | ok mean2 =>
      rw [hm2] at h
      simp only [Except.ok.injEq] at h
      refine ⟨mean2, _, rfl, ?_, cut0, ?_, ?_, ?_, ?_, hm2, h.symm⟩
      · unfold idlMedian at hm
        split at hm
        · rename_i x hx
          obtain ⟨hlt, _⟩ := List.getElem?_eq_some_iff.1 hx
          simp only [List.length_insertionSort, List.length_map] at hlt
          omega
        · cases hm
      · intro i hi
        exact List.mem_range.1 (List.mem_filter.1 hi).1
      · intro i hi hf
        rw [hcut0, List.mem_filter, List.mem_range]
        exact ⟨hi, by simp [hf]⟩
      · intro hall
        rw [hcut0, List.filter_eq_self]
        intro i hi
        simp [hall i (List.mem_range.1 hi)]
      · exact le_trans (List.length_filter_le _ _) (by simp)

theorem freqCut_zero (std : List R → Option R) (n : ℕ) (fom : ℕ → R) (cut : List ℕ)
    (h : freqCut std n fom = .ok cut) (f : ℕ) (hf : f < n) (h0 : fom f = 0) : f ∈ cut := by
  unfold freqCut at h
  simp only [bind, Except.bind, pure, Except.pure] at h
  split at h
  · cases h
  · split at h
    · cases h
    · simp only [Except.ok.injEq] at h
      rw [← h, List.mem_filter, List.mem_range]
      exact ⟨hf, by simp [h0]⟩

theorem freqCut_range (std : List R → Option R) (n : ℕ) (fom : ℕ → R) (cut : List ℕ)
    (h : freqCut std n fom = .ok cut) (f : ℕ) (hf : f ∈ cut) : f < n := by
  unfold freqCut at h
  simp only [bind, Except.bind, pure, Except.pure] at h
  split at h
  · cases h
  · split at h
    · cases h
    · simp only [Except.ok.injEq] at h
      rw [← h, List.mem_filter, List.mem_range] at hf
      exact hf.1

omit [Field R] [LinearOrder R] in
theorem mem_any_tiles (v : VfIn R) (tiles : List ℕ) (b : ℕ) :
    (tiles.any fun t => decide (v.obs.tileA.getD b 0 = (t : ℤ) + 1 ∨ v.obs.tileB.getD b 0 = (t : ℤ) + 1)) = true ↔
      ∃ t ∈ tiles, OfTile v (t + 1) b := by
  unfold OfTile
  simp only [List.any_eq_true, decide_eq_true_eq]
  push_cast
  rfl

/-! ## C110 -/

/-- A run that returns keeps every weight or sets it to zero, and marks tiles and channels as unused without touching the
others. A weight that has changed belongs to a baseline out of range, a channel or a tile marked unused; a channel or tile
newly marked unused has no weight left. -/
theorem C110_only_flags (v : VfIn R) (w : Weights) (o : VfOut) (h : v.visFlag w = .ok o) :
    (∀ p f b, o.weights p f b = w p f b ∨ (p < v.obs.nPol ∧ o.weights p f b = 0)) ∧
    (∀ t, o.tileUse t = v.obs.tileUse t ∨ o.tileUse t = 0) ∧
    (∀ f, o.freqUse f = v.obs.freqUse f ∨ o.freqUse f = 0) ∧
    (∀ t, o.tileUse t ≠ v.obs.tileUse t → ∀ p < v.obs.nPol, ∀ f b, OfTile v (t + 1) b → o.weights p f b = 0) ∧
    (∀ f, o.freqUse f ≠ v.obs.freqUse f → ∀ p < v.obs.nPol, ∀ b, o.weights p f b = 0) ∧
    ∃ mid, idlMedian ((List.range v.obs.nFreq).map v.obs.freq) = .ok mid ∧
      ∀ p f b, o.weights p f b ≠ w p f b →
        ¬ UvInRange v mid b ∨ o.freqUse f = 0 ∨ ∃ t, OfTile v (t + 1) b ∧ o.tileUse t = 0 := by
  obtain ⟨nt, mid, tiles, freqs, -, hmid, -, -, -, hw, -, ht, hf, -⟩ := visFlag_ok v w o h
  have hval : ∀ p f b, o.weights p f b =
      if p < v.obs.nPol ∧ (f ∈ freqs ∨
      (tiles.any fun t => decide (v.obs.tileA.getD b 0 = (t : ℤ) + 1 ∨ v.obs.tileB.getD b 0 = (t : ℤ) + 1)) = true)
      then 0 else v.cutBaselines mid w p f b := by
    intro p f b; rw [hw]; rfl
  refine ⟨?_, ?_, ?_, ?_, ?_, mid, hmid, ?_⟩
  · intro p f b
    rw [hval]
    split_ifs with hc
    · exact Or.inr ⟨hc.1, rfl⟩
    · unfold VfIn.cutBaselines
      simp only []
      split_ifs with hd
      · exact Or.inr ⟨hd.1, rfl⟩
      · exact Or.inl rfl
  · intro t
    rw [ht]
    simp only []
    split_ifs
    · exact Or.inr rfl
    · exact Or.inl rfl
  · intro f
    rw [hf]
    simp only []
    split_ifs
    · exact Or.inr rfl
    · exact Or.inl rfl
  · intro t hne p hp f b hb
    have hmem : t ∈ tiles := by
      by_contra hc
      apply hne
      rw [ht]
      simp only []
      rw [if_neg hc]
    rw [hval, if_pos]
    exact ⟨hp, Or.inr ((mem_any_tiles v tiles b).2 ⟨t, hmem, hb⟩)⟩
  · intro f hne p hp b
    have hmem : f ∈ freqs := by
      by_contra hc
      apply hne
      rw [hf]
      simp only []
      rw [if_neg hc]
    rw [hval, if_pos]
    exact ⟨hp, Or.inl hmem⟩
  · intro p f b hne
    by_cases hr : UvInRange v mid b
    · right
      rw [hval, cutBaselines_in v mid w p f b hr] at hne
      split_ifs at hne with hc
      · rcases hc.2 with h1 | h1
        · left
          rw [hf]
          simp only []
          rw [if_pos h1]
        · right
          obtain ⟨t, htm, hto⟩ := (mem_any_tiles v tiles b).1 h1
          refine ⟨t, hto, ?_⟩
          rw [ht]
          simp only []
          rw [if_pos htm]
      · exact absurd rfl hne
    · exact Or.inl hr

/-! ## C111 -/

theorem channel_few (v : VfIn R) (mid : ℚ) (w : Weights) (p f : ℕ) (hp : p < v.obs.nPol)
    (h : (channelUsable v mid w p f).card ≤ 10) :
    v.fomPol (v.cutBaselines mid w) p ((List.range v.obs.nBl).map fun b => (f, b)) = 0 := by
  classical
  unfold VfIn.fomPol
  simp only []
  rw [if_neg]
  rw [not_lt, List.filter_map, List.length_map]
  refine le_trans (le_of_eq ?_) h
  unfold channelUsable
  rw [Finset.card_def]
  simp only [Finset.filter_val, Finset.range_val, Multiset.range, Multiset.filter_coe, Multiset.coe_card]
  congr 1
  apply List.filter_congr
  intro b _
  simp only [Function.comp, UsableAt]
  by_cases hr : UvInRange v mid b
  · rw [cutBaselines_in v mid w p f b hr]
    simp [hr]
  · rw [cutBaselines_out v mid w p f b hp hr]
    simp [hr]

/-- Baselines out of range have no weight left. A channel with at most ten usable samples in each of the first two
polarisations is marked unused, without weights. The number reported is that of the samples with a positive weight. -/
theorem C111_flags (v : VfIn R) (w : Weights) (o : VfOut) (h : v.visFlag w = .ok o) :
    ∃ mid, idlMedian ((List.range v.obs.nFreq).map v.obs.freq) = .ok mid ∧
      (∀ p < v.obs.nPol, ∀ f b, ¬ UvInRange v mid b → o.weights p f b = 0) ∧
      (∀ f < v.obs.nFreq, (∀ p < v.obs.nPol, p < 2 → (channelUsable v mid w p f).card ≤ 10) →
        o.freqUse f = 0 ∧ ∀ p < v.obs.nPol, ∀ b, o.weights p f b = 0) ∧
      o.nVis = ((Finset.range v.obs.nFreq ×ˢ Finset.range v.obs.nBl).filter
        fun s => 0 < o.weights 0 s.1 s.2).card := by
  obtain ⟨nt, mid, tiles, freqs, -, hmid, -, hfc, -, hw, -, ht, hf, hn⟩ := visFlag_ok v w o h
  have hval : ∀ p f b, o.weights p f b =
      if p < v.obs.nPol ∧ (f ∈ freqs ∨
      (tiles.any fun t => decide (v.obs.tileA.getD b 0 = (t : ℤ) + 1 ∨ v.obs.tileB.getD b 0 = (t : ℤ) + 1)) = true)
      then 0 else v.cutBaselines mid w p f b := by
    intro p f b; rw [hw]; rfl
  refine ⟨mid, hmid, ?_, ?_, ?_⟩
  · intro p hp f b hr
    rw [hval, cutBaselines_out v mid w p f b hp hr, ite_self]
  · intro f hlt hfew
    have hz : v.freqFom (v.cutBaselines mid w) f = 0 := by
      unfold VfIn.freqFom
      apply List.sum_eq_zero
      intro x hx
      obtain ⟨p, hp, rfl⟩ := List.mem_map.1 hx
      have hp' := List.mem_range.1 hp
      exact channel_few v mid w p f (lt_of_lt_of_le hp' (min_le_left _ _))
        (hfew p (lt_of_lt_of_le hp' (min_le_left _ _)) (lt_of_lt_of_le hp' (min_le_right _ _)))
    have hmem := freqCut_zero _ _ _ _ hfc f hlt hz
    refine ⟨by rw [hf]; exact if_pos hmem, ?_⟩
    intro p hp b
    rw [hval, if_pos ⟨hp, Or.inl hmem⟩]
  · rw [hn, Finset.card_filter, Finset.sum_product, list_sum_range]
    apply Finset.sum_congr rfl
    intro f _
    rw [← Finset.card_filter, Finset.card_def]
    simp only [Finset.filter_val, Finset.range_val, Multiset.range, Multiset.filter_coe, Multiset.coe_card]

/-! ## C112 -/

theorem devGt_zero [IsStrictOrderedRing R] (k x : R) (d : Option R) (hx : x = 0) (hd : ∀ e, d = some e → e = 0) : devGt k x d = false := by
  unfold devGt
  cases d with
  | none => rfl
  | some e => simp [hd e rfl, hx]

omit [Field R] [LinearOrder R] in
theorem mem_tileBaselines (v : VfIn R) (t b : ℕ) :
    b ∈ v.tileBaselines t ↔ b < v.obs.nBl ∧ OfTile v (t + 1) b := by
  unfold VfIn.tileBaselines OfTile
  simp only [List.mem_append, List.mem_filter, List.mem_range, decide_eq_true_eq]
  push_cast
  constructor
  · rintro (⟨h1, h2⟩ | ⟨h1, h2⟩)
    · exact ⟨h1, Or.inl (by omega)⟩
    · exact ⟨h1, Or.inr (by omega)⟩
  · rintro ⟨h1, h2 | h2⟩
    · exact Or.inl ⟨h1, by omega⟩
    · exact Or.inr ⟨h1, by omega⟩

omit [Field R] [LinearOrder R] in
theorem mem_allChannels (v : VfIn R) (bs : List ℕ) (s : ℕ × ℕ) :
    s ∈ v.allChannels bs ↔ s.1 < v.obs.nFreq ∧ s.2 ∈ bs := by
  obtain ⟨f, b⟩ := s
  unfold VfIn.allChannels
  simp only [List.mem_flatMap, List.mem_range, List.mem_map, Prod.mk.injEq]
  constructor
  · rintro ⟨f', h1, b', h2, rfl, rfl⟩
    exact ⟨h1, h2⟩
  · rintro ⟨h1, h2⟩
    exact ⟨f, h1, b, h2, rfl, rfl⟩

/-- The list of usable samples of a tile holds those of the specification. -/
theorem tile_use_mem (v : VfIn R) (mid : ℚ) (w : Weights) (p t : ℕ) (hp : p < v.obs.nPol) (s : ℕ × ℕ) :
    s ∈ (v.allChannels (v.tileBaselines t)).filter (fun s => decide
      (0 < v.cutBaselines mid w p s.1 s.2 ∧ 0 < v.data s.1 s.2)) ↔ s ∈ tileUsable v mid w p (t + 1) := by
  classical
  unfold tileUsable
  rw [List.mem_filter, mem_allChannels, mem_tileBaselines, Finset.mem_filter, Finset.mem_product,
    Finset.mem_range, Finset.mem_range, decide_eq_true_eq]
  unfold UsableAt
  by_cases hr : UvInRange v mid s.2
  · rw [cutBaselines_in v mid w p _ _ hr]
    tauto
  · rw [cutBaselines_out v mid w p _ _ hp hr]
    simp [hr]

theorem tile_use_nodup (v : VfIn R) (mid : ℚ) (w : Weights) (p t : ℕ) (hp : p < v.obs.nPol)
    (hauto : ∀ s ∈ tileUsable v mid w p (t + 1), v.obs.tileA.getD s.2 0 ≠ v.obs.tileB.getD s.2 0) :
    ((v.allChannels (v.tileBaselines t)).filter (fun s => decide
      (0 < v.cutBaselines mid w p s.1 s.2 ∧ 0 < v.data s.1 s.2))).Nodup := by
  have hmem := tile_use_mem v mid w p t hp
  unfold VfIn.allChannels at hmem ⊢
  rw [List.filter_flatMap, List.nodup_flatMap]
  constructor
  · intro f hf
    rw [List.filter_map]
    apply List.Nodup.map
    · intro a b hab
      exact (Prod.mk.inj hab).2
    · unfold VfIn.tileBaselines
      rw [List.filter_append, List.nodup_append]
      refine ⟨(List.nodup_range.filter _).filter _, (List.nodup_range.filter _).filter _, ?_⟩
      rintro a ha b hb rfl
      rw [List.mem_filter, List.mem_filter] at ha hb
      have hin : (f, a) ∈ tileUsable v mid w p (t + 1) := by
        apply (hmem _).1
        rw [List.mem_filter, List.mem_flatMap]
        refine ⟨⟨f, hf, List.mem_map.2 ⟨a, ?_, rfl⟩⟩, ?_⟩
        · unfold VfIn.tileBaselines
          rw [List.mem_append, List.mem_filter]
          exact Or.inl ha.1
        · exact ha.2
      apply hauto _ hin
      have h1 := ha.1.2
      have h2 := hb.1.2
      rw [decide_eq_true_eq] at h1 h2
      simp only []
      omega
  · apply List.Nodup.pairwise_of_forall_ne List.nodup_range
    intro f _ g _ hne x hx hy
    obtain ⟨b, _, rfl⟩ := List.mem_map.1 (List.mem_filter.1 hx).1
    obtain ⟨c, _, hc⟩ := List.mem_map.1 (List.mem_filter.1 hy).1
    exact hne (Prod.mk.inj hc).1.symm

/-- If the memory of `tile_fom` happens to be zero for it, a tile with at most ten usable samples in each of the first two
polarisations (none of them an autocorrelation) is marked unused, without weights. -/
theorem C112_dead_tile_partial (v : VfIn R) (w : Weights) (o : VfOut) (h : v.visFlag w = .ok o) (mid : ℚ)
    (hmid : idlMedian ((List.range v.obs.nFreq).map v.obs.freq) = .ok mid) (nt : ℕ) (hnt : v.nTilesUse = some nt)
    (t : ℕ) (ht : t < nt) (hmem : v.memory t = 0)
    (hdead : ∀ p < v.obs.nPol, p < 2 → (tileUsable v mid w p (t + 1)).card ≤ 10 ∧
      ∀ s ∈ tileUsable v mid w p (t + 1), v.obs.tileA.getD s.2 0 ≠ v.obs.tileB.getD s.2 0) :
    o.tileUse t = 0 ∧ ∀ p < v.obs.nPol, ∀ f b, OfTile v (t + 1) b → o.weights p f b = 0 := by
  classical
  obtain ⟨nt', mid', tiles, freqs, hnt', hmid', hfc, -, -, hw, -, htu, -, -⟩ := visFlag_ok v w o h
  rw [hmid] at hmid'
  cases hmid'
  rw [hnt] at hnt'
  cases hnt'
  have hz : v.tileFom (v.cutBaselines mid w) t = 0 := by
    unfold VfIn.tileFom
    rw [hmem, zero_add]
    apply List.sum_eq_zero
    intro x hx
    obtain ⟨p, hp, rfl⟩ := List.mem_map.1 hx
    have hp' := List.mem_range.1 hp
    have hp1 := lt_of_lt_of_le hp' (min_le_left _ _)
    obtain ⟨hc, ha⟩ := hdead p hp1 (lt_of_lt_of_le hp' (min_le_right _ _))
    unfold VfIn.fomPol
    simp only []
    rw [if_neg]
    rw [not_lt, ← List.toFinset_card_of_nodup (tile_use_nodup v mid w p t hp1 ha)]
    refine le_trans (le_of_eq ?_) hc
    congr 1
    ext s
    rw [List.mem_toFinset]
    exact tile_use_mem v mid w p t hp1 s
  obtain ⟨m, nz, -, -, cut0, -, -, -, -, -, hcut⟩ := fomCut_ok _ _ _ _ _ hfc
  have hin : t ∈ tiles := by
    rw [hcut, List.mem_filter, List.mem_range]
    exact ⟨ht, by simp [hz]⟩
  refine ⟨by rw [htu]; exact if_pos hin, ?_⟩
  intro p hp f b hb
  rw [hw]
  exact if_pos ⟨hp, Or.inr ((mem_any_tiles v tiles b).2 ⟨t, hin, hb⟩)⟩

/-- Which tiles are flagged depends on uninitialised memory, whatever the data: with some contents no tile is flagged, however
bad, and for every tile there are contents with which it is flagged, however good. -/
theorem C112_memory_decides [IsStrictOrderedRing R] (v : VfIn R) (w : Weights) (hstd : IsStd v.std) (nt : ℕ)
    (hnt : v.nTilesUse = some nt) :
    (∃ m, ∀ o, ({ v with memory := m } : VfIn R).visFlag w = .ok o → ∀ t, o.tileUse t = v.obs.tileUse t) ∧
    ∀ t < nt, ∃ m, ∀ o, ({ v with memory := m } : VfIn R).visFlag w = .ok o →
      o.tileUse t = 0 ∧ ∀ p < v.obs.nPol, ∀ f b, OfTile v (t + 1) b → o.weights p f b = 0 := by
  cases hm : idlMedian ((List.range v.obs.nFreq).map v.obs.freq) with
  | error e =>
    have hno : ∀ m o, ({ v with memory := m } : VfIn R).visFlag w ≠ .ok o := by
      intro m o h
      obtain ⟨_, mid, _, _, _, hmid, _⟩ := visFlag_ok _ w o h
      rw [show idlMedian ((List.range ({ v with memory := m } : VfIn R).obs.nFreq).map
        ({ v with memory := m } : VfIn R).obs.freq) = .error e from hm] at hmid
      cases hmid
    exact ⟨⟨0, fun o h => absurd h (hno _ _)⟩, fun t _ => ⟨0, fun o h => absurd h (hno _ _)⟩⟩
  | ok mid =>
    set part : ℕ → R := fun t => ((List.range (min v.obs.nPol 2)).map fun p =>
      v.fomPol (v.cutBaselines mid w) p (v.allChannels (v.tileBaselines t))).sum with hpart
    have hfom : ∀ m t, ({ v with memory := m } : VfIn R).tileFom
        (({ v with memory := m } : VfIn R).cutBaselines mid w) t = m t + part t := fun _ _ => rfl
    constructor
    · refine ⟨fun t => 1 - part t, ?_⟩
      intro o h t
      obtain ⟨nt', mid', tiles, freqs, hnt', hmid', hfc, -, -, -, -, htu, -, -⟩ := visFlag_ok _ w o h
      have : mid' = mid := by
        have := hm.symm.trans hmid'
        exact (Except.ok.inj this).symm
      subst this
      obtain ⟨mm, nz, -, -, cut0, -, -, -, -, hmed, hcut⟩ := fomCut_ok _ _ _ _ _ hfc
      have hone : ∀ i, ({ v with memory := fun t => 1 - part t } : VfIn R).tileFom
          (({ v with memory := fun t => 1 - part t } : VfIn R).cutBaselines mid' w) i = 1 := by
        intro i
        rw [hfom]
        ring
      have hlist : cut0.map (({ v with memory := fun t => 1 - part t } : VfIn R).tileFom
          (({ v with memory := fun t => 1 - part t } : VfIn R).cutBaselines mid' w)) =
          List.replicate cut0.length 1 := by
        rw [List.eq_replicate_iff]
        refine ⟨by simp, ?_⟩
        intro x hx
        obtain ⟨i, _, rfl⟩ := List.mem_map.1 hx
        exact hone i
      have hmm : mm = 1 := by
        rw [hlist] at hmed
        unfold idlMedian at hmed
        split at hmed
        · rename_i x hx
          cases hmed
          have := List.mem_of_getElem? hx
          rw [List.mem_insertionSort] at this
          exact List.eq_of_mem_replicate this
        · cases hmed
      have hempty : tiles = [] := by
        rw [hcut, List.filter_eq_nil_iff]
        intro i _
        rw [hone, hmm, hlist, devGt_zero]
        · simp
        · simp
        · intro e he
          by_cases hl : cut0.length = 0
          · rw [hlist, hl] at hmed
            cases hmed
          · have hl1 : (List.replicate cut0.length (1 : R)) ≠ [] := by simp [hl]
            obtain ⟨d, hd, hd0, -, hd2⟩ := hstd _ hl1
            have hsame : some d = some e := hd.symm.trans he
            cases hsame
            have hv : npVar (List.replicate cut0.length (1 : R)) = 0 := by
              have hne : (cut0.length : R) ≠ 0 := by exact_mod_cast hl
              unfold npVar
              simp [hne]
            rw [hv, mul_zero] at hd2
            exact pow_eq_zero_iff (two_ne_zero) |>.1 (le_antisymm hd2 (sq_nonneg _))
      rw [htu, hempty]
      simp
    · intro t ht
      refine ⟨fun t => - part t, ?_⟩
      intro o h
      obtain ⟨nt', mid', tiles, freqs, hnt', hmid', hfc, -, -, hw, -, htu, -, -⟩ := visFlag_ok _ w o h
      have : mid' = mid := (Except.ok.inj (hm.symm.trans hmid')).symm
      subst this
      have : nt' = nt := (Option.some.inj (hnt.symm.trans hnt')).symm
      subst this
      obtain ⟨mm, nz, -, -, cut0, -, -, -, -, hmed, hcut⟩ := fomCut_ok _ _ _ _ _ hfc
      have hin : t ∈ tiles := by
        rw [hcut, List.mem_filter, List.mem_range]
        refine ⟨ht, ?_⟩
        rw [hfom]
        simp
      refine ⟨by rw [htu]; exact if_pos hin, ?_⟩
      intro p hp f b hb
      rw [hw]
      exact if_pos ⟨hp, Or.inr ((mem_any_tiles _ tiles b).2 ⟨t, hin, hb⟩)⟩

/-! ## C113 -/

/-- A run returns only if there are at least two channels and two time steps and every time step is left with more than ten
samples of positive weight: one time step that is flagged ends the run. -/
theorem C113_returns_needs (v : VfIn R) (w : Weights) (o : VfOut) (h : v.visFlag w = .ok o) :
    2 ≤ v.obs.nFreq ∧ 2 ≤ v.obs.nTime ∧
      ∀ t < v.obs.nTime, ∃ p < v.obs.nPol, p < 2 ∧ 10 < (timeUsable v o.weights p t).card := by
  classical
  obtain ⟨nt, mid, tiles, freqs, -, hmid, -, -, -, -, htc, -, -, -⟩ := visFlag_ok v w o h
  have h1 : 2 ≤ v.obs.nFreq := by
    unfold idlMedian at hmid
    split at hmid
    · rename_i x hx
      obtain ⟨hlt, _⟩ := List.getElem?_eq_some_iff.1 hx
      simp only [List.length_insertionSort, List.length_map, List.length_range] at hlt
      omega
    · cases hmid
  obtain ⟨m, nz, hnz, hlen, cut0, -, -, -, -, -, hcut⟩ := fomCut_ok _ _ _ _ _ htc
  have h2 : 2 ≤ v.obs.nTime := by
    refine le_trans hlen ?_
    rw [hnz]
    exact le_trans (List.length_filter_le _ _) (by simp)
  refine ⟨h1, h2, ?_⟩
  intro t ht
  have hne : v.timeFom o.weights t ≠ 0 := by
    intro h0
    have hin : t ∈ ([] : List ℕ) := by
      rw [hcut, List.mem_filter, List.mem_range]
      exact ⟨ht, by simp [h0]⟩
    simp at hin
  by_contra hno
  apply hne
  unfold VfIn.timeFom
  apply List.sum_eq_zero
  intro x hx
  obtain ⟨p, hp, rfl⟩ := List.mem_map.1 hx
  have hp' := List.mem_range.1 hp
  simp only []
  rw [if_neg]
  intro hc
  apply hno
  refine ⟨p, lt_of_lt_of_le hp' (min_le_left _ _), lt_of_lt_of_le hp' (min_le_right _ _), lt_of_lt_of_le hc ?_⟩
  have hnd : ((v.allChannels ((List.range v.obs.nBl).filter fun b =>
      decide (v.obs.binOffset t ≤ b ∧ b < v.timeEnd t))).filter fun s =>
        decide (0 < o.weights p s.1 s.2)).Nodup := by
    apply List.Nodup.filter
    unfold VfIn.allChannels
    rw [List.nodup_flatMap]
    constructor
    · intro f _
      apply List.Nodup.map _ (List.nodup_range.filter _)
      intro a b hab
      exact (Prod.mk.inj hab).2
    · apply List.Nodup.pairwise_of_forall_ne List.nodup_range
      intro f _ g _ hne x hx hy
      obtain ⟨b, _, rfl⟩ := List.mem_map.1 hx
      obtain ⟨c, _, hc⟩ := List.mem_map.1 hy
      exact hne (Prod.mk.inj hc).1.symm
  rw [← List.toFinset_card_of_nodup hnd]
  apply Finset.card_le_card
  intro s hs
  rw [List.mem_toFinset, List.mem_filter, mem_allChannels, List.mem_filter, List.mem_range, decide_eq_true_eq,
    decide_eq_true_eq] at hs
  unfold timeUsable
  rw [Finset.mem_filter, Finset.mem_product, Finset.mem_range, Finset.mem_range]
  exact ⟨⟨hs.1.1, hs.1.2.1⟩, hs.1.2.2, hs.2⟩

/-! ## C114 -/

/-- Where all tiles have data, nothing is left out of the second estimate: a tile is flagged for its distance from the
median of all, in standard deviations of all, outliers included. -/
theorem C114_single_pass (std : List R → Option R) (k : R) (n : ℕ) (fom : ℕ → R) (cut : List ℕ)
    (h : fomCut std k n fom = .ok cut) (hall : ∀ i < n, fom i ≠ 0) :
    ∃ m, idlMedian ((List.range n).map fom) = .ok m ∧
      ∀ i < n, i ∈ cut ↔ ∃ d, std ((List.range n).map fom) = some d ∧ k * d < |m - fom i| := by
  obtain ⟨m, nz, -, -, cut0, -, -, hc0, -, hm, hcut⟩ := fomCut_ok _ _ _ _ _ h
  rw [hc0 hall] at hm hcut
  refine ⟨m, hm, ?_⟩
  intro i hi
  rw [hcut, List.mem_filter, List.mem_range]
  simp only [hi, true_and, hall i hi, decide_false, Bool.or_false]
  cases std ((List.range n).map fom) with
  | none => simp [devGt]
  | some d => simp [devGt]

section Ordered
variable [IsStrictOrderedRing R]

/-- With `k` entries at most `m`, an entry above `m` is not further from it than the variance allows. -/
theorem dev_bound (l : List R) (x m : R) (hx : x ∈ l) (hmx : m < x) (k : ℕ)
    (hk : k ≤ l.countP fun y => decide (y ≤ m)) :
    (x - m) ^ 2 * k ≤ (k + 1) * ((l.length : R) * npVar l) := by
  set μ := l.sum / (l.length : R) with hμ
  have hpos : 0 < l.length := List.length_pos_of_mem hx
  have hn : (0 : R) < l.length := by exact_mod_cast hpos
  have hvar : (l.length : R) * npVar l = (l.map fun y => (y - μ) ^ 2).sum := by
    unfold npVar; rw [← hμ, mul_div_cancel₀ _ hn.ne']
  rw [hvar]
  have hk0 : (0 : R) ≤ k := Nat.cast_nonneg k
  by_cases hum : m ≤ μ
  · have := sum_sq_ge l μ m (x - μ) x hx hmx hum rfl
    have hk' : (k : R) ≤ ((l.countP fun y => decide (y ≤ m) : ℕ) : R) := by exact_mod_cast hk
    have h2 : (x - m) ^ 2 * k ≤ (k + 1) * ((x - μ) ^ 2 + k * (μ - m) ^ 2) := by
      nlinarith [sq_nonneg ((x - μ) - k * (μ - m))]
    have h3 : (k : R) * (μ - m) ^ 2 ≤ ((l.countP fun y => decide (y ≤ m) : ℕ) : R) * (μ - m) ^ 2 :=
      mul_le_mul_of_nonneg_right hk' (sq_nonneg _)
    refine le_trans h2 ?_
    apply mul_le_mul_of_nonneg_left _ (by positivity)
    linarith
  · rw [not_le] at hum
    have h1 : (x - μ) ^ 2 ≤ (l.map fun y => (y - μ) ^ 2).sum := by
      apply List.single_le_sum (l := l.map fun y => (y - μ) ^ 2)
      · intro z hz
        obtain ⟨y, _, rfl⟩ := List.mem_map.mp hz
        exact sq_nonneg _
      · exact List.mem_map.mpr ⟨x, hx, rfl⟩
    have h2 : (x - m) ^ 2 ≤ (x - μ) ^ 2 := by
      apply pow_le_pow_left₀ <;> linarith
    have h3 := sq_nonneg (x - μ)
    nlinarith

theorem npVar_neg (l : List R) : npVar (l.map fun x => -x) = npVar l := by
  unfold npVar
  rw [List.length_map, List.map_map]
  have : (l.map fun x => -x).sum = - l.sum := by
    induction l with
    | nil => simp
    | cons a l ih => rw [List.map_cons, List.sum_cons, List.sum_cons, ih]; ring
  rw [this]
  congr 2
  apply List.map_congr_left
  intro x _
  simp only [Function.comp]
  ring

theorem idlMedian_counts (l : List R) (m : R) (h : idlMedian l = .ok m) :
    2 ≤ l.length ∧ (l.length + 1) / 2 + 1 ≤ l.countP (fun y => decide (y ≤ m)) ∧
      l.length / 2 ≤ (l.map fun x => -x).countP (fun y => decide (y ≤ -m)) := by
  unfold idlMedian at h
  split at h
  · rename_i x hx
    cases h
    obtain ⟨hlt, hget⟩ := List.getElem?_eq_some_iff.1 hx
    have hperm : (l.insertionSort (· ≤ ·)).Perm l := List.perm_insertionSort _ l
    have hr := sorted_rank (List.pairwise_insertionSort (· ≤ ·) l) _ hlt
    rw [hget, hperm.countP_eq, hperm.countP_eq] at hr
    have hlen : (l.insertionSort (· ≤ ·)).length = l.length := List.length_insertionSort _ l
    rw [hlen] at hlt
    refine ⟨by omega, hr.2, ?_⟩
    rw [List.countP_map]
    have hsum : l.countP (fun y => decide (y < m)) + l.countP (fun y => !decide (y < m)) = l.length := by
      have := List.length_eq_countP_add_countP (fun y => decide (y < m)) (l := l)
      simp only [decide_not, Bool.decide_eq_true] at this
      omega
    have heq : l.countP ((fun y => decide (y ≤ -m)) ∘ fun x => -x) = l.countP (fun y => !decide (y < m)) := by
      apply List.countP_congr
      intro y _
      simp
    rw [heq]
    omega
  · cases h

/-- Among at most six numbers none is further from the median than three standard deviations. -/
theorem three_sigma_bound (l : List R) (hlen : l.length ≤ 6) (m : R) (hm : idlMedian l = .ok m) (x : R) (hx : x ∈ l) :
    (m - x) ^ 2 ≤ 8 * npVar l := by
  obtain ⟨h2, hc1, hc2⟩ := idlMedian_counts l m hm
  have hv := npVar_nonneg l
  have key : ∀ (k : ℕ) (d : R), 0 < k → l.length * (k + 1) ≤ 8 * k →
      d ^ 2 * k ≤ (k + 1) * ((l.length : R) * npVar l) → d ^ 2 ≤ 8 * npVar l := by
    intro k d hk hle hd
    have hk' : (0 : R) < k := by exact_mod_cast hk
    have hle' : (l.length : R) * (k + 1) ≤ 8 * k := by exact_mod_cast hle
    have h3 := mul_le_mul_of_nonneg_right hle' hv
    have : d ^ 2 * k ≤ (8 * npVar l) * k := by nlinarith
    exact le_of_mul_le_mul_right this hk'
  rcases lt_trichotomy m x with h | h | h
  · have hb := dev_bound l x m hx h _ hc1
    have := key ((l.length + 1) / 2 + 1) (x - m) (by omega) (by
      generalize l.length = n at *
      interval_cases n <;> norm_num) hb
    calc (m - x) ^ 2 = (x - m) ^ 2 := by ring
      _ ≤ _ := this
  · subst h
    simpa using hv
  · have hb := dev_bound (l.map fun x => -x) (-x) (-m) (List.mem_map.2 ⟨x, hx, rfl⟩) (by linarith) _ hc2
    rw [npVar_neg, List.length_map] at hb
    have := key (l.length / 2) (-x - -m) (by omega) (by
      generalize l.length = n at *
      interval_cases n <;> norm_num) hb
    calc (m - x) ^ 2 = (-x - -m) ^ 2 := by ring
      _ ≤ _ := this

theorem npVar_pos (l : List R) (x y : R) (hx : x ∈ l) (hy : y ∈ l) (hne : x ≠ y) : 0 < npVar l := by
  have hn : (0 : R) < l.length := by exact_mod_cast List.length_pos_of_mem hx
  unfold npVar
  set μ := l.sum / (l.length : R)
  apply div_pos _ hn
  have hnn : ∀ z ∈ l.map (fun y => (y - μ) ^ 2), 0 ≤ z := by
    intro z hz
    obtain ⟨y, _, rfl⟩ := List.mem_map.mp hz
    exact sq_nonneg _
  have h1 := List.single_le_sum hnn _ (List.mem_map.2 ⟨x, hx, rfl⟩)
  have h2 := List.single_le_sum hnn _ (List.mem_map.2 ⟨y, hy, rfl⟩)
  rcases eq_or_ne x μ with h | h
  · refine lt_of_lt_of_le ?_ h2
    have : y - μ ≠ 0 := fun hc => hne (h.trans (sub_eq_zero.1 hc).symm)
    positivity
  · refine lt_of_lt_of_le ?_ h1
    have : x - μ ≠ 0 := sub_ne_zero.2 h
    positivity

/-- With at most six tiles, a tile with more than ten usable samples that are not all equal is never flagged, however far its
data are from those of the other tiles. -/
theorem C114_few_tiles_kept (v : VfIn R) (w : Weights) (hstd : IsStd v.std) (o : VfOut) (h : v.visFlag w = .ok o)
    (nt : ℕ) (hnt : v.nTilesUse = some nt) (hsix : nt ≤ 6) (hmem : ∀ t, v.memory t = 0) (mid : ℚ)
    (hmid : idlMedian ((List.range v.obs.nFreq).map v.obs.freq) = .ok mid) (t : ℕ) (ht : t < nt) (p : ℕ)
    (hp : p < v.obs.nPol) (hp2 : p < 2) (hlive : 10 < (tileUsable v mid w p (t + 1)).card)
    (s s' : ℕ × ℕ) (hs : s ∈ tileUsable v mid w p (t + 1)) (hs' : s' ∈ tileUsable v mid w p (t + 1))
    (hne : v.data s.1 s.2 ≠ v.data s'.1 s'.2) : o.tileUse t = v.obs.tileUse t := by
  classical
  obtain ⟨nt', mid', tiles, freqs, hnt', hmid', hfc, -, -, hw, -, htu, -, -⟩ := visFlag_ok v w o h
  rw [hmid] at hmid'
  cases hmid'
  rw [hnt] at hnt'
  cases hnt'
  have hnn : ∀ q, 0 ≤ v.fomPol (v.cutBaselines mid w) q (v.allChannels (v.tileBaselines t)) := by
    intro q
    unfold VfIn.fomPol
    simp only []
    set use := (v.allChannels (v.tileBaselines t)).filter (fun s => decide
        (0 < v.cutBaselines mid w q s.1 s.2 ∧ 0 < v.data s.1 s.2)) with huse
    split_ifs with hl
    · obtain ⟨d, hd, hd0, -⟩ := hstd (use.map fun s => v.data s.1 s.2) (by
        intro hnil
        rw [List.map_eq_nil_iff] at hnil
        rw [hnil] at hl
        simp at hl)
      rw [hd]
      exact hd0
    · exact le_rfl
  have hpos : 0 < v.fomPol (v.cutBaselines mid w) p (v.allChannels (v.tileBaselines t)) := by
    have hmem' := tile_use_mem v mid w p t hp
    unfold VfIn.fomPol
    simp only []
    rw [if_pos]
    · set use := (v.allChannels (v.tileBaselines t)).filter (fun s => decide
        (0 < v.cutBaselines mid w p s.1 s.2 ∧ 0 < v.data s.1 s.2)) with huse
      have hx : v.data s.1 s.2 ∈ use.map fun s => v.data s.1 s.2 := List.mem_map.2 ⟨s, (hmem' s).2 hs, rfl⟩
      have hy : v.data s'.1 s'.2 ∈ use.map fun s => v.data s.1 s.2 := List.mem_map.2 ⟨s', (hmem' s').2 hs', rfl⟩
      have hv := npVar_pos _ _ _ hx hy hne
      obtain ⟨d, hd, hd0, hd1, -⟩ := hstd _ (List.ne_nil_of_mem hx)
      rw [hd]
      simp only [Option.getD_some]
      rcases hd0.lt_or_eq with h0 | h0
      · exact h0
      · rw [← h0] at hd1
        nlinarith
    · refine lt_of_lt_of_le hlive ?_
      refine le_trans (Finset.card_le_card ?_) (List.toFinset_card_le _)
      intro z hz
      rw [List.mem_toFinset]
      exact (hmem' z).2 hz
  have hfom : v.tileFom (v.cutBaselines mid w) t ≠ 0 := by
    unfold VfIn.tileFom
    rw [hmem, zero_add]
    apply ne_of_gt
    refine lt_of_lt_of_le hpos ?_
    apply List.single_le_sum
    · intro z hz
      obtain ⟨q, _, rfl⟩ := List.mem_map.1 hz
      exact hnn q
    · exact List.mem_map.2 ⟨p, List.mem_range.2 (lt_min hp hp2), rfl⟩
  obtain ⟨m, nz, -, -, cut0, -, hin0, -, hl0, hm, hcut⟩ := fomCut_ok _ _ _ _ _ hfc
  have hnot : t ∉ tiles := by
    rw [hcut, List.mem_filter]
    rintro ⟨-, hc⟩
    have h0 := hin0 t ht hfom
    have hxm : v.tileFom (v.cutBaselines mid w) t ∈ cut0.map (v.tileFom (v.cutBaselines mid w)) :=
      List.mem_map.2 ⟨t, h0, rfl⟩
    obtain ⟨d, hd, hd0, hd1, -⟩ := hstd _ (List.ne_nil_of_mem hxm)
    rw [hd] at hc
    simp only [devGt, hfom, decide_false, Bool.or_false, decide_eq_true_eq] at hc
    have hb := three_sigma_bound _ (by rw [List.length_map]; omega) m hm _ hxm
    have hsq : (3 * d) ^ 2 < (m - v.tileFom (v.cutBaselines mid w) t) ^ 2 := by
      rw [← sq_abs (m - _)]
      apply pow_lt_pow_left₀ hc _ two_ne_zero
      linarith
    have hv := npVar_nonneg (cut0.map (v.tileFom (v.cutBaselines mid w)))
    nlinarith
  rw [htu]
  exact if_neg hnot

end Ordered

/-! ## C115 -/

/-- A run that is asked to flag the calibrated visibilities ends with an exception, without a calibration checkpoint and without a
plane: `main` calls `vis_flag` with four arguments instead of five. -/
theorem C115_flagging_ends_run {V File : Type} (S : Stages V File) (c : RunCfg File)
    (f : V → V → V → V → V → Py (V × V)) (hS : S.visFlag = mainVisFlag f) (hflag : c.flagVisibilities = true)
    (hcal : c.calibrate = true) (hck : c.calibrateCheckpoint = none) :
    (∃ e, (mainRun S c).2 = .error e) ∧
      ∀ e ∈ (mainRun S c).1, (∀ x, e ≠ .calCheckpoint x) ∧ (∀ x, e ≠ .gridCheckpoint x) ∧ e ≠ .finished := by
  have hdo : ∀ psf s mdl, ∃ e, doCal S c psf s mdl = .error e := by
    intro psf s mdl
    cases hd : doCal S c psf s mdl with
    | error e => exact ⟨e, rfl⟩
    | ok x =>
      obtain ⟨r, cal⟩ := x
      obtain ⟨cal0, obs0, w1, obs1, w2, obs2, -, -, -, -, -, hv, -⟩ := C94_calibration S c psf s mdl r cal hd
      have := hv hflag
      rw [hS] at this
      simp [mainVisFlag, callVisFlag] at this
  have hrest : ∀ s, (restRun S c s).1 = [] ∧ ∃ e, (restRun S c s).2 = .error e := by
    intro s
    unfold restRun psfPhase
    have hcp : ∀ psf, ∃ e, calPhase S c psf s = ([], .error e) := by
      intro psf
      unfold calPhase
      rw [hck]
      cases s with
      | none => exact ⟨_, rfl⟩
      | some s =>
        simp only []
        cases preCal S c psf s with
        | error e => exact ⟨e, rfl⟩
        | ok x =>
          obtain ⟨s', mdl⟩ := x
          obtain ⟨e, he⟩ := hdo psf s' mdl
          refine ⟨e, ?_⟩
          simp only [Run.lift, Run.bind_ok, hcal, if_true, he, Run.bind_error, List.nil_append]
    rcases S.createPsf with e | _ | psf
    · exact ⟨rfl, e, rfl⟩
    · exact ⟨rfl, _, rfl⟩
    · obtain ⟨e, he⟩ := hcp psf
      simp only [Run.lift, Run.bind_ok, he, Run.bind_error, List.nil_append]
      exact ⟨trivial, e, rfl⟩
  have himp : (importPhase S c).All
      (fun e => (∀ x, e ≠ .calCheckpoint x) ∧ (∀ x, e ≠ .gridCheckpoint x) ∧ e ≠ .finished) := by
    unfold importPhase
    split_ifs
    · refine Run.All.bind ?_ fun _ => Run.All.pure _
      unfold importFresh
      refine (Run.All.lift _).bind fun x => (Run.All.emitIf' fun _ => by simp).bind fun _ =>
        Run.All.bind ?_ fun _ => (Run.All.lift _).bind fun _ => (Run.All.emitIf' fun _ => by simp).bind fun _ =>
        Run.All.pure _
      split_ifs with h1 h2
      · exact Run.All.emit (by simp)
      · exact Run.All.lift _
      · exact Run.All.pure _
    · cases c.obsCheckpoint with
      | none => exact Run.All.pure _
      | some f => exact (Run.All.lift _).bind fun _ => Run.All.pure _
  have hall := Run.All.bind himp (f := fun s => restRun S c s) fun s => by
    intro e he
    rw [(hrest s).1] at he
    simp at he
  refine ⟨?_, hall⟩
  unfold mainRun
  generalize importPhase S c = im
  obtain ⟨t, r⟩ := im
  cases r with
  | error e => exact ⟨e, rfl⟩
  | ok s =>
    obtain ⟨e, he⟩ := (hrest s).2
    refine ⟨e, ?_⟩
    rw [Run.bind_ok]
    exact he

/-! ## Cases -/

/-- A rational square root, rounded. -/
def ratSqrt (q : ℚ) : ℚ := (Nat.sqrt (q.num.toNat * q.den * 10000) : ℚ) / (100 * q.den)

/-- A standard deviation, rounded. -/
def exStd (l : List ℚ) : Option ℚ := if l = [] then none else some (ratSqrt (npVar l))

theorem ratSqrt_spec (q : ℚ) (hq : 0 ≤ q) :
    0 ≤ ratSqrt q ∧ 9 / 10 * q ≤ ratSqrt q ^ 2 ∧ ratSqrt q ^ 2 ≤ 11 / 10 * q := by
  have hd : (0 : ℚ) < q.den := by exact_mod_cast q.den_pos
  set a := q.num.toNat with ha
  have hnum : (a : ℤ) = q.num := Int.toNat_of_nonneg (Rat.num_nonneg.2 hq)
  have hqa : q * q.den = a := by
    have h1 : q * q.den = q.num := Rat.mul_den_eq_num q
    rw [h1, ← hnum]
    rfl
  set N := a * q.den * 10000 with hN
  set k := Nat.sqrt N with hk
  have h1 : k * k ≤ N := Nat.sqrt_le N
  have h2 : N < (k + 1) * (k + 1) := Nat.lt_succ_sqrt N
  have hNq : (N : ℚ) = q * (100 * q.den) ^ 2 := by
    rw [hN]
    push_cast
    rw [← hqa]
    ring
  have hval : ratSqrt q ^ 2 = (k : ℚ) ^ 2 / (100 * q.den) ^ 2 := by
    unfold ratSqrt
    rw [div_pow]
  have hpos : (0 : ℚ) < (100 * q.den) ^ 2 := by positivity
  refine ⟨by unfold ratSqrt; positivity, ?_, ?_⟩
  · rw [hval, le_div_iff₀ hpos, mul_assoc, ← hNq]
    have hnat : 9 * N ≤ 10 * (k * k) := by
      rcases Nat.eq_zero_or_pos a with h0 | h0
      · rw [hN, h0]; simp
      · have hN1 : 10000 ≤ N := by
          rw [hN]
          have := Nat.mul_pos h0 q.den_pos
          omega
        have hk1 : 100 ≤ k := by
          by_contra hc
          have : k + 1 ≤ 100 := by omega
          nlinarith
        nlinarith
    have : (9 : ℚ) * N ≤ 10 * (k * k) := by exact_mod_cast hnat
    nlinarith
  · rw [hval, div_le_iff₀ hpos, mul_assoc, ← hNq]
    have : (k : ℚ) * k ≤ N := by exact_mod_cast h1
    have : (0 : ℚ) ≤ N := Nat.cast_nonneg N
    nlinarith

theorem exStd_isStd : IsStd exStd := by
  intro l hl
  obtain ⟨h1, h2, h3⟩ := ratSqrt_spec (npVar l) (npVar_nonneg l)
  exact ⟨_, by simp [exStd, hl], h1, h2, h3⟩

/-- Five tiles, two channels, two times of ten baselines; the data of the fifth tile are a thousand times those of the others. -/
def exVf (m : ℕ → ℚ) : VfIn ℚ where
  obs := { nPol := 1, nFreq := 2, nTile := 5, nTime := 2, dimension := 8, elements := 8, kpix := 1, minBaseline := 2,
           maxBaseline := 100, freq := fun f => (f : ℚ) + 1, freqUse := fun _ => 1, tileUse := fun _ => 1,
           timeUse := fun _ => 1,
           tileA := [1, 1, 1, 1, 2, 2, 2, 3, 3, 4, 1, 1, 1, 1, 2, 2, 2, 3, 3, 4],
           tileB := [2, 3, 4, 5, 3, 4, 5, 4, 5, 5, 2, 3, 4, 5, 3, 4, 5, 4, 5, 5], binOffset := fun t => 10 * t,
           tileNames := ["a", "b", "c", "d", "e"] }
  uu := fun b => b + 1
  vv := fun _ => 0
  norm := fun x y => |x| + |y|
  data := fun f b => if b ∈ [3, 6, 8, 9, 13, 16, 18, 19] then 1000 * ((f : ℚ) + b) else (f : ℚ) + b + 1
  std := exStd
  memory := m

/-- What can be compared of a result. -/
def VfOut.seen (o : VfOut) : List ℤ × List ℤ × ℕ :=
  ((List.range 5).map o.tileUse, (List.range 2).map o.freqUse, o.nVis)

-- the run returns; no tile is flagged, although the last has data a thousand times larger
example : ((exVf 0).visFlag fun _ _ _ => 1).map VfOut.seen = .ok ([1, 1, 1, 1, 1], [1, 1], 40) := by decide +kernel

/-- The figures of merit of the tiles. -/
def exPart : ℕ → ℚ := (exVf 0).tileFom fun _ _ _ => 1

-- other contents of the memory, same data: the first tile is flagged
example : ((exVf fun t => if t = 0 then - exPart 0 else 0).visFlag fun _ _ _ => 1).map VfOut.seen =
    .ok ([0, 1, 1, 1, 1], [1, 1], 24) := by decide +kernel

-- a tile without weights is flagged if the memory is zero, and not with other contents
example : ((exVf 0).visFlag fun _ _ b => if b ∈ [0, 1, 2, 3, 10, 11, 12, 13] then 0 else 1).map VfOut.seen =
    .ok ([0, 1, 1, 1, 1], [1, 1], 24) := by decide +kernel
example : ((exVf fun _ => 1).visFlag fun _ _ b => if b ∈ [0, 1, 2, 3, 10, 11, 12, 13] then 0 else 1).map VfOut.seen =
    .ok ([1, 1, 1, 1, 1], [1, 1], 24) := by decide +kernel

-- a baseline out of range
example : (({ exVf 0 with uu := fun b => if b = 0 then 1 / 2 else b + 1 } : VfIn ℚ).visFlag fun _ _ _ => 1).map VfOut.seen =
    .ok ([1, 1, 1, 1, 1], [1, 1], 38) := by decide +kernel

-- a time step without weights ends the call
example : ((exVf 0).visFlag fun _ _ b => if 10 ≤ b then 0 else 1).map VfOut.seen = .error .indexError := by
  decide +kernel

-- one of three time steps without weights: an attribute that does not exist
example : (({ exVf 0 with obs := { (exVf 0).obs with
      nTime := 3, tileA := (exVf 0).obs.tileA ++ [1], tileB := (exVf 0).obs.tileB ++ [2] } } : VfIn ℚ).visFlag
    fun _ _ _ => 1).map VfOut.seen = .error .attributeError := by decide +kernel

-- the hypotheses of C114: five tiles, a rounded standard deviation, data that differ
example : IsStd (exVf 0).std ∧ (exVf 0).nTilesUse = some 5 ∧ (∀ t, (exVf 0).memory t = 0) ∧
    idlMedian ((List.range (exVf 0).obs.nFreq).map (exVf 0).obs.freq) = .ok 2 :=
  ⟨exStd_isStd, by decide +kernel, fun _ => rfl, by decide +kernel⟩

-- all figures of merit different from zero, the last far from the others: not flagged among five, flagged among eleven
example : fomCut exStd 3 5 (fun i => if i = 4 then 1000000 else (i : ℚ) + 1) = .ok [] := by decide +kernel
example : fomCut exStd 3 11 (fun i => if i = 10 then 1000000 else (i : ℚ) + 1) = .ok [10] := by decide +kernel
-- two outliers among eleven hide each other
example : fomCut exStd 3 11 (fun i => if 9 ≤ i then 1000000 else (i : ℚ) + 1) = .ok [] := by decide +kernel

-- the run of C115
example : (mainRun { exStages with visFlag := mainVisFlag fun _ w o _ _ => .ok (w, o) }
    { exCfg with flagVisibilities := true }).2 = .error .typeError := by decide +kernel

end PyFHD
