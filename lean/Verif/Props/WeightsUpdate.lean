import Verif.Lemmas.Flagging
import Mathlib.Data.Finset.Card
import Mathlib.Data.List.ProdSigma

/-!
# C16 - C18: `vis_weights_update`
-/

namespace PyFHD

open Spec

theorem samples_eq (nf nb : ℕ) : samples nf nb = (List.range nf).product (List.range nb) := rfl

theorem mem_samples (nf nb : ℕ) (s : ℕ × ℕ) : s ∈ samples nf nb ↔ s.1 < nf ∧ s.2 < nb := by
  obtain ⟨a, b⟩ := s
  rw [samples_eq, List.pair_mem_product]; simp

theorem countP_samples (o : FlagObs) (P : ℕ × ℕ → Prop) [DecidablePred P] :
    (samples o.nFreq o.nBl).countP (fun s => decide (P s)) = ((allSamples o).filter P).card := by
  have hnd : (samples o.nFreq o.nBl).Nodup := by
    rw [samples_eq]; exact List.Nodup.product List.nodup_range List.nodup_range
  rw [List.countP_eq_length_filter]
  rw [← List.toFinset_card_of_nodup (hnd.filter _)]
  congr 1
  ext ⟨a, b⟩
  simp [mem_samples, allSamples]

/-- What `vis_weights_update` zeroes in the samples that exist. -/
def vwuZero (o : FlagObs) (q : UvParams) (f b : ℕ) : Prop :=
  o.freqUse f = 0 ∨ tileZero o b = true ∨ (∃ t, InStep o o.nBl t b ∧ o.timeUse t = 0) ∨
    OutOfRange o q f b ∨ OffGrid o q f b

open Classical in
theorem visWeightsUpdate_spec (o : FlagObs) (q : UvParams) (w : Weights) (h0 : o.tileA ≠ [])
    (hl : o.tileB.length = o.tileA.length) (ho : GoodOffsets o o.nBl) (hf : 0 < o.nFreq) :
    ∃ r, visWeightsUpdate o q w = .ok r ∧
      (∀ p f b, b < o.nBl → r.weights p f b =
        if p < o.nPol ∧ vwuZero o q f b then 0 else w p f b) ∧
      (0 < o.nPol → r.nVis = ((allSamples o).filter fun s => 0 < r.weights 0 s.1 s.2).card) := by
  have hb0 : 0 < o.nBl := List.length_pos_iff.2 h0
  unfold visWeightsUpdate
  simp only [tileStep o _ h0 hl, bind, Except.bind]
  set w3 := zeroWhere o.nPol (zeroWhere o.nPol (zeroWhere o.nPol w fun f _ =>
    decide (o.freqUse f = 0)) fun _ b => tileZero o b) fun _ b =>
    decide (o.timeUse (timeBin o b) = 0 ∧ 0 < o.nTime) with hw3
  set w4 := zeroWhere o.nPol w3 fun f b => decide ((vwuMin o q f b).1 < 0) with hw4
  have hmin : ∀ f b, (vwuMin o q f b).1 < 0 ↔ (OutOfRange o q f b ∨ OffGrid o q f b) := by
    intro f b
    rcases vwuMin_spec o q f b with ⟨h, h'⟩ | ⟨h1, h2, h3⟩
    · rw [h]; simp [h']
    · simp only [h3, iff_false]; linarith
  have hweights : ∀ p f b, b < o.nBl → w4 p f b =
      if p < o.nPol ∧ vwuZero o q f b then 0 else w p f b := by
    intro p f b hb
    have ht := timeBin_iff ho hb
    simp only [hw4, hw3, zeroWhere, decide_eq_true_eq, hmin, ht, vwuZero]
    by_cases hp : p < o.nPol
    · simp only [hp, true_and]
      by_cases c1 : o.freqUse f = 0 <;> by_cases c2 : tileZero o b = true <;>
        by_cases c3 : (∃ t, InStep o o.nBl t b ∧ o.timeUse t = 0) <;>
        by_cases c4 : (OutOfRange o q f b ∨ OffGrid o q f b) <;> simp only [c1, c2, c3, c4] <;> simp
    · simp [hp]
  -- the values handed to the histogram
  set xy : ℕ × ℕ → ℚ × ℚ := fun s =>
    if w3 0 s.1 s.2 ≤ 0 then (-1, -1) else vwuMin o q s.1 s.2 with hxy
  have hpos : 0 < o.nPol → ∀ s, (0 < w4 0 s.1 s.2 → 0 < (xy s).1 ∧ 0 < (xy s).2) ∧
      (¬ 0 < w4 0 s.1 s.2 → xy s = (-1, -1)) := by
    intro hp s
    have e4 : w4 0 s.1 s.2 = if (vwuMin o q s.1 s.2).1 < 0 then 0 else w3 0 s.1 s.2 := by
      simp only [hw4, zeroWhere, hp, true_and, decide_eq_true_eq]
    rw [e4]
    constructor
    · intro h
      split_ifs at h with hm
      · exact absurd h (lt_irrefl _)
      · simp only [hxy]
        rw [if_neg (not_le.2 h)]
        rcases vwuMin_spec o q s.1 s.2 with ⟨h, _⟩ | ⟨h1, h2, _⟩
        · rw [h] at hm; norm_num at hm
        · exact ⟨h1, h2⟩
    · intro h
      simp only [hxy]
      by_cases h3 : w3 0 s.1 s.2 ≤ 0
      · rw [if_pos h3]
      · rw [if_neg h3]
        split_ifs at h with hm
        · rcases vwuMin_spec o q s.1 s.2 with ⟨h, _⟩ | ⟨h1, h2, _⟩
          · exact h
          · linarith
        · exact absurd (not_le.1 h3) h
  have hne : samples o.nFreq o.nBl ≠ [] :=
    List.ne_nil_of_mem ((mem_samples _ _ (0, 0)).2 ⟨hf, hb0⟩)
  obtain ⟨mx, hmx⟩ := listMax?_isSome (l := (samples o.nFreq o.nBl).map fun s => (xy s).1)
    (by simpa using hne)
  obtain ⟨my, hmy⟩ := listMax?_isSome (l := (samples o.nFreq o.nBl).map fun s => (xy s).2)
    (by simpa using hne)
  have hmx' : listMax? ((samples o.nFreq o.nBl).map fun s =>
    (if w3 0 s.1 s.2 ≤ 0 then ((-1 : ℚ), (-1 : ℚ)) else vwuMin o q s.1 s.2).1) = some mx := hmx
  have hmy' : listMax? ((samples o.nFreq o.nBl).map fun s =>
    (if w3 0 s.1 s.2 ≤ 0 then ((-1 : ℚ), (-1 : ℚ)) else vwuMin o q s.1 s.2).2) = some my := hmy
  simp only [hmx', hmy']
  by_cases hearly : min mx my < 0
  · rw [if_pos hearly]
    refine ⟨_, rfl, hweights, ?_⟩
    intro hp
    symm
    simp only [Finset.card_eq_zero, Finset.filter_eq_empty_iff]
    rintro s hs hlt
    have hmem : s ∈ samples o.nFreq o.nBl := by
      rw [mem_samples]; simpa [allSamples] using hs
    obtain ⟨h1, h2⟩ := (hpos hp s).1 hlt
    have l1 := (listMax?_spec _ _ hmx).2 _ (List.mem_map_of_mem hmem)
    have l2 := (listMax?_spec _ _ hmy).2 _ (List.mem_map_of_mem hmem)
    rcases min_lt_iff.1 hearly with h | h <;> linarith
  · rw [if_neg hearly]
    set data := (samples o.nFreq o.nBl).map fun s => (xy s).1 + (xy s).2 * o.dimension with hdata
    obtain ⟨mz, hmz⟩ := listMax?_isSome (l := data) (by simpa [hdata] using hne)
    have hle : (0 : ℚ) ≤ if (0 : ℚ) > mz then 0 else mz := by split_ifs <;> linarith
    obtain ⟨r, hr, hs⟩ := histogramCore_spec data one_pos hle
    have hh : histogram data 1 none (some 0) none = .ok r := by
      simp only [histogram, Option.orElse_some, Option.orElse_none, hmz, hr]
    have hh' : histogram ((samples o.nFreq o.nBl).map fun s =>
      (if w3 0 s.1 s.2 ≤ 0 then ((-1 : ℚ), (-1 : ℚ)) else vwuMin o q s.1 s.2).1 +
      (if w3 0 s.1 s.2 ≤ 0 then ((-1 : ℚ), (-1 : ℚ)) else vwuMin o q s.1 s.2).2 * o.dimension)
      1 none (some 0) none = .ok r := hh
    rw [hh']
    refine ⟨_, rfl, hweights, ?_⟩
    intro hp
    simp only
    rw [hs.sum one_pos, hdata, List.countP_map, ← countP_samples]
    refine List.countP_congr fun s hmem => ?_
    simp only [Function.comp, decide_eq_true_eq]
    have hz := (listMax?_spec _ _ hmz).2 ((xy s).1 + (xy s).2 * o.dimension)
      (List.mem_map_of_mem (f := fun s => (xy s).1 + (xy s).2 * (o.dimension : ℚ)) hmem)
    have hd : (0 : ℚ) ≤ o.dimension := Nat.cast_nonneg _
    unfold InRange
    constructor
    · rintro ⟨h1, _⟩
      by_contra hc
      rw [(hpos hp s).2 hc] at h1
      linarith
    · intro h
      obtain ⟨h1, h2⟩ := (hpos hp s).1 h
      have : 0 ≤ (xy s).2 * o.dimension := mul_nonneg h2.le hd
      refine ⟨by linarith, ?_⟩
      split_ifs <;> linarith

theorem tileZero_of_flagged {o : FlagObs} (hl : o.tileB.length = o.tileA.length) {b : ℕ}
    (h : TileFlagged o b) : tileZero o b = true := by
  have hm := (mem_matchPositions_tileCut o hl b).2 h
  have hc : tileCut o ≠ [] := by
    obtain ⟨v, hv, _⟩ := h
    exact List.ne_nil_of_mem ((mem_tileCut o v).2 hv)
  unfold tileZero
  rw [if_neg hc, if_neg (List.ne_nil_of_mem hm)]
  simpa using hm

/-- **C16**, the safe direction, in full: the call succeeds; no weight becomes anything but itself
or zero; every sample that has to be flagged ends with weight zero in every polarisation. -/
theorem C16_update_never_unflags (o : FlagObs) (q : UvParams) (w : Weights) (h0 : o.tileA ≠ [])
    (hl : o.tileB.length = o.tileA.length) (ho : GoodOffsets o o.nBl) (hf : 0 < o.nFreq) :
    ∃ r, visWeightsUpdate o q w = .ok r ∧
      ∀ p f b, b < o.nBl →
        (r.weights p f b = w p f b ∨ r.weights p f b = 0) ∧
        (p < o.nPol → MustFlag o q f b → r.weights p f b = 0) := by
  obtain ⟨r, h1, h2, _⟩ := visWeightsUpdate_spec o q w h0 hl ho hf
  refine ⟨r, h1, fun p f b hb => ?_⟩
  rw [h2 p f b hb]
  constructor
  · split_ifs <;> simp
  · intro hp hm
    rw [if_pos]
    refine ⟨hp, ?_⟩
    rcases hm with h | h | h | h | h
    · exact Or.inl h
    · exact Or.inr (Or.inl (tileZero_of_flagged hl h))
    · exact Or.inr (Or.inr (Or.inl h))
    · exact Or.inr (Or.inr (Or.inr (Or.inl h)))
    · exact Or.inr (Or.inr (Or.inr (Or.inr h)))

/-- **C16**, the exact effect, partial: a sample that need not be flagged keeps its weight provided
no tile is unused, or some unused tile has a baseline. What is missing is the remaining case, in
which the claim is false (`C17_last_baseline_zeroed`). -/
theorem C16_update_keeps_others_partial (o : FlagObs) (q : UvParams) (w : Weights)
    (h0 : o.tileA ≠ []) (hl : o.tileB.length = o.tileA.length) (ho : GoodOffsets o o.nBl)
    (hf : 0 < o.nFreq)
    (htile : (∀ v, ¬ UnusedTile o v) ∨ ∃ b, TileFlagged o b) :
    ∃ r, visWeightsUpdate o q w = .ok r ∧
      ∀ p f b, b < o.nBl → ¬ MustFlag o q f b → r.weights p f b = w p f b := by
  obtain ⟨r, h1, h2, _⟩ := visWeightsUpdate_spec o q w h0 hl ho hf
  refine ⟨r, h1, fun p f b hb hm => ?_⟩
  rw [h2 p f b hb, if_neg]
  rintro ⟨_, hz⟩
  apply hm
  rcases hz with h | h | h | h | h
  · exact Or.inl h
  · right; left
    unfold tileZero at h
    by_cases hc : tileCut o = []
    · rw [if_pos hc] at h; exact absurd h (by simp)
    · rw [if_neg hc] at h
      rcases htile with hn | ⟨b', hb'⟩
      · exact absurd (List.eq_nil_iff_forall_not_mem.2 fun v hv => hn v ((mem_tileCut o v).1 hv)) hc
      · rw [if_neg (List.ne_nil_of_mem ((mem_matchPositions_tileCut o hl b').2 hb'))] at h
        exact (mem_matchPositions_tileCut o hl b).1 (by simpa using h)
  · exact Or.inr (Or.inr (Or.inl h))
  · exact Or.inr (Or.inr (Or.inr (Or.inl h)))
  · exact Or.inr (Or.inr (Or.inr (Or.inr h)))

/-- **C17** is violated: if some tile is unused but no unused tile takes part in any baseline, then
the last sample is zeroed at every frequency and polarisation although nothing requires it. -/
theorem C17_last_baseline_zeroed (o : FlagObs) (q : UvParams) (w : Weights) (h0 : o.tileA ≠ [])
    (hl : o.tileB.length = o.tileA.length) (ho : GoodOffsets o o.nBl) (hf : 0 < o.nFreq)
    (v : ℤ) (hv : UnusedTile o v) (hno : ∀ b, ¬ TileFlagged o b) :
    ∃ r, visWeightsUpdate o q w = .ok r ∧
      ∀ p f, p < o.nPol → r.weights p f (o.nBl - 1) = 0 := by
  obtain ⟨r, h1, h2, _⟩ := visWeightsUpdate_spec o q w h0 hl ho hf
  have hb0 : 0 < o.nBl := List.length_pos_iff.2 h0
  refine ⟨r, h1, fun p f hp => ?_⟩
  rw [h2 p f _ (by omega), if_pos]
  refine ⟨hp, Or.inr (Or.inl ?_)⟩
  unfold tileZero
  rw [if_neg (List.ne_nil_of_mem ((mem_tileCut o v).2 hv)), if_pos]
  · simp; omega
  · exact List.eq_nil_iff_forall_not_mem.2 fun b hb =>
      hno b ((mem_matchPositions_tileCut o hl b).1 hb)

/-- **C17**, the part that holds: all samples but the last are not affected by unused tiles without
baselines. Missing: the last sample. -/
theorem C17_other_baselines_kept_partial (o : FlagObs) (q : UvParams) (w : Weights)
    (h0 : o.tileA ≠ []) (hl : o.tileB.length = o.tileA.length) (ho : GoodOffsets o o.nBl)
    (hf : 0 < o.nFreq) (hno : ∀ b, ¬ TileFlagged o b) :
    ∃ r, visWeightsUpdate o q w = .ok r ∧
      ∀ p f b, b + 1 < o.nBl → ¬ MustFlag o q f b → r.weights p f b = w p f b := by
  obtain ⟨r, h1, h2, _⟩ := visWeightsUpdate_spec o q w h0 hl ho hf
  refine ⟨r, h1, fun p f b hb hm => ?_⟩
  rw [h2 p f b (by omega), if_neg]
  rintro ⟨_, hz⟩
  apply hm
  rcases hz with h | h | h | h | h
  · exact Or.inl h
  · exfalso
    unfold tileZero at h
    have hnil : matchPositions o.tileA o.tileB (tileCut o) = [] :=
      List.eq_nil_iff_forall_not_mem.2 fun b hb => hno b ((mem_matchPositions_tileCut o hl b).1 hb)
    rw [if_pos hnil] at h
    split_ifs at h
    simp at h; omega
  · exact Or.inr (Or.inr (Or.inl h))
  · exact Or.inr (Or.inr (Or.inr (Or.inl h)))
  · exact Or.inr (Or.inr (Or.inr (Or.inr h)))

/-- **C18.** `n_vis` is the number of samples whose updated weight in the first polarisation is
positive; these have a footprint inside the grid. -/
theorem C18_n_vis (o : FlagObs) (q : UvParams) (w : Weights) (h0 : o.tileA ≠ [])
    (hl : o.tileB.length = o.tileA.length) (ho : GoodOffsets o o.nBl) (hf : 0 < o.nFreq)
    (hp : 0 < o.nPol) :
    ∃ r, visWeightsUpdate o q w = .ok r ∧
      r.nVis = ((allSamples o).filter fun s => 0 < r.weights 0 s.1 s.2).card ∧
      ∀ s ∈ allSamples o, 0 < r.weights 0 s.1 s.2 → ¬ OffGrid o q s.1 s.2 := by
  obtain ⟨r, h1, h2, h3⟩ := visWeightsUpdate_spec o q w h0 hl ho hf
  refine ⟨r, h1, h3 hp, fun s hs hpos hoff => ?_⟩
  have hb : s.2 < o.nBl := by
    have : s.1 < o.nFreq ∧ s.2 < o.nBl := by simpa [allSamples] using hs
    exact this.2
  rw [h2 0 s.1 s.2 hb, if_pos ⟨hp, Or.inr (Or.inr (Or.inr (Or.inr hoff)))⟩] at hpos
  exact lt_irrefl _ hpos

/-- A small observation: two time steps, three baselines of four tiles each, tile 4 only in the
second and third. -/
def exObs (tileUse : ℕ → ℤ) (timeUse : ℕ → ℤ) : FlagObs where
  nPol := 2
  nFreq := 2
  nTile := 5
  nTime := 2
  dimension := 20
  elements := 20
  kpix := 1
  minBaseline := 0
  maxBaseline := 100
  freq := fun f => 1 + f
  freqUse := fun _ => 1
  tileUse := tileUse
  timeUse := timeUse
  tileA := [1, 1, 2, 1, 1, 2]
  tileB := [2, 4, 4, 2, 4, 4]
  binOffset := fun t => 3 * t
  tileNames := ["a", "b", "c", "d", "e"]

def exUv : UvParams where
  uu := fun b => b
  vv := fun b => 2 - (b : ℚ)
  norm := fun x y => |x| + |y|
  psfDim := 4

theorem exObs_good (a b : ℕ → ℤ) : GoodOffsets (exObs a b) (exObs a b).nBl :=
  ⟨rfl, fun s t h _ => by simp only [exObs]; omega,
    fun t h => by simp only [exObs, FlagObs.nBl] at *; simp; omega⟩

/-- The hypotheses of C16 and C18 are met; tile 4 is flagged, as is the second time step, so only
the first baseline survives; at the second frequency it stays inside the grid. -/
example : (visWeightsUpdate (exObs (fun t => if t = 3 then 0 else 1) fun t => 1 - (t : ℤ)) exUv
      fun _ _ _ => 1).map (fun r => (r.nVis, (List.range 6).map (r.weights 1 1)))
    = .ok (2, [1, 0, 0, 0, 0, 0]) := by decide +kernel

example : TileFlagged (exObs (fun t => if t = 3 then 0 else 1) fun _ => 1) 1 :=
  ⟨4, ⟨3, by decide +kernel, by decide +kernel, by norm_num⟩, Or.inr rfl⟩

/-- Tile 3 (and 5) have no baseline: C17 fails on the last sample. -/
example : (visWeightsUpdate (exObs (fun t => if t = 2 then 0 else 1) fun _ => 1) exUv
      fun _ _ _ => 1).map (fun r => (r.nVis, (List.range 6).map (r.weights 0 0)))
    = .ok (9, [1, 1, 1, 1, 1, 0]) := by decide +kernel

example : UnusedTile (exObs (fun t => if t = 2 then 0 else 1) fun _ => 1) 3 :=
  ⟨2, by decide +kernel, by decide +kernel, by norm_num⟩

end PyFHD
