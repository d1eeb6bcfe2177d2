import Verif.Props.Flagging

/-!
# C251 - C253: weights that are split or flagged again, and the range of frequencies
-/

namespace PyFHD

open Spec

/-! ## C251 -/

theorem cutLonger_length (e d : List ℕ) : (cutLonger e d).1.length = (cutLonger e d).2.length := by
  unfold cutLonger
  split_ifs <;> simp <;> omega

theorem cutLonger_sub (e d : List ℕ) :
    (cutLonger e d).1.Sublist e ∧ (cutLonger e d).2.Sublist d := by
  unfold cutLonger
  split_ifs
  · exact ⟨List.Sublist.refl _, List.take_sublist _ _⟩
  · exact ⟨List.take_sublist _ _, List.Sublist.refl _⟩
  · exact ⟨List.Sublist.refl _, List.Sublist.refl _⟩

theorem getD_at {l : List ℕ} {k : ℕ} (h : k < l.length) : l.getD k 0 = l[k] := by
  simp [List.getD, h]

/-- Splitting weights with given lists of samples that have no sample in common, twice. -/
theorem splitApply_twice (o : FlagObs) (w : Weights) (e d : List ℕ) (hl : e.length = d.length)
    (hed : ∀ b ∈ e, b ∉ d) (he : e.Nodup) (hd : d.Nodup) :
    splitApply o (splitApply o w e d) e d = splitApply o w e d := by
  have key : ∀ p f k, p < o.nPol → k < e.length →
      flagUse (splitApply o w e d) e d p f k = flagUse w e d p f k := by
    intro p f k hp hk
    have hk' : k < d.length := hl ▸ hk
    have h1 : splitApply o w e d p f (e.getD k 0) = flagUse w e d p f k := by
      have hm : e.getD k 0 ∈ e := by rw [getD_at hk]; exact List.getElem_mem hk
      have hi : e.idxOf (e.getD k 0) = k := by
        rw [getD_at hk]; exact he.idxOf_getElem k hk
      simp only [splitApply, hp, if_true, hed _ hm, if_false, hm, hi]
    have h2 : splitApply o w e d p f (d.getD k 0) = flagUse w e d p f k := by
      have hm : d.getD k 0 ∈ d := by rw [getD_at hk']; exact List.getElem_mem hk'
      have hi : d.idxOf (d.getD k 0) = k := by
        rw [getD_at hk']; exact hd.idxOf_getElem k hk'
      simp only [splitApply, hp, if_true, hm, hi]
    have h3 : flagUse w e d p f k ≤ 1 := (min_le_right _ _).trans (min_le_right _ _)
    have h4 : flagUse (splitApply o w e d) e d p f k =
        min (max (flagUse w e d p f k) 0) (min (flagUse w e d p f k) 1) := by
      conv_lhs => unfold flagUse
      rw [h1, h2]
    rw [h4, min_eq_left h3, min_eq_right (le_max_left _ _)]
  funext p f b
  by_cases hp : p < o.nPol
  · by_cases hb : b ∈ d
    · have h1 : ∀ w' : Weights, splitApply o w' e d p f b = flagUse w' e d p f (d.idxOf b) := by
        intro w'; simp only [splitApply, hp, if_true, hb]
      rw [h1, h1, key _ _ _ hp (hl ▸ List.idxOf_lt_length_iff.2 hb)]
    · by_cases hb' : b ∈ e
      · have h1 : ∀ w' : Weights, splitApply o w' e d p f b = flagUse w' e d p f (e.idxOf b) := by
          intro w'; simp only [splitApply, hp, if_true, hb, if_false, hb']
        rw [h1, h1, key _ _ _ hp (List.idxOf_lt_length_iff.2 hb')]
      · simp only [splitApply, hp, if_true, hb, if_false, hb']
  · simp only [splitApply, hp, if_false]

/-- **C251.** Splitting the weights that a split returned gives the same weights and the same two
lists of samples. -/
theorem C251_split_again (o : FlagObs) (nb : ℕ) (w w' : Weights) (e d : List ℕ)
    (h : splitVisWeights o nb w = .ok (.pair w' e d)) :
    splitVisWeights o nb w' = .ok (.pair w' e d) := by
  unfold splitVisWeights at h ⊢
  by_cases hn : o.nTime < 2
  · rw [if_pos hn] at h; cases h
  · rw [if_neg hn] at h ⊢
    cases hf : (List.range o.nTime).find? fun t => o.timeUse t ≠ 0 with
    | none => rw [hf] at h; cases h
    | some start =>
      rw [hf] at h
      simp only [Except.ok.injEq, SplitResult.pair.injEq] at h ⊢
      obtain ⟨h1, h2, h3⟩ := h
      have hs := cutLonger_sub (evenAll o nb start) (oddAll o nb start)
      have hl := cutLonger_length (evenAll o nb start) (oddAll o nb start)
      refine ⟨?_, h2, h3⟩
      rw [← h1]
      apply splitApply_twice o w _ _ hl
      · intro b hb hb'
        have h4 := hs.1.subset hb
        have h5 := hs.2.subset hb'
        simp only [evenAll, oddAll, List.mem_filter, decide_eq_true_eq] at h4 h5
        omega
      · exact hs.1.nodup (List.nodup_range.filter _)
      · exact hs.2.nodup (List.nodup_range.filter _)

/-- Four time steps of one baseline each in two polarisations. -/
def exSplitTwice : FlagObs := { exBasic 1 with
  nTime := 4, timeUse := fun _ => 1, tileA := [1, 1, 1, 1], tileB := [2, 2, 2, 2],
  binOffset := fun t => t }

example : ∃ w' e d, splitVisWeights exSplitTwice 4 (fun _ _ b => 3 - b) = .ok (.pair w' e d) ∧
    e = [0] ∧ d = [1] ∧ w' 0 0 0 = 1 := ⟨_, _, _, rfl, by decide +kernel⟩

/-! ## C252 -/

/-- The frequency of channel `f` is out of the range asked for by `flag_freq_start` and
`flag_freq_end` (MHz). -/
def Spec.FreqOut (o : FlagObs) (c : FlagConfig) (f : ℕ) : Prop :=
  (∃ s, c.freqStart = some s ∧ o.freq f / 1000000 < s) ∨
    (∃ s, c.freqEnd = some s ∧ s < o.freq f / 1000000)

/-- Sample `b` belongs to a time step that is not in use (without the last sample of it, C20). -/
def Spec.TimeFlagged (o : FlagObs) (b : ℕ) : Prop :=
  ∃ t, t < o.nTime ∧ o.timeUse t ≤ 0 ∧ o.binOffset t ≤ b ∧ b + 1 < stepEnd o o.nBl t

theorem weights_if (A : Prop) [Decidable A] (W : Weights) (T : ℕ → Prop) [DecidablePred T]
    (p f b : ℕ) (h : ¬ T b) :
    (if A then fun p f b => if T b then 0 else W p f b else W) p f b = W p f b := by
  split
  · exact if_neg h
  · rfl

/-- Every weight that `vis_flag_basic` returns. -/
theorem visFlagBasic_weights (o : FlagObs) (c : FlagConfig) (v : ℕ → ℕ → ℕ → Bool) (w w1 : Weights)
    (h1 : basicWeights1 o c w = .ok w1) (hg : GoodTiles o) (hf : 0 < o.nFreq) (hb : 0 < o.nBl) :
    ∃ r, visFlagBasic o c v w = .ok r ∧
      (∀ p f b, TimeFlagged o b → r.weights p f b = 0) ∧
      (c.flagFrequencies = true → ∀ p f b, ¬ TimeFlagged o b → r.weights p f b = w1 p f b) ∧
      (c.flagFrequencies = false → ∀ p f b, p < o.nPol → f < o.nFreq → ¬ TimeFlagged o b →
        r.weights p f b = if (∀ b', b' < o.nBl → w1 p f b' ≤ 0) ∧
          (∃ g, g < o.nFreq ∧ 0 < w1 p g b) ∧ v p f b = true then 1 else w1 p f b) := by
  obtain ⟨r, hr, hs⟩ := visFlagBasic_spec o c v w w1 h1 hg hf hb
  refine ⟨r, hr, hs.zeroed, fun hff p f b ht => ?_, fun hff p f b hp hfn ht => ?_⟩
  · rcases hs.others p f b ht with h | ⟨h, _⟩
    · exact h
    · rw [hff] at h; cases h
  · unfold visFlagBasic at hr
    simp only [h1, bind, Except.bind, pure, Except.pure] at hr
    rw [if_neg (by omega)] at hr
    split at hr
    · cases hr
    rename_i hx
    have hr' := congrArg BasicResult.weights (Except.ok.inj hr)
    clear hr hs
    simp only at hr'
    rw [← hr']
    have ht' : ¬ ((List.range o.nTime).any fun t => decide (o.timeUse t ≤ 0 ∧ o.binOffset t ≤ b ∧
        b < (if t + 1 < o.nTime then o.binOffset (t + 1) else o.nBl) - 1)) = true := by
      intro h
      rw [List.any_eq_true] at h
      obtain ⟨t, h3, h4⟩ := h
      rw [decide_eq_true_eq] at h4
      refine ht ⟨t, List.mem_range.1 h3, h4.1, h4.2.1, ?_⟩
      unfold stepEnd
      omega
    have hc : chanHas w1 o.nBl p f = false ↔ ∀ b', b' < o.nBl → w1 p f b' ≤ 0 := by
      rw [← Bool.not_eq_true, chanHas_iff]
      push Not
      rfl
    have hbl := blHas_iff w1 o.nFreq p b
    refine (weights_if _ _ _ p f b ht').trans ?_
    by_cases hch : chanHas w1 o.nBl p f = false
    · have hany : ((List.range o.nFreq).any fun f =>
          !((List.range o.nPol).all fun p => chanHas w1 o.nBl p f)) = true := by
        rw [List.any_eq_true]
        refine ⟨f, List.mem_range.2 hfn, ?_⟩
        rw [Bool.not_eq_true', List.all_eq_false]
        exact ⟨p, List.mem_range.2 hp, by rw [hch]; simp⟩
      have hiff : (chanHas w1 o.nBl p f = false ∧ blHas w1 o.nFreq p b = true ∧ v p f b = true) ↔
          (∀ b', b' < o.nBl → w1 p f b' ≤ 0) ∧ (∃ g, g < o.nFreq ∧ 0 < w1 p g b) ∧
            v p f b = true := by rw [hc, hbl]
      rw [if_pos ⟨hff, hany⟩]
      exact if_congr (by rw [← hiff]; simp only [hp, true_and]) rfl rfl
    · have hno : ¬ ∀ b', b' < o.nBl → w1 p f b' ≤ 0 := fun h => hch (hc.2 h)
      conv_rhs => rw [if_neg (fun h => hno h.1)]
      have h6 : ¬ (p < o.nPol ∧ chanHas w1 o.nBl p f = false ∧ blHas w1 o.nFreq p b = true ∧
          v p f b = true) := fun h => hch h.2.1
      split
      · exact if_neg h6
      · rfl

/-- **C252**, partial: with `flag_frequencies` the channels out of the range asked for end with
weight zero. Missing: the same without `flag_frequencies`, which fails (`C252_undone`). -/
theorem C252_range_partial (o : FlagObs) (c : FlagConfig) (v : ℕ → ℕ → ℕ → Bool) (w : Weights)
    (ht : c.flagTiles = []) (hff : c.flagFrequencies = true) (hq : 768 / o.nFreq ≠ 0)
    (hg : GoodTiles o) (hf : 0 < o.nFreq) (hb : 0 < o.nBl) :
    ∃ r, visFlagBasic o c v w = .ok r ∧ ∀ p f b, FreqOut o c f → r.weights p f b = 0 := by
  obtain ⟨w1, h1, h2⟩ := basicWeights1_ok o c w ht (fun _ => hq)
  obtain ⟨r, hr, h3, h4, _⟩ := visFlagBasic_weights o c v w w1 h1 hg hf hb
  refine ⟨r, hr, fun p f b hout => ?_⟩
  by_cases htf : TimeFlagged o b
  · exact h3 p f b htf
  · rw [h4 hff p f b htf, h2, if_pos]
    rcases hout with h | h
    · exact Or.inl h
    · exact Or.inr (Or.inl h)

/-- **C252** is violated: without `flag_frequencies` (the default of the command line) the channels
out of the range are put back: every sample with data there, of a baseline with a positive weight
in some channel of the range, ends with weight one. -/
theorem C252_undone (o : FlagObs) (c : FlagConfig) (v : ℕ → ℕ → ℕ → Bool) (w : Weights)
    (ht : c.flagTiles = []) (hff : c.flagFrequencies = false)
    (hg : GoodTiles o) (hf : 0 < o.nFreq) (hb : 0 < o.nBl) :
    ∃ r, visFlagBasic o c v w = .ok r ∧ ∀ p f b, p < o.nPol → f < o.nFreq → FreqOut o c f →
      ¬ TimeFlagged o b → v p f b = true →
      (∃ g, g < o.nFreq ∧ ¬ FreqOut o c g ∧ 0 < w p g b) → r.weights p f b = 1 := by
  obtain ⟨w1, h1, h2⟩ := basicWeights1_ok o c w ht (by rw [hff]; simp)
  obtain ⟨r, hr, _, _, h4⟩ := visFlagBasic_weights o c v w w1 h1 hg hf hb
  have hw : ∀ p f b, (FreqOut o c f → w1 p f b = 0) ∧
      (¬ FreqOut o c f → w1 p f b = w p f b) := by
    intro p f b
    rw [h2]
    constructor
    · intro h
      rw [if_pos]
      rcases h with h | h
      · exact Or.inl h
      · exact Or.inr (Or.inl h)
    · intro h
      rw [if_neg]
      rintro (h' | h' | h')
      · exact h (Or.inl h')
      · exact h (Or.inr h')
      · rw [hff] at h'; exact absurd h'.1 (by simp)
  refine ⟨r, hr, fun p f b hp hfn hout htf hv hex => ?_⟩
  rw [h4 hff p f b hp hfn htf, if_pos]
  refine ⟨fun b' _ => ((hw p f b').1 hout).le, ?_, hv⟩
  obtain ⟨g, hg1, hg2, hg3⟩ := hex
  exact ⟨g, hg1, by rw [(hw p g b).2 hg2]; exact hg3⟩

/-- **C252**, what remains: without `flag_frequencies` the channels out of the range are without
weight exactly where there is no data or the baseline has no positive weight in the range. -/
theorem C252_rest (o : FlagObs) (c : FlagConfig) (v : ℕ → ℕ → ℕ → Bool) (w : Weights)
    (ht : c.flagTiles = []) (hff : c.flagFrequencies = false)
    (hg : GoodTiles o) (hf : 0 < o.nFreq) (hb : 0 < o.nBl) :
    ∃ r, visFlagBasic o c v w = .ok r ∧ ∀ p f b, p < o.nPol → f < o.nFreq → FreqOut o c f →
      (v p f b = false ∨ ∀ g, g < o.nFreq → FreqOut o c g ∨ w p g b ≤ 0) →
      r.weights p f b = 0 := by
  obtain ⟨w1, h1, h2⟩ := basicWeights1_ok o c w ht (by rw [hff]; simp)
  obtain ⟨r, hr, h3, _, h4⟩ := visFlagBasic_weights o c v w w1 h1 hg hf hb
  have hw : ∀ p f b, FreqOut o c f → w1 p f b = 0 := by
    intro p f b h
    rw [h2, if_pos]
    rcases h with h | h
    · exact Or.inl h
    · exact Or.inr (Or.inl h)
  have hle : ∀ p f b, 0 < w1 p f b → 0 < w p f b := by
    intro p f b h
    rw [h2] at h
    split_ifs at h
    · exact absurd h (lt_irrefl _)
    · exact h
  refine ⟨r, hr, fun p f b hp hfn hout hcase => ?_⟩
  by_cases htf : TimeFlagged o b
  · exact h3 p f b htf
  · rw [h4 hff p f b hp hfn htf, if_neg, hw p f b hout]
    rintro ⟨_, ⟨g, hg1, hg2⟩, hv⟩
    rcases hcase with h | h
    · rw [h] at hv; cases hv
    · rcases h g hg1 with h' | h'
      · rw [hw p g b h'] at hg2; exact lt_irrefl _ hg2
      · exact absurd (hle _ _ _ hg2) (not_lt.2 h')

/-! ## C253 -/

/-- **C253**, partial: with `flag_frequencies`, flagging the weights that basic flagging returned
returns them unchanged. Missing: runs without `flag_frequencies` (`C253_channel_returns`). -/
theorem C253_again_partial (o : FlagObs) (c : FlagConfig) (v : ℕ → ℕ → ℕ → Bool) (w : Weights)
    (ht : c.flagTiles = []) (hff : c.flagFrequencies = true) (hq : 768 / o.nFreq ≠ 0)
    (hg : GoodTiles o) (hf : 0 < o.nFreq) (hb : 0 < o.nBl) :
    ∃ r r', visFlagBasic o c v w = .ok r ∧ visFlagBasic o c v r.weights = .ok r' ∧
      (∀ p f b, r'.weights p f b = r.weights p f b) ∧
      (∀ t, r'.tileUse t = 1 → r.tileUse t = 1) ∧ (∀ f, r'.freqUse f = 1 → r.freqUse f = 1) := by
  obtain ⟨w1, h1, h2⟩ := basicWeights1_ok o c w ht (fun _ => hq)
  obtain ⟨r, hr, h3, h4, _⟩ := visFlagBasic_weights o c v w w1 h1 hg hf hb
  obtain ⟨w1', h1', h2'⟩ := basicWeights1_ok o c r.weights ht (fun _ => hq)
  obtain ⟨r', hr', h3', h4', _⟩ := visFlagBasic_weights o c v r.weights w1' h1' hg hf hb
  obtain ⟨r0, hr0, hs⟩ := visFlagBasic_spec o c v w w1 h1 hg hf hb
  obtain ⟨r0', hr0', hs'⟩ := visFlagBasic_spec o c v r.weights w1' h1' hg hf hb
  rw [hr] at hr0; cases hr0
  rw [hr'] at hr0'; cases hr0'
  have hw : ∀ p f b, 0 < w1' p f b → 0 < w1 p f b := by
    intro p f b h
    rw [h2'] at h
    split_ifs at h with hc
    · exact absurd h (lt_irrefl _)
    · by_cases htf : TimeFlagged o b
      · rw [h3 p f b htf] at h; exact absurd h (lt_irrefl _)
      · rwa [h4 hff p f b htf] at h
  have htile : ∀ p t, tileHas o w1' p t = true → tileHas o w1 p t = true := by
    intro p t h
    obtain ⟨b, f, a1, a2, a3, a4⟩ := (tileHas_iff hg _ _ _).1 h
    exact (tileHas_iff hg _ _ _).2 ⟨b, f, a1, a2, a3, hw _ _ _ a4⟩
  have hchan : ∀ p f, chanHas w1' o.nBl p f = true → chanHas w1 o.nBl p f = true := by
    intro p f h
    obtain ⟨b, a1, a2⟩ := (chanHas_iff _ _ _ _).1 h
    exact (chanHas_iff _ _ _ _).2 ⟨b, a1, hw _ _ _ a2⟩
  refine ⟨r, r', hr, hr', fun p f b => ?_, fun t h => ?_, fun f h => ?_⟩
  · by_cases htf : TimeFlagged o b
    · rw [h3 p f b htf, h3' p f b htf]
    · rw [h4' hff p f b htf, h2']
      split_ifs with hc
      · rw [h4 hff p f b htf, h2, if_pos hc]
      · rfl
  · rw [hs'.tile] at h
    split_ifs at h with hc
    · rw [hs.tile, if_pos ⟨fun p hp => htile p t (hc.1 p hp), hc.2⟩]
    · cases h
  · rw [hs'.freq] at h
    split_ifs at h with hc
    · rw [hs.freq, if_pos ⟨fun hcf p hp => hchan p f (hc.1 hcf p hp), hc.2⟩]
    · cases h

/-- **C253** is violated without `flag_frequencies`: a channel with positive weights in flagged time
steps only keeps its zero weights in the first call, and in the second every sample with data of a
baseline with weight elsewhere gets weight one. -/
theorem C253_channel_returns (o : FlagObs) (c : FlagConfig) (v : ℕ → ℕ → ℕ → Bool) (w : Weights)
    (ht : c.flagTiles = []) (hff : c.flagFrequencies = false) (hs0 : c.freqStart = none)
    (he0 : c.freqEnd = none) (hg : GoodTiles o) (hf : 0 < o.nFreq) (hb : 0 < o.nBl)
    (p f b b0 g : ℕ) (hp : p < o.nPol) (hfn : f < o.nFreq) (hgn : g < o.nFreq)
    (hb0 : b0 < o.nBl) (hpos : 0 < w p f b0)
    (hzero : ∀ b', b' < o.nBl → ¬ TimeFlagged o b' → w p f b' ≤ 0)
    (hbn : b < o.nBl) (htf : ¬ TimeFlagged o b) (hv : v p f b = true) (hwg : 0 < w p g b) :
    ∃ r r', visFlagBasic o c v w = .ok r ∧ visFlagBasic o c v r.weights = .ok r' ∧
      r.weights p f b ≤ 0 ∧ r'.weights p f b = 1 := by
  obtain ⟨w1, h1, h2⟩ := basicWeights1_ok o c w ht (by rw [hff]; simp)
  obtain ⟨r, hr, h3, _, h4⟩ := visFlagBasic_weights o c v w w1 h1 hg hf hb
  obtain ⟨w1', h1', h2'⟩ := basicWeights1_ok o c r.weights ht (by rw [hff]; simp)
  obtain ⟨r', hr', h3', _, h4'⟩ := visFlagBasic_weights o c v r.weights w1' h1' hg hf hb
  have hw1 : ∀ p f b, w1 p f b = w p f b := by intro p f b; rw [h2]; simp [hff, hs0, he0]
  have hw1' : ∀ p f b, w1' p f b = r.weights p f b := by
    intro p f b; rw [h2']; simp [hff, hs0, he0]
  have hfirst : ∀ b', b' < o.nBl → ¬ TimeFlagged o b' → r.weights p f b' = w p f b' := by
    intro b' _ hb'
    rw [h4 hff p f b' hp hfn hb', if_neg, hw1]
    rintro ⟨h, _⟩
    have := h b0 hb0
    rw [hw1] at this
    exact absurd hpos (not_lt.2 this)
  refine ⟨r, r', hr, hr', by rw [hfirst b hbn htf]; exact hzero b hbn htf, ?_⟩
  rw [h4' hff p f b hp hfn htf, if_pos]
  refine ⟨fun b' hb' => ?_, ⟨g, hgn, ?_⟩, hv⟩
  · rw [hw1']
    by_cases h : TimeFlagged o b'
    · rw [h3 p f b' h]
    · rw [hfirst b' hb' h]; exact hzero b' hb' h
  · rw [hw1', h4 hff p g b hp hgn htf, if_neg, hw1]
    · exact hwg
    · rintro ⟨h, _⟩
      have := h b hbn
      rw [hw1] at this
      exact absurd hwg (not_lt.2 this)

/-- Channel 1 has weights in the flagged second time step only. -/
def exReturnW : Weights := fun _ f b => if f = 1 ∧ b ≠ 3 ∧ b ≠ 4 then 0 else 1

example : ((visFlagBasic (exBasic 2) ⟨none, none, [], false⟩ (fun _ _ _ => true) exReturnW).toOption.map
      fun r => (List.range 6).map (r.weights 0 1)) = some [0, 0, 0, 0, 0, 0] ∧
    ((visFlagBasic (exBasic 2) ⟨none, none, [], false⟩ (fun _ _ _ => true)
      fun p f b => if f = 1 then 0 else if b = 3 ∨ b = 4 then 0 else exReturnW p f b).toOption.map
      fun r => (List.range 6).map (r.weights 0 1)) = some [1, 1, 1, 0, 0, 1] := by
  decide +kernel

/-- The hypotheses of the theorem hold there: sample 3 is flagged, sample 0 is not. -/
example : TimeFlagged (exBasic 2) 3 ∧ ¬ TimeFlagged (exBasic 2) 0 := by
  refine ⟨⟨1, by decide, by decide, by decide, by decide⟩, ?_⟩
  rintro ⟨t, h1, h2, h3, _⟩
  have ht : t < 2 := h1
  interval_cases t
  · exact absurd h2 (by decide)
  · exact absurd h3 (by decide)

/-- With `flag_freq_start` of 101 MHz the channel at 100 MHz is put back where there is data. -/
example : FreqOut (exBasic 2) ⟨some 101, none, [], false⟩ 0 ∧
    ¬ FreqOut (exBasic 2) ⟨some 101, none, [], false⟩ 1 ∧
    ((visFlagBasic (exBasic 2) ⟨some 101, none, [], false⟩ (fun _ _ b => b ≠ 1)
      (fun _ _ _ => 1)).toOption.map fun r => (List.range 6).map (r.weights 0 0)) =
      some [1, 0, 1, 0, 0, 1] := by
  refine ⟨Or.inl ⟨101, rfl, by simp [exBasic]; norm_num⟩, ?_, by decide +kernel⟩
  rintro (⟨s, h, h'⟩ | ⟨s, h, _⟩)
  · cases h; simp [exBasic] at h'; norm_num at h'
  · cases h

/-- With `flag_frequencies` it stays out, also in a second call. -/
example : ((visFlagBasic (exBasic 384) ⟨some 101, none, [], true⟩ (fun _ _ _ => true)
      (fun _ _ _ => 1)).toOption.map fun r => (List.range 6).map (r.weights 0 0)) =
      some [0, 0, 0, 0, 0, 0] ∧ 768 / (exBasic 384).nFreq ≠ 0 := by
  decide +kernel

end PyFHD
