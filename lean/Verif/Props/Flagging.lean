import Verif.Lemmas.Flagging
import Mathlib.Data.Finset.Card
import Mathlib.Tactic.IntervalCases

/-!
# C19 - C22: basic flagging
-/

namespace PyFHD

open Spec

/-- **C22** is violated: `vis_flag_tiles` returns for no input at all. A known name stops it with
`AttributeError`. -/
theorem C22_flag_tiles_raises (o : FlagObs) (w : Weights) (names : List String) :
    (∀ w', visFlagTiles o w names ≠ .ok w') ∧
    ((∃ n ∈ names, pyStrip n ∈ o.tileNames) →
      visFlagTiles o w names = .error .attributeError) := by
  have hfold : ∀ (names : List String) (acc : List ℕ),
      names.foldlM (fun (acc : List ℕ) n =>
        if pyStrip n ∈ o.tileNames then (.error .attributeError : Py (List ℕ))
        else .ok acc) acc
      = if ∃ n ∈ names, pyStrip n ∈ o.tileNames then .error .attributeError
        else .ok acc := by
    intro names
    induction names with
    | nil => intro acc; simp; rfl
    | cons n ns ih =>
      intro acc
      rw [List.foldlM_cons]
      by_cases h : pyStrip n ∈ o.tileNames
      · rw [if_pos h, if_pos ⟨n, by simp, h⟩]; rfl
      · rw [if_neg h]
        have := ih acc
        simp only [bind, Except.bind] at this ⊢
        rw [this]
        have hiff : (∃ m ∈ n :: ns, pyStrip m ∈ o.tileNames) ↔
            ∃ m ∈ ns, pyStrip m ∈ o.tileNames := by
          constructor
          · rintro ⟨m, hm, hm'⟩
            rcases List.mem_cons.1 hm with rfl | hm
            · exact absurd hm' h
            · exact ⟨m, hm, hm'⟩
          · rintro ⟨m, hm, hm'⟩
            exact ⟨m, List.mem_cons_of_mem _ hm, hm'⟩
        by_cases hx : ∃ m ∈ ns, pyStrip m ∈ o.tileNames
        · rw [if_pos hx, if_pos (hiff.2 hx)]
        · rw [if_neg hx, if_neg (mt hiff.1 hx)]
  unfold visFlagTiles
  rw [hfold]
  constructor
  · intro w'
    split_ifs with h
    · simp [bind, Except.bind]
    · simp only [bind, Except.bind]
      cases histogram (toQ o.tileA) 1 none (some 1) none with
      | error e => simp
      | ok r =>
        cases histogram (toQ o.tileB) 1 none (some 1) none with
        | error e => simp
        | ok r' => simp [histogram, listMax?]
  · intro h
    rw [if_pos h]; rfl

/-- Text `t` with blanks around the text `m`. -/
def Spec.Padded (m t : String) : Prop :=
  ∃ a b : List Char, (∀ c ∈ a, c.isWhitespace) ∧ (∀ c ∈ b, c.isWhitespace) ∧
    t.toList = a ++ m.toList ++ b

theorem dropWhile_pad (a l : List Char) (ha : ∀ c ∈ a, c.isWhitespace)
    (hl : ∀ c, l.head? = some c → ¬ c.isWhitespace) : (a ++ l).dropWhile Char.isWhitespace = l := by
  induction a with
  | nil =>
    cases l with
    | nil => rfl
    | cons c l =>
      have := hl c rfl
      rw [List.nil_append, List.dropWhile_cons, if_neg this]
  | cons c a ih =>
    rw [List.cons_append, List.dropWhile_cons, if_pos (ha c (by simp))]
    exact ih fun d hd => ha d (List.mem_cons_of_mem _ hd)

theorem pyStrip_padded (m t : String) (h : Padded m t)
    (h1 : ∀ c, m.toList.head? = some c → ¬ c.isWhitespace)
    (h2 : ∀ c, m.toList.getLast? = some c → ¬ c.isWhitespace) (hne : m.toList ≠ []) : pyStrip t = m := by
  obtain ⟨a, b, ha, hb, ht⟩ := h
  unfold pyStrip
  rw [ht, List.append_assoc, dropWhile_pad a _ ha, List.reverse_append, dropWhile_pad b.reverse]
  · rw [List.reverse_reverse]; exact String.ofList_toList
  · intro c hc; exact hb c (List.mem_reverse.mp hc)
  · intro c hc
    rw [List.head?_reverse] at hc
    exact h2 c hc
  · intro c hc
    rw [List.head?_append_of_ne_nil _ hne] at hc
    exact h1 c hc

/-- **C22** is violated for every tile of the observation: listing its name, with any blanks around
it, raises an `AttributeError` instead of flagging the tile. -/
theorem C22_known_tile_raises (o : FlagObs) (w : Weights) (names : List String) (m n : String)
    (hm : m ∈ o.tileNames) (hne : m.toList ≠ [])
    (h1 : ∀ c, m.toList.head? = some c → ¬ c.isWhitespace)
    (h2 : ∀ c, m.toList.getLast? = some c → ¬ c.isWhitespace)
    (hn : n ∈ names) (hpad : Padded m n) :
    visFlagTiles o w names = .error .attributeError :=
  (C22_flag_tiles_raises o w names).2 ⟨n, hn, by rw [pyStrip_padded m n hpad h1 h2 hne]; exact hm⟩

/-- A padded name. -/
example : Padded "Tile 11" "  Tile 11 " := ⟨[' ', ' '], [' '], by decide, by decide, by decide⟩

/-- A small observation: two time steps with the baselines 1-2, 1-3, 2-3; the second step is
flagged, tile 2 is unused. -/
def exBasic (nFreq : ℕ) : FlagObs where
  nPol := 2
  nFreq := nFreq
  nTile := 4
  nTime := 2
  dimension := 8
  elements := 8
  kpix := 1
  minBaseline := 0
  maxBaseline := 1
  freq := fun f => 100000000 + 1000000 * f
  freqUse := fun _ => 1
  tileUse := fun t => if t = 1 then 0 else 1
  timeUse := fun t => if t = 1 then 0 else 1
  tileA := [1, 1, 2, 1, 1, 2]
  tileB := [2, 3, 3, 2, 3, 3]
  binOffset := fun t => 3 * t
  tileNames := ["11", "12", "13", "14"]

example : visFlagTiles (exBasic 4) (fun _ _ _ => 1) ["99", "12"] = .error .attributeError :=
  (C22_flag_tiles_raises _ _ _).2 ⟨"12", by simp, by decide +kernel⟩

/-- **C22**, consequence: a run with any entry in `flag_tiles` cannot get past basic flagging. -/
theorem C22_flag_basic_with_tiles_raises (o : FlagObs) (c : FlagConfig)
    (v : ℕ → ℕ → ℕ → Bool) (w : Weights) (hc : c.flagTiles ≠ []) (r : BasicResult) :
    visFlagBasic o c v w ≠ .ok r := by
  have h1 : ∀ w', basicWeights1 o c w ≠ .ok w' := by
    intro w' h
    unfold basicWeights1 at h
    rw [if_pos (List.length_pos_iff.2 hc)] at h
    simp only [bind, Except.bind] at h
    split at h
    · cases h
    · rename_i hx
      exact (C22_flag_tiles_raises _ _ _).1 _ hx
  intro h
  unfold visFlagBasic at h
  simp only [bind, Except.bind] at h
  split at h
  · cases h
  · rename_i hx
    exact h1 _ hx

/-- The first stage of basic flagging when it does not fail: the frequency limits and the channel
edges. -/
theorem basicWeights1_ok (o : FlagObs) (c : FlagConfig) (w : Weights) (ht : c.flagTiles = [])
    (hf : c.flagFrequencies = true → 768 / o.nFreq ≠ 0) :
    ∃ w1, basicWeights1 o c w = .ok w1 ∧ ∀ p f b, w1 p f b =
      if (∃ s, c.freqStart = some s ∧ o.freq f / 1000000 < s) ∨
        (∃ s, c.freqEnd = some s ∧ s < o.freq f / 1000000) ∨
        (c.flagFrequencies = true ∧ edgeChannel o.nFreq f = true) then 0 else w p f b := by
  unfold basicWeights1
  simp only [ht, List.length_nil, gt_iff_lt, lt_irrefl, if_false, bind, Except.bind]
  by_cases hb : c.flagFrequencies = true
  · simp only [hb, if_true, if_neg (hf hb)]
    refine ⟨_, rfl, fun p f b => ?_⟩
    cases c.freqStart <;> cases c.freqEnd <;> by_cases he : edgeChannel o.nFreq f = true <;>
      simp [he]
    rename_i s s'
    by_cases h1 : s' < o.freq f / 1000000 <;> by_cases h2 : o.freq f / 1000000 < s <;> simp [h1, h2]
  · simp only [hb]
    refine ⟨_, rfl, fun p f b => ?_⟩
    cases c.freqStart <;> cases c.freqEnd <;> simp
    rename_i s s'
    by_cases h1 : s' < o.freq f / 1000000 <;> by_cases h2 : o.freq f / 1000000 < s <;> simp [h1, h2]

theorem chanHas_iff (w : Weights) (nb p f : ℕ) :
    chanHas w nb p f = true ↔ ∃ b, b < nb ∧ 0 < w p f b := by
  simp [chanHas]

theorem blHas_iff (w : Weights) (nf p b : ℕ) :
    blHas w nf p b = true ↔ ∃ f, f < nf ∧ 0 < w p f b := by
  simp [blHas]

theorem pyIndex_tile {n : ℕ} {v : ℤ} (h1 : 1 ≤ v) (h2 : v ≤ n) :
    pyIndex n (v - 1) = some (v - 1).toNat := by
  unfold pyIndex
  rw [if_pos (by omega), if_pos (by omega)]

/-- The tile numbers are between `1` and `n_tile`, one pair per sample. -/
structure GoodTiles (o : FlagObs) : Prop where
  len : o.tileB.length = o.tileA.length
  memA : ∀ v ∈ o.tileA, 1 ≤ v ∧ v ≤ o.nTile
  memB : ∀ v ∈ o.tileB, 1 ≤ v ∧ v ≤ o.nTile

/-- Sample `b` involves tile `t` (counted from zero). -/
def Involves (o : FlagObs) (b t : ℕ) : Prop :=
  o.tileA[b]? = some ((t : ℤ) + 1) ∨ o.tileB[b]? = some ((t : ℤ) + 1)

theorem getD_mem {l : List ℤ} {b : ℕ} (h : b < l.length) : l.getD b 0 ∈ l := by
  simp only [List.getD, List.getElem?_eq_getElem h, Option.getD_some]; exact List.getElem_mem h

theorem involves_iff {o : FlagObs} (hg : GoodTiles o) {b t : ℕ} (hb : b < o.nBl) :
    (pyIndex o.nTile (o.tileA.getD b 0 - 1) = some t ∨
      pyIndex o.nTile (o.tileB.getD b 0 - 1) = some t) ↔ Involves o b t := by
  have hbA : b < o.tileA.length := hb
  have hbB : b < o.tileB.length := by rw [hg.len]; exact hb
  obtain ⟨a1, a2⟩ := hg.memA _ (getD_mem hbA)
  obtain ⟨b1, b2⟩ := hg.memB _ (getD_mem hbB)
  rw [pyIndex_tile a1 a2, pyIndex_tile b1 b2]
  unfold Involves
  simp only [List.getD, List.getElem?_eq_getElem hbA, List.getElem?_eq_getElem hbB,
    Option.getD_some, Option.some.injEq] at *
  omega

theorem tileHas_iff {o : FlagObs} (hg : GoodTiles o) (w : Weights) (p t : ℕ) :
    tileHas o w p t = true ↔ ∃ b f, b < o.nBl ∧ f < o.nFreq ∧ Involves o b t ∧ 0 < w p f b := by
  unfold tileHas
  simp only [List.any_eq_true, List.mem_range, Bool.and_eq_true, Bool.or_eq_true, beq_iff_eq]
  constructor
  · rintro ⟨b, hb, h1, h2⟩
    obtain ⟨f, hf, hw⟩ := (blHas_iff _ _ _ _).1 h1
    exact ⟨b, f, hb, hf, (involves_iff hg hb).1 h2, hw⟩
  · rintro ⟨b, f, hb, hf, hi, hw⟩
    exact ⟨b, hb, (blHas_iff _ _ _ _).2 ⟨f, hf, hw⟩, (involves_iff hg hb).2 hi⟩

/-- What `vis_flag_basic` computes, given the weights `w1` after the frequency cuts. -/
structure BasicSpec (o : FlagObs) (c : FlagConfig) (v : ℕ → ℕ → ℕ → Bool) (w1 : Weights)
    (r : BasicResult) : Prop where
  tile : ∀ t, r.tileUse t = if (∀ p, p < o.nPol → tileHas o w1 p t = true) ∧ o.tileUse t % 2 = 1
    then 1 else 0
  freq : ∀ f, r.freqUse f = if (c.flagFrequencies = true → ∀ p, p < o.nPol →
    chanHas w1 o.nBl p f = true) ∧ o.freqUse f % 2 = 1 then 1 else 0
  nTime : r.nTimeFlag = ((Finset.range o.nTime).filter fun t => o.timeUse t = 0).card
  nTile : r.nTileFlag = ((Finset.range o.nTile).filter fun t => r.tileUse t = 0).card
  nFreq : r.nFreqFlag = ((Finset.range o.nFreq).filter fun f => r.freqUse f = 0).card
  zeroed : ∀ p f b, (∃ t, t < o.nTime ∧ o.timeUse t ≤ 0 ∧ o.binOffset t ≤ b ∧
    b + 1 < stepEnd o o.nBl t) → r.weights p f b = 0
  others : ∀ p f b, (¬ ∃ t, t < o.nTime ∧ o.timeUse t ≤ 0 ∧ o.binOffset t ≤ b ∧
    b + 1 < stepEnd o o.nBl t) → r.weights p f b = w1 p f b ∨
      (c.flagFrequencies = false ∧ chanHas w1 o.nBl p f = false ∧ r.weights p f b = 1)

theorem countP_range (n : ℕ) (P : ℕ → Prop) [DecidablePred P] :
    (List.range n).countP (fun t => decide (P t)) = ((Finset.range n).filter P).card := by
  rw [List.countP_eq_length_filter,
    ← List.toFinset_card_of_nodup (List.nodup_range.filter _)]
  congr 1
  ext; simp

theorem visFlagBasic_spec (o : FlagObs) (c : FlagConfig) (v : ℕ → ℕ → ℕ → Bool) (w w1 : Weights)
    (h1 : basicWeights1 o c w = .ok w1) (hg : GoodTiles o) (hf : 0 < o.nFreq) (hb : 0 < o.nBl) :
    ∃ r, visFlagBasic o c v w = .ok r ∧ BasicSpec o c v w1 r := by
  unfold visFlagBasic
  simp only [h1, bind, Except.bind]
  rw [if_neg (by omega), if_neg]
  · refine ⟨_, rfl, ?_, ?_, ?_, ?_, ?_, ?_, ?_⟩
    · intro t
      simp only [bitAnd01, Bool.and_eq_true, List.all_eq_true, List.mem_range, decide_eq_true_eq]
    · intro f
      by_cases h : c.flagFrequencies = true <;>
        simp [h, bitAnd01, Bool.and_eq_true, List.all_eq_true, List.mem_range]
    · simp only [countP_range]
    · simp only [countP_range]
    · simp only [countP_range]
    · rintro p f b ⟨t, ht, htu, h3, h4⟩
      have ht' : ((List.range o.nTime).any fun t => decide (o.timeUse t ≤ 0)) = true := by
        simp only [List.any_eq_true, List.mem_range, decide_eq_true_eq]
        exact ⟨t, ht, htu⟩
      simp only [ht', if_true]
      rw [if_pos]
      simp only [List.any_eq_true, List.mem_range, decide_eq_true_eq]
      exact ⟨t, ht, htu, h3, by unfold stepEnd at h4; omega⟩
    · intro p f b hno
      have key : ∀ w2 : Weights, (if ((List.range o.nTime).any fun t => decide (o.timeUse t ≤ 0)) = true
          then fun p f b =>
            if ((List.range o.nTime).any fun t => decide (o.timeUse t ≤ 0 ∧ o.binOffset t ≤ b ∧
              b < (if t + 1 < o.nTime then o.binOffset (t + 1) else o.nBl) - 1)) = true
            then 0 else w2 p f b
          else w2) p f b = w2 p f b := by
        intro w2
        split_ifs with ha
        · simp only
          rw [if_neg]
          simp only [List.any_eq_true, List.mem_range, decide_eq_true_eq]
          rintro ⟨t, ht, htu, h3, h4⟩
          exact hno ⟨t, ht, htu, h3, by unfold stepEnd; omega⟩
        · rfl
      simp only [key]
      split_ifs with ha
      · by_cases hcond : p < o.nPol ∧ chanHas w1 o.nBl p f = false ∧ blHas w1 o.nFreq p b = true ∧
            v p f b = true
        · right
          simp only [if_pos hcond]
          exact ⟨ha.1, hcond.2.1, trivial⟩
        · left; simp only [if_neg hcond]
      · left; rfl
  · rintro ⟨b, hb', _, h | h⟩
    · have hbA : b < o.tileA.length := hb'
      obtain ⟨a1, a2⟩ := hg.memA _ (getD_mem hbA)
      rw [pyIndex_tile a1 a2] at h; cases h
    · have hbB : b < o.tileB.length := by rw [hg.len]; exact hb'
      obtain ⟨a1, a2⟩ := hg.memB _ (getD_mem hbB)
      rw [pyIndex_tile a1 a2] at h; cases h

/-- **C19.** Basic flagging succeeds (without named tiles); the new use flags are 0 or 1 and 0
wherever they were 0; a tile stays in use only if in every polarisation some baseline with that tile
has a positive weight; a channel likewise when frequencies are flagged; the three counts are the
numbers of zero flags. -/
theorem C19_flag_basic (o : FlagObs) (c : FlagConfig) (v : ℕ → ℕ → ℕ → Bool) (w : Weights)
    (ht : c.flagTiles = []) (hff : c.flagFrequencies = true → 768 / o.nFreq ≠ 0)
    (hg : GoodTiles o) (hf : 0 < o.nFreq) (hb : 0 < o.nBl) :
    ∃ r, visFlagBasic o c v w = .ok r ∧
      (∀ t, r.tileUse t = 0 ∨ r.tileUse t = 1) ∧ (∀ f, r.freqUse f = 0 ∨ r.freqUse f = 1) ∧
      (∀ t, o.tileUse t = 0 → r.tileUse t = 0) ∧ (∀ f, o.freqUse f = 0 → r.freqUse f = 0) ∧
      (∀ t, r.tileUse t = 1 → ∀ p, p < o.nPol →
        ∃ b f, b < o.nBl ∧ f < o.nFreq ∧ Involves o b t ∧ 0 < w p f b) ∧
      (c.flagFrequencies = true → ∀ f, r.freqUse f = 1 → ∀ p, p < o.nPol →
        ∃ b, b < o.nBl ∧ 0 < w p f b) ∧
      r.nTimeFlag = ((Finset.range o.nTime).filter fun t => o.timeUse t = 0).card ∧
      r.nTileFlag = ((Finset.range o.nTile).filter fun t => r.tileUse t = 0).card ∧
      r.nFreqFlag = ((Finset.range o.nFreq).filter fun f => r.freqUse f = 0).card := by
  obtain ⟨w1, h1, h2⟩ := basicWeights1_ok o c w ht hff
  obtain ⟨r, hr, hs⟩ := visFlagBasic_spec o c v w w1 h1 hg hf hb
  have hw1 : ∀ p f b, 0 < w1 p f b → 0 < w p f b := by
    intro p f b h
    rw [h2] at h
    split_ifs at h
    · exact absurd h (lt_irrefl _)
    · exact h
  refine ⟨r, hr, ?_, ?_, ?_, ?_, ?_, ?_, hs.nTime, hs.nTile, hs.nFreq⟩
  · intro t; rw [hs.tile]; split_ifs <;> simp
  · intro t; rw [hs.freq]; split_ifs <;> simp
  · intro t h; rw [hs.tile, if_neg]; rintro ⟨_, h'⟩; rw [h] at h'; simp at h'
  · intro t h; rw [hs.freq, if_neg]; rintro ⟨_, h'⟩; rw [h] at h'; simp at h'
  · intro t h p hp
    rw [hs.tile] at h
    split_ifs at h with hc
    · obtain ⟨b, f, h3, h4, h5, h6⟩ := (tileHas_iff hg _ _ _).1 (hc.1 p hp)
      exact ⟨b, f, h3, h4, h5, hw1 _ _ _ h6⟩
    · cases h
  · intro hcf f h p hp
    rw [hs.freq] at h
    split_ifs at h with hc
    · obtain ⟨b, h3, h6⟩ := (chanHas_iff _ _ _ _).1 (hc.1 hcf p hp)
      exact ⟨b, h3, hw1 _ _ _ h6⟩
    · cases h

/-- **C20** is violated: with no frequency selected for flagging, the last sample of a flagged time
step keeps a positive weight. -/
theorem C20_last_sample_kept (o : FlagObs) (c : FlagConfig) (v : ℕ → ℕ → ℕ → Bool) (w : Weights)
    (ht : c.flagTiles = []) (hff : c.flagFrequencies = false) (hs0 : c.freqStart = none)
    (he0 : c.freqEnd = none) (hg : GoodTiles o) (hf : 0 < o.nFreq) (hb : 0 < o.nBl)
    (ho : GoodOffsets o o.nBl) (t b : ℕ) (hin : InStep o o.nBl t b)
    (hlast : b + 1 = stepEnd o o.nBl t) (p f : ℕ) (hpos : 0 < w p f b) :
    ∃ r, visFlagBasic o c v w = .ok r ∧ 0 < r.weights p f b := by
  obtain ⟨w1, h1, h2⟩ := basicWeights1_ok o c w ht (by rw [hff]; simp)
  obtain ⟨r, hr, hs⟩ := visFlagBasic_spec o c v w w1 h1 hg hf hb
  refine ⟨r, hr, ?_⟩
  have hw1 : w1 p f b = w p f b := by rw [h2]; simp [hff, hs0, he0]
  rcases hs.others p f b (by
    rintro ⟨s, hs1, _, hs3, hs4⟩
    have : s = t := inStep_unique ho ⟨hs1, hs3, by omega⟩ hin
    subst this
    omega) with h | ⟨_, _, h⟩
  · rw [h, hw1]; exact hpos
  · rw [h]; norm_num

/-- **C20**, partial: every sample of a flagged time step except its last one ends with weight zero,
whatever the configuration. Missing: the last sample of each flagged step. -/
theorem C20_flagged_step_zeroed_partial (o : FlagObs) (c : FlagConfig) (v : ℕ → ℕ → ℕ → Bool)
    (w : Weights) (ht : c.flagTiles = []) (hff : c.flagFrequencies = true → 768 / o.nFreq ≠ 0)
    (hg : GoodTiles o) (hf : 0 < o.nFreq) (hb : 0 < o.nBl) :
    ∃ r, visFlagBasic o c v w = .ok r ∧
      ∀ t b, InStep o o.nBl t b → o.timeUse t ≤ 0 → b + 1 < stepEnd o o.nBl t →
        ∀ p f, r.weights p f b = 0 := by
  obtain ⟨w1, h1, h2⟩ := basicWeights1_ok o c w ht hff
  obtain ⟨r, hr, hs⟩ := visFlagBasic_spec o c v w w1 h1 hg hf hb
  exact ⟨r, hr, fun t b hin htu hlt p f => hs.zeroed p f b ⟨t, hin.1, htu, hin.2.1, hlt⟩⟩

/-- Position `c` in coarse channels of `coarse` channels is within `width` of an edge. -/
def NearEdge (coarse width c : ℕ) : Prop := c % coarse < width ∨ coarse - width ≤ c % coarse

theorem edgeChannel_iff (nFreq c : ℕ) (h : 24 ≤ nFreq) (h' : nFreq ≤ 768) :
    edgeChannel nFreq c = true ↔
      NearEdge (32 / (768 / nFreq)) ((2 + 768 / nFreq - 1) / (768 / nFreq)) c := by
  have ha0 : 0 < 768 / nFreq := Nat.div_pos h' (by omega)
  have ha1 : 768 / nFreq ≤ 32 := by
    rw [Nat.div_le_iff_le_mul_add_pred (by omega)]; omega
  unfold edgeChannel NearEdge
  generalize 768 / nFreq = a at *
  have hc : 0 < 32 / a := Nat.div_pos ha1 ha0
  have hceil : ⌈(2 : ℚ) / (a : ℚ)⌉ = (((2 + a - 1) / a : ℕ) : ℤ) := by
    rw [Int.ceil_eq_iff]
    have haq : (0 : ℚ) < a := by exact_mod_cast ha0
    constructor
    · rw [lt_div_iff₀ haq]
      have h1 : (2 + a - 1) / a * a ≤ 2 + a - 1 := Nat.div_mul_le_self _ _
      have h2 : (2 + a - 1) / a * a < 2 + a := by omega
      have h3 : ((((2 + a - 1) / a : ℕ) : ℚ)) * a < 2 + a := by exact_mod_cast h2
      rw [Int.cast_natCast]
      linarith
    · rw [div_le_iff₀ haq]
      have h1 := Nat.div_add_mod (2 + a - 1) a
      have h2 := Nat.mod_lt (2 + a - 1) ha0
      have h3 : 2 ≤ (2 + a - 1) / a * a := by
        rw [mul_comm]; omega
      exact_mod_cast h3
  have hc' : ((32 / a : ℕ) : ℤ) ≠ 0 := by exact_mod_cast hc.ne'
  have hmod : ((c : ℤ) % ((32 / a : ℕ) : ℤ)) = ((c % (32 / a) : ℕ) : ℤ) := by push_cast; rfl
  have hlt := Nat.mod_lt c hc
  simp only [hceil, if_neg hc', hmod, decide_eq_true_eq, min_lt_iff]
  omega

/-- A `flag_frequencies` run with at least 24 channels and every time step in use multiplies out to
the rule: edge channels get weight zero, every other weight stays. -/
theorem visFlagBasic_edges (o : FlagObs) (c : FlagConfig) (v : ℕ → ℕ → ℕ → Bool) (w : Weights)
    (ht : c.flagTiles = []) (hff : c.flagFrequencies = true) (hs0 : c.freqStart = none)
    (he0 : c.freqEnd = none) (hg : GoodTiles o) (hb : 0 < o.nBl)
    (hn : 0 < o.nFreq) (hn' : o.nFreq ≤ 768) (htu : ∀ t, t < o.nTime → 0 < o.timeUse t) :
    ∃ r, visFlagBasic o c v w = .ok r ∧ ∀ p f b, r.weights p f b =
      if edgeChannel o.nFreq f = true then 0 else w p f b := by
  have ha0 : 0 < 768 / o.nFreq := Nat.div_pos hn' hn
  obtain ⟨w1, h1, h2⟩ := basicWeights1_ok o c w ht (fun _ => by omega)
  obtain ⟨r, hr, hs⟩ := visFlagBasic_spec o c v w w1 h1 hg hn hb
  refine ⟨r, hr, fun p f b => ?_⟩
  rcases hs.others p f b (by
    rintro ⟨t, h3, h4, _⟩
    have := htu t h3
    omega) with h | ⟨h, _⟩
  · rw [h, h2]; simp [hff, hs0, he0]
  · rw [hff] at h; cases h

/-- **C21.** With `flag_frequencies` on, at least 24 channels, no frequency limits and all time steps
in use, exactly the channels within `ceil(2 / avg)` of an edge of their coarse channel (of
`32 // avg` channels, `avg = 768 / n_freq`) are zeroed; all other weights stay. -/
theorem C21_edge_channels (o : FlagObs) (c : FlagConfig) (v : ℕ → ℕ → ℕ → Bool) (w : Weights)
    (ht : c.flagTiles = []) (hff : c.flagFrequencies = true) (hs0 : c.freqStart = none)
    (he0 : c.freqEnd = none) (hg : GoodTiles o) (hb : 0 < o.nBl)
    (hn : 24 ≤ o.nFreq) (hdvd : o.nFreq ∣ 768) (htu : ∀ t, t < o.nTime → 0 < o.timeUse t) :
    ∃ r, visFlagBasic o c v w = .ok r ∧ ∀ p f b,
      (NearEdge (32 / (768 / o.nFreq)) ((2 + 768 / o.nFreq - 1) / (768 / o.nFreq)) f →
        r.weights p f b = 0) ∧
      (¬ NearEdge (32 / (768 / o.nFreq)) ((2 + 768 / o.nFreq - 1) / (768 / o.nFreq)) f →
        r.weights p f b = w p f b) := by
  have hn' : o.nFreq ≤ 768 := Nat.le_of_dvd (by norm_num) hdvd
  obtain ⟨r, hr, hw⟩ := visFlagBasic_edges o c v w ht hff hs0 he0 hg hb (by omega) hn' htu
  refine ⟨r, hr, fun p f b => ⟨fun h => ?_, fun h => ?_⟩⟩
  · rw [hw, if_pos ((edgeChannel_iff _ _ hn hn').2 h)]
  · rw [hw, if_neg (mt (edgeChannel_iff _ _ hn hn').1 h)]

/-- **C21**, in terms of the instrument: for averaging factors that divide a coarse channel of 32
fine channels, a channel is removed exactly when it contains one of the two first or two last fine
channels of a coarse channel. -/
theorem C21_edge_fine_channels (o : FlagObs) (c : FlagConfig) (v : ℕ → ℕ → ℕ → Bool) (w : Weights)
    (avg : ℕ) (havg : avg ∣ 32) (hna : o.nFreq * avg = 768)
    (ht : c.flagTiles = []) (hff : c.flagFrequencies = true) (hs0 : c.freqStart = none)
    (he0 : c.freqEnd = none) (hg : GoodTiles o) (hb : 0 < o.nBl)
    (htu : ∀ t, t < o.nTime → 0 < o.timeUse t) :
    ∃ r, visFlagBasic o c v w = .ok r ∧ ∀ p f b, r.weights p f b =
      if ∃ k, k < avg ∧ ((f * avg + k) % 32 < 2 ∨ 30 ≤ (f * avg + k) % 32) then 0
      else w p f b := by
  have ha : avg ≤ 32 := Nat.le_of_dvd (by norm_num) havg
  have ha0 : 0 < avg := Nat.pos_of_ne_zero (by rintro rfl; simp at hna)
  have hn : 24 ≤ o.nFreq := by
    by_contra h
    have : o.nFreq * avg ≤ 23 * 32 := Nat.mul_le_mul (by omega) ha
    omega
  have hdvd : o.nFreq ∣ 768 := ⟨avg, hna.symm⟩
  have hn' : o.nFreq ≤ 768 := Nat.le_of_dvd (by norm_num) hdvd
  have hq : 768 / o.nFreq = avg := by
    rw [← hna]; exact Nat.mul_div_cancel_left _ (by omega)
  obtain ⟨r, hr, hw⟩ := visFlagBasic_edges o c v w ht hff hs0 he0 hg hb (by omega) hn' htu
  refine ⟨r, hr, fun p f b => ?_⟩
  rw [hw]
  have hiff := edgeChannel_iff o.nFreq f hn hn'
  rw [hq] at hiff
  have hsem : NearEdge (32 / avg) ((2 + avg - 1) / avg) f ↔
      ∃ k, k < avg ∧ ((f * avg + k) % 32 < 2 ∨ 30 ≤ (f * avg + k) % 32) := by
    unfold NearEdge
    clear hiff hw hq hna
    constructor
    · rintro (h | h)
      · refine ⟨0, ha0, Or.inl ?_⟩
        interval_cases avg <;> omega
      · refine ⟨avg - 1, by omega, Or.inr ?_⟩
        interval_cases avg <;> omega
    · rintro ⟨k, hk, h⟩
      interval_cases avg <;> omega
  by_cases he : edgeChannel o.nFreq f = true
  · rw [if_pos he, if_pos (hsem.1 (hiff.1 he))]
  · rw [if_neg he, if_neg (fun h => he (hiff.2 (hsem.2 h)))]

/-- **C21**, fewer than 24 channels (an average wider than a coarse channel): everything is
removed. -/
theorem C21_few_channels (nFreq c : ℕ) (h0 : 0 < nFreq) (h : nFreq < 24) :
    edgeChannel nFreq c = true := by
  have h1 : 33 ≤ 768 / nFreq := by
    rw [Nat.le_div_iff_mul_le h0]; omega
  have h2 : 32 / (768 / nFreq) = 0 := Nat.div_eq_of_lt (by omega)
  unfold edgeChannel
  simp only [h2]
  have h3 : (0 : ℤ) ≤ ⌈(2 : ℚ) / ((768 / nFreq : ℕ) : ℚ)⌉ := Int.ceil_nonneg (by positivity)
  simp only [Nat.cast_zero, if_true, decide_eq_true_eq, min_lt_iff]
  omega

theorem exBasic_tiles (n : ℕ) : GoodTiles (exBasic n) :=
  ⟨rfl, by simp [exBasic], by simp [exBasic]⟩

/-- The hypotheses of C19 and C20 are met; sample 5 (the last of the flagged step) stays. Tiles 2
(unused before) and 4 (without baselines) are flagged. -/
example : (visFlagBasic (exBasic 2) ⟨none, none, [], false⟩ (fun _ _ _ => true)
      fun _ _ _ => 1).map (fun r => ((List.range 6).map (r.weights 1 0), (List.range 4).map r.tileUse,
        r.nTileFlag, r.nTimeFlag, r.nFreqFlag))
    = .ok ([1, 1, 1, 0, 0, 1], [1, 0, 1, 0], 2, 1, 0) := by decide +kernel

example : GoodOffsets (exBasic 2) (exBasic 2).nBl ∧ InStep (exBasic 2) (exBasic 2).nBl 1 5 :=
  ⟨⟨rfl, fun s t h _ => by simp only [exBasic]; omega,
    fun t h => by simp only [exBasic, FlagObs.nBl] at *; simp; omega⟩, by decide +kernel⟩

/-- 384 channels: channels 0, 15, 16 of each 16 are edges. -/
example : ((List.range 18).filter fun c => edgeChannel 384 c) = [0, 15, 16] := by decide +kernel

/-- 256 channels (three fine channels each): the rule drifts away from the coarse channels, channel 9
holds the fine channels 27-29 and is removed. -/
example : edgeChannel 256 9 = true ∧ edgeChannel 256 31 = false := by decide +kernel

end PyFHD
