import Verif.Props.FlaggedRunSame

/-!
# C314: limits of frequency are flags of the input, and flagging again changes nothing
-/

namespace PyFHD

open Spec

namespace Spec

/-- The run with all samples of the channels outside the limits of frequency flagged in the input. -/
noncomputable def flaggedOutside (x : RunIn) (c : FlagConfig) : RunIn :=
  { x with weights := fun p f b =>
      if (∃ s, c.freqStart = some s ∧ x.obs.freq f / 1000000 < s) ∨ (∃ s, c.freqEnd = some s ∧ s < x.obs.freq f / 1000000) then 0
      else x.weights p f b }

end Spec

/-- The basic flagging with limits is that without limits of the samples flagged in the input. -/
theorem basic_outside (x : RunIn) (c : FlagConfig) : x.basic c = (flaggedOutside x c).basic { c with freqStart := none, freqEnd := none } := by
  have hw : basicWeights1 x.obs c x.weights =
      basicWeights1 x.obs { c with freqStart := none, freqEnd := none } (flaggedOutside x c).weights := by
    unfold basicWeights1
    have e : (match c.freqEnd with
        | some s => fun p f b => if x.obs.freq f / 1000000 > s then 0 else
            (match c.freqStart with
              | some s => fun p f b => if x.obs.freq f / 1000000 < s then 0 else x.weights p f b
              | none => x.weights : Weights) p f b
        | none => (match c.freqStart with
              | some s => fun p f b => if x.obs.freq f / 1000000 < s then 0 else x.weights p f b
              | none => x.weights : Weights) : Weights) = (flaggedOutside x c).weights := by
      funext p f b
      unfold flaggedOutside
      cases h1 : c.freqStart with
      | none =>
        cases h2 : c.freqEnd with
        | none => simp
        | some t => simp
      | some s =>
        cases h2 : c.freqEnd with
        | none => simp
        | some t =>
          simp only [Option.some.injEq, gt_iff_lt, exists_eq_left']
          by_cases a1 : x.obs.freq f / 1000000 < s <;> by_cases a2 : t < x.obs.freq f / 1000000 <;> simp [a1, a2]
    simp only []
    rw [← e]
    rfl
  unfold RunIn.basic visFlagBasic
  rw [hw]
  rfl

/-- **C314.** Limits of frequency have the same effect on a run as flags of all samples of the channels outside them in the input. -/
theorem C314_limits (x : RunIn) (c : FlagConfig) :
    flaggedRun x c = flaggedRun (flaggedOutside x c) { c with freqStart := none, freqEnd := none } := by
  unfold flaggedRun
  rw [basic_outside x c]
  rfl

/-- **C314**, limits of frequency: the HEALPix files. -/
theorem C314_limits_files (x : RunIn) (c : FlagConfig) (e : ExportIn) (q : FileIn) (nf : ℕ → ℕ) :
    flaggedFiles x c e q nf = flaggedFiles (flaggedOutside x c) { c with freqStart := none, freqEnd := none } e q nf := by
  unfold flaggedFiles
  rw [basic_outside x c]
  rfl

/-- The basic flagging of what it gave, with `flag_frequencies` and all time steps in use, gives the same. -/
theorem basic_again (x : RunIn) (c : FlagConfig) (hc : c.flagFrequencies = true) (hu : ∀ t < x.obs.nTime, 0 < x.obs.timeUse t) (h : RunFits x)
    (r : BasicResult) (hr : x.basic c = .ok r) : (x.basicFlagged r).basic c = .ok r := by
  have ht := basic_noTiles x c r hr
  have hf : c.flagFrequencies = true → 768 / x.obs.nFreq ≠ 0 := by
    intro hc h0
    unfold RunIn.basic visFlagBasic basicWeights1 at hr
    simp [ht, hc, h0, bind, Except.bind] at hr
  have hb : 0 < x.obs.nBl := by rw [h.nBl]; exact h.samples
  obtain ⟨w1, h1, h2⟩ := basicWeights1_ok x.obs c x.weights ht hf
  obtain ⟨r1, e1, s1⟩ := visFlagBasic_spec x.obs c (fun p f s => by classical exact decide (x.vis p f s ≠ 0)) x.weights w1 h1 h.goodTiles h.freqs hb
  have : r = r1 := by
    unfold RunIn.basic at hr
    rw [hr] at e1
    exact Except.ok.inj e1
  subst this
  have hw : r.weights = w1 := by
    funext p f b
    rcases s1.others p f b (by rintro ⟨t, ht, h0, -⟩; exact absurd (hu t ht) (not_lt.2 h0)) with h | ⟨h, -⟩
    · exact h
    · rw [hc] at h
      cases h
  obtain ⟨w2, h3, h4⟩ := basicWeights1_ok (x.basicFlagged r).obs c r.weights ht hf
  have hw2 : w2 = r.weights := by
    funext p f b
    rw [h4, hw, h2]
    split_ifs with a1 a2 a2
    · rfl
    · exact absurd a1 a2
    · rfl
    · rfl
  obtain ⟨r2, e2, s2⟩ := visFlagBasic_spec (x.basicFlagged r).obs c (fun p f s => by classical exact decide ((x.basicFlagged r).vis p f s ≠ 0))
    (x.basicFlagged r).weights w2 h3 (h.basicFlagged r).goodTiles h.freqs hb
  have a1 : r2.weights = r.weights := by
    funext p f b
    rcases s2.others p f b (by rintro ⟨t, ht, h0, -⟩; exact absurd (hu t ht) (not_lt.2 h0)) with h | ⟨h, -⟩
    · rw [h, hw2]
    · rw [hc] at h
      cases h
  have hodd : ∀ P : Prop, ∀ a b : ℤ, ∀ [Decidable (P ∧ b % 2 = 1)] [Decidable (P ∧ a % 2 = 1)], a = (if P ∧ b % 2 = 1 then 1 else 0) →
      (if P ∧ a % 2 = 1 then 1 else 0 : ℤ) = a := by
    intro P a b _ _ hab
    by_cases hp : P ∧ b % 2 = 1
    · rw [if_pos hp] at hab
      subst hab
      rw [if_pos ⟨hp.1, by decide⟩]
    · rw [if_neg hp] at hab
      subst hab
      rw [if_neg]
      rintro ⟨-, h⟩
      exact absurd h (by decide)
  have a2 : r2.freqUse = r.freqUse := by
    funext f
    rw [s2.freq, hw2, hw]
    exact hodd _ _ _ (s1.freq f)
  have a3 : r2.tileUse = r.tileUse := by
    funext t
    rw [s2.tile, hw2, hw]
    exact hodd _ _ _ (s1.tile t)
  have a4 : r2.nTimeFlag = r.nTimeFlag := s2.nTime.trans s1.nTime.symm
  have a5 : r2.nTileFlag = r.nTileFlag := by rw [s2.nTile, s1.nTile, a3]; rfl
  have a6 : r2.nFreqFlag = r.nFreqFlag := by rw [s2.nFreq, s1.nFreq, a2]; rfl
  have : r2 = r := by
    cases r2
    cases r
    simp only at a1 a2 a3 a4 a5 a6
    subst a1 a2 a3 a4 a5 a6
    rfl
  unfold RunIn.basic
  rw [e2, this]

/-- **C314**, flagging again: a run on what the basic flagging gave, flagged again in the same way, gives what the run on the input gives, if
`flag_frequencies` is set and all time steps are in use. -/
theorem C314_again (x : RunIn) (h : RunFits x) (c : FlagConfig) (hc : c.flagFrequencies = true) (hu : ∀ t < x.obs.nTime, 0 < x.obs.timeUse t)
    (r : BasicResult) (hr : x.basic c = .ok r) : flaggedRun (x.basicFlagged r) c = flaggedRun x c := by
  unfold flaggedRun
  rw [hr, basic_again x c hc hu h r hr]
  rfl

/-! ## Examples -/

/-- The run of the examples with 96 channels. -/
noncomputable def exManyChannels (fit : List ℕ → List ℝ → ℕ → List ℝ) : RunIn :=
  { exWholeRun fit with obs := { exAfter with nFreq := 96 } }

theorem exManyChannels_fits (fit : List ℕ → List ℝ → ℕ → List ℝ) : RunFits (exManyChannels fit) where
  pols := (exWholeRun_fits fit).pols
  freqs := by show 0 < 96; norm_num
  samples := (exWholeRun_fits fit).samples
  tileA := (exWholeRun_fits fit).tileA
  tileB := (exWholeRun_fits fit).tileB
  tiles := (exWholeRun_fits fit).tiles
  offsets := ⟨(exWholeRun_fits fit).offsets.1, (exWholeRun_fits fit).offsets.2, (exWholeRun_fits fit).offsets.3⟩
  cast := (exWholeRun_fits fit).cast
  gridFreqs := (exWholeRun_fits fit).gridFreqs
  lengths := (exWholeRun_fits fit).lengths

/-- The hypotheses of `C314_again` are met: of 96 channels in groups of four, the outer two of each group are flagged, once and for all. -/
example (fit : List ℕ → List ℝ → ℕ → List ℝ) : ∃ r, (exManyChannels fit).basic ⟨none, none, [], true⟩ = .ok r ∧ r.weights 0 4 2 = 0 ∧
    r.weights 0 5 2 = 1 ∧ flaggedRun ((exManyChannels fit).basicFlagged r) ⟨none, none, [], true⟩ = flaggedRun (exManyChannels fit) ⟨none, none, [], true⟩ := by
  have h := exManyChannels_fits fit
  have hu : ∀ t < (exManyChannels fit).obs.nTime, 0 < (exManyChannels fit).obs.timeUse t := fun t _ => by show (0 : ℤ) < 1; decide
  obtain ⟨r, h1, h2⟩ := C21_edge_channels (exManyChannels fit).obs ⟨none, none, [], true⟩
    (fun p f s => by classical exact decide ((exManyChannels fit).vis p f s ≠ 0)) (exManyChannels fit).weights rfl rfl rfl rfl h.goodTiles
    (by rw [h.nBl]; exact h.samples) (by show 24 ≤ 96; norm_num) (by show 96 ∣ 768; norm_num) hu
  refine ⟨r, h1, (h2 0 4 2).1 ?_, (h2 0 5 2).2 ?_, C314_again _ h _ rfl hu r h1⟩
  · show NearEdge (32 / (768 / 96)) ((2 + 768 / 96 - 1) / (768 / 96)) 4
    unfold NearEdge
    norm_num
  · show ¬NearEdge (32 / (768 / 96)) ((2 + 768 / 96 - 1) / (768 / 96)) 5
    unfold NearEdge
    norm_num

/-- Limits of frequency change the weights of the example: its last channel is above two (in units of Hz). -/
example (fit : List ℕ → List ℝ → ℕ → List ℝ) : (flaggedOutside (exWholeRun fit) ⟨none, some (2 / 1000000), [], false⟩).weights 0 3 0 = 0 ∧
    (flaggedOutside (exWholeRun fit) ⟨none, some (2 / 1000000), [], false⟩).weights 0 2 0 = 1 := by
  have e : ∀ f : ℕ, (flaggedOutside (exWholeRun fit) ⟨none, some (2 / 1000000), [], false⟩).weights 0 f 0 =
      if (2 / 1000000 : ℚ) < (1 + (f : ℚ) / 2) / 1000000 then 0 else 1 := by
    intro f
    unfold flaggedOutside
    simp only [reduceCtorEq, false_and, exists_false, Option.some.injEq, exists_eq_left', false_or]
    rfl
  constructor
  · rw [e]; norm_num
  · rw [e]; norm_num

end PyFHD
