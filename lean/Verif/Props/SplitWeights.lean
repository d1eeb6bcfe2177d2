import Verif.Lemmas.Flagging
import Mathlib.Data.List.Sort

/-!
# C14, C15: `split_vis_weights`
-/

namespace PyFHD

open Spec

/-- A value limited to `[0, 1]`. -/
def clip01 (x : ℚ) : ℚ := min (max x 0) 1

theorem range_filter_sorted (n : ℕ) (P : ℕ → Bool) :
    ((List.range n).filter P).Pairwise (· < ·) := List.pairwise_lt_range.filter _

/-- The result of a call that reaches the end. -/
theorem splitVisWeights_eq (o : FlagObs) (nb : ℕ) (w : Weights) (h2 : 2 ≤ o.nTime)
    (hu : ∃ t, t < o.nTime ∧ o.timeUse t ≠ 0) :
    ∃ start, start < o.nTime ∧ o.timeUse start ≠ 0 ∧ (∀ t, t < start → o.timeUse t = 0) ∧
    ∃ e d, e = (evenAll o nb start).take (oddAll o nb start).length ∧
      d = (oddAll o nb start).take (evenAll o nb start).length ∧ e.length = d.length ∧
      splitVisWeights o nb w = .ok (.pair (splitApply o w e d) e d) := by
  obtain ⟨start, hs⟩ : ∃ s, (List.range o.nTime).find? (fun t => o.timeUse t ≠ 0) = some s := by
    rw [← Option.isSome_iff_exists, List.find?_isSome]
    obtain ⟨t, h1, h2⟩ := hu
    exact ⟨t, List.mem_range.2 h1, by simpa using h2⟩
  have hs' := hs
  rw [List.find?_range_eq_some] at hs
  refine ⟨start, by simpa using hs.2.1, by simpa using hs.1, by simpa using hs.2.2,
    (evenAll o nb start).take (oddAll o nb start).length,
    (oddAll o nb start).take (evenAll o nb start).length, rfl, rfl, ?_, ?_⟩
  · simp only [List.length_take]; omega
  · unfold splitVisWeights
    rw [if_neg (by omega), hs']
    have hc : cutLonger (evenAll o nb start) (oddAll o nb start) =
        ((evenAll o nb start).take (oddAll o nb start).length,
          (oddAll o nb start).take (evenAll o nb start).length) := by
      unfold cutLonger
      split_ifs with h h'
      · rw [List.take_of_length_le (l := evenAll o nb start) (by omega)]
      · rw [List.take_of_length_le (l := oddAll o nb start) (by omega)]
      · rw [List.take_of_length_le (l := evenAll o nb start) (by omega),
          List.take_of_length_le (l := oddAll o nb start) (by omega)]
    simp only [hc]

/-- **C14**, the structure of the result, in full: the two index lists ascend, have equal length,
are disjoint and inside the array; the weights of the `k`-th even and `k`-th odd sample agree; they
do not exceed either original weight clipped to `[0, 1]` (for the odd one: limited to 1); all other
weights of the polarisations of the observation are zero. -/
theorem C14_split_pairs (o : FlagObs) (nb : ℕ) (w : Weights) (h2 : 2 ≤ o.nTime)
    (hu : ∃ t, t < o.nTime ∧ o.timeUse t ≠ 0) :
    ∃ w' e d, splitVisWeights o nb w = .ok (.pair w' e d) ∧
      e.length = d.length ∧ e.Pairwise (· < ·) ∧ d.Pairwise (· < ·) ∧ e.Disjoint d ∧
      (∀ b ∈ e, b < nb) ∧ (∀ b ∈ d, b < nb) ∧
      (∀ p f (k : ℕ) i j, p < o.nPol → e[k]? = some i → d[k]? = some j →
        w' p f i = w' p f j ∧ w' p f i ≤ clip01 (w p f i) ∧ w' p f i ≤ w p f j ∧ w' p f i ≤ 1) ∧
      (∀ p f b, p < o.nPol → b ∉ e → b ∉ d → w' p f b = 0) ∧
      ∀ p f b, o.nPol ≤ p → w' p f b = w p f b := by
  obtain ⟨start, _, _, _, e, d, he, hd, hlen, hr⟩ := splitVisWeights_eq o nb w h2 hu
  have hes : e.Pairwise (· < ·) := by
    rw [he]; exact (range_filter_sorted _ _).sublist (List.take_sublist _ _)
  have hds : d.Pairwise (· < ·) := by
    rw [hd]; exact (range_filter_sorted _ _).sublist (List.take_sublist _ _)
  have heM : ∀ b ∈ e, b < nb ∧ splitBin o nb start b % 2 = 0 := by
    intro b hb
    rw [he] at hb
    have := List.mem_of_mem_take hb
    simpa [evenAll] using this
  have hdM : ∀ b ∈ d, b < nb ∧ splitBin o nb start b % 2 = 1 := by
    intro b hb
    rw [hd] at hb
    have := List.mem_of_mem_take hb
    simpa [oddAll] using this
  have hdisj : e.Disjoint d := by
    intro b h1 h2
    have h3 := (heM b h1).2
    have h4 := (hdM b h2).2
    omega
  have hen : e.Nodup := hes.imp (fun h => by omega)
  have hdn : d.Nodup := hds.imp (fun h => by omega)
  refine ⟨_, e, d, hr, hlen, hes, hds, hdisj, fun b hb => (heM b hb).1, fun b hb => (hdM b hb).1,
    ?_, ?_, ?_⟩
  · intro p f k i j hp hi hj
    have hie : i ∈ e := List.mem_of_getElem? hi
    have hjd : j ∈ d := List.mem_of_getElem? hj
    have hind : i ∉ d := fun h => hdisj hie h
    obtain ⟨hk1, hk2⟩ := List.getElem?_eq_some_iff.1 hi
    obtain ⟨hk3, hk4⟩ := List.getElem?_eq_some_iff.1 hj
    have i1 : e.idxOf i = k := by rw [← hk2]; exact hen.idxOf_getElem k hk1
    have i2 : d.idxOf j = k := by rw [← hk4]; exact hdn.idxOf_getElem k hk3
    have g1 : e.getD k 0 = i := by simp [List.getD, hi]
    have g2 : d.getD k 0 = j := by simp [List.getD, hj]
    simp only [splitApply, flagUse, hp, if_true, hjd, hie, hind, if_false, i1, i2, g1, g2,
      true_and]
    refine ⟨?_, ?_, ?_⟩
    · unfold clip01
      exact le_min (min_le_left _ _) ((min_le_right _ _).trans (min_le_right _ _))
    · exact (min_le_right _ _).trans (min_le_left _ _)
    · exact (min_le_right _ _).trans (min_le_right _ _)
  · intro p f b hp h1 h2
    simp [splitApply, hp, h1, h2]
  · intro p f b hp
    simp [splitApply, Nat.not_lt.2 hp]

/-- The value written to a pair. -/
theorem split_value (o : FlagObs) (nb : ℕ) (w w' : Weights) (e d : List ℕ)
    (h2 : 2 ≤ o.nTime) (hu : ∃ t, t < o.nTime ∧ o.timeUse t ≠ 0)
    (hr : splitVisWeights o nb w = .ok (.pair w' e d)) (p f k i j : ℕ) (hp : p < o.nPol)
    (hi : e[k]? = some i) (hj : d[k]? = some j) :
    w' p f j = min (max (w p f i) 0) (min (w p f j) 1) := by
  obtain ⟨start, _, _, _, e', d', he, hd, hlen, hr'⟩ := splitVisWeights_eq o nb w h2 hu
  rw [hr] at hr'
  simp only [Except.ok.injEq, SplitResult.pair.injEq] at hr'
  obtain ⟨rfl, rfl, rfl⟩ := hr'
  have hds : d.Pairwise (· < ·) := by
    rw [hd]; exact (range_filter_sorted _ _).sublist (List.take_sublist _ _)
  have hdn : d.Nodup := hds.imp (fun h => by omega)
  have hjd : j ∈ d := List.mem_of_getElem? hj
  obtain ⟨hk3, hk4⟩ := List.getElem?_eq_some_iff.1 hj
  have i2 : d.idxOf j = k := by rw [← hk4]; exact hdn.idxOf_getElem k hk3
  have g1 : e.getD k 0 = i := by simp [List.getD, hi]
  have g2 : d.getD k 0 = j := by simp [List.getD, hj]
  simp only [splitApply, flagUse, hp, if_true, hjd, i2, g1, g2]

/-- **C14**, the value, partial: if the odd sample's original weight is not negative, both samples
get exactly the smaller of the two original weights clipped to `[0, 1]`. Missing: negative odd
weights, where the lower bound fails (`C14_negative_odd_weight`). -/
theorem C14_split_value_partial (o : FlagObs) (nb : ℕ) (w w' : Weights) (e d : List ℕ)
    (h2 : 2 ≤ o.nTime) (hu : ∃ t, t < o.nTime ∧ o.timeUse t ≠ 0)
    (hr : splitVisWeights o nb w = .ok (.pair w' e d)) (p f k i j : ℕ) (hp : p < o.nPol)
    (hi : e[k]? = some i) (hj : d[k]? = some j) (hpos : 0 ≤ w p f j) :
    w' p f j = min (clip01 (w p f i)) (clip01 (w p f j)) := by
  rw [split_value o nb w w' e d h2 hu hr p f k i j hp hi hj]
  unfold clip01
  rw [max_eq_left hpos, min_assoc]
  congr 1
  rw [min_comm 1, min_assoc, min_self]

/-- **C14** is violated for negative odd weights: the negative weight is kept in both samples. -/
theorem C14_negative_odd_weight (o : FlagObs) (nb : ℕ) (w w' : Weights) (e d : List ℕ)
    (h2 : 2 ≤ o.nTime) (hu : ∃ t, t < o.nTime ∧ o.timeUse t ≠ 0)
    (hr : splitVisWeights o nb w = .ok (.pair w' e d)) (p f k i j : ℕ) (hp : p < o.nPol)
    (hi : e[k]? = some i) (hj : d[k]? = some j) (hneg : w p f j < 0) :
    w' p f j = w p f j := by
  rw [split_value o nb w w' e d h2 hu hr p f k i j hp hi hj]
  rw [min_eq_left (by linarith : w p f j ≤ 1), min_eq_right]
  exact hneg.le.trans (le_max_right _ _)

/-- Four steps of two samples. -/
def exSplit (nTime : ℕ) (timeUse : ℕ → ℤ) : FlagObs where
  nPol := 1
  nFreq := 1
  nTile := 3
  nTime := nTime
  dimension := 20
  elements := 20
  kpix := 1
  minBaseline := 0
  maxBaseline := 100
  freq := fun _ => 1
  freqUse := fun _ => 1
  tileUse := fun _ => 1
  timeUse := timeUse
  tileA := []
  tileB := []
  binOffset := fun t => 2 * t
  tileNames := []

/-- Observable part of a split. -/
def SplitResult.show (n : ℕ) : SplitResult → List ℕ × List ℕ × List ℚ
  | .weightsOnly w => ([], [], (List.range n).map (w 0 0))
  | .pair w e d => (e, d, (List.range n).map (w 0 0))

example : (splitVisWeights (exSplit 2 fun _ => 1) 4 fun _ _ b => if b = 3 then -2 else 1 / 2).map
    (SplitResult.show 4) = .ok ([0, 1], [2, 3], [1 / 2, -2, 1 / 2, -2]) := by decide +kernel

/-! ### C15 -/

theorem splitBin0_cases (o : FlagObs) (nb b : ℕ) :
    splitBin0 o nb b = -1 ∨ ∃ t, t < o.nTime / 2 ∧ InStep o nb t b ∧ splitBin0 o nb b = t := by
  rcases foldl_step (fun t b => o.binOffset t ≤ b ∧
      b < (if t + 1 < o.nTime then o.binOffset (t + 1) else nb)) (fun t => ((t : ℕ) : ℤ))
      (o.nTime / 2) (-1) b with ⟨h1, _⟩ | ⟨t, h1, h2, _, h4⟩
  · left; exact h1
  · right; exact ⟨t, h1, ⟨by omega, h2⟩, h4⟩

theorem splitBin0_eq {o : FlagObs} {nb t b : ℕ} (ho : GoodOffsets o nb) (ht : t < o.nTime / 2)
    (h : InStep o nb t b) : splitBin0 o nb b = t := by
  rcases foldl_step (fun t b => o.binOffset t ≤ b ∧
      b < (if t + 1 < o.nTime then o.binOffset (t + 1) else nb)) (fun t => ((t : ℕ) : ℤ))
      (o.nTime / 2) (-1) b with ⟨_, h2⟩ | ⟨s, h1, h2, _, h4⟩
  · exact absurd h.2 (h2 t ht)
  · have : s = t := inStep_unique ho ⟨by omega, h2⟩ h
    subst this
    exact h4

/-- **C15** is violated, missing samples: for four or more time steps, all in use and none empty,
there are two consecutive usable steps `t`, `t + 1` with `t` even such that no sample of `t` is in
the even set. -/
theorem C15_usable_pair_missed (o : FlagObs) (nb : ℕ) (w : Weights) (h4 : 4 ≤ o.nTime)
    (hu : ∀ t, t < o.nTime → o.timeUse t = 1) (ho : GoodOffsets o nb)
    (hne : ∀ t, t < o.nTime → o.binOffset t < stepEnd o nb t) :
    ∃ w' e d, splitVisWeights o nb w = .ok (.pair w' e d) ∧
      ∃ t, t % 2 = 0 ∧ t + 1 < o.nTime ∧ (∃ b, InStep o nb t b) ∧
        ∀ b, InStep o nb t b → b ∉ e := by
  obtain ⟨start, _, _, _, e, d, he, _, _, hr⟩ := splitVisWeights_eq o nb w (by omega)
    ⟨0, by omega, by rw [hu 0 (by omega)]; decide⟩
  refine ⟨_, e, d, hr, o.nTime / 2 * 2 - 2, by omega, by omega,
    ⟨_, by omega, le_refl _, hne _ (by omega)⟩, ?_⟩
  intro b hb hmem
  rw [he] at hmem
  have hm := List.mem_of_mem_take hmem
  simp only [evenAll, List.mem_filter, List.mem_range, decide_eq_true_eq] at hm
  have hbin : splitBin o nb start b = splitBin0 o nb b ∨ splitBin o nb start b = -1 := by
    unfold splitBin; split_ifs <;> simp
  rcases hbin with h | h
  · rw [h] at hm
    rcases splitBin0_cases o nb b with h0 | ⟨s, hs1, hs2, hs3⟩
    · rw [h0] at hm; omega
    · have := inStep_unique ho hb hs2
      omega
  · rw [h] at hm; omega

/-- **C15** is violated, wrong samples: whenever the first time step is flagged and anything is
selected at all, the first sample, which belongs to that flagged step, is in the odd set. -/
theorem C15_flagged_step_selected (o : FlagObs) (nb : ℕ) (w w' : Weights) (e d : List ℕ)
    (h2 : 2 ≤ o.nTime) (hu : ∃ t, t < o.nTime ∧ o.timeUse t ≠ 0) (h0 : o.timeUse 0 = 0)
    (ho : GoodOffsets o nb) (hne : 0 < stepEnd o nb 0) (hnb : 0 < nb)
    (hr : splitVisWeights o nb w = .ok (.pair w' e d)) (hd0 : d ≠ []) :
    InStep o nb 0 0 ∧ 0 ∈ d := by
  have hstep : InStep o nb 0 0 := ⟨by omega, by rw [ho.zero], hne⟩
  refine ⟨hstep, ?_⟩
  obtain ⟨start, _, hs1, hs2, e', d', _, hd, _, hr'⟩ := splitVisWeights_eq o nb w h2 hu
  rw [hr] at hr'
  simp only [Except.ok.injEq, SplitResult.pair.injEq] at hr'
  obtain ⟨-, rfl, rfl⟩ := hr'
  have hbin : splitBin o nb start 0 = -1 := by
    unfold splitBin
    rw [if_pos]
    refine ⟨0, by omega, ?_, splitBin0_eq ho (by omega) hstep⟩
    unfold splitTimeUse
    have : start ≠ 0 := by rintro rfl; exact hs1 h0
    simp only
    rw [if_neg (by omega)]
  have hall : oddAll o nb start = 0 :: (oddAll o nb start).tail := by
    unfold oddAll
    obtain ⟨m, rfl⟩ : ∃ m, nb = m + 1 := ⟨nb - 1, by omega⟩
    rw [List.range_succ_eq_map, List.filter_cons, if_pos]
    · rfl
    · rw [hbin]; decide
  rw [hall] at hd
  cases hk : (evenAll o nb start).length with
  | zero => rw [hk] at hd; simp at hd; exact absurd hd hd0
  | succ k => rw [hd, hk]; simp

/-- **C15**, partial: every sample of the even set belongs to an even time step, and both steps of
its pair, counted from the first step in use, are in use. Missing: the same for the odd set, where
the claim is false. -/
theorem C15_even_usable_partial (o : FlagObs) (nb : ℕ) (w w' : Weights) (e d : List ℕ) (h2 : 2 ≤ o.nTime)
    (hu : ∃ t, t < o.nTime ∧ o.timeUse t ≠ 0) (hr : splitVisWeights o nb w = .ok (.pair w' e d)) :
    ∃ start, o.timeUse start ≠ 0 ∧ (∀ t, t < start → o.timeUse t = 0) ∧ ∀ b ∈ e,
      ∃ t k, InStep o nb t b ∧ t % 2 = 0 ∧ (t = start + 2 * k ∨ t = start + 2 * k + 1) ∧
        start + 2 * k + 1 < o.nTime ∧ o.timeUse (start + 2 * k) ≠ 0 ∧
        o.timeUse (start + 2 * k + 1) ≠ 0 := by
  obtain ⟨start, hlt, hs1, hs2, e', d', he, hd, _, hr'⟩ := splitVisWeights_eq o nb w h2 hu
  rw [hr] at hr'
  simp only [Except.ok.injEq, SplitResult.pair.injEq] at hr'
  obtain ⟨-, rfl, rfl⟩ := hr'
  refine ⟨start, hs1, hs2, fun b hb => ?_⟩
  rw [he] at hb
  have hm := List.mem_of_mem_take hb
  simp only [evenAll, List.mem_filter, List.mem_range, decide_eq_true_eq] at hm
  obtain ⟨_, hm⟩ := hm
  unfold splitBin at hm
  split_ifs at hm with hcut
  · omega
  · rcases splitBin0_cases o nb b with h0 | ⟨t, ht1, ht2, ht3⟩
    · rw [h0] at hm; omega
    · rw [ht3] at hm
      have hpos : 0 < splitTimeUse o start t := by
        by_contra hn
        exact hcut ⟨t, ht2.1, not_lt.mp hn, ht3⟩
      unfold splitTimeUse at hpos
      simp only [] at hpos
      split_ifs at hpos with hin
      · refine ⟨t, (t - start) / 2, ht2, by omega, by omega, by omega, ?_, ?_⟩
        · intro h
          rw [show start + (t - start) / 2 * 2 = start + 2 * ((t - start) / 2) by ring, h] at hpos
          simp at hpos
        · intro h
          rw [show start + (t - start) / 2 * 2 = start + 2 * ((t - start) / 2) by ring, h] at hpos
          simp at hpos
      · exact absurd hpos (lt_irrefl _)

/-- Eight steps, the second flagged: nothing of the first pair is used. -/
example : (splitVisWeights (exSplit 8 fun t => if t = 1 then 0 else 1) 16 fun _ _ _ => 1).map
    (fun r => (r.show 16).1) = .ok [4, 5] := by decide +kernel

/-- **C15**, partial: for two or three time steps, the first two in use, with equally many samples
`B`, the even set is exactly the samples of step 0 and the odd set exactly those of step 1.
Missing: everything beyond the first pair, where the claim is false. -/
theorem C15_first_pair_partial (o : FlagObs) (nb B : ℕ) (w : Weights)
    (hn : o.nTime = 2 ∨ o.nTime = 3) (h0 : 0 < o.timeUse 0) (h1 : 0 < o.timeUse 1)
    (hB0 : o.binOffset 0 = 0) (hB1 : o.binOffset 1 = B) (hnb : 2 * B ≤ nb) :
    ∃ w', splitVisWeights o nb w
      = .ok (.pair w' (List.range B) ((List.range B).map (B + ·))) := by
  obtain ⟨start, _, hs1, hs2, e, d, he, hd, _, hr⟩ := splitVisWeights_eq o nb w (by omega)
    ⟨0, by omega, by omega⟩
  have hs0 : start = 0 := by
    by_contra h
    have := hs2 0 (by omega)
    omega
  subst hs0
  have hb0 : ∀ b, splitBin0 o nb b = if b < B then 0 else -1 := by
    intro b
    have : o.nTime / 2 = 1 := by omega
    unfold splitBin0
    rw [this]
    have h' : (0 : ℕ) + 1 < o.nTime := by omega
    simp only [List.range_one, List.foldl_cons, List.foldl_nil, hB0, h', if_true, zero_add, hB1]
    simp
  have hbin : ∀ b, splitBin o nb 0 b = if b < B then 0 else -1 := by
    intro b
    unfold splitBin
    rw [hb0]
    by_cases hb : b < B
    · rw [if_pos hb, if_neg]
      rintro ⟨t, _, h2, h3⟩
      have ht : t = 0 := by exact_mod_cast h3.symm
      subst ht
      unfold splitTimeUse at h2
      simp only at h2
      rw [if_pos (by omega)] at h2
      have := mul_pos h0 h1
      simp at h2
      omega
    · rw [if_neg hb, if_neg]
      rintro ⟨t, _, _, h3⟩
      omega
  have hfun0 : (fun b => decide (splitBin o nb 0 b % 2 = 0)) = fun b => decide (b < B) := by
    funext b
    rw [hbin]; split_ifs with h <;> simp [h]
  have hfun1 : (fun b => decide (splitBin o nb 0 b % 2 = 1)) = fun b => decide (¬ b < B) := by
    funext b
    rw [hbin]; split_ifs with h <;> simp [h]
  have hsplit : List.range nb = List.range B ++ (List.range (nb - B)).map (B + ·) := by
    have : nb = B + (nb - B) := by omega
    conv_lhs => rw [this]
    rw [List.range_add]
  have hE : evenAll o nb 0 = List.range B := by
    unfold evenAll
    rw [hfun0, hsplit, List.filter_append]
    rw [List.filter_eq_self.2, List.filter_eq_nil_iff.2, List.append_nil]
    · intro a ha; simp at ha; obtain ⟨x, _, rfl⟩ := ha; simp
    · intro a ha; simpa using ha
  have hD : oddAll o nb 0 = (List.range (nb - B)).map (B + ·) := by
    unfold oddAll
    rw [hfun1, hsplit, List.filter_append]
    rw [List.filter_eq_nil_iff.2, List.filter_eq_self.2, List.nil_append]
    · intro a ha; simp at ha; obtain ⟨x, _, rfl⟩ := ha; simp
    · intro a ha; simpa using ha
  rw [hE, hD] at he hd
  have he' : e = List.range B := by
    rw [he]; exact List.take_of_length_le (by simp; omega)
  have hd' : d = (List.range B).map (B + ·) := by
    rw [hd, ← List.map_take, List.length_range, List.take_range]
    congr 2
    omega
  subst he' hd'
  exact ⟨_, hr⟩

example : (splitVisWeights (exSplit 3 fun _ => 1) 6 fun _ _ _ => 1).map (SplitResult.show 6)
    = .ok ([0, 1], [2, 3], [1, 1, 1, 1, 0, 0]) := by decide +kernel

/-- Four steps: samples 4, 5 (step 2) are not in the even set. -/
example : (splitVisWeights (exSplit 4 fun _ => 1) 8 fun _ _ _ => 1).map (SplitResult.show 8)
    = .ok ([0, 1], [2, 3], [1, 1, 1, 1, 0, 0, 0, 0]) := by decide +kernel

example : GoodOffsets (exSplit 4 fun _ => 1) 8 ∧
    ∀ t, t < 4 → (exSplit 4 fun _ => 1).binOffset t < stepEnd (exSplit 4 fun _ => 1) 8 t :=
  ⟨⟨rfl, fun s t h _ => by simp only [exSplit]; omega,
    fun t h => by simp only [exSplit] at *; omega⟩, by decide +kernel⟩

/-- Six steps, the first flagged: samples 0, 1 of the flagged step are in the odd set. -/
example : (splitVisWeights (exSplit 6 fun t => if t = 0 then 0 else 1) 12 fun _ _ _ => 1).map
    (SplitResult.show 12)
    = .ok ([4, 5], [0, 1], [1, 1, 0, 0, 1, 1, 0, 0, 0, 0, 0, 0]) := by decide +kernel

end PyFHD
