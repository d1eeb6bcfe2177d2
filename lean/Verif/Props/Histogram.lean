import Verif.Lemmas.Histogram

/-!
# C01 - C04: the histogram
-/

namespace PyFHD

open Spec

/-- **C01.** For every positive bin size and `lo ≤ hi` the call succeeds; the bins are
`lo, lo + w, ...`, all of them at most `hi` and reaching `hi`; entry `i` of the counts is the
number of data in `[lo, hi]` with `lo + i w ≤ d < lo + (i+1) w`. -/
theorem C01_histogram_counts (data : List ℚ) (w lo hi : ℚ) (hw : 0 < w) (hlh : lo ≤ hi) :
    ∃ r, histogram data w none (some lo) (some hi) = .ok r ∧
      r.hist.length = r.bins.length ∧ 0 < r.bins.length ∧
      (∀ i, i < r.bins.length → r.bins[i]? = some (lo + (i : ℚ) * w) ∧ lo + (i : ℚ) * w ≤ hi) ∧
      hi < lo + (r.bins.length : ℚ) * w ∧
      ∀ i, i < r.bins.length →
        r.hist[i]? = some (data.countP fun d => decide (InBin lo w hi i d)) := by
  obtain ⟨r, h1, h2⟩ := histogramCore_spec data hw hlh
  refine ⟨r, by rw [histogram_minmax _ _ _ _ hlh, h1], ?_, ?_, ?_, ?_, ?_⟩
  · rw [h2.hist_length, h2.bins_length]
  · rw [h2.bins_length]; unfold nBins; omega
  · intro i hi'
    have hi'' := hi'
    rw [h2.bins_length] at hi''
    refine ⟨?_, (nBins_spec hw hlh).2 i hi''⟩
    rw [h2.bins]; simp [hi'']
  · rw [h2.bins_length]; exact (nBins_spec hw hlh).1
  · intro i hi'; exact h2.hist_get hi'

example : histogram [3, 0, 7, 2, 5, -1, 9] 3 none (some 0) (some 7)
    = .ok ⟨[2, 2, 1], [0, 3, 6], [4, 6, 8, 9, 1, 3, 0, 4, 2]⟩ := by
  decide +kernel

/-- **C01**, omitted limits: for non-empty data they are the extreme data. -/
theorem C01_histogram_default_limits (data : List ℚ) (w : ℚ) (hd : data ≠ []) :
    ∃ lo hi, lo ∈ data ∧ hi ∈ data ∧ (∀ d ∈ data, lo ≤ d ∧ d ≤ hi) ∧
      histogram data w none none none = histogram data w none (some lo) (some hi) := by
  obtain ⟨lo, h1⟩ := listMin?_isSome hd
  obtain ⟨hi, h2⟩ := listMax?_isSome hd
  obtain ⟨a1, a2⟩ := listMin?_spec _ _ h1
  obtain ⟨b1, b2⟩ := listMax?_spec _ _ h2
  refine ⟨lo, hi, a1, b1, fun d hd => ⟨a2 d hd, b2 d hd⟩, ?_⟩
  simp [histogram, h1, h2]

/-- **C01**, rejected inputs: no data and no limits, or a zero bin size. -/
theorem C01_histogram_errors (w lo hi : ℚ) (data : List ℚ) :
    histogram [] w none none none = .error .valueError ∧
      histogram data 0 none (some lo) (some hi) = .error .zeroDivision := by
  constructor
  · rfl
  · simp [histogram, histogramCore, getBins, bind, Except.bind]

/-- **C02.** Every bin's slice of the reverse indices is the ascending list of positions of the
data in the bin, and has the bin's count as length. -/
theorem C02_reverse_indices (data : List ℚ) (w lo hi : ℚ) (hw : 0 < w) (hlh : lo ≤ hi)
    (r : HistResult) (hr : histogram data w none (some lo) (some hi) = .ok r)
    (i : ℕ) (hi' : i < r.bins.length) :
    riSlice r.ri i = some (positions (InBin lo w hi i) data) ∧
      r.hist[i]? = some (positions (InBin lo w hi i) data).length := by
  obtain ⟨r', h1, h2⟩ := histogramCore_spec data hw hlh
  rw [histogram_minmax _ _ _ _ hlh, h1] at hr
  cases hr
  exact ⟨h2.riSlice_eq hi', by rw [h2.hist_get hi', positions_length]⟩

example : (positions (InBin 0 3 7 0) [3, 0, 7, 2, 5, -1, 9]) = [1, 3] := by decide +kernel

/-- **C03.** The counts sum to the number of in-range data, the reverse indices have one cell per
in-range datum after the `n+1` offsets, each in-range position is in exactly one slice (and
occurs there once), positions of out-of-range data are in no slice. -/
theorem C03_histogram_partition (data : List ℚ) (w lo hi : ℚ) (hw : 0 < w) (hlh : lo ≤ hi)
    (r : HistResult) (hr : histogram data w none (some lo) (some hi) = .ok r) :
    r.hist.sum = data.countP (fun d => decide (InRange lo hi d)) ∧
      r.ri.length = r.bins.length + 1 + r.hist.sum ∧
      (∀ i s, i < r.bins.length → riSlice r.ri i = some s → s.Nodup ∧ s.Pairwise (· < ·)) ∧
      (∀ p d, data[p]? = some d → InRange lo hi d →
        ∃! i, i < r.bins.length ∧ ∃ s, riSlice r.ri i = some s ∧ p ∈ s) ∧
      (∀ p, (∀ d, data[p]? = some d → ¬ InRange lo hi d) →
        ∀ i s, i < r.bins.length → riSlice r.ri i = some s → p ∉ s) := by
  obtain ⟨r', h1, h2⟩ := histogramCore_spec data hw hlh
  rw [histogram_minmax _ _ _ _ hlh, h1] at hr
  cases hr
  refine ⟨h2.sum hw, ?_, ?_, ?_, ?_⟩
  · rw [h2.riLen, h2.sum hw, h2.bins_length]
  · intro i s hi' hs
    rw [h2.riSlice_eq hi'] at hs
    cases hs
    have hp : (positions (InBin lo w hi i) data).Pairwise (· < ·) := by
      unfold positions
      exact List.Pairwise.filter _ List.pairwise_lt_range
    exact ⟨hp.imp (fun h => Nat.ne_of_lt h), hp⟩
  · intro p d hp hd
    obtain ⟨i, ⟨a1, a2⟩, a3⟩ := inBin_unique hw hd
    rw [← h2.bins_length] at a1
    refine ⟨i, ⟨a1, _, h2.riSlice_eq a1, (mem_positions _ _ _).mpr ⟨d, hp, a2⟩⟩, ?_⟩
    rintro j ⟨hj, s, hs, hps⟩
    rw [h2.riSlice_eq hj] at hs
    cases hs
    obtain ⟨d', hd', hb⟩ := (mem_positions _ _ _).mp hps
    rw [hp] at hd'
    cases hd'
    exact a3 j ⟨by rw [← h2.bins_length]; exact hj, hb⟩
  · intro p hp i s hi' hs hmem
    rw [h2.riSlice_eq hi'] at hs
    cases hs
    obtain ⟨d, hd, hb⟩ := (mem_positions _ _ _).mp hmem
    exact hp d hd ⟨hb.1, hb.2.1⟩

/-- **C04 (partial).** With a requested number of bins `k + 1` the call succeeds with `k + 1` bins
and every in-range datum is counted in its bin, *provided no datum equals the maximum* (or there is
a single bin, see `C04_numBins_one`). Missing: data containing the maximum, for which the claim is
false, see `C04_numBins_max_overflows`. -/
theorem C04_numBins_partial (data : List ℚ) (w0 lo hi : ℚ) (k : ℕ) (h : lo < hi)
    (hmax : ∀ d ∈ data, d ≠ hi) :
    ∃ r, histogram data w0 (some (k + 1)) (some lo) (some hi) = .ok r ∧
      r.bins.length = k + 1 ∧ r.hist.length = k + 1 ∧
      (∀ i, i < k + 1 → r.hist[i]? = some (data.countP fun d =>
        decide (InBin lo ((hi - lo) / ((k : ℚ) + 1)) hi i d))) ∧
      r.hist.sum = data.countP (fun d => decide (InRange lo hi d)) := by
  set w := (hi - lo) / ((k : ℚ) + 1) with hwdef
  have hk : (0 : ℚ) < (k : ℚ) + 1 := by positivity
  have hw : 0 < w := div_pos (by linarith) hk
  have hwk : hi - lo = w * ((k : ℚ) + 1) := by rw [hwdef]; field_simp
  obtain ⟨bl, e1, e2⟩ := numBins_edges k h
  rw [← hwdef] at e1 e2
  let b : ℚ → Option ℕ := fun d => if d < lo ∨ d > hi then none else some ⌊(d - lo) / w⌋₊
  have hcls : Classifies (binI lo (lo + (k : ℚ) * w) (k : ℤ) lo hi) b (k + 1) data := by
    intro d hdm
    by_cases hr : d < lo ∨ d > hi
    · constructor
      · simp only [binI, b, if_pos hr]; rfl
      · intro j hj; simp only [b, if_pos hr] at hj; cases hj
    · have h1 : lo ≤ d := by by_contra h; exact hr (Or.inl (not_le.mp h))
      have h2 : d ≤ hi := by by_contra h; exact hr (Or.inr (not_le.mp h))
      have h3 : d < hi := lt_of_le_of_ne h2 (hmax d hdm)
      have hlt : (d - lo) / w < (k : ℚ) + 1 := by rw [div_lt_iff₀ hw]; linarith
      constructor
      · simp only [binI, b, if_neg hr]
        rw [pyInt_bin hw h1 (by
          intro h0; subst h0; simp at hwk; linarith)]
        rfl
      · intro j hj
        simp only [b, if_neg hr, Option.some.injEq] at hj
        have hq : 0 ≤ (d - lo) / w := div_nonneg (by linarith) hw.le
        have := (Nat.floor_lt hq).mpr (by push_cast; exact hlt : (d - lo) / w < ((k + 1 : ℕ) : ℚ))
        omega
  obtain ⟨hist, ri, g1, g2, g3, _, _, _⟩ := getHist_getRi_spec data lo w lo hi k b hcls
  have hbin : ∀ i d, (b d == some i) = decide (InBin lo w hi i d) := by
    intro i d
    by_cases hr : d < lo ∨ d > hi
    · have : ¬ InBin lo w hi i d := by
        unfold InBin; rintro ⟨a, c, _⟩
        rcases hr with h | h <;> linarith
      simp [b, if_pos hr, this]
    · have h1 : lo ≤ d := by by_contra h; exact hr (Or.inl (not_le.mp h))
      have h2 : d ≤ hi := by by_contra h; exact hr (Or.inr (not_le.mp h))
      have hiff := floor_eq_iff_inBin hw h1 h2 i
      rw [Bool.eq_iff_iff]
      simp only [b, if_neg hr, beq_iff_eq, Option.some.injEq, decide_eq_true_eq]
      exact hiff
  refine ⟨⟨hist, edges lo w (k + 1), ri⟩, ?_, by simp [edges_length], by rw [g3]; simp, ?_, ?_⟩
  · have hnl : ¬ lo > hi := not_lt.mpr h.le
    simp only [histogram, Option.orElse_some, if_neg hnl, histogramCore, getBins, ← hwdef,
      if_neg hw.ne', bind, Except.bind, e1, e2, or_true, if_true, g1, g2, pure, Except.pure]
  · intro i hi'
    simp only [g3]
    rw [List.getElem?_map, List.getElem?_range hi']
    simp only [Option.map_some, Option.some.injEq]
    apply List.countP_congr
    intro d _
    rw [hbin]
  · simp only [g3]
    rw [sum_countP_bins b (k + 1) data (fun d hd => (hcls d hd).2)]
    apply List.countP_congr
    intro d _
    by_cases hr : d < lo ∨ d > hi
    · have : ¬ InRange lo hi d := by
        unfold InRange; rintro ⟨a, c⟩
        rcases hr with h | h <;> linarith
      simp [b, if_pos hr, this]
    · have h1 : lo ≤ d := by by_contra h; exact hr (Or.inl (not_le.mp h))
      have h2 : d ≤ hi := by by_contra h; exact hr (Or.inr (not_le.mp h))
      have : InRange lo hi d := ⟨h1, h2⟩
      simp [b, if_neg hr, this]

example : histogram [3, 0, 7, 2] 1 (some 2) (some 0) (some 8)
    = .ok ⟨[3, 1], [0, 4], [3, 6, 7, 0, 1, 3, 2]⟩ := by decide +kernel

/-- **C04**, single bin: every in-range datum, the maximum included, is counted. -/
theorem C04_numBins_one (data : List ℚ) (w0 lo hi : ℚ) (h : lo < hi) :
    ∃ r, histogram data w0 (some 1) (some lo) (some hi) = .ok r ∧
      r.bins = [lo] ∧ r.hist = [data.countP (fun d => decide (InRange lo hi d))] := by
  obtain ⟨bl, e1, e2⟩ := numBins_edges 0 h
  simp only [Nat.cast_zero, zero_add, div_one] at e1 e2
  let b : ℚ → Option ℕ := fun d => if d < lo ∨ d > hi then none else some 0
  have hcls : Classifies (binI lo (lo + ((0 : ℕ) : ℚ) * (hi - lo)) ((0 : ℕ) : ℤ) lo hi) b (0 + 1)
      data := by
    intro d _
    by_cases hr : d < lo ∨ d > hi
    · constructor
      · simp only [binI, b, if_pos hr]; rfl
      · intro j hj; simp only [b, if_pos hr] at hj; cases hj
    · constructor
      · simp only [binI, b, if_neg hr]; simp [pyInt]
      · intro j hj
        simp only [b, if_neg hr, Option.some.injEq] at hj
        omega
  obtain ⟨hist, ri, g1, g2, g3, _, _, _⟩ := getHist_getRi_spec data lo (hi - lo) lo hi 0 b hcls
  simp only [zero_add] at g1 g2 g3
  refine ⟨⟨hist, edges lo (hi - lo) 1, ri⟩, ?_, by simp [edges], ?_⟩
  · have hnl : ¬ lo > hi := not_lt.mpr h.le
    have hne : ¬ (hi - lo = 0) := by intro he; linarith
    simp only [histogram, Option.orElse_some, if_neg hnl, histogramCore, getBins, Nat.cast_zero,
      zero_add, div_one, if_neg hne, bind, Except.bind, e1, e2, or_true, if_true, g1, g2, pure,
      Except.pure]
  · rw [g3]
    simp only [List.range_one, List.map_cons, List.map_nil, List.cons.injEq, and_true]
    apply List.countP_congr
    intro d _
    by_cases hr : d < lo ∨ d > hi
    · have : ¬ InRange lo hi d := by
        unfold InRange; rintro ⟨a, c⟩
        rcases hr with h | h <;> linarith
      simp [b, if_pos hr, this]
    · have h1 : lo ≤ d := by by_contra h; exact hr (Or.inl (not_le.mp h))
      have h2 : d ≤ hi := by by_contra h; exact hr (Or.inr (not_le.mp h))
      have : InRange lo hi d := ⟨h1, h2⟩
      simp [b, if_neg hr, this]

/-- **C04, violation.** With two or more requested bins, any data containing the maximum make the
compiled code write outside the count array. -/
theorem C04_numBins_max_overflows (data : List ℚ) (w0 lo hi : ℚ) (k : ℕ) (h : lo < hi)
    (hmem : hi ∈ data) :
    histogram data w0 (some (k + 2)) (some lo) (some hi) = .error .outOfBounds := by
  obtain ⟨bl, e1, e2⟩ := numBins_edges (k + 1) h
  set w := (hi - lo) / (((k + 1 : ℕ) : ℚ) + 1) with hwdef
  have hk : (0 : ℚ) < ((k + 1 : ℕ) : ℚ) + 1 := by positivity
  have hw : 0 < w := div_pos (by linarith) hk
  have hwk : hi - lo = w * (((k + 1 : ℕ) : ℚ) + 1) := by rw [hwdef]; field_simp
  have hnl : ¬ lo > hi := not_lt.mpr h.le
  have hcast : ((k + 1 + 1 : ℕ) : ℤ) - 1 = ((k + 1 : ℕ) : ℤ) := by push_cast; ring
  have herr : getHist data (edges lo w (k + 1 + 1)) lo hi = .error .outOfBounds := by
    unfold getHist
    rw [edges_head _ _ (by omega), edges_last, edges_length]
    simp only [hcast]
    apply histLoop_error
    refine ⟨hi, hmem, ((⌊(hi - lo) / w⌋₊ : ℕ) : ℤ), ?_, ?_⟩
    · have hnr : ¬ (hi < lo ∨ hi > hi) := by simp [h.le]
      simp only [binI, if_neg hnr]
      rw [pyInt_bin hw h.le (by intro h0; omega)]
    · have : (hi - lo) / w = ((k + 2 : ℕ) : ℚ) := by
        rw [div_eq_iff hw.ne']; push_cast at hwk ⊢; linarith
      rw [this, Nat.floor_natCast]
      exact pyIndex_none (by simp)
  simp only [histogram, Option.orElse_some, if_neg hnl, histogramCore, getBins, ← hwdef,
    if_neg hw.ne', bind, Except.bind, e1, e2, or_true, if_true, herr]

end PyFHD
