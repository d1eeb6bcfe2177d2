import Verif.Lemmas.FloatRound
import Verif.Lemmas.Histogram
import Verif.Props.Histogram

/-!
# Histograms in floating point arithmetic
-/

namespace PyFHD
open Spec

section
variable {p : ℕ} {rnd : ℚ → ℚ}

theorem Spec.Rounding.natCast' (h : Rounding p rnd) {k : ℕ} (hk : k ≤ 2 ^ p) : rnd k = k := by
  have := h.int k (by rw [abs_of_nonneg (by positivity)]; exact_mod_cast hk)
  exact_mod_cast this

theorem Spec.Rounding.zero' (h : Rounding p rnd) : rnd 0 = 0 := by
  have := h.int 0 (by simp)
  simpa using this

theorem Spec.Rounding.nonneg' (h : Rounding p rnd) {q : ℚ} (hq : 0 ≤ q) : 0 ≤ rnd q := by
  have := h.mono 0 q hq
  rwa [h.zero'] at this

theorem pyInt_mono {a b : ℚ} (h : a ≤ b) : pyInt a ≤ pyInt b := by
  unfold pyInt
  split_ifs with h1 h2 h2
  · exact Int.floor_le_floor h
  · exact absurd (h1.trans h) h2
  · exact (Int.ceil_le.mpr (by push_cast; linarith) : ⌈a⌉ ≤ 0).trans (Int.floor_nonneg.mpr h2)
  · exact Int.ceil_le_ceil h

theorem pyInt_int' (k : ℤ) : pyInt k = k := by
  unfold pyInt; split_ifs <;> simp

/-- What the two loops return, whatever the classification of the data. -/
theorem histRiR_spec (data bins : List ℚ) (mn mx b0 bl : ℚ) (M : ℕ) (b : ℚ → Option ℕ) (hl : bins.length = M + 1)
    (h0 : bins.head? = some b0) (hB1 : bins.getLast? = some bl)
    (hc : Classifies (binIR rnd b0 bl (M : ℤ) mn mx) b (M + 1) data) :
    ∃ hist ri, histRiR rnd data bins mn mx = .ok (hist, ri) ∧
      hist = (List.range (M + 1)).map (fun j => data.countP (fun d => b d == some j)) ∧
      ri.length = M + 2 + data.countP (fun d => b d != none) ∧
      (∀ i, i ≤ M + 1 → ri[i]? = some (M + 2 + (hist.take i).sum)) ∧
      (∀ j, j < M + 1 → slice ri (M + 2 + (hist.take j).sum) (M + 2 + (hist.take (j + 1)).sum)
        = posOf b j data) := by
  obtain ⟨hist, h1, h2, h3⟩ := histLoop_spec data (List.replicate (M + 1) 0) (by simp) hc
  have h3' : ∀ j, j < M + 1 → hist[j]? = some (data.countP (fun d => b d == some j)) := by
    intro j hj
    rw [h3 j hj]
    simp [List.getD_eq_getElem?_getD, hj]
  have hhist : hist = (List.range (M + 1)).map (fun j => data.countP (fun d => b d == some j)) := by
    apply List.ext_getElem?
    intro i
    by_cases hi : i < M + 1
    · rw [h3' i hi]; simp [hi]
    · rw [List.getElem?_eq_none (by omega), List.getElem?_eq_none (by simp; omega)]
  obtain ⟨ri, counter, r1, r2, r3, r4, r5⟩ := ri_spec data hist hc h2 h3'
  have hcast : ((M + 1 : ℕ) : ℤ) - 1 = (M : ℤ) := by push_cast; ring
  have hcount : data.countP (fun d => b d == none) + data.countP (fun d => b d != none)
      = data.length := by
    rw [List.length_eq_countP_add_countP (fun d => b d == none)]
    congr 1
    apply List.countP_congr
    intro d _
    simp
  have hsum : ∀ i, (hist.take i).sum ≤ data.countP (fun d => b d != none) := by
    intro i
    rw [← sum_countP_bins b (M + 1) data (fun d hd => (hc d hd).2), ← hhist]
    conv_rhs => rw [← List.take_append_drop i hist]
    rw [List.sum_append]; omega
  have hlen : (ri.take (ri.length - counter)).length
      = M + 2 + data.countP (fun d => b d != none) := by
    rw [List.length_take, r2, r3]; omega
  refine ⟨hist, ri.take (ri.length - counter), ?_, hhist, hlen, ?_, ?_⟩
  · unfold histRiR
    rw [h0, hB1, hl]
    simp only [hcast, bind, Except.bind, h1, r1, pure, Except.pure]
  · intro i hi
    have : i < ri.length - counter := by
      rw [List.length_take] at hlen; omega
    rw [List.getElem?_take_of_lt this, r4 i hi]
  · intro j hj
    have hposlen : (posOf b j data).length = data.countP (fun d => b d == some j) := by
      unfold posOf
      rw [positions_length]
      apply List.countP_congr
      intro d _
      simp
    have hsucc : (hist.take (j + 1)).sum = (hist.take j).sum + (posOf b j data).length := by
      rw [List.take_add_one, h3' j hj, List.sum_append, hposlen]
      simp
    have hs1 := hsum (j + 1)
    have hlen' : ri.length - counter = M + 2 + data.countP (fun d => b d != none) := by
      rw [r2, r3]; omega
    apply List.ext_getElem?
    intro k
    unfold slice
    rw [List.getElem?_drop, hsucc]
    by_cases hk : k < (posOf b j data).length
    · rw [List.getElem?_take_of_lt (by omega), List.getElem?_take_of_lt (by omega), ← r5 j hj k hk]
    · rw [List.getElem?_eq_none (by simp; omega), List.getElem?_eq_none (by omega)]


theorem histLoop_congr {cls cls' : ℚ → Option ℤ} (data : List ℚ) (h : ∀ d ∈ data, cls d = cls' d) (hist : List ℕ) :
    histLoop cls data hist = histLoop cls' data hist := by
  induction data generalizing hist with
  | nil => rfl
  | cons d ds ih =>
    simp only [histLoop]
    rw [h d (by simp)]
    rcases cls' d with _ | bi
    · exact ih (fun x hx => h x (by simp [hx])) _
    · dsimp only
      rcases pyIndex hist.length bi with _ | j
      · rfl
      · exact ih (fun x hx => h x (by simp [hx])) _

theorem riLoop_congr {cls cls' : ℚ → Option ℤ} (data : List ℚ) (h : ∀ d ∈ data, cls d = cls' d) (i : ℕ)
    (ri t : List ℕ) (c : ℕ) : riLoop cls data i ri t c = riLoop cls' data i ri t c := by
  induction data generalizing i ri t c with
  | nil => rfl
  | cons d ds ih =>
    simp only [riLoop]
    rw [h d (by simp)]
    have h' : ∀ x ∈ ds, cls x = cls' x := fun x hx => h x (by simp [hx])
    rcases cls' d with _ | bi
    · exact ih h' _ _ _ _
    · dsimp only
      rcases pyIndex t.length bi with _ | j
      · rfl
      · dsimp only
        split_ifs
        · exact ih h' _ _ _ _
        · rfl

theorem histLoop_length {cls : ℚ → Option ℤ} (data : List ℚ) (hist h : List ℕ) (hh : histLoop cls data hist = .ok h) :
    h.length = hist.length := by
  induction data generalizing hist with
  | nil => simp only [histLoop, Except.ok.injEq] at hh; rw [hh]
  | cons d ds ih =>
    simp only [histLoop] at hh
    rcases hc : cls d with _ | bi
    · rw [hc] at hh; exact ih _ hh
    · rw [hc] at hh
      dsimp only at hh
      rcases hp : pyIndex hist.length bi with _ | j
      · rw [hp] at hh; cases hh
      · rw [hp] at hh
        rw [ih _ hh]; simp

/-- The loops of the floating point model are those of the exact one when the bin of every datum is the same. -/
theorem histRiR_exact (data bins : List ℚ) (mn mx b0 bl : ℚ) (h0 : bins.head? = some b0) (h1 : bins.getLast? = some bl)
    (hc : ∀ d ∈ data, binIR rnd b0 bl ((bins.length : ℤ) - 1) mn mx d = binI b0 bl ((bins.length : ℤ) - 1) mn mx d) :
    histRiR rnd data bins mn mx = (do
      let hist ← getHist data bins mn mx
      let ri ← getRi data bins hist mn mx
      return (hist, ri)) := by
  unfold histRiR getHist getRi
  rw [h0, h1]
  simp only [bind, Except.bind, pure, Except.pure]
  rw [histLoop_congr data hc]
  rcases hh : histLoop (binI b0 bl ((bins.length : ℤ) - 1) mn mx) data (List.replicate bins.length 0) with e | hist
  · rfl
  · dsimp only
    have hl := histLoop_length _ _ _ hh
    rw [if_pos (by rw [firstV_length, hl]; simp), riLoop_congr data hc]
    rcases riLoop (binI b0 bl ((bins.length : ℤ) - 1) mn mx) data 0 (firstV (bins.length + 1) hist ++ List.replicate data.length 0)
      (firstV (bins.length + 1) hist) 0 with e | ⟨ri, c⟩ <;> rfl

theorem arangeR_int (h : Rounding p rnd) {lo hi : ℤ} (hlh : lo ≤ hi) (hlo : -2 ^ p ≤ lo) (hhi : hi + 1 ≤ 2 ^ p)
    (hn : (hi - lo + 1) ^ 2 ≤ 2 ^ p) :
    arangeR rnd lo (rnd ((hi : ℚ) + 1)) 1 = arange lo ((hi : ℚ) + 1) 1 := by
  have hn1 : hi - lo + 1 ≤ 2 ^ p := by nlinarith
  have hp : (1 : ℤ) ≤ 2 ^ p := by nlinarith
  have e1 : rnd ((hi : ℚ) + 1) = (hi : ℚ) + 1 := by
    have := h.int (hi + 1) (abs_le.mpr ⟨by omega, by omega⟩)
    push_cast at this; exact this
  have e2 : rnd ((hi : ℚ) + 1 - lo) = (hi : ℚ) + 1 - lo := by
    have := h.int (hi + 1 - lo) (abs_le.mpr ⟨by omega, by omega⟩)
    push_cast at this; exact this
  have e3 : rnd ((lo : ℚ) + 1) = (lo : ℚ) + 1 := by
    have := h.int (lo + 1) (abs_le.mpr ⟨by omega, by omega⟩)
    push_cast at this; exact this
  have e4 : rnd 1 = 1 := by
    have := h.int 1 (by simpa using hp)
    simpa using this
  unfold arangeR arange
  rw [e1, e2, div_one, e2, e3, show (lo : ℚ) + 1 - lo = 1 by ring, e4]
  dsimp only
  apply List.map_congr_left
  intro i hi'
  have hc : ⌈(hi : ℚ) + 1 - lo⌉ = hi + 1 - lo := by
    have : (hi : ℚ) + 1 - lo = ((hi + 1 - lo : ℤ) : ℚ) := by push_cast; ring
    rw [this, Int.ceil_intCast]
  rw [hc, List.mem_range] at hi'
  have e5 : rnd (i : ℚ) = i := by
    have := h.int i (abs_le.mpr ⟨by omega, by omega⟩)
    exact_mod_cast this
  have e6 : rnd ((lo : ℚ) + i) = lo + i := by
    have := h.int (lo + i) (abs_le.mpr ⟨by omega, by omega⟩)
    push_cast at this; exact this
  rw [mul_one, e5, e6]

theorem arange_int {lo hi : ℤ} (hlh : lo ≤ hi) :
    ∃ N : ℕ, (N : ℤ) = hi - lo ∧ arange lo ((hi : ℚ) + 1) 1 = edges lo 1 (N + 1) := by
  obtain ⟨N, hN⟩ := Int.eq_ofNat_of_zero_le (sub_nonneg.mpr hlh)
  refine ⟨N, hN.symm, ?_⟩
  unfold arange edges
  have hc : ⌈((hi : ℚ) + 1 - lo) / 1⌉ = hi + 1 - lo := by
    have : ((hi : ℚ) + 1 - lo) / 1 = ((hi + 1 - lo : ℤ) : ℚ) := by push_cast; ring
    rw [this, Int.ceil_intCast]
  rw [hc, show (hi + 1 - lo).toNat = N + 1 by omega]

/-- **C220.** The histogram of integers with bins of width 1 is exact in floating point arithmetic, as long as the limits fit
in the significand and the square of the number of bins does too (for `float64`: fewer than `9 * 10^7` bins). -/
theorem C220_integers_exact (h : Rounding p rnd) (data : List ℤ) {lo hi : ℤ} (hlh : lo ≤ hi) (hlo : -2 ^ p ≤ lo)
    (hhi : hi + 1 ≤ 2 ^ p) (hn : (hi - lo + 1) ^ 2 ≤ 2 ^ p) :
    histogramR rnd (data.map (fun (k : ℤ) => (k : ℚ))) 1 (some lo) (some hi)
      = histogram (data.map (fun (k : ℤ) => (k : ℚ))) 1 none (some lo) (some hi) := by
  obtain ⟨N, hN, hA⟩ := arange_int hlh
  have hlhq : ¬ (lo : ℚ) > hi := not_lt.mpr (by exact_mod_cast hlh)
  have hNq : (N : ℚ) = hi - lo := by exact_mod_cast congrArg (fun z : ℤ => (z : ℚ)) hN
  have hbl : ¬ ((lo : ℚ) + (N : ℚ) * 1 > hi) := by rw [hNq]; simp
  unfold histogramR histogram
  simp only [Option.orElse, if_neg hlhq]
  unfold histogramCore binsR getBins
  rw [if_neg one_ne_zero, arangeR_int h hlh hlo hhi hn, if_neg one_ne_zero, hA]
  simp only [bind, Except.bind, edges_last, if_neg hbl]
  rw [if_neg (by push Not; exact ⟨not_lt.mp hbl, by simp⟩)]
  rw [histRiR_exact (b0 := lo) (bl := (lo : ℚ) + (N : ℚ) * 1) _ _ _ _ (edges_head _ _ (by omega)) (edges_last _ _ _)]
  · simp only [bind, Except.bind, pure, Except.pure]
    rcases getHist (data.map (fun (k : ℤ) => (k : ℚ))) (edges lo 1 (N + 1)) lo hi with e | hist
    · rfl
    · dsimp only
      rcases getRi (data.map (fun (k : ℤ) => (k : ℚ))) (edges lo 1 (N + 1)) hist lo hi with e | ri <;> rfl
  · intro d hd
    obtain ⟨k, _, rfl⟩ := List.mem_map.mp hd
    rw [edges_length]
    unfold binIR binI
    by_cases hr : (k : ℚ) < lo ∨ (k : ℚ) > hi
    · rw [if_pos hr, if_pos hr]
    · rw [if_neg hr, if_neg hr]
      dsimp only
      push Not at hr
      have k1 : lo ≤ k := by exact_mod_cast hr.1
      have k2 : k ≤ hi := by exact_mod_cast hr.2
      have e1 : rnd ((k : ℚ) - lo) = (k : ℚ) - lo := by
        have := h.int (k - lo) (abs_le.mpr ⟨by nlinarith, by nlinarith⟩)
        push_cast at this; exact this
      have hM : (((N + 1 : ℕ) : ℤ) - 1 : ℤ) = hi - lo := by push_cast; omega
      have e2 : rnd (((((N + 1 : ℕ) : ℤ) - 1 : ℤ) : ℚ) * ((k : ℚ) - lo)) = ((((N + 1 : ℕ) : ℤ) - 1 : ℤ) : ℚ) * ((k : ℚ) - lo) := by
        rw [hM]
        have := h.int ((hi - lo) * (k - lo)) (abs_le.mpr ⟨by nlinarith [mul_nonneg (sub_nonneg.mpr hlh) (sub_nonneg.mpr k1)],
          by nlinarith [mul_le_mul_of_nonneg_left (sub_le_sub_right k2 lo) (sub_nonneg.mpr hlh)]⟩)
        push_cast at this ⊢; exact this
      have e3 : (lo : ℚ) + (N : ℚ) * 1 - lo = hi - lo := by rw [hNq]; ring
      have e4 : rnd ((hi : ℚ) - lo) = hi - lo := by
        have := h.int (hi - lo) (abs_le.mpr ⟨by nlinarith, by nlinarith⟩)
        push_cast at this; exact this
      rw [e1, e2, e3, e4]
      by_cases hz : (lo : ℚ) = (lo : ℚ) + (N : ℚ) * 1
      · rw [if_pos hz, div_one, e2]
      · rw [if_neg hz, hM]
        have hne : (hi : ℚ) - lo ≠ 0 := by
          intro hc; apply hz; rw [hNq, hc]; ring
        have e5 : (((hi - lo : ℤ) : ℚ)) * ((k : ℚ) - lo) / (hi - lo) = (k : ℚ) - lo := by
          push_cast; field_simp
        rw [e5, e1]


/-- An example: `float64`, a dozen integers between -3 and 8. -/
example : histogramR (roundFloat 53) [-3, 2, 2, 8, 5, 0, 1, 1, 1, -3, 7, 9] 1 (some (-3)) (some 8)
    = histogram [-3, 2, 2, 8, 5, 0, 1, 1, 1, -3, 7, 9] 1 none (some (-3)) (some 8) := by
  have := C220_integers_exact (roundFloat_rounding (p := 53) (by norm_num)) [-3, 2, 2, 8, 5, 0, 1, 1, 1, -3, 7, 9]
    (lo := -3) (hi := 8) (by norm_num) (by norm_num) (by norm_num) (by norm_num)
  simpa using this

end

namespace Spec

/-- What remains true of a histogram whose edges are rounded: its slices of the reverse indices are ascending, as long as the
counts say, hold every datum of the range in exactly one bin and no other datum, and the bins are in the order of the data. -/
structure OrderedParts (data : List ℚ) (lo hi : ℚ) (r : HistResult) : Prop where
  len : r.hist.length = r.bins.length
  total : r.hist.sum = data.countP fun d => decide (InRange lo hi d)
  slices : ∀ (i : ℕ), i < r.bins.length → ∃ s, riSlice r.ri i = some s ∧ r.hist[i]? = some s.length ∧ s.Pairwise (· < ·)
  cover : ∀ (q : ℕ) (d : ℚ), data[q]? = some d → InRange lo hi d →
    ∃! i, i < r.bins.length ∧ ∃ s, riSlice r.ri i = some s ∧ q ∈ s
  only : ∀ (i : ℕ) (s : List ℕ), i < r.bins.length → riSlice r.ri i = some s → ∀ q ∈ s, ∃ d, data[q]? = some d ∧ InRange lo hi d
  order : ∀ (i j : ℕ) (s t : List ℕ), i < j → j < r.bins.length → riSlice r.ri i = some s → riSlice r.ri j = some t →
    ∀ a ∈ s, ∀ b ∈ t, ∃ x y, data[a]? = some x ∧ data[b]? = some y ∧ x < y

end Spec

section
variable {p : ℕ} {rnd : ℚ → ℚ}

/-- The loops with a classification by a monotone function of the data. -/
theorem orderedParts_of (data bins : List ℚ) (lo hi b0 bl : ℚ) (M : ℕ) (hl : bins.length = M + 1)
    (h0 : bins.head? = some b0) (h1 : bins.getLast? = some bl) (f : ℚ → ℤ)
    (hf : ∀ d, binIR rnd b0 bl (M : ℤ) lo hi d = if d < lo ∨ d > hi then none else some (f d))
    (hmono : ∀ a b, a ≤ b → f a ≤ f b) (hnn : ∀ d, lo ≤ d → 0 ≤ f d) (hup : ∀ d ∈ data, lo ≤ d → d ≤ hi → f d ≤ M) :
    ∃ hist ri, histRiR rnd data bins lo hi = .ok (hist, ri) ∧ OrderedParts data lo hi ⟨hist, bins, ri⟩ ∧
      ∀ (i : ℕ) (s : List ℕ), i < M + 1 → riSlice ri i = some s → ∀ q ∈ s, ∃ d, data[q]? = some d ∧ lo ≤ d ∧ f d = i := by
  let b : ℚ → Option ℕ := fun d => if InRange lo hi d then some (f d).toNat else none
  have hbs : ∀ d j, b d = some j ↔ InRange lo hi d ∧ f d = (j : ℤ) := by
    intro d j
    by_cases hr : InRange lo hi d
    · simp only [b, if_pos hr, Option.some.injEq, hr, true_and]
      have := hnn d hr.1
      omega
    · simp [b, if_neg hr, hr]
  have hc : Classifies (binIR rnd b0 bl (M : ℤ) lo hi) b (M + 1) data := by
    intro d hd
    by_cases hr : InRange lo hi d
    · have hr' : ¬ (d < lo ∨ d > hi) := by push Not; exact hr
      refine ⟨?_, ?_⟩
      · rw [hf, if_neg hr']
        simp only [b, if_pos hr, Option.map_some, Option.some.injEq]
        have := hnn d hr.1
        simp [this]
      · intro j hj
        have := ((hbs d j).mp hj).2
        have := hup d hd hr.1 hr.2
        omega
    · have hr' : d < lo ∨ d > hi := by
        by_contra hcon; push Not at hcon; exact hr hcon
      refine ⟨?_, ?_⟩
      · rw [hf, if_pos hr']
        simp [b, if_neg hr]
      · intro j hj
        simp [b, if_neg hr] at hj
  obtain ⟨hist, ri, g1, g2, g3, g4, g5⟩ := histRiR_spec data bins lo hi b0 bl M b hl h0 h1 hc
  have hsl : ∀ j, j < M + 1 → riSlice ri j = some (posOf b j data) := by
    intro j hj
    unfold riSlice
    rw [g4 j (by omega), g4 (j + 1) (by omega)]
    simp only
    rw [g5 j hj]
  have hmem : ∀ j q, q ∈ posOf b j data ↔ ∃ d, data[q]? = some d ∧ InRange lo hi d ∧ f d = (j : ℤ) := by
    intro j q
    unfold posOf
    rw [mem_positions]
    simp only [hbs]
  refine ⟨hist, ri, g1, ⟨?_, ?_, ?_, ?_, ?_, ?_⟩, fun i s hi' hs q hq => by
    rw [hsl i hi', Option.some.injEq] at hs
    subst hs
    obtain ⟨d, e1, e2, e3⟩ := (hmem _ _).mp hq
    exact ⟨d, e1, e2.1, e3⟩⟩
  · rw [g2, hl]; simp
  · have := sum_countP_bins b (M + 1) data (fun d hd => (hc d hd).2)
    rw [← g2] at this
    rw [this]
    apply List.countP_congr
    intro d _
    by_cases hr : InRange lo hi d <;> simp [b, hr]
  · intro i hi'
    rw [hl] at hi'
    refine ⟨_, hsl i hi', ?_, ?_⟩
    · dsimp only
      rw [g2]
      simp only [List.getElem?_map, List.getElem?_range hi', Option.map_some, Option.some.injEq]
      unfold posOf
      rw [positions_length]
      apply List.countP_congr
      intro d _
      simp
    · unfold posOf positions
      exact List.Pairwise.filter _ List.pairwise_lt_range
  · intro q d hq hr
    have hd : d ∈ data := List.mem_of_getElem? hq
    have n0 := hnn d hr.1
    have n1 := hup d hd hr.1 hr.2
    refine ⟨(f d).toNat, ⟨by rw [hl]; omega, _, hsl _ (by omega), (hmem _ _).mpr ⟨d, hq, hr, by omega⟩⟩, ?_⟩
    rintro j ⟨hj, s, hs, hqs⟩
    rw [hl] at hj
    rw [hsl j hj, Option.some.injEq] at hs
    subst hs
    obtain ⟨d', e1, _, e3⟩ := (hmem _ _).mp hqs
    rw [hq, Option.some.injEq] at e1
    subst e1
    omega
  · intro i s hi' hs q hq
    rw [hl] at hi'
    rw [hsl i hi', Option.some.injEq] at hs
    subst hs
    obtain ⟨d, e1, e2, _⟩ := (hmem _ _).mp hq
    exact ⟨d, e1, e2⟩
  · intro i j s t hij hj hs ht a ha c hc'
    rw [hl] at hj
    rw [hsl i (by omega), Option.some.injEq] at hs
    rw [hsl j hj, Option.some.injEq] at ht
    subst hs ht
    obtain ⟨x, x1, _, x3⟩ := (hmem _ _).mp ha
    obtain ⟨y, y1, _, y3⟩ := (hmem _ _).mp hc'
    refine ⟨x, y, x1, y1, ?_⟩
    by_contra hle
    have := hmono y x (not_lt.mp hle)
    omega

/-- The index of a datum, in or out of the range. -/
def rawBin (rnd : ℚ → ℚ) (b0 bl : ℚ) (n : ℤ) (d : ℚ) : ℤ :=
  pyInt (rnd (rnd ((n : ℚ) * rnd (d - b0)) / (if b0 = bl then 1 else rnd (bl - b0))))

theorem rawBin_mono (h : Rounding p rnd) {b0 bl : ℚ} (hb : b0 ≤ bl) {n : ℤ} (hn : 0 ≤ n) {a b : ℚ} (hab : a ≤ b) :
    rawBin rnd b0 bl n a ≤ rawBin rnd b0 bl n b := by
  have hn' : (0 : ℚ) ≤ n := by exact_mod_cast hn
  have hd : (0 : ℚ) ≤ (if b0 = bl then 1 else rnd (bl - b0)) := by
    split_ifs
    · norm_num
    · exact h.nonneg' (by linarith)
  apply pyInt_mono
  apply h.mono
  apply div_le_div_of_nonneg_right _ hd
  apply h.mono
  apply mul_le_mul_of_nonneg_left _ hn'
  apply h.mono
  linarith

theorem rawBin_nonneg (h : Rounding p rnd) {b0 bl : ℚ} (hb : b0 ≤ bl) {n : ℤ} (hn : 0 ≤ n) {d : ℚ} (hd : b0 ≤ d) :
    0 ≤ rawBin rnd b0 bl n d := by
  have := rawBin_mono h hb hn hd
  refine le_trans ?_ this
  unfold rawBin
  simp [h.zero', pyInt]

theorem binsR_ends (h : Rounding p rnd) {w lo hi : ℚ} {bins : List ℚ} (hlo : rnd lo = lo) (hw : 0 < w)
    (hb : binsR rnd w lo hi = .ok bins) {b0 bl : ℚ} (h0 : bins.head? = some b0) (h1 : bins.getLast? = some bl) :
    b0 = lo ∧ b0 ≤ bl := by
  have hdel : 0 ≤ rnd (rnd (lo + w) - lo) := by
    apply h.nonneg'
    have := h.mono lo (lo + w) (by linarith)
    rw [hlo] at this
    linarith
  have hmem : ∀ x ∈ arangeR rnd lo (rnd (hi + w)) w, lo ≤ x := by
    intro x hx
    unfold arangeR at hx
    obtain ⟨i, _, rfl⟩ := List.mem_map.mp hx
    have := h.mono lo (lo + rnd ((i : ℚ) * rnd (rnd (lo + w) - lo))) (by
      have := h.nonneg' (q := (i : ℚ) * rnd (rnd (lo + w) - lo)) (by positivity)
      linarith)
    rwa [hlo] at this
  have hhead : ∀ x, (arangeR rnd lo (rnd (hi + w)) w).head? = some x → x = lo := by
    intro x hx
    unfold arangeR at hx
    dsimp only at hx
    rcases hN : ⌈rnd (rnd (rnd (hi + w) - lo) / w)⌉.toNat with _ | N
    · rw [hN] at hx; simp at hx
    · rw [hN, List.range_succ_eq_map] at hx
      simp [h.zero', hlo] at hx
      exact hx.symm
  unfold binsR at hb
  rw [if_neg hw.ne'] at hb
  dsimp only at hb
  generalize arangeR rnd lo (rnd (hi + w)) w = A at hb hmem hhead
  rcases hA : A.getLast? with _ | z
  · rw [hA] at hb; cases hb
  · rw [hA] at hb
    dsimp only at hb
    split_ifs at hb with hz
    · cases hb
      have hh : A.head? = some b0 := by
        rcases A with _ | ⟨x, _ | ⟨y, l⟩⟩
        · simp at h0
        · simp at h0
        · simpa using h0
      have := hhead _ hh
      subst this
      refine ⟨rfl, hmem bl ?_⟩
      exact List.dropLast_subset _ (List.mem_of_getLast? h1)
    · cases hb
      have := hhead _ h0
      subst this
      exact ⟨rfl, hmem bl (List.mem_of_getLast? h1)⟩

theorem histogramR_returned (h : Rounding p rnd) (data : List ℚ) {w lo hi : ℚ} (hw : 0 < w) (hlo : rnd lo = lo) (hlh : lo ≤ hi)
    (r : HistResult) (hr : histogramR rnd data w (some lo) (some hi) = .ok r) : OrderedParts data lo hi r ∧
      ∃ (M : ℕ) (bl : ℚ), r.bins.length = M + 1 ∧ r.bins.getLast? = some bl ∧ lo ≤ bl ∧
      ∀ (i : ℕ) (s : List ℕ), i < M + 1 → riSlice r.ri i = some s → ∀ q ∈ s, ∃ d, data[q]? = some d ∧ lo ≤ d ∧
        rawBin rnd lo bl M d = i := by
  unfold histogramR at hr
  simp only [Option.orElse, if_neg (not_lt.mpr hlh), bind, Except.bind, pure, Except.pure, gt_iff_lt] at hr
  rcases hb : binsR rnd w lo hi with e | bins
  · rw [hb] at hr; cases hr
  rw [hb] at hr
  dsimp only at hr
  rcases h0 : bins.head? with _ | b0
  · simp [histRiR, h0] at hr
  rcases h1 : bins.getLast? with _ | bl
  · simp [histRiR, h0, h1] at hr
  obtain ⟨M, hM⟩ : ∃ M, bins.length = M + 1 := by
    rcases bins with _ | ⟨x, l⟩
    · simp at h0
    · exact ⟨l.length, by simp⟩
  obtain ⟨e0, e1⟩ := binsR_ends h hlo hw hb h0 h1
  subst e0
  have hf : ∀ d, binIR rnd b0 bl (M : ℤ) b0 hi d = if d < b0 ∨ d > hi then none else some (rawBin rnd b0 bl M d) := by
    intro d; rfl
  have hup : ∀ d ∈ data, b0 ≤ d → d ≤ hi → rawBin rnd b0 bl M d ≤ M := by
    by_contra hcon
    push Not at hcon
    obtain ⟨d, hd, d1, d2, d3⟩ := hcon
    have hcast : ((M + 1 : ℕ) : ℤ) - 1 = (M : ℤ) := by push_cast; ring
    have := histLoop_error (cls := binIR rnd b0 bl (M : ℤ) b0 hi) data (List.replicate bins.length 0)
      ⟨d, hd, rawBin rnd b0 bl M d, by rw [hf, if_neg (by push Not; exact ⟨d1, d2⟩)], by
        obtain ⟨k, hk⟩ := Int.eq_ofNat_of_zero_le (rawBin_nonneg h e1 (n := M) (by omega) d1)
        rw [hk]
        apply pyIndex_none
        rw [List.length_replicate, hM]
        omega⟩
    rw [hM] at this
    simp only [histRiR, h0, h1, hM, hcast, bind, Except.bind, this] at hr
    cases hr
  obtain ⟨hist, ri, g1, g2, g3⟩ := orderedParts_of data bins b0 hi b0 bl M hM h0 h1 (rawBin rnd b0 bl M) hf
    (fun a b hab => rawBin_mono h e1 (by omega) hab) (fun d hd => rawBin_nonneg h e1 (by omega) hd) hup
  rw [g1] at hr
  cases hr
  exact ⟨g2, M, bl, hM, h1, e1, g3⟩

/-- **C221**, part: whenever the call returns, the counts and the reverse indices are those of a partition of the data of the
range into bins in the order of the data, whatever the rounding. Missing: that it returns, see `C221_within_partial`, and that
the bins are the intervals between the edges. -/
theorem C221_returned_partial (h : Rounding p rnd) (data : List ℚ) {w lo hi : ℚ} (hw : 0 < w) (hlo : rnd lo = lo) (hlh : lo ≤ hi)
    (r : HistResult) (hr : histogramR rnd data w (some lo) (some hi) = .ok r) : OrderedParts data lo hi r := by
  exact (histogramR_returned h data hw hlo hlh r hr).1

theorem Spec.Rounding.le' (h : Rounding p rnd) {q : ℚ} (hq : 0 ≤ q) : rnd q ≤ q * (1 + 1 / 2 ^ p) := by
  have := (abs_le.mp (h.rel q)).2
  rw [abs_of_nonneg hq] at this
  rw [mul_add, mul_one, mul_one_div]
  linarith

theorem Spec.Rounding.ge' (h : Rounding p rnd) {q : ℚ} (hq : 0 ≤ q) : q * (1 - 1 / 2 ^ p) ≤ rnd q := by
  have := (abs_le.mp (h.rel q)).1
  rw [abs_of_nonneg hq] at this
  rw [mul_sub, mul_one, mul_one_div]
  linarith

/-- **C221**, part: a datum of bin `i` lies between the `i`-th and the next edge up to a few rounding errors: `n` times its distance
from the lower limit lies between `i` and `i + 1` times the distance of the last edge. Missing: the same without the errors. -/
theorem C221_near_partial (h : Rounding p rnd) (hp : 1 ≤ p) (data : List ℚ) {w lo hi : ℚ} (hw : 0 < w) (hlo : rnd lo = lo) (hlh : lo ≤ hi)
    (r : HistResult) (hr : histogramR rnd data w (some lo) (some hi) = .ok r) {n : ℕ} (hn : r.bins.length = n + 1) {bl : ℚ}
    (hbl : r.bins.getLast? = some bl) (hne : lo < bl) {i : ℕ} {s : List ℕ} (hi' : i ≤ n) (hs : riSlice r.ri i = some s) {q : ℕ}
    (hq : q ∈ s) :
    ∃ d, data[q]? = some d ∧
      (i : ℚ) * (bl - lo) * (1 - 1 / 2 ^ p) ≤ (n : ℚ) * (d - lo) * (1 + 1 / 2 ^ p) ^ 3 ∧
      (n : ℚ) * (d - lo) * (1 - 1 / 2 ^ p) ^ 3 < ((i : ℚ) + 1) * (bl - lo) * (1 + 1 / 2 ^ p) := by
  obtain ⟨-, M, bl', m1, m2, m3, m4⟩ := histogramR_returned h data hw hlo hlh r hr
  rw [hbl, Option.some.injEq] at m2
  subst m2
  obtain rfl : n = M := by omega
  obtain ⟨d, d1, d2, d3⟩ := m4 i s (by omega) hs q hq
  refine ⟨d, d1, ?_⟩
  have hu1 : (1 : ℚ) / 2 ^ p < 1 := by
    rw [div_lt_one (by positivity)]
    exact one_lt_pow₀ (by norm_num) (by omega)
  have hu0 : (0 : ℚ) < 1 / 2 ^ p := by positivity
  have y := fun q hq => h.le' (q := q) hq
  have z := fun q hq => h.ge' (q := q) hq
  set u : ℚ := 1 / 2 ^ p with hu
  have hd : 0 ≤ d - lo := by linarith
  have hpos : 0 < bl - lo := by linarith
  have D1 := z _ hpos.le
  have D2 := y _ hpos.le
  have hDp : 0 < rnd (bl - lo) := lt_of_lt_of_le (mul_pos hpos (by linarith)) D1
  have x0 : 0 ≤ rnd (d - lo) := h.nonneg' hd
  have x1 := z _ hd
  have x1' := y _ hd
  have w0 : 0 ≤ (n : ℚ) * rnd (d - lo) := by positivity
  have w1 := z _ w0
  have w1' := y _ w0
  have v0 : 0 ≤ rnd ((n : ℚ) * rnd (d - lo)) := h.nonneg' w0
  have q0 : 0 ≤ rnd ((n : ℚ) * rnd (d - lo)) / rnd (bl - lo) := by positivity
  have q1 := z _ q0
  have q1' := y _ q0
  unfold rawBin pyInt at d3
  rw [if_neg hne.ne] at d3
  push_cast at d3
  rw [if_pos (h.nonneg' q0), Int.floor_eq_iff] at d3
  obtain ⟨f1, f2⟩ := d3
  push_cast at f1 f2
  have n0 : (0 : ℚ) ≤ n := by positivity
  constructor
  · have a := f1.trans q1'
    rw [div_mul_eq_mul_div, le_div_iff₀ hDp] at a
    calc (i : ℚ) * (bl - lo) * (1 - u) = (i : ℚ) * ((bl - lo) * (1 - u)) := by ring
      _ ≤ (i : ℚ) * rnd (bl - lo) := by gcongr
      _ ≤ rnd ((n : ℚ) * rnd (d - lo)) * (1 + u) := a
      _ ≤ ((n : ℚ) * ((d - lo) * (1 + u)) * (1 + u)) * (1 + u) := by
          apply mul_le_mul_of_nonneg_right _ (by linarith)
          refine w1'.trans ?_
          apply mul_le_mul_of_nonneg_right _ (by linarith)
          exact mul_le_mul_of_nonneg_left x1' n0
      _ = _ := by ring
  · have a := lt_of_le_of_lt q1 f2
    rw [div_mul_eq_mul_div, div_lt_iff₀ hDp] at a
    calc (n : ℚ) * (d - lo) * (1 - u) ^ 3 = ((n : ℚ) * ((d - lo) * (1 - u)) * (1 - u)) * (1 - u) := by ring
      _ ≤ rnd ((n : ℚ) * rnd (d - lo)) * (1 - u) := by
          apply mul_le_mul_of_nonneg_right _ (by linarith)
          refine le_trans ?_ w1
          apply mul_le_mul_of_nonneg_right _ (by linarith)
          exact mul_le_mul_of_nonneg_left x1 n0
      _ < ((i : ℚ) + 1) * rnd (bl - lo) := a
      _ ≤ ((i : ℚ) + 1) * ((bl - lo) * (1 + u)) := by gcongr
      _ = _ := by ring

/-- Half, in steps of a tenth, in `float64`. -/
def tenthBins : List ℚ := ((binsR (roundFloat 53) (roundFloat 53 (1 / 10)) 0 (1 / 2)).toOption.getD [])

/-- Data from zero to one half in steps of a tenth are sorted into six bins: the hypotheses of the three statements hold. -/
example : ∃ r, histogramR (roundFloat 53) [1 / 2, 0, roundFloat 53 (1 / 10), 1 / 4] (roundFloat 53 (1 / 10)) (some 0) (some (1 / 2)) = .ok r ∧
    r.hist = [1, 1, 1, 0, 0, 1] ∧ r.bins.length = 5 + 1 ∧ r.bins.getLast? = some (1 / 2) ∧ roundFloat 53 0 = 0 := by
  refine ⟨(histogramR (roundFloat 53) [1 / 2, 0, roundFloat 53 (1 / 10), 1 / 4] (roundFloat 53 (1 / 10)) (some 0) (some (1 / 2))).toOption.getD
    ⟨[], [], []⟩, ?_, ?_, ?_, ?_, ?_⟩ <;> decide +kernel

/-- **C221**, part: the call returns when there is one bin, or when the upper limit is less than one bin above the last edge by a
margin of the order of the rounding error. Missing: the same without the margin, see `C221_out_of_bounds`. -/
theorem C221_within_partial (h : Rounding p rnd) (hp : 1 ≤ p) (data bins : List ℚ) {w lo hi bl : ℚ} (hw : 0 < w) (hlo : rnd lo = lo)
    (hlh : lo ≤ hi) (hb : binsR rnd w lo hi = .ok bins) {n : ℕ} (hn : bins.length = n + 1) (hbl : bins.getLast? = some bl)
    (hm : n = 0 ∨ (n : ℚ) * (hi - lo) * (1 + 1 / 2 ^ p) ^ 3 < ((n : ℚ) + 1) * ((bl - lo) * (1 - 1 / 2 ^ p))) :
    ∃ r, histogramR rnd data w (some lo) (some hi) = .ok r ∧ r.bins = bins ∧ OrderedParts data lo hi r := by
  obtain ⟨b0, h0⟩ : ∃ b0, bins.head? = some b0 := by
    rcases bins with _ | ⟨x, l⟩
    · simp at hn
    · exact ⟨x, rfl⟩
  obtain ⟨e0, e1⟩ := binsR_ends h hlo hw hb h0 hbl
  subst e0
  have hf : ∀ d, binIR rnd b0 bl (n : ℤ) b0 hi d = if d < b0 ∨ d > hi then none else some (rawBin rnd b0 bl n d) := by
    intro d; rfl
  have hu1 : (1 : ℚ) / 2 ^ p < 1 := by
    rw [div_lt_one (by positivity)]
    exact one_lt_pow₀ (by norm_num) (by omega)
  have hu0 : (0 : ℚ) < 1 / 2 ^ p := by positivity
  set u : ℚ := 1 / 2 ^ p with hu
  have hup : ∀ d ∈ data, b0 ≤ d → d ≤ hi → rawBin rnd b0 bl n d ≤ n := by
    intro d _ d1 d2
    refine (rawBin_mono h e1 (by omega) d2).trans ?_
    rcases hm with hz | hm
    · subst hz
      unfold rawBin
      simp [h.zero', pyInt]
    · have hhi : 0 ≤ hi - b0 := by linarith
      have hne : b0 ≠ bl := by
        intro hc
        rw [← hc, sub_self, zero_mul, mul_zero] at hm
        have : 0 ≤ (n : ℚ) * (hi - b0) * (1 + u) ^ 3 := by positivity
        linarith
      have hpos : 0 < bl - b0 := sub_pos.mpr (lt_of_le_of_ne e1 hne)
      have hD : (bl - b0) * (1 - u) ≤ rnd (bl - b0) := h.ge' hpos.le
      have hD0 : 0 < (bl - b0) * (1 - u) := by
        apply mul_pos hpos; linarith
      have hDp : 0 < rnd (bl - b0) := lt_of_lt_of_le hD0 hD
      have x1 : rnd (hi - b0) ≤ (hi - b0) * (1 + u) := h.le' hhi
      have x1' : 0 ≤ rnd (hi - b0) := h.nonneg' hhi
      have x2 : rnd ((n : ℚ) * rnd (hi - b0)) ≤ (n : ℚ) * rnd (hi - b0) * (1 + u) := h.le' (by positivity)
      have x2' : 0 ≤ rnd ((n : ℚ) * rnd (hi - b0)) := h.nonneg' (by positivity)
      have x3 : rnd (rnd ((n : ℚ) * rnd (hi - b0)) / rnd (bl - b0)) ≤ rnd ((n : ℚ) * rnd (hi - b0)) / rnd (bl - b0) * (1 + u) :=
        h.le' (by positivity)
      have x4 : rnd (rnd ((n : ℚ) * rnd (hi - b0)) / rnd (bl - b0)) < (n : ℚ) + 1 := by
        refine lt_of_le_of_lt x3 ?_
        rw [div_mul_eq_mul_div, div_lt_iff₀ hDp]
        calc rnd ((n : ℚ) * rnd (hi - b0)) * (1 + u) ≤ ((n : ℚ) * ((hi - b0) * (1 + u)) * (1 + u)) * (1 + u) := by
              apply mul_le_mul_of_nonneg_right _ (by linarith)
              refine x2.trans ?_
              apply mul_le_mul_of_nonneg_right _ (by linarith)
              exact mul_le_mul_of_nonneg_left x1 (by positivity)
          _ = (n : ℚ) * (hi - b0) * (1 + u) ^ 3 := by ring
          _ < ((n : ℚ) + 1) * ((bl - b0) * (1 - u)) := hm
          _ ≤ ((n : ℚ) + 1) * rnd (bl - b0) := by
              apply mul_le_mul_of_nonneg_left hD (by positivity)
      unfold rawBin pyInt
      rw [if_neg hne]
      push_cast
      rw [if_pos (h.nonneg' (by positivity))]
      have : ⌊rnd (rnd ((n : ℚ) * rnd (hi - b0)) / rnd (bl - b0))⌋ < (n : ℤ) + 1 := by
        rw [Int.floor_lt]; push_cast; exact x4
      omega
  obtain ⟨hist, ri, g1, g2, g3⟩ := orderedParts_of data bins b0 hi b0 bl n hn h0 hbl (rawBin rnd b0 bl n) hf
    (fun a b hab => rawBin_mono h e1 (by omega) hab) (fun d hd => rawBin_nonneg h e1 (by omega) hd) hup
  refine ⟨⟨hist, bins, ri⟩, ?_, rfl, g2⟩
  unfold histogramR
  simp only [Option.orElse, if_neg (not_lt.mpr hlh), bind, Except.bind, pure, Except.pure, gt_iff_lt, hb, g1]

example : binsR (roundFloat 53) (roundFloat 53 (1 / 10)) 0 (1 / 2) = .ok tenthBins ∧ tenthBins.length = 5 + 1 ∧
    tenthBins.getLast? = some (1 / 2) ∧
    ((5 : ℕ) : ℚ) * (1 / 2 - 0) * (1 + 1 / 2 ^ 53) ^ 3 < (((5 : ℕ) : ℚ) + 1) * ((1 / 2 - 0) * (1 - 1 / 2 ^ 53)) := by
  refine ⟨?_, ?_, ?_, ?_⟩ <;> decide +kernel

/-- **C221**, where the claim fails: with bins of width `0.1` in `float64`, data that reach from `0` to `0.6` make the call write
outside its arrays, whatever the other data are. -/
theorem C221_out_of_bounds (data : List ℚ) (h6 : roundFloat 53 (6 / 10) ∈ data) :
    histogramR (roundFloat 53) data (roundFloat 53 (1 / 10)) (some 0) (some (roundFloat 53 (6 / 10))) = .error .outOfBounds := by
  obtain ⟨bins, hb, b0, bl, h0, h1, hi⟩ : ∃ bins, binsR (roundFloat 53) (roundFloat 53 (1 / 10)) 0 (roundFloat 53 (6 / 10)) = .ok bins ∧
      ∃ b0 bl, bins.head? = some b0 ∧ bins.getLast? = some bl ∧
        binIR (roundFloat 53) b0 bl ((bins.length : ℤ) - 1) 0 (roundFloat 53 (6 / 10)) (roundFloat 53 (6 / 10)) = some bins.length := by
    refine ⟨(binsR (roundFloat 53) (roundFloat 53 (1 / 10)) 0 (roundFloat 53 (6 / 10))).toOption.getD [], by decide +kernel,
      0, ((binsR (roundFloat 53) (roundFloat 53 (1 / 10)) 0 (roundFloat 53 (6 / 10))).toOption.getD []).getLast?.getD 0,
      by decide +kernel, by decide +kernel, by decide +kernel⟩
  have herr := histLoop_error (cls := binIR (roundFloat 53) b0 bl ((bins.length : ℤ) - 1) 0 (roundFloat 53 (6 / 10))) data
    (List.replicate bins.length 0) ⟨_, h6, _, hi, by rw [List.length_replicate]; exact pyIndex_none le_rfl⟩
  have hle : ¬ (0 : ℚ) > roundFloat 53 (6 / 10) := by decide +kernel
  unfold histogramR
  simp only [Option.orElse, if_neg hle, bind, Except.bind, hb]
  simp only [histRiR, h0, h1, bind, Except.bind, herr]

/-- **C221**, the same without limits: whatever data have `0` as smallest and `0.6` as largest element. -/
theorem C221_out_of_bounds_default (data : List ℚ) (h0 : 0 ∈ data) (h6 : roundFloat 53 (6 / 10) ∈ data)
    (hr : ∀ d ∈ data, 0 ≤ d ∧ d ≤ roundFloat 53 (6 / 10)) :
    histogramR (roundFloat 53) data (roundFloat 53 (1 / 10)) none none = .error .outOfBounds := by
  obtain ⟨lo, l1⟩ := listMin?_isSome (List.ne_nil_of_mem h0)
  obtain ⟨hi, l2⟩ := listMax?_isSome (List.ne_nil_of_mem h0)
  obtain ⟨a1, a2⟩ := listMin?_spec _ _ l1
  obtain ⟨b1, b2⟩ := listMax?_spec _ _ l2
  have e1 : lo = 0 := le_antisymm (a2 0 h0) (hr lo a1).1
  have e2 : hi = roundFloat 53 (6 / 10) := le_antisymm (hr hi b1).2 (b2 _ h6)
  have := C221_out_of_bounds data h6
  rw [← this]
  unfold histogramR
  simp only [Option.orElse, l1, l2, e1, e2]

example : ∀ d ∈ [(1 / 4 : ℚ), 0, roundFloat 53 (6 / 10)], 0 ≤ d ∧ d ≤ roundFloat 53 (6 / 10) := by decide +kernel

end
end PyFHD
