import Verif.Model.Histogram
import Verif.Spec.Histogram
import Mathlib.Tactic.Linarith
import Mathlib.Tactic.FieldSimp
import Mathlib.Tactic.Ring
import Mathlib.Tactic.Positivity
import Mathlib.Tactic.NormNum

/-! # Lemmas about the histogram loops -/

namespace PyFHD

open Spec

theorem pyIndex_ofNat {n j : ℕ} (h : j < n) : pyIndex n (j : ℤ) = some j := by
  unfold pyIndex
  simp [h]

theorem pyIndex_none {n j : ℕ} (h : n ≤ j) : pyIndex n (j : ℤ) = none := by
  unfold pyIndex
  rw [if_pos (Int.natCast_nonneg j), if_neg (by simpa using h)]

section loops

variable {α : Type _} {cls : α → Option ℤ} {b : α → Option ℕ} {m : ℕ}

/-- `cls` is the classification `b` into bins below `m`, on the elements of `l`. -/
def Classifies (cls : α → Option ℤ) (b : α → Option ℕ) (m : ℕ) (l : List α) : Prop :=
  ∀ d ∈ l, cls d = (b d).map Int.ofNat ∧ ∀ j, b d = some j → j < m

theorem histLoop_spec (data : List α) :
    ∀ hist : List ℕ, hist.length = m → Classifies cls b m data →
      ∃ h, histLoop cls data hist = .ok h ∧ h.length = m ∧
        ∀ j, j < m → h[j]? = some (hist.getD j 0 + data.countP (fun d => b d == some j)) := by
  induction data with
  | nil =>
    intro hist hl _
    refine ⟨hist, rfl, hl, ?_⟩
    intro j hj
    simp [List.getD_eq_getElem?_getD, List.getElem?_eq_getElem (hl ▸ hj)]
  | cons d ds ih =>
    intro hist hl hc
    have hd := hc d (by simp)
    have hds : Classifies cls b m ds := fun x hx => hc x (by simp [hx])
    rcases hb : b d with _ | k
    · have hcd : cls d = none := by rw [hd.1, hb]; rfl
      obtain ⟨h, h1, h2, h3⟩ := ih hist hl hds
      refine ⟨h, by simp only [histLoop, hcd]; exact h1, h2, ?_⟩
      intro j hj
      rw [h3 j hj]
      simp [hb]
    · have hk : k < m := hd.2 k hb
      have hcd : cls d = some (k : ℤ) := by rw [hd.1, hb]; rfl
      obtain ⟨h, h1, h2, h3⟩ := ih (hist.set k (hist.getD k 0 + 1)) (by simpa using hl) hds
      refine ⟨h, ?_, h2, ?_⟩
      · simp only [histLoop, hcd]
        rw [pyIndex_ofNat (by omega)]
        exact h1
      intro j hj
      rw [h3 j hj]
      by_cases hjk : j = k
      · subst hjk
        simp [hb, List.getD_eq_getElem?_getD, hl, hj]
        omega
      · have hkj : k ≠ j := fun e => hjk e.symm
        simp [hb, List.getD_eq_getElem?_getD, hkj]

/-- positions of the elements of `l` classified `j`. -/
def posOf (b : α → Option ℕ) (j : ℕ) (l : List α) : List ℕ :=
  positions (fun d => b d = some j) l

theorem positions_concat (P : α → Prop) [DecidablePred P] (l : List α) (d : α) :
    positions P (l ++ [d]) = positions P l ++ (if P d then [l.length] else []) := by
  unfold positions
  rw [List.length_append, List.length_singleton, List.range_succ, List.filter_append]
  congr 1
  · apply List.filter_congr
    intro p hp
    rw [List.getElem?_append_left (by simpa using hp)]
  · by_cases h : P d <;> simp [h]

theorem positions_length (P : α → Prop) [DecidablePred P] (l : List α) :
    (positions P l).length = l.countP (fun d => decide (P d)) := by
  induction l using List.reverseRecOn with
  | nil => rfl
  | append_singleton l d ih =>
    rw [positions_concat, List.length_append, ih, List.countP_append]
    by_cases h : P d <;> simp [h]

theorem mem_positions (P : α → Prop) [DecidablePred P] (l : List α) (p : ℕ) :
    p ∈ positions P l ↔ ∃ d, l[p]? = some d ∧ P d := by
  unfold positions
  simp only [List.mem_filter, List.mem_range]
  constructor
  · rintro ⟨h, h2⟩
    rw [List.getElem?_eq_getElem h] at h2 ⊢
    exact ⟨_, rfl, by simpa using h2⟩
  · rintro ⟨d, h, h2⟩
    have := (List.getElem?_eq_some_iff.mp h).1
    exact ⟨this, by rw [h]; simpa using h2⟩

/-- Invariant of the reverse index loop after the prefix `pre` was processed: `first` is the start
of each bin's segment. -/
structure RiInv (b : α → Option ℕ) (m : ℕ) (first : ℕ → ℕ) (fv : List ℕ) (N : ℕ) (pre : List α)
    (ri tracker : List ℕ) (counter : ℕ) : Prop where
  len : ri.length = m + 1 + N
  trackLen : tracker.length = m + 1
  track : ∀ j, j < m → tracker[j]? = some (first j + (posOf b j pre).length)
  head : ∀ i, i ≤ m → ri[i]? = fv[i]?
  cells : ∀ j, j < m → ∀ k, k < (posOf b j pre).length → ri[first j + k]? = (posOf b j pre)[k]?
  cnt : counter = pre.countP (fun d => b d == none)

theorem riLoop_spec {first : ℕ → ℕ} {fv : List ℕ} {N : ℕ} (rest : List α) :
    ∀ (pre ri tracker : List _) (counter : ℕ),
      Classifies cls b m rest →
      (∀ j, j < m → m + 1 ≤ first j) →
      (∀ j, j < m → first j + (posOf b j (pre ++ rest)).length ≤ first (j + 1)) →
      (∀ i j, i ≤ j → j ≤ m → first i ≤ first j) →
      first m ≤ m + 1 + N →
      RiInv b m first fv N pre ri tracker counter →
      ∃ ri' tracker' counter',
        riLoop cls rest pre.length ri tracker counter = .ok (ri', counter') ∧
        RiInv b m first fv N (pre ++ rest) ri' tracker' counter' := by
  induction rest with
  | nil =>
    intro pre ri tracker counter _ _ _ _ _ hinv
    exact ⟨ri, tracker, counter, rfl, by simpa using hinv⟩
  | cons d ds ih =>
    intro pre ri tracker counter hc hlow hseg hmono htop hinv
    have hd := hc d (by simp)
    have hds : Classifies cls b m ds := fun x hx => hc x (by simp [hx])
    have happ : pre ++ d :: ds = (pre ++ [d]) ++ ds := by simp
    rcases hb : b d with _ | k
    · have hcd : cls d = none := by rw [hd.1, hb]; rfl
      have hpos : ∀ j, posOf b j (pre ++ [d]) = posOf b j pre := by
        intro j
        unfold posOf
        rw [positions_concat]
        simp [hb]
      have hinv' : RiInv b m first fv N (pre ++ [d]) ri tracker (counter + 1) := by
        refine ⟨hinv.len, hinv.trackLen, ?_, hinv.head, ?_, ?_⟩
        · intro j hj; rw [hpos]; exact hinv.track j hj
        · intro j hj; rw [hpos]; exact hinv.cells j hj
        · rw [List.countP_append, hinv.cnt]; simp [hb]
      obtain ⟨ri', tr', c', h1, h2⟩ := ih (pre ++ [d]) ri tracker (counter + 1) hds hlow
        (by rw [← happ]; exact hseg) hmono htop hinv'
      refine ⟨ri', tr', c', ?_, by rw [happ]; exact h2⟩
      simp only [riLoop, hcd]
      simpa using h1
    · have hk : k < m := hd.2 k hb
      have hcd : cls d = some (k : ℤ) := by rw [hd.1, hb]; rfl
      have hposk : posOf b k (pre ++ [d]) = posOf b k pre ++ [pre.length] := by
        unfold posOf
        rw [positions_concat]
        simp [hb]
      have hposj : ∀ j, j ≠ k → posOf b j (pre ++ [d]) = posOf b j pre := by
        intro j hj
        unfold posOf
        rw [positions_concat]
        have : ¬ (k = j) := fun e => hj e.symm
        simp [hb, this]
      -- room in the segment of bin k
      have hle : ∀ j, (posOf b j (pre ++ [d])).length ≤ (posOf b j (pre ++ d :: ds)).length := by
        intro j
        unfold posOf
        rw [positions_length, positions_length, happ, List.countP_append (l₁ := pre ++ [d])]
        omega
      have hroom : first k + (posOf b k pre).length < first (k + 1) := by
        have h1 := hseg k hk
        have h2 := hle k
        rw [hposk, List.length_append] at h2
        simp at h2
        omega
      have hroomN : first k + (posOf b k pre).length < m + 1 + N := by
        have := hmono (k + 1) m (by omega) le_rfl
        omega
      set t := first k + (posOf b k pre).length with ht
      have htr : tracker.getD k 0 = t := by
        rw [List.getD_eq_getElem?_getD, hinv.track k hk]; rfl
      have hinv' : RiInv b m first fv N (pre ++ [d]) (ri.set t pre.length)
          (tracker.set k (t + 1)) counter := by
        refine ⟨by simpa using hinv.len, by simpa using hinv.trackLen, ?_, ?_, ?_, ?_⟩
        · intro j hj
          by_cases hjk : j = k
          · subst hjk
            rw [List.getElem?_set_self (by rw [hinv.trackLen]; omega), hposk]
            simp [ht]; omega
          · rw [List.getElem?_set_ne (by omega), hinv.track j hj, hposj j hjk]
        · intro i hi
          have : m + 1 ≤ first k := hlow k hk
          rw [List.getElem?_set_ne (by omega), hinv.head i hi]
        · intro j hj q hq
          by_cases hjk : j = k
          · subst hjk
            rw [hposk] at hq ⊢
            simp at hq
            by_cases hqe : q = (posOf b j pre).length
            · subst hqe
              rw [← ht, List.getElem?_set_self (by rw [hinv.len]; omega)]
              simp
            · have hq' : q < (posOf b j pre).length := by omega
              rw [List.getElem?_set_ne (by omega), hinv.cells j hj q hq',
                List.getElem?_append_left hq']
          · rw [hposj j hjk] at hq ⊢
            have hne : t ≠ first j + q := by
              have hsj : first j + (posOf b j pre).length ≤ first (j + 1) := by
                have h1 := hseg j hj
                have h2 := hle j
                rw [hposj j hjk] at h2
                omega
              rcases Nat.lt_or_gt_of_ne hjk with h | h
              · have := hmono (j + 1) k (by omega) (by omega)
                omega
              · have := hmono (k + 1) j (by omega) (by omega)
                omega
            rw [List.getElem?_set_ne hne, hinv.cells j hj q hq]
        · rw [List.countP_append, hinv.cnt]; simp [hb]
      obtain ⟨ri', tr', c', h1, h2⟩ := ih (pre ++ [d]) _ _ counter hds hlow
        (by rw [← happ]; exact hseg) hmono htop hinv'
      refine ⟨ri', tr', c', ?_, by rw [happ]; exact h2⟩
      simp only [riLoop, hcd]
      rw [pyIndex_ofNat (by rw [hinv.trackLen]; omega)]
      simp only [htr]
      rw [if_pos (by rw [hinv.len]; omega)]
      simpa using h1

end loops

theorem firstV_length (s : ℕ) (h : List ℕ) : (firstV s h).length = h.length + 1 := by
  induction h generalizing s with
  | nil => rfl
  | cons a t ih => simp [firstV, ih]

theorem firstV_getElem? (s : ℕ) (h : List ℕ) (i : ℕ) (hi : i ≤ h.length) :
    (firstV s h)[i]? = some (s + (h.take i).sum) := by
  induction h generalizing s i with
  | nil =>
    have : i = 0 := by simpa using hi
    subst this; simp [firstV]
  | cons a t ih =>
    cases i with
    | zero => simp [firstV]
    | succ i =>
      simp only [firstV, List.getElem?_cons_succ, List.take_succ_cons, List.sum_cons]
      rw [ih _ _ (by simpa using hi)]
      congr 1; omega

/-- The in-range data are counted bin by bin. -/
theorem sum_countP_bins {α : Type _} (b : α → Option ℕ) (m : ℕ) (l : List α)
    (hb : ∀ d ∈ l, ∀ j, b d = some j → j < m) :
    ((List.range m).map fun j => l.countP (fun d => b d == some j)).sum
      = l.countP (fun d => b d != none) := by
  induction l with
  | nil => simp
  | cons d ds ih =>
    have ih' := ih (fun x hx => hb x (by simp [hx]))
    have hd := hb d (by simp)
    simp only [List.countP_cons]
    rw [List.sum_map_add, ih']
    congr 1
    rcases h : b d with _ | k
    · simp
    · have hk := hd k h
      have : ((List.range m).map fun j => if (some k == some j) = true then 1 else 0)
          = (List.range m).map fun j => if j = k then 1 else 0 := by
        apply List.map_congr_left
        intro j _
        by_cases hj : j = k
        · simp [hj]
        · have : ¬ k = j := fun e => hj e.symm
          simp [hj, this]
      rw [this]
      have hs : ∀ m, k < m → ((List.range m).map fun j => if j = k then 1 else 0).sum = 1 := by
        intro m hm
        induction m with
        | zero => omega
        | succ m ihm =>
          rw [List.range_succ, List.map_append, List.sum_append]
          by_cases he : m = k
          · subst he
            have : ((List.range m).map fun j => if j = m then 1 else 0).sum = 0 := by
              apply List.sum_eq_zero
              intro x hx
              simp only [List.mem_map, List.mem_range] at hx
              obtain ⟨a, ha, rfl⟩ := hx
              rw [if_neg (by omega)]
            simp [this]
          · rw [ihm (by omega)]; simp [he]
      simpa using hs m hk

/-- Full specification of the reverse index array for an abstract classification. -/
theorem ri_spec {α : Type _} {cls : α → Option ℤ} {b : α → Option ℕ} {m : ℕ} (data : List α)
    (hist : List ℕ) (hc : Classifies cls b m data) (hlen : hist.length = m)
    (hh : ∀ j, j < m → hist[j]? = some (data.countP (fun d => b d == some j))) :
    ∃ ri counter, riLoop cls data 0 (firstV (m + 1) hist ++ List.replicate data.length 0)
        (firstV (m + 1) hist) 0 = .ok (ri, counter) ∧
      ri.length = m + 1 + data.length ∧
      counter = data.countP (fun d => b d == none) ∧
      (∀ i, i ≤ m → ri[i]? = some (m + 1 + (hist.take i).sum)) ∧
      (∀ j, j < m → ∀ k, k < (posOf b j data).length →
        ri[m + 1 + (hist.take j).sum + k]? = (posOf b j data)[k]?) := by
  have hposlen : ∀ j, (posOf b j data).length = data.countP (fun d => b d == some j) := by
    intro j
    unfold posOf
    rw [positions_length]
    apply List.countP_congr
    intro d _
    simp
  have hsucc : ∀ j, j < m → (hist.take (j + 1)).sum
      = (hist.take j).sum + data.countP (fun d => b d == some j) := by
    intro j hj
    have := hh j hj
    rw [List.take_add_one, this, List.sum_append]
    simp
  have hsum : hist.sum = data.countP (fun d => b d != none) := by
    rw [← sum_countP_bins b m data (fun d hd => (hc d hd).2)]
    congr 1
    apply List.ext_getElem?
    intro i
    by_cases hi : i < m
    · rw [hh i hi]; simp [hi]
    · rw [List.getElem?_eq_none (by omega), List.getElem?_eq_none (by simp; omega)]
  have hle : data.countP (fun d => b d != none) ≤ data.length := List.countP_le_length
  have hmono : ∀ i j, i ≤ j → (hist.take i).sum ≤ (hist.take j).sum := by
    intro i j hij
    obtain ⟨k, rfl⟩ := Nat.exists_eq_add_of_le hij
    rw [List.take_add, List.sum_append]
    omega
  have hfl : (firstV (m + 1) hist).length = m + 1 := by rw [firstV_length, hlen]
  have hnil : ∀ j, posOf b j ([] : List α) = [] := by intro j; rfl
  obtain ⟨ri, tr, counter, h1, h2⟩ := riLoop_spec (cls := cls) (b := b) (m := m)
    (first := fun j => m + 1 + (hist.take j).sum) (fv := firstV (m + 1) hist) (N := data.length)
    data [] (firstV (m + 1) hist ++ List.replicate data.length 0) (firstV (m + 1) hist) 0 hc
    (by intro j _; omega)
    (by intro j hj; simp only [List.nil_append]; rw [hposlen j, hsucc j hj]; omega)
    (by intro i j hij _; have := hmono i j hij; omega)
    (by
      have : hist.take m = hist := by rw [← hlen]; exact List.take_length
      rw [this, hsum]; omega)
    { len := by simp [hfl]
      trackLen := hfl
      track := by
        intro j hj
        rw [firstV_getElem? _ _ _ (by omega), hnil]; simp
      head := by
        intro i hi
        rw [List.getElem?_append_left (by omega)]
      cells := by intro j _ k hk; rw [hnil] at hk; simp at hk
      cnt := by simp }
  refine ⟨ri, counter, h1, h2.len, by simpa using h2.cnt, ?_, ?_⟩
  · intro i hi
    rw [h2.head i hi, firstV_getElem? _ _ _ (by omega)]
  · intro j hj k hk
    have := h2.cells j hj k (by simpa using hk)
    simpa using this

/-! ## The bins of `histogramCore` -/

/-- The list `lo, lo + w, ...` of `M` bin edges. -/
def edges (lo w : ℚ) (M : ℕ) : List ℚ := (List.range M).map fun (i : ℕ) => lo + (i : ℚ) * w

theorem edges_length (lo w : ℚ) (M : ℕ) : (edges lo w M).length = M := by simp [edges]

theorem edges_head (lo w : ℚ) {M : ℕ} (h : 0 < M) : (edges lo w M).head? = some lo := by
  obtain ⟨k, rfl⟩ := Nat.exists_eq_succ_of_ne_zero (Nat.ne_of_gt h)
  simp [edges, List.head?_map, List.head?_range]

theorem edges_last (lo w : ℚ) (M : ℕ) :
    (edges lo w (M + 1)).getLast? = some (lo + (M : ℚ) * w) := by
  simp [edges, List.getLast?_map, List.getLast?_range]

theorem edges_dropLast (lo w : ℚ) (M : ℕ) : (edges lo w (M + 1)).dropLast = edges lo w M := by
  unfold edges
  rw [List.range_succ, List.map_append]
  simp

/-- What the loops return for a list of edges and a correct classification of the data. -/
theorem getHist_getRi_spec (data : List ℚ) (lo w mn mx : ℚ) (M : ℕ) (b : ℚ → Option ℕ)
    (hc : Classifies (binI lo (lo + (M : ℚ) * w) (M : ℤ) mn mx) b (M + 1) data) :
    ∃ hist ri, getHist data (edges lo w (M + 1)) mn mx = .ok hist ∧
      getRi data (edges lo w (M + 1)) hist mn mx = .ok ri ∧
      hist = (List.range (M + 1)).map (fun j => data.countP (fun d => b d == some j)) ∧
      ri.length = M + 2 + data.countP (fun d => b d != none) ∧
      (∀ i, i ≤ M + 1 → ri[i]? = some (M + 2 + (hist.take i).sum)) ∧
      (∀ j, j < M + 1 → slice ri (M + 2 + (hist.take j).sum) (M + 2 + (hist.take (j + 1)).sum)
        = posOf b j data) := by
  obtain ⟨hist, h1, h2, h3⟩ := histLoop_spec data (List.replicate (M + 1) 0) (by simp) hc
  have h3' : ∀ j, j < M + 1 → hist[j]? = some (data.countP (fun d => b d == some j)) := by
    intro j hj
    rw [h3 j hj]
    simp [List.getD_eq_getElem?_getD, hj]
  have hhist : hist = (List.range (M + 1)).map (fun j => data.countP (fun d => b d == some j)) := by
    apply List.ext_getElem?
    intro i
    by_cases hi : i < M + 1
    · rw [h3' i hi]; simp [hi]
    · rw [List.getElem?_eq_none (by omega), List.getElem?_eq_none (by simp; omega)]
  obtain ⟨ri, counter, r1, r2, r3, r4, r5⟩ := ri_spec data hist hc h2 h3'
  have hcast : ((M + 1 : ℕ) : ℤ) - 1 = (M : ℤ) := by push_cast; ring
  have hcount : data.countP (fun d => b d == none) + data.countP (fun d => b d != none)
      = data.length := by
    rw [List.length_eq_countP_add_countP (fun d => b d == none)]
    congr 1
    apply List.countP_congr
    intro d _
    simp
  have hsum : ∀ i, (hist.take i).sum ≤ data.countP (fun d => b d != none) := by
    intro i
    rw [← sum_countP_bins b (M + 1) data (fun d hd => (hc d hd).2), ← hhist]
    conv_rhs => rw [← List.take_append_drop i hist]
    rw [List.sum_append]; omega
  have hlen : (ri.take (ri.length - counter)).length
      = M + 2 + data.countP (fun d => b d != none) := by
    rw [List.length_take, r2, r3]; omega
  refine ⟨hist, ri.take (ri.length - counter), ?_, ?_, hhist, hlen, ?_, ?_⟩
  · unfold getHist
    rw [edges_head _ _ (by omega), edges_last, edges_length]
    simp only [hcast]
    exact h1
  · unfold getRi
    rw [edges_head _ _ (by omega), edges_last, edges_length]
    simp only [hcast]
    rw [if_pos (by rw [firstV_length, h2]), r1]
  · intro i hi
    have : i < ri.length - counter := by
      rw [List.length_take] at hlen; omega
    rw [List.getElem?_take_of_lt this, r4 i hi]
  · intro j hj
    have hposlen : (posOf b j data).length = data.countP (fun d => b d == some j) := by
      unfold posOf
      rw [positions_length]
      apply List.countP_congr
      intro d _
      simp
    have hsucc : (hist.take (j + 1)).sum = (hist.take j).sum + (posOf b j data).length := by
      rw [List.take_add_one, h3' j hj, List.sum_append, hposlen]
      simp
    have hs1 := hsum (j + 1)
    have hlen' : ri.length - counter = M + 2 + data.countP (fun d => b d != none) := by
      rw [r2, r3]; omega
    apply List.ext_getElem?
    intro k
    unfold slice
    rw [List.getElem?_drop, hsucc]
    by_cases hk : k < (posOf b j data).length
    · rw [List.getElem?_take_of_lt (by omega), List.getElem?_take_of_lt (by omega), ← r5 j hj k hk]
    · rw [List.getElem?_eq_none (by simp; omega), List.getElem?_eq_none (by omega)]

/-- The truncated quotient of the source is the floor of `(d - lo) / w`. -/
theorem pyInt_bin {lo w d : ℚ} {M : ℕ} (hw : 0 < w) (hd : lo ≤ d)
    (hM : M = 0 → d < lo + w) :
    pyInt (((M : ℤ) : ℚ) * (d - lo) / (if lo = lo + (M : ℚ) * w then 1 else lo + (M : ℚ) * w - lo))
      = ((⌊(d - lo) / w⌋₊ : ℕ) : ℤ) := by
  have hq : 0 ≤ (d - lo) / w := div_nonneg (by linarith) hw.le
  rcases Nat.eq_zero_or_pos M with h0 | hpos
  · subst h0
    have : (d - lo) / w < 1 := by
      rw [div_lt_one hw]; have := hM rfl; linarith
    have hf : ⌊(d - lo) / w⌋₊ = 0 := by
      rw [Nat.floor_eq_zero]; exact this
    simp [pyInt, hf]
  · have hMq : (0 : ℚ) < M := by exact_mod_cast hpos
    have hne : lo ≠ lo + (M : ℚ) * w := by
      have : 0 < (M : ℚ) * w := mul_pos hMq hw
      linarith
    rw [if_neg hne]
    have : ((M : ℤ) : ℚ) * (d - lo) / (lo + (M : ℚ) * w - lo) = (d - lo) / w := by
      push_cast
      rw [add_sub_cancel_left]
      field_simp
    rw [this, pyInt, if_pos hq, Int.natCast_floor_eq_floor hq]

theorem floor_eq_iff_inBin {lo w hi d : ℚ} (hw : 0 < w) (h1 : lo ≤ d) (h2 : d ≤ hi) (i : ℕ) :
    ⌊(d - lo) / w⌋₊ = i ↔ InBin lo w hi i d := by
  have hq : 0 ≤ (d - lo) / w := div_nonneg (by linarith) hw.le
  rw [Nat.floor_eq_iff hq, le_div_iff₀ hw, div_lt_iff₀ hw]
  unfold InBin
  constructor
  · rintro ⟨a, c⟩; exact ⟨h1, h2, by linarith, by linarith⟩
  · rintro ⟨_, _, a, c⟩; exact ⟨by linarith, by linarith⟩

/-- Number of bins of width `w` needed for `[lo, hi]`. -/
def nBins (lo w hi : ℚ) : ℕ := ⌊(hi - lo) / w⌋₊ + 1

theorem adjusted_bins {lo w hi : ℚ} (hw : 0 < w) (hlh : lo ≤ hi) :
    ∃ bl, (arange lo (hi + w) w).getLast? = some bl ∧
      (if bl > hi ∨ false = true then (arange lo (hi + w) w).dropLast else arange lo (hi + w) w)
        = edges lo w (nBins lo w hi) := by
  have hq : 0 ≤ (hi - lo) / w := div_nonneg (by linarith) hw.le
  have hceil : ⌈(hi + w - lo) / w⌉ = ⌈(hi - lo) / w⌉ + 1 := by
    have : (hi + w - lo) / w = (hi - lo) / w + 1 := by field_simp; ring
    rw [this, Int.ceil_add_one]
  have hc0 : 0 ≤ ⌈(hi - lo) / w⌉ := Int.ceil_nonneg hq
  obtain ⟨c, hc⟩ := Int.eq_ofNat_of_zero_le hc0
  have hlen : ⌈(hi + w - lo) / w⌉.toNat = c + 1 := by rw [hceil, hc]; omega
  have harr : arange lo (hi + w) w = edges lo w (c + 1) := by
    unfold arange edges; rw [hlen]
  rw [harr]
  refine ⟨_, edges_last lo w c, ?_⟩
  have hcup : (hi - lo) / w ≤ c := by
    have := Int.le_ceil ((hi - lo) / w); rw [hc] at this; exact_mod_cast this
  have hclo : (c : ℚ) < (hi - lo) / w + 1 := by
    have := Int.ceil_lt_add_one ((hi - lo) / w); rw [hc] at this; exact_mod_cast this
  by_cases hgt : lo + (c : ℚ) * w > hi
  · rw [if_pos (Or.inl hgt), edges_dropLast]
    have hcq : (hi - lo) / w < c := by rw [div_lt_iff₀ hw]; linarith
    have hc1 : 1 ≤ c := by
      rcases Nat.eq_zero_or_pos c with h | h
      · subst h; simp at hcq; linarith
      · exact h
    have : ⌊(hi - lo) / w⌋₊ = c - 1 := by
      rw [Nat.floor_eq_iff hq]
      have : ((c - 1 : ℕ) : ℚ) = c - 1 := by push_cast [hc1]; ring
      rw [this]
      constructor <;> linarith
    unfold nBins
    rw [this]
    congr 1; omega
  · rw [if_neg (by simp; linarith)]
    have hcq : (c : ℚ) ≤ (hi - lo) / w := by rw [le_div_iff₀ hw]; linarith
    have : ⌊(hi - lo) / w⌋₊ = c := by
      rw [Nat.floor_eq_iff hq]
      constructor <;> linarith
    unfold nBins
    rw [this]

/-- Everything `histogram` promises for a positive bin size. -/
structure HistSpec (data : List ℚ) (w lo hi : ℚ) (r : HistResult) : Prop where
  bins : r.bins = (List.range (nBins lo w hi)).map fun (i : ℕ) => lo + (i : ℚ) * w
  hist : r.hist = (List.range (nBins lo w hi)).map fun i =>
    data.countP fun d => decide (InBin lo w hi i d)
  riLen : r.ri.length = nBins lo w hi + 1 + data.countP (fun d => decide (InRange lo hi d))
  riHead : ∀ i, i ≤ nBins lo w hi →
    r.ri[i]? = some (nBins lo w hi + 1 + (r.hist.take i).sum)
  segs : ∀ i, i < nBins lo w hi →
    slice r.ri (nBins lo w hi + 1 + (r.hist.take i).sum)
      (nBins lo w hi + 1 + (r.hist.take (i + 1)).sum) = positions (InBin lo w hi i) data

theorem histogramCore_spec (data : List ℚ) {w lo hi : ℚ} (hw : 0 < w) (hlh : lo ≤ hi) :
    ∃ r, histogramCore data w lo hi false = .ok r ∧ HistSpec data w lo hi r := by
  obtain ⟨bl, hbl, hbins⟩ := adjusted_bins hw hlh
  set M := ⌊(hi - lo) / w⌋₊ with hM
  have hq : 0 ≤ (hi - lo) / w := div_nonneg (by linarith) hw.le
  have hnb : nBins lo w hi = M + 1 := rfl
  let b : ℚ → Option ℕ := fun d => if d < lo ∨ d > hi then none else some ⌊(d - lo) / w⌋₊
  have hlast : (if bl > hi ∨ false = true then (arange lo (hi + w) w).dropLast
      else arange lo (hi + w) w) = edges lo w (M + 1) := hbins
  have hcls : Classifies (binI lo (lo + (M : ℚ) * w) (M : ℤ) lo hi) b (M + 1) data := by
    intro d _
    by_cases hr : d < lo ∨ d > hi
    · constructor
      · simp only [binI, b, if_pos hr]; rfl
      · intro j hj; simp only [b, if_pos hr] at hj; cases hj
    · have h1 : lo ≤ d := by by_contra h; exact hr (Or.inl (not_le.mp h))
      have h2 : d ≤ hi := by by_contra h; exact hr (Or.inr (not_le.mp h))
      have hle : (d - lo) / w ≤ (hi - lo) / w := by
        apply div_le_div_of_nonneg_right _ hw.le; linarith
      have hM0 : M = 0 → d < lo + w := by
        intro h0
        have : ⌊(hi - lo) / w⌋₊ = 0 := by rw [← hM]; exact h0
        rw [Nat.floor_eq_zero, div_lt_one hw] at this
        linarith
      constructor
      · simp only [binI, b, if_neg hr]
        rw [pyInt_bin hw h1 hM0]; rfl
      · intro j hj
        simp only [b, if_neg hr, Option.some.injEq] at hj
        have := Nat.floor_le_floor hle
        omega
  obtain ⟨hist, ri, g1, g2, g3, g4, g5, g6⟩ := getHist_getRi_spec data lo w lo hi M b hcls
  have hbin : ∀ i d, (b d == some i) = decide (InBin lo w hi i d) := by
    intro i d
    by_cases hr : d < lo ∨ d > hi
    · have : ¬ InBin lo w hi i d := by
        unfold InBin; rintro ⟨a, c, _⟩
        rcases hr with h | h <;> linarith
      simp [b, if_pos hr, this]
    · have h1 : lo ≤ d := by by_contra h; exact hr (Or.inl (not_le.mp h))
      have h2 : d ≤ hi := by by_contra h; exact hr (Or.inr (not_le.mp h))
      have hiff := floor_eq_iff_inBin hw h1 h2 i
      rw [Bool.eq_iff_iff]
      simp only [b, if_neg hr, beq_iff_eq, Option.some.injEq, decide_eq_true_eq]
      exact hiff
  have hrange : ∀ d, (b d != none) = decide (InRange lo hi d) := by
    intro d
    by_cases hr : d < lo ∨ d > hi
    · have : ¬ InRange lo hi d := by
        unfold InRange; rintro ⟨a, c⟩
        rcases hr with h | h <;> linarith
      simp [b, if_pos hr, this]
    · have h1 : lo ≤ d := by by_contra h; exact hr (Or.inl (not_le.mp h))
      have h2 : d ≤ hi := by by_contra h; exact hr (Or.inr (not_le.mp h))
      have : InRange lo hi d := ⟨h1, h2⟩
      simp [b, if_neg hr, this]
  refine ⟨⟨hist, edges lo w (M + 1), ri⟩, ?_, ?_, ?_, ?_, ?_, ?_⟩
  · unfold histogramCore getBins
    rw [if_neg hw.ne']
    simp only [bind, Except.bind, hbl, hlast, g1, g2, pure, Except.pure]
  · rfl
  · simp only [hnb, g3]
    apply List.map_congr_left
    intro i _
    apply List.countP_congr
    intro d _
    rw [hbin]
  · simp only [hnb, g4]
    congr 1
    apply List.countP_congr
    intro d _
    rw [hrange]
  · simpa only [hnb] using g5
  · intro i hi'
    simp only [hnb]
    rw [g6 i hi']
    unfold posOf positions
    apply List.filter_congr
    intro p hp
    have hp' : p < data.length := by simpa using hp
    rw [List.getElem?_eq_getElem hp']
    simp only [Option.any_some]
    rw [← hbin]
    rw [Bool.eq_iff_iff]; simp

theorem HistSpec.riSlice_eq {data : List ℚ} {w lo hi : ℚ} {r : HistResult}
    (h : HistSpec data w lo hi r) {i : ℕ} (hi' : i < r.bins.length) :
    riSlice r.ri i = some (positions (InBin lo w hi i) data) := by
  have hl : r.bins.length = nBins lo w hi := by rw [h.bins]; simp
  unfold riSlice
  rw [h.riHead i (by omega), h.riHead (i + 1) (by omega)]
  simp only
  rw [h.segs i (by omega)]

theorem HistSpec.bins_length {data : List ℚ} {w lo hi : ℚ} {r : HistResult}
    (h : HistSpec data w lo hi r) : r.bins.length = nBins lo w hi := by rw [h.bins]; simp

theorem HistSpec.hist_length {data : List ℚ} {w lo hi : ℚ} {r : HistResult}
    (h : HistSpec data w lo hi r) : r.hist.length = nBins lo w hi := by rw [h.hist]; simp

theorem HistSpec.hist_get {data : List ℚ} {w lo hi : ℚ} {r : HistResult}
    (h : HistSpec data w lo hi r) {i : ℕ} (hi' : i < r.bins.length) :
    r.hist[i]? = some (data.countP fun d => decide (InBin lo w hi i d)) := by
  rw [h.bins_length] at hi'
  rw [h.hist]; simp [hi']

theorem nBins_spec {lo w hi : ℚ} (hw : 0 < w) (hlh : lo ≤ hi) :
    hi < lo + (nBins lo w hi : ℚ) * w ∧ ∀ i : ℕ, i < nBins lo w hi → lo + (i : ℚ) * w ≤ hi := by
  have hq : 0 ≤ (hi - lo) / w := div_nonneg (by linarith) hw.le
  unfold nBins
  constructor
  · have := Nat.lt_floor_add_one ((hi - lo) / w)
    rw [div_lt_iff₀ hw] at this
    push_cast; linarith
  · intro i hi'
    have h1 : (i : ℚ) ≤ ⌊(hi - lo) / w⌋₊ := by exact_mod_cast Nat.lt_succ_iff.mp hi'
    have h2 := Nat.floor_le hq
    have h3 : (i : ℚ) ≤ (hi - lo) / w := le_trans h1 h2
    rw [le_div_iff₀ hw] at h3
    linarith

/-- Each in-range value is in exactly one bin, and that bin is one of the returned ones. -/
theorem inBin_unique {lo w hi d : ℚ} (hw : 0 < w) (h : InRange lo hi d) :
    ∃! i, i < nBins lo w hi ∧ InBin lo w hi i d := by
  obtain ⟨h1, h2⟩ := h
  refine ⟨⌊(d - lo) / w⌋₊, ⟨?_, (floor_eq_iff_inBin hw h1 h2 _).mp rfl⟩, ?_⟩
  · have hle : (d - lo) / w ≤ (hi - lo) / w := by
      apply div_le_div_of_nonneg_right _ hw.le; linarith
    have := Nat.floor_le_floor hle
    unfold nBins; omega
  · rintro j ⟨_, hj⟩
    exact ((floor_eq_iff_inBin hw h1 h2 j).mpr hj).symm

theorem HistSpec.sum {data : List ℚ} {w lo hi : ℚ} {r : HistResult} (hw : 0 < w)
    (h : HistSpec data w lo hi r) :
    r.hist.sum = data.countP fun d => decide (InRange lo hi d) := by
  have hb : ∀ d ∈ data, ∀ j,
      (if InRange lo hi d then some ⌊(d - lo) / w⌋₊ else none) = some j → j < nBins lo w hi := by
    intro d _ j hj
    by_cases hr : InRange lo hi d
    · rw [if_pos hr] at hj
      obtain ⟨i, ⟨hi1, hi2⟩, _⟩ := inBin_unique hw hr
      have := (floor_eq_iff_inBin hw hr.1 hr.2 i).mpr hi2
      simp only [Option.some.injEq] at hj
      omega
    · rw [if_neg hr] at hj; cases hj
  have := sum_countP_bins (fun d => if InRange lo hi d then some ⌊(d - lo) / w⌋₊ else none)
    (nBins lo w hi) data hb
  rw [h.hist]
  have e1 : (List.range (nBins lo w hi)).map (fun i =>
      data.countP fun d => decide (InBin lo w hi i d))
      = (List.range (nBins lo w hi)).map (fun j => data.countP (fun d =>
        (if InRange lo hi d then some ⌊(d - lo) / w⌋₊ else none) == some j)) := by
    apply List.map_congr_left
    intro i _
    apply List.countP_congr
    intro d _
    by_cases hr : InRange lo hi d
    · simp only [if_pos hr, decide_eq_true_eq, beq_iff_eq, Option.some.injEq]
      exact (floor_eq_iff_inBin hw hr.1 hr.2 i).symm
    · simp only [if_neg hr, decide_eq_true_eq]
      constructor
      · intro hh; exact absurd ⟨hh.1, hh.2.1⟩ hr
      · intro hh; simp at hh
  rw [e1, this]
  apply List.countP_congr
  intro d _
  by_cases hr : InRange lo hi d <;> simp [hr]

theorem histLoop_error {α : Type _} {cls : α → Option ℤ} (data : List α) (hist : List ℕ)
    (h : ∃ d ∈ data, ∃ bi, cls d = some bi ∧ pyIndex hist.length bi = none) :
    histLoop cls data hist = .error .outOfBounds := by
  induction data generalizing hist with
  | nil => simp at h
  | cons d ds ih =>
    simp only [histLoop]
    rcases hc : cls d with _ | bi
    · apply ih
      obtain ⟨x, hx, bi, h1, h2⟩ := h
      rcases List.mem_cons.mp hx with rfl | hx
      · rw [hc] at h1; cases h1
      · exact ⟨x, hx, bi, h1, h2⟩
    · simp only
      rcases hp : pyIndex hist.length bi with _ | j
      · rfl
      · simp only
        apply ih
        obtain ⟨x, hx, bi', h1, h2⟩ := h
        rcases List.mem_cons.mp hx with rfl | hx
        · rw [hc] at h1; cases h1; rw [hp] at h2; cases h2
        · exact ⟨x, hx, bi', h1, by simpa using h2⟩

theorem listMin?_spec (l : List ℚ) (m : ℚ) (h : listMin? l = some m) :
    m ∈ l ∧ ∀ d ∈ l, m ≤ d := by
  cases l with
  | nil => cases h
  | cons d ds =>
    simp only [listMin?, Option.some.injEq] at h
    subst h
    induction ds generalizing d with
    | nil => simp
    | cons e es ih =>
      simp only [List.foldl_cons]
      by_cases hlt : e < d
      · rw [if_pos hlt]
        obtain ⟨h1, h2⟩ := ih e
        refine ⟨?_, ?_⟩
        · exact List.mem_cons_of_mem _ h1
        · intro x hx
          rcases List.mem_cons.mp hx with rfl | hx
          · exact le_trans (h2 e (by simp)) hlt.le
          · exact h2 x hx
      · rw [if_neg hlt]
        obtain ⟨h1, h2⟩ := ih d
        refine ⟨?_, ?_⟩
        · rcases List.mem_cons.mp h1 with h | h
          · rw [h]; simp
          · exact List.mem_cons_of_mem _ (List.mem_cons_of_mem _ h)
        · intro x hx
          rcases List.mem_cons.mp hx with rfl | hx
          · exact h2 x (by simp)
          · rcases List.mem_cons.mp hx with rfl | hx
            · exact le_trans (h2 d (by simp)) (not_lt.mp hlt)
            · exact h2 x (List.mem_cons_of_mem _ hx)

theorem listMax?_spec (l : List ℚ) (m : ℚ) (h : listMax? l = some m) :
    m ∈ l ∧ ∀ d ∈ l, d ≤ m := by
  cases l with
  | nil => cases h
  | cons d ds =>
    simp only [listMax?, Option.some.injEq] at h
    subst h
    induction ds generalizing d with
    | nil => simp
    | cons e es ih =>
      simp only [List.foldl_cons]
      by_cases hlt : d < e
      · rw [if_pos hlt]
        obtain ⟨h1, h2⟩ := ih e
        refine ⟨List.mem_cons_of_mem _ h1, ?_⟩
        intro x hx
        rcases List.mem_cons.mp hx with rfl | hx
        · exact le_trans hlt.le (h2 e (by simp))
        · exact h2 x hx
      · rw [if_neg hlt]
        obtain ⟨h1, h2⟩ := ih d
        refine ⟨?_, ?_⟩
        · rcases List.mem_cons.mp h1 with h | h
          · rw [h]; simp
          · exact List.mem_cons_of_mem _ (List.mem_cons_of_mem _ h)
        · intro x hx
          rcases List.mem_cons.mp hx with rfl | hx
          · exact h2 x (by simp)
          · rcases List.mem_cons.mp hx with rfl | hx
            · exact le_trans (not_lt.mp hlt) (h2 d (by simp))
            · exact h2 x (List.mem_cons_of_mem _ hx)

theorem listMin?_isSome {l : List ℚ} (h : l ≠ []) : ∃ m, listMin? l = some m := by
  cases l with
  | nil => exact absurd rfl h
  | cons d ds => exact ⟨_, rfl⟩

theorem listMax?_isSome {l : List ℚ} (h : l ≠ []) : ∃ m, listMax? l = some m := by
  cases l with
  | nil => exact absurd rfl h
  | cons d ds => exact ⟨_, rfl⟩

theorem histogram_minmax (data : List ℚ) (w lo hi : ℚ) (h : lo ≤ hi) :
    histogram data w none (some lo) (some hi) = histogramCore data w lo hi false := by
  simp [histogram, not_lt.mpr h]

/-- The bins for a requested number of bins. -/
theorem numBins_edges {lo hi : ℚ} (k : ℕ) (h : lo < hi) :
    ∃ bl, (arange lo (hi + (hi - lo) / ((k : ℚ) + 1)) ((hi - lo) / ((k : ℚ) + 1))).getLast?
        = some bl ∧
      (arange lo (hi + (hi - lo) / ((k : ℚ) + 1)) ((hi - lo) / ((k : ℚ) + 1))).dropLast
        = edges lo ((hi - lo) / ((k : ℚ) + 1)) (k + 1) := by
  set w := (hi - lo) / ((k : ℚ) + 1) with hwdef
  have hk : (0 : ℚ) < (k : ℚ) + 1 := by positivity
  have hw : 0 < w := div_pos (by linarith) hk
  have hwk : hi - lo = w * ((k : ℚ) + 1) := by rw [hwdef]; field_simp
  have hq : (hi + w - lo) / w = ((k + 2 : ℕ) : ℚ) := by
    rw [div_eq_iff hw.ne']; push_cast; linarith
  have hlen : ⌈(hi + w - lo) / w⌉.toNat = k + 2 := by
    rw [hq, Int.ceil_natCast]; rfl
  have harr : arange lo (hi + w) w = edges lo w (k + 2) := by
    unfold arange edges; rw [hlen]
  rw [harr]
  exact ⟨_, edges_last lo w (k + 1), edges_dropLast lo w (k + 1)⟩

end PyFHD
