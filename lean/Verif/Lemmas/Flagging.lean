import Verif.Spec.Flagging
import Verif.Props.Arrays
import Mathlib.Tactic.Linarith

/-!
# Lemmas about the weight functions
-/

namespace PyFHD

open Spec

theorem mem_tileCut (o : FlagObs) (v : ℤ) : v ∈ tileCut o ↔ UnusedTile o v := by
  simp only [tileCut, List.mem_map, List.mem_filter, List.mem_range, decide_eq_true_eq, UnusedTile]
  constructor
  · rintro ⟨t, ⟨h1, h2⟩, h3⟩; exact ⟨t, h1, h2, h3.symm⟩
  · rintro ⟨t, h1, h2, h3⟩; exact ⟨t, ⟨h1, h2⟩, h3.symm⟩

theorem tileCut_nodup (o : FlagObs) : (tileCut o).Nodup := by
  refine List.Nodup.map ?_ (List.nodup_range.filter _)
  intro a b h
  simpa using h

/-- The columns zeroed for unused tiles. -/
def tileZero (o : FlagObs) (b : ℕ) : Bool :=
  if tileCut o = [] then false
  else if matchPositions o.tileA o.tileB (tileCut o) = [] then decide (b + 1 = o.nBl)
  else decide (b ∈ matchPositions o.tileA o.tileB (tileCut o))

theorem mem_matchPositions_tileCut (o : FlagObs) (hl : o.tileB.length = o.tileA.length) (b : ℕ) :
    b ∈ matchPositions o.tileA o.tileB (tileCut o) ↔ TileFlagged o b := by
  simp only [matchPositions, List.mem_filter, List.mem_range, Bool.or_eq_true, TileFlagged]
  constructor
  · rintro ⟨h1, h2⟩
    have h1' : b < o.tileB.length := by omega
    rw [List.getElem?_eq_getElem h1, List.getElem?_eq_getElem h1'] at h2
    simp only [Option.any_some, decide_eq_true_eq] at h2
    rcases h2 with h2 | h2
    · exact ⟨_, (mem_tileCut _ _).1 h2, Or.inl (List.getElem?_eq_getElem h1)⟩
    · exact ⟨_, (mem_tileCut _ _).1 h2, Or.inr (List.getElem?_eq_getElem h1')⟩
  · rintro ⟨v, hv, h | h⟩
    · obtain ⟨h1, h2⟩ := List.getElem?_eq_some_iff.1 h
      refine ⟨h1, Or.inl ?_⟩
      rw [h]; simpa [mem_tileCut] using hv
    · obtain ⟨h1, h2⟩ := List.getElem?_eq_some_iff.1 h
      refine ⟨by omega, Or.inr ?_⟩
      rw [h]; simpa [mem_tileCut] using hv

theorem zeroWhere_false (n : ℕ) (w : Weights) : zeroWhere n w (fun _ _ => false) = w := by
  funext p f b; simp [zeroWhere]

/-- The tile step of `vis_weights_update`. -/
theorem tileStep (o : FlagObs) (w1 : Weights) (h0 : o.tileA ≠ [])
    (hl : o.tileB.length = o.tileA.length) :
    tileFlagStep o w1 = .ok (zeroWhere o.nPol w1 fun _ b => tileZero o b) := by
  unfold tileFlagStep
  by_cases hc : tileCut o = []
  · rw [if_neg (by simpa using hc)]
    simp only [tileZero, if_pos hc, zeroWhere_false]; rfl
  · rw [if_pos hc, C05_array_match_partial _ _ _ h0 hl]
    · by_cases hm : matchPositions o.tileA o.tileB (tileCut o) = []
      · rw [if_pos hm]
        simp only [tileZero, if_neg hc, if_pos hm]; rfl
      · rw [if_neg hm]
        simp only [tileZero, if_neg hc, if_neg hm]; rfl
    · intro v hv
      rw [List.count_eq_one_of_mem (tileCut_nodup o) hv]

/-! ### Time steps -/

theorem foldl_step (c : ℕ → ℕ → Prop) [∀ t b, Decidable (c t b)] (g : ℕ → ℤ) (n : ℕ) (d : ℤ)
    (b : ℕ) :
    ((List.range n).foldl (fun (tb : ℕ → ℤ) t => fun b => if c t b then g t else tb b)
      (fun _ => d)) b = d ∧ (∀ t, t < n → ¬ c t b) ∨
    ∃ t, t < n ∧ c t b ∧ (∀ s, t < s → s < n → ¬ c s b) ∧
      ((List.range n).foldl (fun (tb : ℕ → ℤ) t => fun b => if c t b then g t else tb b)
      (fun _ => d)) b = g t := by
  induction n with
  | zero => left; simp
  | succ n ih =>
    rw [List.range_succ, List.foldl_append]
    simp only [List.foldl_cons, List.foldl_nil]
    by_cases h : c n b
    · right
      exact ⟨n, by omega, h, fun s hs1 hs2 => by omega, by rw [if_pos h]⟩
    · rw [if_neg h]
      rcases ih with ⟨ih1, ih2⟩ | ⟨t, h1, h2, h3, h4⟩
      · left
        refine ⟨ih1, fun t ht => ?_⟩
        by_cases htn : t = n
        · rw [htn]; exact h
        · exact ih2 t (by omega)
      · right
        refine ⟨t, by omega, h2, fun s hs1 hs2 => ?_, h4⟩
        by_cases hsn : s = n
        · rw [hsn]; exact h
        · exact h3 s hs1 (by omega)

theorem foldl_stepN (c : ℕ → ℕ → Prop) [∀ t b, Decidable (c t b)] (n : ℕ) (b : ℕ) :
    ((((List.range n).foldl (fun (tb : ℕ → ℕ) t => fun b => if c t b then t else tb b)
      (fun _ => 0)) b : ℕ) : ℤ) =
    ((List.range n).foldl (fun (tb : ℕ → ℤ) t => fun b => if c t b then ((t : ℕ) : ℤ) else tb b)
      (fun _ => 0)) b := by
  induction n with
  | zero => simp
  | succ n ih =>
    rw [List.range_succ, List.foldl_append, List.foldl_append]
    simp only [List.foldl_cons, List.foldl_nil]
    by_cases h : c n b
    · rw [if_pos h, if_pos h]
    · rw [if_neg h, if_neg h]; exact ih

theorem inStep_unique {o : FlagObs} {n s t b : ℕ} (ho : GoodOffsets o n) (hs : InStep o n s b)
    (ht : InStep o n t b) : s = t := by
  have key : ∀ s t, InStep o n s b → InStep o n t b → ¬ s < t := by
    intro s t hs ht hlt
    obtain ⟨h1, h2, h3⟩ := hs
    obtain ⟨h4, h5, h6⟩ := ht
    unfold stepEnd at h3
    rw [if_pos (by omega)] at h3
    have := ho.mono (s + 1) t (by omega) h4
    omega
  have h1 := key s t hs ht
  have h2 := key t s ht hs
  omega

theorem exists_inStep {o : FlagObs} {n b : ℕ} (ho : GoodOffsets o n) (hn : 0 < o.nTime)
    (hb : b < n) : ∃ t, InStep o n t b := by
  by_contra hno
  have hall : ∀ t, t < o.nTime → o.binOffset t ≤ b := by
    intro t
    induction t with
    | zero => intro _; rw [ho.zero]; omega
    | succ t ih =>
      intro ht
      by_contra hlt
      exact hno ⟨t, by omega, ih (by omega), by unfold stepEnd; rw [if_pos ht]; omega⟩
  refine hno ⟨o.nTime - 1, by omega, hall _ (by omega), ?_⟩
  unfold stepEnd
  rw [if_neg (by omega)]; exact hb

theorem timeBin_eq {o : FlagObs} {t b : ℕ} (ho : GoodOffsets o o.nBl) (h : InStep o o.nBl t b) :
    timeBin o b = t := by
  have hc := foldl_stepN (fun t b => o.binOffset t ≤ b ∧
    b < (if t + 1 < o.nTime then o.binOffset (t + 1) else o.nBl)) o.nTime b
  have : ((timeBin o b : ℕ) : ℤ) = (t : ℤ) := by
    unfold timeBin
    rw [hc]
    rcases foldl_step (fun t b => o.binOffset t ≤ b ∧
      b < (if t + 1 < o.nTime then o.binOffset (t + 1) else o.nBl)) (fun t => ((t : ℕ) : ℤ))
      o.nTime 0 b with ⟨_, h2⟩ | ⟨s, h1, h2, h3, h4⟩
    · exact absurd h.2 (h2 t h.1)
    · rw [h4]
      have : s = t := inStep_unique ho ⟨h1, h2⟩ h
      rw [this]
  exact_mod_cast this

theorem timeBin_iff {o : FlagObs} {b : ℕ} (ho : GoodOffsets o o.nBl) (hb : b < o.nBl) :
    (o.timeUse (timeBin o b) = 0 ∧ 0 < o.nTime) ↔ ∃ t, InStep o o.nBl t b ∧ o.timeUse t = 0 := by
  constructor
  · rintro ⟨h1, h2⟩
    obtain ⟨t, ht⟩ := exists_inStep ho h2 hb
    rw [timeBin_eq ho ht] at h1
    exact ⟨t, ht, h1⟩
  · rintro ⟨t, ht, h⟩
    rw [timeBin_eq ho ht]
    exact ⟨h, by have := ht.1; omega⟩

/-! ### Footprint -/

theorem vwuKx_eq (o : FlagObs) (q : UvParams) (b : ℕ) :
    vwuKx o q b = Spec.flip o q b * (q.uu b / o.kpix) := by
  unfold vwuKx Spec.flip; split_ifs <;> ring

theorem vwuKy_eq (o : FlagObs) (q : UvParams) (b : ℕ) :
    vwuKy o q b = Spec.flip o q b * (q.vv b / o.kpix) := by
  unfold vwuKy Spec.flip; split_ifs <;> ring

theorem vwuMin_spec (o : FlagObs) (q : UvParams) (f b : ℕ) :
    (vwuMin o q f b = (-1, -1) ∧ (OutOfRange o q f b ∨ OffGrid o q f b)) ∨
    (0 < (vwuMin o q f b).1 ∧ 0 < (vwuMin o q f b).2 ∧ ¬ (OutOfRange o q f b ∨ OffGrid o q f b)) := by
  unfold vwuMin OffGrid
  rw [vwuKx_eq, vwuKy_eq]
  have hd : (vwuDist o q f b < o.minBaseline ∨ vwuDist o q f b > o.maxBaseline) ↔
      OutOfRange o q f b := Iff.rfl
  set X := corner q.psfDim o.dimension (o.freq f * (Spec.flip o q b * (q.uu b / o.kpix))) with hX
  set Y := corner q.psfDim o.elements (o.freq f * (Spec.flip o q b * (q.vv b / o.kpix))) with hY
  have eX : ((⌊o.freq f * (Spec.flip o q b * (q.uu b / o.kpix))⌋ : ℤ) : ℚ) + (o.dimension : ℚ) / 2
    - ((q.psfDim : ℚ) / 2 - 1) = X := rfl
  have eY : ((⌊o.freq f * (Spec.flip o q b * (q.vv b / o.kpix))⌋ : ℤ) : ℚ) + (o.elements : ℚ) / 2
    - ((q.psfDim : ℚ) / 2 - 1) = Y := rfl
  rw [eX, eY]
  unfold OffAxis
  by_cases h1 : OutOfRange o q f b
  · left; exact ⟨by simp only [if_pos (hd.2 h1)], Or.inl h1⟩
  · have h1' := mt hd.1 h1
    by_cases h2 : X ≤ 0 ∨ X + q.psfDim - 1 ≥ (o.dimension : ℚ) - 1
    · left
      have h : (-1 : ℚ) ≤ 0 ∨ (-1 : ℚ) + q.psfDim - 1 ≥ (o.elements : ℚ) - 1 :=
        Or.inl (by norm_num)
      exact ⟨by simp only [if_neg h1', if_pos h2, if_pos h], Or.inr (Or.inl h2)⟩
    · by_cases h3 : Y ≤ 0 ∨ Y + q.psfDim - 1 ≥ (o.elements : ℚ) - 1
      · left
        exact ⟨by simp only [if_neg h1', if_neg h2, if_pos h3], Or.inr (Or.inr h3)⟩
      · right
        simp only [if_neg h1', if_neg h2, if_neg h3]
        have h2' := h2
        have h3' := h3
        push Not at h2 h3
        refine ⟨h2.1, h3.1, ?_⟩
        rintro (h | h | h)
        · exact h1 h
        · exact h2' h
        · exact h3' h

end PyFHD
