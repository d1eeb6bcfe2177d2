import Verif.Model.CalFlag
import Verif.Props.CalStats
import Verif.Props.CalAuto
import Mathlib.Analysis.Real.Sqrt

/-!
# Properties of the flagging by the calibration solutions (C87)
-/

namespace PyFHD
open Spec

variable {R : Type} [Field R] [LinearOrder R] [IsStrictOrderedRing R]

theorem setZero_getD (use : List ℤ) (cut : List ℕ) (i : ℕ) :
    (setZero use cut).getD i 0 = if i ∈ cut then 0 else use.getD i 0 := by
  unfold setZero
  by_cases h : i < use.length
  · rw [getD_of_lt (by simpa using h)]
    simp
  · have h1 : use.getD i 0 = 0 := by simp [h]
    rw [h1]
    simp [h]

theorem setZero_length (use : List ℤ) (cut : List ℕ) : (setZero use cut).length = use.length := by
  simp [setZero]

theorem mem_usedIdx (use : List ℤ) (i : ℕ) : i ∈ usedIdx use ↔ use.getD i 0 ≠ 0 := by
  unfold usedIdx
  rw [List.mem_filter, List.mem_range, decide_eq_true_eq]
  constructor
  · exact fun h => h.2
  · intro h
    refine ⟨?_, h⟩
    by_contra hl
    exact h (by simp [hl])

/-- `b` uses nothing that `a` does not use. -/
def Spec.OnlyFlags (a b : List ℤ) : Prop :=
  b.length = a.length ∧ ∀ i, b.getD i 0 = a.getD i 0 ∨ b.getD i 0 = 0

theorem onlyFlags_refl (a : List ℤ) : OnlyFlags a a := ⟨rfl, fun _ => Or.inl rfl⟩

theorem onlyFlags_trans {a b c : List ℤ} (h : OnlyFlags a b) (h' : OnlyFlags b c) : OnlyFlags a c :=
  ⟨h'.1.trans h.1, fun i => by
    rcases h'.2 i with h2 | h2
    · rw [h2]; exact h.2 i
    · exact Or.inr h2⟩

theorem onlyFlags_setZero (a : List ℤ) (cut : List ℕ) : OnlyFlags a (setZero a cut) :=
  ⟨setZero_length _ _, fun i => by rw [setZero_getD]; split <;> simp⟩

omit [IsStrictOrderedRing R] in
theorem calFlagPol_only (c : FlagFit R) (amp phase : ℕ → ℕ → R) (use : List ℤ × List ℤ) :
    OnlyFlags use.1 (calFlagPol c amp phase use).1 ∧ OnlyFlags use.2 (calFlagPol c amp phase use).2 := by
  unfold calFlagPol phaseStage ampStage
  simp only []
  exact ⟨onlyFlags_trans (onlyFlags_setZero _ _) (onlyFlags_setZero _ _), onlyFlags_setZero _ _⟩

omit [IsStrictOrderedRing R] in
theorem calFlag_fold_only (c : FlagFit R) (amp phase : ℕ → ℕ → ℕ → R) : ∀ (l : List ℕ) (use : List ℤ × List ℤ),
    OnlyFlags use.1 (l.foldl (fun use p => calFlagPol c (amp p) (phase p) use) use).1 ∧
    OnlyFlags use.2 (l.foldl (fun use p => calFlagPol c (amp p) (phase p) use) use).2 := by
  intro l
  induction l with
  | nil => exact fun use => ⟨onlyFlags_refl _, onlyFlags_refl _⟩
  | cons p l ih =>
    intro use
    rw [List.foldl_cons]
    have h1 := calFlagPol_only c (amp p) (phase p) use
    have h2 := ih (calFlagPol c (amp p) (phase p) use)
    exact ⟨onlyFlags_trans h1.1 h2.1, onlyFlags_trans h1.2 h2.2⟩

omit [IsStrictOrderedRing R] in
/-- **C87** The flagging only ever removes tiles and frequencies, and the frequencies are unchanged
when the option to flag them is off. -/
theorem C87_only_flags (c : FlagFit R) (nPol : ℕ) (amp phase : ℕ → ℕ → ℕ → R) (flagFreq : Bool)
    (tileUse freqUse : List ℤ) :
    OnlyFlags tileUse (visCalibrationFlag c nPol amp phase flagFreq tileUse freqUse).1 ∧
    OnlyFlags freqUse (visCalibrationFlag c nPol amp phase flagFreq tileUse freqUse).2 ∧
    (visCalibrationFlag c nPol amp phase false tileUse freqUse).2 = freqUse := by
  have h := calFlag_fold_only c amp phase (List.range nPol) (tileUse, freqUse)
  refine ⟨h.1, ?_, rfl⟩
  unfold visCalibrationFlag
  simp only []
  split
  · exact h.2
  · exact onlyFlags_refl _

omit [IsStrictOrderedRing R] in
/-- The result of the loop is the result of a pass. -/
theorem ampLoop_last (std : List R → R) (ff tf ta : List R) (P : AmpState → Prop)
    (hP : ∀ s, P s → P (ampStep std ff tf ta s)) : ∀ (n : ℕ) (addl : ℤ) (s : AmpState),
    0 < addl → P s → ∃ (s0 : AmpState) (k : ℕ), k ≤ n ∧ s0 = (ampStep std ff tf ta)^[k] s ∧ P s0 ∧
      ampLoop std ff tf ta (n + 1) addl s = ampStep std ff tf ta s0 := by
  intro n
  induction n with
  | zero =>
    intro addl s h hs
    refine ⟨s, 0, le_refl _, rfl, hs, ?_⟩
    unfold ampLoop
    rw [if_pos h]
    rfl
  | succ n ih =>
    intro addl s h hs
    rw [ampLoop, if_pos h]
    simp only []
    by_cases h2 : 0 < (ampStep std ff tf ta s).nCut - s.nCut
    · obtain ⟨s0, k, hk, hs0, h3⟩ := ih _ _ h2 (hP s hs)
      exact ⟨s0, k + 1, by omega, by rw [Function.iterate_succ_apply]; exact hs0, h3⟩
    · refine ⟨s, 0, Nat.zero_le _, rfl, hs, ?_⟩
      rw [ampLoop, if_neg h2]

/-- The median amplitude of tile `t` over the used frequencies. -/
def Spec.tileMedian (amp : ℕ → ℕ → R) (freqUse : List ℤ) (t : ℕ) : R :=
  npMedian ((usedIdx freqUse).map fun f => amp f t)

/-- The median over the used tiles of their median amplitudes. -/
def Spec.arrayMedian (amp : ℕ → ℕ → R) (tileUse freqUse : List ℤ) : R :=
  npMedian ((usedIdx tileUse).map (tileMedian amp freqUse))

omit [IsStrictOrderedRing R] in
theorem getD_map_of_lt {α β : Type _} (l : List α) (g : α → β) (i : ℕ) (a : α) (b : β) (h : i < l.length) :
    (l.map g).getD i b = g (l.getD i a) := by
  rw [getD_of_lt (by simpa using h), getD_of_lt h, List.getElem_map]

omit [IsStrictOrderedRing R] in
theorem ampOut_iff (amp : ℕ → ℕ → R) (tileUse freqUse : List ℤ) (i : ℕ) (h : i < (usedIdx tileUse).length) :
    ampOut (tileAvgOf amp (usedIdx freqUse) (usedIdx tileUse)) i = true ↔
      tileMedian amp freqUse ((usedIdx tileUse).getD i 0) < arrayMedian amp tileUse freqUse / 2 ∨
      arrayMedian amp tileUse freqUse * 2 < tileMedian amp freqUse ((usedIdx tileUse).getD i 0) := by
  have hne : tileAvgOf amp (usedIdx freqUse) (usedIdx tileUse) ≠ [] := by
    unfold tileAvgOf
    intro h0
    rw [List.map_eq_nil_iff] at h0
    rw [h0] at h; simp at h
  unfold ampOut medianO
  rw [if_neg hne]
  simp only [Bool.or_eq_true, decide_eq_true_eq]
  rw [show (tileAvgOf amp (usedIdx freqUse) (usedIdx tileUse)).getD i 0 =
    tileMedian amp freqUse ((usedIdx tileUse).getD i 0) from getD_map_of_lt _ _ _ _ _ h]
  exact Iff.rfl

theorem range_map_getD {α : Type _} (l : List α) (a : α) :
    ((List.range l.length).map fun i => l.getD i a) = l := by
  apply List.ext_getElem
  · simp
  · intro i h3 h4
    simp [h4]

/-- Membership in a list of positions mapped to the entries. -/
theorem mem_map_positions (l : List ℕ) (hnd : l.Nodup) (i : ℕ) (hi : i < l.length) (P : ℕ → Bool) :
    l.getD i 0 ∈ ((List.range l.length).filter P).map (fun j => l.getD j 0) ↔ P i = true := by
  simp only [List.mem_map, List.mem_filter, List.mem_range]
  constructor
  · rintro ⟨j, ⟨hj, hP⟩, hji⟩
    rw [getD_of_lt hj, getD_of_lt hi] at hji
    rwa [← (hnd.getElem_inj_iff).mp hji]
  · intro h
    exact ⟨i, ⟨hi, h⟩, rfl⟩

theorem usedIdx_nodup (use : List ℤ) : (usedIdx use).Nodup := List.nodup_range.filter _

theorem aboveSigma_iff (std : List R → R) (l : List ℕ) (fom : ℕ → R) (unc : List ℕ)
    (hunc : unc.Sublist (List.range l.length)) (i : ℕ) (hi : i < l.length) :
    aboveSigma std (l.map fom) unc i = true ↔ (unc.map fun j => l.getD j 0) ≠ [] ∧
      npMedian ((unc.map fun j => l.getD j 0).map fom) +
        5 * std ((unc.map fun j => l.getD j 0).map fom) < fom (l.getD i 0) := by
  have hU : (unc.map fun j => (l.map fom).getD j 0) = (unc.map fun j => l.getD j 0).map fom := by
    rw [List.map_map]
    apply List.map_congr_left
    intro j hj
    exact getD_map_of_lt _ _ _ _ _ (List.mem_range.mp (hunc.subset hj))
  unfold aboveSigma medianO
  rw [hU, getD_map_of_lt _ _ _ 0 _ hi]
  by_cases h0 : (unc.map fun j => l.getD j 0) = []
  · rw [h0]; simp
  · rw [if_neg (by simpa using h0)]
    simp only [decide_eq_true_eq]
    constructor
    · intro h; exact ⟨h0, by linarith⟩
    · rintro ⟨_, h⟩; linarith

/-- The deviation of the amplitudes of tile `t` from their polynomial fit. -/
def Spec.tileFom (c : FlagFit R) (amp : ℕ → ℕ → R) (freqUse : List ℤ) (t : ℕ) : R :=
  c.std (c.ampRes (usedIdx freqUse) ((usedIdx freqUse).map fun f => amp f t))

/-- The deviation of the amplitudes of frequency `f` over the used tiles. -/
def Spec.freqFom (c : FlagFit R) (amp : ℕ → ℕ → R) (tileUse : List ℤ) (f : ℕ) : R :=
  c.std ((usedIdx tileUse).map fun t => amp f t)

/-- The amplitude of the tile is less than half or more than twice that of the array. -/
def Spec.AmpFails (amp : ℕ → ℕ → R) (tileUse freqUse : List ℤ) (t : ℕ) : Prop :=
  tileMedian amp freqUse t < arrayMedian amp tileUse freqUse / 2 ∨
    arrayMedian amp tileUse freqUse * 2 < tileMedian amp freqUse t

/-- `v` is above the median of the values of `U` by more than five of their deviations. -/
def Spec.Above5 (std : List R → R) (U : List ℕ) (fom : ℕ → R) (v : ℕ) : Prop :=
  U ≠ [] ∧ npMedian (U.map fom) + 5 * std (U.map fom) < fom v

open Classical in
/-- The members of `used` left after `n` rounds of rejection: to begin with those whose value is not
zero; each round removes those that fail and those above the median of the ones left by more than
five of their deviations. -/
noncomputable def Spec.Left (std : List R → R) (fom : ℕ → R) (fails : ℕ → Prop) (used : List ℕ) :
    ℕ → List ℕ
  | 0 => used.filter fun x => fom x ≠ 0
  | n + 1 => (Left std fom fails used n).filter fun x =>
      ¬ (fails x ∨ Above5 std (Left std fom fails used n) fom x)

/-- One round of rejection on positions. -/
theorem left_step (std : List R → R) (l : List ℕ) (fom : ℕ → R) (fails : ℕ → Prop) (bad : ℕ → Bool)
    (hbad : ∀ i < l.length, bad i = true ↔ fails (l.getD i 0)) (unc : List ℕ)
    (hunc : unc.Sublist (List.range l.length)) (n : ℕ)
    (h : unc.map (fun j => l.getD j 0) = Spec.Left std fom fails l n) :
    (unc.filter fun i => i ∉ (List.range l.length).filter fun i =>
      aboveSigma std (l.map fom) unc i || bad i).map (fun j => l.getD j 0) =
        Spec.Left std fom fails l (n + 1) := by
  rw [Spec.Left, ← h, List.filter_map]
  congr 1
  refine List.filter_congr ?_
  intro i hi
  have hil := List.mem_range.mp (hunc.subset hi)
  have h1 := aboveSigma_iff std l fom unc hunc i hil
  simp only [Function.comp]
  rw [decide_eq_decide]
  refine not_congr ?_
  rw [List.mem_filter, List.mem_range, Bool.or_eq_true, h1, hbad i hil]
  constructor
  · rintro ⟨_, h | h⟩
    · exact Or.inr h
    · exact Or.inl h
  · rintro (h | h)
    · exact ⟨hil, Or.inr h⟩
    · exact ⟨hil, Or.inl h⟩

theorem left_start (std : List R → R) (l : List ℕ) (fom : ℕ → R) (fails : ℕ → Prop) :
    ((List.range (l.map fom).length).filter fun i => (l.map fom).getD i 0 ≠ 0).map
      (fun j => l.getD j 0) = Spec.Left std fom fails l 0 := by
  rw [Spec.Left]
  conv_rhs => rw [← range_map_getD l 0]
  rw [List.filter_map, List.length_map]
  congr 1
  refine List.filter_congr ?_
  intro i hi
  simp only [Function.comp]
  rw [getD_map_of_lt _ _ _ 0 _ (List.mem_range.mp hi)]

/-- The tiles and frequencies in use after the amplitude tests. The tiles (frequencies) of `U` (`V`)
are those not cut before the last pass. -/
theorem ampStage_spec (c : FlagFit R) (amp : ℕ → ℕ → R) (use : List ℤ × List ℤ) :
    ∃ U V : List ℕ, (∃ k ≤ 2, U = Spec.Left c.std (tileFom c amp use.2)
          (AmpFails amp use.1 use.2) (usedIdx use.1) k ∧
        V = Spec.Left c.std (freqFom c amp use.1) (fun _ => False) (usedIdx use.2) k) ∧
      U.Sublist (usedIdx use.1) ∧ V.Sublist (usedIdx use.2) ∧
      (∀ t ∈ usedIdx use.1, t ∈ U ∨ tileFom c amp use.2 t = 0 ∨ AmpFails amp use.1 use.2 t ∨
        ∃ U' : List ℕ, U'.Sublist (usedIdx use.1) ∧ t ∈ U' ∧ Above5 c.std U' (tileFom c amp use.2) t) ∧
      (∀ t, use.1.getD t 0 ≠ 0 → ((ampStage c amp use).1.getD t 0 = 0 ↔
        AmpFails amp use.1 use.2 t ∨ Above5 c.std U (tileFom c amp use.2) t)) ∧
      (∀ f, use.2.getD f 0 ≠ 0 → ((ampStage c amp use).2.getD f 0 = 0 ↔
        Above5 c.std V (freqFom c amp use.1) f)) := by
  set ts := usedIdx use.1 with hts
  set fs := usedIdx use.2 with hfs
  have htf : tileFomOf c amp fs ts = ts.map (tileFom c amp use.2) := rfl
  have hff : freqFomOf c amp fs ts = fs.map (freqFom c amp use.1) := rfl
  let P : AmpState → Prop := fun s =>
    s.tileUncut.Sublist (List.range ts.length) ∧ s.freqUncut.Sublist (List.range fs.length) ∧
    ∀ i < ts.length, i ∈ s.tileUncut ∨ tileFom c amp use.2 (ts.getD i 0) = 0 ∨
      AmpFails amp use.1 use.2 (ts.getD i 0) ∨
      ∃ U' : List ℕ, U'.Sublist ts ∧ ts.getD i 0 ∈ U' ∧ Above5 c.std U' (tileFom c amp use.2) (ts.getD i 0)
  have hstep : ∀ s, P s → P (ampStep c.std (freqFomOf c amp fs ts) (tileFomOf c amp fs ts)
      (tileAvgOf amp fs ts) s) := by
    rintro s ⟨h1, h2, h3⟩
    refine ⟨List.Sublist.trans List.filter_sublist h1, List.Sublist.trans List.filter_sublist h2, ?_⟩
    intro i hi
    rcases h3 i hi with h | h
    swap
    · exact Or.inr h
    by_cases hc : aboveSigma c.std (tileFomOf c amp fs ts) s.tileUncut i = true ∨
        ampOut (tileAvgOf amp fs ts) i = true
    · right; right
      rcases hc with hc | hc
      · right
        rw [htf, aboveSigma_iff _ _ _ _ h1 _ hi] at hc
        refine ⟨s.tileUncut.map fun j => ts.getD j 0, ?_, List.mem_map.mpr ⟨i, h, rfl⟩, hc⟩
        have := h1.map fun j => ts.getD j 0
        rwa [range_map_getD] at this
      · left
        exact (ampOut_iff amp use.1 use.2 i hi).mp hc
    · left
      unfold ampStep
      simp only [List.mem_filter, List.mem_range, Bool.or_eq_true, decide_eq_true_eq]
      exact ⟨h, fun h' => hc h'.2⟩
  have hstart : P (ampStart (freqFomOf c amp fs ts) (tileFomOf c amp fs ts)) := by
    have hl1 : (tileFomOf c amp fs ts).length = ts.length := by simp [tileFomOf]
    have hl2 : (freqFomOf c amp fs ts).length = fs.length := by simp [freqFomOf]
    unfold ampStart
    rw [hl1, hl2]
    refine ⟨List.filter_sublist, List.filter_sublist, ?_⟩
    intro i hi
    by_cases h0 : tileFom c amp use.2 (ts.getD i 0) = 0
    · exact Or.inr (Or.inl h0)
    · left
      rw [List.mem_filter, List.mem_range, decide_eq_true_eq, htf, getD_map_of_lt _ _ _ 0 _ hi]
      exact ⟨hi, h0⟩
  have hsub : ∀ s, P s → s.tileUncut.Sublist (List.range ts.length) ∧
      s.freqUncut.Sublist (List.range fs.length) := fun s h => ⟨h.1, h.2.1⟩
  have hiter : ∀ k, P ((ampStep c.std (freqFomOf c amp fs ts) (tileFomOf c amp fs ts)
      (tileAvgOf amp fs ts))^[k] (ampStart (freqFomOf c amp fs ts) (tileFomOf c amp fs ts))) ∧
      ((ampStep c.std (freqFomOf c amp fs ts) (tileFomOf c amp fs ts)
        (tileAvgOf amp fs ts))^[k] (ampStart (freqFomOf c amp fs ts) (tileFomOf c amp fs ts))).tileUncut.map
          (fun j => ts.getD j 0) =
        Spec.Left c.std (tileFom c amp use.2) (AmpFails amp use.1 use.2) ts k ∧
      ((ampStep c.std (freqFomOf c amp fs ts) (tileFomOf c amp fs ts)
        (tileAvgOf amp fs ts))^[k] (ampStart (freqFomOf c amp fs ts) (tileFomOf c amp fs ts))).freqUncut.map
          (fun j => fs.getD j 0) =
        Spec.Left c.std (freqFom c amp use.1) (fun _ => False) fs k := by
    intro k
    induction k with
    | zero =>
      exact ⟨hstart, left_start c.std ts (tileFom c amp use.2) _,
        left_start c.std fs (freqFom c amp use.1) _⟩
    | succ k ih =>
      obtain ⟨h1, h2, h3⟩ := ih
      rw [Function.iterate_succ_apply']
      refine ⟨hstep _ h1, ?_, ?_⟩
      · have := left_step c.std ts (tileFom c amp use.2) (AmpFails amp use.1 use.2)
          (ampOut (tileAvgOf amp fs ts)) (fun i hi => ampOut_iff amp use.1 use.2 i hi) _ (hsub _ h1).1 k h2
        rw [← this]
        unfold ampStep
        simp only []
        rw [show (tileFomOf c amp fs ts).length = ts.length by simp [tileFomOf]]
        rfl
      · have := left_step c.std fs (freqFom c amp use.1) (fun _ => False)
          (fun _ => false) (fun i hi => by simp) _ (hsub _ h1).2 k h3
        rw [← this]
        unfold ampStep
        simp only [Bool.or_false]
        rw [show (freqFomOf c amp fs ts).length = fs.length by simp [freqFomOf]]
        rfl
  obtain ⟨s0, k, hk, hs0, ⟨hs1, hs2, hs3⟩, hloop⟩ := ampLoop_last c.std (freqFomOf c amp fs ts)
    (tileFomOf c amp fs ts) (tileAvgOf amp fs ts) P hstep 2
    (max (ampStart (freqFomOf c amp fs ts) (tileFomOf c amp fs ts)).nCut 1)
    (ampStart (freqFomOf c amp fs ts) (tileFomOf c amp fs ts)) (by omega) hstart
  refine ⟨s0.tileUncut.map fun i => ts.getD i 0, s0.freqUncut.map fun i => fs.getD i 0,
    ⟨k, hk, by rw [hs0]; exact (hiter k).2.1, by rw [hs0]; exact (hiter k).2.2⟩, ?_, ?_, ?_, ?_, ?_⟩
  · have := hs1.map fun j => ts.getD j 0
    rwa [range_map_getD] at this
  · have := hs2.map fun j => fs.getD j 0
    rwa [range_map_getD] at this
  · intro t ht
    obtain ⟨i, hi, hit⟩ := List.getElem_of_mem ht
    have hget : ts.getD i 0 = t := by rw [getD_of_lt hi, hit]
    rcases hs3 i hi with h | h
    · left; exact List.mem_map.mpr ⟨i, h, hget⟩
    · right; rwa [hget] at h
  · intro t ht
    obtain ⟨i, hi, hit⟩ := List.getElem_of_mem ((mem_usedIdx _ _).mpr ht)
    have hget : ts.getD i 0 = t := by rw [hts, getD_of_lt hi, hit]
    have hcut := mem_map_positions ts (usedIdx_nodup _) i hi fun i =>
      aboveSigma c.std (tileFomOf c amp fs ts) s0.tileUncut i || ampOut (tileAvgOf amp fs ts) i
    rw [Bool.or_eq_true, htf, aboveSigma_iff _ _ _ _ hs1 _ hi, ampOut_iff amp use.1 use.2 i hi, hget] at hcut
    unfold ampStage
    simp only []
    rw [← hts, ← hfs, hloop, setZero_getD]
    unfold ampStep
    simp only []
    rw [show (tileFomOf c amp fs ts).length = ts.length by simp [tileFomOf]]
    split
    · next h => exact ⟨fun _ => (hcut.mp h).symm, fun _ => rfl⟩
    · next h => exact ⟨fun h' => absurd h' ht, fun h' => absurd (hcut.mpr h'.symm) h⟩
  · intro t ht
    obtain ⟨i, hi, hit⟩ := List.getElem_of_mem ((mem_usedIdx _ _).mpr ht)
    have hget : fs.getD i 0 = t := by rw [hfs, getD_of_lt hi, hit]
    have hcut := mem_map_positions fs (usedIdx_nodup _) i hi fun i =>
      aboveSigma c.std (freqFomOf c amp fs ts) s0.freqUncut i
    rw [hff, aboveSigma_iff _ _ _ _ hs2 _ hi, hget] at hcut
    unfold ampStage
    simp only []
    rw [← hts, ← hfs, hloop, setZero_getD]
    unfold ampStep
    simp only []
    rw [show (freqFomOf c amp fs ts).length = fs.length by simp [freqFomOf]]
    split
    · next h => exact ⟨fun _ => hcut.mp h, fun _ => rfl⟩
    · next h => exact ⟨fun h' => absurd h' ht, fun h' => absurd (hcut.mpr h') h⟩

theorem aboveMedian_iff (std : List R → R) (vals devs : List R) (i : ℕ) (h : i < vals.length) :
    aboveMedian std vals devs i = true ↔ npMedian vals + 5 * std devs < vals.getD i 0 := by
  unfold aboveMedian medianO
  rw [if_neg (by intro h0; rw [h0] at h; simp at h)]
  simp only [decide_eq_true_eq]
  constructor <;> intro h <;> linarith

/-- The slope of the phases of tile `t`. -/
def Spec.phaseSlope (c : FlagFit R) (phase : ℕ → ℕ → R) (freqUse : List ℤ) (t : ℕ) : R :=
  (c.phaseFit (usedIdx freqUse) ((usedIdx freqUse).map fun f => phase f t)).1

/-- The deviation of the phases of tile `t` from the fit. -/
def Spec.phaseDev (c : FlagFit R) (phase : ℕ → ℕ → R) (freqUse : List ℤ) (t : ℕ) : R :=
  (c.phaseFit (usedIdx freqUse) ((usedIdx freqUse).map fun f => phase f t)).2

/-- The slope of the phases of the tile, without its sign, exceeds the median of those of the used
tiles by more than five deviations of the slopes, or the deviation of its phases exceeds their
median by more than five deviations. -/
def Spec.PhaseFails (c : FlagFit R) (phase : ℕ → ℕ → R) (tileUse freqUse : List ℤ) (t : ℕ) : Prop :=
  npMedian ((usedIdx tileUse).map fun i => |phaseSlope c phase freqUse i|) +
      5 * c.std ((usedIdx tileUse).map (phaseSlope c phase freqUse)) < |phaseSlope c phase freqUse t| ∨
  npMedian ((usedIdx tileUse).map (phaseDev c phase freqUse)) +
      5 * c.std ((usedIdx tileUse).map (phaseDev c phase freqUse)) < phaseDev c phase freqUse t

theorem phaseStage_spec (c : FlagFit R) (phase : ℕ → ℕ → R) (use : List ℤ × List ℤ) (t : ℕ)
    (ht : use.1.getD t 0 ≠ 0) :
    (phaseStage c phase use).1.getD t 0 = 0 ↔ PhaseFails c phase use.1 use.2 t := by
  set ts := usedIdx use.1 with hts
  obtain ⟨i, hi, hit⟩ := List.getElem_of_mem ((mem_usedIdx _ _).mpr ht)
  have hget : ts.getD i 0 = t := by rw [hts, getD_of_lt hi, hit]
  unfold phaseStage
  simp only [List.map_map]
  rw [← hts, setZero_getD]
  have hcut := mem_map_positions ts (usedIdx_nodup _) i hi fun i =>
    aboveMedian c.std (ts.map fun i => |phaseSlope c phase use.2 i|) (ts.map (phaseSlope c phase use.2)) i ||
      aboveMedian c.std (ts.map (phaseDev c phase use.2)) (ts.map (phaseDev c phase use.2)) i
  rw [Bool.or_eq_true, aboveMedian_iff _ _ _ _ (by simpa using hi),
    aboveMedian_iff _ _ _ _ (by simpa using hi), getD_map_of_lt _ _ _ 0 _ hi,
    getD_map_of_lt _ _ _ 0 _ hi, hget] at hcut
  have hcut' : t ∈ ((List.range ts.length).filter fun i =>
      aboveMedian c.std (ts.map ((fun x => |x|) ∘ Prod.fst ∘ fun t =>
        c.phaseFit (usedIdx use.2) ((usedIdx use.2).map fun f => phase f t)))
        (ts.map (Prod.fst ∘ fun t => c.phaseFit (usedIdx use.2) ((usedIdx use.2).map fun f => phase f t))) i ||
      aboveMedian c.std (ts.map (Prod.snd ∘ fun t =>
        c.phaseFit (usedIdx use.2) ((usedIdx use.2).map fun f => phase f t)))
        (ts.map (Prod.snd ∘ fun t => c.phaseFit (usedIdx use.2) ((usedIdx use.2).map fun f => phase f t))) i).map
        (fun i => ts.getD i 0) ↔ PhaseFails c phase use.1 use.2 t := hcut
  split
  · next h => exact ⟨fun _ => hcut'.mp h, fun _ => rfl⟩
  · next h => exact ⟨fun h' => absurd h' ht, fun h' => absurd (hcut'.mpr h') h⟩

omit [IsStrictOrderedRing R] in
/-- The state after one more polarisation. -/
theorem calFlag_succ (c : FlagFit R) (p : ℕ) (amp phase : ℕ → ℕ → ℕ → R) (tileUse freqUse : List ℤ) :
    visCalibrationFlag c (p + 1) amp phase true tileUse freqUse =
      calFlagPol c (amp p) (phase p) (visCalibrationFlag c p amp phase true tileUse freqUse) := by
  unfold visCalibrationFlag
  simp [List.range_succ]

/-- **C87** Polarisation `p` flags exactly the tiles that fail one of the tests. With `tu` and `fu`
the tiles and frequencies in use after the previous polarisations: the amplitude of the tile is
less than half or more than twice that of the array; the deviation of its amplitudes from their fit
exceeds the median of the tiles left after at most two rounds of rejection by more than five
deviations; or its phases fail, judged with the tiles and frequencies that passed the amplitude
tests. -/
theorem C87_tile_tests (c : FlagFit R) (p : ℕ) (amp phase : ℕ → ℕ → ℕ → R) (tileUse freqUse tu fu : List ℤ)
    (hbefore : visCalibrationFlag c p amp phase true tileUse freqUse = (tu, fu)) :
    ∃ (U : List ℕ) (tu' fu' : List ℤ), (∃ k ≤ 2, U = Spec.Left c.std (tileFom c (amp p) fu)
        (AmpFails (amp p) tu fu) (usedIdx tu) k) ∧ OnlyFlags tu tu' ∧ OnlyFlags fu fu' ∧
      (∀ t, tu.getD t 0 ≠ 0 → (tu'.getD t 0 = 0 ↔
        AmpFails (amp p) tu fu t ∨ Above5 c.std U (tileFom c (amp p) fu) t)) ∧
      (∀ t, tu.getD t 0 ≠ 0 →
        ((visCalibrationFlag c (p + 1) amp phase true tileUse freqUse).1.getD t 0 = 0 ↔
          AmpFails (amp p) tu fu t ∨ Above5 c.std U (tileFom c (amp p) fu) t ∨
          (tu'.getD t 0 ≠ 0 ∧ PhaseFails c (phase p) tu' fu' t))) := by
  obtain ⟨U, V, ⟨k, hk, hU, _⟩, _, hV, _, ht, hf⟩ := ampStage_spec c (amp p) (tu, fu)
  refine ⟨U, (ampStage c (amp p) (tu, fu)).1, (ampStage c (amp p) (tu, fu)).2, ⟨k, hk, hU⟩,
    onlyFlags_setZero _ _, onlyFlags_setZero _ _, ht, ?_⟩
  intro t hu
  rw [calFlag_succ, hbefore]
  unfold calFlagPol
  by_cases h0 : (ampStage c (amp p) (tu, fu)).1.getD t 0 = 0
  · have h1 := (ht t hu).mp h0
    constructor
    · intro _
      rcases h1 with h1 | h1
      · exact Or.inl h1
      · exact Or.inr (Or.inl h1)
    · intro _
      unfold phaseStage
      simp only []
      rw [setZero_getD, h0]
      simp
  · rw [phaseStage_spec c (phase p) _ t h0]
    have h1 := fun h => h0 ((ht t hu).mpr h)
    constructor
    · exact fun h => Or.inr (Or.inr ⟨h0, h⟩)
    · rintro (h | h | h)
      · exact absurd (Or.inl h) h1
      · exact absurd (Or.inr h) h1
      · exact h.2

/-- **C87** A frequency is flagged in polarisation `p` exactly if the deviation of its amplitudes
over the tiles exceeds the median of the frequencies left after at most two rounds of rejection by
more than five deviations. -/
theorem C87_frequency_test (c : FlagFit R) (p : ℕ) (amp phase : ℕ → ℕ → ℕ → R)
    (tileUse freqUse tu fu : List ℤ)
    (hbefore : visCalibrationFlag c p amp phase true tileUse freqUse = (tu, fu)) :
    ∃ k ≤ 2, ∀ f, fu.getD f 0 ≠ 0 →
      ((visCalibrationFlag c (p + 1) amp phase true tileUse freqUse).2.getD f 0 = 0 ↔
        Above5 c.std (Spec.Left c.std (freqFom c (amp p) tu) (fun _ => False) (usedIdx fu) k)
          (freqFom c (amp p) tu) f) := by
  obtain ⟨U, V, ⟨k, hk, _, hV⟩, _, _, _, ht, hf⟩ := ampStage_spec c (amp p) (tu, fu)
  refine ⟨k, hk, fun f h => ?_⟩
  rw [calFlag_succ, hbefore, ← hV]
  exact hf f h

omit [IsStrictOrderedRing R] in
theorem calFlag_later (c : FlagFit R) (p n : ℕ) (hp : p ≤ n) (amp phase : ℕ → ℕ → ℕ → R)
    (tileUse freqUse : List ℤ) :
    OnlyFlags (visCalibrationFlag c p amp phase true tileUse freqUse).1
      (visCalibrationFlag c n amp phase true tileUse freqUse).1 := by
  induction n, hp using Nat.le_induction with
  | base => exact onlyFlags_refl _
  | succ n _ ih =>
    rw [calFlag_succ]
    exact onlyFlags_trans ih (calFlagPol_only _ _ _ _).1

/-- **C87** A tile that is still in use at the end has, in every polarisation, an amplitude between
half and twice that of the array; the medians are over the tiles and frequencies in use before the
polarisation. -/
theorem C87_amplitude_rule (c : FlagFit R) (nPol p : ℕ) (hp : p < nPol) (amp phase : ℕ → ℕ → ℕ → R)
    (flagFreq : Bool) (tileUse freqUse tu fu : List ℤ)
    (hbefore : visCalibrationFlag c p amp phase true tileUse freqUse = (tu, fu)) (t : ℕ)
    (ht : (visCalibrationFlag c nPol amp phase flagFreq tileUse freqUse).1.getD t 0 ≠ 0) :
    arrayMedian (amp p) tu fu / 2 ≤ tileMedian (amp p) fu t ∧
      tileMedian (amp p) fu t ≤ 2 * arrayMedian (amp p) tu fu := by
  have ht' : (visCalibrationFlag c nPol amp phase true tileUse freqUse).1.getD t 0 ≠ 0 := ht
  have h1 : (visCalibrationFlag c (p + 1) amp phase true tileUse freqUse).1.getD t 0 ≠ 0 := by
    rcases (calFlag_later c (p + 1) nPol hp amp phase tileUse freqUse).2 t with h | h
    · rwa [← h]
    · exact absurd h ht'
  have h2 : tu.getD t 0 ≠ 0 := by
    have := (calFlag_later c p (p + 1) (by omega) amp phase tileUse freqUse).2 t
    rw [hbefore] at this
    rcases this with h | h
    · rwa [← h]
    · exact absurd h h1
  obtain ⟨U, tu', fu', _, _, _, _, hall⟩ := C87_tile_tests c p amp phase tileUse freqUse tu fu hbefore
  have h3 := fun h => h1 ((hall t h2).mpr (Or.inl h))
  unfold AmpFails at h3
  have h3 := not_or.mp h3
  rw [not_lt, not_lt] at h3
  exact ⟨h3.1, by linarith [h3.2]⟩

theorem npMedian_nonneg (l : List R) (h : ∀ x ∈ l, 0 ≤ x) : 0 ≤ npMedian l := by
  unfold npMedian
  simp only []
  have : ∀ i, 0 ≤ (l.insertionSort (· ≤ ·)).getD i 0 := by
    intro i
    by_cases hi : i < (l.insertionSort (· ≤ ·)).length
    · rw [getD_of_lt hi]
      exact h _ ((List.mem_insertionSort _).mp (List.getElem_mem hi))
    · rw [List.getD_eq_getElem?_getD, List.getElem?_eq_none (not_lt.mp hi)]
      rfl
  have h1 := this ((l.length - 1) / 2)
  have h2 := this (l.length / 2)
  positivity

/-- **C87** does not flag tiles whose calibration shows no variation at all: the code sets the use
of such tiles to zero in a copy. A tile whose amplitudes are fitted exactly and whose phases are
all zero, like a tile whose gains are all left at 1, is in use at the end if its amplitude is
within the factor of two of the array. -/
theorem C87_dead_tile_kept (c : FlagFit R) (nPol : ℕ) (amp phase : ℕ → ℕ → ℕ → R) (flagFreq : Bool)
    (tileUse freqUse : List ℤ) (t : ℕ)
    (hstd : ∀ l, 0 ≤ c.std l) (hfit : ∀ fs vs, 0 ≤ (c.phaseFit fs vs).2)
    (huse : tileUse.getD t 0 ≠ 0)
    (hamp : ∀ p < nPol, ∀ fs : List ℕ, c.std (c.ampRes fs (fs.map fun f => amp p f t)) = 0)
    (hphase : ∀ p < nPol, ∀ fs : List ℕ, c.phaseFit fs (fs.map fun f => phase p f t) = (0, 0))
    (hrange : ∀ p < nPol, ∀ tu fu, visCalibrationFlag c p amp phase true tileUse freqUse = (tu, fu) →
      arrayMedian (amp p) tu fu / 2 ≤ tileMedian (amp p) fu t ∧
        tileMedian (amp p) fu t ≤ 2 * arrayMedian (amp p) tu fu) :
    (visCalibrationFlag c nPol amp phase flagFreq tileUse freqUse).1.getD t 0 ≠ 0 := by
  have key : ∀ n ≤ nPol, (visCalibrationFlag c n amp phase true tileUse freqUse).1.getD t 0 ≠ 0 := by
    intro n
    induction n with
    | zero => exact fun _ => huse
    | succ p ih =>
      intro hp
      have hprev := ih (by omega)
      cases hb : visCalibrationFlag c p amp phase true tileUse freqUse with
      | mk tu fu =>
        rw [hb] at hprev
        obtain ⟨U, tu', fu', _, _, _, _, hall⟩ := C87_tile_tests c p amp phase tileUse freqUse tu fu hb
        rw [Ne, hall t hprev]
        have hr := hrange p (by omega) tu fu hb
        rintro (h | h | ⟨_, h | h⟩)
        · unfold AmpFails at h
          rcases h with h | h <;> linarith [hr.1, hr.2]
        · have h0 : tileFom c (amp p) fu t = 0 := hamp p (by omega) _
          have h1 := h.2
          rw [h0] at h1
          have h2 := npMedian_nonneg (U.map (tileFom c (amp p) fu)) (by
            intro x hx
            obtain ⟨i, _, rfl⟩ := List.mem_map.mp hx
            exact hstd _)
          linarith [hstd (U.map (tileFom c (amp p) fu))]
        · have h0 : phaseSlope c (phase p) fu' t = 0 := by
            unfold phaseSlope; rw [hphase p (by omega)]
          rw [h0, abs_zero] at h
          have h2 := npMedian_nonneg ((usedIdx tu').map fun i => |phaseSlope c (phase p) fu' i|) (by
            intro x hx
            obtain ⟨i, _, rfl⟩ := List.mem_map.mp hx
            exact abs_nonneg _)
          linarith [hstd ((usedIdx tu').map (phaseSlope c (phase p) fu'))]
        · have h0 : phaseDev c (phase p) fu' t = 0 := by
            unfold phaseDev; rw [hphase p (by omega)]
          rw [h0] at h
          have h2 := npMedian_nonneg ((usedIdx tu').map (phaseDev c (phase p) fu')) (by
            intro x hx
            obtain ⟨i, _, rfl⟩ := List.mem_map.mp hx
            exact hfit _ _)
          linarith [hstd ((usedIdx tu').map (phaseDev c (phase p) fu'))]
  exact key nPol le_rfl

/-! ### Small arrays -/

/-- At least half of the entries are at most the median. -/
theorem npMedian_countLE (l : List R) : l.length ≤ 2 * l.countP fun y => decide (y ≤ npMedian l) := by
  rcases Nat.eq_zero_or_pos l.length with h0 | hpos
  · omega
  set s := l.insertionSort (· ≤ ·) with hs
  have hperm : s.Perm l := List.perm_insertionSort _ l
  have hl : s.length = l.length := hperm.length_eq
  have hsort : s.Pairwise (· ≤ ·) := List.pairwise_insertionSort _ l
  have hi1 : (l.length - 1) / 2 < s.length := by omega
  have hi2 : l.length / 2 < s.length := by omega
  have hle : s[(l.length - 1) / 2] ≤ s[l.length / 2] := by
    rcases Nat.lt_or_ge ((l.length - 1) / 2) (l.length / 2) with h | h
    · exact List.pairwise_iff_getElem.mp hsort _ _ hi1 hi2 h
    · have : (l.length - 1) / 2 = l.length / 2 := by omega
      simp only [this]; exact le_rfl
  have hmed : s[(l.length - 1) / 2] ≤ npMedian l := by
    unfold npMedian
    simp only []
    rw [← hs, getD_of_lt hi1, getD_of_lt hi2]
    linarith
  have hr := (sorted_rank hsort _ hi1).2
  rw [hperm.countP_eq] at hr
  have hmono : l.countP (fun y => decide (y ≤ s[(l.length - 1) / 2])) ≤
      l.countP fun y => decide (y ≤ npMedian l) := by
    apply List.countP_mono_left
    intro y _ hy
    rw [decide_eq_true_eq] at hy ⊢
    exact le_trans hy hmed
  omega

/-- Entries that are at least `e` below the mean contribute `e ^ 2` each to the sum of squares, and an
entry above the others contributes its own square. -/
theorem sum_sq_ge (l : List R) (μ m u : R) (x : R) (hx : x ∈ l) (hmx : m < x) (hum : m ≤ μ)
    (hu : u = x - μ) :
    u ^ 2 + (l.countP fun y => decide (y ≤ m) : ℕ) * (μ - m) ^ 2 ≤ (l.map fun y => (y - μ) ^ 2).sum := by
  have hmain : ∀ l : List R, (l.countP fun y => decide (y ≤ m) : ℕ) * (μ - m) ^ 2 ≤
      (l.map fun y => (y - μ) ^ 2).sum := by
    intro l
    induction l with
    | nil => simp
    | cons y l ih =>
      rw [List.countP_cons, List.map_cons, List.sum_cons]
      by_cases hy : y ≤ m
      · rw [if_pos (by simpa using hy)]
        push_cast
        have : (μ - m) ^ 2 ≤ (y - μ) ^ 2 := by
          have : (y - μ) ^ 2 = (μ - y) ^ 2 := by ring
          rw [this]
          apply pow_le_pow_left₀ <;> linarith
        linarith
      · rw [if_neg (by simpa using hy)]
        have := sq_nonneg (y - μ)
        push_cast
        linarith
  obtain ⟨a, b, rfl⟩ := List.append_of_mem hx
  have h1 := hmain a
  have h2 := hmain b
  simp only [List.countP_append, List.countP_cons, List.map_append, List.map_cons, List.sum_append,
    List.sum_cons]
  rw [if_neg (by simpa using hmx)]
  push_cast
  rw [hu]
  linarith

/-- In a list of at most 23 numbers none exceeds the median by more than five standard
deviations. -/
theorem five_sigma_bound (l : List R) (x : R) (hx : x ∈ l) (hlen : l.length ≤ 23) (s : R) (hs : 0 ≤ s)
    (hss : s ^ 2 = npVar l) : x ≤ npMedian l + 5 * s := by
  by_contra hcon
  rw [not_le] at hcon
  set m := npMedian l with hm
  set μ := l.sum / (l.length : R) with hμ
  have hpos : 0 < l.length := List.length_pos_of_mem hx
  have hn : (0 : R) < l.length := by exact_mod_cast hpos
  have hvar : (l.length : R) * s ^ 2 = (l.map fun y => (y - μ) ^ 2).sum := by
    rw [hss]; unfold npVar; rw [← hμ, mul_div_cancel₀ _ hn.ne']
  set k := l.countP fun y => decide (y ≤ m) with hk
  have hcount : l.length ≤ 2 * k := npMedian_countLE l
  have hkn : (l.length : R) * ((k : R) + 1) ≤ 25 * k := by
    have : l.length * (k + 1) ≤ 25 * k := by
      have h1 : 2 ≤ 25 - l.length := by omega
      rcases Nat.lt_or_ge l.length 23 with h | h
      · have : 3 ≤ 25 - l.length := by omega
        have h2 : l.length ≤ k * (25 - l.length) := by nlinarith
        have h3 : k * (25 - l.length) + l.length * k = 25 * k := by
          obtain ⟨d, hd⟩ : ∃ d, 25 = l.length + d := ⟨25 - l.length, by omega⟩
          have : 25 - l.length = d := by omega
          rw [this]; nlinarith
        nlinarith
      · have : l.length = 23 := by omega
        rw [this] at hcount ⊢
        omega
    exact_mod_cast this
  have hk0 : (0 : R) < k := by
    have : 0 < k := by omega
    exact_mod_cast this
  have hd : 0 < x - m := by linarith
  have hd2 : 25 * s ^ 2 < (x - m) ^ 2 := by nlinarith
  -- the sum of squares is at least (x - m)² k / (k + 1)
  have hS : (x - m) ^ 2 * k ≤ (k + 1) * ((l.length : R) * s ^ 2) := by
    rw [hvar]
    by_cases hum : m ≤ μ
    · have := sum_sq_ge l μ m (x - μ) x hx (by linarith) hum rfl
      rw [← hk] at this
      have h2 : (x - m) ^ 2 * k ≤ (k + 1) * ((x - μ) ^ 2 + k * (μ - m) ^ 2) := by
        nlinarith [sq_nonneg ((x - μ) - k * (μ - m))]
      refine le_trans h2 ?_
      apply mul_le_mul_of_nonneg_left this
      positivity
    · rw [not_le] at hum
      have h1 : (x - μ) ^ 2 ≤ (l.map fun y => (y - μ) ^ 2).sum := by
        apply List.single_le_sum (l := l.map fun y => (y - μ) ^ 2)
        · intro z hz
          obtain ⟨y, _, rfl⟩ := List.mem_map.mp hz
          exact sq_nonneg _
        · exact List.mem_map.mpr ⟨x, hx, rfl⟩
      have h2 : (x - m) ^ 2 ≤ (x - μ) ^ 2 := by
        apply pow_le_pow_left₀ <;> linarith
      have h3 := sq_nonneg (x - μ)
      nlinarith
  have h4 : (k + 1) * ((l.length : R) * s ^ 2) ≤ 25 * k * s ^ 2 := by
    have := mul_le_mul_of_nonneg_right hkn (sq_nonneg s)
    linarith
  nlinarith

theorem npVar_eq (l : List R) (h : l ≠ []) : npVar l =
    (l.map fun x => x ^ 2).sum / l.length - (l.sum / l.length) ^ 2 := by
  have hn : (l.length : R) ≠ 0 := by
    have : l.length ≠ 0 := by simpa using h
    exact_mod_cast this
  unfold npVar
  rw [sum_var]
  field_simp
  ring

/-- The absolute values vary less than the numbers. -/
theorem npVar_abs (l : List R) : npVar (l.map fun x => |x|) ≤ npVar l := by
  by_cases h : l = []
  · subst h; simp [npVar]
  rw [npVar_eq _ (by simpa using h), npVar_eq _ h, List.map_map, List.length_map]
  have h1 : ((fun x : R => x ^ 2) ∘ fun x => |x|) = fun x => x ^ 2 := by
    funext x; simp
  rw [h1]
  have h2 : |l.sum| ≤ (l.map fun x => |x|).sum := by
    induction l with
    | nil => simp
    | cons a l ih =>
      rw [List.sum_cons, List.map_cons, List.sum_cons]
      refine le_trans (abs_add_le _ _) ?_
      by_cases hl : l = []
      · subst hl; simp
      · linarith [ih hl]
  have h3 : (l.sum / l.length) ^ 2 ≤ ((l.map fun x => |x|).sum / l.length) ^ 2 := by
    rw [div_pow, div_pow]
    apply div_le_div_of_nonneg_right _ (by positivity)
    rw [← sq_abs l.sum]
    exact pow_le_pow_left₀ (abs_nonneg _) h2 2
  linarith

theorem usedIdx_onlyFlags {a b : List ℤ} (h : OnlyFlags a b) : (usedIdx b).Sublist (usedIdx a) := by
  unfold usedIdx
  rw [h.1]
  apply List.monotone_filter_right
  intro i hi
  rw [decide_eq_true_eq] at hi ⊢
  rcases h.2 i with h1 | h1
  · rwa [← h1]
  · exact absurd h1 hi

/-- **C87** for small arrays: with at most 23 tiles in use, the tests by standard deviations never
flag a tile, however wrong its gains are. A polarisation flags exactly the tiles whose amplitude is
less than half or more than twice that of the array. -/
theorem C87_small_array (c : FlagFit R) (p : ℕ) (amp phase : ℕ → ℕ → ℕ → R) (tileUse freqUse tu fu : List ℤ)
    (hstd : ∀ l, 0 ≤ c.std l ∧ c.std l ^ 2 = npVar l)
    (hbefore : visCalibrationFlag c p amp phase true tileUse freqUse = (tu, fu))
    (hsmall : (usedIdx tu).length ≤ 23) (t : ℕ) (ht : tu.getD t 0 ≠ 0) :
    (visCalibrationFlag c (p + 1) amp phase true tileUse freqUse).1.getD t 0 = 0 ↔
      AmpFails (amp p) tu fu t := by
  have hno : ∀ (U : List ℕ) (g : ℕ → R), U.Sublist (usedIdx tu) → t ∈ U → ¬ Above5 c.std U g t := by
    intro U g hU hmem h
    have := five_sigma_bound (U.map g) (g t) (List.mem_map.mpr ⟨t, hmem, rfl⟩)
      (by rw [List.length_map]; exact le_trans hU.length_le hsmall) (c.std (U.map g)) (hstd _).1 (hstd _).2
    exact absurd h.2 (not_lt.mpr this)
  obtain ⟨U, V, _, hU, hV, hcov, hamp, _⟩ := ampStage_spec c (amp p) (tu, fu)
  have htm : t ∈ usedIdx tu := (mem_usedIdx _ _).mpr ht
  have hstage : (ampStage c (amp p) (tu, fu)).1.getD t 0 = 0 ↔ AmpFails (amp p) tu fu t := by
    rw [hamp t ht]
    constructor
    · rintro (h | h)
      · exact h
      · rcases hcov t htm with h1 | h1 | h1 | ⟨U', h1, h2, h3⟩
        · exact absurd h (hno U _ hU h1)
        · exfalso
          have h2 := h.2
          rw [h1] at h2
          have h3 := npMedian_nonneg (U.map (tileFom c (amp p) fu)) (by
            intro x hx
            obtain ⟨i, _, rfl⟩ := List.mem_map.mp hx
            exact (hstd _).1)
          simp only [] at h2
          linarith [(hstd (U.map (tileFom c (amp p) fu))).1]
        · exact h1
        · exact absurd h3 (hno U' _ h1 h2)
    · exact Or.inl
  rw [calFlag_succ, hbefore]
  unfold calFlagPol
  by_cases h0 : (ampStage c (amp p) (tu, fu)).1.getD t 0 = 0
  · refine ⟨fun _ => hstage.mp h0, fun _ => ?_⟩
    unfold phaseStage
    simp only []
    rw [setZero_getD, h0]
    simp
  · rw [phaseStage_spec c (phase p) _ t h0]
    refine ⟨fun h => ?_, fun h => absurd (hstage.mpr h) h0⟩
    exfalso
    have hsub : (usedIdx (ampStage c (amp p) (tu, fu)).1).Sublist (usedIdx tu) :=
      usedIdx_onlyFlags (onlyFlags_setZero _ _)
    have hlen : (usedIdx (ampStage c (amp p) (tu, fu)).1).length ≤ 23 := le_trans hsub.length_le hsmall
    have hmem : t ∈ usedIdx (ampStage c (amp p) (tu, fu)).1 := (mem_usedIdx _ _).mpr h0
    rcases h with h | h
    · set L := (usedIdx (ampStage c (amp p) (tu, fu)).1).map
        (phaseSlope c (phase p) (ampStage c (amp p) (tu, fu)).2) with hL
      have h1 := five_sigma_bound (L.map fun x => |x|) |phaseSlope c (phase p) (ampStage c (amp p) (tu, fu)).2 t|
        (List.mem_map.mpr ⟨_, List.mem_map.mpr ⟨t, hmem, rfl⟩, rfl⟩)
        (by rw [List.length_map, hL, List.length_map]; exact hlen) (c.std (L.map fun x => |x|))
        (hstd _).1 (hstd _).2
      have h2 : c.std (L.map fun x => |x|) ≤ c.std L := by
        apply le_of_sq_le_sq _ (hstd _).1
        rw [(hstd _).2, (hstd _).2]
        exact npVar_abs L
      have h3 : ((usedIdx (ampStage c (amp p) (tu, fu)).1).map fun i =>
          |phaseSlope c (phase p) (ampStage c (amp p) (tu, fu)).2 i|) = L.map fun x => |x| := by
        rw [hL, List.map_map]; rfl
      rw [h3] at h
      linarith
    · have h1 := five_sigma_bound ((usedIdx (ampStage c (amp p) (tu, fu)).1).map
        (phaseDev c (phase p) (ampStage c (amp p) (tu, fu)).2)) _ (List.mem_map.mpr ⟨t, hmem, rfl⟩)
        (by rw [List.length_map]; exact hlen) _ (hstd _).1 (hstd _).2
      exact absurd h (not_lt.mpr h1)

/-- The standard deviation of real numbers meets the hypothesis. -/
example (l : List ℝ) : 0 ≤ √(npVar l) ∧ √(npVar l) ^ 2 = npVar l :=
  ⟨Real.sqrt_nonneg _, Real.sq_sqrt (npVar_nonneg l)⟩

/-- Rational stand-ins: the range of the values as their deviation, residuals from the first value
and the first difference of the phases. -/
def exFlagFit : FlagFit ℚ :=
  ⟨fun l => l.foldl max 0 - l.foldl min 0, fun _ l => l.map fun x => x - l.headD 0,
    fun _ l => (l.getD 1 0 - l.getD 0 0, 0)⟩

/-- Four tiles and two frequencies: the tile with three times the amplitude is flagged, the tile
that is constant (and has phase zero) is not. -/
example : visCalibrationFlag exFlagFit 1 (fun _ f t => [10 + f, 10 - f, 30 + f, 11].getD t 0)
    (fun _ f t => if t = 3 then 0 else f) false [1, 1, 1, 1] [1, 1] = ([1, 1, 0, 1], [1, 1]) := by
  decide +kernel

end PyFHD
