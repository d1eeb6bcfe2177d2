import Verif.Model.CalibrateFlag
import Verif.Props.CalFlag
import Verif.Props.CalibrateRenumber

/-!
# C285: calibration flagging and the fits to the auto-correlations do not depend on the numbers of the tiles
-/

namespace PyFHD

open Spec

/-! ## Positions among the used tiles -/

section Positions

variable (π : Equiv.Perm ℕ)

/-- `a'` holds the entries of `a`, that of tile `t` at place `π t`. -/
def Spec.MovedMask (a a' : List ℤ) : Prop := a'.length = a.length ∧ (∀ t, π t < a.length ↔ t < a.length) ∧ ∀ t, a'.getD (π t) 0 = a.getD t 0

variable {π} {a a' : List ℤ}

theorem usedIdx_moved (h : MovedMask π a a') : (usedIdx a').Perm ((usedIdx a).map π) := by
  rw [List.perm_ext_iff_of_nodup (usedIdx_nodup _) ((List.nodup_map_iff π.injective).2 (usedIdx_nodup _))]
  intro t
  obtain ⟨s, rfl⟩ := π.surjective t
  rw [mem_usedIdx, h.2.2, List.mem_map]
  constructor
  · exact fun hs => ⟨s, (mem_usedIdx _ _).2 hs, rfl⟩
  · rintro ⟨r, hr, e⟩
    rw [← π.injective e]
    exact (mem_usedIdx _ _).1 hr

/-- The position among the used tiles, after renaming, of the tile at position `i`. -/
def posMove (π : Equiv.Perm ℕ) (l l' : List ℕ) (i : ℕ) : ℕ := tilePos l' (π (l.getD i 0))

variable {l l' : List ℕ}

theorem posMove_lt (hp : l'.Perm (l.map π)) (i : ℕ) (hi : i < l.length) : posMove π l l' i < l.length := by
  have : posMove π l l' i < l'.length := tilePos_lt _ _ (hp.mem_iff.2 (List.mem_map.2 ⟨_, by
    rw [getD_of_lt hi]
    exact List.getElem_mem _, rfl⟩))
  rwa [hp.length_eq, List.length_map] at this

theorem getD_posMove (hp : l'.Perm (l.map π)) (i : ℕ) (hi : i < l.length) : l'.getD (posMove π l l' i) 0 = π (l.getD i 0) :=
  getD_tilePos _ _ (hp.mem_iff.2 (List.mem_map.2 ⟨_, by
    rw [getD_of_lt hi]
    exact List.getElem_mem _, rfl⟩))

theorem posMove_inj (hp : l'.Perm (l.map π)) (hn : l.Nodup) (i : ℕ) (hi : i < l.length) (j : ℕ) (hj : j < l.length)
    (e : posMove π l l' i = posMove π l l' j) : i = j := by
  have h1 := getD_posMove hp i hi
  rw [e, getD_posMove hp j hj] at h1
  have h2 := π.injective h1
  rw [getD_of_lt hi, getD_of_lt hj] at h2
  exact ((List.Nodup.getElem_inj_iff hn).1 h2).symm

theorem renum_map_pos {β : Type} (hp : l'.Perm (l.map π)) (F F' : ℕ → β) (h : ∀ t ∈ l, F' (π t) = F t) :
    Renum l.length (posMove π l l') (l.map F) (l'.map F') := by
  refine ⟨by simp, by simp [hp.length_eq], fun i hi => ?_⟩
  have h1 := posMove_lt hp i hi
  have h2 := getD_posMove hp i hi
  have h1' : posMove π l l' i < l'.length := by rwa [hp.length_eq, List.length_map]
  rw [getD_of_lt h1', getD_of_lt hi] at h2
  rw [List.getElem?_map, List.getElem?_map, List.getElem?_eq_getElem h1', List.getElem?_eq_getElem hi, h2]
  simp [h _ (List.getElem_mem hi)]

end Positions

/-! ## The amplitude and phase tests -/

section Tests

variable {R : Type} [Field R] [LinearOrder R] {n : ℕ} {ρ : ℕ → ℕ}

theorem medianO_perm {a b : List R} (h : a.Perm b) : medianO a = medianO b := by
  unfold medianO
  rw [npMedian_perm h]
  have : a = [] ↔ b = [] := by rw [← List.length_eq_zero_iff, ← List.length_eq_zero_iff, h.length_eq]
  simp only [this]

/-- A list of positions and the list of where they are afterwards. -/
def PosMoved (n : ℕ) (ρ : ℕ → ℕ) (l l' : List ℕ) : Prop := (∀ i ∈ l, i < n) ∧ l'.Perm (l.map ρ)

theorem aboveSigma_moved (std : List R → R) (hstd : ∀ a b : List R, a.Perm b → std a = std b) {fom fom' : List R} (h : Renum n ρ fom fom')
    {u u' : List ℕ} (hu : PosMoved n ρ u u') (i : ℕ) (hi : i < n) : aboveSigma std fom' u' (ρ i) = aboveSigma std fom u i := by
  have hp : (u'.map fun j => fom'.getD j 0).Perm (u.map fun j => fom.getD j 0) := by
    refine (hu.2.map _).trans ?_
    rw [List.map_map]
    exact List.Perm.of_eq (List.map_congr_left fun j hj => h.getD 0 j (hu.1 j hj))
  unfold aboveSigma
  rw [medianO_perm hp, hstd _ _ hp, h.getD 0 i hi]

theorem ampOut_moved (h1 : ∀ t < n, ρ t < n) (h2 : ∀ t < n, ∀ u < n, ρ t = ρ u → t = u) {avg avg' : List R} (h : Renum n ρ avg avg')
    (i : ℕ) (hi : i < n) : ampOut avg' (ρ i) = ampOut avg i := by
  unfold ampOut
  rw [medianO_perm (h.perm h1 h2), h.getD 0 i hi]

theorem range_filter_moved (h1 : ∀ t < n, ρ t < n) (h2 : ∀ t < n, ∀ u < n, ρ t = ρ u → t = u) (P P' : ℕ → Bool)
    (h : ∀ i < n, P' (ρ i) = P i) : PosMoved n ρ ((List.range n).filter P) ((List.range n).filter P') := by
  refine ⟨fun i hi => List.mem_range.1 (List.mem_filter.1 hi).1, ?_⟩
  refine ((renum_range_perm n ρ h1 h2).filter P').symm.trans ?_
  rw [List.filter_map]
  refine List.Perm.of_eq ?_
  congr 1
  apply List.filter_congr
  intro i hi
  exact h i (List.mem_range.1 hi)

theorem notMem_moved (h2 : ∀ t < n, ∀ u < n, ρ t = ρ u → t = u) {u u' c c' : List ℕ} (hu : PosMoved n ρ u u') (hc : PosMoved n ρ c c') :
    PosMoved n ρ (u.filter fun i => decide (i ∉ c)) (u'.filter fun i => decide (i ∉ c')) := by
  refine ⟨fun i hi => hu.1 i (List.mem_filter.1 hi).1, ?_⟩
  refine (hu.2.filter _).trans ?_
  rw [List.filter_map]
  refine List.Perm.of_eq ?_
  congr 1
  apply List.filter_congr
  intro i hi
  have : ρ i ∈ c' ↔ i ∈ c := by
    rw [hc.2.mem_iff, List.mem_map]
    constructor
    · rintro ⟨j, hj, e⟩
      rwa [← h2 j (hc.1 j hj) i (hu.1 i hi) e]
    · exact fun h => ⟨i, h, rfl⟩
  simp [this]

/-- The same state for renamed tiles. -/
def StateMoved (n : ℕ) (ρ : ℕ → ℕ) (s s' : AmpState) : Prop :=
  s'.freqCut = s.freqCut ∧ s'.freqUncut = s.freqUncut ∧ PosMoved n ρ s.tileCut s'.tileCut ∧ PosMoved n ρ s.tileUncut s'.tileUncut

theorem StateMoved.nCut {s s' : AmpState} (h : StateMoved n ρ s s') : s'.nCut = s.nCut := by
  unfold AmpState.nCut
  rw [h.1, h.2.2.1.2.length_eq, List.length_map]

theorem ampStep_moved (h1 : ∀ t < n, ρ t < n) (h2 : ∀ t < n, ∀ u < n, ρ t = ρ u → t = u) (std : List R → R)
    (hstd : ∀ a b : List R, a.Perm b → std a = std b) (ff : List R) {tf tf' ta ta' : List R} (htf : Renum n ρ tf tf')
    (hta : Renum n ρ ta ta') {s s' : AmpState} (h : StateMoved n ρ s s') :
    StateMoved n ρ (ampStep std ff tf ta s) (ampStep std ff tf' ta' s') := by
  obtain ⟨e1, e2, e3, e4⟩ := h
  have hc : PosMoved n ρ ((List.range tf.length).filter fun i => aboveSigma std tf s.tileUncut i || ampOut ta i)
      ((List.range tf'.length).filter fun i => aboveSigma std tf' s'.tileUncut i || ampOut ta' i) := by
    rw [htf.1, htf.2.1]
    exact range_filter_moved h1 h2 _ _ fun i hi => by rw [aboveSigma_moved std hstd htf e4 i hi, ampOut_moved h1 h2 hta i hi]
  unfold ampStep
  refine ⟨?_, ?_, hc, notMem_moved h2 e4 hc⟩
  · simp only [e2]
  · simp only [e2]

theorem ampLoop_moved (h1 : ∀ t < n, ρ t < n) (h2 : ∀ t < n, ∀ u < n, ρ t = ρ u → t = u) (std : List R → R)
    (hstd : ∀ a b : List R, a.Perm b → std a = std b) (ff : List R) {tf tf' ta ta' : List R} (htf : Renum n ρ tf tf')
    (hta : Renum n ρ ta ta') : ∀ (k : ℕ) (addl : ℤ) (s s' : AmpState), StateMoved n ρ s s' →
    StateMoved n ρ (ampLoop std ff tf ta k addl s) (ampLoop std ff tf' ta' k addl s') := by
  intro k
  induction k with
  | zero => exact fun _ _ _ h => h
  | succ k ih =>
    intro addl s s' h
    unfold ampLoop
    split_ifs
    · have hs := ampStep_moved h1 h2 std hstd ff htf hta h
      simp only [hs.nCut, h.nCut]
      exact ih _ _ _ hs
    · exact h

theorem ampStart_moved (h1 : ∀ t < n, ρ t < n) (h2 : ∀ t < n, ∀ u < n, ρ t = ρ u → t = u) (ff : List R) {tf tf' : List R}
    (htf : Renum n ρ tf tf') : StateMoved n ρ (ampStart ff tf) (ampStart ff tf') := by
  unfold ampStart
  refine ⟨rfl, rfl, ?_, ?_⟩
  · simp only [htf.1, htf.2.1]
    exact range_filter_moved h1 h2 _ _ fun i hi => by simp only [htf.getD 0 i hi]
  · simp only [htf.1, htf.2.1]
    exact range_filter_moved h1 h2 _ _ fun i hi => by simp only [htf.getD 0 i hi]

theorem setZero_moved {π : Equiv.Perm ℕ} {a a' : List ℤ} (h : MovedMask π a a') {cut cut' : List ℕ} (hc : ∀ t, π t ∈ cut' ↔ t ∈ cut) :
    MovedMask π (setZero a cut) (setZero a' cut') := by
  refine ⟨by rw [setZero_length, setZero_length, h.1], by rw [setZero_length]; exact h.2.1, fun t => ?_⟩
  rw [setZero_getD, setZero_getD, h.2.2]
  simp only [hc]

theorem cut_moved {π : Equiv.Perm ℕ} {l l' c c' : List ℕ} (hp : l'.Perm (l.map π)) (hc : PosMoved l.length (posMove π l l') c c') (t : ℕ) :
    π t ∈ c'.map (fun i => l'.getD i 0) ↔ t ∈ c.map fun i => l.getD i 0 := by
  rw [(hc.2.map fun i => l'.getD i 0).mem_iff, List.map_map, List.mem_map, List.mem_map]
  constructor
  · rintro ⟨i, hi, e⟩
    refine ⟨i, hi, ?_⟩
    simp only [Function.comp] at e
    rw [getD_posMove hp i (hc.1 i hi)] at e
    exact π.injective e
  · rintro ⟨i, hi, rfl⟩
    refine ⟨i, hi, ?_⟩
    simp only [Function.comp]
    exact getD_posMove hp i (hc.1 i hi)

variable {π : Equiv.Perm ℕ}

theorem ampStage_moved (c : FlagFit R) (hstd : ∀ a b : List R, a.Perm b → c.std a = c.std b) (amp amp' : ℕ → ℕ → R)
    (ha : ∀ f t, amp' f (π t) = amp f t) (a a' b : List ℤ) (h : MovedMask π a a') :
    MovedMask π (ampStage c amp (a, b)).1 (ampStage c amp' (a', b)).1 ∧ (ampStage c amp' (a', b)).2 = (ampStage c amp (a, b)).2 := by
  have hp := usedIdx_moved h
  have hn := usedIdx_nodup a
  have h1 := posMove_lt hp
  have h2 := posMove_inj hp hn
  have hff : freqFomOf c amp' (usedIdx b) (usedIdx a') = freqFomOf c amp (usedIdx b) (usedIdx a) := by
    unfold freqFomOf
    apply List.map_congr_left
    intro f _
    apply hstd
    refine (hp.map _).trans ?_
    rw [List.map_map]
    exact List.Perm.of_eq (List.map_congr_left fun t _ => ha f t)
  have htf : Renum (usedIdx a).length (posMove π (usedIdx a) (usedIdx a')) (tileFomOf c amp (usedIdx b) (usedIdx a))
      (tileFomOf c amp' (usedIdx b) (usedIdx a')) := renum_map_pos hp _ _ fun t _ => by simp only [ha]
  have hta : Renum (usedIdx a).length (posMove π (usedIdx a) (usedIdx a')) (tileAvgOf amp (usedIdx b) (usedIdx a))
      (tileAvgOf amp' (usedIdx b) (usedIdx a')) := renum_map_pos hp _ _ fun t _ => by simp only [ha]
  unfold ampStage
  simp only [hff]
  have hs0 := ampStart_moved h1 h2 (freqFomOf c amp (usedIdx b) (usedIdx a)) htf
  have hs := ampLoop_moved h1 h2 c.std hstd (freqFomOf c amp (usedIdx b) (usedIdx a)) htf hta 3
    (max (ampStart (freqFomOf c amp (usedIdx b) (usedIdx a)) (tileFomOf c amp (usedIdx b) (usedIdx a))).nCut 1) _ _ hs0
  rw [hs0.nCut]
  refine ⟨setZero_moved h (cut_moved hp hs.2.2.1), ?_⟩
  rw [hs.1]

theorem aboveMedian_moved (h1 : ∀ t < n, ρ t < n) (h2 : ∀ t < n, ∀ u < n, ρ t = ρ u → t = u) (std : List R → R)
    (hstd : ∀ a b : List R, a.Perm b → std a = std b) {v v' d d' : List R} (hv : Renum n ρ v v') (hd : Renum n ρ d d') (i : ℕ) (hi : i < n) :
    aboveMedian std v' d' (ρ i) = aboveMedian std v d i := by
  unfold aboveMedian
  rw [medianO_perm (hv.perm h1 h2), hstd _ _ (hd.perm h1 h2), hv.getD 0 i hi]

theorem phaseStage_moved (c : FlagFit R) (hstd : ∀ a b : List R, a.Perm b → c.std a = c.std b) (ph ph' : ℕ → ℕ → R)
    (ha : ∀ f t, ph' f (π t) = ph f t) (a a' b : List ℤ) (h : MovedMask π a a') :
    MovedMask π (phaseStage c ph (a, b)).1 (phaseStage c ph' (a', b)).1 ∧ (phaseStage c ph' (a', b)).2 = (phaseStage c ph (a, b)).2 := by
  have hp := usedIdx_moved h
  have hn := usedIdx_nodup a
  have h1 := posMove_lt hp
  have h2 := posMove_inj hp hn
  have hf : Renum (usedIdx a).length (posMove π (usedIdx a) (usedIdx a'))
      ((usedIdx a).map fun t => c.phaseFit (usedIdx b) ((usedIdx b).map fun f => ph f t))
      ((usedIdx a').map fun t => c.phaseFit (usedIdx b) ((usedIdx b).map fun f => ph' f t)) :=
    renum_map_pos hp _ _ fun t _ => by simp only [ha]
  have hlen : (usedIdx a').length = (usedIdx a).length := by rw [hp.length_eq, List.length_map]
  unfold phaseStage
  simp only [and_true]
  refine setZero_moved h (cut_moved hp ?_)
  rw [hlen]
  refine range_filter_moved h1 h2 _ _ fun i hi => ?_
  rw [aboveMedian_moved h1 h2 c.std hstd ((hf.map Prod.fst).map fun x => |x|) (hf.map Prod.fst) i hi,
    aboveMedian_moved h1 h2 c.std hstd (hf.map Prod.snd) (hf.map Prod.snd) i hi]

/-- **C285.** Calibration flagging does not depend on the numbers of the tiles: with tile `t` called `π t`, tile `π t` is flagged if and only
if tile `t` was, and the same channels are. Of the functions it is only assumed that a standard deviation does not depend on the order. -/
theorem C285_flags (c : FlagFit R) (hstd : ∀ a b : List R, a.Perm b → c.std a = c.std b) (nPol : ℕ) (amp amp' ph ph' : ℕ → ℕ → ℕ → R)
    (ha : ∀ p f t, amp' p f (π t) = amp p f t) (hph : ∀ p f t, ph' p f (π t) = ph p f t) (flagFreq : Bool) (tileUse tileUse' freqUse : List ℤ)
    (h : MovedMask π tileUse tileUse') :
    MovedMask π (visCalibrationFlag c nPol amp ph flagFreq tileUse freqUse).1
      (visCalibrationFlag c nPol amp' ph' flagFreq tileUse' freqUse).1 ∧
    (visCalibrationFlag c nPol amp' ph' flagFreq tileUse' freqUse).2 = (visCalibrationFlag c nPol amp ph flagFreq tileUse freqUse).2 := by
  have hfold : ∀ (l : List ℕ) (a a' b : List ℤ), MovedMask π a a' →
      MovedMask π (l.foldl (fun use p => calFlagPol c (amp p) (ph p) use) (a, b)).1
        (l.foldl (fun use p => calFlagPol c (amp' p) (ph' p) use) (a', b)).1 ∧
      (l.foldl (fun use p => calFlagPol c (amp' p) (ph' p) use) (a', b)).2 = (l.foldl (fun use p => calFlagPol c (amp p) (ph p) use) (a, b)).2 := by
    intro l
    induction l with
    | nil => exact fun a a' b h => ⟨h, rfl⟩
    | cons p l ih =>
      intro a a' b h
      rw [List.foldl_cons, List.foldl_cons]
      obtain ⟨k1, k2⟩ := ampStage_moved c hstd (amp p) (amp' p) (ha p) a a' b h
      obtain ⟨k3, k4⟩ := phaseStage_moved c hstd (ph p) (ph' p) (hph p) _ _ (ampStage c (amp p) (a, b)).2 k1
      have e1 : calFlagPol c (amp p) (ph p) (a, b) =
          ((phaseStage c (ph p) ((ampStage c (amp p) (a, b)).1, (ampStage c (amp p) (a, b)).2)).1,
            (phaseStage c (ph p) ((ampStage c (amp p) (a, b)).1, (ampStage c (amp p) (a, b)).2)).2) := rfl
      have e2 : calFlagPol c (amp' p) (ph' p) (a', b) =
          ((phaseStage c (ph' p) ((ampStage c (amp' p) (a', b)).1, (ampStage c (amp p) (a, b)).2)).1,
            (phaseStage c (ph p) ((ampStage c (amp p) (a, b)).1, (ampStage c (amp p) (a, b)).2)).2) := by
        rw [← k4, ← k2]
        rfl
      rw [e1, e2]
      exact ih _ _ _ k3
  obtain ⟨k1, k2⟩ := hfold (List.range nPol) tileUse tileUse' freqUse h
  unfold visCalibrationFlag
  refine ⟨k1, ?_⟩
  simp only [k2]

end Tests

/-! ## The steps of `calibrate` -/

section Steps

variable {π : Equiv.Perm ℕ}

theorem maskOf_getD (n : ℕ) (l : List ℕ) (i : ℕ) : (maskOf n l).getD i 0 = if i < n ∧ i ∈ l then 1 else 0 := by
  unfold maskOf
  by_cases h : i < n
  · rw [getD_of_lt (by simpa using h)]
    simp [h]
  · rw [List.getD_eq_getElem?_getD, List.getElem?_eq_none (by simpa using h)]
    simp [h]

theorem maskOf_moved (n : ℕ) (hπ : ∀ t, π t < n ↔ t < n) {l l' : List ℕ} (hp : l'.Perm (l.map π)) :
    MovedMask π (maskOf n l) (maskOf n l') := by
  refine ⟨by simp [maskOf], by simpa [maskOf] using hπ, fun t => ?_⟩
  rw [maskOf_getD, maskOf_getD]
  simp only [hπ, mem_renamed π hp]

/-- **C285.** The same for the step of `calibrate`. -/
theorem C285_step (fit : FlagFit ℝ) (hstd : ∀ a b : List ℝ, a.Perm b → fit.std a = fit.std b) (nPol nFreq nTile : ℕ) (flagFreq : Bool)
    (hπ : ∀ t, π t < nTile ↔ t < nTile) (u u' : InUse) (g : Gains) (hu : SameUse π u u') :
    SameUse π (flagStepOf fit nPol nFreq nTile flagFreq u g) (flagStepOf fit nPol nFreq nTile flagFreq u' (renamed π g)) := by
  obtain ⟨h1, h2⟩ := C285_flags fit hstd nPol (fun p f t => ‖g p f t‖) (fun p f t => ‖renamed π g p f t‖)
    (fun p f t => Complex.arg (g p f t)) (fun p f t => Complex.arg (renamed π g p f t)) (fun p f t => by rw [renamed_apply])
    (fun p f t => by rw [renamed_apply]) flagFreq _ _ (maskOf nFreq u.freqs) (maskOf_moved nTile hπ hu.2)
  unfold flagStepOf
  refine ⟨?_, ?_⟩
  · simp only [hu.1, h2]
  · simp only [hu.1]
    exact usedIdx_moved h1

/-- **C285.** The fit to the auto-correlations does not depend on the numbers of the tiles. -/
theorem C285_autos (lstsq : List ℝ → List ℝ → ℝ × ℝ) (nPol nFreq : ℕ) (auto auto' : ℕ → ℕ → ℕ → Option ℝ)
    (ha : ∀ p f t, auto' p f (π t) = auto p f t) (tiles tiles' : List ℕ) (ht : tiles'.Perm (tiles.map π)) (u u' : InUse) (g : Gains)
    (hu : SameUse π u u') :
    autoFitOf lstsq nPol nFreq auto' tiles' u' (renamed π g) = (autoFitOf lstsq nPol nFreq auto tiles u g).map (renamed π) := by
  unfold autoFitOf
  simp only [Except.map, Except.ok.injEq]
  apply eq_renamed
  intro p f t
  simp only [hu.1]
  split_ifs
  · simp only [autoFitPol, mem_renamed π ht, fitGain, fitSingle, ha, renamed_apply]
  · exact renamed_apply π g p f t

/-- **C285.** `calibrate` with the flagging and the fit to the auto-correlations of the source does not depend on the numbers of the
tiles: C284 without assumptions about these steps. -/
theorem C285_calibrate (c c' : CalibrateIn) (fit : FlagFit ℝ) (hstd : ∀ a b : List ℝ, a.Perm b → fit.std a = fit.std b) (flagFreq : Bool)
    (lstsq : List ℝ → List ℝ → ℝ × ℝ) (auto auto' : ℕ → ℕ → ℕ → Option ℝ) (ha : ∀ p f t, auto' p f (π t) = auto p f t)
    (hflagF : c.flag = flagStepOf fit c.run.nPol c.run.nFreq c.run.nTile flagFreq)
    (hautoF : c.autoFit = autoFitOf lstsq c.run.nPol c.run.nFreq auto c.autoTiles)
    (hc' : c' = { c with
      run := renumbered c.run π
      cables := c.cables.map fun q => (q.1, fun t => q.2 (π.symm t))
      ratio := fun p f t => c.ratio p f (π.symm t)
      autoTiles := c.autoTiles.map π
      autoInit := c.autoInit.map (renamed π)
      autoFit := autoFitOf lstsq c.run.nPol c.run.nFreq auto' (c.autoTiles.map π) })
    (hπ : ∀ t, π t < c.run.nTile ↔ t < c.run.nTile) (hflag : ∀ p < c.run.nPol, FlagsAgree c.run p)
    (href : c.run.noRef = false → ∀ p < c.run.nPol, refTile ((renumbered c.run π).tiles p) = π (refTile (c.run.tiles p)))
    (hpol : 1 ≤ c.run.nPol ∧ c.run.nPol ≤ 2) (hAB : TilesExist c.run) (o : CalOpts) (u u' : InUse) (hu : SameUse π u u')
    (r : CalibrateOut) (hr : calibrateAll c o u = .ok r) :
    ∃ r', calibrateAll c' o u' = .ok r' ∧ (∀ p f t, r'.gain p f (π t) = r.gain p f t) ∧
      (∀ p f t, r'.residual p f (π t) = r.residual p f t) ∧ SameUse π r.inUse r'.inUse ∧ r'.stats = r.stats ∧
      ∀ p < c.run.nPol, ∀ f, ∀ s < c.run.nBl * c.run.nTime, r'.vis p f s = r.vis p f s := by
  refine C284_numbers π c c' ?_ hπ hflag href hpol hAB o u u' hu r hr
  subst hc'
  refine ⟨rfl, rfl, rfl, rfl, rfl, rfl, rfl, fun p f t => by simp, List.Perm.refl _, rfl, fun u u' g h => ?_, fun u u' g h => ?_, rfl⟩
  · simp only [hflagF]
    exact C285_step fit hstd _ _ _ _ hπ u u' g h
  · simp only [hautoF]
    exact C285_autos lstsq _ _ auto auto' ha _ _ (List.Perm.refl _) u u' g h

end Steps

/-! ## Examples -/

/-- The deviations of the source, and those of the example of C87, do not depend on the order. -/
theorem exFlagFit_order (a b : List ℚ) (h : a.Perm b) : exFlagFit.std a = exFlagFit.std b := by
  unfold exFlagFit
  simp only
  rw [h.foldl_eq, h.foldl_eq]

example (a b : List ℝ) (h : a.Perm b) : √(npVar a) = √(npVar b) := by rw [npVar_perm h]

/-- The tile that is flagged in the example of C87 is number 2; with tiles 0 and 2 exchanged it is number 0. -/
example : MovedMask (Equiv.swap 0 2) [1, 1, 1, 1] [1, 1, 1, 1] ∧
    visCalibrationFlag exFlagFit 1 (fun _ f t => [10 + f, 10 - f, 30 + f, 11].getD (Equiv.swap 0 2 t) 0)
      (fun _ f t => if t = 3 then 0 else f) false [1, 1, 1, 1] [1, 1] = ([0, 1, 1, 1], [1, 1]) := by
  refine ⟨⟨rfl, fun t => ?_, fun t => ?_⟩, by decide +kernel⟩
  · show _ < 4 ↔ t < 4
    rw [Equiv.swap_apply_def]
    split_ifs <;> omega
  · rw [Equiv.swap_apply_def]
    split_ifs with h1 h2
    · subst h1; rfl
    · subst h2; rfl
    · rfl

/-- `exCalibrate` with the steps of the source and auto-correlations of all tiles. -/
noncomputable def exCalibrateFull (fit : List ℕ → List ℝ → ℕ → List ℝ) (f : FlagFit ℝ) (lstsq : List ℝ → List ℝ → ℝ × ℝ) : CalibrateIn :=
  { exCalibrate fit with
    flag := flagStepOf f 2 4 3 true, autoFit := autoFitOf lstsq 2 4 (fun _ _ _ => some 1) [] }

theorem calibrateAll_unused (c : CalibrateIn) (o : CalOpts) (hf : o.flag = false) (ha : o.autoFit = false) (u : InUse)
    (F : InUse → Gains → InUse) (A : InUse → Gains → Py Gains) :
    calibrateAll { c with flag := F, autoFit := A } o u = calibrateAll c o u := by
  unfold calibrateAll calibrateGains calAuto
  simp only [hf, ha, Bool.false_eq_true, if_false]
  rfl

/-- With these steps, which are not asked for by the options of the example, the first and last tile may exchange their numbers too. -/
example (f : FlagFit ℝ) (hstd : ∀ a b : List ℝ, a.Perm b → f.std a = f.std b) (lstsq : List ℝ → List ℝ → ℝ × ℝ) :
    ∃ fit, LeastSquaresFit fit ∧ ∃ r, calibrateAll { exCalibrateFull fit f lstsq with
        run := renumbered (exCalibrate fit).run (Equiv.swap 0 2) } ⟨false, false, true, false, true, false⟩
      ⟨[0, 1, 2], [0, 1, 2]⟩ = .ok r ∧ r.vis 1 2 8 = 12 := by
  obtain ⟨fit, hfit, r, h1, h2, -⟩ := exCalibrate_ok
  have h1' : calibrateAll (exCalibrateFull fit f lstsq) ⟨false, false, true, false, true, false⟩ ⟨[0, 1, 2], [0, 1, 2]⟩ = .ok r := by
    rw [← h1]
    exact calibrateAll_unused (exCalibrate fit) _ rfl rfl _ _ _
  have hπ : ∀ t, Equiv.swap 0 2 t < 3 ↔ t < 3 := by
    intro t
    rw [Equiv.swap_apply_def]
    split_ifs <;> omega
  have hAB : TilesExist (exCalibrateFull fit f lstsq).run := exCalibrate_exist fit
  obtain ⟨r', h3, -, -, -, -, h4⟩ := C285_calibrate (π := Equiv.swap 0 2) (exCalibrateFull fit f lstsq)
    { exCalibrateFull fit f lstsq with run := renumbered (exCalibrate fit).run (Equiv.swap 0 2) } f hstd true lstsq
    (fun _ _ _ => some 1) (fun _ _ _ => some 1) (fun _ _ _ => rfl) rfl rfl rfl hπ
    (by
      intro p _ b hb
      simp only [exCalibrateFull, exCalibrate]
      refine ⟨⟨by norm_num, trivial⟩, ?_, trivial⟩
      split_ifs <;> norm_num)
    (by
      intro _ p _
      have hm : 1 ∈ (renumbered (exCalibrate fit).run (Equiv.swap 0 2)).tiles p := by
        have := (mem_renamed (Equiv.swap 0 2) (tiles_renumbered (exCalibrate fit).run (Equiv.swap 0 2) hπ p) 1).2
          (by rw [exCalibrate_tiles]; decide)
        exact this
      show refTile ((renumbered (exCalibrate fit).run (Equiv.swap 0 2)).tiles p) = Equiv.swap 0 2 (refTile ((exCalibrate fit).run.tiles p))
      unfold refTile
      rw [exCalibrate_tiles, if_pos hm]
      rfl)
    (by simp [exCalibrateFull, exCalibrate]) hAB ⟨false, false, true, false, true, false⟩
    ⟨[0, 1, 2], [0, 1, 2]⟩ ⟨[0, 1, 2], [0, 1, 2]⟩ ⟨rfl, by decide⟩ r h1'
  exact ⟨fit, hfit, r', h3, by rw [h4 1 (by simp [exCalibrateFull, exCalibrate]) 2 8 (by simp [exCalibrateFull, exCalibrate])]; exact h2⟩

end PyFHD
