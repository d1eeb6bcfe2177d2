import Verif.Props.CalApply
import Verif.Props.CalAuto
import Verif.Props.CalFlag
import Verif.Props.CalPoly
import Verif.Props.QUMix
import Verif.Props.Sky

/-!
# Further claims on calibration and sky (C34, C84 to C87, C89, C90, C93)

Added after edits of the model that no theorem noticed.
-/

namespace PyFHD

/-! ## Which exception is raised -/

section Apply

variable {K R : Type} [Field K] [StarRing K] [DecidableEq K] [Field R] [LinearOrder R]

/-- **C34** Visibilities with more than four polarisation products, or gains that lack the polarisations of a product, are refused with
an `IndexError`. -/
theorem C34_products_refused (c : CalApplyIn K R) (ra rb : List ℕ) (p : ℕ) (hp : p < c.nPolVis)
    (h : 4 ≤ p ∨ c.nPolGain ≤ p % 2 ∧ p < 4) : applyPols c ra rb = .error .indexError := by
  unfold applyPols
  rw [if_neg]
  intro hall
  obtain ⟨q, hq, h1, h2⟩ := hall p hp
  rcases h with h | ⟨h, h4⟩
  · have : gainPol[p]? = none := List.getElem?_eq_none (by simpa [gainPol] using h)
    rw [this] at hq
    cases hq
  · have hcases : p = 0 ∨ p = 1 ∨ p = 2 ∨ p = 3 := by omega
    rcases hcases with rfl | rfl | rfl | rfl <;>
      simp only [gainPol, List.getElem?_cons_zero, List.getElem?_cons_succ, Option.some.injEq] at hq <;>
      subst hq <;> simp at h h1 h2 <;> omega

end Apply

section Autos

variable {R : Type} [Field R] [LinearOrder R]

/-- **C85** A tile number beyond the number of tiles raises an `IndexError`. -/
theorem C85_tile_out_of_range (sqrt : R → Option R) (nFreq nTile : ℕ) (tiles : List ℕ) (autos models : ℕ → ℕ → ℕ → Option R)
    (scale : ℕ → Option R) (t : ℕ) (ht : t ∈ tiles) (h : nTile ≤ t) :
    visCalAutoInit sqrt nFreq nTile tiles autos models scale = .error .indexError := by
  unfold visCalAutoInit
  rw [if_neg]
  intro hall
  exact absurd (hall t ht) (by omega)

end Autos

/-- A traversal whose failures are all of one kind, and of which one step fails. -/
theorem mapM_error_kind {α β : Type} (f : α → Py β) (e : PyErr) (l : List α) (hall : ∀ x ∈ l, (∃ v, f x = .ok v) ∨ f x = .error e)
    (x : α) (hx : x ∈ l) (hf : f x = .error e) : l.mapM f = .error e := by
  induction l with
  | nil => cases hx
  | cons a l ih =>
    rw [List.mapM_cons]
    simp only [bind, Except.bind]
    rcases hall a (by simp) with ⟨v, hv⟩ | he
    · rw [hv]
      simp only []
      have hx' : x ∈ l := by
        rcases List.mem_cons.mp hx with rfl | h
        · rw [hf] at hv; cases hv
        · exact h
      rw [ih (fun y hy => hall y (List.mem_cons_of_mem _ hy)) hx']
    · rw [he]

/-- **C84** When a used time step is beyond the last sample of a tile, averaging that tile raises an `IndexError`. -/
theorem C84_missing_step_raises {R : Type} [Field R] (nFreq : ℕ) (tiles : List ℤ) (times : List ℕ) (vals : ℕ → ℕ → R) (t : ℤ) (i : ℕ)
    (hi : i ∈ times) (h : tiles.count t ≤ i) : autoMean nFreq tiles times vals t = .error .indexError := by
  have hlen : ((List.range tiles.length).filter fun k => tiles.getD k 0 = t).length = tiles.count t := by
    rw [← List.countP_eq_length_filter, List.count]
    conv_rhs => rw [← range_map_getD tiles 0]
    rw [List.countP_map]
    apply List.countP_congr
    intro k _
    simp
  unfold autoMean autoTimes
  simp only [bind, Except.bind]
  rw [mapM_error_kind _ .indexError times _ i hi]
  · rw [List.getElem?_eq_none (by omega)]
  · intro j _
    cases ((List.range tiles.length).filter fun k => tiles.getD k 0 = t)[j]? with
    | none => exact Or.inr rfl
    | some k => exact Or.inl ⟨k, rfl⟩

/-- Tile 1 has two samples; the third time step is used. -/
example : autoMean (R := ℚ) 2 [1, 2, 1, 2] [0, 2] (fun _ _ => 1) 1 = .error .indexError :=
  C84_missing_step_raises 2 _ _ _ 1 2 (by decide) (by decide)

/-- **C90** With fewer than four polarisation products the mixing angle raises an `IndexError`. -/
theorem C90_few_products_raise {R K : Type} [Field R] [LinearOrder R] [Field K] (c : QUIn R K)
    (hshape : c.nSample = c.nTime * c.nBase) (h : c.nPol < 4) : quMixing c = .error .indexError := by
  unfold quMixing
  rw [if_neg (by simpa using hshape), if_pos h]

/-! ## C86: the parameters belong to the gains -/

/-- **C86** The slope and the offset that are returned for a tile with auto-correlations are those of its new gains. -/
theorem C86_params_of_gains {K R : Type} [Field K] [Field R] [LinearOrder R] (c : AutoFitIn K R) (gain : ℕ → ℕ → K) (tiles : List ℕ)
    (junk1 junk2 : ℕ → R) (t : ℕ) (ht : t ∈ tiles) (f : ℕ) (a : R) (ha : c.auto f t = some a) :
    (autoFitPol c gain tiles junk1 junk2).gain f t =
      some (c.cast ((autoFitPol c gain tiles junk1 junk2).slope t * |a| + (autoFitPol c gain tiles junk1 junk2).offset t)
        * c.phase (gain f t)) := by
  unfold autoFitPol fitGain
  simp only [if_pos ht]
  rw [ha, Option.map_some, mul_comm |a|]

/-! ## C87: the number of passes -/

section Passes

variable {R : Type} [Field R] [LinearOrder R] [IsStrictOrderedRing R]

/-- How many frequencies and tiles a state removes. -/
def Spec.removed (s : AmpState) : ℕ := s.freqCut.length + s.tileCut.length

omit [IsStrictOrderedRing R] in
theorem ampLoop_passes (std : List R → R) (ff tf ta : List R) : ∀ (n : ℕ) (addl : ℤ) (s : AmpState), 0 < addl →
    ∃ k, 1 ≤ k ∧ k ≤ n + 1 ∧ ampLoop std ff tf ta (n + 1) addl s = (ampStep std ff tf ta)^[k] s ∧
      (∀ j, 1 ≤ j → j < k → Spec.removed ((ampStep std ff tf ta)^[j - 1] s) < Spec.removed ((ampStep std ff tf ta)^[j] s)) ∧
      (k < n + 1 → Spec.removed ((ampStep std ff tf ta)^[k] s) ≤ Spec.removed ((ampStep std ff tf ta)^[k - 1] s)) := by
  intro n
  induction n with
  | zero =>
    intro addl s h
    refine ⟨1, le_refl _, le_refl _, ?_, fun j h1 h2 => by omega, fun h => by omega⟩
    rw [ampLoop, if_pos h]
    rfl
  | succ n ih =>
    intro addl s h
    have hcut : ∀ s : AmpState, s.nCut = (Spec.removed s : ℤ) := fun s => by
      unfold AmpState.nCut Spec.removed
      push_cast
      ring
    rw [ampLoop, if_pos h]
    simp only []
    by_cases h2 : 0 < (ampStep std ff tf ta s).nCut - s.nCut
    · obtain ⟨k, hk1, hk2, hk3, hk4, hk5⟩ := ih _ (ampStep std ff tf ta s) h2
      refine ⟨k + 1, by omega, by omega, ?_, ?_, ?_⟩
      · rw [hk3, Function.iterate_succ_apply]
      · intro j hj1 hj2
        obtain ⟨i, rfl⟩ : ∃ i, j = i + 1 := ⟨j - 1, by omega⟩
        rw [Nat.add_sub_cancel, Function.iterate_succ_apply]
        cases i with
        | zero =>
          rw [hcut, hcut] at h2
          simp only [Function.iterate_zero, id]
          omega
        | succ i =>
          have := hk4 (i + 1) (by omega) (by omega)
          rw [Nat.add_sub_cancel] at this
          rw [Function.iterate_succ_apply]
          exact this
      · intro hlt
        have := hk5 (by omega)
        obtain ⟨i, rfl⟩ : ∃ i, k = i + 1 := ⟨k - 1, by omega⟩
        rw [Nat.add_sub_cancel] at this ⊢
        rw [Function.iterate_succ_apply, Function.iterate_succ_apply]
        rwa [Function.iterate_succ_apply] at this ⊢
    · refine ⟨1, le_refl _, by omega, ?_, fun j h1 h2 => by omega, ?_⟩
      · rw [ampLoop, if_neg h2]
        rfl
      · intro _
        rw [hcut, hcut] at h2
        simp only [Nat.sub_self, Function.iterate_zero, Function.iterate_one, id]
        omega

omit [IsStrictOrderedRing R] in
/-- **C87** The amplitude tests are repeated until a pass removes no more frequencies and tiles than the pass before, at most three times.
The count before the first pass is that of the frequencies and tiles whose deviations vanish. -/
theorem C87_passes (c : FlagFit R) (amp : ℕ → ℕ → R) (tileUse freqUse : List ℤ) :
    ∃ (s : ℕ → AmpState) (k : ℕ), 1 ≤ k ∧ k ≤ 3 ∧
      (∀ j, s (j + 1) = ampStep c.std ((usedIdx freqUse).map (Spec.freqFom c amp tileUse)) ((usedIdx tileUse).map (Spec.tileFom c amp freqUse))
        ((usedIdx tileUse).map (Spec.tileMedian amp freqUse)) (s j)) ∧
      Spec.removed (s 0) = (usedIdx freqUse).countP (fun f => decide (Spec.freqFom c amp tileUse f = 0))
        + (usedIdx tileUse).countP (fun t => decide (Spec.tileFom c amp freqUse t = 0)) ∧
      (∀ j, 1 ≤ j → j < k → Spec.removed (s (j - 1)) < Spec.removed (s j)) ∧
      (k < 3 → Spec.removed (s k) ≤ Spec.removed (s (k - 1))) ∧
      ampStage c amp (tileUse, freqUse) =
        (setZero tileUse ((s k).tileCut.map fun i => (usedIdx tileUse).getD i 0),
          setZero freqUse ((s k).freqCut.map fun i => (usedIdx freqUse).getD i 0)) := by
  set ff := (usedIdx freqUse).map (Spec.freqFom c amp tileUse) with hff
  set tf := (usedIdx tileUse).map (Spec.tileFom c amp freqUse) with htf
  set ta := (usedIdx tileUse).map (Spec.tileMedian amp freqUse) with hta
  obtain ⟨k, h1, h2, h3, h4, h5⟩ := ampLoop_passes c.std ff tf ta 2 (max (ampStart ff tf).nCut 1) (ampStart ff tf) (by omega)
  refine ⟨fun j => (ampStep c.std ff tf ta)^[j] (ampStart ff tf), k, h1, h2, ?_, ?_, h4, h5, ?_⟩
  · intro j
    exact Function.iterate_succ_apply' _ _ _
  · have hcount : ∀ (l : List ℕ) (g : ℕ → R), ((List.range (l.map g).length).filter fun i => (l.map g).getD i 0 = 0).length =
        l.countP fun f => decide (g f = 0) := by
      intro l g
      rw [← List.countP_eq_length_filter]
      have h := List.countP_map (p := fun x : R => decide (x = 0)) (f := fun i => (l.map g).getD i 0) (l := List.range (l.map g).length)
      rw [range_map_getD (l.map g) 0, List.countP_map] at h
      exact h.symm
    show Spec.removed (ampStart ff tf) = _
    unfold Spec.removed ampStart
    simp only []
    rw [hcount, hcount]
  · beta_reduce
    rw [← h3]
    rfl

end Passes

/-! ## C89: nothing to average -/

/-- **C89** Without used tiles or used frequencies all statistics are zero. -/
theorem C89_no_data {R : Type} [Field R] [LinearOrder R] (tiles freqs : List ℕ) (h : tiles = [] ∨ freqs = []) (amp res : ℕ → ℕ → R) :
    calStatistics tiles freqs amp res = (0, 0, some 0, 0) := by
  unfold calStatistics
  rw [if_pos h]

example : calStatistics [] [1, 2] (fun _ _ => (1 : ℚ)) (fun _ _ => 1) = (0, 0, some 0, 0) := C89_no_data _ _ (Or.inl rfl) _ _

/-! ## C93: the parallactic angle -/

/-- **C93** The parallactic angle is the direction of the zenith seen from the phase centre up to half a turn: the vector `(x, y)` of
the zenith is its length times the cosine and the sine of the angle, or the opposite. -/
theorem C93_parallactic_direction (lat ha dec q : ℝ) (h : parallacticAngle lat ha dec = some q) :
    ∃ r : ℝ, r ≠ 0 ∧ parX lat ha dec = r * Real.cos (radOf q) ∧ Real.sin (radOf ha) = r * Real.sin (radOf q) ∧
      (0 < r ∨ parX lat ha dec < 0) := by
  unfold parallacticAngle at h
  simp only [] at h
  by_cases hx : parX lat ha dec = 0
  · rw [if_pos hx] at h
    split_ifs at h with hy hpos
    · have hq := (Option.some.inj h).symm
      have hr : radOf q = Real.pi / 2 := by rw [hq]; unfold radOf; ring
      refine ⟨Real.sin (radOf ha), hy, ?_, ?_, Or.inl hpos⟩
      · rw [hx, hr, Real.cos_pi_div_two, mul_zero]
      · rw [hr, Real.sin_pi_div_two, mul_one]
    · have hq := (Option.some.inj h).symm
      have hr : radOf q = -(Real.pi / 2) := by rw [hq]; unfold radOf; ring
      refine ⟨-Real.sin (radOf ha), neg_ne_zero.mpr hy, ?_, ?_, Or.inl ?_⟩
      · rw [hx, hr, Real.cos_neg, Real.cos_pi_div_two, mul_zero]
      · rw [hr, Real.sin_neg, Real.sin_pi_div_two]; ring
      · rcases lt_or_gt_of_ne hy with h1 | h1
        · linarith
        · exact absurd h1 hpos
  · rw [if_neg hx] at h
    have hq := (Option.some.inj h).symm
    set x := parX lat ha dec
    set y := Real.sin (radOf ha)
    have hc : 0 < Real.cos (Real.arctan (y / x)) := Real.cos_arctan_pos _
    refine ⟨x / Real.cos (Real.arctan (y / x)), div_ne_zero hx hc.ne', ?_, ?_, ?_⟩
    · rw [hq, radOf_degOf]
      field_simp
    · rw [hq, radOf_degOf]
      have ht : Real.sin (Real.arctan (y / x)) = y / x * Real.cos (Real.arctan (y / x)) := by
        have := Real.tan_arctan (y / x)
        rw [Real.tan_eq_sin_div_cos, div_eq_iff hc.ne'] at this
        exact this
      rw [ht]
      field_simp
    · rcases lt_or_gt_of_ne hx with h1 | h1
      · exact Or.inr h1
      · exact Or.inl (div_pos h1 hc)

/-- A source on the meridian south of the zenith at 45 degrees: `x` is positive and the angle zero. -/
example : parallacticAngle 45 0 0 = some 0 := by
  unfold parallacticAngle parX radOf degOf
  have h1 : Real.tan (45 * (Real.pi / 180)) = 1 := by
    rw [show (45 : ℝ) * (Real.pi / 180) = Real.pi / 4 by ring, Real.tan_pi_div_four]
  simp [h1]

end PyFHD
