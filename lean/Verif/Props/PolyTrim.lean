import Verif.Model.PolyTrim
import Verif.Props.Calibrate
import Verif.Props.CalFew

/-!
# C279: tiles for which no gain can be found

Spec: a tile has too few baselines if fewer than five with data end at it (`Spec.baselinesOf`).
-/

namespace PyFHD

open Spec

section Trim

variable {R K : Type} [Field R] [LinearOrder R] [Field K]

theorem trimCoef_last (l : List R) (h : ∀ x ∈ l.getLast?, x ≠ 0) : trimCoef l = l := by
  induction l with
  | nil => rfl
  | cons a l ih =>
    cases l with
    | nil => rfl
    | cons b m =>
      have e := ih (by simpa using h)
      unfold trimCoef
      rw [e]
      simp only []
      rw [if_neg]
      rintro ⟨rfl, rfl⟩
      exact h 0 (by simp) rfl

theorem trimCoef_zero (n : ℕ) : trimCoef (List.replicate (n + 1) (0 : R)) = [0] := by
  induction n with
  | zero => rfl
  | succ n ih =>
    rw [List.replicate_succ]
    unfold trimCoef
    rw [ih]
    simp

theorem trimCoef_length (l : List R) : (trimCoef l).length ≤ l.length ∧ (l ≠ [] → 1 ≤ (trimCoef l).length) := by
  induction l with
  | nil => simp [trimCoef]
  | cons a l ih =>
    unfold trimCoef
    cases h : trimCoef l with
    | nil => simp
    | cons b m =>
      rw [h] at ih
      simp only []
      split_ifs
      · simp
      · simpa using ih.1

theorem getD_trimCoef (l : List R) (i : ℕ) : (trimCoef l).getD i 0 = l.getD i 0 := by
  induction l generalizing i with
  | nil => rfl
  | cons a l ih =>
    unfold trimCoef
    cases h : trimCoef l with
    | nil =>
      cases i with
      | zero => rfl
      | succ i =>
        have := ih i
        rw [h] at this
        simpa using this
    | cons b m =>
      simp only []
      split_ifs with hb
      · cases i with
        | zero => rfl
        | succ i =>
          have := ih i
          rw [h, hb.1, hb.2] at this
          rw [List.getD_cons_succ, List.getD_cons_succ, ← this]
          cases i <;> rfl
      · cases i with
        | zero => rfl
        | succ i =>
          have := ih i
          rw [h] at this
          rw [List.getD_cons_succ, List.getD_cons_succ, ← this]

theorem polySum_trim (l : List R) (n f : ℕ) : polySum (trimCoef l) n f = polySum l n f := by
  unfold polySum
  simp only [getD_trimCoef]

variable [IsStrictOrderedRing R]

theorem polySum_beyond (l : List R) (n f : ℕ) (h : l.length ≤ n) : polySum l n f = polySum l l.length f := by
  obtain ⟨k, rfl⟩ := Nat.exists_eq_add_of_le h
  induction k with
  | zero => rfl
  | succ k ih =>
    rw [polySum_eq, ← Nat.add_assoc, Finset.sum_range_succ, ← polySum_eq, ih (by omega), List.getD_eq_getElem?_getD, List.getElem?_eq_none (by omega)]
    simp

/-- **C279**, where the code does what `CalPoly` models: if the leading coefficient of the amplitudes is not zero, and neither is that of the
phases or the phases are fitted by a line (the default), the fits of a tile raise nothing and are those of C88. -/
theorem C279_fits_partial (c : PolyFit R K) (hfit : LeastSquaresFit c.fit) (ampDeg phaseDeg : ℕ) (fs : List ℕ) (low : ℕ → Bool)
    (gain : ℕ → K) (ha : ∀ x ∈ (c.fit fs (fs.map fun g => c.mag (gain g)) (degreeOr ampDeg 2)).getLast?, x ≠ 0)
    (hp : degreeOr phaseDeg 1 = 1 ∨
      ∀ x ∈ (c.fit fs (c.unwrap (fs.map fun g => c.arg (gain g))) (degreeOr phaseDeg 1)).getLast?, x ≠ 0) :
    polyTileTrim c ampDeg phaseDeg fs gain = polyTile c false ampDeg phaseDeg fs low gain := by
  unfold polyTileTrim ampFitTrim phaseFitTrim polyTile storeCoef
  have hla := (hfit fs (fs.map fun g => c.mag (gain g)) (degreeOr ampDeg 2)).1
  have hlp := (hfit fs (c.unwrap (fs.map fun g => c.arg (gain g))) (degreeOr phaseDeg 1)).1
  rw [trimCoef_last _ ha]
  simp only [bind, Except.bind]
  rw [hla]
  simp only [true_or, if_true]
  rw [if_neg (by omega)]
  simp only []
  have hl := trimCoef_length (c.fit fs (c.unwrap (fs.map fun g => c.arg (gain g))) (degreeOr phaseDeg 1))
  have hlen : (trimCoef (c.fit fs (c.unwrap (fs.map fun g => c.arg (gain g))) (degreeOr phaseDeg 1))).length = degreeOr phaseDeg 1 + 1 ∨
      (trimCoef (c.fit fs (c.unwrap (fs.map fun g => c.arg (gain g))) (degreeOr phaseDeg 1))).length = 1 := by
    rcases hp with hp | hp
    · have h1 := hl.2 (by intro h; rw [h] at hlp; simp at hlp)
      have h2 := hl.1
      rw [hlp] at h2
      omega
    · rw [trimCoef_last _ hp, hlp]
      exact Or.inl rfl
  rw [if_pos hlen]
  simp only [Bool.false_eq_true, if_false]
  congr 1
  funext f
  congr 2
  unfold phaseFitAt
  simp only []
  rw [← polySum_beyond _ _ f hl.1, polySum_trim]

theorem fit_zero (c : PolyFit R K) (hfit : LeastSquaresFit c.fit) (hmag : c.mag 0 = 0) (deg : ℕ) (fs : List ℕ)
    (hnd : fs.Nodup) (hl : deg < fs.length) (gain : ℕ → K) (hz : ∀ f ∈ fs, gain f = 0) :
    c.fit fs (fs.map fun g => c.mag (gain g)) deg = List.replicate (deg + 1) 0 := by
  have hfs : (fs.map fun g => c.mag (gain g)) = fs.map fun x : ℕ => PolyAt (List.replicate (deg + 1) (0 : R)) (x : R) := by
    apply List.map_congr_left
    intro f hf
    rw [hz f hf, hmag]
    unfold PolyAt
    symm
    refine Finset.sum_eq_zero fun k _ => ?_
    have : (List.replicate (deg + 1) (0 : R)).getD k 0 = 0 := by
      rw [List.getD_eq_getElem?_getD, List.getElem?_replicate]
      split_ifs <;> rfl
    rw [this, zero_mul]
  rw [hfs, fit_exact c.fit hfit _ _ (by simp) fs hnd hl]

/-- **C279 is violated**, the fits: a tile whose gains are zero at all channels in use ends `vis_cal_polyfit` with an `IndexError`, unless the
amplitudes are fitted by a polynomial of degree one. -/
theorem C279_zero_raises (c : PolyFit R K) (hfit : LeastSquaresFit c.fit) (hmag : c.mag 0 = 0) (ampDeg phaseDeg : ℕ) (fs : List ℕ)
    (hnd : fs.Nodup) (hd : ampDeg ≠ 1) (hl : degreeOr ampDeg 2 < fs.length) (gain : ℕ → K) (hz : ∀ f ∈ fs, gain f = 0) :
    polyTileTrim c ampDeg phaseDeg fs gain = .error .indexError := by
  have hd2 : 2 ≤ degreeOr ampDeg 2 := by
    unfold degreeOr
    split_ifs <;> omega
  unfold polyTileTrim ampFitTrim storeCoef
  rw [fit_zero c hfit hmag _ fs hnd hl gain hz, trimCoef_zero]
  simp only [bind, Except.bind, List.length_singleton, or_true, if_true]
  rw [if_pos (by omega)]

/-- **C279**, the case excepted in `C279_zero_raises`: with amplitudes and phases fitted by lines, a tile whose gains are zero at all channels in use
raises nothing and gets the gain zero at every channel. -/
theorem C279_zero_line_partial (c : PolyFit R K) (hfit : LeastSquaresFit c.fit) (hmag : c.mag 0 = 0) (hcast : c.cast 0 = 0) (phaseDeg : ℕ)
    (hp : degreeOr phaseDeg 1 = 1) (fs : List ℕ) (hnd : fs.Nodup) (hl : 1 < fs.length) (gain : ℕ → K) (hz : ∀ f ∈ fs, gain f = 0) :
    ∃ h, polyTileTrim c 1 phaseDeg fs gain = .ok h ∧ ∀ f, h f = 0 := by
  unfold polyTileTrim ampFitTrim phaseFitTrim storeCoef
  have h1 : degreeOr 1 2 = 1 := rfl
  have hlp := (hfit fs (c.unwrap (fs.map fun g => c.arg (gain g))) 1).1
  have hll := trimCoef_length (c.fit fs (c.unwrap (fs.map fun g => c.arg (gain g))) 1)
  have h2 := hll.2 (by intro h; rw [h] at hlp; simp at hlp)
  have h3 := hll.1
  rw [hlp] at h3
  rw [h1, hp, fit_zero c hfit hmag _ fs hnd hl gain hz, trimCoef_zero]
  simp only [bind, Except.bind, List.length_singleton, or_true, if_true, lt_irrefl, if_false]
  rw [if_pos (by omega)]
  refine ⟨_, rfl, fun f => ?_⟩
  have : polySum [(0 : R)] 1 f = 0 := by simp [polySum]
  simp only [this, hcast, zero_mul]

end Trim

/-! ## The whole calibration -/

theorem chainBandpass_zero (o : FitOpts) (fs tiles : List ℕ) (g : ℕ → ℕ → ℂ) (f t : ℕ) (hf : f ∈ fs) (hg : g f t = 0)
    (hb : (chainBandpass o fs tiles g).bandpass f t ≠ 0) : (chainBandpass o fs tiles g).remainder f t = some 0 := by
  unfold chainBandpass at hb ⊢
  split at hb
  · simp only [bandpassGlobal, hf, if_true] at hb ⊢
    unfold npDiv
    rw [if_neg hb, hg, zero_div]
  · simp only [bandpassCable, hf, if_true] at hb ⊢
    unfold npDiv
    rw [if_neg hb, hg, zero_div]

theorem chainDivide_zero (o : FitOpts) (g : ℕ → ℕ → ℂ) (f t : ℕ) (hg : g f t = 0) : chainDivide o g f t = 0 := by
  unfold chainDivide
  cases o.ratio with
  | none => exact hg
  | some r => simp [autoRatioDivide, hg]

theorem mapM_fails {α β : Type} (F : α → Py β) (l : List α) (a : α) (ha : a ∈ l) (h : ∃ e, F a = .error e) :
    ∃ e', l.mapM F = .error e' := by
  induction l with
  | nil => cases ha
  | cons b l ih =>
    rw [List.mapM_cons]
    cases hb : F b with
    | error e' => exact ⟨e', rfl⟩
    | ok v =>
      rcases List.mem_cons.1 ha with rfl | ha
      · obtain ⟨e, h⟩ := h
        rw [h] at hb; cases hb
      · obtain ⟨e', he⟩ := ih ha
        refine ⟨e', ?_⟩
        simp only [bind, Except.bind]
        rw [he]

/-- The gains of a tile that never has enough baselines, after the solver. -/
theorem solveStepOf_zero (c : CalibrateIn) (p t : ℕ) (hpp : p < c.run.nPol) (hflag : FlagsAgree c.run p) (ht : t ∈ c.run.tiles p)
    (g0 base : Gains) (hbase : c.solveStepOf g0 = .ok base) (f : ℕ) (hf : f ∈ c.run.freqs p) (h5 : baselinesOf c.run p f t < 5) :
    base p f t = 0 := by
  unfold CalibrateIn.solveStepOf at hbase
  split at hbase
  · cases hbase
  · cases hbase
  · rename_i r hr
    injection hbase with hbase
    subst hbase
    unfold calRun at hr
    simp only [bind, Except.bind, pure, Except.pure] at hr
    split at hr
    · cases hr
    · rename_i pols hpols
      split at hr
      · cases hr
      · rename_i ps hps
        have hps' := option_mapM_some _ _ hps
        injection hr with hr
        injection hr with hr
        subst hr
        obtain ⟨hl, hget⟩ := mapM_range_ok _ _ _ hpols
        obtain ⟨b, hb1, hb2⟩ := hget p (by simpa using hpp)
        simp only [List.getElem_range] at hb2
        rw [hps', List.getElem?_map] at hb1
        obtain ⟨q, hq, rfl⟩ := Option.map_eq_some_iff.1 hb1
        simp only [hq, Option.bind_some]
        have := C280_too_few { c.run with gain := g0 } p hflag q hb2 f t hf ht h5
        rw [this]
        rfl

/-- **C279 is violated**, the whole of `calibrate`: if a tile in use has fewer than five baselines with data at each channel in use, nothing is
returned, though the solver provides for such tiles. The channels in use are those after flagging; default or higher degree of the
amplitudes; the bandpass does not vanish. -/
theorem C279_calibrate_raises (c : CalibrateIn) (hfit : LeastSquaresFit c.fit) (o : CalOpts) (hb : o.bandpass = true)
    (hp : o.polyfit = true) (u : InUse) (hd : c.ampDeg ≠ 1) (p t : ℕ) (hpp : p < c.run.nPol)
    (hflag : FlagsAgree c.run p) (htn : t < c.run.nTile) (ht : t ∈ c.run.tiles p)
    (hfew : ∀ f ∈ c.run.freqs p, baselinesOf c.run p f t < 5)
    (huse : ∀ g0 base v, calInit (c.steps o) o = .ok g0 → c.solveStepOf g0 = .ok base → v = (if o.flag then c.flag u base else u) →
      v.freqs.Nodup ∧ degreeOr c.ampDeg 2 < v.freqs.length ∧ ∀ f ∈ v.freqs, f ∈ c.run.freqs p ∧
        (chainBandpass (c.fitOpts o p) v.freqs v.tiles
          (if o.autoRatio then chainDivide (c.fitOpts o p) (base p) else base p)).bandpass f t ≠ 0) :
    ∃ e, calibrateTrim c o u = .error e := by
  unfold calibrateTrim calibrateGains
  simp only [bind, Except.bind]
  split
  · exact ⟨_, rfl⟩
  rename_i g0 hg0
  have hg0' : calInit (c.steps o) o = .ok g0 := hg0
  split
  · exact ⟨_, rfl⟩
  rename_i base hbase
  have hbase' : c.solveStepOf g0 = .ok base := hbase
  obtain ⟨hnd, hlen, hall⟩ := huse g0 base _ hg0' hbase' rfl
  have hzero : ∀ f ∈ c.run.freqs p, base p f t = 0 := fun f hf =>
    solveStepOf_zero c p t hpp hflag ht g0 base hbase' f hf (hfew f hf)
  generalize hv : (if o.flag then c.flag u base else u) = v at hnd hlen hall
  have hv' : (if o.flag then ({ c.steps o with polyfit := c.polyfitTrim } : CalSteps _ _ _).flag u base else u) = v := hv
  have hrem : ∀ f ∈ v.freqs, ((chainBandpass (c.fitOpts o p) v.freqs v.tiles
      ((if o.autoRatio then (c.steps o).divide base else base) p)).remainder f t).getD 0 = 0 := by
    intro f hf
    obtain ⟨h1, h2⟩ := hall f hf
    have e : ((if o.autoRatio then (c.steps o).divide base else base) p) =
        if o.autoRatio then chainDivide (c.fitOpts o p) (base p) else base p := by
      split_ifs <;> rfl
    rw [e, chainBandpass_zero _ _ _ _ f t hf (by
      split_ifs
      · exact chainDivide_zero _ _ _ _ (hzero f h1)
      · exact hzero f h1) h2]
    rfl
  have hpoly : ∃ e, c.polyfitTrim v (fun p f t => ((chainBandpass (c.fitOpts o p) v.freqs v.tiles
      ((if o.autoRatio then (c.steps o).divide base else base) p)).remainder f t).getD 0) = .error e := by
    unfold CalibrateIn.polyfitTrim
    obtain ⟨e, he⟩ := mapM_fails (fun p => (List.range c.run.nTile).mapM fun t =>
      polyTileTrim (complexFit c.fit) c.ampDeg c.phaseDeg v.freqs fun f => ((chainBandpass (c.fitOpts o p) v.freqs v.tiles
      ((if o.autoRatio then (c.steps o).divide base else base) p)).remainder f t).getD 0) (List.range c.run.nPol) p (by simpa using hpp)
      (mapM_fails _ _ t (by simpa using htn) ⟨_, C279_zero_raises (complexFit c.fit) hfit norm_zero _ _ _ hnd hd hlen _ hrem⟩)
    refine ⟨e, ?_⟩
    simp only [bind, Except.bind]
    rw [he]
  obtain ⟨e, he⟩ := hpoly
  have hfits : calFits { c.steps o with polyfit := c.polyfitTrim } o v base = .error e := by
    unfold calFits
    rw [if_pos hb]
    simp only [bind, Except.bind]
    have : (c.steps o).bandpass v (if o.autoRatio then (c.steps o).divide base else base) = .ok
      (fun p => (chainBandpass (c.fitOpts o p) v.freqs v.tiles ((if o.autoRatio then (c.steps o).divide base else base) p)).bandpass,
        fun p f t => ((chainBandpass (c.fitOpts o p) v.freqs v.tiles
          ((if o.autoRatio then (c.steps o).divide base else base) p)).remainder f t).getD 0) := rfl
    rw [this]
    simp only [hp, if_true]
    rw [he]
  rw [hv', hfits]
  exact ⟨e, rfl⟩

/-! ## Examples -/

/-- `C279_zero_raises` with the default degrees and four channels, and `C279_fits_partial` with amplitudes `f ^ 2 + 1`. -/
example : ∃ fit, LeastSquaresFit fit ∧
    polyTileTrim (complexFit fit) 0 0 [0, 1, 2, 3] (fun _ => 0) = .error .indexError ∧
    (complexFit fit).fit [0, 1, 2, 3] ([0, 1, 2, 3].map fun g : ℕ => (complexFit fit).mag ((g : ℂ) ^ 2 + 1)) (degreeOr 0 2) = [1, 0, 1] := by
  obtain ⟨fit, hfit⟩ := exists_leastSquaresFit
  refine ⟨fit, hfit, C279_zero_raises (complexFit fit) hfit norm_zero 0 0 [0, 1, 2, 3] (by decide) (by decide) (by decide) _ fun _ _ => rfl, ?_⟩
  have e : ([0, 1, 2, 3].map fun g : ℕ => (complexFit fit).mag ((g : ℂ) ^ 2 + 1)) = [0, 1, 2, 3].map fun x : ℕ => PolyAt [1, 0, 1] (x : ℝ) := by
    apply List.map_congr_left
    intro g _
    have : ((g : ℂ) ^ 2 + 1) = (((g : ℝ) ^ 2 + 1 : ℝ) : ℂ) := by push_cast; rfl
    show ‖(g : ℂ) ^ 2 + 1‖ = _
    rw [this, Complex.norm_real, Real.norm_eq_abs, abs_of_pos (by positivity)]
    simp [PolyAt, Finset.sum_range_succ]
    ring
  rw [e]
  exact fit_exact fit hfit _ _ (by decide) _ (by decide) (by decide)

/-- `C279_zero_line_partial` with three channels. -/
example : ∃ fit h, polyTileTrim (complexFit fit) 1 0 [0, 1, 2] (fun _ => 0) = .ok h ∧ h 7 = 0 := by
  obtain ⟨fit, hfit⟩ := exists_leastSquaresFit
  obtain ⟨h, h1, h2⟩ := C279_zero_line_partial (complexFit fit) hfit norm_zero Complex.ofReal_zero 0 rfl [0, 1, 2] (by decide) (by decide)
    (fun _ => 0) fun _ _ => rfl
  exact ⟨fit, h, h1, h2 7⟩

/-- Four tiles, all in use, three baselines to tile 0 and five times; the third baseline has data at the first time only. -/
noncomputable def exNoGain (fit : List ℕ → List ℝ → ℕ → List ℝ) : CalibrateIn :=
  { run :=
      { mag := fun z => ‖z‖, cast := fun x : ℝ => (x : ℂ), norm := fun _ _ => 0, nPol := 1, nFreq := 4, nTile := 4, nTime := 5, nBl := 3,
        vis := fun p f s => 4 * ((p + f + s + 1 : ℕ) : ℂ), model := fun p f s => ((p + f + s + 1 : ℕ) : ℂ)
        weight := fun _ _ s => if s % 3 = 2 ∧ s ≠ 2 then 0 else 1
        tileA := fun _ => 0, tileB := fun s => s % 3 + 1, tileUse := fun _ => true,
        freqUse := fun f => decide (f < 3), uu := fun _ => 0, vv := fun _ => 0, freq := fun _ => 1, kpix := 1, dimension := 1, elements := 1,
        minBaseline := 0, maxBaseline := 1, minCal := 0, maxCal := 0, timeAverage := false, gain := fun _ _ _ => 2, maxIter := 50,
        phaseFitIter := 0, thresh := 0, adaptive := false, base := 1, noRef := false }
    fit := fit, jump := false, ampDeg := 0, phaseDeg := 0, low := fun _ => false, cables := none, ratio := fun _ _ _ => 0, autoTiles := []
    autoInit := .error .valueError, flag := fun u _ => ⟨u.freqs, u.tiles.filter fun t => t ≠ 3⟩, autoFit := fun _ g => .ok g, nTimes := none }

theorem exNoGain_weight (fit : List ℕ → List ℝ → ℕ → List ℝ) (p f b : ℕ) :
    (exNoGain fit).run.blWeight p f b = if b % 3 = 2 ∧ b ≠ 2 then 0 else 1 := by
  by_cases h : b % 3 = 2 ∧ b ≠ 2
  · simp [CalRunIn.blWeight, CalRunIn.isCut, CalRunIn.samplesOf, CalRunIn.clip, CalRunIn.minLen, CalRunIn.maxLen, exNoGain, h]
  · simp [CalRunIn.blWeight, CalRunIn.isCut, CalRunIn.samplesOf, CalRunIn.clip, CalRunIn.minLen, CalRunIn.maxLen, exNoGain, h]

theorem exNoGain_pos (fit : List ℕ → List ℝ → ℕ → List ℝ) (p f b : ℕ) :
    0 < (exNoGain fit).run.blWeight p f b ↔ ¬ (b % 3 = 2 ∧ b ≠ 2) := by
  rw [exNoGain_weight]
  split_ifs with h <;> simp [h]

theorem exNoGain_bls (fit : List ℕ → List ℝ → ℕ → List ℝ) (p : ℕ) :
    (exNoGain fit).run.bls p = [0, 1, 2, 3, 4, 6, 7, 9, 10, 12, 13] := by
  unfold CalRunIn.bls
  simp only [exNoGain_weight]
  have e : ∀ b, decide (((List.range (exNoGain fit).run.nFreq).map fun _ => if b % 3 = 2 ∧ b ≠ 2 then (0 : ℝ) else 1).sum ≠ 0) =
      decide (¬ (b % 3 = 2 ∧ b ≠ 2)) := by
    intro b
    by_cases h : b % 3 = 2 ∧ b ≠ 2
    · simp [h, exNoGain]
    · simp only [h, exNoGain, if_false, not_false_eq_true, decide_true, decide_eq_true_eq]
      norm_num [List.range_succ]
  simp only [e]
  show (List.range 15).filter (fun b => decide (¬ (b % 3 = 2 ∧ b ≠ 2))) = _
  decide

theorem exNoGain_freqs (fit : List ℕ → List ℝ → ℕ → List ℝ) (p : ℕ) : (exNoGain fit).run.freqs p = [0, 1, 2] := by
  unfold CalRunIn.freqs
  have e : ∀ f, (exNoGain fit).run.blWeight p f = fun b => if b % 3 = 2 ∧ b ≠ 2 then 0 else 1 := fun f => funext (exNoGain_weight fit p f)
  simp only [e]
  have : (0 : ℝ) < ((List.range (exNoGain fit).run.nB).map fun b => if b % 3 = 2 ∧ b ≠ 2 then (0 : ℝ) else 1).sum := by
    show (0 : ℝ) < ((List.range 15).map fun b => if b % 3 = 2 ∧ b ≠ 2 then (0 : ℝ) else 1).sum
    norm_num [List.range_succ]
  simp only [this, decide_true, Bool.true_and]
  show (List.range 4).filter (fun f => decide (f < 3)) = _
  decide

theorem exNoGain_tiles (fit : List ℕ → List ℝ → ℕ → List ℝ) (p : ℕ) : (exNoGain fit).run.tiles p = [0, 1, 2, 3] := by
  unfold CalRunIn.tiles
  rw [exNoGain_bls]
  show solveTiles 4 ([0, 1, 2, 3, 4, 6, 7, 9, 10, 12, 13].map fun _ => 0) ([0, 1, 2, 3, 4, 6, 7, 9, 10, 12, 13].map fun s => s % 3 + 1)
    (fun _ => true) = _
  decide +kernel

theorem exNoGain_number (fit : List ℕ → List ℝ → ℕ → List ℝ) (p f t : ℕ) : baselinesOf (exNoGain fit).run p f t =
    ([0, 1, 2, 3, 4, 6, 7, 9, 10, 12, 13] : List ℕ).countP (fun _ => decide (0 = t)) +
      ([0, 1, 2, 3, 4, 6, 7, 9, 10, 12, 13] : List ℕ).countP (fun b => decide (b % 3 + 1 = t)) := by
  unfold baselinesOf
  rw [exNoGain_bls]
  congr 1
  all_goals
    apply List.countP_congr
    intro b hb
    have : ¬ (b % 3 = 2 ∧ b ≠ 2) := by
      revert b
      decide
    have h := (exNoGain_pos fit p f b).2 this
    simp [h]
    rfl

theorem exNoGain_flags (fit : List ℕ → List ℝ → ℕ → List ℝ) (p : ℕ) : FlagsAgree (exNoGain fit).run p := by
  unfold FlagsAgree
  rw [exNoGain_bls]
  show ∀ b ∈ ([0, 1, 2, 3, 4, 6, 7, 9, 10, 12, 13] : List ℕ), (0 < 4 ∧ true = true) ∧ b % 3 + 1 < 4 ∧ true = true
  decide

/-- The solver's gains, `2` for all tiles but tile 3 (zero). -/
theorem exNoGain_solved (fit : List ℕ → List ℝ → ℕ → List ℝ) :
    ∃ r, calRunPol (exNoGain fit).run 0 = .ok (some r) ∧ ∀ f ∈ [0, 1, 2], ∀ t ∈ [0, 1, 2, 3], r.gain f t = some (if t = 3 then 0 else 2) := by
  have h5 : ∀ t ∈ [0, 1, 2, 3], ∀ f, 5 ≤ baselinesOf (exNoGain fit).run 0 f t ↔ t ≠ 3 := by
    intro t ht f
    rw [exNoGain_number]
    revert t
    decide
  obtain ⟨r, h1, h2⟩ := C280_exact (exNoGain fit).run Complex.ofRealHom
    ⟨fun z => norm_nonneg z, fun z => by
      show Complex.ofRealHom (‖z‖ * ‖z‖) = _
      rw [Complex.ofRealHom_eq_coe, Complex.ofReal_mul, ← sq, Complex.star_def, Complex.conj_mul'], fun r => by simp⟩ rfl (by simp [exNoGain]) (by simp [exNoGain]) 0 (fun _ _ => 2)
    (by rw [exNoGain_tiles]; simp) (by rw [exNoGain_freqs]; simp) (exNoGain_flags fit 0)
    (fun f _ t _ _ => ⟨rfl, by norm_num⟩)
    (fun f _ b _ _ _ s _ _ => by simp only [exNoGain]; norm_num)
    (fun f _ t ht h => by
      rw [exNoGain_tiles] at ht
      have hne := (h5 t ht f).1 h
      have havg : ∀ b, (b = 0 ∨ b = 1) → (exNoGain fit).run.average 0 (exNoGain fit).run.model f b = ((0 + f + b + 1 : ℕ) : ℂ) := by
        intro b hb
        unfold CalRunIn.average
        rw [exNoGain_weight, if_neg (by rcases hb with rfl | rfl <;> decide)]
        rcases hb with rfl | rfl <;>
          simp [CalRunIn.samplesOf, CalRunIn.clip, exNoGain, invR, weightInvertEntry, npRecip]
      have hex : ∃ b, (b = 0 ∨ b = 1) ∧ (0 = t ∨ b % 3 + 1 = t) := by
        have ht' : t = 0 ∨ t = 1 ∨ t = 2 ∨ t = 3 := by simpa using ht
        rcases ht' with rfl | rfl | rfl | rfl
        · exact ⟨0, by decide, by decide⟩
        · exact ⟨0, by decide, by decide⟩
        · exact ⟨1, by decide, by decide⟩
        · exact absurd rfl hne
      obtain ⟨b, hb, hbt⟩ := hex
      refine ⟨b, by rw [exNoGain_bls]; rcases hb with rfl | rfl <;> decide, (exNoGain_pos fit 0 f b).2 (by rcases hb with rfl | rfl <;> decide),
        hbt, (h5 0 (by decide) f).2 (by decide), ?_, ?_⟩
      · rcases hb with rfl | rfl
        · exact (h5 1 (by decide) f).2 (by decide)
        · exact (h5 2 (by decide) f).2 (by decide)
      · rw [havg b hb]
        exact Nat.cast_ne_zero.2 (Nat.succ_ne_zero _))
    (fun f _ => by
      unfold NumbersDiffer
      rw [exNoGain_tiles]
      exact ⟨0, by simp, 1, by simp, by rw [exNoGain_number, exNoGain_number]; decide⟩)
    (fun _ f _ => by
      rw [exNoGain_tiles]
      exact (h5 _ (by decide) f).2 (by decide))
  refine ⟨r, h1, fun f hf t ht => ?_⟩
  rw [exNoGain_tiles, exNoGain_freqs] at h2
  obtain ⟨u, -, -, hu, hg⟩ := h2 f hf
  have hu1 : u = 1 := by
    have h := hu rfl
    have e : Complex.ofRealHom ((exNoGain fit).run.mag 2) = 2 := by
      show ((‖(2 : ℂ)‖ : ℝ) : ℂ) = 2
      norm_num
    rw [e] at h
    exact mul_left_cancel₀ (two_ne_zero (α := ℂ)) (h.trans (mul_one 2).symm)
  rw [hg t ht, hu1, mul_one]
  by_cases h : t = 3
  · rw [if_pos h, if_neg (fun h' => (h5 t ht f).1 h' h)]
  · rw [if_neg h, if_pos ((h5 t ht f).2 h)]

/-- `C279_calibrate_raises`: tile 3 has one baseline with data; the flagging removes it, and still nothing is returned. -/
example : ∃ fit, LeastSquaresFit fit ∧ ∃ e, calibrateTrim (exNoGain fit) ⟨false, true, true, false, true, false⟩ ⟨[0, 1, 2], [0, 1, 2, 3]⟩ = .error e := by
  obtain ⟨fit, hfit⟩ := exists_leastSquaresFit
  refine ⟨fit, hfit, C279_calibrate_raises (exNoGain fit) hfit _ rfl rfl _ (by simp [exNoGain]) 0 3 (by simp [exNoGain])
    (exNoGain_flags fit 0) (by simp [exNoGain]) (by rw [exNoGain_tiles]; decide) (fun f _ => by rw [exNoGain_number]; decide) ?_⟩
  intro g0 base v hg0 hbase hv
  have hv' : v = ⟨[0, 1, 2], [0, 1, 2]⟩ := hv
  subst hv'
  refine ⟨by decide, by simp [exNoGain, degreeOr], fun f hf => ⟨by rw [exNoGain_freqs]; exact hf, ?_⟩⟩
  have hg : g0 = (exNoGain fit).run.gain := by
    injection hg0 with h
    exact h.symm
  subst hg
  obtain ⟨r, hr1, hr2⟩ := exNoGain_solved fit
  have hb : base 0 = fun f t => (r.gain f t).getD 0 := by
    unfold CalibrateIn.solveStepOf at hbase
    have e : calRun (exNoGain fit).run = .ok (some ⟨[r], nVisCal (exNoGain fit).run⟩) := by
      unfold calRun
      have h1 : (List.range (exNoGain fit).run.nPol).mapM (calRunPol (exNoGain fit).run) = .ok [some r] := by
        show ([0] : List ℕ).mapM (calRunPol (exNoGain fit).run) = _
        rw [List.mapM_cons, hr1]
        rfl
      rw [h1]
      rfl
    have e' : calRun { (exNoGain fit).run with gain := (exNoGain fit).run.gain } = .ok (some ⟨[r], nVisCal (exNoGain fit).run⟩) := e
    rw [e'] at hbase
    injection hbase with hbase
    rw [← hbase]
    rfl
  have hval : ∀ f ∈ [0, 1, 2], ∀ t ∈ [0, 1, 2], ‖base 0 f t‖ = 2 := by
    intro f hf t ht
    rw [hb]
    simp only []
    rw [hr2 f hf t (by revert t; decide), if_neg (by rintro rfl; revert ht; decide)]
    simp
  show (chainBandpass ((exNoGain fit).fitOpts _ 0) [0, 1, 2] [0, 1, 2] (base 0)).bandpass f 3 ≠ 0
  have hone : bandpassSingle (fun z : ℂ => ‖z‖) rmeanTwo (base 0) [0, 1, 2] [0, 1, 2] f = 1 := by
    unfold bandpassSingle
    have h2 : ∀ t ∈ [0, 1, 2], rmeanTwo ([0, 1, 2].map fun f => ‖base 0 f t‖) = 2 := by
      intro t ht
      unfold rmeanTwo
      rw [resistantMean_same _ 2 (by simp)]
      · rfl
      · intro y hy
        obtain ⟨f, hf, rfl⟩ := List.mem_map.1 hy
        exact hval f hf t ht
    unfold rmeanTwo at h2 ⊢
    rw [resistantMean_same _ 1 (by simp)]
    · rfl
    · intro y hy
      obtain ⟨t, ht, rfl⟩ := List.mem_map.1 hy
      simp only []
      rw [h2 t ht, hval f hf t ht]
      norm_num
  have : (chainBandpass ((exNoGain fit).fitOpts ⟨false, true, true, false, true, false⟩ 0) [0, 1, 2] [0, 1, 2] (base 0)).bandpass f 3 =
      if f ∈ [0, 1, 2] then ((bandpassSingle (fun z : ℂ => ‖z‖) rmeanTwo (base 0) [0, 1, 2] [0, 1, 2] f : ℝ) : ℂ) else 0 := rfl
  have hf' : f ∈ [0, 1, 2] := hf
  rw [this, if_pos hf', hone]
  norm_num

end PyFHD
