import Verif.Props.Calibrate
import Verif.Props.RelationsFourth

/-!
# Relations between calls of `calibrate` (C274-C277)
-/

namespace PyFHD

open Spec

namespace Spec

/-- The same call with other data. -/
def withRun (c : CalibrateIn) (r : CalRunIn ℂ ℝ) : CalibrateIn := { c with run := r }

/-- Two results of `calibrate` with the same gains, residuals, flags and statistics. -/
def SameSolution (r r' : CalibrateOut) : Prop :=
  r'.gain = r.gain ∧ r'.residual = r.residual ∧ r'.inUse = r.inUse ∧ r'.stats = r.stats

/-- The tiles of the samples exist. -/
def TilesExist (c : CalRunIn ℂ ℝ) : Prop := ∀ s < c.nBl * c.nTime, c.tileA s < c.nTile ∧ c.tileB s < c.nTile

end Spec

/-- If the solver finds the same gains, all gains of `calibrate` are the same. -/
theorem calibrateGains_same (c : CalibrateIn) (r : CalRunIn ℂ ℝ) (hp : r.nPol = c.run.nPol) (ht : r.nTile = c.run.nTile)
    (hg : r.gain = c.run.gain) (hs : ∀ g : Gains, calRun { r with gain := g } = calRun { c.run with gain := g }) (o : CalOpts) (u : InUse) :
    calibrateGains ((withRun c r).steps o) o u =
      (calibrateGains (c.steps o) o u).map fun x => (visCalibrationApply ((withRun c r).applyIn x.2.2.1), x.2) := by
  have h1 : calInit ((withRun c r).steps o) o = calInit (c.steps o) o := by
    unfold calInit
    split_ifs
    · rfl
    · show Except.ok r.gain = Except.ok c.run.gain
      rw [hg]
  have h2 : ∀ g, ((withRun c r).steps o).solve g = (c.steps o).solve g := by
    intro g
    show (withRun c r).solveStepOf g = c.solveStepOf g
    unfold CalibrateIn.solveStepOf
    rw [show (withRun c r).run = r from rfl, hs]
  have h3 : ∀ v B, calFits ((withRun c r).steps o) o v B = calFits (c.steps o) o v B := by
    intro v B
    have hq : ((withRun c r).steps o).polyfit = (c.steps o).polyfit := by
      funext v g
      show (withRun c r).polyfitOf v g = c.polyfitOf v g
      unfold CalibrateIn.polyfitOf
      rw [show (withRun c r).run = r from rfl, hp, ht]
      rfl
    unfold calFits
    rw [hq]
    rfl
  have h4 : ∀ v H, calAuto ((withRun c r).steps o) o v H = calAuto (c.steps o) o v H := fun _ _ => rfl
  unfold calibrateGains
  rw [h1]
  cases calInit (c.steps o) o with
  | error e => rfl
  | ok g0 =>
    simp only [bind, Except.bind]
    rw [h2]
    cases (c.steps o).solve g0 with
    | error e => rfl
    | ok B =>
      simp only
      rw [show ((withRun c r).steps o).flag = (c.steps o).flag from rfl, h3]
      cases calFits (c.steps o) o (if o.flag = true then (c.steps o).flag u B else u) B with
      | error e => rfl
      | ok G =>
        simp only
        rw [h4]
        cases calAuto (c.steps o) o (if o.flag = true then (c.steps o).flag u B else u) G with
        | error e => rfl
        | ok H => rfl

/-- The data that `calibrate` returns, from its gains. -/
theorem applyIn_entry (c : CalibrateIn) (hpol : 1 ≤ c.run.nPol ∧ c.run.nPol ≤ 2) (hAB : TilesExist c.run) (H : Gains) :
    ∃ vis, visCalibrationApply (c.applyIn H) = .ok (vis, none) ∧ ∀ p < c.run.nPol, ∀ f, ∀ s < c.run.nBl * c.run.nTime,
      vis p f s = if H p f (c.run.tileA s) * star (H p f (c.run.tileB s)) = 0 then 0
        else c.run.vis p f s / (H p f (c.run.tileA s) * star (H p f (c.run.tileB s))) := by
  obtain ⟨vis, hv1, hv2⟩ := apply_entry_of (c.applyIn H) (fun w => norm_eq_zero)
    (by
      intro t ht
      obtain ⟨s, hs, rfl⟩ := List.mem_map.1 ht
      have := (hAB s (List.mem_range.1 hs)).1
      simp only [CalibrateIn.applyIn]
      omega)
    (by
      intro t ht
      obtain ⟨s, hs, rfl⟩ := List.mem_map.1 ht
      have := (hAB s (List.mem_range.1 hs)).2
      simp only [CalibrateIn.applyIn]
      omega)
    (by simp only [CalibrateIn.applyIn]; omega) (by simp only [CalibrateIn.applyIn]; omega)
    (Or.inl (by simp only [CalibrateIn.applyIn]; omega))
  refine ⟨vis, hv1, fun p hp f s hs => ?_⟩
  have hgp : gainPair p = (p, p) := by
    have : p = 0 ∨ p = 1 := by omega
    rcases this with rfl | rfl <;> rfl
  have ev := hv2 p hp f s ((c.run.tileA s : ℤ) + 1) ((c.run.tileB s : ℤ) + 1)
    (by simp [CalibrateIn.applyIn, List.getElem?_range hs]) (by simp [CalibrateIn.applyIn, List.getElem?_range hs])
  simp only [hgp, add_sub_cancel_right, Int.toNat_natCast] at ev
  exact ev

/-- Two calls whose solvers find the same gains. -/
theorem calibrateAll_same (c : CalibrateIn) (run : CalRunIn ℂ ℝ) (hp : run.nPol = c.run.nPol) (ht : run.nTile = c.run.nTile)
    (hg : run.gain = c.run.gain) (hs : ∀ g : Gains, calRun { run with gain := g } = calRun { c.run with gain := g })
    (hpol : 1 ≤ c.run.nPol ∧ c.run.nPol ≤ 2) (hAB : TilesExist c.run) (hAB' : TilesExist run) (o : CalOpts) (u : InUse) (r : CalibrateOut)
    (hr : calibrateAll c o u = .ok r) :
    ∃ r', calibrateAll (withRun c run) o u = .ok r' ∧ SameSolution r r' ∧ ∀ p < c.run.nPol, ∀ f,
      (∀ s < c.run.nBl * c.run.nTime, r.vis p f s = if r.gain p f (c.run.tileA s) * star (r.gain p f (c.run.tileB s)) = 0 then 0
        else c.run.vis p f s / (r.gain p f (c.run.tileA s) * star (r.gain p f (c.run.tileB s)))) ∧
      ∀ s < run.nBl * run.nTime, r'.vis p f s = if r.gain p f (run.tileA s) * star (r.gain p f (run.tileB s)) = 0 then 0
        else run.vis p f s / (r.gain p f (run.tileA s) * star (r.gain p f (run.tileB s))) := by
  have hgain := calibrateGains_same c run hp ht hg hs o u
  unfold calibrateAll at hr ⊢
  rw [hgain]
  cases hG : calibrateGains (c.steps o) o u with
  | error e => rw [hG] at hr; cases hr
  | ok x =>
    rw [hG] at hr
    obtain ⟨v, u', H, res⟩ := x
    have hv : v = visCalibrationApply (c.applyIn H) := by
      unfold calibrateGains at hG
      cases h0 : calInit (c.steps o) o with
      | error e => rw [h0] at hG; cases hG
      | ok g0 =>
        rw [h0] at hG
        simp only [bind, Except.bind] at hG
        cases h1 : (c.steps o).solve g0 with
        | error e => rw [h1] at hG; cases hG
        | ok B =>
          rw [h1] at hG
          simp only at hG
          cases h2 : calFits (c.steps o) o (if o.flag = true then (c.steps o).flag u B else u) B with
          | error e => rw [h2] at hG; cases hG
          | ok G =>
            rw [h2] at hG
            simp only at hG
            cases h3 : calAuto (c.steps o) o (if o.flag = true then (c.steps o).flag u B else u) G with
            | error e => rw [h3] at hG; cases hG
            | ok H' =>
              rw [h3] at hG
              simp only [Except.ok.injEq, Prod.mk.injEq] at hG
              obtain ⟨e1, -, e2, -⟩ := hG
              rw [← e1, ← e2]
              rfl
    obtain ⟨vis, h1, h2⟩ := applyIn_entry c hpol hAB H
    obtain ⟨vis', h1', h2'⟩ := applyIn_entry (withRun c run) (by rw [← hp] at hpol; exact hpol) hAB' H
    simp only [bind, Except.bind, hv, h1] at hr
    cases hr
    simp only [Except.map, bind, Except.bind, h1']
    exact ⟨_, rfl, ⟨rfl, rfl, rfl, rfl⟩, fun p hpl f => ⟨fun s hs => h2 p hpl f s hs, fun s hs => h2' p (by rw [← hp] at hpl; exact hpl) f s hs⟩⟩

/-- **C274.** Data and model of flagged samples, of samples out of the limits and of channels not used for calibration have no influence on
the gains, residuals, flags and statistics that `calibrate` returns, nor on the calibrated data of other samples. -/
theorem C274_unused (c : CalibrateIn) (hcast : c.run.cast 0 = 0) (v m : ℕ → ℕ → ℕ → ℂ) (w : ℕ → ℕ → ℕ → ℝ)
    (h : ∀ p < c.run.nPol, ∀ f < c.run.nFreq, ∀ b < c.run.nB, ∀ s ∈ c.run.samplesOf b, c.run.isCut f b = true ∨
      w p f s = c.run.weight p f s ∧ (c.run.weight p f s ≤ 0 ∨ c.run.freqUse f = false ∨
        v p f s = c.run.vis p f s ∧ m p f s = c.run.model p f s))
    (hpol : 1 ≤ c.run.nPol ∧ c.run.nPol ≤ 2) (hAB : TilesExist c.run) (o : CalOpts) (u : InUse) (r : CalibrateOut)
    (hr : calibrateAll c o u = .ok r) :
    ∃ r', calibrateAll (withRun c (withData c.run v m w)) o u = .ok r' ∧ SameSolution r r' ∧
      ∀ p < c.run.nPol, ∀ f, ∀ s < c.run.nBl * c.run.nTime, v p f s = c.run.vis p f s → r'.vis p f s = r.vis p f s := by
  obtain ⟨r', h1, h2, h3⟩ := calibrateAll_same c (withData c.run v m w) rfl rfl rfl
    (fun g => C126_ignored { c.run with gain := g } hcast v m w h hpol.1) hpol hAB hAB o u r hr
  refine ⟨r', h1, h2, fun p hp f s hs hv => ?_⟩
  rw [(h3 p hp f).1 s hs, (h3 p hp f).2 s hs, show (withData c.run v m w).vis p f s = v p f s from rfl, hv]
  rfl

/-- **C275.** Without averaging over time, the samples may be in any order: gains, residuals, flags and statistics are the same, and the
calibrated data are in the order of the data. -/
theorem C275_order (c : CalibrateIn) (ha : c.run.timeAverage = false) (σ : ℕ → ℕ)
    (hσ : ((List.range (c.run.nBl * c.run.nTime)).map σ).Perm (List.range (c.run.nBl * c.run.nTime)))
    (hpol : 1 ≤ c.run.nPol ∧ c.run.nPol ≤ 2) (hAB : TilesExist c.run) (o : CalOpts) (u : InUse) (r : CalibrateOut)
    (hr : calibrateAll c o u = .ok r) :
    ∃ r', calibrateAll (withRun c (reordered c.run σ)) o u = .ok r' ∧ SameSolution r r' ∧
      ∀ p < c.run.nPol, ∀ f, ∀ s < c.run.nBl * c.run.nTime, r'.vis p f s = r.vis p f (σ s) := by
  have hlt : ∀ s < c.run.nBl * c.run.nTime, σ s < c.run.nBl * c.run.nTime := fun s hs =>
    List.mem_range.1 (hσ.mem_iff.1 (List.mem_map.2 ⟨s, List.mem_range.2 hs, rfl⟩))
  obtain ⟨r', h1, h2, h3⟩ := calibrateAll_same c (reordered c.run σ) rfl rfl rfl
    (fun g => C122_order { c.run with gain := g } ha σ hσ) hpol hAB (fun s hs => hAB (σ s) (hlt s hs)) o u r hr
  refine ⟨r', h1, h2, fun p hp f s hs => ?_⟩
  rw [(h3 p hp f).1 (σ s) (hlt s hs), (h3 p hp f).2 s hs]
  rfl

/-- **C276.** In other units of the data and the model (a factor that may depend on polarisation and channel), gains, residuals, flags and
statistics are the same, and the calibrated data are in these units. -/
theorem C276_units (c : CalibrateIn) (k : ℕ → ℕ → ℂ) (hk : ∀ p f, k p f ≠ 0) (hpol : 1 ≤ c.run.nPol ∧ c.run.nPol ≤ 2)
    (hAB : TilesExist c.run) (o : CalOpts) (u : InUse) (r : CalibrateOut) (hr : calibrateAll c o u = .ok r) :
    ∃ r', calibrateAll (withRun c (rescaled c.run k)) o u = .ok r' ∧ SameSolution r r' ∧
      ∀ p < c.run.nPol, ∀ f, ∀ s < c.run.nBl * c.run.nTime, r'.vis p f s = k p f * r.vis p f s := by
  obtain ⟨r', h1, h2, h3⟩ := calibrateAll_same c (rescaled c.run k) rfl rfl rfl
    (fun g => C123_units { c.run with gain := g } k hk) hpol hAB hAB o u r hr
  refine ⟨r', h1, h2, fun p hp f s hs => ?_⟩
  rw [(h3 p hp f).1 s hs, (h3 p hp f).2 s hs]
  show (if r.gain p f (c.run.tileA s) * star (r.gain p f (c.run.tileB s)) = 0 then 0
    else k p f * c.run.vis p f s / (r.gain p f (c.run.tileA s) * star (r.gain p f (c.run.tileB s)))) = _
  by_cases h0 : r.gain p f (c.run.tileA s) * star (r.gain p f (c.run.tileB s)) = 0
  · rw [if_pos h0, if_pos h0, mul_zero]
  · rw [if_neg h0, if_neg h0, mul_div_assoc]

/-- **C277.** Baselines may be taken in the other direction: gains, residuals, flags and statistics are the same, and the calibrated data of
baselines that are turned round are the complex conjugates. -/
theorem C277_direction (c : CalibrateIn) (rev : ℕ → Bool) (hcast : ∀ r, star (c.run.cast r) = c.run.cast r)
    (hnorm : ∀ x y, c.run.norm (-x) (-y) = c.run.norm x y)
    (hrev : c.run.timeAverage = true → ∀ b < c.run.nBl, ∀ t < c.run.nTime, rev (t * c.run.nBl + b) = rev b)
    (hpol : 1 ≤ c.run.nPol ∧ c.run.nPol ≤ 2) (hAB : TilesExist c.run) (o : CalOpts) (u : InUse) (r : CalibrateOut)
    (hr : calibrateAll c o u = .ok r) :
    ∃ r', calibrateAll (withRun c (redirected c.run rev)) o u = .ok r' ∧ SameSolution r r' ∧
      ∀ p < c.run.nPol, ∀ f, ∀ s < c.run.nBl * c.run.nTime, r'.vis p f s = if rev s then star (r.vis p f s) else r.vis p f s := by
  obtain ⟨r', h1, h2, h3⟩ := calibrateAll_same c (redirected c.run rev) rfl rfl rfl
    (fun g => C245_direction { c.run with gain := g } rev hcast hnorm hrev) hpol hAB (fun s hs => by
      have := hAB s hs
      simp only [redirected]
      cases rev s
      · exact this
      · exact ⟨this.2, this.1⟩) o u r hr
  refine ⟨r', h1, h2, fun p hp f s hs => ?_⟩
  rw [(h3 p hp f).1 s hs, (h3 p hp f).2 s hs]
  cases hv : rev s with
  | false =>
    have ea : (redirected c.run rev).tileA s = c.run.tileA s := by simp [redirected, hv]
    have eb : (redirected c.run rev).tileB s = c.run.tileB s := by simp [redirected, hv]
    have ev : (redirected c.run rev).vis p f s = c.run.vis p f s := by simp [redirected, hv]
    rw [ea, eb, ev]
    simp
  | true =>
    have ea : (redirected c.run rev).tileA s = c.run.tileB s := by simp [redirected, hv]
    have eb : (redirected c.run rev).tileB s = c.run.tileA s := by simp [redirected, hv]
    have ev : (redirected c.run rev).vis p f s = star (c.run.vis p f s) := by simp [redirected, hv]
    rw [ea, eb, ev, if_pos rfl]
    set a := r.gain p f (c.run.tileA s)
    set b := r.gain p f (c.run.tileB s)
    by_cases h0 : a * star b = 0
    · have : b * star a = 0 := by
        have := congrArg star h0
        simpa [mul_comm] using this
      rw [if_pos h0, if_pos this, star_zero]
    · have : b * star a ≠ 0 := by
        intro h
        apply h0
        have := congrArg star h
        simpa [mul_comm] using this
      rw [if_neg h0, if_neg this, Complex.star_def, map_div₀, map_mul]
      congr 1
      rw [← Complex.star_def, star_star, mul_comm]

/-! ## Examples -/

theorem exCalibrate_exist (fit : List ℕ → List ℝ → ℕ → List ℝ) : TilesExist (exCalibrate fit).run := by
  intro s _
  simp only [exCalibrate]
  refine ⟨by norm_num, ?_⟩
  split_ifs <;> norm_num

/-- In other units the calibrated value 12 of `exCalibrate` is 36; turned round it is its conjugate; without channel 3 nothing changes. -/
example : ∃ fit, LeastSquaresFit fit ∧ ∃ r, calibrateAll (withRun (exCalibrate fit) (rescaled (exCalibrate fit).run fun _ _ => 3))
    ⟨false, false, true, false, true, false⟩ ⟨[0, 1, 2], [0, 1, 2]⟩ = .ok r ∧ r.vis 1 2 8 = 36 := by
  obtain ⟨fit, hfit, r, h1, h2, -⟩ := exCalibrate_ok
  obtain ⟨r', h3, -, h4⟩ := C276_units (exCalibrate fit) (fun _ _ => 3) (by simp) (by simp [exCalibrate]) (exCalibrate_exist fit) _ _ r h1
  exact ⟨fit, hfit, r', h3, by rw [h4 1 (by simp [exCalibrate]) 2 8 (by simp [exCalibrate]), h2]; norm_num⟩

/-- Taken in the reverse order the value of sample 8 is that of sample 1. -/
example : ∃ fit, LeastSquaresFit fit ∧ ∃ r, calibrateAll (withRun (exCalibrate fit) (reordered (exCalibrate fit).run fun s => 9 - s))
    ⟨false, false, true, false, true, false⟩ ⟨[0, 1, 2], [0, 1, 2]⟩ = .ok r ∧ r.vis 1 2 1 = 12 := by
  obtain ⟨fit, hfit, r, h1, h2, -⟩ := exCalibrate_ok
  obtain ⟨r', h3, -, h4⟩ := C275_order (exCalibrate fit) rfl (fun s => 9 - s) (by
    show ((List.range 10).map fun s => 9 - s).Perm (List.range 10)
    decide) (by simp [exCalibrate]) (exCalibrate_exist fit) _ _ r h1
  exact ⟨fit, hfit, r', h3, by rw [h4 1 (by simp [exCalibrate]) 2 1 (by simp [exCalibrate])]; exact h2⟩

/-- Channel 3, which is not used for calibration, may have any data. -/
example : ∃ fit, LeastSquaresFit fit ∧ ∃ r, calibrateAll (withRun (exCalibrate fit) (withData (exCalibrate fit).run
      (fun p f s => if f = 3 then 99 else (exCalibrate fit).run.vis p f s) (exCalibrate fit).run.model (exCalibrate fit).run.weight))
    ⟨false, false, true, false, true, false⟩ ⟨[0, 1, 2], [0, 1, 2]⟩ = .ok r ∧ r.vis 1 2 8 = 12 := by
  obtain ⟨fit, hfit, r, h1, h2, -⟩ := exCalibrate_ok
  obtain ⟨r', h3, -, h4⟩ := C274_unused (exCalibrate fit) (by simp [exCalibrate])
    (fun p f s => if f = 3 then 99 else (exCalibrate fit).run.vis p f s) (exCalibrate fit).run.model (exCalibrate fit).run.weight
    (fun p _ f _ b _ s _ => Or.inr ⟨rfl, Or.inr (by
      by_cases hf : f = 3
      · subst hf
        exact Or.inl (by simp [exCalibrate])
      · exact Or.inr ⟨if_neg hf, rfl⟩)⟩) (by simp [exCalibrate]) (exCalibrate_exist fit) _ _ r h1
  exact ⟨fit, hfit, r', h3, by rw [h4 1 (by simp [exCalibrate]) 2 8 (by simp [exCalibrate]) (if_neg (by decide))]; exact h2⟩

/-- The direction of all baselines may be turned round. -/
example : ∃ fit, LeastSquaresFit fit ∧ ∃ r, calibrateAll (withRun (exCalibrate fit) (redirected (exCalibrate fit).run fun _ => true))
    ⟨false, false, true, false, true, false⟩ ⟨[0, 1, 2], [0, 1, 2]⟩ = .ok r ∧ r.vis 1 2 8 = star 12 := by
  obtain ⟨fit, hfit, r, h1, h2, -⟩ := exCalibrate_ok
  obtain ⟨r', h3, -, h4⟩ := C277_direction (exCalibrate fit) (fun _ => true) (fun r => by simp [exCalibrate]) (fun _ _ => rfl)
    (fun _ _ _ _ _ => rfl) (by simp [exCalibrate]) (exCalibrate_exist fit) _ _ r h1
  exact ⟨fit, hfit, r', h3, by rw [h4 1 (by simp [exCalibrate]) 2 8 (by simp [exCalibrate]), h2]; rfl⟩

end PyFHD
