import Verif.Props.CalibrateReflMore

/-!
# C290: relations between calls of `calibrate` with the fit of cable reflections
-/

namespace PyFHD

open Spec

theorem polyRefl_same (c : CalibrateIn) (run : CalRunIn ℂ ℝ) (hp : run.nPol = c.run.nPol) (ht : run.nTile = c.run.nTile)
    (hf : run.nFreq = c.run.nFreq) (o : CalOpts) (q : ReflTable) (v : InUse) (g : Gains) :
    (withRun c run).polyReflOf o q v g = c.polyReflOf o q v g := by
  have hq : (withRun c run).polyfitOf v g = c.polyfitOf v g := by
    unfold CalibrateIn.polyfitOf
    rw [show (withRun c run).run = run from rfl, hp, ht]
    rfl
  have hr : ∀ y p, (withRun c run).reflIn o q v g y p = c.reflIn o q v g y p := by
    intro y p
    unfold CalibrateIn.reflIn
    rw [show (withRun c run).run = run from rfl, ht, hf]
    rfl
  have hr' : (withRun c run).reflIn o q v g = c.reflIn o q v g := funext fun y => funext fun p => hr y p
  unfold CalibrateIn.polyReflOf CalibrateIn.polyVanish CalibrateIn.reflNumbers
  rw [hq, hr', show (withRun c run).run.nPol = c.run.nPol from hp]

/-- Two calls whose solvers find the same gains. -/
theorem calibrateRefl_same (c : CalibrateIn) (run : CalRunIn ℂ ℝ) (hp : run.nPol = c.run.nPol) (ht : run.nTile = c.run.nTile)
    (hf : run.nFreq = c.run.nFreq)
    (hg : run.gain = c.run.gain) (hs : ∀ g : Gains, calRun { run with gain := g } = calRun { c.run with gain := g })
    (hpol : 1 ≤ c.run.nPol ∧ c.run.nPol ≤ 2) (hAB : TilesExist c.run) (hAB' : TilesExist run) (o : CalOpts) (q : ReflTable) (u : InUse)
    (r : CalibrateOut) (hr : calibrateRefl c o q u = .ok r) :
    ∃ r', calibrateRefl (withRun c run) o q u = .ok r' ∧ SameSolution r r' ∧ ∀ p < c.run.nPol, ∀ f,
      (∀ s < c.run.nBl * c.run.nTime, r.vis p f s = if r.gain p f (c.run.tileA s) * star (r.gain p f (c.run.tileB s)) = 0 then 0
        else c.run.vis p f s / (r.gain p f (c.run.tileA s) * star (r.gain p f (c.run.tileB s)))) ∧
      ∀ s < run.nBl * run.nTime, r'.vis p f s = if r.gain p f (run.tileA s) * star (r.gain p f (run.tileB s)) = 0 then 0
        else run.vis p f s / (r.gain p f (run.tileA s) * star (r.gain p f (run.tileB s))) := by
  unfold calibrateRefl at hr
  simp only [bind, Except.bind] at hr
  cases hG : calibrateGains (c.reflSteps o q) o u with
  | error e => rw [hG] at hr; cases hr
  | ok out =>
    rw [hG] at hr
    obtain ⟨g0, base, g, H, h0, h1, h2, h3, rfl⟩ := calibrateGains_inv _ _ _ _ hG
    have h0' : calInit ((withRun c run).reflSteps o q) o = .ok g0 := by
      rw [← h0]
      unfold calInit
      split_ifs
      · rfl
      · show Except.ok run.gain = Except.ok c.run.gain
        rw [hg]
    have h1' : ((withRun c run).reflSteps o q).solve g0 = .ok base := by
      rw [← h1]
      show (withRun c run).solveStepOf g0 = c.solveStepOf g0
      unfold CalibrateIn.solveStepOf
      rw [show (withRun c run).run = run from rfl, hs]
    have h2' : calFits ((withRun c run).reflSteps o q) o
        (if o.flag then ((withRun c run).reflSteps o q).flag u base else u) base = .ok g := by
      rw [← h2]
      have hq : ((withRun c run).reflSteps o q).polyfit = (c.reflSteps o q).polyfit := by
        funext v g
        exact polyRefl_same c run hp ht hf o q v g
      unfold calFits
      rw [hq]
      rfl
    have hrun := calibrateGains_ok ((withRun c run).reflSteps o q) o u g0 base g H h0' h1' h2' h3
    obtain ⟨vis, e1, e2⟩ := applyIn_entry c hpol hAB H
    obtain ⟨vis', e1', e2'⟩ := applyIn_entry (withRun c run) (by rw [← hp] at hpol; exact hpol) hAB' H
    unfold calibrateRefl
    rw [hrun]
    simp only [bind, Except.bind] at hr ⊢
    rw [show (c.reflSteps o q).apply _ H = .ok (vis, none) from e1] at hr
    rw [show ((withRun c run).reflSteps o q).apply _ H = .ok (vis', none) from e1']
    cases hr
    exact ⟨_, rfl, ⟨rfl, rfl, rfl, rfl⟩, fun p hpl f => ⟨fun s hs => e2 p hpl f s hs, fun s hs => e2' p (by rw [← hp] at hpl; exact hpl) f s hs⟩⟩

/-- **C290**, with the fit of cable reflections: Data and model of flagged samples, of samples out of the limits and of channels not used for calibration have no influence on
the gains, residuals, flags and statistics that `calibrate` returns, nor on the calibrated data of other samples. -/
theorem C290_unused (c : CalibrateIn) (hcast : c.run.cast 0 = 0) (v m : ℕ → ℕ → ℕ → ℂ) (w : ℕ → ℕ → ℕ → ℝ)
    (h : ∀ p < c.run.nPol, ∀ f < c.run.nFreq, ∀ b < c.run.nB, ∀ s ∈ c.run.samplesOf b, c.run.isCut f b = true ∨
      w p f s = c.run.weight p f s ∧ (c.run.weight p f s ≤ 0 ∨ c.run.freqUse f = false ∨
        v p f s = c.run.vis p f s ∧ m p f s = c.run.model p f s))
    (hpol : 1 ≤ c.run.nPol ∧ c.run.nPol ≤ 2) (hAB : TilesExist c.run) (o : CalOpts) (q : ReflTable) (u : InUse) (r : CalibrateOut)
    (hr : calibrateRefl c o q u = .ok r) :
    ∃ r', calibrateRefl (withRun c (withData c.run v m w)) o q u = .ok r' ∧ SameSolution r r' ∧
      ∀ p < c.run.nPol, ∀ f, ∀ s < c.run.nBl * c.run.nTime, v p f s = c.run.vis p f s → r'.vis p f s = r.vis p f s := by
  obtain ⟨r', h1, h2, h3⟩ := calibrateRefl_same c (withData c.run v m w) rfl rfl rfl rfl
    (fun g => C126_ignored { c.run with gain := g } hcast v m w h hpol.1) hpol hAB hAB o q u r hr
  refine ⟨r', h1, h2, fun p hp f s hs hv => ?_⟩
  rw [(h3 p hp f).1 s hs, (h3 p hp f).2 s hs, show (withData c.run v m w).vis p f s = v p f s from rfl, hv]
  rfl

/-- **C290**, with the fit of cable reflections: Without averaging over time, the samples may be in any order: gains, residuals, flags and statistics are the same, and the
calibrated data are in the order of the data. -/
theorem C290_order (c : CalibrateIn) (ha : c.run.timeAverage = false) (σ : ℕ → ℕ)
    (hσ : ((List.range (c.run.nBl * c.run.nTime)).map σ).Perm (List.range (c.run.nBl * c.run.nTime)))
    (hpol : 1 ≤ c.run.nPol ∧ c.run.nPol ≤ 2) (hAB : TilesExist c.run) (o : CalOpts) (q : ReflTable) (u : InUse) (r : CalibrateOut)
    (hr : calibrateRefl c o q u = .ok r) :
    ∃ r', calibrateRefl (withRun c (reordered c.run σ)) o q u = .ok r' ∧ SameSolution r r' ∧
      ∀ p < c.run.nPol, ∀ f, ∀ s < c.run.nBl * c.run.nTime, r'.vis p f s = r.vis p f (σ s) := by
  have hlt : ∀ s < c.run.nBl * c.run.nTime, σ s < c.run.nBl * c.run.nTime := fun s hs =>
    List.mem_range.1 (hσ.mem_iff.1 (List.mem_map.2 ⟨s, List.mem_range.2 hs, rfl⟩))
  obtain ⟨r', h1, h2, h3⟩ := calibrateRefl_same c (reordered c.run σ) rfl rfl rfl rfl
    (fun g => C122_order { c.run with gain := g } ha σ hσ) hpol hAB (fun s hs => hAB (σ s) (hlt s hs)) o q u r hr
  refine ⟨r', h1, h2, fun p hp f s hs => ?_⟩
  rw [(h3 p hp f).1 (σ s) (hlt s hs), (h3 p hp f).2 s hs]
  rfl

/-- **C290**, with the fit of cable reflections: In other units of the data and the model (a factor that may depend on polarisation and channel), gains, residuals, flags and
statistics are the same, and the calibrated data are in these units. -/
theorem C290_units (c : CalibrateIn) (k : ℕ → ℕ → ℂ) (hk : ∀ p f, k p f ≠ 0) (hpol : 1 ≤ c.run.nPol ∧ c.run.nPol ≤ 2)
    (hAB : TilesExist c.run) (o : CalOpts) (q : ReflTable) (u : InUse) (r : CalibrateOut) (hr : calibrateRefl c o q u = .ok r) :
    ∃ r', calibrateRefl (withRun c (rescaled c.run k)) o q u = .ok r' ∧ SameSolution r r' ∧
      ∀ p < c.run.nPol, ∀ f, ∀ s < c.run.nBl * c.run.nTime, r'.vis p f s = k p f * r.vis p f s := by
  obtain ⟨r', h1, h2, h3⟩ := calibrateRefl_same c (rescaled c.run k) rfl rfl rfl rfl
    (fun g => C123_units { c.run with gain := g } k hk) hpol hAB hAB o q u r hr
  refine ⟨r', h1, h2, fun p hp f s hs => ?_⟩
  rw [(h3 p hp f).1 s hs, (h3 p hp f).2 s hs]
  show (if r.gain p f (c.run.tileA s) * star (r.gain p f (c.run.tileB s)) = 0 then 0
    else k p f * c.run.vis p f s / (r.gain p f (c.run.tileA s) * star (r.gain p f (c.run.tileB s)))) = _
  by_cases h0 : r.gain p f (c.run.tileA s) * star (r.gain p f (c.run.tileB s)) = 0
  · rw [if_pos h0, if_pos h0, mul_zero]
  · rw [if_neg h0, if_neg h0, mul_div_assoc]

/-- **C290**, with the fit of cable reflections: Baselines may be taken in the other direction: gains, residuals, flags and statistics are the same, and the calibrated data of
baselines that are turned round are the complex conjugates. -/
theorem C290_direction (c : CalibrateIn) (rev : ℕ → Bool) (hcast : ∀ r, star (c.run.cast r) = c.run.cast r)
    (hnorm : ∀ x y, c.run.norm (-x) (-y) = c.run.norm x y)
    (hrev : c.run.timeAverage = true → ∀ b < c.run.nBl, ∀ t < c.run.nTime, rev (t * c.run.nBl + b) = rev b)
    (hpol : 1 ≤ c.run.nPol ∧ c.run.nPol ≤ 2) (hAB : TilesExist c.run) (o : CalOpts) (q : ReflTable) (u : InUse) (r : CalibrateOut)
    (hr : calibrateRefl c o q u = .ok r) :
    ∃ r', calibrateRefl (withRun c (redirected c.run rev)) o q u = .ok r' ∧ SameSolution r r' ∧
      ∀ p < c.run.nPol, ∀ f, ∀ s < c.run.nBl * c.run.nTime, r'.vis p f s = if rev s then star (r.vis p f s) else r.vis p f s := by
  obtain ⟨r', h1, h2, h3⟩ := calibrateRefl_same c (redirected c.run rev) rfl rfl rfl rfl
    (fun g => C245_direction { c.run with gain := g } rev hcast hnorm hrev) hpol hAB (fun s hs => by
      have := hAB s hs
      simp only [redirected]
      cases rev s
      · exact this
      · exact ⟨this.2, this.1⟩) o q u r hr
  refine ⟨r', h1, h2, fun p hp f s hs => ?_⟩
  rw [(h3 p hp f).1 s hs, (h3 p hp f).2 s hs]
  cases hv : rev s with
  | false =>
    have ea : (redirected c.run rev).tileA s = c.run.tileA s := by simp [redirected, hv]
    have eb : (redirected c.run rev).tileB s = c.run.tileB s := by simp [redirected, hv]
    have ev : (redirected c.run rev).vis p f s = c.run.vis p f s := by simp [redirected, hv]
    rw [ea, eb, ev]
    simp
  | true =>
    have ea : (redirected c.run rev).tileA s = c.run.tileB s := by simp [redirected, hv]
    have eb : (redirected c.run rev).tileB s = c.run.tileA s := by simp [redirected, hv]
    have ev : (redirected c.run rev).vis p f s = star (c.run.vis p f s) := by simp [redirected, hv]
    rw [ea, eb, ev, if_pos rfl]
    set a := r.gain p f (c.run.tileA s)
    set b := r.gain p f (c.run.tileB s)
    by_cases h0 : a * star b = 0
    · have : b * star a = 0 := by
        have := congrArg star h0
        simpa [mul_comm] using this
      rw [if_pos h0, if_pos this, star_zero]
    · have : b * star a ≠ 0 := by
        intro h
        apply h0
        have := congrArg star h
        simpa [mul_comm] using this
      rw [if_neg h0, if_neg this, Complex.star_def, map_div₀, map_mul]
      congr 1
      rw [← Complex.star_def, star_star, mul_comm]

/-! ## Examples -/

/-- In other units the calibrated value 12 of `exCalibrate` is 36; turned round it is its conjugate; without channel 3 nothing changes. -/
example : ∃ fit, LeastSquaresFit fit ∧ ∃ r, calibrateRefl (withRun (exCalibrate fit) (rescaled (exCalibrate fit).run fun _ _ => 3))
    ⟨false, false, true, false, true, false⟩ exTable ⟨[0, 1, 2], [0, 1, 2]⟩ = .ok r ∧ r.vis 1 2 8 = 36 := by
  obtain ⟨fit, hfit, r, h1, h2, -⟩ := exRefl_ok
  obtain ⟨r', h3, -, h4⟩ := C290_units (exCalibrate fit) (fun _ _ => 3) (by simp) (by simp [exCalibrate]) (exCalibrate_exist fit) _ exTable _ r h1
  exact ⟨fit, hfit, r', h3, by rw [h4 1 (by simp [exCalibrate]) 2 8 (by simp [exCalibrate]), h2]; norm_num⟩

/-- Taken in the reverse order the value of sample 8 is that of sample 1. -/
example : ∃ fit, LeastSquaresFit fit ∧ ∃ r, calibrateRefl (withRun (exCalibrate fit) (reordered (exCalibrate fit).run fun s => 9 - s))
    ⟨false, false, true, false, true, false⟩ exTable ⟨[0, 1, 2], [0, 1, 2]⟩ = .ok r ∧ r.vis 1 2 1 = 12 := by
  obtain ⟨fit, hfit, r, h1, h2, -⟩ := exRefl_ok
  obtain ⟨r', h3, -, h4⟩ := C290_order (exCalibrate fit) rfl (fun s => 9 - s) (by
    show ((List.range 10).map fun s => 9 - s).Perm (List.range 10)
    decide) (by simp [exCalibrate]) (exCalibrate_exist fit) _ exTable _ r h1
  exact ⟨fit, hfit, r', h3, by rw [h4 1 (by simp [exCalibrate]) 2 1 (by simp [exCalibrate])]; exact h2⟩

/-- Channel 3, which is not used for calibration, may have any data. -/
example : ∃ fit, LeastSquaresFit fit ∧ ∃ r, calibrateRefl (withRun (exCalibrate fit) (withData (exCalibrate fit).run
      (fun p f s => if f = 3 then 99 else (exCalibrate fit).run.vis p f s) (exCalibrate fit).run.model (exCalibrate fit).run.weight))
    ⟨false, false, true, false, true, false⟩ exTable ⟨[0, 1, 2], [0, 1, 2]⟩ = .ok r ∧ r.vis 1 2 8 = 12 := by
  obtain ⟨fit, hfit, r, h1, h2, -⟩ := exRefl_ok
  obtain ⟨r', h3, -, h4⟩ := C290_unused (exCalibrate fit) (by simp [exCalibrate])
    (fun p f s => if f = 3 then 99 else (exCalibrate fit).run.vis p f s) (exCalibrate fit).run.model (exCalibrate fit).run.weight
    (fun p _ f _ b _ s _ => Or.inr ⟨rfl, Or.inr (by
      by_cases hf : f = 3
      · subst hf
        exact Or.inl (by simp [exCalibrate])
      · exact Or.inr ⟨if_neg hf, rfl⟩)⟩) (by simp [exCalibrate]) (exCalibrate_exist fit) _ exTable _ r h1
  exact ⟨fit, hfit, r', h3, by rw [h4 1 (by simp [exCalibrate]) 2 8 (by simp [exCalibrate]) (if_neg (by decide))]; exact h2⟩

/-- The direction of all baselines may be turned round. -/
example : ∃ fit, LeastSquaresFit fit ∧ ∃ r, calibrateRefl (withRun (exCalibrate fit) (redirected (exCalibrate fit).run fun _ => true))
    ⟨false, false, true, false, true, false⟩ exTable ⟨[0, 1, 2], [0, 1, 2]⟩ = .ok r ∧ r.vis 1 2 8 = star 12 := by
  obtain ⟨fit, hfit, r, h1, h2, -⟩ := exRefl_ok
  obtain ⟨r', h3, -, h4⟩ := C290_direction (exCalibrate fit) (fun _ => true) (fun r => by simp [exCalibrate]) (fun _ _ => rfl)
    (fun _ _ _ _ _ => rfl) (by simp [exCalibrate]) (exCalibrate_exist fit) _ exTable _ r h1
  exact ⟨fit, hfit, r', h3, by rw [h4 1 (by simp [exCalibrate]) 2 8 (by simp [exCalibrate]), h2]; rfl⟩

end PyFHD
