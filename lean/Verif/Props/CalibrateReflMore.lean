import Verif.Props.CalibrateReflect
import Verif.Props.CalibrateRenumber
import Verif.Props.ReflectRenumber

/-!
# C289: exact gains and the numbers of the tiles in `calibrate` with the fit of cable reflections
-/

namespace PyFHD

open Spec

/-! ## Numbers of the tiles -/

/-- `q'` is the table of cables `q` with tile `t` called `π t`. -/
structure Spec.RenamedTable (π : Equiv.Perm ℕ) (q q' : ReflTable) : Prop where
  c0 : q'.c0 = q.c0
  freqs : q'.freqs = q.freqs
  theory : q'.theory = q.theory
  cable : ∀ t, q'.cable (π t) = q.cable t

section

variable {π : Equiv.Perm ℕ}

theorem sameUse_mem {u u' : InUse} (hu : SameUse π u u') (t : ℕ) : π t ∈ u'.tiles ↔ t ∈ u.tiles := by
  rw [hu.2.mem_iff, List.mem_map]
  constructor
  · rintro ⟨s, hs, he⟩
    rw [← π.injective he]
    exact hs
  · exact fun h => ⟨t, h, rfl⟩

theorem reflIn_renamed {c c' : CalibrateIn} (h : RenamedCal π c c') (hπ : ∀ t, π t < c.run.nTile ↔ t < c.run.nTile) (o : CalOpts)
    {q q' : ReflTable} (hq : RenamedTable π q q') {u u' : InUse} (hu : SameUse π u u') (g y : Gains) (p : ℕ) :
    RenamedRefl π (c.reflIn o q u g y p) (c'.reflIn o q' u' (renamed π g) (renamed π y) p) where
  N := by show c'.run.nFreq = c.run.nFreq; rw [h.run]; rfl
  nTile := by show c'.run.nTile = c.run.nTile; rw [h.run]; rfl
  inside := hπ
  fs := hu.1
  use t := by
    show decide (π t ∈ u'.tiles) = decide (t ∈ u.tiles)
    rw [decide_eq_decide]
    exact sameUse_mem hu t
  mode t := by
    show nominalMode q'.c0 q'.freqs q'.theory o.autoRatio (q'.cable (π t)) = nominalMode q.c0 q.freqs q.theory o.autoRatio (q.cable t)
    rw [hq.c0, hq.freqs, hq.theory, hq.cable]
  gain f t := renamed_apply π y p f t
  res f t := by
    show renamed π g p f (π t) / renamed π y p f (π t) = _
    rw [renamed_apply, renamed_apply]
    rfl
  autos := by
    simp only [CalibrateIn.reflIn]
    split_ifs
    · simp only [Option.map_some, Option.some.injEq]
      funext f t
      have := h.ratio p f (π.symm t)
      rw [Equiv.apply_symm_apply] at this
      rw [this]
    · rfl

theorem polyRefl_renamed {c c' : CalibrateIn} (h : RenamedCal π c c') (hπ : ∀ t, π t < c.run.nTile ↔ t < c.run.nTile)
    (hN : 0 < c.run.nFreq) (o : CalOpts) {q q' : ReflTable} (hq : RenamedTable π q q') :
    PolyRenamed π (c.polyReflOf o q) (c'.polyReflOf o q') := by
  intro u u' hu g x hx
  unfold CalibrateIn.polyReflOf at hx ⊢
  simp only [bind, Except.bind] at hx ⊢
  cases hy : c.polyfitOf u g with
  | error e => rw [hy] at hx; cases hx
  | ok y =>
    rw [hy] at hx
    rw [polyfit_renamed π h hπ u u' hu g y hy]
    simp only at hx ⊢
    have hn : c'.run.nPol = c.run.nPol := by rw [h.run]; rfl
    have hafter : ∀ p f t, (c'.reflIn o q' u' (renamed π g) (renamed π y) p).after f (π t) = (c.reflIn o q u g y p).after f t := by
      intro p f t
      refine C287_numbers_partial _ _ (reflIn_renamed h hπ o hq hu g y p) ?_ f t
      intro a ha s _
      refine ⟨0, hN, ?_⟩
      simp only [CalibrateIn.reflIn] at ha
      split_ifs at ha
      cases ha
      simp
    have hvan : c'.polyVanish u' (renamed π y) ↔ c.polyVanish u y := by
      unfold CalibrateIn.polyVanish
      rw [hn, hu.1]
      constructor
      · rintro ⟨p, hp, t, ht, f, hf, hz⟩
        refine ⟨p, hp, π.symm t, ?_, f, hf, hz⟩
        rw [← sameUse_mem hu, Equiv.apply_symm_apply]
        exact ht
      · rintro ⟨p, hp, t, ht, f, hf, hz⟩
        exact ⟨p, hp, π t, (sameUse_mem hu t).2 ht, f, hf, by rw [renamed_apply]; exact hz⟩
    have hnum : c'.reflNumbers o q' u' (renamed π g) (renamed π y) ↔ c.reflNumbers o q u g y := by
      unfold CalibrateIn.reflNumbers
      rw [hn]
      constructor
      · intro H p hp t f
        rw [← hafter]
        exact H p hp (π t) f
      · intro H p hp t f
        have := hafter p f (π.symm t)
        rw [Equiv.apply_symm_apply] at this
        rw [this]
        exact H p hp _ f
    rw [hvan, hnum]
    split_ifs at hx ⊢
    cases hx
    rw [Except.ok.injEq]
    refine eq_renamed π fun p f t => ?_
    rw [hafter]

/-- **C289.** `calibrate` with the fit of reflections does not depend on the numbers of the tiles: with tile `t` called `π t` everywhere, also
in the table of cables, tile `π t` gets the gain and residual that tile `t` had, and the calibrated data and statistics are the same, provided
that the tile the phases refer to stays the same. -/
theorem C289_numbers (c c' : CalibrateIn) (h : RenamedCal π c c') (hπ : ∀ t, π t < c.run.nTile ↔ t < c.run.nTile) (hN : 0 < c.run.nFreq)
    (q q' : ReflTable) (hq : RenamedTable π q q') (hflag : ∀ p < c.run.nPol, FlagsAgree c.run p)
    (href : c.run.noRef = false → ∀ p < c.run.nPol, refTile ((renumbered c.run π).tiles p) = π (refTile (c.run.tiles p)))
    (hpol : 1 ≤ c.run.nPol ∧ c.run.nPol ≤ 2) (hAB : TilesExist c.run) (o : CalOpts) (u u' : InUse) (hu : SameUse π u u')
    (r : CalibrateOut) (hr : calibrateRefl c o q u = .ok r) :
    ∃ r', calibrateRefl c' o q' u' = .ok r' ∧ (∀ p f t, r'.gain p f (π t) = r.gain p f t) ∧
      (∀ p f t, r'.residual p f (π t) = r.residual p f t) ∧ SameUse π r.inUse r'.inUse ∧ r'.stats = r.stats ∧
      ∀ p < c.run.nPol, ∀ f, ∀ s < c.run.nBl * c.run.nTime, r'.vis p f s = r.vis p f s :=
  calibrateWith_numbers π c c' h hπ hflag href hpol hAB o (c.polyReflOf o q) (c'.polyReflOf o q') (polyRefl_renamed h hπ hN o hq) u u' hu r hr

end

/-! ## Exact gains -/

/-- The residual gains after the fit of reflections are the solved gains minus the returned ones, as without it. -/
theorem calibrateRefl_residual (c : CalibrateIn) (o : CalOpts) (q : ReflTable) (u : InUse) (haf : o.autoFit = false)
    (hpol : 1 ≤ c.run.nPol ∧ c.run.nPol ≤ 2) (hAB : TilesExist c.run) (r r' : CalibrateOut) (h : calibrateRefl c o q u = .ok r')
    (hr : calibrateAll c o u = .ok r) (p f t : ℕ) : r'.residual p f t + r'.gain p f t = r.residual p f t + r.gain p f t := by
  unfold calibrateRefl at h
  unfold calibrateAll at hr
  simp only [bind, Except.bind] at h hr
  cases hg : calibrateGains (c.steps o) o u with
  | error e => rw [hg] at hr; cases hr
  | ok out =>
    cases hg' : calibrateGains (c.reflSteps o q) o u with
    | error e => rw [hg'] at h; cases h
    | ok out' =>
      obtain ⟨g0, base, g, H, h0, h1, h2, h3, rfl⟩ := calibrateGains_inv _ _ _ _ hg
      obtain ⟨g0', base', g', H', h0', h1', h2', h3', rfl⟩ := calibrateGains_inv _ _ _ _ hg'
      have e0 : g0' = g0 := Except.ok.inj (h0'.symm.trans h0)
      subst e0
      have e1 : base' = base := Except.ok.inj (h1'.symm.trans h1)
      subst e1
      rw [hg] at hr
      rw [hg'] at h
      simp only at h hr
      obtain ⟨vis, e1, -⟩ := applyIn_entry c hpol hAB H
      obtain ⟨vis', e1', -⟩ := applyIn_entry c hpol hAB H'
      rw [show (c.steps o).apply _ H = .ok (vis, none) from e1] at hr
      rw [show (c.reflSteps o q).apply _ H' = .ok (vis', none) from e1'] at h
      cases h
      cases hr
      show base' p f t - H' p f t + H' p f t = base' p f t - H p f t + H p f t
      ring

/-- **C289.** If the data are exactly those that some gains make from the model, and the fits can represent these gains, `calibrate` with the
fit of reflections returns these gains without residuals and recovers the true visibilities, whatever the table of cables, for the channels and tiles
that are in use after the flagging. -/
theorem C289_exact (c : CalibrateIn) (hfit : LeastSquaresFit c.fit) (hmag : c.run.mag = fun z => ‖z‖)
    (hcast : c.run.cast = fun x : ℝ => (x : ℂ)) (hbase : 0 < c.run.base) (hiter : 0 < c.run.maxIter) (o : CalOpts) (hb : o.bandpass = true)
    (hpoly : o.polyfit = true) (hj : c.jump = false) (hinit : o.autoInit = false) (haf : o.autoFit = false) (har : o.autoRatio = false)
    (u : InUse) (g : Gains)
    (hpol : 1 ≤ c.run.nPol ∧ c.run.nPol ≤ 2) (hg : ∀ p < c.run.nPol, ExactGains c.run p (g p))
    (href : c.run.noRef = false → ∀ p < c.run.nPol, ∀ f ∈ c.run.freqs p,
      g p f (refTile (c.run.tiles p)) = (‖g p f (refTile (c.run.tiles p))‖ : ℂ))
    (hut : ∀ t ∈ u.tiles, t < c.run.nTile ∧ c.run.tileUse t = true)
    (hAB : ∀ s < c.run.nBl * c.run.nTime, c.run.tileA s < c.run.nTile ∧ c.run.tileB s < c.run.nTile)
    (hstart : ∀ p < c.run.nPol, ∀ f ∈ u.freqs, ∀ t ∈ u.tiles, c.run.gain p f t = g p f t)
    (hsm : ∀ p < c.run.nPol, SmoothGains (c.fitOpts o p) u (g p))
    (hfl : o.flag = true → ∀ B : Gains, (∀ p < c.run.nPol, ∀ f ∈ u.freqs, ∀ t ∈ u.tiles, B p f t = g p f t) →
      (∀ f ∈ (c.flag u B).freqs, f ∈ u.freqs) ∧ (∀ t ∈ (c.flag u B).tiles, t ∈ u.tiles) ∧
        ∀ p < c.run.nPol, SmoothGains (c.fitOpts o p) (c.flag u B) (g p)) (q : ReflTable) :
    ∃ r, calibrateRefl c o q u = .ok r ∧ (o.flag = false → r.inUse = u) ∧
      ((∀ f ∈ r.inUse.freqs, f ∈ u.freqs) ∧ (∀ t ∈ r.inUse.tiles, t ∈ u.tiles)) ∧
      ∀ p < c.run.nPol, (∀ f ∈ r.inUse.freqs, ∀ t ∈ r.inUse.tiles, r.gain p f t = g p f t ∧ r.residual p f t = 0) ∧
        ∀ s < c.run.nBl * c.run.nTime, c.run.tileA s ∈ r.inUse.tiles → c.run.tileB s ∈ r.inUse.tiles →
          (∀ f ∈ r.inUse.freqs, ∀ truth, c.run.vis p f s = g p f (c.run.tileA s) * star (g p f (c.run.tileB s)) * truth →
            r.vis p f s = truth) ∧ ∀ f, f ∉ r.inUse.freqs → r.vis p f s = 0 := by
  obtain ⟨r, h1, h2, ⟨hs1, hs2, hs3⟩, h3⟩ := calibrate_exact c hfit hmag hcast hbase hiter o hb hpoly hj hinit haf u g hpol hg href hut hAB hstart
    hsm hfl
  have hne : ∀ p < c.run.nPol, ∀ f ∈ r.inUse.freqs, ∀ t ∈ r.inUse.tiles, g p f t ≠ 0 := fun p hp f hf t ht =>
    (smooth_fits c.fit hfit (c.fitOpts o p) hpoly hj r.inUse (g p) (g p) (hs3 p hp) (fun _ _ _ _ => rfl) t ht).1 f hf
  obtain ⟨r', h4⟩ := C288_returns c o q u haf har hpol hAB r h1 (by
    intro p hp f hf t ht
    rw [((h3 p hp).1 f hf t ht).1]
    exact hne p hp f hf t ht)
  obtain ⟨r2, h5, h6, -, h7⟩ := calibrateRefl_factor c o q u haf hpol hAB r' h4
  rw [h1] at h5
  cases h5
  have hfs : r.inUse.freqs ≠ [] := by
    intro hnil
    have := (hs3 0 (by omega)).amp
    rw [hnil] at this
    simp at this
  have hgain : ∀ p < c.run.nPol, ∀ f t, r'.gain p f t = r.gain p f t := fun p hp f t =>
    C288_no_reflection c o q u haf har hpol hAB r r' h4 h1 hfs p hp (by
      intro f hf t ht
      obtain ⟨e1, e2⟩ := (h3 p hp).1 f hf t ht
      rw [e1]
      exact ⟨hne p hp f hf t ht, e2⟩) f t
  rw [← h6] at h2 hs1 hs2 h3
  refine ⟨r', h4, h2, ⟨hs1, hs2⟩, fun p hp => ⟨fun f hf t ht => ?_, fun s hs hA hB => ?_⟩⟩
  · obtain ⟨e1, e2⟩ := (h3 p hp).1 f hf t ht
    refine ⟨(hgain p hp f t).trans e1, ?_⟩
    have := calibrateRefl_residual c o q u haf hpol hAB r r' h4 h1 p f t
    rw [hgain p hp, e2] at this
    simpa using this
  · have hv : ∀ f, r'.vis p f s = r.vis p f s := fun f => h7 p hp f s hs (hgain p hp _ _) (hgain p hp _ _)
    obtain ⟨e1, e2⟩ := (h3 p hp).2.2 s hs hA hB
    exact ⟨fun f hf truth ht => (hv f).trans (e1 f hf truth ht), fun f hf => (hv f).trans (e2 f hf)⟩

/-! ## Examples -/

theorem exCalibrate_exact (fit : List ℕ → List ℝ → ℕ → List ℝ) (p : ℕ) : ExactGains (exCalibrate fit).run p fun _ _ => 2 := by
  refine ⟨by rw [exCalibrate_tiles]; simp, by rw [exCalibrate_freqs]; simp, ?_, fun f _ t _ => ⟨rfl, by norm_num⟩, ?_, ?_, ?_⟩
  · unfold FlagsAgree
    rw [exCalibrate_bls]
    show ∀ b ∈ List.range 10, (0 < 3 ∧ true = true) ∧ (if b % 2 = 0 then 1 else 2) < 3 ∧ true = true
    decide
  · intro f _ b _ s _ _
    simp only [exCalibrate]
    rw [show star (2 : ℂ) = 2 from Complex.conj_ofNat 2]
    norm_num
  · intro f _ t ht
    rw [exCalibrate_bls]
    rw [exCalibrate_tiles] at ht
    simp only [exCalibrate_weight, zero_lt_one, true_and]
    refine ⟨?_, ?_⟩
    · rw [exCalibrate_number]
      revert t
      decide
    · have havg : ∀ b, (exCalibrate fit).run.average p (exCalibrate fit).run.model f b = ((p + f + b + 1 : ℕ) : ℂ) := by
        intro b
        unfold CalRunIn.average
        rw [exCalibrate_weight]
        simp [CalRunIn.samplesOf, CalRunIn.clip, exCalibrate, invR, weightInvertEntry, npRecip]
      have hex : ∃ b ∈ List.range 10, (0 = t ∨ (if b % 2 = 0 then 1 else 2) = t) := by
        revert t
        decide
      obtain ⟨b, hb, hbt⟩ := hex
      exact ⟨b, hb, hbt, by rw [havg]; exact Nat.cast_ne_zero.2 (Nat.succ_ne_zero _)⟩
  · intro f _
    unfold NumbersDiffer
    rw [exCalibrate_tiles]
    exact ⟨0, by simp, 1, by simp, by rw [exCalibrate_number, exCalibrate_number]; decide⟩

theorem exCalibrate_smooth (fit : List ℕ → List ℝ → ℕ → List ℝ) (p : ℕ) :
    SmoothGains ((exCalibrate fit).fitOpts ⟨false, false, true, false, true, false⟩ p) ⟨[0, 1, 2], [0, 1, 2]⟩ fun _ _ => 2 := by
  refine ⟨by decide, by simp [exCalibrate, CalibrateIn.fitOpts, degreeOr], by simp [exCalibrate, CalibrateIn.fitOpts, degreeOr],
    (fun _ _ h => by cases h), (fun _ _ h => by cases h), fun _ _ => 1, fun _ => 2, fun _ => [0, 0], fun t _ =>
      ⟨by norm_num, fun f _ => ⟨one_pos, one_pos⟩, fun _ _ _ _ => rfl, rfl, ?_, ?_, ?_⟩⟩
  · simp [PolyAt, Finset.sum_range_succ, Real.pi_pos]
  · exact ⟨1, resistantMean_same _ 1 (by simp) (by simp)⟩
  · intro f _
    simp [PolyAt, Finset.sum_range_succ, ratioOf, exCalibrate, CalibrateIn.fitOpts]

/-- The hypotheses of `C289_exact` are met: all tiles have cables that are to be fitted, and the gains are still those of the data. -/
theorem exRefl_ok : ∃ fit, LeastSquaresFit fit ∧ ∃ r, calibrateRefl (exCalibrate fit) ⟨false, false, true, false, true, false⟩ exTable
    ⟨[0, 1, 2], [0, 1, 2]⟩ = .ok r ∧ r.vis 1 2 8 = 12 ∧ r.gain 0 1 2 = 2 ∧ r.residual 0 1 2 = 0 := by
  obtain ⟨fit, hfit⟩ := exists_leastSquaresFit
  obtain ⟨r, h1, hu, -, h2⟩ := C289_exact (exCalibrate fit) hfit rfl rfl (by simp [exCalibrate]) (by simp [exCalibrate])
    ⟨false, false, true, false, true, false⟩ rfl rfl rfl rfl rfl rfl ⟨[0, 1, 2], [0, 1, 2]⟩ (fun _ _ _ => 2) (by simp [exCalibrate])
    (fun p _ => exCalibrate_exact fit p) (fun _ _ _ _ _ => by norm_num) (fun t ht => ⟨by revert t; simp [exCalibrate], rfl⟩)
    (exCalibrate_exist fit) (fun _ _ _ _ _ _ => rfl) (fun p _ => exCalibrate_smooth fit p) (fun h => by cases h) exTable
  rw [hu rfl] at h2
  obtain ⟨h3, -⟩ := h2 0 (by simp [exCalibrate])
  have hA : (exCalibrate fit).run.tileA 8 = 0 ∧ (exCalibrate fit).run.tileB 8 = 1 := by simp [exCalibrate]
  obtain ⟨h4, -⟩ := (h2 1 (by simp [exCalibrate])).2 8 (by simp [exCalibrate]) (by rw [hA.1]; decide) (by rw [hA.2]; decide)
  refine ⟨fit, hfit, r, h1, h4 2 (by decide) 12 ?_, (h3 1 (by decide) 2 (by decide)).1, (h3 1 (by decide) 2 (by decide)).2⟩
  simp only [exCalibrate]
  rw [show star (2 : ℂ) = 2 from Complex.conj_ofNat 2]
  norm_num

/-- The first and the last of the three tiles may exchange their numbers. -/
example : ∃ fit, LeastSquaresFit fit ∧
    ∃ r, calibrateRefl (withRun (exCalibrate fit) (renumbered (exCalibrate fit).run (Equiv.swap 0 2))) ⟨false, false, true, false, true, false⟩
      exTable ⟨[0, 1, 2], [0, 1, 2]⟩ = .ok r ∧ r.gain 0 1 0 = 2 := by
  obtain ⟨fit, hfit, r, h1, -, h2, -⟩ := exRefl_ok
  have hπ : ∀ t, Equiv.swap 0 2 t < 3 ↔ t < 3 := by
    intro t
    rw [Equiv.swap_apply_def]
    split_ifs <;> omega
  obtain ⟨r', h3, h4, -⟩ := C289_numbers (π := Equiv.swap 0 2) (exCalibrate fit) _ (exCalibrate_renamed fit _) hπ (by simp [exCalibrate])
    exTable exTable ⟨rfl, rfl, rfl, fun _ => rfl⟩
    (fun p _ => (exCalibrate_exact fit p).flags)
    (by
      intro _ p _
      have hm : 1 ∈ (renumbered (exCalibrate fit).run (Equiv.swap 0 2)).tiles p := by
        have := (mem_renamed (Equiv.swap 0 2) (tiles_renumbered (exCalibrate fit).run (Equiv.swap 0 2) hπ p) 1).2
          (by rw [exCalibrate_tiles]; decide)
        exact this
      unfold refTile
      rw [exCalibrate_tiles, if_pos hm]
      rfl)
    (by simp [exCalibrate]) (exCalibrate_exist fit) _ ⟨[0, 1, 2], [0, 1, 2]⟩ ⟨[0, 1, 2], [0, 1, 2]⟩ ⟨rfl, by decide⟩ r h1
  refine ⟨fit, hfit, r', h3, ?_⟩
  have := h4 0 1 2
  rw [Equiv.swap_apply_right] at this
  rw [this, h2]

end PyFHD
