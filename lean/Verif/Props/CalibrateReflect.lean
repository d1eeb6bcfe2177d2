import Verif.Model.CalibrateReflect
import Verif.Props.CalibrateRelations
import Verif.Props.CalReflect

/-!
# C288: what the fit of cable reflections does to the result of `calibrate`
-/

namespace PyFHD

open Spec

/-! ## The steps of a run -/

theorem calibrateGains_inv {G O V : Type} (s : CalSteps G O V) (o : CalOpts) (u : O) (out : V × O × G × G)
    (h : calibrateGains s o u = .ok out) :
    ∃ g0 base g H, calInit s o = .ok g0 ∧ s.solve g0 = .ok base ∧
      calFits s o (if o.flag then s.flag u base else u) base = .ok g ∧ calAuto s o (if o.flag then s.flag u base else u) g = .ok H ∧
      out = (s.apply (if o.flag then s.flag u base else u) H, (if o.flag then s.flag u base else u), H, s.sub base H) := by
  unfold calibrateGains at h
  simp only [bind, Except.bind] at h
  cases h0 : calInit s o with
  | error e => rw [h0] at h; cases h
  | ok g0 =>
    rw [h0] at h
    simp only at h
    cases h1 : s.solve g0 with
    | error e => rw [h1] at h; cases h
    | ok base =>
      rw [h1] at h
      simp only at h
      cases h2 : calFits s o (if o.flag then s.flag u base else u) base with
      | error e => rw [h2] at h; cases h
      | ok g =>
        rw [h2] at h
        simp only at h
        cases h3 : calAuto s o (if o.flag then s.flag u base else u) g with
        | error e => rw [h3] at h; cases h
        | ok H =>
          rw [h3] at h
          cases h
          exact ⟨g0, base, g, H, rfl, h1, h2, h3, rfl⟩

theorem calibrateGains_ok {G O V : Type} (s : CalSteps G O V) (o : CalOpts) (u : O) (g0 base g H : G) (h0 : calInit s o = .ok g0)
    (h1 : s.solve g0 = .ok base) (h2 : calFits s o (if o.flag then s.flag u base else u) base = .ok g)
    (h3 : calAuto s o (if o.flag then s.flag u base else u) g = .ok H) :
    calibrateGains s o u =
      .ok (s.apply (if o.flag then s.flag u base else u) H, (if o.flag then s.flag u base else u), H, s.sub base H) := by
  unfold calibrateGains
  simp only [bind, Except.bind]
  rw [h0]
  simp only
  rw [h1]
  simp only
  rw [h2]
  simp only
  rw [h3]

theorem calFits_inv {G O V : Type} (s : CalSteps G O V) (o : CalOpts) (u : O) (base g : G) (h : calFits s o u base = .ok g) :
    (o.bandpass = true ∧ o.polyfit = true ∧ ∃ b q, s.bandpass u (if o.autoRatio then s.divide base else base) = .ok b ∧
      s.polyfit u b.2 = .ok q ∧ g = if o.autoRatio then s.remultiply (s.mul q b.1) else s.mul q b.1) ∨
    o.polyfit = false := by
  unfold calFits at h
  cases h1 : o.polyfit with
  | false => exact Or.inr rfl
  | true =>
    rw [h1] at h
    cases h2 : o.bandpass with
    | false => rw [h2] at h; simp at h
    | true =>
      rw [h2] at h
      simp only [if_true, bind, Except.bind] at h
      refine Or.inl ⟨rfl, rfl, ?_⟩
      cases h3 : s.bandpass u (if o.autoRatio then s.divide base else base) with
      | error e => rw [h3] at h; cases h
      | ok b =>
        rw [h3] at h
        simp only at h
        cases h4 : s.polyfit u b.2 with
        | error e => rw [h4] at h; cases h
        | ok q =>
          rw [h4] at h
          simp only at h
          exact ⟨b, q, rfl, h4, (Except.ok.inj h).symm⟩

theorem calFits_ok {G O V : Type} (s : CalSteps G O V) (o : CalOpts) (u : O) (base q : G) (b : G × G) (h1 : o.bandpass = true)
    (h2 : o.polyfit = true) (h3 : s.bandpass u (if o.autoRatio then s.divide base else base) = .ok b) (h4 : s.polyfit u b.2 = .ok q) :
    calFits s o u base = .ok (if o.autoRatio then s.remultiply (s.mul q b.1) else s.mul q b.1) := by
  unfold calFits
  rw [h1, h2]
  simp only [if_true, bind, Except.bind]
  rw [h3]
  simp only
  rw [h4]

theorem calFits_nopoly {G O V : Type} (s : CalSteps G O V) (o : CalOpts) (u : O) (base : G) (P : O → G → Py G) (h : o.polyfit = false) :
    calFits { s with polyfit := P } o u base = calFits s o u base := by
  unfold calFits
  rw [h]
  simp

/-! ## The factor of a reflection -/

/-- The factor by which the fit of reflections changes the gain of a tile at a channel. -/
noncomputable def reflFactor (c : ReflIn) (f t : ℕ) : ℂ :=
  if c.use t = false ∨ c.mode t = 0 then 1
  else
    match c.fit t with
    | none => 1
    | some r =>
      match c.autos with
      | none => 1 + r.at c.N f
      | some _ => Complex.exp (Complex.I * (r.at c.N f).im)

theorem after_factor (c : ReflIn) (f t : ℕ) (h : c.after f t ≠ none) : c.after f t = some (c.gain f t * reflFactor c f t) := by
  unfold ReflIn.after reflFactor at *
  split_ifs at h ⊢ with h1
  · rw [mul_one]
  · cases hf : c.fit t with
    | none => rw [hf] at h; simp at h
    | some r => cases c.autos <;> rfl

theorem chainRemultiply_factor (q : FitOpts) (g g' φ : ℕ → ℕ → ℂ) (f t : ℕ) (h : g' f t = g f t * φ f t) :
    chainRemultiply q g' f t = chainRemultiply q g f t * φ f t := by
  unfold chainRemultiply
  rcases q.ratio with _ | ⟨r, auto⟩
  · exact h
  · unfold autoRatioRemultiply
    simp only [h]
    split_ifs <;> ring

theorem polyRefl_inv (c : CalibrateIn) (o : CalOpts) (q : ReflTable) (u : InUse) (g x : Gains) (h : c.polyReflOf o q u g = .ok x) :
    ∃ y, c.polyfitOf u g = .ok y ∧ ¬ c.polyVanish u y ∧ c.reflNumbers o q u g y ∧
      x = fun p f t => ((c.reflIn o q u g y p).after f t).getD 0 := by
  unfold CalibrateIn.polyReflOf at h
  simp only [bind, Except.bind] at h
  cases hy : c.polyfitOf u g with
  | error e => rw [hy] at h; cases h
  | ok y =>
    rw [hy] at h
    simp only at h
    split_ifs at h with h1
    rw [not_or, not_not] at h1
    exact ⟨y, rfl, h1.1, h1.2, (Except.ok.inj h).symm⟩

theorem chainBandpass_quotient (q : FitOpts) (fs ts : List ℕ) (g : ℕ → ℕ → ℂ) (f t : ℕ) (hf : f ∈ fs)
    (hb : (chainBandpass q fs ts g).bandpass f t ≠ 0) :
    (chainBandpass q fs ts g).remainder f t = some (g f t / (chainBandpass q fs ts g).bandpass f t) := by
  unfold chainBandpass at hb ⊢
  revert hb
  rcases q.cables with _ | ⟨cables, cable⟩ <;> intro hb
  · simp only [bandpassGlobal, if_pos hf] at hb ⊢
    unfold npDiv
    rw [if_neg hb]
  · simp only [bandpassCable, if_pos hf] at hb ⊢
    unfold npDiv
    rw [if_neg hb]

theorem quotient_same (c : CalibrateIn) (o : CalOpts) (v : InUse) (base y : Gains) (b : Gains × Gains)
    (hb : (c.steps o).bandpass v (if false = true then (c.steps o).divide base else base) = .ok b) (p f t : ℕ) (hf : f ∈ v.freqs)
    (hne : (if false = true then (c.steps o).remultiply ((c.steps o).mul y b.1) else (c.steps o).mul y b.1) p f t ≠ 0) :
    b.2 p f t / y p f t =
      base p f t / (if false = true then (c.steps o).remultiply ((c.steps o).mul y b.1) else (c.steps o).mul y b.1) p f t := by
  simp only [Bool.false_eq_true, if_false, CalibrateIn.steps, Except.ok.injEq] at hb hne ⊢
  subst hb
  simp only at hne ⊢
  have h1 := right_ne_zero_of_mul hne
  rw [chainBandpass_quotient _ _ _ _ _ _ hf h1, Option.getD_some, div_div, mul_comm (y p f t)]

theorem calibrateRefl_factor (c : CalibrateIn) (o : CalOpts) (q : ReflTable) (u : InUse) (haf : o.autoFit = false)
    (hpol : 1 ≤ c.run.nPol ∧ c.run.nPol ≤ 2) (hAB : TilesExist c.run) (r' : CalibrateOut) (h : calibrateRefl c o q u = .ok r') :
    ∃ r, calibrateAll c o u = .ok r ∧ r'.inUse = r.inUse ∧
      ((o.polyfit = false ∧ r' = r) ∨ (o.polyfit = true ∧ ∃ g y, (¬ c.polyVanish r.inUse y) ∧ c.reflNumbers o q r.inUse g y ∧
        (∀ p < c.run.nPol, ∀ f t, r'.gain p f t = r.gain p f t * reflFactor (c.reflIn o q r.inUse g y p) f t) ∧
        (o.autoRatio = false → ∀ p t, ∀ f ∈ r.inUse.freqs, r.gain p f t ≠ 0 →
          g p f t / y p f t = (r.gain p f t + r.residual p f t) / r.gain p f t))) ∧
      ∀ p < c.run.nPol, ∀ f, ∀ s < c.run.nBl * c.run.nTime,
        r'.gain p f (c.run.tileA s) = r.gain p f (c.run.tileA s) → r'.gain p f (c.run.tileB s) = r.gain p f (c.run.tileB s) →
          r'.vis p f s = r.vis p f s := by
  unfold calibrateRefl at h
  simp only [bind, Except.bind] at h
  cases hg : calibrateGains (c.reflSteps o q) o u with
  | error e => rw [hg] at h; cases h
  | ok out =>
    obtain ⟨g0, base, g, H', h0, h1, h2, h3, rfl⟩ := calibrateGains_inv _ _ _ _ hg
    rw [hg] at h
    have h0' : calInit (c.steps o) o = .ok g0 := h0
    have h1' : (c.steps o).solve g0 = .ok base := h1
    change calFits _ o (if o.flag then c.flag u base else u) base = .ok g at h2
    change calAuto _ o (if o.flag then c.flag u base else u) g = .ok H' at h3
    have hHg : H' = g := by
      unfold calAuto at h3
      rw [haf] at h3
      exact (Except.ok.inj h3).symm
    subst hHg
    set v := (if o.flag then c.flag u base else u) with hv
    -- the run without reflections
    have key : ∃ H, calFits (c.steps o) o v base = .ok H ∧ ((o.polyfit = false ∧ H' = H) ∨ (o.polyfit = true ∧ ∃ g y,
        (¬ c.polyVanish v y) ∧ c.reflNumbers o q v g y ∧
        (∀ p < c.run.nPol, ∀ f t, H' p f t = H p f t * reflFactor (c.reflIn o q v g y p) f t) ∧
        (o.autoRatio = false → ∀ p t, ∀ f ∈ v.freqs, H p f t ≠ 0 → g p f t / y p f t = base p f t / H p f t))) := by
      rcases calFits_inv _ _ _ _ _ h2 with ⟨hb, hp, b, x, hb1, hx, hH⟩ | hp
      · obtain ⟨y, hy, hvan, hnum, hxy⟩ := polyRefl_inv c o q v b.2 x hx
        refine ⟨_, calFits_ok (c.steps o) o v base y b hb hp hb1 hy, Or.inr ⟨hp, b.2, y, hvan, hnum,
          fun p hpp f t => ?_, fun har p t f hf hne => ?_⟩⟩
        swap
        · rw [har] at hb1 hne ⊢
          exact quotient_same c o v base y b hb1 p f t hf hne
        have hfac : x p f t = y p f t * reflFactor (c.reflIn o q v b.2 y p) f t := by
          rw [hxy]
          simp only
          rw [after_factor _ f t (hnum p hpp t f)]
          rfl
        rw [hH]
        split_ifs
        · show chainRemultiply (c.fitOpts o p) (fun f t => x p f t * b.1 p f t) f t =
            chainRemultiply (c.fitOpts o p) (fun f t => y p f t * b.1 p f t) f t * _
          refine chainRemultiply_factor _ _ _ (fun f t => reflFactor (c.reflIn o q v b.2 y p) f t) f t ?_
          rw [hfac]
          ring
        · show x p f t * b.1 p f t = y p f t * b.1 p f t * _
          rw [hfac]
          ring
      · refine ⟨H', ?_, Or.inl ⟨hp, rfl⟩⟩
        rw [← calFits_nopoly (c.steps o) o v base (c.polyReflOf o q) hp]
        exact h2
    obtain ⟨H, hH1, hH2⟩ := key
    obtain ⟨vis, e1, e2⟩ := applyIn_entry c hpol hAB H
    obtain ⟨vis', e1', e2'⟩ := applyIn_entry c hpol hAB H'
    have hrun := calibrateGains_ok (c.steps o) o u g0 base H H h0' h1' hH1 (by unfold calAuto; rw [haf]; rfl)
    change _ = Except.ok (visCalibrationApply (c.applyIn H), v, H, _) at hrun
    simp only at h
    rw [show (c.reflSteps o q).apply _ H' = .ok (vis', none) from e1'] at h
    refine ⟨_, by
      unfold calibrateAll
      rw [hrun]
      simp only [bind, Except.bind]
      rw [e1], ?_, ?_, ?_⟩
    · rw [← Except.ok.inj h]
      rfl
    · rcases hH2 with ⟨hp, hH⟩ | ⟨hp, g, y, a1, a2, a3, a4⟩
      · refine Or.inl ⟨hp, ?_⟩
        subst hH
        rw [e1] at e1'
        have hvis : vis = vis' := (Prod.mk.inj (Except.ok.inj e1')).1
        rw [← Except.ok.inj h, hvis]
        rfl
      · refine Or.inr ⟨hp, g, y, a1, a2, fun p hpp f t => ?_, fun har p t f hf hne => ?_⟩
        · rw [← Except.ok.inj h]
          exact a3 p hpp f t
        · rw [a4 har p t f hf hne]
          show _ = (H p f t + (base p f t - H p f t)) / H p f t
          rw [add_sub_cancel]
    · intro p hp f s hs hA hB
      rw [← Except.ok.inj h] at hA hB ⊢
      simp only at hA hB ⊢
      change H' p f _ = H p f _ at hA hB
      show vis' p f s = vis p f s
      rw [e2 p hp f s hs, e2' p hp f s hs, hA, hB]

/-! ## C288 -/

namespace Spec

/-- The cable of tile `t` is not to be fitted: the tile is not in use, the table says so, or its length is not the one asked for or is the
one to be left out. -/
def NotFitted (q : ReflTable) (u : InUse) (t : ℕ) : Prop :=
  t ∉ u.tiles ∨ (q.cable t).flag ≤ 0 ∨ (1 < q.theory ∧ (q.cable t).length ≠ q.theory) ∨ (q.theory < -1 ∧ (q.cable t).length = -q.theory)

/-- The solved gains of a tile in terms of its fitted gains. -/
noncomputable def gainRatio (r : CalibrateOut) (p t f : ℕ) : ℂ := (r.gain p f t + r.residual p f t) / r.gain p f t

/-- `A` and `mode` give the reflection that describes `ρ` best, of all reflections near the nominal mode. -/
def BestReflection (N : ℕ) (fs : List ℕ) (ρ : ℕ → ℂ) (nominal mode : ℝ) (A : ℂ) : Prop :=
  Tried nominal mode ∧ ∀ (m : ℝ) (B : ℂ), Tried nominal m →
    leftOver fs (minusMean fs ρ) (reflection N A mode) ≤ leftOver fs (minusMean fs ρ) (reflection N B m)

end Spec

theorem reflFactor_notFitted (c : CalibrateIn) (o : CalOpts) (q : ReflTable) (u : InUse) (g y : Gains) (p f t : ℕ)
    (har : o.autoRatio = false) (h : NotFitted q u t) : reflFactor (c.reflIn o q u g y p) f t = 1 := by
  unfold reflFactor
  rw [if_pos]
  rcases h with h | h | ⟨h1, h2⟩ | ⟨h1, h2⟩
  · exact Or.inl (by simp [CalibrateIn.reflIn, h])
  all_goals refine Or.inr ?_
  all_goals show nominalMode q.c0 q.freqs q.theory o.autoRatio (q.cable t) = 0
  all_goals unfold nominalMode theoryMode
  · rw [min_eq_left (by rw [max_eq_left h]; norm_num), max_eq_left h]
    ring
  · have : cableFactor (modeFitOf q.theory) o.autoRatio (q.cable t) = 0 := by
      unfold cableFactor modeFitOf
      rw [if_pos (by rw [abs_of_pos (by linarith)]; exact h1)]
      simp only [har]
      rw [if_neg (by simp), if_pos (by linarith), if_pos h2]
    rw [this, mul_zero]
  · have : cableFactor (modeFitOf q.theory) o.autoRatio (q.cable t) = 0 := by
      unfold cableFactor modeFitOf
      rw [if_pos (by rw [abs_of_neg (by linarith)]; linarith)]
      simp only [har]
      rw [if_neg (by simp), if_neg (by linarith), if_pos (by rw [abs_of_neg (by linarith)]; exact h2)]
    rw [this, mul_zero]

theorem hyperFit_congr (N : ℕ) (fs : List ℕ) (a b : ℕ → ℂ) (h : ∀ f ∈ fs, a f = b f) (mode0 : ℝ) :
    hyperFit N fs (residGain fs a) mode0 = hyperFit N fs (residGain fs b) mode0 := by
  have h1 : fs.map a = fs.map b := List.map_congr_left h
  have h2 : testFit N fs (residGain fs a) = testFit N fs (residGain fs b) := by
    funext m
    unfold testFit residGain
    rw [h1]
    congr 1
    exact List.map_congr_left fun f hf => by rw [h f hf]
  unfold hyperFit
  rw [h2]

/-- **C288.** With the fit of cable reflections (not using auto-correlations) `calibrate` returns the gains it would return without, except
that tiles whose cable is fitted get the factor `1 +` the reflection which describes best, over the channels in use, the quotient of solved and
fitted gains; the data of baselines between other tiles are the same. -/
theorem C288_reflection (c : CalibrateIn) (o : CalOpts) (q : ReflTable) (u : InUse) (haf : o.autoFit = false) (har : o.autoRatio = false)
    (hpol : 1 ≤ c.run.nPol ∧ c.run.nPol ≤ 2) (hAB : TilesExist c.run) (r' : CalibrateOut) (h : calibrateRefl c o q u = .ok r') :
    ∃ r, calibrateAll c o u = .ok r ∧ r'.inUse = r.inUse ∧
      (∀ p < c.run.nPol, ∀ t f, NotFitted q r.inUse t → r'.gain p f t = r.gain p f t) ∧
      (o.polyfit = true → r.inUse.freqs ≠ [] → ∀ p < c.run.nPol, ∀ t ∈ r.inUse.tiles,
        nominalMode q.c0 q.freqs q.theory false (q.cable t) ≠ 0 → (∀ f ∈ r.inUse.freqs, r.gain p f t ≠ 0) →
        ∃ mode A, BestReflection c.run.nFreq r.inUse.freqs (gainRatio r p t) (nominalMode q.c0 q.freqs q.theory false (q.cable t)) mode A ∧
          ∀ f, r'.gain p f t = r.gain p f t * (1 + reflection c.run.nFreq A mode f)) ∧
      ∀ p < c.run.nPol, ∀ f, ∀ s < c.run.nBl * c.run.nTime, NotFitted q r.inUse (c.run.tileA s) → NotFitted q r.inUse (c.run.tileB s) →
        r'.vis p f s = r.vis p f s := by
  obtain ⟨r, h1, h2, h3, h4⟩ := calibrateRefl_factor c o q u haf hpol hAB r' h
  have hsame : ∀ p < c.run.nPol, ∀ t f, NotFitted q r.inUse t → r'.gain p f t = r.gain p f t := by
    intro p hp t f hn
    rcases h3 with ⟨-, rfl⟩ | ⟨-, g, y, -, -, hfac, -⟩
    · rfl
    · rw [hfac p hp f t, reflFactor_notFitted c o q r.inUse g y p f t har hn, mul_one]
  refine ⟨r, h1, h2, hsame, ?_, fun p hp f s hs hA hB => h4 p hp f s hs (hsame p hp _ f hA) (hsame p hp _ f hB)⟩
  intro hpoly hfs p hp t ht hm hne
  rcases h3 with ⟨hno, -⟩ | ⟨-, g, y, -, -, hfac, hquot⟩
  · rw [hno] at hpoly; cases hpoly
  · set fs := r.inUse.freqs
    set m0 := nominalMode q.c0 q.freqs q.theory false (q.cable t) with hm0
    have hfit := C148_best_fit c.run.nFreq fs hfs (gainRatio r p t) m0
    have hat : (hyperFit c.run.nFreq fs (residGain fs (gainRatio r p t)) m0).at c.run.nFreq = _ :=
      funext fun f => hyperFit_at c.run.nFreq fs (residGain fs (gainRatio r p t)) m0 f
    rw [hat] at hfit
    refine ⟨_, _, hfit, fun f => ?_⟩
    rw [hfac p hp f t]
    congr 1
    unfold reflFactor
    have hmode : (c.reflIn o q r.inUse g y p).mode t = m0 := by
      show nominalMode q.c0 q.freqs q.theory o.autoRatio (q.cable t) = _
      rw [har]
    have hau : (c.reflIn o q r.inUse g y p).autos = none := by
      simp [CalibrateIn.reflIn, har]
    rw [if_neg (by
      rw [hmode]
      have : (c.reflIn o q r.inUse g y p).use t = true := by simp [CalibrateIn.reflIn, ht]
      simp [this, hm])]
    unfold ReflIn.fit
    rw [hau]
    simp only
    rw [hmode]
    show 1 + (hyperFit c.run.nFreq fs (residGain fs fun f => g p f t / y p f t) m0).at c.run.nFreq f = _
    rw [hyperFit_congr c.run.nFreq fs _ (gainRatio r p t) (fun f hf => hquot har p t f hf (hne f hf)) m0, hyperFit_at]

/-- **C288**, nothing to fit: where the fits leave no residual, the fit of reflections changes no gain. -/
theorem C288_no_reflection (c : CalibrateIn) (o : CalOpts) (q : ReflTable) (u : InUse) (haf : o.autoFit = false) (har : o.autoRatio = false)
    (hpol : 1 ≤ c.run.nPol ∧ c.run.nPol ≤ 2) (hAB : TilesExist c.run) (r r' : CalibrateOut) (h : calibrateRefl c o q u = .ok r')
    (hr : calibrateAll c o u = .ok r) (hfs : r.inUse.freqs ≠ []) (p : ℕ) (hp : p < c.run.nPol)
    (hzero : ∀ f ∈ r.inUse.freqs, ∀ t ∈ r.inUse.tiles, r.gain p f t ≠ 0 ∧ r.residual p f t = 0) (f t : ℕ) :
    r'.gain p f t = r.gain p f t := by
  obtain ⟨r2, h1, -, h3, h4, -⟩ := C288_reflection c o q u haf har hpol hAB r' h
  rw [hr] at h1
  cases h1
  by_cases ht : t ∈ r.inUse.tiles
  swap
  · exact h3 p hp t f (Or.inl ht)
  by_cases hm : nominalMode q.c0 q.freqs q.theory false (q.cable t) = 0
  · obtain ⟨r2, h1, -, h5, -⟩ := calibrateRefl_factor c o q u haf hpol hAB r' h
    rw [hr] at h1
    cases h1
    rcases h5 with ⟨-, rfl⟩ | ⟨-, g, y, -, -, hfac, -⟩
    · rfl
    · rw [hfac p hp f t]
      unfold reflFactor
      rw [if_pos (Or.inr (by
        show nominalMode q.c0 q.freqs q.theory o.autoRatio (q.cable t) = 0
        rw [har]; exact hm)), mul_one]
  cases hpoly : o.polyfit with
  | false =>
    obtain ⟨r2, h1, -, h5, -⟩ := calibrateRefl_factor c o q u haf hpol hAB r' h
    rw [hr] at h1
    cases h1
    rcases h5 with ⟨-, rfl⟩ | ⟨hp2, -⟩
    · rfl
    · rw [hpoly] at hp2; cases hp2
  | true =>
    obtain ⟨mode, A, ⟨-, hbest⟩, hgain⟩ := h4 hpoly hfs p hp t ht hm fun f hf => (hzero f hf t ht).1
    set fs := r.inUse.freqs
    have hρ : ∀ f ∈ fs, gainRatio r p t f = 1 := by
      intro f hf
      unfold gainRatio
      rw [(hzero f hf t ht).2, add_zero, div_self (hzero f hf t ht).1]
    have hn : (fs.length : ℂ) ≠ 0 := by
      exact_mod_cast (List.length_pos_iff.2 hfs).ne'
    have hmm : ∀ f ∈ fs, minusMean fs (gainRatio r p t) f = 0 := by
      intro f hf
      unfold minusMean
      rw [List.map_congr_left hρ, hρ f hf]
      simp [hn]
    have hL : ∀ k : ℕ → ℂ, leftOver fs (minusMean fs (gainRatio r p t)) k = (fs.map fun f => ‖k f‖ ^ 2).sum := by
      intro k
      unfold leftOver
      congr 1
      exact List.map_congr_left fun f hf => by rw [hmm f hf, zero_sub, norm_neg]
    have hb := hbest (nominalMode q.c0 q.freqs q.theory false (q.cable t)) 0 ⟨0, by norm_num, by norm_num, by simp⟩
    rw [hL, hL] at hb
    have hz : (fs.map fun f => ‖reflection c.run.nFreq 0 (nominalMode q.c0 q.freqs q.theory false (q.cable t)) f‖ ^ 2).sum = 0 := by
      simp [reflection]
    rw [hz] at hb
    have hnorm : ∀ f, ‖reflection c.run.nFreq A mode f‖ = ‖A‖ := by
      intro f
      unfold reflection
      rw [norm_mul, ← Complex.ofReal_neg, Complex.norm_exp_ofReal_mul_I, mul_one]
    simp only [hnorm] at hb
    have hA : A = 0 := by
      obtain ⟨f0, hf0⟩ := List.exists_mem_of_ne_nil _ hfs
      rw [List.map_const', List.sum_replicate, nsmul_eq_mul] at hb
      have hpos : (0 : ℝ) < fs.length := by exact_mod_cast List.length_pos_iff.2 hfs
      have : ‖A‖ ^ 2 ≤ 0 := by nlinarith [sq_nonneg ‖A‖]
      have h0 : ‖A‖ = 0 := by nlinarith [norm_nonneg A]
      exact norm_eq_zero.1 h0
    rw [hgain f, hA]
    simp [reflection]

/-- **C288**, with ratios of auto-correlations: only the phases of the gains are changed. -/
theorem C288_phases_only (c : CalibrateIn) (o : CalOpts) (q : ReflTable) (u : InUse) (haf : o.autoFit = false) (har : o.autoRatio = true)
    (hpol : 1 ≤ c.run.nPol ∧ c.run.nPol ≤ 2) (hAB : TilesExist c.run) (r' : CalibrateOut) (h : calibrateRefl c o q u = .ok r') :
    ∃ r, calibrateAll c o u = .ok r ∧ r'.inUse = r.inUse ∧ ∀ p < c.run.nPol, ∀ f t, ‖r'.gain p f t‖ = ‖r.gain p f t‖ ∧
      (t ∉ r.inUse.tiles ∨ (q.cable t).flag ≤ 0 → r'.gain p f t = r.gain p f t) := by
  obtain ⟨r, h1, h2, h3, -⟩ := calibrateRefl_factor c o q u haf hpol hAB r' h
  refine ⟨r, h1, h2, fun p hp f t => ?_⟩
  rcases h3 with ⟨-, rfl⟩ | ⟨-, g, y, -, -, hfac, -⟩
  · exact ⟨rfl, fun _ => rfl⟩
  · rw [hfac p hp f t]
    constructor
    · rw [norm_mul]
      have : ‖reflFactor (c.reflIn o q r.inUse g y p) f t‖ = 1 := by
        unfold reflFactor
        split_ifs
        · exact norm_one
        · have hau : ∃ a, (c.reflIn o q r.inUse g y p).autos = some a := by simp [CalibrateIn.reflIn, har]
          obtain ⟨a, ha⟩ := hau
          rw [ha]
          cases (c.reflIn o q r.inUse g y p).fit t with
          | none => exact norm_one
          | some R =>
            simp only
            rw [mul_comm, Complex.norm_exp_ofReal_mul_I]
      rw [this, mul_one]
    · intro hn
      have : reflFactor (c.reflIn o q r.inUse g y p) f t = 1 := by
        unfold reflFactor
        rw [if_pos]
        rcases hn with hn | hn
        · exact Or.inl (by simp [CalibrateIn.reflIn, hn])
        · refine Or.inr ?_
          show nominalMode q.c0 q.freqs q.theory o.autoRatio (q.cable t) = 0
          unfold nominalMode theoryMode
          rw [min_eq_left (by rw [max_eq_left hn]; norm_num), max_eq_left hn]
          ring
      rw [this, mul_one]

/-- **C288**, the fit of reflections (not using auto-correlations) does not fail: if `calibrate` without it returns gains that are not zero where
they are in use, `calibrate` with it returns. -/
theorem C288_returns (c : CalibrateIn) (o : CalOpts) (q : ReflTable) (u : InUse) (haf : o.autoFit = false) (har : o.autoRatio = false)
    (hpol : 1 ≤ c.run.nPol ∧ c.run.nPol ≤ 2) (hAB : TilesExist c.run) (r : CalibrateOut) (h : calibrateAll c o u = .ok r)
    (hne : ∀ p < c.run.nPol, ∀ f ∈ r.inUse.freqs, ∀ t ∈ r.inUse.tiles, r.gain p f t ≠ 0) :
    ∃ r', calibrateRefl c o q u = .ok r' := by
  unfold calibrateAll at h
  simp only [bind, Except.bind] at h
  cases hg : calibrateGains (c.steps o) o u with
  | error e => rw [hg] at h; cases h
  | ok out =>
    obtain ⟨g0, base, g, H, h0, h1, h2, h3, rfl⟩ := calibrateGains_inv _ _ _ _ hg
    rw [hg] at h
    change calFits _ o (if o.flag then c.flag u base else u) base = .ok g at h2
    change calAuto _ o (if o.flag then c.flag u base else u) g = .ok H at h3
    have hHg : H = g := by
      unfold calAuto at h3
      rw [haf] at h3
      exact (Except.ok.inj h3).symm
    subst hHg
    obtain ⟨vis, e1, -⟩ := applyIn_entry c hpol hAB H
    simp only at h
    rw [show (c.steps o).apply _ H = .ok (vis, none) from e1] at h
    rw [← Except.ok.inj h] at hne
    change ∀ p < c.run.nPol, ∀ f ∈ (if o.flag then c.flag u base else u).freqs, ∀ t ∈ (if o.flag then c.flag u base else u).tiles,
      H p f t ≠ 0 at hne
    set v := (if o.flag then c.flag u base else u) with hv
    have key : ∃ H', calFits (c.reflSteps o q) o v base = .ok H' := by
      rcases calFits_inv _ _ _ _ _ h2 with ⟨hb, hp, b, y, hb1, hy, hH⟩ | hp
      · have hnv : ¬ c.polyVanish v y := by
          rintro ⟨p, hp, t, ht, f, hf, hz⟩
          apply hne p hp f hf t ht
          rw [hH, har]
          show y p f t * b.1 p f t = 0
          rw [hz, zero_mul]
        have hnum : c.reflNumbers o q v b.2 y := by
          intro p _ t f
          unfold ReflIn.after
          split_ifs
          · simp
          · have hau : (c.reflIn o q v b.2 y p).autos = none := by simp [CalibrateIn.reflIn, har]
            unfold ReflIn.fit
            rw [hau]
            simp
        have hP : (c.reflSteps o q).polyfit v b.2 = .ok fun p f t => ((c.reflIn o q v b.2 y p).after f t).getD 0 := by
          show c.polyReflOf o q v b.2 = _
          unfold CalibrateIn.polyReflOf
          simp only [bind, Except.bind]
          rw [show c.polyfitOf v b.2 = .ok y from hy]
          simp only
          rw [if_neg (by rw [not_or, not_not]; exact ⟨hnv, hnum⟩)]
        exact ⟨_, calFits_ok (c.reflSteps o q) o v base _ b hb hp hb1 hP⟩
      · refine ⟨H, ?_⟩
        rw [← h2]
        exact calFits_nopoly (c.steps o) o v base (c.polyReflOf o q) hp
    obtain ⟨H', hH'⟩ := key
    obtain ⟨vis', e1', -⟩ := applyIn_entry c hpol hAB H'
    have hrun := calibrateGains_ok (c.reflSteps o q) o u g0 base H' H' h0 h1 hH' (by unfold calAuto; rw [haf]; rfl)
    unfold calibrateRefl
    rw [hrun]
    simp only [bind, Except.bind]
    rw [show (c.reflSteps o q).apply _ H' = .ok (vis', none) from e1']
    exact ⟨_, rfl⟩

/-- Without the search for bad tiles, what is in use remains in use. -/
theorem calibrateAll_inUse (c : CalibrateIn) (o : CalOpts) (u : InUse) (r : CalibrateOut) (hf : o.flag = false)
    (h : calibrateAll c o u = .ok r) : r.inUse = u := by
  unfold calibrateAll at h
  simp only [bind, Except.bind] at h
  cases hg : calibrateGains (c.steps o) o u with
  | error e => rw [hg] at h; cases h
  | ok out =>
    obtain ⟨g0, base, g, H, h0, h1, h2, h3, rfl⟩ := calibrateGains_inv _ _ _ _ hg
    rw [hg] at h
    simp only [hf] at h
    cases ha : (c.steps o).apply u H with
    | error e => simp [ha] at h
    | ok v =>
      simp [ha] at h
      rw [← h]

/-! ## Example -/

/-- A table in which every tile has a cable of 90 m that is to be fitted. -/
noncomputable def exTable : ReflTable := ⟨299792458, [180000000, 180080000, 180160000], 90, fun _ => ⟨90, 8 / 10, 1⟩⟩

example : nominalMode exTable.c0 exTable.freqs exTable.theory false (exTable.cable 1) ≠ 0 := by
  norm_num [nominalMode, theoryMode, exTable, bandOf, cableFactor, modeFitOf]

/-- The calibration of C273 with the fit of reflections: it returns, and the gains are still those from which the data were made. -/
example : ∃ fit, LeastSquaresFit fit ∧ ∃ r', calibrateRefl (exCalibrate fit) ⟨false, false, true, false, true, false⟩ exTable
    ⟨[0, 1, 2], [0, 1, 2]⟩ = .ok r' := by
  obtain ⟨fit, hfit, r, h1, -, -, -, h5⟩ := exCalibrate_ok
  have hu := calibrateAll_inUse _ _ _ r rfl h1
  refine ⟨fit, hfit, C288_returns (exCalibrate fit) _ exTable _ rfl rfl (by simp [exCalibrate]) (exCalibrate_exist fit) r h1 ?_⟩
  rw [hu]
  intro p hp f hf t ht
  rw [h5 p hp f hf t ht]
  norm_num

end PyFHD
