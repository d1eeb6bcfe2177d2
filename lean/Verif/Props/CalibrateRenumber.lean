import Verif.Props.CalibrateRelations
import Verif.Props.CalRenumber
import Verif.Props.ExportCubes

/-!
# C284: the numbers of the tiles have no influence on `calibrate`
-/

namespace PyFHD

open Spec

namespace Spec

/-- The same channels and the same tiles, called `π t` instead of `t`, in any order. -/
def SameUse (π : Equiv.Perm ℕ) (u u' : InUse) : Prop := u'.freqs = u.freqs ∧ u'.tiles.Perm (u.tiles.map π)

/-- Gains of the tiles under their new numbers. -/
def renamed (π : Equiv.Perm ℕ) (g : Gains) : Gains := fun p f t => g p f (π.symm t)

/-- `c'` are the arguments `c` of `calibrate` with tile `t` called `π t`: in the data, flags and starting gains, the cables and the
auto-correlations; what is only a parameter of the model (flagging, the fits to the auto-correlations) does the same to renamed tiles. -/
structure RenamedCal (π : Equiv.Perm ℕ) (c c' : CalibrateIn) : Prop where
  run : c'.run = renumbered c.run π
  fit : c'.fit = c.fit
  jump : c'.jump = c.jump
  ampDeg : c'.ampDeg = c.ampDeg
  phaseDeg : c'.phaseDeg = c.phaseDeg
  low : c'.low = c.low
  cables : c'.cables = c.cables.map fun q => (q.1, fun t => q.2 (π.symm t))
  ratio : ∀ p f t, c'.ratio p f (π t) = c.ratio p f t
  autoTiles : c'.autoTiles.Perm (c.autoTiles.map π)
  autoInit : c'.autoInit = c.autoInit.map (renamed π)
  flag : ∀ u u' g, SameUse π u u' → SameUse π (c.flag u g) (c'.flag u' (renamed π g))
  autoFit : ∀ u u' g, SameUse π u u' → c'.autoFit u' (renamed π g) = (c.autoFit u g).map (renamed π)
  nTimes : c'.nTimes = c.nTimes

end Spec

/-! ## Statistics do not depend on the order -/

theorem npVar_perm {a b : List ℝ} (h : a.Perm b) : npVar a = npVar b := by
  unfold npVar
  rw [h.sum_eq, h.length_eq, (h.map _).sum_eq]

theorem resistantMean_perm {a b : List ℝ} (h : a.Perm b) (d : ℝ) : resistantMean a d = resistantMean b d := by
  have h1 : (noOutliers a d).Perm (noOutliers b d) := by
    unfold noOutliers
    have hm : npMedian a = npMedian b := npMedian_perm h
    have hm2 : npMedian (a.map fun x => |x - npMedian b|) = npMedian (b.map fun x => |x - npMedian b|) := npMedian_perm (h.map _)
    simp only [hm, hm2]
    exact h.filter _
  unfold resistantMean npMeanO
  simp only [npMedian_perm h, npVar_perm h1]
  have h2 := h.filter fun x => decide ((x - npMedian b) ^ 2 * sigmaCorr d ^ 2 ≤ npVar (noOutliers b d) * d ^ 2)
  rw [h2.sum_eq, h2.length_eq]
  have e : (List.filter (fun x => decide ((x - npMedian b) ^ 2 * sigmaCorr d ^ 2 ≤ npVar (noOutliers b d) * d ^ 2)) a = []) ↔
      (List.filter (fun x => decide ((x - npMedian b) ^ 2 * sigmaCorr d ^ 2 ≤ npVar (noOutliers b d) * d ^ 2)) b = []) := by
    rw [← List.length_eq_zero_iff, ← List.length_eq_zero_iff, h2.length_eq]
  simp only [e]

theorem rmeanTwo_perm {a b : List ℝ} (h : a.Perm b) : rmeanTwo a = rmeanTwo b := by
  unfold rmeanTwo
  rw [resistantMean_perm h]

/-! ## The steps -/

section Steps

variable (π : Equiv.Perm ℕ)

theorem bandpassSingle_renamed (tiles tiles' freqs : List ℕ) (g g' : ℕ → ℕ → ℂ) (hp : tiles'.Perm (tiles.map π))
    (hg : ∀ f t, g' f (π t) = g f t) (f : ℕ) :
    bandpassSingle (fun z : ℂ => ‖z‖) rmeanTwo g' freqs tiles' f = bandpassSingle (fun z : ℂ => ‖z‖) rmeanTwo g freqs tiles f := by
  unfold bandpassSingle
  rw [rmeanTwo_perm (hp.map _), List.map_map]
  congr 1
  apply List.map_congr_left
  intro t _
  simp only [Function.comp, hg]

theorem mem_renamed {l l' : List ℕ} (h : l'.Perm (l.map π)) (t : ℕ) : π t ∈ l' ↔ t ∈ l := by
  rw [h.mem_iff, List.mem_map]
  constructor
  · rintro ⟨s, hs, e⟩
    rwa [π.injective e] at hs
  · exact fun ht => ⟨t, ht, rfl⟩

theorem cableTiles_renamed {tiles tiles' : List ℕ} (hp : tiles'.Perm (tiles.map π)) (gl : Bool) (cable : ℕ → ℕ) (k : ℕ) :
    (cableTiles gl (fun t => cable (π.symm t)) tiles' k).Perm ((cableTiles gl cable tiles k).map π) := by
  unfold cableTiles
  cases gl
  · simp only [Bool.false_eq_true, if_false]
    refine (hp.filter _).trans ?_
    rw [List.filter_map]
    simp [Function.comp_def]
  · simpa using hp

theorem chainBandpass_renamed (q q' : FitOpts) (hc : q'.cables = q.cables.map fun q => (q.1, fun t => q.2 (π.symm t)))
    (hr : q'.ratio.isSome = q.ratio.isSome) (freqs tiles tiles' : List ℕ) (hp : tiles'.Perm (tiles.map π)) (g g' : ℕ → ℕ → ℂ)
    (hg : ∀ f t, g' f (π t) = g f t) (f t : ℕ) :
    (chainBandpass q' freqs tiles' g').bandpass f (π t) = (chainBandpass q freqs tiles g).bandpass f t ∧
    (chainBandpass q' freqs tiles' g').remainder f (π t) = (chainBandpass q freqs tiles g).remainder f t := by
  unfold chainBandpass
  rw [hc]
  cases hq : q.cables with
  | none =>
    simp only [Option.map_none]
    unfold bandpassGlobal
    simp only [bandpassSingle_renamed π tiles tiles' freqs g g' hp hg, hg, and_self]
  | some qc =>
    obtain ⟨cables, cable⟩ := qc
    simp only [Option.map_some]
    unfold bandpassCable
    simp only [hr]
    have hany : (cables.any fun c => (tiles'.filter fun t => decide (cable (π.symm t) = c)).isEmpty) =
        cables.any fun c => (tiles.filter fun t => decide (cable t = c)).isEmpty := by
      congr 1
      funext k
      have := cableTiles_renamed π hp false cable k
      unfold cableTiles at this
      simp only [Bool.false_eq_true, if_false] at this
      rw [Bool.eq_iff_iff, List.isEmpty_iff, List.isEmpty_iff, ← List.length_eq_zero_iff, ← List.length_eq_zero_iff, this.length_eq,
        List.length_map]
    rw [hany]
    generalize (q.ratio.isSome || cables.any fun c => (tiles.filter fun t => decide (cable t = c)).isEmpty) = gl
    have hfold : ∀ (l : List ℕ) (a a' : ℕ → ℕ → ℂ), (∀ f t, a' f (π t) = a f t) → ∀ f t,
        l.foldl (cableStep (fun x : ℝ => (x : ℂ)) (fun z : ℂ => ‖z‖) rmeanTwo g' freqs tiles' (fun t => cable (π.symm t)) gl) a' f (π t) =
        l.foldl (cableStep (fun x : ℝ => (x : ℂ)) (fun z : ℂ => ‖z‖) rmeanTwo g freqs tiles cable gl) a f t := by
      intro l
      induction l with
      | nil => exact fun a a' h => h
      | cons k l ih =>
        intro a a' h
        refine ih _ _ fun f t => ?_
        unfold cableStep
        have hct := cableTiles_renamed π hp gl cable k
        simp only [bandpassSingle_renamed π _ _ freqs g g' hct hg, mem_renamed π hct, h]
    have h0 := hfold cables (fun _ _ => 0) (fun _ _ => 0) (fun _ _ => rfl) f t
    refine ⟨h0, ?_⟩
    simp only [h0, hg]

theorem chainDivide_renamed (q q' : FitOpts) (a : Option ((ℕ → ℕ → ℝ) × List ℕ)) (r' : ℕ → ℕ → ℝ) (l' : List ℕ)
    (hq : q.ratio = a) (hq' : q'.ratio = a.map fun _ => (r', l')) (hr : ∀ r l, a = some (r, l) → ∀ f t, r' f (π t) = r f t)
    (g g' : ℕ → ℕ → ℂ) (hg : ∀ f t, g' f (π t) = g f t) (f t : ℕ) : chainDivide q' g' f (π t) = chainDivide q g f t := by
  unfold chainDivide
  rw [hq, hq']
  rcases a with - | ⟨r, l⟩
  · exact hg f t
  · simp only [Option.map_some, autoRatioDivide, hg, hr r l rfl]

theorem chainRemultiply_renamed (q q' : FitOpts) (a : Option ((ℕ → ℕ → ℝ) × List ℕ)) (r' : ℕ → ℕ → ℝ) (l' : List ℕ)
    (hq : q.ratio = a) (hq' : q'.ratio = a.map fun _ => (r', l')) (hr : ∀ r l, a = some (r, l) → ∀ f t, r' f (π t) = r f t)
    (hl : ∀ r l, a = some (r, l) → l'.Perm (l.map π))
    (g g' : ℕ → ℕ → ℂ) (hg : ∀ f t, g' f (π t) = g f t) (f t : ℕ) : chainRemultiply q' g' f (π t) = chainRemultiply q g f t := by
  unfold chainRemultiply
  rw [hq, hq']
  rcases a with - | ⟨r, l⟩
  · exact hg f t
  · simp only [Option.map_some, autoRatioRemultiply, hg, hr r l rfl, mem_renamed π (hl r l rfl)]

theorem calStatistics_renamed (tiles tiles' freqs : List ℕ) (hp : tiles'.Perm (tiles.map π)) (a a' b b' : ℕ → ℕ → ℝ)
    (ha : ∀ f t, a' f (π t) = a f t) (hb : ∀ f t, b' f (π t) = b f t) :
    calStatistics tiles' freqs a' b' = calStatistics tiles freqs a b := by
  have hv : ∀ g g' : ℕ → ℕ → ℝ, (∀ f t, g' f (π t) = g f t) →
      (freqs.flatMap fun f => tiles'.map fun t => g' f t).Perm (freqs.flatMap fun f => tiles.map fun t => g f t) := by
    intro g g' hg
    refine List.Perm.flatMap_left _ fun f _ => ?_
    refine (hp.map _).trans ?_
    rw [List.map_map]
    simp only [Function.comp_def, hg]
    exact List.Perm.refl _
  have he : tiles' = [] ↔ tiles = [] := by
    rw [← List.length_eq_zero_iff, ← List.length_eq_zero_iff, hp.length_eq, List.length_map]
  unfold calStatistics
  simp only [he]
  split_ifs
  · rfl
  · rw [(hv a a' ha).sum_eq, (hv a a' ha).length_eq, (hv b b' hb).sum_eq, (hv b b' hb).length_eq, resistantMean_perm (hv b b' hb),
      npVar_perm (hv b b' hb)]

theorem option_mapM_inv {α : Type} : ∀ (l : List (Option α)) (r : List α), l.mapM id = some r → l = r.map some := by
  intro l
  induction l with
  | nil => intro r h; cases h; rfl
  | cons a l ih =>
    intro r h
    rw [List.mapM_cons] at h
    simp only [bind, Option.bind, pure] at h
    cases a with
    | none => cases h
    | some a =>
      simp only [id] at h
      cases hl : l.mapM id with
      | none => rw [hl] at h; cases h
      | some b =>
        rw [hl] at h
        cases h
        rw [List.map_cons, ih b hl]

theorem renamed_apply (g : Gains) (p f t : ℕ) : renamed π g p f (π t) = g p f t := by simp [renamed]

theorem eq_renamed {g g' : Gains} (h : ∀ p f t, g' p f (π t) = g p f t) : g' = renamed π g := by
  funext p f t
  have := h p f (π.symm t)
  rwa [Equiv.apply_symm_apply] at this

theorem solveStep_renamed {c c' : CalibrateIn} (h : RenamedCal π c c') (hπ : ∀ t, π t < c.run.nTile ↔ t < c.run.nTile)
    (hflag : ∀ p < c.run.nPol, FlagsAgree c.run p)
    (href : c.run.noRef = false → ∀ p < c.run.nPol, refTile ((renumbered c.run π).tiles p) = π (refTile (c.run.tiles p)))
    (g x : Gains) (hx : c.solveStepOf g = .ok x) : c'.solveStepOf (renamed π g) = .ok (renamed π x) := by
  unfold CalibrateIn.solveStepOf at hx ⊢
  cases hc : calRun { c.run with gain := g } with
  | error e => rw [hc] at hx; cases hx
  | ok o =>
    cases o with
    | none => rw [hc] at hx; cases hx
    | some r =>
      rw [hc] at hx
      cases hx
      unfold calRun at hc
      simp only [bind, Except.bind, pure, Except.pure] at hc
      cases hm : (List.range c.run.nPol).mapM (calRunPol { c.run with gain := g }) with
      | error e => rw [hm] at hc; cases hc
      | ok l =>
        rw [hm] at hc
        simp only at hc
        cases hl : l.mapM id with
        | none => rw [hl] at hc; cases hc
        | some ps =>
          rw [hl] at hc
          cases hc
          have hlm := option_mapM_inv l ps hl
          obtain ⟨hlen, hall⟩ := mapM_all_inv _ _ _ hm
          rw [List.length_range] at hlen
          have hpl : ps.length = c.run.nPol := by rw [← hlen, hlm, List.length_map]
          have hpol : ∀ p < c.run.nPol, ∃ rp rp', ps[p]? = some rp ∧ calRunPol { c'.run with gain := renamed π g } p = .ok (some rp') ∧
              ∀ f t, rp'.gain f (π t) = rp.gain f t := by
            intro p hp
            obtain ⟨y, hy1, hy2⟩ := hall p p (List.getElem?_range hp)
            rw [hlm, List.getElem?_map] at hy1
            cases hps : ps[p]? with
            | none => rw [hps] at hy1; cases hy1
            | some rp =>
              rw [hps] at hy1
              cases hy1
              obtain ⟨rp', h1, -, h2⟩ := C238_numbers { c.run with gain := g } π hπ p (hflag p hp) (fun hn => href hn p hp) rp hy2
              refine ⟨rp, rp', rfl, ?_, fun f t => (h2 f t).1⟩
              rw [h.run]
              exact h1
          have : Nonempty (CalRunPol ℂ ℝ) := ⟨⟨fun _ _ => none, fun _ _ => 0, fun _ _ => 0, 0⟩⟩
          choose! rp rp' hr1 hr2 hr3 using hpol
          have hn : c'.run.nPol = c.run.nPol := by rw [h.run]; rfl
          have hrun : calRun { c'.run with gain := renamed π g } =
              .ok (some ⟨(List.range c.run.nPol).map rp', nVisCal { c'.run with gain := renamed π g }⟩) := by
            unfold calRun
            rw [show ({ c'.run with gain := renamed π g } : CalRunIn ℂ ℝ).nPol = c.run.nPol from hn,
              mapM_ok _ (fun p => some (rp' p)) _ (fun p hp => hr2 p (List.mem_range.1 hp))]
            simp only [bind, Except.bind, pure, Except.pure]
            rw [option_mapM_map]
          rw [hrun]
          simp only [Except.ok.injEq]
          apply eq_renamed
          intro p f t
          by_cases hp : p < c.run.nPol
          · rw [List.getElem?_map, List.getElem?_range hp, hr1 p hp]
            simp [hr3 p hp]
          · rw [List.getElem?_eq_none (by simpa using hp), List.getElem?_eq_none (by omega)]
            rfl

theorem polyfit_renamed {c c' : CalibrateIn} (h : RenamedCal π c c') (hπ : ∀ t, π t < c.run.nTile ↔ t < c.run.nTile)
    (u u' : InUse) (hu : SameUse π u u') (g x : Gains) (hx : c.polyfitOf u g = .ok x) :
    c'.polyfitOf u' (renamed π g) = .ok (renamed π x) := by
  unfold CalibrateIn.polyfitOf at hx ⊢
  simp only [bind, Except.bind] at hx ⊢
  have hn : c'.run.nPol = c.run.nPol := by rw [h.run]; rfl
  have ht : c'.run.nTile = c.run.nTile := by rw [h.run]; rfl
  rw [hn, ht, h.fit, h.jump, h.ampDeg, h.phaseDeg, h.low, hu.1]
  set P := fun (g : ℕ → ℂ) => polyTile (complexFit c.fit) c.jump c.ampDeg c.phaseDeg u.freqs c.low g with hP
  cases hm : (List.range c.run.nPol).mapM fun p => (List.range c.run.nTile).mapM fun t => P fun f => g p f t with
  | error e =>
    simp only [hP] at hm
    rw [hm] at hx
    cases hx
  | ok hs =>
    have hm0 := hm
    simp only [hP] at hm
    rw [hm] at hx
    cases hx
    obtain ⟨hlen, hall⟩ := mapM_all_inv _ _ _ hm0
    rw [List.length_range] at hlen
    have hin : ∀ p < c.run.nPol, ∃ l : List (ℕ → ℂ), hs[p]? = some l ∧ l.length = c.run.nTile ∧ ∀ t < c.run.nTile, ∃ y,
        l[t]? = some y ∧ P (fun f => g p f t) = .ok y := by
      intro p hp
      obtain ⟨l, h1, h2⟩ := hall p p (List.getElem?_range hp)
      obtain ⟨h3, h4⟩ := mapM_all_inv _ _ _ h2
      refine ⟨l, h1, by rw [h3, List.length_range], fun t htt => h4 t t (List.getElem?_range htt)⟩
    choose! L hL1 hL2 hL3 using hin
    choose! Y hY1 hY2 using hL3
    have hm' : ((List.range c.run.nPol).mapM fun p => (List.range c.run.nTile).mapM fun t => P fun f => renamed π g p f t) =
        .ok ((List.range c.run.nPol).map fun p => (List.range c.run.nTile).map fun t => Y p (π.symm t)) := by
      refine mapM_ok _ _ _ fun p hp => mapM_ok _ _ _ fun t htt => ?_
      have hlt : π.symm t < c.run.nTile := by
        rw [← hπ, Equiv.apply_symm_apply]
        exact List.mem_range.1 htt
      exact hY2 p (List.mem_range.1 hp) _ hlt
    rw [hm']
    simp only [Except.ok.injEq]
    apply eq_renamed
    intro p f t
    by_cases hp : p < c.run.nPol
    · simp only [List.getD_eq_getElem?_getD, List.getElem?_map, List.getElem?_range hp, hL1 p hp, Option.map_some, Option.getD_some]
      by_cases htt : t < c.run.nTile
      · rw [List.getElem?_range ((hπ t).2 htt), hY1 p hp t htt]
        simp
      · rw [List.getElem?_eq_none (by rw [List.length_range]; exact not_lt.1 fun h => htt ((hπ t).1 h)),
          List.getElem?_eq_none (by rw [hL2 p hp]; omega)]
        rfl
    · have e1 : ((List.range c.run.nPol).map fun p => (List.range c.run.nTile).map fun t => Y p (π.symm t))[p]? = none :=
        List.getElem?_eq_none (by simpa using hp)
      have e2 : hs[p]? = none := List.getElem?_eq_none (by omega)
      simp only [List.getD_eq_getElem?_getD, e1, e2]
      simp

/-- The steps of `calibrate` with some fit of polynomials. -/
noncomputable def stepsWith (c : CalibrateIn) (o : CalOpts) (P : InUse → Gains → Py Gains) :
    CalSteps Gains InUse (Py ((ℕ → ℕ → ℕ → ℂ) × Option ℂ)) :=
  { c.steps o with polyfit := P }

/-- `calibrate` with some fit of polynomials. -/
noncomputable def calibrateWith (c : CalibrateIn) (o : CalOpts) (P : InUse → Gains → Py Gains) (u : InUse) : Py CalibrateOut := do
  let r ← calibrateGains (stepsWith c o P) o u
  let v ← r.1
  .ok { vis := v.1, gain := r.2.2.1, residual := r.2.2.2, inUse := r.2.1,
        stats := fun p => calStatistics r.2.1.tiles r.2.1.freqs (fun f t => ‖r.2.2.1 p f t‖) (fun f t => ‖r.2.2.2 p f t‖) }

/-- The fits `P` and `P'` do the same to tiles and to renamed tiles. -/
def PolyRenamed (P P' : InUse → Gains → Py Gains) : Prop :=
  ∀ u u', SameUse π u u' → ∀ g x, P u g = .ok x → P' u' (renamed π g) = .ok (renamed π x)

theorem calFits_renamed {c c' : CalibrateIn} (h : RenamedCal π c c') (o : CalOpts) (P P' : InUse → Gains → Py Gains) (hP : PolyRenamed π P P')
    (u u' : InUse) (hu : SameUse π u u') (g x : Gains) (hx : calFits (stepsWith c o P) o u g = .ok x) :
    calFits (stepsWith c' o P') o u' (renamed π g) = .ok (renamed π x) := by
  have hratio : ∀ p, (c'.fitOpts o p).ratio = ((c.fitOpts o p).ratio).map fun _ => (c'.ratio p, c'.autoTiles) := by
    intro p
    simp only [CalibrateIn.fitOpts]
    split_ifs <;> rfl
  have hro : ∀ p r l, (c.fitOpts o p).ratio = some (r, l) → (∀ f t, c'.ratio p f (π t) = r f t) ∧ c'.autoTiles.Perm (l.map π) := by
    intro p r l e
    simp only [CalibrateIn.fitOpts] at e
    split_ifs at e
    cases e
    exact ⟨fun f t => h.ratio p f t, h.autoTiles⟩
  have hdiv : ∀ g, (stepsWith c' o P').divide (renamed π g) = renamed π ((stepsWith c o P).divide g) := by
    intro g
    refine eq_renamed π fun p f t => ?_
    exact chainDivide_renamed π _ _ _ _ _ rfl (hratio p) (fun r l e => (hro p r l e).1) _ _ (fun f t => renamed_apply π g p f t) f t
  have hrem : ∀ g, (stepsWith c' o P').remultiply (renamed π g) = renamed π ((stepsWith c o P).remultiply g) := by
    intro g
    refine eq_renamed π fun p f t => ?_
    exact chainRemultiply_renamed π _ _ _ _ _ rfl (hratio p) (fun r l e => (hro p r l e).1) (fun r l e => (hro p r l e).2) _ _
      (fun f t => renamed_apply π g p f t) f t
  have hbp : ∀ g b, (stepsWith c o P).bandpass u g = .ok b → (stepsWith c' o P').bandpass u' (renamed π g) = .ok (renamed π b.1, renamed π b.2) := by
    intro g b hb
    simp only [stepsWith, CalibrateIn.steps, Except.ok.injEq] at hb
    subst hb
    simp only [stepsWith, CalibrateIn.steps, Except.ok.injEq, Prod.mk.injEq]
    have key : ∀ p f t, _ ∧ _ := fun p f t => chainBandpass_renamed π (c.fitOpts o p) (c'.fitOpts o p) h.cables
      (by rw [hratio p]; cases (c.fitOpts o p).ratio <;> rfl) u.freqs u.tiles u'.tiles hu.2 (g p) (renamed π g p)
      (fun f t => renamed_apply π g p f t) f t
    rw [hu.1]
    exact ⟨eq_renamed π fun p f t => (key p f t).1, eq_renamed π fun p f t => by
      show Option.getD _ 0 = Option.getD _ 0
      rw [(key p f t).2]⟩
  have hmul : ∀ a b, (stepsWith c' o P').mul (renamed π a) (renamed π b) = renamed π ((stepsWith c o P).mul a b) := fun a b => rfl
  have hd : (if o.autoRatio then (stepsWith c' o P').divide (renamed π g) else renamed π g) =
      renamed π (if o.autoRatio then (stepsWith c o P).divide g else g) := by
    split_ifs
    · exact hdiv g
    · rfl
  have hm : ∀ h, (if o.autoRatio then (stepsWith c' o P').remultiply (renamed π h) else renamed π h) =
      renamed π (if o.autoRatio then (stepsWith c o P).remultiply h else h) := by
    intro h
    split_ifs
    · exact hrem h
    · rfl
  unfold calFits at hx ⊢
  by_cases h1 : o.bandpass = true
  · rw [if_pos h1] at hx ⊢
    simp only [bind, Except.bind] at hx ⊢
    rw [hd]
    cases hb : (stepsWith c o P).bandpass u (if o.autoRatio then (stepsWith c o P).divide g else g) with
    | error e => rw [hb] at hx; cases hx
    | ok b =>
      rw [hb] at hx
      rw [hbp _ _ hb]
      simp only at hx ⊢
      by_cases h2 : o.polyfit = true
      · rw [if_pos h2] at hx ⊢
        cases hq : (stepsWith c o P).polyfit u b.2 with
        | error e => rw [hq] at hx; cases hx
        | ok q =>
          rw [hq] at hx
          rw [show (stepsWith c' o P').polyfit u' (renamed π b.2) = .ok (renamed π q) from hP u u' hu b.2 q hq]
          simp only [hmul, hm] at hx ⊢
          cases hx
          rfl
      · rw [if_neg h2] at hx ⊢
        simp only [hm] at hx ⊢
        cases hx
        rfl
  · rw [if_neg h1] at hx ⊢
    by_cases h2 : o.polyfit = true
    · rw [if_pos h2] at hx
      cases hx
    · rw [if_neg h2] at hx ⊢
      cases hx
      rfl

end Steps

theorem calibrateWith_numbers (π : Equiv.Perm ℕ) (c c' : CalibrateIn) (h : RenamedCal π c c') (hπ : ∀ t, π t < c.run.nTile ↔ t < c.run.nTile)
    (hflag : ∀ p < c.run.nPol, FlagsAgree c.run p)
    (href : c.run.noRef = false → ∀ p < c.run.nPol, refTile ((renumbered c.run π).tiles p) = π (refTile (c.run.tiles p)))
    (hpol : 1 ≤ c.run.nPol ∧ c.run.nPol ≤ 2) (hAB : TilesExist c.run) (o : CalOpts) (P P' : InUse → Gains → Py Gains) (hP : PolyRenamed π P P')
    (u u' : InUse) (hu : SameUse π u u')
    (r : CalibrateOut) (hr : calibrateWith c o P u = .ok r) :
    ∃ r', calibrateWith c' o P' u' = .ok r' ∧ (∀ p f t, r'.gain p f (π t) = r.gain p f t) ∧
      (∀ p f t, r'.residual p f (π t) = r.residual p f t) ∧ SameUse π r.inUse r'.inUse ∧ r'.stats = r.stats ∧
      ∀ p < c.run.nPol, ∀ f, ∀ s < c.run.nBl * c.run.nTime, r'.vis p f s = r.vis p f s := by
  unfold calibrateWith calibrateGains at hr ⊢
  simp only [bind, Except.bind] at hr ⊢
  have hinit : ∀ x, calInit (stepsWith c o P) o = .ok x → calInit (stepsWith c' o P') o = .ok (renamed π x) := by
    intro x hx
    unfold calInit at hx ⊢
    split_ifs at hx ⊢
    · show c'.autoInit = _
      rw [h.autoInit]
      change c.autoInit = _ at hx
      rw [hx]
      rfl
    · cases hx
      show Except.ok c'.run.gain = _
      rw [h.run]
      rfl
  cases h0 : calInit (stepsWith c o P) o with
  | error e => rw [h0] at hr; cases hr
  | ok g0 =>
    rw [h0] at hr
    rw [hinit g0 h0]
    simp only at hr ⊢
    cases hs : (stepsWith c o P).solve g0 with
    | error e => rw [hs] at hr; cases hr
    | ok base =>
      rw [hs] at hr
      rw [show (stepsWith c' o P').solve (renamed π g0) = .ok (renamed π base) from solveStep_renamed π h hπ hflag href g0 base hs]
      simp only at hr ⊢
      have hobs : SameUse π (if o.flag = true then (stepsWith c o P).flag u base else u)
          (if o.flag = true then (stepsWith c' o P').flag u' (renamed π base) else u') := by
        split_ifs
        · exact h.flag u u' base hu
        · exact hu
      generalize (if o.flag = true then (stepsWith c o P).flag u base else u) = v at hr hobs
      generalize (if o.flag = true then (stepsWith c' o P').flag u' (renamed π base) else u') = v' at hobs ⊢
      cases hf : calFits (stepsWith c o P) o v base with
      | error e => rw [hf] at hr; cases hr
      | ok g =>
        rw [hf] at hr
        rw [calFits_renamed π h o P P' hP v v' hobs base g hf]
        simp only at hr ⊢
        cases ha : calAuto (stepsWith c o P) o v g with
        | error e => rw [ha] at hr; cases hr
        | ok H =>
          have ha' : calAuto (stepsWith c' o P') o v' (renamed π g) = .ok (renamed π H) := by
            unfold calAuto at ha ⊢
            split_ifs at ha ⊢
            · show c'.autoFit v' (renamed π g) = _
              rw [h.autoFit v v' g hobs]
              change c.autoFit v g = _ at ha
              rw [ha]
              rfl
            · cases ha
              rfl
          rw [ha] at hr
          rw [ha']
          simp only at hr ⊢
          have hn : c'.run.nPol = c.run.nPol := by rw [h.run]; rfl
          have hbl : c'.run.nBl * c'.run.nTime = c.run.nBl * c.run.nTime := by rw [h.run]; rfl
          have hAB' : TilesExist c'.run := by
            rw [h.run]
            exact fun s hs => ⟨(hπ _).2 (hAB s hs).1, (hπ _).2 (hAB s hs).2⟩
          obtain ⟨vis, h1, h2⟩ := applyIn_entry c hpol hAB H
          obtain ⟨vis', h1', h2'⟩ := applyIn_entry c' (by rw [hn]; exact hpol) hAB' (renamed π H)
          rw [show (stepsWith c o P).apply v H = .ok (vis, none) from h1] at hr
          rw [show (stepsWith c' o P').apply v' (renamed π H) = .ok (vis', none) from h1']
          simp only at hr ⊢
          cases hr
          refine ⟨_, rfl, fun p f t => renamed_apply π H p f t, fun p f t => ?_, hobs, ?_, fun p hp f s hs => ?_⟩
          · show renamed π base p f (π t) - renamed π H p f (π t) = base p f t - H p f t
            rw [renamed_apply, renamed_apply]
          · funext p
            simp only
            rw [hobs.1]
            apply calStatistics_renamed π _ _ _ hobs.2
            · intro f t
              rw [renamed_apply]
            · intro f t
              show ‖renamed π base p f (π t) - renamed π H p f (π t)‖ = ‖base p f t - H p f t‖
              rw [renamed_apply, renamed_apply]
          · simp only
            rw [h2 p hp f s hs, h2' p (by rw [hn]; exact hp) f s (by rw [hbl]; exact hs), h.run]
            simp only [renumbered, renamed_apply]

/-- **C284.** `calibrate` does not depend on the numbers of the tiles: with tile `t` called `π t` everywhere, tile `π t` gets the gain and
residual that tile `t` had, the calibrated data and the statistics are the same and the same tiles are in use, provided that the tile the
phases refer to stays the same. -/
theorem C284_numbers (π : Equiv.Perm ℕ) (c c' : CalibrateIn) (h : RenamedCal π c c') (hπ : ∀ t, π t < c.run.nTile ↔ t < c.run.nTile)
    (hflag : ∀ p < c.run.nPol, FlagsAgree c.run p)
    (href : c.run.noRef = false → ∀ p < c.run.nPol, refTile ((renumbered c.run π).tiles p) = π (refTile (c.run.tiles p)))
    (hpol : 1 ≤ c.run.nPol ∧ c.run.nPol ≤ 2) (hAB : TilesExist c.run) (o : CalOpts) (u u' : InUse) (hu : SameUse π u u')
    (r : CalibrateOut) (hr : calibrateAll c o u = .ok r) :
    ∃ r', calibrateAll c' o u' = .ok r' ∧ (∀ p f t, r'.gain p f (π t) = r.gain p f t) ∧
      (∀ p f t, r'.residual p f (π t) = r.residual p f t) ∧ SameUse π r.inUse r'.inUse ∧ r'.stats = r.stats ∧
      ∀ p < c.run.nPol, ∀ f, ∀ s < c.run.nBl * c.run.nTime, r'.vis p f s = r.vis p f s :=
  calibrateWith_numbers π c c' h hπ hflag href hpol hAB o c.polyfitOf c'.polyfitOf
    (fun u u' hu g x => polyfit_renamed π h hπ u u' hu g x) u u' hu r hr

/-! ## Example -/

theorem exCalibrate_renamed (fit : List ℕ → List ℝ → ℕ → List ℝ) (π : Equiv.Perm ℕ) :
    RenamedCal π (exCalibrate fit) (withRun (exCalibrate fit) (renumbered (exCalibrate fit).run π)) :=
  ⟨rfl, rfl, rfl, rfl, rfl, rfl, rfl, fun _ _ _ => rfl, List.Perm.refl _, rfl, fun _ _ _ h => h, fun _ _ _ _ => rfl, rfl⟩

/-- The first and the last of the three tiles may exchange their numbers. -/
example : ∃ fit, LeastSquaresFit fit ∧
    ∃ r, calibrateAll (withRun (exCalibrate fit) (renumbered (exCalibrate fit).run (Equiv.swap 0 2))) ⟨false, false, true, false, true, false⟩
      ⟨[0, 1, 2], [0, 1, 2]⟩ = .ok r ∧ r.vis 1 2 8 = 12 ∧ (renumbered (exCalibrate fit).run (Equiv.swap 0 2)).tileA 8 = 2 := by
  obtain ⟨fit, hfit, r, h1, h2, -⟩ := exCalibrate_ok
  have hπ : ∀ t, Equiv.swap 0 2 t < 3 ↔ t < 3 := by
    intro t
    rw [Equiv.swap_apply_def]
    split_ifs <;> omega
  obtain ⟨r', h3, -, -, -, -, h4⟩ := C284_numbers (Equiv.swap 0 2) (exCalibrate fit) _ (exCalibrate_renamed fit _) hπ
    (by
      intro p _ b hb
      simp only [exCalibrate]
      refine ⟨⟨by norm_num, trivial⟩, ?_, trivial⟩
      split_ifs <;> norm_num)
    (by
      intro _ p _
      have hm : 1 ∈ (renumbered (exCalibrate fit).run (Equiv.swap 0 2)).tiles p := by
        have := (mem_renamed (Equiv.swap 0 2) (tiles_renumbered (exCalibrate fit).run (Equiv.swap 0 2) hπ p) 1).2
          (by rw [exCalibrate_tiles]; decide)
        exact this
      unfold refTile
      rw [exCalibrate_tiles, if_pos hm]
      rfl)
    (by simp [exCalibrate]) (exCalibrate_exist fit) _ ⟨[0, 1, 2], [0, 1, 2]⟩ ⟨[0, 1, 2], [0, 1, 2]⟩ ⟨rfl, by decide⟩ r h1
  exact ⟨fit, hfit, r', h3, by rw [h4 1 (by simp [exCalibrate]) 2 8 (by simp [exCalibrate])]; exact h2, rfl⟩

end PyFHD
