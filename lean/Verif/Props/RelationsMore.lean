import Verif.Props.Relations
import Verif.Props.Rebin
import Verif.Props.WeightsUpdate

/-!
# Further relations between runs (C193-C197)
-/

namespace PyFHD

open Spec

/-! ## C193: updating the weights twice -/

theorem zeroWhere_idem (n : ℕ) (w : Weights) (c : ℕ → ℕ → Bool) (h : ∀ p < n, ∀ f b, c f b = true → w p f b = 0) :
    zeroWhere n w c = w := by
  funext p f b
  unfold zeroWhere
  split_ifs with hc
  · exact (h p hc.1 f b hc.2).symm
  · rfl

theorem zeroWhere_zero (n : ℕ) (w : Weights) (c d : ℕ → ℕ → Bool) (h : ∀ p < n, ∀ f b, c f b = true → w p f b = 0) :
    ∀ p < n, ∀ f b, c f b = true → zeroWhere n w d p f b = 0 := by
  intro p hp f b hc
  unfold zeroWhere
  split_ifs
  · rfl
  · exact h p hp f b hc

theorem zeroWhere_self (n : ℕ) (w : Weights) (c : ℕ → ℕ → Bool) :
    ∀ p < n, ∀ f b, c f b = true → zeroWhere n w c p f b = 0 := by
  intro p hp f b hc
  unfold zeroWhere
  rw [if_pos ⟨hp, hc⟩]

/-- Which samples the tile flags remove does not depend on the weights. -/
theorem tileFlagStep_cases (o : FlagObs) :
    (∃ e, ∀ w, tileFlagStep o w = .error e) ∨ ∃ c, ∀ w, tileFlagStep o w = .ok (zeroWhere o.nPol w c) := by
  unfold tileFlagStep
  split_ifs with h
  · simp only [bind, Except.bind, pure, Except.pure]
    cases arrayMatch o.tileA (some (tileCut o)) (some o.tileB) with
    | error e => left; exact ⟨e, fun _ => rfl⟩
    | ok m =>
      right
      cases m with
      | none => exact ⟨_, fun _ => rfl⟩
      | some l => exact ⟨_, fun _ => rfl⟩
  · right
    exact ⟨fun _ _ => false, fun w => by
      simp only [pure, Except.pure]
      congr 1
      funext p f b
      simp [zeroWhere]⟩

theorem vwuMin_neg (o : FlagObs) (q : UvParams) (f b : ℕ) (h : (vwuMin o q f b).1 < 0) :
    vwuMin o q f b = (-1, -1) := by
  revert h
  unfold vwuMin
  simp only []
  split_ifs with h1 h2 h3 h4 h5 <;> intro h <;> first | rfl | skip
  all_goals
    exfalso
    simp only [] at h
    push Not at h2
    linarith [h2.1]

/-- **C193.** Updating the weights again changes nothing: the weights and the counts stay. -/
theorem C193_idempotent (o : FlagObs) (q : UvParams) (w : Weights) (r : VwuResult)
    (h : visWeightsUpdate o q w = .ok r) : visWeightsUpdate o q r.weights = .ok r := by
  unfold visWeightsUpdate at h
  rcases tileFlagStep_cases o with ⟨e, he⟩ | ⟨c, hc⟩
  · simp only [he, bind, Except.bind] at h
    cases h
  · simp only [hc, bind, Except.bind, pure, Except.pure] at h
    set c1 : ℕ → ℕ → Bool := fun f _ => decide (o.freqUse f = 0) with hc1
    set c3 : ℕ → ℕ → Bool := fun _ b => decide (o.timeUse (timeBin o b) = 0 ∧ 0 < o.nTime) with hc3
    set c4 : ℕ → ℕ → Bool := fun f b => decide ((vwuMin o q f b).1 < 0) with hc4
    set w3 := zeroWhere o.nPol (zeroWhere o.nPol (zeroWhere o.nPol w c1) c) c3 with hw3
    set w4 := zeroWhere o.nPol w3 c4 with hw4
    have z1 : ∀ p < o.nPol, ∀ f b, c1 f b = true → w4 p f b = 0 :=
      zeroWhere_zero _ _ _ _ (zeroWhere_zero _ _ _ _ (zeroWhere_zero _ _ _ _ (zeroWhere_self _ _ _)))
    have z2 : ∀ p < o.nPol, ∀ f b, c f b = true → w4 p f b = 0 :=
      zeroWhere_zero _ _ _ _ (zeroWhere_zero _ _ _ _ (zeroWhere_self _ _ _))
    have z3 : ∀ p < o.nPol, ∀ f b, c3 f b = true → w4 p f b = 0 :=
      zeroWhere_zero _ _ _ _ (zeroWhere_self _ _ _)
    have z4 : ∀ p < o.nPol, ∀ f b, c4 f b = true → w4 p f b = 0 := zeroWhere_self _ _ _
    have hr : r.weights = w4 := by
      split at h
      · split_ifs at h
        · cases h; rfl
        · split at h
          · cases h
          · cases h; rfl
      · cases h
    rw [hr]
    unfold visWeightsUpdate
    simp only [hc, bind, Except.bind, pure, Except.pure]
    have e3 : zeroWhere o.nPol (zeroWhere o.nPol (zeroWhere o.nPol w4 c1) c) c3 = w4 := by
      rw [zeroWhere_idem _ _ _ z1, zeroWhere_idem _ _ _ z2, zeroWhere_idem _ _ _ z3]
    rw [e3, zeroWhere_idem _ _ _ z4]
    have hxy : ∀ s : ℕ × ℕ, (if w4 0 s.1 s.2 ≤ 0 then ((-1 : ℚ), (-1 : ℚ)) else vwuMin o q s.1 s.2)
        = if w3 0 s.1 s.2 ≤ 0 then (-1, -1) else vwuMin o q s.1 s.2 := by
      intro s
      by_cases hcut : 0 < o.nPol ∧ c4 s.1 s.2 = true
      · have hm := vwuMin_neg o q s.1 s.2 (of_decide_eq_true hcut.2)
        rw [hm]
        simp
      · have : w4 0 s.1 s.2 = w3 0 s.1 s.2 := by
          rw [hw4]; unfold zeroWhere; rw [if_neg hcut]
        rw [this]
    simp only [hxy]
    exact h

/-- Tile 4 and the second time step are flagged; the second update returns the same weights and count. -/
example : ((visWeightsUpdate (exObs (fun t => if t = 3 then 0 else 1) fun t => 1 - (t : ℤ)) exUv fun _ _ _ => 1).bind
      fun r => (visWeightsUpdate (exObs (fun t => if t = 3 then 0 else 1) fun t => 1 - (t : ℤ)) exUv r.weights).map
        fun r' => (r.nVis, r'.nVis, (List.range 6).map (r'.weights 1 1)))
    = .ok (2, 2, [1, 0, 0, 0, 0, 0]) := by decide +kernel

/-! ## C194: gains one after the other -/

section Gains

variable {K R : Type} [Field K] [StarRing K] [DecidableEq K] [Field R] [LinearOrder R]

theorem applyPols_cond (c : CalApplyIn K R) (ra rb : List ℕ) (v : ℕ → ℕ → ℕ → K) (h : applyPols c ra rb = .ok v) :
    (∀ p < c.nPolVis, ∃ q, gainPol[p]? = some q ∧ q.1 < c.nPolGain ∧ q.2 < c.nPolGain) ∧
    ∀ p q, gainPol[p]? = some q → ∀ f b, v p f b = c.vis p f b * weightInvertEntry c.mag c.re true none false
      (c.gain q.1 f (ra.getD b 0) * star (c.gain q.2 f (rb.getD b 0))) := by
  unfold applyPols at h
  split_ifs at h with hc
  cases h
  refine ⟨hc, fun p q hq f b => ?_⟩
  simp only [hq]
  rfl

/-- The run without a cross-phase fit: it stops at a bad tile number or product, else divides. -/
theorem apply_run (c : CalApplyIn K R) (hx : NoCrossFit c) (v : ℕ → ℕ → ℕ → K) (s : Option K)
    (h : visCalibrationApply c = .ok (v, s)) :
    s = none ∧ ∃ ra rb, c.tileA.mapM (tileRow c.nTile) = some ra ∧ c.tileB.mapM (tileRow c.nTile) = some rb ∧
      applyPols c ra rb = .ok v := by
  unfold visCalibrationApply at h
  simp only [bind, Except.bind, pure, Except.pure] at h
  cases ha : c.tileA.mapM (tileRow c.nTile) with
  | none => simp [ha] at h
  | some ra =>
    cases hb : c.tileB.mapM (tileRow c.nTile) with
    | none => simp [ha, hb] at h
    | some rb =>
      simp only [ha, hb] at h
      cases hp : applyPols c ra rb with
      | error e => simp [hp] at h
      | ok u =>
        simp only [hp] at h
        have hu : (fun p f b => if p = 2 ∨ p = 3 then u p f b * 1 else u p f b) = u := by
          funext p f b; simp
        have key : v = u ∧ s = none := by
          by_cases h4 : c.nPolVis = 4
          · rcases hx with hx | hx | hx
            · exact absurd h4 hx
            · simp only [h4, if_true, hx, hu] at h
              cases h; exact ⟨rfl, rfl⟩
            · cases hm : c.model with
              | none => simp only [h4, if_true, hm, hu] at h; cases h; exact ⟨rfl, rfl⟩
              | some m => simp only [h4, if_true, hm, hx, hu] at h; cases h; exact ⟨rfl, rfl⟩
          · simp only [h4, if_false] at h
            cases h; exact ⟨rfl, rfl⟩
        exact ⟨key.2, ra, rb, rfl, rfl, by rw [key.1]; exact hp⟩

theorem apply_of_pols (c : CalApplyIn K R) (hx : NoCrossFit c) (v : ℕ → ℕ → ℕ → K) (ra rb : List ℕ)
    (ha : c.tileA.mapM (tileRow c.nTile) = some ra) (hb : c.tileB.mapM (tileRow c.nTile) = some rb)
    (h : applyPols c ra rb = .ok v) : visCalibrationApply c = .ok (v, none) := by
  unfold visCalibrationApply
  simp only [bind, Except.bind, pure, Except.pure, ha, hb, h]
  have hu : (fun p f b => if p = 2 ∨ p = 3 then v p f b * 1 else v p f b) = v := by
    funext p f b; simp
  by_cases h4 : c.nPolVis = 4
  · rcases hx with hx | hx | hx
    · exact absurd h4 hx
    · simp only [h4, if_true, hx, hu]
    · cases hm : c.model <;> simp only [h4, if_true, hx, hu]
  · simp only [h4, if_false]

/-- **C194.** Applying two sets of gains one after the other is applying their products. -/
theorem C194_products (c : CalApplyIn K R) (hmag : ∀ w, c.mag w = 0 ↔ w = 0) (hx : NoCrossFit c)
    (g : ℕ → ℕ → ℕ → K) (v1 v2 : ℕ → ℕ → ℕ → K) (s1 s2 : Option K)
    (h1 : visCalibrationApply c = .ok (v1, s1))
    (h2 : visCalibrationApply { c with vis := v1, gain := g } = .ok (v2, s2)) :
    ∃ v3, visCalibrationApply { c with gain := fun p f t => c.gain p f t * g p f t } = .ok (v3, none) ∧
      ∀ p < c.nPolVis, ∀ f b, v3 p f b = v2 p f b := by
  obtain ⟨-, ra, rb, ha, hb, hp1⟩ := apply_run c hx v1 s1 h1
  obtain ⟨-, ra', rb', ha', hb', hp2⟩ := apply_run { c with vis := v1, gain := g } hx v2 s2 h2
  simp only [ha, hb, Option.some.injEq] at ha' hb'
  subst ha' hb'
  obtain ⟨hc, e1⟩ := applyPols_cond _ _ _ _ hp1
  obtain ⟨-, e2⟩ := applyPols_cond _ _ _ _ hp2
  have hp3 : ∃ v3, applyPols { c with gain := fun p f t => c.gain p f t * g p f t } ra rb = .ok v3 := by
    unfold applyPols
    rw [if_pos hc]
    exact ⟨_, rfl⟩
  obtain ⟨v3, hp3⟩ := hp3
  refine ⟨v3, apply_of_pols { c with gain := fun p f t => c.gain p f t * g p f t } hx v3 ra rb ha hb hp3, fun p hp f b => ?_⟩
  obtain ⟨-, e3⟩ := applyPols_cond _ _ _ _ hp3
  obtain ⟨q, hq, -, -⟩ := hc p hp
  rw [e3 p q hq, e2 p q hq]
  simp only []
  rw [e1 p q hq, invEntry _ _ hmag, invEntry _ _ hmag, invEntry _ _ hmag, star_mul']
  have inv0 : ∀ z : K, (if z = 0 then 0 else z⁻¹) = z⁻¹ := by
    intro z; split_ifs with hz
    · rw [hz, inv_zero]
    · rfl
  rw [inv0, inv0, inv0]
  simp only [mul_inv]
  ring

/-- **C194**, the neutral element: gains of one leave the visibilities as they are. -/
theorem C194_unit (c : CalApplyIn K R) (hmag : ∀ w, c.mag w = 0 ↔ w = 0) (hx : NoCrossFit c)
    (hg : ∀ p f t, c.gain p f t = 1) (v : ℕ → ℕ → ℕ → K) (s : Option K) (h : visCalibrationApply c = .ok (v, s)) :
    ∀ p < c.nPolVis, ∀ f b, v p f b = c.vis p f b := by
  obtain ⟨-, ra, rb, ha, hb, hp1⟩ := apply_run c hx v s h
  obtain ⟨hc, e1⟩ := applyPols_cond _ _ _ _ hp1
  intro p hp f b
  obtain ⟨q, hq, -, -⟩ := hc p hp
  rw [e1 p q hq, invEntry _ _ hmag, hg, hg]
  simp

/-- **C194**, linearity: the same gains applied to a combination of visibilities. -/
theorem C194_linear (c : CalApplyIn K R) (hx : NoCrossFit c) (u : ℕ → ℕ → ℕ → K) (a d : K) (v1 v2 : ℕ → ℕ → ℕ → K)
    (s1 s2 : Option K) (h1 : visCalibrationApply c = .ok (v1, s1))
    (h2 : visCalibrationApply { c with vis := u } = .ok (v2, s2)) :
    ∃ v3, visCalibrationApply { c with vis := fun p f b => a * c.vis p f b + d * u p f b } = .ok (v3, none) ∧
      ∀ p < c.nPolVis, ∀ f b, v3 p f b = a * v1 p f b + d * v2 p f b := by
  obtain ⟨-, ra, rb, ha, hb, hp1⟩ := apply_run c hx v1 s1 h1
  obtain ⟨-, ra', rb', ha', hb', hp2⟩ := apply_run { c with vis := u } hx v2 s2 h2
  simp only [ha, hb, Option.some.injEq] at ha' hb'
  subst ha' hb'
  obtain ⟨hc, e1⟩ := applyPols_cond _ _ _ _ hp1
  obtain ⟨-, e2⟩ := applyPols_cond _ _ _ _ hp2
  have hp3 : ∃ v3, applyPols { c with vis := fun p f b => a * c.vis p f b + d * u p f b } ra rb = .ok v3 := by
    unfold applyPols
    rw [if_pos hc]
    exact ⟨_, rfl⟩
  obtain ⟨v3, hp3⟩ := hp3
  refine ⟨v3, apply_of_pols { c with vis := fun p f b => a * c.vis p f b + d * u p f b } hx v3 ra rb ha hb hp3, fun p hp f b => ?_⟩
  obtain ⟨-, e3⟩ := applyPols_cond _ _ _ _ hp3
  obtain ⟨q, hq, -, -⟩ := hc p hp
  rw [e3 p q hq, e2 p q hq, e1 p q hq]
  simp only []
  ring

/-- The example of C34 has gains, a zero gain among them, and visibilities; a second set of gains of 2 divides by 4. -/
example : NoCrossFit (exApply 2 true) ∧
    ((visCalibrationApply (exApply 2 true)).bind fun r => (visCalibrationApply { exApply 2 true with
      vis := r.1, gain := fun _ _ _ => 2 }).map fun r => (r.1 0 0 0, r.1 1 1 0, r.1 1 1 1)) = .ok (7 / 4, 7 / 4, 0) ∧
    (visCalibrationApply { exApply 2 true with gain := fun p f t => (exApply 2 true).gain p f t * 2 }).map
      (fun r => (r.1 0 0 0, r.1 1 1 0, r.1 1 1 1)) = .ok (7 / 4, 7 / 4, 0) :=
  ⟨Or.inl (by decide), by decide +kernel⟩

end Gains

/-! ## C195: the direction of a baseline -/

section Direction

variable {K : Type _} [Field K] [StarRing K]

/-- The same observation with some baselines listed in the other direction: coordinates negated, visibilities
conjugated. -/
def Spec.reversed (g : VisGridIn K) (rev : ℕ → Bool) : VisGridIn K :=
  { g with uu := fun b => if rev b then -g.uu b else g.uu b
           vv := fun b => if rev b then -g.vv b else g.vv b
           vis := fun f b => if rev b then star (g.vis f b) else g.vis f b }

theorem reversed_conj (g : VisGridIn K) (rev : ℕ → Bool) (hk : 0 < g.kpix) (b : ℕ) (hb : rev b = true → g.vv b ≠ 0) :
    (reversed g rev).conj b = if rev b then !g.conj b else g.conj b := by
  unfold GridIn.conj reversed
  simp only []
  by_cases hr : rev b = true
  case neg => simp [hr]
  case pos =>
    simp only [hr, if_true, div_pos_iff_of_pos_right hk]
    rcases lt_or_gt_of_ne (hb hr) with h | h
    · simp [h, not_lt.2 h.le]
    · simp [h, not_lt.2 h.le]

theorem reversed_k (g : VisGridIn K) (rev : ℕ → Bool) (hk : 0 < g.kpix) (b : ℕ) (hb : rev b = true → g.vv b ≠ 0) :
    (reversed g rev).kx b = g.kx b ∧ (reversed g rev).ky b = g.ky b := by
  unfold GridIn.kx GridIn.ky
  rw [reversed_conj g rev hk b hb]
  unfold reversed
  simp only []
  by_cases hr : rev b = true <;> by_cases hc : g.conj b = true <;> simp [hr, hc, neg_div]

theorem reversed_visUse (g : VisGridIn K) (rev : ℕ → Bool) (s : ℕ × ℕ) (hb : rev s.2 = true → g.vv s.2 ≠ 0) :
    (reversed g rev).visUse s = g.visUse s := by
  unfold VisGridIn.visUse reversed
  simp only []
  by_cases hr : rev s.2 = true
  case neg => simp [hr]
  case pos =>
    simp only [hr, if_true]
    rcases lt_or_gt_of_ne (hb hr) with h | h
    · simp [h, not_lt.2 h.le]
    · simp [h, not_lt.2 h.le]

theorem reversed_corner (g : VisGridIn K) (rev : ℕ → Bool) (hk : 0 < g.kpix) (hm : g.mask = false)
    (hn : ∀ x y, g.norm (-x) (-y) = g.norm x y) (f b : ℕ) (hb : rev b = true → g.vv b ≠ 0) :
    (reversed g rev).corner f b = g.corner f b := by
  obtain ⟨h1, h2⟩ := reversed_k g rev hk b hb
  have hx : (reversed g rev).xcen f b = g.xcen f b := by unfold GridIn.xcen; rw [h1]; rfl
  have hy : (reversed g rev).ycen f b = g.ycen f b := by unfold GridIn.ycen; rw [h2]; rfl
  have hd : (reversed g rev).distFlag b = g.distFlag b := by
    unfold GridIn.distFlag reversed
    simp only []
    by_cases hr : rev b = true
    · simp only [hr, if_true, neg_div, hn]
    · simp only [hr]
      rfl
  unfold GridIn.corner
  rw [hx, hy, hd]
  simp only [reversed, hm, Bool.false_eq_true, false_and, if_false]

/-- **C195.** The direction in which a baseline is listed does not matter: with coordinates negated and visibilities
conjugated the gridding returns the same. -/
theorem C195_direction (g : VisGridIn K) (rev : ℕ → Bool) (hk : 0 < g.kpix) (hm : g.mask = false)
    (hn : ∀ x y, g.norm (-x) (-y) = g.norm x y) (hf : g.freqAll ≠ []) (hl : ∀ b, 0 ≤ blLength g.toGridIn b)
    (hv : ∀ b ∈ g.biUse, rev b = true → g.vv b ≠ 0) : visibilityGrid (reversed g rev) = visibilityGrid g := by
  have hflat : (reversed g rev).flat = g.flat := rfl
  have hsel : ∀ s ∈ g.flat, rev s.2 = true → g.vv s.2 ≠ 0 := by
    intro s hs
    unfold GridIn.flat at hs
    simp only [List.mem_flatMap, List.mem_map] at hs
    obtain ⟨f, -, b, hb, rfl⟩ := hs
    exact hv b hb
  have hcorner : ∀ s ∈ g.flat, (reversed g rev).corner s.1 s.2 = g.corner s.1 s.2 :=
    fun s hs => reversed_corner g rev hk hm hn s.1 s.2 (hsel s hs)
  have hpix : ∀ s ∈ g.flat, (reversed g rev).pixel s = g.pixel s := by
    intro s hs
    unfold GridIn.pixel
    rw [hcorner s hs]
    rfl
  have hbins : gridBins (reversed g rev).toGridIn = gridBins g.toGridIn := by
    unfold gridBins
    rw [hflat]
    have e1 : (g.flat.map fun s => ((reversed g rev).corner s.1 s.2).1) = g.flat.map fun s => (g.corner s.1 s.2).1 :=
      List.map_congr_left fun s hs => by rw [hcorner s hs]
    have e2 : (g.flat.map fun s => ((reversed g rev).corner s.1 s.2).2) = g.flat.map fun s => (g.corner s.1 s.2).2 :=
      List.map_congr_left fun s hs => by rw [hcorner s hs]
    have e3 : g.flat.map (reversed g rev).pixel = g.flat.map g.pixel := List.map_congr_left hpix
    simp only [e1, e2, e3]
  have hcore : visGridCore (reversed g rev) = visGridCore g := by
    unfold visGridCore
    rw [hbins]
    simp only [bind, Except.bind, pure, Except.pure]
    rcases gridBins_spec g.toGridIn hf hl with ⟨h, _⟩ | ⟨r, hi, h, h0, hall, hs, hex⟩
    · rw [h]
    · rw [h]
      simp only []
      split_ifs
      · rfl
      · have hnf : ((reversed g rev).fiUse.map fun f =>
            ((reversed g rev).biUse.filter fun bl => 0 < ((reversed g rev).corner f bl).1).length)
            = g.fiUse.map fun f => (g.biUse.filter fun bl => 0 < (g.corner f bl).1).length := by
          refine List.map_congr_left fun f _ => ?_
          congr 1
          refine List.filter_congr fun b hb => ?_
          rw [reversed_corner g rev hk hm hn f b (hv b hb)]
        rw [hnf]
        have hrows : ∀ i ∈ nonzeroIdx r.hist, (reversed g rev).binRows ((riSlice r.ri i).getD [])
            = g.binRows ((riSlice r.ri i).getD []) := by
          intro i hi'
          have hlen : r.hist.length = (hi - 0 + 1).toNat := by rw [hs.hist]; simp
          have hn' : i < (hi - 0 + 1).toNat := by
            rw [mem_nonzeroIdx] at hi'
            by_contra hge
            apply hi'
            simp only [List.getD, List.getElem?_eq_none (by omega : r.hist.length ≤ i), Option.getD_none]
          have hne : r.hist.getD i 0 ≠ 0 := (mem_nonzeroIdx _ _).1 hi'
          rw [hs.slices i hn', Option.getD_some]
          set l := positions (fun d => d = 0 + (i : ℤ)) (g.flat.map g.pixel) with hldef
          have hmem : ∀ k ∈ l, g.flat.getD k (0, 0) ∈ g.flat := by
            intro k hkl
            obtain ⟨d, hd, hdi⟩ := (mem_positions _ _ _).1 hkl
            rw [List.getElem?_map] at hd
            obtain ⟨s, hs1, hs2⟩ := Option.map_eq_some_iff.1 hd
            rw [List.getD_eq_getElem?_getD, hs1]
            exact List.mem_of_getElem? hs1
          have hcen : ∀ k ∈ l, (reversed g rev).xcen (g.flat.getD k (0, 0)).1 (g.flat.getD k (0, 0)).2
                = g.xcen (g.flat.getD k (0, 0)).1 (g.flat.getD k (0, 0)).2 ∧
              (reversed g rev).ycen (g.flat.getD k (0, 0)).1 (g.flat.getD k (0, 0)).2
                = g.ycen (g.flat.getD k (0, 0)).1 (g.flat.getD k (0, 0)).2 := by
            intro k hkl
            obtain ⟨h1, h2⟩ := reversed_k g rev hk _ (hsel _ (hmem k hkl))
            unfold GridIn.xcen GridIn.ycen
            rw [h1, h2]
            exact ⟨rfl, rfl⟩
          have hitem : ∀ k ∈ l, (reversed g rev).item k = g.item k := by
            intro k hkl
            obtain ⟨h1, h2⟩ := hcen k hkl
            have h3 := reversed_visUse g rev _ (hsel _ (hmem k hkl))
            unfold VisGridIn.item
            rw [hflat]
            simp only [h1, h2, h3]
            rfl
          have hint : ∀ k ∈ l, (reversed g rev).interpRow k = g.interpRow k := by
            intro k hkl
            obtain ⟨h1, h2⟩ := hcen k hkl
            have h3 := reversed_visUse g rev _ (hsel _ (hmem k hkl))
            have h4 : (reversed g rev).interpW (g.flat.getD k (0, 0)).1 (g.flat.getD k (0, 0)).2
                = g.interpW (g.flat.getD k (0, 0)).1 (g.flat.getD k (0, 0)).2 := by
              unfold GridIn.interpW
              rw [h1, h2]
              rfl
            unfold VisGridIn.interpRow
            rw [hflat, hitem k hkl]
            simp only [h3, h4]
            rfl
          have hhead : l.headD 0 ∈ l ∨ l = [] := by
            cases l with
            | nil => right; rfl
            | cons x t => left; exact List.mem_cons_self ..
          unfold VisGridIn.binRows
          rw [hflat, List.map_congr_left hitem, List.map_congr_left hint]
          rcases hhead with hh | hh
          · simp only [hcorner _ (hmem _ hh)]
            rfl
          · exfalso
            apply hne
            rw [hs.hist, List.getD_eq_getElem?_getD, List.getElem?_map, List.getElem?_range hn']
            simp only [Option.map_some, Option.getD_some]
            rw [List.count_eq_zero]
            intro hm'
            obtain ⟨k, hk1, hk2⟩ := List.getElem_of_mem hm'
            have : k ∈ l := (mem_positions _ _ _).2 ⟨_, List.getElem?_eq_getElem hk1, hk2⟩
            rw [hh] at this
            cases this
        have : (List.map (fun i => (riSlice r.ri i).getD []) (nonzeroIdx r.hist)).map (reversed g rev).binRows
            = (List.map (fun i => (riSlice r.ri i).getD []) (nonzeroIdx r.hist)).map g.binRows := by
          simp only [List.map_map]
          exact List.map_congr_left hrows
        rw [this]
        rfl
  unfold visibilityGrid
  rw [hcore]
  rfl

/-- The example of C31 with the second baseline reversed. -/
example : 0 < (exVis false).kpix ∧ (exVis false).mask = false ∧ (∀ b ∈ (exVis false).biUse, (exVis false).vv b ≠ 0) ∧
    (visibilityGrid (reversed (exVis false) fun b => b == 1)).map (fun o => o.map fun o =>
      (o.planes.image 4 8, o.planes.weights 4 8, o.nVis)) = .ok (some (90, 30, 4)) ∧
    (visibilityGrid (exVis false)).map (fun o => o.map fun o =>
      (o.planes.image 4 8, o.planes.weights 4 8, o.nVis)) = .ok (some (90, 30, 4)) := by decide +kernel

example (x y : ℚ) : (exVis false).norm (-x) (-y) = (exVis false).norm x y := by simp [exVis, exGrid]

example (b : ℕ) : 0 ≤ blLength (exVis false).toGridIn b := by
  unfold blLength
  simp only [exVis, exGrid]
  positivity

end Direction

/-! ## C196: rebin in steps -/

/-- **C196.** Shrinking a float array in two steps is shrinking it in one. -/
theorem C196_two_steps (a : Arr) (s0 s1 P P' Q Q' : ℕ) (h0 : 0 < s0) (h1 : 0 < s1) (hP : 0 < P) (hQ : 0 < Q)
    (hP' : 0 < P') (hQ' : 0 < Q') (hr : a.rows = s0 * P' * P) (hc : a.cols = s1 * Q' * Q)
    (hne : 1 < P ∨ 1 < Q) (hne' : 1 < P' ∨ 1 < Q') :
    ∃ b c d, rebin false a (s0 * P') (s1 * Q') false = .ok b ∧ rebin false b s0 s1 false = .ok c ∧
      rebin false a s0 s1 false = .ok d ∧ c.rows = d.rows ∧ c.cols = d.cols ∧
      ∀ i < s0, ∀ j < s1, c.get i j = d.get i j := by
  obtain ⟨b, hb, br, bc, bg, -⟩ := C07_rebin_block_mean a (s0 * P') (s1 * Q') P Q (by positivity) (by positivity) hP hQ
    hr hc hne
  obtain ⟨c, hcc, cr, ccol, cg, -⟩ := C07_rebin_block_mean b s0 s1 P' Q' h0 h1 hP' hQ' br bc hne'
  obtain ⟨d, hd, dr, dc, dg, -⟩ := C07_rebin_block_mean a s0 s1 (P' * P) (Q' * Q) h0 h1 (by positivity) (by positivity)
    (by rw [hr, mul_assoc]) (by rw [hc, mul_assoc]) (by
      rcases hne with h | h
      · left; exact lt_of_lt_of_le h (Nat.le_mul_of_pos_left _ hP')
      · right; exact lt_of_lt_of_le h (Nat.le_mul_of_pos_left _ hQ'))
  refine ⟨b, c, d, hb, hcc, hd, by rw [cr, dr], by rw [ccol, dc], fun i hi j hj => ?_⟩
  rw [cg i j hi hj, dg i j hi hj]
  have hbs : blockSum b.get P' Q' i j = blockSum a.get (P' * P) (Q' * Q) i j / ((P : ℚ) * Q) := by
    unfold blockSum
    have e : ∀ u ∈ Finset.range P', ∑ v ∈ Finset.range Q', b.get (i * P' + u) (j * Q' + v) =
        ∑ u1 ∈ Finset.range P, ∑ v ∈ Finset.range (Q' * Q), a.get (i * (P' * P) + (u * P + u1)) (j * (Q' * Q) + v) /
          ((P : ℚ) * Q) := by
      intro u hu
      have hu' := Finset.mem_range.1 hu
      rw [Finset.sum_congr rfl fun u1 _ => (sum_blocks Q Q' fun v =>
        a.get (i * (P' * P) + (u * P + u1)) (j * (Q' * Q) + v) / ((P : ℚ) * Q)).symm]
      rw [Finset.sum_comm]
      refine Finset.sum_congr rfl fun v hv => ?_
      have hv' := Finset.mem_range.1 hv
      rw [bg _ _ (by nlinarith) (by nlinarith)]
      unfold blockSum
      rw [Finset.sum_div]
      refine Finset.sum_congr rfl fun u1 _ => ?_
      rw [Finset.sum_div]
      refine Finset.sum_congr rfl fun v1 _ => ?_
      congr 2 <;> ring
    rw [Finset.sum_congr rfl e]
    have := sum_blocks P P' fun u => ∑ v ∈ Finset.range (Q' * Q), a.get (i * (P' * P) + u) (j * (Q' * Q) + v) / ((P : ℚ) * Q)
    rw [this, Finset.sum_div]
    refine Finset.sum_congr rfl fun u _ => ?_
    rw [Finset.sum_div]
  rw [hbs]
  push_cast
  rw [div_div]
  congr 1
  ring

/-- A square of eight by eight numbers, in two steps and in one. -/
example : ((rebin false ⟨false, 8, 8, fun r c => (r * r + 3 * c * r : ℕ)⟩ 4 2 false).bind fun b =>
      (rebin false b 2 1 false).map fun c => (c.get 0 0, c.get 1 0))
    = (rebin false ⟨false, 8, 8, fun r c => (r * r + 3 * c * r : ℕ)⟩ 2 1 false).map fun c => (c.get 0 0, c.get 1 0) := by
  decide +kernel

/-! ## C197: the histogram of joined data -/

/-- **C197.** With given limits the histogram of joined data is the sum of the histograms, and the order of the data
does not matter to it. -/
theorem C197_joined (a b : List ℚ) (w lo hi : ℚ) (hw : 0 < w) (hlh : lo ≤ hi) :
    ∃ ra rb r, histogram a w none (some lo) (some hi) = .ok ra ∧ histogram b w none (some lo) (some hi) = .ok rb ∧
      histogram (a ++ b) w none (some lo) (some hi) = .ok r ∧ r.bins = ra.bins ∧ r.bins = rb.bins ∧
      r.hist = List.zipWith (· + ·) ra.hist rb.hist := by
  obtain ⟨ra, a1, a2⟩ := histogramCore_spec a hw hlh
  obtain ⟨rb, b1, b2⟩ := histogramCore_spec b hw hlh
  obtain ⟨r, r1, r2⟩ := histogramCore_spec (a ++ b) hw hlh
  refine ⟨ra, rb, r, by rw [histogram_minmax _ _ _ _ hlh, a1], by rw [histogram_minmax _ _ _ _ hlh, b1],
    by rw [histogram_minmax _ _ _ _ hlh, r1], by rw [r2.bins, a2.bins], by rw [r2.bins, b2.bins], ?_⟩
  rw [r2.hist, a2.hist, b2.hist, List.zipWith_map_left, List.zipWith_map_right, List.zipWith_self]
  refine List.map_congr_left fun i _ => ?_
  rw [List.countP_append]

theorem C197_order (a b : List ℚ) (h : a.Perm b) (w lo hi : ℚ) (hw : 0 < w) (hlh : lo ≤ hi) :
    ∃ ra rb, histogram a w none (some lo) (some hi) = .ok ra ∧ histogram b w none (some lo) (some hi) = .ok rb ∧
      rb.bins = ra.bins ∧ rb.hist = ra.hist := by
  obtain ⟨ra, a1, a2⟩ := histogramCore_spec a hw hlh
  obtain ⟨rb, b1, b2⟩ := histogramCore_spec b hw hlh
  refine ⟨ra, rb, by rw [histogram_minmax _ _ _ _ hlh, a1], by rw [histogram_minmax _ _ _ _ hlh, b1],
    by rw [b2.bins, a2.bins], ?_⟩
  rw [a2.hist, b2.hist]
  exact List.map_congr_left fun i _ => (h.countP_eq _).symm

example : (0 : ℚ) < 2 ∧ (0 : ℚ) ≤ 5 ∧ (histogram [1, 4, 2, 4] 2 none (some 0) (some 5)).map (fun r => r.hist) = .ok [1, 1, 2] ∧
    (histogram ([1, 4] ++ [2, 4]) 2 none (some 0) (some 5)).map (fun r => r.hist) = .ok [1, 1, 2] ∧
    (histogram [1, 4] 2 none (some 0) (some 5)).map (fun r => r.hist) = .ok [1, 0, 1] := by decide +kernel

end PyFHD
