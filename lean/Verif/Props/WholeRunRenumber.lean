import Verif.Props.WholeRunMore
import Verif.Props.CalibrateReflMore

/-!
# C297: the numbers of the tiles have no influence on the images of a run
-/

namespace PyFHD

open Spec

namespace Spec

/-- The observation with tile `t` called `π t`. Tiles are counted from one in the lists of the samples. -/
def renumberedObs (o : FlagObs) (π : Equiv.Perm ℕ) : FlagObs :=
  { o with tileA := o.tileA.map fun v => (π (v - 1).toNat : ℤ) + 1
           tileB := o.tileB.map fun v => (π (v - 1).toNat : ℤ) + 1
           tileUse := fun t => o.tileUse (π.symm t) }

/-- `x'` is the run `x` with tile `t` called `π t`: in the observation, in the arguments of the calibration and in the table of cables. -/
structure RenamedRun (π : Equiv.Perm ℕ) (x x' : RunIn) : Prop where
  obs : x'.obs = renumberedObs x.obs π
  uv : x'.uv = x.uv
  vis : x'.vis = x.vis
  model : x'.model = x.model
  weights : x'.weights = x.weights
  cal : RenamedCal π x.cal x'.cal
  opts : x'.opts = x.opts
  refl : (x.refl = none ∧ x'.refl = none) ∨ ∃ q q', x.refl = some q ∧ x'.refl = some q' ∧ RenamedTable π q q'
  grid : x'.grid = x.grid
  images : x'.images = x.images

end Spec

section

variable (π : Equiv.Perm ℕ)

theorem perm_range (n : ℕ) (hπ : ∀ t, π t < n ↔ t < n) : ((List.range n).map π.symm).Perm (List.range n) := by
  refine (List.perm_ext_iff_of_nodup (List.nodup_range.map π.symm.injective) List.nodup_range).2 fun t => ?_
  rw [List.mem_map, List.mem_range]
  constructor
  · rintro ⟨s, hs, rfl⟩
    rw [← hπ, Equiv.apply_symm_apply]
    exact List.mem_range.1 hs
  · intro ht
    exact ⟨π t, List.mem_range.2 ((hπ t).2 ht), by simp⟩

theorem unused_renumbered (o : FlagObs) (hπ : ∀ t, π t < o.nTile ↔ t < o.nTile) (t : ℕ) :
    UnusedTile (renumberedObs o π) ((π t : ℤ) + 1) ↔ UnusedTile o ((t : ℤ) + 1) := by
  unfold UnusedTile
  constructor
  · rintro ⟨s, h1, h2, h3⟩
    have hs : π t = s := by omega
    subst hs
    refine ⟨t, (hπ t).1 h1, ?_, rfl⟩
    change o.tileUse (π.symm (π t)) = 0 at h2
    rwa [Equiv.symm_apply_apply] at h2
  · rintro ⟨s, h1, h2, h3⟩
    have hs : t = s := by omega
    subst hs
    refine ⟨π t, (hπ t).2 h1, ?_, rfl⟩
    change o.tileUse (π.symm (π t)) = 0
    rwa [Equiv.symm_apply_apply]

theorem flagged_renumbered (o : FlagObs) (hπ : ∀ t, π t < o.nTile ↔ t < o.nTile) (hA : ∀ v ∈ o.tileA, 1 ≤ v) (hB : ∀ v ∈ o.tileB, 1 ≤ v) (b : ℕ) :
    TileFlagged (renumberedObs o π) b ↔ TileFlagged o b := by
  have key : ∀ l : List ℤ, (∀ v ∈ l, 1 ≤ v) →
      ((∃ v, UnusedTile (renumberedObs o π) v ∧ (l.map fun v => (π (v - 1).toNat : ℤ) + 1)[b]? = some v) ↔ ∃ v, UnusedTile o v ∧ l[b]? = some v) := by
    intro l hl
    rw [List.getElem?_map]
    cases h : l[b]? with
    | none => simp
    | some v =>
      have hv := hl v (List.mem_of_getElem? h)
      obtain ⟨t, rfl⟩ : ∃ t : ℕ, v = t + 1 := ⟨(v - 1).toNat, by omega⟩
      have e : ((t : ℤ) + 1 - 1).toNat = t := by omega
      simp only [Option.map_some, Option.some.injEq, e]
      constructor
      · rintro ⟨v, h1, rfl⟩
        exact ⟨_, (unused_renumbered π o hπ t).1 h1, rfl⟩
      · rintro ⟨v, h1, rfl⟩
        exact ⟨_, (unused_renumbered π o hπ t).2 h1, rfl⟩
  have k1 := key o.tileA hA
  have k2 := key o.tileB hB
  unfold TileFlagged
  constructor
  · rintro ⟨v, hv, h | h⟩
    · obtain ⟨v', a, b⟩ := k1.1 ⟨v, hv, h⟩
      exact ⟨v', a, Or.inl b⟩
    · obtain ⟨v', a, b⟩ := k2.1 ⟨v, hv, h⟩
      exact ⟨v', a, Or.inr b⟩
  · rintro ⟨v, hv, h | h⟩
    · obtain ⟨v', a, b⟩ := k1.2 ⟨v, hv, h⟩
      exact ⟨v', a, Or.inl b⟩
    · obtain ⟨v', a, b⟩ := k2.2 ⟨v, hv, h⟩
      exact ⟨v', a, Or.inr b⟩

theorem tileZero_renumbered (o : FlagObs) (hπ : ∀ t, π t < o.nTile ↔ t < o.nTile) (hl : o.tileB.length = o.tileA.length)
    (hA : ∀ v ∈ o.tileA, 1 ≤ v) (hB : ∀ v ∈ o.tileB, 1 ≤ v) (b : ℕ) : tileZero (renumberedObs o π) b = tileZero o b := by
  have hl' : (renumberedObs o π).tileB.length = (renumberedObs o π).tileA.length := by
    simp only [renumberedObs, List.length_map]
    exact hl
  have hm : ∀ b, b ∈ matchPositions (renumberedObs o π).tileA (renumberedObs o π).tileB (tileCut (renumberedObs o π)) ↔
      b ∈ matchPositions o.tileA o.tileB (tileCut o) := by
    intro b
    rw [mem_matchPositions_tileCut _ hl', mem_matchPositions_tileCut _ hl, flagged_renumbered π o hπ hA hB]
  have h1 : tileCut (renumberedObs o π) = [] ↔ tileCut o = [] := by
    simp only [List.eq_nil_iff_forall_not_mem, mem_tileCut]
    constructor
    · intro h v hv
      obtain ⟨t, -, -, rfl⟩ := id hv
      exact h _ ((unused_renumbered π o hπ t).2 hv)
    · intro h v hv
      obtain ⟨t, -, -, rfl⟩ := id hv
      refine h ((π.symm t : ℤ) + 1) ((unused_renumbered π o hπ _).1 ?_)
      rw [Equiv.apply_symm_apply]
      exact hv
  have h2 : matchPositions (renumberedObs o π).tileA (renumberedObs o π).tileB (tileCut (renumberedObs o π)) = [] ↔
      matchPositions o.tileA o.tileB (tileCut o) = [] := by
    simp only [List.eq_nil_iff_forall_not_mem, hm]
  have h3 : (renumberedObs o π).nBl = o.nBl := by simp [renumberedObs, FlagObs.nBl]
  unfold tileZero
  by_cases c1 : tileCut o = []
  · rw [if_pos c1, if_pos (h1.2 c1)]
  · rw [if_neg c1, if_neg fun h => c1 (h1.1 h)]
    by_cases c2 : matchPositions o.tileA o.tileB (tileCut o) = []
    · rw [if_pos c2, if_pos (h2.2 c2), h3]
    · rw [if_neg c2, if_neg fun h => c2 (h2.1 h)]
      rw [decide_eq_decide]
      exact hm b

/-- The weights do not depend on the numbers of the tiles. -/
theorem update_renumbered (o : FlagObs) (hπ : ∀ t, π t < o.nTile ↔ t < o.nTile) (h0 : o.tileA ≠ []) (hl : o.tileB.length = o.tileA.length)
    (hA : ∀ v ∈ o.tileA, 1 ≤ v) (hB : ∀ v ∈ o.tileB, 1 ≤ v) (q : UvParams) (w : Weights) :
    visWeightsUpdate (renumberedObs o π) q w = visWeightsUpdate o q w := by
  have h3 : (renumberedObs o π).nBl = o.nBl := by simp [renumberedObs, FlagObs.nBl]
  have hz : (fun (_ : ℕ) b => tileZero (renumberedObs o π) b) = fun _ b => tileZero o b :=
    funext fun _ => funext fun b => tileZero_renumbered π o hπ hl hA hB b
  have hs : ((List.range (renumberedObs o π).nTile).map fun t => 1 - (renumberedObs o π).tileUse t).sum =
      ((List.range o.nTile).map fun t => 1 - o.tileUse t).sum := by
    have := ((perm_range π o.nTile hπ).map fun t => 1 - o.tileUse t).sum_eq
    rw [List.map_map] at this
    exact this
  have ht : timeBin (renumberedObs o π) = timeBin o := by
    unfold timeBin
    rw [h3]
    rfl
  have hmin : vwuMin (renumberedObs o π) q = vwuMin o q := rfl
  have hT : ∀ w, tileFlagStep (renumberedObs o π) w = tileFlagStep o w := by
    intro w
    rw [tileStep (renumberedObs o π) _ (by simp only [renumberedObs, ne_eq, List.map_eq_nil_iff]; exact h0)
      (by simp only [renumberedObs, List.length_map]; exact hl), tileStep o _ h0 hl, hz]
    rfl
  unfold visWeightsUpdate
  simp only [hT, hs, ht, hmin, h3]
  rfl

/-- The arguments of `calibrate` in the renamed run. -/
theorem calIn_renamed {x x' : RunIn} (hx : RenamedRun π x x') (w : Weights) : RenamedCal π (x.calIn w) (x'.calIn w) := by
  obtain ⟨h1, h2, h3, h4, h5, h6, h7, h8, h9, h10, h11, h12, h13⟩ := hx.cal
  refine ⟨?_, h2, h3, h4, h5, h6, h7, h8, h9, h10, h11, h12, h13⟩
  unfold RunIn.calIn
  simp only [h1, hx.obs, hx.vis, hx.model]
  rfl

/-- After the update of the weights, the baselines in use have tiles in use. -/
theorem updated_flags (x : RunIn) (h : RunFits x) (hsame : SameBaselines x.cal.run) (w : VwuResult)
    (hw : visWeightsUpdate x.obs x.uv x.weights = .ok w) (p : ℕ) (hp : p < x.obs.nPol) : FlagsAgree (x.calIn w.weights).run p := by
  intro b hb
  obtain ⟨hb1, hb2⟩ := List.mem_filter.1 hb
  have hb1 := List.mem_range.1 hb1
  have hf : ∃ f, (x.calIn w.weights).run.blWeight p f b ≠ 0 := by
    by_contra hn
    push Not at hn
    have : ((List.range (x.calIn w.weights).run.nFreq).map fun f => (x.calIn w.weights).run.blWeight p f b).sum = 0 := by
      rw [List.map_congr_left fun f _ => hn f]
      simp
    exact of_decide_eq_true hb2 this
  obtain ⟨f, hf⟩ := hf
  have hs : ∃ s ∈ (x.calIn w.weights).run.samplesOf b, (x.calIn w.weights).run.clip p f s ≠ 0 := by
    by_contra hn
    push Not at hn
    apply hf
    unfold CalRunIn.blWeight
    rw [List.map_congr_left hn]
    simp
  obtain ⟨s, hs, hc⟩ := hs
  have hpos : 0 < w.weights p f s := by
    by_contra hn
    apply hc
    have hz : ((w.weights p f s : ℚ) : ℝ) ≤ 0 := by exact_mod_cast not_lt.1 hn
    show min (max ((w.weights p f s : ℚ) : ℝ) 0) 1 = 0
    rw [max_eq_right hz]
    norm_num
  have hs' : s < x.cal.run.nBl * x.cal.run.nTime := samplesOf_lt _ b hb1 s hs
  obtain ⟨-, hno⟩ := update_weights x.obs x.uv x.weights h.tileA_ne h.tile_len h.offsets h.freqs w hw p f s (by rw [h.nBl]; exact hs') hp hpos
  obtain ⟨hA, hB⟩ := h.tiles s hs'
  have hAs : x.cal.run.tileA s = x.cal.run.tileA b ∧ x.cal.run.tileB s = x.cal.run.tileB b := by
    unfold CalRunIn.samplesOf at hs
    split_ifs at hs with ht
    · obtain ⟨t, -, rfl⟩ := List.mem_map.1 hs
      exact hsame ht t b
    · rw [List.mem_singleton.1 hs]
      exact ⟨rfl, rfl⟩
  have uA : x.obs.tileUse (x.cal.run.tileA s) ≠ 0 := fun hz =>
    hno (Or.inr (Or.inl ⟨_, ⟨_, hA, hz, rfl⟩, Or.inl (by rw [h.tileA, List.getElem?_map, List.getElem?_range hs']; rfl)⟩))
  have uB : x.obs.tileUse (x.cal.run.tileB s) ≠ 0 := fun hz =>
    hno (Or.inr (Or.inl ⟨_, ⟨_, hB, hz, rfl⟩, Or.inr (by rw [h.tileB, List.getElem?_map, List.getElem?_range hs']; rfl)⟩))
  rw [hAs.1] at hA uA
  rw [hAs.2] at hB uB
  exact ⟨⟨hA, decide_eq_true uA⟩, hB, decide_eq_true uB⟩

/-- The observation after calibration in the renamed run. -/
theorem restrict_renumbered {x x' : RunIn} (hx : RenamedRun π x x') {u u' : InUse} (c4 : SameUse π u u') :
    x'.obs.restrict u' = renumberedObs (x.obs.restrict u) π := by
  rw [hx.obs]
  unfold FlagObs.restrict renumberedObs
  simp only [c4.1]
  congr 1
  funext t
  have := sameUse_mem c4 (π.symm t)
  rw [Equiv.apply_symm_apply] at this
  by_cases ht : t ∈ u'.tiles
  · rw [if_pos ht, if_pos (this.1 ht)]
  · rw [if_neg ht, if_neg fun hn => ht (this.2 hn)]

/-- **C297.** A run does not depend on the numbers of the tiles: with tile `t` called `π t` everywhere, tile `π t` gets the gain and residual that
tile `t` had, and the statistics, the calibrated data, the weights, the planes of all polarisations and the exported images are the same, provided that the tile the
phases refer to stays the same. -/
theorem C297_numbers (x x' : RunIn) (h : RunFits x) (hx : RenamedRun π x x') (hπ : ∀ t, π t < x.obs.nTile ↔ t < x.obs.nTile)
    (hsame : SameBaselines x.cal.run)
    (href : x.cal.run.noRef = false → ∀ w, visWeightsUpdate x.obs x.uv x.weights = .ok w → ∀ p < x.obs.nPol,
      refTile ((renumbered (x.calIn w.weights).run π).tiles p) = π (refTile ((x.calIn w.weights).run.tiles p)))
    (R : RunOut) (hR : imagingRun x = .ok R) :
    ∃ R', imagingRun x' = .ok R' ∧ (∀ p f t, R'.cal.gain p f (π t) = R.cal.gain p f t) ∧
      (∀ p f t, R'.cal.residual p f (π t) = R.cal.residual p f t) ∧ SameUse π R.cal.inUse R'.cal.inUse ∧ R'.cal.stats = R.cal.stats ∧
      (∀ p < x.obs.nPol, ∀ f, ∀ s < x.cal.run.nBl * x.cal.run.nTime, R'.cal.vis p f s = R.cal.vis p f s) ∧
      R'.weights = R.weights ∧ R'.planes = R.planes ∧ R'.images = R.images := by
  obtain ⟨w1, w2, h1, h2, h3, h4, h5, h6⟩ := (run_stages x R).1 hR
  have hA : ∀ v ∈ x.obs.tileA, 1 ≤ v := by
    rw [h.tileA]
    intro v hv
    obtain ⟨s, -, rfl⟩ := List.mem_map.1 hv
    omega
  have hB : ∀ v ∈ x.obs.tileB, 1 ≤ v := by
    rw [h.tileB]
    intro v hv
    obtain ⟨s, -, rfl⟩ := List.mem_map.1 hv
    omega
  have hu : SameUse π x.obs.inUse x'.obs.inUse := by
    rw [hx.obs]
    refine ⟨rfl, ?_⟩
    refine (List.perm_ext_iff_of_nodup (List.nodup_range.filter _) ((List.nodup_range.filter _).map π.injective)).2 fun t => ?_
    show t ∈ (List.range x.obs.nTile).filter (fun t => x.obs.tileUse (π.symm t) ≠ 0) ↔ _
    simp only [FlagObs.inUse, List.mem_filter, List.mem_range, List.mem_map]
    constructor
    · rintro ⟨a, b⟩
      exact ⟨π.symm t, ⟨by rw [← hπ, Equiv.apply_symm_apply]; exact a, b⟩, by simp⟩
    · rintro ⟨s, ⟨a, b⟩, rfl⟩
      exact ⟨(hπ s).2 a, by rw [Equiv.symm_apply_apply]; exact b⟩
  have hcal : ∃ r', x'.calibrated w1.weights = .ok r' ∧ (∀ p f t, r'.gain p f (π t) = R.cal.gain p f t) ∧
      (∀ p f t, r'.residual p f (π t) = R.cal.residual p f t) ∧ SameUse π R.cal.inUse r'.inUse ∧ r'.stats = R.cal.stats ∧
      ∀ p < x.obs.nPol, ∀ f, ∀ s < x.cal.run.nBl * x.cal.run.nTime, r'.vis p f s = R.cal.vis p f s := by
    unfold RunIn.calibrated at h2 ⊢
    rw [hx.opts]
    rcases hx.refl with ⟨e1, e2⟩ | ⟨q, q', e1, e2, hq⟩
    · rw [e1] at h2
      rw [e2]
      exact C284_numbers π (x.calIn w1.weights) (x'.calIn w1.weights) (calIn_renamed π hx w1.weights) hπ
        (fun p hp => updated_flags x h hsame w1 h1 p hp) (fun hr => href hr w1 h1) h.pols h.tiles x.opts _ _ hu R.cal h2
    · rw [e1] at h2
      rw [e2]
      exact C289_numbers (x.calIn w1.weights) (x'.calIn w1.weights) (calIn_renamed π hx w1.weights) hπ h.freqs q q' hq
        (fun p hp => updated_flags x h hsame w1 h1 p hp) (fun hr => href hr w1 h1) h.pols h.tiles x.opts _ _ hu R.cal h2
  obtain ⟨r', c1, c2, c3, c4, c5, c6⟩ := hcal
  have hfo := restrict_renumbered π hx c4
  have hnbl : (renumberedObs (x.obs.restrict R.cal.inUse) π).nBl = (x.obs.restrict R.cal.inUse).nBl := by simp [renumberedObs, FlagObs.nBl]
  have hgr : ∀ p < x.obs.nPol, x'.gridded (x'.obs.restrict r'.inUse) r'.vis w2.weights p =
      x.gridded (x.obs.restrict R.cal.inUse) R.cal.vis w2.weights p := by
    intro p hp
    rw [hfo]
    have e : x'.gridded (renumberedObs (x.obs.restrict R.cal.inUse) π) r'.vis w2.weights p =
        x.gridded (x.obs.restrict R.cal.inUse) r'.vis w2.weights p := by
      unfold RunIn.gridded RunIn.gridIn
      rw [hnbl, hx.grid, hx.model]
      rfl
    rw [e]
    exact gridded_same x h R.cal.vis r'.vis x.model _ w2.weights p fun f b hb _ => ⟨c6 p hp f b (by rw [← h.nBl]; exact hb), rfl⟩
  refine ⟨⟨r', R.weights, R.planes, R.images⟩, (run_stages _ _).2 ⟨w1, w2, ?_, c1, ?_, h4, ?_, ?_⟩, c2, c3, c4, c5, c6, rfl, rfl, rfl⟩
  · rw [hx.obs, hx.uv, hx.weights, update_renumbered π x.obs hπ h.tileA_ne h.tile_len hA hB]
    exact h1
  · show visWeightsUpdate (x'.obs.restrict r'.inUse) x'.uv w1.weights = .ok w2
    rw [hfo, hx.uv, update_renumbered π (x.obs.restrict R.cal.inUse) hπ h.tileA_ne h.tile_len hA hB]
    exact h3
  · show (List.range x'.obs.nPol).mapM (x'.gridded (x'.obs.restrict r'.inUse) r'.vis w2.weights) = .ok R.planes
    rw [show x'.obs.nPol = x.obs.nPol by rw [hx.obs]; rfl, ← h5]
    exact mapM_congr_mem _ _ _ fun p hp => hgr p (List.mem_range.1 hp)
  · show quickview (x'.quickIn w2.nVis R.planes) = .ok R.images
    rw [← h6]
    unfold RunIn.quickIn
    rw [hx.images, show x'.obs.nPol = x.obs.nPol by rw [hx.obs]; rfl]

end

/-! ## Example -/

/-- The first and the last of the three tiles exchange their numbers. -/
noncomputable def exWholeSwapped (fit : List ℕ → List ℝ → ℕ → List ℝ) : RunIn :=
  { exWholeRun fit with obs := renumberedObs exAfter (Equiv.swap 0 2)
                        cal := withRun (exCalibrate fit) (renumbered (exCalibrate fit).run (Equiv.swap 0 2)) }

theorem swap_lt (t : ℕ) : Equiv.swap 0 2 t < 3 ↔ t < 3 := by
  rw [Equiv.swap_apply_def]
  split_ifs <;> omega

theorem exWholeSwapped_ref (fit : List ℕ → List ℝ → ℕ → List ℝ) : (exWholeRun fit).cal.run.noRef = false → ∀ w,
    visWeightsUpdate (exWholeRun fit).obs (exWholeRun fit).uv (exWholeRun fit).weights = .ok w → ∀ p < (exWholeRun fit).obs.nPol,
    refTile ((renumbered ((exWholeRun fit).calIn w.weights).run (Equiv.swap 0 2)).tiles p) =
      Equiv.swap 0 2 (refTile (((exWholeRun fit).calIn w.weights).run.tiles p)) := by
  intro _ w hw p hp
  obtain ⟨w', b1, b2⟩ := exWholeRun_weights
  have : w = w' := by
    have hw' : visWeightsUpdate exAfter exAfterUv (fun _ _ _ => 1) = .ok w := hw
    rw [b1] at hw'
    exact (Except.ok.inj hw').symm
  subst this
  have ht := exWholeRun_tiles fit w.weights b2 p hp
  have hm : 1 ∈ (renumbered ((exWholeRun fit).calIn w.weights).run (Equiv.swap 0 2)).tiles p :=
    (mem_renamed (Equiv.swap 0 2) (tiles_renumbered ((exWholeRun fit).calIn w.weights).run (Equiv.swap 0 2) swap_lt p) 1).2
      (by rw [ht]; decide)
  unfold refTile
  rw [ht, if_pos hm]
  rfl

example : ∃ fit R R', imagingRun (exWholeRun fit) = .ok R ∧ imagingRun (exWholeSwapped fit) = .ok R' ∧ R'.images = R.images ∧
    (exWholeSwapped fit).obs.tileA[8]? = some 3 := by
  obtain ⟨fit, hfit⟩ := exists_leastSquaresFit
  obtain ⟨R, hR⟩ := exWholeRun_ok fit hfit
  obtain ⟨R', h1, -, -, -, -, -, -, -, h2⟩ := C297_numbers (Equiv.swap 0 2) (exWholeRun fit) (exWholeSwapped fit) (exWholeRun_fits fit)
    ⟨rfl, rfl, rfl, rfl, rfl, exCalibrate_renamed fit _, rfl, Or.inl ⟨rfl, rfl⟩, rfl, rfl⟩ swap_lt (fun ht => by cases ht)
    (exWholeSwapped_ref fit) R hR
  have ht : (renumberedObs exAfter (Equiv.swap 0 2)).tileA[8]? = some 3 := by decide +kernel
  exact ⟨fit, R, R', hR, h1, h2, ht⟩

end PyFHD
