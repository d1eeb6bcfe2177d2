import Verif.Props.WholeRunMore
import Verif.Props.CalibrateReflRelations
import Verif.Props.RelationsMore

/-!
# C306: the direction in which baselines are listed has no influence on the images of a run
-/

namespace PyFHD

open Spec

namespace Spec

/-- The observation with the two tiles of the samples `rev` exchanged. -/
def turnedObs (o : FlagObs) (rev : ℕ → Bool) : FlagObs :=
  { o with tileA := (List.range o.nBl).map fun s => if rev s then o.tileB.getD s 0 else o.tileA.getD s 0
           tileB := (List.range o.nBl).map fun s => if rev s then o.tileA.getD s 0 else o.tileB.getD s 0 }

/-- The coordinates with those of the samples `rev` negated. -/
def turnedUv (q : UvParams) (rev : ℕ → Bool) : UvParams :=
  { q with uu := fun b => if rev b then -q.uu b else q.uu b
           vv := fun b => if rev b then -q.vv b else q.vv b }

/-- The run with the samples `rev` taken in the other direction: their tiles are exchanged, their coordinates negated, data and model conjugated. -/
noncomputable def turnedRun (x : RunIn) (rev : ℕ → Bool) : RunIn :=
  { x with obs := turnedObs x.obs rev
           uv := turnedUv x.uv rev
           vis := fun p f s => if rev s then star (x.vis p f s) else x.vis p f s
           model := fun p f s => if rev s then star (x.model p f s) else x.model p f s
           cal := withRun x.cal (redirected x.cal.run rev)
           grid := fun p => { x.grid p with uu := fun b => if rev b then -(x.grid p).uu b else (x.grid p).uu b
                                            vv := fun b => if rev b then -(x.grid p).vv b else (x.grid p).vv b } }

/-- The conditions under which the samples `rev` may be turned round: lengths do not depend on the sign, the scales are positive, no mirrored baselines
are masked, the coordinate that decides about the direction in the grid is not zero for these samples, and if calibration averages over time all
samples of a baseline are turned together. -/
structure Turnable (x : RunIn) (rev : ℕ → Bool) : Prop where
  calNorm : ∀ a b, x.cal.run.norm (-a) (-b) = x.cal.run.norm a b
  uvNorm : ∀ a b, x.uv.norm (-a) (-b) = x.uv.norm a b
  gridNorm : ∀ p a b, (x.grid p).norm (-a) (-b) = (x.grid p).norm a b
  kpix : 0 < x.obs.kpix
  gridKpix : ∀ p, 0 < (x.grid p).kpix
  noMask : ∀ p, (x.grid p).mask = false
  uvSign : ∀ s, rev s = true → x.uv.vv s ≠ 0
  gridSign : ∀ p s, rev s = true → (x.grid p).vv s ≠ 0
  average : x.cal.run.timeAverage = true → ∀ b < x.cal.run.nBl, ∀ t < x.cal.run.nTime, rev (t * x.cal.run.nBl + b) = rev b

end Spec

theorem turned_nBl (o : FlagObs) (rev : ℕ → Bool) : (turnedObs o rev).nBl = o.nBl := by
  simp [turnedObs, FlagObs.nBl]

theorem turned_len (o : FlagObs) (rev : ℕ → Bool) : (turnedObs o rev).tileB.length = (turnedObs o rev).tileA.length := by
  simp [turnedObs]

/-- A sample has a flagged tile whatever its direction. -/
theorem turned_flagged (o : FlagObs) (rev : ℕ → Bool) (hl : o.tileB.length = o.tileA.length) (b : ℕ) :
    TileFlagged (turnedObs o rev) b ↔ TileFlagged o b := by
  have hu : ∀ v, UnusedTile (turnedObs o rev) v ↔ UnusedTile o v := fun _ => Iff.rfl
  unfold TileFlagged
  refine exists_congr fun v => and_congr (hu v) ?_
  by_cases hb : b < o.nBl
  · have hA : o.tileA[b]? = some (o.tileA.getD b 0) := by
      rw [List.getD_eq_getElem?_getD, List.getElem?_eq_getElem (show b < o.tileA.length from hb)]
      rfl
    have hB : o.tileB[b]? = some (o.tileB.getD b 0) := by
      rw [List.getD_eq_getElem?_getD, List.getElem?_eq_getElem (show b < o.tileB.length by rw [hl]; exact hb)]
      rfl
    rw [hA, hB]
    simp only [turnedObs, List.getElem?_map, List.getElem?_range hb, Option.map_some]
    cases rev b
    · simp
    · simp [or_comm]
  · have h1 : o.tileA[b]? = none := List.getElem?_eq_none (not_lt.1 hb)
    have h2 : o.tileB[b]? = none := List.getElem?_eq_none (by rw [hl]; exact not_lt.1 hb)
    have h3 : (List.range o.nBl)[b]? = none := List.getElem?_eq_none (by simpa using not_lt.1 hb)
    rw [h1, h2]
    simp only [turnedObs, List.getElem?_map, h3, Option.map_none]

theorem turned_tileZero (o : FlagObs) (rev : ℕ → Bool) (hl : o.tileB.length = o.tileA.length) (b : ℕ) :
    tileZero (turnedObs o rev) b = tileZero o b := by
  have hm : ∀ b, b ∈ matchPositions (turnedObs o rev).tileA (turnedObs o rev).tileB (tileCut (turnedObs o rev)) ↔
      b ∈ matchPositions o.tileA o.tileB (tileCut o) := by
    intro b
    rw [mem_matchPositions_tileCut _ (turned_len o rev), mem_matchPositions_tileCut _ hl, turned_flagged o rev hl]
  have h1 : tileCut (turnedObs o rev) = tileCut o := rfl
  have h2 : matchPositions (turnedObs o rev).tileA (turnedObs o rev).tileB (tileCut (turnedObs o rev)) = [] ↔
      matchPositions o.tileA o.tileB (tileCut o) = [] := by
    simp only [List.eq_nil_iff_forall_not_mem, hm]
  unfold tileZero
  by_cases c1 : tileCut o = []
  · rw [if_pos c1, if_pos (h1.trans c1)]
  · rw [if_neg c1, if_neg fun h => c1 (h1.symm.trans h)]
    by_cases c2 : matchPositions o.tileA o.tileB (tileCut o) = []
    · rw [if_pos c2, if_pos (h2.2 c2), turned_nBl]
    · rw [if_neg c2, if_neg fun h => c2 (h2.1 h), decide_eq_decide]
      exact hm b

/-- The place of a sample in the grid does not depend on its direction. -/
theorem turned_min (o : FlagObs) (q : UvParams) (rev : ℕ → Bool) (hk : 0 < o.kpix) (hn : ∀ a b, q.norm (-a) (-b) = q.norm a b)
    (hv : ∀ s, rev s = true → q.vv s ≠ 0) (f b : ℕ) : vwuMin (turnedObs o rev) (turnedUv q rev) f b = vwuMin o q f b := by
  have key : vwuKx (turnedObs o rev) (turnedUv q rev) b = vwuKx o q b ∧ vwuKy (turnedObs o rev) (turnedUv q rev) b = vwuKy o q b ∧
      vwuDist (turnedObs o rev) (turnedUv q rev) f b = vwuDist o q f b := by
    unfold vwuKx vwuKy vwuDist
    simp only [turnedObs, turnedUv]
    by_cases hr : rev b = true
    · simp only [hr, if_true, neg_div, hn, neg_neg, and_true, Left.neg_pos_iff]
      rcases lt_or_gt_of_ne (hv b hr) with h | h
      · have h' : q.vv b / o.kpix < 0 := div_neg_of_neg_of_pos h hk
        rw [if_pos h', if_neg (not_lt.2 h'.le), if_pos h', if_neg (not_lt.2 h'.le)]
        exact ⟨rfl, rfl⟩
      · have h' : 0 < q.vv b / o.kpix := div_pos h hk
        rw [if_neg (not_lt.2 h'.le), if_pos h', if_neg (not_lt.2 h'.le), if_pos h']
        exact ⟨rfl, rfl⟩
    · simp [hr]
  unfold vwuMin
  rw [key.1, key.2.1, key.2.2]
  rfl

/-- The weights do not depend on the direction of the samples. -/
theorem update_turned (o : FlagObs) (q : UvParams) (rev : ℕ → Bool) (h0 : o.tileA ≠ []) (hl : o.tileB.length = o.tileA.length) (hk : 0 < o.kpix)
    (hn : ∀ a b, q.norm (-a) (-b) = q.norm a b) (hv : ∀ s, rev s = true → q.vv s ≠ 0) (w : Weights) :
    visWeightsUpdate (turnedObs o rev) (turnedUv q rev) w = visWeightsUpdate o q w := by
  have hz : (fun (_ : ℕ) b => tileZero (turnedObs o rev) b) = fun _ b => tileZero o b :=
    funext fun _ => funext fun b => turned_tileZero o rev hl b
  have ht : timeBin (turnedObs o rev) = timeBin o := by
    unfold timeBin
    rw [turned_nBl]
    rfl
  have hmin : vwuMin (turnedObs o rev) (turnedUv q rev) = vwuMin o q := funext fun f => funext fun b => turned_min o q rev hk hn hv f b
  have h0' : (turnedObs o rev).tileA ≠ [] := by
    have : o.nBl ≠ 0 := fun h => h0 (List.eq_nil_of_length_eq_zero h)
    simpa [turnedObs] using this
  have hT : ∀ w, tileFlagStep (turnedObs o rev) w = tileFlagStep o w := by
    intro w
    rw [tileStep (turnedObs o rev) _ h0' (turned_len o rev), tileStep o _ h0 hl, hz]
    rfl
  unfold visWeightsUpdate
  simp only [hT, ht, hmin, turned_nBl]
  rfl

/-- What is gridded for the turned samples. -/
theorem gridIn_turned (x : RunIn) (rev : ℕ → Bool) (fo : FlagObs) (v v' : ℕ → ℕ → ℕ → ℂ) (w : Weights) (p : ℕ) (u : ℕ → ℕ → ℂ) :
    withVis ((turnedRun x rev).gridIn (turnedObs fo rev) v' w p) u =
      reversed (withVis (x.gridIn fo v w p) fun f b => if rev b then star (u f b) else u f b) rev := by
  have hu : u = fun f b => if rev b then star (if rev b then star (u f b) else u f b) else (if rev b then star (u f b) else u f b) := by
    funext f b
    cases rev b <;> simp
  unfold RunIn.gridIn
  simp only [turned_nBl]
  conv_lhs => rw [hu]
  rfl

/-- **C306.** A run does not depend on the direction in which baselines are listed: with the tiles of some samples exchanged, their coordinates negated
and their data and model conjugated, a run gives the same gains, flags, weights, uv planes and images, and the conjugate calibrated data for these
samples. -/
theorem C306_direction (x : RunIn) (h : RunFits x) (rev : ℕ → Bool) (ht : Turnable x rev) (R : RunOut) (hR : imagingRun x = .ok R) :
    ∃ R', imagingRun (turnedRun x rev) = .ok R' ∧ SameRun R R' ∧ ∀ p < x.obs.nPol, ∀ f, ∀ s < x.cal.run.nBl * x.cal.run.nTime,
      R'.cal.vis p f s = if rev s then star (R.cal.vis p f s) else R.cal.vis p f s := by
  obtain ⟨w1, w2, h1, h2, h3, h4, h5, h6⟩ := (run_stages x R).1 hR
  have hcast : ∀ r, star (x.cal.run.cast r) = x.cal.run.cast r := by
    intro r
    rw [h.cast]
    exact Complex.conj_ofReal r
  have hcal : ∃ r', (turnedRun x rev).calibrated w1.weights = .ok r' ∧ SameSolution R.cal r' ∧ ∀ p < x.obs.nPol, ∀ f,
      ∀ s < x.cal.run.nBl * x.cal.run.nTime, r'.vis p f s = if rev s then star (R.cal.vis p f s) else R.cal.vis p f s := by
    unfold RunIn.calibrated at h2 ⊢
    cases hq : x.refl with
    | none =>
      rw [hq] at h2
      rw [show (turnedRun x rev).refl = none from hq]
      exact C277_direction (x.calIn w1.weights) rev hcast ht.calNorm ht.average h.pols h.tiles x.opts _ R.cal h2
    | some q =>
      rw [hq] at h2
      rw [show (turnedRun x rev).refl = some q from hq]
      exact C290_direction (x.calIn w1.weights) rev hcast ht.calNorm ht.average h.pols h.tiles x.opts q _ R.cal h2
  obtain ⟨r', c1, c2, c3⟩ := hcal
  have hin : r'.inUse = R.cal.inUse := c2.2.2.1
  have hfo : (turnedRun x rev).obs.restrict r'.inUse = turnedObs (x.obs.restrict R.cal.inUse) rev := by
    rw [hin]
    rfl
  have hgr : ∀ p < x.obs.nPol, (turnedRun x rev).gridded ((turnedRun x rev).obs.restrict r'.inUse) r'.vis w2.weights p =
      x.gridded (x.obs.restrict R.cal.inUse) R.cal.vis w2.weights p := by
    intro p hp
    rw [hfo]
    set fo := x.obs.restrict R.cal.inUse with hfo'
    have key : ∀ u u' : ℕ → ℕ → ℂ, (∀ f b, b < fo.nBl → (if rev b then star (u' f b) else u' f b) = u f b) →
        visibilityGrid (withVis ((turnedRun x rev).gridIn (turnedObs fo rev) r'.vis w2.weights p) u') =
          visibilityGrid (withVis (x.gridIn fo R.cal.vis w2.weights p) u) := by
      intro u u' hu
      rw [gridIn_turned x rev fo R.cal.vis r'.vis w2.weights p u']
      rw [C195_direction (withVis (x.gridIn fo R.cal.vis w2.weights p) fun f b => if rev b then star (u' f b) else u' f b) rev (ht.gridKpix p)
        (ht.noMask p) (ht.gridNorm p) (h.gridFreqs p) (h.lengths p) fun b _ hr => ht.gridSign p b hr]
      refine C192_flagged (x.gridIn fo R.cal.vis w2.weights p) (h.gridFreqs p) (h.lengths p) rfl _ _ fun f b hpos => ?_
      change 0 < (if b < fo.nBl then w2.weights p f b else 0) at hpos
      split_ifs at hpos with hb
      · exact hu f b hb
      · exact absurd hpos (lt_irrefl _)
    rw [show (turnedRun x rev).gridded (turnedObs fo rev) r'.vis w2.weights p =
        ({ turnedRun x rev with model := (turnedRun x rev).model } : RunIn).gridded (turnedObs fo rev) r'.vis w2.weights p from rfl,
      gridded_eq (turnedRun x rev) (turnedObs fo rev) r'.vis w2.weights p r'.vis (turnedRun x rev).model,
      show x.gridded fo R.cal.vis w2.weights p = ({ x with model := x.model } : RunIn).gridded fo R.cal.vis w2.weights p from rfl,
      gridded_eq x fo R.cal.vis w2.weights p R.cal.vis x.model]
    rw [key (R.cal.vis p) (r'.vis p) fun f b hb => by
        rw [c3 p hp f b (by rw [← h.nBl]; exact hb)]
        cases rev b <;> simp,
      key (x.model p) ((turnedRun x rev).model p) fun f b _ => by
        show (if rev b then star (if rev b then star (x.model p f b) else x.model p f b) else
          (if rev b then star (x.model p f b) else x.model p f b)) = _
        cases rev b <;> simp]
  refine ⟨⟨r', R.weights, R.planes, R.images⟩, (run_stages _ _).2 ⟨w1, w2, ?_, c1, ?_, h4, ?_, h6⟩, ⟨c2, rfl, rfl, rfl⟩, c3⟩
  · show visWeightsUpdate (turnedObs x.obs rev) (turnedUv x.uv rev) x.weights = .ok w1
    rw [update_turned x.obs x.uv rev h.tileA_ne h.tile_len ht.kpix ht.uvNorm ht.uvSign]
    exact h1
  · show visWeightsUpdate ((turnedRun x rev).obs.restrict r'.inUse) (turnedUv x.uv rev) w1.weights = .ok w2
    rw [hfo, update_turned (x.obs.restrict R.cal.inUse) x.uv rev h.tileA_ne h.tile_len ht.kpix ht.uvNorm ht.uvSign]
    exact h3
  · show (List.range x.obs.nPol).mapM ((turnedRun x rev).gridded ((turnedRun x rev).obs.restrict r'.inUse) r'.vis w2.weights) = .ok R.planes
    rw [← h5]
    exact mapM_congr_mem _ _ _ fun p hp => hgr p (List.mem_range.1 hp)

/-- The second baseline may be turned round at every integration in the example. -/
theorem exWholeRun_turnable (fit : List ℕ → List ℝ → ℕ → List ℝ) : Turnable (exWholeRun fit) fun s => s % 2 == 1 where
  calNorm := fun _ _ => rfl
  uvNorm := fun a b => by
    show |-a| + |-b| = |a| + |b|
    rw [abs_neg, abs_neg]
  gridNorm := fun _ a b => by
    show |-a| + |-b| = |a| + |b|
    rw [abs_neg, abs_neg]
  kpix := one_pos
  gridKpix := fun _ => one_pos
  noMask := fun _ => rfl
  uvSign := fun _ _ => one_ne_zero
  gridSign := fun _ _ _ => one_ne_zero
  average := fun h => by cases h

example : ∃ fit R R', imagingRun (exWholeRun fit) = .ok R ∧ imagingRun (turnedRun (exWholeRun fit) fun s => s % 2 == 1) = .ok R' ∧
    R'.images = R.images ∧ (turnedRun (exWholeRun fit) fun s => s % 2 == 1).obs.tileA[3]? = some 3 := by
  obtain ⟨fit, hfit⟩ := exists_leastSquaresFit
  obtain ⟨R, hR⟩ := exWholeRun_ok fit hfit
  obtain ⟨R', h1, h2, -⟩ := C306_direction (exWholeRun fit) (exWholeRun_fits fit) _ (exWholeRun_turnable fit) R hR
  have ht : (turnedObs exAfter fun s => s % 2 == 1).tileA[3]? = some 3 := by decide +kernel
  exact ⟨fit, R, R', hR, h1, h2.2.2.2, ht⟩

end PyFHD
