import Verif.Props.WholeExport
import Verif.Props.WholeRunDirection

/-!
# C307: the direction in which baselines are listed has no influence on the cubes exported by a run
-/

namespace PyFHD

open Spec

/-- The weights of the export do not depend on the direction of the samples. -/
theorem exportWeights_turned (o : FlagObs) (q : UvParams) (rev : ℕ → Bool) (h0 : o.tileA ≠ []) (hl : o.tileB.length = o.tileA.length)
    (hk : 0 < o.kpix) (hn : ∀ a b, q.norm (-a) (-b) = q.norm a b) (hv : ∀ s, rev s = true → q.vv s ≠ 0) (im : ℕ → ℕ → ℕ → ℚ) (w : Weights) :
    exportWeights (turnedObs o rev) (turnedUv q rev) [] true im w = exportWeights o q [] true im w := by
  have e1 : ∀ w, exportFlagged (turnedObs o rev) [] w = exportFlagged o [] w := fun _ => rfl
  have e2 : ∀ w, splitVisWeights (turnedObs o rev) o.nBl w = splitVisWeights o o.nBl w := fun _ => rfl
  have e3 : ∀ w b, visNoiseCalc (turnedObs o rev) o.nBl im w b = visNoiseCalc o o.nBl im w b := fun _ _ => rfl
  unfold exportWeights
  simp only [e1, turned_nBl, e2, e3, update_turned o q rev h0 hl hk hn hv]
  rfl

/-- The input of the loop over ranges of channels with the samples of `rev` taken in the other direction. -/
noncomputable def Spec.turnedSplit (s : SplitIn ℂ) (rev : ℕ → Bool) : SplitIn ℂ :=
  { s with
    grid := reversed s.grid rev
    model := fun f b => if rev b then star (s.model f b) else s.model f b }

/-- The planes of the ranges of channels do not depend on the direction of the samples. -/
theorem freqSplit_turned (s : SplitIn ℂ) (rev : ℕ → Bool) (hk : 0 < s.grid.kpix) (hm : s.grid.mask = false)
    (hn : ∀ a b, s.grid.norm (-a) (-b) = s.grid.norm a b) (hf : s.grid.freqAll ≠ []) (hl : ∀ b, 0 ≤ blLength s.grid.toGridIn b)
    (hv : ∀ b, rev b = true → s.grid.vv b ≠ 0) (nf : ℕ → ℕ) : freqSplit (turnedSplit s rev) nf = freqSplit s nf := by
  have e1 : ∀ fi, visibilityGrid ((turnedSplit s rev).gridIn fi) = visibilityGrid (s.gridIn fi) :=
    fun fi => C195_direction (s.gridIn fi) rev hk hm hn hf hl fun b _ hr => hv b hr
  have e2 : ∀ fi, visibilityGrid { (turnedSplit s rev).gridIn fi with vis := (turnedSplit s rev).model } =
      visibilityGrid { s.gridIn fi with vis := s.model } :=
    fun fi => C195_direction { s.gridIn fi with vis := s.model } rev hk hm hn hf hl fun b _ hr => hv b hr
  have e3 : (turnedSplit s rev).step = s.step := by
    funext st fi
    unfold SplitIn.step SplitIn.gridBoth
    rw [e1 fi, e2 fi]
    rfl
  unfold freqSplit
  rw [e3]
  rfl

/-- **C307.** With some samples taken in the other direction (their tiles exchanged, their coordinates negated, data and model conjugated) the HEALPix
export after a run is the same: for both halves, all polarisations and all ranges of channels the planes and the numbers of visibilities are those of
before. -/
theorem C307_direction (x : RunIn) (h : RunFits x) (rev : ℕ → Bool) (ht : Turnable x rev) (R : RunOut) (hR : imagingRun x = .ok R) :
    ∃ R', imagingRun (turnedRun x rev) = .ok R' ∧ ∀ (e : ExportIn) (_ : ExportFits x e) (_ : 0 < e.kbin) (_ : e.mask = false)
      (im : ℕ → ℕ → ℕ → ℚ) (nf : ℕ → ℕ), exportRun (turnedRun x rev) { e with im := im } R' nf = exportRun x e R nf := by
  obtain ⟨R', hR', ⟨hsol, hw, -, -⟩, hvis⟩ := C306_direction x h rev ht R hR
  refine ⟨R', hR', fun e he hk hm im nf => ?_⟩
  set o := exportObs e.s2 (x.obs.restrict R.cal.inUse) e.dim e.kbin with ho
  have hfo : exportObs e.s2 ((turnedRun x rev).obs.restrict R'.cal.inUse) e.dim e.kbin = turnedObs o rev := by
    rw [hsol.2.2.1]
    rfl
  have ok := he.ok h R.cal.inUse
  obtain ⟨r, -, hr, -⟩ := exportWeights_ok _ x.uv ok e.im R.weights
  obtain ⟨r', hr', w1, w2, w3⟩ := exportWeights_im _ x.uv ok e.im im R.weights r hr
  have hr2 : exportWeights (exportObs e.s2 ((turnedRun x rev).obs.restrict R'.cal.inUse) e.dim e.kbin) (turnedRun x rev).uv [] true im R'.weights =
      .ok r' := by
    rw [hfo, hw]
    exact (exportWeights_turned o x.uv rev h.tileA_ne h.tile_len hk ht.uvNorm ht.uvSign im R.weights).trans hr'
  rw [exportRun_eq x e R nf r hr, exportRun_eq (turnedRun x rev) { e with im := im } R' nf r' hr2, w1, w2, w3]
  have pull : ∀ F : List ℕ → ℕ → SplitIn ℂ, ([r.even, r.odd].flatMap fun half => (List.range x.obs.nPol).map fun p => F half p) =
      ([r.even, r.odd].flatMap fun half => (List.range x.obs.nPol).map fun p => (half, p)).map fun a => F a.1 a.2 := by
    intro F
    simp [List.flatMap_cons, Function.comp_def]
  rw [show (turnedRun x rev).obs.nPol = x.obs.nPol from rfl, pull, pull]
  refine exportSplits_congr _ _ _ nf fun a ha nf' => ?_
  obtain ⟨half, -, ha⟩ := List.mem_flatMap.1 ha
  obtain ⟨p, hp, rfl⟩ := List.mem_map.1 ha
  have hp := List.mem_range.1 hp
  obtain ⟨g1, g2, g3⟩ := splitIn_grid x h e he R.cal.inUse R.cal.vis r.weights half p
  set s := x.splitIn e o R.cal.vis r.weights half p with hs
  set u : ℕ → ℕ → ℂ := fun f b => if rev b then star (R'.cal.vis p f b) else R'.cal.vis p f b with hu
  have hu2 : R'.cal.vis p = fun f b => if rev b then star (u f b) else u f b := by
    funext f b
    rw [hu]
    cases hb : rev b <;> simp [hb]
  have hs' : (turnedRun x rev).splitIn { e with im := im } (exportObs e.s2 ((turnedRun x rev).obs.restrict R'.cal.inUse) e.dim e.kbin) R'.cal.vis
      r.weights half p = turnedSplit { s with grid := { s.grid with vis := u }, model := x.model p } rev := by
    rw [hfo]
    unfold RunIn.splitIn
    rw [hu2]
    rfl
  show freqSplit ((turnedRun x rev).splitIn { e with im := im } (exportObs e.s2 ((turnedRun x rev).obs.restrict R'.cal.inUse) e.dim e.kbin) R'.cal.vis
    r.weights half p) nf' = freqSplit s nf'
  rw [hs', freqSplit_turned ({ s with grid := { s.grid with vis := u }, model := x.model p } : SplitIn ℂ) rev hk hm ht.uvNorm g1 g2 ht.uvSign nf']
  exact freqSplit_same s g1 g2 g3 u (x.model p) (fun f b hpos => by
    obtain ⟨a1, a2⟩ := exportWeights_pos _ x.uv ok e.im R.weights r hr p f b hp hpos
    have hb : b < x.obs.nBl := a2
    refine ⟨?_, rfl⟩
    show R.cal.vis p f b = u f b
    rw [hu]
    simp only []
    rw [hvis p hp f b (by rw [← h.nBl]; exact hb)]
    cases hrev : rev b <;> simp [hrev]) nf'

/-- The hypotheses are met: with the second baseline of the run of Props/WholeRunMore turned round, the export with four sets of planes is the same. -/
example : ∃ fit R R' out, imagingRun (exWholeRun fit) = .ok R ∧ imagingRun (turnedRun (exWholeRun fit) fun s => s % 2 == 1) = .ok R' ∧
    exportRun (exWholeRun fit) (exExportRun fit) R (fun _ => 0) = .ok out ∧
    exportRun (turnedRun (exWholeRun fit) fun s => s % 2 == 1) (exExportRun fit) R' (fun _ => 0) = .ok out ∧ out.length = 4 := by
  obtain ⟨fit, hfit⟩ := exists_leastSquaresFit
  obtain ⟨R, hR⟩ := exWholeRun_ok fit hfit
  obtain ⟨out, h1, h2, -⟩ := C301_exports _ (exWholeRun_fits fit) R _ (exExportRun_fits fit) (exExportRun_grids fit) fun _ => 0
  obtain ⟨R', a1, a2⟩ := C307_direction (exWholeRun fit) (exWholeRun_fits fit) _ (exWholeRun_turnable fit) R hR
  exact ⟨fit, R, R', out, hR, a1, h1, (a2 _ (exExportRun_fits fit) (by norm_num [exExportRun]) rfl (exExportRun fit).im _).trans h1, h2⟩

end PyFHD
