import Verif.Props.WholeExport
import Verif.Props.WholeRunRenumber

/-!
# C304: the numbers of the tiles have no influence on the cubes exported by a run
-/

namespace PyFHD

open Spec

/-- The weights of the export do not depend on the numbers of the tiles. -/
theorem exportWeights_renumbered (π : Equiv.Perm ℕ) (o : FlagObs) (hπ : ∀ t, π t < o.nTile ↔ t < o.nTile) (h0 : o.tileA ≠ [])
    (hl : o.tileB.length = o.tileA.length) (hA : ∀ v ∈ o.tileA, 1 ≤ v) (hB : ∀ v ∈ o.tileB, 1 ≤ v) (q : UvParams) (im : ℕ → ℕ → ℕ → ℚ)
    (w : Weights) : exportWeights (renumberedObs o π) q [] true im w = exportWeights o q [] true im w := by
  have h3 : (renumberedObs o π).nBl = o.nBl := by simp [renumberedObs, FlagObs.nBl]
  have e1 : ∀ w, exportFlagged (renumberedObs o π) [] w = exportFlagged o [] w := fun _ => rfl
  have e2 : ∀ w, splitVisWeights (renumberedObs o π) o.nBl w = splitVisWeights o o.nBl w := fun _ => rfl
  have e3 : ∀ w b, visNoiseCalc (renumberedObs o π) o.nBl im w b = visNoiseCalc o o.nBl im w b := fun _ _ => rfl
  unfold exportWeights
  simp only [e1, h3, e2, e3, update_renumbered π o hπ h0 hl hA hB]
  rfl

/-- **C304.** With tile `t` called `π t` everywhere, the HEALPix export after a run is the same: for both halves, all polarisations and all ranges of
channels the planes and the numbers of visibilities are those of before, provided that the tile the phases refer to stays the same. -/
theorem C304_numbers (π : Equiv.Perm ℕ) (x x' : RunIn) (h : RunFits x) (hx : RenamedRun π x x') (hπ : ∀ t, π t < x.obs.nTile ↔ t < x.obs.nTile)
    (hsame : SameBaselines x.cal.run)
    (href : x.cal.run.noRef = false → ∀ w, visWeightsUpdate x.obs x.uv x.weights = .ok w → ∀ p < x.obs.nPol,
      refTile ((renumbered (x.calIn w.weights).run π).tiles p) = π (refTile ((x.calIn w.weights).run.tiles p)))
    (R : RunOut) (hR : imagingRun x = .ok R) :
    ∃ R', imagingRun x' = .ok R' ∧ R'.images = R.images ∧ ∀ (e : ExportIn) (_ : ExportFits x e) (nf : ℕ → ℕ),
      exportRun x' e R' nf = exportRun x e R nf := by
  obtain ⟨R', hR', -, -, c4, -, c6, hw, -, himg⟩ := C297_numbers π x x' h hx hπ hsame href R hR
  refine ⟨R', hR', himg, fun e he nf => ?_⟩
  have hA : ∀ v ∈ x.obs.tileA, 1 ≤ v := by
    rw [h.tileA]
    intro v hv
    obtain ⟨s, -, rfl⟩ := List.mem_map.1 hv
    omega
  have hB : ∀ v ∈ x.obs.tileB, 1 ≤ v := by
    rw [h.tileB]
    intro v hv
    obtain ⟨s, -, rfl⟩ := List.mem_map.1 hv
    omega
  have hfo : exportObs e.s2 (x'.obs.restrict R'.cal.inUse) e.dim e.kbin =
      renumberedObs (exportObs e.s2 (x.obs.restrict R.cal.inUse) e.dim e.kbin) π := by
    rw [restrict_renumbered π hx c4]
    rfl
  have ok := he.ok h R.cal.inUse
  obtain ⟨r, -, hr, -⟩ := exportWeights_ok _ x.uv ok e.im R.weights
  have hr' : exportWeights (exportObs e.s2 (x'.obs.restrict R'.cal.inUse) e.dim e.kbin) x'.uv [] true e.im R'.weights = .ok r := by
    rw [hfo, hx.uv, hw, exportWeights_renumbered π (exportObs e.s2 (x.obs.restrict R.cal.inUse) e.dim e.kbin) hπ h.tileA_ne h.tile_len hA hB]
    exact hr
  have hpol : x'.obs.nPol = x.obs.nPol := by
    rw [hx.obs]
    rfl
  rw [exportRun_eq x e R nf r hr, exportRun_eq x' e R' nf r hr', hpol]
  have pull : ∀ F : List ℕ → ℕ → SplitIn ℂ, ([r.even, r.odd].flatMap fun half => (List.range x.obs.nPol).map fun p => F half p) =
      ([r.even, r.odd].flatMap fun half => (List.range x.obs.nPol).map fun p => (half, p)).map fun a => F a.1 a.2 := by
    intro F
    simp [List.flatMap_cons, Function.comp_def]
  rw [pull, pull]
  refine exportSplits_congr _ _ _ nf fun a ha nf' => ?_
  obtain ⟨half, -, ha⟩ := List.mem_flatMap.1 ha
  obtain ⟨p, hp, rfl⟩ := List.mem_map.1 ha
  have hp := List.mem_range.1 hp
  obtain ⟨g1, g2, g3⟩ := splitIn_grid x h e he R.cal.inUse R.cal.vis r.weights half p
  have hs : x'.splitIn e (exportObs e.s2 (x'.obs.restrict R'.cal.inUse) e.dim e.kbin) R'.cal.vis r.weights half p =
      { x.splitIn e (exportObs e.s2 (x.obs.restrict R.cal.inUse) e.dim e.kbin) R.cal.vis r.weights half p with
        grid := { (x.splitIn e (exportObs e.s2 (x.obs.restrict R.cal.inUse) e.dim e.kbin) R.cal.vis r.weights half p).grid with vis := R'.cal.vis p }
        model := x.model p } := by
    rw [hfo]
    unfold RunIn.splitIn
    rw [hx.uv, hx.model]
    rfl
  show freqSplit (x'.splitIn e (exportObs e.s2 (x'.obs.restrict R'.cal.inUse) e.dim e.kbin) R'.cal.vis r.weights half p) nf' = _
  rw [hs]
  exact freqSplit_same (x.splitIn e (exportObs e.s2 (x.obs.restrict R.cal.inUse) e.dim e.kbin) R.cal.vis r.weights half p) g1 g2 g3
    (R'.cal.vis p) (x.model p) (fun f b hpos => by
      obtain ⟨a1, a2⟩ := exportWeights_pos _ x.uv ok e.im R.weights r hr p f b hp hpos
      have hb : b < x.obs.nBl := a2
      exact ⟨(c6 p hp f b (by rw [← h.nBl]; exact hb)).symm, rfl⟩) nf'

/-- The hypotheses are met: the first and the last tile of the run of Props/WholeRunMore exchange their numbers, and the export with four sets of
planes is the same. -/
example : ∃ fit R R' out, imagingRun (exWholeRun fit) = .ok R ∧ imagingRun (exWholeSwapped fit) = .ok R' ∧
    exportRun (exWholeRun fit) (exExportRun fit) R (fun _ => 0) = .ok out ∧ exportRun (exWholeSwapped fit) (exExportRun fit) R' (fun _ => 0) = .ok out ∧
    out.length = 4 := by
  obtain ⟨fit, hfit⟩ := exists_leastSquaresFit
  obtain ⟨R, hR⟩ := exWholeRun_ok fit hfit
  obtain ⟨out, h1, h2, -⟩ := C301_exports _ (exWholeRun_fits fit) R _ (exExportRun_fits fit) (exExportRun_grids fit) fun _ => 0
  obtain ⟨R', a1, -, a2⟩ := C304_numbers (Equiv.swap 0 2) (exWholeRun fit) (exWholeSwapped fit) (exWholeRun_fits fit)
    ⟨rfl, rfl, rfl, rfl, rfl, exCalibrate_renamed fit _, rfl, Or.inl ⟨rfl, rfl⟩, rfl, rfl⟩ swap_lt (fun ht => by cases ht)
    (exWholeSwapped_ref fit) R hR
  exact ⟨fit, R, R', out, hR, a1, h1, (a2 _ (exExportRun_fits fit) _).trans h1, h2⟩

end PyFHD
