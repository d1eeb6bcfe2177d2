import Verif.Props.WholeExport

/-!
# C305: what the sets of planes exported by a run are made of
-/

namespace PyFHD

open Spec

/-- `s` describes the gridding of the calibrated data of polarisation `p` of a run, of the samples `half` with the weights `w`, on the grid of the
export, in the channels that are in use after the calibration. -/
structure Spec.ExportsSamples (x : RunIn) (e : ExportIn) (R : RunOut) (w : ℕ → ℕ → ℚ) (half : List ℕ) (p : ℕ) (s : SplitIn ℂ) : Prop where
  data : s.grid.vis = R.cal.vis p
  model : s.model = x.model p
  samples : s.grid.biUse = half
  weights : s.grid.weight = w
  positions : s.grid.uu = x.uv.uu ∧ s.grid.vv = x.uv.vv ∧ s.grid.norm = x.uv.norm
  size : s.grid.dimension = e.dim ∧ s.grid.elements = e.dim ∧ s.grid.kpix = e.kbin ∧ s.grid.res = e.res
  kernels : s.grid.kern = (e.kernel p).kern ∧ s.grid.fbin = (e.kernel p).fbin ∧ s.groupOf = e.groupOf p ∧ s.grid.psfDim = x.uv.psfDim
  freqs : s.grid.freqAll = (List.range x.obs.nFreq).map x.obs.freq ∧ s.nFreq = x.obs.nFreq ∧ s.nAvg = e.nAvg
  lengths : s.grid.minBaseline = x.obs.minBaseline ∧ s.grid.maxBaseline = min x.obs.maxBaseline (e.dim * e.kbin / e.s2)
  used : ∀ f, 0 < s.freqUse f ↔ f ∈ R.cal.inUse.freqs ∧ 0 < x.obs.freqUse f
  rephase : s.rephase = e.rephase

theorem exportSplits_all : ∀ (ss : List (SplitIn ℂ)) (nf : ℕ → ℕ) (out : List (SplitState ℂ)), exportSplits ss nf = .ok out →
    List.Forall₂ (fun s st => ∃ nf', freqSplit s nf' = .ok st) ss out := by
  intro ss
  induction ss with
  | nil =>
    intro nf out h
    rw [← Except.ok.inj h]
    exact .nil
  | cons s ss ih =>
    intro nf out h
    unfold exportSplits at h
    cases h1 : freqSplit s nf with
    | error e => rw [h1] at h; cases h
    | ok s1 =>
      rw [h1] at h
      simp only [] at h
      cases h2 : exportSplits ss s1.nfVis with
      | error e => rw [h2] at h; cases h
      | ok sts =>
        rw [h2] at h
        simp only [Except.ok.injEq] at h
        rw [← h]
        exact .cons ⟨nf, h1⟩ (ih _ _ h2)

theorem getElem?_halves {A : Type} (F : List ℕ → ℕ → A) (a b : List ℕ) (n p : ℕ) (hp : p < n) :
    ([a, b].flatMap fun half => (List.range n).map fun p => F half p)[p]? = some (F a p) ∧
      ([a, b].flatMap fun half => (List.range n).map fun p => F half p)[n + p]? = some (F b p) := by
  have e : ([a, b].flatMap fun half => (List.range n).map fun p => F half p) =
      (List.range n).map (fun p => F a p) ++ (List.range n).map (fun p => F b p) := by simp [List.flatMap_cons]
  rw [e]
  constructor
  · rw [List.getElem?_append_left (by simpa using hp), List.getElem?_map, List.getElem?_range hp]
    rfl
  · rw [List.getElem?_append_right (by simp)]
    simp [hp]

/-- **C305.** The export after a run makes, for every polarisation, first a set of planes of the even samples and, after those of all polarisations,
one of the odd samples; the two halves have no sample in common. In each range of channels the plane of the data is the sum of the calibrated data of
the samples of the half that can be gridded, that of the model the sum of the model, and the number of visibilities is the number of these samples
in all channels in use after the calibration. -/
theorem C305_sets (x : RunIn) (h : RunFits x) (R : RunOut) (e : ExportIn) (he : ExportFits x e) (hgr : ExportGrids x e) (nf : ℕ → ℕ) :
    ∃ r out, exportWeights (exportObs e.s2 (x.obs.restrict R.cal.inUse) e.dim e.kbin) x.uv [] true e.im R.weights = .ok r ∧
      exportRun x e R nf = .ok out ∧ r.even.Disjoint r.odd ∧ r.even.length = r.odd.length ∧
      ∀ p < x.obs.nPol, ∀ a ∈ [(p, r.even), (x.obs.nPol + p, r.odd)], ∃ s st, out[a.1]? = some st ∧
        ExportsSamples x e R (r.weights p) a.2 p s ∧
        (∀ fi P, st.planes[fi]? = some P → IsPlanes s (rangeChannels s.nFreq s.nAvg s.freqUse fi) P) ∧
        st.nVis = ∑ c ∈ usedChannels s.nFreq s.freqUse, gridded s.grid.toGridIn c := by
  obtain ⟨out, h1, h2, -⟩ := C301_exports x h R e he hgr nf
  obtain ⟨r, hr, hlen, hdis, -⟩ := C291_flagged_partial _ x.uv (he.ok h R.cal.inUse) e.im R.weights
  refine ⟨r, out, hr, h1, hdis, hlen, fun p hp a ha => ?_⟩
  rw [exportRun_eq x e R nf r hr] at h1
  have hall := exportSplits_all _ _ _ h1
  have hget : ([r.even, r.odd].flatMap fun half => (List.range x.obs.nPol).map fun p =>
      x.splitIn e (exportObs e.s2 (x.obs.restrict R.cal.inUse) e.dim e.kbin) R.cal.vis r.weights half p)[a.1]? =
        some (x.splitIn e (exportObs e.s2 (x.obs.restrict R.cal.inUse) e.dim e.kbin) R.cal.vis r.weights a.2 p) := by
    obtain ⟨g1, g2⟩ := getElem?_halves (fun half p =>
      x.splitIn e (exportObs e.s2 (x.obs.restrict R.cal.inUse) e.dim e.kbin) R.cal.vis r.weights half p) r.even r.odd x.obs.nPol p hp
    simp only [List.mem_cons, List.not_mem_nil, or_false] at ha
    rcases ha with rfl | rfl
    · exact g1
    · exact g2
  obtain ⟨hk, hk2⟩ := List.getElem?_eq_some_iff.1 hget
  have hk' := hk
  rw [hall.length_eq] at hk'
  obtain ⟨nf', hst⟩ := (List.forall₂_iff_get.1 hall).2 a.1 hk hk'
  simp only [List.get_eq_getElem] at hst
  rw [hk2] at hst
  set s := x.splitIn e (exportObs e.s2 (x.obs.restrict R.cal.inUse) e.dim e.kbin) R.cal.vis r.weights a.2 p with hs
  obtain ⟨g1, g2, -⟩ := splitIn_grid x h e he R.cal.inUse R.cal.vis r.weights a.2 p
  have ok : SplitOk s := ⟨hgr.conj p, rfl, g1, g2, hgr.res, hgr.kbin, hgr.beam p R.cal.inUse⟩
  obtain ⟨st1, b1, -, b2⟩ := C105_planes_partial s ok nf'
  obtain ⟨st2, b3, b4⟩ := C106_total_partial s ok nf'
  rw [hst] at b1 b3
  cases b1
  cases b3
  refine ⟨s, _, List.getElem?_eq_getElem hk', ?_, b2, b4⟩
  refine ⟨rfl, rfl, rfl, rfl, ⟨rfl, rfl, rfl⟩, ⟨rfl, rfl, rfl, rfl⟩, ⟨rfl, rfl, rfl, rfl⟩, ⟨rfl, rfl, rfl⟩, ⟨rfl, rfl⟩, ?_, rfl⟩
  intro f
  show 0 < (if f ∈ R.cal.inUse.freqs then x.obs.freqUse f else 0) ↔ _
  split_ifs with hf <;> simp [hf]

/-- The hypotheses are met: in the run of Props/WholeRunMore the last of the four sets is that of the odd samples of the second polarisation. -/
example (fit : List ℕ → List ℝ → ℕ → List ℝ) (R : RunOut) : ∃ (r : ExportW) (out : List (SplitState ℂ)) (s : SplitIn ℂ) (st : SplitState ℂ),
    exportRun (exWholeRun fit) (exExportRun fit) R (fun _ => 0) = .ok out ∧ out[3]? = some st ∧
      ExportsSamples (exWholeRun fit) (exExportRun fit) R (r.weights 1) r.odd 1 s ∧
      st.nVis = ∑ c ∈ usedChannels s.nFreq s.freqUse, gridded s.grid.toGridIn c := by
  obtain ⟨r, out, -, h1, -, -, h2⟩ := C305_sets _ (exWholeRun_fits fit) R _ (exExportRun_fits fit) (exExportRun_grids fit) fun _ => 0
  obtain ⟨s, st, a1, a2, -, a3⟩ := h2 1 (by show 1 < 2; norm_num) _ (List.mem_cons_of_mem _ List.mem_cons_self)
  exact ⟨r, out, s, st, h1, a1, a2, a3⟩

end PyFHD
