import Verif.Model.WholeExport
import Verif.Model.ExportCubes
import Verif.Props.WholeRunMore
import Verif.Props.ExportCubes
import Verif.Props.ExportWeights

/-!
# C301, C302: exact gains and flagged samples in the cubes exported by a run
-/

namespace PyFHD

open Spec

/-- What the export needs of a run: two time steps of which one is in use, and lengths of baselines that are not negative. -/
structure Spec.ExportFits (x : RunIn) (e : ExportIn) : Prop where
  two : 2 ≤ x.obs.nTime
  used : ∃ t, t < x.obs.nTime ∧ x.obs.timeUse t ≠ 0
  kbin : 0 ≤ e.kbin
  norm : ∀ a b, 0 ≤ x.uv.norm a b

theorem Spec.ExportFits.ok {x : RunIn} {e : ExportIn} (h : RunFits x) (he : ExportFits x e) (u : InUse) :
    ExportOk (exportObs e.s2 (x.obs.restrict u) e.dim e.kbin) :=
  ⟨h.tileA_ne, h.tile_len, ⟨h.offsets.1, h.offsets.2, h.offsets.3⟩, h.freqs, he.two, he.used⟩

/-- The weights and the halves of the export do not depend on the imaginary parts. -/
theorem exportWeights_im (o : FlagObs) (q : UvParams) (ok : ExportOk o) (im im' : ℕ → ℕ → ℕ → ℚ) (w : Weights) (r : ExportW)
    (hr : exportWeights o q [] true im w = .ok r) :
    ∃ r', exportWeights o q [] true im' w = .ok r' ∧ r'.weights = r.weights ∧ r'.even = r.even ∧ r'.odd = r.odd := by
  obtain ⟨r1, u, h1, h2, h3, -⟩ := exportWeights_ok o q ok im w
  obtain ⟨r2, u', h4, h5, h6, -⟩ := exportWeights_ok o q ok im' w
  rw [hr] at h1
  cases h1
  rw [h2] at h5
  cases h5
  rw [h3] at h6
  simp only [Except.ok.injEq, SplitResult.pair.injEq] at h6
  exact ⟨r2, h4, h6.1.symm, h6.2.1.symm, h6.2.2.symm⟩

/-- Only samples with a positive weight after the run have one in the export. -/
theorem exportWeights_pos (o : FlagObs) (q : UvParams) (ok : ExportOk o) (im : ℕ → ℕ → ℕ → ℚ) (w : Weights) (r : ExportW)
    (hr : exportWeights o q [] true im w = .ok r) (p f b : ℕ) (hp : p < o.nPol) (hw : 0 < r.weights p f b) : 0 < w p f b ∧ b < o.nBl := by
  obtain ⟨r', hr', hlen, -, hpair, hother⟩ := C291_flagged_partial o q ok im w
  rw [hr] at hr'
  cases hr'
  obtain ⟨_, u, h1, -, h3, -⟩ := exportWeights_ok o q ok im w
  rw [hr] at h1
  cases h1
  obtain ⟨_, _, _, hs', -, -, -, -, he, hd, -⟩ := C14_split_pairs o o.nBl u.weights ok.two ok.used
  rw [h3] at hs'
  simp only [Except.ok.injEq, SplitResult.pair.injEq] at hs'
  obtain ⟨-, rfl, rfl⟩ := hs'
  by_cases hbe : b ∈ r.even
  · obtain ⟨k, hk⟩ := List.mem_iff_getElem?.1 hbe
    obtain ⟨hk', -⟩ := List.getElem?_eq_some_iff.1 hk
    have := hpair p f k b (r.odd[k]'(hlen ▸ hk')) hp hk (List.getElem?_eq_getElem _)
    refine ⟨?_, he b hbe⟩
    by_contra hn
    exact absurd (this.2 (Or.inr (Or.inr (Or.inl (not_lt.1 hn))))) (not_le.2 hw)
  · by_cases hbd : b ∈ r.odd
    · obtain ⟨k, hk⟩ := List.mem_iff_getElem?.1 hbd
      obtain ⟨hk', -⟩ := List.getElem?_eq_some_iff.1 hk
      have := hpair p f k (r.even[k]'(hlen ▸ hk')) b hp (List.getElem?_eq_getElem _) hk
      refine ⟨?_, hd b hbd⟩
      by_contra hn
      have h0 := this.2 (Or.inr (Or.inr (Or.inr (not_lt.1 hn))))
      rw [this.1] at h0
      exact absurd h0 (not_le.2 hw)
    · rw [hother p f b hp hbe hbd] at hw
      exact absurd hw (lt_irrefl _)

/-- A sample with a positive weight after a run is one that the run uses, in tiles and channels that are still in use. -/
theorem run_positive (x : RunIn) (h : RunFits x) (R : RunOut) (hR : imagingRun x = .ok R) (p f b : ℕ) (hp : p < x.obs.nPol)
    (hb : b < x.obs.nBl) (hpos : 0 < R.weights p f b) :
    UsedSample x p f b ∧ f ∈ R.cal.inUse.freqs ∧ x.cal.run.tileA b ∈ R.cal.inUse.tiles ∧ x.cal.run.tileB b ∈ R.cal.inUse.tiles := by
  obtain ⟨w1, w2, h1, -, h3, h4, -⟩ := (run_stages x R).1 hR
  rw [← h4] at hpos
  have hafter := h.after w1.weights R.cal.inUse
  have hb' : b < x.cal.run.nBl * x.cal.run.nTime := by rw [← h.nBl]; exact hb
  obtain ⟨a1, -⟩ := update_weights (x.obs.restrict R.cal.inUse) x.uv w1.weights h.tileA_ne h.tile_len ⟨h.offsets.1, h.offsets.2, h.offsets.3⟩
    h.freqs w2 h3 p f b hb hp hpos
  rw [a1] at hpos
  obtain ⟨a2, a3⟩ := update_weights x.obs x.uv x.weights h.tileA_ne h.tile_len h.offsets h.freqs w1 h1 p f b hb hp hpos
  rw [← a1] at hpos
  obtain ⟨b1, b2, b3⟩ := updated_in_use (x.calIn w1.weights) R.cal.inUse (x.obs.restrict R.cal.inUse) hafter h.tiles x.uv w1.weights w2 h3 p hp f b
    hb' hpos
  rw [a1, a2] at hpos
  exact ⟨⟨hpos, a3⟩, b1, b2, b3⟩

/-- Data and model that agree at the samples with positive weight give equal planes. -/
theorem freqSplit_equal (s : SplitIn ℂ) (hf : s.grid.freqAll ≠ []) (hl : ∀ b, 0 ≤ blLength s.grid.toGridIn b) (hfill : s.grid.fill = false)
    (hvm : ∀ f b, 0 < s.grid.weight f b → s.grid.vis f b = s.model f b) (nf : ℕ → ℕ) (st : SplitState ℂ) (h : freqSplit s nf = .ok st) :
    ∀ P ∈ st.planes, P.dirty = P.model := by
  have hgrid : ∀ fi o m, s.gridBoth fi = .ok (some (o, m)) → o.planes.image = m := by
    intro fi o m hb
    have e : visibilityGrid (s.gridIn fi) = visibilityGrid { s.gridIn fi with vis := s.model } :=
      C192_flagged (s.gridIn fi) hf hl hfill s.grid.vis s.model hvm
    unfold SplitIn.gridBoth at hb
    rw [← e] at hb
    cases hv : visibilityGrid (s.gridIn fi) with
    | error e => rw [hv] at hb; cases hb
    | ok ob =>
      rw [hv] at hb
      cases ob with
      | none => cases hb
      | some o1 =>
        simp only [Except.ok.injEq, Option.some.injEq, Prod.mk.injEq] at hb
        rw [← hb.1, ← hb.2]
  have hstep : ∀ (l : List ℕ) (s0 s1 : SplitState ℂ), (∀ P ∈ s0.planes, P.dirty = P.model) → l.foldlM s.step s0 = .ok s1 →
      ∀ P ∈ s1.planes, P.dirty = P.model := by
    intro l
    induction l with
    | nil =>
      intro s0 s1 h0 h1
      rw [List.foldlM_nil] at h1
      rw [← Except.ok.inj h1]
      exact h0
    | cons fi l ih =>
      intro s0 s1 h0 h1
      rw [List.foldlM_cons] at h1
      have hzero : ∀ P ∈ s0.planes ++ [(zeroPlanes : SplitPlanes ℂ)], P.dirty = P.model := by
        intro P hP
        rcases List.mem_append.1 hP with hP | hP
        · exact h0 P hP
        · rw [List.mem_singleton.1 hP]
          rfl
      cases hs : s.step s0 fi with
      | error e => rw [hs] at h1; cases h1
      | ok s2 =>
        rw [hs] at h1
        refine ih s2 s1 ?_ h1
        unfold SplitIn.step at hs
        simp only [] at hs
        split_ifs at hs with hc
        · rw [← Except.ok.inj hs]
          exact hzero
        · cases hb : s.gridBoth fi with
          | error e => rw [hb] at hs; cases hs
          | ok ob =>
            rw [hb] at hs
            cases ob with
            | none =>
              rw [← Except.ok.inj hs]
              exact hzero
            | some om =>
              obtain ⟨o, m⟩ := om
              rw [← Except.ok.inj hs]
              intro P hP
              rcases List.mem_append.1 hP with hP | hP
              · exact h0 P hP
              · rw [List.mem_singleton.1 hP]
                unfold splitPlanes
                simp only [hgrid fi o m hb]
  exact hstep _ _ _ (by intro P hP; cases hP) h

/-- Other data and another model that agree with the ones before at the samples with positive weight change nothing. -/
theorem freqSplit_same (s : SplitIn ℂ) (hf : s.grid.freqAll ≠ []) (hl : ∀ b, 0 ≤ blLength s.grid.toGridIn b) (hfill : s.grid.fill = false)
    (v m : ℕ → ℕ → ℂ) (hvm : ∀ f b, 0 < s.grid.weight f b → s.grid.vis f b = v f b ∧ s.model f b = m f b) (nf : ℕ → ℕ) :
    freqSplit { s with grid := { s.grid with vis := v }, model := m } nf = freqSplit s nf := by
  have e1 : ∀ fi, visibilityGrid (({ s with grid := { s.grid with vis := v }, model := m } : SplitIn ℂ).gridIn fi) = visibilityGrid (s.gridIn fi) :=
    fun fi => (C192_flagged (s.gridIn fi) hf hl hfill s.grid.vis v fun f b h => (hvm f b h).1).symm
  have e2 : ∀ fi, visibilityGrid { ({ s with grid := { s.grid with vis := v }, model := m } : SplitIn ℂ).gridIn fi with vis := m } =
      visibilityGrid { s.gridIn fi with vis := s.model } :=
    fun fi => (C192_flagged (s.gridIn fi) hf hl hfill s.model m fun f b h => (hvm f b h).2).symm
  have e3 : ({ s with grid := { s.grid with vis := v }, model := m } : SplitIn ℂ).step = s.step := by
    funext st fi
    unfold SplitIn.step SplitIn.gridBoth
    simp only []
    rw [e1 fi]
    have e2' := e2 fi
    simp only [] at e2'
    rw [e2']
  unfold freqSplit
  rw [e3]

theorem exportSplits_mem : ∀ (ss : List (SplitIn ℂ)) (nf : ℕ → ℕ) (out : List (SplitState ℂ)), exportSplits ss nf = .ok out →
    ∀ st ∈ out, ∃ s ∈ ss, ∃ nf', freqSplit s nf' = .ok st := by
  intro ss
  induction ss with
  | nil =>
    intro nf out h st hst
    rw [← Except.ok.inj h] at hst
    cases hst
  | cons s ss ih =>
    intro nf out h st hst
    unfold exportSplits at h
    cases h1 : freqSplit s nf with
    | error e => rw [h1] at h; cases h
    | ok s1 =>
      rw [h1] at h
      simp only [] at h
      cases h2 : exportSplits ss s1.nfVis with
      | error e => rw [h2] at h; cases h
      | ok sts =>
        rw [h2] at h
        simp only [Except.ok.injEq] at h
        rw [← h] at hst
        rcases List.mem_cons.1 hst with rfl | hst
        · exact ⟨s, List.mem_cons_self, nf, h1⟩
        · obtain ⟨s', hs', nf', h3⟩ := ih _ _ h2 st hst
          exact ⟨s', List.mem_cons_of_mem _ hs', nf', h3⟩

theorem exportSplits_congr {A : Type} (F G : A → SplitIn ℂ) : ∀ (l : List A) (nf : ℕ → ℕ),
    (∀ a ∈ l, ∀ nf, freqSplit (F a) nf = freqSplit (G a) nf) → exportSplits (l.map F) nf = exportSplits (l.map G) nf := by
  intro l
  induction l with
  | nil => intros; rfl
  | cons a l ih =>
    intro nf h
    simp only [List.map_cons, exportSplits]
    rw [h a List.mem_cons_self nf]
    cases freqSplit (G a) nf with
    | error e => rfl
    | ok st =>
      simp only []
      rw [ih st.nfVis fun a ha => h a (List.mem_cons_of_mem _ ha)]

/-- What is true of the grid of the export. -/
theorem splitIn_grid (x : RunIn) (h : RunFits x) (e : ExportIn) (he : ExportFits x e) (u : InUse) (vis : ℕ → ℕ → ℕ → ℂ) (w : Weights) (half : List ℕ)
    (p : ℕ) :
    let s := x.splitIn e (exportObs e.s2 (x.obs.restrict u) e.dim e.kbin) vis w half p
    s.grid.freqAll ≠ [] ∧ (∀ b, 0 ≤ blLength s.grid.toGridIn b) ∧ s.grid.fill = false := by
  refine ⟨?_, ?_, rfl⟩
  · show (List.range x.obs.nFreq).map x.obs.freq ≠ []
    have := h.freqs
    intro hn
    have := congrArg List.length hn
    simp at this
    omega
  · intro b
    show 0 ≤ blLength (exportGrid _ _ _ _ _ _ _) b
    unfold blLength exportGrid
    exact mul_nonneg (he.norm _ _) he.kbin

/-- **C301.** If gains exist that explain the data exactly (and that the fits can represent), then, with the data made from the model by these gains at
the samples in use, in every set of planes that the export after a run makes (for both halves, all polarisations and all ranges of
channels) the plane of the data is that of the model. -/
theorem C301_exact (x : RunIn) (h : RunFits x) (g : Gains)
    (hg : ∀ w, visWeightsUpdate x.obs x.uv x.weights = .ok w → ExactSetup x w.weights g)
    (hdata : ∀ p < x.obs.nPol, ∀ s < x.cal.run.nBl * x.cal.run.nTime, ∀ f, UsedSample x p f s →
      x.vis p f s = g p f (x.cal.run.tileA s) * star (g p f (x.cal.run.tileB s)) * x.model p f s)
    (R : RunOut) (hR : imagingRun x = .ok R) (e : ExportIn) (he : ExportFits x e) (nf : ℕ → ℕ) (out : List (SplitState ℂ))
    (hout : exportRun x e R nf = .ok out) : ∀ st ∈ out, ∀ P ∈ st.planes, P.dirty = P.model := by
  have key := run_exact x h g hg R hR
  have hvis : ∀ p < x.obs.nPol, ∀ f b, b < x.obs.nBl → 0 < R.weights p f b → R.cal.vis p f b = x.model p f b := by
    intro p hp f b hb hw
    obtain ⟨a1, a2, a3, a4⟩ := run_positive x h R hR p f b hp hb hw
    have hb' : b < x.cal.run.nBl * x.cal.run.nTime := by rw [← h.nBl]; exact hb
    exact (key.2 p hp).2 b hb' a3 a4 f a2 _ (hdata p hp b hb' f a1)
  intro st hst P hP
  unfold exportRun at hout
  simp only [bind, Except.bind] at hout
  have ok := he.ok h R.cal.inUse
  obtain ⟨r, -, hr, -⟩ := exportWeights_ok _ x.uv ok e.im R.weights
  rw [hr] at hout
  simp only [] at hout
  obtain ⟨s, hs, nf', hst'⟩ := exportSplits_mem _ _ _ hout st hst
  obtain ⟨half, -, hs⟩ := List.mem_flatMap.1 hs
  obtain ⟨p, hp, rfl⟩ := List.mem_map.1 hs
  have hp := List.mem_range.1 hp
  obtain ⟨g1, g2, g3⟩ := splitIn_grid x h e he R.cal.inUse R.cal.vis r.weights half p
  refine freqSplit_equal _ g1 g2 g3 (fun f b hw => ?_) nf' st hst' P hP
  obtain ⟨a1, a2⟩ := exportWeights_pos _ x.uv ok e.im R.weights r hr p f b hp hw
  exact hvis p hp f b a2 a1

/-- **C301**, the file: if the images of data and model are the same, then so are the cubes of the exported file. -/
theorem C301_cubes (c : CubeIn) (hc : c.dirty = c.modelImage) (f : CubeFile) (hf : exportContents c = .ok f) : f.data.2 = f.model := by
  unfold exportContents at hf
  simp only [bind, Except.bind] at hf
  rw [hc] at hf
  by_cases hm : (!c.model) = true
  · rw [if_pos hm] at hf
    cases hf
  rw [if_neg hm] at hf
  cases h1 : exportCube c c.beamImage with
  | error e => rw [h1] at hf; cases hf
  | ok b =>
    rw [h1] at hf
    simp only [] at hf
    cases h2 : exportCube c (c.weights[·]?) with
    | error e => rw [h2] at hf; cases hf
    | ok w =>
      rw [h2] at hf
      simp only [] at hf
      cases h3 : exportCube c (c.variance[·]?) with
      | error e => rw [h3] at hf; cases hf
      | ok v =>
        rw [h3] at hf
        simp only [] at hf
        cases h4 : exportCube c (c.modelImage[·]?) with
        | error e => rw [h4] at hf; cases hf
        | ok m =>
          rw [h4] at hf
          simp only [Except.ok.injEq] at hf
          rw [← hf]

/-- What the gridding of the export needs: a cell size, a resolution of the kernels, kernels that are conjugated, and the same beam for all channels in
use of a range. -/
structure Spec.ExportGrids (x : RunIn) (e : ExportIn) : Prop where
  kbin : 0 < e.kbin
  res : 0 < e.res
  conj : ∀ p, (e.kernel p).noConjugate = false
  beam : ∀ p u fi, ∀ c ∈ rangeChannels x.obs.nFreq e.nAvg (x.obs.restrict u).freqUse fi,
    ∀ c' ∈ rangeChannels x.obs.nFreq e.nAvg (x.obs.restrict u).freqUse fi, (e.kernel p).fbin c = (e.kernel p).fbin c'

theorem exportSplits_ok : ∀ (ss : List (SplitIn ℂ)) (nf : ℕ → ℕ), (∀ s ∈ ss, SplitOk s) →
    ∃ out, exportSplits ss nf = .ok out ∧ List.Forall₂ (fun s st => st.planes.length = expNf s.nFreq s.nAvg) ss out := by
  intro ss
  induction ss with
  | nil => exact fun nf _ => ⟨[], rfl, .nil⟩
  | cons s ss ih =>
    intro nf h
    obtain ⟨st, h1, h2, -⟩ := C105_planes_partial s (h s List.mem_cons_self) nf
    obtain ⟨out, h3, h4⟩ := ih st.nfVis fun s hs => h s (List.mem_cons_of_mem _ hs)
    refine ⟨st :: out, ?_, .cons h2 h4⟩
    unfold exportSplits
    rw [h1]
    simp only []
    rw [h3]

/-- **C301**, the export: with a beam that is constant within the ranges of channels the export after every run succeeds, with one set of planes per
half, polarisation and range of channels. -/
theorem C301_exports (x : RunIn) (h : RunFits x) (R : RunOut) (e : ExportIn) (he : ExportFits x e) (hgr : ExportGrids x e) (nf : ℕ → ℕ) :
    ∃ out, exportRun x e R nf = .ok out ∧ out.length = 2 * x.obs.nPol ∧ ∀ st ∈ out, st.planes.length = expNf x.obs.nFreq e.nAvg := by
  obtain ⟨r, -, hr, -⟩ := exportWeights_ok _ x.uv (he.ok h R.cal.inUse) e.im R.weights
  obtain ⟨out, h1, h2⟩ := exportSplits_ok ([r.even, r.odd].flatMap fun half => (List.range x.obs.nPol).map fun p =>
      x.splitIn e (exportObs e.s2 (x.obs.restrict R.cal.inUse) e.dim e.kbin) R.cal.vis r.weights half p) nf (by
    intro s hs
    obtain ⟨half, -, hs⟩ := List.mem_flatMap.1 hs
    obtain ⟨p, -, rfl⟩ := List.mem_map.1 hs
    obtain ⟨g1, g2, -⟩ := splitIn_grid x h e he R.cal.inUse R.cal.vis r.weights half p
    exact ⟨hgr.conj p, rfl, g1, g2, hgr.res, hgr.kbin, hgr.beam p R.cal.inUse⟩)
  refine ⟨out, ?_, ?_, ?_⟩
  · unfold exportRun
    simp only [bind, Except.bind]
    rw [hr]
    exact h1
  · rw [← h2.length_eq]
    simp
    omega
  · intro st hst
    obtain ⟨k, hk, rfl⟩ := List.mem_iff_getElem.1 hst
    have hk' := hk
    rw [← h2.length_eq] at hk'
    have := (List.forall₂_iff_get.1 h2).2 k hk' hk
    simp only [List.get_eq_getElem] at this
    rw [this]
    have hm := List.getElem_mem hk'
    obtain ⟨half, -, hs⟩ := List.mem_flatMap.1 hm
    obtain ⟨p, -, hs⟩ := List.mem_map.1 hs
    rw [← hs]
    rfl

theorem exportRun_eq (x : RunIn) (e : ExportIn) (R : RunOut) (nf : ℕ → ℕ) (r : ExportW)
    (hr : exportWeights (exportObs e.s2 (x.obs.restrict R.cal.inUse) e.dim e.kbin) x.uv [] true e.im R.weights = .ok r) :
    exportRun x e R nf = exportSplits ([r.even, r.odd].flatMap fun half => (List.range x.obs.nPol).map fun p =>
      x.splitIn e (exportObs e.s2 (x.obs.restrict R.cal.inUse) e.dim e.kbin) R.cal.vis r.weights half p) nf := by
  unfold exportRun
  simp only [bind, Except.bind]
  rw [hr]

/-- **C302.** Data and model of samples that are flagged in the input, or have to be flagged, have no influence on what a run exports as HEALPix cubes:
all planes and counts are the same, whatever the imaginary parts are from which the noise is computed. -/
theorem C302_flagged (x : RunIn) (h : RunFits x) (v m : ℕ → ℕ → ℕ → ℂ)
    (hvm : ∀ p < x.obs.nPol, ∀ f b, b < x.obs.nBl → UsedSample x p f b → v p f b = x.vis p f b ∧ m p f b = x.model p f b)
    (R : RunOut) (hR : imagingRun x = .ok R) :
    ∃ R', imagingRun (withSky x v m) = .ok R' ∧ SameRun R R' ∧ ∀ (e : ExportIn) (_ : ExportFits x e) (im : ℕ → ℕ → ℕ → ℚ) (nf : ℕ → ℕ),
      exportRun (withSky x v m) { e with im := im } R' nf = exportRun x e R nf := by
  obtain ⟨R', hR', same⟩ := C294_flagged x h v m hvm R hR
  refine ⟨R', hR', same, fun e he im nf => ?_⟩
  obtain ⟨w1, w2, h1, h2, -⟩ := (run_stages x R).1 hR
  obtain ⟨w1', w2', h1', h2', -⟩ := (run_stages _ R').1 hR'
  have h1'' : visWeightsUpdate x.obs x.uv x.weights = .ok w1' := h1'
  rw [h1] at h1''
  cases h1''
  obtain ⟨r', e1, -, e3⟩ := calibrated_same x h v m w1 (fun p hp f b hb hw => by
    obtain ⟨e1, e2⟩ := update_weights x.obs x.uv x.weights h.tileA_ne h.tile_len h.offsets h.freqs w1 h1 p f b hb hp hw
    exact hvm p hp f b hb ⟨e1 ▸ hw, e2⟩) R.cal h2
  rw [h2'] at e1
  cases e1
  have hvis : ∀ p < x.obs.nPol, ∀ f b, b < x.obs.nBl → 0 < R.weights p f b →
      R.cal.vis p f b = R'.cal.vis p f b ∧ x.model p f b = m p f b := by
    intro p hp f b hb hw
    obtain ⟨a1, -⟩ := run_positive x h R hR p f b hp hb hw
    obtain ⟨b1, b2⟩ := hvm p hp f b hb a1
    exact ⟨(e3 p hp f b (by rw [← h.nBl]; exact hb) b1).symm, b2.symm⟩
  have ok := he.ok h R.cal.inUse
  obtain ⟨r, -, hr, -⟩ := exportWeights_ok _ x.uv ok e.im R.weights
  obtain ⟨r1, hr1, c1, c2, c3⟩ := exportWeights_im _ x.uv ok e.im im R.weights r hr
  have hr2 : exportWeights (exportObs e.s2 ((withSky x v m).obs.restrict R'.cal.inUse) e.dim e.kbin) (withSky x v m).uv [] true im R'.weights =
      .ok r1 := by
    rw [← hr1, same.1.2.2.1, same.2.1]
    rfl
  rw [exportRun_eq x e R nf r hr, exportRun_eq (withSky x v m) { e with im := im } R' nf r1 hr2, c1, c2, c3, same.1.2.2.1]
  have pull : ∀ F : List ℕ → ℕ → SplitIn ℂ, ([r.even, r.odd].flatMap fun half => (List.range x.obs.nPol).map fun p => F half p) =
      ([r.even, r.odd].flatMap fun half => (List.range x.obs.nPol).map fun p => (half, p)).map fun a => F a.1 a.2 := by
    intro F
    simp [List.flatMap_cons, Function.comp_def]
  have hpol : (withSky x v m).obs.nPol = x.obs.nPol := rfl
  rw [hpol, pull, pull]
  refine exportSplits_congr _ _ _ nf fun a ha nf' => ?_
  obtain ⟨half, -, ha⟩ := List.mem_flatMap.1 ha
  obtain ⟨p, hp, rfl⟩ := List.mem_map.1 ha
  have hp := List.mem_range.1 hp
  obtain ⟨g1, g2, g3⟩ := splitIn_grid x h e he R.cal.inUse R.cal.vis r.weights half p
  exact freqSplit_same (x.splitIn e (exportObs e.s2 (x.obs.restrict R.cal.inUse) e.dim e.kbin) R.cal.vis r.weights half p) g1 g2 g3
    (R'.cal.vis p) (m p) (fun f b hw => by
      obtain ⟨a1, a2⟩ := exportWeights_pos _ x.uv ok e.im R.weights r hr p f b hp hw
      exact hvis p hp f b a2 a1) nf'

/-! ## Example

The run of Props/WholeRunMore, exported on a grid of 24 by 24 cells with ranges of two channels. -/

/-- The export. -/
noncomputable def exExportRun (fit : List ℕ → List ℝ → ℕ → List ℝ) : ExportIn where
  s2 := 7/5
  dim := 24
  kbin := 1
  res := 3
  mask := false
  nAvg := 2
  kernel := fun p => { (exWholeRun fit).grid p with fbin := fun _ => 0 }
  groupOf := fun p _ _ => p
  rephase := fun _ _ => 1
  im := fun _ _ _ => 0

theorem exExportRun_fits (fit : List ℕ → List ℝ → ℕ → List ℝ) : ExportFits (exWholeRun fit) (exExportRun fit) where
  two := by show 2 ≤ 5; norm_num
  used := ⟨0, by show 0 < 5; norm_num, one_ne_zero⟩
  kbin := by show (0 : ℚ) ≤ 1; norm_num
  norm := fun a b => add_nonneg (abs_nonneg a) (abs_nonneg b)

theorem exExportRun_grids (fit : List ℕ → List ℝ → ℕ → List ℝ) : ExportGrids (exWholeRun fit) (exExportRun fit) where
  kbin := by show (0 : ℚ) < 1; norm_num
  res := Nat.succ_pos 2
  conj := fun _ => rfl
  beam := fun _ _ _ _ _ _ _ => rfl

/-- The hypotheses are met: the export has four sets of two planes each, and the planes of the data are those of the model. -/
example : ∃ fit R out, imagingRun (exWholeRun fit) = .ok R ∧ exportRun (exWholeRun fit) (exExportRun fit) R (fun _ => 0) = .ok out ∧ out.length = 4 ∧
    ∀ st ∈ out, st.planes.length = 2 ∧ ∀ P ∈ st.planes, P.dirty = P.model := by
  obtain ⟨fit, hfit⟩ := exists_leastSquaresFit
  obtain ⟨R, hR⟩ := exWholeRun_ok fit hfit
  obtain ⟨out, h1, h2, h3⟩ := C301_exports _ (exWholeRun_fits fit) R _ (exExportRun_fits fit) (exExportRun_grids fit) fun _ => 0
  refine ⟨fit, R, out, hR, h1, h2, fun st hst => ⟨?_, ?_⟩⟩
  · rw [h3 st hst]
    show expNf 4 2 = 2
    decide +kernel
  · exact C301_exact _ (exWholeRun_fits fit) (fun _ _ _ => ((2 : ℝ) : ℂ)) (fun w hw => by
      obtain ⟨w', b1, b2⟩ := exWholeRun_weights
      have : w = w' := by
        have hw' : visWeightsUpdate exAfter exAfterUv (fun _ _ _ => 1) = .ok w := hw
        rw [b1] at hw'
        exact (Except.ok.inj hw').symm
      subst this
      exact exWholeRun_exact fit hfit w.weights b2)
      (fun p _ s _ f _ => by
        show (4 : ℂ) * ((p + f + s + 1 : ℕ) : ℂ) = ((2 : ℝ) : ℂ) * star ((2 : ℝ) : ℂ) * ((p + f + s + 1 : ℕ) : ℂ)
        rw [Complex.star_def, Complex.conj_ofReal]
        norm_num) R hR _ (exExportRun_fits fit) _ out h1 st hst

/-- The hypotheses of C302 are met: the data of the flagged channel are replaced. -/
example : ∃ fit R R', imagingRun (exWholeRun fit) = .ok R ∧
    imagingRun (withSky (exWholeRun fit) (fun p f b => if f = 3 then 7 else (exWholeRun fit).vis p f b) (exWholeRun fit).model) = .ok R' ∧
    exportRun (withSky (exWholeRun fit) (fun p f b => if f = 3 then 7 else (exWholeRun fit).vis p f b) (exWholeRun fit).model) (exExportRun fit) R'
      (fun _ => 0) = exportRun (exWholeRun fit) (exExportRun fit) R fun _ => 0 := by
  obtain ⟨fit, hfit⟩ := exists_leastSquaresFit
  obtain ⟨R, hR⟩ := exWholeRun_ok fit hfit
  obtain ⟨R', a1, -, a3⟩ := C302_flagged _ (exWholeRun_fits fit) (fun p f b => if f = 3 then 7 else (exWholeRun fit).vis p f b) (exWholeRun fit).model
    (fun p _ f b _ hu => by
      have : f ≠ 3 := by
        rintro rfl
        exact hu.2 (Or.inl rfl)
      simp [this]) R hR
  exact ⟨fit, R, R', hR, a1, a3 _ (exExportRun_fits fit) (fun _ _ _ => 0) _⟩

/-- The cubes of Props/ExportCubes with the model as data. -/
def exSameCube : CubeIn := { exExport with dirty := exExport.modelImage }

/-- The hypotheses of the theorem on the cubes are met: there is a file. -/
example : ∃ f, exportContents exSameCube = .ok f ∧ f.data.2 = f.model := by
  cases h : exportContents exSameCube with
  | error e =>
    have : (exportContents exSameCube).isOk = true := by decide +kernel
    rw [h] at this
    cases this
  | ok f => exact ⟨f, rfl, C301_cubes _ rfl f h⟩

end PyFHD
