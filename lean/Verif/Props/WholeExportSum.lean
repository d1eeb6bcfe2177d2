import Verif.Props.WholeRunSum
import Verif.Props.WholeExportUnits
import Verif.Props.RunFiles

/-!
# C316: the HEALPix export of a sum of skies
-/

namespace PyFHD

open Spec

namespace Spec

/-- Planes of a range of channels of three exports: data and model of the third are `a` times the first and `c` times the second, weights and variances
are the same. -/
def PlanesAdd (a c : ℝ) (P Q S : SplitPlanes ℂ) : Prop :=
  (∀ y x, S.dirty y x = a * P.dirty y x + c * Q.dirty y x) ∧ (∀ y x, S.model y x = a * P.model y x + c * Q.model y x) ∧
    Q.weights = P.weights ∧ S.weights = P.weights ∧ Q.variance = P.variance ∧ S.variance = P.variance

/-- The same for all ranges of channels of a polarisation and half; the numbers of visibilities are the same. -/
structure ExportAdds (a c : ℝ) (s t u : SplitState ℂ) : Prop where
  len2 : t.planes.length = s.planes.length
  len3 : u.planes.length = s.planes.length
  planes : ∀ i, PlanesAdd a c (s.planes.getD i zeroPlanes) (t.planes.getD i zeroPlanes) (u.planes.getD i zeroPlanes)
  nVis : t.nVis = s.nVis ∧ u.nVis = s.nVis
  nfVis : t.nfVis = s.nfVis ∧ u.nfVis = s.nfVis

end Spec

theorem planesAdd_zero (a c : ℝ) : PlanesAdd a c (zeroPlanes : SplitPlanes ℂ) zeroPlanes zeroPlanes :=
  ⟨fun _ _ => by simp [zeroPlanes], fun _ _ => by simp [zeroPlanes], rfl, rfl, rfl, rfl⟩

theorem getD_append_one (l : List (SplitPlanes ℂ)) (P : SplitPlanes ℂ) (i : ℕ) :
    (l ++ [P]).getD i zeroPlanes = if i = l.length then P else l.getD i zeroPlanes := by
  rw [List.getD_eq_getElem?_getD, List.getD_eq_getElem?_getD]
  split_ifs with h
  · subst h
    simp
  · by_cases h2 : i < l.length
    · rw [List.getElem?_append_left h2]
    · rw [List.getElem?_eq_none (by simp; omega), List.getElem?_eq_none (by omega)]

theorem Spec.ExportAdds.push {a c : ℝ} {s t u : SplitState ℂ} (h : ExportAdds a c s t u) (P Q S : SplitPlanes ℂ) (hP : PlanesAdd a c P Q S) (n1 n2 n3 : ℕ)
    (hn : n2 = n1 ∧ n3 = n1) (f1 f2 f3 : ℕ → ℕ) (hf : f2 = f1 ∧ f3 = f1) :
    ExportAdds a c ⟨s.planes ++ [P], n1, f1⟩ ⟨t.planes ++ [Q], n2, f2⟩ ⟨u.planes ++ [S], n3, f3⟩ := by
  refine ⟨by simp [h.len2], by simp [h.len3], fun i => ?_, hn, hf⟩
  simp only [getD_append_one, h.len2, h.len3]
  split_ifs
  · exact hP
  · exact h.planes i

/-- The gridding of a sum of data. -/
theorem grid_adds (g : VisGridIn ℂ) (hres : 0 < g.res) (hf : g.freqAll ≠ []) (hl : ∀ b, 0 ≤ blLength g.toGridIn b) (hfill : g.fill = false) (a c : ℝ)
    (v1 v2 v3 : ℕ → ℕ → ℂ) (hv : ∀ f b, 0 < g.weight f b → v3 f b = a * v1 f b + c * v2 f b) (o1 : VisGridOut ℂ)
    (h1 : visibilityGrid (withVis g v1) = .ok (some o1)) :
    ∃ o2 o3, visibilityGrid (withVis g v2) = .ok (some o2) ∧ visibilityGrid (withVis g v3) = .ok (some o3) ∧
      (∀ i j, o3.planes.image i j = a * o1.planes.image i j + c * o2.planes.image i j) ∧
      (o2.planes.weights = o1.planes.weights ∧ o3.planes.weights = o1.planes.weights) ∧
      (o2.planes.variance = o1.planes.variance ∧ o3.planes.variance = o1.planes.variance) ∧ (o2.nVis = o1.nVis ∧ o3.nVis = o1.nVis) ∧
      o2.nfVis = o1.nfVis ∧ o3.nfVis = o1.nfVis := by
  obtain ⟨o2, b1, b2, b3, -, b5, b6⟩ := C191_weights g hres v1 v2 o1 h1
  obtain ⟨o3, c1, c2, c3, -, c5, c6⟩ := C191_weights g hres v1 v3 o1 h1
  obtain ⟨o, a1, a2⟩ := C190_linear g hres v1 v2 (a : ℂ) c (Complex.conj_ofReal a) (Complex.conj_ofReal c) o1 o2 h1 b1
  have e : visibilityGrid (withVis g v3) = visibilityGrid (withVis g fun f s => (a : ℂ) * v1 f s + c * v2 f s) :=
    C192_flagged g hf hl hfill _ _ fun f b hpos => hv f b hpos
  have : o3 = o := by
    rw [e, a1] at c1
    injection c1 with c1
    injection c1 with c1
    exact c1.symm
  exact ⟨o2, o3, b1, c1, fun i j => by rw [this, a2], ⟨b2, c2⟩, ⟨b3, c3⟩, ⟨b5, c5⟩, b6, c6⟩

/-- The planes of the ranges of channels of a sum. -/
theorem freqSplit_adds (s : SplitIn ℂ) (hres : 0 < s.grid.res) (hf : s.grid.freqAll ≠ []) (hl : ∀ b, 0 ≤ blLength s.grid.toGridIn b)
    (hfill : s.grid.fill = false) (a c : ℝ) (v1 m1 v2 m2 v3 m3 : ℕ → ℕ → ℂ)
    (hvm : ∀ f b, 0 < s.grid.weight f b → v3 f b = a * v1 f b + c * v2 f b ∧ m3 f b = a * m1 f b + c * m2 f b) (nf : ℕ → ℕ)
    (st1 st2 st3 : SplitState ℂ) (h1 : freqSplit { s with grid := { s.grid with vis := v1 }, model := m1 } nf = .ok st1)
    (h2 : freqSplit { s with grid := { s.grid with vis := v2 }, model := m2 } nf = .ok st2)
    (h3 : freqSplit { s with grid := { s.grid with vis := v3 }, model := m3 } nf = .ok st3) : ExportAdds a c st1 st2 st3 := by
  set S1 : SplitIn ℂ := { s with grid := { s.grid with vis := v1 }, model := m1 } with hS1
  set S2 : SplitIn ℂ := { s with grid := { s.grid with vis := v2 }, model := m2 } with hS2
  set S3 : SplitIn ℂ := { s with grid := { s.grid with vis := v3 }, model := m3 } with hS3
  have hstep : ∀ (fi : ℕ) (a0 a1 b0 b1 c0 c1 : SplitState ℂ), ExportAdds a c a0 b0 c0 → S1.step a0 fi = .ok a1 → S2.step b0 fi = .ok b1 →
      S3.step c0 fi = .ok c1 → ExportAdds a c a1 b1 c1 := by
    intro fi a0 a1 b0 b1 c0 c1 h0 k1 k2 k3
    unfold SplitIn.step at k1 k2 k3
    simp only [] at k1 k2 k3
    change (if (expChannels s.nFreq s.nAvg s.freqUse fi).length = 0 then _ else _) = _ at k1
    change (if (expChannels s.nFreq s.nAvg s.freqUse fi).length = 0 then _ else _) = _ at k2
    change (if (expChannels s.nFreq s.nAvg s.freqUse fi).length = 0 then _ else _) = _ at k3
    by_cases hc : (expChannels s.nFreq s.nAvg s.freqUse fi).length = 0
    · rw [if_pos hc] at k1 k2 k3
      rw [← Except.ok.inj k1, ← Except.ok.inj k2, ← Except.ok.inj k3]
      exact h0.push _ _ _ (planesAdd_zero a c) _ _ _ h0.nVis _ _ _ h0.nfVis
    · rw [if_neg hc] at k1 k2 k3
      unfold SplitIn.gridBoth at k1 k2 k3
      rw [show visibilityGrid (S1.gridIn fi) = visibilityGrid (withVis (s.gridIn fi) v1) from rfl,
        show visibilityGrid { S1.gridIn fi with vis := S1.model } = visibilityGrid (withVis (s.gridIn fi) m1) from rfl] at k1
      rw [show visibilityGrid (S2.gridIn fi) = visibilityGrid (withVis (s.gridIn fi) v2) from rfl,
        show visibilityGrid { S2.gridIn fi with vis := S2.model } = visibilityGrid (withVis (s.gridIn fi) m2) from rfl] at k2
      rw [show visibilityGrid (S3.gridIn fi) = visibilityGrid (withVis (s.gridIn fi) v3) from rfl,
        show visibilityGrid { S3.gridIn fi with vis := S3.model } = visibilityGrid (withVis (s.gridIn fi) m3) from rfl] at k3
      cases hv : visibilityGrid (withVis (s.gridIn fi) v1) with
      | error e => rw [hv] at k1; cases k1
      | ok ob =>
        rw [hv] at k1
        cases ob with
        | none =>
          rw [(C191_outcome (s.gridIn fi) v1 v2).1 hv] at k2
          rw [(C191_outcome (s.gridIn fi) v1 v3).1 hv] at k3
          rw [← Except.ok.inj k1, ← Except.ok.inj k2, ← Except.ok.inj k3]
          exact h0.push _ _ _ (planesAdd_zero a c) _ _ _ h0.nVis _ _ _ h0.nfVis
        | some o1 =>
          obtain ⟨o2, o3, x1, x2, x3, x4, x5, x6, x7⟩ := grid_adds (s.gridIn fi) hres hf hl hfill a c v1 v2 v3 (fun f b hw => (hvm f b hw).1) o1 hv
          rw [x1] at k2
          rw [x2] at k3
          cases hw : visibilityGrid (withVis (s.gridIn fi) m1) with
          | error e => rw [hw] at k1; cases k1
          | ok om =>
            rw [hw] at k1
            cases om with
            | none =>
              rw [(C191_outcome (s.gridIn fi) m1 m2).1 hw] at k2
              rw [(C191_outcome (s.gridIn fi) m1 m3).1 hw] at k3
              rw [← Except.ok.inj k1, ← Except.ok.inj k2, ← Except.ok.inj k3]
              exact h0.push _ _ _ (planesAdd_zero a c) _ _ _ h0.nVis _ _ _ h0.nfVis
            | some p1 =>
              obtain ⟨p2, p3, y1, y2, y3, -⟩ := grid_adds (s.gridIn fi) hres hf hl hfill a c m1 m2 m3 (fun f b hw => (hvm f b hw).2) p1 hw
              rw [y1] at k2
              rw [y2] at k3
              rw [← Except.ok.inj k1, ← Except.ok.inj k2, ← Except.ok.inj k3]
              refine h0.push _ _ _ ⟨fun y x => ?_, fun y x => ?_, ?_, ?_, ?_, ?_⟩ _ _ _ ⟨?_, ?_⟩ _ _ _ ⟨?_, ?_⟩
              · show o3.planes.image y x * o3.nVis = _ * (o1.planes.image y x * o1.nVis) + _ * (o2.planes.image y x * o2.nVis)
                rw [x3, x6.1, x6.2]
                ring
              · show p3.planes.image y x * o3.nVis = _ * (p1.planes.image y x * o1.nVis) + _ * (p2.planes.image y x * o2.nVis)
                rw [y3, x6.1, x6.2]
                ring
              · show (fun y x => o2.planes.weights y x * s.rephase y x * o2.nVis) = fun y x => o1.planes.weights y x * s.rephase y x * o1.nVis
                rw [x4.1, x6.1]
              · show (fun y x => o3.planes.weights y x * s.rephase y x * o3.nVis) = fun y x => o1.planes.weights y x * s.rephase y x * o1.nVis
                rw [x4.2, x6.2]
              · show (fun y x => o2.planes.variance y x * s.rephase y x * o2.nVis) = fun y x => o1.planes.variance y x * s.rephase y x * o1.nVis
                rw [x5.1, x6.1]
              · show (fun y x => o3.planes.variance y x * s.rephase y x * o3.nVis) = fun y x => o1.planes.variance y x * s.rephase y x * o1.nVis
                rw [x5.2, x6.2]
              · rw [h0.nVis.1, x6.1]
              · rw [h0.nVis.2, x6.2]
              · show setCounts b0.nfVis _ o2.nfVis = setCounts a0.nfVis _ o1.nfVis
                rw [h0.nfVis.1, x7.1]
              · show setCounts c0.nfVis _ o3.nfVis = setCounts a0.nfVis _ o1.nfVis
                rw [h0.nfVis.2, x7.2]
  have hfold : ∀ (l : List ℕ) (a0 a1 b0 b1 c0 c1 : SplitState ℂ), ExportAdds a c a0 b0 c0 → l.foldlM S1.step a0 = .ok a1 →
      l.foldlM S2.step b0 = .ok b1 → l.foldlM S3.step c0 = .ok c1 → ExportAdds a c a1 b1 c1 := by
    intro l
    induction l with
    | nil =>
      intro a0 a1 b0 b1 c0 c1 h0 k1 k2 k3
      rw [← Except.ok.inj k1, ← Except.ok.inj k2, ← Except.ok.inj k3]
      exact h0
    | cons fi l ih =>
      intro a0 a1 b0 b1 c0 c1 h0 k1 k2 k3
      rw [List.foldlM_cons] at k1 k2 k3
      cases e1 : S1.step a0 fi with
      | error e => rw [e1] at k1; cases k1
      | ok a2 =>
        cases e2 : S2.step b0 fi with
        | error e => rw [e2] at k2; cases k2
        | ok b2 =>
          cases e3 : S3.step c0 fi with
          | error e => rw [e3] at k3; cases k3
          | ok c2 =>
            rw [e1] at k1
            rw [e2] at k2
            rw [e3] at k3
            exact ih _ _ _ _ _ _ (hstep fi _ _ _ _ _ _ h0 e1 e2 e3) k1 k2 k3
  have h0 : ExportAdds a c ⟨[], 0, nf⟩ ⟨[], 0, nf⟩ ⟨[], 0, nf⟩ :=
    ⟨rfl, rfl, fun i => by simpa using planesAdd_zero a c, ⟨rfl, rfl⟩, ⟨rfl, rfl⟩⟩
  exact hfold _ _ _ _ _ _ _ h0 h1 h2 h3

/-- The sets of planes of three exports, one by one. -/
def Spec.AllAdd (a c : ℝ) (l1 l2 l3 : List (SplitState ℂ)) : Prop :=
  l2.length = l1.length ∧ l3.length = l1.length ∧
    ∀ (k : ℕ) (s t u : SplitState ℂ), l1[k]? = some s → l2[k]? = some t → l3[k]? = some u → ExportAdds a c s t u

theorem exportSplits_adds {A : Type} (a c : ℝ) (F G H : A → SplitIn ℂ) : ∀ (l : List A) (nf : ℕ → ℕ),
    (∀ y ∈ l, ∀ nf s t u, freqSplit (F y) nf = .ok s → freqSplit (G y) nf = .ok t → freqSplit (H y) nf = .ok u → ExportAdds a c s t u) →
    ∀ l1 l2 l3, exportSplits (l.map F) nf = .ok l1 → exportSplits (l.map G) nf = .ok l2 → exportSplits (l.map H) nf = .ok l3 → AllAdd a c l1 l2 l3 := by
  intro l
  induction l with
  | nil =>
    intro nf _ l1 l2 l3 h1 h2 h3
    rw [← Except.ok.inj h1, ← Except.ok.inj h2, ← Except.ok.inj h3]
    exact ⟨rfl, rfl, fun k s t u h => by simp at h⟩
  | cons y l ih =>
    intro nf h l1 l2 l3 h1 h2 h3
    simp only [List.map_cons, exportSplits] at h1 h2 h3
    cases e1 : freqSplit (F y) nf with
    | error e => rw [e1] at h1; cases h1
    | ok s =>
      cases e2 : freqSplit (G y) nf with
      | error e => rw [e2] at h2; cases h2
      | ok t =>
        cases e3 : freqSplit (H y) nf with
        | error e => rw [e3] at h3; cases h3
        | ok u =>
          rw [e1] at h1
          rw [e2] at h2
          rw [e3] at h3
          have key := h y List.mem_cons_self nf s t u e1 e2 e3
          simp only [] at h1 h2 h3
          rw [key.nfVis.1] at h2
          rw [key.nfVis.2] at h3
          cases f1 : exportSplits (l.map F) s.nfVis with
          | error e => rw [f1] at h1; cases h1
          | ok r1 =>
            cases f2 : exportSplits (l.map G) s.nfVis with
            | error e => rw [f2] at h2; cases h2
            | ok r2 =>
              cases f3 : exportSplits (l.map H) s.nfVis with
              | error e => rw [f3] at h3; cases h3
              | ok r3 =>
                rw [f1] at h1
                rw [f2] at h2
                rw [f3] at h3
                rw [← Except.ok.inj h1, ← Except.ok.inj h2, ← Except.ok.inj h3]
                obtain ⟨g1, g2, g3⟩ := ih s.nfVis (fun y hy => h y (List.mem_cons_of_mem _ hy)) r1 r2 r3 f1 f2 f3
                refine ⟨by simp [g1], by simp [g2], fun k s' t' u' k1 k2 k3 => ?_⟩
                cases k with
                | zero =>
                  simp only [List.getElem?_cons_zero, Option.some.injEq] at k1 k2 k3
                  rw [← k1, ← k2, ← k3]
                  exact key
                | succ k =>
                  rw [List.getElem?_cons_succ] at k1 k2 k3
                  exact g3 k s' t' u' k1 k2 k3

/-- A run on data that exact gains explain uses the tiles and channels of the input and calibrates to the model. -/
theorem sky_exact (x : RunIn) (h : RunFits x) (hflag : x.opts.flag = false) (g : Gains) (v m : ℕ → ℕ → ℕ → ℂ) (s : ExactSky x g v m) (R : RunOut)
    (hR : imagingRun (withSky x v m) = .ok R) : R.cal.inUse = x.obs.inUse ∧ ∀ p < x.obs.nPol, ∀ f b, b < x.obs.nBl → 0 < R.weights p f b →
      UsedSample x p f b ∧ R.cal.vis p f b = m p f b := by
  have hfit : RunFits (withSky x v m) := ⟨h.pols, h.freqs, h.samples, h.tileA, h.tileB, h.tiles, h.offsets, h.cast, h.gridFreqs, h.lengths⟩
  obtain ⟨u1, u2⟩ := run_exact _ hfit g s.setup R hR
  refine ⟨u1 hflag, fun p hp f b hb hpos => ?_⟩
  obtain ⟨y1, y2, y3, y4⟩ := run_positive _ hfit R hR p f b hp hb hpos
  have y1 : UsedSample x p f b := y1
  have hb' : b < x.cal.run.nBl * x.cal.run.nTime := by rw [← h.nBl]; exact hb
  exact ⟨y1, (u2 p hp).2 b hb' y3 y4 f y2 _ (s.data p hp b hb' f y1)⟩

/-- **C316.** Skies add up in the HEALPix export: under the conditions of C315, for both halves, all polarisations and all ranges of channels, the planes
of data and model that are exported after the third run are the combination of those of the first two, weights and variances and numbers of
visibilities are the same. -/
theorem C316_planes (x : RunIn) (h : RunFits x) (hi : ImagesFit x) (hres : ∀ p, 0 < (x.grid p).res) (hflag : x.opts.flag = false) (g : Gains)
    (v1 m1 v2 m2 v3 m3 : ℕ → ℕ → ℕ → ℂ) (s1 : ExactSky x g v1 m1) (s2 : ExactSky x g v2 m2) (s3 : ExactSky x g v3 m3) (a c : ℝ)
    (hm : ∀ p < x.obs.nPol, ∀ f, ∀ s < x.cal.run.nBl * x.cal.run.nTime, UsedSample x p f s → m3 p f s = a * m1 p f s + c * m2 p f s)
    (R1 R2 R3 : RunOut) (hR1 : imagingRun (withSky x v1 m1) = .ok R1) (hR2 : imagingRun (withSky x v2 m2) = .ok R2)
    (hR3 : imagingRun (withSky x v3 m3) = .ok R3) (e : ExportIn) (he : ExportFits x e) (hr0 : 0 < e.res) (im2 im3 : ℕ → ℕ → ℕ → ℚ) (nf : ℕ → ℕ)
    (out1 out2 out3 : List (SplitState ℂ)) (h1 : exportRun (withSky x v1 m1) e R1 nf = .ok out1)
    (h2 : exportRun (withSky x v2 m2) { e with im := im2 } R2 nf = .ok out2)
    (h3 : exportRun (withSky x v3 m3) { e with im := im3 } R3 nf = .ok out3) : AllAdd a c out1 out2 out3 := by
  obtain ⟨w2, w3, -⟩ := C315_sum x h hi hres hflag g v1 m1 v2 m2 v3 m3 s1 s2 s3 a c hm R1 R2 R3 hR1 hR2 hR3
  obtain ⟨u1, k1⟩ := sky_exact x h hflag g v1 m1 s1 R1 hR1
  obtain ⟨u2, k2⟩ := sky_exact x h hflag g v2 m2 s2 R2 hR2
  obtain ⟨u3, k3⟩ := sky_exact x h hflag g v3 m3 s3 R3 hR3
  have ok := he.ok h x.obs.inUse
  obtain ⟨r, -, hr, -⟩ := exportWeights_ok _ x.uv ok e.im R1.weights
  obtain ⟨r2, hr2, c1, c2, c3⟩ := exportWeights_im _ x.uv ok e.im im2 R1.weights r hr
  obtain ⟨r3, hr3, d1, d2, d3⟩ := exportWeights_im _ x.uv ok e.im im3 R1.weights r hr
  rw [exportRun_eq (withSky x v1 m1) e R1 nf r (by rw [u1]; exact hr), u1] at h1
  rw [exportRun_eq (withSky x v2 m2) { e with im := im2 } R2 nf r2 (by rw [u2, w2]; exact hr2), u2, c1, c2, c3] at h2
  rw [exportRun_eq (withSky x v3 m3) { e with im := im3 } R3 nf r3 (by rw [u3, w3]; exact hr3), u3, d1, d2, d3] at h3
  have pull : ∀ F : List ℕ → ℕ → SplitIn ℂ, ([r.even, r.odd].flatMap fun half => (List.range x.obs.nPol).map fun p => F half p) =
      ([r.even, r.odd].flatMap fun half => (List.range x.obs.nPol).map fun p => (half, p)).map fun a => F a.1 a.2 := by
    intro F
    simp [List.flatMap_cons, Function.comp_def]
  rw [show (withSky x v1 m1).obs.nPol = x.obs.nPol from rfl, pull] at h1
  rw [show (withSky x v2 m2).obs.nPol = x.obs.nPol from rfl, pull] at h2
  rw [show (withSky x v3 m3).obs.nPol = x.obs.nPol from rfl, pull] at h3
  refine exportSplits_adds a c _ _ _ _ nf (fun y hy nf' s t u f1 f2 f3 => ?_) out1 out2 out3 h1 h2 h3
  obtain ⟨half, -, hy⟩ := List.mem_flatMap.1 hy
  obtain ⟨p, hp, rfl⟩ := List.mem_map.1 hy
  have hp := List.mem_range.1 hp
  obtain ⟨g1, g2, g3⟩ := splitIn_grid x h e he x.obs.inUse x.vis r.weights half p
  refine freqSplit_adds (x.splitIn e (exportObs e.s2 (x.obs.restrict x.obs.inUse) e.dim e.kbin) x.vis r.weights half p) hr0 g1 g2 g3 a c
    (R1.cal.vis p) (m1 p) (R2.cal.vis p) (m2 p) (R3.cal.vis p) (m3 p) (fun f b hpos => ?_) nf' s t u f1 f2 f3
  obtain ⟨a1, a2⟩ := exportWeights_pos _ x.uv ok e.im R1.weights r hr p f b hp hpos
  have hb : b < x.obs.nBl := a2
  obtain ⟨b1, b2⟩ := k1 p hp f b hb a1
  have b3 := (k2 p hp f b hb (by rw [w2]; exact a1)).2
  have b4 := (k3 p hp f b hb (by rw [w3]; exact a1)).2
  have key := hm p hp f b (by rw [← h.nBl]; exact hb) b1
  exact ⟨by rw [b2, b3, b4]; exact key, key⟩

/-! ## The files -/

namespace Spec

/-- The third list is `a` times the first and `c` times the second, value by value. -/
def Comb (a c : ℝ) (l1 l2 l3 : List ℝ) : Prop :=
  l2.length = l1.length ∧ l3.length = l1.length ∧ ∀ i, l3.getD i 0 = a * l1.getD i 0 + c * l2.getD i 0

/-- The cubes of data and model of the third file are `a` times those of the first and `c` times those of the second, the other cubes are the same. -/
structure FileAdds (a c : ℝ) (f1 f2 f3 : RunFile) : Prop where
  dirty : f2.dirty.length = f1.dirty.length ∧ f3.dirty.length = f1.dirty.length ∧
    ∀ i, Comb a c (f1.dirty.getD i []) (f2.dirty.getD i []) (f3.dirty.getD i [])
  model : f2.model.length = f1.model.length ∧ f3.model.length = f1.model.length ∧
    ∀ i, Comb a c (f1.model.getD i []) (f2.model.getD i []) (f3.model.getD i [])
  weights : f2.weights = f1.weights ∧ f3.weights = f1.weights
  variance : f2.variance = f1.variance ∧ f3.variance = f1.variance
  beam : f2.beamSquared = f1.beamSquared ∧ f3.beamSquared = f1.beamSquared

end Spec

theorem Spec.Comb.set {a c : ℝ} {l1 l2 l3 : List ℝ} (h : Comb a c l1 l2 l3) (j : ℕ) (y1 y2 y3 : ℝ) (hy : y3 = a * y1 + c * y2) :
    Comb a c (l1.set j y1) (l2.set j y2) (l3.set j y3) := by
  obtain ⟨h1, h2, h3⟩ := h
  refine ⟨by simp [h1], by simp [h2], fun i => ?_⟩
  have := h3 i
  simp only [List.getD_eq_getElem?_getD, List.getElem?_set, h1, h2] at this ⊢
  split_ifs
  · exact hy
  · simp
  · exact this

theorem fieldAdd_comb (a c : ℝ) (m1 m2 m3 : List ℝ) (h : Comb a c m1 m2 m3) (v1 v2 v3 : ℝ) (hv : v3 = a * v1 + c * v2) (e : HpxEntry)
    (r1 r2 r3 : List ℝ) (h1 : fieldAdd m1 v1 e = .ok r1) (h2 : fieldAdd m2 v2 e = .ok r2) (h3 : fieldAdd m3 v3 e = .ok r3) : Comb a c r1 r2 r3 := by
  unfold fieldAdd at h1 h2 h3
  split_ifs at h1 h2 h3
  rw [← Except.ok.inj h1, ← Except.ok.inj h2, ← Except.ok.inj h3]
  have gen : ∀ (L : List (ℕ × ℚ)) (u1 u2 u3 : List ℝ), Comb a c u1 u2 u3 →
      Comb a c (L.foldl (fun acc ps => acc.set ps.1 (m1.getD ps.1 0 + (ps.2 : ℝ) * v1)) u1)
        (L.foldl (fun acc ps => acc.set ps.1 (m2.getD ps.1 0 + (ps.2 : ℝ) * v2)) u2)
        (L.foldl (fun acc ps => acc.set ps.1 (m3.getD ps.1 0 + (ps.2 : ℝ) * v3)) u3) := by
    intro L
    induction L with
    | nil => intro u1 u2 u3 hu; exact hu
    | cons ps L ih =>
      intro u1 u2 u3 hu
      simp only [List.foldl_cons]
      refine ih _ _ _ (hu.set _ _ _ _ ?_)
      rw [h.2.2, hv]
      ring
  exact gen _ _ _ _ h

/-- The map of a sum of images is the sum of the maps. -/
theorem fieldApply_comb (a c : ℝ) (n : ℕ) (cnv : List HpxEntry) (l1 l2 l3 : List ℝ) (h : Comb a c l1 l2 l3) (r1 r2 r3 : List ℝ)
    (h1 : fieldApply n l1 cnv = .ok r1) (h2 : fieldApply n l2 cnv = .ok r2) (h3 : fieldApply n l3 cnv = .ok r3) : Comb a c r1 r2 r3 := by
  have gen : ∀ (L : List HpxEntry) (m1 m2 m3 : List ℝ), Comb a c m1 m2 m3 → ∀ r1 r2 r3, L.foldlM (fieldStep l1) m1 = .ok r1 →
      L.foldlM (fieldStep l2) m2 = .ok r2 → L.foldlM (fieldStep l3) m3 = .ok r3 → Comb a c r1 r2 r3 := by
    intro L
    induction L with
    | nil =>
      intro m1 m2 m3 hm r1 r2 r3 h1 h2 h3
      rw [← Except.ok.inj h1, ← Except.ok.inj h2, ← Except.ok.inj h3]
      exact hm
    | cons e L ih =>
      intro m1 m2 m3 hm r1 r2 r3 h1 h2 h3
      rw [List.foldlM_cons] at h1 h2 h3
      cases e1 : fieldStep l1 m1 e with
      | error e => rw [e1] at h1; cases h1
      | ok n1 =>
        cases e2 : fieldStep l2 m2 e with
        | error e => rw [e2] at h2; cases h2
        | ok n2 =>
          cases e3 : fieldStep l3 m3 e with
          | error e => rw [e3] at h3; cases h3
          | ok n3 =>
            rw [e1] at h1
            rw [e2] at h2
            rw [e3] at h3
            refine ih n1 n2 n3 ?_ r1 r2 r3 h1 h2 h3
            have hh := h.2.2 e.iUse
            simp only [List.getD_eq_getElem?_getD] at hh
            unfold fieldStep at e1 e2 e3
            cases i1 : l1[e.iUse]? with
            | none => rw [i1] at e1; cases e1
            | some y1 =>
              cases i2 : l2[e.iUse]? with
              | none => rw [i2] at e2; cases e2
              | some y2 =>
                cases i3 : l3[e.iUse]? with
                | none => rw [i3] at e3; cases e3
                | some y3 =>
                  rw [i1] at e1 hh
                  rw [i2] at e2 hh
                  rw [i3] at e3 hh
                  exact fieldAdd_comb a c m1 m2 m3 hm y1 y2 y3 hh e _ _ _ e1 e2 e3
  refine gen cnv _ _ _ ⟨rfl, rfl, fun i => ?_⟩ r1 r2 r3 h1 h2 h3
  have : (List.replicate n (0 : ℝ)).getD i 0 = 0 := by
    rw [List.getD_eq_getElem?_getD, List.getElem?_replicate]
    split_ifs <;> rfl
  rw [this]
  ring

/-- The image of a sum of planes. -/
theorem realImage_comb (a c : ℝ) (n : ℕ) (d : ℝ) (P Q S : Plane ℂ) (h : ∀ y x, S y x = a * P y x + c * Q y x) :
    Comb a c (realImage n d P) (realImage n d Q) (realImage n d S) := by
  have hS : S = fun y x => (a : ℂ) * P y x + c * Q y x := by funext y x; exact h y x
  refine ⟨by simp [realImage], by simp [realImage], fun i => ?_⟩
  unfold realImage
  simp only [List.getD_eq_getElem?_getD, List.getElem?_map]
  by_cases hi : i < n * n
  · rw [List.getElem?_range hi]
    simp only [Option.map_some, Option.getD_some]
    rw [hS, fourier_sum]
    ring
  · rw [List.getElem?_eq_none (by simpa using hi)]
    simp

theorem comb_nil (a c : ℝ) : Comb a c [] [] [] := ⟨rfl, rfl, fun i => by simp⟩

theorem cube_adds (a c : ℝ) (n nf : ℕ) (q : FileIn) (P1 P2 P3 : ℕ → Plane ℂ) (hP : ∀ i y x, P3 i y x = a * P1 i y x + c * P2 i y x)
    (d1 d2 d3 : List (List ℝ)) (l1 : d1.length = nf) (l2 : d2.length = nf) (l3 : d3.length = nf)
    (h1 : ∀ i < nf, ∃ m, d1[i]? = some m ∧ fieldApply q.nPix (realImage n q.degpix (P1 i)) q.cnv = .ok m)
    (h2 : ∀ i < nf, ∃ m, d2[i]? = some m ∧ fieldApply q.nPix (realImage n q.degpix (P2 i)) q.cnv = .ok m)
    (h3 : ∀ i < nf, ∃ m, d3[i]? = some m ∧ fieldApply q.nPix (realImage n q.degpix (P3 i)) q.cnv = .ok m) :
    d2.length = d1.length ∧ d3.length = d1.length ∧ ∀ i, Comb a c (d1.getD i []) (d2.getD i []) (d3.getD i []) := by
  refine ⟨l2.trans l1.symm, l3.trans l1.symm, fun i => ?_⟩
  simp only [List.getD_eq_getElem?_getD]
  by_cases hi : i < nf
  · obtain ⟨m1, x1, y1⟩ := h1 i hi
    obtain ⟨m2, x2, y2⟩ := h2 i hi
    obtain ⟨m3, x3, y3⟩ := h3 i hi
    rw [x1, x2, x3]
    exact fieldApply_comb a c _ _ _ _ _ (realImage_comb a c n q.degpix _ _ _ (hP i)) m1 m2 m3 y1 y2 y3
  · rw [List.getElem?_eq_none (by omega), List.getElem?_eq_none (by omega), List.getElem?_eq_none (by omega)]
    exact comb_nil a c

theorem cube_same (nf : ℕ) (q : FileIn) (I J : ℕ → List ℝ) (hI : ∀ i, J i = I i) (d1 d2 : List (List ℝ)) (l1 : d1.length = nf) (l2 : d2.length = nf)
    (h1 : ∀ i < nf, ∃ m, d1[i]? = some m ∧ fieldApply q.nPix (I i) q.cnv = .ok m)
    (h2 : ∀ i < nf, ∃ m, d2[i]? = some m ∧ fieldApply q.nPix (J i) q.cnv = .ok m) : d2 = d1 := by
  refine List.ext_getElem? fun i => ?_
  by_cases hi : i < nf
  · obtain ⟨m1, x1, y1⟩ := h1 i hi
    obtain ⟨m2, x2, y2⟩ := h2 i hi
    rw [hI, y1] at y2
    rw [x1, x2, Except.ok.inj y2]
  · rw [List.getElem?_eq_none (by omega), List.getElem?_eq_none (by omega)]

theorem file_adds (a c : ℝ) (n nf : ℕ) (q : FileIn) (p : ℕ) (s t u : ℕ → SplitPlanes ℂ) (h : ∀ i, PlanesAdd a c (s i) (t i) (u i)) (cnt : ℕ → ℝ)
    (f1 f2 f3 : RunFile) (h1 : HoldsMaps n nf q p s cnt f1) (h2 : HoldsMaps n nf q p t cnt f2) (h3 : HoldsMaps n nf q p u cnt f3) :
    FileAdds a c f1 f2 f3 where
  dirty := cube_adds a c n nf q _ _ _ (fun i => (h i).1) _ _ _ h1.rows.2.2.2.2 h2.rows.2.2.2.2 h3.rows.2.2.2.2 h1.dirty h2.dirty h3.dirty
  model := cube_adds a c n nf q _ _ _ (fun i => (h i).2.1) _ _ _ h1.rows.2.2.2.1 h2.rows.2.2.2.1 h3.rows.2.2.2.1 h1.model h2.model h3.model
  weights := ⟨cube_same nf q _ _ (fun i => by rw [(h i).2.2.1]) _ _ h1.rows.2.1 h2.rows.2.1 h1.weights h2.weights,
    cube_same nf q _ _ (fun i => by rw [(h i).2.2.2.1]) _ _ h1.rows.2.1 h3.rows.2.1 h1.weights h3.weights⟩
  variance := ⟨cube_same nf q _ _ (fun i => by rw [(h i).2.2.2.2.1]) _ _ h1.rows.2.2.1 h2.rows.2.2.1 h1.variance h2.variance,
    cube_same nf q _ _ (fun i => by rw [(h i).2.2.2.2.2]) _ _ h1.rows.2.2.1 h3.rows.2.2.1 h1.variance h3.variance⟩
  beam := ⟨cube_same nf q _ _ (fun _ => rfl) _ _ h1.rows.1 h2.rows.1 h1.beam h2.beam,
    cube_same nf q _ _ (fun _ => rfl) _ _ h1.rows.1 h3.rows.1 h1.beam h3.beam⟩

/-- **C316**, the files: under the conditions of C315 the three runs write their files, and the cubes of data and model in every file of the third are
the combination of those in the same file of the first two; the other cubes are the same. -/
theorem C316_files (x : RunIn) (h : RunFits x) (hi : ImagesFit x) (hres : ∀ p, 0 < (x.grid p).res) (hflag : x.opts.flag = false) (g : Gains)
    (v1 m1 v2 m2 v3 m3 : ℕ → ℕ → ℕ → ℂ) (s1 : ExactSky x g v1 m1) (s2 : ExactSky x g v2 m2) (s3 : ExactSky x g v3 m3) (a c : ℝ)
    (hm : ∀ p < x.obs.nPol, ∀ f, ∀ s < x.cal.run.nBl * x.cal.run.nTime, UsedSample x p f s → m3 p f s = a * m1 p f s + c * m2 p f s)
    (R1 R2 R3 : RunOut) (hR1 : imagingRun (withSky x v1 m1) = .ok R1) (hR2 : imagingRun (withSky x v2 m2) = .ok R2)
    (hR3 : imagingRun (withSky x v3 m3) = .ok R3) (e : ExportIn) (he : ExportFits x e) (hgr : ExportGrids x e) (q : FileIn) (hq : MapFits e.dim q)
    (im2 im3 : ℕ → ℕ → ℕ → ℚ) (nf : ℕ → ℕ) :
    ∃ F1 F2 F3, runFiles (withSky x v1 m1) e q R1 nf = .ok F1 ∧ runFiles (withSky x v2 m2) { e with im := im2 } q R2 nf = .ok F2 ∧
      runFiles (withSky x v3 m3) { e with im := im3 } q R3 nf = .ok F3 ∧ F1.length = 2 * x.obs.nPol ∧ F2.length = 2 * x.obs.nPol ∧
      F3.length = 2 * x.obs.nPol ∧ ∀ (k : ℕ) (f1 f2 f3 : RunFile), F1[k]? = some f1 → F2[k]? = some f2 → F3[k]? = some f3 → FileAdds a c f1 f2 f3 := by
  have hfit : ∀ v m, RunFits (withSky x v m) := fun v m =>
    ⟨h.pols, h.freqs, h.samples, h.tileA, h.tileB, h.tiles, h.offsets, h.cast, h.gridFreqs, h.lengths⟩
  have hef : ∀ v m im, ExportFits (withSky x v m) { e with im := im } := fun v m im => ⟨he.two, he.used, he.kbin, he.norm⟩
  have heg : ∀ v m im, ExportGrids (withSky x v m) { e with im := im } := fun v m im => ⟨hgr.kbin, hgr.res, hgr.conj, hgr.beam⟩
  obtain ⟨o1, F1, a1, a2, a3, a4⟩ := runFiles_hold _ (hfit v1 m1) R1 e (hef v1 m1 e.im) (heg v1 m1 e.im) q hq nf
  obtain ⟨o2, F2, b1, b2, b3, b4⟩ := runFiles_hold _ (hfit v2 m2) R2 { e with im := im2 } (hef v2 m2 im2) (heg v2 m2 im2) q hq nf
  obtain ⟨o3, F3, c1, c2, c3, c4⟩ := runFiles_hold _ (hfit v3 m3) R3 { e with im := im3 } (hef v3 m3 im3) (heg v3 m3 im3) q hq nf
  obtain ⟨-, -, key⟩ := C316_planes x h hi hres hflag g v1 m1 v2 m2 v3 m3 s1 s2 s3 a c hm R1 R2 R3 hR1 hR2 hR3 e he hgr.res im2 im3 nf o1 o2 o3 a1 b1 c1
  refine ⟨F1, F2, F3, a2, b2, c2, a3, b3, c3, fun k f1 f2 f3 k1 k2 k3 => ?_⟩
  have hk : k < 2 * x.obs.nPol := by
    obtain ⟨hk, -⟩ := List.getElem?_eq_some_iff.1 k1
    rw [a3] at hk
    exact hk
  obtain ⟨s, f1', p1, p2, p3⟩ := a4 k hk
  obtain ⟨t, f2', q1, q2, q3⟩ := b4 k hk
  obtain ⟨u, f3', r1, r2, r3⟩ := c4 k hk
  rw [k1] at p2
  rw [k2] at q2
  rw [k3] at r2
  obtain rfl := Option.some.inj p2
  obtain rfl := Option.some.inj q2
  obtain rfl := Option.some.inj r2
  have E := key k s t u p1 q1 r1
  have n2 : t.counts x.obs.nFreq e.nAvg = s.counts x.obs.nFreq e.nAvg := by
    funext i
    unfold SplitState.counts
    rw [E.nfVis.1]
  have n3 : u.counts x.obs.nFreq e.nAvg = s.counts x.obs.nFreq e.nAvg := by
    funext i
    unfold SplitState.counts
    rw [E.nfVis.2]
  have q3 : HoldsMaps e.dim (expNfUse x.obs.nFreq e.nAvg) q (k % x.obs.nPol) (fun i => t.planes.getD i zeroPlanes)
      (fun i => ((t.counts x.obs.nFreq e.nAvg i : ℚ) : ℝ)) f2 := q3
  have r3 : HoldsMaps e.dim (expNfUse x.obs.nFreq e.nAvg) q (k % x.obs.nPol) (fun i => u.planes.getD i zeroPlanes)
      (fun i => ((u.counts x.obs.nFreq e.nAvg i : ℚ) : ℝ)) f3 := r3
  rw [n2] at q3
  rw [n3] at r3
  exact file_adds a c _ _ q _ _ _ _ E.planes _ f1 f2 f3 p3 q3 r3

/-- The hypotheses of C316 are met by the skies of Props/WholeRunSum: the runs write four files each. -/
example : ∃ fit R1 R2 R3 F1 F2 F3, imagingRun (exBright fit 1) = .ok R1 ∧ imagingRun (exBright fit 2) = .ok R2 ∧ imagingRun (exBright fit 3) = .ok R3 ∧
    runFiles (exBright fit 1) (exExportRun fit) exFileIn R1 (fun _ => 0) = .ok F1 ∧
    runFiles (exBright fit 2) (exExportRun fit) exFileIn R2 (fun _ => 0) = .ok F2 ∧
    runFiles (exBright fit 3) (exExportRun fit) exFileIn R3 (fun _ => 0) = .ok F3 ∧ F1.length = 4 ∧
    ∀ (k : ℕ) (f1 f2 f3 : RunFile), F1[k]? = some f1 → F2[k]? = some f2 → F3[k]? = some f3 → FileAdds 1 1 f1 f2 f3 := by
  obtain ⟨fit, hfit⟩ := exists_leastSquaresFit
  obtain ⟨R, hR⟩ := exWholeRun_ok fit hfit
  have hrun : ∀ k : ℝ, k ≠ 0 → ∃ R', imagingRun (exBright fit k) = .ok R' := fun k hk => by
    obtain ⟨R', a1, -⟩ := C295_units _ (exWholeRun_fits fit) (exWholeRun_images fit) (fun p => by norm_num [exWholeRun, exGrid]) k hk R hR
    exact ⟨R', a1⟩
  obtain ⟨R1, h1⟩ := hrun 1 (by norm_num)
  obtain ⟨R2, h2⟩ := hrun 2 (by norm_num)
  obtain ⟨R3, h3⟩ := hrun 3 (by norm_num)
  obtain ⟨F1, F2, F3, f1, f2, f3, f4, -, -, f5⟩ := C316_files (exWholeRun fit) (exWholeRun_fits fit) (exWholeRun_images fit)
    (fun p => by norm_num [exWholeRun, exGrid]) rfl _ _ _ _ _ _ _
    (exBright_sky fit hfit 1 (by norm_num)) (exBright_sky fit hfit 2 (by norm_num)) (exBright_sky fit hfit 3 (by norm_num)) 1 1
    (fun p _ f s _ _ => by
      show ((3 : ℝ) : ℂ) * (exWholeRun fit).model p f s = ((1 : ℝ) : ℂ) * (((1 : ℝ) : ℂ) * (exWholeRun fit).model p f s) +
        ((1 : ℝ) : ℂ) * (((2 : ℝ) : ℂ) * (exWholeRun fit).model p f s)
      push_cast
      ring) R1 R2 R3 h1 h2 h3 (exExportRun fit) (exExportRun_fits fit) (exExportRun_grids fit) exFileIn exFileIn_fits (fun _ _ _ => 0) (fun _ _ _ => 0)
    fun _ => 0
  exact ⟨fit, R1, R2, R3, F1, F2, F3, h1, h2, h3, f1, f2, f3, f4, f5⟩

end PyFHD
