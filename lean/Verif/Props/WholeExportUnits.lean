import Verif.Props.WholeExport

/-!
# C303: units of flux in the cubes exported by a run
-/

namespace PyFHD

open Spec

/-- The planes of a range of channels in other units: data and model are multiplied by `k`, weights and variances are the same. -/
def Spec.SplitScaled (k : ℝ) (P P' : SplitPlanes ℂ) : Prop :=
  (∀ y x, P'.dirty y x = k * P.dirty y x) ∧ (∀ y x, P'.model y x = k * P.model y x) ∧ P'.weights = P.weights ∧ P'.variance = P.variance

/-- The planes of a polarisation and half in other units; the numbers of visibilities are the same. -/
def Spec.ExportScaled (k : ℝ) (st st' : SplitState ℂ) : Prop :=
  List.Forall₂ (SplitScaled k) st.planes st'.planes ∧ st'.nVis = st.nVis ∧ st'.nfVis = st.nfVis

/-- The gridding of data that are multiplied by `k` where the weights are positive. -/
theorem grid_scaled (g : VisGridIn ℂ) (hres : 0 < g.res) (hf : g.freqAll ≠ []) (hl : ∀ b, 0 ≤ blLength g.toGridIn b) (hfill : g.fill = false) (k : ℝ)
    (u u' : ℕ → ℕ → ℂ) (hu : ∀ f b, 0 < g.weight f b → u' f b = k * u f b) (o1 : VisGridOut ℂ) (h1 : visibilityGrid (withVis g u) = .ok (some o1)) :
    ∃ o2, visibilityGrid (withVis g u') = .ok (some o2) ∧ (∀ i j, o2.planes.image i j = k * o1.planes.image i j) ∧
      o2.planes.weights = o1.planes.weights ∧ o2.planes.variance = o1.planes.variance ∧ o2.nVis = o1.nVis ∧ o2.nfVis = o1.nfVis := by
  obtain ⟨o2, a1, a2⟩ := C190_linear g hres u u (k : ℂ) 0 (Complex.conj_ofReal k) (star_zero _) o1 o1 h1 h1
  have e : visibilityGrid (withVis g u') = visibilityGrid (withVis g fun f s => (k : ℂ) * u f s + 0 * u f s) := by
    refine C192_flagged g hf hl hfill _ _ fun f b hpos => ?_
    rw [hu f b hpos, zero_mul, add_zero]
  obtain ⟨o3, b1, b2, b3, -, b5, b6⟩ := C191_weights g hres u u' o1 h1
  have : o3 = o2 := by
    rw [e, a1] at b1
    injection b1 with b1
    injection b1 with b1
    exact b1.symm
  subst this
  refine ⟨o3, b1, fun i j => ?_, b2, b3, b5, b6⟩
  rw [a2, zero_mul, add_zero]

theorem freqSplit_scaled (s : SplitIn ℂ) (hres : 0 < s.grid.res) (hf : s.grid.freqAll ≠ []) (hl : ∀ b, 0 ≤ blLength s.grid.toGridIn b)
    (hfill : s.grid.fill = false) (k : ℝ) (v m : ℕ → ℕ → ℂ)
    (hvm : ∀ f b, 0 < s.grid.weight f b → v f b = k * s.grid.vis f b ∧ m f b = k * s.model f b) (nf : ℕ → ℕ) (st : SplitState ℂ)
    (h : freqSplit s nf = .ok st) :
    ∃ st', freqSplit { s with grid := { s.grid with vis := v }, model := m } nf = .ok st' ∧ ExportScaled k st st' := by
  set s' : SplitIn ℂ := { s with grid := { s.grid with vis := v }, model := m } with hs'
  have hzero : SplitScaled k (zeroPlanes : SplitPlanes ℂ) zeroPlanes := ⟨fun _ _ => (mul_zero _).symm, fun _ _ => (mul_zero _).symm, rfl, rfl⟩
  have hstep : ∀ (fi : ℕ) (s0 s1 : SplitState ℂ) (t0 : SplitState ℂ), ExportScaled k s0 t0 → s.step s0 fi = .ok s1 →
      ∃ t1, s'.step t0 fi = .ok t1 ∧ ExportScaled k s1 t1 := by
    intro fi s0 s1 t0 h0 h1
    unfold SplitIn.step at h1 ⊢
    simp only [] at h1 ⊢
    change ∃ t1, (if (expChannels s.nFreq s.nAvg s.freqUse fi).length = 0 then _ else _) = _ ∧ _
    split_ifs at h1 ⊢ with hc
    · refine ⟨_, rfl, ?_⟩
      rw [← Except.ok.inj h1]
      exact ⟨(List.rel_append h0.1 (.cons hzero .nil)), h0.2.1, h0.2.2⟩
    · unfold SplitIn.gridBoth at h1 ⊢
      have hd : visibilityGrid (s'.gridIn fi) = visibilityGrid (withVis (s.gridIn fi) v) := rfl
      have hm : visibilityGrid { s'.gridIn fi with vis := s'.model } = visibilityGrid (withVis (s.gridIn fi) m) := rfl
      rw [hd, hm]
      have hd0 : visibilityGrid (s.gridIn fi) = visibilityGrid (withVis (s.gridIn fi) s.grid.vis) := rfl
      have hm0 : visibilityGrid { s.gridIn fi with vis := s.model } = visibilityGrid (withVis (s.gridIn fi) s.model) := rfl
      rw [hd0, hm0] at h1
      cases hv : visibilityGrid (withVis (s.gridIn fi) s.grid.vis) with
      | error e => rw [hv] at h1; cases h1
      | ok ob =>
        rw [hv] at h1
        cases ob with
        | none =>
          rw [(C191_outcome (s.gridIn fi) s.grid.vis v).1 hv]
          refine ⟨_, rfl, ?_⟩
          rw [← Except.ok.inj h1]
          exact ⟨(List.rel_append h0.1 (.cons hzero .nil)), h0.2.1, h0.2.2⟩
        | some o =>
          obtain ⟨o', a1, a2, a3, a4, a5, a6⟩ := grid_scaled (s.gridIn fi) hres hf hl hfill k s.grid.vis v (fun f b hw => (hvm f b hw).1) o hv
          rw [a1]
          cases hw : visibilityGrid (withVis (s.gridIn fi) s.model) with
          | error e => rw [hw] at h1; cases h1
          | ok om =>
            rw [hw] at h1
            cases om with
            | none =>
              rw [(C191_outcome (s.gridIn fi) s.model m).1 hw]
              refine ⟨_, rfl, ?_⟩
              rw [← Except.ok.inj h1]
              exact ⟨(List.rel_append h0.1 (.cons hzero .nil)), h0.2.1, h0.2.2⟩
            | some om =>
              obtain ⟨om', b1, b2, -⟩ := grid_scaled (s.gridIn fi) hres hf hl hfill k s.model m (fun f b hw => (hvm f b hw).2) om hw
              rw [b1]
              refine ⟨_, rfl, ?_⟩
              rw [← Except.ok.inj h1]
              refine ⟨(List.rel_append h0.1 (.cons ⟨fun y x => ?_, fun y x => ?_, ?_, ?_⟩ .nil)), ?_, ?_⟩
              · show o'.planes.image y x * o'.nVis = _ * (o.planes.image y x * o.nVis)
                rw [a2, a5, mul_assoc]
              · show om'.planes.image y x * o'.nVis = _ * (om.planes.image y x * o.nVis)
                rw [b2, a5, mul_assoc]
              · show (fun y x => o'.planes.weights y x * s.rephase y x * o'.nVis) = fun y x => o.planes.weights y x * s.rephase y x * o.nVis
                rw [a3, a5]
              · show (fun y x => o'.planes.variance y x * s.rephase y x * o'.nVis) = fun y x => o.planes.variance y x * s.rephase y x * o.nVis
                rw [a4, a5]
              · show t0.nVis + o'.nVis = s0.nVis + o.nVis
                rw [h0.2.1, a5]
              · show setCounts t0.nfVis _ o'.nfVis = setCounts s0.nfVis _ o.nfVis
                rw [h0.2.2, a6]
  have hfold : ∀ (l : List ℕ) (s0 s1 t0 : SplitState ℂ), ExportScaled k s0 t0 → l.foldlM s.step s0 = .ok s1 →
      ∃ t1, l.foldlM s'.step t0 = .ok t1 ∧ ExportScaled k s1 t1 := by
    intro l
    induction l with
    | nil =>
      intro s0 s1 t0 h0 h1
      refine ⟨t0, rfl, ?_⟩
      rw [← Except.ok.inj h1]
      exact h0
    | cons fi l ih =>
      intro s0 s1 t0 h0 h1
      rw [List.foldlM_cons] at h1 ⊢
      cases hs : s.step s0 fi with
      | error e => rw [hs] at h1; cases h1
      | ok s2 =>
        rw [hs] at h1
        obtain ⟨t2, c1, c2⟩ := hstep fi s0 s2 t0 h0 hs
        rw [c1]
        exact ih s2 s1 t2 c2 h1
  exact hfold _ _ _ _ ⟨.nil, rfl, rfl⟩ h

theorem exportSplits_rel {A : Type} (k : ℝ) (F G : A → SplitIn ℂ) : ∀ (l : List A) (nf : ℕ → ℕ),
    (∀ a ∈ l, ∀ nf st, freqSplit (F a) nf = .ok st → ∃ st', freqSplit (G a) nf = .ok st' ∧ ExportScaled k st st') →
    ∀ out, exportSplits (l.map F) nf = .ok out → ∃ out', exportSplits (l.map G) nf = .ok out' ∧ List.Forall₂ (ExportScaled k) out out' := by
  intro l
  induction l with
  | nil =>
    intro nf _ out h
    refine ⟨[], rfl, ?_⟩
    rw [← Except.ok.inj h]
    exact .nil
  | cons a l ih =>
    intro nf h out ho
    simp only [List.map_cons, exportSplits] at ho ⊢
    cases h1 : freqSplit (F a) nf with
    | error e => rw [h1] at ho; cases ho
    | ok st =>
      rw [h1] at ho
      obtain ⟨st', c1, c2⟩ := h a List.mem_cons_self nf st h1
      rw [c1]
      simp only [] at ho ⊢
      rw [c2.2.2]
      cases h2 : exportSplits (l.map F) st.nfVis with
      | error e => rw [h2] at ho; cases ho
      | ok sts =>
        rw [h2] at ho
        obtain ⟨sts', d1, d2⟩ := ih st.nfVis (fun a ha => h a (List.mem_cons_of_mem _ ha)) sts h2
        rw [d1]
        refine ⟨_, rfl, ?_⟩
        simp only [Except.ok.injEq] at ho
        rw [← ho]
        exact .cons c2 d2

/-- **C303.** In other units of flux (data and model multiplied by a real factor that is not zero) the HEALPix export after a run gives, for both
halves, all polarisations and all ranges of channels, planes of data and model that are multiplied by the factor, the same planes of weights and
variances, and the same numbers of visibilities. -/
theorem C303_units (x : RunIn) (h : RunFits x) (hi : ImagesFit x) (hres : ∀ p, 0 < (x.grid p).res) (k : ℝ) (hk : k ≠ 0) (R : RunOut)
    (hR : imagingRun x = .ok R) :
    ∃ R', imagingRun (withSky x (fun p f b => k * x.vis p f b) fun p f b => k * x.model p f b) = .ok R' ∧
      ∀ (e : ExportIn) (_ : ExportFits x e) (_ : 0 < e.res) (im : ℕ → ℕ → ℕ → ℚ) (nf : ℕ → ℕ) (out : List (SplitState ℂ)),
        exportRun x e R nf = .ok out → ∃ out',
          exportRun (withSky x (fun p f b => k * x.vis p f b) fun p f b => k * x.model p f b) { e with im := im } R' nf = .ok out' ∧
          List.Forall₂ (ExportScaled k) out out' := by
  obtain ⟨R', hR', same, hw, -⟩ := C295_units x h hi hres k hk R hR
  refine ⟨R', hR', fun e he hr0 im nf out hout => ?_⟩
  obtain ⟨w1, w2, h1, h2, -⟩ := (run_stages x R).1 hR
  obtain ⟨w1', w2', h1', h2', -⟩ := (run_stages _ R').1 hR'
  have h1'' : visWeightsUpdate x.obs x.uv x.weights = .ok w1' := h1'
  rw [h1] at h1''
  cases h1''
  obtain ⟨r', e1, -, e3⟩ := calibrated_scaled x h k hk w1.weights R.cal h2
  rw [h2'] at e1
  cases e1
  have ok := he.ok h R.cal.inUse
  obtain ⟨r, -, hr, -⟩ := exportWeights_ok _ x.uv ok e.im R.weights
  obtain ⟨r1, hr1, c1, c2, c3⟩ := exportWeights_im _ x.uv ok e.im im R.weights r hr
  set x' := withSky x (fun p f b => k * x.vis p f b) fun p f b => k * x.model p f b with hx'
  have hr2 : exportWeights (exportObs e.s2 (x'.obs.restrict R'.cal.inUse) e.dim e.kbin) x'.uv [] true im R'.weights = .ok r1 := by
    rw [← hr1, same.2.2.1, hw]
    rfl
  rw [exportRun_eq x e R nf r hr] at hout
  rw [exportRun_eq x' { e with im := im } R' nf r1 hr2, c1, c2, c3, same.2.2.1]
  have pull : ∀ F : List ℕ → ℕ → SplitIn ℂ, ([r.even, r.odd].flatMap fun half => (List.range x.obs.nPol).map fun p => F half p) =
      ([r.even, r.odd].flatMap fun half => (List.range x.obs.nPol).map fun p => (half, p)).map fun a => F a.1 a.2 := by
    intro F
    simp [List.flatMap_cons, Function.comp_def]
  have hpol : x'.obs.nPol = x.obs.nPol := rfl
  rw [pull] at hout
  rw [hpol, pull]
  refine exportSplits_rel k _ _ _ nf (fun a ha nf' st hst => ?_) out hout
  obtain ⟨half, -, ha⟩ := List.mem_flatMap.1 ha
  obtain ⟨p, hp, rfl⟩ := List.mem_map.1 ha
  have hp := List.mem_range.1 hp
  obtain ⟨g1, g2, g3⟩ := splitIn_grid x h e he R.cal.inUse R.cal.vis r.weights half p
  exact freqSplit_scaled (x.splitIn e (exportObs e.s2 (x.obs.restrict R.cal.inUse) e.dim e.kbin) R.cal.vis r.weights half p) hr0 g1 g2 g3 k
    (R'.cal.vis p) (fun f b => k * x.model p f b) (fun f b hpos => by
      obtain ⟨a1, a2⟩ := exportWeights_pos _ x.uv ok e.im R.weights r hr p f b hp hpos
      have hb : b < x.obs.nBl := a2
      exact ⟨e3 p hp f b (by rw [← h.nBl]; exact hb), rfl⟩) nf' st hst

/-- The hypotheses are met: the run of Props/WholeRunMore in units of a thousandth. -/
example : ∃ fit R R' out out', imagingRun (exWholeRun fit) = .ok R ∧
    imagingRun (withSky (exWholeRun fit) (fun p f b => (1000 : ℝ) * (exWholeRun fit).vis p f b) fun p f b => (1000 : ℝ) * (exWholeRun fit).model p f b) = .ok R' ∧
    exportRun (exWholeRun fit) (exExportRun fit) R (fun _ => 0) = .ok out ∧
    exportRun (withSky (exWholeRun fit) (fun p f b => (1000 : ℝ) * (exWholeRun fit).vis p f b) fun p f b => (1000 : ℝ) * (exWholeRun fit).model p f b)
      (exExportRun fit) R' (fun _ => 0) = .ok out' ∧ out.length = 4 ∧ List.Forall₂ (ExportScaled 1000) out out' := by
  obtain ⟨fit, hfit⟩ := exists_leastSquaresFit
  obtain ⟨R, hR⟩ := exWholeRun_ok fit hfit
  obtain ⟨out, h1, h2, -⟩ := C301_exports _ (exWholeRun_fits fit) R _ (exExportRun_fits fit) (exExportRun_grids fit) fun _ => 0
  obtain ⟨R', a1, a2⟩ := C303_units _ (exWholeRun_fits fit) (exWholeRun_images fit) (fun p => by norm_num [exWholeRun, exGrid]) 1000 (by norm_num) R hR
  obtain ⟨out', b1, b2⟩ := a2 _ (exExportRun_fits fit) (Nat.succ_pos 2) (fun _ _ _ => 0) (fun _ => 0) out h1
  exact ⟨fit, R, R', out, out', hR, a1, h1, b1, h2, b2⟩

end PyFHD
