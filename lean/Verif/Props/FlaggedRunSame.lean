import Verif.Props.FlaggedRun

/-!
# C313: numbers of tiles, directions of baselines and exact gains in runs that begin with the basic flagging
-/

namespace PyFHD

open Spec

theorem goodTiles_index {o : FlagObs} (hg : GoodTiles o) (w1 : Weights) :
    ¬∃ b, b < o.nBl ∧ ((List.range o.nPol).any fun p => blHas w1 o.nFreq p b) = true ∧
      (pyIndex o.nTile (o.tileA.getD b 0 - 1) = none ∨ pyIndex o.nTile (o.tileB.getD b 0 - 1) = none) := by
  rintro ⟨b, hb', _, h | h⟩
  · have hbA : b < o.tileA.length := hb'
    obtain ⟨a1, a2⟩ := hg.memA _ (getD_mem hbA)
    rw [pyIndex_tile a1 a2] at h
    cases h
  · have hbB : b < o.tileB.length := by rw [hg.len]; exact hb'
    obtain ⟨a1, a2⟩ := hg.memB _ (getD_mem hbB)
    rw [pyIndex_tile a1 a2] at h
    cases h

/-- The basic flagging of observations that differ in the tiles of the samples. -/
theorem visFlagBasic_tiles (o o' : FlagObs) (A B : List ℤ) (u : ℕ → ℤ) (ho : o' = { o with tileA := A, tileB := B, tileUse := u }) (σ : ℕ → ℕ)
    (c : FlagConfig) (ht : c.flagTiles = []) (v : ℕ → ℕ → ℕ → Bool) (w : Weights) (hn : o'.nBl = o.nBl) (hg : GoodTiles o) (hg' : GoodTiles o')
    (hT : ∀ w1 p t, tileHas o' w1 p t = tileHas o w1 p (σ t)) (hu : ∀ t, u t = o.tileUse (σ t)) (r : BasicResult)
    (hr : visFlagBasic o c v w = .ok r) :
    ∃ r', visFlagBasic o' c v w = .ok r' ∧ r'.weights = r.weights ∧ r'.freqUse = r.freqUse ∧ ∀ t, r'.tileUse t = r.tileUse (σ t) := by
  have hw : basicWeights1 o' c w = basicWeights1 o c w := by
    unfold basicWeights1
    simp only [ht, List.length_nil, gt_iff_lt, lt_irrefl, if_false]
    rw [ho]
  unfold visFlagBasic at hr ⊢
  rw [hw]
  cases h1 : basicWeights1 o c w with
  | error e => rw [h1] at hr; cases hr
  | ok w1 =>
    rw [h1] at hr
    simp only [bind, Except.bind] at hr ⊢
    rw [if_neg (goodTiles_index hg w1)] at hr
    rw [if_neg (goodTiles_index hg' w1)]
    have e1 : o'.nFreq = o.nFreq := by rw [ho]
    have e2 : o'.nPol = o.nPol := by rw [ho]
    have e3 : o'.nTime = o.nTime := by rw [ho]
    have e4 : o'.timeUse = o.timeUse := by rw [ho]
    have e5 : o'.binOffset = o.binOffset := by rw [ho]
    have e6 : o'.freqUse = o.freqUse := by rw [ho]
    have e7 : o'.tileUse = u := by rw [ho]
    simp only [hn, e1, e2, e3, e4, e5, e6, e7, hT]
    by_cases h0 : o.nFreq = 0 ∨ o.nBl = 0
    · rw [if_pos h0] at hr; cases hr
    · rw [if_neg h0] at hr ⊢
      rw [← Except.ok.inj hr]
      exact ⟨_, rfl, rfl, rfl, fun t => by simp only [hu]⟩

theorem basic_noTiles (x : RunIn) (c : FlagConfig) (r : BasicResult) (hr : x.basic c = .ok r) : c.flagTiles = [] := by
  by_contra hne
  exact C22_flag_basic_with_tiles_raises _ _ _ _ hne r hr

theorem involves_turned {o : FlagObs} (hl : o.tileB.length = o.tileA.length) (rev : ℕ → Bool) {b : ℕ} (hb : b < o.nBl) (t : ℕ) :
    Involves (turnedObs o rev) b t ↔ Involves o b t := by
  have hbA : b < o.tileA.length := hb
  have hbB : b < o.tileB.length := by rw [hl]; exact hb
  unfold Involves turnedObs
  simp only [List.getElem?_map, List.getElem?_range hb, Option.map_some, List.getD, List.getElem?_eq_getElem hbA, List.getElem?_eq_getElem hbB,
    Option.getD_some]
  cases rev b
  · simp
  · simp [or_comm]

theorem goodTiles_turned {o : FlagObs} (hg : GoodTiles o) (rev : ℕ → Bool) : GoodTiles (turnedObs o rev) where
  len := turned_len o rev
  memA := by
    intro v hv
    obtain ⟨s, hs, rfl⟩ := List.mem_map.1 hv
    have hs : s < o.tileA.length := List.mem_range.1 hs
    cases rev s
    · exact hg.memA _ (getD_mem hs)
    · exact hg.memB _ (getD_mem (by rw [hg.len]; exact hs))
  memB := by
    intro v hv
    obtain ⟨s, hs, rfl⟩ := List.mem_map.1 hv
    have hs : s < o.tileA.length := List.mem_range.1 hs
    cases rev s
    · exact hg.memB _ (getD_mem (by rw [hg.len]; exact hs))
    · exact hg.memA _ (getD_mem hs)

theorem tileHas_turned {o : FlagObs} (hg : GoodTiles o) (rev : ℕ → Bool) (w : Weights) (p t : ℕ) :
    tileHas (turnedObs o rev) w p t = tileHas o w p t := by
  rw [Bool.eq_iff_iff, tileHas_iff (goodTiles_turned hg rev), tileHas_iff hg, turned_nBl]
  refine exists_congr fun b => exists_congr fun f => and_congr_right fun hb => and_congr_right fun _ => ?_
  rw [involves_turned hg.len rev hb]

/-- The basic flagging of a run with turned samples. -/
theorem basic_turned (x : RunIn) (h : RunFits x) (rev : ℕ → Bool) (c : FlagConfig) (r : BasicResult) (hr : x.basic c = .ok r) :
    ∃ r', (turnedRun x rev).basic c = .ok r' ∧ (turnedRun x rev).basicFlagged r' = turnedRun (x.basicFlagged r) rev := by
  have hv : (turnedRun x rev).basic c = visFlagBasic (turnedObs x.obs rev) c (fun p f s => by classical exact decide (x.vis p f s ≠ 0)) x.weights := by
    unfold RunIn.basic
    congr 1
    funext p f s
    rw [decide_eq_decide]
    show (if rev s then star (x.vis p f s) else x.vis p f s) ≠ 0 ↔ _
    cases rev s <;> simp
  obtain ⟨r', a1, a2, a3, a4⟩ := visFlagBasic_tiles x.obs (turnedObs x.obs rev) _ _ x.obs.tileUse rfl id c (basic_noTiles x c r hr) _ x.weights
    (turned_nBl x.obs rev) h.goodTiles (goodTiles_turned h.goodTiles rev) (fun w1 p t => tileHas_turned h.goodTiles rev w1 p t) (fun _ => rfl) r hr
  refine ⟨r', hv.trans a1, ?_⟩
  have a4 : r'.tileUse = r.tileUse := funext a4
  unfold RunIn.basicFlagged
  rw [a2, a3, a4]
  rfl

theorem Spec.Turnable.basicFlagged {x : RunIn} {rev : ℕ → Bool} (h : Turnable x rev) (r : BasicResult) : Turnable (x.basicFlagged r) rev where
  calNorm := h.calNorm
  uvNorm := h.uvNorm
  gridNorm := h.gridNorm
  kpix := h.kpix
  gridKpix := h.gridKpix
  noMask := h.noMask
  uvSign := h.uvSign
  gridSign := h.gridSign
  average := h.average

/-- **C313.** A run that begins with the basic flagging does not depend on the direction in which baselines are listed: gains, flags, weights, planes and
images are the same. -/
theorem C313_direction (x : RunIn) (h : RunFits x) (c : FlagConfig) (rev : ℕ → Bool) (ht : Turnable x rev) (R : RunOut)
    (hR : flaggedRun x c = .ok R) : ∃ R', flaggedRun (turnedRun x rev) c = .ok R' ∧ SameRun R R' := by
  unfold flaggedRun at hR ⊢
  cases hr : x.basic c with
  | error e => rw [hr] at hR; cases hR
  | ok r =>
    rw [hr] at hR
    obtain ⟨r', a1, a2⟩ := basic_turned x h rev c r hr
    obtain ⟨R', b1, b2, -⟩ := C306_direction (x.basicFlagged r) (h.basicFlagged r) rev (ht.basicFlagged r) R hR
    refine ⟨R', ?_, b2⟩
    rw [a1]
    show imagingRun ((turnedRun x rev).basicFlagged r') = _
    rw [a2, b1]

/-- **C313**, direction: the HEALPix files are the same. -/
theorem C313_direction_files (x : RunIn) (h : RunFits x) (c : FlagConfig) (rev : ℕ → Bool) (ht : Turnable x rev)
    (e : ExportIn) (he : ∀ r, x.basic c = .ok r → ExportFits (x.basicFlagged r) e) (hk : 0 < e.kbin) (hm : e.mask = false) (q : FileIn)
    (im : ℕ → ℕ → ℕ → ℚ) (nf : ℕ → ℕ) (files : List RunFile) (hf : flaggedFiles x c e q nf = .ok files) :
    flaggedFiles (turnedRun x rev) c { e with im := im } q nf = .ok files := by
  unfold flaggedFiles at hf ⊢
  cases hr : x.basic c with
  | error er => rw [hr] at hf; cases hf
  | ok r =>
    rw [hr] at hf
    obtain ⟨r', a1, a2⟩ := basic_turned x h rev c r hr
    simp only [bind, Except.bind] at hf ⊢
    cases hR : imagingRun (x.basicFlagged r) with
    | error er => rw [hR] at hf; cases hf
    | ok R =>
      rw [hR] at hf
      obtain ⟨R', b1, b2⟩ := C309_direction (x.basicFlagged r) (h.basicFlagged r) rev (ht.basicFlagged r) R hR
      rw [a1]
      simp only [] at hf ⊢
      rw [a2, b1]
      simp only []
      rw [← hf]
      exact b2 e (he r hr) hk hm q im nf

/-! ## Numbers of tiles -/

theorem involves_renamed {o : FlagObs} (hg : GoodTiles o) (π : Equiv.Perm ℕ) (b t : ℕ) :
    Involves (renumberedObs o π) b t ↔ Involves o b (π.symm t) := by
  have key : ∀ l : List ℤ, (∀ v ∈ l, 1 ≤ v) → ((l.map fun v => (π (v - 1).toNat : ℤ) + 1)[b]? = some ((t : ℤ) + 1) ↔
      l[b]? = some (((π.symm t : ℕ) : ℤ) + 1)) := by
    intro l hl
    rw [List.getElem?_map]
    cases hv : l[b]? with
    | none => simp
    | some v =>
      have h1 := hl v (List.mem_of_getElem? hv)
      simp only [Option.map_some, Option.some.injEq, add_left_inj, Nat.cast_inj]
      rw [← Equiv.eq_symm_apply]
      omega
  unfold Involves renumberedObs
  simp only []
  rw [key _ fun v hv => (hg.memA v hv).1, key _ fun v hv => (hg.memB v hv).1]

theorem goodTiles_renamed {o : FlagObs} (hg : GoodTiles o) (π : Equiv.Perm ℕ) (hπ : ∀ t, π t < o.nTile ↔ t < o.nTile) :
    GoodTiles (renumberedObs o π) where
  len := by simp [renumberedObs, hg.len]
  memA := by
    intro v hv
    obtain ⟨s, hs, rfl⟩ := List.mem_map.1 hv
    have h1 := hg.memA s hs
    have h2 := (hπ (s - 1).toNat).2 (by omega)
    exact ⟨by omega, by show _ ≤ (o.nTile : ℤ); omega⟩
  memB := by
    intro v hv
    obtain ⟨s, hs, rfl⟩ := List.mem_map.1 hv
    have h1 := hg.memB s hs
    have h2 := (hπ (s - 1).toNat).2 (by omega)
    exact ⟨by omega, by show _ ≤ (o.nTile : ℤ); omega⟩

theorem renumbered_nBl (o : FlagObs) (π : Equiv.Perm ℕ) : (renumberedObs o π).nBl = o.nBl := by
  simp [FlagObs.nBl, renumberedObs]

theorem tileHas_renamed {o : FlagObs} (hg : GoodTiles o) (π : Equiv.Perm ℕ) (hπ : ∀ t, π t < o.nTile ↔ t < o.nTile) (w : Weights) (p t : ℕ) :
    tileHas (renumberedObs o π) w p t = tileHas o w p (π.symm t) := by
  rw [Bool.eq_iff_iff, tileHas_iff (goodTiles_renamed hg π hπ), tileHas_iff hg, renumbered_nBl]
  refine exists_congr fun b => exists_congr fun f => and_congr_right fun _ => and_congr_right fun _ => ?_
  rw [involves_renamed hg π]

/-- The basic flagging of a run with other numbers of tiles. -/
theorem basic_renamed (π : Equiv.Perm ℕ) (x x' : RunIn) (h : RunFits x) (hx : RenamedRun π x x') (hπ : ∀ t, π t < x.obs.nTile ↔ t < x.obs.nTile)
    (c : FlagConfig) (r : BasicResult) (hr : x.basic c = .ok r) :
    ∃ r', x'.basic c = .ok r' ∧ RenamedRun π (x.basicFlagged r) (x'.basicFlagged r') := by
  have hv : x'.basic c = visFlagBasic (renumberedObs x.obs π) c (fun p f s => by classical exact decide (x.vis p f s ≠ 0)) x.weights := by
    unfold RunIn.basic
    rw [hx.obs, hx.vis, hx.weights]
  obtain ⟨r', a1, a2, a3, a4⟩ := visFlagBasic_tiles x.obs (renumberedObs x.obs π) _ _ _ rfl π.symm c (basic_noTiles x c r hr) _ x.weights
    (renumbered_nBl x.obs π) h.goodTiles (goodTiles_renamed h.goodTiles π hπ) (fun w1 p t => tileHas_renamed h.goodTiles π hπ w1 p t) (fun _ => rfl) r hr
  refine ⟨r', hv.trans a1, ?_, hx.uv, hx.vis, hx.model, a2, hx.cal, hx.opts, hx.refl, hx.grid, hx.images⟩
  have a4 : r'.tileUse = fun t => r.tileUse (π.symm t) := funext a4
  unfold RunIn.basicFlagged
  rw [a3, a4, hx.obs]
  rfl

/-- **C313**, numbers of tiles: with tiles numbered in another way, the tile of reference the same, a run that begins with the basic flagging gives the same
gains of each tile, weights, planes and images. -/
theorem C313_numbers (π : Equiv.Perm ℕ) (x x' : RunIn) (h : RunFits x) (hx : RenamedRun π x x') (hπ : ∀ t, π t < x.obs.nTile ↔ t < x.obs.nTile)
    (hsame : SameBaselines x.cal.run) (c : FlagConfig)
    (href : x.cal.run.noRef = false → ∀ r, x.basic c = .ok r → ∀ w, visWeightsUpdate (x.basicFlagged r).obs x.uv r.weights = .ok w →
      ∀ p < x.obs.nPol, refTile ((renumbered ((x.basicFlagged r).calIn w.weights).run π).tiles p) =
        π (refTile (((x.basicFlagged r).calIn w.weights).run.tiles p)))
    (R : RunOut) (hR : flaggedRun x c = .ok R) :
    ∃ R', flaggedRun x' c = .ok R' ∧ (∀ p f t, R'.cal.gain p f (π t) = R.cal.gain p f t) ∧ R'.weights = R.weights ∧ R'.planes = R.planes ∧
      R'.images = R.images := by
  unfold flaggedRun at hR ⊢
  cases hr : x.basic c with
  | error e => rw [hr] at hR; cases hR
  | ok r =>
    rw [hr] at hR
    obtain ⟨r', a1, a2⟩ := basic_renamed π x x' h hx hπ c r hr
    obtain ⟨R', b1, b2, -, -, -, -, b3, b4, b5⟩ := C297_numbers π (x.basicFlagged r) (x'.basicFlagged r') (h.basicFlagged r) a2 hπ hsame
      (fun hq => href hq r hr) R hR
    refine ⟨R', ?_, b2, b3, b4, b5⟩
    rw [a1]
    exact b1

/-- **C313**, numbers of tiles: the HEALPix files are the same. -/
theorem C313_numbers_files (π : Equiv.Perm ℕ) (x x' : RunIn) (h : RunFits x) (hx : RenamedRun π x x') (hπ : ∀ t, π t < x.obs.nTile ↔ t < x.obs.nTile)
    (hsame : SameBaselines x.cal.run) (c : FlagConfig)
    (href : x.cal.run.noRef = false → ∀ r, x.basic c = .ok r → ∀ w, visWeightsUpdate (x.basicFlagged r).obs x.uv r.weights = .ok w →
      ∀ p < x.obs.nPol, refTile ((renumbered ((x.basicFlagged r).calIn w.weights).run π).tiles p) =
        π (refTile (((x.basicFlagged r).calIn w.weights).run.tiles p)))
    (e : ExportIn) (he : ∀ r, x.basic c = .ok r → ExportFits (x.basicFlagged r) e) (q : FileIn) (nf : ℕ → ℕ) (files : List RunFile)
    (hf : flaggedFiles x c e q nf = .ok files) : flaggedFiles x' c e q nf = .ok files := by
  unfold flaggedFiles at hf ⊢
  cases hr : x.basic c with
  | error er => rw [hr] at hf; cases hf
  | ok r =>
    rw [hr] at hf
    obtain ⟨r', a1, a2⟩ := basic_renamed π x x' h hx hπ c r hr
    simp only [bind, Except.bind] at hf ⊢
    cases hR : imagingRun (x.basicFlagged r) with
    | error er => rw [hR] at hf; cases hf
    | ok R =>
      rw [hR] at hf
      obtain ⟨R', b1, b2⟩ := C309_numbers π (x.basicFlagged r) (x'.basicFlagged r') (h.basicFlagged r) a2 hπ hsame (fun hq => href hq r hr) R hR
      rw [a1]
      simp only [] at hf ⊢
      rw [b1]
      simp only []
      rw [← hf]
      exact b2 e (he r hr) q nf

/-! ## Exact gains -/

/-- **C313**, exact gains: if the samples that a run with basic flagging may use are the model seen through gains that the calibration can represent, the
HEALPix files hold the model as data. -/
theorem C313_exact (x : RunIn) (h : RunFits x) (c : FlagConfig) (g : Gains)
    (hg : ∀ r, x.basic c = .ok r → ∀ w, visWeightsUpdate (x.basicFlagged r).obs x.uv r.weights = .ok w →
      ExactSetup (x.basicFlagged r) w.weights g)
    (hdata : ∀ p < x.obs.nPol, ∀ s < x.cal.run.nBl * x.cal.run.nTime, ∀ f, KeptSample x c p f s →
      x.vis p f s = g p f (x.cal.run.tileA s) * star (g p f (x.cal.run.tileB s)) * x.model p f s)
    (e : ExportIn) (he : ∀ r, x.basic c = .ok r → ExportFits (x.basicFlagged r) e) (q : FileIn) (nf : ℕ → ℕ)
    (files : List RunFile) (hf : flaggedFiles x c e q nf = .ok files) : ∀ f ∈ files, f.dirty = f.model := by
  unfold flaggedFiles at hf
  cases hr : x.basic c with
  | error er => rw [hr] at hf; cases hf
  | ok r =>
    rw [hr] at hf
    simp only [bind, Except.bind] at hf
    cases hR : imagingRun (x.basicFlagged r) with
    | error er => rw [hR] at hf; cases hf
    | ok R =>
      rw [hR] at hf
      exact C308_exact (x.basicFlagged r) (h.basicFlagged r) g (hg r hr)
        (fun p hp s hs f hu => hdata p hp s hs f (used_kept x h c r hr p f s hu)) R hR e (he r hr) q nf files hf

/-! ## Examples -/

/-- The hypotheses of C313 are met: with flagging, the four files of the run hold the model as data; with the second baseline turned round they are the
same, and with the first and the last tile exchanged the images are the same. -/
example : ∃ fit R R' files, flaggedRun (exWholeRun fit) ⟨none, none, [], false⟩ = .ok R ∧
    flaggedFiles (exWholeRun fit) ⟨none, none, [], false⟩ (exExportRun fit) exFileIn (fun _ => 0) = .ok files ∧ files.length = 4 ∧
    (∀ f ∈ files, f.dirty = f.model) ∧
    flaggedFiles (turnedRun (exWholeRun fit) fun s => s % 2 == 1) ⟨none, none, [], false⟩ (exExportRun fit) exFileIn (fun _ => 0) = .ok files ∧
    flaggedRun (exWholeSwapped fit) ⟨none, none, [], false⟩ = .ok R' ∧ R'.images = R.images := by
  obtain ⟨fit, hfit⟩ := exists_leastSquaresFit
  obtain ⟨R, hR⟩ := exWholeRun_ok fit hfit
  obtain ⟨r, r1, r2⟩ := exWholeRun_basic fit
  have hr : ∀ r', (exWholeRun fit).basic ⟨none, none, [], false⟩ = .ok r' → (exWholeRun fit).basicFlagged r' = exWholeRun fit := by
    intro r' hr'
    rw [r1] at hr'
    rw [← Except.ok.inj hr', r2]
  have hF : flaggedRun (exWholeRun fit) ⟨none, none, [], false⟩ = .ok R := by
    unfold flaggedRun
    rw [r1]
    show imagingRun ((exWholeRun fit).basicFlagged r) = _
    rw [r2, hR]
  have he : ∀ r', (exWholeRun fit).basic ⟨none, none, [], false⟩ = .ok r' → ExportFits ((exWholeRun fit).basicFlagged r') (exExportRun fit) := by
    intro r' hr'
    rw [hr r' hr']
    exact exExportRun_fits fit
  obtain ⟨out, files, -, h2, h4, -⟩ := C308_files _ (exWholeRun_fits fit) R _ (exExportRun_fits fit) (exExportRun_grids fit) exFileIn exFileIn_fits fun _ => 0
  have hG : flaggedFiles (exWholeRun fit) ⟨none, none, [], false⟩ (exExportRun fit) exFileIn (fun _ => 0) = .ok files := by
    unfold flaggedFiles
    rw [r1]
    simp only [bind, Except.bind]
    rw [r2, hR]
    exact h2
  obtain ⟨R', c1, -, -, -, c2⟩ := C313_numbers (Equiv.swap 0 2) (exWholeRun fit) (exWholeSwapped fit) (exWholeRun_fits fit)
    ⟨rfl, rfl, rfl, rfl, rfl, exCalibrate_renamed fit _, rfl, Or.inl ⟨rfl, rfl⟩, rfl, rfl⟩ swap_lt (fun ht => by cases ht) _
    (fun hq r' hr' w hw p hp => by
      have e := hr r' hr'
      have hw' : visWeightsUpdate ((exWholeRun fit).basicFlagged r').obs ((exWholeRun fit).basicFlagged r').uv
        ((exWholeRun fit).basicFlagged r').weights = .ok w := hw
      rw [e] at hw' ⊢
      exact exWholeSwapped_ref fit hq w hw' p hp) R hF
  refine ⟨fit, R, R', files, hF, hG, h4, ?_, C313_direction_files (exWholeRun fit) (exWholeRun_fits fit) _ _ (exWholeRun_turnable fit) _ he
    (by norm_num [exExportRun]) rfl exFileIn (exExportRun fit).im _ files hG, c1, c2⟩
  refine C313_exact (exWholeRun fit) (exWholeRun_fits fit) _ (fun _ _ _ => ((2 : ℝ) : ℂ)) (fun r' hr' w hw => ?_) (fun p _ s _ f _ => ?_) _ he exFileIn _
    files hG
  · have hw' : visWeightsUpdate ((exWholeRun fit).basicFlagged r').obs ((exWholeRun fit).basicFlagged r').uv
        ((exWholeRun fit).basicFlagged r').weights = .ok w := hw
    rw [hr r' hr'] at hw' ⊢
    obtain ⟨w', b1, b2⟩ := exWholeRun_weights
    have : w = w' := by
      have hw'' : visWeightsUpdate exAfter exAfterUv (fun _ _ _ => 1) = .ok w := hw'
      rw [b1] at hw''
      exact (Except.ok.inj hw'').symm
    subst this
    exact exWholeRun_exact fit hfit w.weights b2
  · show (4 : ℂ) * ((p + f + s + 1 : ℕ) : ℂ) = ((2 : ℝ) : ℂ) * star ((2 : ℝ) : ℂ) * ((p + f + s + 1 : ℕ) : ℂ)
    rw [Complex.star_def, Complex.conj_ofReal]
    norm_num

end PyFHD
