import Verif.Props.WholeExportSum

/-!
# C318: the instrument has no influence on the results of a calibrated run
-/

namespace PyFHD

open Spec

namespace Spec

/-- The run with the data of another instrument, and other settings and starting values of the calibration. -/
def withInstrument (x : RunIn) (v : ℕ → ℕ → ℕ → ℂ) (c : CalibrateIn) (o : CalOpts) (t : Option ReflTable) : RunIn :=
  { x with vis := v, cal := c, opts := o, refl := t }

/-- The data are the model seen through gains that the calibration of the run finds. -/
structure SeenThrough (x : RunIn) (g : Gains) : Prop where
  setup : ∀ w, visWeightsUpdate x.obs x.uv x.weights = .ok w → ExactSetup x w.weights g
  data : ∀ p < x.obs.nPol, ∀ s < x.cal.run.nBl * x.cal.run.nTime, ∀ f, UsedSample x p f s →
    x.vis p f s = g p f (x.cal.run.tileA s) * star (g p f (x.cal.run.tileB s)) * x.model p f s

end Spec

/-- With exact gains the calibration succeeds, uses the tiles and channels of the input, and calibrates to the truth. -/
theorem calibrated_exact (x : RunIn) (h : RunFits x) (hflag : x.opts.flag = false) (g : Gains) (w : Weights) (e : ExactSetup x w g) :
    ∃ r, x.calibrated w = .ok r ∧ r.inUse = x.obs.inUse ∧ ∀ p < x.obs.nPol, ∀ s < x.cal.run.nBl * x.cal.run.nTime,
      x.cal.run.tileA s ∈ x.obs.inUse.tiles → x.cal.run.tileB s ∈ x.obs.inUse.tiles → ∀ f ∈ x.obs.inUse.freqs, ∀ truth,
        x.vis p f s = g p f (x.cal.run.tileA s) * star (g p f (x.cal.run.tileB s)) * truth → r.vis p f s = truth := by
  have hut : ∀ t ∈ x.obs.inUse.tiles, t < (x.calIn w).run.nTile ∧ (x.calIn w).run.tileUse t = true := by
    intro t ht
    obtain ⟨b1, b2⟩ := List.mem_filter.1 ht
    exact ⟨List.mem_range.1 b1, b2⟩
  unfold RunIn.calibrated
  cases hq : x.refl with
  | none =>
    obtain ⟨r, a1, a2, a3⟩ := C273_exact (x.calIn w) e.fit e.mag h.cast e.base e.iter x.opts e.bandpass e.polyfit e.noJump e.noAutos.1 e.noAutos.2.1
      x.obs.inUse g h.pols e.exact e.ref hut h.tiles e.start e.smooth e.flags
    refine ⟨r, a1, a2 hflag, fun p hp s hs hA hB f hf => ?_⟩
    rw [← a2 hflag] at hA hB hf
    exact ((a3 p hp).2.2 s hs hA hB).1 f hf
  | some q =>
    obtain ⟨r, a1, a2, -, a3⟩ := C289_exact (x.calIn w) e.fit e.mag h.cast e.base e.iter x.opts e.bandpass e.polyfit e.noJump e.noAutos.1 e.noAutos.2.1
      e.noAutos.2.2 x.obs.inUse g h.pols e.exact e.ref hut h.tiles e.start e.smooth e.flags q
    refine ⟨r, a1, a2 hflag, fun p hp s hs hA hB f hf => ?_⟩
    rw [← a2 hflag] at hA hB hf
    exact ((a3 p hp).2 s hs hA hB).1 f hf

/-- **C318.** The instrument has no influence on the results: if the data of two runs are the same model seen through different gains, each found by the
calibration of its run (with settings and starting values of its own), and calibration does not flag, then the second run succeeds like the first, with
the same weights, planes and images, and its export gives the same planes and the same HEALPix files. -/
theorem C318_instrument (x : RunIn) (h : RunFits x) (v : ℕ → ℕ → ℕ → ℂ) (c : CalibrateIn) (o : CalOpts) (t : Option ReflTable)
    (h' : RunFits (withInstrument x v c o t)) (hf : x.opts.flag = false) (hf' : o.flag = false) (g g' : Gains) (s : SeenThrough x g)
    (s' : SeenThrough (withInstrument x v c o t) g') (R : RunOut) (hR : imagingRun x = .ok R) :
    ∃ R', imagingRun (withInstrument x v c o t) = .ok R' ∧ R'.weights = R.weights ∧ R'.planes = R.planes ∧ R'.images = R.images ∧
      ∀ (e : ExportIn) (_ : ExportFits x e) (im : ℕ → ℕ → ℕ → ℚ) (nf : ℕ → ℕ),
        exportRun (withInstrument x v c o t) { e with im := im } R' nf = exportRun x e R nf ∧
        ∀ q, runFiles (withInstrument x v c o t) { e with im := im } q R' nf = runFiles x e q R nf := by
  obtain ⟨w1, w2, p1, -, p3, p4, p5, p6⟩ := (run_stages _ R).1 hR
  obtain ⟨u1, k1⟩ := run_exact x h g s.setup R hR
  have u1 : R.cal.inUse = x.obs.inUse := u1 hf
  set y := withInstrument x v c o t with hy
  obtain ⟨r, r1, r2, r3⟩ := calibrated_exact y h' hf' g' w1.weights (s'.setup w1 p1)
  have r2 : r.inUse = x.obs.inUse := r2
  have hvis : ∀ p < x.obs.nPol, ∀ f b, b < x.obs.nBl → 0 < w2.weights p f b → r.vis p f b = x.model p f b ∧ R.cal.vis p f b = x.model p f b := by
    intro p hp f b hb hpos
    have hposR : 0 < R.weights p f b := by rw [← p4]; exact hpos
    obtain ⟨y1, y2, y3, y4⟩ := run_positive x h R hR p f b hp hb hposR
    have hb' : b < x.cal.run.nBl * x.cal.run.nTime := by rw [← h.nBl]; exact hb
    have hb'' : b < y.cal.run.nBl * y.cal.run.nTime := by rw [← h'.nBl]; exact hb
    refine ⟨?_, (k1 p hp).2 b hb' y3 y4 f y2 _ (s.data p hp b hb' f y1)⟩
    have p3' : visWeightsUpdate (y.obs.restrict R.cal.inUse) y.uv w1.weights = .ok w2 := p3
    obtain ⟨b1, b2, b3⟩ := updated_in_use (y.calIn w1.weights) R.cal.inUse (y.obs.restrict R.cal.inUse) (h'.after w1.weights R.cal.inUse) h'.tiles y.uv
      w1.weights w2 p3' p hp f b hb'' hpos
    rw [u1] at b1 b2 b3
    exact r3 p hp b hb'' b2 b3 f b1 _ (s'.data p hp b hb'' f y1)
  have hR' : imagingRun y = .ok ⟨r, R.weights, R.planes, R.images⟩ := by
    refine (run_stages _ _).2 ⟨w1, w2, p1, r1, ?_, p4, ?_, p6⟩
    · show visWeightsUpdate (x.obs.restrict r.inUse) x.uv w1.weights = .ok w2
      rw [r2, ← u1]
      exact p3
    · show (List.range x.obs.nPol).mapM (y.gridded (x.obs.restrict r.inUse) r.vis w2.weights) = .ok R.planes
      rw [r2, ← u1, ← p5]
      refine mapM_congr_mem _ _ _ fun p hp => ?_
      have hp := List.mem_range.1 hp
      exact gridded_same x h R.cal.vis r.vis x.model (x.obs.restrict R.cal.inUse) w2.weights p fun f b hb hw => by
        obtain ⟨z1, z2⟩ := hvis p hp f b hb hw
        exact ⟨by rw [z1, z2], rfl⟩
  have hexp : ∀ (e : ExportIn) (_ : ExportFits x e) (im : ℕ → ℕ → ℕ → ℚ) (nf : ℕ → ℕ),
      exportRun y { e with im := im } ⟨r, R.weights, R.planes, R.images⟩ nf = exportRun x e R nf := by
    intro e he im nf
    have ok := he.ok h R.cal.inUse
    obtain ⟨q, -, hq, -⟩ := exportWeights_ok _ x.uv ok e.im R.weights
    obtain ⟨q1, hq1, c1, c2, c3⟩ := exportWeights_im _ x.uv ok e.im im R.weights q hq
    rw [exportRun_eq x e R nf q hq, exportRun_eq y { e with im := im } ⟨r, R.weights, R.planes, R.images⟩ nf q1 (by
      show exportWeights (exportObs e.s2 (x.obs.restrict r.inUse) e.dim e.kbin) x.uv [] true im R.weights = .ok q1
      rw [r2, ← u1]
      exact hq1), c1, c2, c3]
    show exportSplits ([q.even, q.odd].flatMap fun half => (List.range x.obs.nPol).map fun p =>
      y.splitIn { e with im := im } (exportObs e.s2 (x.obs.restrict r.inUse) e.dim e.kbin) r.vis q.weights half p) nf = _
    rw [r2, ← u1]
    have pull : ∀ F : List ℕ → ℕ → SplitIn ℂ, ([q.even, q.odd].flatMap fun half => (List.range x.obs.nPol).map fun p => F half p) =
        ([q.even, q.odd].flatMap fun half => (List.range x.obs.nPol).map fun p => (half, p)).map fun a => F a.1 a.2 := by
      intro F
      simp [List.flatMap_cons, Function.comp_def]
    rw [pull, pull]
    refine exportSplits_congr _ _ _ nf fun a ha nf' => ?_
    obtain ⟨half, -, ha⟩ := List.mem_flatMap.1 ha
    obtain ⟨p, hp, rfl⟩ := List.mem_map.1 ha
    have hp := List.mem_range.1 hp
    obtain ⟨g1, g2, g3⟩ := splitIn_grid x h e he R.cal.inUse R.cal.vis q.weights half p
    exact freqSplit_same (x.splitIn e (exportObs e.s2 (x.obs.restrict R.cal.inUse) e.dim e.kbin) R.cal.vis q.weights half p) g1 g2 g3
      (r.vis p) (x.model p) (fun f b hw => by
        obtain ⟨a1, a2⟩ := exportWeights_pos _ x.uv ok e.im R.weights q hq p f b hp hw
        obtain ⟨z1, z2⟩ := hvis p hp f b a2 (by rw [p4]; exact a1)
        exact ⟨by rw [z1]; exact z2, rfl⟩) nf'
  refine ⟨_, hR', rfl, rfl, rfl, fun e he im nf => ⟨hexp e he im nf, fun q => ?_⟩⟩
  unfold runFiles
  rw [hexp e he im nf]
  rfl

/-! ## Example -/

/-- The run of Props/WholeRunMore with an instrument of gains 3 instead of 2. -/
noncomputable def exOther (fit : List ℕ → List ℝ → ℕ → List ℝ) : RunIn :=
  withInstrument (exWholeRun fit) (fun p f b => 9 * (exWholeRun fit).model p f b)
    { (exWholeRun fit).cal with run := { (exWholeRun fit).cal.run with gain := fun _ _ _ => 3 } } (exWholeRun fit).opts (exWholeRun fit).refl

theorem exOther_fits (fit : List ℕ → List ℝ → ℕ → List ℝ) : RunFits (exOther fit) := by
  have h := exWholeRun_fits fit
  exact ⟨h.pols, h.freqs, h.samples, h.tileA, h.tileB, h.tiles, h.offsets, h.cast, h.gridFreqs, h.lengths⟩

theorem exOther_exact (fit : List ℕ → List ℝ → ℕ → List ℝ) (hfit : LeastSquaresFit fit) (w : Weights) (hw : ExWeights w) :
    ExactSetup (exOther fit) w fun _ _ _ => ((3 : ℝ) : ℂ) := by
  have e := exWholeRun_exact fit hfit w hw
  refine ⟨e.fit, e.mag, e.base, e.iter, e.bandpass, e.polyfit, e.noJump, e.noAutos, fun hf => (by cases hf), fun p hp => ?_, fun _ p _ f _ => ?_,
    fun p _ f _ t _ => ?_, fun p _ => ?_⟩
  · have E := e.exact p hp
    refine ⟨E.tiles, E.freqs, E.flags, fun f _ t _ => ⟨?_, by norm_num⟩, fun f hf b hb s hs hpos => ?_, E.enough, E.differ⟩
    · show (3 : ℂ) = _
      norm_num
    · show (9 : ℂ) * (exWholeRun fit).model p f s = ((3 : ℝ) : ℂ) * star ((3 : ℝ) : ℂ) * (exWholeRun fit).model p f s
      rw [Complex.star_def, Complex.conj_ofReal]
      push_cast
      ring
  · rw [Complex.norm_real]; norm_num
  · show (3 : ℂ) = _
    norm_num
  · show SmoothGains _ (exWholeRun fit).obs.inUse _
    rw [exWholeRun_inUse]
    exact constant_smooth _ _ rfl _ 3 (by norm_num) p (by decide) (by simp [RunIn.calIn, exOther, withInstrument, exWholeRun, exCalibrate, degreeOr])
      (by simp [RunIn.calIn, exOther, withInstrument, exWholeRun, exCalibrate, degreeOr]) (fun _ _ h => by cases h)

theorem exGains_weights (fit : List ℕ → List ℝ → ℕ → List ℝ) (w : VwuResult)
    (hw : visWeightsUpdate (exWholeRun fit).obs (exWholeRun fit).uv (exWholeRun fit).weights = .ok w) : ExWeights w.weights := by
  obtain ⟨w', b1, b2⟩ := exWholeRun_weights
  have : w = w' := by
    have hw' : visWeightsUpdate exAfter exAfterUv (fun _ _ _ => 1) = .ok w := hw
    rw [b1] at hw'
    exact (Except.ok.inj hw').symm
  subst this
  exact b2

theorem exWholeRun_seen (fit : List ℕ → List ℝ → ℕ → List ℝ) (hfit : LeastSquaresFit fit) : SeenThrough (exWholeRun fit) fun _ _ _ => ((2 : ℝ) : ℂ) :=
  ⟨fun w h => exWholeRun_exact fit hfit w.weights (exGains_weights fit w h), fun p _ s _ f _ => by
    show (4 : ℂ) * ((p + f + s + 1 : ℕ) : ℂ) = ((2 : ℝ) : ℂ) * star ((2 : ℝ) : ℂ) * ((p + f + s + 1 : ℕ) : ℂ)
    rw [Complex.star_def, Complex.conj_ofReal]
    norm_num⟩

theorem exOther_seen (fit : List ℕ → List ℝ → ℕ → List ℝ) (hfit : LeastSquaresFit fit) : SeenThrough (exOther fit) fun _ _ _ => ((3 : ℝ) : ℂ) :=
  ⟨fun w h => exOther_exact fit hfit w.weights (exGains_weights fit w h), fun p _ s _ f _ => by
    show (9 : ℂ) * (exWholeRun fit).model p f s = ((3 : ℝ) : ℂ) * star ((3 : ℝ) : ℂ) * (exWholeRun fit).model p f s
    rw [Complex.star_def, Complex.conj_ofReal]
    push_cast
    ring⟩

/-- The hypotheses of C318 are met: the instrument with gains 3 gives the images and the files of that with gains 2. -/
example : ∃ fit R R' F, imagingRun (exWholeRun fit) = .ok R ∧ imagingRun (exOther fit) = .ok R' ∧ R'.images = R.images ∧
    runFiles (exWholeRun fit) (exExportRun fit) exFileIn R (fun _ => 0) = .ok F ∧ F.length = 4 ∧
    runFiles (exOther fit) (exExportRun fit) exFileIn R' (fun _ => 0) = .ok F ∧ R.cal.gain 0 0 0 = 2 ∧ R'.cal.gain 0 0 0 = 3 := by
  obtain ⟨fit, hfit⟩ := exists_leastSquaresFit
  obtain ⟨R, hR⟩ := exWholeRun_ok fit hfit
  have s := exWholeRun_seen fit hfit
  have s' := exOther_seen fit hfit
  obtain ⟨R', hR', -, -, hI, hE⟩ := C318_instrument (exWholeRun fit) (exWholeRun_fits fit) _ _ _ _ (exOther_fits fit) rfl rfl _ _ s s' R hR
  obtain ⟨-, F, -, f1, f2, -⟩ := C308_files _ (exWholeRun_fits fit) R _ (exExportRun_fits fit) (exExportRun_grids fit) exFileIn exFileIn_fits fun _ => 0
  obtain ⟨u, k⟩ := run_exact _ (exWholeRun_fits fit) _ s.setup R hR
  obtain ⟨u', k'⟩ := run_exact _ (exOther_fits fit) _ s'.setup R' hR'
  have u : R.cal.inUse = (exWholeRun fit).obs.inUse := u rfl
  have u' : R'.cal.inUse = (exWholeRun fit).obs.inUse := u' rfl
  rw [exWholeRun_inUse] at u u'
  have k := (k 0 (by show 0 < 2; norm_num)).1 0 (by rw [u]; simp) 0 (by rw [u]; simp)
  have k' := (k' 0 (by show 0 < 2; norm_num)).1 0 (by rw [u']; simp) 0 (by rw [u']; simp)
  exact ⟨fit, R, R', F, hR, hR', hI, f1, f2, ((hE _ (exExportRun_fits fit) (fun _ _ _ => 0) fun _ => 0).2 exFileIn).trans f1,
    by rw [k]; norm_num, by rw [k']; norm_num⟩

end PyFHD
