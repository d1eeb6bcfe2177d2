import Verif.Props.WholeExport

/-!
# C315: the images of a sum of skies
-/

namespace PyFHD

open Spec

namespace Spec

/-- Data and model of a run such that the gains `g` explain the data exactly, are found by the calibration, and the data of the samples that the run uses
are the model seen through them. -/
structure ExactSky (x : RunIn) (g : Gains) (v m : ℕ → ℕ → ℕ → ℂ) : Prop where
  setup : ∀ w, visWeightsUpdate x.obs x.uv x.weights = .ok w → ExactSetup (withSky x v m) w.weights g
  data : ∀ p < x.obs.nPol, ∀ s < x.cal.run.nBl * x.cal.run.nTime, ∀ f, UsedSample x p f s →
    v p f s = g p f (x.cal.run.tileA s) * star (g p f (x.cal.run.tileB s)) * m p f s

/-- In the files of three runs there are planes of kind `kind` for polarisation `p`, the third `a` times the first and `c` times the second. -/
def FilesAdd (a c : ℝ) (kind : QvKind) (p : ℕ) (q1 q2 q3 : QvOut) : Prop :=
  ∃ d1 d2 d3, (⟨kind, q1.polNames.getD p "", .plane d1⟩ : QvFile) ∈ q1.files ∧ (⟨kind, q2.polNames.getD p "", .plane d2⟩ : QvFile) ∈ q2.files ∧
    (⟨kind, q3.polNames.getD p "", .plane d3⟩ : QvFile) ∈ q3.files ∧ ∀ i j, d3 i j = a * d1 i j + c * d2 i j

end Spec

theorem gridded_parts (x : RunIn) (fo : FlagObs) (u v : ℕ → ℕ → ℕ → ℂ) (w : Weights) (p : ℕ) (o : VisGridOut ℂ × Plane ℂ)
    (ho : x.gridded fo v w p = .ok o) : ∃ o', visibilityGrid (withVis (x.gridIn fo u w p) (v p)) = .ok (some o.1) ∧
      visibilityGrid (withVis (x.gridIn fo u w p) (x.model p)) = .ok (some o') ∧ o.2 = o'.planes.image := by
  rw [show x.gridded fo v w p = ({ x with model := x.model } : RunIn).gridded fo v w p from rfl, gridded_eq x fo u w p v x.model] at ho
  cases h1 : visibilityGrid (withVis (x.gridIn fo u w p) (v p)) with
  | error e => rw [h1] at ho; cases ho
  | ok ob =>
    rw [h1] at ho
    cases ob with
    | none => cases ho
    | some o1 =>
      cases h2 : visibilityGrid (withVis (x.gridIn fo u w p) (x.model p)) with
      | error e => rw [h2] at ho; cases ho
      | ok ob' =>
        rw [h2] at ho
        cases ob' with
        | none => cases ho
        | some o2 =>
          simp only [Except.ok.injEq] at ho
          subst ho
          exact ⟨o2, rfl, rfl, rfl⟩

/-- The plane of a sum of data. -/
theorem grid_sum (x : RunIn) (fo : FlagObs) (u : ℕ → ℕ → ℕ → ℂ) (w : Weights) (p : ℕ) (hres : 0 < (x.grid p).res) (hl : (x.grid p).freqAll ≠ [])
    (hlen : ∀ b, 0 ≤ blLength (x.grid p).toGridIn b) (a c : ℝ) (v1 v2 v3 : ℕ → ℕ → ℂ)
    (hv : ∀ f b, b < fo.nBl → 0 < w p f b → v3 f b = a * v1 f b + c * v2 f b) (o1 o2 o3 : VisGridOut ℂ)
    (h1 : visibilityGrid (withVis (x.gridIn fo u w p) v1) = .ok (some o1)) (h2 : visibilityGrid (withVis (x.gridIn fo u w p) v2) = .ok (some o2))
    (h3 : visibilityGrid (withVis (x.gridIn fo u w p) v3) = .ok (some o3)) :
    (∀ i j, o3.planes.image i j = a * o1.planes.image i j + c * o2.planes.image i j) ∧ o2.planes.weights = o1.planes.weights ∧
      o3.planes.weights = o1.planes.weights ∧ o2.planes.uniform = o1.planes.uniform ∧ o3.planes.uniform = o1.planes.uniform := by
  obtain ⟨o, a1, a2⟩ := C190_linear (x.gridIn fo u w p) hres v1 v2 (a : ℂ) c (Complex.conj_ofReal a) (Complex.conj_ofReal c) o1 o2 h1 h2
  have e : visibilityGrid (withVis (x.gridIn fo u w p) v3) =
      visibilityGrid (withVis (x.gridIn fo u w p) fun f s => (a : ℂ) * v1 f s + c * v2 f s) := by
    refine C192_flagged (x.gridIn fo u w p) hl hlen rfl _ _ fun f b hpos => ?_
    change 0 < (if b < fo.nBl then w p f b else 0) at hpos
    split_ifs at hpos with hb
    · exact hv f b hb hpos
    · exact absurd hpos (lt_irrefl _)
  have e3 : o3 = o := by
    rw [e, a1] at h3
    injection h3 with h3
    injection h3 with h3
    exact h3.symm
  obtain ⟨o2', b1, b2, -, b3, -⟩ := C191_weights (x.gridIn fo u w p) hres v1 v2 o1 h1
  obtain ⟨o3', c1, c2, -, c3, -⟩ := C191_weights (x.gridIn fo u w p) hres v1 v3 o1 h1
  have e4 : o2' = o2 := by
    rw [h2] at b1
    injection b1 with b1
    injection b1 with b1
    exact b1.symm
  have e5 : o3' = o3 := by
    rw [h3] at c1
    injection c1 with c1
    injection c1 with c1
    exact c1.symm
  subst e4 e5
  exact ⟨fun i j => by rw [e3, a2], b2, c2, b3, c3⟩

theorem fourier_sum (a c : ℝ) (n m : ℕ) (f g : Plane ℂ) (i j : ℕ) :
    (Spec.fourier n m (fun i j => a * f i j + c * g i j) i j).re = a * (Spec.fourier n m f i j).re + c * (Spec.fourier n m g i j).re := by
  have : Spec.fourier n m (fun i j => a * f i j + c * g i j) i j = a * Spec.fourier n m f i j + c * Spec.fourier n m g i j := by
    unfold Spec.fourier
    rw [← mul_div_assoc, ← mul_div_assoc, ← add_div, Finset.mul_sum, Finset.mul_sum, ← Finset.sum_add_distrib]
    refine congrArg (· / _) (Finset.sum_congr rfl fun a _ => ?_)
    rw [Finset.mul_sum, Finset.mul_sum, ← Finset.sum_add_distrib]
    exact Finset.sum_congr rfl fun b _ => by ring
  rw [this, Complex.add_re, Complex.re_ofReal_mul, Complex.re_ofReal_mul]

/-- The images of sums of planes. -/
theorem quickview_sum (q : QvIn) (I2 I3 M2 M3 : ℕ → Plane ℂ) (a c : ℝ) (hn : 0 < q.n) (hn2 : q.n % 2 = 0) (hpad : q.pad = 1) (hp4 : q.nPol < 4)
    (g : ℕ → Plane ℚ) (hg : Spec.Filter q g) (p : ℕ) (hp : p < q.nPol)
    (hI : ∀ i j, I3 p i j = a * q.imageUv p i j + c * I2 p i j) (hM : ∀ i j, M3 p i j = a * q.modelUv p i j + c * M2 p i j)
    (out1 out2 out3 : QvOut) (h1 : quickview q = .ok out1) (h2 : quickview { q with imageUv := I2, modelUv := M2 } = .ok out2)
    (h3 : quickview { q with imageUv := I3, modelUv := M3 } = .ok out3) :
    FilesAdd a c .dirty p out1 out2 out3 ∧ FilesAdd a c .model p out1 out2 out3 := by
  have h4 : ¬4 ≤ q.nPol := by omega
  obtain ⟨S1, s1, -, n1, f1⟩ := quickview_pols q out1 h1
  obtain ⟨S2, s2, -, n2, f2⟩ := quickview_pols _ out2 h2
  obtain ⟨S3, s3, -, n3, f3⟩ := quickview_pols _ out3 h3
  obtain ⟨r1, a1, a2, a3, a4, -⟩ := qvPol_ok q hn hn2 hpad g hg p
  obtain ⟨r2, b1, b2, b3, b4, -⟩ := qvPol_ok { q with imageUv := I2, modelUv := M2 } hn hn2 hpad g hg p
  obtain ⟨r3, c1, c2, c3, c4, -⟩ := qvPol_ok { q with imageUv := I3, modelUv := M3 } hn hn2 hpad g hg p
  have e1 : S1 p = r1 := by rw [s1 p hp] at a1; exact Except.ok.inj a1
  have e2 : S2 p = r2 := by rw [s2 p hp] at b1; exact Except.ok.inj b1
  have e3 : S3 p = r3 := by rw [s3 p hp] at c1; exact Except.ok.inj c1
  have hr2 : r2.renorm = r1.renorm := by rw [a4, b4]; rfl
  have hr3 : r3.renorm = r1.renorm := by rw [a4, c4]; rfl
  have k1 : (fun i j => I3 p i j * (g p i j : ℂ)) = fun i j => (a : ℂ) * (q.imageUv p i j * (g p i j : ℂ)) + c * (I2 p i j * (g p i j : ℂ)) := by
    funext i j
    rw [hI]
    ring
  have k2 : (fun i j => M3 p i j * (g p i j : ℂ)) = fun i j => (a : ℂ) * (q.modelUv p i j * (g p i j : ℂ)) + c * (M2 p i j * (g p i j : ℂ)) := by
    funext i j
    rw [hM]
    ring
  have d1 : ∀ i j, r3.dirty i j = a * r1.dirty i j + c * r2.dirty i j := by
    intro i j
    rw [a2, b2, c2, k1, fourier_sum]
    show (_ + _) * Spec.pixelFactor (some q.degpix) * _ = _ * (_ * Spec.pixelFactor (some q.degpix) * _) + _ * (_ * Spec.pixelFactor (some q.degpix) * _)
    ring
  have d2 : ∀ i j, r3.model i j = a * r1.model i j + c * r2.model i j := by
    intro i j
    rw [a3, b3, c3, k2, fourier_sum]
    show (_ + _) * Spec.pixelFactor (some q.degpix) * _ = _ * (_ * Spec.pixelFactor (some q.degpix) * _) + _ * (_ * Spec.pixelFactor (some q.degpix) * _)
    ring
  unfold FilesAdd
  rw [n1, n2, n3, f1, f2, f3]
  refine ⟨⟨_, _, _, List.mem_flatMap.2 ⟨p, List.mem_range.2 hp, List.mem_cons_self ..⟩, List.mem_flatMap.2 ⟨p, List.mem_range.2 hp, List.mem_cons_self ..⟩,
      List.mem_flatMap.2 ⟨p, List.mem_range.2 hp, List.mem_cons_self ..⟩, fun i j => ?_⟩,
    ⟨_, _, _, List.mem_flatMap.2 ⟨p, List.mem_range.2 hp, List.mem_cons_of_mem _ (List.mem_cons_self ..)⟩,
      List.mem_flatMap.2 ⟨p, List.mem_range.2 hp, List.mem_cons_of_mem _ (List.mem_cons_self ..)⟩,
      List.mem_flatMap.2 ⟨p, List.mem_range.2 hp, List.mem_cons_of_mem _ (List.mem_cons_self ..)⟩, fun i j => ?_⟩⟩
  · simp only [if_neg h4, e1, e2, e3, hr2, hr3, d1]
    ring
  · simp only [if_neg h4, e1, e2, e3, hr2, hr3, d2]
    ring

/-- **C315.** Skies add up: if the data of three runs are made from their models by the same gains, which the calibration can represent, calibration does not
flag, and the third model is a real combination of the first two at the samples in use, then all three runs find the same weights, and the planes and the
images of data and model of the third run are this combination of those of the first two. -/
theorem C315_sum (x : RunIn) (h : RunFits x) (hi : ImagesFit x) (hres : ∀ p, 0 < (x.grid p).res) (hflag : x.opts.flag = false) (g : Gains)
    (v1 m1 v2 m2 v3 m3 : ℕ → ℕ → ℕ → ℂ) (s1 : ExactSky x g v1 m1) (s2 : ExactSky x g v2 m2) (s3 : ExactSky x g v3 m3) (a c : ℝ)
    (hm : ∀ p < x.obs.nPol, ∀ f, ∀ s < x.cal.run.nBl * x.cal.run.nTime, UsedSample x p f s → m3 p f s = a * m1 p f s + c * m2 p f s)
    (R1 R2 R3 : RunOut) (hR1 : imagingRun (withSky x v1 m1) = .ok R1) (hR2 : imagingRun (withSky x v2 m2) = .ok R2)
    (hR3 : imagingRun (withSky x v3 m3) = .ok R3) :
    R2.weights = R1.weights ∧ R3.weights = R1.weights ∧ ∀ p < x.obs.nPol,
      (∃ o1 o2 o3, R1.planes[p]? = some o1 ∧ R2.planes[p]? = some o2 ∧ R3.planes[p]? = some o3 ∧
        (∀ i j, o3.1.planes.image i j = a * o1.1.planes.image i j + c * o2.1.planes.image i j) ∧ (∀ i j, o3.2 i j = a * o1.2 i j + c * o2.2 i j) ∧
        o2.1.planes.weights = o1.1.planes.weights ∧ o3.1.planes.weights = o1.1.planes.weights) ∧
      FilesAdd a c .dirty p R1.images R2.images R3.images ∧ FilesAdd a c .model p R1.images R2.images R3.images := by
  have hfit : ∀ v m, RunFits (withSky x v m) := fun v m =>
    ⟨h.pols, h.freqs, h.samples, h.tileA, h.tileB, h.tiles, h.offsets, h.cast, h.gridFreqs, h.lengths⟩
  obtain ⟨w1, w2, p1, -, p3, p4, p5, p6⟩ := (run_stages _ R1).1 hR1
  obtain ⟨w1', w2', q1, -, q3, q4, q5, q6⟩ := (run_stages _ R2).1 hR2
  obtain ⟨w1'', w2'', t1, -, t3, t4, t5, t6⟩ := (run_stages _ R3).1 hR3
  obtain ⟨u1, k1⟩ := run_exact _ (hfit v1 m1) g s1.setup R1 hR1
  obtain ⟨u2, k2⟩ := run_exact _ (hfit v2 m2) g s2.setup R2 hR2
  obtain ⟨u3, k3⟩ := run_exact _ (hfit v3 m3) g s3.setup R3 hR3
  have u1 : R1.cal.inUse = x.obs.inUse := u1 hflag
  have u2 : R2.cal.inUse = x.obs.inUse := u2 hflag
  have u3 : R3.cal.inUse = x.obs.inUse := u3 hflag
  have p1 : visWeightsUpdate x.obs x.uv x.weights = .ok w1 := p1
  have q1 : visWeightsUpdate x.obs x.uv x.weights = .ok w1' := q1
  have t1 : visWeightsUpdate x.obs x.uv x.weights = .ok w1'' := t1
  obtain rfl : w1 = w1' := by rw [p1] at q1; exact Except.ok.inj q1
  obtain rfl : w1 = w1'' := by rw [p1] at t1; exact Except.ok.inj t1
  have p3 : visWeightsUpdate (x.obs.restrict R1.cal.inUse) x.uv w1.weights = .ok w2 := p3
  have q3 : visWeightsUpdate (x.obs.restrict R2.cal.inUse) x.uv w1.weights = .ok w2' := q3
  have t3 : visWeightsUpdate (x.obs.restrict R3.cal.inUse) x.uv w1.weights = .ok w2'' := t3
  rw [u1] at p3
  rw [u2] at q3
  rw [u3] at t3
  obtain rfl : w2 = w2' := by rw [p3] at q3; exact Except.ok.inj q3
  obtain rfl : w2 = w2'' := by rw [p3] at t3; exact Except.ok.inj t3
  have p5 : (List.range x.obs.nPol).mapM ((withSky x v1 m1).gridded (x.obs.restrict R1.cal.inUse) R1.cal.vis w2.weights) = .ok R1.planes := p5
  have q5 : (List.range x.obs.nPol).mapM ((withSky x v2 m2).gridded (x.obs.restrict R2.cal.inUse) R2.cal.vis w2.weights) = .ok R2.planes := q5
  have t5 : (List.range x.obs.nPol).mapM ((withSky x v3 m3).gridded (x.obs.restrict R3.cal.inUse) R3.cal.vis w2.weights) = .ok R3.planes := t5
  rw [u1] at p5
  rw [u2] at q5
  rw [u3] at t5
  have hcal : ∀ v m R, ExactSky x g v m → imagingRun (withSky x v m) = .ok R → R.weights = w2.weights → ∀ p < x.obs.nPol, ∀ f b, b < x.obs.nBl →
      0 < w2.weights p f b → UsedSample x p f b ∧ R.cal.vis p f b = m p f b := by
    intro v m R hs hR hw p hp f b hb hpos
    rw [← hw] at hpos
    obtain ⟨y1, y2, y3, y4⟩ := run_positive _ (hfit v m) R hR p f b hp hb hpos
    have y1 : UsedSample x p f b := y1
    have hb' : b < x.cal.run.nBl * x.cal.run.nTime := by rw [← h.nBl]; exact hb
    exact ⟨y1, ((run_exact _ (hfit v m) g hs.setup R hR).2 p hp).2 b hb' y3 y4 f y2 _ (hs.data p hp b hb' f y1)⟩
  set fo := x.obs.restrict x.obs.inUse with hfo
  obtain ⟨a1, a2⟩ := mapM_range_ok _ _ _ p5
  obtain ⟨b1, b2⟩ := mapM_range_ok _ _ _ q5
  obtain ⟨c1, c2⟩ := mapM_range_ok _ _ _ t5
  have hG : ∀ p < x.obs.nPol, ∃ o1 o2 o3, R1.planes[p]? = some o1 ∧ R2.planes[p]? = some o2 ∧ R3.planes[p]? = some o3 ∧
      (∀ i j, o3.1.planes.image i j = a * o1.1.planes.image i j + c * o2.1.planes.image i j) ∧ (∀ i j, o3.2 i j = a * o1.2 i j + c * o2.2 i j) ∧
      o2.1.planes.weights = o1.1.planes.weights ∧ o3.1.planes.weights = o1.1.planes.weights ∧ o2.1.planes.uniform = o1.1.planes.uniform ∧
      o3.1.planes.uniform = o1.1.planes.uniform := by
    intro p hp
    obtain ⟨o1, x1, x2⟩ := a2 p (by rw [List.length_range]; exact hp)
    obtain ⟨o2, y1, y2⟩ := b2 p (by rw [List.length_range]; exact hp)
    obtain ⟨o3, z1, z2⟩ := c2 p (by rw [List.length_range]; exact hp)
    rw [List.getElem_range] at x2 y2 z2
    obtain ⟨n1, x3, x4, x5⟩ := gridded_parts _ fo x.vis _ _ p o1 x2
    obtain ⟨n2, y3, y4, y5⟩ := gridded_parts _ fo x.vis _ _ p o2 y2
    obtain ⟨n3, z3, z4, z5⟩ := gridded_parts _ fo x.vis _ _ p o3 z2
    have hsum : ∀ f b, b < fo.nBl → 0 < w2.weights p f b → m3 p f b = a * m1 p f b + c * m2 p f b := fun f b hb hpos =>
      hm p hp f b (by rw [← h.nBl]; exact hb) (hcal v1 m1 R1 s1 hR1 p4.symm p hp f b hb hpos).1
    obtain ⟨g1, g2, g3, g4, g5⟩ := grid_sum x fo x.vis w2.weights p (hres p) (h.gridFreqs p) (h.lengths p) a c (R1.cal.vis p) (R2.cal.vis p)
      (R3.cal.vis p) (fun f b hb hpos => by
        rw [(hcal v1 m1 R1 s1 hR1 p4.symm p hp f b hb hpos).2, (hcal v2 m2 R2 s2 hR2 q4.symm p hp f b hb hpos).2,
          (hcal v3 m3 R3 s3 hR3 t4.symm p hp f b hb hpos).2]
        exact hsum f b hb hpos) o1.1 o2.1 o3.1 x3 y3 z3
    obtain ⟨l1, -⟩ := grid_sum x fo x.vis w2.weights p (hres p) (h.gridFreqs p) (h.lengths p) a c (m1 p) (m2 p) (m3 p) hsum n1 n2 n3 x4 y4 z4
    exact ⟨o1, o2, o3, x1, y1, z1, g1, fun i j => by rw [x5, y5, z5, l1], g2, g3, g4, g5⟩
  refine ⟨q4.symm.trans p4, t4.symm.trans p4, fun p hp => ⟨?_, ?_⟩⟩
  · obtain ⟨o1, o2, o3, x1, x2, x3, x4, x5, x6, x7, -⟩ := hG p hp
    exact ⟨o1, o2, o3, x1, x2, x3, x4, x5, x6, x7⟩
  · have g1 : R1.planes.length = x.obs.nPol := a1.trans List.length_range
    have g2 : R2.planes.length = x.obs.nPol := b1.trans List.length_range
    have g3 : R3.planes.length = x.obs.nPol := c1.trans List.length_range
    have h0 : 0 < x.obs.nPol := h.pols.1
    set u := ((R1.planes[0]?).map fun g : VisGridOut ℂ × Plane ℂ => g.1.planes.uniform).getD fun _ _ => 0 with hu
    have e2 : ((R2.planes[0]?).map fun g : VisGridOut ℂ × Plane ℂ => g.1.planes.uniform).getD (fun _ _ => 0) = u := by
      obtain ⟨o1, o2, o3, x1, x2, x3, -, -, -, -, x4, x5⟩ := hG 0 h0
      rw [hu, x1, x2]
      exact x4
    have e3 : ((R3.planes[0]?).map fun g : VisGridOut ℂ × Plane ℂ => g.1.planes.uniform).getD (fun _ _ => 0) = u := by
      obtain ⟨o1, o2, o3, x1, x2, x3, -, -, -, -, x4, x5⟩ := hG 0 h0
      rw [hu, x1, x3]
      exact x5
    have W2 : (fun p : ℕ => ((R2.planes[p]?).map fun g : VisGridOut ℂ × Plane ℂ => g.1.planes.weights).getD fun _ _ => 0) =
        fun p => ((R1.planes[p]?).map fun g : VisGridOut ℂ × Plane ℂ => g.1.planes.weights).getD fun _ _ => 0 := by
      funext r
      by_cases hr : r < x.obs.nPol
      · obtain ⟨o1, o2, o3, x1, x2, x3, -, -, x4, -⟩ := hG r hr
        rw [x1, x2]
        exact x4
      · rw [List.getElem?_eq_none (by omega), List.getElem?_eq_none (by omega)]
    have W3 : (fun p : ℕ => ((R3.planes[p]?).map fun g : VisGridOut ℂ × Plane ℂ => g.1.planes.weights).getD fun _ _ => 0) =
        fun p => ((R1.planes[p]?).map fun g : VisGridOut ℂ × Plane ℂ => g.1.planes.weights).getD fun _ _ => 0 := by
      funext r
      by_cases hr : r < x.obs.nPol
      · obtain ⟨o1, o2, o3, x1, x2, x3, -, -, -, x4, -⟩ := hG r hr
        rw [x1, x3]
        exact x4
      · rw [List.getElem?_eq_none (by omega), List.getElem?_eq_none (by omega)]
    have hq2 : (withSky x v2 m2).quickIn w2.nVis R2.planes = { x.quickIn w2.nVis R1.planes with
        imageUv := fun p => ((R2.planes[p]?).map fun g : VisGridOut ℂ × Plane ℂ => g.1.planes.image).getD fun _ _ => 0
        modelUv := fun p => ((R2.planes[p]?).map fun g : VisGridOut ℂ × Plane ℂ => g.2).getD fun _ _ => 0 } := by
      unfold RunIn.quickIn
      rw [e2, W2]
      rfl
    have hq3 : (withSky x v3 m3).quickIn w2.nVis R3.planes = { x.quickIn w2.nVis R1.planes with
        imageUv := fun p => ((R3.planes[p]?).map fun g : VisGridOut ℂ × Plane ℂ => g.1.planes.image).getD fun _ _ => 0
        modelUv := fun p => ((R3.planes[p]?).map fun g : VisGridOut ℂ × Plane ℂ => g.2).getD fun _ _ => 0 } := by
      unfold RunIn.quickIn
      rw [e3, W3]
      rfl
    rw [hq2] at q6
    rw [hq3] at t6
    obtain ⟨f, hf⟩ : ∃ g, Spec.Filter (x.quickIn w2.nVis R1.planes) g :=
      ⟨fun p => (hi.filter u ((x.quickIn w2.nVis R1.planes).weightsUv p)).choose, fun p a =>
        (hi.filter u ((x.quickIn w2.nVis R1.planes).weightsUv p)).choose_spec a⟩
    obtain ⟨o1, o2, o3, x1, x2, x3, x4, x5, -⟩ := hG p hp
    refine quickview_sum (x.quickIn w2.nVis R1.planes) _ _ _ _ a c (hi.size u).1 (hi.size u).2 (hi.pad u)
      (by have := h.pols; show x.obs.nPol < 4; omega) f hf p hp ?_ ?_ R1.images R2.images R3.images p6 q6 t6
    · intro i j
      show ((R3.planes[p]?).map fun g : VisGridOut ℂ × Plane ℂ => g.1.planes.image).getD _ i j = a * ((R1.planes[p]?).map fun g : VisGridOut ℂ × Plane ℂ => g.1.planes.image).getD _ i j +
        c * ((R2.planes[p]?).map fun g : VisGridOut ℂ × Plane ℂ => g.1.planes.image).getD _ i j
      rw [x1, x2, x3]
      exact x4 i j
    · intro i j
      show ((R3.planes[p]?).map fun g : VisGridOut ℂ × Plane ℂ => g.2).getD _ i j = a * ((R1.planes[p]?).map fun g : VisGridOut ℂ × Plane ℂ => g.2).getD _ i j +
        c * ((R2.planes[p]?).map fun g : VisGridOut ℂ × Plane ℂ => g.2).getD _ i j
      rw [x1, x2, x3]
      exact x5 i j

/-- **C315**, success: with data that the same gains explain exactly, a run succeeds for every sky if it does for one. -/
theorem C315_runs (x : RunIn) (h : RunFits x) (hi : ImagesFit x) (hres : ∀ p, 0 < (x.grid p).res) (hflag : x.opts.flag = false) (g : Gains)
    (v1 m1 v2 m2 : ℕ → ℕ → ℕ → ℂ) (s1 : ExactSky x g v1 m1) (s2 : ExactSky x g v2 m2) (R1 : RunOut) (hR1 : imagingRun (withSky x v1 m1) = .ok R1) :
    ∃ R2, imagingRun (withSky x v2 m2) = .ok R2 := by
  have hfit : ∀ v m, RunFits (withSky x v m) := fun v m =>
    ⟨h.pols, h.freqs, h.samples, h.tileA, h.tileB, h.tiles, h.offsets, h.cast, h.gridFreqs, h.lengths⟩
  obtain ⟨w1, w2, p1, -, p3, p4, p5, p6⟩ := (run_stages _ R1).1 hR1
  obtain ⟨u1, -⟩ := run_exact _ (hfit v1 m1) g s1.setup R1 hR1
  have u1 : R1.cal.inUse = x.obs.inUse := u1 hflag
  have p1 : visWeightsUpdate x.obs x.uv x.weights = .ok w1 := p1
  have p3 : visWeightsUpdate (x.obs.restrict R1.cal.inUse) x.uv w1.weights = .ok w2 := p3
  have p5 : (List.range x.obs.nPol).mapM ((withSky x v1 m1).gridded (x.obs.restrict R1.cal.inUse) R1.cal.vis w2.weights) = .ok R1.planes := p5
  rw [u1] at p3 p5
  have e := s2.setup w1 p1
  have hut : ∀ t ∈ x.obs.inUse.tiles, t < ((withSky x v2 m2).calIn w1.weights).run.nTile ∧ ((withSky x v2 m2).calIn w1.weights).run.tileUse t = true := by
    intro t ht
    obtain ⟨b1, b2⟩ := List.mem_filter.1 ht
    exact ⟨List.mem_range.1 b1, b2⟩
  obtain ⟨r, a1, a2⟩ : ∃ r, (withSky x v2 m2).calibrated w1.weights = .ok r ∧ (x.opts.flag = false → r.inUse = x.obs.inUse) := by
    unfold RunIn.calibrated
    cases hq : (withSky x v2 m2).refl with
    | none =>
      obtain ⟨r, a1, a2, -⟩ := C273_exact ((withSky x v2 m2).calIn w1.weights) e.fit e.mag h.cast e.base e.iter x.opts e.bandpass e.polyfit e.noJump e.noAutos.1 e.noAutos.2.1
        x.obs.inUse g h.pols e.exact e.ref hut h.tiles e.start e.smooth e.flags
      exact ⟨r, a1, a2⟩
    | some q =>
      obtain ⟨r, a1, a2, -⟩ := C289_exact ((withSky x v2 m2).calIn w1.weights) e.fit e.mag h.cast e.base e.iter x.opts e.bandpass e.polyfit e.noJump e.noAutos.1 e.noAutos.2.1
        e.noAutos.2.2 x.obs.inUse g h.pols e.exact e.ref hut h.tiles e.start e.smooth e.flags q
      exact ⟨r, a1, a2⟩
  have hu : r.inUse = x.obs.inUse := a2 hflag
  obtain ⟨b1, b2⟩ := mapM_range_ok _ _ _ p5
  set fo := x.obs.restrict x.obs.inUse with hfo
  have hg : ∀ p ∈ List.range x.obs.nPol, ∃ o, (withSky x v2 m2).gridded fo r.vis w2.weights p = .ok o ∧ True := by
    intro p hp
    obtain ⟨o1, x1, x2⟩ := b2 p (by rw [List.length_range]; exact List.mem_range.1 hp)
    rw [List.getElem_range] at x2
    obtain ⟨n1, x3, x4, -⟩ := gridded_parts _ fo x.vis _ _ p o1 x2
    obtain ⟨o2, y1, -⟩ := C191_weights (x.gridIn fo x.vis w2.weights p) (hres p) (R1.cal.vis p) (r.vis p) o1.1 x3
    obtain ⟨n2, y2, -⟩ := C191_weights (x.gridIn fo x.vis w2.weights p) (hres p) (m1 p) (m2 p) n1 x4
    refine ⟨(o2, n2.planes.image), ?_, trivial⟩
    rw [show (withSky x v2 m2).gridded fo r.vis w2.weights p = ({ x with model := m2 } : RunIn).gridded fo r.vis w2.weights p from rfl,
      gridded_eq x fo x.vis w2.weights p r.vis m2]
    have y1 : visibilityGrid (withVis (x.gridIn fo x.vis w2.weights p) (r.vis p)) = .ok (some o2) := y1
    have y2 : visibilityGrid (withVis (x.gridIn fo x.vis w2.weights p) (m2 p)) = .ok (some n2) := y2
    rw [y1, y2]
  obtain ⟨planes, hpl⟩ : ∃ planes, (List.range x.obs.nPol).mapM ((withSky x v2 m2).gridded fo r.vis w2.weights) = .ok planes := by
    have gen : ∀ l : List ℕ, (∀ p ∈ l, ∃ o, (withSky x v2 m2).gridded fo r.vis w2.weights p = .ok o ∧ True) →
        ∃ planes, l.mapM ((withSky x v2 m2).gridded fo r.vis w2.weights) = .ok planes := by
      intro l
      induction l with
      | nil => exact fun _ => ⟨[], rfl⟩
      | cons p l ih =>
        intro hl
        obtain ⟨o, ho, -⟩ := hl p List.mem_cons_self
        obtain ⟨ps, hps⟩ := ih fun q hq => hl q (List.mem_cons_of_mem _ hq)
        refine ⟨o :: ps, ?_⟩
        rw [List.mapM_cons, ho]
        simp only [bind, Except.bind, hps, pure, Except.pure]
    exact gen _ hg
  set q := (withSky x v2 m2).quickIn w2.nVis planes with hq
  set u := ((planes[0]?).map fun g : VisGridOut ℂ × Plane ℂ => g.1.planes.uniform).getD fun _ _ => 0 with hud
  obtain ⟨f, hf⟩ : ∃ g, Spec.Filter q g :=
    ⟨fun p => (hi.filter u (q.weightsUv p)).choose, fun p a => (hi.filter u (q.weightsUv p)).choose_spec a⟩
  obtain ⟨out, hout⟩ := quickview_ok q (hi.size u).1 (hi.size u).2 (hi.pad u) f hf
  refine ⟨⟨r, w2.weights, planes, out⟩, (run_stages _ _).2 ⟨w1, w2, p1, a1, ?_, rfl, ?_, hout⟩⟩
  · show visWeightsUpdate (x.obs.restrict r.inUse) x.uv w1.weights = .ok w2
    rw [hu]
    exact p3
  · show (List.range x.obs.nPol).mapM ((withSky x v2 m2).gridded (x.obs.restrict r.inUse) r.vis w2.weights) = .ok planes
    rw [hu]
    exact hpl

/-- The sky of the example, `k` times as bright. -/
noncomputable def exBright (fit : List ℕ → List ℝ → ℕ → List ℝ) (k : ℝ) : RunIn :=
  withSky (exWholeRun fit) (fun p f b => k * (exWholeRun fit).vis p f b) fun p f b => k * (exWholeRun fit).model p f b

theorem exBright_exact (fit : List ℕ → List ℝ → ℕ → List ℝ) (hfit : LeastSquaresFit fit) (w : Weights) (hw : ExWeights w) (k : ℝ) (hk : k ≠ 0) :
    ExactSetup (exBright fit k) w fun _ _ _ => ((2 : ℝ) : ℂ) := by
  have e := exWholeRun_exact fit hfit w hw
  refine ⟨e.fit, e.mag, e.base, e.iter, e.bandpass, e.polyfit, e.noJump, e.noAutos, fun hf => (by cases hf), fun p hp => ?_, e.ref, e.start, e.smooth⟩
  have E := e.exact p hp
  refine ⟨E.tiles, E.freqs, E.flags, E.start, fun f hf b hb s hs hpos => ?_, fun f hf t ht => ⟨(E.enough f hf t ht).1, ?_⟩, E.differ⟩
  · have := E.data f hf b hb s hs hpos
    have this : (exWholeRun fit).vis p f s = ((2 : ℝ) : ℂ) * star ((2 : ℝ) : ℂ) * (exWholeRun fit).model p f s := this
    show (k : ℂ) * (exWholeRun fit).vis p f s = ((2 : ℝ) : ℂ) * star ((2 : ℝ) : ℂ) * ((k : ℂ) * (exWholeRun fit).model p f s)
    rw [this]
    ring
  · obtain ⟨b, b1, b2, b3, b4⟩ := (E.enough f hf t ht).2
    refine ⟨b, b1, b2, b3, ?_⟩
    have : ((exBright fit k).calIn w).run.average p ((exBright fit k).calIn w).run.model f b =
        k * ((exWholeRun fit).calIn w).run.average p ((exWholeRun fit).calIn w).run.model f b := by
      have hbw : ((exBright fit k).calIn w).run.blWeight p f b = ((exWholeRun fit).calIn w).run.blWeight p f b := rfl
      unfold CalRunIn.average
      rw [hbw]
      generalize ((exWholeRun fit).calIn w).run.blWeight p f b = W
      simp [CalRunIn.samplesOf, CalRunIn.clip, RunIn.calIn, exBright, withSky, exWholeRun, exCalibrate]
      ring
    rw [this]
    exact mul_ne_zero (Complex.ofReal_ne_zero.2 hk) b4

theorem exBright_sky (fit : List ℕ → List ℝ → ℕ → List ℝ) (hfit : LeastSquaresFit fit) (k : ℝ) (hk : k ≠ 0) :
    ExactSky (exWholeRun fit) (fun _ _ _ => ((2 : ℝ) : ℂ)) (exBright fit k).vis (exBright fit k).model where
  setup := fun w hw => by
    obtain ⟨w', b1, b2⟩ := exWholeRun_weights
    have : w = w' := by
      have hw' : visWeightsUpdate exAfter exAfterUv (fun _ _ _ => 1) = .ok w := hw
      rw [b1] at hw'
      exact (Except.ok.inj hw').symm
    subst this
    exact exBright_exact fit hfit w.weights b2 k hk
  data := fun p _ s _ f _ => by
    show (k : ℂ) * ((4 : ℂ) * ((p + f + s + 1 : ℕ) : ℂ)) = ((2 : ℝ) : ℂ) * star ((2 : ℝ) : ℂ) * ((k : ℂ) * ((p + f + s + 1 : ℕ) : ℂ))
    rw [Complex.star_def, Complex.conj_ofReal]
    push_cast
    ring

/-- The hypotheses of C315 are met: skies one, two and three times as bright as that of the example, and the third is the sum of the others. -/
example : ∃ fit R1 R2 R3, imagingRun (exBright fit 1) = .ok R1 ∧ imagingRun (exBright fit 2) = .ok R2 ∧ imagingRun (exBright fit 3) = .ok R3 ∧
    FilesAdd 1 1 .dirty 1 R1.images R2.images R3.images := by
  obtain ⟨fit, hfit⟩ := exists_leastSquaresFit
  obtain ⟨R, hR⟩ := exWholeRun_ok fit hfit
  have hrun : ∀ k : ℝ, k ≠ 0 → ∃ R', imagingRun (exBright fit k) = .ok R' := fun k hk => by
    obtain ⟨R', a1, -⟩ := C295_units _ (exWholeRun_fits fit) (exWholeRun_images fit) (fun p => by norm_num [exWholeRun, exGrid]) k hk R hR
    exact ⟨R', a1⟩
  obtain ⟨R1, h1⟩ := hrun 1 (by norm_num)
  obtain ⟨R2, h2⟩ := hrun 2 (by norm_num)
  obtain ⟨R3, h3⟩ : ∃ R3, imagingRun (exBright fit 3) = .ok R3 :=
    C315_runs (exWholeRun fit) (exWholeRun_fits fit) (exWholeRun_images fit) (fun p => by norm_num [exWholeRun, exGrid]) rfl _ _ _ _ _
      (exBright_sky fit hfit 1 (by norm_num)) (exBright_sky fit hfit 3 (by norm_num)) R1 h1
  have := C315_sum (exWholeRun fit) (exWholeRun_fits fit) (exWholeRun_images fit) (fun p => by norm_num [exWholeRun, exGrid]) rfl _ _ _ _ _ _ _
    (exBright_sky fit hfit 1 (by norm_num)) (exBright_sky fit hfit 2 (by norm_num)) (exBright_sky fit hfit 3 (by norm_num)) 1 1
    (fun p _ f s _ _ => by
      show ((3 : ℝ) : ℂ) * (exWholeRun fit).model p f s = ((1 : ℝ) : ℂ) * (((1 : ℝ) : ℂ) * (exWholeRun fit).model p f s) +
        ((1 : ℝ) : ℂ) * (((2 : ℝ) : ℂ) * (exWholeRun fit).model p f s)
      push_cast
      ring) R1 R2 R3 h1 h2 h3
  exact ⟨fit, R1, R2, R3, h1, h2, h3, (this.2.2 1 (by show 1 < 2; norm_num)).2.1⟩

end PyFHD
