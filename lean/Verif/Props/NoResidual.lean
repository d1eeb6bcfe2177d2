import Verif.Props.Calibrate
import Verif.Props.Relations
import Verif.Props.WeightsUpdate
import Verif.Props.GridOptions
import Verif.Props.Quickview

/-!
# C281: from calibration to the residual images

Spec: the observation after calibration (`Spec.ObsAfter`) has the tiles of the samples, counted from one, and its flags allow only
channels and tiles in use after calibration. `Spec.GridsCalibrated` says that gridding gets the calibrated data of a polarisation, the
model beside them, and weights that are positive only where the updated weights are.
-/

namespace PyFHD

open Spec

/-- The observation when the weights are updated after calibration. -/
structure Spec.ObsAfter (c : CalibrateIn) (v : InUse) (fo : FlagObs) : Prop where
  tileA : fo.tileA = (List.range (c.run.nBl * c.run.nTime)).map fun s => (c.run.tileA s : ℤ) + 1
  tileB : fo.tileB = (List.range (c.run.nBl * c.run.nTime)).map fun s => (c.run.tileB s : ℤ) + 1
  nPol : fo.nPol = c.run.nPol
  nTile : fo.nTile = c.run.nTile
  nFreq : 0 < fo.nFreq
  samples : 0 < c.run.nBl * c.run.nTime
  offsets : GoodOffsets fo fo.nBl
  freqs : ∀ f, fo.freqUse f ≠ 0 → f ∈ v.freqs
  tiles : ∀ t < fo.nTile, fo.tileUse t ≠ 0 → t ∈ v.tiles

/-- The inputs of gridding for polarisation `p`: calibrated data, model, weights no larger in extent than the updated ones. -/
structure Spec.GridsCalibrated (c : CalibrateIn) (r : CalibrateOut) (w : Weights) (p : ℕ) (gi : VisGridIn ℂ) (go : GridOpts ℂ) : Prop where
  vis : gi.vis = r.vis p
  model : go.model = some (c.run.model p)
  weight : ∀ f b, 0 < gi.weight f b → b < c.run.nBl * c.run.nTime ∧ 0 < w p f b
  fill : gi.fill = false
  freqs : gi.freqAll ≠ []
  lengths : ∀ b, 0 ≤ blLength gi.toGridIn b
  uniform : go.gridUniform = false
  spectral : go.gridSpectral = false

/-- Where the updated weights are positive, the sample's channel and tiles are in use. -/
theorem updated_in_use (c : CalibrateIn) (v : InUse) (fo : FlagObs) (hfo : ObsAfter c v fo)
    (hAB : ∀ s < c.run.nBl * c.run.nTime, c.run.tileA s < c.run.nTile ∧ c.run.tileB s < c.run.nTile) (q : UvParams) (w : Weights)
    (w' : VwuResult) (hw : visWeightsUpdate fo q w = .ok w') (p : ℕ) (hp : p < c.run.nPol) (f s : ℕ)
    (hs : s < c.run.nBl * c.run.nTime) (hpos : 0 < w'.weights p f s) :
    f ∈ v.freqs ∧ c.run.tileA s ∈ v.tiles ∧ c.run.tileB s ∈ v.tiles := by
  have hnb : fo.nBl = c.run.nBl * c.run.nTime := by
    unfold FlagObs.nBl
    rw [hfo.tileA]
    simp
  obtain ⟨r, hr, hall⟩ := C16_update_never_unflags fo q w (by
      rw [hfo.tileA]
      intro h
      have := congrArg List.length h
      simp only [List.length_map, List.length_range, List.length_nil] at this
      have := hfo.samples
      omega) (by rw [hfo.tileA, hfo.tileB]; simp) hfo.offsets hfo.nFreq
  rw [hw] at hr
  injection hr with hr
  subst hr
  have hno : ¬ MustFlag fo q f s := by
    intro h
    have := (hall p f s (by omega)).2 (by rw [hfo.nPol]; exact hp) h
    rw [this] at hpos
    exact lt_irrefl _ hpos
  obtain ⟨hA, hB⟩ := hAB s hs
  refine ⟨hfo.freqs f fun h => hno (Or.inl h), ?_, ?_⟩
  · refine hfo.tiles _ (by rw [hfo.nTile]; exact hA) fun h => hno (Or.inr (Or.inl ⟨_, ⟨_, by rw [hfo.nTile]; exact hA, h, rfl⟩, Or.inl ?_⟩))
    rw [hfo.tileA, List.getElem?_map, List.getElem?_range hs]
    rfl
  · refine hfo.tiles _ (by rw [hfo.nTile]; exact hB) fun h => hno (Or.inr (Or.inl ⟨_, ⟨_, by rw [hfo.nTile]; exact hB, h, rfl⟩, Or.inr ?_⟩))
    rw [hfo.tileB, List.getElem?_map, List.getElem?_range hs]
    rfl

/-- Data that agree with the model where they are used are gridded to the plane of the model. -/
theorem planes_equal (c : CalibrateIn) (r : CalibrateOut)
    (hAB : ∀ s < c.run.nBl * c.run.nTime, c.run.tileA s < c.run.nTile ∧ c.run.tileB s < c.run.nTile) (p : ℕ) (hp : p < c.run.nPol)
    (hmodel : ∀ s < c.run.nBl * c.run.nTime, c.run.tileA s ∈ r.inUse.tiles → c.run.tileB s ∈ r.inUse.tiles → ∀ f ∈ r.inUse.freqs,
      r.vis p f s = c.run.model p f s)
    (fo : FlagObs) (hfo : ObsAfter c r.inUse fo) (q : UvParams) (w : Weights) (w' : VwuResult) (hw : visWeightsUpdate fo q w = .ok w')
    (gi : VisGridIn ℂ) (go : GridOpts ℂ) (hg : GridsCalibrated c r w'.weights p gi go) (out : OptOut ℂ)
    (hout : visGridOpts gi go = .ok (some out)) : out.out.planes.image = out.model := by
  obtain ⟨h1, h2⟩ := C118_model_plane gi go hg.uniform (fun h => by rw [hg.spectral] at h; cases h)
  have h3 := h2 _ hg.model
  rw [hout] at h1 h3
  have e1 : visibilityGrid gi = .ok (some out.out) := h1.symm
  have e2 : (visibilityGrid { gi with vis := c.run.model p }).map (·.map fun r => r.planes.image) = .ok (some out.model) := h3.symm
  have e3 : visibilityGrid (withVis gi gi.vis) = visibilityGrid (withVis gi (c.run.model p)) := by
    refine C192_flagged gi hg.freqs hg.lengths hg.fill _ _ fun f b hpos => ?_
    obtain ⟨hb, hw0⟩ := hg.weight f b hpos
    obtain ⟨hf, hA, hB⟩ := updated_in_use c r.inUse fo hfo hAB q w w' hw p hp f b hb hw0
    rw [hg.vis]
    exact hmodel b hb hA hB f hf
  have e4 : visibilityGrid { gi with vis := c.run.model p } = .ok (some out.out) := by
    rw [← e1]
    exact e3.symm
  rw [e4] at e2
  injection e2 with e2
  injection e2 with e2

/-- **C281**, the planes: under the conditions of C273 (exact gains that the fits can represent), with the data made from the model by the
gains, the plane of the calibrated data is the plane of the model, for every polarisation. -/
theorem C281_planes (c : CalibrateIn) (hfit : LeastSquaresFit c.fit) (hmag : c.run.mag = fun z => ‖z‖)
    (hcast : c.run.cast = fun x : ℝ => (x : ℂ)) (hbase : 0 < c.run.base) (hiter : 0 < c.run.maxIter) (o : CalOpts) (hb : o.bandpass = true)
    (hpoly : o.polyfit = true) (hj : c.jump = false) (hinit : o.autoInit = false) (haf : o.autoFit = false) (u : InUse) (g : Gains)
    (hpol : 1 ≤ c.run.nPol ∧ c.run.nPol ≤ 2) (hg : ∀ p < c.run.nPol, ExactGains c.run p (g p))
    (href : c.run.noRef = false → ∀ p < c.run.nPol, ∀ f ∈ c.run.freqs p,
      g p f (refTile (c.run.tiles p)) = (‖g p f (refTile (c.run.tiles p))‖ : ℂ))
    (hut : ∀ t ∈ u.tiles, t < c.run.nTile ∧ c.run.tileUse t = true)
    (hAB : ∀ s < c.run.nBl * c.run.nTime, c.run.tileA s < c.run.nTile ∧ c.run.tileB s < c.run.nTile)
    (hstart : ∀ p < c.run.nPol, ∀ f ∈ u.freqs, ∀ t ∈ u.tiles, c.run.gain p f t = g p f t)
    (hsm : ∀ p < c.run.nPol, SmoothGains (c.fitOpts o p) u (g p))
    (hfl : o.flag = true → ∀ B : Gains, (∀ p < c.run.nPol, ∀ f ∈ u.freqs, ∀ t ∈ u.tiles, B p f t = g p f t) →
      (∀ f ∈ (c.flag u B).freqs, f ∈ u.freqs) ∧ (∀ t ∈ (c.flag u B).tiles, t ∈ u.tiles) ∧
        ∀ p < c.run.nPol, SmoothGains (c.fitOpts o p) (c.flag u B) (g p))
    (hdata : ∀ p < c.run.nPol, ∀ f s, s < c.run.nBl * c.run.nTime →
      c.run.vis p f s = g p f (c.run.tileA s) * star (g p f (c.run.tileB s)) * c.run.model p f s) :
    ∃ r, calibrateAll c o u = .ok r ∧ ∀ fo, ObsAfter c r.inUse fo → ∀ q w w', visWeightsUpdate fo q w = .ok w' →
      ∀ p < c.run.nPol, ∀ gi go, GridsCalibrated c r w'.weights p gi go → ∀ out, visGridOpts gi go = .ok (some out) →
        out.out.planes.image = out.model := by
  obtain ⟨r, h1, -, h2⟩ := C273_exact c hfit hmag hcast hbase hiter o hb hpoly hj hinit haf u g hpol hg href hut hAB hstart hsm hfl
  refine ⟨r, h1, fun fo hfo q w w' hw p hp gi go hgc out hout => planes_equal c r hAB p hp ?_ fo hfo q w w' hw gi go hgc out hout⟩
  intro s hs hA hB f hf
  exact ((h2 p hp).2.2 s hs hA hB).1 f hf _ (hdata p hp f s hs)

/-- **C281**, the images: if the planes of data and model are equal, every pixel of every residual image is zero. -/
theorem C281_residual (q : QvIn) (hn : 0 < q.n) (hn2 : q.n % 2 = 0) (hpad : q.pad = 1) (g : ℕ → Plane ℚ) (hg : Spec.Filter q g)
    (heq : ∀ p < q.nPol, q.imageUv p = q.modelUv p) :
    ∃ out, quickview q = .ok out ∧ ∀ p < q.nPol, ∃ d,
      (⟨.residual, out.polNames.getD p "", .plane d⟩ : QvFile) ∈ out.files ∧ ∀ i j, d i j = 0 := by
  obtain ⟨out, h⟩ := quickview_ok q hn hn2 hpad g hg
  refine ⟨out, h, fun p hp => ?_⟩
  obtain ⟨R, hR, -, -, h3⟩ := quickview_files q out h
  obtain ⟨-, -, f3, -⟩ := h3 p hp
  refine ⟨_, f3, fun i j => ?_⟩
  have hz : ∀ p < q.nPol, ∀ i j, (R p).dirty i j = (R p).model i j := by
    intro p hp i j
    obtain ⟨r, r1, r2, r3, -⟩ := qvPol_ok q hn hn2 hpad g hg p
    have h5 := hR p hp
    rw [r1] at h5
    injection h5 with h5
    rw [← h5, r2, r3, heq p hp]
  by_cases h4 : 4 ≤ q.nPol
  · simp only [if_pos h4, splitReal]
    split_ifs
    · simp
    · simp only [hz p hp, sub_self, zero_mul]
  · simp only [if_neg h4]
    rw [hz p hp, sub_self, zero_mul]

/-- **C281**, the whole way: under the same conditions every residual image exported from those planes is zero at every pixel. `gi p` and
`go p` are the inputs of the gridding of polarisation `p`, `out p` its results, `q` the input of the export. -/
theorem C281_images (c : CalibrateIn) (hfit : LeastSquaresFit c.fit) (hmag : c.run.mag = fun z => ‖z‖)
    (hcast : c.run.cast = fun x : ℝ => (x : ℂ)) (hbase : 0 < c.run.base) (hiter : 0 < c.run.maxIter) (o : CalOpts) (hb : o.bandpass = true)
    (hpoly : o.polyfit = true) (hj : c.jump = false) (hinit : o.autoInit = false) (haf : o.autoFit = false) (u : InUse) (g : Gains)
    (hpol : 1 ≤ c.run.nPol ∧ c.run.nPol ≤ 2) (hg : ∀ p < c.run.nPol, ExactGains c.run p (g p))
    (href : c.run.noRef = false → ∀ p < c.run.nPol, ∀ f ∈ c.run.freqs p,
      g p f (refTile (c.run.tiles p)) = (‖g p f (refTile (c.run.tiles p))‖ : ℂ))
    (hut : ∀ t ∈ u.tiles, t < c.run.nTile ∧ c.run.tileUse t = true)
    (hAB : ∀ s < c.run.nBl * c.run.nTime, c.run.tileA s < c.run.nTile ∧ c.run.tileB s < c.run.nTile)
    (hstart : ∀ p < c.run.nPol, ∀ f ∈ u.freqs, ∀ t ∈ u.tiles, c.run.gain p f t = g p f t)
    (hsm : ∀ p < c.run.nPol, SmoothGains (c.fitOpts o p) u (g p))
    (hfl : o.flag = true → ∀ B : Gains, (∀ p < c.run.nPol, ∀ f ∈ u.freqs, ∀ t ∈ u.tiles, B p f t = g p f t) →
      (∀ f ∈ (c.flag u B).freqs, f ∈ u.freqs) ∧ (∀ t ∈ (c.flag u B).tiles, t ∈ u.tiles) ∧
        ∀ p < c.run.nPol, SmoothGains (c.fitOpts o p) (c.flag u B) (g p))
    (hdata : ∀ p < c.run.nPol, ∀ f s, s < c.run.nBl * c.run.nTime →
      c.run.vis p f s = g p f (c.run.tileA s) * star (g p f (c.run.tileB s)) * c.run.model p f s) :
    ∃ r, calibrateAll c o u = .ok r ∧ ∀ fo, ObsAfter c r.inUse fo → ∀ q w w', visWeightsUpdate fo q w = .ok w' →
      ∀ (gi : ℕ → VisGridIn ℂ) (go : ℕ → GridOpts ℂ) (out : ℕ → OptOut ℂ),
        (∀ p < c.run.nPol, GridsCalibrated c r w'.weights p (gi p) (go p) ∧ visGridOpts (gi p) (go p) = .ok (some (out p))) →
        ∀ (v : QvIn) (filter : ℕ → Plane ℚ), 0 < v.n → v.n % 2 = 0 → v.pad = 1 → Spec.Filter v filter → v.nPol = c.run.nPol →
          (∀ p < v.nPol, v.imageUv p = (out p).out.planes.image ∧ v.modelUv p = (out p).model) →
          ∃ res, quickview v = .ok res ∧ ∀ p < v.nPol, ∃ d,
            (⟨.residual, res.polNames.getD p "", .plane d⟩ : QvFile) ∈ res.files ∧ ∀ i j, d i j = 0 := by
  obtain ⟨r, h1, h2⟩ := C281_planes c hfit hmag hcast hbase hiter o hb hpoly hj hinit haf u g hpol hg href hut hAB hstart hsm hfl hdata
  refine ⟨r, h1, fun fo hfo q w w' hw gi go out hgo v filter hn hn2 hpad hfilter hnp hv => ?_⟩
  refine C281_residual v hn hn2 hpad filter hfilter fun p hp => ?_
  obtain ⟨h3, h4⟩ := hgo p (hnp ▸ hp)
  rw [(hv p hp).1, (hv p hp).2]
  exact h2 fo hfo q w w' hw p (hnp ▸ hp) (gi p) (go p) h3 (out p) h4

/-! ## Example

The calibration of `exCalibrate` (Props/Calibrate), whose data are four times the model, gives an observation with ten samples and three
channels in use; two channels and three samples are gridded. -/

/-- The observation of `exCalibrate` after calibration. -/
def exAfter : FlagObs where
  nPol := 2
  nFreq := 4
  nTile := 3
  nTime := 5
  dimension := 20
  elements := 20
  kpix := 1
  minBaseline := 0
  maxBaseline := 100
  freq := fun f => 1 + f / 2
  freqUse := fun f => if f < 3 then 1 else 0
  tileUse := fun t => if t < 3 then 1 else 0
  timeUse := fun _ => 1
  tileA := (List.range 10).map fun _ => 1
  tileB := (List.range 10).map fun s => if s % 2 = 0 then 2 else 3
  binOffset := fun t => 2 * t
  tileNames := ["a", "b", "c"]

/-- Positions of the ten samples. -/
def exAfterUv : UvParams where
  uu := fun b => (b % 2 : ℕ)
  vv := fun _ => 1
  norm := fun x y => |x| + |y|
  psfDim := 4

example (fit : List ℕ → List ℝ → ℕ → List ℝ) : ObsAfter (exCalibrate fit) ⟨[0, 1, 2], [0, 1, 2]⟩ exAfter where
  tileA := by simp [exCalibrate, exAfter]
  tileB := by
    simp only [exCalibrate, exAfter]
    refine List.map_congr_left fun s _ => ?_
    split_ifs <;> norm_num
  nPol := rfl
  nTile := rfl
  nFreq := by decide
  samples := by simp [exCalibrate]
  offsets := ⟨rfl, fun s t h _ => by simp only [exAfter]; omega,
    fun t h => by simp only [exAfter, FlagObs.nBl] at *; simp; omega⟩
  freqs := fun f h => by
    have : f < 3 := by
      by_contra h'
      exact h (by simp [exAfter, h'])
    simp
    omega
  tiles := fun t h _ => by
    have : t < 3 := h
    simp
    omega

/-- Two channels and three of the samples. -/
def exAfterGridIn : GridIn := { exGrid 16 16 (fun b => (b % 2 : ℕ)) (fun _ => 1) 3 with weight := fun f b => if f < 2 ∧ b < 3 then 1 else 0 }

/-- Their gridding. -/
noncomputable def exAfterGrid (r : CalibrateOut) : VisGridIn ℂ where
  toGridIn := exAfterGridIn
  fbin := fun f => f
  kern := fun fb y x p => (100 * fb + 10 * y + x + p : ℕ)
  group := fun _ => 0
  vis := r.vis 1
  interp := false
  noConjugate := false

/-- The updated weights are positive for what is gridded, and something is gridded. -/
example : ∃ w', visWeightsUpdate exAfter exAfterUv (fun _ _ _ => 1) = .ok w' ∧
    ∀ (fit : List ℕ → List ℝ → ℕ → List ℝ) (r : CalibrateOut),
      GridsCalibrated (exCalibrate fit) r w'.weights 1 (exAfterGrid r) ⟨some ((exCalibrate fit).run.model 1), false, false⟩ ∧
      ∃ out, visGridOpts (exAfterGrid r) ⟨some ((exCalibrate fit).run.model 1), false, false⟩ = .ok (some out) := by
  have h : (visWeightsUpdate exAfter exAfterUv fun _ _ _ => 1).map (fun r => (List.range 2).map fun f => (List.range 3).map (r.weights 1 f))
      = .ok [[1, 1, 1], [1, 1, 1]] := by decide +kernel
  cases hw : visWeightsUpdate exAfter exAfterUv fun _ _ _ => 1 with
  | error e => rw [hw] at h; cases h
  | ok w' =>
    rw [hw] at h
    have h' : (List.range 2).map (fun f => (List.range 3).map (w'.weights 1 f)) = [[1, 1, 1], [1, 1, 1]] := by injection h
    simp [List.range_succ] at h'
    refine ⟨w', rfl, fun fit r => ⟨⟨rfl, rfl, ?_, rfl, ?_, ?_, rfl, rfl⟩, ?_⟩⟩
    · intro f b hpos
      simp only [exAfterGrid, exAfterGridIn] at hpos
      split_ifs at hpos with hfb
      · obtain ⟨h1, h2⟩ := hfb
        refine ⟨by simp [exCalibrate]; omega, ?_⟩
        interval_cases f <;> interval_cases b <;> simp [h']
      · exact absurd hpos (lt_irrefl _)
    · simp [exAfterGrid, exAfterGridIn, exGrid]
    · intro b
      unfold blLength exAfterGrid exAfterGridIn exGrid
      positivity
    · have hb : ∃ b, gridBins (exAfterGrid r).toGridIn = .ok (some b) ∧ b.binI.length ≠ 0 := by
        have h2 : (gridBins exAfterGridIn).map (·.map fun b => b.binI.length) = .ok (some 4) := by decide +kernel
        show ∃ b, gridBins exAfterGridIn = .ok (some b) ∧ b.binI.length ≠ 0
        cases hg : gridBins exAfterGridIn with
        | error e => rw [hg] at h2; cases h2
        | ok ob =>
          rw [hg] at h2
          cases ob with
          | none => cases h2
          | some b => exact ⟨b, rfl, by
              injection h2 with h2
              injection h2 with h2
              show b.binI.length ≠ 0
              have h3 : b.binI.length = 4 := h2
              omega⟩
      obtain ⟨b, hb1, hb2⟩ := hb
      unfold visGridOpts
      simp only [hb1, bind, Except.bind, if_neg hb2]
      exact ⟨_, rfl⟩

end PyFHD
