import Verif.Props.VisFlag
import Verif.Props.GridOptions
import Verif.Props.BeamBaseline
import Verif.Props.GaussBeam
import Verif.Props.CalReflect
import Verif.Props.CalRun

/-!
# Further claims on flagging, the spectral plane, beams and reflections (C113, C114, C120, C127, C132, C133, C139, C152)

Added after edits of the model that no theorem noticed.
-/

namespace PyFHD

/-! ## C114: what is flagged -/

namespace Spec

/-- Is a deviation `x` within `k` standard deviations (no comparison holds for NaN)? -/
def within {R : Type} [Field R] [LinearOrder R] (k x : R) (d : Option R) : Prop := ∃ s, d = some s ∧ |x| ≤ k * s

/-- Does a deviation `x` exceed `k` standard deviations? -/
def exceeds {R : Type} [Field R] [LinearOrder R] (k x : R) (d : Option R) : Prop := ∃ s, d = some s ∧ k * s < |x|

/-- The running median of odd or even width `w ≥ 2` of a sequence: the value in the middle of the `w` values from `w / 2` before a place,
in order; the sequence itself at places less than `w / 2` from an end. -/
def runningMedian {R : Type} [Zero R] [LinearOrder R] (w : ℕ) (x : List R) (i : ℕ) : R :=
  if w / 2 ≤ i ∧ i + w / 2 < x.length then
    (((List.range w).map fun j => x.getD (i - w / 2 + j) 0).insertionSort (· ≤ ·)).getD (w / 2) 0
  else x.getD i 0

end Spec

section Flag

variable {R : Type} [Field R] [LinearOrder R]

theorem devGt_iff (k x : R) (d : Option R) : devGt k x d = true ↔ Spec.exceeds k x d := by
  cases d with
  | none => simp [devGt, Spec.exceeds]
  | some s => simp [devGt, Spec.exceeds]

theorem devLe_iff (k x : R) (d : Option R) : devLe k x d = true ↔ Spec.within k x d := by
  cases d with
  | none => simp [devLe, Spec.within]
  | some s => simp [devLe, Spec.within]

/-- **C114** The rule for tiles (`k = 3`) and times (`k = 6`), in full: `first` are those with data, `second` are those within six deviations
of the median of the first or with data, and those are flagged that are more than `k` deviations of the second from the median of the
second or have no data. -/
theorem C114_tile_rule (std : List R → Option R) (k : R) (n : ℕ) (fom : ℕ → R) (cut : List ℕ) (h : fomCut std k n fom = .ok cut) :
    ∃ first second : List ℕ, ∃ m1 m2 : R, first.Pairwise (· < ·) ∧ second.Pairwise (· < ·) ∧
      (∀ i, i ∈ first ↔ i < n ∧ fom i ≠ 0) ∧ idlMedian (first.map fom) = .ok m1 ∧
      (∀ i, i ∈ second ↔ i < n ∧ (Spec.within 6 (m1 - fom i) (std (first.map fom)) ∨ fom i ≠ 0)) ∧
      idlMedian (second.map fom) = .ok m2 ∧
      ∀ i, i ∈ cut ↔ i < n ∧ (Spec.exceeds k (m2 - fom i) (std (second.map fom)) ∨ fom i = 0) := by
  unfold fomCut at h
  simp only [bind, Except.bind, pure, Except.pure] at h
  split at h
  · cases h
  · rename_i m1 h1
    split at h
    · cases h
    · rename_i m2 h2
      have h' := (Except.ok.inj h).symm
      refine ⟨_, _, m1, m2, List.pairwise_lt_range.filter _, List.pairwise_lt_range.filter _, ?_, h1, ?_, h2, ?_⟩
      · intro i; simp
      · intro i
        rw [List.mem_filter, List.mem_range, Bool.or_eq_true, devLe_iff, decide_eq_true_iff]
      · intro i
        rw [h', List.mem_filter, List.mem_range, Bool.or_eq_true, devGt_iff, decide_eq_true_iff]

omit [LinearOrder R] in
theorem slice_window (x : List R) (s w : ℕ) (h : s + w ≤ x.length) :
    slice x s (s + w) = (List.range w).map fun j => x.getD (s + j) 0 := by
  unfold slice
  apply List.ext_getElem
  · simp; omega
  · intro j h1 h2
    simp only [List.length_map, List.length_range] at h2
    simp only [List.getElem_drop, List.getElem_take, List.getElem_map, List.getElem_range]
    rw [List.getD_eq_getElem?_getD, List.getElem?_eq_getElem (by omega)]
    rfl

/-- The running median is that of the separate definition. -/
theorem idlMedianWidth_eq (w : ℕ) (hw : 2 ≤ w) (x : List R) : ∃ f, idlMedianWidth w x = .ok f ∧
    ∀ i, f i = Spec.runningMedian w x i := by
  unfold idlMedianWidth
  rw [if_neg (by omega)]
  refine ⟨_, rfl, fun i => ?_⟩
  unfold Spec.runningMedian
  by_cases hc : w / 2 ≤ i ∧ i + w / 2 < x.length
  · rw [if_pos hc, if_pos (by omega), slice_window _ _ _ (by omega)]
  · rw [if_neg hc, if_neg (by omega)]

/-- **C114** The rule for channels, in full, for forty channels or more: the distance is taken from the running median over a
twentieth of the channels, and the deviation is that of the distances. The first running median is over the channels with data only. -/
theorem C114_channel_rule (std : List R → Option R) (n : ℕ) (hn : 40 ≤ n) (fom : ℕ → R) :
    ∃ cut first second : List ℕ, freqCut std n fom = .ok cut ∧ first.Pairwise (· < ·) ∧ second.Pairwise (· < ·) ∧
      (∀ i, i ∈ first ↔ i < n ∧ fom i ≠ 0) ∧
      (∀ i, i ∈ second ↔ i < n ∧ (fom i ≠ 0 ∨ Spec.within 6 0 (std (first.map fun f =>
        fom f - Spec.runningMedian (n / 20) (first.map fom) (first.idxOf f))))) ∧
      ∀ i, i ∈ cut ↔ i < n ∧ (fom i = 0 ∨ Spec.exceeds 3 (Spec.runningMedian (n / 20) ((List.range n).map fom) i - fom i)
        (std (second.map fun f => fom f - Spec.runningMedian (n / 20) ((List.range n).map fom) f))) := by
  have hw : 2 ≤ n / 20 := by omega
  set first := (List.range n).filter fun i => decide (fom i ≠ 0) with hfirst
  have hmem : ∀ i, i ∈ first ↔ i < n ∧ fom i ≠ 0 := by intro i; simp [hfirst]
  obtain ⟨g1, e1, hg1⟩ := idlMedianWidth_eq (n / 20) hw (first.map fom)
  obtain ⟨g2, e2, hg2⟩ := idlMedianWidth_eq (n / 20) hw ((List.range n).map fom)
  have hres : (first.map fun f => fom f - (if f ∈ first then g1 (first.idxOf f) else 0)) =
      first.map fun f => fom f - Spec.runningMedian (n / 20) (first.map fom) (first.idxOf f) := by
    apply List.map_congr_left
    intro f hf
    rw [if_pos hf, hg1]
  have hg2' : g2 = Spec.runningMedian (n / 20) ((List.range n).map fom) := funext hg2
  set second := (List.range n).filter fun i => devLe 6 ((if i ∈ first then g1 (first.idxOf i) else 0) - fom i)
      (std (first.map fun f => fom f - Spec.runningMedian (n / 20) (first.map fom) (first.idxOf f))) || decide (fom i ≠ 0) with hsecond
  refine ⟨(List.range n).filter fun i => devGt 3 (g2 i - fom i) (std (second.map fun f => fom f - g2 f)) || decide (fom i = 0),
    first, second, ?_, List.pairwise_lt_range.filter _, List.pairwise_lt_range.filter _, hmem, ?_, ?_⟩
  · unfold freqCut
    simp only [bind, Except.bind, pure, Except.pure]
    rw [← hfirst, e1]
    simp only []
    rw [e2]
    simp only []
    rw [hres]
  · intro i
    rw [hsecond, List.mem_filter, List.mem_range, Bool.or_eq_true, devLe_iff, decide_eq_true_iff]
    constructor
    · rintro ⟨hi, h | h⟩
      · by_cases h0 : fom i = 0
        · rw [if_neg (by rw [hmem]; tauto), h0, sub_zero] at h
          exact ⟨hi, Or.inr h⟩
        · exact ⟨hi, Or.inl h0⟩
      · exact ⟨hi, Or.inl h⟩
    · rintro ⟨hi, h | h⟩
      · exact ⟨hi, Or.inr h⟩
      · by_cases h0 : fom i = 0
        · refine ⟨hi, Or.inl ?_⟩
          rw [if_neg (by rw [hmem]; tauto), h0, sub_zero]
          exact h
        · exact ⟨hi, Or.inr h0⟩
  · intro i
    rw [List.mem_filter, List.mem_range, Bool.or_eq_true, devGt_iff, decide_eq_true_iff, hg2']
    tauto

end Flag

/-- C114: a channel that stands out is flagged, and one that varies slowly is not. -/
example : freqCut (fun l : List ℚ => if l = [] then none else some ((l.map fun x => |x|).sum / l.length)) 60
    (fun f => if f = 20 then 80 else (f : ℚ) + 1) = .ok [20] := by decide +kernel

/-- C114: the rule for tiles on seven tiles, one without data. -/
example : fomCut (fun l : List ℚ => if l = [] then none else some ((l.map fun x => |x|).sum / (3 * l.length))) 3 7
    (fun f => if f = 2 then 0 else if f = 5 then 30 else (f : ℚ) + 1) = .ok [2, 5] := by decide +kernel

/-! ## C120: what a visibility adds to the spectral plane -/

section Spectral

variable {K : Type} [Field K] [StarRing K]

/-- **C120, as far as it holds**: a visibility that is alone in its bin adds, at a pixel of its kernel, the conjugate of the kernel times
frequency number times visibility to the data term, and the real parts of the conjugate of the kernel times the frequency number, and its
square, to the other terms. -/
theorem C120_single_partial (kern : ℕ → ℕ → ℕ → ℕ → K) (res : ℕ) (it : OptItem K) (nVis : K) (p : ℕ) :
    let b := optRowsOfBin kern res [it]
    let k := kern it.item.fbin it.item.y it.item.x p
    let re : K → K := fun z => (z + star z) / 2
    specABox nVis b p = star k * (it.freq * it.item.vis / nVis) ∧ specBBox nVis b p = re (star k * (it.freq / nVis)) ∧
      specDBox nVis b p = re (star k * ((it.freq : K) ^ 2 / nVis)) := by
  simp only [optRows_one, specABox, specBBox, specDBox, List.map_cons, List.map_nil, List.sum_cons, List.sum_nil, add_zero, and_self]

/-- **C120, as far as it holds**: with a single baseline the frequency number of a visibility is that of its channel. -/
theorem C120_frequency_partial (g : VisGridIn K) (o : GridOpts K) (hb : g.biUse.length = 1) (k : ℕ) (hk : k < g.fiUse.length) :
    g.fiUse.getD (g.optItem o k).freq 0 = Spec.chanOf g.toGridIn k := by
  have e : (g.optItem o k).freq = k := Nat.mod_eq_of_lt hk
  rw [e, Spec.chanOf, hb, Nat.div_one]

/-- **C120 fails**: with two baselines or more and two channels or more, the frequency number is not always that of the channel. The second
visibility of the gridded arrays belongs to the first channel and is counted for the second. -/
theorem C120_frequency_mixed (g : VisGridIn K) (o : GridOpts K) (hb : 2 ≤ g.biUse.length) (hf : 2 ≤ g.fiUse.length) :
    (g.optItem o 1).freq = 1 ∧ 1 < g.fiUse.length * g.biUse.length ∧ Spec.chanOf g.toGridIn 1 = g.fiUse.getD 0 0 := by
  refine ⟨Nat.mod_eq_of_lt hf, by nlinarith, ?_⟩
  rw [Spec.chanOf, Nat.div_eq_of_lt (by omega)]

end Spectral

/-- C120: a visibility `2 + i` of channel 3 and a kernel of `i`. -/
example : specABox 2 (optRowsOfBin (fun _ _ _ _ => Complex.I) 8 [⟨⟨1, 2, 0, 0, 2 + Complex.I⟩, 0, 3⟩]) 0 =
    star Complex.I * (3 * (2 + Complex.I) / 2) := by
  have := (C120_single_partial (fun _ _ _ _ => Complex.I) 8 ⟨⟨1, 2, 0, 0, 2 + Complex.I⟩, 0, 3⟩ 2 0).1
  simpa using this

/-! ## C133: the integral of the square -/

/-- **C133 fails** in the same way for the square: a single visibility adds the square of the first pixel, and the other channels keep
theirs. -/
theorem C133_square_first_pixel (psfDim res : ℕ) (hp : 0 < psfDim) (row : ℕ → ℂ) (f : ℕ) (s : BeamIntegrals) :
    ∃ s', beamIntegrals psfDim res [row] 0 [f] s = .ok s' ∧ s'.beam2 f = s.beam2 f + ‖row 0‖ ^ 2 / (res : ℝ) ^ 2 ∧
      ∀ g, g ≠ f → s'.beam2 g = s.beam2 g ∧ s'.beam g = s.beam g ∧ s'.count g = s.count g := by
  unfold beamIntegrals integralStep
  rw [if_neg (by have := Nat.mul_pos hp hp; omega)]
  unfold beamIntegrals
  refine ⟨_, rfl, by simp, fun g hg => ?_⟩
  simp [Function.update_of_ne hg]

/-! ## C139: the phases of the transform -/

/-- **C139, as far as it holds**: on a square plane, the phase of the transform of a single lobe is that of its place: a lobe
displaced from the centre turns the phases in proportion to the displacement. -/
theorem C139_phase_partial (n : ℕ) (l : Lobe ℝ) (hs : 0 ≤ l.sx * l.sy) :
    ∃ f, gaussianDecompFt n n (flatLobes [l]) none none = .ok f ∧ ∀ i j, f i j = (‖f i j‖ : ℂ) *
      Complex.exp (-(2 * Real.pi * Complex.I / n * ((l.ox - (n : ℂ) / 2) * (i - (n : ℂ) / 2) + (l.oy - (n : ℂ) / 2) * (j - (n : ℂ) / 2)))) := by
  unfold gaussianDecompFt
  rw [lobesOf_flat]
  refine ⟨_, rfl, fun i j => ?_⟩
  rw [transform_norm]
  have hpos : 0 ≤ l.amp ^ 2 * Real.pi / ((n : ℝ) * n) * l.sx * l.sy := by
    rw [mul_assoc]
    have := Real.pi_pos
    positivity
  simp only [Lobe.used, Lobe.after, Bool.false_eq_true, if_false]
  rw [abs_of_nonneg hpos]
  unfold Lobe.transform
  simp only []
  rw [Complex.ofReal_mul (_ * _ * _), mul_assoc ((_ : ℝ) : ℂ) ((Real.exp _ : ℝ) : ℂ), Complex.ofReal_exp, ← Complex.exp_add]
  congr 2
  push_cast
  ring

example : ∃ l : Lobe ℝ, 0 ≤ l.sx * l.sy ∧ l.ox ≠ 4 ∧ l.amp ≠ 0 := ⟨⟨1, 5, 2, 4, 3⟩, by norm_num, by norm_num, by norm_num⟩

/-! ## C152: the spectrum of a tile has no mean -/

theorem nanMeanR_some (l : List ℝ) (h : l ≠ []) : nanMeanR (l.map some) = some (l.sum / l.length) := by
  unfold nanMeanR
  have : (l.map some).filterMap id = l := by
    rw [List.filterMap_map]
    exact List.filterMap_some
  simp only [this]
  rw [if_neg h]

/-- **C152** The spectrum that is searched for a reflection is that of the tile divided by that of the others, less its mean over the
channels: it has mean zero, and two channels differ as they do in the ratio. -/
theorem C152_no_mean (c : ReflIn) (a : ℕ → ℕ → Option ℝ) (tile : ℕ) (hN : 0 < c.N) (x : ℕ → ℝ)
    (hx : ∀ f < c.N, c.autoShape a tile f = some (x f)) :
    ∃ r : ℕ → ℝ, (∀ f < c.N, c.resAuto a tile f = some (r f)) ∧ ((List.range c.N).map r).sum = 0 ∧
      ∀ f < c.N, ∀ g < c.N, r f - r g = x f - x g := by
  have hl : (List.range c.N).map (c.autoShape a tile) = ((List.range c.N).map x).map some := by
    rw [List.map_map]
    apply List.map_congr_left
    intro f hf
    rw [hx f (List.mem_range.1 hf)]
    rfl
  have hm : nanMeanR ((List.range c.N).map (c.autoShape a tile)) = some (((List.range c.N).map x).sum / c.N) := by
    rw [hl, nanMeanR_some _ (by simp; omega)]
    simp
  refine ⟨fun f => x f - ((List.range c.N).map x).sum / c.N, ?_, ?_, ?_⟩
  · intro f hf
    unfold ReflIn.resAuto
    rw [hm, hx f hf]
    rfl
  · have hN' : (c.N : ℝ) ≠ 0 := by exact_mod_cast hN.ne'
    have e : ∀ (s : ℝ) (l : List ℕ), (l.map fun f => x f - s).sum = (l.map x).sum - l.length * s := by
      intro s l
      induction l with
      | nil => simp
      | cons b t ih => simp only [List.map_cons, List.sum_cons, ih, List.length_cons]; push_cast; ring
    rw [e, List.length_range]
    field_simp
    ring
  · intro f _ g _
    ring

/-- C152: the ratio of two channels, with one other tile whose spectrum is flat. -/
example : ∃ (c : ReflIn) (a : ℕ → ℕ → Option ℝ) (x : ℕ → ℝ), 0 < c.N ∧ (∀ f < c.N, c.autoShape a 0 f = some (x f)) ∧
    x 0 ≠ x 1 := by
  refine ⟨⟨2, 2, [0, 1], fun _ => true, fun t => t + 1, fun _ _ => 1, fun _ _ => 1, none⟩,
    fun f t => if f = 0 ∧ t = 0 then some 3 else some 1, fun f => if f = 0 then 3 / 2 else 1 / 2, by norm_num, ?_, by norm_num⟩
  have ho : ReflIn.others ⟨2, 2, [0, 1], fun _ => true, fun t => (t : ℝ) + 1, fun _ _ => 1, fun _ _ => 1, none⟩ 1 = [1] := by
    unfold ReflIn.others
    simp [List.range_succ, List.filter_cons]
    norm_num
  intro f hf
  unfold ReflIn.autoShape
  simp only [Nat.cast_zero, zero_add]
  rw [ho]
  unfold ReflIn.normAuto
  have h2 : f = 0 ∨ f = 1 := by
    simp only [] at hf
    omega
  rcases h2 with rfl | rfl <;> simp [optDiv, copiedRow, nanMeanR, List.range_succ] <;> norm_num

/-! ## C113: tiles that are cut -/

/-- **C113 needs** a name for every tile that is cut. -/
theorem C113_names {R : Type} [Field R] [LinearOrder R] (v : VfIn R) (w : Weights) (o : VfOut) (h : v.visFlag w = .ok o) (t : ℕ)
    (ht : o.tileUse t ≠ v.obs.tileUse t) : t < v.obs.tileNames.length ∧ t < v.obs.nTile := by
  unfold VfIn.visFlag at h
  split at h
  · cases h
  · simp only [bind, Except.bind, pure, Except.pure] at h
    split at h
    · cases h
    · split at h
      · cases h
      · rename_i tiles _
        split at h
        · cases h
        · split at h
          · cases h
          · rename_i hany
            split at h
            · cases h
            · split at h
              · cases h
              · obtain rfl := Except.ok.inj h
                simp only [ne_eq] at ht
                by_cases hm : t ∈ tiles
                · simp only [List.any_eq_true, not_exists, not_and] at hany
                  have := hany t hm
                  simpa [not_or] using this
                · rw [if_neg hm] at ht
                  exact absurd rfl ht

/-- C113: a run that cuts the first tile, which has a name. -/
example : ∃ o, (exVf 0).visFlag (fun _ _ b => if b ∈ [0, 1, 2, 3, 10, 11, 12, 13] then 0 else 1) = .ok o ∧
    o.tileUse 0 ≠ (exVf 0).obs.tileUse 0 := by
  have h : ((exVf 0).visFlag (fun _ _ b => if b ∈ [0, 1, 2, 3, 10, 11, 12, 13] then 0 else 1)).map (fun o => o.tileUse 0) = .ok 0 := by
    decide +kernel
  cases hv : (exVf 0).visFlag (fun _ _ b => if b ∈ [0, 1, 2, 3, 10, 11, 12, 13] then 0 else 1) with
  | error e => rw [hv] at h; cases h
  | ok o =>
    rw [hv] at h
    refine ⟨o, rfl, ?_⟩
    have : o.tileUse 0 = 0 := Except.ok.inj h
    rw [this]
    decide

/-! ## C132: the threshold of clipping -/

theorem foldr_max_le (l : List ℝ) (b : ℝ) (hb : 0 ≤ b) (h : ∀ x ∈ l, x ≤ b) : l.foldr max 0 ≤ b := by
  induction l with
  | nil => exact hb
  | cons a t ih => exact max_le (h a (by simp)) (ih fun x hx => h x (by simp [hx]))

theorem le_foldr_max (l : List ℝ) : ∀ x ∈ l, x ≤ l.foldr max 0 := by
  induction l with
  | nil => simp
  | cons a t ih =>
    intro x hx
    rcases List.mem_cons.1 hx with rfl | hx
    · exact le_max_left _ _
    · exact (ih x hx).trans (le_max_right _ _)

/-- **C132** The threshold of clipping refers to the largest absolute value of all pixels of all kernels. -/
theorem C132_threshold (c : BpbIn) (rows : List (ℕ → ℂ)) :
    (∀ r ∈ rows, ∀ k < c.psfDim * c.psfDim, ‖r k‖ ≤ c.maxAmp rows) ∧
    ∀ b : ℝ, 0 ≤ b → (∀ r ∈ rows, ∀ k < c.psfDim * c.psfDim, ‖r k‖ ≤ b) → c.maxAmp rows ≤ b := by
  unfold BpbIn.maxAmp
  constructor
  · intro r hr k hk
    refine le_trans ?_ (le_foldr_max _ _ (List.mem_map.2 ⟨r, hr, rfl⟩))
    exact le_foldr_max _ _ (List.mem_map.2 ⟨k, List.mem_range.2 hk, rfl⟩)
  · intro b hb h
    refine foldr_max_le _ _ hb fun x hx => ?_
    obtain ⟨r, hr, rfl⟩ := List.mem_map.1 hx
    refine foldr_max_le _ _ hb fun y hy => ?_
    obtain ⟨k, hk, rfl⟩ := List.mem_map.1 hy
    exact h r hr k (List.mem_range.1 hk)

/-- C132: the largest value of two kernels with four pixels each is 4. -/
example : exBpb.maxAmp exRows = 4 ∧ exRows.length = 2 := by
  have := exRows_max
  rw [show exBpb.maskThreshold = 2 from rfl] at this
  exact ⟨by linarith, rfl⟩

/-! ## C120: symmetry of the spectral plane -/

/-- **C120** Unless conjugation is turned off, the spectral plane is the mean of the plane without conjugation and its conjugated mirror. -/
theorem C120_symmetric {K : Type} [Field K] [StarRing K] [CharZero K] (g : VisGridIn K) (o : GridOpts K) (hn : g.noConjugate = false) (r : OptOut K)
    (h : visGridOpts g o = .ok (some r)) :
    ∃ r0, visGridOpts { g with noConjugate := true } o = .ok (some r0) ∧ ∀ y < g.elements, ∀ x < g.dimension,
      r.spectral y x = (r0.spectral y x + star (r0.spectral ((g.elements - y) % g.elements) ((g.dimension - x) % g.dimension))) / 2 := by
  unfold visGridOpts at h ⊢
  cases hb : gridBins g.toGridIn with
  | error e => rw [hb] at h; cases h
  | ok x =>
    rw [hb] at h
    simp only [bind, Except.bind, pure, Except.pure] at h ⊢
    cases x with
    | none => cases h
    | some b =>
      simp only [] at h ⊢
      split at h
      · cases h
      · rename_i h1
        rw [if_neg h1]
        split at h
        · cases h
        · rename_i h2
          rw [if_neg h2]
          refine ⟨_, rfl, ?_⟩
          have h' := Option.some.inj (Except.ok.inj h)
          rw [← h']
          intro y hy x hx
          simp only [hn, if_true, Bool.false_eq_true, if_false]
          unfold symmetrise
          rw [C23_mirror_entry true _ _ _ y x hy hx, if_pos rfl]
          simp only [negIdx, Nat.mod_eq_of_lt hy, Nat.mod_eq_of_lt hx]
          rfl

/-! ## C127: what is solved -/

section Solved

variable {K R : Type} [Field K] [StarRing K] [DecidableEq K] [Field R] [LinearOrder R] [IsStrictOrderedRing R]

/-- A baseline within the limits has an unflagged sample at a channel. -/
def Spec.HasData (c : CalRunIn K R) (p f b : ℕ) : Prop := c.isCut f b = false ∧ ∃ s ∈ c.samplesOf b, 0 < c.weight p f s

theorem blWeight_nonneg (c : CalRunIn K R) (p f b : ℕ) : 0 ≤ c.blWeight p f b := by
  unfold CalRunIn.blWeight
  split
  · exact le_rfl
  · apply List.sum_nonneg
    intro x hx
    obtain ⟨s, -, rfl⟩ := List.mem_map.1 hx
    exact le_min (le_max_right _ _) zero_le_one

theorem list_sum_pos_iff (l : List R) (h : ∀ x ∈ l, 0 ≤ x) : 0 < l.sum ↔ ∃ x ∈ l, 0 < x := by
  induction l with
  | nil => simp
  | cons a t ih =>
    have ha := h a (by simp)
    have ht := List.sum_nonneg (l := t) fun x hx => h x (by simp [hx])
    have iht := ih fun x hx => h x (by simp [hx])
    rw [List.sum_cons]
    constructor
    · intro hp
      rcases lt_or_eq_of_le ha with h0 | h0
      · exact ⟨a, by simp, h0⟩
      · obtain ⟨x, hx, hx0⟩ := iht.1 (by rw [← h0, zero_add] at hp; exact hp)
        exact ⟨x, by simp [hx], hx0⟩
    · rintro ⟨x, hx, hx0⟩
      rcases List.mem_cons.1 hx with rfl | hx
      · exact add_pos_of_pos_of_nonneg hx0 ht
      · exact add_pos_of_nonneg_of_pos ha (iht.2 ⟨x, hx, hx0⟩)

theorem blWeight_pos (c : CalRunIn K R) (p f b : ℕ) : 0 < c.blWeight p f b ↔ Spec.HasData c p f b := by
  unfold Spec.HasData CalRunIn.blWeight
  cases hc : c.isCut f b with
  | true => simp
  | false =>
    simp only [Bool.false_eq_true, if_false, true_and]
    rw [list_sum_pos_iff]
    · constructor
      · rintro ⟨x, hx, h0⟩
        obtain ⟨s, hs, rfl⟩ := List.mem_map.1 hx
        refine ⟨s, hs, ?_⟩
        have := (lt_min_iff.1 h0).1
        rcases lt_max_iff.1 this with h' | h'
        · exact h'
        · exact absurd h' (lt_irrefl _)
      · rintro ⟨s, hs, h0⟩
        exact ⟨_, List.mem_map.2 ⟨s, hs, rfl⟩, lt_min (lt_max_of_lt_left h0) zero_lt_one⟩
    · intro x hx
      obtain ⟨s, -, rfl⟩ := List.mem_map.1 hx
      exact le_min (le_max_right _ _) zero_le_one

/-- **C127** Channels are solved for if they are in use and have data; baselines enter if they have data at some channel; and tiles are
solved for if they are in use and belong to such a baseline. Everything solved for is what the solver returned. -/
theorem C127_solved (c : CalRunIn K R) (p : ℕ) (r : CalRunPol K R) (h : calRunPol c p = .ok (some r)) :
    (∀ b, b ∈ c.bls p ↔ b < c.nB ∧ ∃ f < c.nFreq, Spec.HasData c p f b) ∧
    ∃ tiles : List ℕ, (∀ t, t ∈ tiles ↔ t < c.nTile ∧ c.tileUse t = true ∧ ∃ b ∈ c.bls p, c.tileA b = t ∨ c.tileB b = t) ∧
      ∀ f < c.nFreq, c.freqUse f = true → (∃ b < c.nB, Spec.HasData c p f b) →
        ∃ o, solve (c.solveIn p f) (tiles.map (c.gain p f)) = .ok (some o) ∧ ∀ (i : ℕ) (t : ℕ), tiles[i]? = some t →
          r.gain f t = o.gain[i]? ∧ r.iter f t = o.iter ∧ r.convergence f t = o.convergence.getD i 0 := by
  refine ⟨fun b => ?_, ?_⟩
  · unfold CalRunIn.bls
    rw [List.mem_filter, List.mem_range, decide_eq_true_eq]
    refine and_congr_right fun _ => ?_
    have hn : ∀ x ∈ (List.range c.nFreq).map fun f => c.blWeight p f b, 0 ≤ x := by
      intro x hx
      obtain ⟨f, -, rfl⟩ := List.mem_map.1 hx
      exact blWeight_nonneg c p f b
    have : ((List.range c.nFreq).map fun f => c.blWeight p f b).sum ≠ 0 ↔ 0 < ((List.range c.nFreq).map fun f => c.blWeight p f b).sum :=
      ⟨fun h => lt_of_le_of_ne (List.sum_nonneg hn) (Ne.symm h), fun h => h.ne'⟩
    rw [this, list_sum_pos_iff _ hn]
    constructor
    · rintro ⟨x, hx, h0⟩
      obtain ⟨f, hf, rfl⟩ := List.mem_map.1 hx
      exact ⟨f, List.mem_range.1 hf, (blWeight_pos c p f b).1 h0⟩
    · rintro ⟨f, hf, h0⟩
      exact ⟨_, List.mem_map.2 ⟨f, List.mem_range.2 hf, rfl⟩, (blWeight_pos c p f b).2 h0⟩
  · obtain ⟨ht, O, hr, hO⟩ := calRunPol_ok c p r h
    refine ⟨c.tiles p, fun t => ?_, fun f hf hu ⟨b, hb, hd⟩ => ?_⟩
    · rw [mem_tiles c p t, and_comm (a := ∃ b ∈ c.bls p, _)]
    · have hmem : f ∈ c.freqs p := by
        unfold CalRunIn.freqs
        rw [List.mem_filter, List.mem_range]
        refine ⟨hf, ?_⟩
        rw [hu, Bool.and_true, decide_eq_true_eq, list_sum_pos_iff]
        · exact ⟨_, List.mem_map.2 ⟨b, List.mem_range.2 hb, rfl⟩, (blWeight_pos c p f b).2 hd⟩
        · intro x hx
          obtain ⟨b', -, rfl⟩ := List.mem_map.1 hx
          exact blWeight_nonneg c p f b'
      refine ⟨O f, hO f hmem, fun i t hi => ?_⟩
      obtain ⟨hil, hit⟩ := List.getElem?_eq_some_iff.1 hi
      have htm : t ∈ c.tiles p := List.mem_of_getElem? hi
      have hidx : (c.tiles p).idxOf t = i := by
        rw [← hit]
        exact (tiles_nodup c p).idxOf_getElem i hil
      rw [hr]
      unfold runPolOf
      simp only [htm, hmem, and_self, if_true, hidx]
      rw [and_true, if_neg]
      rintro ⟨-, hn⟩
      have h5 := ((nanTile_iff c p t).1 hn).2
      rw [((mem_tiles c p t).1 htm).2.2] at h5
      cases h5

/-! ## C181: the number of converged channels -/

/-- The iteration converged at `i`: the largest change is within the threshold; or the mean change is not smaller than before, and it or the
one before is within the threshold. The first iterations do not count. -/
def Spec.ConvergedAt (phase : ℕ) (thresh : R) (stricts looses : List R) (i : ℕ) : Prop :=
  phase + 3 < i ∧ (stricts.getD i 0 ≤ thresh ∨
    looses.getD (i - 1) 0 ≤ looses.getD i 0 ∧ (looses.getD i 0 ≤ thresh ∨ looses.getD (i - 1) 0 ≤ thresh))

theorem convergedAt_stopAt (phase : ℕ) (thresh : R) (stricts looses : List R) (i : ℕ)
    (h : Spec.ConvergedAt phase thresh stricts looses i) : Spec.StopAt phase thresh stricts looses i := by
  obtain ⟨h1, h2 | ⟨h2, h3 | h3⟩⟩ := h
  · exact ⟨h1, Or.inl h2⟩
  · exact ⟨h1, Or.inr ⟨h2, Or.inl h3⟩⟩
  · exact ⟨h1, Or.inr ⟨h2, Or.inr (Or.inl h3)⟩⟩

theorem stopTest_converged (s : SolveIn K R) (i : ℕ) (stricts looses : List R) (strict loose : R)
    (h1 : stricts.length = i) (h2 : looses.length = i) :
    (∃ st, stopTest s i stricts strict loose (looses.getLastD 0) = some st ∧ st.isConverged = true) ↔
      Spec.ConvergedAt s.phaseIter s.thresh (stricts ++ [strict]) (looses ++ [loose]) i := by
  unfold stopTest Spec.ConvergedAt
  by_cases hi : s.phaseIter + 3 < i
  swap
  · simp [hi]
  rw [if_pos hi, getLastD_getD]
  have e1 : (stricts ++ [strict]).getD i 0 = strict := by rw [← h1]; exact getD_append_len _ _ _
  have e2 : (looses ++ [loose]).getD i 0 = loose := by rw [← h2]; exact getD_append_len _ _ _
  have e3 : (looses ++ [loose]).getD (i - 1) 0 = looses.getD (i - 1) 0 := getD_append_lt _ _ _ _ (by omega)
  rw [e1, e2, e3, h2]
  simp only [hi, true_and]
  by_cases a1 : strict ≤ s.thresh
  · simp [a1, SolveStop.isConverged]
  rw [if_neg a1]
  by_cases a2 : looses.getD (i - 1) 0 ≤ loose
  swap
  · rw [if_neg a2]
    simp only [a1, a2, false_and, or_self, iff_false]
    rintro ⟨st, hst, -⟩
    cases hst
  rw [if_pos a2]
  by_cases a3 : loose ≤ s.thresh ∨ looses.getD (i - 1) 0 ≤ s.thresh
  · rw [if_pos a3]
    simp only [Option.some.injEq, exists_eq_left', SolveStop.isConverged, a1, false_or, a2, a3, and_self]
  · rw [if_neg a3]
    simp only [a1, a2, a3, and_false, or_self, iff_false]
    rintro ⟨st, hst, hc⟩
    generalize ((match idlMedian (slice stricts (i - 4) i) with | .ok m => decide (m ≤ strict) | .error _ => false) ||
      stricts.any fun c => decide (c * (3 / 2) ≤ strict)) = t at hst
    cases t <;> simp at hst
    rw [← hst] at hc
    cases hc

/-- **C181** The number of converged channels is the number of channels solved for whose last iteration converged. -/
theorem C181_converged (c : CalRunIn K R) (p : ℕ) (r : CalRunPol K R) (h : calRunPol c p = .ok (some r)) :
    ∃ (tiles : List ℕ) (O : ℕ → SolveOut K R) (chans : List ℕ), chans.Pairwise (· < ·) ∧
      (∀ f, f ∈ chans ↔ f < c.nFreq ∧ c.freqUse f = true ∧ (∃ b < c.nB, Spec.HasData c p f b) ∧
        Spec.ConvergedAt (c.solveIn p f).phaseIter (c.solveIn p f).thresh (O f).stricts (O f).looses ((O f).stricts.length - 1)) ∧
      (∀ f < c.nFreq, c.freqUse f = true → (∃ b < c.nB, Spec.HasData c p f b) →
        solve (c.solveIn p f) (tiles.map (c.gain p f)) = .ok (some (O f))) ∧
      (c.solveIn p 0).thresh = c.thresh ∧ r.nConverged = chans.length := by
  obtain ⟨ht, O, hr, hO⟩ := calRunPol_ok c p r h
  have hfreq : ∀ f, f ∈ c.freqs p ↔ f < c.nFreq ∧ c.freqUse f = true ∧ ∃ b < c.nB, Spec.HasData c p f b := by
    intro f
    unfold CalRunIn.freqs
    rw [List.mem_filter, List.mem_range, Bool.and_eq_true, decide_eq_true_eq, list_sum_pos_iff]
    · refine and_congr_right fun _ => ?_
      rw [and_comm]
      refine and_congr_right fun _ => ?_
      constructor
      · rintro ⟨x, hx, h0⟩
        obtain ⟨b, hb, rfl⟩ := List.mem_map.1 hx
        exact ⟨b, List.mem_range.1 hb, (blWeight_pos c p f b).1 h0⟩
      · rintro ⟨b, hb, h0⟩
        exact ⟨_, List.mem_map.2 ⟨b, List.mem_range.2 hb, rfl⟩, (blWeight_pos c p f b).2 h0⟩
    · intro x hx
      obtain ⟨b', -, rfl⟩ := List.mem_map.1 hx
      exact blWeight_nonneg c p f b'
  have key : ∀ f ∈ c.freqs p, (O f).stop.isConverged = true ↔
      Spec.ConvergedAt (c.solveIn p f).phaseIter (c.solveIn p f).thresh (O f).stricts (O f).looses ((O f).stricts.length - 1) := by
    intro f hf
    obtain ⟨hm, i, gain', hist, stricts, looses, hs, hl, hi, hb, hlast⟩ := solve_last _ _ _ (hO f hf)
    rcases hlast with ⟨g, hstep, he⟩ | ⟨curr, cg, strict, loose, hstep, e1, e2, e3, e4, e5, e6⟩
    · rw [he]
      simp only [SolveStop.isConverged, Bool.false_eq_true, false_iff]
      intro hc
      have h0 : 0 < i := by have := hc.1; omega
      exact hb (stricts.length - 1) (by omega) (convergedAt_stopAt _ _ _ _ _ hc)
    · rw [e1, e2, List.length_append, List.length_singleton, Nat.add_sub_cancel, hs,
        ← stopTest_converged _ i stricts looses strict loose hs hl]
      constructor
      · intro hc
        rcases e6 with e6 | ⟨-, -, e6⟩
        · exact ⟨_, e6, hc⟩
        · rw [e6] at hc; cases hc
      · rintro ⟨st, hst, hc⟩
        rcases e6 with e6 | ⟨e7, -, -⟩
        · rw [hst] at e6
          rw [← Option.some.inj e6]
          exact hc
        · rw [hst] at e7; cases e7
  refine ⟨c.tiles p, O, (c.freqs p).filter fun f => (O f).stop.isConverged, ?_, ?_, ?_, rfl, ?_⟩
  · exact (List.pairwise_lt_range.filter _).filter _
  · intro f
    rw [List.mem_filter]
    constructor
    · rintro ⟨h1, h2⟩
      obtain ⟨a, b, d⟩ := (hfreq f).1 h1
      exact ⟨a, b, d, (key f h1).1 h2⟩
    · rintro ⟨a, b, d, e⟩
      have h1 := (hfreq f).2 ⟨a, b, d⟩
      exact ⟨h1, (key f h1).2 e⟩
  · intro f h1 h2 h3
    exact hO f ((hfreq f).2 ⟨h1, h2, h3⟩)
  · rw [hr]
    unfold runPolOf
    simp only [List.filter_map, List.length_map]
    rfl

end Solved

/-- C127 and C181: a run that returns, with data at the first channel. -/
example : exRunShow (exRun 1) ≠ none ∧ (exRun 1).freqUse 0 = true ∧ (exRun 1).isCut 0 1 = false ∧
    ∃ s ∈ (exRun 1).samplesOf 1, 0 < (exRun 1).weight 0 0 s := by decide +kernel

/-! ## C112: the tiles that are looked at -/

theorem foldl_max_ge (l : List ℤ) (d : ℤ) : d ≤ l.foldl max d ∧ ∀ x ∈ l, x ≤ l.foldl max d := by
  induction l generalizing d with
  | nil => exact ⟨le_refl _, by simp⟩
  | cons a l ih =>
    obtain ⟨h1, h2⟩ := ih (max d a)
    refine ⟨le_trans (le_max_left _ _) h1, fun x hx => ?_⟩
    rcases List.mem_cons.1 hx with rfl | hx
    · exact le_trans (le_max_right _ _) h1
    · exact h2 x hx

theorem maxZ_ge {l : List ℤ} {m : ℤ} (h : maxZ? l = some m) (x : ℤ) (hx : x ∈ l) : x ≤ m := by
  cases l with
  | nil => cases h
  | cons d ds =>
    obtain rfl := Option.some.inj h
    rcases List.mem_cons.1 hx with rfl | hx
    · exact (foldl_max_ge ds x).1
    · exact (foldl_max_ge ds d).2 x hx

/-- Every tile of a baseline is looked at, as the first or as the second tile. -/
theorem C112_tiles_considered {R : Type} (v : VfIn R) (nt : ℕ) (h : v.nTilesUse = some nt) (t : ℕ)
    (ht : ((t : ℤ) + 1) ∈ v.obs.tileA ∨ ((t : ℤ) + 1) ∈ v.obs.tileB) : t < nt := by
  unfold VfIn.nTilesUse at h
  split at h
  · rename_i a b ha hb
    have h' := Option.some.inj h
    rcases ht with ht | ht
    · have := maxZ_ge ha _ ht
      have := le_max_left a b
      omega
    · have := maxZ_ge hb _ ht
      have := le_max_right a b
      omega
  · cases h

/-! ## C151: the mode of a tile that is selected -/

/-- **C151**: a tile whose cable is to be fitted and has the length asked for, or not the length excluded, has the mode of a
reflection in its cable: the bandwidth times the time of the way to and fro. -/
theorem C151_mode_of_cable (c0 : ℝ) (freqs : List ℝ) (theory : ℝ) (autos : Bool) (k : Cable) (hflag : 1 ≤ k.flag)
    (h : autos = true ∨ |theory| ≤ 1 ∨ (1 < theory ∧ k.length = theory) ∨ (theory < -1 ∧ k.length ≠ -theory)) :
    nominalMode c0 freqs theory autos k = bandOf freqs * (2 * k.length / (c0 * k.vf)) := by
  have hf : cableFactor (modeFitOf theory) autos k = 1 := by
    unfold cableFactor modeFitOf
    rcases h with h | h | ⟨h1, h2⟩ | ⟨h1, h2⟩
    · subst h
      by_cases h1 : 1 < |theory| <;> simp [h1]
    · rw [if_neg (not_lt.2 h)]
    · rw [if_pos (by rw [abs_of_pos (by linarith)]; exact h1)]
      have : theory > 0 := by linarith
      simp [this, h2]
    · have h5 : |theory| = -theory := abs_of_neg (by linarith)
      rw [if_pos (by rw [h5]; linarith)]
      have h4 : ¬theory > 0 := by linarith
      simp [h4, h5, h2]
  unfold nominalMode theoryMode
  rw [hf, max_eq_right (by linarith), min_eq_right hflag]
  ring

example : (1 : ℝ) ≤ (⟨90, 1, 1⟩ : Cable).flag ∧ (1 : ℝ) < 90 ∧ (⟨90, 1, 1⟩ : Cable).length = 90 := by norm_num

/-! ## C131: each visibility its own kernel -/

theorem mapM_ok_get {α β : Type} (f : α → Py β) : ∀ (l : List α) (r : List β), l.mapM f = .ok r →
    ∀ (i : ℕ) (x : α), l[i]? = some x → ∃ y, r[i]? = some y ∧ f x = .ok y := by
  intro l
  induction l with
  | nil => intro r _ i x h; cases i <;> cases h
  | cons a l ih =>
    intro r h i x hi
    rw [List.mapM_cons] at h
    simp only [bind, Except.bind, pure, Except.pure] at h
    cases ha : f a with
    | error e => rw [ha] at h; cases h
    | ok y =>
      rw [ha] at h
      simp only [] at h
      cases hr : l.mapM f with
      | error e => rw [hr] at h; cases h
      | ok r' =>
        rw [hr] at h
        obtain rfl := Except.ok.inj h
        cases i with
        | zero =>
          rw [List.getElem?_cons_zero] at hi
          obtain rfl := Option.some.inj hi
          exact ⟨y, rfl, ha⟩
        | succ i =>
          rw [List.getElem?_cons_succ] at hi
          exact ih r' hr i x hi

/-- **C131**: in a group of visibilities each gets the kernel of its own baseline and channel. -/
theorem C131_own_kernel (c : BpbIn) (hc : c.clipFloor = false) (vis : List (ℕ × ℕ)) (rows : List (ℕ → Option ℂ))
    (h : c.box vis = .ok rows) (i f b : ℕ) (hi : vis[i]? = some (f, b)) :
    ∃ v, c.kernel b f = .ok v ∧ rows[i]? = some fun k => some (v k) := by
  unfold BpbIn.box at h
  simp only [bind, Except.bind, pure, Except.pure] at h
  cases hm : vis.mapM fun v => c.kernel v.2 v.1 with
  | error e => rw [hm] at h; cases h
  | ok r =>
    rw [hm] at h
    obtain ⟨v, hv, hk⟩ := mapM_ok_get _ _ _ hm i (f, b) hi
    refine ⟨v, hk, ?_⟩
    obtain rfl := Except.ok.inj h
    rw [C132_no_clip c hc, List.getElem?_map, hv]
    rfl

end PyFHD
