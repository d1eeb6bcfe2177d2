import Verif.Model.QUMix
import Verif.Props.CalAuto

/-!
# C90: the mixing angle of Stokes Q and U
-/

namespace PyFHD

variable {R K : Type} [Field R] [LinearOrder R] [IsStrictOrderedRing R] [Field K]

namespace Spec

/-- Sum of the squared distances of `q` from `a * u + b`. -/
def LineResidual (nsq : K → R) (us qs : List K) (a b : K) : R :=
  ((us.zip qs).map fun p => nsq (a * p.1 + b - p.2)).sum

/-- What `np.linalg.lstsq` promises: slope and offset with the least sum of squared distances. -/
def LeastLine (nsq : K → R) (lstsq : List K → List K → K × K) : Prop :=
  ∀ us qs, us.length = qs.length → ∀ a b,
    LineResidual nsq us qs (lstsq us qs).1 (lstsq us qs).2 ≤ LineResidual nsq us qs a b

/-- The squared absolute value. -/
structure IsSqNorm (nsq : K → R) : Prop where
  nonneg : ∀ x, 0 ≤ nsq x
  zero : ∀ x, nsq x = 0 ↔ x = 0

/-- Pseudo Stokes Q and U of one sample. -/
def stokesQ (v : ℕ → ℕ → ℕ → K) (f s : ℕ) : K := v 1 f s - v 0 f s
def stokesU (v : ℕ → ℕ → ℕ → K) (f s : ℕ) : K := v 2 f s + v 3 f s

/-- A sample is used: its weight is positive. -/
def SampleUsed (c : QUIn R K) (f t b : ℕ) : Prop :=
  f < c.nFreq ∧ t < c.nTime ∧ b < c.nBase ∧ 0 < c.w f (t * c.nBase + b)

end Spec

theorem quWeight_nonneg (c : QUIn R K) (f s : ℕ) : 0 ≤ quWeight c f s := by
  unfold quWeight
  exact le_min (le_max_right _ _) zero_le_one

theorem quWeight_pos (c : QUIn R K) (f s : ℕ) : 0 < quWeight c f s ↔ 0 < c.w f s := by
  unfold quWeight
  rw [lt_min_iff, lt_max_iff]
  constructor
  · rintro ⟨h | h, _⟩
    · exact h
    · exact absurd h (lt_irrefl _)
  · intro h; exact ⟨Or.inl h, zero_lt_one⟩

theorem quWeight_zero (c : QUIn R K) (f s : ℕ) (h : ¬ 0 < c.w f s) : quWeight c f s = 0 :=
  le_antisymm (not_lt.mp fun h' => h ((quWeight_pos c f s).mp h')) (quWeight_nonneg c f s)

/-- The cells that enter the fit are those with a used sample. -/
theorem mem_quCells (c : QUIn R K) (f b : ℕ) :
    (f, b) ∈ quCells c ↔ ∃ t, Spec.SampleUsed c f t b := by
  unfold quCells
  rw [List.mem_filter, List.mem_flatMap]
  simp only [List.mem_map, List.mem_range, Prod.mk.injEq, decide_eq_true_eq, Spec.SampleUsed]
  have hsum : quTotal c f b ≠ 0 ↔ ∃ t, t < c.nTime ∧ 0 < c.w f (t * c.nBase + b) := by
    unfold quTotal
    constructor
    · intro h
      by_contra hn
      push Not at hn
      apply h
      refine List.sum_eq_zero ?_
      intro x hx
      obtain ⟨t, ht, rfl⟩ := List.mem_map.mp hx
      exact quWeight_zero c _ _ (not_lt.mpr (hn t (List.mem_range.mp ht)))
    · rintro ⟨t, ht, hw⟩ h0
      have h1 := List.single_le_sum (l := (List.range c.nTime).map fun t =>
        quWeight c f (t * c.nBase + b)) (by
          intro x hx
          obtain ⟨t, _, rfl⟩ := List.mem_map.mp hx
          exact quWeight_nonneg c _ _) _ (List.mem_map.mpr ⟨t, List.mem_range.mpr ht, rfl⟩)
      rw [h0] at h1
      exact absurd ((quWeight_pos c f _).mpr hw) (not_lt.mpr h1)
  rw [hsum]
  constructor
  · rintro ⟨⟨f', hf, b', hb, rfl, rfl⟩, t, ht, hw⟩
    exact ⟨t, hf, ht, hb, hw⟩
  · rintro ⟨t, hf, ht, hb, hw⟩
    exact ⟨⟨f, hf, b, hb, rfl, rfl⟩, t, ht, hw⟩

theorem quSum_congr (c : QUIn R K) (h0 : c.cast 0 = 0) (u v : ℕ → ℕ → K) (f b : ℕ)
    (hf : f < c.nFreq) (hb : b < c.nBase)
    (h : ∀ t, Spec.SampleUsed c f t b → u f (t * c.nBase + b) = v f (t * c.nBase + b)) :
    quSum c u f b = quSum c v f b := by
  unfold quSum
  congr 1
  refine List.map_congr_left ?_
  intro t ht
  by_cases hw : 0 < c.w f (t * c.nBase + b)
  · rw [h t ⟨hf, List.mem_range.mp ht, hb, hw⟩]
  · rw [quWeight_zero c _ _ hw, h0, mul_zero, mul_zero]

/-- C90: flagged samples have no influence: data and model may change at will where the weight is not
positive. -/
theorem C90_flagged_ignored (c : QUIn R K) (h0 : c.cast 0 = 0) (vis' model' : ℕ → ℕ → ℕ → K)
    (hv : ∀ f t b, Spec.SampleUsed c f t b → ∀ p < 4,
      c.vis p f (t * c.nBase + b) = vis' p f (t * c.nBase + b))
    (hm : ∀ f t b, Spec.SampleUsed c f t b → ∀ p < 4,
      c.model p f (t * c.nBase + b) = model' p f (t * c.nBase + b)) :
    quMixing { c with vis := vis', model := model' } = quMixing c := by
  have key : ∀ v v' : ℕ → ℕ → ℕ → K, (∀ f t b, Spec.SampleUsed c f t b → ∀ p < 4,
      v p f (t * c.nBase + b) = v' p f (t * c.nBase + b)) → quSlope c v' = quSlope c v := by
    intro v v' h
    unfold quSlope
    congr 2
    · refine List.map_congr_left ?_
      rintro ⟨f, b⟩ hx
      obtain ⟨t, ht⟩ := (mem_quCells c f b).mp hx
      refine quSum_congr c h0 _ _ f b ht.1 ht.2.2.1 ?_
      intro t' ht'
      simp only [h f t' b ht' 3 (by decide), h f t' b ht' 2 (by decide)]
    · refine List.map_congr_left ?_
      rintro ⟨f, b⟩ hx
      obtain ⟨t, ht⟩ := (mem_quCells c f b).mp hx
      refine quSum_congr c h0 _ _ f b ht.1 ht.2.2.1 ?_
      intro t' ht'
      simp only [h f t' b ht' 1 (by decide), h f t' b ht' 0 (by decide)]
  have e1 : quSlope { c with vis := vis', model := model' } model' = quSlope c model' := rfl
  have e2 : quSlope { c with vis := vis', model := model' } vis' = quSlope c vis' := rfl
  unfold quMixing
  simp only [e1, e2, key _ _ hv, key _ _ hm]

/-- The slope of points on a line is the slope of the line. -/
theorem line_slope (nsq : K → R) (hn : Spec.IsSqNorm nsq) (lstsq : List K → List K → K × K)
    (hls : Spec.LeastLine nsq lstsq) (α : Type) (l : List α) (u q : α → K) (a b : K)
    (hline : ∀ x ∈ l, q x = a * u x + b) (hvar : ∃ x ∈ l, ∃ y ∈ l, u x ≠ u y) :
    (lstsq (l.map u) (l.map q)).1 = a := by
  have h := hls (l.map u) (l.map q) (by simp) a b
  unfold Spec.LineResidual at h
  rw [zip_map_both, List.map_map, List.map_map] at h
  set s := (lstsq (l.map u) (l.map q)).1
  set o := (lstsq (l.map u) (l.map q)).2
  have hz : (l.map ((fun p : K × K => nsq (a * p.1 + b - p.2)) ∘ fun x => (u x, q x))).sum = 0 := by
    refine List.sum_eq_zero ?_
    intro y hy
    obtain ⟨x, hx, rfl⟩ := List.mem_map.mp hy
    simp only [Function.comp, hline x hx, sub_self]
    exact (hn.zero 0).mpr rfl
  rw [hz] at h
  have hall : ∀ x ∈ l, s * u x + o = a * u x + b := by
    intro x hx
    have h1 := List.single_le_sum (l := l.map ((fun p : K × K => nsq (s * p.1 + o - p.2)) ∘
      fun x => (u x, q x))) (by
        intro y hy
        obtain ⟨z, _, rfl⟩ := List.mem_map.mp hy
        exact hn.nonneg _) _ (List.mem_map.mpr ⟨x, hx, rfl⟩)
    have h2 : nsq (s * u x + o - q x) = 0 := le_antisymm (h1.trans h) (hn.nonneg _)
    have h3 := (hn.zero _).mp h2
    rw [← hline x hx]
    exact sub_eq_zero.mp h3
  obtain ⟨x, hx, y, hy, hne⟩ := hvar
  have hx' := hall x hx
  have hy' := hall y hy
  have : (s - a) * (u x - u y) = 0 := by linear_combination hx' - hy'
  rcases mul_eq_zero.mp this with h | h
  · exact sub_eq_zero.mp h
  · exact absurd (sub_eq_zero.mp h) hne

theorem cast_sum (c : QUIn R K) (hc0 : c.cast 0 = 0) (hca : ∀ x y, c.cast (x + y) = c.cast x + c.cast y)
    (l : List ℕ) (g : ℕ → R) : c.cast (l.map g).sum = (l.map fun t => c.cast (g t)).sum := by
  induction l with
  | nil => simpa using hc0
  | cons a l ih => simp only [List.map_cons, List.sum_cons, hca, ih]

/-- The sums of samples on a line: the offset is multiplied by the total weight of the cell. -/
theorem quSum_line (c : QUIn R K) (hc0 : c.cast 0 = 0)
    (hca : ∀ x y, c.cast (x + y) = c.cast x + c.cast y) (v : ℕ → ℕ → ℕ → K) (a b : K) (f bl : ℕ)
    (hf : f < c.nFreq) (hb : bl < c.nBase)
    (hline : ∀ t, Spec.SampleUsed c f t bl → Spec.stokesQ v f (t * c.nBase + bl) =
      a * Spec.stokesU v f (t * c.nBase + bl) + b) :
    quSum c (fun f s => v 1 f s - v 0 f s) f bl =
      a * quSum c (fun f s => v 3 f s + v 2 f s) f bl + b * c.cast (quTotal c f bl) := by
  have e : quSum c (fun f s => v 1 f s - v 0 f s) f bl =
      quSum c (fun f s => a * (v 3 f s + v 2 f s) + b) f bl := by
    refine quSum_congr c hc0 _ _ f bl hf hb ?_
    intro t ht
    have := hline t ht
    unfold Spec.stokesQ Spec.stokesU at this
    rw [this]; ring
  rw [e]
  unfold quTotal
  rw [cast_sum c hc0 hca]
  unfold quSum
  rw [← List.sum_map_mul_left, ← List.sum_map_mul_left, ← List.sum_map_add]
  congr 1
  refine List.map_congr_left ?_
  intro t _
  ring

/-- C90, the part that holds: if in data and model Q is a multiple of U in every used sample, the
result is the difference of the phases of the two factors, whatever is flagged. -/
theorem C90_proportional_partial (c : QUIn R K) (hshape : c.nSample = c.nTime * c.nBase)
    (hpol : 4 ≤ c.nPol) (nsq : K → R) (hn : Spec.IsSqNorm nsq) (hls : Spec.LeastLine nsq c.lstsq)
    (hc0 : c.cast 0 = 0) (hca : ∀ x y, c.cast (x + y) = c.cast x + c.cast y) (a a' : K)
    (hv : ∀ f t b, Spec.SampleUsed c f t b → Spec.stokesQ c.vis f (t * c.nBase + b) =
      a * Spec.stokesU c.vis f (t * c.nBase + b))
    (hm : ∀ f t b, Spec.SampleUsed c f t b → Spec.stokesQ c.model f (t * c.nBase + b) =
      a' * Spec.stokesU c.model f (t * c.nBase + b))
    (hvar : ∀ v ∈ [c.vis, c.model], ∃ x ∈ quCells c, ∃ y ∈ quCells c,
      quSum c (fun f s => v 3 f s + v 2 f s) x.1 x.2 ≠
        quSum c (fun f s => v 3 f s + v 2 f s) y.1 y.2) :
    quMixing c = .ok (c.arg a' - c.arg a) := by
  have key : ∀ v ∈ [c.vis, c.model], ∀ r : K, (∀ f t b, Spec.SampleUsed c f t b →
      Spec.stokesQ v f (t * c.nBase + b) = r * Spec.stokesU v f (t * c.nBase + b)) →
      quSlope c v = r := by
    intro v hvm r hr
    unfold quSlope
    refine line_slope nsq hn c.lstsq hls _ (quCells c) _ _ r 0 ?_ (hvar v hvm)
    rintro ⟨f, b⟩ hx
    obtain ⟨t, ht⟩ := (mem_quCells c f b).mp hx
    have := quSum_line c hc0 hca v r 0 f b ht.1 ht.2.2.1
      (fun t' ht' => by rw [hr f t' b ht', add_zero])
    rw [zero_mul] at this
    exact this
  unfold quMixing
  rw [if_neg (not_not.mpr hshape), if_neg (by omega), key _ (by simp) a hv, key _ (by simp) a' hm]

/-- C90, the part that holds: an offset between Q and U does no harm when all used cells have the same
total weight. -/
theorem C90_offset_partial (c : QUIn R K) (hshape : c.nSample = c.nTime * c.nBase)
    (hpol : 4 ≤ c.nPol) (nsq : K → R) (hn : Spec.IsSqNorm nsq) (hls : Spec.LeastLine nsq c.lstsq)
    (hc0 : c.cast 0 = 0) (hca : ∀ x y, c.cast (x + y) = c.cast x + c.cast y) (a a' b b' : K) (W : R)
    (hW : ∀ x ∈ quCells c, quTotal c x.1 x.2 = W)
    (hv : ∀ f t b₁, Spec.SampleUsed c f t b₁ → Spec.stokesQ c.vis f (t * c.nBase + b₁) =
      a * Spec.stokesU c.vis f (t * c.nBase + b₁) + b)
    (hm : ∀ f t b₁, Spec.SampleUsed c f t b₁ → Spec.stokesQ c.model f (t * c.nBase + b₁) =
      a' * Spec.stokesU c.model f (t * c.nBase + b₁) + b')
    (hvar : ∀ v ∈ [c.vis, c.model], ∃ x ∈ quCells c, ∃ y ∈ quCells c,
      quSum c (fun f s => v 3 f s + v 2 f s) x.1 x.2 ≠
        quSum c (fun f s => v 3 f s + v 2 f s) y.1 y.2) :
    quMixing c = .ok (c.arg a' - c.arg a) := by
  have key : ∀ v ∈ [c.vis, c.model], ∀ r o : K, (∀ f t b₁, Spec.SampleUsed c f t b₁ →
      Spec.stokesQ v f (t * c.nBase + b₁) = r * Spec.stokesU v f (t * c.nBase + b₁) + o) →
      quSlope c v = r := by
    intro v hvm r o hr
    unfold quSlope
    refine line_slope nsq hn c.lstsq hls _ (quCells c) _ _ r (o * c.cast W) ?_ (hvar v hvm)
    rintro ⟨f, b₁⟩ hx
    obtain ⟨t, ht⟩ := (mem_quCells c f b₁).mp hx
    have := quSum_line c hc0 hca v r o f b₁ ht.1 ht.2.2.1 (fun t' ht' => hr f t' b₁ ht')
    rw [hW _ hx] at this
    exact this
  unfold quMixing
  rw [if_neg (not_not.mpr hshape), if_neg (by omega), key _ (by simp) a b hv,
    key _ (by simp) a' b' hm]

/-- C90 fails in general: the sums over time are not divided by their weights, so that with two cells
of different total weight an offset between Q and U changes the slope found. -/
theorem C90_unequal_weights (c : QUIn R K) (nsq : K → R) (hn : Spec.IsSqNorm nsq)
    (hls : Spec.LeastLine nsq c.lstsq) (hc0 : c.cast 0 = 0)
    (hca : ∀ x y, c.cast (x + y) = c.cast x + c.cast y) (v : ℕ → ℕ → ℕ → K) (a b : K)
    (x y : ℕ × ℕ) (hcells : quCells c = [x, y])
    (hv : ∀ f t b₁, Spec.SampleUsed c f t b₁ → Spec.stokesQ v f (t * c.nBase + b₁) =
      a * Spec.stokesU v f (t * c.nBase + b₁) + b)
    (hvar : quSum c (fun f s => v 3 f s + v 2 f s) x.1 x.2 ≠
      quSum c (fun f s => v 3 f s + v 2 f s) y.1 y.2) :
    quSlope c v = a + b * (c.cast (quTotal c x.1 x.2) - c.cast (quTotal c y.1 y.2)) /
      (quSum c (fun f s => v 3 f s + v 2 f s) x.1 x.2 -
        quSum c (fun f s => v 3 f s + v 2 f s) y.1 y.2) := by
  set U := fun z : ℕ × ℕ => quSum c (fun f s => v 3 f s + v 2 f s) z.1 z.2 with hU
  have hd : U x - U y ≠ 0 := sub_ne_zero.mpr hvar
  have hq : ∀ z ∈ quCells c, quSum c (fun f s => v 1 f s - v 0 f s) z.1 z.2 =
      a * U z + b * c.cast (quTotal c z.1 z.2) := by
    rintro ⟨f, b₁⟩ hz
    obtain ⟨t, ht⟩ := (mem_quCells c f b₁).mp hz
    exact quSum_line c hc0 hca v a b f b₁ ht.1 ht.2.2.1 (fun t' ht' => hv f t' b₁ ht')
  have hxm : x ∈ quCells c := by rw [hcells]; simp
  have hym : y ∈ quCells c := by rw [hcells]; simp
  unfold quSlope
  set s := a + b * (c.cast (quTotal c x.1 x.2) - c.cast (quTotal c y.1 y.2)) / (U x - U y) with hs
  refine line_slope nsq hn c.lstsq hls _ (quCells c) U _ s
    (quSum c (fun f s => v 1 f s - v 0 f s) x.1 x.2 - s * U x) ?_ ⟨x, hxm, y, hym, hvar⟩
  intro z hz
  rw [hcells] at hz
  rcases List.mem_cons.mp hz with rfl | hz
  · ring
  · rw [List.mem_singleton.mp hz, hq x hxm, hq y hym, hs]
    field_simp
    ring

/-! ### Concrete cases -/

/-- Two baselines, two times; the first sample is flagged when `flag` holds; Q = 2 U + `off`. -/
def exQU (flag : Bool) (off : ℚ) : QUIn ℚ ℚ where
  nPol := 4
  nFreq := 1
  nTime := 2
  nBase := 2
  nSample := 4
  vis := fun p _ s => if p = 1 then 2 * (s + 1 : ℚ) + off else if p = 2 then (s + 1 : ℚ) else 0
  model := fun p _ s => if p = 1 then -(s + 1 : ℚ) + off else if p = 3 then (s + 1 : ℚ) else 0
  w := fun _ s => if s = 0 ∧ flag then 0 else 1
  cast := id
  arg := fun x => if x < 0 then 3 else 0
  lstsq := exLstsq

theorem exQU_norm : Spec.IsSqNorm (fun x : ℚ => x ^ 2) :=
  ⟨fun x => sq_nonneg x, fun x => by simp⟩

theorem exQU_least : Spec.LeastLine (fun x : ℚ => x ^ 2) exLstsq := by
  intro us qs h a b
  exact exLstsq_least us qs h a b

/-- The phase of the model minus the phase of the data, with a flagged sample. -/
example : quMixing (exQU true 0) = .ok 3 := by
  rw [C90_proportional_partial (exQU true 0) rfl (by decide) _ exQU_norm exQU_least rfl
    (fun _ _ => rfl) 2 (-1) (by intro f t b _; simp [exQU, Spec.stokesQ, Spec.stokesU])
    (by intro f t b _; simp [exQU, Spec.stokesQ, Spec.stokesU])
    (by
      intro v hv
      refine ⟨(0, 0), by decide +kernel, (0, 1), by decide +kernel, ?_⟩
      rcases List.mem_cons.mp hv with rfl | hv
      · decide +kernel
      · rw [List.mem_singleton.mp hv]; decide +kernel)]
  decide +kernel

/-- With nothing flagged the offset does no harm. -/
example : quMixing (exQU false 5) = .ok 3 := by
  rw [C90_offset_partial (exQU false 5) rfl (by decide) _ exQU_norm exQU_least rfl
    (fun _ _ => rfl) 2 (-1) 5 5 2 (by decide +kernel)
    (by intro f t b _; simp [exQU, Spec.stokesQ, Spec.stokesU])
    (by intro f t b _; simp [exQU, Spec.stokesQ, Spec.stokesU])
    (by
      intro v hv
      refine ⟨(0, 0), by decide +kernel, (0, 1), by decide +kernel, ?_⟩
      rcases List.mem_cons.mp hv with rfl | hv
      · decide +kernel
      · rw [List.mem_singleton.mp hv]; decide +kernel)]
  decide +kernel

/-- With a flagged sample it does: the slope is 11/3 instead of 2. -/
example : quSlope (exQU true 5) (exQU true 5).vis = 11 / 3 := by
  rw [C90_unequal_weights (exQU true 5) _ exQU_norm exQU_least rfl (fun _ _ => rfl) _ 2 5
    (0, 0) (0, 1) (by decide +kernel)
    (by intro f t b _; simp [exQU, Spec.stokesQ, Spec.stokesU]) (by decide +kernel)]
  decide +kernel

/-- And so does the result: 0 instead of 3 for an offset of 10. -/
example : quMixing (exQU true 10) = .ok 0 := by
  unfold quMixing
  rw [if_neg (by decide), if_neg (by decide),
    C90_unequal_weights (exQU true 10) _ exQU_norm exQU_least rfl (fun _ _ => rfl)
      (exQU true 10).vis 2 10 (0, 0) (0, 1) (by decide +kernel)
      (by intro f t b _; simp [exQU, Spec.stokesQ, Spec.stokesU]) (by decide +kernel),
    C90_unequal_weights (exQU true 10) _ exQU_norm exQU_least rfl (fun _ _ => rfl)
      (exQU true 10).model (-1) 10 (0, 0) (0, 1) (by decide +kernel)
      (by intro f t b _; simp [exQU, Spec.stokesQ, Spec.stokesU]) (by decide +kernel)]
  decide +kernel

end PyFHD
