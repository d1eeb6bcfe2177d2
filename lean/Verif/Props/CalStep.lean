import Verif.Props.CalSolve

/-!
# C95: an iteration of the calibration is a damped least squares step

The specification is in terms of the baselines, not of the doubled list of equations.
-/

namespace PyFHD

section Step

variable {K R : Type} [Field K] [StarRing K] [DecidableEq K] [Field R] [LinearOrder R]
  [IsStrictOrderedRing R]

/-- The sum of the squared residuals of the baselines of tile `t`, if its gain were `g` and the other
gains as in `gain`. Baselines without weight do not count; a baseline of the tile with itself
counts twice, the gain of one of its ends being that in `gain`. -/
def Spec.tileChi2 (mag : K → R) (bl : List (CalBaseline K R)) (gain : List K) (t : ℕ) (g : K) : R :=
  (bl.map fun x =>
    if 0 < x.weight then
      (if x.a = t then mag (x.data - g * star (gain.getD x.b 0) * x.model) ^ 2 else 0) +
      (if x.b = t then mag (x.data - gain.getD x.a 0 * star g * x.model) ^ 2 else 0)
    else 0).sum

/-- The number of baselines of tile `t` with weight. -/
def Spec.tileBaselines (bl : List (CalBaseline K R)) (t : ℕ) : ℕ :=
  (bl.map fun x =>
    if 0 < x.weight then (if x.a = t then 1 else 0) + (if x.b = t then 1 else 0) else 0).sum

/-- The gain `n` fits the baselines of tile `t` best. -/
def Spec.BestGain (mag : K → R) (bl : List (CalBaseline K R)) (gain : List K) (t : ℕ) (n : K) :
    Prop :=
  ∀ g, Spec.tileChi2 mag bl gain t n ≤ Spec.tileChi2 mag bl gain t g

theorem Spec.ComplexAbs.mag_star {mag : K → R} {φ : R →+* K} (h : Spec.ComplexAbs mag φ) (z : K) :
    mag (star z) = mag z := by
  have h1 : φ (mag (star z) * mag (star z)) = φ (mag z * mag z) := by
    rw [h.sq, h.sq, star_star, mul_comm]
  exact (mul_self_inj (h.nonneg _) (h.nonneg _)).1 (Spec.ComplexAbs.real_inj h1)

theorem pair_expand (l : List (K × K)) (n g : K) :
    (l.map fun p => star (p.2 - p.1 * g) * (p.2 - p.1 * g)).sum
      = (l.map fun p => star (p.2 - p.1 * n) * (p.2 - p.1 * n)).sum
        + (l.map fun p => star (p.1 * (n - g)) * (p.1 * (n - g))).sum
        + star ((l.map fun p => star p.1 * (p.2 - p.1 * n)).sum) * (n - g)
        + star (n - g) * (l.map fun p => star p.1 * (p.2 - p.1 * n)).sum := by
  induction l with
  | nil => simp
  | cons a t ih =>
    simp only [List.map_cons, List.sum_cons]
    rw [ih]
    simp only [star_add, star_mul', star_sub, star_star]
    ring

theorem Spec.ComplexAbs.sum_pairs {mag : K → R} {φ : R →+* K} (h : Spec.ComplexAbs mag φ)
    {α : Type} (l : List α) (f : α → K) :
    (l.map fun p => star (f p) * f p).sum = φ (l.map fun p => mag (f p) ^ 2).sum := by
  induction l with
  | nil => simp
  | cons a t ih =>
    simp only [List.map_cons, List.sum_cons, map_add]
    rw [ih, ← h.sq, pow_two]

/-- `lstsq1` minimises the sum of the squared residuals. -/
theorem lstsq1_best {mag : K → R} {φ : R →+* K} (h : Spec.ComplexAbs mag φ) (l : List (K × K))
    (g : K) :
    (l.map fun p => mag (p.2 - p.1 * lstsq1 (l.map Prod.fst) (l.map Prod.snd)) ^ 2).sum
      ≤ (l.map fun p => mag (p.2 - p.1 * g) ^ 2).sum := by
  by_cases hx : ∃ x ∈ l.map Prod.fst, x ≠ 0
  · set n := lstsq1 (l.map Prod.fst) (l.map Prod.snd) with hn
    have hd := h.sum_sq_ne_zero _ hx
    have hN : (l.map fun p => star p.1 * (p.2 - p.1 * n)).sum = 0 := by
      have e1 : (l.map fun p => star p.1 * (p.2 - p.1 * n)).sum
          = (List.zipWith (fun x y => star x * y) (l.map Prod.fst) (l.map Prod.snd)).sum
            - ((l.map Prod.fst).map fun x => star x * x).sum * n := by
        clear hd hx hn
        clear_value n
        induction l with
        | nil => simp
        | cons a t ih =>
          simp only [List.map_cons, List.sum_cons, List.zipWith_cons_cons, ih]; ring
      rw [e1, hn]
      unfold lstsq1
      simp only []
      rw [if_neg hd, mul_div_cancel₀ _ hd, sub_self]
    have e := pair_expand l n g
    rw [hN, star_zero, zero_mul, mul_zero, add_zero, add_zero, h.sum_pairs l (fun p => p.2 - p.1 * g),
      h.sum_pairs l (fun p => p.2 - p.1 * n), h.sum_pairs l (fun p => p.1 * (n - g)), ← map_add] at e
    rw [Spec.ComplexAbs.real_inj e]
    exact le_add_of_nonneg_right (List.sum_nonneg (by
      intro y hy; obtain ⟨z, _, rfl⟩ := List.mem_map.1 hy; exact sq_nonneg _))
  · have h0 : ∀ p ∈ l, p.1 = 0 := fun p hp => by
      by_contra hc; exact hx ⟨p.1, List.mem_map.2 ⟨p, hp, rfl⟩, hc⟩
    apply le_of_eq
    congr 1
    apply List.map_congr_left
    intro p hp
    rw [h0 p hp, zero_mul, zero_mul]

omit [IsStrictOrderedRing R] in
theorem sum_map_filter_cons {α : Type} (p : α → Prop) [DecidablePred p] (f : α → R) (a : α)
    (l : List α) :
    (((a :: l).filter fun e => p e).map f).sum
      = (if p a then f a else 0) + ((l.filter fun e => p e).map f).sum := by
  by_cases h : p a <;> simp [List.filter_cons, h]

/-- The residuals of the equations of a tile are those of its baselines. -/
theorem eqs_chi2 {mag : K → R} {φ : R →+* K} (h : Spec.ComplexAbs mag φ)
    (bl : List (CalBaseline K R)) (gain : List K) (t : ℕ) (g : K) :
    (((doubleEqs bl).filter fun e => e.a = t).map fun e =>
        mag (e.data - e.model * star (gain.getD e.b 0) * g) ^ 2).sum
      = Spec.tileChi2 mag bl gain t g := by
  unfold doubleEqs Spec.tileChi2
  rw [List.filter_append, List.map_append, List.sum_append]
  induction bl with
  | nil => simp
  | cons x bl ih =>
    by_cases hw : 0 < x.weight
    · have e2 : mag (star x.data - star x.model * star (gain.getD x.a 0) * g)
          = mag (x.data - gain.getD x.a 0 * star g * x.model) := by
        rw [← h.mag_star]
        congr 1
        simp only [star_sub, star_mul', star_star]; ring
      have e1 : x.data - x.model * star (gain.getD x.b 0) * g
          = x.data - g * star (gain.getD x.b 0) * x.model := by ring
      rw [List.filter_cons_of_pos (by simpa using hw), List.map_cons, List.map_cons, List.map_cons,
        sum_map_filter_cons (fun e : CalEq K => e.a = t),
        sum_map_filter_cons (fun e : CalEq K => e.a = t), List.sum_cons, ← ih, if_pos hw]
      simp only [e1, e2]
      ring
    · simp only [List.filter_cons, hw, decide_false, if_false, Bool.false_eq_true, List.map_cons,
        List.sum_cons, ← ih, zero_add]

theorem eqs_count (bl : List (CalBaseline K R)) (t : ℕ) :
    ((doubleEqs bl).filter fun e => e.a = t).length = Spec.tileBaselines bl t := by
  unfold doubleEqs Spec.tileBaselines
  rw [List.filter_append, List.length_append]
  induction bl with
  | nil => simp
  | cons x bl ih =>
    by_cases hw : 0 < x.weight
    · simp only [List.filter_cons, hw, decide_true, if_true, List.map_cons, List.sum_cons, ← ih]
      by_cases ha : x.a = t <;> by_cases hb : x.b = t <;> simp [ha, hb] <;> omega
    · simp only [List.filter_cons, hw, decide_false, if_false, Bool.false_eq_true, List.map_cons,
        List.sum_cons, ← ih, zero_add]

theorem newGain_best (s : SolveIn K R) {φ : R →+* K} (h : Spec.ComplexAbs s.mag φ)
    (bl : List (CalBaseline K R)) (he : s.eqs = doubleEqs bl) (hw : s.wts = none) (gain : List K)
    (t : ℕ) :
    ∃ n, s.newGain gain t = some n ∧
      (5 ≤ Spec.tileBaselines bl t → Spec.BestGain s.mag bl gain t n) ∧
      (Spec.tileBaselines bl t < 5 → n = 0) := by
  have hc : (s.eqsOf t).length = Spec.tileBaselines bl t := by
    unfold SolveIn.eqsOf; rw [he]; exact eqs_count bl t
  unfold SolveIn.newGain
  by_cases h5 : 5 ≤ Spec.tileBaselines bl t
  · rw [if_pos (by omega), hw]
    refine ⟨_, rfl, fun _ g => ?_, fun h => absurd h (by omega)⟩
    have := lstsq1_best h ((s.eqsOf t).map fun e => (e.model * star (gain.getD e.b 0), e.data)) g
    simp only [List.map_map, Function.comp_def] at this
    rw [← eqs_chi2 h, ← eqs_chi2 h, ← he]
    exact this
  · rw [if_neg (by omega)]
    exact ⟨0, rfl, fun h => absurd h h5, fun _ => rfl⟩

/-- What an iteration makes of the gain `old` of a tile, given the gain `n` that fits its
baselines best: while only phases are fitted, `n` is first given the absolute value of `old`; then comes
the weighted mean with the factor `c`, or, if this has become too small, that of one part of the new
gain and two of the old. Without a factor (NaN) the old gain stays. -/
def Spec.Damped (mag : K → R) (φ : R →+* K) (base : R) (phase : Bool) (c : Option R)
    (old n next : K) : Prop :=
  ∃ n' : K,
    (phase = false → n' = n) ∧
    (phase = true → ∃ r, 0 ≤ r ∧ n' = n * φ r ∧ (n ≠ 0 → mag n' = mag old)) ∧
    (c = none → next = old) ∧
    ∀ v, c = some v →
      let mean := old + φ (v / (base + v)) * (n' - old)
      (mag mean < mag old * mag old / 2 → next = old + φ (1 / 3) * (n' - old)) ∧
      (¬ mag mean < mag old * mag old / 2 → next = mean)

theorem damp_spec (s : SolveIn K R) {φ : R →+* K} (h : Spec.ComplexAbs s.mag φ) (hc : s.cast = φ)
    (i : ℕ) (c : Option R) (hcn : ∀ v, c = some v → s.base + v ≠ 0) (old n : K) :
    Spec.Damped s.mag φ s.base (decide (i < s.phaseIter)) c old n
      (s.damp c old (s.phaseOnly i old (some n))) := by
  obtain ⟨n', hn', hp1, hp2⟩ : ∃ n', s.phaseOnly i old (some n) = some n' ∧
      (¬ i < s.phaseIter → n' = n) ∧
      (i < s.phaseIter → ∃ r, 0 ≤ r ∧ n' = n * φ r ∧ (n ≠ 0 → s.mag n' = s.mag old)) := by
    unfold SolveIn.phaseOnly
    by_cases hi : i < s.phaseIter
    · rw [if_pos hi]
      have hr : 0 ≤ s.mag old * invR (s.mag n) := by
        rw [invR_eq]
        split_ifs
        · simp
        · exact mul_nonneg (h.nonneg _) (inv_nonneg.2 (h.nonneg _))
      refine ⟨_, rfl, fun h => absurd hi h, fun _ => ⟨_, hr, by rw [hc], fun hn => ?_⟩⟩
      have hm : s.mag n ≠ 0 := fun e => hn ((h.zero_iff n).1 e)
      rw [hc, h.mul, h.of_real _ hr, invR_eq, if_neg hm]
      field_simp
    · rw [if_neg hi]
      exact ⟨n, rfl, fun _ => rfl, fun h => absurd h hi⟩
  rw [hn']
  refine ⟨n', fun e => hp1 (by simpa using e), fun e => hp2 (by simpa using e), ?_, ?_⟩
  · rintro rfl; rfl
  · rintro v rfl
    have h0 : φ (s.base + v) ≠ 0 := by rw [Ne, map_eq_zero]; exact hcn v rfl
    have h3 : (3 : K) ≠ 0 := by
      have : φ 3 ≠ 0 := by rw [Ne, map_eq_zero]; norm_num
      rwa [map_ofNat] at this
    have hm : (n' * φ v + old * φ s.base) / φ (s.base + v)
        = old + φ (v / (s.base + v)) * (n' - old) := by
      rw [map_div₀]
      field_simp
      rw [map_add]; ring
    have hthird : (n' + old * 2) / 3 = old + φ (1 / 3) * (n' - old) := by
      rw [map_div₀, map_one, map_ofNat]
      field_simp; ring
    have hinv : ∀ z : K, s.mag z * invR (s.mag old) < s.mag old / 2 ↔
        s.mag z < s.mag old * s.mag old / 2 := by
      intro z
      rw [invR_eq]
      by_cases ho : s.mag old = 0
      · rw [if_pos ho, ho]
        have := h.nonneg z
        simp only [mul_zero, zero_div, lt_self_iff_false, false_iff, not_lt]
        exact this
      · have hop : 0 < s.mag old := lt_of_le_of_ne (h.nonneg _) (Ne.symm ho)
        rw [if_neg ho, ← div_eq_mul_inv, div_lt_iff₀ hop]
        ring_nf
    unfold SolveIn.damp
    simp only [hc, hm, hthird, hinv]
    exact ⟨fun e => if_pos e, fun e => if_neg e⟩

/-- **C95.** An iteration of the calibration without baseline weights, for any baselines and gains: the
gain of each tile with five or more baselines is moved towards the gain that fits the
baselines of the tile best, the other gains being as before the iteration (towards zero for a tile with
fewer); the common phase of the reference tile is then taken out of all gains. -/
theorem C95_step (s : SolveIn K R) (φ : R →+* K) (h : Spec.ComplexAbs s.mag φ) (hc : s.cast = φ)
    (hb : 0 < s.base) (hw : s.wts = none) (bl : List (CalBaseline K R)) (he : s.eqs = doubleEqs bl)
    (i : ℕ) (gain curr : List K) (hg : gain.length = s.nTile) (hist : List (Option R))
    (stricts : List R) (cg : Option R) (strict loose : R)
    (hs : solveStep s i gain hist stricts = .ok curr cg strict loose) :
    ∃ pre : List K, pre.length = s.nTile ∧
      curr = pre.map (fun g => g * Spec.refPhase s φ pre) ∧
      ∀ t < s.nTile, ∃ n,
        (5 ≤ Spec.tileBaselines bl t → Spec.BestGain s.mag bl gain t n) ∧
        (Spec.tileBaselines bl t < 5 → n = 0) ∧
        Spec.Damped s.mag φ s.base (decide (i < s.phaseIter)) cg (gain.getD t 0) n (pre.getD t 0) := by
  unfold solveStep at hs
  simp only [] at hs
  split_ifs at hs with hall
  split at hs
  · simp at hs
  · next c' href =>
    simp only [SolveStep.ok.injEq] at hs
    obtain ⟨rfl, rfl, -, -⟩ := hs
    refine ⟨List.zipWith (s.damp (s.convGain i hist stricts)) gain
        (List.zipWith (s.phaseOnly i) gain ((List.range s.nTile).map (s.newGain gain))), ?_, ?_, ?_⟩
    · simp [hg]
    · unfold SolveIn.refer at href
      unfold Spec.refPhase
      simp only [] at href
      split_ifs at href with hr
      · injection href with href
        rw [← href, if_pos hr]; simp
      · injection href with href
        rw [← href, if_neg hr, hc]
    · intro t ht
      obtain ⟨n, hn, h1, h2⟩ := newGain_best s h bl he hw gain t
      refine ⟨n, h1, h2, ?_⟩
      have hval : (List.zipWith (s.damp (s.convGain i hist stricts)) gain
          (List.zipWith (s.phaseOnly i) gain ((List.range s.nTile).map (s.newGain gain)))).getD t 0
          = s.damp (s.convGain i hist stricts) (gain.getD t 0)
              (s.phaseOnly i (gain.getD t 0) (some n)) := by
        have ht' : t < gain.length := by omega
        simp [List.getD, ht, ht', hn, List.getElem?_zipWith]
      rw [hval]
      exact damp_spec s h hc i _ (fun v hv => convGain_ne s hb i hist stricts v hv) _ n

/-- **C95**, the stop: the calibration stops with all gains zero exactly if the best gains are all
zero (or there are fewer than five baselines). -/
theorem C95_stops_at_zero (s : SolveIn K R) (φ : R →+* K) (h : Spec.ComplexAbs s.mag φ)
    (hw : s.wts = none) (bl : List (CalBaseline K R)) (he : s.eqs = doubleEqs bl)
    (i : ℕ) (gain g : List K) (hist : List (Option R)) (stricts : List R)
    (hs : solveStep s i gain hist stricts = .allZero g) :
    g = List.replicate s.nTile 0 ∧
      ∀ t < s.nTile, 5 ≤ Spec.tileBaselines bl t → Spec.BestGain s.mag bl gain t 0 := by
  unfold solveStep at hs
  simp only [] at hs
  split_ifs at hs with hall
  · injection hs with hs
    have hz : ∀ t < s.nTile, s.newGain gain t = some 0 := fun t ht => by
      have := List.all_eq_true.1 hall _ (List.mem_map.2 ⟨t, List.mem_range.2 ht, rfl⟩)
      simpa using this
    refine ⟨?_, fun t ht h5 => ?_⟩
    · rw [← hs, List.map_map]
      apply List.eq_replicate_iff.2
      refine ⟨by simp, fun x hx => ?_⟩
      obtain ⟨t, ht, rfl⟩ := List.mem_map.1 hx
      simp [hz t (List.mem_range.1 ht)]
    · obtain ⟨n, hn, h1, -⟩ := newGain_best s h bl he hw gain t
      rw [hz t ht] at hn
      injection hn with hn
      rw [hn]; exact h1 h5
  · split at hs <;> simp at hs

/-- **C95**, the factor: without adaptive damping, and in the first three iterations, it is the base
factor; later, if the last factor `last` is a number and the convergence before the last, `old`, is
not zero, it is the mean of `last` and `1 - |1 - new (base + last) / old|`, but at least half the base
factor, where `new` is the last convergence. -/
theorem C95_factor (s : SolveIn K R) (hb : 0 < s.base) (i : ℕ) (gain curr : List K)
    (hist : List (Option R)) (stricts : List R) (cg : Option R) (strict loose : R)
    (hs : solveStep s i gain hist stricts = .ok curr cg strict loose) :
    (s.adaptive = false ∨ i ≤ 2 → cg = some s.base) ∧
    ∀ last new old, s.adaptive = true → 2 < i → hist[i - 1]? = some (some last) → 0 < last →
      stricts[i - 1]? = some new → stricts[i - 2]? = some old → old ≠ 0 →
      cg = some (max (s.base / 2) ((1 - |1 - new * (s.base + last) / old| + last) / 2)) := by
  have hcg : cg = s.convGain i hist stricts := by
    unfold solveStep at hs
    simp only [] at hs
    split_ifs at hs
    split at hs
    · simp at hs
    · simp only [SolveStep.ok.injEq] at hs
      exact hs.2.1.symm
  rw [hcg]
  unfold SolveIn.convGain
  refine ⟨?_, ?_⟩
  · rintro (e | e)
    · rw [e]; rfl
    · split_ifs
      · omega
      · rfl
      · rfl
  · intro last new old ha hi hl hlp hn ho h0
    have hpos : s.base + last ≠ 0 := ne_of_gt (add_pos hb hlp)
    rw [if_pos ha, if_pos hi]
    simp only [List.getD, hl, Option.getD_some]
    unfold adaptiveGain
    simp only [List.getD, List.getElem?_map, hl, hn, ho, Option.map_some, Option.getD_some, zero_mul,
      zero_add, sub_zero]
    rw [if_neg (div_ne_zero h0 hpos)]
    congr 6
    field_simp

end Step

/-- Baselines of six tiles, one of them without weight, that no gains account for. -/
def exStepBl : List (CalBaseline ℚ ℚ) :=
  ⟨0, 5, 100, 1, 0⟩ :: List.zipWith (fun x d => { x with data := d, model := (1 : ℚ) }) exCalBl
      [0, -1, 0, 2, 0, -3, -1, 0, 3, 0, 1, 1, 1, 2, 0]

/-- Adaptive damping, one iteration with phases only. -/
def exStep : SolveIn ℚ ℚ :=
  { exBad 5 0 with phaseIter := 1, adaptive := true, eqs := doubleEqs exStepBl }

/-- The factor used in an iteration. -/
def exFactor (i : ℕ) (hist : List (Option ℚ)) (stricts : List ℚ) : Option (Option ℚ) :=
  match solveStep exStep i [1, 1, 2, 1, 1, 1] hist stricts with
  | .ok _ cg _ _ => some cg
  | _ => none

/-- The hypotheses of C95 hold in a first and in later iterations. -/
example : exFactor 0 [] [] = some (some 1) ∧
    exFactor 3 [some 1, some 1, some 1] [1, 2, 1] = some (some 1) ∧
    exFactor 3 [some 1, some 1, some 1] [1, 2, 2] = some (some (1 / 2)) ∧
    (∀ t < 6, Spec.tileBaselines exStepBl t = 5) ∧
    Spec.tileChi2 (fun z : ℚ => |z|) exStepBl [1, 1, 2, 1, 1, 1] 0 (1 / 8) <
      Spec.tileChi2 (fun z : ℚ => |z|) exStepBl [1, 1, 2, 1, 1, 1] 0 1 := by decide +kernel

/-- Whether an iteration stops with zero gains, for data scaled by a factor. -/
def exZeroStop (f : ℚ) : Bool :=
  match solveStep { exStep with
      eqs := doubleEqs (exStepBl.map fun x => { x with data := x.data * f }) }
    0 [1, 1, 2, 1, 1, 1] [] [] with
  | .allZero _ => true
  | _ => false

/-- The calibration stops if the data vanish. -/
example : exZeroStop 0 = true ∧ exZeroStop 1 = false := by decide +kernel

end PyFHD
