import Verif.Model.PlotCurves
import Mathlib.Data.List.Forall2
import Mathlib.Data.List.ReduceOption

/-!
# C257, C258, C259: the curves of the calibration plots
-/

namespace PyFHD

open Real

namespace Spec

/-- Two phases are the same angle. -/
def SameAngle (a b : ℝ) : Prop := ∃ k : ℤ, a - b = 2 * π * k

/-- Phases that never jump by more than half a turn from one channel to the next. -/
def Smooth (l : List ℝ) : Prop := l.IsChain fun a b => |b - a| ≤ π

/-- All channels in use have gains that are numbers, in one polarisation and tile. -/
def Complete (o : PlotInput) (p t : ℕ) : Prop :=
  ∀ f, f < o.nFreq → o.freqUse f = true → (∃ g, o.gain p f t = some g) ∧ ∃ r, o.residual p f t = some r

end Spec

open Spec

/-! ## Unwrapping -/

theorem phaseStep_turns (d : ℝ) : ∃ k : ℤ, phaseStep d = 2 * π * k := by
  unfold phaseStep
  simp only
  split
  · exact ⟨0, by simp⟩
  · split
    · rename_i h
      refine ⟨1 - ⌊(d + π) / (2 * π)⌋, ?_⟩
      push_cast
      linarith [h.1]
    · refine ⟨-⌊(d + π) / (2 * π)⌋, ?_⟩
      push_cast
      ring

theorem phaseStep_half (d : ℝ) : |d + phaseStep d| ≤ π := by
  have hp := pi_pos
  unfold phaseStep
  simp only
  split
  · rename_i h
    rw [add_zero]
    exact h.le
  · have h1 := Int.floor_le ((d + π) / (2 * π))
    have h2 := Int.lt_floor_add_one ((d + π) / (2 * π))
    rw [le_div_iff₀ (by positivity)] at h1
    rw [div_lt_iff₀ (by positivity)] at h2
    split
    · rw [abs_le]
      constructor <;> linarith
    · rw [abs_le]
      constructor <;> linarith

theorem phaseStep_small (d : ℝ) (h : |d| < π) : phaseStep d = 0 := by
  unfold phaseStep
  simp [h]

theorem unwrapFrom_numbers (ps : List ℝ) : ∀ (prev acc : ℝ), (∃ k : ℤ, acc = 2 * π * k) →
    ∃ us : List ℝ, unwrapFrom (some prev) (some acc) (ps.map some) = us.map some ∧ List.Forall₂ SameAngle us ps ∧
      Smooth ((prev + acc) :: us) := by
  induction ps with
  | nil => intro prev acc _; exact ⟨[], rfl, List.Forall₂.nil, List.isChain_singleton _⟩
  | cons p ps ih =>
    intro prev acc ⟨k, hk⟩
    obtain ⟨j, hj⟩ := phaseStep_turns (p - prev)
    obtain ⟨us, h1, h2, h3⟩ := ih p (acc + phaseStep (p - prev)) ⟨k + j, by rw [hk, hj]; push_cast; ring⟩
    refine ⟨(p + (acc + phaseStep (p - prev))) :: us, ?_, ?_, ?_⟩
    · simp only [List.map_cons, unwrapFrom, curveSub, optAdd, Option.bind_eq_bind, Option.bind_some, Option.pure_def,
        Option.map_some]
      rw [h1]
    · exact List.Forall₂.cons ⟨k + j, by rw [hk, hj]; push_cast; ring⟩ h2
    · refine List.isChain_cons_cons.2 ⟨?_, h3⟩
      have := phaseStep_half (p - prev)
      have e : p + (acc + phaseStep (p - prev)) - (prev + acc) = p - prev + phaseStep (p - prev) := by ring
      rw [e]
      exact this

/-- Phases that are numbers are unwrapped to the same angles without jumps; the first is not changed. -/
theorem unwrap_numbers (ps : List ℝ) : ∃ us : List ℝ, unwrap (ps.map some) = us.map some ∧ List.Forall₂ SameAngle us ps ∧
    Smooth us ∧ us.head? = ps.head? := by
  cases ps with
  | nil => exact ⟨[], rfl, List.Forall₂.nil, List.isChain_nil, rfl⟩
  | cons p ps =>
    obtain ⟨us, h1, h2, h3⟩ := unwrapFrom_numbers ps p 0 ⟨0, by simp⟩
    refine ⟨p :: us, ?_, List.Forall₂.cons ⟨0, by simp⟩ h2, by rwa [add_zero] at h3, rfl⟩
    simp only [List.map_cons, unwrap, h1]

theorem unwrapFrom_lost (prev : Option ℝ) (ps : List (Option ℝ)) : unwrapFrom prev none ps = List.replicate ps.length none := by
  induction ps generalizing prev with
  | nil => rfl
  | cons p ps ih =>
    have h : optAdd (none : Option ℝ) ((curveSub p prev).map phaseStep) = none := rfl
    simp only [unwrapFrom, h, ih, List.length_cons, List.replicate_succ]
    cases p <;> rfl

theorem unwrapFrom_none (ps : List (Option ℝ)) : ∀ (prev acc : Option ℝ) (rest : List (Option ℝ)),
    unwrapFrom prev acc (ps ++ none :: rest) = unwrapFrom prev acc ps ++ List.replicate (rest.length + 1) none := by
  induction ps with
  | nil =>
    intro prev acc rest
    have h : optAdd acc ((curveSub none prev).map phaseStep) = none := by cases acc <;> rfl
    simp only [List.nil_append, unwrapFrom, h, unwrapFrom_lost, List.replicate_succ]
    rfl
  | cons p ps ih =>
    intro prev acc rest
    simp only [List.cons_append, unwrapFrom, ih]

/-- One phase that is not a number takes all later ones with it. -/
theorem unwrap_none (ps rest : List (Option ℝ)) :
    unwrap (ps ++ none :: rest) = unwrap ps ++ List.replicate (rest.length + 1) none := by
  cases ps with
  | nil =>
    simp only [List.nil_append, unwrap, List.replicate_succ]
    congr 1
    cases rest with
    | nil => rfl
    | cons q qs =>
      have h : optAdd (some 0) ((curveSub q none).map phaseStep) = none := by cases q <;> rfl
      simp only [unwrapFrom, h, unwrapFrom_lost, List.length_cons, List.replicate_succ]
      cases q <;> rfl
  | cons p ps =>
    simp only [List.cons_append, unwrap, unwrapFrom_none]

theorem unwrapFrom_length (ps : List (Option ℝ)) : ∀ prev acc, (unwrapFrom prev acc ps).length = ps.length := by
  induction ps with
  | nil => intro _ _; rfl
  | cons p ps ih => intro prev acc; simp [unwrapFrom, ih]

theorem unwrap_length (ps : List (Option ℝ)) : (unwrap ps).length = ps.length := by
  cases ps with
  | nil => rfl
  | cons p ps => simp [unwrap, unwrapFrom_length]

/-! ## C257 -/

theorem mem_plotFreqs {o : PlotInput} {f : ℕ} (h : f ∈ plotFreqs o) : f < o.nFreq ∧ o.freqUse f = true := by
  unfold plotFreqs at h
  rw [List.mem_filter, List.mem_range] at h
  exact h

/-- The list of phases of complete gains. -/
theorem phases_complete (l : List ℕ) (g : ℕ → Option ℂ) (h : ∀ f ∈ l, ∃ z, g f = some z) :
    (l.map fun f => phaseOf (g f)) = (l.map fun f => ((g f).getD 0).arg).map some := by
  rw [List.map_map]
  refine List.map_congr_left fun f hf => ?_
  obtain ⟨z, hz⟩ := h f hf
  simp [phaseOf, hz]

theorem exp_arg_unit (z : ℂ) (h : z ≠ 0) : Complex.exp (z.arg * Complex.I) = z / ‖z‖ := by
  have h1 := Complex.norm_mul_exp_arg_mul_I z
  have h2 : (‖z‖ : ℂ) ≠ 0 := by exact_mod_cast norm_ne_zero_iff.2 h
  field_simp
  rw [mul_comm]
  exact h1

theorem exp_turns (k : ℤ) : Complex.exp (((2 * π * k : ℝ) : ℂ) * Complex.I) = 1 := by
  have : ((2 * π * k : ℝ) : ℂ) * Complex.I = k * (2 * π * Complex.I) := by push_cast; ring
  rw [this, Complex.exp_int_mul_two_pi_mul_I]

/-- **C257** The residual phase that is drawn turns the fitted gain into the direction of the raw one; the curves that are subtracted
have no jumps. -/
theorem C257_residual (o : PlotInput) (p t : ℕ) (h : Complete o p t) (i f : ℕ) (hi : (plotFreqs o)[i]? = some f) :
    ∃ g r u, o.gain p f t = some g ∧ o.residual p f t = some r ∧ (resCurve o p t).phase[i]? = some (some u) ∧
      (resCurve o p t).amp[i]? = some (some (‖g + r‖ - ‖g‖)) ∧
      SameAngle u ((g + r).arg - g.arg) ∧
      (g ≠ 0 → g + r ≠ 0 → Complex.exp (u * Complex.I) * (g / ‖g‖) = (g + r) / ‖g + r‖) := by
  have hmem : f ∈ plotFreqs o := List.mem_of_getElem? hi
  obtain ⟨hf1, hf2⟩ := mem_plotFreqs hmem
  obtain ⟨⟨g, hg⟩, r, hr⟩ := h f hf1 hf2
  have hraw : ∀ f', f' ∈ plotFreqs o → ∃ z, rawGain o p f' t = some z := by
    intro f' hf'
    obtain ⟨a, b⟩ := mem_plotFreqs hf'
    obtain ⟨⟨g', hg'⟩, r', hr'⟩ := h f' a b
    exact ⟨g' + r', by simp [rawGain, hg', hr']⟩
  have hsol : ∀ f', f' ∈ plotFreqs o → ∃ z, o.gain p f' t = some z := by
    intro f' hf'
    obtain ⟨a, b⟩ := mem_plotFreqs hf'
    exact (h f' a b).1
  have hrg : rawGain o p f t = some (g + r) := by simp [rawGain, hg, hr]
  obtain ⟨us, u1, u2, _, _⟩ := unwrap_numbers ((plotFreqs o).map fun f => ((rawGain o p f t).getD 0).arg)
  obtain ⟨vs, v1, v2, _, _⟩ := unwrap_numbers ((plotFreqs o).map fun f => ((o.gain p f t).getD 0).arg)
  have hlt : i < (plotFreqs o).length := (List.getElem?_eq_some_iff.1 hi).1
  have hfi : (plotFreqs o)[i] = f := (List.getElem?_eq_some_iff.1 hi).2
  have lu : us.length = (plotFreqs o).length := by rw [u2.length_eq, List.length_map]
  have lv : vs.length = (plotFreqs o).length := by rw [v2.length_eq, List.length_map]
  have hu := u2.get (i := i) (by omega) (by rw [List.length_map]; omega)
  have hv := v2.get (i := i) (by omega) (by rw [List.length_map]; omega)
  simp only [List.get_eq_getElem, List.getElem_map, hfi, hrg, hg, Option.getD_some] at hu hv
  obtain ⟨k, hk⟩ := hu
  obtain ⟨j, hj⟩ := hv
  have hang : SameAngle (us[i] - vs[i]) ((g + r).arg - g.arg) := ⟨k - j, by push_cast; linarith⟩
  refine ⟨g, r, us[i] - vs[i], hg, hr, ?_, ?_, hang, ?_⟩
  · have e1 : unwrap (rawCurve o p t).phase = us.map some := by
      rw [← u1]; congr 1; exact phases_complete _ _ hraw
    have e2 : unwrap (solCurve o p t).phase = vs.map some := by
      rw [← v1]; congr 1; exact phases_complete _ _ hsol
    simp only [resCurve, e1, e2, List.getElem?_zipWith, List.getElem?_map]
    rw [List.getElem?_eq_getElem (by omega), List.getElem?_eq_getElem (by omega)]
    rfl
  · simp only [resCurve, List.getElem?_map, hi, Option.map_some, hrg, hg, ampOf, curveSub]
    rfl
  · intro h1 h2
    obtain ⟨n, hn⟩ := hang
    have e : ((us[i] - vs[i] : ℝ) : ℂ) * Complex.I
        = ((g + r).arg : ℂ) * Complex.I + (-(g.arg : ℂ) * Complex.I) + ((2 * π * n : ℝ) : ℂ) * Complex.I := by
      have : us[i] - vs[i] = (g + r).arg - g.arg + 2 * π * n := by linarith
      rw [this]
      push_cast
      ring
    rw [e, Complex.exp_add, Complex.exp_add, exp_turns, mul_one, exp_arg_unit _ h2, ← exp_arg_unit g h1, mul_assoc, ← Complex.exp_add]
    have : -(g.arg : ℂ) * Complex.I + (g.arg : ℂ) * Complex.I = 0 := by ring
    rw [this, Complex.exp_zero, mul_one]

/-- **C257** Where the fit is exact the residual curves are zero. -/
theorem C257_exact_fit (o : PlotInput) (p t : ℕ)
    (h : ∀ f, f < o.nFreq → o.freqUse f = true → (∃ g, o.gain p f t = some g) ∧ o.residual p f t = some 0) (i f : ℕ)
    (hi : (plotFreqs o)[i]? = some f) :
    (resCurve o p t).phase[i]? = some (some 0) ∧ (resCurve o p t).amp[i]? = some (some 0) := by
  have hraw : ∀ f', f' ∈ plotFreqs o → rawGain o p f' t = o.gain p f' t := by
    intro f' hf'
    obtain ⟨a, b⟩ := mem_plotFreqs hf'
    obtain ⟨⟨g', hg'⟩, hr'⟩ := h f' a b
    simp [rawGain, hg', hr']
  have hsame : (rawCurve o p t).phase = (solCurve o p t).phase := List.map_congr_left fun f' hf' => by rw [hraw f' hf']
  obtain ⟨g, r, u, h1, h2, h3, h4, _, _⟩ := C257_residual o p t (fun f' a b => ⟨(h f' a b).1, 0, (h f' a b).2⟩) i f hi
  have hr0 : r = 0 := by
    obtain ⟨a, b⟩ := mem_plotFreqs (List.mem_of_getElem? hi)
    rw [(h f a b).2] at h2
    exact (Option.some.inj h2).symm
  refine ⟨?_, by rw [h4, hr0]; simp⟩
  simp only [resCurve, hsame, List.getElem?_zipWith] at h3 ⊢
  cases hx : (unwrap (solCurve o p t).phase)[i]? with
  | none => rw [hx] at h3; cases h3
  | some x =>
    rw [hx] at h3
    cases x with
    | none => simp [curveSub] at h3
    | some y => simp [curveSub]

/-- **C257** is violated: the residual phase is not the angle between the gains. If the phase of the fit is just below half a turn and
that of the raw gain just above minus half a turn in the first channel, the residual drawn is nearly minus a whole turn. -/
theorem C257_whole_turn (o : PlotInput) (p t f : ℕ) (fs : List ℕ) (hl : plotFreqs o = f :: fs) (e : ℝ) (h0 : 0 < e) (h1 : e < π / 2)
    (hg : o.gain p f t = some (Complex.exp (((π - e : ℝ) : ℂ) * Complex.I)))
    (hr : rawGain o p f t = some (Complex.exp (((e - π : ℝ) : ℂ) * Complex.I))) :
    (resCurve o p t).phase.head? = some (some (2 * e - 2 * π)) ∧
    (Complex.exp (((e - π : ℝ) : ℂ) * Complex.I) / Complex.exp (((π - e : ℝ) : ℂ) * Complex.I)).arg = 2 * e := by
  have hp := pi_pos
  have a1 : (Complex.exp (((π - e : ℝ) : ℂ) * Complex.I)).arg = π - e := by
    rw [Complex.arg_exp_mul_I, toIocMod_eq_self]
    constructor <;> linarith
  have a2 : (Complex.exp (((e - π : ℝ) : ℂ) * Complex.I)).arg = e - π := by
    rw [Complex.arg_exp_mul_I, toIocMod_eq_self]
    constructor <;> linarith
  constructor
  · simp only [resCurve, rawCurve, solCurve, hl, List.map_cons, unwrap, List.zipWith_cons_cons, List.head?_cons, hg, hr, phaseOf,
      Option.map_some, a1, a2, curveSub, Option.bind_eq_bind, Option.bind_some, Option.pure_def]
    congr 2
    ring
  · rw [← Complex.exp_sub]
    have : ((e - π : ℝ) : ℂ) * Complex.I - ((π - e : ℝ) : ℂ) * Complex.I = ((2 * e : ℝ) : ℂ) * Complex.I + ((2 * π * (-1 : ℤ) : ℝ) : ℂ) * Complex.I := by
      push_cast
      ring
    rw [this, Complex.exp_add, exp_turns, mul_one, Complex.arg_exp_mul_I, toIocMod_eq_self]
    constructor <;> linarith

/-- One channel and one tile: the fit at 3.04, the raw gain at -3.04 radians. -/
noncomputable def exPlot : PlotInput where
  nPol := 1
  nFreq := 1
  nTile := 1
  freq := fun _ => 182000000
  freqUse := fun _ => true
  tileUse := fun _ => true
  gain := fun _ _ _ => some (Complex.exp (((π - 1 / 10 : ℝ) : ℂ) * Complex.I))
  residual := fun _ _ _ => some (Complex.exp (((1 / 10 - π : ℝ) : ℂ) * Complex.I) - Complex.exp (((π - 1 / 10 : ℝ) : ℂ) * Complex.I))

example : plotFreqs exPlot = [0] ∧ Complete exPlot 0 0 ∧
    rawGain exPlot 0 0 0 = some (Complex.exp (((1 / 10 - π : ℝ) : ℂ) * Complex.I)) ∧
    (resCurve exPlot 0 0).phase.head? = some (some (2 * (1 / 10) - 2 * π)) := by
  have h1 : plotFreqs exPlot = [0] := rfl
  have h2 : rawGain exPlot 0 0 0 = some (Complex.exp (((1 / 10 - π : ℝ) : ℂ) * Complex.I)) := by
    simp [rawGain, exPlot]
  refine ⟨h1, fun f _ _ => ⟨⟨_, rfl⟩, _, rfl⟩, h2, ?_⟩
  exact (C257_whole_turn exPlot 0 0 0 [] h1 (1 / 10) (by norm_num) (by linarith [two_le_pi]) rfl h2).1

/-! ## C258 -/

theorem foldl_min_le_plot (xs : List ℝ) : ∀ x, xs.foldl min x ≤ x ∧ (∀ y ∈ xs, xs.foldl min x ≤ y) ∧ xs.foldl min x ∈ x :: xs := by
  induction xs with
  | nil => intro x; simp
  | cons y ys ih =>
    intro x
    obtain ⟨h1, h2, h3⟩ := ih (min x y)
    refine ⟨h1.trans (min_le_left _ _), ?_, ?_⟩
    · intro z hz
      rcases List.mem_cons.1 hz with rfl | hz
      · exact h1.trans (min_le_right _ _)
      · exact h2 z hz
    · rw [List.foldl_cons]
      rcases List.mem_cons.1 h3 with h | h
      · rw [h]
        rcases min_choice x y with h' | h' <;> rw [h'] <;> simp
      · simp [h]

theorem foldl_le_max (xs : List ℝ) : ∀ x, x ≤ xs.foldl max x ∧ (∀ y ∈ xs, y ≤ xs.foldl max x) ∧ xs.foldl max x ∈ x :: xs := by
  induction xs with
  | nil => intro x; simp
  | cons y ys ih =>
    intro x
    obtain ⟨h1, h2, h3⟩ := ih (max x y)
    refine ⟨(le_max_left _ _).trans h1, ?_, ?_⟩
    · intro z hz
      rcases List.mem_cons.1 hz with rfl | hz
      · exact (le_max_right _ _).trans h1
      · exact h2 z hz
    · rw [List.foldl_cons]
      rcases List.mem_cons.1 h3 with h | h
      · rw [h]
        rcases max_choice x y with h' | h' <;> rw [h'] <;> simp
      · simp [h]

/-- The limits are the least and the largest of the numbers. -/
theorem nanLimits_spec {l : List (Option ℝ)} {lo hi : ℝ} (h : nanLimits l = .ok (lo, hi)) :
    (∀ x, some x ∈ l → lo ≤ x ∧ x ≤ hi) ∧ some lo ∈ l ∧ some hi ∈ l := by
  unfold nanLimits at h
  have hm : ∀ x, x ∈ l.reduceOption ↔ some x ∈ l := fun x => List.reduceOption_mem_iff
  cases hr : l.reduceOption with
  | nil => rw [hr] at h; cases h
  | cons x xs =>
    rw [hr] at h hm
    simp only [Except.ok.injEq, Prod.mk.injEq] at h
    obtain ⟨h1, h2⟩ := h
    obtain ⟨a1, a2, a3⟩ := foldl_min_le_plot xs x
    obtain ⟨b1, b2, b3⟩ := foldl_le_max xs x
    rw [h1] at a1 a2 a3
    rw [h2] at b1 b2 b3
    refine ⟨fun y hy => ?_, (hm lo).1 a3, (hm hi).1 b3⟩
    rcases List.mem_cons.1 ((hm y).2 hy) with rfl | hy
    · exact ⟨a1, b1⟩
    · exact ⟨a2 y hy, b2 y hy⟩

theorem nanLimits_error (l : List (Option ℝ)) : nanLimits l = .error .valueError ↔ ∀ x ∈ l, x = none := by
  unfold nanLimits
  have hm : ∀ x, x ∈ l.reduceOption ↔ some x ∈ l := fun x => List.reduceOption_mem_iff
  cases hr : l.reduceOption with
  | nil =>
    simp only [true_iff]
    intro x hx
    cases x with
    | none => rfl
    | some y => have := (hm y).2 hx; rw [hr] at this; cases this
  | cons x xs =>
    have := (hm x).1 (by rw [hr]; simp)
    simp only [reduceCtorEq, false_iff]
    intro h
    cases h _ this

theorem mem_allCurves {o : PlotInput} {c : ℕ → ℕ → Curve} {p t : ℕ} (hp : p < o.nPol) (ht : t < o.nTile) : c p t ∈ allCurves o c := by
  unfold allCurves
  rw [List.mem_flatMap]
  exact ⟨p, List.mem_range.2 hp, List.mem_map.2 ⟨t, List.mem_range.2 ht, rfl⟩⟩

theorem plotLimits_ok {o : PlotInput} {L : List ((ℝ × ℝ) × (ℝ × ℝ))} (h : plotLimits o = .ok L) :
    ∃ a0 a1 a2 p1, nanLimits ((allCurves o (solCurve o)).flatMap Curve.amp) = .ok a0 ∧
      nanLimits ((allCurves o (resCurve o)).flatMap Curve.amp) = .ok a1 ∧
      nanLimits ((allCurves o (rawCurve o)).flatMap Curve.amp) = .ok a2 ∧
      nanLimits ((allCurves o (resCurve o)).flatMap Curve.phase) = .ok p1 ∧
      L = [(a0, (-π - 0.1, π + 0.1)), (a1, p1), (a2, (-π - 0.1, π + 0.1))] := by
  unfold plotLimits at h
  cases h0 : nanLimits ((allCurves o (solCurve o)).flatMap Curve.amp) with
  | error e => simp [h0, bind, Except.bind] at h
  | ok a0 =>
    cases h1 : nanLimits ((allCurves o (resCurve o)).flatMap Curve.amp) with
    | error e => simp [h0, h1, bind, Except.bind] at h
    | ok a1 =>
      cases h2 : nanLimits ((allCurves o (rawCurve o)).flatMap Curve.amp) with
      | error e => simp [h0, h1, h2, bind, Except.bind] at h
      | ok a2 =>
        cases h3 : nanLimits ((allCurves o (resCurve o)).flatMap Curve.phase) with
        | error e => simp [h0, h1, h2, h3, bind, Except.bind] at h
        | ok p1 =>
          simp only [h0, h1, h2, h3, bind, Except.bind, pure, Except.pure, Except.ok.injEq] at h
          exact ⟨a0, a1, a2, p1, rfl, rfl, rfl, rfl, h.symm⟩

/-- A point of a curve is inside the limits of the two axes. -/
def Spec.WithinLimits (c : Curve) (lim : (ℝ × ℝ) × (ℝ × ℝ)) : Prop :=
  (∀ x, some x ∈ c.amp → lim.1.1 ≤ x ∧ x ≤ lim.1.2) ∧ ∀ x, some x ∈ c.phase → lim.2.1 ≤ x ∧ x ≤ lim.2.2

theorem phases_inside (l : List ℕ) (g : ℕ → Option ℂ) (x : ℝ) (h : some x ∈ l.map fun f => phaseOf (g f)) :
    -π - 0.1 ≤ x ∧ x ≤ π + 0.1 := by
  obtain ⟨f, _, hf⟩ := List.mem_map.1 h
  cases hz : g f with
  | none => rw [hz] at hf; cases hf
  | some z =>
    rw [hz] at hf
    simp only [phaseOf, Option.map_some, Option.some.injEq] at hf
    have h1 := Complex.neg_pi_lt_arg z
    have h2 := Complex.arg_le_pi z
    rw [← hf]
    constructor <;> linarith

/-- **C258** Every point of every curve is inside the axes of its figure. -/
theorem C258_inside (o : PlotInput) (L : List ((ℝ × ℝ) × (ℝ × ℝ))) (h : plotLimits o = .ok L) (p t : ℕ) (hp : p < o.nPol)
    (ht : t < o.nTile) : ∃ l0 l1 l2, L = [l0, l1, l2] ∧ WithinLimits (solCurve o p t) l0 ∧ WithinLimits (resCurve o p t) l1 ∧
      WithinLimits (rawCurve o p t) l2 := by
  obtain ⟨a0, a1, a2, p1, h0, h1, h2, h3, rfl⟩ := plotLimits_ok h
  have mem : ∀ (c : ℕ → ℕ → Curve) (s : Curve → List (Option ℝ)) (x : ℝ), some x ∈ s (c p t) → some x ∈ (allCurves o c).flatMap s :=
    fun c s x hx => List.mem_flatMap.2 ⟨_, mem_allCurves hp ht, hx⟩
  exact ⟨_, _, _, rfl, ⟨fun x hx => (nanLimits_spec h0).1 x (mem _ _ x hx), fun x hx => phases_inside _ _ x hx⟩,
    ⟨fun x hx => (nanLimits_spec h1).1 x (mem _ _ x hx), fun x hx => (nanLimits_spec h3).1 x (mem _ _ x hx)⟩,
    ⟨fun x hx => (nanLimits_spec h2).1 x (mem _ _ x hx), fun x hx => phases_inside _ _ x hx⟩⟩

/-- **C258** is violated: the limits are those of all tiles. Whatever is drawn, a tile that is not in use sets the upper limit of the
amplitude: for every number there are gains of this tile alone for which the limit is at least this number. -/
theorem C258_unused_tile (o : PlotInput) (p f t : ℕ) (hp : p < o.nPol) (hf : f < o.nFreq) (hfu : o.freqUse f = true) (ht : t < o.nTile)
    (hu : o.tileUse t = false) (M : ℝ) (hM : 0 ≤ M) :
    let o' : PlotInput := { o with gain := fun p' f' t' => if t' = t then some (M : ℂ) else o.gain p' f' t' }
    (∀ p' t', t' ≠ t → solCurve o' p' t' = solCurve o p' t' ∧ resCurve o' p' t' = resCurve o p' t' ∧ rawCurve o' p' t' = rawCurve o p' t') ∧
    drawn o' (solCurve o' p t) t = none ∧
    ∀ L, plotLimits o' = .ok L → ∃ l0 ls, L = l0 :: ls ∧ M ≤ l0.1.2 := by
  intro o'
  have hsame : ∀ p' f' t', t' ≠ t → o'.gain p' f' t' = o.gain p' f' t' := fun p' f' t' h => if_neg h
  have hfr : plotFreqs o' = plotFreqs o := rfl
  have hr : ∀ p' f' t', t' ≠ t → rawGain o' p' f' t' = rawGain o p' f' t' := by
    intro p' f' t' h
    unfold rawGain
    rw [hsame _ _ _ h]
  have e1 : ∀ p' t', t' ≠ t → solCurve o' p' t' = solCurve o p' t' := by
    intro p' t' h
    unfold solCurve
    simp only [hfr, hsame _ _ _ h]
  have e2 : ∀ p' t', t' ≠ t → rawCurve o' p' t' = rawCurve o p' t' := by
    intro p' t' h
    unfold rawCurve
    simp only [hfr, hr _ _ _ h]
  refine ⟨fun p' t' h => ⟨e1 p' t' h, ?_, e2 p' t' h⟩, ?_, ?_⟩
  · unfold resCurve
    simp only [hfr, hsame _ _ _ h, hr _ _ _ h, e1 p' t' h, e2 p' t' h]
  · have : o'.tileUse t = false := hu
    simp [drawn, this]
  · intro L hL
    obtain ⟨l0, l1, l2, hLL, hin, _, _⟩ := C258_inside o' L hL p t hp ht
    refine ⟨l0, [l1, l2], hLL, ?_⟩
    refine (hin.1 M ?_).2
    refine List.mem_map.2 ⟨f, List.mem_filter.2 ⟨List.mem_range.2 hf, hfu⟩, ?_⟩
    have : o'.gain p f t = some (M : ℂ) := if_pos rfl
    simp [ampOf, this, abs_of_nonneg hM]

/-- **C258** is violated also in that no figure is made if none of the gains in the channels in use is a number. -/
theorem C258_no_number (o : PlotInput)
    (h : ∀ p f t, p < o.nPol → f < o.nFreq → o.freqUse f = true → t < o.nTile → o.gain p f t = none) :
    plotLimits o = .error .valueError := by
  have : nanLimits ((allCurves o (solCurve o)).flatMap Curve.amp) = .error .valueError := by
    rw [nanLimits_error]
    intro x hx
    obtain ⟨c, hc, hxc⟩ := List.mem_flatMap.1 hx
    obtain ⟨p, hp, hc'⟩ := List.mem_flatMap.1 hc
    obtain ⟨t, ht, rfl⟩ := List.mem_map.1 hc'
    obtain ⟨f, hf, rfl⟩ := List.mem_map.1 hxc
    obtain ⟨a, b⟩ := mem_plotFreqs hf
    simp [ampOf, h p f t (List.mem_range.1 hp) a b (List.mem_range.1 ht)]
  unfold plotLimits
  simp [this, bind, Except.bind]

example : ∃ L, plotLimits exPlot = .ok L := by
  cases h : plotLimits exPlot with
  | ok L => exact ⟨L, rfl⟩
  | error e =>
    exfalso
    have hg := (exPlot.gain 0 0 0)
    simp [plotLimits, nanLimits, allCurves, solCurve, resCurve, rawCurve, plotFreqs, exPlot, ampOf, phaseOf, rawGain, curveSub, unwrap,
      unwrapFrom, List.reduceOption, bind, Except.bind, pure, Except.pure] at h

/-! ## C259 -/

/-- **C259**, partial: in the amplitudes and in the phases of the fitted and the raw gains a point is missing exactly where the gain is
not a number. Missing: the residual phases (`C259_lost`). -/
theorem C259_points_partial (o : PlotInput) (p t i f : ℕ) (hi : (plotFreqs o)[i]? = some f) :
    ((solCurve o p t).amp[i]? = some none ↔ o.gain p f t = none) ∧ ((solCurve o p t).phase[i]? = some none ↔ o.gain p f t = none) ∧
    ((rawCurve o p t).amp[i]? = some none ↔ o.gain p f t = none ∨ o.residual p f t = none) ∧
    ((rawCurve o p t).phase[i]? = some none ↔ o.gain p f t = none ∨ o.residual p f t = none) ∧
    ((resCurve o p t).amp[i]? = some none ↔ o.gain p f t = none ∨ o.residual p f t = none) := by
  simp only [solCurve, rawCurve, resCurve, List.getElem?_map, hi, Option.map_some, Option.some.injEq, ampOf, phaseOf, rawGain, curveSub]
  cases hg : o.gain p f t <;> cases hr : o.residual p f t <;> simp

/-- **C259** A tile in use with a gain that is a number in some channel is drawn, with the amplitude of this gain over the frequency of this channel
in MHz. -/
theorem C259_drawn (o : PlotInput) (p t i f : ℕ) (hu : o.tileUse t = true) (hi : (plotFreqs o)[i]? = some f) (z : ℂ) (hz : o.gain p f t = some z) :
    ∃ xs c, drawn o (solCurve o p t) t = some (xs, c) ∧ (∃ x, xs[i]? = some x ∧ x * 1000000 = o.freq f) ∧ c.amp[i]? = some (some ‖z‖) := by
  have hA : (solCurve o p t).amp[i]? = some (some ‖z‖) := by
    simp [solCurve, hi, hz, ampOf]
  refine ⟨(plotFreqs o).map fun f => o.freq f / 1000000, solCurve o p t, ?_, ⟨o.freq f / 1000000, by simp [hi], by ring⟩, hA⟩
  have hn : (solCurve o p t).amp.all Option.isNone = false := by
    rw [Bool.eq_false_iff]
    intro h
    have := List.all_eq_true.1 h _ (List.mem_of_getElem? hA)
    simp at this
  unfold drawn
  rw [hn, hu]
  rfl

/-- **C259** is violated: one channel whose gain is not a number takes the residual phases of all channels after it out of the plot. -/
theorem C259_lost (o : PlotInput) (p t k i f : ℕ) (hk : (plotFreqs o)[k]? = some f)
    (hnan : o.gain p f t = none ∨ o.residual p f t = none) (hik : k ≤ i) (hil : i < (plotFreqs o).length) :
    (resCurve o p t).phase[i]? = some none := by
  have hrg : rawGain o p f t = none := by
    rcases hnan with h | h
    · simp [rawGain, h]
    · simp only [rawGain, h]
      cases o.gain p f t <;> rfl
  obtain ⟨hk1, hk2⟩ := List.getElem?_eq_some_iff.1 hk
  have hsplit : plotFreqs o = (plotFreqs o).take k ++ f :: (plotFreqs o).drop (k + 1) := by
    rw [← hk2, ← List.drop_eq_getElem_cons hk1, List.take_append_drop]
  have hph : (rawCurve o p t).phase = ((plotFreqs o).take k).map (fun f => phaseOf (rawGain o p f t)) ++
      none :: ((plotFreqs o).drop (k + 1)).map (fun f => phaseOf (rawGain o p f t)) := by
    unfold rawCurve
    simp only
    conv_lhs => rw [hsplit]
    rw [List.map_append, List.map_cons, hrg]
    rfl
  have hun : (unwrap (rawCurve o p t).phase)[i]? = some none := by
    rw [hph, unwrap_none, List.getElem?_append_right]
    · rw [List.getElem?_replicate, if_pos]
      rw [unwrap_length, List.length_map, List.length_map, List.length_take, List.length_drop]
      omega
    · rw [unwrap_length, List.length_map, List.length_take]
      omega
  have hl : (unwrap (solCurve o p t).phase).length = (plotFreqs o).length := by
    rw [unwrap_length]; simp [solCurve]
  simp only [resCurve, List.getElem?_zipWith, hun]
  rw [List.getElem?_eq_getElem (by omega)]
  rfl

/-- Three channels of gain one, the middle one of which is not a number. -/
noncomputable def exPlotNan : PlotInput where
  nPol := 1
  nFreq := 3
  nTile := 1
  freq := fun _ => 182000000
  freqUse := fun _ => true
  tileUse := fun _ => true
  gain := fun _ f _ => if f = 1 then none else some 1
  residual := fun _ _ _ => some 0

example : (plotFreqs exPlotNan)[1]? = some 1 ∧ exPlotNan.gain 0 1 0 = none ∧ exPlotNan.gain 0 2 0 = some 1 ∧
    (resCurve exPlotNan 0 0).phase[2]? = some none :=
  ⟨by decide, by simp [exPlotNan], by simp [exPlotNan],
    C259_lost exPlotNan 0 0 1 2 1 (by decide) (Or.inl (by simp [exPlotNan])) (by omega) (by decide)⟩

/-- The third channel has a gain of one and is drawn. -/
example : ∃ xs c, drawn exPlotNan (solCurve exPlotNan 0 0) 0 = some (xs, c) ∧ (∃ x, xs[2]? = some x ∧ x * 1000000 = exPlotNan.freq 2) ∧
    c.amp[2]? = some (some ‖(1 : ℂ)‖) :=
  C259_drawn exPlotNan 0 0 2 2 rfl (by decide) 1 (by simp [exPlotNan])

end PyFHD
