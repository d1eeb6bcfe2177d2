import Verif.Model.CalPoly
import Verif.Props.CalStats
import Mathlib.Algebra.Polynomial.Roots
import Mathlib.Algebra.Order.Field.Basic
import Mathlib.Algebra.Field.GeomSum
import Mathlib.LinearAlgebra.Lagrange
import Mathlib.Analysis.InnerProductSpace.PiL2
import Mathlib.Analysis.InnerProductSpace.Projection.Minimal

/-!
# C88, C89: polynomial and reflection fits of the gains, and `calibrate`
-/

namespace PyFHD

/-! ## Polynomials -/

section PolySum

variable {R : Type} [Field R] [LinearOrder R] [IsStrictOrderedRing R]

namespace Spec

/-- The polynomial with coefficients `q`, lowest first, at `x`. -/
def PolyAt (q : List R) (x : R) : R := ∑ i ∈ Finset.range q.length, q.getD i 0 * x ^ i

/-- The sum of the squared residuals of a polynomial. -/
def Residual (q : List R) (xs : List ℕ) (ys : List R) : R :=
  ((xs.zip ys).map fun s => (s.2 - PolyAt q (s.1 : R)) ^ 2).sum

/-- `fit` returns the coefficients of a least squares polynomial of the degree asked for. -/
def LeastSquaresFit (fit : List ℕ → List R → ℕ → List R) : Prop :=
  ∀ xs ys d, (fit xs ys d).length = d + 1 ∧
    ∀ q : List R, q.length = d + 1 → Residual (fit xs ys d) xs ys ≤ Residual q xs ys

end Spec

theorem polySum_eq (q : List R) (n f : ℕ) :
    polySum q n f = ∑ i ∈ Finset.range n, q.getD i 0 * (f : R) ^ i := by
  unfold polySum
  induction n with
  | zero => simp
  | succ n ih => rw [List.range_succ, List.map_append, List.sum_append, ih,
      Finset.sum_range_succ]; simp

theorem polySum_full (q : List R) (f : ℕ) : polySum q q.length f = Spec.PolyAt q (f : R) :=
  polySum_eq q _ f

/-- Two polynomials with `d + 1` coefficients that agree at more than `d` channels are equal. -/
theorem polyAt_unique (p q : List R) (d : ℕ) (hp : p.length = d + 1) (hq : q.length = d + 1)
    (xs : List ℕ) (hnd : xs.Nodup) (hlen : d < xs.length)
    (h : ∀ x ∈ xs, Spec.PolyAt p (x : R) = Spec.PolyAt q (x : R)) : p = q := by
  classical
  let P (l : List R) : Polynomial R :=
    ∑ i ∈ Finset.range (d + 1), Polynomial.C (l.getD i 0) * Polynomial.X ^ i
  have hdeg : ∀ l, (P l).degree < ((d + 1 : ℕ) : WithBot ℕ) := by
    intro l
    refine (Polynomial.degree_sum_le _ _).trans_lt ?_
    rw [Finset.sup_lt_iff (by exact WithBot.bot_lt_coe _)]
    intro i hi
    refine (Polynomial.degree_C_mul_X_pow_le _ _).trans_lt ?_
    exact_mod_cast Finset.mem_range.mp hi
  have heval : ∀ (l : List R) (x : R), l.length = d + 1 → (P l).eval x = Spec.PolyAt l x := by
    intro l x hl
    simp only [P, Spec.PolyAt, hl, Polynomial.eval_finset_sum, Polynomial.eval_mul,
      Polynomial.eval_C, Polynomial.eval_pow, Polynomial.eval_X]
  have hPQ : P p = P q := by
    let s : Finset R := (xs.toFinset).image (fun n : ℕ => (n : R))
    have hcard : s.card = xs.length := by
      rw [Finset.card_image_of_injective _ Nat.cast_injective, List.toFinset_card_of_nodup hnd]
    have hc : ((d + 1 : ℕ) : WithBot ℕ) ≤ (s.card : WithBot ℕ) := by
      rw [hcard]; exact_mod_cast hlen
    refine Polynomial.eq_of_degrees_lt_of_eval_finset_eq s ((hdeg p).trans_le hc)
      ((hdeg q).trans_le hc) ?_
    intro x hx
    obtain ⟨n, hn, rfl⟩ := Finset.mem_image.mp hx
    rw [heval p _ hp, heval q _ hq]
    exact h n (List.mem_toFinset.mp hn)
  have hcoef : ∀ (l : List R) (i : ℕ), i < d + 1 → (P l).coeff i = l.getD i 0 := by
    intro l i hi
    simp only [P, Polynomial.finset_sum_coeff, Polynomial.coeff_C_mul_X_pow]
    rw [Finset.sum_ite_eq, if_pos (Finset.mem_range.mpr hi)]
  apply List.ext_getElem (by rw [hp, hq])
  intro i h1 h2
  have e := congrArg (fun r => Polynomial.coeff r i) hPQ
  simp only [hcoef p i (by omega), hcoef q i (by omega)] at e
  simpa [List.getD_eq_getElem?_getD, List.getElem?_eq_getElem h1,
    List.getElem?_eq_getElem h2] using e

theorem zip_map_self {α β : Type} (l : List α) (f : α → β) :
    l.zip (l.map f) = l.map fun x => (x, f x) := by
  induction l with
  | nil => rfl
  | cons a l ih => simp [ih]

/-- A least squares fit to values that are a polynomial of the degree returns that polynomial. -/
theorem fit_exact (fit : List ℕ → List R → ℕ → List R) (hfit : Spec.LeastSquaresFit fit)
    (q : List R) (d : ℕ) (hq : q.length = d + 1) (xs : List ℕ) (hnd : xs.Nodup)
    (hlen : d < xs.length) :
    fit xs (xs.map fun x : ℕ => Spec.PolyAt q (x : R)) d = q := by
  obtain ⟨hl, hmin⟩ := hfit xs (xs.map fun x : ℕ => Spec.PolyAt q (x : R)) d
  have h0 := hmin q hq
  have hz : Spec.Residual q xs (xs.map fun x : ℕ => Spec.PolyAt q (x : R)) = 0 := by
    unfold Spec.Residual
    rw [zip_map_self, List.map_map]
    refine List.sum_eq_zero ?_
    intro y hy
    obtain ⟨x, _, rfl⟩ := List.mem_map.mp hy
    simp
  rw [hz] at h0
  refine polyAt_unique _ _ d hl hq xs hnd hlen ?_
  intro x hx
  set c := fit xs (xs.map fun x : ℕ => Spec.PolyAt q (x : R)) d
  have hmem : (Spec.PolyAt q (x : R) - Spec.PolyAt c (x : R)) ^ 2 ∈
      ((xs.zip (xs.map fun x : ℕ => Spec.PolyAt q (x : R))).map fun s =>
        (s.2 - Spec.PolyAt c (s.1 : R)) ^ 2) := by
    refine List.mem_map.mpr ⟨(x, Spec.PolyAt q (x : R)), ?_, rfl⟩
    rw [zip_map_self]
    exact List.mem_map.mpr ⟨x, hx, rfl⟩
  have hle := List.single_le_sum (l := ((xs.zip (xs.map fun x : ℕ => Spec.PolyAt q (x : R))).map
    fun s => (s.2 - Spec.PolyAt c (s.1 : R)) ^ 2)) (by
      intro y hy
      obtain ⟨s, _, rfl⟩ := List.mem_map.mp hy
      positivity) _ hmem
  have : (Spec.PolyAt q (x : R) - Spec.PolyAt c (x : R)) ^ 2 = 0 :=
    le_antisymm (hle.trans h0) (sq_nonneg _)
  have := pow_eq_zero_iff (two_ne_zero) |>.mp this
  linarith

end PolySum

/-- Over the real numbers there is a least squares fit for all data and degrees. -/
theorem exists_leastSquaresFit : ∃ fit : List ℕ → List ℝ → ℕ → List ℝ, Spec.LeastSquaresFit fit := by
  suffices h : ∀ xs ys d, ∃ p : List ℝ, p.length = d + 1 ∧
      ∀ q : List ℝ, q.length = d + 1 → Spec.Residual p xs ys ≤ Spec.Residual q xs ys by
    choose fit hf using h
    exact ⟨fit, hf⟩
  intro xs ys d
  let l := xs.zip ys
  let V := EuclideanSpace ℝ (Fin l.length)
  let A : (Fin (d + 1) → ℝ) →ₗ[ℝ] V :=
    { toFun := fun q => WithLp.toLp 2 fun i => ∑ j : Fin (d + 1), q j * ((l.get i).1 : ℝ) ^ (j : ℕ)
      map_add' := by
        intro a b
        ext i
        simp [add_mul, Finset.sum_add_distrib]
        rfl
      map_smul' := by
        intro r a
        ext i
        simp [mul_assoc]
        rw [← Finset.mul_sum]
        rfl }
  let y : V := WithLp.toLp 2 fun i => (l.get i).2
  have hres : ∀ q : List ℝ, q.length = d + 1 →
      Spec.Residual q xs ys = ‖y - A (fun j => q.getD j 0)‖ ^ 2 := by
    intro q hq
    rw [EuclideanSpace.norm_sq_eq]
    unfold Spec.Residual
    have : (l.map fun s => (s.2 - Spec.PolyAt q (s.1 : ℝ)) ^ 2).sum =
        ∑ i : Fin l.length, ((l.get i).2 - Spec.PolyAt q ((l.get i).1 : ℝ)) ^ 2 := by
      rw [← List.sum_ofFn]
      congr 1
      apply List.ext_getElem <;> simp
    rw [this]
    refine Finset.sum_congr rfl ?_
    intro i _
    simp only [Spec.PolyAt, hq, Finset.sum_range, Real.norm_eq_abs, sq_abs]
    rfl
  have hmem : (LinearMap.range A).starProjection y ∈ LinearMap.range A :=
    Submodule.starProjection_apply_mem _ _
  obtain ⟨c, hc⟩ := hmem
  refine ⟨List.ofFn c, by simp, ?_⟩
  intro q hq
  rw [hres _ (by simp), hres q hq]
  have e : (fun j : Fin (d + 1) => (List.ofFn c).getD j 0) = c := by
    funext j
    have hj : (j : ℕ) < (List.ofFn c).length := by rw [List.length_ofFn]; exact j.2
    rw [getD_of_lt hj, List.getElem_ofFn]
  rw [e, hc]
  have hmin := Submodule.starProjection_minimal (U := LinearMap.range A) y
  have hle : ‖y - (LinearMap.range A).starProjection y‖ ≤ ‖y - A (fun j => q.getD j 0)‖ := by
    rw [hmin]
    exact ciInf_le ⟨0, by rintro _ ⟨w, rfl⟩; exact norm_nonneg _⟩
      (⟨A fun j => q.getD j 0, LinearMap.mem_range_self _ _⟩ : LinearMap.range A)
  exact pow_le_pow_left₀ (norm_nonneg _) hle 2

/-! ## C88: the polynomial fits -/

section Fits

variable {R K : Type} [Field R] [LinearOrder R] [IsStrictOrderedRing R] [Field K]

/-- C88: when the unwrapped phases of the used channels are a polynomial of the degree asked for, the
fitted phase is that polynomial at every channel, used or flagged. -/
theorem C88_phase (c : PolyFit R K) (hfit : Spec.LeastSquaresFit c.fit) (d : ℕ) (fs : List ℕ)
    (hnd : fs.Nodup) (hlen : d < fs.length) (gain : ℕ → K) (q : List R) (hq : q.length = d + 1)
    (hphase : c.unwrap (fs.map fun g => c.arg (gain g)) =
      fs.map fun x : ℕ => Spec.PolyAt q (x : R)) (f : ℕ) :
    phaseFitAt c d fs gain f = Spec.PolyAt q (f : R) := by
  unfold phaseFitAt
  simp only [hphase, fit_exact c.fit hfit q d hq fs hnd hlen]
  exact polySum_full q f

/-- C88: in general the fitted phase is a polynomial of the degree asked for with the least sum of
squared residuals. -/
theorem C88_phase_least (c : PolyFit R K) (hfit : Spec.LeastSquaresFit c.fit) (d : ℕ) (fs : List ℕ)
    (gain : ℕ → K) : ∃ p : List R, p.length = d + 1 ∧
      (∀ f : ℕ, phaseFitAt c d fs gain f = Spec.PolyAt p (f : R)) ∧
      ∀ q : List R, q.length = d + 1 →
        Spec.Residual p fs (c.unwrap (fs.map fun g => c.arg (gain g))) ≤
          Spec.Residual q fs (c.unwrap (fs.map fun g => c.arg (gain g))) :=
  ⟨_, (hfit _ _ d).1, fun f => polySum_full _ f, (hfit _ _ d).2⟩

theorem polyAt_drop_last (q : List R) (d f : ℕ) (hq : q.length = d + 1) :
    polySum q d f = Spec.PolyAt q (f : R) - q.getD d 0 * (f : R) ^ d := by
  rw [polySum_eq]
  unfold Spec.PolyAt
  rw [hq, Finset.sum_range_succ]
  ring

/-- C88 fails for the amplitudes: the fitted amplitude is the least squares polynomial of the degree
asked for without its term of highest degree. -/
theorem C88_amp_least_dropped (c : PolyFit R K) (hfit : Spec.LeastSquaresFit c.fit) (d : ℕ)
    (fs : List ℕ) (gain : ℕ → K) : ∃ p : List R, p.length = d + 1 ∧
      (∀ f : ℕ, ampFit c d fs gain f = Spec.PolyAt p (f : R) - p.getD d 0 * (f : R) ^ d) ∧
      ∀ q : List R, q.length = d + 1 →
        Spec.Residual p fs (fs.map fun g => c.mag (gain g)) ≤
          Spec.Residual q fs (fs.map fun g => c.mag (gain g)) :=
  ⟨_, (hfit _ _ d).1, fun f => polyAt_drop_last _ d f (hfit _ _ d).1, (hfit _ _ d).2⟩

/-- C88 fails for the amplitudes: when the amplitudes of the used channels are a polynomial of the
degree asked for, the fit is wrong by the term of highest degree. -/
theorem C88_amp_dropped (c : PolyFit R K) (hfit : Spec.LeastSquaresFit c.fit) (d : ℕ) (fs : List ℕ)
    (hnd : fs.Nodup) (hlen : d < fs.length) (gain : ℕ → K) (q : List R) (hq : q.length = d + 1)
    (hamp : ∀ g ∈ fs, c.mag (gain g) = Spec.PolyAt q (g : R)) (f : ℕ) :
    ampFit c d fs gain f = Spec.PolyAt q (f : R) - q.getD d 0 * (f : R) ^ d := by
  unfold ampFit
  rw [List.map_congr_left hamp, fit_exact c.fit hfit q d hq fs hnd hlen]
  exact polyAt_drop_last q d f hq

/-- C88, the part that holds: amplitudes that are a polynomial of lower degree than the one asked for
are reproduced at every channel, used or flagged. -/
theorem C88_amp_partial (c : PolyFit R K) (hfit : Spec.LeastSquaresFit c.fit) (d : ℕ) (fs : List ℕ)
    (hnd : fs.Nodup) (hlen : d < fs.length) (gain : ℕ → K) (q : List R) (hq : q.length = d)
    (hamp : ∀ g ∈ fs, c.mag (gain g) = Spec.PolyAt q (g : R)) (f : ℕ) :
    ampFit c d fs gain f = Spec.PolyAt q (f : R) := by
  have hpad : ∀ x : R, Spec.PolyAt (q ++ [0]) x = Spec.PolyAt q x := by
    intro x
    unfold Spec.PolyAt
    rw [List.length_append, List.length_singleton, Finset.sum_range_succ]
    have e : (q ++ [0]).getD q.length 0 = 0 := by simp
    rw [e, zero_mul, add_zero]
    refine Finset.sum_congr rfl ?_
    intro i hi
    have hi' := Finset.mem_range.mp hi
    simp [List.getElem?_append_left hi']
  rw [C88_amp_dropped c hfit d fs hnd hlen gain (q ++ [0]) (by simp [hq])
    (fun g hg => by rw [hpad]; exact hamp g hg) f, hpad]
  have e : (q ++ [(0 : R)]).getD d 0 = 0 := by subst hq; simp
  rw [e]; ring

/-- C88: without the gain jump, a tile whose amplitudes and unwrapped phases are polynomials of degree
below 2 and at most 1 gets exactly these from the default degrees. -/
theorem C88_default_degrees (c : PolyFit R K) (hfit : Spec.LeastSquaresFit c.fit) (fs : List ℕ)
    (hnd : fs.Nodup) (hlen : 2 < fs.length) (low : ℕ → Bool) (gain : ℕ → K) (a b s t : R)
    (hamp : ∀ g ∈ fs, c.mag (gain g) = a + b * (g : R))
    (hphase : c.unwrap (fs.map fun g => c.arg (gain g)) = fs.map fun x : ℕ => s + t * (x : R)) :
    ∃ out, polyTile c false 0 0 fs low gain = .ok out ∧
      ∀ f : ℕ, out f = c.cast (a + b * (f : R)) * c.expi (s + t * (f : R)) := by
  have lin : ∀ (u v x : R), Spec.PolyAt [u, v] x = u + v * x := by
    intro u v x; simp [Spec.PolyAt, Finset.sum_range_succ]
  refine ⟨_, rfl, ?_⟩
  intro f
  have h1 := C88_amp_partial c hfit 2 fs hnd hlen gain [a, b] rfl
    (fun g hg => by rw [lin]; exact hamp g hg) f
  have h2 := C88_phase c hfit 1 fs hnd (by omega) gain [s, t] rfl
    (by rw [hphase]; exact List.map_congr_left fun x _ => (lin s t x).symm) f
  rw [lin] at h1 h2
  show c.cast (ampFit c 2 fs gain f) * c.expi (phaseFitAt c 1 fs gain f) = _
  rw [h1, h2]

/-- The numerical functions for real numbers and gains with a non-negative real value. -/
noncomputable def exPoly : PolyFit ℝ ℝ where
  fit := Classical.choose exists_leastSquaresFit
  unwrap := id
  mag := fun x => |x|
  arg := fun _ => 0
  expi := fun _ => 1
  cast := id

theorem exPoly_least : Spec.LeastSquaresFit exPoly.fit :=
  Classical.choose_spec exists_leastSquaresFit

example : ∃ out, polyTile exPoly false 0 0 [1, 2, 5, 7] (fun _ => true)
      (fun f => 3 + 2 * (f : ℝ)) = .ok out ∧
    ∀ f : ℕ, out f = 3 + 2 * (f : ℝ) := by
  obtain ⟨out, h, ho⟩ := C88_default_degrees exPoly exPoly_least [1, 2, 5, 7] (by decide) (by decide)
    (fun _ => true) (fun f => 3 + 2 * (f : ℝ)) 3 2 0 0
    (fun g _ => abs_of_nonneg (by positivity)) (by simp [exPoly])
  exact ⟨out, h, fun f => by rw [ho]; simp [exPoly]⟩

/-- A quadratic amplitude `1 + f ^ 2` comes out as the constant 1. -/
example (f : ℕ) : ampFit exPoly 2 [1, 2, 5, 7] (fun f => 1 + (f : ℝ) ^ 2) f = 1 := by
  rw [C88_amp_dropped exPoly exPoly_least 2 [1, 2, 5, 7] (by decide) (by decide) _ [1, 0, 1] rfl
    (fun g _ => by
      rw [show exPoly.mag = fun x => |x| from rfl]
      simp only [Spec.PolyAt, Finset.sum_range_succ, List.length]
      rw [abs_of_nonneg (by positivity)]
      simp) f]
  simp [Spec.PolyAt, Finset.sum_range_succ]

/-! ## C88: the gain jump -/

theorem low_last (low : ℕ → Bool) (lo hi : List ℕ) (g : ℕ) (hg : low g = true)
    (hhi : ∀ f ∈ hi, low f = false) :
    ((List.range ((lo ++ [g]) ++ hi).length).filter
      fun i => low (((lo ++ [g]) ++ hi).getD i 0)).getLast? = some lo.length := by
  have hl : ((lo ++ [g]) ++ hi).length = lo.length + 1 + hi.length := by simp; ring
  rw [hl, List.range_add, List.range_succ, List.filter_append, List.filter_append]
  have e1 : (List.map (fun x => lo.length + 1 + x) (List.range hi.length)).filter
      (fun i => low (((lo ++ [g]) ++ hi).getD i 0)) = [] := by
    rw [List.filter_eq_nil_iff]
    intro i hi'
    obtain ⟨j, hj, rfl⟩ := List.mem_map.mp hi'
    have hj := List.mem_range.mp hj
    have : ((lo ++ [g]) ++ hi).getD (lo.length + 1 + j) 0 = hi[j] := by
      simp only [List.getD_eq_getElem?_getD]
      rw [List.getElem?_append_right (by simp)]
      simp [List.getElem?_eq_getElem hj]
    rw [this, hhi _ (List.getElem_mem hj)]
    simp
  have e2 : [lo.length].filter (fun i => low (((lo ++ [g]) ++ hi).getD i 0)) = [lo.length] := by
    have : ((lo ++ [g]) ++ hi).getD lo.length 0 = g := by simp
    simp only [List.filter_cons, this, hg, if_true, List.filter_nil]
  rw [e1, e2, List.append_nil]
  simp

/-- C88 fails with the gain jump: on data without a used channel below the jump the gains become zero
at every channel, although the log says that the full band is fitted instead. -/
theorem C88_jump_zero (c : PolyFit R K) (h0 : c.cast 0 = 0) (ampDeg phaseDeg : ℕ) (fs : List ℕ)
    (low : ℕ → Bool) (hlow : ∀ f ∈ fs, low f = false) (gain : ℕ → K) :
    polyTile c true ampDeg phaseDeg fs low gain = .ok fun _ => 0 := by
  have e : (List.range fs.length).filter (fun i => low (fs.getD i 0)) = [] := by
    rw [List.filter_eq_nil_iff]
    intro i hi
    have hi := List.mem_range.mp hi
    have : fs.getD i 0 = fs[i] := by simp [List.getElem?_eq_getElem hi]
    rw [this, hlow _ (List.getElem_mem hi)]
    simp
  simp only [polyTile, jumpFit, e, List.getLast?_nil, if_true, bind, Except.bind, h0, zero_mul]

/-- C88 fails with the gain jump: data entirely below the jump raise an exception. -/
theorem C88_jump_low_raises (c : PolyFit R K) (ampDeg phaseDeg : ℕ) (fs : List ℕ) (low : ℕ → Bool)
    (hne : fs ≠ []) (hlow : ∀ f ∈ fs, low f = true) (gain : ℕ → K) :
    polyTile c true ampDeg phaseDeg fs low gain = .error .typeError := by
  obtain ⟨lo, g, hfs⟩ := List.eq_nil_or_concat fs |>.resolve_left hne
  rw [List.concat_eq_append] at hfs
  subst hfs
  have e := low_last low lo [] g (hlow g (by simp)) (by simp)
  rw [List.append_nil] at e
  have hd : (lo ++ [g]).drop (lo.length + 1) = [] := by simp
  simp only [polyTile, jumpFit, e, hd, if_true, bind, Except.bind]

/-- C88 fails with the gain jump: unless the first used channel is channel 1 (or the last one below
the jump is) an exception is raised. -/
theorem C88_jump_raises (c : PolyFit R K) (ampDeg phaseDeg : ℕ) (lo hi : List ℕ) (g : ℕ)
    (low : ℕ → Bool) (hg : low g = true) (hhi : ∀ f ∈ hi, low f = false) (hne : hi ≠ [])
    (hfirst : (lo ++ [g]).head? ≠ some 1) (hlast : g ≠ 1) (gain : ℕ → K) :
    polyTile c true ampDeg phaseDeg (lo ++ [g] ++ hi) low gain = .error .valueError := by
  have e := low_last low lo hi g hg hhi
  have hd : (lo ++ [g] ++ hi).drop (lo.length + 1) = hi := by
    rw [List.drop_append_of_le_length (by simp)]; simp
  have h1 : (lo ++ [g] ++ hi).getD lo.length 0 = g := by simp
  have h2 : (lo ++ [g] ++ hi).getD 0 0 ≠ 1 := by
    cases lo with
    | nil => simpa using hlast
    | cons a l => simpa using hfirst
  simp only [polyTile, jumpFit, e, hd, hne, h1, if_true, if_false, hlast, h2, ne_eq,
    not_false_eq_true, and_self, bind, Except.bind]

/-- C88 with the gain jump, first used channel 1: for amplitudes that are a straight line below the
jump and another above, the fit above is right, the fit below is the value of the channel before,
and flagged channels at the edges of the band get zero. -/
theorem C88_jump_shifted (c : PolyFit R K) (hfit : Spec.LeastSquaresFit c.fit) (lo hi : List ℕ)
    (g : ℕ) (low : ℕ → Bool) (hg : low g = true) (hhi : ∀ f ∈ hi, low f = false)
    (hsorted : (1 :: lo ++ [g] ++ hi).Pairwise (· < ·)) (h2 : 2 ≤ hi.length) (gain : ℕ → K)
    (a b a' b' : R) (hlo : ∀ f ∈ 1 :: lo ++ [g], c.mag (gain f) = a + b * (f : R))
    (hup : ∀ f ∈ hi, c.mag (gain f) = a' + b' * (f : R)) :
    ∃ amp, jumpFit c 2 (1 :: lo ++ [g] ++ hi) low gain = .ok amp ∧
      (∀ f, 1 ≤ f → f ≤ g → amp f = a + b * ((f : R) - 1)) ∧
      (∀ f, hi.headD 0 ≤ f → f ≤ hi.getLastD 0 → amp f = a' + b' * (f : R)) ∧
      (∀ f, f = 0 ∨ g < f ∧ f < hi.headD 0 ∨ hi.getLastD 0 < f → amp f = 0) := by
  have lin : ∀ (u v x : R), Spec.PolyAt [u, v] x = u + v * x := by
    intro u v x; simp [Spec.PolyAt, Finset.sum_range_succ]
  have hnd : (1 :: lo ++ [g] ++ hi).Nodup := hsorted.imp (fun h => ne_of_lt h)
  have e := low_last low (1 :: lo) hi g hg hhi
  have hd : (1 :: lo ++ [g] ++ hi).drop ((1 :: lo).length + 1) = hi := by
    rw [List.drop_append_of_le_length (by simp)]; simp
  have ht : (1 :: lo ++ [g] ++ hi).take ((1 :: lo).length + 1) = 1 :: lo ++ [g] := by
    rw [List.take_append_of_le_length (by simp)]; simp
  have h1 : (1 :: lo ++ [g] ++ hi).getD (1 :: lo).length 0 = g := by simp
  have hne : hi ≠ [] := by intro h; simp [h] at h2
  have hf : (1 :: lo ++ [g] ++ hi).getD 0 0 = 1 := by simp
  have hl : (1 :: lo ++ [g] ++ hi).getLastD 0 = hi.getLastD 0 := by
    rw [List.getLastD_eq_getLast?, List.getLastD_eq_getLast?, List.getLast?_append_of_ne_nil _ hne]
  have hg1 : 1 < g := by
    have := (List.pairwise_append.mp hsorted).1
    have := (List.pairwise_cons.mp this).1 g (by simp)
    exact this
  have hghi : ∀ f ∈ hi, g < f := fun f hf =>
    (List.pairwise_append.mp hsorted).2.2 g (by simp) f hf
  have c1 : c.fit (1 :: lo ++ [g]) ((1 :: lo ++ [g]).map fun f => c.mag (gain f)) 1 = [a, b] := by
    rw [List.map_congr_left fun f hf => (hlo f hf).trans (lin a b (f : R)).symm]
    exact fit_exact c.fit hfit [a, b] 1 rfl _ (List.nodup_append.mp hnd).1 (by simp)
  have c2 : c.fit hi (hi.map fun f => c.mag (gain f)) 1 = [a', b'] := by
    rw [List.map_congr_left fun f hf => (hup f hf).trans (lin a' b' (f : R)).symm]
    exact fit_exact c.fit hfit [a', b'] 1 rfl _ (List.nodup_append.mp hnd).2.1 (by omega)
  have ps : ∀ (u v : R) (n : ℕ), polySum [u, v] 2 n = u + v * (n : R) := by
    intro u v n
    rw [show (2 : ℕ) = [u, v].length from rfl, polySum_full, lin]
  have hheadmem : hi.headD 0 ∈ hi := by
    cases hi with
    | nil => exact absurd rfl hne
    | cons x l => simp
  have hlastmem : hi.getLastD 0 ∈ hi := by
    rw [List.getLastD_eq_getLast?, List.getLast?_eq_some_getLast hne]
    exact List.getLast_mem hne
  have hgh := hghi _ hheadmem
  have hgl := hghi _ hlastmem
  unfold jumpFit
  simp only [e, hd, ht, hne, h1, hf, hl, if_false, ne_eq, not_true_eq_false, and_false,
    Nat.add_one_sub_one, c1, c2, ps]
  refine ⟨_, rfl, ?_, ?_, ?_⟩
  · intro f hf1 hf2
    have n1 : ¬ g = 1 := by omega
    have n2 : ¬ (hi.headD 0 ≤ f ∧ f ≤ hi.getLastD 0) := by omega
    rw [if_pos ⟨hf1, hf2⟩, if_neg n1, if_neg n2, add_zero, Nat.cast_sub hf1, Nat.cast_one]
  · intro f hf1 hf2
    have n1 : ¬ (1 ≤ f ∧ f ≤ g) := by omega
    rw [if_neg n1, if_pos ⟨hf1, hf2⟩, zero_add]
  · intro f hf1
    have n1 : ¬ (1 ≤ f ∧ f ≤ g) := by omega
    have n2 : ¬ (hi.headD 0 ≤ f ∧ f ≤ hi.getLastD 0) := by omega
    rw [if_neg n1, if_neg n2, add_zero]

/-- C88 with the gain jump: other degrees than 2 raise an exception. -/
theorem C88_jump_degree_raises (c : PolyFit R K) (ampDeg phaseDeg : ℕ) (h0 : ampDeg ≠ 0)
    (h2 : ampDeg ≠ 2) (fs : List ℕ) (low : ℕ → Bool) (hlow : ∃ f ∈ fs, low f = true)
    (gain : ℕ → K) : ∃ err, polyTile c true ampDeg phaseDeg fs low gain = .error err := by
  obtain ⟨g, hg, hl⟩ := hlow
  have hne : (List.range fs.length).filter (fun i => low (fs.getD i 0)) ≠ [] := by
    intro h
    rw [List.filter_eq_nil_iff] at h
    obtain ⟨i, hi, rfl⟩ := List.mem_iff_getElem.mp hg
    refine h i (List.mem_range.mpr hi) ?_
    simpa [List.getElem?_eq_getElem hi] using hl
  simp only [polyTile, jumpFit, degreeOr, h0, if_false, if_true, bind, Except.bind,
    List.getLast?_eq_some_getLast hne]
  split_ifs <;> exact ⟨_, rfl⟩

example : polyTile exPoly true 2 1 [3, 4] (fun f => f < 2) (fun _ => 1) = .ok fun _ => 0 :=
  C88_jump_zero exPoly rfl 2 1 _ _ (by decide) _

example : polyTile exPoly true 2 1 [3, 4] (fun f => f < 9) (fun _ => 1) = .error .typeError :=
  C88_jump_low_raises exPoly 2 1 _ _ (by decide) (by decide) _

example : polyTile exPoly true 2 1 [2, 3, 4, 8, 9] (fun f => f < 5) (fun _ => 1) =
    .error .valueError :=
  C88_jump_raises exPoly 2 1 [2, 3] [8, 9] 4 (fun f => f < 5) (by decide) (by decide) (by decide)
    (by decide) (by decide) _

/-- Amplitudes `f` below the jump come out as `f - 1`. -/
example : ∃ amp, jumpFit exPoly 2 [1, 3, 4, 8, 9] (fun f => f < 5) (fun f => (f : ℝ)) = .ok amp ∧
    amp 3 = 2 ∧ amp 8 = 8 ∧ amp 0 = 0 := by
  obtain ⟨amp, h, h1, h2, h3⟩ := C88_jump_shifted exPoly exPoly_least [3] [8, 9] 4 (fun f => f < 5)
    (by decide) (by decide) (by decide) (by decide) (fun f => (f : ℝ)) 0 1 0 1
    (fun f _ => by simp [exPoly]) (fun f _ => by simp [exPoly])
  refine ⟨amp, h, ?_, ?_, h3 0 (Or.inl rfl)⟩
  · rw [h1 3 (by decide) (by decide)]; norm_num
  · rw [h2 8 (by decide) (by decide)]; norm_num

example : ∃ err, polyTile exPoly true 3 1 [1, 3, 8] (fun f => f < 5) (fun _ => 1) = .error err :=
  C88_jump_degree_raises exPoly 3 1 (by decide) (by decide) _ _ ⟨3, by decide, by decide⟩ _

end Fits

/-! ## C88: the reflections -/

section Refl

variable {K : Type} [Field K]

/-- C88: the options that cannot be used. -/
theorem C88_file_raises (o : ReflOpts) (h : o.file = true) (nPol nFreq nTile : ℕ)
    (tiles : List ℕ) : ∃ e, reflModes o nPol nFreq nTile tiles = .error e := by
  unfold reflModes
  simp only [h, Bool.or_true, Bool.true_or, Bool.not_true, Bool.false_eq_true, if_false, if_true]
  exact ⟨_, rfl⟩

/-- C88: finding the modes from the delay spectrum raises as soon as there are fewer tiles than half
the channels, as for the 128 tiles and 384 channels of the MWA. -/
theorem C88_delay_raises (o : ReflOpts) (hd : o.delay = true) (hf : o.file = false)
    (ht : o.theory = false) (nPol nFreq nTile : ℕ) (hp : nPol ≠ 0) (tiles : List ℕ)
    (hne : tiles ≠ []) (h : nTile < nFreq / 2) :
    reflModes o nPol nFreq nTile tiles = .error .indexError := by
  obtain ⟨t, ht'⟩ := List.exists_mem_of_ne_nil _ hne
  have : ∃ t ∈ tiles, nFreq ≤ t ∨ nTile < nFreq / 2 := ⟨t, ht', Or.inr h⟩
  simp [reflModes, hd, hf, ht, hp, this]

/-- C88: hyperresolution alone raises as soon as a tile is used. -/
theorem C88_hyper_alone_raises (o : ReflOpts) (hd : o.delay = false) (hf : o.file = false)
    (ht : o.theory = false) (hh : o.hyper = true) (nPol nFreq nTile : ℕ) (hp : nPol ≠ 0)
    (tiles : List ℕ) (hne : tiles ≠ []) :
    reflModes o nPol nFreq nTile tiles = .error .nameError := by
  simp [reflModes, hd, hf, ht, hh, hp, hne]

/-- Sum of the powers of a root of unity. -/
theorem root_sum (z : K) (N m : ℕ) (hz : z ^ N = 1) (hm : z ^ m ≠ 1) :
    ((List.range N).map fun f => z ^ (m * f)).sum = 0 := by
  have e : ((List.range N).map fun f => z ^ (m * f)).sum = ∑ f ∈ Finset.range N, (z ^ m) ^ f := by
    induction N with
    | zero => simp
    | succ n _ =>
      clear hz
      generalize n + 1 = k
      induction k with
      | zero => simp
      | succ k ih => rw [List.range_succ, List.map_append, List.sum_append, ih,
          Finset.sum_range_succ]; simp [pow_mul]
  rw [e, geom_sum_eq hm, ← pow_mul, mul_comm m N, pow_mul, hz, one_pow, sub_self, zero_div]

/-- The amplitude that the code finds for a reflection is `N` times the true one. -/
theorem modeFit_scaled (z : K) (N m : ℕ) (hz : z ^ N = 1) (hm : z ^ m ≠ 1) (a : K)
    (hz0 : z ≠ 0) : modeFit z m (List.range N) (fun f => 1 + a * (z ^ (m * f))⁻¹) = (N : K) * a := by
  unfold modeFit
  rw [div_one]
  have e : (fun f : ℕ => z ^ (m * f) * (1 + a * (z ^ (m * f))⁻¹)) =
      fun f : ℕ => z ^ (m * f) + a := by
    funext f
    have : z ^ (m * f) ≠ 0 := pow_ne_zero _ hz0
    field_simp
  rw [e, List.sum_map_add, root_sum z N m hz hm, zero_add]
  simp

/-- C88 fails for the reflections: over an unflagged band of `N` channels with a reflection of an
integer mode that is not zero, the gains get `N` times the reflection. -/
theorem C88_reflection_scaled (z : K) (N m : ℕ) (hN : 0 < N) (hz : z ^ N = 1) (hm : z ^ m ≠ 1)
    (a : K) (gain : ℕ → K) (f : ℕ) :
    applyMode z m (modeFit z m (List.range N) fun f => 1 + a * (z ^ (m * f))⁻¹) gain f =
      gain f * (1 + (N : K) * (a * (z ^ (m * f))⁻¹)) := by
  have hz0 : z ≠ 0 := by
    rintro rfl
    rw [zero_pow (by omega)] at hz
    exact zero_ne_one hz
  unfold applyMode
  rw [modeFit_scaled z N m hz hm a hz0]
  ring

/-- C88, the part that holds: the result of the fit divided by the number of channels is the
reflection. -/
theorem C88_reflection_partial [CharZero K] (z : K) (N m : ℕ) (hN : 0 < N) (hz : z ^ N = 1)
    (hm : z ^ m ≠ 1) (a : K) (gain : ℕ → K) (f : ℕ) :
    applyMode z m (modeFit z m (List.range N) (fun f => 1 + a * (z ^ (m * f))⁻¹) / (N : K)) gain f =
      gain f * (1 + a * (z ^ (m * f))⁻¹) := by
  have hz0 : z ≠ 0 := by
    rintro rfl
    rw [zero_pow (by omega)] at hz
    exact zero_ne_one hz
  have hN' : (N : K) ≠ 0 := Nat.cast_ne_zero.mpr (by omega)
  unfold applyMode
  rw [modeFit_scaled z N m hz hm a hz0, mul_div_cancel_left₀ _ hN']

example : reflModes ⟨false, false, true, false⟩ 2 384 128 [0, 1] = .error .indexError :=
  C88_delay_raises _ rfl rfl rfl 2 384 128 (by decide) _ (by decide) (by decide)

example : reflModes ⟨false, false, false, true⟩ 2 384 128 [0, 1] = .error .nameError :=
  C88_hyper_alone_raises _ rfl rfl rfl rfl 2 384 128 (by decide) _ (by decide)

example : reflModes ⟨true, false, false, true⟩ 2 384 128 [0, 1] = .ok true := by decide

/-- Two channels, a reflection of 1 %: 2 % are applied. -/
example : applyMode (-1 : ℚ) 1 (modeFit (-1) 1 (List.range 2)
    fun f => 1 + 1 / 100 * ((-1) ^ (1 * f))⁻¹) (fun _ => 1) 1 = 1 - 2 / 100 := by
  rw [C88_reflection_scaled (-1 : ℚ) 2 1 (by decide) (by norm_num) (by norm_num)]
  norm_num

end Refl

/-! ## C89: `calibrate` -/

section Calibrate

variable {G O V : Type}

/-- C89: whatever the options, the visibilities returned are the data calibrated with the gains
returned, for the observation returned, and the residual is the difference of the gains solved for
and the gains returned. -/
theorem C89_consistent (s : CalSteps G O V) (o : CalOpts) (obs obs' : O) (v : V) (g r : G)
    (h : calibrateGains s o obs = .ok (v, obs', g, r)) :
    v = s.apply obs' g ∧ ∃ g0 base,
      (if o.autoInit then s.autoInit = .ok g0 else g0 = s.init) ∧ s.solve g0 = .ok base ∧
      obs' = (if o.flag then s.flag obs base else obs) ∧ r = s.sub base g := by
  unfold calibrateGains at h
  simp only [bind, Except.bind] at h
  split at h
  · cases h
  · rename_i g0 hg0
    split at h
    · cases h
    · rename_i base hbase
      split at h
      · cases h
      · split at h
        · cases h
        · cases h
          refine ⟨rfl, g0, base, ?_, hbase, rfl, rfl⟩
          unfold calInit at hg0
          cases hi : o.autoInit
          · simp only [hi, Bool.false_eq_true, if_false] at hg0 ⊢
            cases hg0; rfl
          · simpa only [hi, if_true] using hg0

/-- C89 fails: polynomial fits without the bandpass raise a `KeyError`, whatever the data. -/
theorem C89_polyfit_alone_raises (s : CalSteps G O V) (o : CalOpts) (hb : o.bandpass = false)
    (hp : o.polyfit = true) (obs : O) : ∃ e, calibrateGains s o obs = .error e := by
  have e : ∀ obs' base, calFits s o obs' base = .error .keyError := by
    intro obs' base; simp [calFits, hb, hp]
  unfold calibrateGains
  simp only [bind, Except.bind, e]
  split
  · exact ⟨_, rfl⟩
  · split
    · exact ⟨_, rfl⟩
    · exact ⟨_, rfl⟩

/-- C89: without fits the gains returned are the ones solved for, and the residual is their difference
with themselves. -/
theorem C89_no_fits (s : CalSteps G O V) (o : CalOpts) (hb : o.bandpass = false)
    (hp : o.polyfit = false) (ha : o.autoFit = false) (hi : o.autoInit = false) (obs : O) (base : G)
    (hs : s.solve s.init = .ok base) : ∃ v obs', calibrateGains s o obs =
      .ok (v, obs', base, s.sub base base) := by
  refine ⟨s.apply (if o.flag then s.flag obs base else obs) base,
    if o.flag then s.flag obs base else obs, ?_⟩
  simp [calibrateGains, calInit, calAuto, calFits, hb, hp, ha, hi, hs, bind, Except.bind]

/-- C89: when the bandpass splits the gains into two factors and the polynomial fit reproduces the
second, the gains returned are the ones solved for, with or without auto-correlation ratios. -/
theorem C89_lossless_fits (s : CalSteps G O V) (o : CalOpts) (hb : o.bandpass = true)
    (hp : o.polyfit = true) (ha : o.autoFit = false) (hi : o.autoInit = false) (obs : O) (base : G)
    (hs : s.solve s.init = .ok base) (hdiv : ∀ g, s.remultiply (s.divide g) = g)
    (hband : ∀ ob g, ∃ b, s.bandpass ob g = .ok b ∧ s.mul b.2 b.1 = g)
    (hpoly : ∀ ob g, s.polyfit ob g = .ok g) :
    ∃ v obs', calibrateGains s o obs = .ok (v, obs', base, s.sub base base) := by
  obtain ⟨b, hb1, hb2⟩ := hband (if o.flag then s.flag obs base else obs)
    (if o.autoRatio then s.divide base else base)
  refine ⟨s.apply (if o.flag then s.flag obs base else obs) base,
    if o.flag then s.flag obs base else obs, ?_⟩
  have e : calFits s o (if o.flag then s.flag obs base else obs) base = .ok base := by
    unfold calFits
    rw [if_pos hb]
    simp only [bind, Except.bind, hb1, hpoly, hp, if_true, hb2]
    cases o.autoRatio
    · rfl
    · simp only [if_true, hdiv]
  simp only [calibrateGains, calInit, calAuto, bind, Except.bind, hi, hs, e, ha, Bool.false_eq_true, if_false]

/-- The steps of a calibration of one number. -/
def exSteps : CalSteps ℚ Bool ℚ where
  init := 1
  autoInit := .ok 2
  solve := fun g => .ok (3 * g)
  flag := fun _ _ => true
  divide := fun g => g / 2
  remultiply := fun g => g * 2
  bandpass := fun _ g => .ok (g / 3, 3)
  polyfit := fun _ g => .ok g
  autoFit := fun _ g => .ok (g + 1)
  apply := fun _ g => 10 / g
  mul := fun a b => a * b
  sub := fun a b => a - b

example : ∃ v obs', calibrateGains exSteps ⟨false, true, true, true, true, false⟩ false =
    .ok (v, obs', 3, 0) := by
  have := C89_lossless_fits exSteps ⟨false, true, true, true, true, false⟩ rfl rfl rfl rfl false 3
    (by simp [exSteps]) (fun g => by simp [exSteps])
    (fun _ g => ⟨_, rfl, by simp only [exSteps]; ring⟩) (fun _ _ => rfl)
  simpa [exSteps] using this

example : calibrateGains exSteps ⟨false, true, false, false, false, true⟩ false =
    .ok (5 / 2, true, 4, -1) := by decide +kernel

example : ∃ e, calibrateGains exSteps ⟨false, false, false, false, true, false⟩ false = .error e :=
  C89_polyfit_alone_raises _ _ rfl rfl _

/-! ## C89: the statistics -/

variable {R : Type} [Field R] [LinearOrder R] [IsStrictOrderedRing R]

namespace Spec

/-- `m` is the mean of `g` over all pairs of a frequency and a tile. -/
def IsMean (tiles freqs : List ℕ) (g : ℕ → ℕ → R) (m : R) : Prop :=
  m * ((freqs.length : R) * (tiles.length : R)) = (freqs.map fun f => (tiles.map (g f)).sum).sum

end Spec

theorem sum_flatMap_map (tiles freqs : List ℕ) (g : ℕ → ℕ → R) :
    (freqs.flatMap fun f => tiles.map fun t => g f t).sum =
      (freqs.map fun f => (tiles.map (g f)).sum).sum := by
  induction freqs with
  | nil => rfl
  | cons a l ih => simp [List.flatMap_cons, List.sum_append, ih]

theorem length_flatMap_map (tiles freqs : List ℕ) (g : ℕ → ℕ → R) :
    (freqs.flatMap fun f => tiles.map fun t => g f t).length = freqs.length * tiles.length := by
  induction freqs with
  | nil => simp
  | cons a l ih => simp [List.flatMap_cons, ih]; ring

/-- C89: the mean gain and the mean residual are the means over the used tiles and frequencies. -/
theorem C89_means (tiles freqs : List ℕ) (ht : tiles ≠ []) (hf : freqs ≠ []) (amp res : ℕ → ℕ → R) :
    Spec.IsMean tiles freqs amp (calStatistics tiles freqs amp res).1 ∧
    Spec.IsMean tiles freqs res (calStatistics tiles freqs amp res).2.1 := by
  have hn : ((freqs.length * tiles.length : ℕ) : R) ≠ 0 := by
    have h1 := List.length_pos_iff.mpr ht
    have h2 := List.length_pos_iff.mpr hf
    exact Nat.cast_ne_zero.mpr (Nat.mul_ne_zero (by omega) (by omega))
  simp only [calStatistics, ht, hf, or_self, if_false, Spec.IsMean, sum_flatMap_map,
    length_flatMap_map]
  rw [← Nat.cast_mul]
  exact ⟨div_mul_cancel₀ _ hn, div_mul_cancel₀ _ hn⟩

/-- C89: the statistics depend only on the gains of the used tiles and frequencies. -/
theorem C89_used_only (tiles freqs : List ℕ) (amp res amp' res' : ℕ → ℕ → R)
    (ha : ∀ f ∈ freqs, ∀ t ∈ tiles, amp f t = amp' f t)
    (hr : ∀ f ∈ freqs, ∀ t ∈ tiles, res f t = res' f t) :
    calStatistics tiles freqs amp res = calStatistics tiles freqs amp' res' := by
  have e : ∀ g g' : ℕ → ℕ → R, (∀ f ∈ freqs, ∀ t ∈ tiles, g f t = g' f t) →
      (freqs.flatMap fun f => tiles.map fun t => g f t) =
        freqs.flatMap fun f => tiles.map fun t => g' f t := by
    intro g g' h
    rw [List.flatMap_def, List.flatMap_def]
    congr 1
    exact List.map_congr_left fun f hf => List.map_congr_left fun t ht => h f hf t ht
  unfold calStatistics
  simp only [e amp amp' ha, e res res' hr]

/-- C89: the mean residual is zero exactly when the residuals of all used tiles and frequencies are. -/
theorem C89_zero_residual (tiles freqs : List ℕ) (ht : tiles ≠ []) (hf : freqs ≠ [])
    (amp res : ℕ → ℕ → R) (hres : ∀ f t, 0 ≤ res f t) :
    (calStatistics tiles freqs amp res).2.1 = 0 ↔ ∀ f ∈ freqs, ∀ t ∈ tiles, res f t = 0 := by
  have hm := (C89_means tiles freqs ht hf amp res).2
  unfold Spec.IsMean at hm
  have hin : ∀ f, 0 ≤ (tiles.map (res f)).sum := fun f =>
    List.sum_nonneg (by intro x hx; obtain ⟨t, _, rfl⟩ := List.mem_map.mp hx; exact hres f t)
  constructor
  · intro h0 f hfm t htm
    rw [h0, zero_mul] at hm
    have h1 := List.single_le_sum (l := freqs.map fun f => (tiles.map (res f)).sum) (by
      intro x hx; obtain ⟨f, _, rfl⟩ := List.mem_map.mp hx; exact hin f) _
      (List.mem_map.mpr ⟨f, hfm, rfl⟩)
    have h2 := List.single_le_sum (l := tiles.map (res f)) (by
      intro x hx; obtain ⟨t, _, rfl⟩ := List.mem_map.mp hx; exact hres f t) _
      (List.mem_map.mpr ⟨t, htm, rfl⟩)
    have := hres f t
    linarith
  · intro h
    have hz : (freqs.map fun f => (tiles.map (res f)).sum).sum = 0 := by
      refine List.sum_eq_zero ?_
      intro x hx
      obtain ⟨f, hfm, rfl⟩ := List.mem_map.mp hx
      refine List.sum_eq_zero ?_
      intro y hy
      obtain ⟨t, htm, rfl⟩ := List.mem_map.mp hy
      exact h f hfm t htm
    rw [hz] at hm
    have h1 : (0 : R) < (freqs.length : R) := Nat.cast_pos.mpr (List.length_pos_iff.mpr hf)
    have h2 : (0 : R) < (tiles.length : R) := Nat.cast_pos.mpr (List.length_pos_iff.mpr ht)
    rcases mul_eq_zero.mp hm with h | h
    · exact h
    · exact absurd h (ne_of_gt (mul_pos h1 h2))

example : calStatistics [0, 2] [1, 2] (fun f t => (f + t : ℚ)) (fun _ t => (t : ℚ)) =
    (5 / 2, 1, some 1, 1) := by decide +kernel

end Calibrate

end PyFHD
