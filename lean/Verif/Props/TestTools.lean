import Verif.Model.TestTools
import Mathlib.Tactic.Linarith
import Mathlib.Tactic.NormNum
import Mathlib.Algebra.Order.AbsoluteValue.Basic

/-!
# C262–C264: tools for comparisons with IDL
-/

namespace PyFHD

namespace Spec

/-- The indices of an array of some shape. -/
def indicesOf : List ℕ → List (List ℕ)
  | [] => [[]]
  | n :: s => (List.range n).flatMap fun i => (indicesOf s).map (i :: ·)

/-- Two numbers, NaN among them, that agree up to an absolute error. -/
def AgreeUpTo (tol : ℚ) : Option ℚ → Option ℚ → Prop
  | some a, some t => |a - t| ≤ tol
  | none, none => True
  | _, _ => False

/-- Indices inside a shape. -/
def IndexIn (s l : List ℕ) : Prop := List.Forall₂ (fun (i n : ℕ) => i < n) l s

/-- The last of some pairs with a key. -/
def lastOf {V : Type} (k : String) : List (String × V) → Option V
  | [] => none
  | kv :: l => (lastOf k l).or (if kv.1 = k then some kv.2 else none)

end Spec

open Spec

theorem mem_indicesOf (s l : List ℕ) : l ∈ indicesOf s ↔ IndexIn s l := by
  induction s generalizing l with
  | nil =>
    simp [indicesOf, IndexIn]
  | cons n s ih =>
    simp only [indicesOf, List.mem_flatMap, List.mem_range, List.mem_map]
    constructor
    · rintro ⟨i, hi, l', hl', rfl⟩
      exact List.Forall₂.cons hi ((ih l').1 hl')
    · intro h
      cases h with
      | cons h1 h2 => exact ⟨_, h1, _, (ih _).2 h2, rfl⟩

/-! ## C262: comparisons -/

/-- **C262**, partial: a comparison that passes has arrays of one shape, NaN at the same places, and numbers that differ by at most the
tolerance and a ten millionth of the target; and conversely. Missing: the second term, which the documentation does not have
(`C262_relative`). -/
theorem C262_passed_partial (a t : Nd (Option ℚ)) (tol : ℚ) :
    tryAssertAllClose a t (indicesOf t.shape) tol = true ↔
      a.shape = t.shape ∧ ∀ l, IndexIn t.shape l → AgreeUpTo (tol + 1 / 10000000 * |(t.entry l).getD 0|) (a.entry l) (t.entry l) := by
  unfold tryAssertAllClose
  rw [Bool.and_eq_true, decide_eq_true_iff, List.all_eq_true]
  refine and_congr Iff.rfl (forall_congr' fun l => ?_)
  rw [mem_indicesOf]
  refine imp_congr Iff.rfl ?_
  unfold closeAt AgreeUpTo
  cases a.entry l <;> cases t.entry l <;> simp

/-- **C262**: arrays that agree up to the tolerance pass. -/
theorem C262_accepts (a t : Nd (Option ℚ)) (tol : ℚ) (hs : a.shape = t.shape)
    (h : ∀ l, IndexIn t.shape l → AgreeUpTo tol (a.entry l) (t.entry l)) :
    tryAssertAllClose a t (indicesOf t.shape) tol = true := by
  rw [C262_passed_partial]
  refine ⟨hs, fun l hl => ?_⟩
  have := h l hl
  unfold AgreeUpTo at this ⊢
  cases ha : a.entry l <;> cases ht : t.entry l <;> simp only [ha, ht] at this ⊢
  have : 0 ≤ |(Option.getD (some _) (0 : ℚ))| := abs_nonneg (Option.getD (some ‹ℚ›) 0)
  linarith

/-- **C262** is violated: for every tolerance there are numbers that differ by more than it and pass. -/
theorem C262_relative (tol : ℚ) (htol : 0 ≤ tol) :
    ∃ a t : ℚ, tol < |a - t| ∧ tryAssertAllClose ⟨[], fun _ => some a⟩ ⟨[], fun _ => some t⟩ (indicesOf []) tol = true := by
  refine ⟨10000000 * (tol + 1) + (tol + 1), 10000000 * (tol + 1), ?_, ?_⟩
  · rw [add_sub_cancel_left, abs_of_nonneg (by linarith)]
    linarith
  · rw [C262_passed_partial]
    refine ⟨rfl, fun l _ => ?_⟩
    simp only [AgreeUpTo, Option.getD_some]
    rw [add_sub_cancel_left, abs_of_nonneg (by linarith), abs_of_nonneg (by linarith)]
    linarith

/-- Visibilities of a hundred thousand: an error of a hundredth passes with the default tolerance. -/
example : tryAssertAllClose ⟨[2], fun _ => some (100000 + 1 / 100)⟩ ⟨[2], fun _ => some 100000⟩ (indicesOf [2]) (1 / 100000000) = true := by
  decide +kernel

example : tryAssertAllClose ⟨[2], fun _ => some (1 + 1 / 100)⟩ ⟨[2], fun _ => some 1⟩ (indicesOf [2]) (1 / 100000000) = false := by
  decide +kernel

/-! ## C263: conversion -/

theorem dictPut_find {V : Type} (d : List (String × V)) (k : String) (v : V) (j : String) (hd : (d.map Prod.fst).Nodup) :
    lastOf j (dictPut d k v) = if j = k then some v else lastOf j d := by
  unfold dictPut
  split
  · next h =>
    induction d with
    | nil => simp at h
    | cons e d ih =>
      obtain ⟨k', v'⟩ := e
      simp only [List.map_cons, List.nodup_cons] at hd
      simp only [List.map_cons, lastOf]
      by_cases hk : k ∈ d.map Prod.fst
      · have hne : k' ≠ k := fun e => hd.1 (e ▸ hk)
        rw [if_neg hne, ih hd.2 hk]
        by_cases hj : j = k
        · simp [hj]
        · simp [hj]
      · have hek : k' = k := by
          simp only [List.map_cons, List.mem_cons] at h
          rcases h with h | h
          · exact h.symm
          · exact absurd h hk
        have hmap : (d.map fun kv => if kv.1 = k then (k, v) else kv) = d := by
          conv_rhs => rw [← List.map_id d]
          refine List.map_congr_left fun kv hkv => ?_
          rw [if_neg (fun (e : kv.1 = k) => hk (e ▸ List.mem_map_of_mem hkv))]
          rfl
        rw [if_pos hek, hmap]
        have hlast : lastOf k d = none := by
          clear ih hmap h hd
          induction d with
          | nil => rfl
          | cons e d ih =>
            simp only [List.map_cons, List.mem_cons, not_or] at hk
            simp only [lastOf, ih hk.2]
            simp [Ne.symm hk.1]
        subst hek
        by_cases hj : j = k'
        · subst hj
          simp [hlast]
        · simp [hj, Ne.symm hj]
  · next h =>
    clear hd
    induction d with
    | nil =>
      by_cases hj : j = k
      · simp [lastOf, hj]
      · simp [lastOf, hj, Ne.symm hj]
    | cons e d ih =>
      simp only [List.map_cons, List.mem_cons, not_or] at h
      simp only [List.cons_append, lastOf, ih h.2]
      by_cases hj : j = k <;> simp [hj]

theorem dictPut_nodup {V : Type} (d : List (String × V)) (k : String) (v : V) (hd : (d.map Prod.fst).Nodup) :
    ((dictPut d k v).map Prod.fst).Nodup := by
  unfold dictPut
  split
  · have : (d.map fun kv => if kv.1 = k then (k, v) else kv).map Prod.fst = d.map Prod.fst := by
      rw [List.map_map]
      refine List.map_congr_left fun kv _ => ?_
      simp only [Function.comp]
      split
      · next h => exact h.symm
      · rfl
    rw [this]
    exact hd
  · next h =>
    rw [List.map_append, List.nodup_append]
    refine ⟨hd, by simp, ?_⟩
    intro a ha b hb
    simp only [List.map_cons, List.map_nil, List.mem_singleton] at hb
    subst hb
    exact fun e => h (e ▸ ha)

theorem lastOf_append {V : Type} (j : String) (l m : List (String × V)) : lastOf j (l ++ m) = (lastOf j m).or (lastOf j l) := by
  induction l with
  | nil => simp [lastOf]
  | cons e l ih => simp only [List.cons_append, lastOf, ih, Option.or_assoc]

theorem foldPut {V : Type} (es d : List (String × V)) (hd : (d.map Prod.fst).Nodup) :
    ((es.foldl (fun d kv => dictPut d kv.1 kv.2) d).map Prod.fst).Nodup ∧
    ∀ j, lastOf j (es.foldl (fun d kv => dictPut d kv.1 kv.2) d) = (lastOf j es).or (lastOf j d) := by
  induction es generalizing d with
  | nil => exact ⟨hd, fun j => by simp [lastOf]⟩
  | cons e es ih =>
    obtain ⟨h1, h2⟩ := ih (dictPut d e.1 e.2) (dictPut_nodup d _ _ hd)
    refine ⟨h1, fun j => ?_⟩
    simp only [List.foldl_cons, h2, lastOf, dictPut_find d _ _ j hd, Option.or_assoc]
    by_cases hj : j = e.1
    · simp [hj]
    · simp [hj, Ne.symm hj]

/-- A file with one of the two extensions that could be read. -/
def Spec.readsAs {V : Type} (f : TestFile V) (es : List (String × V)) : Prop := f = .sav (.ok es) ∨ f = .npy (.ok es)

/-- **C263**, partial: if all files are `.sav` or `.npy` files that can be read, each variable of each file is saved once; where files
share a name, the last file wins. Missing: other files (`C263_other_file`). -/
theorem C263_all_saved_partial {V : Type} (fs : List (TestFile V)) (es : List (List (String × V))) (h : List.Forall₂ readsAs fs es) :
    ∃ d, convertToH5 fs = .ok d ∧ (d.map Prod.fst).Nodup ∧ ∀ j, lastOf j d = lastOf j es.flatten := by
  have : ∀ (fs : List (TestFile V)) (es : List (List (String × V))) (_ : List.Forall₂ readsAs fs es) (v : Option (List (String × V)))
      (d : List (String × V)), (d.map Prod.fst).Nodup →
      ∃ d', convertLoop fs v d = .ok d' ∧ (d'.map Prod.fst).Nodup ∧ ∀ j, lastOf j d' = lastOf j (d ++ es.flatten) := by
    intro fs es h
    induction h with
    | nil => intro v d hd; exact ⟨d, rfl, hd, fun j => by simp⟩
    | @cons f e fs es h _ ih =>
      intro v d hd
      obtain ⟨g1, g2⟩ := foldPut e d hd
      obtain ⟨d', h1, h2, h3⟩ := ih (some e) _ g1
      refine ⟨d', ?_, h2, fun j => ?_⟩
      · rcases h with rfl | rfl <;> simpa [convertLoop, Except.map, bind, Except.bind] using h1
      · rw [h3, lastOf_append, g2, List.flatten_cons, lastOf_append, lastOf_append, Option.or_assoc]
  obtain ⟨d, h1, h2, h3⟩ := this fs es h none [] (by simp)
  exact ⟨d, h1, h2, fun j => by rw [h3]; simp⟩

/-- **C263** is violated for a file with another extension: as the first file it ends in a `NameError`; later it is passed over without a
word, and the variables of the file before it are saved again. -/
theorem C263_other_file {V : Type} (fs : List (TestFile V)) (f : TestFile V) (es : List (String × V)) (hf : readsAs f es) :
    convertToH5 (.other :: fs : List (TestFile V)) = .error .nameError ∧
    ∃ d, convertToH5 [f, .other] = .ok d ∧ ∀ j, lastOf j d = lastOf j es := by
  refine ⟨rfl, ?_⟩
  obtain ⟨g1, g2⟩ := foldPut es [] (by simp)
  obtain ⟨_, k2⟩ := foldPut es _ g1
  refine ⟨_, ?_, fun j => (k2 j).trans ?_⟩
  · rcases hf with rfl | rfl <;> simp [convertToH5, convertLoop, Except.map, bind, Except.bind]
  · rw [g2]
    cases lastOf j es <;> simp [lastOf]

example : convertToH5 [.sav (.ok [("a", 1), ("b", 2)]), .npy (.ok [("b", 3)]), .other] = .ok [("a", 1), ("b", 3)] := by
  simp only [convertToH5, convertLoop, Except.map, bind, Except.bind]
  decide +kernel

/-! ## C264: axes -/

theorem assign_same {K : Type} (f b : ℕ) (a : Nd K) (hs : a.shape = [b, f]) :
    ∃ p, assignPol [f, b] a.transpose = .ok p ∧ ∀ i j, i < f → j < b → p.entry [i, j] = a.entry [j, i] := by
  unfold assignPol Nd.broadcastTo
  simp only [Nd.transpose, hs]
  refine ⟨_, by simp; rfl, fun i j hi hj => ?_⟩
  by_cases h1 : f = 1 <;> by_cases h2 : b = 1 <;> simp_all

/-- **C264**, partial: from arrays with an axis of baselines and one of channels, all of one shape, `(polarisation, channel, baseline)` of
the result is `(baseline, channel)` of the array of the polarisation. Missing: arrays of different shape (`C264_repeated`). -/
theorem C264_entries_partial {K : Type} [Inhabited K] (pols : List (Nd K)) (nBl nFreq : ℕ) (hne : pols ≠ [])
    (hs : ∀ a ∈ pols, a.shape = [nBl, nFreq]) :
    ∃ r, swapVisAxes pols = .ok r ∧ r.shape = [pols.length, nFreq, nBl] ∧
      ∀ p f b (hp : p < pols.length), f < nFreq → b < nBl → r.entry [p, f, b] = (pols[p]).entry [b, f] := by
  obtain ⟨first, rest, rfl⟩ := List.exists_cons_of_ne_nil hne
  have hfirst := hs first (by simp)
  have hmap : ∀ l : List (Nd K), (∀ a ∈ l, a.shape = [nBl, nFreq]) →
      ∃ ps, l.mapM (fun a => assignPol [nFreq, nBl] a.transpose) = .ok ps ∧ List.Forall₂
        (fun (a p : Nd K) => ∀ i j, i < nFreq → j < nBl → p.entry [i, j] = a.entry [j, i]) l ps := by
    intro l
    induction l with
    | nil => intro _; exact ⟨[], rfl, .nil⟩
    | cons a l ih =>
      intro h
      obtain ⟨ps, h1, h2⟩ := ih fun a' ha' => h a' (by simp [ha'])
      obtain ⟨p, g1, g2⟩ := assign_same nFreq nBl a (h a (by simp))
      refine ⟨p :: ps, ?_, .cons g2 h2⟩
      rw [List.mapM_cons, g1, h1]
      rfl
  obtain ⟨ps, h1, h2⟩ := hmap _ hs
  refine ⟨_, by simp only [swapVisAxes, hfirst, h1, bind, Except.bind, pure, Except.pure]; rfl, rfl, ?_⟩
  intro p f b hp hf hb
  have hp' : p < ps.length := by rw [← h2.length_eq]; exact hp
  have := (List.forall₂_iff_get.1 h2).2 p hp hp' f b hf hb
  simp only [List.headD_cons, List.tail_cons, List.getElem?_eq_getElem hp', Option.map_some, Option.getD_some]
  exact this

/-- **C264** is violated: a later polarisation with a single baseline is repeated for all baselines without a word. -/
theorem C264_repeated {K : Type} [Inhabited K] (a c : Nd K) (nBl nFreq : ℕ) (ha : a.shape = [nBl, nFreq]) (hc : c.shape = [1, nFreq]) :
    ∃ r, swapVisAxes [a, c] = .ok r ∧ ∀ f b, f < nFreq → b < nBl → r.entry [1, f, b] = c.entry [0, f] := by
  obtain ⟨p, g1, _⟩ := assign_same nFreq nBl a ha
  have : ∃ q, assignPol [nFreq, nBl] c.transpose = .ok q ∧ ∀ i j, i < nFreq → q.entry [i, j] = c.entry [0, i] := by
    unfold assignPol Nd.broadcastTo
    simp only [Nd.transpose, hc]
    refine ⟨_, by simp; rfl, fun i j hi => ?_⟩
    by_cases h1 : nFreq = 1 <;> simp_all
  obtain ⟨q, q1, q2⟩ := this
  refine ⟨_, by simp only [swapVisAxes, ha, List.mapM_cons, List.mapM_nil, g1, q1, bind, Except.bind, pure, Except.pure]; rfl, ?_⟩
  intro f b hf _
  simpa using q2 f b hf

example : (∀ a ∈ ([⟨[3, 2], fun l => l.sum⟩, ⟨[3, 2], fun l => 10 * l.sum⟩] : List (Nd ℕ)), a.shape = [3, 2]) := by
  simp

end PyFHD
