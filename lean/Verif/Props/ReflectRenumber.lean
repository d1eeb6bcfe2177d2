import Verif.Props.AutoRenumber
import Verif.Props.CalReflect

/-!
# C287: the fit of cable reflections does not depend on the numbers of the tiles
-/

namespace PyFHD

open Spec

variable {π : Equiv.Perm ℕ}

/-- `c'` is the input `c` of the fit of reflections with tile `t` called `π t`. -/
structure Spec.RenamedRefl (π : Equiv.Perm ℕ) (c c' : ReflIn) : Prop where
  N : c'.N = c.N
  nTile : c'.nTile = c.nTile
  inside : ∀ t, π t < c.nTile ↔ t < c.nTile
  fs : c'.fs = c.fs
  use : ∀ t, c'.use (π t) = c.use t
  mode : ∀ t, c'.mode (π t) = c.mode t
  gain : ∀ f t, c'.gain f (π t) = c.gain f t
  res : ∀ f t, c'.res f (π t) = c.res f t
  autos : c'.autos = c.autos.map fun a f t => a f (π.symm t)

/-- Every tile has a number among its auto-correlations. -/
def Spec.AllAutos (c : ReflIn) : Prop := ∀ a, c.autos = some a → ∀ t < c.nTile, ∃ f < c.N, a f t ≠ none

theorem nanMeanR_perm {a b : List (Option ℝ)} (h : a.Perm b) : nanMeanR a = nanMeanR b := by
  have hf := h.filterMap id
  unfold nanMeanR
  have he : a.filterMap id = [] ↔ b.filterMap id = [] := by
    rw [← List.length_eq_zero_iff, ← List.length_eq_zero_iff, hf.length_eq]
  simp only [he, hf.sum_eq, hf.length_eq]

theorem nanMeanR_ne_none {l : List (Option ℝ)} {x : Option ℝ} (hx : x ∈ l) (h : x ≠ none) : nanMeanR l ≠ none := by
  obtain ⟨y, rfl⟩ := Option.ne_none_iff_exists'.1 h
  unfold nanMeanR
  simp only
  rw [if_neg]
  · simp
  · intro hnil
    have : y ∈ l.filterMap id := List.mem_filterMap.2 ⟨some y, hx, rfl⟩
    rw [hnil] at this
    cases this

theorem copiedRow_range (n : ℕ) (m : ℕ → Option ℝ) (hm : ∀ t < n, m t ≠ none) (t : ℕ) :
    copiedRow ((List.range n).map m) t = if t < n then m t else none := by
  have hget : ∀ s, ((List.range n).map m).getD s none = if s < n then m s else none := by
    intro s
    rw [List.getD_eq_getElem?_getD, List.getElem?_map]
    split_ifs with h
    · rw [List.getElem?_range h]; rfl
    · rw [List.getElem?_eq_none (by simpa using h)]; rfl
  split_ifs with h
  · obtain ⟨x, hx⟩ := Option.ne_none_iff_exists'.1 (hm t h)
    rw [hx]
    refine copiedRow_keep _ t x (by rw [hget, if_pos h, hx]) fun h2 => ?_
    rw [List.length_map, List.length_range] at h2
    rw [hget, if_pos h2]
    exact hm _ h2
  · unfold copiedRow
    rw [hget, if_neg h]

theorem others_renamed {c c' : ReflIn} (h : RenamedRefl π c c') (mode : ℝ) : (c'.others mode).Perm ((c.others mode).map π) := by
  unfold ReflIn.others
  rw [h.nTile]
  refine ((range_renamed h.inside).filter _).trans ?_
  rw [List.filter_map]
  refine List.Perm.of_eq (congrArg _ (List.filter_congr fun t _ => ?_))
  simp only [Function.comp, h.use, h.mode]

theorem normAuto_renamed {c c' : ReflIn} (h : RenamedRefl π c c') (a : ℕ → ℕ → Option ℝ) (hall : ∀ t < c.nTile, ∃ f < c.N, a f t ≠ none)
    (f t : ℕ) : c'.normAuto (fun f t => a f (π.symm t)) f (π t) = c.normAuto a f t := by
  unfold ReflIn.normAuto
  have h1 : ∀ s < c.nTile, nanMeanR ((List.range c.N).map fun f => a f s) ≠ none := by
    intro s hs
    obtain ⟨f, hf, hn⟩ := hall s hs
    exact nanMeanR_ne_none (List.mem_map.2 ⟨f, List.mem_range.2 hf, rfl⟩) hn
  have hin : ∀ s, s < c.nTile → π.symm s < c.nTile := by
    intro s hs
    rw [← h.inside, Equiv.apply_symm_apply]
    exact hs
  rw [h.N, h.nTile, copiedRow_range _ _ h1, copiedRow_range _ _ fun s hs => h1 _ (hin s hs)]
  simp only [Equiv.symm_apply_apply, h.inside]

theorem nanMean_others {c c' : ReflIn} (h : RenamedRefl π c c') (mode : ℝ) (x x' : ℕ → Option ℝ) (hx : ∀ t, x' (π t) = x t) :
    nanMeanR ((c'.others mode).map x') = nanMeanR ((c.others mode).map x) := by
  rw [nanMeanR_perm ((others_renamed h mode).map x'), List.map_map]
  congr 1
  exact List.map_congr_left fun t _ => hx t

theorem autoShape_renamed {c c' : ReflIn} (h : RenamedRefl π c c') (a : ℕ → ℕ → Option ℝ)
    (hall : ∀ t < c.nTile, ∃ f < c.N, a f t ≠ none) (t f : ℕ) :
    c'.autoShape (fun f t => a f (π.symm t)) (π t) f = c.autoShape a t f := by
  unfold ReflIn.autoShape
  rw [normAuto_renamed h a hall, h.mode, nanMean_others h _ _ _ fun s => normAuto_renamed h a hall f s]

theorem resAuto_renamed {c c' : ReflIn} (h : RenamedRefl π c c') (a : ℕ → ℕ → Option ℝ)
    (hall : ∀ t < c.nTile, ∃ f < c.N, a f t ≠ none) (t f : ℕ) :
    c'.resAuto (fun f t => a f (π.symm t)) (π t) f = c.resAuto a t f := by
  unfold ReflIn.resAuto
  have : c'.autoShape (fun f t => a f (π.symm t)) (π t) = c.autoShape a t := funext fun f => autoShape_renamed h a hall t f
  rw [this, h.N]

theorem phaseDiff_renamed {c c' : ReflIn} (h : RenamedRefl π c c') (mode : ℝ) (t f : ℕ) :
    c'.phaseDiff mode (π t) f = c.phaseDiff mode t f := by
  unfold ReflIn.phaseDiff
  have ho := others_renamed h mode
  rw [h.res, (ho.map _).sum_eq, ho.length_eq, List.map_map, List.length_map]
  simp only [Function.comp_def, h.res]

theorem fit_renamed {c c' : ReflIn} (h : RenamedRefl π c c') (hall : AllAutos c) (t : ℕ) : c'.fit (π t) = c.fit t := by
  unfold ReflIn.fit
  rw [h.autos]
  cases ha : c.autos with
  | none => simp only [Option.map_none, h.N, h.fs, h.mode, h.res]
  | some a =>
    simp only [Option.map_some]
    have hm : c'.autoMode (fun f t => a f (π.symm t)) (π t) = c.autoMode a t := by
      unfold ReflIn.autoMode
      simp only [h.fs, h.N, h.mode, resAuto_renamed h a (hall a ha)]
    rw [hm]
    unfold ReflIn.phaseRefl
    have he : ∀ mode, c'.others mode = [] ↔ c.others mode = [] := by
      intro mode
      rw [← List.length_eq_zero_iff, ← List.length_eq_zero_iff, (others_renamed h mode).length_eq, List.length_map]
    simp only [he, h.fs, h.N, phaseDiff_renamed h]

/-- **C287 (partial).** The gains of a tile after the fit of reflections are the same whatever numbers the tiles have, without
auto-correlations or if every tile has some. Missing: tiles without auto-correlations (`C287_missing_autos`). -/
theorem C287_numbers_partial (c c' : ReflIn) (h : RenamedRefl π c c') (hall : AllAutos c) (f t : ℕ) :
    c'.after f (π t) = c.after f t := by
  unfold ReflIn.after
  simp only [h.use, h.mode, h.gain, fit_renamed h hall, h.N, h.autos]
  cases c.autos <;> rfl

/-- **C287 is violated** if a tile has no auto-correlations: a tile with auto-correlations that comes before it is given a mode 2.5 below the
nominal one; the same tile under another number, with tiles with auto-correlations (or none) after it, is compared with the others by its own
auto-correlations. -/
theorem C287_missing_autos (c : ReflIn) (a : ℕ → ℕ → Option ℝ) (t : ℕ) (ht : t + 1 < c.nTile)
    (hmissing : ∀ f, f < c.N → a f (t + 1) = none) (hfs : c.fs ≠ []) (f : ℕ) (x m : ℝ) (hx : a f t = some x)
    (hm : nanMeanR ((List.range c.N).map fun f => a f t) = some m) (hm0 : m ≠ 0)
    (hlast : t + 2 < c.nTile → ∃ f' < c.N, a f' (t + 2) ≠ none) :
    c.autoMode a t = c.mode t - 5 / 2 ∧ c.normAuto a f t = none ∧
      c.normAuto (fun f s => a f ((Equiv.swap t (t + 1)).symm s)) f (Equiv.swap t (t + 1) t) = some (x / m) := by
  obtain ⟨h1, h2⟩ := C154_neighbour_lost c a t ht hmissing hfs
  refine ⟨h2, h1 f, ?_⟩
  rw [Equiv.swap_apply_left]
  refine C154_normalised_partial c _ (t + 1) f ht x m ?_ ?_ hm0 ?_
  · simpa using hx
  · simpa using hm
  · intro h3
    obtain ⟨f', h4, h5⟩ := hlast h3
    refine ⟨f', h4, ?_⟩
    rw [Equiv.symm_swap, Equiv.swap_apply_of_ne_of_ne (by omega) (by omega)]
    exact h5

/-! ## Examples -/

/-- Two tiles on cables of different modes, with auto-correlations. -/
noncomputable def exRenRefl (s : ℕ → ℕ) : ReflIn :=
  ⟨2, 2, [0, 1], fun _ => true, fun t => (s t : ℝ) + 1, fun _ t => (s t : ℂ) + 1, fun _ _ => 1,
    some fun f t => if f = 0 ∧ s t = 0 then some 3 else some 1⟩

example : RenamedRefl (Equiv.swap 0 1) (exRenRefl id) (exRenRefl (Equiv.swap 0 1)) ∧ AllAutos (exRenRefl id) ∧
    (exRenRefl id).gain 0 0 ≠ (exRenRefl (Equiv.swap 0 1)).gain 0 0 := by
  refine ⟨⟨rfl, rfl, fun t => ?_, rfl, fun t => rfl, fun t => ?_, fun f t => ?_, fun f t => rfl, ?_⟩, ?_, ?_⟩
  · show _ < 2 ↔ t < 2
    rw [Equiv.swap_apply_def]
    split_ifs <;> omega
  · simp [exRenRefl]
  · simp [exRenRefl]
  · simp [exRenRefl]
  · intro a ha t _
    refine ⟨0, by simp [exRenRefl], ?_⟩
    simp only [exRenRefl, Option.some.injEq] at ha
    subst ha
    simp only
    split_ifs <;> simp
  · simp [exRenRefl]

/-- Two tiles, the second without auto-correlations. -/
example : ∃ (c : ReflIn) (a : ℕ → ℕ → Option ℝ), 0 + 1 < c.nTile ∧ (∀ f, f < c.N → a f (0 + 1) = none) ∧ c.fs ≠ [] ∧
    a 0 0 = some 3 ∧ nanMeanR ((List.range c.N).map fun f => a f 0) = some 3 := by
  refine ⟨⟨1, 2, [0], fun _ => true, fun t => t + 1, fun _ _ => 1, fun _ _ => 1, none⟩, fun _ t => if t = 0 then some 3 else none,
    by norm_num, fun f _ => by simp, by simp, by simp, ?_⟩
  simp [nanMeanR, List.range_succ]

end PyFHD
