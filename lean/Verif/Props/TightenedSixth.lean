import Verif.Props.ReflectRenumber

/-!
# Theorems tightened after wrong programs had passed (sixth part)
-/

namespace PyFHD

open Spec

theorem normAuto_same (c : ReflIn) (a a' : ℕ → ℕ → Option ℝ) (hall : ∀ t < c.nTile, ∃ f < c.N, a f t ≠ none)
    (hall' : ∀ t < c.nTile, ∃ f < c.N, a' f t ≠ none) (t : ℕ) (h : ∀ f, a' f t = a f t) (f : ℕ) :
    c.normAuto a' f t = c.normAuto a f t := by
  have hm : ∀ b : ℕ → ℕ → Option ℝ, (∀ t < c.nTile, ∃ f < c.N, b f t ≠ none) →
      ∀ s < c.nTile, nanMeanR ((List.range c.N).map fun f => b f s) ≠ none := by
    intro b hb s hs
    obtain ⟨f, hf, hn⟩ := hb s hs
    exact nanMeanR_ne_none (List.mem_map.2 ⟨f, List.mem_range.2 hf, rfl⟩) hn
  unfold ReflIn.normAuto
  rw [copiedRow_range _ _ (hm a hall), copiedRow_range _ _ (hm a' hall')]
  simp only [h]

/-- **C152**, the spectra: the mode found for a tile depends on its own auto-correlations and on those of tiles in use that have a cable with
another delay, not on those of other tiles, if all tiles have auto-correlations. -/
theorem C152_spectrum (c : ReflIn) (a a' : ℕ → ℕ → Option ℝ) (hall : ∀ t < c.nTile, ∃ f < c.N, a f t ≠ none)
    (hall' : ∀ t < c.nTile, ∃ f < c.N, a' f t ≠ none) (tile : ℕ)
    (h : ∀ t, t = tile ∨ (c.use t = true ∧ 0 < c.mode t ∧ 1 / 100 < |c.mode t - c.mode tile|) → ∀ f, a' f t = a f t) :
    c.autoMode a' tile = c.autoMode a tile := by
  have hs : c.autoShape a' tile = c.autoShape a tile := by
    funext f
    unfold ReflIn.autoShape
    rw [normAuto_same c a a' hall hall' tile (h tile (Or.inl rfl))]
    congr 2
    refine List.map_congr_left fun t ht => normAuto_same c a a' hall hall' t (h t (Or.inr ?_)) f
    unfold ReflIn.others at ht
    have := (List.mem_filter.1 ht).2
    simp only [Bool.and_eq_true, decide_eq_true_eq] at this
    exact ⟨this.1.1, this.1.2, this.2⟩
  have hr : c.resAuto a' tile = c.resAuto a tile := by
    funext f
    unfold ReflIn.resAuto
    rw [hs]
  unfold ReflIn.autoMode
  rw [hr]

/-- Three tiles, the first two on the same cable: the spectrum of the second one has no influence on the first. -/
example : ∃ (c : ReflIn) (a a' : ℕ → ℕ → Option ℝ), (∀ t < c.nTile, ∃ f < c.N, a f t ≠ none) ∧ (∀ t < c.nTile, ∃ f < c.N, a' f t ≠ none) ∧
    (∀ t, t = 0 ∨ (c.use t = true ∧ 0 < c.mode t ∧ 1 / 100 < |c.mode t - c.mode 0|) → ∀ f, a' f t = a f t) ∧ a' 0 1 ≠ a 0 1 ∧ 1 < c.nTile := by
  refine ⟨⟨2, 3, [0, 1], fun _ => true, fun t => if t = 2 then 5 else 3, fun _ _ => 1, fun _ _ => 1, none⟩, fun _ _ => some 1,
    fun _ t => if t = 1 then some 2 else some 1, fun t _ => ⟨0, by norm_num, by simp⟩, fun t _ => ⟨0, by norm_num, by simp only; split_ifs <;> simp⟩,
    ?_, by norm_num, by norm_num⟩
  rintro t (rfl | ⟨-, -, h⟩) f
  · simp
  · by_cases ht : t = 1
    · subst ht
      norm_num at h
    · simp [ht]

end PyFHD
