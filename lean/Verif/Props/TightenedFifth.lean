import Verif.Props.OutputFiles
import Verif.Props.GaussBeam

/-!
# Theorems added after edits of the model that no theorem noticed (fifth file)
-/

namespace PyFHD

theorem filterName_last (a b : List Char) (hb : '_' ∉ b) : filterName (a ++ '_' :: b) = b := by
  unfold filterName
  have h : (b.reverse ++ '_' :: a.reverse).takeWhile (fun x => x != '_') = b.reverse := by
    have hb' : ∀ x ∈ b.reverse, (x != '_') = true := by
      intro x hx
      rw [List.mem_reverse] at hx
      simp only [bne_iff_ne, ne_eq]
      exact fun h => hb (h ▸ hx)
    rw [List.takeWhile_append_of_pos hb']
    simp
  rw [List.reverse_append, List.reverse_cons, List.append_assoc, List.singleton_append, h, List.reverse_reverse]

theorem filterName_plain (b : List Char) (hb : '_' ∉ b) : filterName b = b := by
  unfold filterName
  have h : b.reverse.takeWhile (fun x => x != '_') = b.reverse := by
    rw [List.takeWhile_eq_self_iff]
    intro x hx
    rw [List.mem_reverse] at hx
    simp only [bne_iff_ne, ne_eq]
    exact fun h => hb (h ▸ hx)
  rw [h, List.reverse_reverse]

/-- **C223**: the dirty, the model and the residual image are named after the observation, the last word of the name of the filter, what they
show, and the polarisation; the beam and the weights carry no filter. -/
theorem C223_filter_in_name (c : QvSave) (a b pol : List Char) (hb : '_' ∉ b) (hf : c.imageFilter = a ++ '_' :: b ∨ c.imageFilter = b) :
    fitsOf c pol =
      [c.obsId ++ "_".toList ++ b ++ "_dirty_".toList ++ pol ++ ".fits".toList,
        c.obsId ++ "_".toList ++ b ++ "_model_".toList ++ pol ++ ".fits".toList,
        c.obsId ++ "_".toList ++ b ++ "_residual_".toList ++ pol ++ ".fits".toList,
        c.obsId ++ "_beam_".toList ++ pol ++ ".fits".toList,
        c.obsId ++ "_uv_weights_".toList ++ pol ++ ".fits".toList] := by
  have h : filterName c.imageFilter = b := by
    rcases hf with h | h <;> rw [h]
    · exact filterName_last a b hb
    · exact filterName_plain b hb
  unfold fitsOf
  rw [h]
  simp

/-- The default filter. -/
example : fitsOf ⟨"1088285600".toList, "filter_uv_uniform".toList, true, true, true, true, true, true, true⟩ "XX".toList =
    ["1088285600_uniform_dirty_XX.fits".toList, "1088285600_uniform_model_XX.fits".toList, "1088285600_uniform_residual_XX.fits".toList,
      "1088285600_beam_XX.fits".toList, "1088285600_uv_weights_XX.fits".toList] := by
  decide +kernel

section

variable {R : Type _} [Field R] [LinearOrder R]

theorem lobesOf_left_over (p : List R) (h : ¬ 5 ∣ p.length) : lobesOf p = .error .valueError := by
  induction p using lobesOf.induct with
  | case1 => simp at h
  | case2 a b c d e l r hr ih =>
    have : ¬ 5 ∣ l.length := by
      simp only [List.length_cons] at h
      omega
    rw [lobesOf, ih this]
  | case3 a b c d e l r hr ih =>
    have : ¬ 5 ∣ l.length := by
      simp only [List.length_cons] at h
      omega
    rw [lobesOf, ih this]
  | case4 l h1 h2 => 
    rw [lobesOf]
    · exact h1
    · exact h2

/-- **C136**: lobes are made only of complete sets of five parameters; nothing is left out silently. -/
theorem C136_left_over (exp : R → R) (x y p : List R) (npix res : Option R) (h : ¬ 5 ∣ p.length) :
    gaussianDecomp exp x y p npix res = .error .valueError := by
  unfold gaussianDecomp
  rw [lobesOf_left_over p h]

example : ¬ 5 ∣ [(1 : ℚ), 2, 1, 3, 2, 5].length := by decide

end

end PyFHD
