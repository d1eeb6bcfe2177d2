import Verif.Model.ColorScale
import Mathlib.Analysis.SpecialFunctions.Log.Base
import Mathlib.Order.Bounds.Basic
import Mathlib.Tactic.Linarith
import Mathlib.Tactic.FieldSimp
import Mathlib.Tactic.Ring
import Mathlib.Tactic.NormNum
import Mathlib.Tactic.Positivity

/-!
# Colours of an image (C172 to C180)
-/

namespace PyFHD

namespace Spec

section

variable {R : Type} [Field R] [LinearOrder R]

/-- The colour of `x` if colours are proportional: `r0` has the colour `c0`, `r1` the colour 255. -/
def onScale (c0 : ℕ) (r0 r1 x : R) : R := c0 + (255 - c0) * ((x - r0) / (r1 - r0))

/-- Some pixel is missing. -/
def HasMissing (q : QuickIn R) : Prop := ∃ v, q.missingValue = some v ∧ some v ∈ q.image

/-- The first colour of the data: 0 is kept for missing pixels if there are any. -/
def FirstColor (q : QuickIn R) (c0 : ℕ) : Prop := HasMissing q ∧ c0 = 1 ∨ ¬HasMissing q ∧ c0 = 0

/-- The numbers shown: the pixels that are neither missing nor NaN. -/
def shown (q : QuickIn R) : Set R := {x | some x ∈ q.image ∧ some x ≠ q.missingValue}

/-- The range of the colour scale: as given, or that of the numbers shown. -/
def RangeIs (q : QuickIn R) (r0 r1 : R) : Prop :=
  q.range = some (some r0, some r1) ∨ q.range = none ∧ IsLeast (shown q) r0 ∧ IsGreatest (shown q) r1

/-- The range for logarithmic scales: as given, or that of an image of numbers without missing pixels. -/
def LogRangeIs (q : QuickIn R) (r0 r1 : R) : Prop :=
  q.range = some (some r0, some r1) ∨
    q.range = none ∧ none ∉ q.image ∧ ¬HasMissing q ∧ IsLeast (shown q) r0 ∧ IsGreatest (shown q) r1

/-- The least value on a logarithmic scale: that of the range if it is positive, else the least positive number shown. -/
def LowIs (q : QuickIn R) (r0 lo : R) : Prop := 0 < r0 ∧ lo = r0 ∨ r0 ≤ 0 ∧ IsLeast {x | x ∈ shown q ∧ 0 < x} lo

/-- Logarithm and power to the same base, larger than one. -/
structure IsLogPow (log pow : R → R) : Prop where
  mono : ∀ x y, 0 < x → x < y → log x < log y
  inv : ∀ x, 0 < x → pow (log x) = x

/-- The lower end of the scale of absolute values: as given, or the least size of the numbers shown other than zero. -/
def AbsLowIs (q : QuickIn R) (m : R) : Prop :=
  q.minAbs = some m ∨ q.minAbs = none ∧ IsLeast {a | ∃ x, x ∈ shown q ∧ x ≠ 0 ∧ a = |x|} m

/-- A pixel with value `x` that is not missing. -/
def PixelIs (q : QuickIn R) (i : ℕ) (x : R) : Prop := q.image[i]? = some (some x) ∧ some x ≠ q.missingValue

end

end Spec

section Scale

variable {R : Type} [Field R] [LinearOrder R] [IsStrictOrderedRing R]

open Spec

set_option linter.unusedSectionVars false

/-! ## Ranges -/

theorem foldl_min_le (l : List R) (a : R) : l.foldl min a ≤ a ∧ ∀ x ∈ l, l.foldl min a ≤ x := by
  induction l generalizing a with
  | nil => simp
  | cons b t ih =>
    obtain ⟨h1, h2⟩ := ih (min a b)
    simp only [List.foldl_cons, List.mem_cons, forall_eq_or_imp]
    exact ⟨h1.trans (min_le_left _ _), h1.trans (min_le_right _ _), h2⟩

theorem foldl_min_mem (l : List R) (a : R) : l.foldl min a ∈ a :: l := by
  induction l generalizing a with
  | nil => simp
  | cons b t ih =>
    simp only [List.foldl_cons]
    rcases List.mem_cons.1 (ih (min a b)) with h | h
    · rw [h]
      rcases min_choice a b with h' | h' <;> simp [h']
    · simp [h]

theorem le_foldl_max (l : List R) (a : R) : a ≤ l.foldl max a ∧ ∀ x ∈ l, x ≤ l.foldl max a := by
  induction l generalizing a with
  | nil => simp
  | cons b t ih =>
    obtain ⟨h1, h2⟩ := ih (max a b)
    simp only [List.foldl_cons, List.mem_cons, forall_eq_or_imp]
    exact ⟨(le_max_left _ _).trans h1, (le_max_right _ _).trans h1, h2⟩

theorem foldl_max_mem (l : List R) (a : R) : l.foldl max a ∈ a :: l := by
  induction l generalizing a with
  | nil => simp
  | cons b t ih =>
    simp only [List.foldl_cons]
    rcases List.mem_cons.1 (ih (max a b)) with h | h
    · rw [h]
      rcases max_choice a b with h' | h' <;> simp [h']
    · simp [h]

theorem leastOf_eq (l : List R) (a : R) (h : IsLeast {x | x ∈ l} a) : leastOf l = some a := by
  obtain ⟨h1, h2⟩ := h
  cases l with
  | nil => simp at h1
  | cons b t =>
    unfold leastOf
    refine congrArg some ?_
    apply le_antisymm
    · obtain ⟨g1, g2⟩ := foldl_min_le t b
      rcases List.mem_cons.1 h1 with h | h
      · rw [h]; exact g1
      · exact g2 a h
    · exact h2 (foldl_min_mem t b)

theorem greatestOf_eq (l : List R) (a : R) (h : IsGreatest {x | x ∈ l} a) : greatestOf l = some a := by
  obtain ⟨h1, h2⟩ := h
  cases l with
  | nil => simp at h1
  | cons b t =>
    unfold greatestOf
    refine congrArg some ?_
    apply le_antisymm
    · exact h2 (foldl_max_mem t b)
    · obtain ⟨g1, g2⟩ := le_foldl_max t b
      rcases List.mem_cons.1 h1 with h | h
      · rw [h]; exact g1
      · exact g2 a h

theorem masked_eq (q : QuickIn R) : q.masked = q.image.map fun x => if q.missingValue ≠ none ∧ x = q.missingValue then none else x := by
  unfold QuickIn.masked QuickIn.missing
  rw [List.zipWith_map_left, List.zipWith_self]
  apply List.map_congr_left
  intro x _
  simp

theorem masked_mem (q : QuickIn R) (x : R) : some x ∈ q.masked ↔ x ∈ shown q := by
  rw [masked_eq, List.mem_map]
  constructor
  · rintro ⟨y, hy, h⟩
    split_ifs at h with hc
    subst h
    refine ⟨hy, fun h => hc ⟨?_, h⟩⟩
    rw [← h]; simp
  · rintro ⟨h1, h2⟩
    exact ⟨some x, h1, if_neg fun h => h2 h.2⟩

theorem mem_filterMap_masked (q : QuickIn R) : {x | x ∈ q.masked.filterMap id} = shown q := by
  ext x
  simp only [List.mem_filterMap, id, Set.mem_ofPred_eq]
  constructor
  · rintro ⟨y, h1, rfl⟩
    exact (masked_mem q x).1 h1
  · intro h
    exact ⟨some x, (masked_mem q x).2 h, rfl⟩

theorem countMissing_pos (q : QuickIn R) : 0 < q.countMissing ↔ HasMissing q := by
  unfold QuickIn.countMissing QuickIn.missing
  rw [List.countP_pos_iff]
  constructor
  · rintro ⟨b, hb, h⟩
    obtain ⟨x, hx, rfl⟩ := List.mem_map.1 hb
    obtain ⟨h1, h2⟩ := of_decide_eq_true (show decide _ = true from h)
    obtain ⟨v, hv⟩ := Option.ne_none_iff_exists'.1 h1
    exact ⟨v, hv, by rw [← hv, ← h2]; exact hx⟩
  · rintro ⟨v, hv, hm⟩
    refine ⟨true, List.mem_map.2 ⟨some v, hm, ?_⟩, rfl⟩
    simp [hv]

theorem colorRange_first (q : QuickIn R) (c0 : ℕ) (hc : FirstColor q c0) :
    colorRange (some q.countMissing) = .ok (c0, 255, 256 - c0) := by
  unfold colorRange
  rcases hc with ⟨h, rfl⟩ | ⟨h, rfl⟩
  · exact if_pos ((countMissing_pos q).2 h)
  · exact if_neg (fun h' => h ((countMissing_pos q).1 h'))

theorem paintMissing_get (q : QuickIn R) (f : Option R → Option R) (i : ℕ) (x : Option R) (h : q.image[i]? = some x) :
    (paintMissing q.missing (q.masked.map f))[i]? =
      some (if q.missingValue ≠ none ∧ x = q.missingValue then some 0 else f x) := by
  unfold paintMissing
  rw [masked_eq, List.getElem?_zipWith, QuickIn.missing]
  simp only [List.getElem?_map, h, Option.map_some]
  by_cases hc : q.missingValue ≠ none ∧ x = q.missingValue
  · simp only [hc, and_self, decide_true, if_true, not_false_eq_true, ne_eq]
  · simp only [hc, decide_false, if_false, Bool.false_eq_true]

theorem masked_get (q : QuickIn R) (f : Option R → Option R) (hq : ¬HasMissing q) (i : ℕ) (x : Option R) (h : q.image[i]? = some x) :
    (q.masked.map f)[i]? = some (f x) := by
  rw [masked_eq]
  simp only [List.getElem?_map, h, Option.map_some]
  rw [if_neg]
  rintro ⟨h1, h2⟩
  obtain ⟨v, hv⟩ := Option.ne_none_iff_exists'.1 h1
  exact hq ⟨v, hv, by rw [← hv, ← h2]; exact List.mem_of_getElem? h⟩

/-- The linear scale: missing pixels get colour 0, all others what `linearPixel` says. -/
theorem draw_linear (log pow : R → R) (q : QuickIn R) (hl : q.useLog = false) (r0 r1 : R) (hr : RangeIs q r0 r1) (c0 : ℕ)
    (hc : FirstColor q c0) : ∃ d, q.draw log pow = .ok d ∧
      (∀ (i : ℕ) (x : Option R), q.image[i]? = some x → d.pixels[i]? =
        some (if q.missingValue ≠ none ∧ x = q.missingValue then some 0 else linearPixel c0 255 (256 - c0) (some r0, some r1) x)) ∧
      d.ticks = ticks5 c0 255 ∧ d.labels = (ticks5 c0 255).map (tickLabel (256 - c0) (some r0, some r1)) := by
  have hrange : rangeOr q.range (nanRange q.masked) = .ok (some r0, some r1) := by
    rcases hr with h | ⟨h, h0, h1⟩
    · rw [h]; rfl
    · rw [h]
      simp only [rangeOr, nanRange]
      have hmem := (masked_mem q r0).2 h0.1
      rw [if_neg (by intro he; rw [he] at hmem; simp at hmem)]
      rw [leastOf_eq _ r0 (by rw [mem_filterMap_masked]; exact h0), greatestOf_eq _ r1 (by rw [mem_filterMap_masked]; exact h1)]
  unfold QuickIn.draw
  rw [if_neg (by simp [hl])]
  simp only [bind, Except.bind, pure, Except.pure]
  rw [hrange]
  simp only []
  rw [colorRange_first q c0 hc]
  refine ⟨_, rfl, ?_, rfl, rfl⟩
  intro i x hx
  simp only []
  by_cases hm : HasMissing q
  · rw [if_pos ⟨by obtain ⟨v, hv, _⟩ := hm; simp [hv], (countMissing_pos q).2 hm⟩]
    exact paintMissing_get q _ i x hx
  · rw [if_neg (fun h => hm ((countMissing_pos q).1 h.2)), masked_get q _ hm i x hx, if_neg]
    rintro ⟨h1, h2⟩
    obtain ⟨v, hv⟩ := Option.ne_none_iff_exists'.1 h1
    exact hm ⟨v, hv, by rw [← hv, ← h2]; exact List.mem_of_getElem? hx⟩

theorem firstColor_le (q : QuickIn R) (c0 : ℕ) (hc : FirstColor q c0) : c0 ≤ 1 := by
  rcases hc with ⟨_, rfl⟩ | ⟨_, rfl⟩ <;> omega

theorem rescale_onScale (c0 : ℕ) (hc : c0 ≤ 1) (r0 r1 x : R) (h : r0 < r1) :
    rescale (((256 - c0 : ℕ) : R) - 1) c0 (some r0, some r1) (some x) = some (onScale c0 r0 r1 x) := by
  unfold rescale onScale
  simp only []
  rw [if_neg (sub_pos.2 h).ne']
  rw [Nat.cast_sub (by omega)]
  congr 1
  push_cast
  ring

theorem onScale_bounds (c0 : ℕ) (hc : c0 ≤ 1) (r0 r1 x : R) (h : r0 < r1) (h0 : r0 ≤ x) (h1 : x ≤ r1) :
    (c0 : R) ≤ onScale c0 r0 r1 x ∧ onScale c0 r0 r1 x ≤ 255 := by
  unfold onScale
  have hc' : (c0 : R) ≤ 1 := by exact_mod_cast hc
  have hp : 0 < r1 - r0 := sub_pos.2 h
  have a1 : 0 ≤ (x - r0) / (r1 - r0) := div_nonneg (by linarith) hp.le
  have a2 : (x - r0) / (r1 - r0) ≤ 1 := (div_le_one hp).2 (by linarith)
  constructor
  · nlinarith
  · nlinarith

theorem linearPixel_eq (c0 : ℕ) (hc : c0 ≤ 1) (r0 r1 x : R) (h : r0 < r1) :
    linearPixel c0 255 (256 - c0) (some r0, some r1) (some x) =
      some (if r1 < (if onScale c0 r0 r1 x < r0 then (c0 : R) else onScale c0 r0 r1 x) then 255
        else if onScale c0 r0 r1 x < r0 then (c0 : R) else onScale c0 r0 r1 x) := by
  unfold linearPixel
  rw [rescale_onScale c0 hc r0 r1 x h]
  simp only [nanLt]
  by_cases h1 : onScale c0 r0 r1 x < r0
  · simp only [h1, decide_true, if_true]
    by_cases h2 : r1 < (c0 : R)
    · simp [h2]
    · simp [h2]
  · simp only [h1, decide_false, if_false, Bool.false_eq_true]
    by_cases h2 : r1 < onScale c0 r0 r1 x
    · simp [h2]
    · simp [h2]

theorem draw_pixel (log pow : R → R) (q : QuickIn R) (hl : q.useLog = false) (r0 r1 : R) (hr : RangeIs q r0 r1) (h : r0 < r1) (c0 : ℕ)
    (hc : FirstColor q c0) (d : Drawing R) (hd : q.draw log pow = .ok d) (i : ℕ) (x : R) (hx : PixelIs q i x) :
    d.pixels[i]? = some (some (if r1 < (if onScale c0 r0 r1 x < r0 then (c0 : R) else onScale c0 r0 r1 x) then 255
        else if onScale c0 r0 r1 x < r0 then (c0 : R) else onScale c0 r0 r1 x)) := by
  obtain ⟨d', hd', hp, -, -⟩ := draw_linear log pow q hl r0 r1 hr c0 hc
  rw [hd] at hd'
  obtain rfl := Except.ok.inj hd'
  rw [hp i (some x) hx.1, if_neg (fun h => hx.2 h.2), linearPixel_eq c0 (firstColor_le q c0 hc) r0 r1 x h]

/-! ## C172: the linear scale -/

/-- **C172, as far as it holds**: if the range of the data includes all the numbers of colours, colours are proportional. -/
theorem C172_wide_partial (log pow : R → R) (q : QuickIn R) (hl : q.useLog = false) (r0 r1 : R) (hr : RangeIs q r0 r1) (h : r0 < r1)
    (c0 : ℕ) (hc : FirstColor q c0) (hlow : r0 ≤ c0) (hhigh : 255 ≤ r1) :
    ∃ d, q.draw log pow = .ok d ∧ ∀ i x, PixelIs q i x → r0 ≤ x → x ≤ r1 → d.pixels[i]? = some (some (onScale c0 r0 r1 x)) := by
  obtain ⟨d, hd, -, -, -⟩ := draw_linear log pow q hl r0 r1 hr c0 hc
  refine ⟨d, hd, fun i x hx h0 h1 => ?_⟩
  obtain ⟨b1, b2⟩ := onScale_bounds c0 (firstColor_le q c0 hc) r0 r1 x h h0 h1
  rw [draw_pixel log pow q hl r0 r1 hr h c0 hc d hd i x hx]
  rw [if_neg (by linarith : ¬onScale c0 r0 r1 x < r0), if_neg (by linarith)]

/-- **C172 fails** if the greatest value is less than 255: all values above some `b` below it are drawn in the last colour. The colours
are compared with the range of the data instead of the range of colours. -/
theorem C172_saturates (log pow : R → R) (q : QuickIn R) (hl : q.useLog = false) (r0 r1 : R) (hr : RangeIs q r0 r1) (h : r0 < r1)
    (c0 : ℕ) (hc : FirstColor q c0) (hhigh : r1 < 255) :
    ∃ b < r1, ∃ d, q.draw log pow = .ok d ∧ ∀ i x, PixelIs q i x → b < x → x ≤ r1 → d.pixels[i]? = some (some 255) := by
  obtain ⟨d, hd, -, -, -⟩ := draw_linear log pow q hl r0 r1 hr c0 hc
  have hc' : (c0 : R) ≤ 1 := by exact_mod_cast firstColor_le q c0 hc
  have hp : 0 < r1 - r0 := sub_pos.2 h
  have hk : (0 : R) < 255 - c0 := by linarith
  refine ⟨r0 + (r1 - c0) / (255 - c0) * (r1 - r0), ?_, d, hd, fun i x hx h0 h1 => ?_⟩
  · have : (r1 - c0) / (255 - c0) < 1 := (div_lt_one hk).2 (by linarith)
    nlinarith
  · have hs : r1 < onScale c0 r0 r1 x := by
      unfold onScale
      have : (r1 - c0) / (255 - c0) < (x - r0) / (r1 - r0) := by
        rw [lt_div_iff₀ hp]; linarith
      rw [div_lt_iff₀ hk] at this
      linarith
    rw [draw_pixel log pow q hl r0 r1 hr h c0 hc d hd i x hx]
    rw [if_neg (by linarith : ¬onScale c0 r0 r1 x < r0), if_pos hs]

/-- **C172 fails** if the least value is more than the first colour: all values below some `b` above it are drawn in the first colour. -/
theorem C172_darkens (log pow : R → R) (q : QuickIn R) (hl : q.useLog = false) (r0 r1 : R) (hr : RangeIs q r0 r1) (h : r0 < r1)
    (c0 : ℕ) (hc : FirstColor q c0) (hlow : (c0 : R) < r0) :
    ∃ b > r0, ∃ d, q.draw log pow = .ok d ∧ ∀ i x, PixelIs q i x → r0 ≤ x → x < b → d.pixels[i]? = some (some (c0 : R)) := by
  obtain ⟨d, hd, -, -, -⟩ := draw_linear log pow q hl r0 r1 hr c0 hc
  have hc' : (c0 : R) ≤ 1 := by exact_mod_cast firstColor_le q c0 hc
  have hp : 0 < r1 - r0 := sub_pos.2 h
  have hk : (0 : R) < 255 - c0 := by linarith
  refine ⟨r0 + (r0 - c0) / (255 - c0) * (r1 - r0), ?_, d, hd, fun i x hx h0 h1 => ?_⟩
  · have : 0 < (r0 - c0) / (255 - c0) := div_pos (by linarith) hk
    have := mul_pos this hp
    linarith
  · have hs : onScale c0 r0 r1 x < r0 := by
      unfold onScale
      have : (x - r0) / (r1 - r0) < (r0 - c0) / (255 - c0) := by
        rw [div_lt_iff₀ hp]; linarith
      rw [lt_div_iff₀ hk] at this
      linarith
    rw [draw_pixel log pow q hl r0 r1 hr h c0 hc d hd i x hx]
    rw [if_pos hs, if_neg (by linarith)]

/-- **C172 fails** completely for values of more than 255: the whole image is drawn in the first colour. -/
theorem C172_all_dark (log pow : R → R) (q : QuickIn R) (hl : q.useLog = false) (r0 r1 : R) (hr : RangeIs q r0 r1) (h : r0 < r1)
    (c0 : ℕ) (hc : FirstColor q c0) (hlow : 255 < r0) (d : Drawing R) (hd : q.draw log pow = .ok d) (i : ℕ) (x : R) (hx : PixelIs q i x)
    (h0 : r0 ≤ x) (h1 : x ≤ r1) : d.pixels[i]? = some (some (c0 : R)) := by
  have hc' : (c0 : R) ≤ 1 := by exact_mod_cast firstColor_le q c0 hc
  obtain ⟨b1, b2⟩ := onScale_bounds c0 (firstColor_le q c0 hc) r0 r1 x h h0 h1
  rw [draw_pixel log pow q hl r0 r1 hr h c0 hc d hd i x hx]
  rw [if_pos (by linarith : onScale c0 r0 r1 x < r0), if_neg (by linarith)]

/-- **C172 fails** for an image of one value: nothing is drawn. -/
theorem C172_constant (log pow : R → R) (q : QuickIn R) (hl : q.useLog = false) (hr : q.range = none) (hm : q.missingValue = none) (v : R)
    (hne : q.image ≠ []) (hv : ∀ x ∈ q.image, x = some v) :
    ∃ d, q.draw log pow = .ok d ∧ ∀ i, i < q.image.length → d.pixels[i]? = some none := by
  have hs : shown q = {v} := by
    ext x
    constructor
    · rintro ⟨h1, _⟩
      exact Option.some.inj (hv _ h1)
    · rintro rfl
      obtain ⟨y, hy⟩ := List.exists_mem_of_ne_nil _ hne
      refine ⟨?_, by simp [hm]⟩
      rw [hv y hy] at hy
      exact hy
  have hmiss : ¬HasMissing q := by rintro ⟨w, hw, _⟩; rw [hm] at hw; cases hw
  obtain ⟨d, hd, hp, -, -⟩ := draw_linear log pow q hl v v (Or.inr ⟨hr, by rw [hs]; exact isLeast_singleton, by rw [hs]; exact isGreatest_singleton⟩)
    0 (Or.inr ⟨hmiss, rfl⟩)
  refine ⟨d, hd, fun i hi => ?_⟩
  have hi' : q.image[i]? = some (some v) := by
    rw [List.getElem?_eq_getElem hi, hv _ (List.getElem_mem hi)]
  rw [hp i _ hi', if_neg (by simp [hm])]
  simp [linearPixel, rescale, nanLt]

/-! ## C173: missing pixels -/

/-- **C173** On the linear scale missing pixels have the colour 0, and pixels within the range have none of the colours below 1. -/
theorem C173_linear (log pow : R → R) (q : QuickIn R) (hl : q.useLog = false) (r0 r1 : R) (hr : RangeIs q r0 r1) (h : r0 < r1)
    (hm : HasMissing q) : ∃ d, q.draw log pow = .ok d ∧
      (∀ i : ℕ, q.image[i]? = some q.missingValue → d.pixels[i]? = some (some 0)) ∧
      ∀ i x, PixelIs q i x → r0 ≤ x → x ≤ r1 → ∃ c, d.pixels[i]? = some (some c) ∧ 1 ≤ c ∧ c ≤ 255 := by
  have hc : FirstColor q 1 := Or.inl ⟨hm, rfl⟩
  obtain ⟨d, hd, hp, -, -⟩ := draw_linear log pow q hl r0 r1 hr 1 hc
  refine ⟨d, hd, ?_, fun i x hx h0 h1 => ?_⟩
  · intro i hi
    rw [hp i _ hi, if_pos]
    obtain ⟨v, hv, _⟩ := hm
    simp [hv]
  · refine ⟨_, draw_pixel log pow q hl r0 r1 hr h 1 hc d hd i x hx, ?_⟩
    obtain ⟨b1, b2⟩ := onScale_bounds 1 le_rfl r0 r1 x h h0 h1
    push_cast at b1
    split_ifs <;> constructor <;> push_cast <;> linarith

/-- **C173 fails** with a logarithmic scale if there are no missing pixels after all. -/
theorem C173_log_absent_raises (log pow : R → R) (q : QuickIn R) (hl : q.useLog = true) (v : R) (hv : q.missingValue = some v)
    (hm : some v ∉ q.image) : q.draw log pow = .error .nameError := by
  unfold QuickIn.draw
  rw [if_pos hl, if_pos]
  refine ⟨by simp [hv], ?_⟩
  by_contra h
  obtain ⟨w, hw, hin⟩ := (countMissing_pos q).1 (Nat.pos_of_ne_zero h)
  rw [hv] at hw
  cases hw
  exact hm hin

/-- The logarithmic scale. -/
theorem draw_log (log pow : R → R) (q : QuickIn R) (hl : q.useLog = true) (r : Option R × Option R)
    (hr : rangeOr q.range (plainRange q.masked) = .ok r)
    (hok : nanLt r.2 r.1 = false) (hneg : nanLt r.2 (some 0) = false) (c0 : ℕ) (hc : FirstColor q c0)
    (hnm : q.missingValue = none ∨ HasMissing q) (p : ColorProfile) (hp : p ≠ .other)
    (hq : p = if q.profile = .symLog ∧ nanLt (some 0) r.1 = true then .logCut else q.profile) :
    ∃ d, q.draw log pow = .ok d ∧ (∀ (i : ℕ) (x : Option R), q.image[i]? = some x → d.pixels[i]? = some
      (if q.missingValue ≠ none ∧ x = q.missingValue then some 0 else (match p with
        | .logCut => logCutPixel log pow q.masked r c0 (256 - c0)
        | .symLog => symLogPixel log (minAbsOf q.masked q.minAbs) r c0 255 (256 - c0)
        | _ => absPixel r c0 255 (256 - c0)) x)) ∧
      d.ticks = ticks5 c0 255 ∧ (p = .logCut → d.labels = (ticks5 c0 255).map
        (tickLabel (256 - c0) (some (logCutVal log q.masked r), logOf log r.2))) := by
  have hprof : q.profile ≠ .other := by
    intro h
    rw [h] at hq
    simp at hq
    exact hp hq
  unfold QuickIn.draw
  rw [if_pos hl, if_neg]
  swap
  · rintro ⟨h1, h2⟩
    rcases hnm with h | h
    · exact h1 h
    · have := (countMissing_pos q).2 h
      omega
  unfold logColorCalc
  rw [if_neg hprof]
  simp only [bind, Except.bind, pure, Except.pure]
  rw [hr]
  simp only [hok, Bool.false_eq_true, if_false]
  rw [colorRange_first q c0 hc]
  simp only [hneg, Bool.false_eq_true, false_and, if_false, ← hq]
  refine ⟨_, rfl, ?_, rfl, ?_⟩
  · intro i x hx
    simp only [Option.getD_some]
    by_cases hm : HasMissing q
    · rw [if_pos ((countMissing_pos q).2 hm)]
      exact paintMissing_get q _ i x hx
    · have hn : ¬(q.missingValue ≠ none ∧ x = q.missingValue) := by
        rintro ⟨h1, h2⟩
        obtain ⟨v, hv⟩ := Option.ne_none_iff_exists'.1 h1
        exact hm ⟨v, hv, by rw [← hv, ← h2]; exact List.mem_of_getElem? hx⟩
      rw [if_neg (fun h => hm ((countMissing_pos q).1 h)), masked_get q _ hm i x hx, if_neg hn]
      cases p <;> rfl
  · rintro rfl
    rfl

/-- **C173 fails** with a logarithmic scale: negative pixels have the colour of missing ones. -/
theorem C173_log_negative_alike (log pow : R → R) (q : QuickIn R) (hl : q.useLog = true) (hp : q.profile = .logCut) (r0 r1 : R)
    (hr : q.range = some (some r0, some r1)) (h01 : r0 ≤ r1) (h1 : 0 ≤ r1) (hm : HasMissing q) :
    ∃ d, q.draw log pow = .ok d ∧ (∀ i : ℕ, q.image[i]? = some q.missingValue → d.pixels[i]? = some (some 0)) ∧
      ∀ i x, PixelIs q i x → x < 0 → d.pixels[i]? = some (some 0) := by
  obtain ⟨d, hd, hpix, -, -⟩ := draw_log log pow q hl (some r0, some r1) (by rw [hr]; rfl) (by simpa [nanLt] using h01)
    (by simpa [nanLt] using h1) 1 (Or.inl ⟨hm, rfl⟩) (Or.inr hm) .logCut (by simp) (by simp [hp])
  refine ⟨d, hd, ?_, fun i x hx h0 => ?_⟩
  · intro i hi
    rw [hpix i _ hi, if_pos]
    obtain ⟨v, hv, _⟩ := hm
    simp [hv]
  · rw [hpix i _ hx.1, if_neg (fun h => hx.2 h.2)]
    simp [logCutPixel, h0]

/-- **C173 fails** with a logarithmic scale whose range is not given: with a missing pixel, no positive pixel is drawn. -/
theorem C173_log_nothing_drawn (log pow : R → R) (q : QuickIn R) (hl : q.useLog = true) (hp : q.profile = .logCut)
    (hr : q.range = none) (hm : HasMissing q) :
    ∃ d, q.draw log pow = .ok d ∧ ∀ i x, PixelIs q i x → 0 < x → d.pixels[i]? = some none := by
  have hnone : none ∈ q.masked := by
    obtain ⟨v, hv, hin⟩ := hm
    rw [masked_eq, List.mem_map]
    exact ⟨some v, hin, by simp [hv]⟩
  obtain ⟨d, hd, hpix, -, -⟩ := draw_log log pow q hl (none, none)
    (by rw [hr]; simp only [rangeOr, plainRange]; rw [if_neg (by intro h; rw [h] at hnone; simp at hnone), if_pos hnone])
    rfl rfl 1 (Or.inl ⟨hm, rfl⟩) (Or.inr hm) .logCut (by simp) (by simp [hp])
  refine ⟨d, hd, fun i x hx h0 => ?_⟩
  rw [hpix i _ hx.1, if_neg (fun h => hx.2 h.2)]
  simp [logCutPixel, logOf, rescale, nanLt, h0.ne', not_lt.2 h0.le]

/-! ## C174: the image of the caller -/

/-- **C174 fails**: with missing pixels, the array of the caller holds NaN in their place afterwards. -/
theorem C174_changed (q : QuickIn R) (hm : HasMissing q) :
    q.masked ≠ q.image ∧ ∀ i : ℕ, q.image[i]? = some q.missingValue → q.masked[i]? = some none := by
  have key : ∀ i : ℕ, q.image[i]? = some q.missingValue → q.masked[i]? = some none := by
    intro i hi
    obtain ⟨v, hv, _⟩ := hm
    rw [masked_eq, List.getElem?_map, hi]
    simp [hv]
  refine ⟨fun h => ?_, key⟩
  obtain ⟨v, hv, hin⟩ := hm
  obtain ⟨i, hi⟩ := List.getElem?_of_mem hin
  have := key i (by rw [hi, hv])
  rw [h, hi] at this
  cases this

/-- **C174, as far as it holds**: without missing pixels it is unchanged. -/
theorem C174_unchanged_partial (q : QuickIn R) (hm : ¬HasMissing q) : q.masked = q.image := by
  rw [masked_eq]
  conv_rhs => rw [← List.map_id q.image]
  apply List.map_congr_left
  intro x hx
  rw [if_neg]
  · rfl
  · rintro ⟨h1, h2⟩
    obtain ⟨v, hv⟩ := Option.ne_none_iff_exists'.1 h1
    exact hm ⟨v, hv, by rw [← hv, ← h2]; exact hx⟩

/-! ## C175: the logarithmic scale -/

theorem range_log (q : QuickIn R) (r0 r1 : R) (hr : LogRangeIs q r0 r1) :
    rangeOr q.range (plainRange q.masked) = .ok (some r0, some r1) := by
  rcases hr with h | ⟨h, hn, hm, h0, h1⟩
  · rw [h]; rfl
  · rw [h]
    have hmask : q.masked = q.image := C174_unchanged_partial q hm
    simp only [rangeOr, plainRange]
    have hmem := (masked_mem q r0).2 h0.1
    rw [if_neg (by intro he; rw [he] at hmem; simp at hmem), if_neg (by rw [hmask]; exact hn)]
    rw [leastOf_eq _ r0 (by rw [mem_filterMap_masked]; exact h0), greatestOf_eq _ r1 (by rw [mem_filterMap_masked]; exact h1)]

theorem leastPos_eq (q : QuickIn R) (lo : R) (h : IsLeast {x | x ∈ shown q ∧ 0 < x} lo) :
    leastOf ((q.masked.filterMap id).filter fun x => decide (0 < x)) = some lo := by
  apply leastOf_eq
  have : {x | x ∈ (q.masked.filterMap id).filter fun x => decide (0 < x)} = {x | x ∈ shown q ∧ 0 < x} := by
    ext x
    have := Set.ext_iff.1 (mem_filterMap_masked q) x
    simp only [Set.mem_ofPred_eq, List.mem_filter, decide_eq_true_eq] at this ⊢
    rw [this]
  rw [this]
  exact h

theorem logCutVal_eq (log : R → R) (q : QuickIn R) (r0 lo : R) (r1 : Option R) (hlo : LowIs q r0 lo) :
    logCutVal log q.masked (some r0, r1) = log lo := by
  unfold logCutVal
  rcases hlo with ⟨h, rfl⟩ | ⟨h, h'⟩
  · exact if_pos h
  · simp only []
    rw [if_neg (not_lt.2 h)]
    unfold minPos
    rw [leastPos_eq q lo h']

theorem low_pos (q : QuickIn R) (r0 lo : R) (hlo : LowIs q r0 lo) : 0 < lo := by
  rcases hlo with ⟨h, rfl⟩ | ⟨_, h⟩
  · exact h
  · exact h.1.2

theorem isLogPow_inj {log pow : R → R} (hlp : IsLogPow log pow) (x y : R) (hx : 0 < x) (hy : 0 < y) : log x < log y ↔ x < y := by
  constructor
  · intro h
    by_contra hle
    rcases lt_or_eq_of_le (not_lt.1 hle) with h' | h'
    · exact absurd (hlp.mono y x hy h') (not_lt.2 h.le)
    · rw [h'] at h; exact lt_irrefl _ h
  · exact hlp.mono x y hx

/-- The colour of a positive pixel. -/
theorem logCutPixel_pos {log pow : R → R} (hlp : IsLogPow log pow) (q : QuickIn R) (r0 r1 lo : R) (hlo : LowIs q r0 lo) (h : lo < r1)
    (c0 : ℕ) (hc : c0 ≤ 1) (x : R) (hx : 0 < x) :
    logCutPixel log pow q.masked (some r0, some r1) c0 (256 - c0) (some x) =
      some ((log (min (max x lo) r1) - log lo) * (255 - c0 - (if some 0 ∈ q.masked then 2 else 1)) / (log r1 - log lo) +
        (c0 + (if some 0 ∈ q.masked then 2 else 1))) := by
  have hl0 := low_pos q r0 lo hlo
  have hr0 : 0 < r1 := hl0.trans h
  unfold logCutPixel
  rw [logCutVal_eq log q r0 lo (some r1) hlo]
  simp only [not_lt.2 hx.le, hx.ne', if_false, logOf, if_pos hr0]
  rw [hlp.inv lo hl0]
  have hd : (if nanLt (some (log r1)) (some (if x < lo then log lo else log x)) = true then some (log r1)
      else some (if x < lo then log lo else log x)) = some (log (min (max x lo) r1)) := by
    by_cases h1 : x < lo
    · rw [if_pos h1, max_eq_right h1.le, min_eq_left h.le, if_neg]
      simpa [nanLt] using (hlp.mono lo r1 hl0 h).le
    · rw [if_neg h1, max_eq_left (not_lt.1 h1)]
      by_cases h2 : r1 < x
      · rw [if_pos (by simpa [nanLt] using hlp.mono r1 x hr0 h2), min_eq_right h2.le]
      · rw [if_neg, min_eq_left (not_lt.1 h2)]
        simp only [nanLt, decide_eq_true_eq]
        rw [isLogPow_inj hlp r1 x hr0 hx]
        exact h2
  rw [hd]
  unfold rescale
  simp only []
  rw [if_neg (sub_pos.2 (hlp.mono lo r1 hl0 h)).ne', Nat.cast_sub (by omega)]
  congr 1
  push_cast
  split_ifs <;> push_cast <;> ring

theorem drawn_log {log pow : R → R} (q : QuickIn R) (hl : q.useLog = true) (hp : q.profile = .logCut) (r0 r1 lo : R)
    (hr : LogRangeIs q r0 r1) (h01 : r0 ≤ r1) (hlo : LowIs q r0 lo) (h : lo < r1) (hnm : q.missingValue = none ∨ HasMissing q) (c0 : ℕ)
    (hc : FirstColor q c0) : ∃ d, q.draw log pow = .ok d ∧
      (∀ i x, PixelIs q i x → d.pixels[i]? = some (logCutPixel log pow q.masked (some r0, some r1) c0 (256 - c0) (some x))) ∧
      d.ticks = ticks5 c0 255 ∧
      d.labels = (ticks5 c0 255).map (tickLabel (256 - c0) (some (log lo), some (log r1))) := by
  have hr1 : 0 < r1 := (low_pos q r0 lo hlo).trans h
  obtain ⟨d, hd, hpix, ht, hlab⟩ := draw_log log pow q hl (some r0, some r1) (range_log q r0 r1 hr)
    (by simpa [nanLt] using h01) (by simpa [nanLt] using hr1.le) c0 hc hnm .logCut (by simp) (by simp [hp])
  refine ⟨d, hd, fun i x hx => ?_, ht, ?_⟩
  · rw [hpix i _ hx.1, if_neg (fun h => hx.2 h.2)]
  · rw [hlab rfl, logCutVal_eq log q r0 lo _ hlo]
    simp [logOf, hr1]

/-- **C175** With `log_cut`, negative pixels have colour 0, zeros colour 1, and positive ones colours up to 255 that grow with the value:
never down, and strictly between the two ends of the scale; all values up to the lower end share its colour, all from the upper end
on have the last one. -/
theorem C175_ordered {log pow : R → R} (hlp : IsLogPow log pow) (q : QuickIn R) (hl : q.useLog = true) (hp : q.profile = .logCut)
    (r0 r1 lo : R) (hr : LogRangeIs q r0 r1) (h01 : r0 ≤ r1) (hlo : LowIs q r0 lo) (h : lo < r1)
    (hnm : q.missingValue = none ∨ HasMissing q) :
    ∃ d, q.draw log pow = .ok d ∧
      (∀ i x, PixelIs q i x → x < 0 → d.pixels[i]? = some (some 0)) ∧
      (∀ i, PixelIs q i 0 → d.pixels[i]? = some (some 1)) ∧
      (∀ i x, PixelIs q i x → 0 < x → ∃ c, d.pixels[i]? = some (some c) ∧ 1 ≤ c ∧ c ≤ 255 ∧ ((∃ j, PixelIs q j 0) → 2 ≤ c) ∧
        (r1 ≤ x → c = 255)) ∧
      (∀ i j x y, PixelIs q i x → PixelIs q j y → 0 < x → x ≤ y → ∃ a b, d.pixels[i]? = some (some a) ∧ d.pixels[j]? = some (some b) ∧
        a ≤ b ∧ (lo ≤ x → x < y → x < r1 → a < b) ∧ (y ≤ lo → a = b)) := by
  obtain ⟨c0, hc⟩ : ∃ c0, FirstColor q c0 := by
    by_cases hm : HasMissing q
    · exact ⟨1, Or.inl ⟨hm, rfl⟩⟩
    · exact ⟨0, Or.inr ⟨hm, rfl⟩⟩
  obtain ⟨d, hd, hpix, -, -⟩ := drawn_log (log := log) (pow := pow) q hl hp r0 r1 lo hr h01 hlo h hnm c0 hc
  have hc1 := firstColor_le q c0 hc
  have hcR : (c0 : R) ≤ 1 := by exact_mod_cast hc1
  have hcR0 : (0 : R) ≤ c0 := by positivity
  have hl0 := low_pos q r0 lo hlo
  have hr0 : 0 < r1 := hl0.trans h
  have hlog : 0 < log r1 - log lo := sub_pos.2 (hlp.mono lo r1 hl0 h)
  have hmono : ∀ x y, 0 < x → x ≤ y → log x ≤ log y := by
    intro x y hx hxy
    rcases lt_or_eq_of_le hxy with h' | h'
    · exact (hlp.mono x y hx h').le
    · rw [h']
  set f : R := (if some 0 ∈ q.masked then 2 else 1) with hf
  have hf1 : 1 ≤ f := by rw [hf]; split_ifs <;> norm_num
  have hf2 : f ≤ 2 := by rw [hf]; split_ifs <;> norm_num
  have hk : 0 < 255 - (c0 : R) - f := by linarith
  have hcl : ∀ x : R, 0 < min (max x lo) r1 ∧ lo ≤ min (max x lo) r1 ∧ min (max x lo) r1 ≤ r1 := fun x =>
    ⟨lt_min (hl0.trans_le (le_max_right _ _)) hr0, le_min (le_max_right _ _) h.le, min_le_right _ _⟩
  refine ⟨d, hd, ?_, ?_, ?_, ?_⟩
  · intro i x hx h0
    rw [hpix i x hx]
    simp [logCutPixel, h0]
  · intro i hx
    rw [hpix i 0 hx]
    simp [logCutPixel]
  · intro i x hx h0
    refine ⟨_, by rw [hpix i x hx, logCutPixel_pos hlp q r0 r1 lo hlo h c0 hc1 x h0, ← hf], ?_, ?_, ?_, ?_⟩
    · have : 0 ≤ (log (min (max x lo) r1) - log lo) * (255 - c0 - f) / (log r1 - log lo) :=
        div_nonneg (mul_nonneg (by linarith [hmono _ _ hl0 (hcl x).2.1]) hk.le) hlog.le
      linarith
    · have : (log (min (max x lo) r1) - log lo) * (255 - c0 - f) / (log r1 - log lo) ≤ 255 - c0 - f := by
        rw [div_le_iff₀ hlog]
        have := hmono _ _ (hcl x).1 (hcl x).2.2
        nlinarith
      linarith
    · rintro ⟨j, hj⟩
      have : some (0 : R) ∈ q.masked := (masked_mem q 0).2 ⟨List.mem_of_getElem? hj.1, hj.2⟩
      have hf' : f = 2 := by rw [hf, if_pos this]
      have : 0 ≤ (log (min (max x lo) r1) - log lo) * (255 - c0 - f) / (log r1 - log lo) :=
        div_nonneg (mul_nonneg (by linarith [hmono _ _ hl0 (hcl x).2.1]) hk.le) hlog.le
      linarith
    · intro hx1
      rw [min_eq_right (hx1.trans (le_max_left _ _)), mul_comm, mul_div_assoc, div_self hlog.ne']
      ring
  · intro i j x y hx hy h0 hxy
    refine ⟨_, _, by rw [hpix i x hx, logCutPixel_pos hlp q r0 r1 lo hlo h c0 hc1 x h0, ← hf],
      by rw [hpix j y hy, logCutPixel_pos hlp q r0 r1 lo hlo h c0 hc1 y (h0.trans_le hxy), ← hf], ?_, ?_, ?_⟩
    · have hle : min (max x lo) r1 ≤ min (max y lo) r1 := min_le_min_right _ (max_le_max_right _ hxy)
      have := hmono _ _ (hcl x).1 hle
      have : (log (min (max x lo) r1) - log lo) * (255 - c0 - f) / (log r1 - log lo) ≤
          (log (min (max y lo) r1) - log lo) * (255 - c0 - f) / (log r1 - log lo) :=
        div_le_div_of_nonneg_right (mul_le_mul_of_nonneg_right (by linarith) hk.le) hlog.le
      linarith
    · intro hlx hlt hx1
      have e1 : min (max x lo) r1 = x := by rw [max_eq_left hlx, min_eq_left hx1.le]
      have e2 : x < min (max y lo) r1 := lt_min (hlt.trans_le (le_max_left _ _)) hx1
      rw [e1]
      have := hlp.mono _ _ h0 e2
      have : (log x - log lo) * (255 - c0 - f) / (log r1 - log lo) <
          (log (min (max y lo) r1) - log lo) * (255 - c0 - f) / (log r1 - log lo) :=
        div_lt_div_of_pos_right (mul_lt_mul_of_pos_right (by linarith) hk) hlog
      linarith
    · intro hyl
      rw [max_eq_right hyl, max_eq_right (hxy.trans hyl)]

/-! ## C176: numbers at the colour bar -/

/-- **C176, as far as it holds**: on a linear scale without missing pixels, the number at every tick is the value that has its colour. -/
theorem C176_linear_partial (log pow : R → R) (q : QuickIn R) (hl : q.useLog = false) (r0 r1 : R) (hr : RangeIs q r0 r1) (h : r0 < r1)
    (hm : ¬HasMissing q) : ∃ d, q.draw log pow = .ok d ∧ d.ticks = [0, 255 / 4, 255 / 2, 255 * 3 / 4, 255] ∧
      d.labels.length = 5 ∧ ∀ (i : ℕ) (t : R), d.ticks[i]? = some t → ∃ v, d.labels[i]? = some (some v) ∧ onScale 0 r0 r1 v = t := by
  obtain ⟨d, hd, -, ht, hlab⟩ := draw_linear log pow q hl r0 r1 hr 0 (Or.inr ⟨hm, rfl⟩)
  refine ⟨d, hd, ?_, by rw [hlab]; simp [ticks5], fun i t hi => ?_⟩
  · rw [ht]
    have : List.range 5 = [0, 1, 2, 3, 4] := rfl
    simp only [ticks5, this, List.map_cons, List.map_nil]
    push_cast
    norm_num
  · rw [hlab, List.getElem?_map, ← ht, hi]
    refine ⟨_, rfl, ?_⟩
    unfold onScale
    have := (sub_pos.2 h).ne'
    push_cast
    field_simp
    ring

/-- **C176 fails** with missing pixels: the colour of the number at a tick is always one more than the tick. -/
theorem C176_missing_off (log pow : R → R) (q : QuickIn R) (hl : q.useLog = false) (r0 r1 : R) (hr : RangeIs q r0 r1) (h : r0 < r1)
    (hm : HasMissing q) : ∃ d, q.draw log pow = .ok d ∧
      ∀ (i : ℕ) (t : R), d.ticks[i]? = some t → ∃ v, d.labels[i]? = some (some v) ∧ onScale 1 r0 r1 v = t + 1 := by
  obtain ⟨d, hd, -, ht, hlab⟩ := draw_linear log pow q hl r0 r1 hr 1 (Or.inl ⟨hm, rfl⟩)
  refine ⟨d, hd, fun i t hi => ?_⟩
  rw [hlab, List.getElem?_map, ← ht, hi]
  refine ⟨_, rfl, ?_⟩
  unfold onScale
  have := (sub_pos.2 h).ne'
  have h254 : ((256 - 1 : ℕ) : R) - 1 = 254 := by push_cast; norm_num
  rw [h254]
  push_cast
  field_simp
  ring

/-- **C176 fails** on the logarithmic scale: the first tick is marked with the logarithm of the lower end, whose pixels have the next colour
but one at the latest, not the tick's. -/
theorem C176_log_off {log pow : R → R} (hlp : IsLogPow log pow) (q : QuickIn R) (hl : q.useLog = true) (hp : q.profile = .logCut)
    (r0 r1 lo : R) (hr : LogRangeIs q r0 r1) (h01 : r0 ≤ r1) (hlo : LowIs q r0 lo) (h : lo < r1) (hm : q.missingValue = none) :
    ∃ d, q.draw log pow = .ok d ∧ d.ticks[0]? = some 0 ∧ d.labels[0]? = some (some (log lo)) ∧
      ∀ i, PixelIs q i lo → d.pixels[i]? = some (some 1) ∨ d.pixels[i]? = some (some 2) := by
  have hmiss : ¬HasMissing q := by rintro ⟨w, hw, _⟩; rw [hm] at hw; cases hw
  obtain ⟨d, hd, hpix, ht, hlab⟩ := drawn_log (log := log) (pow := pow) q hl hp r0 r1 lo hr h01 hlo h (Or.inl hm) 0 (Or.inr ⟨hmiss, rfl⟩)
  have hr5 : List.range 5 = [0, 1, 2, 3, 4] := rfl
  have ht5 : (ticks5 0 255 : List R)[0]? = some 0 := by
    simp only [ticks5, hr5, List.map_cons, List.getElem?_cons_zero]
    simp
  refine ⟨d, hd, by rw [ht, ht5], by rw [hlab, List.getElem?_map, ht5]; simp [tickLabel], fun i hi => ?_⟩
  rw [hpix i lo hi, logCutPixel_pos hlp q r0 r1 lo hlo h 0 (by omega) lo (low_pos q r0 lo hlo), max_self, min_eq_left h.le]
  split_ifs
  · right; simp
  · left; simp

/-! ## C177 and C178: the two other profiles -/

/-- **C177 fails**: `sym_log` draws a value and its negative in the same colour. -/
theorem C177_sign_lost (log pow : R → R) (q : QuickIn R) (hl : q.useLog = true) (hp : q.profile = .symLog) (r0 r1 : R)
    (hr : LogRangeIs q r0 r1) (h0 : r0 ≤ 0) (h1 : 0 ≤ r1) (hnm : q.missingValue = none ∨ HasMissing q) :
    ∃ d, q.draw log pow = .ok d ∧ ∀ i j x, PixelIs q i x → PixelIs q j (-x) → d.pixels[i]? = d.pixels[j]? := by
  obtain ⟨c0, hc⟩ : ∃ c0, FirstColor q c0 := by
    by_cases hm : HasMissing q
    · exact ⟨1, Or.inl ⟨hm, rfl⟩⟩
    · exact ⟨0, Or.inr ⟨hm, rfl⟩⟩
  obtain ⟨d, hd, hpix, -, -⟩ := draw_log log pow q hl (some r0, some r1) (range_log q r0 r1 hr)
    (by simpa [nanLt] using h0.trans h1) (by simpa [nanLt] using h1) c0 hc hnm .symLog (by simp)
    (by rw [if_neg (by simpa [nanLt] using fun _ => h0), hp])
  refine ⟨d, hd, fun i j x hi hj => ?_⟩
  rw [hpix i _ hi.1, hpix j _ hj.1, if_neg (fun h => hi.2 h.2), if_neg (fun h => hj.2 h.2)]
  simp [symLogPixel]

theorem minAbsOf_eq (q : QuickIn R) (m : R) (hm : AbsLowIs q m) : minAbsOf q.masked q.minAbs = m := by
  rcases hm with h | ⟨h, hleast⟩
  · rw [h]; rfl
  rw [h]
  have hmem : ∀ x : R, x ∈ q.masked.filterMap id ↔ x ∈ shown q := fun x => by
    have := Set.ext_iff.1 (mem_filterMap_masked q) x
    simpa using this
  have hpos : ∀ l : List R, (∃ a, IsLeast {x | x ∈ l} a ∧ leastOf l = some a) ∨ (∀ x, x ∉ l) ∧ leastOf l = none := by
    intro l
    cases l with
    | nil => exact Or.inr ⟨by simp, rfl⟩
    | cons a t =>
      refine Or.inl ⟨t.foldl min a, ⟨foldl_min_mem t a, ?_⟩, rfl⟩
      intro y hy
      rcases List.mem_cons.1 hy with rfl | hy
      · exact (foldl_min_le t y).1
      · exact (foldl_min_le t a).2 y hy
  have hneg : ∀ l : List R, (∃ a, IsGreatest {x | x ∈ l} a ∧ greatestOf l = some a) ∨ (∀ x, x ∉ l) ∧ greatestOf l = none := by
    intro l
    cases l with
    | nil => exact Or.inr ⟨by simp, rfl⟩
    | cons a t =>
      refine Or.inl ⟨t.foldl max a, ⟨foldl_max_mem t a, ?_⟩, rfl⟩
      intro y hy
      rcases List.mem_cons.1 hy with rfl | hy
      · exact (le_foldl_max t y).1
      · exact (le_foldl_max t a).2 y hy
  obtain ⟨⟨x0, hx0, hx0', hmx⟩, hlow⟩ := hleast
  have hlow' : ∀ x, x ∈ shown q → x ≠ 0 → m ≤ |x| := fun x h1 h2 => hlow ⟨x, h1, h2, rfl⟩
  have hP := hpos ((q.masked.filterMap id).filter fun x => decide (0 < x))
  have hN := hneg ((q.masked.filterMap id).filter fun x => decide (x < 0))
  unfold minAbsOf maxNeg
  simp only []
  have pmem : ∀ x, x ∈ (q.masked.filterMap id).filter (fun x => decide (0 < x)) ↔ x ∈ shown q ∧ 0 < x := by
    intro x; rw [List.mem_filter, hmem, decide_eq_true_eq]
  have nmem : ∀ x, x ∈ (q.masked.filterMap id).filter (fun x => decide (x < 0)) ↔ x ∈ shown q ∧ x < 0 := by
    intro x; rw [List.mem_filter, hmem, decide_eq_true_eq]
  rcases lt_or_gt_of_ne hx0' with hs | hs
  · have hx : x0 ∈ (q.masked.filterMap id).filter (fun x => decide (x < 0)) := (nmem x0).2 ⟨hx0, hs⟩
    rcases hN with ⟨n, hn, hne⟩ | ⟨hn, -⟩
    swap
    · exact absurd hx (hn x0)
    have hn1 := (nmem n).1 hn.1
    have hnx : x0 ≤ n := hn.2 hx
    have hnm : |n| = m := by
      apply le_antisymm
      · rw [hmx, abs_of_neg hn1.2, abs_of_neg hs]; linarith
      · exact hlow' n hn1.1 hn1.2.ne
    rcases hP with ⟨p, hp, hpe⟩ | ⟨-, hpe⟩
    · have hp1 := (pmem p).1 hp.1
      rw [hne, hpe]
      simp only []
      rw [hnm]
      exact min_eq_right ((hlow' p hp1.1 hp1.2.ne').trans (abs_of_pos hp1.2).le)
    · rw [hne, hpe]
      exact hnm
  · have hx : x0 ∈ (q.masked.filterMap id).filter (fun x => decide (0 < x)) := (pmem x0).2 ⟨hx0, hs⟩
    rcases hP with ⟨p, hp, hpe⟩ | ⟨hp, -⟩
    swap
    · exact absurd hx (hp x0)
    have hp1 := (pmem p).1 hp.1
    have hpx : p ≤ x0 := hp.2 hx
    have hpm : p = m := by
      apply le_antisymm
      · rw [hmx, abs_of_pos hs]; exact hpx
      · exact (hlow' p hp1.1 hp1.2.ne').trans (abs_of_pos hp1.2).le
    rcases hN with ⟨n, hn, hne⟩ | ⟨-, hne⟩
    · have hn1 := (nmem n).1 hn.1
      rw [hne, hpe]
      simp only []
      rw [hpm]
      exact min_eq_left (hlow' n hn1.1 hn1.2.ne)
    · rw [hne, hpe]
      exact hpm

theorem clampColor_some (c0 : ℕ) (hc : c0 ≤ 1) (s : R) : clampColor c0 255 (some s) = some (min (max s c0) 255) := by
  have hcR : (c0 : R) ≤ 1 := by exact_mod_cast hc
  unfold clampColor
  simp only [nanLt, decide_eq_true_eq]
  by_cases h : s < c0
  · rw [if_pos h, max_eq_right h.le, if_neg (by simpa using by linarith), min_eq_left (by linarith)]
  · rw [if_neg h, max_eq_left (not_lt.1 h)]
    by_cases h' : (255 : R) < s
    · rw [if_pos (by simpa using h'), min_eq_right h'.le]; simp
    · rw [if_neg (by simpa using not_lt.1 h'), min_eq_left (not_lt.1 h')]

/-- **C177, as far as it holds**: colours of `sym_log` never decrease with the size of the value, and lie between 0 and 255; zero has the
first colour. -/
theorem C177_size_partial {log pow : R → R} (hlp : IsLogPow log pow) (q : QuickIn R) (hl : q.useLog = true) (hp : q.profile = .symLog)
    (r0 r1 m : R) (hr : LogRangeIs q r0 r1) (h0 : r0 ≤ 0) (hm : AbsLowIs q m) (hm0 : 0 < m) (hm1 : m < r1)
    (hnm : q.missingValue = none ∨ HasMissing q) :
    ∃ d, q.draw log pow = .ok d ∧ (∀ c0, FirstColor q c0 → ∀ i, PixelIs q i 0 → d.pixels[i]? = some (some (c0 : R))) ∧
      ∀ i j x y, PixelIs q i x → PixelIs q j y → x ≠ 0 → |x| ≤ |y| →
        ∃ a b, d.pixels[i]? = some (some a) ∧ d.pixels[j]? = some (some b) ∧ 0 ≤ a ∧ a ≤ b ∧ b ≤ 255 ∧
          (m ≤ |x| → |x| < |y| → |x| < r1 → a < b) ∧ (r1 ≤ |y| → b = 255) := by
  obtain ⟨c0, hc⟩ : ∃ c0, FirstColor q c0 := by
    by_cases hm : HasMissing q
    · exact ⟨1, Or.inl ⟨hm, rfl⟩⟩
    · exact ⟨0, Or.inr ⟨hm, rfl⟩⟩
  have h1 : 0 < r1 := hm0.trans hm1
  have hc1 := firstColor_le q c0 hc
  have hcR : (c0 : R) ≤ 1 := by exact_mod_cast hc1
  have hcR0 : (0 : R) ≤ c0 := by positivity
  obtain ⟨d, hd, hpix, -, -⟩ := draw_log log pow q hl (some r0, some r1) (range_log q r0 r1 hr)
    (by simpa [nanLt] using h0.trans h1.le) (by simpa [nanLt] using h1.le) c0 hc hnm .symLog (by simp)
    (by rw [if_neg (by simpa [nanLt] using fun _ => h0), hp])
  have hlog : 0 < log r1 - log m := sub_pos.2 (hlp.mono m r1 hm0 hm1)
  have hval : ∀ i x, PixelIs q i x → x ≠ 0 → d.pixels[i]? = some (some (min (max (onScale c0 (log m) (log r1) (log |x|)) c0) 255)) := by
    intro i x hi hx
    rw [hpix i _ hi.1, if_neg (fun h => hi.2 h.2)]
    simp only [symLogPixel, if_neg hx, logOf, if_pos h1, minAbsOf_eq q m hm]
    rw [rescale_onScale c0 hc1 _ _ _ (hlp.mono m r1 hm0 hm1), clampColor_some c0 hc1]
  refine ⟨d, hd, ?_, ?_⟩
  · intro c hcc i hi
    have : c = c0 := by
      rcases hc with ⟨h, rfl⟩ | ⟨h, rfl⟩ <;> rcases hcc with ⟨h', rfl⟩ | ⟨h', rfl⟩ <;> first | rfl | exact absurd h' h | exact absurd h h'
    subst this
    rw [hpix i _ hi.1, if_neg (fun h => hi.2 h.2)]
    simp only [symLogPixel, if_pos]
    rw [clampColor_some c hc1, max_self, min_eq_left (by linarith)]
  · intro i j x y hi hj hx hxy
    have hx0 : 0 < |x| := abs_pos.2 hx
    have hy : y ≠ 0 := abs_pos.1 (hx0.trans_le hxy)
    have hmono : ∀ a b, 0 < a → a ≤ b → log a ≤ log b := by
      intro a b ha hab
      rcases lt_or_eq_of_le hab with h' | h'
      · exact (hlp.mono a b ha h').le
      · rw [h']
    have hk : 0 < 255 - (c0 : R) := by linarith
    refine ⟨_, _, hval i x hi hx, hval j y hj hy, le_min (hcR0.trans (le_max_right _ _)) (by norm_num), ?_, min_le_right _ _, ?_, ?_⟩
    · apply min_le_min_right
      apply max_le_max_right
      unfold onScale
      have : (log |x| - log m) / (log r1 - log m) ≤ (log |y| - log m) / (log r1 - log m) :=
        div_le_div_of_nonneg_right (by linarith [hmono _ _ hx0 hxy]) hlog.le
      have := mul_le_mul_of_nonneg_left this hk.le
      linarith
    · intro hmx hlt hx1
      have a1 : onScale c0 (log m) (log r1) (log |x|) < 255 := by
        unfold onScale
        have : (log |x| - log m) / (log r1 - log m) < 1 := (div_lt_one hlog).2 (by linarith [hlp.mono _ _ hx0 hx1])
        have := mul_lt_mul_of_pos_left this hk
        linarith
      have a2 : (c0 : R) ≤ onScale c0 (log m) (log r1) (log |x|) := by
        unfold onScale
        have : 0 ≤ (log |x| - log m) / (log r1 - log m) := div_nonneg (by linarith [hmono _ _ hm0 hmx]) hlog.le
        have := mul_nonneg hk.le this
        linarith
      have a3 : onScale c0 (log m) (log r1) (log |x|) < onScale c0 (log m) (log r1) (log |y|) := by
        unfold onScale
        have : (log |x| - log m) / (log r1 - log m) < (log |y| - log m) / (log r1 - log m) :=
          div_lt_div_of_pos_right (by linarith [hlp.mono _ _ hx0 hlt]) hlog
        have := mul_lt_mul_of_pos_left this hk
        linarith
      rw [max_eq_left a2, min_eq_left a1.le]
      exact lt_min (a3.trans_le (le_max_left _ _)) a1
    · intro hy1
      apply min_eq_right
      refine le_trans ?_ (le_max_left _ _)
      unfold onScale
      have : 1 ≤ (log |y| - log m) / (log r1 - log m) := (one_le_div hlog).2 (by linarith [hmono _ _ h1 hy1])
      have := mul_le_mul_of_nonneg_left this hk.le
      linarith

/-- **C178 fails** for negative data: with the profile `abs`, the range is not that of the absolute values, so that every value that is at
least the upper end in size has the last colour. -/
theorem C178_negative_saturate (log pow : R → R) (q : QuickIn R) (hl : q.useLog = true) (hp : q.profile = .absolute) (r0 r1 : R)
    (hr : LogRangeIs q r0 r1) (h01 : r0 < r1) (h1 : 0 ≤ r1) (hnm : q.missingValue = none ∨ HasMissing q) :
    ∃ d, q.draw log pow = .ok d ∧ ∀ i x, PixelIs q i x → r1 ≤ |x| → d.pixels[i]? = some (some 255) := by
  obtain ⟨c0, hc⟩ : ∃ c0, FirstColor q c0 := by
    by_cases hm : HasMissing q
    · exact ⟨1, Or.inl ⟨hm, rfl⟩⟩
    · exact ⟨0, Or.inr ⟨hm, rfl⟩⟩
  obtain ⟨d, hd, hpix, -, -⟩ := draw_log log pow q hl (some r0, some r1) (range_log q r0 r1 hr)
    (by simpa [nanLt] using h01.le) (by simpa [nanLt] using h1) c0 hc hnm .absolute (by simp) (by simp [hp])
  refine ⟨d, hd, fun i x hi hx => ?_⟩
  rw [hpix i _ hi.1, if_neg (fun h => hi.2 h.2)]
  have hcR : (c0 : R) ≤ 1 := by exact_mod_cast firstColor_le q c0 hc
  simp only [absPixel, Option.map_some]
  rw [rescale_onScale c0 (firstColor_le q c0 hc) r0 r1 |x| h01]
  have hge : 255 ≤ onScale c0 r0 r1 |x| := by
    unfold onScale
    have : 1 ≤ (|x| - r0) / (r1 - r0) := (one_le_div (sub_pos.2 h01)).2 (by linarith)
    nlinarith
  unfold clampColor
  have : ¬onScale c0 r0 r1 |x| < c0 := by intro h; linarith
  simp only [nanLt, this, decide_false, Bool.false_eq_true, if_false, decide_eq_true_eq]
  by_cases h' : (255 : R) < onScale c0 r0 r1 |x|
  · simp [h']
  · rw [if_neg (by simpa using not_lt.1 h')]
    rw [le_antisymm (not_lt.1 h') hge]

/-- **C178, as far as it holds**: values of no sign within the range have colours in proportion. -/
theorem C178_nonneg_partial (log pow : R → R) (q : QuickIn R) (hl : q.useLog = true) (hp : q.profile = .absolute) (r0 r1 : R)
    (hr : LogRangeIs q r0 r1) (h01 : r0 < r1) (h1 : 0 ≤ r1) (hnm : q.missingValue = none ∨ HasMissing q) (c0 : ℕ) (hc : FirstColor q c0) :
    ∃ d, q.draw log pow = .ok d ∧ ∀ i x, PixelIs q i x → r0 ≤ |x| → |x| ≤ r1 → d.pixels[i]? = some (some (onScale c0 r0 r1 |x|)) := by
  obtain ⟨d, hd, hpix, -, -⟩ := draw_log log pow q hl (some r0, some r1) (range_log q r0 r1 hr)
    (by simpa [nanLt] using h01.le) (by simpa [nanLt] using h1) c0 hc hnm .absolute (by simp) (by simp [hp])
  refine ⟨d, hd, fun i x hi hx hx' => ?_⟩
  rw [hpix i _ hi.1, if_neg (fun h => hi.2 h.2)]
  simp only [absPixel, Option.map_some]
  rw [rescale_onScale c0 (firstColor_le q c0 hc) r0 r1 |x| h01]
  obtain ⟨b1, b2⟩ := onScale_bounds c0 (firstColor_le q c0 hc) r0 r1 |x| h01 hx hx'
  unfold clampColor
  simp [nanLt, not_lt.2 b1, not_lt.2 b2]

/-! ## C180: `log_color_calc` on its own -/

/-- **C180 fails**: without the number of missing pixels, which is optional, `log_color_calc` raises on every image. -/
theorem C180_default_raises (log pow : R → R) (data : List (Option R)) (range : Option (Option R × Option R)) (profile : ColorProfile)
    (minAbs : Option R) (missing : List Bool) : ∃ e, logColorCalc log pow data range profile minAbs none missing = .error e := by
  unfold logColorCalc
  by_cases h : profile = .other
  · exact ⟨_, if_pos h⟩
  rw [if_neg h]
  simp only [bind, Except.bind, colorRange]
  cases hr : rangeOr range (plainRange data) with
  | error e => exact ⟨e, rfl⟩
  | ok r =>
    simp only []
    split_ifs
    · exact ⟨_, rfl⟩
    · exact ⟨_, rfl⟩

end Scale

/-! ## Examples -/

section Examples

open Spec

/-- Logarithm and power of the real numbers to base ten. -/
example : IsLogPow (Real.logb 10) (fun x => (10 : ℝ) ^ x) :=
  ⟨fun x y hx hxy => Real.logb_lt_logb (by norm_num) hx hxy, fun x hx => Real.rpow_logb (by norm_num) (by norm_num) hx⟩

def exLinear : QuickIn ℚ := ⟨[some 0, some 1, some 2, some 4], none, none, none, false, .other⟩

/-- An image with values 0 to 4: every value but 0 gets the last colour. -/
example : (exLinear.draw id id).map (·.pixels) = .ok [some 0, some 255, some 255, some 255] := by decide +kernel

example : RangeIs exLinear 0 4 ∧ (0 : ℚ) < 4 ∧ ¬HasMissing exLinear ∧ FirstColor exLinear 0 ∧ PixelIs exLinear 3 4 := by
  have hm : ¬HasMissing exLinear := by rintro ⟨v, hv, _⟩; cases hv
  refine ⟨Or.inr ⟨rfl, ⟨⟨by decide, by decide⟩, ?_⟩, ⟨⟨by decide, by decide⟩, ?_⟩⟩, by norm_num, hm, Or.inr ⟨hm, rfl⟩, rfl, by decide⟩ <;>
  · rintro x ⟨hx, -⟩
    simp only [exLinear, List.mem_cons, Option.some.injEq, List.not_mem_nil, or_false] at hx
    rcases hx with rfl | rfl | rfl | rfl <;> norm_num

def exMissing : QuickIn ℚ := ⟨[some 5, some (-1), some 300, some (-2)], some (-1), some (some (-2), some 300), none, false, .logCut⟩

/-- An image with a missing pixel. -/
example : (exMissing.draw id id).map (fun d => d.pixels[1]?) = .ok (some (some 0)) ∧ HasMissing exMissing ∧ RangeIs exMissing (-2) 300 ∧
    FirstColor exMissing 1 ∧ ¬(1 : ℚ) < -2 := by
  have hm : HasMissing exMissing := ⟨-1, rfl, by decide⟩
  exact ⟨by decide +kernel, hm, Or.inl rfl, Or.inl ⟨hm, rfl⟩, by norm_num⟩

/-- The profile `log_cut` with a missing pixel, a negative one and a range. -/
example : HasMissing exMissing ∧ ({ exMissing with useLog := true } : QuickIn ℚ).profile = .logCut ∧
    ((({ exMissing with useLog := true } : QuickIn ℚ).draw id id).map fun d => (d.pixels[1]?, d.pixels[3]?)) =
      .ok (some (some 0), some (some 0)) := ⟨⟨-1, rfl, by decide⟩, rfl, by decide +kernel⟩

/-- No missing pixels after all. -/
example : (⟨[some 1, some 2], some (-1), none, none, true, .logCut⟩ : QuickIn ℚ).draw id id = .error .nameError :=
  C173_log_absent_raises id id _ rfl (-1) rfl (by decide)

def exLog : QuickIn ℚ := ⟨[some 0, some 1, some 10, some 100, some (-3)], none, some (some (-3), some 100), none, true, .logCut⟩

/-- The scale of `log_cut` from 1 to 100. -/
example : LogRangeIs exLog (-3) 100 ∧ LowIs exLog (-3) 1 ∧ (1 : ℚ) < 100 ∧ PixelIs exLog 2 10 ∧ PixelIs exLog 0 0 := by
  refine ⟨Or.inl rfl, Or.inr ⟨by norm_num, ⟨⟨by decide, by decide⟩, by norm_num⟩, ?_⟩, by norm_num, ⟨rfl, by decide⟩, rfl, by decide⟩
  rintro x ⟨⟨hx, -⟩, h0⟩
  simp only [exLog, List.mem_cons, Option.some.injEq, List.not_mem_nil, or_false] at hx
  rcases hx with rfl | rfl | rfl | rfl | rfl <;> revert h0 <;> norm_num

/-- The profile `sym_log`, with values of both signs. -/
example : AbsLowIs ({ exLog with profile := .symLog } : QuickIn ℚ) 1 ∧ PixelIs ({ exLog with profile := .symLog } : QuickIn ℚ) 4 (-3) := by
  refine ⟨Or.inr ⟨rfl, ⟨1, ⟨by decide, by decide⟩, by norm_num, by norm_num⟩, ?_⟩, rfl, by decide⟩
  rintro a ⟨x, ⟨hx, -⟩, h0, rfl⟩
  simp only [exLog, List.mem_cons, Option.some.injEq, List.not_mem_nil, or_false] at hx
  rcases hx with rfl | rfl | rfl | rfl | rfl <;> revert h0 <;> norm_num

/-- The profile `abs` from -5 to 2: -5 and -3 have the last colour. -/
example : ((⟨[some (-5), some (-3), some 1, some 2], none, none, none, true, .absolute⟩ : QuickIn ℚ).draw id id).map (·.pixels) =
    .ok [some 255, some 255, some (255 * 6 / 7), some 255] := by decide +kernel

/-- An image of one value. -/
example : ((⟨[some 7, some 7], none, none, none, false, .other⟩ : QuickIn ℚ).draw id id).map (·.pixels) = .ok [none, none] := by
  decide +kernel

/-- Without the number of missing pixels. -/
example : logColorCalc id id [some (1 : ℚ), some 2] none .logCut none none [] =
    (.error .typeError : Py (Drawing ℚ)) := by
  unfold logColorCalc
  rw [if_neg (by decide)]
  rfl

/-- A name with extension. -/
example : savedAs (fun _ => ".png") ⟨"a.png", false, false, false⟩ = some "a.png.png" := by decide +kernel

end Examples

/-! ## C179: the name of the file -/

/-- **C179 fails**: the extension is added to the name whatever it is, so a name that has it already gets it twice. -/
theorem C179_twice (ext : String → String) (o : SaveOpts) (hs : o.savefile ≠ "") (h : o.png = false ∧ o.eps = false ∧ o.pdf = false)
    (hx : ext o.savefile = ".png" ∨ ext o.savefile = ".pdf" ∨ ext o.savefile = ".eps") :
    savedAs ext o = some (o.savefile ++ ext o.savefile) := by
  obtain ⟨h1, h2, h3⟩ := h
  unfold savedAs
  rw [if_neg (fun h => hs h.1)]
  rcases hx with hx | hx | hx <;> simp [h1, h2, h3, hx, hs]

/-- **C179, as far as it holds**: a name without extension and one format give the name with the extension of the format; without name
and format there is no file. -/
theorem C179_format_partial (ext : String → String) (o : SaveOpts) :
    (o.savefile = "" → o.png = false → o.eps = false → o.pdf = false → savedAs ext o = none) ∧
    (o.savefile ≠ "" → o.png = true → savedAs ext o = some (o.savefile ++ ".png")) ∧
    (o.savefile ≠ "" → o.png = false → o.pdf = true → o.eps = false → savedAs ext o = some (o.savefile ++ ".pdf")) ∧
    (o.savefile ≠ "" → o.png = false → o.pdf = false → o.eps = true → savedAs ext o = some (o.savefile ++ ".eps")) := by
  refine ⟨?_, ?_, ?_, ?_⟩
  · intro h0 h1 h2 h3
    unfold savedAs
    exact if_pos ⟨h0, h1, h2, h3⟩
  all_goals
    intro hs
    intros
    unfold savedAs
    rw [if_neg (fun h => hs h.1)]
    simp_all

/-- **C179** Several formats give one file, in PNG. -/
theorem C179_several (ext : String → String) (o : SaveOpts) (hs : o.savefile ≠ "") (h1 : o.eps = true) (h2 : o.pdf = true) :
    savedAs ext o = some (o.savefile ++ ".png") := by
  unfold savedAs
  rw [if_neg (fun h => hs h.1)]
  cases hp : o.png <;> simp [h1, h2, hs]

end PyFHD
