import Verif.Props.Storage
import Verif.Props.UnitConv

/-!
# Theorems tightened after wrong programs had passed (eighth part)

What becomes of saved integers (C48) and which parameters of the projection reach astropy (C242).
-/

namespace PyFHD

open Real Spec

/-- C48: an array of integers comes back with each entry converted to `int64`, and only entries that the conversion leaves alone are
the saved ones. -/
theorem C48_integers (render : Obj → String) (conv : ℤ → ℤ) (sd : Bool) (shape : List ℕ) (l : List ℤ) (hs : shape ≠ []) :
    (∃ d b, saveLeaf render conv (.array shape (.ints l)) = .ok (d, b) ∧
      loadData sd b d = .ok (.array shape (.ints (l.map conv)))) ∧
    ((∃ d b, saveLeaf render conv (.array shape (.ints l)) = .ok (d, b) ∧ loadData sd b d = .ok (.array shape (.ints l))) ↔
      ∀ x ∈ l, conv x = x) := by
  have h0 : saveLeaf render conv (.array shape (.ints l)) = .ok (.array shape (.ints (l.map conv)), false) := by
    simp only [saveLeaf, formatArray, storeArr, if_neg hs]
  refine ⟨⟨_, _, h0, rfl⟩, ?_, ?_⟩
  · rintro ⟨d, b, h1, h2⟩
    rw [h0] at h1
    obtain ⟨rfl, rfl⟩ := Prod.mk.inj (Except.ok.inj h1)
    have h3 : l.map conv = l := by
      have := Except.ok.inj h2
      simpa using this
    intro x hx
    by_contra hne
    have : l.map conv = l.map id := by rw [h3, List.map_id]
    exact hne (List.map_inj_left.1 this x hx)
  · intro h
    have h3 : l.map conv = l := by
      conv_rhs => rw [← List.map_id l]
      exact List.map_congr_left h
    exact ⟨_, _, h0, by rw [h3]; rfl⟩

/-- An unsigned number of 64 bits at the limit does not come back, for a conversion that keeps the largest signed number. -/
example : ∃ d b, saveLeaf (fun _ => "") (fun z => min z (2 ^ 63 - 1)) (.array [2] (.ints [7, 2 ^ 63])) = .ok (d, b) ∧
    loadData true b d = .ok (.array [2] (.ints [7, 2 ^ 63 - 1])) := by
  have := (C48_integers (fun _ => "") (fun z => min z (2 ^ 63 - 1)) true [2] [7, 2 ^ 63] (by decide)).1
  simpa using this

/-- C242: the dictionary of the projection gives astropy the reference point at the native pole (`phi0` zero and `theta0` 90 degrees),
the longitude 180 and the latitude 0 of the poles, the pixel of the phase centre counted from one and the two parameters of the slant,
in this order. -/
theorem C242_reference (pra pdec zra zdec ox oy dp xi eta : ℝ) (h : slantParams pra pdec zra zdec = some (xi, eta)) :
    ∃ a, slantAstr pra pdec zra zdec ox oy dp = some a ∧
      wcsOf a = .ok { cdelt := (dp, dp), crpix := (ox + 1, oy + 1), crval := (pra, pdec), phi0 := 0, theta0 := 90, lonpole := 180,
                      latpole := 0, xi := xi, eta := eta } := by
  refine ⟨_, by rw [slantAstr, h]; rfl, rfl⟩

example : ∃ a, slantAstr 0 0 0 30 16 16 1 = some a ∧ ∃ w, wcsOf a = .ok w ∧ w.phi0 = 0 ∧ w.theta0 = 90 := by
  have hs : slantParams 0 0 0 30 = some (0, 1 / √3) := by
    rw [C93_north_partial 0 0 0 30 (by rw [radOf_30, cos_pi_div_six]; positivity)
      (by simp [zenM, dot_north, radOf_zero, radOf_30])]
    simp [zenL, zenM, zenN, dot_north, dot_east, dot_dir, radOf_zero, radOf_30]
    field_simp
  obtain ⟨a, h1, h2⟩ := C242_reference 0 0 0 30 16 16 1 0 (1 / √3) hs
  exact ⟨a, h1, _, h2, rfl, rfl⟩

end PyFHD
