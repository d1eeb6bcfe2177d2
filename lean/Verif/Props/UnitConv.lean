import Verif.Model.UnitConv
import Verif.Model.ObsMeta
import Verif.Props.Sky

/-!
# C242, C243, C244: positions and pixels, the horizon and the phases of sources
-/

namespace PyFHD

open Real Spec

namespace Spec

/-- The three components of a direction at the reference point (all angles in degrees): towards east, north and the point. -/
noncomputable def compL (r0 ra dec : ℝ) : ℝ := dot (dir (radOf ra) (radOf dec)) (east (radOf r0))
noncomputable def compM (r0 d0 ra dec : ℝ) : ℝ := dot (dir (radOf ra) (radOf dec)) (north (radOf r0) (radOf d0))
noncomputable def compN (r0 d0 ra dec : ℝ) : ℝ := dot (dir (radOf ra) (radOf dec)) (dir (radOf r0) (radOf d0))

/-- Astrometry as the program makes it: the reference point is at the native pole, north is up. -/
def Standard (a : Astr) (xi eta : ℝ) : Prop :=
  a.pv1 = [0, 0, 90, 180, 0] ∧ a.pv2 = [xi, eta] ∧ a.cdelt.1 ≠ 0 ∧ a.cdelt.2 ≠ 0

/-- A direction is on the near side if its component along the axis of projection is not negative. -/
def Near (xi eta l m n : ℝ) : Prop := 0 ≤ n + xi * l + eta * m

/-- Coordinates in their usual ranges. -/
def Usual (ra dec : ℝ) : Prop := 0 ≤ ra ∧ ra < 360 ∧ -90 ≤ dec ∧ dec ≤ 90

end Spec

theorem radOf_180 : radOf 180 = π := by unfold radOf; ring

/-- The conversion to pixels in terms of the components. -/
theorem radecToPixel_std (a : Astr) (xi eta : ℝ) (h : Standard a xi eta) (ra dec : ℝ) :
    radecToPixel a ra dec = .ok (if compN a.crval.1 a.crval.2 ra dec + xi * compL a.crval.1 ra dec
        + eta * compM a.crval.1 a.crval.2 ra dec < 0 then none
      else some (180 / π * (compL a.crval.1 ra dec + xi * (1 - compN a.crval.1 a.crval.2 ra dec)) / a.cdelt.1 + a.crpix.1 - 1,
        180 / π * (compM a.crval.1 a.crval.2 ra dec + eta * (1 - compN a.crval.1 a.crval.2 ra dec)) / a.cdelt.2
          + a.crpix.2 - 1)) := by
  obtain ⟨h1, h2, _, _⟩ := h
  unfold radecToPixel wcsOf pvAt
  rw [h1, h2]
  simp only [List.getElem?_cons_succ, List.getElem?_cons_zero, bind, Except.bind, worldToPixel, radOf_180, cos_pi, sin_pi]
  have e1 : compL a.crval.1 ra dec = cos (radOf dec) * sin (radOf ra - radOf a.crval.1) := dot_east _ _ _
  have e2 : compM a.crval.1 a.crval.2 ra dec = sin (radOf dec) * cos (radOf a.crval.2)
      - cos (radOf dec) * sin (radOf a.crval.2) * cos (radOf ra - radOf a.crval.1) := dot_north _ _ _ _
  have e3 : compN a.crval.1 a.crval.2 ra dec = sin (radOf dec) * sin (radOf a.crval.2)
      + cos (radOf dec) * cos (radOf a.crval.2) * cos (radOf ra - radOf a.crval.1) := dot_dir _ _ _ _
  rw [← e2, ← e3]
  have e4 : -(cos (radOf dec) * sin (radOf ra - radOf a.crval.1)) * -1 + compM a.crval.1 a.crval.2 ra dec * 0
      = compL a.crval.1 ra dec := by rw [e1]; ring
  have e5 : compM a.crval.1 a.crval.2 ra dec * -1 - -(cos (radOf dec) * sin (radOf ra - radOf a.crval.1)) * 0
      = -compM a.crval.1 a.crval.2 ra dec := by ring
  rw [e4, e5]
  have e6 : ∀ t : ℝ, t + xi * compL a.crval.1 ra dec - eta * -compM a.crval.1 a.crval.2 ra dec
      = t + xi * compL a.crval.1 ra dec + eta * compM a.crval.1 a.crval.2 ra dec := fun t => by ring
  rw [e6]
  have e7 : ∀ t : ℝ, -(180 / π * (-compM a.crval.1 a.crval.2 ra dec - eta * t))
      = 180 / π * (compM a.crval.1 a.crval.2 ra dec + eta * t) := fun t => by ring
  rw [e7]

/-- The vector made of components at a reference point. -/
noncomputable def vecOf (r0 d0 l m n : ℝ) : ℝ × ℝ × ℝ :=
  (n * (cos (radOf d0) * cos (radOf r0)) - l * sin (radOf r0) - m * (sin (radOf d0) * cos (radOf r0)),
    n * (cos (radOf d0) * sin (radOf r0)) + l * cos (radOf r0) - m * (sin (radOf d0) * sin (radOf r0)),
    n * sin (radOf d0) + m * cos (radOf d0))

theorem pixelToRadec_std (a : Astr) (xi eta : ℝ) (h : Standard a xi eta) (x y : ℝ) :
    let x0 := radOf ((x + 1 - a.crpix.1) * a.cdelt.1) - xi
    let y0 := radOf ((y + 1 - a.crpix.2) * a.cdelt.2) - eta
    let disc := (xi * x0 + eta * y0) ^ 2 - (1 + xi ^ 2 + eta ^ 2) * (x0 ^ 2 + y0 ^ 2 - 1)
    let n := (-(xi * x0 + eta * y0) + √disc) / (1 + xi ^ 2 + eta ^ 2)
    pixelToRadec a x y = .ok (if disc < 0 then none
      else some (raDecOf (vecOf a.crval.1 a.crval.2 (x0 + xi * n) (y0 + eta * n) n))) := by
  obtain ⟨h1, h2, _, _⟩ := h
  unfold pixelToRadec wcsOf pvAt
  rw [h1, h2]
  simp only [List.getElem?_cons_succ, List.getElem?_cons_zero, bind, Except.bind, pixelToWorld, radOf_180, cos_pi, sin_pi, vecOf]
  have e1 : ∀ S C : ℝ, -(S * -1 - C * 0) = S := fun S C => by ring
  have e2 : ∀ S C : ℝ, S * 0 + -C * -1 = C := fun S C => by ring
  simp only [e1, e2]

/-- The direction of the coordinates of a vector of length one is this vector; the coordinates are in their usual ranges. -/
theorem raDecOf_spec (v : ℝ × ℝ × ℝ) (h : v.1 ^ 2 + v.2.1 ^ 2 + v.2.2 ^ 2 = 1) :
    dir (radOf (raDecOf v).1) (radOf (raDecOf v).2) = v ∧ Usual (raDecOf v).1 (raDecOf v).2 := by
  obtain ⟨x, y, z⟩ := v
  simp only at h
  have hz1 : -1 ≤ z := by nlinarith [sq_nonneg x, sq_nonneg y]
  have hz2 : z ≤ 1 := by nlinarith [sq_nonneg x, sq_nonneg y]
  set w : ℂ := ⟨x, y⟩ with hw
  have hn : ‖w‖ = √(1 - z ^ 2) := by
    rw [Complex.norm_def, Complex.normSq_apply]
    congr 1
    simp only [hw]
    linarith
  have hc : cos (radOf (raDecOf (x, y, z)).2) = ‖w‖ := by
    simp only [raDecOf, radOf_degOf, cos_arcsin, hn]
  have hs : sin (radOf (raDecOf (x, y, z)).2) = z := by
    simp only [raDecOf, radOf_degOf]
    exact sin_arcsin hz1 hz2
  have hra : cos (radOf (raDecOf (x, y, z)).1) = cos w.arg ∧ sin (radOf (raDecOf (x, y, z)).1) = sin w.arg := by
    simp only [raDecOf, wrap360, ← hw]
    split
    · have : radOf (degOf w.arg + 360) = w.arg + 2 * π := by
        have := radOf_degOf w.arg
        unfold radOf at this ⊢
        linarith
      rw [this]
      exact ⟨cos_add_two_pi _, sin_add_two_pi _⟩
    · rw [radOf_degOf]; exact ⟨rfl, rfl⟩
  refine ⟨?_, ?_⟩
  · unfold dir
    rw [hc, hs, hra.1, hra.2, Complex.norm_mul_cos_arg, Complex.norm_mul_sin_arg]
  · have hp := pi_pos
    have h1 := Complex.neg_pi_lt_arg w
    have h2 := Complex.arg_le_pi w
    have d1 : -180 < degOf w.arg := by
      unfold degOf
      rw [mul_div_assoc', lt_div_iff₀ hp]; linarith
    have d2 : degOf w.arg ≤ 180 := by
      unfold degOf
      rw [mul_div_assoc', div_le_iff₀ hp]; linarith
    have d3 : -90 ≤ degOf (arcsin z) := by
      unfold degOf
      rw [mul_div_assoc', le_div_iff₀ hp]; linarith [neg_pi_div_two_le_arcsin z]
    have d4 : degOf (arcsin z) ≤ 90 := by
      unfold degOf
      rw [mul_div_assoc', div_le_iff₀ hp]; linarith [arcsin_le_pi_div_two z]
    simp only [Usual, raDecOf, wrap360, ← hw]
    split
    · exact ⟨by linarith, by linarith, d3, d4⟩
    · exact ⟨by linarith, by linarith, d3, d4⟩

theorem vecOf_unit (r0 d0 l m n : ℝ) (h : l ^ 2 + m ^ 2 + n ^ 2 = 1) :
    (vecOf r0 d0 l m n).1 ^ 2 + (vecOf r0 d0 l m n).2.1 ^ 2 + (vecOf r0 d0 l m n).2.2 ^ 2 = 1 := by
  simp only [vecOf]
  have h1 := sin_sq_add_cos_sq (radOf r0)
  have h2 := sin_sq_add_cos_sq (radOf d0)
  generalize sin (radOf r0) = a at *
  generalize cos (radOf r0) = b at *
  generalize sin (radOf d0) = s at *
  generalize cos (radOf d0) = c at *
  linear_combination h + (n ^ 2 * c ^ 2 + l ^ 2 + m ^ 2 * s ^ 2 - 2 * n * m * c * s) * h1 + (n ^ 2 + m ^ 2) * h2

theorem vecOf_comp (r0 d0 l m n : ℝ) :
    dot (vecOf r0 d0 l m n) (east (radOf r0)) = l ∧ dot (vecOf r0 d0 l m n) (north (radOf r0) (radOf d0)) = m ∧
    dot (vecOf r0 d0 l m n) (dir (radOf r0) (radOf d0)) = n := by
  simp only [vecOf, dot, east, north, dir]
  have h1 := sin_sq_add_cos_sq (radOf r0)
  have h2 := sin_sq_add_cos_sq (radOf d0)
  generalize sin (radOf r0) = a at *
  generalize cos (radOf r0) = b at *
  generalize sin (radOf d0) = s at *
  generalize cos (radOf d0) = c at *
  refine ⟨?_, ?_, ?_⟩
  · linear_combination l * h1
  · linear_combination (m * s ^ 2 - n * c * s) * h1 + m * h2
  · linear_combination (n * c ^ 2 - m * c * s) * h1 + n * h2

theorem vecOf_dir (r0 d0 ra dec : ℝ) :
    vecOf r0 d0 (compL r0 ra dec) (compM r0 d0 ra dec) (compN r0 d0 ra dec) = dir (radOf ra) (radOf dec) := by
  obtain ⟨h1, h2, h3⟩ := dir_expand (radOf ra) (radOf dec) (radOf r0) (radOf d0)
  simp only [vecOf, compL, compM, compN]
  refine Prod.ext ?_ (Prod.ext ?_ ?_)
  · rw [h1]; simp only [east, north, dir]; ring
  · rw [h2]; simp only [east, north, dir]; ring
  · rw [h3]; simp only [east, north, dir]; ring

/-- The larger root of the quadratic equation is the near side. -/
theorem near_root (xi eta l m n : ℝ) (hu : l ^ 2 + m ^ 2 + n ^ 2 = 1) (hn : Near xi eta l m n) :
    let x0 := l - xi * n
    let y0 := m - eta * n
    let disc := (xi * x0 + eta * y0) ^ 2 - (1 + xi ^ 2 + eta ^ 2) * (x0 ^ 2 + y0 ^ 2 - 1)
    0 ≤ disc ∧ (-(xi * x0 + eta * y0) + √disc) / (1 + xi ^ 2 + eta ^ 2) = n := by
  intro x0 y0 disc
  have hd : disc = (n + xi * l + eta * m) ^ 2 := by
    simp only [disc, x0, y0]
    linear_combination (-(1 + xi ^ 2 + eta ^ 2)) * hu
  refine ⟨by rw [hd]; positivity, ?_⟩
  rw [hd, sqrt_sq hn, div_eq_iff (by positivity)]
  simp only [x0, y0]
  ring

theorem root_near (xi eta x0 y0 : ℝ)
    (hd : 0 ≤ (xi * x0 + eta * y0) ^ 2 - (1 + xi ^ 2 + eta ^ 2) * (x0 ^ 2 + y0 ^ 2 - 1)) :
    let n := (-(xi * x0 + eta * y0) + √((xi * x0 + eta * y0) ^ 2 - (1 + xi ^ 2 + eta ^ 2) * (x0 ^ 2 + y0 ^ 2 - 1)))
      / (1 + xi ^ 2 + eta ^ 2)
    (x0 + xi * n) ^ 2 + (y0 + eta * n) ^ 2 + n ^ 2 = 1 ∧ Near xi eta (x0 + xi * n) (y0 + eta * n) n := by
  intro n
  set r := √((xi * x0 + eta * y0) ^ 2 - (1 + xi ^ 2 + eta ^ 2) * (x0 ^ 2 + y0 ^ 2 - 1)) with hr
  have hr0 : 0 ≤ r := sqrt_nonneg _
  have hr2 : r ^ 2 = _ := sq_sqrt hd
  have hA : (0 : ℝ) < 1 + xi ^ 2 + eta ^ 2 := by positivity
  have hn : (1 + xi ^ 2 + eta ^ 2) * n = -(xi * x0 + eta * y0) + r := by
    simp only [n, ← hr]
    field_simp
  constructor
  · have h2 : ((1 + xi ^ 2 + eta ^ 2) * n + (xi * x0 + eta * y0)) ^ 2 = r ^ 2 := by rw [hn]; ring
    rw [hr2] at h2
    have h3 : (1 + xi ^ 2 + eta ^ 2) * ((x0 + xi * n) ^ 2 + (y0 + eta * n) ^ 2 + n ^ 2 - 1) = 0 := by
      linear_combination h2
    rcases mul_eq_zero.1 h3 with h | h
    · exact absurd h hA.ne'
    · linarith
  · unfold Near
    have : n + xi * (x0 + xi * n) + eta * (y0 + eta * n) = r := by linear_combination hn
    rw [this]
    exact hr0

theorem radOf_inv (t : ℝ) : radOf (180 / π * t) = t := by
  unfold radOf
  field_simp

theorem inv_radOf (t : ℝ) : 180 / π * radOf t = t := by
  unfold radOf
  field_simp

/-! ## C242: positions and pixels -/

/-- **C242** A position that has a pixel is found again from this pixel. -/
theorem C242_position_again (a : Astr) (xi eta : ℝ) (h : Standard a xi eta) (ra dec x y : ℝ)
    (hp : radecToPixel a ra dec = .ok (some (x, y))) :
    ∃ ra' dec', pixelToRadec a x y = .ok (some (ra', dec')) ∧ Usual ra' dec' ∧
      dir (radOf ra') (radOf dec') = dir (radOf ra) (radOf dec) := by
  rw [radecToPixel_std a xi eta h] at hp
  split at hp
  · cases hp
  rename_i hnear
  simp only [Except.ok.injEq, Option.some.injEq, Prod.mk.injEq] at hp
  obtain ⟨hx, hy⟩ := hp
  obtain ⟨_, _, c1, c2⟩ := id h
  set l := compL a.crval.1 ra dec
  set m := compM a.crval.1 a.crval.2 ra dec
  set n := compN a.crval.1 a.crval.2 ra dec
  have hx' : radOf ((x + 1 - a.crpix.1) * a.cdelt.1) - xi = l - xi * n := by
    rw [← hx]
    have : (180 / π * (l + xi * (1 - n)) / a.cdelt.1 + a.crpix.1 - 1 + 1 - a.crpix.1) * a.cdelt.1
        = 180 / π * (l + xi * (1 - n)) := by field_simp; ring
    rw [this, radOf_inv]; ring
  have hy' : radOf ((y + 1 - a.crpix.2) * a.cdelt.2) - eta = m - eta * n := by
    rw [← hy]
    have : (180 / π * (m + eta * (1 - n)) / a.cdelt.2 + a.crpix.2 - 1 + 1 - a.crpix.2) * a.cdelt.2
        = 180 / π * (m + eta * (1 - n)) := by field_simp; ring
    rw [this, radOf_inv]; ring
  have hu : l ^ 2 + m ^ 2 + n ^ 2 = 1 := components_unit _ _ _ _
  obtain ⟨hd, hroot⟩ := near_root xi eta l m n hu (not_lt.1 hnear)
  have hq := pixelToRadec_std a xi eta h x y
  simp only [hx', hy'] at hq
  rw [hroot, if_neg (not_lt.2 hd)] at hq
  have e1 : l - xi * n + xi * n = l := by ring
  have e2 : m - eta * n + eta * n = m := by ring
  rw [e1, e2] at hq
  obtain ⟨s1, s2⟩ := raDecOf_spec _ (vecOf_unit a.crval.1 a.crval.2 l m n hu)
  exact ⟨_, _, hq, s2, s1.trans (vecOf_dir _ _ _ _)⟩

/-- **C242** The position of a pixel has this pixel. -/
theorem C242_pixel_again (a : Astr) (xi eta : ℝ) (h : Standard a xi eta) (ra dec x y : ℝ)
    (hp : pixelToRadec a x y = .ok (some (ra, dec))) : radecToPixel a ra dec = .ok (some (x, y)) := by
  have hq := pixelToRadec_std a xi eta h x y
  simp only at hq
  set x0 := radOf ((x + 1 - a.crpix.1) * a.cdelt.1) - xi with hx0
  set y0 := radOf ((y + 1 - a.crpix.2) * a.cdelt.2) - eta with hy0
  rw [hq] at hp
  split at hp
  · cases hp
  rename_i hd
  obtain ⟨hu, hnear⟩ := root_near xi eta x0 y0 (not_lt.1 hd)
  set n := (-(xi * x0 + eta * y0) + √((xi * x0 + eta * y0) ^ 2 - (1 + xi ^ 2 + eta ^ 2) * (x0 ^ 2 + y0 ^ 2 - 1)))
      / (1 + xi ^ 2 + eta ^ 2)
  simp only [Except.ok.injEq, Option.some.injEq] at hp
  obtain ⟨s1, _⟩ := raDecOf_spec _ (vecOf_unit a.crval.1 a.crval.2 (x0 + xi * n) (y0 + eta * n) n hu)
  rw [hp] at s1
  simp only at s1
  obtain ⟨v1, v2, v3⟩ := vecOf_comp a.crval.1 a.crval.2 (x0 + xi * n) (y0 + eta * n) n
  rw [← s1] at v1 v2 v3
  rw [radecToPixel_std a xi eta h]
  obtain ⟨_, _, c1, c2⟩ := id h
  have k1 : compL a.crval.1 ra dec = x0 + xi * n := v1
  have k2 : compM a.crval.1 a.crval.2 ra dec = y0 + eta * n := v2
  have k3 : compN a.crval.1 a.crval.2 ra dec = n := v3
  rw [k1, k2, k3, if_neg (not_lt.2 hnear)]
  have e1 : x0 + xi * n + xi * (1 - n) = radOf ((x + 1 - a.crpix.1) * a.cdelt.1) := by rw [hx0]; ring
  have e2 : y0 + eta * n + eta * (1 - n) = radOf ((y + 1 - a.crpix.2) * a.cdelt.2) := by rw [hy0]; ring
  rw [e1, e2, inv_radOf, inv_radOf]
  simp only [Except.ok.injEq, Option.some.injEq, Prod.mk.injEq]
  constructor <;> field_simp <;> ring

/-- **C242** Two positions with the same pixel are the same direction. -/
theorem C242_no_confusion (a : Astr) (xi eta : ℝ) (h : Standard a xi eta) (ra dec ra' dec' x y : ℝ)
    (h1 : radecToPixel a ra dec = .ok (some (x, y))) (h2 : radecToPixel a ra' dec' = .ok (some (x, y))) :
    dir (radOf ra) (radOf dec) = dir (radOf ra') (radOf dec') := by
  obtain ⟨r, d, e1, _, e2⟩ := C242_position_again a xi eta h ra dec x y h1
  obtain ⟨r', d', f1, _, f2⟩ := C242_position_again a xi eta h ra' dec' x y h2
  rw [e1] at f1
  simp only [Except.ok.injEq, Option.some.injEq, Prod.mk.injEq] at f1
  rw [← e2, ← f2, f1.1, f1.2]

/-- **C242** The phase centre is at its pixel. -/
theorem C242_centre (a : Astr) (xi eta : ℝ) (h : Standard a xi eta) :
    radecToPixel a a.crval.1 a.crval.2 = .ok (some (a.crpix.1 - 1, a.crpix.2 - 1)) := by
  rw [radecToPixel_std a xi eta h]
  have e1 : compL a.crval.1 a.crval.1 a.crval.2 = 0 := by simp [compL, dot_east]
  have e2 : compM a.crval.1 a.crval.2 a.crval.1 a.crval.2 = 0 := by
    simp only [compM, dot_north, sub_self, cos_zero]; ring
  have e3 : compN a.crval.1 a.crval.2 a.crval.1 a.crval.2 = 1 := by
    simp only [compN, dot_dir, sub_self, cos_zero, mul_one]
    have := sin_sq_add_cos_sq (radOf a.crval.2)
    linarith [sq (sin (radOf a.crval.2)), sq (cos (radOf a.crval.2))]
  rw [e1, e2, e3]
  norm_num

/-- The hypotheses of C242 are met by what `project_slant_orthographic` returns, here for a zenith at declination 30, a
phase centre on the equator and pixels of one degree. -/
example : ∃ a, slantAstr 0 0 0 30 16 16 1 = some a ∧ Standard a 0 (1 / √3) ∧
    radecToPixel a 0 0 = .ok (some (16, 16)) := by
  have hs : slantParams 0 0 0 30 = some (0, 1 / √3) := by
    rw [C93_north_partial 0 0 0 30 (by rw [radOf_30, cos_pi_div_six]; positivity)
      (by simp [zenM, dot_north, radOf_zero, radOf_30])]
    simp [zenL, zenM, zenN, dot_north, dot_east, dot_dir, radOf_zero, radOf_30]
    field_simp
  refine ⟨_, by rw [slantAstr, hs]; rfl, ⟨rfl, rfl, one_ne_zero, one_ne_zero⟩, ?_⟩
  have := C242_centre { cdelt := (1, 1), crpix := (16 + 1, 16 + 1), crval := (0, 0), pv1 := [0, 0, 90, 180, 0], pv2 := [0, 1 / √3] }
    0 (1 / √3) ⟨rfl, rfl, one_ne_zero, one_ne_zero⟩
  rw [this]
  norm_num

/-! ## C243: the horizon -/

theorem dot_components (ra dec pra pdec zra zdec : ℝ) :
    dot (dir (radOf ra) (radOf dec)) (dir (radOf zra) (radOf zdec))
      = compL pra ra dec * zenL pra zra zdec + compM pra pdec ra dec * zenM pra pdec zra zdec
        + compN pra pdec ra dec * zenN pra pdec zra zdec := by
  obtain ⟨h1, h2, h3⟩ := dir_expand (radOf ra) (radOf dec) (radOf pra) (radOf pdec)
  have : dot (dir (radOf ra) (radOf dec)) (dir (radOf zra) (radOf zdec))
      = (dir (radOf ra) (radOf dec)).1 * (dir (radOf zra) (radOf zdec)).1
        + (dir (radOf ra) (radOf dec)).2.1 * (dir (radOf zra) (radOf zdec)).2.1
        + (dir (radOf ra) (radOf dec)).2.2 * (dir (radOf zra) (radOf zdec)).2.2 := rfl
  rw [this, h1, h2, h3]
  simp only [compL, compM, compN, zenL, zenM, zenN, dot]
  ring

theorem slantAstr_some {pra pdec zra zdec ox oy dp xi eta : ℝ} (h : slantParams pra pdec zra zdec = some (xi, eta)) {a : Astr}
    (ha : slantAstr pra pdec zra zdec ox oy dp = some a) (hd : dp ≠ 0) :
    Standard a xi eta ∧ a.crval = (pra, pdec) ∧ a.cdelt = (dp, dp) ∧ a.crpix = (ox + 1, oy + 1) := by
  unfold slantAstr at ha
  rw [h] at ha
  simp only [Option.map_some, Option.some.injEq] at ha
  subst ha
  exact ⟨⟨rfl, rfl, hd, hd⟩, rfl, rfl, rfl⟩

/-- **C243**, zenith to the north of the phase centre: exactly the positions below the horizon have no pixel. -/
theorem C243_horizon_partial (pra pdec zra zdec ox oy dp : ℝ) (hc : 0 < cos (radOf zdec)) (hM : 0 < zenM pra pdec zra zdec)
    (hN : 0 < zenN pra pdec zra zdec) (hd : dp ≠ 0) {a : Astr} (ha : slantAstr pra pdec zra zdec ox oy dp = some a) (ra dec : ℝ) :
    radecToPixel a ra dec = .ok none ↔ dot (dir (radOf ra) (radOf dec)) (dir (radOf zra) (radOf zdec)) < 0 := by
  obtain ⟨hstd, hcr, _, _⟩ := slantAstr_some (C93_north_partial pra pdec zra zdec hc hM) ha hd
  rw [radecToPixel_std a _ _ hstd, hcr, dot_components ra dec pra pdec]
  simp only
  have e : compN pra pdec ra dec + zenL pra zra zdec / zenN pra pdec zra zdec * compL pra ra dec
      + zenM pra pdec zra zdec / zenN pra pdec zra zdec * compM pra pdec ra dec
      = (compL pra ra dec * zenL pra zra zdec + compM pra pdec ra dec * zenM pra pdec zra zdec
        + compN pra pdec ra dec * zenN pra pdec zra zdec) / zenN pra pdec zra zdec := by
    field_simp
    ring
  rw [e]
  by_cases hlt : compL pra ra dec * zenL pra zra zdec + compM pra pdec ra dec * zenM pra pdec zra zdec
        + compN pra pdec ra dec * zenN pra pdec zra zdec < 0
  · rw [if_pos (div_neg_of_neg_of_pos hlt hN)]
    simp [hlt]
  · rw [if_neg (not_lt.2 (div_nonneg (not_lt.1 hlt) hN.le))]
    simp [hlt]

theorem pixel_none_iff (a : Astr) (xi eta : ℝ) (h : Standard a xi eta) (x y : ℝ) :
    pixelToRadec a x y = .ok none ↔ ∀ ra dec, radecToPixel a ra dec ≠ .ok (some (x, y)) := by
  constructor
  · intro hp ra dec hq
    obtain ⟨_, _, e, _, _⟩ := C242_position_again a xi eta h ra dec x y hq
    rw [hp] at e
    cases e
  · intro hall
    have hq := pixelToRadec_std a xi eta h x y
    simp only at hq
    cases hr : pixelToRadec a x y with
    | error e => rw [hr] at hq; cases hq
    | ok r =>
      cases r with
      | none => rfl
      | some rd => exact absurd (C242_pixel_again a xi eta h rd.1 rd.2 x y hr) (hall _ _)

/-- **C243**, zenith to the north of the phase centre: the mask of the horizon keeps exactly the pixels at which a position above the
horizon is seen. -/
theorem C243_mask_partial (pra pdec zra zdec ox oy dp : ℝ) (hc : 0 < cos (radOf zdec)) (hM : 0 < zenM pra pdec zra zdec)
    (hN : 0 < zenN pra pdec zra zdec) (hd : dp ≠ 0) {a : Astr} (ha : slantAstr pra pdec zra zdec ox oy dp = some a) (x y : ℝ) :
    (∃ v, horizonMask a x y = .ok v ∧ (v = 0 ∨ v = 1)) ∧
    (horizonMask a x y = .ok 1 ↔ ∃ ra dec, radecToPixel a ra dec = .ok (some (x, y)) ∧
      0 ≤ dot (dir (radOf ra) (radOf dec)) (dir (radOf zra) (radOf zdec))) := by
  obtain ⟨hstd, hcr, _, _⟩ := slantAstr_some (C93_north_partial pra pdec zra zdec hc hM) ha hd
  have hnone := pixel_none_iff a _ _ hstd x y
  have hq := pixelToRadec_std a _ _ hstd x y
  simp only at hq
  cases hr : pixelToRadec a x y with
  | error e => rw [hr] at hq; cases hq
  | ok r =>
    have hm : horizonMask a x y = .ok (if r = none then 0 else 1) := by
      unfold horizonMask
      rw [hr]
      rfl
    rw [hm]
    cases r with
    | none =>
      refine ⟨⟨0, by simp, Or.inl rfl⟩, ?_⟩
      have hall := hnone.1 hr
      constructor
      · intro h
        simp at h
      · rintro ⟨ra, dec, h1, _⟩
        exact absurd h1 (hall ra dec)
    | some rd =>
      refine ⟨⟨1, by simp, Or.inr rfl⟩, ?_⟩
      have hp := C242_pixel_again a _ _ hstd rd.1 rd.2 x y hr
      constructor
      · intro _
        refine ⟨rd.1, rd.2, hp, ?_⟩
        by_contra hlt
        rw [not_le] at hlt
        have := (C243_horizon_partial pra pdec zra zdec ox oy dp hc hM hN hd ha rd.1 rd.2).2 hlt
        rw [hp] at this
        cases this
      · intro _
        simp

/-- **C243 is violated** with the zenith to the south of the phase centre: the horizon is that of a zenith mirrored at the phase
centre, so that some position above the horizon has no pixel. -/
theorem C243_south_lost (pra pdec zra zdec ox oy dp : ℝ) (hc : 0 < cos (radOf zdec)) (hM : zenM pra pdec zra zdec < 0)
    (hN : 0 < zenN pra pdec zra zdec) (hd : dp ≠ 0) {a : Astr} (ha : slantAstr pra pdec zra zdec ox oy dp = some a) :
    (∀ ra dec, radecToPixel a ra dec = .ok none ↔
      2 * (compN pra pdec ra dec * zenN pra pdec zra zdec) < dot (dir (radOf ra) (radOf dec)) (dir (radOf zra) (radOf zdec))) ∧
    ∃ ra dec, Usual ra dec ∧ 0 < dot (dir (radOf ra) (radOf dec)) (dir (radOf zra) (radOf zdec)) ∧
      radecToPixel a ra dec = .ok none := by
  obtain ⟨hstd, hcr, _, _⟩ := slantAstr_some (C93_south_sign pra pdec zra zdec hc hM) ha hd
  have hiff : ∀ ra dec, radecToPixel a ra dec = .ok none ↔
      2 * (compN pra pdec ra dec * zenN pra pdec zra zdec)
        < dot (dir (radOf ra) (radOf dec)) (dir (radOf zra) (radOf zdec)) := by
    intro ra dec
    rw [radecToPixel_std a _ _ hstd, hcr, dot_components ra dec pra pdec]
    simp only
    have e : compN pra pdec ra dec + -(zenL pra zra zdec / zenN pra pdec zra zdec) * compL pra ra dec
        + -(zenM pra pdec zra zdec / zenN pra pdec zra zdec) * compM pra pdec ra dec
        = (2 * (compN pra pdec ra dec * zenN pra pdec zra zdec)
          - (compL pra ra dec * zenL pra zra zdec + compM pra pdec ra dec * zenM pra pdec zra zdec
          + compN pra pdec ra dec * zenN pra pdec zra zdec)) / zenN pra pdec zra zdec := by
      field_simp
      ring
    rw [e]
    by_cases hlt : 2 * (compN pra pdec ra dec * zenN pra pdec zra zdec)
        < compL pra ra dec * zenL pra zra zdec + compM pra pdec ra dec * zenM pra pdec zra zdec
          + compN pra pdec ra dec * zenN pra pdec zra zdec
    · rw [if_pos (div_neg_of_neg_of_pos (by linarith) hN)]
      simp [hlt]
    · rw [if_neg (not_lt.2 (div_nonneg (by linarith) hN.le))]
      simp [hlt]
  refine ⟨hiff, ?_⟩
  set L := zenL pra zra zdec with hL
  set M := zenM pra pdec zra zdec with hMM
  have hs : 0 < √(L ^ 2 + M ^ 2) := sqrt_pos.2 (by nlinarith [sq_nonneg L, mul_pos_of_neg_of_neg hM hM])
  have hs2 : √(L ^ 2 + M ^ 2) ^ 2 = L ^ 2 + M ^ 2 := sq_sqrt (by positivity)
  set q := √(L ^ 2 + M ^ 2)
  have hu : (L / q) ^ 2 + (M / q) ^ 2 + (0 : ℝ) ^ 2 = 1 := by
    field_simp
    rw [hs2]
    ring
  obtain ⟨s1, s2⟩ := raDecOf_spec _ (vecOf_unit pra pdec (L / q) (M / q) 0 hu)
  obtain ⟨v1, v2, v3⟩ := vecOf_comp pra pdec (L / q) (M / q) 0
  rw [← s1] at v1 v2 v3
  set rd := raDecOf (vecOf pra pdec (L / q) (M / q) 0)
  have hdot : dot (dir (radOf rd.1) (radOf rd.2)) (dir (radOf zra) (radOf zdec)) = q := by
    rw [dot_components rd.1 rd.2 pra pdec]
    unfold compL compM compN
    rw [v1, v2, v3, ← hL, ← hMM]
    field_simp
    rw [hs2]
    ring
  refine ⟨rd.1, rd.2, s2, by rw [hdot]; exact hs, (hiff _ _).2 ?_⟩
  rw [hdot]
  unfold compN
  rw [v3]
  linarith

/-- The hypotheses of C243 are met: phase centre on the equator, zenith at declination 30 and at declination -30. -/
example : 0 < cos (radOf 30) ∧ 0 < zenM 0 0 0 30 ∧ 0 < zenN 0 0 0 30 ∧ (slantAstr 0 0 0 30 16 16 1).isSome ∧
    0 < cos (radOf (-30)) ∧ zenM 0 0 0 (-30) < 0 ∧ 0 < zenN 0 0 0 (-30) ∧ (slantAstr 0 0 0 (-30) 16 16 1).isSome := by
  have hc : (0 : ℝ) < √3 / 2 := by positivity
  have c1 : 0 < cos (radOf 30) := by rw [radOf_30, cos_pi_div_six]; exact hc
  have c2 : 0 < cos (radOf (-30)) := by rw [radOf_m30, cos_neg, cos_pi_div_six]; exact hc
  have m1 : 0 < zenM 0 0 0 30 := by simp [zenM, dot_north, radOf_zero, radOf_30]
  have m2 : zenM 0 0 0 (-30) < 0 := by simp [zenM, dot_north, radOf_zero, radOf_m30]
  refine ⟨c1, m1, ?_, ?_, c2, m2, ?_, ?_⟩
  · simp only [zenN, dot_dir, radOf_zero, sub_zero, cos_zero, sin_zero]; linarith
  · rw [slantAstr, C93_north_partial 0 0 0 30 c1 m1]; rfl
  · simp only [zenN, dot_dir, radOf_zero, sub_zero, cos_zero, sin_zero]; linarith
  · rw [slantAstr, C93_south_sign 0 0 0 (-30) c2 m2]; rfl

/-! ## C244: the phases of sources -/

/-- **C244**, zenith to the north of the phase centre: for a baseline of a flat array the phase of a source, in turns, is that of the
uv pixel of the baseline and the image pixel of the source, `kpix` wavelengths being one uv pixel. -/
theorem C244_phase_partial (pra pdec zra zdec kpix maxBaseline : ℝ) (dim : ℕ) (hc : 0 < cos (radOf zdec)) (hM : 0 < zenM pra pdec zra zdec)
    (hN : 0 < zenN pra pdec zra zdec) (hk : 0 < kpix) (h0 : 0 < dim) {a : Astr}
    (ha : slantAstr pra pdec zra zdec (createGrid dim kpix maxBaseline).obsx (createGrid dim kpix maxBaseline).obsy
      (createGrid dim kpix maxBaseline).degpix = some a)
    (u v w : ℝ) (hflat : u * zenL pra zra zdec + v * zenM pra pdec zra zdec + w * zenN pra pdec zra zdec = 0)
    (ra dec x y : ℝ) (hp : radecToPixel a ra dec = .ok (some (x, y))) :
    u * compL pra ra dec + v * compM pra pdec ra dec + w * (compN pra pdec ra dec - 1)
      = u / kpix * (x - (dim / 2 : ℕ)) / dim + v / kpix * (y - (dim / 2 : ℕ)) / dim := by
  have hdim : (0 : ℝ) < dim := by exact_mod_cast h0
  have hpi := pi_pos
  simp only [createGrid] at ha
  obtain ⟨hstd, hcr, hcd, hpx⟩ := slantAstr_some (C93_north_partial pra pdec zra zdec hc hM) ha (by positivity)
  rw [radecToPixel_std a _ _ hstd, hcr, hcd, hpx] at hp
  split at hp
  · cases hp
  simp only [Except.ok.injEq, Option.some.injEq, Prod.mk.injEq] at hp
  rw [C93_flat_array u v w _ _ _ _ _ _ hN.ne' hflat, ← hp.1, ← hp.2]
  field_simp
  ring

/-- **C244 is violated** with the zenith to the south of the phase centre: the phase differs by twice the `w` term. -/
theorem C244_south_w_term (pra pdec zra zdec kpix maxBaseline : ℝ) (dim : ℕ) (hc : 0 < cos (radOf zdec)) (hM : zenM pra pdec zra zdec < 0)
    (hN : 0 < zenN pra pdec zra zdec) (hk : 0 < kpix) (h0 : 0 < dim) {a : Astr}
    (ha : slantAstr pra pdec zra zdec (createGrid dim kpix maxBaseline).obsx (createGrid dim kpix maxBaseline).obsy
      (createGrid dim kpix maxBaseline).degpix = some a)
    (u v w : ℝ) (hflat : u * zenL pra zra zdec + v * zenM pra pdec zra zdec + w * zenN pra pdec zra zdec = 0)
    (ra dec x y : ℝ) (hp : radecToPixel a ra dec = .ok (some (x, y))) :
    u / kpix * (x - (dim / 2 : ℕ)) / dim + v / kpix * (y - (dim / 2 : ℕ)) / dim
      = u * compL pra ra dec + v * compM pra pdec ra dec + w * (compN pra pdec ra dec - 1)
        + 2 * w * (1 - compN pra pdec ra dec) := by
  have hdim : (0 : ℝ) < dim := by exact_mod_cast h0
  have hpi := pi_pos
  simp only [createGrid] at ha
  obtain ⟨hstd, hcr, hcd, hpx⟩ := slantAstr_some (C93_south_sign pra pdec zra zdec hc hM) ha (by positivity)
  rw [radecToPixel_std a _ _ hstd, hcr, hcd, hpx] at hp
  split at hp
  · cases hp
  simp only [Except.ok.injEq, Option.some.injEq, Prod.mk.injEq] at hp
  rw [← hp.1, ← hp.2]
  have hw : w = -(u * zenL pra zra zdec + v * zenM pra pdec zra zdec) / zenN pra pdec zra zdec := by
    rw [eq_div_iff hN.ne']; linarith
  rw [hw]
  field_simp
  ring

/-- The hypotheses of C244 are met: a baseline of a flat array with a `w` of its own, zenith at declination 30. -/
example : 0 < zenM 0 0 0 30 ∧ 0 < zenN 0 0 0 30 ∧ (1 : ℝ) * zenL 0 0 30 + √3 * zenM 0 0 0 30 + (-1) * zenN 0 0 0 30 = 0 ∧
    (slantAstr 0 0 0 30 (createGrid 16 (1 / 2) 100).obsx (createGrid 16 (1 / 2) 100).obsy
      (createGrid 16 (1 / 2) 100).degpix).isSome := by
  have hc : (0 : ℝ) < √3 / 2 := by positivity
  have c1 : 0 < cos (radOf 30) := by rw [radOf_30, cos_pi_div_six]; exact hc
  have m1 : 0 < zenM 0 0 0 30 := by simp [zenM, dot_north, radOf_zero, radOf_30]
  refine ⟨m1, ?_, ?_, ?_⟩
  · simp only [zenN, dot_dir, radOf_zero, sub_zero, cos_zero, sin_zero]; linarith
  · simp [zenL, zenM, zenN, dot_north, dot_east, dot_dir, radOf_zero, radOf_30]
    ring
  · rw [slantAstr, C93_north_partial 0 0 0 30 c1 m1]; rfl

end PyFHD
