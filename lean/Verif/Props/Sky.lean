import Verif.Model.Sky

/-!
# C91, C92, C93: direction cosines, angles on the sky and the slant orthographic projection
-/

namespace PyFHD

open Real

namespace Spec

/-- The unit vector of a direction. -/
noncomputable def dir (ra dec : ℝ) : ℝ × ℝ × ℝ := (cos dec * cos ra, cos dec * sin ra, sin dec)

/-- The unit vector towards the east at a direction. -/
noncomputable def east (ra : ℝ) : ℝ × ℝ × ℝ := (-sin ra, cos ra, 0)

/-- The unit vector towards the north at a direction. -/
noncomputable def north (ra dec : ℝ) : ℝ × ℝ × ℝ := (-sin dec * cos ra, -sin dec * sin ra, cos dec)

/-- The scalar product. -/
def dot (a b : ℝ × ℝ × ℝ) : ℝ := a.1 * b.1 + a.2.1 * b.2.1 + a.2.2 * b.2.2

end Spec

open Spec

theorem dot_dir (r1 d1 r2 d2 : ℝ) :
    dot (dir r1 d1) (dir r2 d2) = sin d1 * sin d2 + cos d1 * cos d2 * cos (r1 - r2) := by
  simp only [dot, dir, cos_sub]; ring

theorem dot_east (r1 d1 r2 : ℝ) : dot (dir r1 d1) (east r2) = cos d1 * sin (r1 - r2) := by
  simp only [dot, dir, east, sin_sub]; ring

theorem dot_north (r1 d1 r2 d2 : ℝ) :
    dot (dir r1 d1) (north r2 d2) = sin d1 * cos d2 - cos d1 * sin d2 * cos (r1 - r2) := by
  simp only [dot, dir, north, cos_sub]; ring

/-- The three components of a unit vector. -/
theorem components_unit (r1 d1 r2 d2 : ℝ) :
    dot (dir r1 d1) (east r2) ^ 2 + dot (dir r1 d1) (north r2 d2) ^ 2 +
      dot (dir r1 d1) (dir r2 d2) ^ 2 = 1 := by
  rw [dot_dir, dot_east, dot_north]
  have h1 := sin_sq_add_cos_sq (r1 - r2)
  have h2 := sin_sq_add_cos_sq d1
  have h3 := sin_sq_add_cos_sq d2
  generalize sin (r1 - r2) = a at *
  generalize cos (r1 - r2) = b at *
  generalize sin d1 = s1 at *
  generalize cos d1 = c1 at *
  generalize sin d2 = s2 at *
  generalize cos d2 = c2 at *
  linear_combination c1 ^ 2 * h1 + h2 + (s1 ^ 2 + c1 ^ 2 * b ^ 2) * h3

/-- Expansion of a direction in the east, north and outward directions. -/
theorem dir_expand (r1 d1 r2 d2 : ℝ) :
    (dir r1 d1).1 = dot (dir r1 d1) (east r2) * (east r2).1 +
        dot (dir r1 d1) (north r2 d2) * (north r2 d2).1 +
        dot (dir r1 d1) (dir r2 d2) * (dir r2 d2).1 ∧
      (dir r1 d1).2.1 = dot (dir r1 d1) (east r2) * (east r2).2.1 +
        dot (dir r1 d1) (north r2 d2) * (north r2 d2).2.1 +
        dot (dir r1 d1) (dir r2 d2) * (dir r2 d2).2.1 ∧
      (dir r1 d1).2.2 = dot (dir r1 d1) (east r2) * (east r2).2.2 +
        dot (dir r1 d1) (north r2 d2) * (north r2 d2).2.2 +
        dot (dir r1 d1) (dir r2 d2) * (dir r2 d2).2.2 := by
  have h1 := sin_sq_add_cos_sq r2
  have h2 := sin_sq_add_cos_sq d2
  simp only [dot, dir, east, north]
  generalize sin r2 = a at *
  generalize cos r2 = b at *
  generalize sin d2 = s at *
  generalize cos d2 = c at *
  generalize sin d1 = s1
  generalize cos d1 = c1
  generalize sin r1 = a1
  generalize cos r1 = b1
  refine ⟨?_, ?_, ?_⟩
  · linear_combination (-(c1 * b1)) * h1 - (b * (c1 * b1 * b + c1 * a1 * a)) * h2
  · linear_combination (-(c1 * a1)) * h1 - (a * (c1 * b1 * b + c1 * a1 * a)) * h2
  · linear_combination (-s1) * h2

/-! ## C91 -/

/-- C91: `l`, `m` and `n + 1` are the components of the direction of the pixel towards the east and the
north of the phase centre and towards the phase centre. -/
theorem C91_projection (ra0 dec0 ra dec : ℝ) :
    lmnAt ra0 dec0 ra dec =
      (dot (dir (radOf ra) (radOf dec)) (east (radOf ra0)),
        dot (dir (radOf ra) (radOf dec)) (north (radOf ra0) (radOf dec0)),
        dot (dir (radOf ra) (radOf dec)) (dir (radOf ra0) (radOf dec0)) - 1) := by
  rw [dot_dir, dot_east, dot_north]
  unfold lmnAt
  simp only [Prod.mk.injEq]
  exact ⟨mul_comm _ _, by rw [mul_comm (cos (radOf dec0))], by trivial⟩

/-- C91: the three are the components of a unit vector, and `n` is between -2 and 0. -/
theorem C91_unit (ra0 dec0 ra dec l m n : ℝ) (h : lmnAt ra0 dec0 ra dec = (l, m, n)) :
    l ^ 2 + m ^ 2 + (n + 1) ^ 2 = 1 ∧ -2 ≤ n ∧ n ≤ 0 := by
  rw [C91_projection] at h
  simp only [Prod.mk.injEq] at h
  obtain ⟨rfl, rfl, rfl⟩ := h
  have e := components_unit (radOf ra) (radOf dec) (radOf ra0) (radOf dec0)
  set x := dot (dir (radOf ra) (radOf dec)) (dir (radOf ra0) (radOf dec0))
  refine ⟨by rw [← e]; ring, ?_, ?_⟩
  · nlinarith [sq_nonneg (dot (dir (radOf ra) (radOf dec)) (east (radOf ra0))),
      sq_nonneg (dot (dir (radOf ra) (radOf dec)) (north (radOf ra0) (radOf dec0)))]
  · nlinarith [sq_nonneg (dot (dir (radOf ra) (radOf dec)) (east (radOf ra0))),
      sq_nonneg (dot (dir (radOf ra) (radOf dec)) (north (radOf ra0) (radOf dec0)))]

/-- C91: the phase centre has the coordinates (0, 0, 0), and a pixel with `n = 0` is in the direction of
the phase centre. -/
theorem C91_centre (ra0 dec0 ra dec : ℝ) :
    lmnAt ra0 dec0 ra0 dec0 = (0, 0, 0) ∧
    ((lmnAt ra0 dec0 ra dec).2.2 = 0 →
      dir (radOf ra) (radOf dec) = dir (radOf ra0) (radOf dec0)) := by
  constructor
  · have h := sin_sq_add_cos_sq (radOf dec0)
    unfold lmnAt
    simp only [sub_self, sin_zero, cos_zero, zero_mul, mul_one, Prod.mk.injEq, true_and]
    linear_combination h
  · intro h
    rw [C91_projection] at h
    simp only at h
    have e := components_unit (radOf ra) (radOf dec) (radOf ra0) (radOf dec0)
    have hx : dot (dir (radOf ra) (radOf dec)) (dir (radOf ra0) (radOf dec0)) = 1 := by linarith
    obtain ⟨e1, e2, e3⟩ := dir_expand (radOf ra) (radOf dec) (radOf ra0) (radOf dec0)
    rw [hx] at e e1 e2 e3
    have hl : dot (dir (radOf ra) (radOf dec)) (east (radOf ra0)) = 0 := by
      nlinarith [sq_nonneg (dot (dir (radOf ra) (radOf dec)) (east (radOf ra0))),
        sq_nonneg (dot (dir (radOf ra) (radOf dec)) (north (radOf ra0) (radOf dec0)))]
    have hm : dot (dir (radOf ra) (radOf dec)) (north (radOf ra0) (radOf dec0)) = 0 := by
      nlinarith [sq_nonneg (dot (dir (radOf ra) (radOf dec)) (east (radOf ra0))),
        sq_nonneg (dot (dir (radOf ra) (radOf dec)) (north (radOf ra0) (radOf dec0)))]
    rw [hl, hm] at e1 e2 e3
    simp only [zero_mul, zero_add, one_mul] at e1 e2 e3
    exact Prod.ext e1 (Prod.ext e2 e3)

/-- C91: within the hemisphere of the phase centre, `l` and `m` identify the direction. -/
theorem C91_injective (ra0 dec0 ra dec ra' dec' : ℝ)
    (h1 : 0 ≤ (lmnAt ra0 dec0 ra dec).2.2 + 1) (h2 : 0 ≤ (lmnAt ra0 dec0 ra' dec').2.2 + 1)
    (hl : (lmnAt ra0 dec0 ra dec).1 = (lmnAt ra0 dec0 ra' dec').1)
    (hm : (lmnAt ra0 dec0 ra dec).2.1 = (lmnAt ra0 dec0 ra' dec').2.1) :
    dir (radOf ra) (radOf dec) = dir (radOf ra') (radOf dec') := by
  rw [C91_projection] at h1 hl hm
  rw [C91_projection] at h2 hl hm
  simp only [sub_add_cancel] at h1 h2 hl hm
  have e := components_unit (radOf ra) (radOf dec) (radOf ra0) (radOf dec0)
  have e' := components_unit (radOf ra') (radOf dec') (radOf ra0) (radOf dec0)
  have hn : dot (dir (radOf ra) (radOf dec)) (dir (radOf ra0) (radOf dec0)) =
      dot (dir (radOf ra') (radOf dec')) (dir (radOf ra0) (radOf dec0)) := by
    rw [hl, hm] at e
    have : dot (dir (radOf ra) (radOf dec)) (dir (radOf ra0) (radOf dec0)) ^ 2 =
      dot (dir (radOf ra') (radOf dec')) (dir (radOf ra0) (radOf dec0)) ^ 2 := by linarith
    exact (sq_eq_sq₀ h1 h2).mp this
  obtain ⟨e1, e2, e3⟩ := dir_expand (radOf ra) (radOf dec) (radOf ra0) (radOf dec0)
  obtain ⟨f1, f2, f3⟩ := dir_expand (radOf ra') (radOf dec') (radOf ra0) (radOf dec0)
  rw [hl, hm, hn, ← f1] at e1
  rw [hl, hm, hn, ← f2] at e2
  rw [hl, hm, hn, ← f3] at e3
  exact Prod.ext e1 (Prod.ext e2 e3)

/-- C91: the arrays. Given coordinates replace those of the dictionaries; every pixel gets its
direction cosines, and zeros when it has no coordinates. -/
theorem C91_arrays (c : LmnIn) (ras decs : List (Option ℝ)) (ra0 dec0 : ℝ)
    (hr : ras = match c.raArrArg with | some l => l | none => c.raArr)
    (hd : decs = match c.decArrArg with | some l => l | none => c.decArr)
    (hr0 : ra0 = match c.raArg with | some x => x | none => c.obsra)
    (hd0 : dec0 = match c.decArg with | some x => x | none => c.obsdec)
    (hlen : ras.length = decs.length) :
    ∃ out, lmn c = .ok out ∧ out.length = ras.length ∧
      ∀ i (hi : i < ras.length) (hi' : i < decs.length) (ho : i < out.length),
        (∀ r d, ras[i] = some r → decs[i] = some d → out[i] = lmnAt ra0 dec0 r d) ∧
        (ras[i] = none ∨ decs[i] = none → out[i] = (0, 0, 0)) := by
  have e1 : c.raArrArg.getD c.raArr = ras := by rw [hr]; cases c.raArrArg <;> rfl
  have e2 : c.decArrArg.getD c.decArr = decs := by rw [hd]; cases c.decArrArg <;> rfl
  have e3 : c.raArg.getD c.obsra = ra0 := by rw [hr0]; cases c.raArg <;> rfl
  have e4 : c.decArg.getD c.obsdec = dec0 := by rw [hd0]; cases c.decArg <;> rfl
  unfold lmn
  simp only [e1, e2, e3, e4]
  rw [if_neg (not_not.mpr hlen)]
  refine ⟨_, rfl, by simp [hlen], ?_⟩
  intro i hi hi' ho
  simp only [List.getElem_map, List.getElem_zip]
  constructor
  · intro r d h1 h2
    rw [h1, h2]; rfl
  · rintro (h | h)
    · rw [h]; rfl
    · rw [h]; cases ras[i] <;> rfl

theorem radOf_zero : radOf 0 = 0 := by unfold radOf; ring
theorem radOf_90 : radOf 90 = π / 2 := by unfold radOf; ring

/-- The pole seen from the equator: due north. -/
example : lmnAt 0 0 0 90 = (0, 1, -1) := by
  simp [lmnAt, radOf_zero, radOf_90]

/-- Ninety degrees to the east. -/
example : lmnAt 0 0 90 0 = (1, 0, -1) := by
  simp [lmnAt, radOf_zero, radOf_90]

example : ∃ out, lmn ⟨10, 0, [some 0, some 90, none], [some 0, some 0, none], some 0, none, none, none⟩ =
    .ok out ∧ out = [(0, 0, 0), (1, 0, -1), (0, 0, 0)] := by
  refine ⟨_, rfl, ?_⟩
  simp [lmnPixel, lmnAt, radOf_zero, radOf_90]

/-! ## C92 -/

theorem radOf_degOf (x : ℝ) : radOf (degOf x) = x := by
  have := pi_pos.ne'
  unfold radOf degOf
  field_simp

theorem degOf_radOf (x : ℝ) : degOf (radOf x) = x := by
  have := pi_pos.ne'
  unfold radOf degOf
  field_simp

theorem separation_eq (r1 d1 r2 d2 : ℝ) :
    separation r1 d1 r2 d2 = degOf (arccos (dot (dir r1 d1) (dir r2 d2))) := by
  rw [dot_dir]; rfl

/-- C92: without `nearest`, the angle is between 0 and 180 degrees, its cosine is the scalar product
of the directions, it does not depend on the order, and coordinates in degrees and in radians give
the same. -/
theorem C92_separation (r1 d1 r2 d2 : ℝ) :
    let a := angleDifference r1 d1 r2 d2 false false
    0 ≤ a ∧ a ≤ 180 ∧ cos (radOf a) = dot (dir r1 d1) (dir r2 d2) ∧
      a = angleDifference r2 d2 r1 d1 false false ∧
      a = angleDifference (degOf r1) (degOf d1) (degOf r2) (degOf d2) true false := by
  have hp := pi_pos
  have e : angleDifference r1 d1 r2 d2 false false = separation r1 d1 r2 d2 := by
    simp [angleDifference]
  have e' : angleDifference r2 d2 r1 d1 false false = separation r2 d2 r1 d1 := by
    simp [angleDifference]
  simp only [e, e']
  have hu := components_unit r1 d1 r2 d2
  refine ⟨?_, ?_, ?_, ?_, ?_⟩
  · exact mul_nonneg (arccos_nonneg _) (by positivity)
  · unfold separation degOf
    calc _ ≤ π * (180 / π) := mul_le_mul_of_nonneg_right (arccos_le_pi _) (by positivity)
      _ = 180 := by field_simp
  · rw [separation_eq, radOf_degOf, cos_arccos]
    · nlinarith [sq_nonneg (dot (dir r1 d1) (east r2)), sq_nonneg (dot (dir r1 d1) (north r2 d2))]
    · nlinarith [sq_nonneg (dot (dir r1 d1) (east r2)), sq_nonneg (dot (dir r1 d1) (north r2 d2))]
  · rw [separation_eq, separation_eq]
    congr 2
    simp only [dot]; ring
  · simp [angleDifference, radOf_degOf]

/-- C92: the angle is zero exactly for equal directions. -/
theorem C92_zero (r1 d1 r2 d2 : ℝ) :
    angleDifference r1 d1 r2 d2 false false = 0 ↔ dir r1 d1 = dir r2 d2 := by
  have e : angleDifference r1 d1 r2 d2 false false = separation r1 d1 r2 d2 := by
    simp [angleDifference]
  have hu := components_unit r1 d1 r2 d2
  rw [e, separation_eq]
  constructor
  · intro h
    have h1 := congrArg (fun x => cos (radOf x)) h
    simp only [radOf_degOf, radOf_zero, cos_zero] at h1
    have b1 : -1 ≤ dot (dir r1 d1) (dir r2 d2) := by
      nlinarith [sq_nonneg (dot (dir r1 d1) (east r2)), sq_nonneg (dot (dir r1 d1) (north r2 d2))]
    have b2 : dot (dir r1 d1) (dir r2 d2) ≤ 1 := by
      nlinarith [sq_nonneg (dot (dir r1 d1) (east r2)), sq_nonneg (dot (dir r1 d1) (north r2 d2))]
    rw [cos_arccos b1 b2] at h1
    obtain ⟨e1, e2, e3⟩ := dir_expand r1 d1 r2 d2
    rw [h1] at e1 e2 e3 hu
    have hl : dot (dir r1 d1) (east r2) = 0 := by
      nlinarith [sq_nonneg (dot (dir r1 d1) (east r2)), sq_nonneg (dot (dir r1 d1) (north r2 d2))]
    have hm : dot (dir r1 d1) (north r2 d2) = 0 := by
      nlinarith [sq_nonneg (dot (dir r1 d1) (east r2)), sq_nonneg (dot (dir r1 d1) (north r2 d2))]
    rw [hl, hm] at e1 e2 e3
    simp only [zero_mul, zero_add, one_mul] at e1 e2 e3
    exact Prod.ext e1 (Prod.ext e2 e3)
  · intro h
    rw [h]
    have : dot (dir r2 d2) (dir r2 d2) = 1 := by
      rw [dot_dir, sub_self, cos_zero]
      linear_combination sin_sq_add_cos_sq d2
    rw [this, arccos_one]
    unfold degOf; ring

/-- C92 fails for `nearest`: the angle, which is in degrees, is compared with `2 pi` minus it, and the
larger of the two is taken. Two equal directions are `2 pi` degrees apart. -/
theorem C92_nearest_same (r d : ℝ) : angleDifference r d r d false true = 2 * π := by
  have h := (C92_zero r d r d).mpr rfl
  unfold angleDifference at h ⊢
  simp only [Bool.false_eq_true, if_false, if_true] at h ⊢
  rw [h, sub_zero]
  exact max_eq_right (by linarith [pi_pos])

/-- C92 fails for `nearest`: directions less than `pi` degrees apart get a larger angle the closer they
are; others get the angle itself. -/
theorem C92_nearest (r1 d1 r2 d2 : ℝ) :
    let a := angleDifference r1 d1 r2 d2 false false
    angleDifference r1 d1 r2 d2 false true = if a < π then 2 * π - a else a := by
  intro a
  have ha : angleDifference r1 d1 r2 d2 false true = max a (2 * π - a) := by
    simp [a, angleDifference]
  rw [ha]
  split
  · exact max_eq_right (by linarith)
  · exact max_eq_left (by linarith)

/-- The pole is 90 degrees from the equator. -/
example : angleDifference 0 0 0 90 true false = 90 := by
  have := pi_pos.ne'
  simp [angleDifference, separation, radOf_zero, radOf_90, degOf]
  field_simp
  norm_num

/-! ## C93 -/

theorem lonOffset_same (p z : ℝ) : sin (radOf (lonOffset p z)) = sin (radOf p - radOf z) ∧
    cos (radOf (lonOffset p z)) = cos (radOf p - radOf z) := by
  unfold lonOffset
  split
  · split
    · have : radOf (p - 360 - z) = (radOf p - radOf z) - 2 * π := by unfold radOf; ring
      rw [this]
      exact ⟨sin_sub_two_pi _, cos_sub_two_pi _⟩
    · have : radOf (p - -360 - z) = (radOf p - radOf z) + 2 * π := by unfold radOf; ring
      rw [this]
      exact ⟨sin_add_two_pi _, cos_add_two_pi _⟩
  · have : radOf (p - z) = radOf p - radOf z := by unfold radOf; ring
    rw [this]
    exact ⟨rfl, rfl⟩

namespace Spec

/-- East, north and outward component of the zenith at the phase centre, angles in degrees. -/
noncomputable def zenL (pra zra zdec : ℝ) : ℝ :=
  dot (dir (radOf zra) (radOf zdec)) (east (radOf pra))
noncomputable def zenM (pra pdec zra zdec : ℝ) : ℝ :=
  dot (dir (radOf zra) (radOf zdec)) (north (radOf pra) (radOf pdec))
noncomputable def zenN (pra pdec zra zdec : ℝ) : ℝ :=
  dot (dir (radOf zra) (radOf zdec)) (dir (radOf pra) (radOf pdec))

end Spec

theorem zenL_eq (pra zra zdec : ℝ) :
    zenL pra zra zdec = -(cos (radOf zdec) * sin (radOf (lonOffset pra zra))) := by
  rw [(lonOffset_same pra zra).1]
  unfold zenL
  rw [dot_east, ← neg_sub (radOf pra) (radOf zra), sin_neg]
  ring

theorem zenM_eq (pra pdec zra zdec : ℝ) (hc : cos (radOf zdec) ≠ 0) :
    zenM pra pdec zra zdec = cos (radOf zdec) * parX zdec (lonOffset pra zra) pdec := by
  unfold zenM parX
  rw [dot_north, (lonOffset_same pra zra).2, tan_eq_sin_div_cos, ← cos_neg (radOf zra - radOf pra),
    neg_sub]
  field_simp

theorem slant_general (pra pdec zra zdec : ℝ) (hc : 0 < cos (radOf zdec))
    (hx : zenM pra pdec zra zdec ≠ 0) :
    slantParams pra pdec zra zdec = some
      ((SignType.sign (zenM pra pdec zra zdec) : ℝ) * (zenL pra zra zdec / zenN pra pdec zra zdec),
        |zenM pra pdec zra zdec| / zenN pra pdec zra zdec) := by
  have hM := zenM_eq pra pdec zra zdec hc.ne'
  have hL := zenL_eq pra zra zdec
  set x := parX zdec (lonOffset pra zra) pdec with hxdef
  set y := sin (radOf (lonOffset pra zra)) with hydef
  set C := cos (radOf zdec) with hC
  have hx0 : x ≠ 0 := by intro h; exact hx (by rw [hM, h, mul_zero])
  have hz : radOf (angleDifference pra pdec zra zdec true false) =
      arccos (zenN pra pdec zra zdec) := by
    simp only [angleDifference, if_true, Bool.false_eq_true, if_false]
    rw [separation_eq, radOf_degOf]
    unfold zenN
    congr 1
    simp only [dot]; ring
  have hu : zenL pra zra zdec ^ 2 + zenM pra pdec zra zdec ^ 2 + zenN pra pdec zra zdec ^ 2 = 1 :=
    components_unit (radOf zra) (radOf zdec) (radOf pra) (radOf pdec)
  set d := zenN pra pdec zra zdec
  set r := √(1 + (y / x) ^ 2) with hr
  have hrp : 0 < r := Real.sqrt_pos.mpr (by positivity)
  have hr2 : r ^ 2 = 1 + (y / x) ^ 2 := Real.sq_sqrt (by positivity)
  have hs : √(1 - d ^ 2) = C * |x| * r := by
    have : 1 - d ^ 2 = (C * |x| * r) ^ 2 := by
      rw [mul_pow, mul_pow, sq_abs, hr2]
      rw [hL, hM] at hu
      field_simp
      linear_combination -hu
    rw [this, Real.sqrt_sq (by positivity)]
  unfold slantParams parallacticAngle
  simp only [← hxdef, ← hydef, if_neg hx0, Option.map_some, hz, radOf_degOf, tan_arccos, hs,
    sin_arctan, cos_arctan, ← hr]
  congr 1
  rcases lt_or_gt_of_ne hx0 with hneg | hpos
  · have hMneg : zenM pra pdec zra zdec < 0 := by rw [hM]; exact mul_neg_of_pos_of_neg hc hneg
    rw [sign_neg hMneg, abs_of_neg hneg, abs_of_neg hMneg, hL, hM]
    rw [Prod.mk.injEq]
    constructor
    · simp only [SignType.coe_neg, SignType.coe_one]
      field_simp
    · field_simp
  · have hMpos : 0 < zenM pra pdec zra zdec := by rw [hM]; exact mul_pos hc hpos
    rw [sign_pos hMpos, abs_of_pos hpos, abs_of_pos hMpos, hL, hM]
    rw [Prod.mk.injEq]
    constructor
    · simp only [SignType.coe_one]
      field_simp
    · field_simp

/-- C93, the part that holds: when the zenith is to the north of the phase centre, the parameters of
the slant projection are the components of the zenith towards east and north over that towards the
phase centre. -/
theorem C93_north_partial (pra pdec zra zdec : ℝ) (hc : 0 < cos (radOf zdec))
    (hx : 0 < zenM pra pdec zra zdec) :
    slantParams pra pdec zra zdec = some (zenL pra zra zdec / zenN pra pdec zra zdec,
      zenM pra pdec zra zdec / zenN pra pdec zra zdec) := by
  rw [slant_general pra pdec zra zdec hc hx.ne', sign_pos hx, abs_of_pos hx]
  simp

/-- C93 fails when the zenith is to the south of the phase centre: both parameters have the wrong
sign. -/
theorem C93_south_sign (pra pdec zra zdec : ℝ) (hc : 0 < cos (radOf zdec))
    (hx : zenM pra pdec zra zdec < 0) :
    slantParams pra pdec zra zdec = some (-(zenL pra zra zdec / zenN pra pdec zra zdec),
      -(zenM pra pdec zra zdec / zenN pra pdec zra zdec)) := by
  rw [slant_general pra pdec zra zdec hc hx.ne, sign_neg hx, abs_of_neg hx]
  simp only [SignType.coe_neg, SignType.coe_one, Option.some.injEq, Prod.mk.injEq]
  constructor <;> ring

/-- C93 fails when the phase centre is the zenith: the parameters are not numbers (in exact
arithmetic). -/
theorem C93_zenith_nan (ra dec : ℝ) (hc : cos (radOf dec) ≠ 0) :
    slantParams ra dec ra dec = none := by
  have h1 : lonOffset ra ra = 0 := by simp [lonOffset]
  have h2 : parX dec 0 dec = 0 := by
    unfold parX
    rw [radOf_zero, cos_zero, tan_eq_sin_div_cos]
    field_simp
    ring
  simp [slantParams, parallacticAngle, h1, h2, radOf_zero]

/-- A baseline in the plane of a flat array has the phase of the projected coordinates: `u`, `v`, `w`
with `w` given by the plane. This is what the parameters are for. -/
theorem C93_flat_array (u v w l m n L M N : ℝ) (hN : N ≠ 0) (hplane : u * L + v * M + w * N = 0) :
    u * l + v * m + w * (n - 1) = u * (l + L / N * (1 - n)) + v * (m + M / N * (1 - n)) := by
  have hw : w = -(u * L + v * M) / N := by
    rw [eq_div_iff hN]; linarith
  rw [hw]
  field_simp
  ring

theorem radOf_30 : radOf 30 = π / 6 := by unfold radOf; ring
theorem radOf_m30 : radOf (-30) = -(π / 6) := by unfold radOf; ring

/-- Zenith at declination +30 and -30, phase centre on the equator: the same positive parameter. -/
example : slantParams 0 0 0 30 = some (0, 1 / √3) ∧ slantParams 0 0 0 (-30) = some (0, 1 / √3) := by
  have hc : (0 : ℝ) < √3 / 2 := by positivity
  constructor
  · rw [C93_north_partial 0 0 0 30 (by rw [radOf_30, cos_pi_div_six]; exact hc)
      (by simp [zenM, dot_north, radOf_zero, radOf_30])]
    simp [zenL, zenM, zenN, dot_north, dot_east, dot_dir, radOf_zero, radOf_30]
    field_simp
  · rw [C93_south_sign 0 0 0 (-30) (by rw [radOf_m30, cos_neg, cos_pi_div_six]; exact hc)
      (by simp [zenM, dot_north, radOf_zero, radOf_m30])]
    simp [zenL, zenM, zenN, dot_north, dot_east, dot_dir, radOf_zero, radOf_m30]
    field_simp

example : slantParams 10 0 10 0 = none := C93_zenith_nan 10 0 (by simp [radOf_zero])

end PyFHD
