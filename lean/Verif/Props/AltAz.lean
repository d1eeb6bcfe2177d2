import Verif.Model.AltAz
import Verif.Props.UnitConv

/-!
# C254, C255, C256: altitude and azimuth, the zenith and the horizon of the metadata
-/

namespace PyFHD

open Real Spec

namespace Spec

/-- Position `(ra, dec)` is the direction with altitude `alt` and azimuth `az` where the zenith is at `(zra, zdec)`: its components
towards the zenith, the north and the east (degrees). -/
def SeenAt (zra zdec ra dec alt az : ℝ) : Prop :=
  compN zra zdec ra dec = sin (radOf alt) ∧ compM zra zdec ra dec = cos (radOf alt) * cos (radOf az) ∧
    compL zra ra dec = cos (radOf alt) * sin (radOf az)

end Spec

theorem altazOf_spec (sidereal : ℝ → ℝ → ℝ) (ra dec lat lon height time : ℝ) :
    let p := radecToAltaz sidereal ra dec lat lon height time
    SeenAt (sidereal lon time) lat ra dec p.1 p.2 ∧ Usual p.2 p.1 := by
  have e1 : compL (sidereal lon time) ra dec = cos (radOf dec) * sin (radOf ra - radOf (sidereal lon time)) := dot_east _ _ _
  have e2 : compM (sidereal lon time) lat ra dec = sin (radOf dec) * cos (radOf lat)
      - cos (radOf dec) * sin (radOf lat) * cos (radOf ra - radOf (sidereal lon time)) := dot_north _ _ _ _
  have e3 : compN (sidereal lon time) lat ra dec = sin (radOf dec) * sin (radOf lat)
      + cos (radOf dec) * cos (radOf lat) * cos (radOf ra - radOf (sidereal lon time)) := dot_dir _ _ _ _
  have hu : compL (sidereal lon time) ra dec ^ 2 + compM (sidereal lon time) lat ra dec ^ 2
      + compN (sidereal lon time) lat ra dec ^ 2 = 1 := components_unit _ _ _ _
  intro p
  have hp : p = ((raDecOf (compM (sidereal lon time) lat ra dec, compL (sidereal lon time) ra dec,
      compN (sidereal lon time) lat ra dec)).2, (raDecOf (compM (sidereal lon time) lat ra dec, compL (sidereal lon time) ra dec,
      compN (sidereal lon time) lat ra dec)).1) := by
    rw [e1, e2, e3]; rfl
  obtain ⟨s1, s2⟩ := raDecOf_spec (compM (sidereal lon time) lat ra dec, compL (sidereal lon time) ra dec,
      compN (sidereal lon time) lat ra dec) (by simp only; linarith)
  rw [hp]
  unfold dir at s1
  simp only [Prod.mk.injEq] at s1
  exact ⟨⟨s1.2.2.symm, s1.1.symm, s1.2.1.symm⟩, s2⟩

theorem icrsOf_spec (sidereal : ℝ → ℝ → ℝ) (alt az lat lon height time : ℝ) :
    let p := altazToRadec sidereal alt az lat lon height time
    SeenAt (sidereal lon time) lat p.1 p.2 alt az ∧ Usual p.1 p.2 := by
  intro p
  have hu : (cos (radOf alt) * sin (radOf az)) ^ 2 + (cos (radOf alt) * cos (radOf az)) ^ 2 + sin (radOf alt) ^ 2 = 1 := by
    have h1 := sin_sq_add_cos_sq (radOf alt)
    have h2 := sin_sq_add_cos_sq (radOf az)
    linear_combination h1 + cos (radOf alt) ^ 2 * h2
  have hp : p = raDecOf (vecOf (sidereal lon time) lat (cos (radOf alt) * sin (radOf az)) (cos (radOf alt) * cos (radOf az))
      (sin (radOf alt))) := rfl
  obtain ⟨s1, s2⟩ := raDecOf_spec _ (vecOf_unit (sidereal lon time) lat _ _ _ hu)
  obtain ⟨v1, v2, v3⟩ := vecOf_comp (sidereal lon time) lat (cos (radOf alt) * sin (radOf az))
    (cos (radOf alt) * cos (radOf az)) (sin (radOf alt))
  rw [← s1, ← hp] at v1 v2 v3
  rw [← hp] at s2
  exact ⟨⟨v3, v2, v1⟩, s2⟩

/-- The direction of a position is determined by its altitude and azimuth. -/
theorem seenAt_dir {zra zdec ra dec ra' dec' alt az : ℝ} (h : SeenAt zra zdec ra dec alt az) (h' : SeenAt zra zdec ra' dec' alt az) :
    dir (radOf ra) (radOf dec) = dir (radOf ra') (radOf dec') := by
  rw [← vecOf_dir zra zdec ra dec, ← vecOf_dir zra zdec ra' dec', h.1, h.2.1, h.2.2, h'.1, h'.2.1, h'.2.2]

/-- **C254** A position converted to altitude and azimuth and back is the same direction. -/
theorem C254_position_again (sidereal : ℝ → ℝ → ℝ) (ra dec lat lon height time : ℝ) :
    let p := radecToAltaz sidereal ra dec lat lon height time
    let q := altazToRadec sidereal p.1 p.2 lat lon height time
    Usual p.2 p.1 ∧ Usual q.1 q.2 ∧ dir (radOf q.1) (radOf q.2) = dir (radOf ra) (radOf dec) := by
  intro p q
  obtain ⟨h1, h2⟩ := altazOf_spec sidereal ra dec lat lon height time
  obtain ⟨h3, h4⟩ := icrsOf_spec sidereal p.1 p.2 lat lon height time
  exact ⟨h2, h4, seenAt_dir h3 h1⟩

/-- **C254** Altitude and azimuth converted to a position and back are the same direction. -/
theorem C254_altaz_again (sidereal : ℝ → ℝ → ℝ) (alt az lat lon height time : ℝ) :
    let q := altazToRadec sidereal alt az lat lon height time
    let p := radecToAltaz sidereal q.1 q.2 lat lon height time
    Usual p.2 p.1 ∧ dir (radOf p.2) (radOf p.1) = dir (radOf az) (radOf alt) := by
  intro q p
  obtain ⟨h1, h2⟩ := icrsOf_spec sidereal alt az lat lon height time
  obtain ⟨h3, h4⟩ := altazOf_spec sidereal q.1 q.2 lat lon height time
  refine ⟨h4, ?_⟩
  unfold dir
  rw [← h3.1, ← h3.2.1, ← h3.2.2, ← h1.1, ← h1.2.1, ← h1.2.2]

/-- **C254** A source at the meridian: where the sidereal time is its right ascension, its altitude is 90 degrees minus the difference
of latitude and declination. -/
theorem C254_culmination (sidereal : ℝ → ℝ → ℝ) (dec lat lon height time : ℝ) (h : |lat - dec| ≤ 180) :
    (radecToAltaz sidereal (sidereal lon time) dec lat lon height time).1 = 90 - |lat - dec| := by
  obtain ⟨⟨h1, _, _⟩, _, _, h3, h4⟩ := altazOf_spec sidereal (sidereal lon time) dec lat lon height time
  set alt := (radecToAltaz sidereal (sidereal lon time) dec lat lon height time).1
  have e3 : compN (sidereal lon time) lat (sidereal lon time) dec = cos (radOf |lat - dec|) := by
    have e : compN (sidereal lon time) lat (sidereal lon time) dec = sin (radOf dec) * sin (radOf lat)
      + cos (radOf dec) * cos (radOf lat) * cos (radOf (sidereal lon time) - radOf (sidereal lon time)) := dot_dir _ _ _ _
    rw [e, sub_self, cos_zero]
    have : radOf |lat - dec| = |radOf lat - radOf dec| := by
      unfold radOf
      rw [← sub_mul, abs_mul, abs_of_pos (by positivity : (0 : ℝ) < π / 180)]
    rw [this, cos_abs, cos_sub]
    ring
  have e4 : sin (radOf alt) = sin (radOf (90 - |lat - dec|)) := by
    rw [← h1, e3, ← sin_pi_div_two_sub]
    congr 1
    unfold radOf
    ring
  have hp := pi_pos
  have b1 : radOf alt ∈ Set.Icc (-(π / 2)) (π / 2) := by
    constructor <;> unfold radOf <;> nlinarith
  have b2 : radOf (90 - |lat - dec|) ∈ Set.Icc (-(π / 2)) (π / 2) := by
    have := abs_nonneg (lat - dec)
    constructor <;> unfold radOf <;> nlinarith
  have := injOn_sin b1 b2 e4
  unfold radOf at this
  field_simp at this
  linarith

/-- Right ascension 30 at sidereal time 0 seen from latitude -27: some altitude between -90 and 90, back to the same direction. -/
example : Usual (radecToAltaz (fun _ _ => 0) 30 (-27) (-27) 116 377 2456528).2
    (radecToAltaz (fun _ _ => 0) 30 (-27) (-27) 116 377 2456528).1 :=
  (C254_position_again (fun _ _ => 0) 30 (-27) (-27) 116 377 2456528).1

example : (radecToAltaz (fun lon _ => lon) 116 30 (-27) 116 377 2456528).1 = 33 := by
  rw [C254_culmination (fun lon _ => lon) 30 (-27) 116 377 2456528 (by norm_num [abs_le])]
  norm_num

/-! ## C255 -/

theorem zenith_dir (sidereal : ℝ → ℝ → ℝ) (lat lon height time : ℝ) :
    let z := altazToRadec sidereal 90 0 lat lon height time
    dir (radOf z.1) (radOf z.2) = dir (radOf (sidereal lon time)) (radOf lat) ∧ Usual z.1 z.2 := by
  intro z
  obtain ⟨⟨h1, h2, h3⟩, h4⟩ := icrsOf_spec sidereal 90 0 lat lon height time
  refine ⟨?_, h4⟩
  have h90 : radOf 90 = π / 2 := by unfold radOf; ring
  rw [h90, cos_pi_div_two, zero_mul] at h2 h3
  rw [h90, sin_pi_div_two] at h1
  rw [← vecOf_dir (sidereal lon time) lat z.1 z.2, h1, h2, h3]
  simp [vecOf, dir]

/-- **C255** The zenith of the metadata has the local sidereal time as right ascension and the latitude as declination; the altitude of
the observation is 90 degrees minus its angle from the zenith. -/
theorem C255_zenith (sidereal : ℝ → ℝ → ℝ) (lat lon height jd0 obsra obsdec pra pdec ox oy dp : ℝ) :
    let m := skyMeta sidereal lat lon height jd0 obsra obsdec pra pdec ox oy dp
    Usual m.zenra m.zendec ∧ dir (radOf m.zenra) (radOf m.zendec) = dir (radOf (sidereal lon jd0)) (radOf lat) ∧
    m.obsalt = 90 - angleDifference obsra obsdec m.zenra m.zendec true false := by
  intro m
  obtain ⟨h1, h2⟩ := zenith_dir sidereal lat lon height jd0
  refine ⟨h2, h1, ?_⟩
  obtain ⟨⟨h3, _, _⟩, _, _, h5, h6⟩ := altazOf_spec sidereal obsra obsdec lat lon height jd0
  have hdot : sin (radOf obsdec) * sin (radOf m.zendec)
      + cos (radOf obsdec) * cos (radOf m.zendec) * cos (radOf obsra - radOf m.zenra) = sin (radOf m.obsalt) := by
    rw [← dot_dir]
    have : dir (radOf m.zenra) (radOf m.zendec) = dir (radOf (sidereal lon jd0)) (radOf lat) := h1
    rw [this]
    exact h3
  have e : angleDifference obsra obsdec m.zenra m.zendec true false = degOf (arccos (sin (radOf m.obsalt))) := by
    simp only [angleDifference, separation, if_true, Bool.false_eq_true, if_false]
    rw [hdot]
  have hp := pi_pos
  have b1 : 0 ≤ π / 2 - radOf m.obsalt := by
    have : m.obsalt ≤ 90 := h6
    unfold radOf; nlinarith
  have b2 : π / 2 - radOf m.obsalt ≤ π := by
    have : -90 ≤ m.obsalt := h5
    unfold radOf; nlinarith
  rw [e, ← cos_pi_div_two_sub, arccos_cos b1 b2]
  unfold radOf degOf
  field_simp
  ring

example : (skyMeta (fun lon _ => lon) (-27) 116 377 2456528 116 30 0 0 0 0 1).obsalt = 33 := by
  change (radecToAltaz (fun lon _ => lon) 116 30 (-27) 116 377 2456528).1 = 33
  rw [C254_culmination (fun lon _ => lon) 30 (-27) 116 377 2456528 (by norm_num [abs_le])]
  norm_num

/-! ## C256 -/

/-- The sign of the altitude is that of the component towards the zenith. -/
theorem altitude_sign (sidereal : ℝ → ℝ → ℝ) (ra dec lat lon height time : ℝ) :
    ((radecToAltaz sidereal ra dec lat lon height time).1 < 0 ↔ compN (sidereal lon time) lat ra dec < 0) ∧
    (0 < (radecToAltaz sidereal ra dec lat lon height time).1 ↔ 0 < compN (sidereal lon time) lat ra dec) := by
  obtain ⟨⟨h1, _, _⟩, _, _, h3, h4⟩ := altazOf_spec sidereal ra dec lat lon height time
  rw [h1]
  set alt := (radecToAltaz sidereal ra dec lat lon height time).1
  have hp := pi_pos
  have key : ∀ x : ℝ, 0 < x → x ≤ 90 → 0 < sin (radOf x) := fun x h h' =>
    sin_pos_of_pos_of_lt_pi (by unfold radOf; positivity) (by unfold radOf; nlinarith)
  have hneg : ∀ x : ℝ, radOf (-x) = -radOf x := fun x => by unfold radOf; ring
  have h0 : sin (radOf 0) = 0 := by unfold radOf; simp
  rcases lt_trichotomy alt 0 with h | h | h
  · have := key (-alt) (by linarith) (by linarith)
    rw [hneg, sin_neg] at this
    exact ⟨⟨fun _ => by linarith, fun _ => h⟩, ⟨fun h' => by linarith, fun h' => by linarith⟩⟩
  · rw [h, h0]; simp
  · have := key alt h h4
    exact ⟨⟨fun h' => by linarith, fun h' => by linarith⟩, ⟨fun _ => this, fun _ => h⟩⟩

theorem zenith_cos (sidereal : ℝ → ℝ → ℝ) (lat lon height time : ℝ) (hlat : |lat| < 90) :
    0 < cos (radOf (altazToRadec sidereal 90 0 lat lon height time).2) := by
  obtain ⟨h1, h2⟩ := zenith_dir sidereal lat lon height time
  set z := altazToRadec sidereal 90 0 lat lon height time
  have hc0 : 0 < cos (radOf lat) := by
    have hp := pi_pos
    rw [abs_lt] at hlat
    refine cos_pos_of_mem_Ioo ⟨?_, ?_⟩ <;> unfold radOf <;> nlinarith [hlat.1, hlat.2]
  have hs : sin (radOf z.2) = sin (radOf lat) := congrArg (fun v : ℝ × ℝ × ℝ => v.2.2) h1
  have hp := pi_pos
  obtain ⟨_, _, u3, u4⟩ := h2
  have hge : 0 ≤ cos (radOf z.2) := cos_nonneg_of_mem_Icc ⟨by unfold radOf; nlinarith, by unfold radOf; nlinarith⟩
  have e1 := sin_sq_add_cos_sq (radOf z.2)
  have e2 := sin_sq_add_cos_sq (radOf lat)
  rw [hs] at e1
  rcases hge.lt_or_eq with h | h
  · exact h
  · rw [← h] at e1
    nlinarith

theorem zenith_comp (sidereal : ℝ → ℝ → ℝ) (lat lon height time pra pdec : ℝ) :
    let z := altazToRadec sidereal 90 0 lat lon height time
    zenM pra pdec z.1 z.2 = zenM pra pdec (sidereal lon time) lat ∧ zenN pra pdec z.1 z.2 = zenN pra pdec (sidereal lon time) lat := by
  intro z
  have h1 : dir (radOf z.1) (radOf z.2) = dir (radOf (sidereal lon time)) (radOf lat) :=
    (zenith_dir sidereal lat lon height time).1
  unfold zenM zenN
  rw [h1]
  exact ⟨rfl, rfl⟩

/-- **C256**, zenith to the north of the phase centre: a position has a pixel in the astrometry of the metadata exactly if
`radec_to_altaz`, for the same place and time, does not find it below the horizon. Missing: the zenith to the south, where this fails
(`C256_south_lost`). -/
theorem C256_horizon_partial (sidereal : ℝ → ℝ → ℝ) (lat lon height jd0 obsra obsdec pra pdec ox oy dp : ℝ)
    (hlat : |lat| < 90) (hM : 0 < zenM pra pdec (sidereal lon jd0) lat) (hN : 0 < zenN pra pdec (sidereal lon jd0) lat) (hd : dp ≠ 0)
    {a : Astr} (ha : (skyMeta sidereal lat lon height jd0 obsra obsdec pra pdec ox oy dp).astr = some a) (ra dec : ℝ) :
    radecToPixel a ra dec = .ok none ↔ (radecToAltaz sidereal ra dec lat lon height jd0).1 < 0 := by
  obtain ⟨h1, _⟩ := zenith_dir sidereal lat lon height jd0
  obtain ⟨zM, zN⟩ := zenith_comp sidereal lat lon height jd0 pra pdec
  have hc := zenith_cos sidereal lat lon height jd0 hlat
  set z := altazToRadec sidereal 90 0 lat lon height jd0
  rw [C243_horizon_partial pra pdec z.1 z.2 ox oy dp hc (zM ▸ hM) (zN ▸ hN) hd ha ra dec, h1]
  exact (altitude_sign sidereal ra dec lat lon height jd0).1.symm

/-- **C256** is violated with the zenith to the south of the phase centre: a position above the horizon has no pixel. -/
theorem C256_south_lost (sidereal : ℝ → ℝ → ℝ) (lat lon height jd0 obsra obsdec pra pdec ox oy dp : ℝ)
    (hlat : |lat| < 90) (hM : zenM pra pdec (sidereal lon jd0) lat < 0) (hN : 0 < zenN pra pdec (sidereal lon jd0) lat) (hd : dp ≠ 0)
    {a : Astr} (ha : (skyMeta sidereal lat lon height jd0 obsra obsdec pra pdec ox oy dp).astr = some a) :
    ∃ ra dec, Usual ra dec ∧ 0 < (radecToAltaz sidereal ra dec lat lon height jd0).1 ∧ radecToPixel a ra dec = .ok none := by
  obtain ⟨h1, _⟩ := zenith_dir sidereal lat lon height jd0
  obtain ⟨zM, zN⟩ := zenith_comp sidereal lat lon height jd0 pra pdec
  have hc := zenith_cos sidereal lat lon height jd0 hlat
  set z := altazToRadec sidereal 90 0 lat lon height jd0
  obtain ⟨ra, dec, k1, k2, k3⟩ := (C243_south_lost pra pdec z.1 z.2 ox oy dp hc (zM ▸ hM) (zN ▸ hN) hd ha).2
  rw [h1] at k2
  exact ⟨ra, dec, k1, (altitude_sign sidereal ra dec lat lon height jd0).2.2 k2, k3⟩

/-- At latitude 30 and sidereal time 0 the zenith is to the north of a phase centre on the equator, at latitude -30 to the south. -/
example : |(30 : ℝ)| < 90 ∧ 0 < zenM 0 0 0 30 ∧ 0 < zenN 0 0 0 30 ∧ zenM 0 0 0 (-30) < 0 ∧ 0 < zenN 0 0 0 (-30) := by
  have h30 : radOf (-30) = -(π / 6) := by rw [← radOf_30]; unfold radOf; ring
  refine ⟨by norm_num, ?_, ?_, ?_, ?_⟩ <;>
    simp [zenM, zenN, dot_north, dot_dir, radOf_zero, radOf_30, h30]

/-- There the astrometry exists. -/
example : ∃ a, (skyMeta (fun _ _ => 0) 30 116 377 2456528 0 0 0 0 16 16 1).astr = some a := by
  have hc := zenith_cos (fun _ _ => 0) 30 116 377 2456528 (by norm_num)
  obtain ⟨zM, _⟩ := zenith_comp (fun _ _ => 0) 30 116 377 2456528 0 0
  have hM : 0 < zenM 0 0 0 30 := by simp [zenM, dot_north, radOf_zero, radOf_30]
  rw [← Option.isSome_iff_exists]
  unfold skyMeta slantAstr
  simp only
  rw [C93_north_partial 0 0 _ _ hc (zM ▸ hM)]
  rfl

end PyFHD
