import Verif.Model.CalChain
import Verif.Props.CalApply
import Verif.Props.CalPoly
import Verif.Props.PlotCurves

/-!
# C271: smooth gains with a common bandpass pass through the fits unchanged
-/

namespace PyFHD

open Real Spec

/-- Two lists of the same angles, one with steps of at most half a turn and one with steps of less, differ by whole turns, the same
everywhere. -/
theorem smooth_same (us ps φ : List ℝ) (h1 : List.Forall₂ SameAngle us ps) (h2 : List.Forall₂ SameAngle φ ps) (hu : Smooth us)
    (hφ : φ.IsChain fun a b => |b - a| < π) : ∃ k : ℤ, us = φ.map fun x => x + 2 * π * k := by
  have key : ∀ (ps us φ : List ℝ) (u x : ℝ) (k : ℤ), u = x + 2 * π * k → List.Forall₂ SameAngle us ps → List.Forall₂ SameAngle φ ps →
      Smooth (u :: us) → (x :: φ).IsChain (fun a b => |b - a| < π) → us = φ.map fun x => x + 2 * π * k := by
    intro ps
    induction ps with
    | nil =>
      intro us φ u x k _ h1 h2 _ _
      cases h1; cases h2; rfl
    | cons p ps ih =>
      intro us φ u x k hk h1 h2 hu hx
      cases h1 with
      | cons ha h1 =>
        rename_i v us
        cases h2 with
        | cons hb h2 =>
          rename_i y φ
          obtain ⟨i, hi⟩ := ha
          obtain ⟨j, hj⟩ := hb
          have hs := (List.isChain_cons_cons.1 hu).1
          have ht := (List.isChain_cons_cons.1 hx).1
          have hv : v = y + 2 * π * k := by
            have hvy : v - y = 2 * π * ((i - j : ℤ) : ℝ) := by push_cast; linarith
            have hd : |2 * π * ((i - j - k : ℤ) : ℝ)| < 2 * π := by
              have e : 2 * π * ((i - j - k : ℤ) : ℝ) = (v - u) - (y - x) := by push_cast at hvy ⊢; linarith
              rw [e]
              calc |v - u - (y - x)| ≤ |v - u| + |y - x| := abs_sub _ _
                _ < 2 * π := by linarith
            rw [abs_mul, abs_of_pos (by positivity : (0 : ℝ) < 2 * π)] at hd
            have h1' : |((i - j - k : ℤ) : ℝ)| < 1 := by
              have hp : (0 : ℝ) < 2 * π := by positivity
              by_contra hc
              rw [not_lt] at hc
              have := mul_le_mul_of_nonneg_left hc hp.le
              linarith
            have h0 : i - j - k = 0 := by
              rw [← Int.cast_abs] at h1'
              have : |i - j - k| < 1 := by exact_mod_cast h1'
              exact Int.abs_lt_one_iff.1 this
            have : i - j = k := by omega
            rw [this] at hvy
            linarith
          rw [List.map_cons, ← hv, ih us φ v y k hv h1 h2 (List.isChain_cons_cons.1 hu).2 (List.isChain_cons_cons.1 hx).2]
  cases h1 with
  | nil => cases h2; exact ⟨0, rfl⟩
  | cons ha h1 =>
    cases h2 with
    | cons hb h2 =>
      rename_i u p us ps y φ
      obtain ⟨i, hi⟩ := ha
      obtain ⟨j, hj⟩ := hb
      have hu0 : u = y + 2 * π * ((i - j : ℤ) : ℝ) := by push_cast; linarith
      exact ⟨i - j, by rw [List.map_cons, ← hu0, key _ _ _ _ _ _ hu0 h1 h2 hu hφ]⟩

/-- The angle of a positive multiple of `exp (i x)` is that of `x`. -/
theorem sameAngle_arg (r x : ℝ) (hr : 0 < r) : SameAngle x (Complex.arg ((r : ℂ) * Complex.exp ((x : ℂ) * Complex.I))) := by
  rw [Complex.arg_real_mul _ hr]
  set z := Complex.exp ((x : ℂ) * Complex.I) with hz
  have hn : ‖z‖ = 1 := Complex.norm_exp_ofReal_mul_I x
  have he : Complex.exp ((Complex.arg z : ℂ) * Complex.I) = z := by
    have := Complex.norm_mul_exp_arg_mul_I z
    rwa [hn, Complex.ofReal_one, one_mul] at this
  have h1 : Complex.exp (((x - Complex.arg z : ℝ) : ℂ) * Complex.I) = 1 := by
    rw [Complex.ofReal_sub, sub_mul, Complex.exp_sub, he, ← hz, div_self (Complex.exp_ne_zero _)]
  obtain ⟨n, hn⟩ := Complex.exp_eq_one_iff.1 h1
  refine ⟨n, ?_⟩
  have h2 : ((x - Complex.arg z : ℝ) : ℂ) * Complex.I = ((2 * π * n : ℝ) : ℂ) * Complex.I := by
    rw [hn]; push_cast; ring
  exact_mod_cast mul_right_cancel₀ Complex.I_ne_zero h2

/-- Phases with steps of less than half a turn are recovered up to whole turns. -/
theorem unwrapNumbers_spec (fs : List ℕ) (z : ℕ → ℂ) (r : ℝ) (hr : 0 < r) (φ : ℕ → ℝ)
    (hz : ∀ f ∈ fs, z f = (r : ℂ) * Complex.exp ((φ f : ℂ) * Complex.I)) (hφ : fs.IsChain fun a b : ℕ => |φ b - φ a| < π) :
    ∃ k : ℤ, unwrapNumbers (fs.map fun f => Complex.arg (z f)) = fs.map fun f => φ f + 2 * π * k := by
  obtain ⟨us, h1, h2, h3, _⟩ := unwrap_numbers (fs.map fun f => Complex.arg (z f))
  have hsame : List.Forall₂ SameAngle (fs.map φ) (fs.map fun f => Complex.arg (z f)) := by
    rw [List.forall₂_map_left_iff, List.forall₂_map_right_iff, List.forall₂_same]
    intro f hf
    rw [hz f hf]
    exact sameAngle_arg r (φ f) hr
  obtain ⟨k, hk⟩ := smooth_same us _ (fs.map φ) h2 hsame h3 (by rwa [List.isChain_map])
  refine ⟨k, ?_⟩
  unfold unwrapNumbers
  rw [h1, List.map_map, hk]
  simp

theorem polyAt_shift (q : List ℝ) (hq : q ≠ []) (c : ℝ) : ∃ q' : List ℝ, q'.length = q.length ∧ ∀ x, PolyAt q' x = PolyAt q x + c := by
  obtain ⟨a, l, rfl⟩ := List.exists_cons_of_ne_nil hq
  refine ⟨(a + c) :: l, rfl, fun x => ?_⟩
  unfold PolyAt
  rw [List.length_cons, List.length_cons, Finset.sum_range_succ', Finset.sum_range_succ']
  simp only [List.getD_cons_succ, List.getD_cons_zero, pow_zero, mul_one]
  ring

theorem exp_whole_turns (x : ℝ) (k : ℤ) : Complex.exp (((x + 2 * π * k : ℝ) : ℂ) * Complex.I) = Complex.exp ((x : ℂ) * Complex.I) := by
  have : ((x + 2 * π * k : ℝ) : ℂ) * Complex.I = (x : ℂ) * Complex.I + (k : ℂ) * (2 * π * Complex.I) := by push_cast; ring
  rw [this, Complex.exp_add, Complex.exp_int_mul_two_pi_mul_I, mul_one]

/-- A constant as a polynomial with `d` coefficients. -/
theorem polyAt_const (r : ℝ) (d : ℕ) (hd : 0 < d) : ∃ q : List ℝ, q.length = d ∧ ∀ x, PolyAt q x = r := by
  obtain ⟨n, rfl⟩ : ∃ n, d = n + 1 := ⟨d - 1, by omega⟩
  refine ⟨r :: List.replicate n 0, by simp, fun x => ?_⟩
  unfold PolyAt
  rw [List.length_cons, List.length_replicate, Finset.sum_range_succ']
  simp only [List.getD_cons_succ, List.getD_cons_zero, pow_zero, mul_one]
  rw [Finset.sum_eq_zero, zero_add]
  intro i _
  rw [List.getD_eq_getElem?_getD]
  by_cases h : i < n
  · simp [h]
  · rw [List.getElem?_eq_none (by simpa using h)]
    simp

theorem degreeOr_pos (d e : ℕ) (he : 0 < e) : 0 < degreeOr d e := by
  unfold degreeOr
  split_ifs <;> omega

/-- The polynomial fits of a tile with constant amplitude and phases that are a polynomial of the degree of the fit. -/
theorem polyTile_smooth (fit : List ℕ → List ℝ → ℕ → List ℝ) (hfit : LeastSquaresFit fit) (ampDeg phaseDeg : ℕ) (low : ℕ → Bool)
    (fs : List ℕ) (hnd : fs.Nodup) (hla : degreeOr ampDeg 2 < fs.length) (hlp : degreeOr phaseDeg 1 < fs.length) (z : ℕ → ℂ) (r : ℝ)
    (hr : 0 < r) (q : List ℝ) (hq : q.length = degreeOr phaseDeg 1 + 1)
    (hz : ∀ f ∈ fs, z f = (r : ℂ) * Complex.exp (((PolyAt q (f : ℝ) : ℝ) : ℂ) * Complex.I))
    (hφ : fs.IsChain fun a b : ℕ => |PolyAt q (b : ℝ) - PolyAt q (a : ℝ)| < π) :
    ∃ h, polyTile (complexFit fit) false ampDeg phaseDeg fs low z = .ok h ∧
      ∀ f : ℕ, h f = (r : ℂ) * Complex.exp (((PolyAt q (f : ℝ) : ℝ) : ℂ) * Complex.I) := by
  refine ⟨_, rfl, fun f => ?_⟩
  obtain ⟨k, hk⟩ := unwrapNumbers_spec fs z r hr (fun f => PolyAt q (f : ℝ)) hz hφ
  obtain ⟨q', hq', hval⟩ := polyAt_shift q (by intro h; rw [h] at hq; simp at hq) (2 * π * k)
  have hp := C88_phase (complexFit fit) hfit (degreeOr phaseDeg 1) fs hnd hlp z q' (by omega) (by
    show unwrapNumbers (fs.map fun g => Complex.arg (z g)) = _
    rw [hk]
    exact List.map_congr_left fun f _ => (hval f).symm) f
  obtain ⟨qa, hqa, hva⟩ := polyAt_const r (degreeOr ampDeg 2) (degreeOr_pos _ _ (by omega))
  have ha := C88_amp_partial (complexFit fit) hfit (degreeOr ampDeg 2) fs hnd hla z qa hqa (by
    intro g hg
    show ‖z g‖ = _
    rw [hva, hz g hg, norm_mul, Complex.norm_exp_ofReal_mul_I, mul_one, Complex.norm_real, Real.norm_of_nonneg hr.le]) f
  show ((ampFit (complexFit fit) (degreeOr ampDeg 2) fs z f : ℝ) : ℂ) *
    Complex.exp (((phaseFitAt (complexFit fit) (degreeOr phaseDeg 1) fs z f : ℝ) : ℂ) * Complex.I) = _
  rw [ha, hp, hva, hval]
  show (r : ℂ) * Complex.exp (((PolyAt q (f : ℝ) + 2 * π * k : ℝ) : ℂ) * Complex.I) = _
  rw [exp_whole_turns]

/-- The bandpass of tiles most of which have the same shape. -/
theorem bandpass_majority (gain : ℕ → ℕ → ℂ) (fs tiles : List ℕ) (shape a : ℕ → ℝ) (good : ℕ → Prop) [DecidablePred good]
    (hmaj : tiles.length < 2 * (tiles.filter fun t => good t).length) (ha : ∀ t ∈ tiles, good t → 0 < a t) (hs : ∀ f ∈ fs, 0 < shape f)
    (hg : ∀ t ∈ tiles, good t → ∀ f ∈ fs, ‖gain f t‖ = a t * shape f) (m : ℝ) (hm : resistantMean (fs.map shape) 2 = some m) (f : ℕ)
    (hf : f ∈ fs) : bandpassSingle (fun z : ℂ => ‖z‖) rmeanTwo gain fs tiles f = shape f / m ∧ 0 < m := by
  have hm0 : 0 < m := by
    obtain ⟨⟨x, hx, hxm⟩, _⟩ := C80_within _ _ _ hm
    obtain ⟨g, hg, rfl⟩ := List.mem_map.1 hx
    exact lt_of_lt_of_le (hs g hg) hxm
  refine ⟨?_, hm0⟩
  have hmean : ∀ t ∈ tiles, good t → rmeanTwo (fs.map fun f => ‖gain f t‖) = a t * m := by
    intro t htt ht
    have e : (fs.map fun f => ‖gain f t‖) = (fs.map shape).map fun x => a t * x + 0 := by
      rw [List.map_map]
      exact List.map_congr_left fun f hf => by rw [hg t htt ht f hf]; simp
    unfold rmeanTwo
    rw [e, C80_affine _ _ _ _ (ha t htt ht), hm]
    simp
  unfold bandpassSingle
  set F : ℕ → ℝ := fun t => if rmeanTwo (fs.map fun f => ‖gain f t‖) ≠ 0 then ‖gain f t‖ / rmeanTwo (fs.map fun f => ‖gain f t‖) else 0 with hF
  have hFg : ∀ t ∈ tiles, good t → F t = shape f / m := by
    intro t htt ht
    have hat := ha t htt ht
    rw [hF]
    simp only
    rw [hmean t htt ht, if_pos (by positivity), hg t htt ht f hf]
    field_simp
  show rmeanTwo (tiles.map F) = _
  have hc : (tiles.map F).length < 2 * (tiles.map F).count (shape f / m) := by
    rw [List.length_map]
    refine lt_of_lt_of_le hmaj (Nat.mul_le_mul_left 2 ?_)
    rw [List.count_eq_countP, List.countP_map, ← List.countP_eq_length_filter]
    refine List.countP_mono_left fun t htt ht => ?_
    simp only [decide_eq_true_eq] at ht
    simp [hFg t htt ht]
  unfold rmeanTwo
  rw [C80_majority (tiles.map F) 2 (shape f / m) (by norm_num) (by norm_num [sigmaCorr, sigmaPoly]) hc]
  rfl

namespace Spec

/-- The tiles whose amplitudes are averaged for the bandpass of tile `t`: all tiles in use, or those on cables of its length, provided that
there are tiles for every length and no auto-correlation ratios. -/
def averagedWith (o : FitOpts) (tiles : List ℕ) (t : ℕ) : List ℕ :=
  match o.cables with
  | none => tiles
  | some (cables, cable) =>
    if o.ratio.isSome = true ∨ ∃ c ∈ cables, ∀ s ∈ tiles, cable s ≠ c then tiles else tiles.filter fun s => cable s = cable t

/-- The auto-correlation ratio of a tile, 1 if there are none. -/
def ratioOf (o : FitOpts) (f t : ℕ) : ℝ :=
  match o.ratio with
  | none => 1
  | some (r, _) => r f t

/-- The cable lengths are those of the tiles in use, each listed once. -/
def CablesFit (o : FitOpts) (tiles : List ℕ) : Prop :=
  ∀ cables cable, o.cables = some (cables, cable) → cables.Nodup ∧ ∀ t ∈ tiles, cable t ∈ cables

end Spec

theorem averagedWith_sub (o : FitOpts) (tiles : List ℕ) (t s : ℕ) (h : s ∈ averagedWith o tiles t) : s ∈ tiles := by
  unfold averagedWith at h
  split at h
  · exact h
  · split_ifs at h
    · exact h
    · exact (List.mem_filter.1 h).1

/-- The bandpass of a tile in use. -/
theorem chainBandpass_value (o : FitOpts) (fs tiles : List ℕ) (hc : CablesFit o tiles) (gain : ℕ → ℕ → ℂ) (t : ℕ) (ht : t ∈ tiles) :
    (∀ f ∈ fs, (chainBandpass o fs tiles gain).bandpass f t =
        ((bandpassSingle (fun z : ℂ => ‖z‖) rmeanTwo gain fs (averagedWith o tiles t) f : ℝ) : ℂ) ∧
      (chainBandpass o fs tiles gain).remainder f t = npDiv (gain f t) ((chainBandpass o fs tiles gain).bandpass f t)) ∧
    ∀ f, f ∉ fs → (chainBandpass o fs tiles gain).bandpass f t = 0 := by
  unfold chainBandpass averagedWith
  cases hcab : o.cables with
  | none =>
    refine ⟨fun f hf => ?_, fun f hf => ?_⟩
    · simp only [bandpassGlobal, if_pos hf, and_self]
    · simp only [bandpassGlobal, if_neg hf]
  | some p =>
    obtain ⟨cables, cable⟩ := p
    obtain ⟨hnd, hcov⟩ := hc cables cable hcab
    simp only
    refine ⟨fun f hf => ⟨?_, by simp only [bandpassCable, if_pos hf]⟩, fun f hf =>
      ((C37_cable_bandpass_product _ _ _ gain fs tiles cables cable _ f t).2 hf).1⟩
    by_cases hglob : o.ratio.isSome = true ∨ ∃ c ∈ cables, ∀ s ∈ tiles, cable s ≠ c
    · rw [if_pos hglob]
      have hg : (o.ratio.isSome || cables.any fun c => (tiles.filter fun t => cable t = c).isEmpty) = true := by
        rw [Bool.or_eq_true, List.any_eq_true]
        rcases hglob with h | ⟨c, hcm, h⟩
        · exact Or.inl h
        · refine Or.inr ⟨c, hcm, ?_⟩
          rw [List.isEmpty_iff, List.filter_eq_nil_iff]
          intro s hs
          simpa using h s hs
      simp only [bandpassCable, hg]
      have step : ∀ (l : List ℕ) (g2 : ℕ → ℕ → ℂ), (l ≠ [] ∨ g2 f t =
          ((bandpassSingle (fun z : ℂ => ‖z‖) rmeanTwo gain fs tiles f : ℝ) : ℂ)) →
          l.foldl (cableStep (fun x : ℝ => (x : ℂ)) (fun z : ℂ => ‖z‖) rmeanTwo gain fs tiles cable true) g2 f t =
            ((bandpassSingle (fun z : ℂ => ‖z‖) rmeanTwo gain fs tiles f : ℝ) : ℂ) := by
        intro l
        induction l with
        | nil =>
          intro g2 h
          rcases h with h | h
          · exact absurd rfl h
          · exact h
        | cons c l ih =>
          intro g2 _
          rw [List.foldl_cons]
          apply ih
          right
          unfold cableStep cableTiles
          simp only [if_true]
          rw [if_pos ⟨hf, ht⟩]
      exact step cables _ (Or.inl (List.ne_nil_of_mem (hcov t ht)))
    · rw [if_neg hglob]
      rw [not_or] at hglob
      have hr : o.ratio.isSome = false := by simpa using hglob.1
      rw [hr, C37_cable_group _ _ _ gain fs tiles cables hnd cable ?_ hcov f t hf, if_pos ht, bandpassSingle_eq]
      intro c hcm
      by_contra hno
      exact hglob.2 ⟨c, hcm, fun s hs he => hno ⟨s, hs, he⟩⟩

/-- **C271.** Let the solutions of tiles in use be, at the channels in use, a factor of the tile times a positive bandpass times a phase that
is a polynomial of the fitted degree with steps of less than half a turn, times the auto-correlation ratio if that is used; most of the
tiles that are averaged for such a tile share its bandpass, whose resistant mean is a number. Then bandpass and polynomial fits return
its gains at these channels, and 0 at the others; the other tiles may have any gains. -/
theorem C271_smooth_kept (fit : List ℕ → List ℝ → ℕ → List ℝ) (hfit : LeastSquaresFit fit) (o : FitOpts) (hpoly : o.poly = true)
    (hjump : o.jump = false) (fs tiles : List ℕ) (hc : CablesFit o tiles) (hnd : fs.Nodup) (hla : degreeOr o.ampDeg 2 < fs.length)
    (hlp : degreeOr o.phaseDeg 1 < fs.length) (gain : ℕ → ℕ → ℂ) (shape : ℕ → ℕ → ℝ) (a : ℕ → ℝ) (q : ℕ → List ℝ) (good : ℕ → Prop)
    [DecidablePred good] (t : ℕ) (ht : t ∈ tiles) (htg : good t)
    (hmaj : (averagedWith o tiles t).length < 2 * ((averagedWith o tiles t).filter fun s => good s).length)
    (hsame : ∀ s ∈ averagedWith o tiles t, good s → ∀ f ∈ fs, shape s f = shape t f) (hs : ∀ f ∈ fs, 0 < shape t f)
    (ha : ∀ s ∈ tiles, good s → 0 < a s) (hq : (q t).length = degreeOr o.phaseDeg 1 + 1)
    (hr : ∀ s ∈ tiles, good s → ∀ f ∈ fs, 0 < ratioOf o f s) (hauto : ∀ r auto, o.ratio = some (r, auto) → t ∈ auto)
    (hg : ∀ s ∈ tiles, good s → ∀ f ∈ fs,
      gain f s = ((ratioOf o f s * (a s * shape s f) : ℝ) : ℂ) * Complex.exp (((PolyAt (q s) (f : ℝ) : ℝ) : ℂ) * Complex.I))
    (hφ : fs.IsChain fun f g : ℕ => |PolyAt (q t) (g : ℝ) - PolyAt (q t) (f : ℝ)| < π)
    (m : ℝ) (hm : resistantMean (fs.map (shape t)) 2 = some m) :
    ∃ h, fittedGains fit o fs tiles gain t = .ok h ∧ (∀ f ∈ fs, h f = gain f t) ∧ ∀ f, f ∉ fs → h f = 0 := by
  -- the gains without ratios
  have hdiv : ∀ s ∈ tiles, good s → ∀ f ∈ fs, chainDivide o gain f s =
      ((a s * shape s f : ℝ) : ℂ) * Complex.exp (((PolyAt (q s) (f : ℝ) : ℝ) : ℂ) * Complex.I) := by
    intro s hst hsg f hf
    have hrs := hr s hst hsg f hf
    have hgs := hg s hst hsg f hf
    unfold chainDivide
    unfold ratioOf at hrs hgs
    cases hrat : o.ratio with
    | none =>
      simp only [hrat] at hgs ⊢
      rw [hgs, one_mul]
    | some p =>
      obtain ⟨r, auto⟩ := p
      simp only [hrat] at hgs hrs ⊢
      simp only [autoRatioDivide, Nat.lt_one_iff, if_true]
      have hw : weightInvertEntry (fun x : ℝ => |x|) id false none false (r f s) = (r f s)⁻¹ := by
        unfold weightInvertEntry npRecip
        simp [hrs.ne']
      rw [hw, hgs]
      have : ((a s * shape s f : ℝ) : ℂ) = ((r f s * (a s * shape s f) : ℝ) : ℂ) * (((r f s)⁻¹ : ℝ) : ℂ) := by
        rw [← Complex.ofReal_mul]
        congr 1
        field_simp
      rw [this]
      ring
  have hsub := averagedWith_sub o tiles t
  have hnorm : ∀ s ∈ averagedWith o tiles t, good s → ∀ f ∈ fs, ‖chainDivide o gain f s‖ = a s * shape t f := by
    intro s hst hsg f hf
    have h1 := ha s (hsub s hst) hsg
    have h2 := hs f hf
    rw [hdiv s (hsub s hst) hsg f hf, norm_mul, Complex.norm_exp_ofReal_mul_I, mul_one, Complex.norm_real, hsame s hst hsg f hf,
      Real.norm_of_nonneg (by positivity)]
  have hbp := bandpass_majority (chainDivide o gain) fs (averagedWith o tiles t) (shape t) a good hmaj
    (fun s hst hsg => ha s (hsub s hst) hsg) hs hnorm m hm
  have hm0 : 0 < m := by
    have hne : fs ≠ [] := by intro h; rw [h] at hla; simp at hla
    obtain ⟨f, hf⟩ := List.exists_mem_of_ne_nil _ hne
    exact (hbp f hf).2
  have hat := ha t ht htg
  obtain ⟨hval, hzero⟩ := chainBandpass_value o fs tiles hc (chainDivide o gain) t ht
  set b := chainBandpass o fs tiles (chainDivide o gain) with hb
  have hsplit : ∀ f, ((a t * shape t f : ℝ) : ℂ) = ((a t * m : ℝ) : ℂ) * ((shape t f / m : ℝ) : ℂ) := by
    intro f
    rw [← Complex.ofReal_mul]
    congr 1
    field_simp
  have hrem : ∀ f ∈ fs, (b.remainder f t).getD 0 = ((a t * m : ℝ) : ℂ) * Complex.exp (((PolyAt (q t) (f : ℝ) : ℝ) : ℂ) * Complex.I) := by
    intro f hf
    have h2 := hs f hf
    have hne : ((shape t f / m : ℝ) : ℂ) ≠ 0 := by
      rw [Complex.ofReal_ne_zero]; positivity
    rw [(hval f hf).2, (hval f hf).1, (hbp f hf).1]
    unfold npDiv
    rw [if_neg hne, Option.getD_some, hdiv t ht htg f hf, div_eq_iff hne, hsplit f]
    ring
  obtain ⟨h, hh, hpv⟩ := polyTile_smooth fit hfit o.ampDeg o.phaseDeg o.low fs hnd hla hlp (fun f => (b.remainder f t).getD 0) (a t * m)
    (by positivity) (q t) hq hrem hφ
  refine ⟨fun f => chainRemultiply o (fun f _ => h f * b.bandpass f t) f t, ?_, ?_, ?_⟩
  · unfold fittedGains
    simp only [hpoly, if_true]
    rw [← hb, hjump, hh]
    rfl
  · intro f hf
    have hprod : h f * b.bandpass f t =
        ((a t * shape t f : ℝ) : ℂ) * Complex.exp (((PolyAt (q t) (f : ℝ) : ℝ) : ℂ) * Complex.I) := by
      rw [hpv, (hval f hf).1, (hbp f hf).1, hsplit f]
      ring
    have hrs := hr t ht htg f hf
    have hgs := hg t ht htg f hf
    simp only [chainRemultiply]
    unfold ratioOf at hrs hgs
    cases hrat : o.ratio with
    | none =>
      simp only [hrat] at hgs ⊢
      rw [hprod, hgs, one_mul]
    | some p =>
      obtain ⟨r, auto⟩ := p
      simp only [hrat] at hgs hrs ⊢
      simp only [autoRatioRemultiply, Nat.lt_one_iff, hauto r auto hrat, and_self, if_true]
      rw [hprod, hgs, abs_of_pos hrs, Complex.ofReal_mul (r f t)]
      ring
  · intro f hf
    have hz := hzero f hf
    simp only [chainRemultiply]
    cases o.ratio with
    | none => simp only [hz, mul_zero]
    | some p =>
      obtain ⟨r, auto⟩ := p
      simp only [autoRatioRemultiply, hz, mul_zero]
      split_ifs <;> simp

/-- What `vis_calibration_apply` returns, entry by entry. -/
theorem apply_entry_of {K R : Type} [Field K] [StarRing K] [DecidableEq K] [Field R] [LinearOrder R] (c : CalApplyIn K R) (hmag : ∀ w, c.mag w = 0 ↔ w = 0)
    (hA : ∀ t ∈ c.tileA, 1 ≤ t ∧ t ≤ c.nTile) (hB : ∀ t ∈ c.tileB, 1 ≤ t ∧ t ≤ c.nTile) (h4 : c.nPolVis ≤ 4)
    (hp : c.nPolVis ≤ 1 ∧ 1 ≤ c.nPolGain ∨ 2 ≤ c.nPolGain) (hx : NoCrossFit c) :
    ∃ vis, visCalibrationApply c = .ok (vis, none) ∧ ∀ p < c.nPolVis, ∀ f b a a', c.tileA[b]? = some a → c.tileB[b]? = some a' →
      vis p f b = if c.gain (gainPair p).1 f (a - 1).toNat * star (c.gain (gainPair p).2 f (a' - 1).toNat) = 0 then 0
        else c.vis p f b / (c.gain (gainPair p).1 f (a - 1).toNat * star (c.gain (gainPair p).2 f (a' - 1).toNat)) := by
  obtain ⟨vis, h1, h2⟩ := apply_value c h4 hp
  have hrun : visCalibrationApply c = .ok (if c.nPolVis = 4 then
      fun p f b => if p = 2 ∨ p = 3 then vis p f b * 1 else vis p f b else vis, none) := by
    unfold visCalibrationApply
    rw [mapM_tileRow _ _ hA, mapM_tileRow _ _ hB]
    simp only [h1, bind, Except.bind]
    by_cases h : c.nPolVis = 4
    · simp only [if_pos h]
      rcases hx with hx | hx | hx
      · exact absurd h hx
      · simp only [hx]; rfl
      · cases c.model <;> simp only [hx] <;> rfl
    · simp only [if_neg h]; rfl
  refine ⟨_, hrun, ?_⟩
  intro p hpl f b a a' ha ha'
  have hv := h2 p hpl f b a a' ha ha'
  rw [invEntry _ _ hmag] at hv
  have e : (if c.nPolVis = 4 then (fun p f b => if p = 2 ∨ p = 3 then vis p f b * 1 else vis p f b) else vis) p f b = vis p f b := by
    split_ifs <;> simp
  rw [e, hv]
  split_ifs
  · rw [mul_zero]
  · rw [div_eq_mul_inv]

/-- **C271**, data: if the solutions of two tiles are kept by the fits in both polarisations (as by the theorem above) and are nonzero, data
made with them from some visibilities and calibrated with the fitted gains are these visibilities at every channel in use, for XX, YY,
XY and YX, and 0 at the others. -/
theorem C271_data_restored (fit : List ℕ → List ℝ → ℕ → List ℝ) (o : FitOpts) (fs tiles : List ℕ) (gain : ℕ → ℕ → ℕ → ℂ)
    (d : CalApplyIn ℂ ℝ) (hmag : ∀ w, d.mag w = 0 ↔ w = 0) (hA : ∀ t ∈ d.tileA, 1 ≤ t ∧ t ≤ d.nTile)
    (hB : ∀ t ∈ d.tileB, 1 ≤ t ∧ t ≤ d.nTile) (h4 : d.nPolVis ≤ 4) (hp : 2 ≤ d.nPolGain) (hx : NoCrossFit d)
    (hd : ∀ p < 2, ∀ t h, fittedGains fit o fs tiles (gain p) t = .ok h → ∀ f, d.gain p f t = h f)
    (truth : ℕ → ℕ → ℕ → ℂ)
    (hv : ∀ p < d.nPolVis, ∀ f ∈ fs, ∀ b v v', d.tileA[b]? = some v → d.tileB[b]? = some v' →
      d.vis p f b = gain (gainPair p).1 f (v - 1).toNat * star (gain (gainPair p).2 f (v' - 1).toNat) * truth p f b)
    (good : ℕ → Prop)
    (hgood : ∀ p < 2, ∀ t, good t → (∀ f ∈ fs, gain p f t ≠ 0) ∧
      ∃ h, fittedGains fit o fs tiles (gain p) t = .ok h ∧ (∀ f ∈ fs, h f = gain p f t) ∧ ∀ f, f ∉ fs → h f = 0) :
    ∃ vis, visCalibrationApply d = .ok (vis, none) ∧ ∀ p < d.nPolVis, ∀ f b v v', d.tileA[b]? = some v → d.tileB[b]? = some v' →
      good (v - 1).toNat → good (v' - 1).toNat → vis p f b = if f ∈ fs then truth p f b else 0 := by
  obtain ⟨vis, h1, h2⟩ := apply_entry_of d hmag hA hB h4 (Or.inr hp) hx
  refine ⟨vis, h1, fun p hpl f b v v' hav hbv hgv hgv' => ?_⟩
  have hkeep : ∀ p < 2, ∀ t, good t → (∀ f ∈ fs, d.gain p f t = gain p f t) ∧ ∀ f, f ∉ fs → d.gain p f t = 0 := by
    intro p hp t ht
    obtain ⟨-, h, hh, hk, h0⟩ := hgood p hp t ht
    exact ⟨fun f hf => (hd p hp t h hh f).trans (hk f hf), fun f hf => (hd p hp t h hh f).trans (h0 f hf)⟩
  have hpair : (gainPair p).1 < 2 ∧ (gainPair p).2 < 2 := by
    unfold gainPair
    split_ifs <;> simp
  rw [h2 p hpl f b v v' hav hbv]
  by_cases hf : f ∈ fs
  · rw [(hkeep _ hpair.1 _ hgv).1 f hf, (hkeep _ hpair.2 _ hgv').1 f hf, if_pos hf, hv p hpl f hf b v v' hav hbv]
    have n1 := (hgood _ hpair.1 _ hgv).1 f hf
    have n2 : star (gain (gainPair p).2 f (v' - 1).toNat) ≠ 0 := by
      rw [star_ne_zero]; exact (hgood _ hpair.2 _ hgv').1 f hf
    rw [if_neg (mul_ne_zero n1 n2)]
    field_simp
  · rw [(hkeep _ hpair.1 _ hgv).2 f hf, zero_mul, if_pos rfl, if_neg hf]

/-! ## C272: the bandpass alone -/

/-- **C272 is violated**: without polynomial fits, auto-correlation ratios and cables the gains are real and the same for all tiles. -/
theorem C272_tiles_alike (fit : List ℕ → List ℝ → ℕ → List ℝ) (o : FitOpts) (hpoly : o.poly = false) (hcab : o.cables = none)
    (hrat : o.ratio = none) (fs tiles : List ℕ) (gain : ℕ → ℕ → ℂ) (t t' : ℕ) : ∃ h, fittedGains fit o fs tiles gain t = .ok h ∧
      fittedGains fit o fs tiles gain t' = .ok h ∧ ∀ f, (h f).im = 0 := by
  refine ⟨fun f => (bandpassGlobal (fun x : ℝ => (x : ℂ)) (fun z : ℂ => ‖z‖) rmeanTwo gain fs tiles).bandpass f t, ?_, ?_, fun f => ?_⟩
  · simp [fittedGains, hpoly, chainBandpass, chainDivide, chainRemultiply, hcab, hrat]
  · simp [fittedGains, hpoly, chainBandpass, chainDivide, chainRemultiply, hcab, hrat, bandpassGlobal]
  · simp only [bandpassGlobal]
    split_ifs <;> simp

/-- **C272 is violated**: with cables as well, phases of the solution and factors of the tiles are lost. -/
theorem C272_lost (fit : List ℕ → List ℝ → ℕ → List ℝ) (o : FitOpts) (hpoly : o.poly = false) (hrat : o.ratio = none) (fs tiles : List ℕ)
    (hc : CablesFit o tiles) (gain other : ℕ → ℕ → ℂ) (a : ℕ → ℝ) (ha : ∀ t ∈ tiles, 0 < a t)
    (ho : ∀ t ∈ tiles, ∀ f ∈ fs, ‖other f t‖ = a t * ‖gain f t‖) (t : ℕ) (ht : t ∈ tiles) :
    fittedGains fit o fs tiles other t = fittedGains fit o fs tiles gain t := by
  have hmean : ∀ s ∈ tiles, rmeanTwo (fs.map fun f => ‖other f s‖) = a s * rmeanTwo (fs.map fun f => ‖gain f s‖) := by
    intro s hs
    have e : (fs.map fun f => ‖other f s‖) = (fs.map fun f => ‖gain f s‖).map fun x => a s * x + 0 := by
      rw [List.map_map]
      exact List.map_congr_left fun f hf => by rw [ho s hs f hf]; simp
    unfold rmeanTwo
    rw [e, C80_affine _ _ _ _ (ha s hs)]
    cases resistantMean (fs.map fun f => ‖gain f s‖) 2 <;> simp
  have hbp : ∀ f ∈ fs, bandpassSingle (fun z : ℂ => ‖z‖) rmeanTwo other fs (averagedWith o tiles t) f =
      bandpassSingle (fun z : ℂ => ‖z‖) rmeanTwo gain fs (averagedWith o tiles t) f := by
    intro f hf
    unfold bandpassSingle
    congr 1
    refine List.map_congr_left fun s hs => ?_
    have hs := averagedWith_sub o tiles t s hs
    have hpos := ha s hs
    simp only
    rw [hmean s hs, ho s hs f hf]
    by_cases h0 : rmeanTwo (fs.map fun f => ‖gain f s‖) = 0
    · simp [h0]
    · rw [if_pos (mul_ne_zero hpos.ne' h0), if_pos h0, mul_div_mul_left _ _ hpos.ne']
  have key : ∀ f, (chainBandpass o fs tiles other).bandpass f t = (chainBandpass o fs tiles gain).bandpass f t := by
    intro f
    by_cases hf : f ∈ fs
    · rw [((chainBandpass_value o fs tiles hc other t ht).1 f hf).1, ((chainBandpass_value o fs tiles hc gain t ht).1 f hf).1, hbp f hf]
    · rw [(chainBandpass_value o fs tiles hc other t ht).2 f hf, (chainBandpass_value o fs tiles hc gain t ht).2 f hf]
  simp only [fittedGains, hpoly, Bool.false_eq_true, if_false, chainDivide, chainRemultiply, hrat]
  congr 1
  funext f
  exact key f

/-- **C272 (partial).** Real gains that most of the averaged tiles have in common and whose resistant mean is 1 are kept. -/
theorem C272_common_partial (fit : List ℕ → List ℝ → ℕ → List ℝ) (o : FitOpts) (hpoly : o.poly = false) (hrat : o.ratio = none)
    (fs tiles : List ℕ) (hc : CablesFit o tiles) (gain : ℕ → ℕ → ℂ) (shape : ℕ → ℝ) (good : ℕ → Prop) [DecidablePred good] (t : ℕ)
    (ht : t ∈ tiles) (htg : good t) (hmaj : (averagedWith o tiles t).length < 2 * ((averagedWith o tiles t).filter fun s => good s).length)
    (hs : ∀ f ∈ fs, 0 < shape f) (hg : ∀ s, good s → ∀ f ∈ fs, gain f s = (shape f : ℂ))
    (hm : resistantMean (fs.map shape) 2 = some 1) :
    ∃ h, fittedGains fit o fs tiles gain t = .ok h ∧ ∀ f ∈ fs, h f = gain f t := by
  refine ⟨fun f => (chainBandpass o fs tiles gain).bandpass f t, ?_, fun f hf => ?_⟩
  · simp only [fittedGains, hpoly, Bool.false_eq_true, if_false, chainDivide, chainRemultiply, hrat]
  have hb := (bandpass_majority gain fs (averagedWith o tiles t) shape (fun _ => 1) good hmaj (fun _ _ _ => one_pos) hs (by
    intro s _ hsg f hf
    rw [hg s hsg f hf, Complex.norm_real, Real.norm_of_nonneg (hs f hf).le, one_mul]) 1 hm f hf).1
  simp only
  rw [((chainBandpass_value o fs tiles hc gain t ht).1 f hf).1, hb, hg t htg f hf, div_one]

/-! ## Examples -/

/-- The default degrees; two lengths of cables. -/
noncomputable def exFitOpts (poly : Bool) : FitOpts :=
  { poly := poly, jump := false, ampDeg := 0, phaseDeg := 0, low := fun _ => false, cables := some ([90, 150], fun t => if t < 3 then 90 else 150),
    ratio := none }

theorem exFitOpts_cables (poly : Bool) : CablesFit (exFitOpts poly) [0, 1, 2, 3] := by
  intro cables cable h
  simp only [exFitOpts, Option.some.injEq, Prod.mk.injEq] at h
  obtain ⟨rfl, rfl⟩ := h
  decide

theorem exFitOpts_averaged (poly : Bool) (t : ℕ) (ht : t < 3) : averagedWith (exFitOpts poly) [0, 1, 2, 3] t = [0, 1, 2] := by
  unfold averagedWith exFitOpts
  simp only
  rw [if_neg (by decide)]
  simp only [if_pos ht]
  decide

/-- Four tiles at three channels: the first two with gains of the form required, the others with gains that have nothing to do with them. -/
noncomputable def exChainGain (f t : ℕ) : ℂ :=
  if t < 2 then ((((t : ℝ) + 1) * ((f : ℝ) + 1) : ℝ) : ℂ) * Complex.exp (((PolyAt [1, (t : ℝ)] (f : ℝ) : ℝ) : ℂ) * Complex.I)
  else 7 * Complex.I

theorem exChain_steps (t : ℕ) (ht : t < 2) :
    [0, 1, 2].IsChain fun f g : ℕ => |PolyAt [1, (t : ℝ)] (g : ℝ) - PolyAt [1, (t : ℝ)] (f : ℝ)| < π := by
  have hpi := Real.two_le_pi
  have ht' : (t : ℝ) ≤ 1 := by exact_mod_cast (by omega : t ≤ 1)
  have h0 : (0 : ℝ) ≤ t := by positivity
  have e : ∀ x : ℝ, PolyAt [1, (t : ℝ)] x = 1 + t * x := by
    intro x
    simp [PolyAt, Finset.sum_range_succ]
  simp only [e, List.isChain_cons_cons, List.isChain_singleton, and_true, Nat.cast_zero, Nat.cast_one, Nat.cast_ofNat]
  constructor <;> rw [abs_lt] <;> constructor <;> linarith

/-- The hypotheses of C271 are met. -/
theorem exChain_kept (fit : List ℕ → List ℝ → ℕ → List ℝ) (hfit : LeastSquaresFit fit) (t : ℕ) (ht : t < 2) :
    ∃ h, fittedGains fit (exFitOpts true) [0, 1, 2] [0, 1, 2, 3] exChainGain t = .ok h ∧ (∀ f ∈ [0, 1, 2], h f = exChainGain f t) ∧
      ∀ f, f ∉ [0, 1, 2] → h f = 0 := by
  obtain ⟨m, hm⟩ := C80_odd_exists_partial ([0, 1, 2].map fun f : ℕ => (f : ℝ) + 1) 2 rfl
  refine C271_smooth_kept fit hfit (exFitOpts true) rfl rfl [0, 1, 2] [0, 1, 2, 3] (exFitOpts_cables true) (by decide) (by decide +kernel)
    (by decide +kernel) exChainGain (fun _ f => (f : ℝ) + 1) (fun t => (t : ℝ) + 1) (fun t => [1, (t : ℝ)]) (fun t => t < 2) t
    (by simp; omega) ht (by rw [exFitOpts_averaged _ t (by omega)]; decide) (fun _ _ _ _ _ => rfl) (fun f _ => by positivity)
    (fun t _ _ => by positivity) rfl (fun _ _ _ _ _ => one_pos) (fun _ _ h => by cases h) (fun s _ hs f _ => ?_) (exChain_steps t ht) m hm
  unfold exChainGain
  rw [if_pos hs]
  show _ = ((1 * _ : ℝ) : ℂ) * _
  rw [one_mul]

/-- One baseline between the first two tiles, with true visibilities 5. -/
noncomputable def exChainData (fit : List ℕ → List ℝ → ℕ → List ℝ) : CalApplyIn ℂ ℝ :=
  { mag := fun z => ‖z‖, re := Complex.re, nPolVis := 2, nPolGain := 2, nFreq := 3, nTile := 4, tileA := [1], tileB := [2],
    gain := fun _ f t => match fittedGains fit (exFitOpts true) [0, 1, 2] [0, 1, 2, 3] exChainGain t with
      | .ok h => h f
      | .error _ => 0
    vis := fun _ f _ => exChainGain f 0 * star (exChainGain f 1) * 5, model := none, weights := none, clip := id, nTimes := none }

/-- The hypotheses of the second part of C271 are met. -/
example : ∃ fit, LeastSquaresFit fit ∧ ∃ vis, visCalibrationApply (exChainData fit) = .ok (vis, none) ∧ vis 1 2 0 = 5 := by
  obtain ⟨fit, hfit⟩ := exists_leastSquaresFit
  obtain ⟨vis, h1, h2⟩ := C271_data_restored fit (exFitOpts true) [0, 1, 2] [0, 1, 2, 3]
    (fun _ => exChainGain) (exChainData fit) (fun w => norm_eq_zero) (by simp [exChainData]) (by simp [exChainData])
    (by simp [exChainData]) (by simp [exChainData]) (Or.inr (Or.inl rfl)) (fun p _ t h hh f => by simp only [exChainData, hh])
    (fun _ _ _ => 5) (by
      intro p hp f _ b v v' hv hv'
      have hb : b = 0 := by
        by_contra hb
        rw [List.getElem?_eq_none (by simp only [exChainData, List.length_singleton]; omega)] at hv
        cases hv
      subst hb
      simp only [exChainData, List.getElem?_cons_zero, Option.some.injEq] at hv hv'
      subst hv hv'
      rfl) (fun t => t < 2) (fun p _ t ht => ⟨fun f hf => by
        unfold exChainGain
        rw [if_pos ht]
        refine mul_ne_zero ?_ (Complex.exp_ne_zero _)
        rw [Complex.ofReal_ne_zero]
        positivity, exChain_kept fit hfit t ht⟩)
  refine ⟨fit, hfit, vis, h1, ?_⟩
  rw [h2 1 (by simp [exChainData]) 2 0 1 2 rfl rfl (by decide) (by decide), if_pos (by decide)]

/-- The phases of these gains are lost without polynomial fits: gains and their absolute values give the same result. -/
example (fit : List ℕ → List ℝ → ℕ → List ℝ) : fittedGains fit (exFitOpts false) [0, 1, 2] [0, 1, 2, 3] exChainGain 1 =
    fittedGains fit (exFitOpts false) [0, 1, 2] [0, 1, 2, 3] (fun f t => (‖exChainGain f t‖ : ℂ)) 1 :=
  C272_lost fit _ rfl rfl _ _ (exFitOpts_cables false) _ _ (fun _ => 1) (fun _ _ => one_pos) (fun t _ f _ => by simp) 1 (by decide)

/-- Gains that are 1 are kept. -/
example (fit : List ℕ → List ℝ → ℕ → List ℝ) : ∃ h, fittedGains fit (exFitOpts false) [0, 1, 2] [0, 1, 2, 3]
    (fun _ t => if t < 2 then 1 else 5) 1 = .ok h ∧ h 2 = 1 := by
  obtain ⟨h, hh, hk⟩ := C272_common_partial fit (exFitOpts false) rfl rfl [0, 1, 2] [0, 1, 2, 3] (exFitOpts_cables false)
    (fun _ t => if t < 2 then 1 else 5) (fun _ => 1) (fun t => t < 2) 1 (by decide) (by decide)
    (by rw [exFitOpts_averaged _ 1 (by omega)]; decide) (fun _ _ => one_pos) (fun t ht f _ => by simp [ht])
    (C80_majority _ 2 1 (by norm_num) (by norm_num [sigmaCorr, sigmaPoly]) (by simp))
  exact ⟨h, hh, by rw [hk 2 (by decide)]; simp⟩

end PyFHD
