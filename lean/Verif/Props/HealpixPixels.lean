import Verif.Model.HealpixPixels
import Verif.Props.Healpix
import Mathlib.Analysis.SpecialFunctions.Pow.Real

/-!
# The choice of HEALPix pixels (C212 to C216)
-/

namespace PyFHD

open Spec

namespace Spec

/-- The area of the sky in square degrees. -/
noncomputable def skyArea : ℝ := 4 * Real.pi * (180 / Real.pi) ^ 2

/-- The area of a pixel when the sky is divided into `12 * n ^ 2` pixels of the same area. -/
noncomputable def hpxArea (n : ℝ) : ℝ := skyArea / (12 * n ^ 2)

/-- The pixels of a list that are above the horizon. -/
def visible (altitude : ℕ → ℚ) (l : List ℕ) : List ℕ := l.filter fun p => decide (0 < altitude p)

/-- The pixel of the image below and left of a position that lies strictly inside a cell of the image. -/
def InCell (D E : ℕ) (q : ℚ × ℚ) (i j : ℕ) : Prop :=
  ((i : ℚ) < q.1 ∧ q.1 < i + 1) ∧ ((j : ℚ) < q.2 ∧ q.2 < j + 1) ∧ i + 1 < D ∧ j + 1 < E

/-- A call whose list comes with an `nside`, for pixels whose altitude is known. -/
structure ListCall (c : HpxCall) (file : String) (n : ℕ) (l : List ℕ) (altitude : ℕ → ℚ) : Prop where
  read : c.load file = .ok (.dict (some (n : ℚ)) (some l))
  several : l.length ≠ 1
  alt : ∀ p, c.altitude n p = some (altitude p)

end Spec

/-! ## nside -/

theorem log_sqrt_le (t : ℝ) (ht : 0 < t) (k : ℤ) :
    Real.log (Real.sqrt t) / Real.log 2 ≤ (k : ℝ) ↔ t ≤ ((2 : ℝ) ^ k) ^ 2 := by
  have h2 : (0 : ℝ) < Real.log 2 := Real.log_pos (by norm_num)
  have hk : (0 : ℝ) < (2 : ℝ) ^ k := zpow_pos (by norm_num) k
  rw [div_le_iff₀ h2, ← Real.log_zpow, Real.log_le_log_iff (Real.sqrt_pos.mpr ht) hk, Real.sqrt_le_left hk.le]

/-- The number of HEALPix pixels is chosen such that their area is at most that of the image pixels, with the smallest power of two that
does this. -/
theorem C212_nside (sx sy : ℝ) (hx : sx ≠ 0) (hy : sy ≠ 0) :
    (∃ k : ℤ, hpxNside sx sy = 2 ^ k) ∧ hpxArea (hpxNside sx sy) ≤ |sx| * |sy| ∧
      ∀ k : ℤ, hpxArea (2 ^ k) ≤ |sx| * |sy| → hpxNside sx sy ≤ 2 ^ k := by
  have hs : 0 < |sx| * |sy| := mul_pos (abs_pos.mpr hx) (abs_pos.mpr hy)
  have hsky : 0 < skyArea := by unfold skyArea; have := Real.pi_pos; positivity
  have ht : 0 < skyArea / (|sx| * |sy|) / 12 := by positivity
  have key : ∀ k : ℤ, hpxArea (2 ^ k) ≤ |sx| * |sy| ↔ skyArea / (|sx| * |sy|) / 12 ≤ ((2 : ℝ) ^ k) ^ 2 := by
    intro k
    have hk : (0 : ℝ) < (2 : ℝ) ^ k := zpow_pos (by norm_num) k
    unfold hpxArea
    rw [div_le_iff₀ (by positivity), div_le_iff₀ (by norm_num), div_le_iff₀ hs]
    constructor <;> intro h <;> linarith
  have e : hpxNside sx sy = 2 ^ ⌈Real.log (Real.sqrt (skyArea / (|sx| * |sy|) / 12)) / Real.log 2⌉ := rfl
  rw [e]
  refine ⟨⟨_, rfl⟩, (key _).mpr ((log_sqrt_le _ ht _).mp (Int.le_ceil _)), fun k hk => ?_⟩
  exact zpow_le_zpow_right₀ (by norm_num) (Int.ceil_le.mpr ((log_sqrt_le _ ht _).mpr ((key k).mp hk)))

/-- A side of one tenth of a degree. -/
example : (0.1 : ℝ) ≠ 0 := by norm_num

/-! ## Horizon -/

theorem filter_range_getD {α β : Type _} (P : Option ℚ → Bool) (f : α → Option ℚ) (g : α → β) (d : β) (l : List α) :
    ((List.range (l.map f).length).filter fun i => P ((l.map f).getD i none)).map (fun i => (l.map g).getD i d) =
      (l.filter fun a => P (f a)).map g := by
  induction l using List.reverseRecOn with
  | nil => rfl
  | append_singleton l a ih =>
    have h1 : ((l ++ [a]).map f).length = (l.map f).length + 1 := by simp
    rw [h1, List.range_succ, List.filter_append, List.filter_append (l₁ := l), List.map_append, List.map_append (f := g)
      (l₁ := l.filter _), ← ih]
    congr 1
    · have e : ((List.range (l.map f).length).filter fun i => P (((l ++ [a]).map f).getD i none)) =
          ((List.range (l.map f).length).filter fun i => P ((l.map f).getD i none)) := by
        apply List.filter_congr
        intro i hi
        have hlt : i < l.length := by simpa using hi
        simp [List.getD_eq_getElem?_getD, hlt, List.getElem?_append_left]
      rw [e]
      apply List.map_congr_left
      intro i hi
      have hlt : i < l.length := by simpa using (List.mem_filter.mp hi).1
      simp [List.getD_eq_getElem?_getD, hlt, List.getElem?_append_left]
    · by_cases h : P (f a) = true <;> simp [h]

theorem hpxHorizon_list (alt : ℕ → ℚ) (place : ℕ → ℚ × ℚ) (f : ℕ → Option ℚ) (hf : ∀ p, f p = some (alt p)) (l : List ℕ)
    (hl : l.length ≠ 1) :
    hpxHorizon (l.map f) (l.map place) l = .ok ((visible alt l).map place, visible alt l) := by
  have hv : (l.filter fun a => altAbove (f a)) = visible alt l := by
    apply List.filter_congr; intro p _; simp [altAbove, hf]
  unfold hpxHorizon
  by_cases h : (l.map f).any altBelow = true
  · have hl' : (l.map place).length ≠ 1 := by simpa using hl
    have e2 := filter_range_getD altAbove f (fun p => p) 0 l
    simp only [List.map_id_fun', id_eq] at e2
    rw [if_pos h, if_neg hl']
    simp only [filter_range_getD altAbove f place (0, 0) l, e2, hv]
  · rw [if_neg h]
    have : visible alt l = l := by
      apply List.filter_eq_self.mpr
      intro p hp
      by_contra hn
      apply h
      rw [List.any_eq_true]
      exact ⟨f p, List.mem_map_of_mem hp, by simpa [altBelow, hf] using hn⟩
    rw [this]

theorem truncQ_nat (n : ℕ) : truncQ (n : ℚ) = n := by simp [truncQ]

/-- A call with a list, step by step. -/
theorem hpxCnv_list {c : HpxCall} {file : String} {n : ℕ} {l : List ℕ} {alt : ℕ → ℚ} (h : ListCall c file n l alt)
    (cfg : HpxCfg) (hr : cfg.restrict = true) (hfile : cfg.healpixInds.getD c.nearest = file) (nside : Option ℚ) :
    hpxCnv c cfg nside = (do
      let cnv ← hpxGenerate c.dim c.elements ((visible alt l).map (c.place n))
      let test ← hpxApply (visible alt l).length c.mask cnv
      return (⟨n, visible alt l, cnv, none, (visible alt l).length, test.countP (fun v => decide (v = 0))⟩,
        { cfg with healpixInds := some file })) := by
  unfold hpxCnv
  rw [if_pos hr, hfile]
  have e : hpxRead c nside file = .ok (l, some (n : ℚ)) := by
    simp [hpxRead, h.read, bind, Except.bind]
  rw [e]
  simp only [bind, Except.bind, Option.getD_some, truncQ_nat, hpxHorizon_list alt (c.place n) (c.altitude n) h.alt l h.several]

/-- With a list, exactly the pixels above the horizon are used, in the order of the list, with the `nside` of the list whatever
`nside` was asked for; and an image is interpolated for each at the position of this pixel. -/
theorem C213_horizon (c : HpxCall) (file : String) (n : ℕ) (l : List ℕ) (alt : ℕ → ℚ) (h : ListCall c file n l alt)
    (cfg : HpxCfg) (hr : cfg.restrict = true) (hfile : cfg.healpixInds = some file) (nside : Option ℚ)
    (hmask : c.mask.length = c.dim * c.elements)
    (p a : ℕ) (hp : (visible alt l)[p]? = some a) (i j : ℕ) (hin : InCell c.dim c.elements (c.place n a) i j) :
    ∃ out cfg', hpxCnv c cfg nside = .ok (out, cfg') ∧ out.inds = visible alt l ∧ out.nside = n ∧
      out.nPix = (visible alt l).length ∧
      ∀ img : List ℚ, img.length = c.dim * c.elements →
        ∃ m, hpxApply out.nPix img out.cnv = .ok m ∧ m.length = out.nPix ∧
          m[p]? = some (bilinear (fun s t => img.getD (s + c.dim * t) 0) (c.place n a).1 (c.place n a).2 i j) := by
  obtain ⟨hx, hy, hi, hj⟩ := hin
  have hp' : ((visible alt l).map (c.place n))[p]? = some ((c.place n a).1, (c.place n a).2) := by
    rw [List.getElem?_map, hp]; rfl
  obtain ⟨cnv, hc, himg⟩ := C55_bilinear_partial c.dim c.elements _ p i j _ _ hp' hx hy hi hj
  simp only [List.length_map] at himg
  obtain ⟨m, hm, _⟩ := himg c.mask hmask
  refine ⟨⟨n, visible alt l, cnv, none, (visible alt l).length, m.countP (fun v => decide (v = 0))⟩,
    { cfg with healpixInds := some file }, ?_, rfl, rfl, rfl, himg⟩
  rw [hpxCnv_list h cfg hr (by rw [hfile]; rfl) nside, hc]
  simp only [bind, Except.bind, hm, pure, Except.pure]

/-- If no pixel of the list is above the horizon, the call fails. -/
theorem C213_none_left (c : HpxCall) (file : String) (n : ℕ) (l : List ℕ) (alt : ℕ → ℚ) (h : ListCall c file n l alt)
    (cfg : HpxCfg) (hr : cfg.restrict = true) (hfile : cfg.healpixInds = some file) (nside : Option ℚ)
    (hl : ∀ p ∈ l, alt p ≤ 0) : hpxCnv c cfg nside = .error .valueError := by
  have hv : visible alt l = [] := by
    apply List.filter_eq_nil_iff.mpr
    intro p hp
    simpa using hl p hp
  rw [hpxCnv_list h cfg hr (by rw [hfile]; rfl) nside, hv]
  rfl

/-- Four pixels of a list, the second below the horizon, in an image of 3 by 3 pixels of which one is masked. -/
def exHpxCall : HpxCall where
  nearest := "EoR0_high_healpix_inds.h5"
  load := fun f => if f = "mine.h5" then .ok (.dict (some 8) (some [10, 11, 12, 13])) else
    if f = "EoR0_high_healpix_inds.h5" then .ok (.dict (some 16) (some [20, 21])) else .error .keyError
  place := fun n p => if n = 8 then ([(1/2, 1/2), (1, 1), (3/2, 1/2), (3/2, 3/2)].getD (p - 10) (0, 0)) else (1/2, 3/2)
  altitude := fun _ p => some (if p = 11 then -5 else 40)
  dim := 3
  elements := 3
  mask := [1, 1, 0, 1, 1, 0, 0, 0, 0]
  auto := 4

theorem exHpxCall_list : ListCall exHpxCall "mine.h5" 8 [10, 11, 12, 13] (fun p => if p = 11 then -5 else 40) :=
  ⟨rfl, by decide, fun _ => rfl⟩

example : (visible (fun p => if p = 11 then -5 else 40) [10, 11, 12, 13])[1]? = some 12 ∧
    InCell exHpxCall.dim exHpxCall.elements (exHpxCall.place 8 12) 1 0 := by
  refine ⟨by decide +kernel, ?_⟩
  have e : exHpxCall.place 8 12 = (3/2, 1/2) := by decide +kernel
  have e1 : exHpxCall.dim = 3 := rfl
  have e2 : exHpxCall.elements = 3 := rfl
  rw [e, e1, e2]
  refine ⟨⟨by norm_num, by norm_num⟩, ⟨by norm_num, by norm_num⟩, by norm_num, by norm_num⟩

/-! ## Without a list -/

/-- Without a list the call fails, whatever the observation, the mask and the image are. -/
theorem C214_no_list_fails (c : HpxCall) (cfg : HpxCfg) (hr : cfg.restrict = false) (nside : Option ℚ) :
    hpxCnv c cfg nside = .error .indexError := by
  unfold hpxCnv; rw [if_neg (by simp [hr])]

/-- With a list in which one pixel above the horizon lies in the image the call does not fail. -/
theorem C214_list_partial (c : HpxCall) (file : String) (n : ℕ) (l : List ℕ) (alt : ℕ → ℚ) (h : ListCall c file n l alt)
    (cfg : HpxCfg) (hr : cfg.restrict = true) (hfile : cfg.healpixInds = some file) (nside : Option ℚ)
    (hmask : c.mask.length = c.dim * c.elements) (a : ℕ) (ha : a ∈ l) (hup : 0 < alt a) (i j : ℕ)
    (hin : InCell c.dim c.elements (c.place n a) i j) : ∃ out, hpxCnv c cfg nside = .ok out := by
  have hv : a ∈ visible alt l := List.mem_filter.mpr ⟨ha, by simpa using hup⟩
  obtain ⟨p, hp⟩ := List.mem_iff_getElem?.mp hv
  obtain ⟨out, cfg', e, _⟩ := C213_horizon c file n l alt h cfg hr hfile nside hmask p a hp i j hin
  exact ⟨_, e⟩

example : hpxCnv exHpxCall ⟨false, none⟩ none = .error .indexError := C214_no_list_fails _ _ rfl _

/-! ## The list of the observation -/

/-- When no list is named, the shipped list that is nearest to the observation is used: the result is that of naming it. -/
theorem C215_nearest_partial (c : HpxCall) (nside : Option ℚ) :
    hpxCnv c ⟨true, none⟩ nside = hpxCnv c ⟨true, some c.nearest⟩ nside := rfl

/-- A later call with the same options uses the list of the first observation, not the one of its own observation. -/
theorem C215_kept (c1 c2 : HpxCall) (restrict : Bool) (n1 n2 : Option ℚ) (out1 : HpxOut) (cfg1 : HpxCfg)
    (h1 : hpxCnv c1 ⟨restrict, none⟩ n1 = .ok (out1, cfg1)) :
    hpxCnv c2 cfg1 n2 = hpxCnv c2 ⟨true, some c1.nearest⟩ n2 := by
  cases restrict with
  | false => rw [C214_no_list_fails c1 ⟨false, none⟩ rfl] at h1; cases h1
  | true =>
    have : cfg1 = ⟨true, some c1.nearest⟩ := by
      unfold hpxCnv at h1
      simp only [if_true, Option.getD_none, bind, Except.bind, pure, Except.pure] at h1
      split at h1
      · cases h1
      · split at h1
        · cases h1
        · split at h1
          · cases h1
          · split at h1
            · cases h1
            · cases h1; rfl
    rw [this]

example : ∃ out cfg, hpxCnv exHpxCall ⟨true, none⟩ none = .ok (out, cfg) ∧ out.inds = [20, 21] ∧
    cfg = ⟨true, some "EoR0_high_healpix_inds.h5"⟩ := by
  have h : (hpxCnv exHpxCall ⟨true, none⟩ none).map (fun r => (r.1.inds, r.2)) =
      .ok ([20, 21], ⟨true, some "EoR0_high_healpix_inds.h5"⟩) := by decide +kernel
  cases hc : hpxCnv exHpxCall ⟨true, none⟩ none with
  | error e => rw [hc] at h; cases h
  | ok r =>
    rw [hc] at h
    simp only [Except.map, Except.ok.injEq, Prod.mk.injEq] at h
    exact ⟨r.1, r.2, rfl, h.1, h.2⟩

/-! ## The recorded counts -/

namespace Spec

/-- All four pixels of the image around a cell are masked. -/
def Masked (D : ℕ) (mask : List ℚ) (i j : ℕ) : Prop :=
  mask.getD (i + D * j) 0 = 0 ∧ mask.getD (i + D * (j + 1)) 0 = 0 ∧ mask.getD (i + 1 + D * j) 0 = 0 ∧
    mask.getD (i + 1 + D * (j + 1)) 0 = 0

instance (D : ℕ) (mask : List ℚ) (i j : ℕ) : Decidable (Masked D mask i j) := by unfold Masked; infer_instance

end Spec

theorem bilinear_zero (D E : ℕ) (mask : List ℚ) (hpos : ∀ k, 0 ≤ mask.getD k 0) (q : ℚ × ℚ) (i j : ℕ) (h : InCell D E q i j) :
    bilinear (fun s t => mask.getD (s + D * t) 0) q.1 q.2 i j = 0 ↔ Masked D mask i j := by
  obtain ⟨hx, hy, _, _⟩ := h
  have a1 : 0 < (i : ℚ) + 1 - q.1 := by linarith
  have a2 : 0 < (j : ℚ) + 1 - q.2 := by linarith
  have a3 : 0 < q.1 - i := by linarith
  have a4 : 0 < q.2 - j := by linarith
  unfold bilinear Masked
  constructor
  · intro hz
    have p1 := mul_nonneg (mul_pos a1 a2).le (hpos (i + D * j))
    have p2 := mul_nonneg (mul_pos a1 a4).le (hpos (i + D * (j + 1)))
    have p3 := mul_nonneg (mul_pos a3 a2).le (hpos (i + 1 + D * j))
    have p4 := mul_nonneg (mul_pos a3 a4).le (hpos (i + 1 + D * (j + 1)))
    refine ⟨?_, ?_, ?_, ?_⟩
    · exact (mul_eq_zero.mp (by linarith : ((i : ℚ) + 1 - q.1) * (j + 1 - q.2) * mask.getD (i + D * j) 0 = 0)).resolve_left
        (mul_pos a1 a2).ne'
    · exact (mul_eq_zero.mp (by linarith : ((i : ℚ) + 1 - q.1) * (q.2 - j) * mask.getD (i + D * (j + 1)) 0 = 0)).resolve_left
        (mul_pos a1 a4).ne'
    · exact (mul_eq_zero.mp (by linarith : (q.1 - i) * ((j : ℚ) + 1 - q.2) * mask.getD (i + 1 + D * j) 0 = 0)).resolve_left
        (mul_pos a3 a2).ne'
    · exact (mul_eq_zero.mp (by linarith : (q.1 - i) * (q.2 - j) * mask.getD (i + 1 + D * (j + 1)) 0 = 0)).resolve_left
        (mul_pos a3 a4).ne'
  · rintro ⟨h1, h2, h3, h4⟩
    simp only [h1, h2, h3, h4, mul_zero, add_zero]

theorem countP_of_get {α β : Type _} (f : α → Bool) (g : β → Bool) : ∀ (l : List α) (m : List β), l.length = m.length →
    (∀ (p : ℕ) (a : α) (b : β), l[p]? = some a → m[p]? = some b → f a = g b) → l.countP f = m.countP g := by
  intro l
  induction l with
  | nil => intro m hm _; cases m with | nil => rfl | cons => simp at hm
  | cons a l ih =>
    intro m hm h
    cases m with
    | nil => simp at hm
    | cons b m =>
      have h0 : f a = g b := h 0 a b rfl rfl
      have hr := ih m (by simpa using hm) (fun p x y hx hy => h (p + 1) x y (by simpa using hx) (by simpa using hy))
      rw [List.countP_cons, List.countP_cons, hr, h0]

/-- When every pixel above the horizon lies strictly inside a cell of the image, the recorded number of empty pixels is the number of
those whose surroundings are masked. -/
theorem C216_counts_partial (c : HpxCall) (file : String) (n : ℕ) (l : List ℕ) (alt : ℕ → ℚ) (h : ListCall c file n l alt)
    (cfg : HpxCfg) (hr : cfg.restrict = true) (hfile : cfg.healpixInds = some file) (nside : Option ℚ)
    (hmask : c.mask.length = c.dim * c.elements) (hpos : ∀ k, 0 ≤ c.mask.getD k 0) (hne : ∃ p ∈ l, 0 < alt p)
    (ci cj : ℕ → ℕ) (hin : ∀ p ∈ l, 0 < alt p → InCell c.dim c.elements (c.place n p) (ci p) (cj p)) :
    ∃ out cfg', hpxCnv c cfg nside = .ok (out, cfg') ∧ out.nPix = l.countP (fun p => decide (0 < alt p)) ∧
      out.nZero = l.countP (fun p => decide (0 < alt p ∧ Masked c.dim c.mask (ci p) (cj p))) := by
  have hin' : ∀ p ∈ visible alt l, InCell c.dim c.elements (c.place n p) (ci p) (cj p) := fun p hp =>
    hin p (List.mem_filter.mp hp).1 (by simpa using (List.mem_filter.mp hp).2)
  have key : ∀ (p a : ℕ), (visible alt l)[p]? = some a → ∃ cnv,
      hpxGenerate c.dim c.elements ((visible alt l).map (c.place n)) = .ok cnv ∧
      ∃ m, hpxApply (visible alt l).length c.mask cnv = .ok m ∧ m.length = (visible alt l).length ∧
        m[p]? = some (bilinear (fun s t => c.mask.getD (s + c.dim * t) 0) (c.place n a).1 (c.place n a).2 (ci a) (cj a)) := by
    intro p a hp
    obtain ⟨hx, hy, hi, hj⟩ := hin' a (List.mem_of_getElem? hp)
    have hp' : ((visible alt l).map (c.place n))[p]? = some ((c.place n a).1, (c.place n a).2) := by
      rw [List.getElem?_map, hp]; rfl
    obtain ⟨cnv, hc, himg⟩ := C55_bilinear_partial c.dim c.elements _ p _ _ _ _ hp' hx hy hi hj
    simp only [List.length_map] at himg
    exact ⟨cnv, hc, himg c.mask hmask⟩
  obtain ⟨a0, ha0, hup⟩ := hne
  obtain ⟨p0, hp0⟩ := List.mem_iff_getElem?.mp (List.mem_filter.mpr ⟨ha0, by simpa using hup⟩ : a0 ∈ visible alt l)
  obtain ⟨cnv, hc, m, hm, hlen, _⟩ := key p0 a0 hp0
  refine ⟨⟨n, visible alt l, cnv, none, (visible alt l).length, m.countP (fun v => decide (v = 0))⟩,
    { cfg with healpixInds := some file }, ?_, ?_, ?_⟩
  · rw [hpxCnv_list h cfg hr (by rw [hfile]; rfl) nside, hc]
    simp only [bind, Except.bind, hm, pure, Except.pure]
  · exact (List.countP_eq_length_filter).symm
  · show m.countP _ = _
    have e : l.countP (fun p => decide (0 < alt p ∧ Masked c.dim c.mask (ci p) (cj p))) =
        (visible alt l).countP (fun p => decide (Masked c.dim c.mask (ci p) (cj p))) := by
      unfold visible
      rw [List.countP_filter]
      congr 1
      funext p
      rw [Bool.decide_and, Bool.and_comm]
    rw [e]
    apply countP_of_get _ _ _ _ hlen
    intro p v a hv ha
    obtain ⟨cnv', hc', m', hm', _, hval⟩ := key p a ha
    rw [hc] at hc'; cases hc'
    rw [hm] at hm'; cases hm'
    rw [hv] at hval
    cases hval
    exact decide_eq_decide.mpr
      (bilinear_zero c.dim c.elements c.mask hpos (c.place n a) (ci a) (cj a) (hin' a (List.mem_of_getElem? ha)))

/-- Pixels with a whole coordinate are counted as empty though nothing around them is masked. -/
theorem C216_whole_counted (c : HpxCall) (file : String) (n : ℕ) (l : List ℕ) (alt : ℕ → ℚ) (h : ListCall c file n l alt)
    (cfg : HpxCfg) (hr : cfg.restrict = true) (hfile : cfg.healpixInds = some file) (nside : Option ℚ)
    (hmask : c.mask = List.replicate (c.dim * c.elements) 1) (hne : ∃ p ∈ l, 0 < alt p)
    (hin : ∀ p ∈ l, 0 < alt p → (0 ≤ (c.place n p).1 ∧ (c.place n p).1 < c.dim) ∧
      (0 ≤ (c.place n p).2 ∧ (c.place n p).2 < c.elements) ∧ ∃ i : ℤ, (c.place n p).1 = i) :
    ∃ out cfg', hpxCnv c cfg nside = .ok (out, cfg') ∧ out.nZero = out.nPix ∧ 0 < out.nPix := by
  have key : ∀ (p a : ℕ), (visible alt l)[p]? = some a → ∃ cnv,
      hpxGenerate c.dim c.elements ((visible alt l).map (c.place n)) = .ok cnv ∧
      ∃ m, hpxApply (visible alt l).length c.mask cnv = .ok m ∧ m[p]? = some 0 := by
    intro p a hp
    have hm := List.mem_filter.mp (List.mem_of_getElem? hp)
    obtain ⟨hx, hy, hi⟩ := hin a hm.1 (by simpa using hm.2)
    have hp' : ((visible alt l).map (c.place n))[p]? = some ((c.place n a).1, (c.place n a).2) := by
      rw [List.getElem?_map, hp]; rfl
    obtain ⟨cnv, hc, himg⟩ := C55_integer_zero c.dim c.elements _ p _ _ hp' hx hy (Or.inl hi)
    simp only [List.length_map] at himg
    exact ⟨cnv, hc, himg c.mask (by rw [hmask]; simp)⟩
  obtain ⟨a0, ha0, hup⟩ := hne
  have hv0 : a0 ∈ visible alt l := List.mem_filter.mpr ⟨ha0, by simpa using hup⟩
  obtain ⟨p0, hp0⟩ := List.mem_iff_getElem?.mp hv0
  obtain ⟨cnv, hc, m, hm, _⟩ := key p0 a0 hp0
  have hml : m.length = (visible alt l).length := by
    have hm0 := List.mem_filter.mp hv0
    obtain ⟨hx, hy, hi⟩ := hin a0 hm0.1 (by simpa using hm0.2)
    have fx0 : 0 ≤ ⌊(c.place n a0).1⌋ := Int.floor_nonneg.mpr hx.1
    have fy0 : 0 ≤ ⌊(c.place n a0).2⌋ := Int.floor_nonneg.mpr hy.1
    have fx1 : ⌊(c.place n a0).1⌋ < c.dim := Int.floor_lt.mpr (by exact_mod_cast hx.2)
    have fy1 : ⌊(c.place n a0).2⌋ < c.elements := Int.floor_lt.mpr (by exact_mod_cast hy.2)
    obtain ⟨cnv', hc', himg⟩ := hpx_general c.dim c.elements ((visible alt l).map (c.place n)) (c.place n a0)
      (List.mem_map_of_mem hv0) (by positivity) (by
        have : (c.dim : ℤ) * ⌊(c.place n a0).2⌋ ≤ c.dim * (c.elements - 1) :=
          mul_le_mul_of_nonneg_left (by omega) (by positivity)
        linarith)
    rw [hc] at hc'; cases hc'
    obtain ⟨m', hm', hlen, _⟩ := himg c.mask (by rw [hmask]; simp)
    rw [List.length_map, hm] at hm'; cases hm'
    simpa using hlen
  refine ⟨⟨n, visible alt l, cnv, none, (visible alt l).length, m.countP (fun v => decide (v = 0))⟩,
    { cfg with healpixInds := some file }, ?_, ?_, List.length_pos_of_mem hv0⟩
  · rw [hpxCnv_list h cfg hr (by rw [hfile]; rfl) nside, hc]
    simp only [bind, Except.bind, hm, pure, Except.pure]
  · show m.countP _ = (visible alt l).length
    rw [← hml, List.countP_eq_length]
    intro v hv
    obtain ⟨p, hp⟩ := List.mem_iff_getElem?.mp hv
    have hpl : p < (visible alt l).length := by rw [← hml]; exact (List.getElem?_eq_some_iff.mp hp).1
    obtain ⟨cnv', hc', m', hm', hz⟩ := key p _ (List.getElem?_eq_getElem hpl)
    rw [hc] at hc'; cases hc'
    rw [hm] at hm'; cases hm'
    rw [hp] at hz; cases hz
    simp

/-- In the example the surroundings of no pixel are masked completely; with another mask those of two are. -/
example : (hpxCnv exHpxCall ⟨true, some "mine.h5"⟩ none).map (fun r => (r.1.inds, r.1.nPix, r.1.nZero)) =
    .ok ([10, 12, 13], 3, 0) := by decide +kernel

example : (hpxCnv { exHpxCall with mask := [0, 0, 0, 0, 0, 0, 0, 0, 1] } ⟨true, some "mine.h5"⟩ none).map
    (fun r => (r.1.inds, r.1.nPix, r.1.nZero)) = .ok ([10, 12, 13], 3, 2) := by decide +kernel

/-- Three pixels with whole coordinates and nothing masked: all are counted. -/
example : (hpxCnv { exHpxCall with mask := List.replicate 9 1, place := fun _ p => [(1, 1/2), (0, 0), (2, 1/2), (1, 3/2)].getD (p - 10) (0, 0) }
    ⟨true, some "mine.h5"⟩ none).map (fun r => (r.1.nPix, r.1.nZero)) = .ok (3, 3) := by decide +kernel

end PyFHD
