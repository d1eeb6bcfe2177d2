import Verif.Lemmas.Gridding
import Mathlib.Tactic.LinearCombination
import Mathlib.Algebra.CharZero.Infinite
import Mathlib.Data.Rat.Cast.CharZero

/-!
# C27 - C29: `baseline_grid_locations`
-/

namespace PyFHD

open Spec

/-! ## C27 -/

theorem frac_bounds (g : GridIn) (c : ℚ) : 0 ≤ g.frac c ∧ g.frac c < 1 := by
  unfold GridIn.frac
  constructor
  · have := Int.floor_le ((c - ⌊c⌋) * (g.res : ℚ)); linarith
  · have := Int.lt_floor_add_one ((c - ⌊c⌋) * (g.res : ℚ)); linarith

/-- The offset and the rest locate the coordinate inside its pixel. -/
theorem offset_frac (g : GridIn) (hr : 0 < g.res) (c : ℚ) :
    0 ≤ g.offset c ∧ g.offset c < g.res ∧ (g.offset c : ℚ) + g.frac c = (c - ⌊c⌋) * g.res := by
  have h1 : 0 ≤ c - ⌊c⌋ := by have := Int.floor_le c; linarith
  have h2 : c - ⌊c⌋ < 1 := by have := Int.lt_floor_add_one c; linarith
  have hr' : (0 : ℚ) < g.res := by exact_mod_cast hr
  have h3 : 0 ≤ (c - ⌊c⌋) * g.res := mul_nonneg h1 hr'.le
  have h4 : (c - ⌊c⌋) * g.res < g.res := by nlinarith
  have h5 : 0 ≤ ⌊(c - ⌊c⌋) * (g.res : ℚ)⌋ := Int.floor_nonneg.2 h3
  have h6 : ⌊(c - ⌊c⌋) * (g.res : ℚ)⌋ < (g.res : ℤ) := Int.floor_lt.2 (by exact_mod_cast h4)
  have h7 : g.offset c = ⌊(c - ⌊c⌋) * (g.res : ℚ)⌋ := Int.emod_eq_of_lt h5 h6
  refine ⟨by rw [h7]; exact h5, by rw [h7]; exact h6, ?_⟩
  rw [h7]; unfold GridIn.frac; ring

/-- **C27.** The four interpolation weights are in `[0, 1]` and sum to one; the offsets are valid
places of the kernel table and have a right neighbour in a table of `res + 1` places. -/
theorem C27_weights (g : GridIn) (hr : 0 < g.res) (f b : ℕ) :
    let w := g.interpW f b
    (0 ≤ w.1 ∧ w.1 ≤ 1) ∧ (0 ≤ w.2.1 ∧ w.2.1 ≤ 1) ∧ (0 ≤ w.2.2.1 ∧ w.2.2.1 ≤ 1) ∧
      (0 ≤ w.2.2.2 ∧ w.2.2.2 ≤ 1) ∧ w.1 + w.2.1 + w.2.2.1 + w.2.2.2 = 1 ∧
      (0 ≤ g.offset (g.xcen f b) ∧ g.offset (g.xcen f b) < g.res) ∧
      (0 ≤ g.offset (g.ycen f b) ∧ g.offset (g.ycen f b) < g.res) := by
  obtain ⟨a1, a2⟩ := frac_bounds g (g.xcen f b)
  obtain ⟨b1, b2⟩ := frac_bounds g (g.ycen f b)
  obtain ⟨o1, o2, _⟩ := offset_frac g hr (g.xcen f b)
  obtain ⟨p1, p2, _⟩ := offset_frac g hr (g.ycen f b)
  simp only [GridIn.interpW]
  refine ⟨⟨?_, ?_⟩, ⟨?_, ?_⟩, ⟨?_, ?_⟩, ⟨?_, ?_⟩, by ring, ⟨o1, o2⟩, p1, p2⟩ <;> nlinarith

/-- **C27.** Interpolating a constant kernel gives the constant. -/
theorem C27_constant_kernel {K : Type _} [Field K] [StarRing K] [CharZero K] (g : GridIn)
    (f b x y : ℕ) (c : ℕ → K) :
    interpolateKernel (fun _ _ => c) x y ((g.interpW f b).1 : K) ((g.interpW f b).2.1 : K)
      ((g.interpW f b).2.2.1 : K) ((g.interpW f b).2.2.2 : K) = c := by
  funext p
  simp only [interpolateKernel, GridIn.interpW]
  push_cast
  ring

/-- **C27.** The interpolated kernel lies between the smallest and the largest corner. -/
theorem C27_between_corners (g : GridIn) (f b x y p : ℕ) (kern : ℕ → ℕ → ℕ → ℚ) (lo hi : ℚ)
    (h : ∀ dy ∈ [0, 1], ∀ dx ∈ [0, 1], lo ≤ kern (y + dy) (x + dx) p ∧
      kern (y + dy) (x + dx) p ≤ hi) :
    let w := g.interpW f b
    let v := interpolateKernel kern x y w.1 w.2.1 w.2.2.1 w.2.2.2 p
    lo ≤ v ∧ v ≤ hi := by
  obtain ⟨a1, a2⟩ := frac_bounds g (g.xcen f b)
  obtain ⟨b1, b2⟩ := frac_bounds g (g.ycen f b)
  simp only [interpolateKernel, GridIn.interpW]
  have h00 := h 0 (by simp) 0 (by simp)
  have h01 := h 0 (by simp) 1 (by simp)
  have h10 := h 1 (by simp) 0 (by simp)
  have h11 := h 1 (by simp) 1 (by simp)
  simp only [Nat.add_zero] at h00 h01 h10 h11
  set s := g.frac (g.xcen f b)
  set t := g.frac (g.ycen f b)
  have w00 : 0 ≤ (1 - s) * (1 - t) := mul_nonneg (by linarith) (by linarith)
  have w10 : 0 ≤ s * (1 - t) := mul_nonneg (by linarith) (by linarith)
  have w01 : 0 ≤ (1 - s) * t := mul_nonneg (by linarith) (by linarith)
  have w11 : 0 ≤ s * t := mul_nonneg (by linarith) (by linarith)
  constructor
  · have e1 := mul_le_mul_of_nonneg_right h00.1 w00
    have e2 := mul_le_mul_of_nonneg_right h01.1 w10
    have e3 := mul_le_mul_of_nonneg_right h10.1 w01
    have e4 := mul_le_mul_of_nonneg_right h11.1 w11
    linarith
  · have e1 := mul_le_mul_of_nonneg_right h00.2 w00
    have e2 := mul_le_mul_of_nonneg_right h01.2 w10
    have e3 := mul_le_mul_of_nonneg_right h10.2 w01
    have e4 := mul_le_mul_of_nonneg_right h11.2 w11
    linarith

/-- **C27.** A kernel that depends linearly on the position is reproduced exactly: the interpolated
value is its value at the sub-pixel position `(u - ⌊u⌋) * res`, `(v - ⌊v⌋) * res` of the sample. -/
theorem C27_linear_kernel (g : GridIn) (hr : 0 < g.res) (f b p : ℕ) (kern : ℕ → ℕ → ℕ → ℚ)
    (α β γ : ℚ) (h : ∀ y x, kern y x p = α * x + β * y + γ) :
    let w := g.interpW f b
    interpolateKernel kern (g.offset (g.xcen f b)).toNat (g.offset (g.ycen f b)).toNat
        w.1 w.2.1 w.2.2.1 w.2.2.2 p
      = α * ((uPix g f b - ⌊uPix g f b⌋) * g.res) + β * ((vPix g f b - ⌊vPix g f b⌋) * g.res) + γ := by
  obtain ⟨o1, _, o3⟩ := offset_frac g hr (g.xcen f b)
  obtain ⟨p1, _, p3⟩ := offset_frac g hr (g.ycen f b)
  rw [← kx_eq, ← ky_eq, ← o3, ← p3]
  have ex : (((g.offset (g.xcen f b)).toNat : ℕ) : ℚ) = ((g.offset (g.xcen f b) : ℤ) : ℚ) := by
    have : (((g.offset (g.xcen f b)).toNat : ℤ) : ℚ) = _ :=
      congrArg (fun z : ℤ => (z : ℚ)) (Int.toNat_of_nonneg o1)
    exact_mod_cast this
  have ey : (((g.offset (g.ycen f b)).toNat : ℕ) : ℚ) = ((g.offset (g.ycen f b) : ℤ) : ℚ) := by
    have : (((g.offset (g.ycen f b)).toNat : ℤ) : ℚ) = _ :=
      congrArg (fun z : ℤ => (z : ℚ)) (Int.toNat_of_nonneg p1)
    exact_mod_cast this
  simp only [interpolateKernel, GridIn.interpW, h]
  push_cast
  rw [ex, ey]
  ring

/-! ## C28 and C29 -/

/-- The members of a bin: `ri[ri[i] : ri[i + 1]]`. -/
def GridBins.members (B : GridBins) (i : ℕ) : List ℕ := (riSlice B.ri i).getD []

theorem pixel_nonneg_iff (g : GridIn) (hf : g.freqAll ≠ []) (hl : ∀ b, 0 ≤ blLength g b)
    (s : ℕ × ℕ) : 0 ≤ g.pixel s ↔ GridableOn g g.elements g.dimension s.1 s.2 := by
  have hd : (0 : ℤ) ≤ g.dimension := Int.natCast_nonneg _
  unfold GridIn.pixel
  rcases corner_spec g s.1 s.2 hf (hl _) with ⟨h, hG⟩ | ⟨h, hG⟩
  · rw [h]
    simp only [hG, iff_true]
    have := mul_nonneg hG.2.1.1.le hd
    have := hG.1.1
    linarith
  · rw [h]
    simp only [hG, iff_false]
    intro h'
    linarith

theorem pixel_inj (g : GridIn) (hf : g.freqAll ≠ []) (hl : ∀ b, 0 ≤ blLength g b)
    (hed : g.elements ≤ g.dimension) {s t : ℕ × ℕ}
    (hs : GridableOn g g.elements g.dimension s.1 s.2)
    (ht : GridableOn g g.elements g.dimension t.1 t.2) (h : g.pixel s = g.pixel t) :
    g.corner s.1 s.2 = g.corner t.1 t.2 := by
  have bound : ∀ s : ℕ × ℕ, GridableOn g g.elements g.dimension s.1 s.2 →
      0 ≤ (g.corner s.1 s.2).1 ∧ (g.corner s.1 s.2).1 < g.dimension := by
    intro s hs
    rcases corner_spec g s.1 s.2 hf (hl _) with ⟨h, _⟩ | ⟨_, h⟩
    · rw [h]
      obtain ⟨h1, h2⟩ := hs.1
      constructor
      · exact h1.le
      · have : (g.elements : ℤ) ≤ g.dimension := by exact_mod_cast hed
        simp only []
        omega
    · exact absurd hs h
  obtain ⟨a1, a2⟩ := bound s hs
  obtain ⟨b1, b2⟩ := bound t ht
  unfold GridIn.pixel at h
  have hx : (g.corner s.1 s.2).1 = (g.corner t.1 t.2).1 := by
    have := congrArg (· % (g.dimension : ℤ)) h
    simpa [Int.add_mul_emod_self_right, Int.emod_eq_of_lt a1 a2, Int.emod_eq_of_lt b1 b2] using this
  have hd : (g.dimension : ℤ) ≠ 0 := by omega
  have hy : (g.corner s.1 s.2).2 * (g.dimension : ℤ) = (g.corner t.1 t.2).2 * g.dimension := by
    rw [hx] at h; exact add_left_cancel h
  exact Prod.ext hx (mul_right_cancel₀ hd hy)

/-- Membership of the bins. -/
theorem members_iff {g : GridIn} {r : HistResult} {hi : ℤ} (h0 : 0 ≤ hi)
    (hall : ∀ x ∈ g.flat.map g.pixel, x ≤ hi) (hs : HistIntSpec (g.flat.map g.pixel) 0 hi r)
    (i k : ℕ) :
    (i ∈ nonzeroIdx r.hist ∧ k ∈ GridBins.members ⟨r.hist, nonzeroIdx r.hist, r.ri⟩ i) ↔
      ∃ s, g.flat[k]? = some s ∧ g.pixel s = i := by
  have hpos : ∀ i : ℕ, k ∈ positions (fun d => d = 0 + (i : ℤ)) (g.flat.map g.pixel) ↔
      ∃ s, g.flat[k]? = some s ∧ g.pixel s = i := by
    intro i
    rw [mem_positions]
    simp only [List.getElem?_map, Option.map_eq_some_iff, zero_add]
    constructor
    · rintro ⟨d, ⟨s, h1, h2⟩, h3⟩; exact ⟨s, h1, h2.trans h3⟩
    · rintro ⟨s, h1, h2⟩; exact ⟨_, ⟨s, h1, rfl⟩, h2⟩
  have hlen : r.hist.length = (hi - 0 + 1).toNat := by rw [hs.hist]; simp
  constructor
  · rintro ⟨h1, h2⟩
    have hi' : i < (hi - 0 + 1).toNat := by
      rw [mem_nonzeroIdx] at h1
      by_contra hge
      apply h1
      simp only [List.getD, List.getElem?_eq_none (by omega : r.hist.length ≤ i), Option.getD_none]
    unfold GridBins.members at h2
    simp only [hs.slices i hi', Option.getD_some] at h2
    exact (hpos i).1 h2
  · rintro ⟨s, h1, h2⟩
    have hmem : g.pixel s ∈ g.flat.map g.pixel := List.mem_map.2 ⟨s, List.mem_of_getElem? h1, rfl⟩
    have hle := hall _ hmem
    have hi' : i < (hi - 0 + 1).toNat := by omega
    refine ⟨?_, ?_⟩
    · rw [mem_nonzeroIdx, hs.hist]
      simp only [List.getD, List.getElem?_map, List.getElem?_range hi', Option.map_some,
        Option.getD_some]
      rw [zero_add, ← h2]
      exact fun hc => (List.count_eq_zero.1 hc) hmem
    · unfold GridBins.members
      simp only [hs.slices i hi', Option.getD_some]
      exact (hpos i).2 ⟨s, h1, h2⟩

/-- **C28** (square planes; see `C28_footprint_outside` for what is missing). Every visibility in a
bin has its footprint strictly inside the plane, at the corner that gridding uses. -/
theorem C28_footprint_inside_partial (g : GridIn) (hsq : g.elements = g.dimension)
    (hf : g.freqAll ≠ []) (hl : ∀ b, 0 ≤ blLength g b) :
    ∃ ob, gridBins g = .ok ob ∧ ∀ B, ob = some B → ∀ i ∈ B.binI, ∀ k ∈ B.members i,
      ∃ f b, g.fiUse[k / g.nb]? = some f ∧ g.biUse[k % g.nb]? = some b ∧
        g.corner f b = (anchor g.psfDim g.dimension (uPix g f b),
          anchor g.psfDim g.elements (vPix g f b)) ∧
        0 < (g.corner f b).1 ∧ (g.corner f b).1 + g.psfDim - 1 < (g.dimension : ℤ) - 1 ∧
        0 < (g.corner f b).2 ∧ (g.corner f b).2 + g.psfDim - 1 < (g.elements : ℤ) - 1 := by
  rcases gridBins_spec g hf hl with ⟨h, _⟩ | ⟨r, hi, h, h0, hall, hs, _⟩
  · exact ⟨none, h, fun B hB => by cases hB⟩
  · refine ⟨_, h, ?_⟩
    rintro B hB i hi' k hk
    cases hB
    obtain ⟨s, h1, h2⟩ := (members_iff h0 hall hs i k).1 ⟨hi', hk⟩
    obtain ⟨e1, e2⟩ := flat_get_inv g h1
    have hG := (pixel_nonneg_iff g hf hl s).1 (by rw [h2]; exact Int.natCast_nonneg _)
    refine ⟨s.1, s.2, e1, e2, ?_⟩
    rcases corner_spec g s.1 s.2 hf (hl _) with ⟨hc, _⟩ | ⟨_, hc⟩
    · rw [hc]
      obtain ⟨⟨a1, a2⟩, ⟨b1, b2⟩, _⟩ := hG
      rw [← hsq] at b1 b2 ⊢
      exact ⟨rfl, a1, by simp only []; omega, b1, by simp only []; omega⟩
    · exact absurd hG hc

/-- **C29** (square planes; see `C29_bins_mix_anchors` for what is missing). The visibility in row
`i` and column `j` is in exactly one bin if it is to be gridded and in none otherwise;
visibilities of one bin have the same corner. When no bins are returned there is nothing to
grid. -/
theorem C29_bins_partition_partial (g : GridIn) (hsq : g.elements = g.dimension)
    (hf : g.freqAll ≠ []) (hl : ∀ b, 0 ≤ blLength g b) :
    ∃ ob, gridBins g = .ok ob ∧
      (ob = none → ∀ f ∈ g.fiUse, ∀ b ∈ g.biUse, ¬ Gridable g f b) ∧
      ∀ B, ob = some B →
        (∀ (i j : ℕ) f b, g.fiUse[i]? = some f → g.biUse[j]? = some b →
          (Gridable g f b → ∃! n, n ∈ B.binI ∧ i * g.nb + j ∈ B.members n) ∧
          (¬ Gridable g f b → ∀ n ∈ B.binI, i * g.nb + j ∉ B.members n)) ∧
        (∀ n ∈ B.binI, B.members n ≠ [] ∧ (B.members n).Nodup ∧
          B.binN[n]? = some (B.members n).length) ∧
        ∀ n ∈ B.binI, ∀ (i j i' j' : ℕ) f b f' b', g.fiUse[i]? = some f → g.biUse[j]? = some b →
          g.fiUse[i']? = some f' → g.biUse[j']? = some b' →
          i * g.nb + j ∈ B.members n → i' * g.nb + j' ∈ B.members n →
          g.corner f b = g.corner f' b' := by
  have hGr : ∀ f b, Gridable g f b ↔ GridableOn g g.elements g.dimension f b := by
    intro f b; unfold Gridable; rw [hsq]
  rcases gridBins_spec g hf hl with ⟨h, hno⟩ | ⟨r, hi, h, h0, hall, hs, _⟩
  · refine ⟨none, h, fun _ f hf' b hb => ?_, fun B hB => by cases hB⟩
    rw [hGr]
    refine hno (f, b) ?_
    unfold GridIn.flat
    exact List.mem_flatMap.2 ⟨f, hf', List.mem_map.2 ⟨b, hb, rfl⟩⟩
  · refine ⟨_, h, (fun hc => by simp at hc), ?_⟩
    intro B hB
    cases hB
    refine ⟨?_, ?_, ?_⟩
    · intro i j f b hi' hj
      have hget := flat_get g hi' hj
      have hpn := pixel_nonneg_iff g hf hl (f, b)
      constructor
      · intro hG
        have hp : 0 ≤ g.pixel (f, b) := hpn.2 ((hGr f b).1 hG)
        refine ⟨(g.pixel (f, b)).toNat, ?_, ?_⟩
        · exact (members_iff h0 hall hs _ _).2 ⟨(f, b), hget, (Int.toNat_of_nonneg hp).symm⟩
        · intro n hn
          obtain ⟨s, h1, h2⟩ := (members_iff h0 hall hs _ _).1 hn
          rw [hget] at h1
          cases h1
          omega
      · intro hG n hn hk
        obtain ⟨s, h1, h2⟩ := (members_iff h0 hall hs _ _).1 ⟨hn, hk⟩
        rw [hget] at h1
        cases h1
        exact hG ((hGr f b).2 (hpn.1 (by omega)))
    · intro n hn
      have hlen : r.hist.length = (hi - 0 + 1).toNat := by rw [hs.hist]; simp
      have hn' : n < (hi - 0 + 1).toNat := by
        rw [mem_nonzeroIdx] at hn
        by_contra hge
        apply hn
        simp only [List.getD, List.getElem?_eq_none (by omega : r.hist.length ≤ n),
          Option.getD_none]
      have hm : GridBins.members ⟨r.hist, nonzeroIdx r.hist, r.ri⟩ n
          = positions (fun d => d = 0 + (n : ℤ)) (g.flat.map g.pixel) := by
        unfold GridBins.members
        simp only [hs.slices n hn', Option.getD_some]
      have hcount : r.hist[n]? = some (positions (fun d => d = 0 + (n : ℤ))
          (g.flat.map g.pixel)).length := by
        rw [hs.hist, List.getElem?_map, List.getElem?_range hn', positions_length]
        simp only [Option.map_some, List.count]
        rfl
      rw [hm]
      refine ⟨?_, List.nodup_range.filter _, hcount⟩
      intro hnil
      rw [hnil] at hcount
      rw [mem_nonzeroIdx] at hn
      apply hn
      simp [List.getD, hcount]
    · intro n hn i j i' j' f b f' b' e1 e2 e3 e4 k1 k2
      have g1 := flat_get g e1 e2
      have g2 := flat_get g e3 e4
      obtain ⟨s, h1, h2⟩ := (members_iff h0 hall hs _ _).1 ⟨hn, k1⟩
      obtain ⟨t, h3, h4⟩ := (members_iff h0 hall hs _ _).1 ⟨hn, k2⟩
      rw [g1] at h1; cases h1
      rw [g2] at h3; cases h3
      have p1 : 0 ≤ g.pixel (f, b) := by rw [h2]; exact Int.natCast_nonneg _
      have p2 : 0 ≤ g.pixel (f', b') := by rw [h4]; exact Int.natCast_nonneg _
      have q1 := (pixel_nonneg_iff g hf hl (f, b)).1 p1
      have q2 := (pixel_nonneg_iff g hf hl (f', b')).1 p2
      exact pixel_inj g hf hl hsq.le (s := (f, b)) (t := (f', b')) q1 q2 (h2.trans h4.symm)

/-- A plane of 8 by 16 pixels (`dimension` by `elements`) or the like, kernels of 2 pixels. -/
def exGrid (dimension elements : ℕ) (uu vv : ℕ → ℚ) (nb : ℕ) : GridIn where
  dimension := dimension
  elements := elements
  psfDim := 2
  res := 4
  kpix := 1
  minBaseline := 0
  maxBaseline := 100
  freqAll := [1, 3/2]
  fiUse := [0, 1]
  biUse := List.range nb
  uu := uu
  vv := vv
  weight := fun f b => if f = 1 ∧ b = 1 then 0 else 1
  norm := fun x y => |x| + |y|
  fill := false
  mask := false

/-- **C28 fails** for planes that are not square: the code tests `x` against `elements`, so a
visibility that passes that test is binned even if its footprint starts beyond the last column. -/
theorem C28_footprint_outside (g : GridIn) (hf : g.freqAll ≠ []) (hl : ∀ b, 0 ≤ blLength g b)
    {i j f b : ℕ} (hi : g.fiUse[i]? = some f) (hj : g.biUse[j]? = some b)
    (hG : GridableOn g g.elements g.dimension f b)
    (hout : (g.dimension : ℤ) ≤ anchor g.psfDim g.elements (uPix g f b)) :
    ∃ B, gridBins g = .ok (some B) ∧ ∃ n ∈ B.binI, i * g.nb + j ∈ B.members n ∧
      (g.dimension : ℤ) ≤ (g.corner f b).1 := by
  have hget := flat_get g hi hj
  rcases gridBins_spec g hf hl with ⟨_, hno⟩ | ⟨r, m, h, h0, hall, hs, _⟩
  · exact absurd hG (hno _ (List.mem_of_getElem? hget))
  · have hp := (pixel_nonneg_iff g hf hl (f, b)).2 hG
    obtain ⟨h1, h2⟩ := (members_iff h0 hall hs (g.pixel (f, b)).toNat (i * g.nb + j)).2
      ⟨(f, b), hget, (Int.toNat_of_nonneg hp).symm⟩
    refine ⟨_, h, _, h1, h2, ?_⟩
    rcases corner_spec g f b hf (hl _) with ⟨hc, _⟩ | ⟨_, hc⟩
    · rw [hc]; exact hout
    · exact absurd hG hc

/-- **C29 fails** for planes with more rows than columns: visibilities whose corners differ share a
bin as soon as `xmin + ymin * dimension` agrees. -/
theorem C29_bins_mix_anchors (g : GridIn) (hf : g.freqAll ≠ []) (hl : ∀ b, 0 ≤ blLength g b)
    {i j f b i' j' f' b' : ℕ} (hi : g.fiUse[i]? = some f) (hj : g.biUse[j]? = some b)
    (hi' : g.fiUse[i']? = some f') (hj' : g.biUse[j']? = some b')
    (hG : GridableOn g g.elements g.dimension f b)
    (hG' : GridableOn g g.elements g.dimension f' b')
    (hsame : anchor g.psfDim g.elements (uPix g f b)
        + anchor g.psfDim g.dimension (vPix g f b) * g.dimension
      = anchor g.psfDim g.elements (uPix g f' b')
        + anchor g.psfDim g.dimension (vPix g f' b') * g.dimension) :
    ∃ B, gridBins g = .ok (some B) ∧ ∃ n ∈ B.binI, i * g.nb + j ∈ B.members n ∧
      i' * g.nb + j' ∈ B.members n := by
  have hget := flat_get g hi hj
  have hget' := flat_get g hi' hj'
  rcases gridBins_spec g hf hl with ⟨_, hno⟩ | ⟨r, m, h, h0, hall, hs, _⟩
  · exact absurd hG (hno _ (List.mem_of_getElem? hget))
  · have hp := (pixel_nonneg_iff g hf hl (f, b)).2 hG
    have he : g.pixel (f, b) = g.pixel (f', b') := by
      unfold GridIn.pixel
      rcases corner_spec g f b hf (hl _) with ⟨hc, _⟩ | ⟨_, hc⟩
      · rcases corner_spec g f' b' hf (hl _) with ⟨hc', _⟩ | ⟨_, hc'⟩
        · simp only [hc, hc']; exact hsame
        · exact absurd hG' hc'
      · exact absurd hG hc
    obtain ⟨h1, h2⟩ := (members_iff h0 hall hs (g.pixel (f, b)).toNat (i * g.nb + j)).2
      ⟨(f, b), hget, (Int.toNat_of_nonneg hp).symm⟩
    obtain ⟨_, h3⟩ := (members_iff h0 hall hs (g.pixel (f, b)).toNat (i' * g.nb + j')).2
      ⟨(f', b'), hget', by rw [← he]; exact (Int.toNat_of_nonneg hp).symm⟩
    exact ⟨_, h, _, h1, h2, h3⟩

theorem exGrid_len (d e : ℕ) (uu vv : ℕ → ℚ) (nb b : ℕ) : 0 ≤ blLength (exGrid d e uu vv nb) b :=
  mul_nonneg (add_nonneg (abs_nonneg _) (abs_nonneg _)) zero_le_one

/-- The hypotheses of the square case: three baselines at two frequencies on 16 by 16 pixels; the
second baseline is flagged at the second frequency, the third leaves the plane there. -/
example : (exGrid 16 16 (fun b => b - 1) (fun b => (b : ℚ) * 3 + 1/2) 3).freqAll ≠ [] ∧
    Gridable (exGrid 16 16 (fun b => b - 1) (fun b => (b : ℚ) * 3 + 1/2) 3) 1 0 ∧
    ¬ Gridable (exGrid 16 16 (fun b => b - 1) (fun b => (b : ℚ) * 3 + 1/2) 3) 1 1 ∧
    ¬ Gridable (exGrid 16 16 (fun b => b - 1) (fun b => (b : ℚ) * 3 + 1/2) 3) 1 2 := by
  decide +kernel

example : (gridBins (exGrid 16 16 (fun b => b - 1) (fun b => (b : ℚ) * 3 + 1/2) 3)).map
    (fun o => o.map fun B => (B.binI, B.binI.map fun i => B.members i))
      = .ok (some ([23, 72, 121], [[2], [1], [0, 3]])) := by decide +kernel

/-- C28 fails here: columns 12 and 13 of a plane of 8 columns. -/
example : GridableOn (exGrid 8 16 (fun _ => 4) (fun _ => -1) 1) 16 8 0 0 ∧
    (8 : ℤ) ≤ anchor 2 16 (uPix (exGrid 8 16 (fun _ => 4) (fun _ => -1) 1) 0 0) := by decide +kernel

/-- Two visibilities on a plane of 24 rows and 8 columns. -/
def exMix : GridIn :=
  exGrid 8 24 (fun b => if b = 0 then -9 else -1) (fun b => if b = 0 then -2 else -3) 2

/-- C29 fails here: corners `(3, 2)` and `(11, 1)` share a bin. -/
example : GridableOn exMix 24 8 0 0 ∧ GridableOn exMix 24 8 0 1 ∧ exMix.corner 0 0 = (3, 2) ∧
    exMix.corner 0 1 = (11, 1) ∧
    (gridBins exMix).map (fun o => o.map fun B => B.members 19) = .ok (some [0, 1]) := by
  decide +kernel

end PyFHD
