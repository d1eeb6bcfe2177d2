import Verif.Spec.Gridding
import Verif.Lemmas.Arrays
import Mathlib.Tactic.FieldSimp
import Mathlib.Tactic.Positivity

/-! # Lemmas about the gridding -/

namespace PyFHD

open Spec

/-- Integer histogram from zero to the largest value. -/
theorem hist_min0_int (l : List ℤ) (h : ∃ x ∈ l, 0 ≤ x) :
    ∃ r hi, histogram (toQ l) 1 none (some 0) none = .ok r ∧ 0 ≤ hi ∧ (∀ x ∈ l, x ≤ hi) ∧
      HistIntSpec l 0 hi r := by
  obtain ⟨x, hx, hx0⟩ := h
  have hne : toQ l ≠ [] := by
    cases l with
    | nil => cases hx
    | cons a t => simp [toQ]
  obtain ⟨M, hM⟩ := listMax?_isSome hne
  obtain ⟨M1, M2⟩ := listMax?_spec _ _ hM
  obtain ⟨z, hz, rfl⟩ := toQ_mem M1
  have hmax : ∀ y ∈ l, y ≤ z := by
    intro y hy
    have : (y : ℚ) ≤ (z : ℚ) := M2 _ (List.mem_map.mpr ⟨y, hy, rfl⟩)
    exact_mod_cast this
  have h0 : 0 ≤ z := le_trans hx0 (hmax x hx)
  obtain ⟨r, hr, hs⟩ := histInt_spec l h0
  refine ⟨r, z, ?_, h0, hmax, hs⟩
  rw [← hr]
  simp [histogram, hM]

theorem maxZ?_isSome {l : List ℤ} (h : l ≠ []) : ∃ m, maxZ? l = some m := by
  cases l with
  | nil => exact absurd rfl h
  | cons a t => exact ⟨_, rfl⟩

theorem pyInt_pos_iff (q : ℚ) : 0 < pyInt q ↔ 0 < ⌊q⌋ := by
  unfold pyInt
  split_ifs with h
  · rfl
  · constructor
    · intro h'
      have : ⌈q⌉ ≤ 0 := Int.ceil_le.2 (by push_cast; linarith)
      omega
    · intro h'
      have := Int.floor_pos.1 h'
      linarith

theorem pyInt_of_pos (q : ℚ) (h : 0 < ⌊q⌋) : pyInt q = ⌊q⌋ := by
  have := Int.floor_pos.1 h
  unfold pyInt; rw [if_pos (by linarith)]

theorem anchor_floor (psf n : ℕ) (c : ℚ) :
    ⌊(⌊c⌋ : ℚ) + (n : ℚ) / 2 - ((psf : ℚ) / 2 - 1)⌋ = anchor psf n c := by
  have : (⌊c⌋ : ℚ) + (n : ℚ) / 2 - ((psf : ℚ) / 2 - 1)
      = (((n : ℤ) - psf : ℤ) : ℚ) / ((2 : ℕ) : ℚ) + ((⌊c⌋ + 1 : ℤ) : ℚ) := by
    push_cast; ring
  rw [this, Int.floor_add_intCast, Rat.floor_intCast_div_natCast]
  unfold anchor; push_cast; ring

theorem kx_eq (g : GridIn) (f b : ℕ) : g.xcen f b = uPix g f b := by
  unfold GridIn.xcen GridIn.kx GridIn.conj uPix Mirrored
  by_cases h : 0 < g.vv b / g.kpix <;> simp [h]

theorem ky_eq (g : GridIn) (f b : ℕ) : g.ycen f b = vPix g f b := by
  unfold GridIn.ycen GridIn.ky GridIn.conj vPix Mirrored
  by_cases h : 0 < g.vv b / g.kpix <;> simp [h]

theorem distFlag_iff (g : GridIn) (b : ℕ) (hf : g.freqAll ≠ []) (hl : 0 ≤ blLength g b) :
    g.distFlag b = true ↔ ¬ LengthOk g b := by
  obtain ⟨lo, hlo⟩ := listMin?_isSome hf
  obtain ⟨hi, hhi⟩ := listMax?_isSome hf
  obtain ⟨lo1, lo2⟩ := listMin?_spec _ _ hlo
  obtain ⟨hi1, hi2⟩ := listMax?_spec _ _ hhi
  unfold GridIn.distFlag
  simp only [hlo, hhi, decide_eq_true_eq]
  change (lo * blLength g b < _ ∨ hi * blLength g b > _) ↔ _
  unfold LengthOk
  constructor
  · rintro (h | h) hall
    · have := (hall lo lo1).1; linarith
    · have := (hall hi hi1).2; linarith
  · intro h
    by_contra hc
    push Not at hc
    refine h fun φ hφ => ⟨?_, ?_⟩
    · have := mul_le_mul_of_nonneg_right (lo2 φ hφ) hl; linarith
    · have := mul_le_mul_of_nonneg_right (hi2 φ hφ) hl; linarith

/-- The corner of a sample: its anchor if it is to be gridded, else `(-1, -1)`. The two sides of
the plane are swapped. -/
theorem corner_spec (g : GridIn) (f b : ℕ) (hf : g.freqAll ≠ []) (hl : 0 ≤ blLength g b) :
    (g.corner f b = (anchor g.psfDim g.elements (uPix g f b),
        anchor g.psfDim g.dimension (vPix g f b)) ∧ GridableOn g g.elements g.dimension f b) ∨
      (g.corner f b = (-1, -1) ∧ ¬ GridableOn g g.elements g.dimension f b) := by
  have key : ∀ (n : ℕ) (c : ℚ),
      (pyInt (⌊c⌋ + (n : ℚ) / 2 - ((g.psfDim : ℚ) / 2 - 1)) ≤ 0 ∨
        pyInt (⌊c⌋ + (n : ℚ) / 2 - ((g.psfDim : ℚ) / 2 - 1)) + g.psfDim - 1 ≥ (n : ℤ) - 1) ↔
      ¬ InsideAxis g.psfDim n c := by
    intro n c
    unfold InsideAxis
    have h1 := pyInt_pos_iff (⌊c⌋ + (n : ℚ) / 2 - ((g.psfDim : ℚ) / 2 - 1))
    have h2 := pyInt_of_pos (⌊c⌋ + (n : ℚ) / 2 - ((g.psfDim : ℚ) / 2 - 1))
    rw [anchor_floor] at h1 h2
    by_cases hp : 0 < anchor g.psfDim n c
    · rw [h2 hp]; constructor <;> intro h <;> omega
    · have := mt h1.1 hp
      constructor
      · intro _ h; exact hp h.1
      · intro _; left; omega
  have key2 : ∀ (n : ℕ) (c : ℚ), InsideAxis g.psfDim n c →
      pyInt (⌊c⌋ + (n : ℚ) / 2 - ((g.psfDim : ℚ) / 2 - 1)) = anchor g.psfDim n c := by
    intro n c h
    rw [pyInt_of_pos, anchor_floor]
    rw [anchor_floor]; exact h.1
  have hconj : g.conj b = true ↔ Mirrored g b := by
    unfold GridIn.conj Mirrored; exact decide_eq_true_iff
  unfold GridIn.corner
  rw [kx_eq, ky_eq]
  simp only [key, distFlag_iff g b hf hl, hconj]
  unfold GridableOn
  by_cases c1 : InsideAxis g.psfDim g.elements (uPix g f b)
  swap
  · right; rw [if_pos c1]; exact ⟨rfl, fun h => c1 h.1⟩
  rw [if_neg (not_not.2 c1)]
  by_cases c2 : InsideAxis g.psfDim g.dimension (vPix g f b)
  swap
  · right; rw [if_pos c2]; exact ⟨rfl, fun h => c2 h.2.1⟩
  rw [if_neg (not_not.2 c2), key2 _ _ c1, key2 _ _ c2]
  by_cases c3 : g.fill = false ∧ ¬ LengthOk g b
  · right; rw [if_pos c3]; exact ⟨rfl, fun h => c3.2 (h.2.2.1 c3.1).2⟩
  rw [if_neg c3]
  by_cases c4 : g.fill = false ∧ g.weight f b ≤ 0
  · right; rw [if_pos c4]; exact ⟨rfl, fun h => absurd (h.2.2.1 c4.1).1 (not_lt.2 c4.2)⟩
  rw [if_neg c4]
  by_cases c5 : g.mask = true ∧ Mirrored g b
  · right; rw [if_pos c5]; exact ⟨rfl, fun h => h.2.2.2 c5⟩
  left; rw [if_neg c5]
  refine ⟨rfl, c1, c2, fun hfill => ⟨?_, ?_⟩, c5⟩
  · by_contra h; exact c4 ⟨hfill, not_lt.1 h⟩
  · by_contra h; exact c3 ⟨hfill, h⟩

/-- The bins of `baseline_grid_locations`. -/
theorem gridBins_spec (g : GridIn) (hf : g.freqAll ≠ []) (hl : ∀ b, 0 ≤ blLength g b) :
    (gridBins g = .ok none ∧ ∀ s ∈ g.flat, ¬ GridableOn g g.elements g.dimension s.1 s.2) ∨
    ∃ r hi, gridBins g = .ok (some ⟨r.hist, nonzeroIdx r.hist, r.ri⟩) ∧ 0 ≤ hi ∧
      (∀ x ∈ g.flat.map g.pixel, x ≤ hi) ∧ HistIntSpec (g.flat.map g.pixel) 0 hi r ∧
      ∃ s ∈ g.flat, GridableOn g g.elements g.dimension s.1 s.2 := by
  by_cases hex : ∃ s ∈ g.flat, GridableOn g g.elements g.dimension s.1 s.2
  · right
    obtain ⟨s, hs, hG⟩ := hex
    have hc : g.corner s.1 s.2 = (anchor g.psfDim g.elements (uPix g s.1 s.2),
        anchor g.psfDim g.dimension (vPix g s.1 s.2)) := by
      rcases corner_spec g s.1 s.2 hf (hl _) with ⟨h, _⟩ | ⟨_, h⟩
      · exact h
      · exact absurd hG h
    have hx : 0 < (g.corner s.1 s.2).1 := by rw [hc]; exact hG.1.1
    have hy : 0 < (g.corner s.1 s.2).2 := by rw [hc]; exact hG.2.1.1
    obtain ⟨mx, hmx⟩ : ∃ m, maxZ? (g.flat.map fun s => (g.corner s.1 s.2).1) = some m :=
      maxZ?_isSome (List.ne_nil_of_mem (List.mem_map_of_mem hs))
    obtain ⟨my, hmy⟩ : ∃ m, maxZ? (g.flat.map fun s => (g.corner s.1 s.2).2) = some m :=
      maxZ?_isSome (List.ne_nil_of_mem (List.mem_map_of_mem hs))
    have hmem : (g.corner s.1 s.2).1 ∈ g.flat.map fun s => (g.corner s.1 s.2).1 :=
      List.mem_map.2 ⟨s, hs, rfl⟩
    have hmxs : (g.corner s.1 s.2).1 ≤ mx := (maxZ?_spec hmx).2 _ hmem
    have hearly : ¬ max mx my < 0 := by
      rw [not_lt]; exact le_trans (by omega : 0 ≤ mx) (le_max_left _ _)
    have hpix : 0 ≤ g.pixel s := by
      unfold GridIn.pixel
      have : 0 ≤ (g.corner s.1 s.2).2 * g.dimension := mul_nonneg hy.le (Int.natCast_nonneg _)
      omega
    obtain ⟨r, hi, hr, h0, hall, hsp⟩ := hist_min0_int (g.flat.map g.pixel)
      ⟨g.pixel s, List.mem_map.2 ⟨s, hs, rfl⟩, hpix⟩
    refine ⟨r, hi, ?_, h0, hall, hsp, s, hs, hG⟩
    unfold gridBins
    simp only [hmx, hmy]
    rw [if_neg hearly, hr]
    rfl
  · left
    push Not at hex
    refine ⟨?_, hex⟩
    have hall : ∀ s ∈ g.flat, g.corner s.1 s.2 = (-1, -1) := by
      intro s hs
      rcases corner_spec g s.1 s.2 hf (hl _) with ⟨_, h⟩ | ⟨h, _⟩
      · exact absurd h (hex s hs)
      · exact h
    unfold gridBins
    simp only []
    cases hmx : maxZ? (g.flat.map fun s => (g.corner s.1 s.2).1) with
    | none => rfl
    | some mx =>
      cases hmy : maxZ? (g.flat.map fun s => (g.corner s.1 s.2).2) with
      | none => rfl
      | some my =>
        simp only []
        obtain ⟨s, hs, rfl⟩ := List.mem_map.1 (maxZ?_spec hmx).1
        obtain ⟨t, ht, rfl⟩ := List.mem_map.1 (maxZ?_spec hmy).1
        rw [if_pos]
        rw [hall s hs, hall t ht]; decide

theorem flat_length (g : GridIn) : g.flat.length = g.nf * g.nb := by
  unfold GridIn.flat GridIn.nf GridIn.nb
  induction g.fiUse with
  | nil => simp
  | cons a t ih =>
    simp only [List.flatMap_cons, List.length_append, List.length_map, List.length_cons, ih]
    ring

theorem flat_aux (B : List ℕ) (F : List ℕ) (i j f b : ℕ) (hi : F[i]? = some f)
    (hj : B[j]? = some b) :
    (F.flatMap fun f => B.map fun b => (f, b))[i * B.length + j]? = some (f, b) := by
  have hjl : j < B.length := (List.getElem?_eq_some_iff.1 hj).1
  induction F generalizing i with
  | nil => simp at hi
  | cons a t ih =>
    cases i with
    | zero =>
      simp only [List.getElem?_cons_zero, Option.some.injEq] at hi
      subst hi
      simp only [List.flatMap_cons, Nat.zero_mul, Nat.zero_add]
      rw [List.getElem?_append_left (by simpa using hjl), List.getElem?_map, hj]; rfl
    | succ i =>
      simp only [List.getElem?_cons_succ] at hi
      simp only [List.flatMap_cons]
      rw [List.getElem?_append_right (by simp only [List.length_map]; nlinarith)]
      have : (i + 1) * B.length + j - (List.map (fun b => (a, b)) B).length
          = i * B.length + j := by
        simp only [List.length_map]
        have : (i + 1) * B.length = i * B.length + B.length := by ring
        omega
      rw [this]; exact ih i hi

/-- The flat index of the sample in row `i` and column `j`. -/
theorem flat_get (g : GridIn) {i j f b : ℕ} (hi : g.fiUse[i]? = some f)
    (hj : g.biUse[j]? = some b) : g.flat[i * g.nb + j]? = some (f, b) :=
  flat_aux g.biUse g.fiUse i j f b hi hj

/-- Every flat index belongs to one row and one column. -/
theorem flat_get_inv (g : GridIn) {k : ℕ} {s : ℕ × ℕ} (h : g.flat[k]? = some s) :
    g.fiUse[k / g.nb]? = some s.1 ∧ g.biUse[k % g.nb]? = some s.2 := by
  have hk : k < g.nf * g.nb := by
    rw [← flat_length]; exact (List.getElem?_eq_some_iff.1 h).1
  have hnb : 0 < g.nb := by
    rcases Nat.eq_zero_or_pos g.nb with h0 | h0
    · rw [h0] at hk; omega
    · exact h0
  have h1 : k / g.nb < g.fiUse.length := (Nat.div_lt_iff_lt_mul hnb).2 hk
  have h2 : k % g.nb < g.biUse.length := Nat.mod_lt _ hnb
  have := flat_get g (List.getElem?_eq_getElem h1) (List.getElem?_eq_getElem h2)
  rw [Nat.div_add_mod' k g.nb, h] at this
  rw [Option.some.injEq] at this
  rw [this]
  exact ⟨List.getElem?_eq_getElem h1, List.getElem?_eq_getElem h2⟩

end PyFHD
