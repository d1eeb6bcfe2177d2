import Verif.Props.BeamImage

/-!
# The cube of beam images and its mask (C145 to C147)
-/

set_option linter.unusedSectionVars false

namespace PyFHD

namespace Spec

/-- A pixel of the image of `dim` by `dim` pixels at which the beam reaches `low`. -/
def Bright (dim : ℕ) (val : ℕ → ℚ) (low : ℚ) (k : ℕ) : Prop := k < dim * dim ∧ low ≤ val k

/-- The pixel is not on an edge, and bright pixels join it with the centre. -/
def InBeam (dim : ℕ) (val : ℕ → ℚ) (low : ℚ) (centre p : ℕ) : Prop :=
  Inside dim dim p ∧ Joined dim (Bright dim val low) centre p

/-- Place `j` is the first or the last place of the value `w`, or between them. -/
def Spans (bins : List ℕ) (w j : ℕ) : Prop := ∃ i k, i ≤ j ∧ j ≤ k ∧ bins[i]? = some w ∧ bins[k]? = some w

/-- The squared beam of a bin. -/
def sqBeam (G : ℕ → ℕ → ℕ → ℚ) (norm : ℕ → ℚ) (pol b : ℕ) : ℕ → ℚ := fun p => G pol b p ^ 2 / norm b

/-- Gaussian beams on a square image, the same for all baselines, and frequencies that have a bin with a norm. -/
structure CubeReady (m : BeamIn) (G : ℕ → ℕ → ℕ → ℚ) (norm : ℕ → ℚ) (freqs : List ℕ) : Prop where
  gauss : m.gauss = some G
  shape : m.elements = m.dimension
  groups : ∀ pol, pol < m.nPol → OneGroup (m.ids pol)
  some : freqs ≠ []
  below : ∀ f ∈ freqs, f ≤ m.nFreq
  bins : ∀ f ∈ freqs, ∃ b, m.fbin[f]? = Option.some b ∧ m.fnorm[b]? = Option.some (norm b) ∧ norm b ≠ 0

end Spec

open Spec

/-! ## The region around the centre -/

theorem inside_lt {R C p : ℕ} (h : Inside R C p) : p < R * C := by
  obtain ⟨i, j, rfl, h1, h2, h3, h4⟩ := h
  calc i * C + j < i * C + C := by omega
    _ = (i + 1) * C := by ring
    _ ≤ R * C := Nat.mul_le_mul_right _ (by omega)

theorem pixels_threshold (dim : ℕ) (val : ℕ → ℚ) (low hi : ℚ)
    (hhi : ∀ p, p < dim * dim → val p ≤ hi) (p : ℕ) :
    InThreshold ((List.range (dim * dim)).map fun p => some (val p)) low hi p ↔ Bright dim val low p := by
  unfold InThreshold Bright
  by_cases hp : p < dim * dim
  · rw [List.getElem?_map, List.getElem?_range hp]
    constructor
    · rintro ⟨x, hx, h1, h2⟩
      simp only [Option.map_some, Option.some.injEq] at hx
      exact ⟨hp, by rw [hx]; exact h1⟩
    · rintro ⟨_, h⟩
      exact ⟨val p, rfl, h, hhi p hp⟩
  · rw [List.getElem?_eq_none (by simpa using hp)]
    constructor
    · rintro ⟨x, hx, _⟩; cases hx
    · rintro ⟨h, _⟩; exact absurd h hp

theorem cubeMask_spec (label : List Bool → List ℕ) (m : BeamIn)
    (hlabel : ∀ mask, IsLabelling m.dimension mask (label mask)) (low : ℚ) (val : ℕ → ℚ) (seed : ℕ)
    (hseed : pyInt (m.obsx + m.obsy * m.dimension) = seed) :
    (Inside m.dimension m.dimension seed ∧ low ≤ val seed →
      ∃ l, cubeMask label m low (fun p => some (val p)) = .ok l ∧
        ∀ p, p ∈ l ↔ InBeam m.dimension val low seed p) ∧
    (¬(Inside m.dimension m.dimension seed ∧ low ≤ val seed) →
      ∃ e, cubeMask label m low (fun p => some (val p)) = .error e) := by
  set pixels := (List.range (m.dimension * m.dimension)).map fun p => some (val p) with hpx
  have hlen : pixels.length = m.dimension * m.dimension := by simp [hpx]
  have hs : (pyInt (m.obsx + m.obsy * m.dimension)).toNat = seed := by rw [hseed]; simp
  unfold cubeMask
  simp only []
  rw [← hpx, hs]
  by_cases h0 : m.dimension * m.dimension = 0
  · have hnil : pixels = [] := by rw [← List.length_eq_zero_iff, hlen, h0]
    refine ⟨?_, ?_⟩
    · rintro ⟨h, _⟩
      have := inside_lt h
      omega
    · intro _
      rw [hnil]
      exact ⟨_, rfl⟩
  obtain ⟨hi, h1, h2, h3⟩ := nanMax_spec pixels (by rw [← List.length_pos_iff, hlen]; omega) (by
    intro v hv
    rw [hpx, List.mem_map] at hv
    obtain ⟨p, _, rfl⟩ := hv
    simp)
  have hhi : ∀ p, p < m.dimension * m.dimension → val p ≤ hi := fun p hp =>
    h3 _ (by rw [hpx, List.mem_map]; exact ⟨p, List.mem_range.mpr hp, rfl⟩)
  have hthr := pixels_threshold m.dimension val low hi hhi
  have hthr' : InThreshold pixels low hi = Bright m.dimension val low := funext fun p => propext (hthr p)
  rw [h1]
  simp only []
  by_cases hsl : seed < pixels.length
  · obtain ⟨r, hr, hnone, hsome⟩ := C59_region label m.dimension m.dimension hlabel pixels [seed] (by simp)
      (by simpa using hsl) low hi
    rw [hr]
    rw [hthr'] at hnone hsome
    have hbr : Bright m.dimension val low seed ↔ low ≤ val seed :=
      ⟨fun h => h.2, fun h => ⟨by rwa [hlen] at hsl, h⟩⟩
    refine ⟨?_, ?_⟩
    · rintro ⟨ha, hb⟩
      cases r with
      | none => exact absurd ⟨ha, hbr.mpr hb⟩ (hnone.mp rfl seed (by simp))
      | some l =>
        refine ⟨l, rfl, fun p => ?_⟩
        rw [(hsome l rfl).2 p]
        unfold InBeam
        constructor
        · rintro ⟨hp, s, hs', _, _, hj⟩
          rw [List.mem_singleton] at hs'
          subst hs'
          exact ⟨hp, hj⟩
        · rintro ⟨hp, hj⟩
          exact ⟨hp, seed, by simp, ha, hbr.mpr hb, hj⟩
    · intro hno
      have : r = none := hnone.mpr (by
        intro s hs'
        rw [List.mem_singleton] at hs'
        subst hs'
        rintro ⟨ha, hb⟩
        exact hno ⟨ha, hbr.mp hb⟩)
      subst this
      exact ⟨_, rfl⟩
  · refine ⟨?_, ?_⟩
    · rintro ⟨h, _⟩
      have := inside_lt h
      omega
    · intro _
      have : takeFlat pixels [seed] = .error .indexError := by
        unfold takeFlat
        rw [List.mapM_cons, List.getElem?_eq_none (by omega)]
        rfl
      unfold regionGrow
      simp only [bind, Except.bind, this]
      exact ⟨_, rfl⟩

/-! ## One bin -/

/-- First and last place of a value. -/
theorem positions_ends (l : List ℕ) (v : ℕ) (hv : v ∈ l) :
    ∃ a c, (positions (fun d => d = v) l)[0]? = some a ∧
      (positions (fun d => d = v) l)[l.count v - 1]? = some c ∧ l[a]? = some v ∧ l[c]? = some v ∧
      ∀ j, l[j]? = some v → a ≤ j ∧ j ≤ c := by
  set P := positions (fun d => d = v) l with hP
  have hmem : ∀ j, j ∈ P ↔ l[j]? = some v := by
    intro j
    rw [hP]
    unfold positions
    rw [List.mem_filter, List.mem_range]
    constructor
    · rintro ⟨h1, h2⟩
      rw [List.getElem?_eq_getElem h1] at h2 ⊢
      simpa using h2
    · intro h
      obtain ⟨h1, h2⟩ := List.getElem?_eq_some_iff.mp h
      exact ⟨h1, by rw [h]; simp⟩
  have hlen : P.length = l.count v := by
    rw [hP, positions_length, List.count_eq_countP]
    apply List.countP_congr
    intro d _
    simp
  have hpos : 0 < l.count v := List.count_pos_iff.mpr hv
  have hsort : P.Pairwise (· < ·) := (List.pairwise_lt_range).filter _
  have h0 : 0 < P.length := by omega
  have h1 : l.count v - 1 < P.length := by omega
  refine ⟨P[0], P[l.count v - 1], List.getElem?_eq_getElem h0, List.getElem?_eq_getElem h1,
    (hmem _).mp (List.getElem_mem _), (hmem _).mp (List.getElem_mem _), ?_⟩
  intro j hj
  obtain ⟨k, hk, rfl⟩ := List.getElem_of_mem ((hmem j).mpr hj)
  have hm : ∀ (a b : ℕ) (ha : a < P.length) (hb : b < P.length), a ≤ b → P[a] ≤ P[b] := by
    intro a b ha hb hab
    rcases Nat.lt_or_eq_of_le hab with h | rfl
    · exact (List.pairwise_iff_getElem.mp hsort a b ha hb h).le
    · exact le_refl _
  exact ⟨hm 0 k h0 hk (by omega), hm k _ hk h1 (by omega)⟩

/-- The image of a bin, the mask of a bin. -/
structure BinGood (label : List Bool → List ℕ) (m : BeamIn) (o : CubeOpt) (freqs bins : List ℕ) (h : HistResult)
    (G : ℕ → ℕ → ℕ → ℚ) (norm : ℕ → ℚ) (seed pol : ℕ) (low : ℚ) (b : ℕ) (a c : ℕ) : Prop where
  first : bins[a]? = some b
  last : bins[c]? = some b
  ends : ∀ j, bins[j]? = some b → a ≤ j ∧ j ≤ c
  good : Inside m.dimension m.dimension seed ∧ low ≤ sqBeam G norm pol b seed →
    ∃ grown : List ℕ, (∀ p, p ∈ grown ↔ InBeam m.dimension (sqBeam G norm pol b) low seed p) ∧
      ∀ s, cubeStep label m o freqs h pol s b = .ok
        ⟨fillSlice s.row a (c + 1) fun p => some (sqBeam G norm pol b p), fun p => s.mask p * if p ∈ grown then 1 else 0⟩
  bad : ¬(Inside m.dimension m.dimension seed ∧ low ≤ sqBeam G norm pol b seed) →
    ∀ s, ∃ e, cubeStep label m o freqs h pol s b = .error e

theorem cubeStep_spec (label : List Bool → List ℕ) (m : BeamIn) (o : CubeOpt)
    (hlabel : ∀ mask, IsLabelling m.dimension mask (label mask)) (G : ℕ → ℕ → ℕ → ℚ) (norm : ℕ → ℚ) (freqs bins : List ℕ)
    (ready : CubeReady m G norm freqs) (hbins : bins = freqs.map fun f => m.fbin.getD f 0) (hsq : o.square = true)
    (h : HistResult) (hc : ∀ v, h.hist.getD v 0 = bins.count v)
    (hri : ∀ v ∈ bins, riSlice h.ri v = some (positions (fun d => d = v) bins)) (seed : ℕ)
    (hseed : pyInt (m.obsx + m.obsy * m.dimension) = seed) (pol : ℕ) (hpol : pol < m.nPol) (b : ℕ) (hb : b ∈ bins) :
    ∃ a c, BinGood label m o freqs bins h G norm seed pol (o.threshold.getD (5 / 100) ^ 2) b a c := by
  obtain ⟨a, c, h1, h2, h3, h4, h5⟩ := positions_ends bins b hb
  have himg : beamImage m pol (some (freqs.getD a 0)) o.square = .ok fun (p : ℕ) => some (sqBeam G norm pol b p) := by
    rw [hbins, List.getElem?_map] at h3
    cases hf : freqs[a]? with
    | none => rw [hf] at h3; cases h3
    | some f =>
      rw [hf] at h3
      simp only [Option.map_some, Option.some.injEq] at h3
      obtain ⟨b', e1, e2, e3⟩ := ready.bins f (List.mem_of_getElem? hf)
      rw [List.getD_eq_getElem?_getD, e1, Option.getD_some] at h3
      subst h3
      rw [hsq, List.getD_eq_getElem?_getD, hf]
      exact C142_one_frequency_partial m pol G ready.gauss (ready.groups pol hpol) f b' (norm b') e1 e2 e3
  have hstep : ∀ s, cubeStep label m o freqs h pol s b =
      (cubeMask label m (o.threshold.getD (5 / 100) ^ 2) fun p => some (sqBeam G norm pol b p)).bind fun grown =>
        .ok ⟨fillSlice s.row a (c + 1) fun p => some (sqBeam G norm pol b p), fun p => s.mask p * if p ∈ grown then 1 else 0⟩ := by
    intro s
    unfold cubeStep
    rw [hri b hb]
    simp only [hc]
    rw [h1, h2]
    rw [hsq] at himg
    simp only [bind, Except.bind, hsq, himg, ready.shape, ne_eq, not_true_eq_false, if_false, if_true, pure, Except.pure]
  obtain ⟨g1, g2⟩ := cubeMask_spec label m hlabel (o.threshold.getD (5 / 100) ^ 2) (sqBeam G norm pol b) seed hseed
  refine ⟨a, c, h3, h4, h5, ?_, ?_⟩
  · intro hgood
    obtain ⟨l, hl, hmem⟩ := g1 hgood
    refine ⟨l, hmem, fun s => ?_⟩
    rw [hstep s, hl]
    rfl
  · intro hbad s
    obtain ⟨e, he⟩ := g2 hbad
    exact ⟨e, by rw [hstep s, he]; rfl⟩

/-! ## Filling a row -/

theorem fillSlice_length {α : Type _} (l : List α) (a b : ℕ) (v : α) : (fillSlice l a b v).length = l.length := by
  simp [fillSlice]

theorem fillSlice_get {α : Type _} (l : List α) (a b : ℕ) (v : α) (j : ℕ) (hj : j < l.length) :
    (fillSlice l a b v)[j]? = if a ≤ j ∧ j < b then some v else l[j]? := by
  unfold fillSlice
  rw [List.getElem?_mapIdx, List.getElem?_eq_getElem hj]
  simp only [Option.map_some]
  split_ifs <;> rfl

theorem fill_fold {α : Type _} (a c : ℕ → ℕ) (img : ℕ → α) (j : ℕ) : ∀ (L : List ℕ) (r : List α), L.Pairwise (· < ·) → j < r.length →
    (L.foldl (fun r b => fillSlice r (a b) (c b + 1) (img b)) r).length = r.length ∧
    ((∀ b ∈ L, ¬(a b ≤ j ∧ j ≤ c b)) → (L.foldl (fun r b => fillSlice r (a b) (c b + 1) (img b)) r)[j]? = r[j]?) ∧
    ∀ w ∈ L, a w ≤ j ∧ j ≤ c w → (∀ b ∈ L, a b ≤ j ∧ j ≤ c b → b ≤ w) →
      (L.foldl (fun r b => fillSlice r (a b) (c b + 1) (img b)) r)[j]? = some (img w) := by
  intro L
  induction L with
  | nil => intro r _ _; exact ⟨rfl, fun _ => rfl, fun w hw => by cases hw⟩
  | cons b L ih =>
    intro r hs hj
    obtain ⟨hb, hs'⟩ := List.pairwise_cons.mp hs
    obtain ⟨i1, i2, i3⟩ := ih (fillSlice r (a b) (c b + 1) (img b)) hs' (by rw [fillSlice_length]; exact hj)
    rw [List.foldl_cons]
    refine ⟨by rw [i1, fillSlice_length], ?_, ?_⟩
    · intro hno
      rw [i2 fun b' hb' => hno b' (by simp [hb']), fillSlice_get _ _ _ _ _ hj, if_neg]
      rintro ⟨h1, h2⟩
      exact hno b (by simp) ⟨h1, by omega⟩
    · intro w hw hcov hmax
      rcases List.mem_cons.mp hw with rfl | hw
      · rw [i2, fillSlice_get _ _ _ _ _ hj, if_pos ⟨hcov.1, by omega⟩]
        intro b' hb' hcov'
        have h1 := hmax b' (by simp [hb']) hcov'
        have h2 := hb b' hb'
        omega
      · exact i3 w hw hcov fun b' hb' => hmax b' (by simp [hb'])

/-! ## One polarisation and all -/

theorem binFold (label : List Bool → List ℕ) (m : BeamIn) (o : CubeOpt) (freqs bins : List ℕ) (h : HistResult)
    (G : ℕ → ℕ → ℕ → ℚ) (norm : ℕ → ℚ) (seed pol : ℕ) (low : ℚ) (a c : ℕ → ℕ)
    (hgood : ∀ b ∈ bins, BinGood label m o freqs bins h G norm seed pol low b (a b) (c b))
    (hcen : ∀ b ∈ bins, Inside m.dimension m.dimension seed ∧ low ≤ sqBeam G norm pol b seed) :
    ∀ (L : List ℕ) (s : CubeState), (∀ b ∈ L, b ∈ bins) → ∃ mask, L.foldlM (cubeStep label m o freqs h pol) s = .ok
        ⟨L.foldl (fun r b => fillSlice r (a b) (c b + 1) fun p => some (sqBeam G norm pol b p)) s.row, mask⟩ ∧
      ∀ p, ((∀ b ∈ L, InBeam m.dimension (sqBeam G norm pol b) low seed p) → mask p = s.mask p) ∧
        (¬(∀ b ∈ L, InBeam m.dimension (sqBeam G norm pol b) low seed p) → mask p = 0) := by
  intro L
  induction L with
  | nil => intro s _; exact ⟨s.mask, rfl, fun p => ⟨fun _ => rfl, fun h => absurd (by simp) h⟩⟩
  | cons b L ih =>
    intro s hL
    obtain ⟨grown, hg, hs⟩ := (hgood b (hL b (by simp))).good (hcen b (hL b (by simp)))
    obtain ⟨mask, h1, h2⟩ := ih ⟨fillSlice s.row (a b) (c b + 1) fun p => some (sqBeam G norm pol b p),
      fun p => s.mask p * if p ∈ grown then 1 else 0⟩ fun b' hb' => hL b' (by simp [hb'])
    refine ⟨mask, ?_, ?_⟩
    · rw [List.foldlM_cons, hs s, List.foldl_cons]
      exact h1
    · intro p
      obtain ⟨h3, h4⟩ := h2 p
      constructor
      · intro hall
        rw [h3 fun b' hb' => hall b' (by simp [hb'])]
        simp only []
        rw [if_pos ((hg p).mpr (hall b (by simp))), mul_one]
      · intro hnot
        by_cases hrest : ∀ b' ∈ L, InBeam m.dimension (sqBeam G norm pol b') low seed p
        · rw [h3 hrest]
          simp only []
          rw [if_neg, mul_zero]
          intro hp
          apply hnot
          intro b' hb'
          rcases List.mem_cons.mp hb' with rfl | hb'
          · exact (hg p).mp hp
          · exact hrest b' hb'
        · exact h4 hrest

theorem npMedian_le (l : List ℚ) (B : ℚ) (hB : 0 ≤ B) (h : ∀ x ∈ l, x ≤ B) : npMedian l ≤ B := by
  unfold npMedian
  simp only []
  have : ∀ i, (l.insertionSort (· ≤ ·)).getD i 0 ≤ B := by
    intro i
    by_cases hi : i < (l.insertionSort (· ≤ ·)).length
    · rw [getD_of_lt hi]
      exact h _ ((List.mem_insertionSort _).mp (List.getElem_mem _))
    · rw [List.getD_eq_getElem?_getD, List.getElem?_eq_none (by omega)]
      exact hB
  have h1 := this ((l.length - 1) / 2)
  have h2 := this (l.length / 2)
  linarith

/-- What is common to the theorems: the cube as a loop over the polarisations. -/
theorem cube_eq (label : List Bool → List ℕ) (m : BeamIn) (o : CubeOpt) (G : ℕ → ℕ → ℕ → ℚ) (norm : ℕ → ℚ) (freqs : List ℕ)
    (hf : cubeFreqs m.nFreq o = .ok freqs) (ready : CubeReady m G norm freqs) :
    ∃ h, beamImageCube label m o = (List.range m.nPol).foldlM (cubePol label m o freqs h) ([], fun _ => 1) ∧
      (∀ v, h.hist.getD v 0 = (freqs.map fun f => m.fbin.getD f 0).count v) ∧
      ∀ v ∈ freqs.map (fun f => m.fbin.getD f 0),
        riSlice h.ri v = some (positions (fun d => d = v) (freqs.map fun f => m.fbin.getD f 0)) := by
  have htake : takeFlat m.fbin freqs = .ok (freqs.map fun f => m.fbin.getD f 0) := by
    apply takeFlat_ok
    intro f hf'
    obtain ⟨b, h, _⟩ := ready.bins f hf'
    exact (List.getElem?_eq_some_iff.mp h).1
  obtain ⟨h, h1, h2, h3⟩ := nat_hist0 (freqs.map fun f => m.fbin.getD f 0) (by simpa using ready.some)
  refine ⟨h, ?_, h2, h3⟩
  have hmed : ¬npMedian (freqs.map fun (f : ℕ) => (f : ℚ)) > m.nFreq := by
    rw [gt_iff_lt, not_lt]
    apply npMedian_le
    · positivity
    · intro x hx
      obtain ⟨f, hf', rfl⟩ := List.mem_map.mp hx
      exact_mod_cast ready.below f hf'
  unfold beamImageCube
  simp only [bind, Except.bind, hf, if_neg hmed, htake, h1]

/-- The whole cube. -/
theorem cube_spec (label : List Bool → List ℕ) (m : BeamIn) (o : CubeOpt)
    (hlabel : ∀ mask, IsLabelling m.dimension mask (label mask)) (G : ℕ → ℕ → ℕ → ℚ) (norm : ℕ → ℚ) (freqs : List ℕ)
    (hf : cubeFreqs m.nFreq o = .ok freqs) (ready : CubeReady m G norm freqs) (hsq : o.square = true) (seed : ℕ)
    (hseed : pyInt (m.obsx + m.obsy * m.dimension) = seed)
    (hcen : ∀ pol, pol < m.nPol → ∀ f ∈ freqs, Inside m.dimension m.dimension seed ∧
      o.threshold.getD (5 / 100) ^ 2 ≤ sqBeam G norm pol (m.fbin.getD f 0) seed) :
    ∃ rows mask, beamImageCube label m o = .ok (rows, mask) ∧ rows.length = m.nPol ∧
      (∀ pol, pol < m.nPol → ∃ row, rows[pol]? = some row ∧ row.length = freqs.length ∧
        ∀ j w, j < freqs.length → Spans (freqs.map fun f => m.fbin.getD f 0) w j →
          (∀ b, Spans (freqs.map fun f => m.fbin.getD f 0) b j → b ≤ w) →
          row[j]? = some fun p => some (sqBeam G norm pol w p)) ∧
      ∀ p, ((∀ pol, pol < m.nPol → ∀ f ∈ freqs, InBeam m.dimension (sqBeam G norm pol (m.fbin.getD f 0))
          (o.threshold.getD (5 / 100) ^ 2) seed p) → mask p = 1) ∧
        (¬(∀ pol, pol < m.nPol → ∀ f ∈ freqs, InBeam m.dimension (sqBeam G norm pol (m.fbin.getD f 0))
          (o.threshold.getD (5 / 100) ^ 2) seed p) → mask p = 0) := by
  obtain ⟨h, hcube, hc, hri⟩ := cube_eq label m o G norm freqs hf ready
  set bins := freqs.map fun f => m.fbin.getD f 0 with hbins
  set low := o.threshold.getD (5 / 100) ^ 2 with hlow
  have hmemb : ∀ b, b ∈ nonzeroIdx h.hist ↔ b ∈ bins := mem_nonzeroIdx0 bins hc
  have hsort := nonzeroIdx_sorted h.hist
  -- one polarisation
  have hone : ∀ pol, pol < m.nPol → ∃ row : List (ℕ → Option ℚ), row.length = freqs.length ∧
      (∀ j w, j < freqs.length → Spans bins w j → (∀ b, Spans bins b j → b ≤ w) →
          row[j]? = some fun p => some (sqBeam G norm pol w p)) ∧
      ∀ s : List (List (ℕ → Option ℚ)) × (ℕ → ℚ), ∃ mask, cubePol label m o freqs h s pol = .ok (s.1 ++ [row], mask) ∧
        ∀ p, ((∀ f ∈ freqs, InBeam m.dimension (sqBeam G norm pol (m.fbin.getD f 0)) low seed p) → mask p = s.2 p) ∧
          (¬(∀ f ∈ freqs, InBeam m.dimension (sqBeam G norm pol (m.fbin.getD f 0)) low seed p) → mask p = 0) := by
    intro pol hpol
    have hex : ∀ b, ∃ a c, b ∈ bins → BinGood label m o freqs bins h G norm seed pol low b a c := by
      intro b
      by_cases hb : b ∈ bins
      · obtain ⟨a, c, hh⟩ := cubeStep_spec label m o hlabel G norm freqs bins ready hbins hsq h hc hri seed hseed pol hpol b hb
        exact ⟨a, c, fun _ => hh⟩
      · exact ⟨0, 0, fun h => absurd h hb⟩
    choose a c hac using hex
    have hcenb : ∀ b ∈ bins, Inside m.dimension m.dimension seed ∧ low ≤ sqBeam G norm pol b seed := by
      intro b hb
      obtain ⟨f, hf', rfl⟩ := List.mem_map.mp hb
      exact hcen pol hpol f hf'
    have hspan : ∀ b ∈ bins, ∀ j, (a b ≤ j ∧ j ≤ c b) ↔ Spans bins b j := by
      intro b hb j
      have hg := hac b hb
      constructor
      · rintro ⟨h1, h2⟩
        exact ⟨a b, c b, h1, h2, hg.first, hg.last⟩
      · rintro ⟨i, k, h1, h2, h3, h4⟩
        exact ⟨le_trans (hg.ends i h3).1 h1, le_trans h2 (hg.ends k h4).2⟩
    refine ⟨(nonzeroIdx h.hist).foldl (fun r b => fillSlice r (a b) (c b + 1) fun p => some (sqBeam G norm pol b p))
        (List.replicate freqs.length fun _ => some 0), ?_, ?_, ?_⟩
    · have h0 : 0 < freqs.length := List.length_pos_iff.mpr ready.some
      rw [(fill_fold a c (fun b p => some (sqBeam G norm pol b p)) 0 _ _ hsort (by simpa using h0)).1, List.length_replicate]
    · intro j w hj hw hmax
      obtain ⟨_, _, h3⟩ := fill_fold a c (fun b p => some (sqBeam G norm pol b p)) j _
        (List.replicate freqs.length fun _ => some 0) hsort (by simpa using hj)
      have hwb : w ∈ bins := by
        obtain ⟨i, k, _, _, hi, _⟩ := hw
        exact List.mem_of_getElem? hi
      exact h3 w ((hmemb w).mpr hwb) ((hspan w hwb j).mpr hw) fun b hb hcov =>
        hmax b ((hspan b ((hmemb b).mp hb) j).mp hcov)
    · intro s
      obtain ⟨mask, h1, h2⟩ := binFold label m o freqs bins h G norm seed pol low a c hac hcenb (nonzeroIdx h.hist)
        ⟨List.replicate freqs.length (fun _ => some 0), s.2⟩ fun b hb => (hmemb b).mp hb
      refine ⟨mask, ?_, ?_⟩
      · unfold cubePol
        simp only [bind, Except.bind, h1, pure, Except.pure]
      · intro p
        have hiff : (∀ b ∈ nonzeroIdx h.hist, InBeam m.dimension (sqBeam G norm pol b) low seed p) ↔
            ∀ f ∈ freqs, InBeam m.dimension (sqBeam G norm pol (m.fbin.getD f 0)) low seed p := by
          constructor
          · intro hh f hf'
            exact hh _ ((hmemb _).mpr (List.mem_map.mpr ⟨f, hf', rfl⟩))
          · intro hh b hb
            obtain ⟨f, hf', rfl⟩ := List.mem_map.mp ((hmemb b).mp hb)
            exact hh f hf'
        rw [← hiff]
        exact h2 p
  -- all polarisations
  have hall : ∀ n, n ≤ m.nPol → ∃ (rows : List (List (ℕ → Option ℚ))) (mask : ℕ → ℚ),
      (List.range n).foldlM (cubePol label m o freqs h) ([], fun _ => 1) = .ok (rows, mask) ∧ rows.length = n ∧
      (∀ pol, pol < n → ∃ row, rows[pol]? = some row ∧ row.length = freqs.length ∧
        ∀ j w, j < freqs.length → Spans bins w j → (∀ b, Spans bins b j → b ≤ w) →
          row[j]? = some fun p => some (sqBeam G norm pol w p)) ∧
      ∀ p, ((∀ pol, pol < n → ∀ f ∈ freqs, InBeam m.dimension (sqBeam G norm pol (m.fbin.getD f 0)) low seed p) → mask p = 1) ∧
        (¬(∀ pol, pol < n → ∀ f ∈ freqs, InBeam m.dimension (sqBeam G norm pol (m.fbin.getD f 0)) low seed p) → mask p = 0) := by
    intro n
    induction n with
    | zero =>
      intro _
      exact ⟨[], fun _ => 1, rfl, rfl, fun pol hp => absurd hp (by omega), fun p => ⟨fun _ => rfl, fun h => absurd
        (fun pol hp => absurd hp (by omega)) h⟩⟩
    | succ n ih =>
      intro hn
      obtain ⟨rows, mask, e1, e2, e3, e4⟩ := ih (by omega)
      obtain ⟨row, r1, r2, r3⟩ := hone n (by omega)
      obtain ⟨mask', q1, q2⟩ := r3 (rows, mask)
      refine ⟨rows ++ [row], mask', ?_, by simp [e2], ?_, ?_⟩
      · rw [List.range_succ, List.foldlM_append, e1]
        simp only [bind, Except.bind, List.foldlM_cons, List.foldlM_nil, q1, pure, Except.pure]
      · intro pol hpol
        rcases Nat.lt_or_eq_of_le (Nat.le_of_lt_succ hpol) with hlt | rfl
        · obtain ⟨row', t1, t2⟩ := e3 pol hlt
          exact ⟨row', by rw [List.getElem?_append_left (by omega)]; exact t1, t2⟩
        · exact ⟨row, by rw [List.getElem?_append_right (by omega), e2]; simp, r1, r2⟩
      · intro p
        obtain ⟨u1, u2⟩ := q2 p
        obtain ⟨v1, v2⟩ := e4 p
        constructor
        · intro hh
          rw [u1 (hh n (by omega))]
          exact v1 fun pol hp => hh pol (by omega)
        · intro hh
          by_cases hlast : ∀ f ∈ freqs, InBeam m.dimension (sqBeam G norm n (m.fbin.getD f 0)) low seed p
          · rw [u1 hlast]
            apply v2
            intro hh'
            apply hh
            intro pol hp
            rcases Nat.lt_or_eq_of_le (Nat.le_of_lt_succ hp) with hlt | rfl
            · exact hh' pol hlt
            · exact hlast
          · exact u2 hlast
  obtain ⟨rows, mask, e1, e2, e3, e4⟩ := hall m.nPol le_rfl
  exact ⟨rows, mask, by rw [hcube, e1], e2, e3, e4⟩

/-! ## C145: the beam of every frequency -/

/-- Among the values that span a place there is a largest. -/
theorem exists_top_span (bins : List ℕ) (w j : ℕ) (h : Spans bins w j) :
    ∃ t, Spans bins t j ∧ w ≤ t ∧ ∀ b, Spans bins b j → b ≤ t := by
  classical
  have hle : ∀ b, Spans bins b j → b ≤ bins.sum := by
    rintro b ⟨i, k, _, _, hi, _⟩
    exact List.le_sum_of_mem (List.mem_of_getElem? hi)
  exact ⟨Nat.findGreatest (fun t => Spans bins t j) bins.sum, Nat.findGreatest_spec (P := fun t => Spans bins t j) (hle w h) h,
    Nat.le_findGreatest (hle w h) h, fun b hb => Nat.le_findGreatest (hle b hb) hb⟩

theorem map_bin {m : BeamIn} {freqs : List ℕ} {i v : ℕ} (hall : ∀ f ∈ freqs, ∃ b, m.fbin[f]? = some b) :
    (freqs.map fun f => m.fbin.getD f 0)[i]? = some v ↔ ∃ f, freqs[i]? = some f ∧ m.fbin[f]? = some v := by
  rw [List.getElem?_map]
  cases hf : freqs[i]? with
  | none => simp
  | some f =>
    obtain ⟨b, hb⟩ := hall f (List.mem_of_getElem? hf)
    simp [List.getD_eq_getElem?_getD, hb]

/-- **C145**, as long as no bin with a larger number has frequencies both before and after: every frequency gets the squared beam of
its own bin. -/
theorem C145_frequency_partial (label : List Bool → List ℕ) (m : BeamIn) (o : CubeOpt)
    (hlabel : ∀ mask, IsLabelling m.dimension mask (label mask)) (G : ℕ → ℕ → ℕ → ℚ) (norm : ℕ → ℚ) (freqs : List ℕ)
    (hf : cubeFreqs m.nFreq o = .ok freqs) (ready : CubeReady m G norm freqs) (hsq : o.square = true) (seed : ℕ)
    (hseed : pyInt (m.obsx + m.obsy * m.dimension) = seed)
    (hcen : ∀ pol, pol < m.nPol → ∀ f ∈ freqs, Inside m.dimension m.dimension seed ∧
      o.threshold.getD (5 / 100) ^ 2 ≤ sqBeam G norm pol (m.fbin.getD f 0) seed) :
    ∃ rows mask, beamImageCube label m o = .ok (rows, mask) ∧ rows.length = m.nPol ∧
      ∀ pol, pol < m.nPol → ∃ row, rows[pol]? = some row ∧ row.length = freqs.length ∧
        ∀ (j f b : ℕ), freqs[j]? = some f → m.fbin[f]? = some b →
          (∀ (i k : ℕ) f' f'' w, i < j → j < k → freqs[i]? = some f' → freqs[k]? = some f'' → m.fbin[f']? = some w →
            m.fbin[f'']? = some w → w ≤ b) →
          row[j]? = some fun p => some (G pol b p ^ 2 / norm b) := by
  obtain ⟨rows, mask, h1, h2, h3, _⟩ := cube_spec label m o hlabel G norm freqs hf ready hsq seed hseed hcen
  have hall : ∀ f ∈ freqs, ∃ b, m.fbin[f]? = some b := fun f hf => (ready.bins f hf).imp fun b h => h.1
  refine ⟨rows, mask, h1, h2, fun pol hpol => ?_⟩
  obtain ⟨row, r1, r2, r3⟩ := h3 pol hpol
  refine ⟨row, r1, r2, ?_⟩
  intro j f b hj hb hord
  have hbj := (map_bin (m := m) hall).mpr ⟨f, hj, hb⟩
  refine r3 j b (List.getElem?_eq_some_iff.mp hj).1 ⟨j, j, le_rfl, le_rfl, hbj, hbj⟩ ?_
  rintro w ⟨i, k, hi, hk, h4, h5⟩
  rcases Nat.lt_or_eq_of_le hi with hi | rfl
  · rcases Nat.lt_or_eq_of_le hk with hk | rfl
    · obtain ⟨f', e1, e2⟩ := (map_bin (m := m) hall).mp h4
      obtain ⟨f'', e3, e4⟩ := (map_bin (m := m) hall).mp h5
      exact hord i k f' f'' w hi hk e1 e3 e2 e4
    · rw [hbj] at h5; exact (Option.some.inj h5).ge
  · rw [hbj] at h4; exact (Option.some.inj h4).ge

/-- **C145 is violated** for frequencies in another order: between two frequencies of a bin with a larger number, a frequency gets the
beam of a bin that is not its own. -/
theorem C145_overwritten (label : List Bool → List ℕ) (m : BeamIn) (o : CubeOpt)
    (hlabel : ∀ mask, IsLabelling m.dimension mask (label mask)) (G : ℕ → ℕ → ℕ → ℚ) (norm : ℕ → ℚ) (freqs : List ℕ)
    (hf : cubeFreqs m.nFreq o = .ok freqs) (ready : CubeReady m G norm freqs) (hsq : o.square = true) (seed : ℕ)
    (hseed : pyInt (m.obsx + m.obsy * m.dimension) = seed)
    (hcen : ∀ pol, pol < m.nPol → ∀ f ∈ freqs, Inside m.dimension m.dimension seed ∧
      o.threshold.getD (5 / 100) ^ 2 ≤ sqBeam G norm pol (m.fbin.getD f 0) seed)
    (i j k f f' f'' b w : ℕ) (hij : i < j) (hjk : j < k) (hfi : freqs[i]? = some f') (hfj : freqs[j]? = some f)
    (hfk : freqs[k]? = some f'') (hbi : m.fbin[f']? = some w) (_hbj : m.fbin[f]? = some b) (hbk : m.fbin[f'']? = some w)
    (hwb : b < w) :
    ∃ rows mask, beamImageCube label m o = .ok (rows, mask) ∧ ∀ pol, pol < m.nPol → ∃ row t, rows[pol]? = some row ∧
      t ≠ b ∧ row[j]? = some fun p => some (G pol t p ^ 2 / norm t) := by
  obtain ⟨rows, mask, h1, h2, h3, _⟩ := cube_spec label m o hlabel G norm freqs hf ready hsq seed hseed hcen
  have hall : ∀ f ∈ freqs, ∃ b, m.fbin[f]? = some b := fun f hf => (ready.bins f hf).imp fun b h => h.1
  obtain ⟨t, t1, t2, t3⟩ := exists_top_span (freqs.map fun f => m.fbin.getD f 0) w j
    ⟨i, k, hij.le, hjk.le, (map_bin hall).mpr ⟨f', hfi, hbi⟩, (map_bin hall).mpr ⟨f'', hfk, hbk⟩⟩
  refine ⟨rows, mask, h1, fun pol hpol => ?_⟩
  obtain ⟨row, r1, r2, r3⟩ := h3 pol hpol
  exact ⟨row, t, r1, by omega, r3 j t (List.getElem?_eq_some_iff.mp hfj).1 t1 t3⟩

/-- The frequencies of the option `n_freq_bin` ascend. -/
theorem cubeFreqs_bins {nFreq n : ℕ} {o : CubeOpt} (hn : o.nFreqBin = some n) (h0 : 0 < n) :
    cubeFreqs nFreq o = .ok ((List.range n).map fun i => i * nFreq / n) := by
  unfold cubeFreqs
  obtain ⟨k, rfl⟩ : ∃ k, n = k + 1 := ⟨n - 1, by omega⟩
  rw [hn]

theorem spread_get {nFreq n i f : ℕ} (h : ((List.range n).map fun i => i * nFreq / n)[i]? = some f) :
    i < n ∧ f = i * nFreq / n := by
  rw [List.getElem?_map] at h
  by_cases hi : i < n
  · rw [List.getElem?_range hi] at h
    exact ⟨hi, (Option.some.inj h).symm⟩
  · rw [List.getElem?_eq_none (by simpa using hi)] at h
    cases h

/-- **C145 is violated** by the export. For the bins that `update_obs` makes from ascending channel frequencies, and for frequencies
spread over the band, frequency `j` gets the beam of the bin in which `create_obs` puts its channel; but all channels of the last bin get
the beam of bin 0. -/
theorem C145_export_last_bin (label : List Bool → List ℕ) (m : BeamIn) (o : CubeOpt)
    (hlabel : ∀ mask, IsLabelling m.dimension mask (label mask)) (G : ℕ → ℕ → ℕ → ℚ) (norm : ℕ → ℚ) (n : ℕ) (h0 : 0 < n)
    (hn : o.nFreqBin = some n) (ready : CubeReady m G norm ((List.range n).map fun i => i * m.nFreq / n)) (hsq : o.square = true)
    (freq : List ℚ) (w : ℚ) (hw : 0 < w) (hne : freq ≠ []) (hasc : freq.Pairwise (· ≤ ·)) (hup : updateFbin freq w = .ok m.fbin)
    (seed : ℕ) (hseed : pyInt (m.obsx + m.obsy * m.dimension) = seed)
    (hcen : ∀ pol, pol < m.nPol → ∀ j, j < n → Inside m.dimension m.dimension seed ∧
      o.threshold.getD (5 / 100) ^ 2 ≤ sqBeam G norm pol (m.fbin.getD (j * m.nFreq / n) 0) seed) :
    ∃ bins top, createFbin freq w = .ok bins ∧ top ∈ bins ∧ (∀ b ∈ bins, b ≤ top) ∧
      ∃ rows mask, beamImageCube label m o = .ok (rows, mask) ∧ ∀ pol, pol < m.nPol → ∃ row, rows[pol]? = some row ∧
        ∀ j, j < n → ∃ b, bins[j * m.nFreq / n]? = some b ∧
          row[j]? = some fun p => some (if b = top then G pol 0 p ^ 2 / norm 0 else G pol b p ^ 2 / norm b) := by
  obtain ⟨l, top, c1, c2, c3, c4⟩ := C57_update_obs_last_bin freq w hw hne
  obtain ⟨l', lo, d1, d2, d3, d4, d5⟩ := C57_create_obs_partial freq w hw hne
  have : l' = l := by rw [c1] at d1; exact (Except.ok.inj d1).symm
  subst this
  have hfb : m.fbin = l'.map fun b => if b = top then 0 else b := by rw [c4] at hup; exact (Except.ok.inj hup).symm
  -- the bins ascend
  have hmono : ∀ (a c x y : ℕ), a ≤ c → l'[a]? = some x → l'[c]? = some y → x ≤ y := by
    intro a c x y hac hx hy
    have ha : a < freq.length := by rw [← d4]; exact (List.getElem?_eq_some_iff.mp hx).1
    have hc : c < freq.length := by rw [← d4]; exact (List.getElem?_eq_some_iff.mp hy).1
    obtain ⟨x', e1, e2, _⟩ := d5 a _ (List.getElem?_eq_getElem ha)
    obtain ⟨y', e3, _, e4⟩ := d5 c _ (List.getElem?_eq_getElem hc)
    rw [hx] at e1
    rw [hy] at e3
    cases e1
    cases e3
    have hle : freq[a] ≤ freq[c] := by
      rcases Nat.lt_or_eq_of_le hac with h | h
      · exact List.pairwise_iff_getElem.mp hasc a c ha hc h
      · subst h; exact le_refl _
    have : (x : ℚ) * w < ((y : ℚ) + 1) * w := by linarith
    have : (x : ℚ) < (y : ℚ) + 1 := lt_of_mul_lt_mul_right this hw.le
    have : x < y + 1 := by exact_mod_cast this
    omega
  have hbin : ∀ (f v : ℕ), m.fbin[f]? = some v ↔ ∃ b, l'[f]? = some b ∧ v = if b = top then 0 else b := by
    intro f v
    rw [hfb, List.getElem?_map]
    cases l'[f]? with
    | none => simp
    | some b => simp [eq_comm]
  obtain ⟨rows, mask, h1, h2, h3⟩ := C145_frequency_partial label m o hlabel G norm _ (cubeFreqs_bins hn h0) ready hsq seed hseed (by
    intro pol hpol f hf
    obtain ⟨j, hj, rfl⟩ := List.mem_map.mp hf
    exact hcen pol hpol j (List.mem_range.mp hj))
  refine ⟨l', top, c1, c2, c3, rows, mask, h1, fun pol hpol => ?_⟩
  obtain ⟨row, r1, _, r3⟩ := h3 pol hpol
  refine ⟨row, r1, ?_⟩
  intro j hj
  have hfj : ((List.range n).map fun i => i * m.nFreq / n)[j]? = some (j * m.nFreq / n) := by
    rw [List.getElem?_map, List.getElem?_range hj]; rfl
  obtain ⟨v, hv, _⟩ := ready.bins _ (List.mem_of_getElem? hfj)
  obtain ⟨b, hb, rfl⟩ := (hbin _ _).mp hv
  refine ⟨b, hb, ?_⟩
  rw [r3 j _ _ hfj hv]
  · split_ifs <;> rfl
  · intro i k f' f'' x hij hjk hi hk hx hx'
    obtain ⟨_, rfl⟩ := spread_get hi
    obtain ⟨_, rfl⟩ := spread_get hk
    obtain ⟨bi, hbi, rfl⟩ := (hbin _ _).mp hx
    obtain ⟨bk, hbk, hxk⟩ := (hbin _ _).mp hx'
    have m1 := hmono _ _ _ _ (Nat.div_le_div_right (Nat.mul_le_mul_right _ hij.le)) hbi hb
    have m2 := hmono _ _ _ _ (Nat.div_le_div_right (Nat.mul_le_mul_right _ hjk.le)) hb hbk
    have m3 := c3 _ (List.mem_of_getElem? hbi)
    have m4 := c3 _ (List.mem_of_getElem? hbk)
    split_ifs at hxk ⊢ <;> omega

/-! ## C146: the mask -/

/-- **C146**, when the beams reach the threshold at the centre: the mask has one at the pixels that are in the beam at every frequency and
polarisation, and zero elsewhere. -/
theorem C146_mask_partial (label : List Bool → List ℕ) (m : BeamIn) (o : CubeOpt)
    (hlabel : ∀ mask, IsLabelling m.dimension mask (label mask)) (G : ℕ → ℕ → ℕ → ℚ) (norm : ℕ → ℚ) (freqs : List ℕ)
    (hf : cubeFreqs m.nFreq o = .ok freqs) (ready : CubeReady m G norm freqs) (hsq : o.square = true) (seed : ℕ)
    (hseed : pyInt (m.obsx + m.obsy * m.dimension) = seed)
    (hcen : ∀ pol, pol < m.nPol → ∀ f ∈ freqs, Inside m.dimension m.dimension seed ∧
      o.threshold.getD (5 / 100) ^ 2 ≤ sqBeam G norm pol (m.fbin.getD f 0) seed) :
    ∃ rows mask, beamImageCube label m o = .ok (rows, mask) ∧ ∀ p,
      ((∀ pol, pol < m.nPol → ∀ f ∈ freqs, InBeam m.dimension (sqBeam G norm pol (m.fbin.getD f 0))
          (o.threshold.getD (5 / 100) ^ 2) seed p) → mask p = 1) ∧
        (¬(∀ pol, pol < m.nPol → ∀ f ∈ freqs, InBeam m.dimension (sqBeam G norm pol (m.fbin.getD f 0))
          (o.threshold.getD (5 / 100) ^ 2) seed p) → mask p = 0) := by
  obtain ⟨rows, mask, h1, _, _, h4⟩ := cube_spec label m o hlabel G norm freqs hf ready hsq seed hseed hcen
  exact ⟨rows, mask, h1, h4⟩

/-- **C146**: the centre itself is in the mask. -/
theorem C146_centre_in_mask (label : List Bool → List ℕ) (m : BeamIn) (o : CubeOpt)
    (hlabel : ∀ mask, IsLabelling m.dimension mask (label mask)) (G : ℕ → ℕ → ℕ → ℚ) (norm : ℕ → ℚ) (freqs : List ℕ)
    (hf : cubeFreqs m.nFreq o = .ok freqs) (ready : CubeReady m G norm freqs) (hsq : o.square = true) (seed : ℕ)
    (hseed : pyInt (m.obsx + m.obsy * m.dimension) = seed)
    (hcen : ∀ pol, pol < m.nPol → ∀ f ∈ freqs, Inside m.dimension m.dimension seed ∧
      o.threshold.getD (5 / 100) ^ 2 ≤ sqBeam G norm pol (m.fbin.getD f 0) seed) :
    ∃ rows mask, beamImageCube label m o = .ok (rows, mask) ∧ mask seed = 1 := by
  obtain ⟨rows, mask, h1, _, _, h4⟩ := cube_spec label m o hlabel G norm freqs hf ready hsq seed hseed hcen
  refine ⟨rows, mask, h1, (h4 seed).1 fun pol hpol f hf' => ⟨(hcen pol hpol f hf').1, ?_⟩⟩
  exact .refl

/-- **C146 is violated** where some beam is below the threshold at the centre, or the centre on an edge of the image: instead of an empty
mask there is an exception. -/
theorem C146_faint_centre_raises (label : List Bool → List ℕ) (m : BeamIn) (o : CubeOpt)
    (hlabel : ∀ mask, IsLabelling m.dimension mask (label mask)) (G : ℕ → ℕ → ℕ → ℚ) (norm : ℕ → ℚ) (freqs : List ℕ)
    (hf : cubeFreqs m.nFreq o = .ok freqs) (ready : CubeReady m G norm freqs) (hsq : o.square = true) (seed : ℕ)
    (hseed : pyInt (m.obsx + m.obsy * m.dimension) = seed) (pol : ℕ) (hpol : pol < m.nPol) (f : ℕ) (hff : f ∈ freqs)
    (hbad : ¬(Inside m.dimension m.dimension seed ∧
      o.threshold.getD (5 / 100) ^ 2 ≤ sqBeam G norm pol (m.fbin.getD f 0) seed)) :
    ∃ e, beamImageCube label m o = .error e := by
  obtain ⟨h, hcube, hc, hri⟩ := cube_eq label m o G norm freqs hf ready
  rw [hcube]
  refine foldlM_error _ _ pol _ (List.mem_range.mpr hpol) fun s => ?_
  have hb : m.fbin.getD f 0 ∈ freqs.map fun f => m.fbin.getD f 0 := List.mem_map.mpr ⟨f, hff, rfl⟩
  obtain ⟨a, c, hg⟩ := cubeStep_spec label m o hlabel G norm freqs _ ready rfl hsq h hc hri seed hseed pol hpol _ hb
  obtain ⟨e, he⟩ := foldlM_error (cubeStep label m o freqs h pol) (nonzeroIdx h.hist) (m.fbin.getD f 0)
    ⟨List.replicate freqs.length (fun _ => some 0), s.2⟩ ((mem_nonzeroIdx0 _ hc _).mpr hb) (hg.bad hbad)
  unfold cubePol
  simp only [bind, Except.bind, he]
  exact ⟨e, rfl⟩

/-- **C146 is violated** for every image with an odd number of pixels. The pointing centre of such an image is between two rows, and the
pixel taken for it is at the left edge. -/
theorem C146_odd_image_raises (label : List Bool → List ℕ) (m : BeamIn) (o : CubeOpt)
    (hlabel : ∀ mask, IsLabelling m.dimension mask (label mask)) (G : ℕ → ℕ → ℕ → ℚ) (norm : ℕ → ℚ) (freqs : List ℕ)
    (hf : cubeFreqs m.nFreq o = .ok freqs) (ready : CubeReady m G norm freqs) (hsq : o.square = true) (hpol : 0 < m.nPol)
    (hodd : m.dimension % 2 = 1) (hx : m.obsx = m.dimension / 2) (hy : m.obsy = m.dimension / 2) :
    ∃ e, beamImageCube label m o = .error e := by
  obtain ⟨k, hk⟩ : ∃ k, m.dimension = 2 * k + 1 := ⟨m.dimension / 2, by omega⟩
  obtain ⟨f, hff⟩ := List.exists_mem_of_ne_nil _ ready.some
  have hseed : pyInt (m.obsx + m.obsy * m.dimension) = (((k + 1) * (2 * k + 1) : ℕ) : ℤ) := by
    have : m.obsx + m.obsy * m.dimension = (((k + 1) * (2 * k + 1) : ℕ) : ℚ) := by
      rw [hx, hy, hk]; push_cast; ring
    rw [this]
    unfold pyInt
    rw [if_pos (by positivity)]
    exact Int.floor_natCast _
  refine C146_faint_centre_raises label m o hlabel G norm freqs hf ready hsq _ hseed 0 hpol f hff ?_
  rintro ⟨⟨i, j, h1, h2, h3, h4, h5⟩, _⟩
  rw [hk] at h1 h5
  have := congrArg (· % (2 * k + 1)) h1
  simp only [Nat.mul_mod_left, Nat.mul_add_mod_self_right] at this
  rw [Nat.mod_eq_of_lt (by omega)] at this
  omega

/-! ## C147: the options -/

theorem foldlM_inv {α β : Type _} (f : β → α → Py β) (P : ℕ → β → Prop) : ∀ (l : List α) (b c : β) (n : ℕ), P n b →
    (∀ a k b b', P k b → f b a = .ok b' → P (k + 1) b') → l.foldlM f b = .ok c → P (n + l.length) c := by
  intro l
  induction l with
  | nil => intro b c n h0 _ h; cases h; simpa using h0
  | cons a l ih =>
    intro b c n h0 hs h
    rw [List.foldlM_cons] at h
    cases hb : f b a with
    | error e => rw [hb] at h; cases h
    | ok b' =>
      rw [hb] at h
      have := ih b' c (n + 1) (hs a n b b' h0 hb) hs h
      rwa [List.length_cons, show n + (l.length + 1) = n + 1 + l.length by omega]

/-- **C147 is violated** for `pol_i_arr`: whatever polarisations are asked for, there is a row for each polarisation of the observation. -/
theorem C147_polarisations_ignored (label : List Bool → List ℕ) (m : BeamIn) (o : CubeOpt) (pols : List ℕ)
    (rows : List (List (ℕ → Option ℚ))) (mask : ℕ → ℚ)
    (h : beamImageCube label m { o with polArr := some pols } = .ok (rows, mask)) : rows.length = m.nPol := by
  unfold beamImageCube at h
  simp only [bind, Except.bind] at h
  split at h
  · cases h
  · split_ifs at h
    split at h
    · cases h
    · split at h
      · cases h
      · have := foldlM_inv _ (fun n s => s.1.length = n) _ _ _ 0 rfl (by
          intro a k b b' hk hb
          unfold cubePol at hb
          simp only [bind, Except.bind, pure, Except.pure] at hb
          split at hb
          · cases hb
          · cases hb
            simp [hk]) h
        simpa using this

/-- **C147 is violated** for frequencies given in Hz: they raise. -/
theorem C147_hertz_raises (label : List Bool → List ℕ) (m : BeamIn) (o : CubeOpt) (hz : List ℕ) (hne : hz ≠ [])
    (hn : o.nFreqBin = none) (ho : o.freqArr = some hz) (hbig : ∀ f ∈ hz, m.nFreq < f) :
    ∃ e, beamImageCube label m o = .error e := by
  have hf : cubeFreqs m.nFreq o = .ok hz := by unfold cubeFreqs; rw [hn, ho]
  have hlen : 0 < hz.length := List.length_pos_iff.mpr hne
  have hmed : npMedian (hz.map fun (f : ℕ) => (f : ℚ)) > m.nFreq := by
    unfold npMedian
    simp only []
    have : ∀ i, i < hz.length → (m.nFreq : ℚ) < ((hz.map fun (f : ℕ) => (f : ℚ)).insertionSort (· ≤ ·)).getD i 0 := by
      intro i hi
      rw [getD_of_lt (by simpa using hi)]
      have := (List.mem_insertionSort (· ≤ ·)).mp (List.getElem_mem (l := (hz.map fun (f : ℕ) => (f : ℚ)).insertionSort (· ≤ ·))
        (n := i) (by simpa using hi))
      obtain ⟨f, hf, hfe⟩ := List.mem_map.mp this
      rw [← hfe]
      exact_mod_cast hbig f hf
    rw [List.length_map]
    have h1 := this ((hz.length - 1) / 2) (by omega)
    have h2 := this (hz.length / 2) (by omega)
    linarith
  unfold beamImageCube
  simp only [bind, Except.bind, hf, if_pos hmed]
  split_ifs <;> exact ⟨_, rfl⟩

/-- **C147 is violated** for `square=False`: it raises, as do images that are not square. -/
theorem C147_plain_raises (label : List Bool → List ℕ) (m : BeamIn) (o : CubeOpt) (freqs : List ℕ)
    (hf : cubeFreqs m.nFreq o = .ok freqs) (hpol : 0 < m.nPol) (h : o.square = false ∨ m.elements ≠ m.dimension) :
    ∃ e, beamImageCube label m o = .error e := by
  unfold beamImageCube
  simp only [bind, Except.bind, hf]
  split_ifs
  · exact ⟨_, rfl⟩
  · exact ⟨_, rfl⟩
  · cases htake : takeFlat m.fbin freqs with
    | error e => exact ⟨e, rfl⟩
    | ok bins =>
      simp only []
      by_cases hnil : bins = []
      · subst hnil
        exact ⟨_, rfl⟩
      obtain ⟨hh, e1, e2, e3⟩ := nat_hist0 bins hnil
      rw [e1]
      simp only []
      refine foldlM_error _ _ 0 _ (List.mem_range.mpr hpol) fun s => ?_
      obtain ⟨b, hb⟩ := List.exists_mem_of_ne_nil _ hnil
      obtain ⟨e, he⟩ := foldlM_error (cubeStep label m o freqs hh 0) (nonzeroIdx hh.hist) b
        ⟨List.replicate freqs.length (fun _ => some 0), s.2⟩ ((mem_nonzeroIdx0 _ e2 _).mpr hb) (by
          intro s'
          unfold cubeStep
          rw [e3 b hb]
          simp only []
          split
          · rename_i a c _ _
            simp only [bind, Except.bind]
            rcases h with h | h
            · rw [h]
              obtain ⟨e, he⟩ := C142_plain_raises m 0 (freqs.getD a 0)
              rw [he]
              exact ⟨e, rfl⟩
            · cases beamImage m 0 (some (freqs.getD a 0)) o.square with
              | error e => exact ⟨e, rfl⟩
              | ok img =>
                simp only []
                rw [if_pos h]
                exact ⟨_, rfl⟩
          · exact ⟨_, rfl⟩)
      unfold cubePol
      simp only [bind, Except.bind, he]
      exact ⟨e, rfl⟩

/-- **C147**: `n_freq_bin` is the number of frequencies, spread over the band from channel 0, and takes precedence over a list of
frequencies. -/
theorem C147_number_of_frequencies_partial (label : List Bool → List ℕ) (m : BeamIn) (o : CubeOpt) (n : ℕ) (h0 : 0 < n)
    (hn : o.nFreqBin = some n) :
    beamImageCube label m o
      = beamImageCube label m { o with nFreqBin := none, freqArr := some ((List.range n).map fun i => i * m.nFreq / n) } := by
  have h1 := cubeFreqs_bins (nFreq := m.nFreq) hn h0
  have h2 : cubeFreqs m.nFreq { o with nFreqBin := none, freqArr := some ((List.range n).map fun i => i * m.nFreq / n) }
      = .ok ((List.range n).map fun i => i * m.nFreq / n) := rfl
  unfold beamImageCube
  rw [h1, h2]
  rfl

/-- **C147**: without frequencies the program ends. -/
theorem C147_no_frequencies (label : List Bool → List ℕ) (m : BeamIn) (o : CubeOpt) (h1 : o.nFreqBin = none) (h2 : o.freqArr = none) :
    beamImageCube label m o = .error .systemExit := by
  unfold beamImageCube cubeFreqs
  rw [h1, h2]
  rfl

/-! ## An example -/

/-- All pixels of the mask in one region. -/
def oneLabel (mask : List Bool) : List ℕ := mask.map fun b => if b then 1 else 0

/-- Four frequencies, two in each bin. -/
def exCube : CubeOpt := ⟨none, none, some 4, true, some (1 / 4)⟩

example : cubeFreqs exBeam.nFreq exCube = .ok [0, 1, 2, 3] ∧
    CubeReady exBeam (fun pol b p => (pol + b + 1 : ℚ) * (if p = 9 then 1 else if p = 10 then 1 / 2 else 1 / 100))
      (fun b => b + 1) [0, 1, 2, 3] ∧
    pyInt (exBeam.obsx + exBeam.obsy * exBeam.dimension) = (9 : ℕ) ∧ Inside 4 4 9 ∧
    ((beamImageCube oneLabel exBeam exCube).toOption.map fun r => (List.range 16).filter fun p => r.2 p = 1) = some [9, 10] ∧
    ((beamImageCube oneLabel exBeam exCube).toOption.map fun r => r.1.map fun row => row.map fun img => img 9)
      = some [[some 1, some 1, some 2, some 2], [some 4, some 4, some (9 / 2), some (9 / 2)]] := by
  refine ⟨by decide +kernel, ⟨rfl, rfl, ?_, by simp, by decide, ?_⟩, by decide +kernel, ⟨2, 1, by decide⟩, by decide +kernel,
    by decide +kernel⟩
  · intro pol _
    exact ⟨by simp [exBeam], 0, by simp [exBeam]⟩
  · intro f hf
    fin_cases hf
    · exact ⟨0, rfl, by norm_num [exBeam], by norm_num⟩
    · exact ⟨0, rfl, by norm_num [exBeam], by norm_num⟩
    · exact ⟨1, rfl, by norm_num [exBeam], by norm_num⟩
    · exact ⟨1, rfl, by norm_num [exBeam], by norm_num⟩

/-- Frequencies in the order 2, 0, 3: the middle one gets the beam of bin 1. -/
example : ((beamImageCube oneLabel exBeam ⟨some [2, 0, 3], none, none, true, none⟩).toOption.map
    fun r => r.1.map fun row => row.map fun img => img 9) = some [[some 2, some 2, some 2], [some (9 / 2), some (9 / 2), some (9 / 2)]] ∧
    (beamImageCube oneLabel { exBeam with dimension := 5, elements := 5, obsx := 5 / 2, obsy := 5 / 2 } exCube).toOption.isNone ∧
    (beamImageCube oneLabel exBeam ⟨some [], none, none, true, none⟩).toOption.isNone := by
  refine ⟨?_, ?_, ?_⟩ <;> decide +kernel

end PyFHD
