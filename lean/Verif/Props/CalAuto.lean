import Verif.Model.CalAuto
import Verif.Props.CalStats

/-!
# Properties of the calibration with auto-correlations (C84, C85, C86)
-/

namespace PyFHD
open Spec

/-! ## C84: extraction -/

section Extract

variable {R : Type} [Field R]

/-- The samples of the auto-correlation of tile number `v`, in order. -/
def Spec.samplesOfTile (tileA tileB : List ℤ) (v : ℤ) : List ℕ :=
  (List.range tileA.length).filter fun b => tileA.getD b 0 = tileB.getD b 0 ∧ tileA.getD b 0 = v

theorem autoTimes_eq (tileA tileB : List ℤ) (times : List ℕ) (t : ℤ)
    (h : ∀ i ∈ times, i < (samplesOfTile tileA tileB (t + 1)).length) :
    ∃ ks, autoTimes (autoTileOf tileA tileB) times t = .ok ks ∧
      ks.map (fun k => (autoSamples tileA tileB).getD k 0) =
        times.map fun i => (samplesOfTile tileA tileB (t + 1)).getD i 0 := by
  have hpos : ((List.range (autoTileOf tileA tileB).length).filter fun k =>
      (autoTileOf tileA tileB).getD k 0 = t) = positions (fun v : ℤ => v = t)
        ((autoSamples tileA tileB).map fun b => tileA.getD b 0 - 1) := by
    unfold positions autoTileOf
    apply List.filter_congr
    intro k hk
    rw [List.mem_range] at hk
    rw [getD_of_lt hk, List.getElem?_eq_getElem hk]
    rfl
  have hmap := positions_map_getD (fun v : ℤ => v = t) (fun b => tileA.getD b 0 - 1)
    (autoSamples tileA tileB) 0
  have hfil : ((autoSamples tileA tileB).filter fun b => decide (tileA.getD b 0 - 1 = t)) =
      samplesOfTile tileA tileB (t + 1) := by
    unfold autoSamples samplesOfTile
    rw [List.filter_filter]
    apply List.filter_congr
    intro b _
    rw [Bool.eq_iff_iff]
    simp only [Bool.and_eq_true, decide_eq_true_eq]
    constructor
    · rintro ⟨h1, h2⟩; exact ⟨h2, by omega⟩
    · rintro ⟨h1, h2⟩; exact ⟨by omega, h1⟩
  rw [hfil] at hmap
  set bl := positions (fun v : ℤ => v = t) ((autoSamples tileA tileB).map fun b => tileA.getD b 0 - 1)
    with hbl
  have hlen : bl.length = (samplesOfTile tileA tileB (t + 1)).length := by
    rw [← hmap, List.length_map]
  refine ⟨times.map fun i => bl.getD i 0, ?_, ?_⟩
  · unfold autoTimes
    simp only []
    rw [hpos]
    apply mapM_ok
    intro i hi
    have : i < bl.length := by rw [hlen]; exact h i hi
    rw [List.getElem?_eq_getElem this, getD_of_lt this]
  · rw [List.map_map]
    apply List.map_congr_left
    intro i hi
    have : i < bl.length := by rw [hlen]; exact h i hi
    simp only [Function.comp]
    rw [← hmap]
    rw [getD_of_lt (l := List.map _ _) (by simpa using this), List.getElem_map, getD_of_lt this]

/-- **C84** Without averaging there is one column for each auto-correlation sample, in the order of
the samples: its values are those of the sample and its tile is the tile of the sample, counted
from zero. -/
theorem C84_all_samples (nPol nFreq : ℕ) (tileA tileB timeUse : List ℤ) (vis : ℕ → ℕ → ℕ → R)
    (hex : ∃ b < tileA.length, tileA.getD b 0 = tileB.getD b 0) :
    ∃ (a : AutoCorr R) (bs : List ℕ),
      extractAutocorr nPol nFreq tileA tileB timeUse false vis = .ok (some a) ∧
      bs.Pairwise (· < ·) ∧
      (∀ b, b ∈ bs ↔ b < tileA.length ∧ tileA.getD b 0 = tileB.getD b 0) ∧
      a.tiles = bs.map (fun b => tileA.getD b 0 - 1) ∧
      ∀ p f k, (h : k < bs.length) → a.corr p f k = vis p f bs[k] := by
  obtain ⟨b, hb, hab⟩ := hex
  have hmem : ∀ b, b ∈ autoSamples tileA tileB ↔ b < tileA.length ∧ tileA.getD b 0 = tileB.getD b 0 := by
    intro b; simp [autoSamples]
  have hne : autoSamples tileA tileB ≠ [] :=
    fun h0 => by have := (hmem b).mpr ⟨hb, hab⟩; rw [h0] at this; cases this
  unfold extractAutocorr
  simp only []
  rw [if_neg hne, if_neg (by simp)]
  refine ⟨_, autoSamples tileA tileB, rfl, ?_, hmem, rfl, ?_⟩
  · exact List.Pairwise.filter _ (List.pairwise_lt_range)
  · intro p f k hk
    simp only []
    rw [getD_of_lt hk]

/-- **C84** With averaging there is one column for each tile that has an auto-correlation, in
increasing order of the tiles: it is the mean over the used time steps, where the sample of time
step `i` is the `i`-th auto-correlation sample of the tile. Proved for at least two used time
steps, all of which have a sample. -/
theorem C84_average_partial [CharZero R] (nPol nFreq : ℕ) (tileA tileB timeUse : List ℤ)
    (vis : ℕ → ℕ → ℕ → R)
    (hex : ∃ b < tileA.length, tileA.getD b 0 = tileB.getD b 0)
    (used : List ℕ)
    (hused : used = (List.range timeUse.length).filter fun t => timeUse.getD t 0 ≠ 0)
    (htwo : 2 ≤ used.length)
    (hcov : ∀ b < tileA.length, tileA.getD b 0 = tileB.getD b 0 → ∀ i ∈ used,
      i < (samplesOfTile tileA tileB (tileA.getD b 0)).length) :
    ∃ a : AutoCorr R, extractAutocorr nPol nFreq tileA tileB timeUse true vis = .ok (some a) ∧
      a.tiles.Pairwise (· < ·) ∧
      (∀ v, v ∈ a.tiles ↔ ∃ b < tileA.length, tileA.getD b 0 = tileB.getD b 0 ∧ tileA.getD b 0 - 1 = v) ∧
      ∀ p f k, p < nPol → (h : k < a.tiles.length) →
        (used.length : R) * a.corr p f k =
          (used.map fun i => vis p f ((samplesOfTile tileA tileB (a.tiles[k] + 1)).getD i 0)).sum := by
  obtain ⟨b, hb, hab⟩ := hex
  have hmem : ∀ b, b ∈ autoSamples tileA tileB ↔ b < tileA.length ∧ tileA.getD b 0 = tileB.getD b 0 := by
    intro b; simp [autoSamples]
  have hne : autoSamples tileA tileB ≠ [] :=
    fun h0 => by have := (hmem b).mpr ⟨hb, hab⟩; rw [h0] at this; cases this
  have htm : ∀ v, v ∈ npUnique (autoTileOf tileA tileB) ↔
      ∃ b < tileA.length, tileA.getD b 0 = tileB.getD b 0 ∧ tileA.getD b 0 - 1 = v := by
    intro v
    rw [mem_npUnique]
    unfold autoTileOf
    simp only [List.mem_map, hmem]
    constructor
    · rintro ⟨b, ⟨h1, h2⟩, h3⟩; exact ⟨b, h1, h2, h3⟩
    · rintro ⟨b, h1, h2, h3⟩; exact ⟨b, ⟨h1, h2⟩, h3⟩
  have htimes : timeInds timeUse = used := by rw [hused]; rfl
  -- the value of one column
  let col : ℕ → ℤ → ℕ → R := fun p t f =>
    (used.map fun i => vis p f ((samplesOfTile tileA tileB (t + 1)).getD i 0)).sum / (used.length : R)
  have hcol : ∀ p, ∀ t ∈ npUnique (autoTileOf tileA tileB),
      autoMean nFreq (autoTileOf tileA tileB) (timeInds timeUse)
        (fun f k => vis p f ((autoSamples tileA tileB).getD k 0)) t = .ok (col p t) := by
    intro p t ht
    obtain ⟨b, hb1, hb2, hb3⟩ := (htm t).mp ht
    obtain ⟨ks, hks, hval⟩ := autoTimes_eq tileA tileB (timeInds timeUse) t (by
      rw [htimes]
      intro i hi
      have := hcov b hb1 hb2 i hi
      rwa [show tileA.getD b 0 = t + 1 by omega] at this)
    unfold autoMean
    simp only [bind, Except.bind, hks]
    have hlen : ks.length = used.length := by
      have := congrArg List.length hval
      rw [List.length_map, List.length_map, htimes] at this
      exact this
    have hsum : ∀ f, (ks.map fun k => vis p f ((autoSamples tileA tileB).getD k 0)) =
        used.map fun i => vis p f ((samplesOfTile tileA tileB (t + 1)).getD i 0) := by
      intro f
      have := congrArg (List.map (vis p f)) hval
      rw [List.map_map, List.map_map, htimes] at this
      exact this
    match ks, hlen, hsum with
    | [], h, _ => simp at h; omega
    | [_], h, _ => simp at h; omega
    | k1 :: k2 :: l, _, hsum =>
      simp only []
      congr 1
      funext f
      rw [hsum f, htimes]
  unfold extractAutocorr
  simp only []
  rw [if_neg hne, if_pos trivial]
  simp only [bind, Except.bind]
  rw [mapM_ok _ (fun p => (npUnique (autoTileOf tileA tileB)).map (col p))
    (List.range nPol) fun p _ => mapM_ok _ _ _ (hcol p)]
  refine ⟨_, rfl, npUnique_sorted _, htm, ?_⟩
  intro p f k hp hk
  simp only [] at hk ⊢
  rw [getD_of_lt (l := List.map _ (List.range nPol)) (by simpa using hp)]
  simp only [List.getElem_map, List.getElem_range]
  rw [getD_of_lt (by simpa using hk), List.getElem_map]
  have : (used.length : R) ≠ 0 := by
    have : used.length ≠ 0 := by omega
    exact_mod_cast this
  show (used.length : R) * (_ / _) = _
  field_simp

/-- **C84**, the layout of an observation: when the tile pairs of `nBl` baselines repeat at each of
`nT` time steps and a tile has one auto-correlation, baseline `j`, its sample of time step `i` is
sample `i * nBl + j`. -/
theorem C84_time_order (nT nBl : ℕ) (pa pb : ℕ → ℤ) (j : ℕ) (hj : j < nBl) (hjj : pa j = pb j)
    (huniq : ∀ i < nBl, pa i = pb i → pa i = pa j → i = j) :
    samplesOfTile ((List.range (nT * nBl)).map fun b => pa (b % nBl))
      ((List.range (nT * nBl)).map fun b => pb (b % nBl)) (pa j) =
      (List.range nT).map fun i => i * nBl + j := by
  have hpos : 0 < nBl := by omega
  have hs1 : (samplesOfTile ((List.range (nT * nBl)).map fun b => pa (b % nBl))
      ((List.range (nT * nBl)).map fun b => pb (b % nBl)) (pa j)).Pairwise (· < ·) :=
    List.Pairwise.filter _ List.pairwise_lt_range
  have hs2 : ((List.range nT).map fun i => i * nBl + j).Pairwise (· < ·) := by
    rw [List.pairwise_map]
    refine List.Pairwise.imp ?_ List.pairwise_lt_range
    intro a b hab
    have := Nat.mul_lt_mul_of_pos_right hab hpos
    omega
  apply List.Perm.eq_of_pairwise' (r := fun a b : ℕ => a < b) hs1 hs2
  rw [List.perm_ext_iff_of_nodup (hs1.imp fun h => Nat.ne_of_lt h) (hs2.imp fun h => Nat.ne_of_lt h)]
  intro b
  unfold samplesOfTile
  simp only [List.mem_filter, List.mem_range, List.length_map, List.length_range, List.mem_map,
    decide_eq_true_eq]
  constructor
  · rintro ⟨hb, h1, h2⟩
    rw [getD_of_lt (by simpa using hb), getD_of_lt (by simpa using hb)] at h1
    rw [getD_of_lt (by simpa using hb)] at h2
    simp only [List.getElem_map, List.getElem_range] at h1 h2
    have := huniq (b % nBl) (Nat.mod_lt _ hpos) h1 h2
    refine ⟨b / nBl, ?_, ?_⟩
    · rw [Nat.div_lt_iff_lt_mul hpos]; exact hb
    · rw [← this]; rw [Nat.mul_comm]; exact Nat.div_add_mod b nBl
  · rintro ⟨i, hi, rfl⟩
    have hb : i * nBl + j < nT * nBl := by
      have : (i + 1) * nBl ≤ nT * nBl := Nat.mul_le_mul_right _ hi
      rw [Nat.add_mul] at this; omega
    have hm : (i * nBl + j) % nBl = j := by
      rw [Nat.add_comm, Nat.add_mul_mod_self_right, Nat.mod_eq_of_lt hj]
    refine ⟨hb, ?_, ?_⟩
    · rw [getD_of_lt (by simpa using hb), getD_of_lt (by simpa using hb)]
      simp only [List.getElem_map, List.getElem_range, hm, hjj]
    · rw [getD_of_lt (by simpa using hb)]
      simp only [List.getElem_map, List.getElem_range, hm]

/-- **C84** does not hold for a single used time step: with more than one frequency the averaging
raises an error. -/
theorem C84_single_step_raises (nPol nFreq : ℕ) (tileA tileB timeUse : List ℤ)
    (vis : ℕ → ℕ → ℕ → R) (hpol : 0 < nPol) (hfreq : 2 ≤ nFreq)
    (hex : ∃ b < tileA.length, tileA.getD b 0 = tileB.getD b 0)
    (hone : ((List.range timeUse.length).filter fun t => timeUse.getD t 0 ≠ 0).length ≤ 1) :
    ∃ e, extractAutocorr nPol nFreq tileA tileB timeUse true vis = .error e := by
  obtain ⟨b, hb, hab⟩ := hex
  have hmem : b ∈ autoSamples tileA tileB := by
    unfold autoSamples
    rw [List.mem_filter]
    exact ⟨List.mem_range.mpr hb, by simpa only [decide_eq_true_eq] using hab⟩
  have hne : autoSamples tileA tileB ≠ [] := fun h0 => by rw [h0] at hmem; cases hmem
  unfold extractAutocorr
  simp only []
  rw [if_neg hne, if_pos trivial]
  simp only [bind, Except.bind]
  have herr : ∀ t vals, ∃ e, autoMean (R := R) nFreq (autoTileOf tileA tileB) (timeInds timeUse) vals t =
      .error e := by
    intro t vals
    unfold autoMean
    simp only [bind, Except.bind]
    cases hk : autoTimes (autoTileOf tileA tileB) (timeInds timeUse) t with
    | error e => exact ⟨e, rfl⟩
    | ok ks =>
      simp only []
      have hlen : ks.length ≤ 1 := by
        refine le_trans (le_of_eq ?_) hone
        unfold autoTimes at hk
        simp only [] at hk
        have : ∀ (l : List ℕ) (f : ℕ → Py ℕ) (ks : List ℕ), l.mapM f = .ok ks → ks.length = l.length := by
          intro l f
          induction l with
          | nil => intro ks h; simp [List.mapM_nil, pure, Except.pure] at h; subst h; rfl
          | cons a l ih =>
            intro ks h
            rw [List.mapM_cons] at h
            simp only [bind, Except.bind, pure, Except.pure] at h
            cases ha : f a with
            | error e => rw [ha] at h; simp at h
            | ok v =>
              rw [ha] at h
              simp only [] at h
              cases hl : l.mapM f with
              | error e => rw [hl] at h; simp at h
              | ok vs =>
                rw [hl] at h
                simp only [Except.ok.injEq] at h
                subst h
                simp [ih vs hl]
        exact this _ _ _ hk
      match ks, hlen with
      | [], _ => exact ⟨_, rfl⟩
      | [k], _ => simp only []; rw [if_neg (by omega)]; exact ⟨_, rfl⟩
      | _ :: _ :: _, h => simp at h
  obtain ⟨e, he⟩ := mapM_error (fun p => (npUnique (autoTileOf tileA tileB)).mapM
      (autoMean nFreq (autoTileOf tileA tileB) (timeInds timeUse)
        (fun f k => vis p f ((autoSamples tileA tileB).getD k 0)))) (List.range nPol) 0
    (by simpa using hpol) (by
      refine mapM_error _ _ (tileA.getD b 0 - 1) ?_ (herr _ _)
      rw [mem_npUnique]
      exact List.mem_map.mpr ⟨b, hmem, rfl⟩)
  rw [he]
  exact ⟨e, rfl⟩

/-- **C84** An observation without auto-correlations gives none. -/
theorem C84_none (nPol nFreq : ℕ) (tileA tileB timeUse : List ℤ) (avg : Bool)
    (vis : ℕ → ℕ → ℕ → R) (h : ∀ b < tileA.length, tileA.getD b 0 ≠ tileB.getD b 0) :
    extractAutocorr nPol nFreq tileA tileB timeUse avg vis = .ok none := by
  unfold extractAutocorr
  simp only []
  rw [if_pos]
  unfold autoSamples
  rw [List.filter_eq_nil_iff]
  intro b hb
  simpa using h b (List.mem_range.mp hb)

/-- Two tiles, three baselines, three time steps of which the middle one is not used. -/
example : (extractAutocorr (R := ℚ) 1 2 [2, 1, 1, 2, 1, 1, 2, 1, 1] [2, 2, 1, 2, 2, 1, 2, 2, 1]
    [1, 0, 1] true (fun _ f b => 10 * f + b)).toOption.map (fun o => o.map fun a =>
      (a.tiles, [a.corr 0 0 0, a.corr 0 1 0, a.corr 0 0 1, a.corr 0 1 1])) =
    some (some ([0, 1], [5, 15, 3, 13])) := by decide +kernel

/-- The same observation with one used time step. -/
example : (extractAutocorr (R := ℚ) 1 2 [2, 1, 1, 2, 1, 1, 2, 1, 1] [2, 2, 1, 2, 2, 1, 2, 2, 1]
    [0, 1, 0] true (fun _ f b => 10 * f + b)).toOption.isNone := by decide +kernel

end Extract

/-! ## C85: initial gains -/

section Init

variable {R : Type} [Field R] [LinearOrder R] [IsStrictOrderedRing R]

omit [IsStrictOrderedRing R] in
theorem sumNaN_some (l : List (Option R)) (g : Option R → R) (h : ∀ x ∈ l, x = some (g x)) :
    sumNaN l = some (l.map g).sum := by
  induction l with
  | nil => rfl
  | cons a l ih =>
    rw [sumNaN, ih fun x hx => h x (List.mem_cons_of_mem _ hx), h a (by simp)]
    simp only [bind, Option.bind, List.map_cons, List.sum_cons]
    rw [← h a (by simp)]
    rfl

omit [IsStrictOrderedRing R] in
theorem sumNaN_none (l : List (Option R)) (h : none ∈ l) : sumNaN l = none := by
  induction l with
  | nil => cases h
  | cons a l ih =>
    rw [sumNaN]
    rcases List.mem_cons.mp h with h | h
    · rw [← h]; rfl
    · rw [ih h]; cases a <;> rfl

theorem autoSamples_count (nf nb : ℕ) : (samples nf nb).length = nf * nb := by
  simp [samples, List.length_flatMap]

theorem invNaN_pos {x : R} (h : 0 < x) : invNaN (some x) = 1 / x := by
  have hne : x ≠ 0 := ne_of_gt h
  simp [invNaN, weightInvertEntry, npRecip, hne]

omit [IsStrictOrderedRing R] in
/-- **C85** Every initial gain is a positive number, whatever the data. -/
theorem C85_positive [IsStrictOrderedRing R] (sqrt : R → Option R) (nFreq nTile : ℕ) (tiles : List ℕ)
    (autos models : ℕ → ℕ → ℕ → Option R) (scale : ℕ → Option R) (g : ℕ → ℕ → ℕ → R)
    (hg : visCalAutoInit sqrt nFreq nTile tiles autos models scale = .ok g) (p f t : ℕ) :
    0 < g p f t := by
  unfold visCalAutoInit at hg
  split at hg
  · injection hg with hg
    subst hg
    unfold autoInitPol
    simp only []
    split
    · exact one_pos
    · split
      · exact one_pos
      · next h => exact not_le.mp h
  · cases hg

/-- **C85** When all auto-correlations, all model auto-correlations and the scale are positive
numbers, the initial gains are proportional to the square root of the ratio of the data to the
model, with the same factor for all tiles and frequencies, and the tiles without auto-correlation
get this factor. Their mean over the frequencies and tiles is the scale. -/
theorem C85_proportional (sqrt : R → Option R) (nFreq nTile : ℕ) (tiles : List ℕ)
    (autos models : ℕ → ℕ → ℕ → Option R) (scale : ℕ → Option R)
    (hfreq : 0 < nFreq) (htile : 0 < nTile) (htiles : ∀ t ∈ tiles, t < nTile)
    (hnodup : tiles.Nodup)
    (hsqrt : ∀ x, 0 < x → ∃ y, 0 < y ∧ y * y = x ∧ sqrt x = some y)
    (p : ℕ) (s : R) (hs : 0 < s) (hscale : scale p = some s)
    (data model : ℕ → ℕ → R)
    (hdata : ∀ f < nFreq, ∀ t ∈ tiles, 0 < data f t ∧ 0 < model f t)
    (hautos : ∀ f < nFreq, ∀ k, (h : k < tiles.length) → autos p f k = some (data f tiles[k]) ∧
      models p f k = some (model f tiles[k])) :
    ∃ (g : ℕ → ℕ → ℕ → R) (c : R),
      visCalAutoInit sqrt nFreq nTile tiles autos models scale = .ok g ∧ 0 < c ∧
      (∀ f < nFreq, ∀ t < nTile, t ∈ tiles → (g p f t) ^ 2 * model f t = c ^ 2 * data f t) ∧
      (∀ f < nFreq, ∀ t < nTile, t ∉ tiles → g p f t = c) ∧
      ((samples nFreq nTile).map fun x => g p x.1 x.2).sum = s * (nFreq * nTile) := by
  classical
  -- the gains before the scaling
  have hlast_none : ∀ t, t ∉ tiles → lastAuto tiles t = none := by
    intro t ht
    unfold lastAuto
    rw [List.getLast?_eq_none_iff, List.filter_eq_nil_iff]
    intro k hk
    rw [List.mem_range] at hk
    rw [getD_of_lt hk]
    simp only [decide_eq_true_eq]
    intro h
    exact ht (h ▸ List.getElem_mem hk)
  have hlast_some : ∀ t ∈ tiles, ∃ k, ∃ h : k < tiles.length, lastAuto tiles t = some k ∧ tiles[k] = t := by
    intro t ht
    cases hl : lastAuto tiles t with
    | none =>
      unfold lastAuto at hl
      rw [List.getLast?_eq_none_iff, List.filter_eq_nil_iff] at hl
      obtain ⟨k, hk, hkt⟩ := List.getElem_of_mem ht
      have := hl k (List.mem_range.mpr hk)
      rw [getD_of_lt hk] at this
      simp [hkt] at this
    | some k =>
      unfold lastAuto at hl
      have := List.mem_of_getLast? hl
      rw [List.mem_filter, List.mem_range] at this
      obtain ⟨hk, h2⟩ := this
      rw [getD_of_lt hk, decide_eq_true_eq] at h2
      exact ⟨k, hk, rfl, h2⟩
  have hg0 : ∀ f t, ∃ y, 0 < y ∧ (f < nFreq →
      autoGain0 sqrt tiles (autos p) (models p) f t = some y ∧
      (t ∈ tiles → y ^ 2 * model f t = data f t) ∧ (t ∉ tiles → y = 1)) := by
    intro f t
    by_cases hf : f < nFreq
    swap
    · exact ⟨1, one_pos, fun h => absurd h hf⟩
    by_cases ht : t ∈ tiles
    · obtain ⟨k, hk, hl, hkt⟩ := hlast_some t ht
      obtain ⟨hd, hm⟩ := hdata f hf t ht
      obtain ⟨y, hy, hyy, hsy⟩ := hsqrt (data f t * (1 / model f t)) (by positivity)
      refine ⟨y, hy, fun _ => ⟨?_, fun _ => ?_, fun h => absurd ht h⟩⟩
      · unfold autoGain0
        rw [hl]
        simp only []
        rw [(hautos f hf k hk).1, (hautos f hf k hk).2, hkt]
        simp only [Option.bind_some]
        rw [invNaN_pos hm, hsy]
      · rw [pow_two, hyy]; field_simp
    · refine ⟨1, one_pos, fun _ => ⟨?_, fun h => absurd h ht, fun _ => rfl⟩⟩
      unfold autoGain0
      rw [hlast_none t ht]
  choose y hy0 hy using hg0
  set S := ((samples nFreq nTile).map fun x => y x.1 x.2).sum with hS
  have hmean : meanNaN ((samples nFreq nTile).map fun x =>
      autoGain0 sqrt tiles (autos p) (models p) x.1 x.2) = some (S / ((nFreq : R) * nTile)) := by
    have h1 : ((samples nFreq nTile).map fun x =>
        autoGain0 sqrt tiles (autos p) (models p) x.1 x.2) =
        ((samples nFreq nTile).map fun x => y x.1 x.2).map some := by
      rw [List.map_map]
      apply List.map_congr_left
      intro x hx
      exact (hy x.1 x.2 (mem_samples_pair.mp hx).1).1
    have hlen : ((samples nFreq nTile).length : R) = (nFreq : R) * nTile := by
      rw [autoSamples_count]; push_cast; ring
    unfold meanNaN
    rw [h1, sumNaN_some _ (fun o => o.getD 0) (by
      intro x hx
      obtain ⟨z, _, rfl⟩ := List.mem_map.mp hx
      rfl)]
    rw [List.length_map, List.length_map, hlen, List.map_map]
    simp only [Option.map_some]
    have : ((fun o : Option R => o.getD 0) ∘ some) = id := rfl
    rw [this, List.map_id, hS]
  have hn : (0 : R) < (nFreq : R) * nTile := by
    have h1 : (0 : R) < nFreq := by exact_mod_cast hfreq
    have h2 : (0 : R) < nTile := by exact_mod_cast htile
    positivity
  have hSpos : 0 < S := by
    apply List.sum_pos
    · intro x hx
      obtain ⟨z, _, rfl⟩ := List.mem_map.mp hx
      exact hy0 _ _
    · intro h
      have : (0, 0) ∈ samples nFreq nTile := mem_samples_pair.mpr ⟨hfreq, htile⟩
      rw [List.map_eq_nil_iff] at h
      rw [h] at this; cases this
  have hc : 0 < s * (1 / (S / ((nFreq : R) * nTile))) := by positivity
  have hval : ∀ f < nFreq, ∀ t, autoInitPol sqrt nFreq nTile tiles (autos p) (models p) (scale p) f t =
      y f t * (s * (1 / (S / ((nFreq : R) * nTile)))) := by
    intro f hf t
    unfold autoInitPol
    simp only []
    rw [hmean, invNaN_pos (by positivity), (hy f t hf).1, hscale]
    simp only [Option.bind_some, Option.map_some]
    rw [if_neg (not_le.mpr (mul_pos (hy0 f t) hc))]
  refine ⟨_, s * (1 / (S / ((nFreq : R) * nTile))), by unfold visCalAutoInit; rw [if_pos htiles], hc, ?_, ?_, ?_⟩
  · intro f hf t _ ht
    rw [hval f hf t, mul_pow, ← (hy f t hf).2.1 ht]
    ring
  · intro f hf t _ ht
    rw [hval f hf t, (hy f t hf).2.2 ht, one_mul]
  · rw [List.map_congr_left (g := fun x => y x.1 x.2 * (s * (1 / (S / ((nFreq : R) * nTile)))))
      fun x hx => hval x.1 (mem_samples_pair.mp hx).1 x.2, List.sum_map_mul_right, ← hS]
    field_simp

omit [IsStrictOrderedRing R] in
/-- **C85** is not robust: one auto-correlation that is not a number, or is negative where the
model is positive, replaces the initial gains of all tiles and frequencies of the polarisation by 1,
whatever the other data and the scale are. -/
theorem C85_one_bad_auto [IsStrictOrderedRing R] (sqrt : R → Option R) (nFreq nTile : ℕ) (tiles : List ℕ)
    (autos models : ℕ → ℕ → ℕ → Option R) (scale : ℕ → Option R)
    (htiles : ∀ t ∈ tiles, t < nTile) (hnodup : tiles.Nodup)
    (hsqrt : ∀ x, x < 0 → sqrt x = none)
    (p f k : ℕ) (hf : f < nFreq) (hk : k < tiles.length)
    (hbad : autos p f k = none ∨ ∃ a m, autos p f k = some a ∧ models p f k = some m ∧ a < 0 ∧ 0 < m) :
    ∃ g, visCalAutoInit sqrt nFreq nTile tiles autos models scale = .ok g ∧
      ∀ f' t', g p f' t' = 1 := by
  refine ⟨_, by unfold visCalAutoInit; rw [if_pos htiles], ?_⟩
  intro f' t'
  have hlast : lastAuto tiles tiles[k] = some k := by
    unfold lastAuto
    have : ((List.range tiles.length).filter fun i => tiles.getD i 0 = tiles[k]) = [k] := by
      have h1 : ((List.range tiles.length).filter fun i => tiles.getD i 0 = tiles[k]) =
          (List.range tiles.length).filter fun i => i = k := by
        apply List.filter_congr
        intro i hi
        rw [List.mem_range] at hi
        rw [getD_of_lt hi, Bool.eq_iff_iff]
        simp only [decide_eq_true_eq]
        exact hnodup.getElem_inj_iff
      rw [h1]
      have h2 : ([k] : List ℕ).Pairwise (· < ·) := by simp
      have h3 : ((List.range tiles.length).filter fun i => i = k).Pairwise (· < ·) :=
        List.Pairwise.filter _ List.pairwise_lt_range
      apply List.Perm.eq_of_pairwise' (r := fun a b : ℕ => a < b) h3 h2
      rw [List.perm_ext_iff_of_nodup (h3.imp fun h => Nat.ne_of_lt h) (h2.imp fun h => Nat.ne_of_lt h)]
      intro i
      simp only [List.mem_filter, List.mem_range, decide_eq_true_eq, List.mem_singleton]
      constructor
      · exact fun h => h.2
      · rintro rfl; exact ⟨hk, rfl⟩
    rw [this]; rfl
  have hnone : autoGain0 sqrt tiles (autos p) (models p) f tiles[k] = none := by
    unfold autoGain0
    rw [hlast]
    simp only []
    rcases hbad with h | ⟨a, m, h1, h2, ha, hm⟩
    · rw [h]; rfl
    · rw [h1, h2]
      simp only [Option.bind_some]
      rw [invNaN_pos hm]
      apply hsqrt
      exact mul_neg_of_neg_of_pos ha (by positivity)
  have hmean : meanNaN ((samples nFreq nTile).map fun x =>
      autoGain0 sqrt tiles (autos p) (models p) x.1 x.2) = none := by
    unfold meanNaN
    rw [sumNaN_none]
    · rfl
    · refine List.mem_map.mpr ⟨(f, tiles[k]), mem_samples_pair.mpr ⟨hf, htiles _ (List.getElem_mem hk)⟩, hnone⟩
  unfold autoInitPol
  simp only []
  rw [hmean]
  cases autoGain0 sqrt tiles (autos p) (models p) f' t' with
  | none => rfl
  | some x =>
    cases scale p with
    | none => rfl
    | some s => simp [invNaN]

/-- A square root that is exact on a few rational squares. -/
def exSqrtNaN (x : ℚ) : Option ℚ :=
  if x < 0 then none else if x = 4 then some 2 else if x = 9 then some 3 else if x = 16 then some 4
  else some x

/-- Three tiles, two of which have auto-correlations with ratios 4 and 9; scale 6. -/
example : (visCalAutoInit exSqrtNaN 1 3 [0, 2] (fun _ _ k => some ([8, 9].getD k 0))
    (fun _ _ k => some ([2, 1].getD k 0)) (fun _ => some 6)).toOption.map
    (fun g => [g 0 0 0, g 0 0 1, g 0 0 2]) = some [6, 3, 9] := by decide +kernel

/-- The second auto-correlation is not a number. -/
example : (visCalAutoInit exSqrtNaN 1 3 [0, 2] (fun _ _ k => [some 8, none].getD k none)
    (fun _ _ k => some ([2, 1].getD k 0)) (fun _ => some 6)).toOption.map
    (fun g => [g 0 0 0, g 0 0 1, g 0 0 2]) = some [1, 1, 1] := by decide +kernel

end Init

/-! ## C86: the fit -/

section Fit

variable {K R : Type} [Field K] [Field R] [LinearOrder R] [IsStrictOrderedRing R]

/-- **C86** The fit uses exactly the frequencies that are used and have no flagged neighbour. -/
theorem C86_frequencies (nFreq : ℕ) (freqUse : ℕ → ℤ) (f : ℕ) :
    f ∈ fitFreqs nFreq freqUse ↔ f < nFreq ∧ freqUse f ≠ 0 ∧
      (∀ g < nFreq, g + 1 = f ∨ f + 1 = g → freqUse g ≠ 0) := by
  unfold fitFreqs
  simp only []
  split
  · next h =>
    rw [List.filter_eq_nil_iff] at h
    simp only [List.mem_filter, List.mem_range, decide_eq_true_eq]
    constructor
    · rintro ⟨h1, h2⟩
      refine ⟨h1, h2, fun g hg _ => ?_⟩
      simpa using h g (List.mem_range.mpr hg)
    · rintro ⟨h1, h2, _⟩; exact ⟨h1, h2⟩
  · simp only [List.mem_filter, List.mem_range, decide_eq_true_eq]
    constructor
    · rintro ⟨h1, h2, h3⟩
      refine ⟨h1, h2, fun g hg hgf h0 => ?_⟩
      have := h3 g ⟨hg, h0⟩
      apply this
      constructor
      · omega
      · omega
    · rintro ⟨h1, h2, h3⟩
      refine ⟨h1, h2, ?_⟩
      rintro i ⟨hi, h0⟩ ⟨ha, hb⟩
      rcases Nat.lt_trichotomy i f with h | h | h
      · exact h3 i hi (by omega) h0
      · exact h2 (h ▸ h0)
      · exact h3 i hi (by omega) h0

/-- What `np.linalg.lstsq` promises: slope and offset with the least sum of squares. -/
def Spec.LeastSquares (lstsq : List R → List R → R × R) : Prop :=
  ∀ xs ys : List R, xs.length = ys.length → ∀ a b : R,
    ((xs.zip ys).map fun q => ((lstsq xs ys).1 * q.1 + (lstsq xs ys).2 - q.2) ^ 2).sum ≤
      ((xs.zip ys).map fun q => (a * q.1 + b - q.2) ^ 2).sum

/-- A least squares fit exists: the textbook formula. -/
def exLstsq (xs ys : List R) : R × R :=
  let n : R := xs.length
  let d := n * (xs.map fun x => x ^ 2).sum - xs.sum ^ 2
  if d = 0 then (0, ys.sum / n)
  else
    let a := (n * ((xs.zip ys).map fun q => q.1 * q.2).sum - xs.sum * ys.sum) / d
    (a, (ys.sum - a * xs.sum) / n)

theorem sq_split (l : List (R × R)) (a b a' b' : R) :
    (l.map fun q => (a' * q.1 + b' - q.2) ^ 2).sum = (l.map fun q => (a * q.1 + b - q.2) ^ 2).sum +
      2 * ((a' - a) * (l.map fun q => q.1 * (a * q.1 + b - q.2)).sum +
        (b' - b) * (l.map fun q => a * q.1 + b - q.2).sum) +
      (l.map fun q => ((a' - a) * q.1 + (b' - b)) ^ 2).sum := by
  induction l with
  | nil => simp
  | cons q l ih => simp only [List.map_cons, List.sum_cons, ih]; ring

theorem sum_lin1 (l : List (R × R)) (a b : R) : (l.map fun q => a * q.1 + b - q.2).sum =
    a * (l.map Prod.fst).sum + b * l.length - (l.map Prod.snd).sum := by
  induction l with
  | nil => simp
  | cons q l ih => simp only [List.map_cons, List.sum_cons, ih, List.length_cons]; push_cast; ring

theorem sum_lin2 (l : List (R × R)) (a b : R) : (l.map fun q => q.1 * (a * q.1 + b - q.2)).sum =
    a * (l.map fun q => q.1 ^ 2).sum + b * (l.map Prod.fst).sum - (l.map fun q => q.1 * q.2).sum := by
  induction l with
  | nil => simp
  | cons q l ih => simp only [List.map_cons, List.sum_cons, ih]; ring

theorem sum_var (l : List R) (m : R) : (l.map fun x => (x - m) ^ 2).sum =
    (l.map fun x => x ^ 2).sum - 2 * m * l.sum + m ^ 2 * l.length := by
  induction l with
  | nil => simp
  | cons x l ih => simp only [List.map_cons, List.sum_cons, ih, List.length_cons]; push_cast; ring

theorem sum_sq_nonneg {α : Type _} (l : List α) (g : α → R) : 0 ≤ (l.map fun x => g x ^ 2).sum := by
  apply List.sum_nonneg
  intro y hy
  obtain ⟨x, _, rfl⟩ := List.mem_map.mp hy
  exact sq_nonneg _

theorem zip_fst_snd (xs ys : List R) (h : xs.length = ys.length) :
    (xs.zip ys).map Prod.fst = xs ∧ (xs.zip ys).map Prod.snd = ys :=
  ⟨List.map_fst_zip (le_of_eq h), List.map_snd_zip (le_of_eq h.symm)⟩

/-- The hypothesis of the theorems below is met by a function. -/
theorem exLstsq_least : LeastSquares (exLstsq (R := R)) := by
  intro xs ys hlen a' b'
  obtain ⟨hf, hs⟩ := zip_fst_snd xs ys hlen
  have hzl : (xs.zip ys).length = xs.length := by simp [hlen]
  rcases Nat.eq_zero_or_pos xs.length with h0 | hpos
  · have : xs = [] := List.length_eq_zero_iff.mp h0
    subst this; simp
  have hn : (xs.length : R) ≠ 0 := by
    have : xs.length ≠ 0 := by omega
    exact_mod_cast this
  have hnp : (0 : R) < xs.length := by exact_mod_cast hpos
  set a := (exLstsq xs ys).1 with ha
  set b := (exLstsq xs ys).2 with hb
  have hsq : ((xs.zip ys).map fun q => q.1 ^ 2).sum = (xs.map fun x => x ^ 2).sum := by
    conv_rhs => rw [← hf, List.map_map]
    rfl
  have key : ((xs.zip ys).map fun q => q.1 * (a * q.1 + b - q.2)).sum = 0 ∧
      ((xs.zip ys).map fun q => a * q.1 + b - q.2).sum = 0 := by
    rw [sum_lin1, sum_lin2, hf, hs, hsq, hzl]
    by_cases hd : (xs.length : R) * (xs.map fun x => x ^ 2).sum - xs.sum ^ 2 = 0
    · have hE : exLstsq xs ys = (0, ys.sum / (xs.length : R)) := by
        unfold exLstsq; simp only []; rw [if_pos hd]
      have ha0 : a = 0 := by rw [ha, hE]
      have hb0 : b = ys.sum / (xs.length : R) := by rw [hb, hE]
      -- all the abscissae are equal to their mean
      have hv := sum_var xs (xs.sum / xs.length)
      have hv0 : (xs.map fun x => (x - xs.sum / xs.length) ^ 2).sum = 0 := by
        rw [hv]
        have : (xs.length : R) * ((xs.map fun x => x ^ 2).sum - 2 * (xs.sum / xs.length) * xs.sum +
            (xs.sum / xs.length) ^ 2 * xs.length) = 0 := by
          field_simp
          linear_combination hd
        exact (mul_eq_zero.mp this).resolve_left hn
      have hall : ∀ x ∈ xs, x = xs.sum / xs.length := by
        intro x hx
        have h1 : (x - xs.sum / xs.length) ^ 2 ≤ 0 := by
          rw [← hv0]
          apply List.single_le_sum (l := xs.map fun x => (x - xs.sum / xs.length) ^ 2)
          · intro y hy
            obtain ⟨z, _, rfl⟩ := List.mem_map.mp hy
            exact sq_nonneg _
          · exact List.mem_map.mpr ⟨x, hx, rfl⟩
        have h2 : (x - xs.sum / xs.length) ^ 2 = 0 := le_antisymm h1 (sq_nonneg _)
        have := pow_eq_zero_iff (two_ne_zero) |>.mp h2
        linarith
      have hxy : ((xs.zip ys).map fun q => q.1 * q.2).sum = xs.sum / xs.length * ys.sum := by
        rw [List.map_congr_left (g := fun q : R × R => xs.sum / xs.length * q.2)]
        · rw [List.sum_map_mul_left]; congr 2
        · intro q hq
          rw [hall q.1 (List.of_mem_zip hq).1]
      constructor
      · rw [hxy, ha0, hb0]; field_simp; ring
      · rw [ha0, hb0]; field_simp; ring
    · have hE : exLstsq xs ys = ((xs.length * ((xs.zip ys).map fun q => q.1 * q.2).sum -
          xs.sum * ys.sum) / (xs.length * (xs.map fun x => x ^ 2).sum - xs.sum ^ 2),
          (ys.sum - a * xs.sum) / xs.length) := by
        rw [ha]; unfold exLstsq; simp only []; rw [if_neg hd]
      have hb1 : b = (ys.sum - a * xs.sum) / xs.length := by rw [hb, hE]
      have ha1 : a * (xs.length * (xs.map fun x => x ^ 2).sum - xs.sum ^ 2) =
          xs.length * ((xs.zip ys).map fun q => q.1 * q.2).sum - xs.sum * ys.sum := by
        rw [ha, hE]; field_simp
      constructor
      · rw [hb1]; field_simp
        linear_combination ha1
      · rw [hb1]; field_simp; ring
  rw [sq_split (xs.zip ys) a b a' b', key.1, key.2]
  have := sum_sq_nonneg (xs.zip ys) fun q => (a' - a) * q.1 + (b' - b)
  linarith

theorem zip_map_both {α β γ : Type _} (l : List α) (f : α → β) (g : α → γ) :
    (l.map f).zip (l.map g) = l.map fun a => (f a, g a) := by
  induction l with
  | nil => rfl
  | cons a l ih => simp [ih]

/-- **C86** The new gain of a tile with auto-correlations has the phase of its old gain and, as
amplitude, slope times the auto-correlation gain plus offset; among all slopes and offsets, this
one has the least sum of squared differences from the amplitudes of the old gains over the
frequencies of the fit. -/
theorem C86_least_squares (c : AutoFitIn K R) (gain : ℕ → ℕ → K) (tiles : List ℕ) (junk1 junk2 : ℕ → R)
    (hls : LeastSquares c.lstsq) (t : ℕ) (ht : t ∈ tiles) (auto : ℕ → R)
    (hauto : ∀ f, c.auto f t = some (auto f)) :
    ∃ amp : ℕ → R, ∃ a b : R, (∀ f, amp f = a * |auto f| + b) ∧
      (∀ f, (autoFitPol c gain tiles junk1 junk2).gain f t = some (c.cast (amp f) * c.phase (gain f t))) ∧
      ∀ a' b' : R,
        ((fitFreqs c.nFreq c.freqUse).map fun f => (amp f - c.mag (gain f t)) ^ 2).sum ≤
          ((fitFreqs c.nFreq c.freqUse).map fun f =>
            (a' * |auto f| + b' - c.mag (gain f t)) ^ 2).sum := by
  have hfs : ((fitFreqs c.nFreq c.freqUse).filter fun f => (c.auto f t).isSome) =
      fitFreqs c.nFreq c.freqUse := by
    rw [List.filter_eq_self]
    intro f _
    rw [hauto f]; rfl
  refine ⟨fun f => (fitSingle c gain t).1 * |auto f| + (fitSingle c gain t).2,
    (fitSingle c gain t).1, (fitSingle c gain t).2, fun _ => rfl, ?_, ?_⟩
  · intro f
    unfold autoFitPol
    simp only []
    rw [if_pos ht]
    unfold fitGain
    rw [hauto f, Option.map_some, mul_comm |auto f|]
  · intro a' b'
    have hdef : fitSingle c gain t = c.lstsq ((fitFreqs c.nFreq c.freqUse).map fun f => |auto f|)
        ((fitFreqs c.nFreq c.freqUse).map fun f => c.mag (gain f t)) := by
      unfold fitSingle
      simp only []
      rw [hfs]
      congr 1
      apply List.map_congr_left
      intro f _
      rw [hauto f]; rfl
    have := hls ((fitFreqs c.nFreq c.freqUse).map fun f => |auto f|)
      ((fitFreqs c.nFreq c.freqUse).map fun f => c.mag (gain f t)) (by simp) a' b'
    rw [← hdef, zip_map_both, List.map_map, List.map_map] at this
    exact this

/-- **C86** When the amplitude of the old gains is a linear function of the auto-correlation gain
at the frequencies of the fit, the gains of these frequencies are unchanged. -/
theorem C86_exact (c : AutoFitIn K R) (gain : ℕ → ℕ → K) (tiles : List ℕ) (junk1 junk2 : ℕ → R)
    (hls : LeastSquares c.lstsq) (hpolar : ∀ z : K, c.cast (c.mag z) * c.phase z = z)
    (t : ℕ) (ht : t ∈ tiles) (auto : ℕ → R) (hauto : ∀ f, c.auto f t = some (auto f)) (a b : R)
    (hlin : ∀ f < c.nFreq, c.freqUse f ≠ 0 → c.mag (gain f t) = a * |auto f| + b)
    (f : ℕ) (hf : f ∈ fitFreqs c.nFreq c.freqUse) :
    (autoFitPol c gain tiles junk1 junk2).gain f t = some (gain f t) := by
  obtain ⟨amp, _, _, _, hgain, hmin⟩ := C86_least_squares c gain tiles junk1 junk2 hls t ht auto hauto
  have h0 : ((fitFreqs c.nFreq c.freqUse).map fun f => (amp f - c.mag (gain f t)) ^ 2).sum ≤ 0 := by
    refine le_trans (hmin a b) (le_of_eq ?_)
    rw [List.map_congr_left (g := fun _ => (0 : R))]
    · simp
    · intro g hg
      have := (C86_frequencies _ _ _).mp hg
      rw [hlin g this.1 this.2.1]; ring
  have hz : (amp f - c.mag (gain f t)) ^ 2 = 0 := by
    apply le_antisymm _ (sq_nonneg _)
    refine le_trans ?_ h0
    apply List.single_le_sum (l := (fitFreqs c.nFreq c.freqUse).map fun f => (amp f - c.mag (gain f t)) ^ 2)
    · intro x hx
      obtain ⟨g, _, rfl⟩ := List.mem_map.mp hx
      exact sq_nonneg _
    · exact List.mem_map.mpr ⟨f, hf, rfl⟩
  have hamp : amp f = c.mag (gain f t) := by
    have := pow_eq_zero_iff (two_ne_zero) |>.mp hz
    linarith
  rw [hgain f, hamp, hpolar]

omit [IsStrictOrderedRing R] in
/-- **C86** The gains of tiles without auto-correlation are unchanged. -/
theorem C86_other_tiles (c : AutoFitIn K R) (gain : ℕ → ℕ → K) (tiles : List ℕ) (junk1 junk2 : ℕ → R)
    (f t : ℕ) (ht : t ∉ tiles) : (autoFitPol c gain tiles junk1 junk2).gain f t = some (gain f t) := by
  unfold autoFitPol
  simp only []
  rw [if_neg ht]

/-- **C86**, the scale: when every tile has an auto-correlation, it is the mean of the slopes and
does not depend on uninitialised memory. -/
theorem C86_scale_partial (c : AutoFitIn K R) (gain : ℕ → ℕ → K) (nTile : ℕ) (tiles : List ℕ)
    (hall : tiles = List.range nTile) (hpos : 0 < nTile) (junk1 junk2 : ℕ → R) :
    (nTile : R) * autoScale nTile tiles (autoFitPol c gain tiles junk1 junk2) =
      ((List.range nTile).map fun t => (fitSingle c gain t).1).sum := by
  unfold autoScale autoFitPol
  simp only []
  have hne : (nTile : R) ≠ 0 := by
    have : nTile ≠ 0 := by omega
    exact_mod_cast this
  rw [hall, List.length_range, List.map_congr_left (g := fun t => (fitSingle c gain t).1)]
  · field_simp
  · intro t ht
    rw [if_pos ht]

/-- **C86** does not hold for the scale when a tile has no auto-correlation: the scale then depends
on the contents of uninitialised memory. Any value whatever is possible. -/
theorem C86_scale_junk (c : AutoFitIn K R) (gain : ℕ → ℕ → K) (nTile : ℕ) (tiles : List ℕ)
    (hne : tiles ≠ []) (t : ℕ) (ht : t < nTile) (hno : t ∉ tiles) (junk2 : ℕ → R) (v : R) :
    ∃ junk1 : ℕ → R, autoScale nTile tiles (autoFitPol c gain tiles junk1 junk2) = v := by
  classical
  have hlen : (tiles.length : R) ≠ 0 := by
    have : tiles.length ≠ 0 := by simpa using hne
    exact_mod_cast this
  let rest : R := ((List.range nTile).map fun i => if i ∈ tiles then (fitSingle c gain i).1 else 0).sum
  refine ⟨fun i => if i = t then v * tiles.length - rest else 0, ?_⟩
  unfold autoScale autoFitPol
  simp only []
  have hsum : ((List.range nTile).map fun i => if i ∈ tiles then (fitSingle c gain i).1
      else if i = t then v * (tiles.length : R) - rest else 0).sum =
      rest + (v * tiles.length - rest) := by
    have h1 : ((List.range nTile).map fun i => if i ∈ tiles then (fitSingle c gain i).1
        else if i = t then v * (tiles.length : R) - rest else 0) =
        (List.range nTile).map fun i => (if i ∈ tiles then (fitSingle c gain i).1 else 0) +
          (if i = t then v * (tiles.length : R) - rest else 0) := by
      apply List.map_congr_left
      intro i _
      by_cases hi : i ∈ tiles
      · have : i ≠ t := fun h => hno (h ▸ hi)
        simp [hi, this]
      · simp [hi]
    rw [h1, List.sum_map_add]
    congr 1
    rw [List.sum_map_ite_eq, List.count_eq_one_of_mem List.nodup_range (List.mem_range.mpr ht)]
    simp
  rw [hsum]
  field_simp
  ring

omit [IsStrictOrderedRing R] in
/-- **C86** does not hold for observations of a single polarisation: the fit raises an
`IndexError`. -/
theorem C86_single_pol_raises (o : ℕ → AutoFitOut K R) : autoParams 1 o = .error .indexError := rfl

omit [IsStrictOrderedRing R] in
/-- **C86** Otherwise the parameters are the offsets and slopes of the tiles. -/
theorem C86_params (nPol : ℕ) (h : 2 ≤ nPol) (o : ℕ → AutoFitOut K R) :
    ∃ par, autoParams nPol o = .ok par ∧ ∀ p t, par 0 p t = (o p).offset t ∧ par 1 p t = (o p).slope t := by
  unfold autoParams
  rw [if_neg (by omega)]
  exact ⟨_, rfl, fun p t => ⟨rfl, rfl⟩⟩

/-- A fit over the rationals: three frequencies, two tiles, the first with auto-correlations. The
signs are the phases. -/
def exFit : AutoFitIn ℚ ℚ :=
  ⟨fun z => |z|, fun z => if z < 0 then -1 else 1, id, exLstsq, 3, fun _ => 1,
    fun f t => if t = 0 then some ([1, 2, 4].getD f 0) else none⟩

/-- The fit of gains 3, -5, 9 with auto-correlation gains 1, 2, 4. -/
def exFitOut : AutoFitOut ℚ ℚ :=
  autoFitPol exFit (fun f t => if t = 0 then [3, -5, 9].getD f 0 else 7) [0] (fun _ => 100) (fun _ => 0)

/-- An exact linear relation. The scale contains the uninitialised slope of the second tile. -/
example : ([exFitOut.gain 0 0, exFitOut.gain 1 0, exFitOut.gain 2 0, exFitOut.gain 0 1],
    autoScale 2 [0] exFitOut) = ([some 3, some (-5), some 9, some 7], 102) := by decide +kernel

example : ∀ z : ℚ, exFit.cast (exFit.mag z) * exFit.phase z = z := by
  intro z
  show |z| * (if z < 0 then -1 else 1) = z
  split
  · next h => rw [abs_of_neg h]; ring
  · next h => rw [abs_of_nonneg (not_lt.mp h)]; ring

end Fit

end PyFHD
