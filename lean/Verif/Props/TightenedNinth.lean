import Verif.Props.FlagRenumber
import Verif.Props.AutoRenumber

/-!
# Theorems tightened after wrong programs had passed (ninth part)
-/

namespace PyFHD

open Spec

theorem maskOf_getD_lt {n : ℕ} {l : List ℕ} {f : ℕ} (h : f < n) : (maskOf n l).getD f 0 = if f ∈ l then 1 else 0 := by
  simp [maskOf, h]

/-- **C285**, what the fit to the auto-correlations computes inside `calibrate`: for every polarisation and every tile with
auto-correlations there are a slope and an offset, those of `lstsq` for the channels in use whose neighbours are in use too and whose
auto-correlations *of this polarisation and tile* are numbers; the amplitude of the new gain is on this line, its phase is that of the
gain before. Other tiles and other polarisations are left alone. -/
theorem C285_fitted (lstsq : List ℝ → List ℝ → ℝ × ℝ) (nPol nFreq : ℕ) (auto : ℕ → ℕ → ℕ → Option ℝ) (tiles : List ℕ) (u : InUse)
    (g g' : Gains) (h : autoFitOf lstsq nPol nFreq auto tiles u g = .ok g') :
    (∀ p < nPol, ∀ t ∈ tiles, ∃ fs : List ℕ, fs.Nodup ∧
      (∀ f, f ∈ fs ↔ f < nFreq ∧ f ∈ u.freqs ∧ (f = 0 ∨ f - 1 ∈ u.freqs) ∧ (f + 1 = nFreq ∨ f + 1 ∈ u.freqs) ∧
        ∃ a, auto p f t = some a) ∧
      ∃ s o, (s, o) = lstsq (fs.map fun f => |(auto p f t).getD 0|) (fs.map fun f => ‖g p f t‖) ∧
        ∀ f, (∀ a, auto p f t = some a →
            g' p f t = ((|a| * s + o : ℝ) : ℂ) * Complex.exp ((Complex.arg (g p f t) : ℂ) * Complex.I)) ∧
          (auto p f t = none → g' p f t = 0)) ∧
    (∀ p < nPol, ∀ t, t ∉ tiles → ∀ f, g' p f t = g p f t) ∧
    (∀ p, nPol ≤ p → ∀ f t, g' p f t = g p f t) := by
  have h' := Except.ok.inj h
  refine ⟨?_, ?_, ?_⟩
  · intro p hp t ht
    refine ⟨(fitFreqs nFreq fun f => (maskOf nFreq u.freqs).getD f 0).filter fun f => (auto p f t).isSome, ?_, ?_, _, _, rfl, ?_⟩
    · apply List.Nodup.filter
      unfold fitFreqs
      simp only []
      split_ifs <;> exact List.Nodup.filter _ List.nodup_range
    · intro f
      have hmem : f ∈ fitFreqs nFreq (fun f => (maskOf nFreq u.freqs).getD f 0) ↔
          f < nFreq ∧ f ∈ u.freqs ∧ (f = 0 ∨ f - 1 ∈ u.freqs) ∧ (f + 1 = nFreq ∨ f + 1 ∈ u.freqs) := by
        have hfl : ∀ i, i ∈ (List.range nFreq).filter (fun f => decide ((maskOf nFreq u.freqs).getD f 0 = 0)) ↔
            i < nFreq ∧ i ∉ u.freqs := by
          intro i
          rw [List.mem_filter, List.mem_range]
          constructor
          · rintro ⟨h1, h2⟩
            refine ⟨h1, fun hi => ?_⟩
            rw [decide_eq_true_eq, maskOf_getD_lt h1, if_pos hi] at h2
            exact absurd h2 one_ne_zero
          · rintro ⟨h1, h2⟩
            exact ⟨h1, by rw [decide_eq_true_eq, maskOf_getD_lt h1, if_neg h2]⟩
        have hne : ∀ i, i < nFreq → ((maskOf nFreq u.freqs).getD i 0 ≠ 0 ↔ i ∈ u.freqs) := by
          intro i hi
          rw [maskOf_getD_lt hi]
          by_cases hm : i ∈ u.freqs
          · simp [hm]
          · simp [hm]
        unfold fitFreqs
        simp only []
        split_ifs with he
        · rw [List.mem_filter, List.mem_range, decide_eq_true_eq]
          constructor
          · rintro ⟨h1, h2⟩
            have hall : ∀ i, i < nFreq → i ∈ u.freqs := by
              intro i hi
              by_contra hc
              have := (hfl i).2 ⟨hi, hc⟩
              rw [he] at this
              exact absurd this List.not_mem_nil
            refine ⟨h1, hall f h1, ?_, ?_⟩
            · by_cases h0 : f = 0
              · exact Or.inl h0
              · exact Or.inr (hall _ (by omega))
            · by_cases h0 : f + 1 = nFreq
              · exact Or.inl h0
              · exact Or.inr (hall _ (by omega))
          · rintro ⟨h1, h2, _⟩
            exact ⟨h1, (hne f h1).2 h2⟩
        · rw [List.mem_filter, List.mem_range, decide_eq_true_eq]
          constructor
          · rintro ⟨h1, h2, h3⟩
            refine ⟨h1, (hne f h1).1 h2, ?_, ?_⟩
            · by_cases h0 : f = 0
              · exact Or.inl h0
              · right
                by_contra hc
                exact h3 (f - 1) ((hfl _).2 ⟨by omega, hc⟩) ⟨by omega, by omega⟩
            · by_cases h0 : f + 1 = nFreq
              · exact Or.inl h0
              · right
                by_contra hc
                exact h3 (f + 1) ((hfl _).2 ⟨by omega, hc⟩) ⟨by omega, by omega⟩
          · rintro ⟨h1, h2, h3, h4⟩
            refine ⟨h1, (hne f h1).2 h2, ?_⟩
            rintro i hi ⟨h5, h6⟩
            obtain ⟨hi1, hi2⟩ := (hfl i).1 hi
            have : i = f ∨ (i + 1 = f) ∨ i = f + 1 := by omega
            rcases this with rfl | rfl | rfl
            · exact hi2 h2
            · rcases h3 with h3 | h3
              · omega
              · exact hi2 (by simpa using h3)
            · rcases h4 with h4 | h4
              · omega
              · exact hi2 h4
      rw [List.mem_filter, hmem, Option.isSome_iff_exists]
      tauto
    · intro f
      have e : g' p f t = ((fitGain
          { mag := fun z : ℂ => ‖z‖, phase := fun z => Complex.exp ((Complex.arg z : ℂ) * Complex.I), cast := fun x : ℝ => (x : ℂ),
            lstsq := lstsq, nFreq := nFreq, freqUse := fun f => (maskOf nFreq u.freqs).getD f 0, auto := auto p }
          (g p) t f).getD 0) := by
        rw [← h']
        simp only [if_pos hp, autoFitPol, if_pos ht]
      refine ⟨fun a ha => ?_, fun ha => ?_⟩
      · rw [e]
        unfold fitGain fitSingle
        simp only [ha, Option.map_some, Option.getD_some]
      · rw [e]
        unfold fitGain
        simp only [ha, Option.map_none, Option.getD_none]
  · intro p hp t ht f
    rw [← h']
    simp only [if_pos hp, autoFitPol, if_neg ht, Option.getD_some]
  · intro p hp f t
    rw [← h']
    simp only [if_neg (Nat.not_lt.2 hp)]

/-- Two polarisations with different auto-correlations, four channels of which the last is flagged: the gain of the second
polarisation is the line at its own auto-correlation. -/
example : ∃ g', autoFitOf (fun _ _ => (2, 1)) 2 4 (fun p _ _ => some (p + 1 : ℝ)) [0] ⟨[0, 1, 2], [0]⟩ (fun _ _ _ => 1) = .ok g' ∧
    g' 1 0 0 = 5 := by
  refine ⟨_, rfl, ?_⟩
  obtain ⟨fs, _, _, s, o, hso, hg⟩ := (C285_fitted (fun _ _ => (2, 1)) 2 4 (fun p _ _ => some (p + 1 : ℝ)) [0] ⟨[0, 1, 2], [0]⟩
    (fun _ _ _ => 1) _ rfl).1 1 (by norm_num) 0 (by simp)
  obtain ⟨rfl, rfl⟩ := Prod.mk.inj hso
  rw [(hg 0).1 2 (by norm_num)]
  norm_num

/-! ## The starting gains -/

/-- **C85**, as called by `calibrate`, the scale: when the amplitudes of the data are `γ²` times those of the model in the channels in
use (whatever they are in the flagged ones), the scale of the starting gains is `γ`. -/
theorem C85_scale (c : CalRunIn ℂ ℝ) (p : ℕ) (γ b : ℝ) (hγ : 0 < γ)
    (hvis : ∀ f < c.nFreq, c.freqUse f = true → ∀ s < c.nBl * c.nTime, ‖c.vis p f s‖ = γ ^ 2 * ‖c.model p f s‖)
    (hb : resistantMean (((List.range c.nFreq).filter fun f => c.freqUse f).flatMap fun f =>
      (List.range (c.nBl * c.nTime)).map fun s => ‖c.model p f s‖) 2 = some b) (hb0 : b ≠ 0) :
    autoScaleOf c p = some γ := by
  have e : (((List.range c.nFreq).filter fun f => c.freqUse f).flatMap fun f =>
      (List.range (c.nBl * c.nTime)).map fun s => ‖c.vis p f s‖) =
      (((List.range c.nFreq).filter fun f => c.freqUse f).flatMap fun f =>
      (List.range (c.nBl * c.nTime)).map fun s => ‖c.model p f s‖).map fun x => γ ^ 2 * x + 0 := by
    rw [List.map_flatMap]
    apply List.flatMap_congr
    intro f hf
    rw [List.mem_filter, List.mem_range] at hf
    rw [List.map_map]
    apply List.map_congr_left
    intro s hs
    rw [hvis f hf.1 hf.2 s (List.mem_range.1 hs)]
    simp
  unfold autoScaleOf
  simp only [e, C80_affine _ 2 (γ ^ 2) 0 (by positivity), hb, Option.map_some, bind, Option.bind, if_neg hb0]
  rw [add_zero, mul_div_assoc, div_self hb0, mul_one, Real.sqrt_sq hγ.le]

theorem sum_samples_pos (l : List ℝ) (h : ∀ x ∈ l, 0 ≤ x) (h1 : ∃ x ∈ l, 0 < x) : 0 < l.sum := by
  induction l with
  | nil => obtain ⟨x, hx, _⟩ := h1; exact absurd hx List.not_mem_nil
  | cons a l ih =>
    rw [List.sum_cons]
    have ha := h a List.mem_cons_self
    have hl := List.sum_nonneg fun x hx => h x (List.mem_cons_of_mem a hx)
    obtain ⟨x, hx, hx0⟩ := h1
    rcases List.mem_cons.1 hx with rfl | hx
    · linarith
    · have := ih (fun y hy => h y (List.mem_cons_of_mem a hy)) ⟨x, hx, hx0⟩
      linarith

/-- **C85**, as called by `calibrate`: with auto-correlations `data` that are not negative, not all zero, and positive ones of the model, there is one
positive factor such that the starting gains are this factor times the root of data over model, 1 where the data vanish, and the factor itself for
tiles without auto-correlations; the factor makes the mean of the roots the scale. -/
theorem C85_start (c : CalRunIn ℂ ℝ) (tiles : List ℕ) (autos models : ℕ → ℕ → ℕ → Option ℝ) (htiles : ∀ t ∈ tiles, t < c.nTile)
    (p : ℕ) (γ : ℝ) (hγ : 0 < γ) (hscale : autoScaleOf c p = some γ) (data model : ℕ → ℕ → ℝ)
    (hdata : ∀ f < c.nFreq, ∀ t ∈ tiles, 0 ≤ data f t ∧ 0 < model f t)
    (hpos : ∃ f < c.nFreq, ∃ t < c.nTile, t ∈ tiles → 0 < data f t)
    (hautos : ∀ f < c.nFreq, ∀ k, (h : k < tiles.length) → autos p f k = some (data f tiles[k]) ∧
      models p f k = some (model f tiles[k])) :
    ∃ (g : Gains) (k : ℝ), autoInitOf c tiles autos models = .ok g ∧ 0 < k ∧
      (∀ f < c.nFreq, ∀ t < c.nTile,
        (t ∈ tiles → 0 < data f t → g p f t = ((k * √(data f t / model f t) : ℝ) : ℂ)) ∧
        (t ∈ tiles → data f t = 0 → g p f t = 1) ∧ (t ∉ tiles → g p f t = (k : ℂ))) ∧
      k * ((samples c.nFreq c.nTile).map fun x => if x.2 ∈ tiles then √(data x.1 x.2 / model x.1 x.2) else 1).sum =
        γ * (c.nFreq * c.nTile) := by
  classical
  set y : ℕ → ℕ → ℝ := fun f t => if t ∈ tiles then √(data f t / model f t) else 1 with hy
  have hg0 : ∀ f < c.nFreq, ∀ t, autoGain0 sqrtNaN tiles (autos p) (models p) f t = some (y f t) := by
    intro f hf t
    unfold autoGain0
    cases hl : lastAuto tiles t with
    | none => simp [hy, lastAuto_none.1 hl]
    | some k =>
      have hk := lastAuto_some hl
      obtain ⟨hk1, hk2⟩ := List.getElem?_eq_some_iff.1 hk
      have ht : t ∈ tiles := hk2 ▸ List.getElem_mem hk1
      obtain ⟨h1, h2⟩ := hautos f hf k hk1
      obtain ⟨d0, m0⟩ := hdata f hf t ht
      simp only [h1, h2, hk2, Option.bind_some, invNaN_pos m0, hy, if_pos ht]
      unfold sqrtNaN
      rw [mul_one_div, if_neg (not_lt.2 (by positivity))]
  have hy0 : ∀ f < c.nFreq, ∀ t, 0 ≤ y f t := by
    intro f hf t
    simp only [hy]
    split_ifs
    · exact Real.sqrt_nonneg _
    · exact zero_le_one
  set S := ((samples c.nFreq c.nTile).map fun x => y x.1 x.2).sum with hS
  have hmem : ∀ x ∈ samples c.nFreq c.nTile, x.1 < c.nFreq ∧ x.2 < c.nTile := by
    intro x hx
    simp only [samples, List.mem_flatMap, List.mem_map, List.mem_range] at hx
    obtain ⟨f, hf, t, ht, rfl⟩ := hx
    exact ⟨hf, ht⟩
  obtain ⟨f0, hf0, t0, ht0, hpos⟩ := hpos
  have hSpos : 0 < S := by
    apply sum_samples_pos
    · intro x hx
      obtain ⟨s, hs, rfl⟩ := List.mem_map.1 hx
      exact hy0 _ (hmem s hs).1 _
    · refine ⟨y f0 t0, List.mem_map.2 ⟨(f0, t0), ?_, rfl⟩, ?_⟩
      · simp only [samples, List.mem_flatMap, List.mem_map, List.mem_range]
        exact ⟨f0, hf0, t0, ht0, rfl⟩
      · simp only [hy]
        split_ifs with h
        · exact Real.sqrt_pos.2 (div_pos (hpos h) (hdata f0 hf0 t0 h).2)
        · exact one_pos
  have hN : (0 : ℝ) < c.nFreq * c.nTile := by
    have h1 : (0 : ℝ) < c.nFreq := by exact_mod_cast (by omega : 0 < c.nFreq)
    have h2 : (0 : ℝ) < c.nTile := by exact_mod_cast (by omega : 0 < c.nTile)
    positivity
  have hmean : meanNaN ((samples c.nFreq c.nTile).map fun s => autoGain0 sqrtNaN tiles (autos p) (models p) s.1 s.2) =
      some (S / (c.nFreq * c.nTile)) := by
    have e1 : (samples c.nFreq c.nTile).map (fun s => autoGain0 sqrtNaN tiles (autos p) (models p) s.1 s.2) =
        (samples c.nFreq c.nTile).map fun s => some (y s.1 s.2) :=
      List.map_congr_left fun s hs => hg0 _ (hmem s hs).1 _
    have e2 : sumNaN ((samples c.nFreq c.nTile).map fun s => some (y s.1 s.2)) = some S := by
      rw [hS]
      generalize samples c.nFreq c.nTile = l
      induction l with
      | nil => rfl
      | cons a l ih => simp only [List.map_cons, sumNaN, ih, List.sum_cons]; rfl
    unfold meanNaN
    rw [e1, e2, List.length_map]
    simp only [Option.map_some, samples, List.length_flatMap, List.length_map, List.length_range, List.map_const', List.sum_replicate,
      smul_eq_mul, Nat.cast_mul]
  have hM : 0 < S / (c.nFreq * c.nTile : ℝ) := div_pos hSpos hN
  refine ⟨fun q f t => ((autoInitPol sqrtNaN c.nFreq c.nTile tiles (autos q) (models q) (autoScaleOf c q) f t : ℝ) : ℂ),
    γ * (1 / (S / (c.nFreq * c.nTile))), ?_, by positivity, ?_, ?_⟩
  · unfold autoInitOf visCalAutoInit
    rw [if_pos htiles]
    rfl
  · intro f hf t ht
    have hv : autoInitPol sqrtNaN c.nFreq c.nTile tiles (autos p) (models p) (autoScaleOf c p) f t =
        if y f t * (γ * (1 / (S / (c.nFreq * c.nTile)))) ≤ 0 then 1 else y f t * (γ * (1 / (S / (c.nFreq * c.nTile)))) := by
      unfold autoInitPol
      simp only [hmean, hg0 f hf t, hscale, Option.bind_some, Option.map_some, invNaN_pos hM]
    have hk : 0 < γ * (1 / (S / (c.nFreq * c.nTile : ℝ))) := by positivity
    refine ⟨fun h1 h2 => ?_, fun h1 h2 => ?_, fun h1 => ?_⟩
    · have hyp : 0 < √(data f t / model f t) := Real.sqrt_pos.2 (div_pos h2 (hdata f hf t h1).2)
      simp only [hv, hy, if_pos h1]
      rw [if_neg (not_le.2 (mul_pos hyp hk)), mul_comm]
    · simp only [hv, hy, if_pos h1, h2]
      simp
    · simp only [hv, hy, if_neg h1, one_mul]
      rw [if_neg (not_le.2 hk)]
  · show γ * (1 / (S / (c.nFreq * c.nTile : ℝ))) * S = _
    field_simp

/-- Three tiles and two channels, of which the second is flagged; the data of the first are nine times the model. -/
noncomputable def exStart : CalRunIn ℂ ℝ where
  mag := fun z => ‖z‖
  cast := fun x => ⟨x, 0⟩
  norm := fun a b => √(a ^ 2 + b ^ 2)
  nPol := 1
  nFreq := 2
  nTile := 3
  nTime := 1
  nBl := 3
  vis := fun _ f _ => if f = 0 then ⟨9, 0⟩ else ⟨1000, 0⟩
  model := fun _ _ _ => ⟨1, 0⟩
  weight := fun _ _ _ => 1
  tileA := fun s => [0, 0, 1].getD s 0
  tileB := fun s => [1, 2, 2].getD s 0
  tileUse := fun _ => true
  freqUse := fun f => f == 0
  uu := fun _ => 1
  vv := fun _ => 1
  freq := fun _ => 1
  kpix := 1
  dimension := 16
  elements := 16
  minBaseline := 0
  maxBaseline := 100
  minCal := 0
  maxCal := 0
  timeAverage := true
  gain := fun _ _ _ => 1
  maxIter := 10
  phaseFitIter := 2
  thresh := 0
  adaptive := false
  base := 1
  noRef := true

theorem exStart_scale : autoScaleOf exStart 0 = some 3 := by
  refine C85_scale exStart 0 3 1 (by norm_num) ?_ ?_ one_ne_zero
  · intro f _ hu s _
    have h0 : f = 0 := by simpa [exStart] using hu
    subst h0
    have e9 : (⟨9, 0⟩ : ℂ) = ((9 : ℝ) : ℂ) := rfl
    have e1 : (⟨1, 0⟩ : ℂ) = ((1 : ℝ) : ℂ) := rfl
    simp only [exStart, if_true, e9, e1, Complex.norm_real]
    norm_num
  · apply resistantMean_same
    · simp [exStart, List.range_succ]
    · intro x hx
      have e1 : (⟨1, 0⟩ : ℂ) = ((1 : ℝ) : ℂ) := rfl
      simp only [exStart, List.mem_flatMap, List.mem_map] at hx
      obtain ⟨_, _, _, _, rfl⟩ := hx
      simp only [e1, Complex.norm_real]
      norm_num

/-- The tiles 0 and 2 have auto-correlations, tile 2 none in the first channel: its gain there is 1. -/
example : ∃ (g : Gains) (k : ℝ), autoInitOf exStart [0, 2] (fun _ f i => some (if i = 1 ∧ f = 0 then 0 else 4)) (fun _ _ _ => some 1) = .ok g ∧
    0 < k ∧ g 0 0 2 = 1 ∧ g 0 1 1 = (k : ℂ) ∧ g 0 1 0 = ((k * √4 : ℝ) : ℂ) := by
  obtain ⟨g, k, h1, h2, h3, _⟩ := C85_start exStart [0, 2] (fun _ f i => some (if i = 1 ∧ f = 0 then 0 else 4)) (fun _ _ _ => some 1)
    (by simp [exStart]) 0 3 (by norm_num) exStart_scale (fun f t => if t = 2 ∧ f = 0 then 0 else 4) (fun _ _ => 1)
    (by intro f _ t _; split_ifs <;> norm_num) ⟨0, by simp [exStart], 0, by simp [exStart], by norm_num⟩
    (by
      intro f _ k hk
      have : k = 0 ∨ k = 1 := by simp at hk; omega
      rcases this with rfl | rfl <;> simp)
  refine ⟨g, k, h1, h2, ?_, ?_, ?_⟩
  · exact (h3 0 (by simp [exStart]) 2 (by simp [exStart])).2.1 (by simp) (by simp)
  · exact (h3 1 (by simp [exStart]) 1 (by simp [exStart])).2.2 (by simp)
  · have := (h3 1 (by simp [exStart]) 0 (by simp [exStart])).1 (by simp) (by norm_num)
    rw [this]
    norm_num

end PyFHD
