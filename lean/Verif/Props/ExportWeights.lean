import Verif.Model.ExportWeights
import Verif.Props.Flagging
import Verif.Props.WeightsUpdate
import Verif.Props.SplitWeights
import Verif.Props.CalStats
import Verif.Props.FreqSplit

/-!
# C291-C292: the weights of the HEALPix export
-/

namespace PyFHD

open Spec

/-- What is asked of an observation for the export: baselines with two tiles each, time steps that divide them, a
channel, two time steps at least and one in use. -/
structure Spec.ExportOk (o : FlagObs) : Prop where
  baselines : o.tileA ≠ []
  tiles : o.tileB.length = o.tileA.length
  steps : GoodOffsets o o.nBl
  chan : 0 < o.nFreq
  two : 2 ≤ o.nTime
  used : ∃ t, t < o.nTime ∧ o.timeUse t ≠ 0

theorem exportWeights_ok (o : FlagObs) (q : UvParams) (ok : ExportOk o) (im : ℕ → ℕ → ℕ → ℚ) (w : Weights) :
    ∃ r u, exportWeights o q [] true im w = .ok r ∧ visWeightsUpdate o q w = .ok u ∧
      splitVisWeights o o.nBl u.weights = .ok (.pair r.weights r.even r.odd) ∧
      visNoiseCalc o o.nBl im u.weights (some (r.even, r.odd)) = .ok r.noise := by
  obtain ⟨u, hu, -⟩ := visWeightsUpdate_spec o q w ok.baselines ok.tiles ok.steps ok.chan
  obtain ⟨w', e, d, hs, hlen, -, -, -, he, hd, -⟩ := C14_split_pairs o o.nBl u.weights ok.two ok.used
  obtain ⟨s, hn, -⟩ := C81_value o o.nBl im u.weights e d ok.two hlen
    (fun b hb => (List.mem_append.1 hb).elim (he b) (hd b))
  refine ⟨⟨w', e, d, s⟩, u, ?_, hu, hs, hn⟩
  simp [exportWeights, exportFlagged, hu, hs, hn, bind, Except.bind]

/-- **C291**, partial: without a list of tiles and with `split_ps_export` the export finds its weights. Both samples of a pair get the
same weight. Neither has a positive weight if one of them is to be flagged on the grid of the export, or
was flagged before; the other samples have no weight. Missing: the list of tiles, with which the export fails
(`C291_tile_list`), and the export without split, which fails too (`C291_no_split`). -/
theorem C291_flagged_partial (o : FlagObs) (q : UvParams) (ok : ExportOk o) (im : ℕ → ℕ → ℕ → ℚ) (w : Weights) :
    ∃ r, exportWeights o q [] true im w = .ok r ∧ r.even.length = r.odd.length ∧ r.even.Disjoint r.odd ∧
      (∀ (p f k i j : ℕ), p < o.nPol → r.even[k]? = some i → r.odd[k]? = some j →
        r.weights p f i = r.weights p f j ∧
        (MustFlag o q f i ∨ MustFlag o q f j ∨ w p f i ≤ 0 ∨ w p f j ≤ 0 → r.weights p f i ≤ 0)) ∧
      ∀ p f b, p < o.nPol → b ∉ r.even → b ∉ r.odd → r.weights p f b = 0 := by
  obtain ⟨r, u, hr, hu, hs, -⟩ := exportWeights_ok o q ok im w
  obtain ⟨w', e, d, hs', hlen, -, -, hdis, he, hd, hpair, hother, -⟩ := C14_split_pairs o o.nBl u.weights ok.two ok.used
  rw [hs] at hs'
  simp only [Except.ok.injEq, SplitResult.pair.injEq] at hs'
  obtain ⟨rfl, rfl, rfl⟩ := hs'
  obtain ⟨u', hu', hflag⟩ := C16_update_never_unflags o q w ok.baselines ok.tiles ok.steps ok.chan
  rw [hu] at hu'
  cases hu'
  refine ⟨r, hr, hlen, hdis, fun p f k i j hp hi hj => ⟨(hpair p f k i j hp hi hj).1, fun h => ?_⟩, hother⟩
  obtain ⟨h1, h2, h3, -⟩ := hpair p f k i j hp hi hj
  have hib := he i (List.mem_of_getElem? hi)
  have hjb := hd j (List.mem_of_getElem? hj)
  have key : u.weights p f i ≤ 0 ∨ u.weights p f j ≤ 0 := by
    rcases h with h | h | h | h
    · exact Or.inl ((hflag p f i hib).2 hp h).le
    · exact Or.inr ((hflag p f j hjb).2 hp h).le
    · rcases (hflag p f i hib).1 with e | e
      · exact Or.inl (e ▸ h)
      · exact Or.inl e.le
    · rcases (hflag p f j hjb).1 with e | e
      · exact Or.inr (e ▸ h)
      · exact Or.inr e.le
  rcases key with h | h
  · refine h2.trans ?_
    unfold clip01
    rw [max_eq_right h]
    exact min_le_left _ _
  · exact h3.trans h

/-- The observation with the grid of the export is as good for the export as the observation. -/
theorem exportObs_ok (s2 : ℚ) (o : FlagObs) (dim : ℕ) (kbin : ℚ) (ok : ExportOk o) : ExportOk (exportObs s2 o dim kbin) :=
  ⟨ok.baselines, ok.tiles, ⟨ok.steps.zero, ok.steps.mono, ok.steps.le⟩, ok.chan, ok.two, ok.used⟩

/-- **C291** in terms of the observation and the options of the export, partial: a sample in a channel, of a tile or in a time
step that is not in use, longer than the observation or the new grid allows, or with a footprint that is not inside the new
grid, has no positive weight in the export. Missing: as for `C291_flagged_partial`. -/
theorem C291_own_grid_partial (s2 : ℚ) (o : FlagObs) (dim : ℕ) (kbin : ℚ) (q : UvParams) (ok : ExportOk o)
    (im : ℕ → ℕ → ℕ → ℚ) (w : Weights) :
    ∃ r, exportWeights (exportObs s2 o dim kbin) q [] true im w = .ok r ∧ ∀ p f b, p < o.nPol → b < o.nBl →
      (o.freqUse f = 0 ∨ TileFlagged o b ∨ (∃ t, InStep o o.nBl t b ∧ o.timeUse t = 0) ∨
        o.freq f * (q.norm (q.uu b / kbin) (q.vv b / kbin) * kbin) < o.minBaseline ∨
        o.maxBaseline < o.freq f * (q.norm (q.uu b / kbin) (q.vv b / kbin) * kbin) ∨
        dim * kbin / s2 < o.freq f * (q.norm (q.uu b / kbin) (q.vv b / kbin) * kbin) ∨
        (∃ c ∈ [q.uu b, q.vv b], OffAxis q.psfDim dim (corner q.psfDim dim
          (o.freq f * ((if 0 < q.vv b / kbin then -1 else 1) * (c / kbin)))))) → r.weights p f b ≤ 0 := by
  obtain ⟨r, hr, hlen, -, hpair, hother⟩ := C291_flagged_partial _ q (exportObs_ok s2 o dim kbin ok) im w
  refine ⟨r, hr, fun p f b hp _ h => ?_⟩
  have hm : MustFlag (exportObs s2 o dim kbin) q f b := by
    rcases h with h | h | h | h | h | h | ⟨c, hc, h⟩
    · exact Or.inl h
    · exact Or.inr (Or.inl h)
    · exact Or.inr (Or.inr (Or.inl h))
    · exact Or.inr (Or.inr (Or.inr (Or.inl (Or.inl h))))
    · exact Or.inr (Or.inr (Or.inr (Or.inl (Or.inr (lt_of_le_of_lt (min_le_left _ _) h)))))
    · exact Or.inr (Or.inr (Or.inr (Or.inl (Or.inr (lt_of_le_of_lt (min_le_right _ _) h)))))
    · refine Or.inr (Or.inr (Or.inr (Or.inr ?_)))
      simp only [List.mem_cons, List.not_mem_nil, or_false] at hc
      rcases hc with rfl | rfl
      · exact Or.inl h
      · exact Or.inr h
  by_cases he : b ∈ r.even
  · obtain ⟨k, hk⟩ := List.mem_iff_getElem?.1 he
    obtain ⟨hk', -⟩ := List.getElem?_eq_some_iff.1 hk
    exact (hpair p f k b _ hp hk (List.getElem?_eq_getElem (hlen ▸ hk'))).2 (Or.inl hm)
  · by_cases hd : b ∈ r.odd
    · obtain ⟨k, hk⟩ := List.mem_iff_getElem?.1 hd
      obtain ⟨hk', -⟩ := List.getElem?_eq_some_iff.1 hk
      have := hpair p f k _ b hp (List.getElem?_eq_getElem (hlen.symm ▸ hk')) hk
      exact this.1 ▸ this.2 (Or.inr (Or.inl hm))
    · exact (hother p f b hp he hd).le

/-- **C291**, the other direction, partial: a pair of samples of which none has to be flagged keeps a positive weight in both
halves, provided no tile is unused or some unused tile has a baseline (`C17_last_baseline_zeroed`). -/
theorem C291_kept_partial (o : FlagObs) (q : UvParams) (ok : ExportOk o) (im : ℕ → ℕ → ℕ → ℚ) (w : Weights)
    (htile : (∀ v, ¬ UnusedTile o v) ∨ ∃ b, TileFlagged o b) :
    ∃ r, exportWeights o q [] true im w = .ok r ∧
      ∀ (p f k i j : ℕ), p < o.nPol → r.even[k]? = some i → r.odd[k]? = some j → ¬ MustFlag o q f i → ¬ MustFlag o q f j →
        0 < w p f i → 0 < w p f j →
        r.weights p f i = min (min (w p f i) (w p f j)) 1 ∧ r.weights p f j = min (min (w p f i) (w p f j)) 1 := by
  obtain ⟨r, u, hr, hu, hs, -⟩ := exportWeights_ok o q ok im w
  obtain ⟨w', e, d, hs', -, -, -, -, he, hd, hpair, -⟩ := C14_split_pairs o o.nBl u.weights ok.two ok.used
  have hs2 := hs
  rw [hs] at hs'
  simp only [Except.ok.injEq, SplitResult.pair.injEq] at hs'
  obtain ⟨rfl, rfl, rfl⟩ := hs'
  obtain ⟨u', hu', hkeep⟩ := C16_update_keeps_others_partial o q w ok.baselines ok.tiles ok.steps ok.chan htile
  rw [hu] at hu'
  cases hu'
  refine ⟨r, hr, fun p f k i j hp hi hj mi mj wi wj => ?_⟩
  have hv := split_value o o.nBl u.weights r.weights r.even r.odd ok.two ok.used hs2 p f k i j hp hi hj
  rw [hkeep p f i (he i (List.mem_of_getElem? hi)) mi, hkeep p f j (hd j (List.mem_of_getElem? hj)) mj,
    max_eq_left wi.le, ← min_assoc] at hv
  exact ⟨(hpair p f k i j hp hi hj).1.trans hv, hv⟩

/-- **C291 fails** for `ps_tile_flag_list`: with any list of tiles the export ends with an error. -/
theorem C291_tile_list (o : FlagObs) (q : UvParams) (names : List String) (hn : names ≠ []) (split : Bool)
    (im : ℕ → ℕ → ℕ → ℚ) (w : Weights) : ∀ r, exportWeights o q names split im w ≠ .ok r := by
  intro r h
  unfold exportWeights exportFlagged at h
  rw [if_pos (List.length_pos_iff.2 hn)] at h
  cases hv : visFlagTiles o w names with
  | error e => rw [hv] at h; simp [bind, Except.bind] at h
  | ok v => exact (C22_flag_tiles_raises o w names).1 v hv

/-- **C291 fails** without `split_ps_export` (the export then has no weights), and with fewer than two time steps. -/
theorem C291_no_split (o : FlagObs) (q : UvParams) (names : List String) (split : Bool) (im : ℕ → ℕ → ℕ → ℚ) (w : Weights)
    (h : split = false ∨ o.nTime < 2) : ∀ r, exportWeights o q names split im w ≠ .ok r := by
  intro r hr
  unfold exportWeights at hr
  simp only [bind, Except.bind] at hr
  cases hf : exportFlagged o names w with
  | error e => rw [hf] at hr; cases hr
  | ok w1 =>
  rw [hf] at hr
  simp only [] at hr
  cases hu : visWeightsUpdate o q w1 with
  | error e => rw [hu] at hr; cases hr
  | ok u =>
  rw [hu] at hr
  simp only [] at hr
  rcases h with h | h
  · subst h
    simp only [Bool.false_eq_true, if_false] at hr
    split at hr <;> cases hr
  · cases split
    · simp only [Bool.false_eq_true, if_false] at hr
      split at hr <;> cases hr
    · simp only [if_true, splitVisWeights, if_pos h] at hr
      split at hr <;> cases hr

/-- **C291**, the noise, partial: the noise written with the cubes does not depend on visibilities that are flagged on the grid of
the export or were flagged before. -/
theorem C291_noise_partial (o : FlagObs) (q : UvParams) (ok : ExportOk o) (im im' : ℕ → ℕ → ℕ → ℚ) (w : Weights)
    (h : ∀ p f b, (p < o.nPol → ¬ MustFlag o q f b) → 0 < w p f b → im p f b = im' p f b) :
    ∃ r r', exportWeights o q [] true im w = .ok r ∧ exportWeights o q [] true im' w = .ok r' ∧
      ∀ p f, r.noise p f = r'.noise p f := by
  obtain ⟨r, u, hr, hu, hs, hn⟩ := exportWeights_ok o q ok im w
  obtain ⟨r', u', hr', hu', hs', hn'⟩ := exportWeights_ok o q ok im' w
  obtain ⟨_, e1, hflag⟩ := C16_update_never_unflags o q w ok.baselines ok.tiles ok.steps ok.chan
  rw [hu] at hu' e1
  cases hu'
  cases e1
  rw [hs] at hs'
  simp only [Except.ok.injEq, SplitResult.pair.injEq] at hs'
  obtain ⟨-, he, hd⟩ := hs'
  refine ⟨r, r', hr, hr', fun p f => ?_⟩
  have hb : ∀ b ∈ r.even ++ r.odd, b < o.nBl := by
    obtain ⟨_, _, _, hs2, -, -, -, -, h1, h2, -⟩ := C14_split_pairs o o.nBl u.weights ok.two ok.used
    rw [hs] at hs2
    simp only [Except.ok.injEq, SplitResult.pair.injEq] at hs2
    obtain ⟨-, rfl, rfl⟩ := hs2
    exact fun b hb => (List.mem_append.1 hb).elim (h1 b) (h2 b)
  have hcut : visNoiseCalc o o.nBl im u.weights (some (r.even, r.odd))
      = visNoiseCalc o o.nBl (fun p f b => if b < o.nBl then im' p f b else im p f b) u.weights (some (r.even, r.odd)) := by
    apply C81_flagged
    intro p f b hpos
    split_ifs with hlt
    · obtain ⟨h1, h2⟩ := hflag p f b hlt
      refine h p f b (fun hp hm => ?_) ?_
      · rw [h2 hp hm] at hpos; exact lt_irrefl _ hpos
      · rcases h1 with e | e
        · rwa [e] at hpos
        · rw [e] at hpos; exact absurd hpos (lt_irrefl _)
    · rfl
  have hcut' : visNoiseCalc o o.nBl im' u.weights (some (r.even, r.odd))
      = visNoiseCalc o o.nBl (fun p f b => if b < o.nBl then im' p f b else im p f b) u.weights (some (r.even, r.odd)) := by
    have hz : noiseSq im' u.weights r.even r.odd
        = noiseSq (fun p f b => if b < o.nBl then im' p f b else im p f b) u.weights r.even r.odd := by
      funext p f
      have : (noisePairs u.weights r.even r.odd p f).map (fun q => im' p f q.1 - im' p f q.2)
          = (noisePairs u.weights r.even r.odd p f).map fun q => (if q.1 < o.nBl then im' p f q.1 else im p f q.1)
            - (if q.2 < o.nBl then im' p f q.2 else im p f q.2) := by
        apply List.map_congr_left
        intro x hx
        have hx' := List.of_mem_zip (List.mem_filter.1 hx).1
        rw [if_pos (hb _ (List.mem_append.2 (Or.inl hx'.1))), if_pos (hb _ (List.mem_append.2 (Or.inr hx'.2)))]
      unfold noiseSq
      simp only [this]
    unfold visNoiseCalc
    simp only [hz]
  rw [← he, ← hd, hcut', ← hcut, hn] at hn'
  rw [Except.ok.inj hn']

/-! ## The gridding of the halves -/

theorem visSum_same {K : Type _} [Field K] [StarRing K] (s : SplitIn K) (vis vis' : ℕ → ℕ → K) (F : Finset ℕ)
    (h : ∀ f b, Gridable s.grid.toGridIn f b → b ∈ s.grid.biUse → vis f b = vis' f b) : visSum s vis F = visSum s vis' F := by
  funext y x
  unfold visSum cellSum
  apply Finset.sum_congr rfl
  intro f _
  congr 1
  apply List.map_congr_left
  intro b hb
  split_ifs with h1
  · beta_reduce
    rw [h f b h1.1 hb]
  · rfl

/-- A sample of a half whose partner or itself is flagged is not gridded. -/
theorem export_not_gridded (o : FlagObs) (q : UvParams) (ok : ExportOk o) (im : ℕ → ℕ → ℕ → ℚ) (w : Weights) (r : ExportW)
    (hr : exportWeights o q [] true im w = .ok r) (p : ℕ) (hp : p < o.nPol) (f k i j : ℕ) (hi : r.even[k]? = some i)
    (hj : r.odd[k]? = some j) (hm : MustFlag o q f i ∨ MustFlag o q f j ∨ w p f i ≤ 0 ∨ w p f j ≤ 0)
    (res : ℕ) (mask : Bool) (chans half : List ℕ) :
    ¬ Gridable (exportGrid o q res mask (r.weights p) chans half) f i ∧
      ¬ Gridable (exportGrid o q res mask (r.weights p) chans half) f j := by
  obtain ⟨r', hr', -, -, hpair, -⟩ := C291_flagged_partial o q ok im w
  rw [hr] at hr'
  cases hr'
  obtain ⟨h1, h2⟩ := hpair p f k i j hp hi hj
  have hi0 := h2 hm
  have hj0 : r.weights p f j ≤ 0 := h1 ▸ hi0
  exact ⟨fun hg => absurd (hg.2.2.1 rfl).1 (not_lt.2 hi0), fun hg => absurd (hg.2.2.1 rfl).1 (not_lt.2 hj0)⟩

/-- **C291**, the planes, partial: the planes that the export makes from a half do not depend on the visibilities, of data and
model, of the pairs of which one sample is flagged on the grid of the export or was flagged before. -/
theorem C291_no_influence_partial {K : Type _} [Field K] [StarRing K] [CharZero K] (o : FlagObs) (q : UvParams)
    (ok : ExportOk o) (im : ℕ → ℕ → ℕ → ℚ) (w : Weights) (r : ExportW) (hr : exportWeights o q [] true im w = .ok r)
    (p : ℕ) (hp : p < o.nPol) (half : List ℕ) (hh : half = r.even ∨ half = r.odd) (s s' : SplitIn K) (sok : SplitOk s)
    (res : ℕ) (mask : Bool) (chans : List ℕ) (hg : s.grid.toGridIn = exportGrid o q res mask (r.weights p) chans half)
    (hs' : ∃ v m, s' = { s with grid := { s.grid with vis := v }, model := m })
    (same : ∀ f k i j : ℕ, r.even[k]? = some i → r.odd[k]? = some j →
      ¬ MustFlag o q f i → ¬ MustFlag o q f j → 0 < w p f i → 0 < w p f j → ∀ b, b = i ∨ b = j →
        s.grid.vis f b = s'.grid.vis f b ∧ s.model f b = s'.model f b) (nf : ℕ → ℕ) :
    ∃ st st', freqSplit s nf = .ok st ∧ freqSplit s' nf = .ok st' ∧ st.planes.length = st'.planes.length ∧
      ∀ (fi : ℕ) (P P' : SplitPlanes K), st.planes[fi]? = some P → st'.planes[fi]? = some P' → ∀ y < o.elements, ∀ x < o.dimension,
        P.dirty y x = P'.dirty y x ∧ P.model y x = P'.model y x ∧ P.weights y x = P'.weights y x ∧
          P.variance y x = P'.variance y x := by
  obtain ⟨v, m, rfl⟩ := hs'
  have hagree : ∀ f b, Gridable s.grid.toGridIn f b → b ∈ s.grid.biUse → s.grid.vis f b = v f b ∧ s.model f b = m f b := by
    intro f b hG hb
    rw [hg] at hG
    have hb : b ∈ half := by
      have : s.grid.biUse = half := by rw [hg]; rfl
      rwa [this] at hb
    obtain ⟨r', hr', hlen, -⟩ := C291_flagged_partial o q ok im w
    rw [hr] at hr'
    cases hr'
    obtain ⟨k, i, j, hi, hj, hbij⟩ : ∃ k i j : ℕ, r.even[k]? = some i ∧ r.odd[k]? = some j ∧ (b = i ∨ b = j) := by
      rcases hh with rfl | rfl
      · obtain ⟨k, hk⟩ := List.mem_iff_getElem?.1 hb
        obtain ⟨hk', -⟩ := List.getElem?_eq_some_iff.1 hk
        exact ⟨k, b, r.odd[k]'(hlen ▸ hk'), hk, List.getElem?_eq_getElem _, Or.inl rfl⟩
      · obtain ⟨k, hk⟩ := List.mem_iff_getElem?.1 hb
        obtain ⟨hk', -⟩ := List.getElem?_eq_some_iff.1 hk
        exact ⟨k, r.even[k]'(hlen ▸ hk'), b, List.getElem?_eq_getElem _, hk, Or.inr rfl⟩
    have hno : ¬ (MustFlag o q f i ∨ MustFlag o q f j ∨ w p f i ≤ 0 ∨ w p f j ≤ 0) := by
      intro hm
      have := export_not_gridded o q ok im w r hr p hp f k i j hi hj hm res mask chans half
      rcases hbij with rfl | rfl
      · exact this.1 hG
      · exact this.2 hG
    push Not at hno
    exact same f k i j hi hj hno.1 hno.2.1 hno.2.2.1 hno.2.2.2 b hbij
  obtain ⟨st, h1, h2, h3⟩ := C105_planes_partial s sok nf
  have sok' : SplitOk { s with grid := { s.grid with vis := v }, model := m } :=
    ⟨sok.conj, sok.square, sok.freqs, sok.lengths, sok.res, sok.kpix, sok.beam⟩
  obtain ⟨st', h1', h2', h3'⟩ := C105_planes_partial _ sok' nf
  refine ⟨st, st', h1, h1', h2.trans h2'.symm, fun fi P P' hP hP' y hy x hx => ?_⟩
  have a := h3 fi P hP
  have b := h3' fi P' hP'
  have ey : s.grid.elements = o.elements := by
    show s.grid.toGridIn.elements = _
    rw [hg]; rfl
  have ex : s.grid.dimension = o.dimension := by
    show s.grid.toGridIn.dimension = _
    rw [hg]; rfl
  rw [← ey] at hy
  rw [← ex] at hx
  refine ⟨?_, ?_, ?_, ?_⟩
  · rw [a.dirty y hy x hx, b.dirty y hy x hx]
    congr 1
    exact visSum_same s _ _ _ fun f b h hb => (hagree f b h hb).1
  · rw [a.model y hy x hx, b.model y hy x hx]
    congr 1
    exact visSum_same s _ _ _ fun f b h hb => (hagree f b h hb).2
  · rw [a.weights y hy x hx, b.weights y hy x hx]
    rfl
  · rw [a.variance y hy x hx, b.variance y hy x hx]
    rfl

/-! ## C292: the two halves hold equally many visibilities -/

theorem inside_of_onAxis (psf n : ℕ) (c : ℚ) (hpar : n % 2 = psf % 2) (h : ¬ OffAxis psf n (corner psf n c)) :
    InsideAxis psf n c := by
  unfold OffAxis at h
  push Not at h
  have e : corner psf n c = ((anchor psf n c : ℤ) : ℚ) := by
    have h2 : ((n : ℤ) - psf) / 2 * 2 = (n : ℤ) - psf := by omega
    have h3 : ((((n : ℤ) - psf) / 2 : ℤ) : ℚ) * 2 = (n : ℚ) - psf := by exact_mod_cast h2
    unfold corner anchor
    push_cast
    linarith
  rw [e] at h
  refine ⟨by exact_mod_cast h.1, ?_⟩
  have : ((anchor psf n c + psf : ℤ) : ℚ) < ((n : ℤ) : ℚ) := by push_cast; linarith [h.2]
  exact_mod_cast this

/-- A sample that need not be flagged is gridded if its weight is positive and its length allowed at all frequencies. -/
theorem gridable_of_not_flagged (o : FlagObs) (q : UvParams) (res : ℕ) (w : ℕ → ℕ → ℚ) (chans half : List ℕ) (f b : ℕ)
    (hf : f < o.nFreq) (hx : o.dimension % 2 = q.psfDim % 2) (hy : o.elements % 2 = q.psfDim % 2)
    (hm : ¬ MustFlag o q f b) (hw : 0 < w f b) (hl : LengthOk (exportGrid o q res false w chans half) b) :
    Gridable (exportGrid o q res false w chans half) f b := by
  have hoff : ¬ OffGrid o q f b := fun h => hm (Or.inr (Or.inr (Or.inr (Or.inr h))))
  unfold OffGrid at hoff
  push Not at hoff
  have hfr : (exportGrid o q res false w chans half).freqAll.getD f 0 = o.freq f := by
    simp [exportGrid, List.getD, hf]
  have hu : uPix (exportGrid o q res false w chans half) f b = o.freq f * (flip o q b * (q.uu b / o.kpix)) := by
    unfold uPix
    rw [hfr]
    rfl
  have hv : vPix (exportGrid o q res false w chans half) f b = o.freq f * (flip o q b * (q.vv b / o.kpix)) := by
    unfold vPix
    rw [hfr]
    rfl
  refine ⟨?_, ?_, fun _ => ⟨hw, hl⟩, fun h => absurd h.1 (by simp [exportGrid])⟩
  · rw [hu]; exact inside_of_onAxis _ _ _ hx hoff.1
  · rw [hv]; exact inside_of_onAxis _ _ _ hy hoff.2

theorem filter_length_pairs (P Q : ℕ → Prop) [DecidablePred P] [DecidablePred Q] : ∀ (e d : List ℕ), e.length = d.length →
    (∀ (k i j : ℕ), e[k]? = some i → d[k]? = some j → (P i ↔ Q j)) →
    (e.filter fun b => decide (P b)).length = (d.filter fun b => decide (Q b)).length
  | [], [], _, _ => rfl
  | a :: e, b :: d, hl, h => by
    have ih := filter_length_pairs P Q e d (by simpa using hl) fun k i j hi hj => h (k + 1) i j (by simpa using hi) (by simpa using hj)
    have h0 := h 0 a b rfl rfl
    by_cases hp : P a
    · have hq := h0.1 hp
      simp [hp, hq, ih]
    · have hq : ¬ Q b := fun hq => hp (h0.2 hq)
      simp [hp, hq, ih]

/-- **C292**, partial: in every channel the even and the odd half hold equally many visibilities, if the size of the plane and of the
kernel are both even or both odd, no baseline leaves the range of allowed lengths at any frequency, and the mirror
points are not masked. Missing: the other cases, in which the numbers can differ (`C292_length`). -/
theorem C292_equal_partial (o : FlagObs) (q : UvParams) (ok : ExportOk o) (im : ℕ → ℕ → ℕ → ℚ) (w : Weights)
    (hx : o.dimension % 2 = q.psfDim % 2) (hy : o.elements % 2 = q.psfDim % 2) (res : ℕ) (chans : List ℕ)
    (hl : ∀ (v : ℕ → ℕ → ℚ) (half : List ℕ) (b : ℕ), LengthOk (exportGrid o q res false v chans half) b) :
    ∃ r, exportWeights o q [] true im w = .ok r ∧ ∀ p < o.nPol, ∀ c < o.nFreq,
      gridded (exportGrid o q res false (r.weights p) chans r.even) c
        = gridded (exportGrid o q res false (r.weights p) chans r.odd) c := by
  obtain ⟨r, hr, hlen, -, hpair, -⟩ := C291_flagged_partial o q ok im w
  refine ⟨r, hr, fun p hp c hc => ?_⟩
  unfold gridded
  refine filter_length_pairs _ _ _ _ hlen fun k i j hi hj => ?_
  by_cases hm : MustFlag o q c i ∨ MustFlag o q c j ∨ w p c i ≤ 0 ∨ w p c j ≤ 0
  · exact ⟨fun h => absurd h (export_not_gridded o q ok im w r hr p hp c k i j hi hj hm res false chans r.even).1,
      fun h => absurd h (export_not_gridded o q ok im w r hr p hp c k i j hi hj hm res false chans r.odd).2⟩
  · push Not at hm
    have h1 := (hpair p c k i j hp hi hj).1
    refine ⟨fun h => ?_, fun h => ?_⟩
    · exact gridable_of_not_flagged o q res _ _ _ c j hc hx hy hm.2.1 (h1 ▸ (h.2.2.1 rfl).1) (hl _ _ _)
    · exact gridable_of_not_flagged o q res _ _ _ c i hc hx hy hm.1 (h1 ▸ (h.2.2.1 rfl).1) (hl _ _ _)

/-- **C292 fails**: a pair with a positive weight of which only the even sample has an allowed length at all frequencies is counted in
the even half only, although the lengths of both are allowed in this channel. -/
theorem C292_length (o : FlagObs) (q : UvParams) (ok : ExportOk o) (im : ℕ → ℕ → ℕ → ℚ) (w : Weights)
    (hx : o.dimension % 2 = q.psfDim % 2) (hy : o.elements % 2 = q.psfDim % 2) (res : ℕ) (chans half : List ℕ) (r : ExportW)
    (hr : exportWeights o q [] true im w = .ok r) (p f k i j : ℕ) (hf : f < o.nFreq) (hp : p < o.nPol)
    (hi : r.even[k]? = some i) (hj : r.odd[k]? = some j) (hw : 0 < r.weights p f i)
    (li : LengthOk (exportGrid o q res false (r.weights p) chans half) i)
    (lj : ¬ LengthOk (exportGrid o q res false (r.weights p) chans half) j) :
    ¬ MustFlag o q f j ∧ Gridable (exportGrid o q res false (r.weights p) chans half) f i ∧
      ¬ Gridable (exportGrid o q res false (r.weights p) chans half) f j := by
  obtain ⟨r', hr', -, -, hpair, -⟩ := C291_flagged_partial o q ok im w
  rw [hr] at hr'
  cases hr'
  obtain ⟨-, h2⟩ := hpair p f k i j hp hi hj
  have hno : ¬ (MustFlag o q f i ∨ MustFlag o q f j ∨ w p f i ≤ 0 ∨ w p f j ≤ 0) := fun h => absurd (h2 h) (not_le.2 hw)
  push Not at hno
  exact ⟨hno.2.1, gridable_of_not_flagged o q res _ _ _ f i hf hx hy hno.1 hw li, fun h => lj (h.2.2.1 rfl).2⟩

/-! ## Examples -/

/-- An observation with two time steps of three baselines; tile 4 is not in use. -/
def exExportW : FlagObs := exportObs (7 / 5) (exObs (fun t => if t = 3 then 0 else 1) fun _ => 1) 30 2

theorem exExport_ok : ExportOk exExportW :=
  ⟨by simp [exExportW, exportObs, exObs], rfl, ⟨rfl, fun s t h _ => by simp only [exExportW, exportObs, exObs]; omega,
    fun t h => by simp only [exExportW, exportObs, exObs, FlagObs.nBl] at *; simp; omega⟩, by decide, by decide, 0, by decide, by decide⟩

/-- Sample 0 and its partner keep their weights; the baselines of tile 4 have none. -/
example : (exportWeights exExportW exUv [] true (fun _ _ b => b) fun _ _ _ => 1 / 2).map
    (fun r => (r.even, r.odd, (List.range 6).map (r.weights 1 1)))
    = .ok ([0, 1, 2], [3, 4, 5], [1 / 2, 0, 0, 1 / 2, 0, 0]) := by decide +kernel

/-- A list of tiles; no split; a single time step. -/
example : (exportWeights exExportW exUv ["b"] true (fun _ _ b => b) fun _ _ _ => 1).toOption.isNone = true := by decide +kernel
example : (exportWeights exExportW exUv [] false (fun _ _ b => b) fun _ _ _ => 1).map (fun r => r.even) = .error .nameError := by
  decide +kernel

/-- One pair of samples, the odd one of which is too long in the second channel. -/
def exUneven : FlagObs where
  nPol := 1
  nFreq := 2
  nTile := 2
  nTime := 2
  dimension := 40
  elements := 40
  kpix := 1
  minBaseline := 0
  maxBaseline := 10
  freq := fun f => 1 + f
  freqUse := fun _ => 1
  tileUse := fun _ => 1
  timeUse := fun _ => 1
  tileA := [1, 1]
  tileB := [2, 2]
  binOffset := fun t => t
  tileNames := ["a", "b"]

@[inherit_doc exUneven]
def exUnevenUv : UvParams where
  uu := fun b => 5 + b
  vv := fun _ => 0
  norm := fun x y => |x| + |y|
  psfDim := 4

theorem exUneven_ok : ExportOk exUneven :=
  ⟨by simp [exUneven], rfl, ⟨rfl, fun s t h _ => h, fun t h => by simp only [exUneven, FlagObs.nBl] at *; simp; omega⟩,
    by decide, by decide, 0, by decide, by decide⟩

/-- In the first channel one visibility is gridded in the even half and none in the odd half. -/
example : (exportWeights exUneven exUnevenUv [] true (fun _ _ b => b) fun _ _ _ => 1).map (fun r => (r.even, r.odd, r.weights 0 0 1,
    gridded (exportGrid exUneven exUnevenUv 1 false (r.weights 0) [0] r.even) 0,
    gridded (exportGrid exUneven exUnevenUv 1 false (r.weights 0) [0] r.odd) 0)) = .ok ([0], [1], 1, 1, 0) := by decide +kernel

/-- Both samples with an allowed length. -/
def exEvenUv : UvParams := { exUnevenUv with uu := fun _ => 5 }

/-- Within the range of lengths the halves are equal. -/
example : ∀ (v : ℕ → ℕ → ℚ) (half : List ℕ) (b : ℕ), LengthOk (exportGrid exUneven exEvenUv 1 false v [0] half) b := by
  intro v half b φ hφ
  simp only [exportGrid, exUneven, List.mem_map, List.mem_range] at hφ
  obtain ⟨n, hn, rfl⟩ := hφ
  have h2 : (n : ℚ) ≤ 1 := by
    have : n ≤ 1 := by omega
    exact_mod_cast this
  have h0 : (0 : ℚ) ≤ (n : ℚ) := by positivity
  simp only [blLength, exportGrid, exUneven, exEvenUv, exUnevenUv]
  norm_num
  constructor <;> linarith
example : (exportWeights exUneven exEvenUv [] true (fun _ _ b => b) fun _ _ _ => 1).map (fun r => (
    gridded (exportGrid exUneven exEvenUv 1 false (r.weights 0) [0] r.even) 0,
    gridded (exportGrid exUneven exEvenUv 1 false (r.weights 0) [0] r.odd) 0)) = .ok (1, 1) := by decide +kernel

/-- Inputs of the gridding of a half of `exUneven`. -/
noncomputable def exHalf (w : ℕ → ℕ → ℚ) (half : List ℕ) : SplitIn ℂ where
  grid := { exportGrid exUneven exUnevenUv 1 false w [] half with
    fbin := fun _ => 0, kern := fun _ _ _ _ => 1, group := fun _ => 0, vis := fun f b => f + b, interp := false, noConjugate := false }
  model := fun _ b => b
  nFreq := 2
  nAvg := 1
  freqUse := fun _ => 1
  groupOf := fun _ _ => 0
  rephase := fun _ _ => 1

/-- The hypotheses of `C291_no_influence_partial` can be met. -/
example (w : ℕ → ℕ → ℚ) (half : List ℕ) :
    SplitOk (exHalf w half) ∧ (exHalf w half).grid.toGridIn = exportGrid exUneven exUnevenUv 1 false w [] half := by
  refine ⟨⟨rfl, rfl, by simp [exHalf, exportGrid, exUneven], fun b => ?_, Nat.one_pos, ?_, fun _ _ _ _ _ => rfl⟩, rfl⟩
  · simp only [blLength, exHalf, exportGrid, exUneven, exUnevenUv]
    positivity
  · simp [exHalf, exportGrid, exUneven]

end PyFHD
