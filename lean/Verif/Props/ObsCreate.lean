import Verif.Model.ObsCreate
import Verif.Props.ObsMeta
import Verif.Props.DataSetup
import Verif.Props.WeightsUpdate

/-!
# C267 - C270: the observation as a whole
-/

namespace PyFHD

open Spec

/-- What a successful `create_obs` has computed. -/
theorem createObs_ok (i : ObsIn) (c : ObsOut) (h : createObs i = .ok c) :
    ∃ tb fbin ants a b g m tu, timeBlocks i.time = .ok tb ∧ createFbin i.freq ((i.nFreqAvg.getD 1 : ℕ) * i.freqRes) = .ok fbin ∧
      antennaNumbers i.ant1 i.ant2 i.codes i.mod headerTiles = .ok ants ∧ renumberTiles headerTiles i.numbers ants.1 = .ok a ∧
      renumberTiles headerTiles i.numbers ants.2 = .ok b ∧ imagingGrid i.deg i.imaging = .ok g ∧
      maxBaselineOf (g.kpix : ℝ) g.dimension g.elements (uvPoints (i.freq.map fun (x : ℚ) => (x : ℝ)) i.uv) = .ok c.maxBaseline ∧
      minBaselineOf i.minBaseline (uvPoints (i.freq.map fun (x : ℚ) => (x : ℝ)) i.uv) = .ok c.minBaseline ∧
      readMetafits i.metafits i.alt i.simulation i.overrideRa i.overrideDec = .ok m ∧
      timeUse (i.timeCut.getD []) tb.nTime m.timeRes = .ok tu ∧
      c = { nPol := if i.cfgPol = 0 then i.headerPol else i.cfgPol, nTile := headerTiles, nFreq := i.freq.length, nTime := tb.nTime,
            nBaselines := tb.nBaselines, nVis := i.time.length * i.freq.length, binOffset := tb.binOffset, jdate := jdates i.time,
            freq := i.freq, freqCenter := npMedian i.freq, fbin := fbin, freqUse := List.replicate i.freq.length 1, tileA := a, tileB := b,
            timeUse := tu, tileUse := (tileUse m).1, grid := g, minBaseline := c.minBaseline, maxBaseline := c.maxBaseline,
            obsx := g.dimension / 2, obsy := g.elements / 2, nTimeFlag := tb.nTime - tu.sum, nTileFlag := (tileUse m).2, nFreqFlag := 0,
            info := m } := by
  unfold createObs at h
  simp only [bind, Except.bind, pure, Except.pure] at h
  split at h
  · cases h
  rename_i tb htb
  split at h
  · cases h
  rename_i fb hfb
  split at h
  · cases h
  rename_i ants hants
  split at h
  · cases h
  rename_i a ha
  split at h
  · cases h
  rename_i b hb
  split at h
  · cases h
  rename_i g hg
  split at h
  · cases h
  rename_i hi hhi
  split at h
  · cases h
  rename_i lo hlo
  split at h
  · cases h
  rename_i m hm
  split at h
  · cases h
  rename_i tu htu
  injection h with h
  subst h
  exact ⟨tb, fb, ants, a, b, g, m, tu, htb, hfb, hants, ha, hb, hg, hhi, hlo, hm, htu, rfl⟩

/-! ## C267: the number of tiles -/

/-- The antennas of the file are those of its antenna table: **C267 is violated** for files with fewer than 128 antennas, which raise
an error. -/
theorem C267_fewer_raises (i : ObsIn) (h : i.numbers.length < 128) : ∃ e, createObs i = .error e := by
  cases hc : createObs i with
  | error e => exact ⟨e, rfl⟩
  | ok c =>
    exfalso
    obtain ⟨_, _, ants, a, _, _, _, _, _, _, _, ha, _⟩ := createObs_ok i c hc
    unfold renumberTiles headerTiles at ha
    rw [if_pos h] at ha
    cases ha

theorem renumberStep_length (numbers ants : List ℕ) (i : ℕ) : (renumberStep numbers ants i).length = ants.length := by
  simp [renumberStep]

theorem renumberTiles_length (n : ℕ) (numbers ants l : List ℕ) (h : renumberTiles n numbers ants = .ok l) : l.length = ants.length := by
  unfold renumberTiles at h
  split_ifs at h with hn
  injection h with h
  subst h
  clear hn
  induction n with
  | zero => rfl
  | succ n ih => rw [List.range_succ, List.foldl_append, List.foldl_cons, List.foldl_nil, renumberStep_length, ih]

theorem renumberTiles_other (n : ℕ) (numbers ants l : List ℕ) (h : renumberTiles n numbers ants = .ok l) (k v : ℕ)
    (hk : ants[k]? = some v) (hv : v ∉ numbers.take n) : l[k]? = some v := by
  unfold renumberTiles at h
  split_ifs at h with hn
  injection h with h
  subst h
  have key : ∀ q, q ≤ n → ((List.range q).foldl (renumberStep numbers) ants)[k]? = some v := by
    intro q
    induction q with
    | zero => intro _; exact hk
    | succ q ih =>
      intro hq
      rw [List.range_succ, List.foldl_append, List.foldl_cons, List.foldl_nil]
      conv_lhs => rw [renumberStep]
      rw [List.getElem?_map, ih (by omega), Option.map_some, if_neg]
      intro he
      apply hv
      rw [List.mem_take_iff_getElem]
      refine ⟨q, by omega, ?_⟩
      rw [he, List.getD_eq_getElem?_getD, List.getElem?_eq_getElem (by omega), Option.getD_some]
  exact key n le_rfl

/-- **C267 is violated** for files with more than 128 antennas too: the number of tiles is still 128, and a sample of an antenna beyond the
first 128 of the table keeps its antenna number, which is then taken for the number of a tile. -/
theorem C267_more_left_alone (i : ObsIn) (c : ObsOut) (h : createObs i = .ok c) (ha : ∃ x ∈ i.ant1, 0 < x) (hb : ∃ x ∈ i.ant2, 0 < x)
    (v : ℕ) (hv : v ∈ i.numbers.drop 128) (hn : i.numbers.Nodup) :
    c.nTile < i.numbers.length ∧ ∀ k : ℕ, (i.ant1[k]? = some v → c.tileA[k]? = some v) ∧ (i.ant2[k]? = some v → c.tileB[k]? = some v) := by
  obtain ⟨_, _, ants, a, b, _, _, _, _, _, hants, h1, h2, _, _, _, _, _, hc⟩ := createObs_ok i c h
  rw [C166_positive_partial i.ant1 i.ant2 i.codes i.mod headerTiles ha hb] at hants
  injection hants with hants
  subst hants
  have hnot : v ∉ i.numbers.take 128 := by
    have := List.nodup_append.1 (by rw [List.take_append_drop]; exact hn : (i.numbers.take 128 ++ i.numbers.drop 128).Nodup)
    intro hmem
    exact this.2.2 v hmem v hv rfl
  rw [hc]
  refine ⟨?_, fun k => ⟨fun hk => renumberTiles_other _ _ _ _ h1 k v hk hnot, fun hk => renumberTiles_other _ _ _ _ h2 k v hk hnot⟩⟩
  have : 0 < (i.numbers.drop 128).length := List.length_pos_of_mem hv
  rw [List.length_drop] at this
  show 128 < _
  omega

/-- **C267 (partial).** With 128 antennas the number of tiles is theirs and all are renumbered as described in C42. -/
theorem C267_tiles_partial (i : ObsIn) (c : ObsOut) (h : createObs i = .ok c) (ha : ∃ x ∈ i.ant1, 0 < x) (hb : ∃ x ∈ i.ant2, 0 < x)
    (hl : i.numbers.length = 128) : c.nTile = i.numbers.length ∧ c.tileA = renumber i.numbers i.ant1 ∧ c.tileB = renumber i.numbers i.ant2 := by
  obtain ⟨_, _, ants, a, b, _, _, _, _, _, hants, h1, h2, _, _, _, _, _, hc⟩ := createObs_ok i c h
  rw [C166_positive_partial i.ant1 i.ant2 i.codes i.mod headerTiles ha hb] at hants
  injection hants with hants
  subst hants
  unfold renumberTiles headerTiles at h1 h2
  rw [if_neg (by omega)] at h1 h2
  injection h1 with h1
  injection h2 with h2
  rw [hc]
  refine ⟨hl.symm, ?_, ?_⟩
  · show a = _
    rw [← h1]; unfold renumber; rw [hl]
  · show b = _
    rw [← h2]; unfold renumber; rw [hl]

/-! ## C268: the parts fit together -/

theorem jdates_length (time : List ℤ) (tb : TimeBlocks) (h : timeBlocks time = .ok tb) : (jdates time).length = tb.nTime := by
  unfold timeBlocks at h
  simp only at h
  split_ifs at h with h1
  injection h with h
  rw [← h]
  simp [jdates]

theorem binOffset_length (time : List ℤ) (tb : TimeBlocks) (h : timeBlocks time = .ok tb) : tb.binOffset.length = tb.nTime := by
  unfold timeBlocks at h
  simp only at h
  split_ifs at h with h1
  injection h with h
  rw [← h]
  have hw : (binWidths (idlArgunique time)).length = (idlArgunique time).length := by
    cases hb : idlArgunique time with
    | nil => rfl
    | cons b l => simp [binWidths]
  simp only [List.length_cons, cumsum_length, List.length_take, hw]
  omega

theorem timeUse_shape (cuts : List ℤ) (n : ℕ) (r : ℚ) (u : List ℕ) (h : timeUse cuts n r = .ok u) :
    u.length = n ∧ ∀ x ∈ u, x = 0 ∨ x = 1 := by
  have step : ∀ (v : ℤ) (l l' : List ℕ), timeCutStep cuts n r l v = .ok l' → (l.length = n ∧ ∀ x ∈ l, x = 0 ∨ x = 1) →
      l'.length = n ∧ ∀ x ∈ l', x = 0 ∨ x = 1 := by
    intro v l l' hs hl
    unfold timeCutStep at hs
    split at hs
    · cases hs
    simp only at hs
    split_ifs at hs <;> injection hs with hs <;> subst hs
    · constructor
      · rw [List.length_append, List.length_map, List.length_take, List.length_drop]; omega
      · intro x hx
        rcases List.mem_append.1 hx with hx | hx
        · exact hl.2 x (List.mem_of_mem_take hx)
        · obtain ⟨_, _, rfl⟩ := List.mem_map.1 hx; exact Or.inl rfl
    · constructor
      · simpa using hl.1
      · intro x hx
        obtain ⟨_, _, rfl⟩ := List.mem_map.1 hx; exact Or.inl rfl
    · exact hl
    · exact hl
  have key : ∀ (vs : List ℤ) (l l' : List ℕ), vs.foldlM (timeCutStep cuts n r) l = .ok l' → (l.length = n ∧ ∀ x ∈ l, x = 0 ∨ x = 1) →
      l'.length = n ∧ ∀ x ∈ l', x = 0 ∨ x = 1 := by
    intro vs
    induction vs with
    | nil => intro l l' h hl; simp only [List.foldlM_nil, pure, Except.pure] at h; injection h with h; subst h; exact hl
    | cons v vs ih =>
      intro l l' h hl
      simp only [List.foldlM_cons, bind, Except.bind] at h
      split at h
      · cases h
      · rename_i l1 h1
        exact ih l1 l' h (step v l l1 h1 hl)
  refine key cuts _ u h ⟨by simp, fun x hx => Or.inr (List.eq_of_mem_replicate hx)⟩

theorem sum_zero_one (l : List ℕ) (h : ∀ x ∈ l, x = 0 ∨ x = 1) : l.length - l.sum = l.count 0 ∧ l.sum ≤ l.length := by
  induction l with
  | nil => simp
  | cons x xs ih =>
    obtain ⟨h1, h2⟩ := ih fun y hy => h y (List.mem_cons_of_mem _ hy)
    rcases h x List.mem_cons_self with rfl | rfl
    · simp only [List.length_cons, List.sum_cons, List.count_cons_self, zero_add]
      omega
    · simp only [List.length_cons, List.sum_cons]
      rw [List.count_cons_of_ne (by decide)]
      omega

/-- **C268**, sizes and counts: every array with one entry per integration, channel or sample has that many entries; the recorded
numbers of flagged integrations, tiles and channels are the numbers of zeros in the arrays of flags; the centre of the image is
half its size; the number of visibilities is that of samples times channels. -/
theorem C268_sizes (i : ObsIn) (c : ObsOut) (h : createObs i = .ok c) (ha : ∃ x ∈ i.ant1, 0 < x) (hb : ∃ x ∈ i.ant2, 0 < x)
    (hl1 : i.ant1.length = i.time.length) (hl2 : i.ant2.length = i.time.length) :
    (c.binOffset.length = c.nTime ∧ c.jdate.length = c.nTime ∧ c.timeUse.length = c.nTime) ∧
    (c.freq.length = c.nFreq ∧ c.freqUse.length = c.nFreq ∧ c.fbin.length = c.nFreq) ∧
    (c.tileA.length = i.time.length ∧ c.tileB.length = i.time.length ∧ c.nVis = i.time.length * c.nFreq) ∧
    (c.nTimeFlag = c.timeUse.count 0 ∧ c.nTileFlag = c.tileUse.count 0 ∧ c.nFreqFlag = c.freqUse.count 0) ∧
    (c.obsx = c.grid.dimension / 2 ∧ c.obsy = c.grid.elements / 2) := by
  obtain ⟨tb, fb, ants, a, b, g, m, tu, htb, hfb, hants, h1, h2, hg, hhi, hlo, hm, htu, hc⟩ := createObs_ok i c h
  rw [C166_positive_partial i.ant1 i.ant2 i.codes i.mod headerTiles ha hb] at hants
  injection hants with hants
  subst hants
  obtain ⟨ht1, ht2⟩ := timeUse_shape _ _ _ _ htu
  have hfl : fb.length = i.freq.length := by
    unfold createFbin at hfb
    split at hfb
    · cases hfb
    · injection hfb with hfb; rw [← hfb]; exact fbinLoop_length _ _ _
  rw [hc]
  refine ⟨⟨binOffset_length _ _ htb, jdates_length _ _ htb, ht1⟩, ⟨rfl, List.length_replicate, hfl⟩,
    ⟨(renumberTiles_length _ _ _ _ h1).trans hl1, (renumberTiles_length _ _ _ _ h2).trans hl2, rfl⟩, ⟨?_, ?_, ?_⟩, rfl, rfl⟩
  · show tb.nTime - tu.sum = tu.count 0
    rw [← ht1]
    exact (sum_zero_one tu ht2).1
  · show (tileUse m).2 = (tileUse m).1.count 0
    simp only [tileUse]
    rw [List.count, List.countP_eq_length_filter]
    congr 1
  · show 0 = (List.replicate i.freq.length (1 : ℤ)).count 0
    rw [List.count_replicate]
    rfl

/-- **C268 is violated** for the tiles: the flags of the tiles have as many entries as the metafits file has antennas, whatever the number
of tiles is. -/
theorem C268_tile_flags_any_length (i : ObsIn) (c : ObsOut) (h : createObs i = .ok c) :
    ∃ hd rows use, i.metafits = some (hd, rows) ∧ metaRows rows = .ok use ∧ c.tileUse.length = use.length ∧ c.nTile = 128 := by
  obtain ⟨_, _, _, _, _, _, m, _, _, _, _, _, _, _, _, _, hm, _, hc⟩ := createObs_ok i c h
  cases hf : i.metafits with
  | none => rw [hf] at hm; cases hm
  | some p =>
    obtain ⟨hd, rows⟩ := p
    rw [hf] at hm
    unfold readMetafits at hm
    simp only [bind, Except.bind] at hm
    split at hm
    · cases hm
    · rename_i use hu
      split_ifs at hm
      injection hm with hm
      refine ⟨hd, rows, use, rfl, hu, ?_, by rw [hc]; rfl⟩
      rw [hc]
      show (tileUse m).1.length = _
      rw [← hm]
      simp [tileUse]

/-- **C268**, limits: with the default limit and a baseline of nonzero length on the grid, the shortest length is not above the longest. -/
theorem C268_limits_partial (i : ObsIn) (c : ObsOut) (h : createObs i = .ok c) (hmin : i.minBaseline = none)
    (hg : ∃ f ∈ i.freq, ∃ p ∈ i.uv, Spec.OnGrid (c.grid.kpix : ℝ) c.grid.dimension c.grid.elements (Spec.uvAt (f : ℝ) p) ∧
      Spec.uvAt (f : ℝ) p ≠ (0, 0)) : c.minBaseline ≤ c.maxBaseline := by
  obtain ⟨_, _, _, _, _, g, _, _, _, _, _, _, _, _, hhi, hlo, _, _, hc⟩ := createObs_ok i c h
  obtain ⟨f, hf, p, hp, hon, hne⟩ := hg
  rw [hmin] at hlo
  have hgc : c.grid = g := by rw [hc]
  rw [hgc] at hon
  have := C168_defaults_keep_all _ _ _ _ _ _ _ hhi hlo (f : ℝ) (List.mem_map.2 ⟨f, hf, rfl⟩) p hp hon hne
  exact this.1.trans this.2

/-- **C268 is violated** for the limits: a shortest length above the longest one is accepted, and no baseline is left. -/
theorem C268_limit_above (i : ObsIn) (c : ObsOut) (h : createObs i = .ok c) (o : ℝ) (ho : i.minBaseline = some o)
    (hlt : c.maxBaseline < o) : c.maxBaseline < c.minBaseline := by
  obtain ⟨_, _, _, _, _, g, _, _, _, _, _, _, _, _, hhi, hlo, _, _, hc⟩ := createObs_ok i c h
  rw [ho] at hlo
  obtain ⟨m0, _, hm⟩ := C167_option _ _ _ hlo
  rw [hm]
  exact lt_of_lt_of_le hlt (le_max_left _ _)

/-! ## C269: integrations -/

/-- The observation as the functions for weights read it. -/
structure Spec.Describes (c : ObsOut) (o : FlagObs) : Prop where
  nPol : o.nPol = c.nPol
  nTime : o.nTime = c.nTime
  nTile : o.nTile = c.nTile
  nFreq : o.nFreq = c.nFreq
  binOffset : ∀ t, o.binOffset t = (c.binOffset.getD t 0).toNat
  timeUse : ∀ t, o.timeUse t = (c.timeUse.getD t 0 : ℕ)
  tileUse : ∀ t, o.tileUse t = c.tileUse.getD t 0
  freqUse : ∀ f, o.freqUse f = c.freqUse.getD f 0
  tileA : o.tileA = c.tileA.map fun (x : ℕ) => (x : ℤ)
  tileB : o.tileB = c.tileB.map fun (x : ℕ) => (x : ℤ)

theorem runEnds_sorted (time : List ℤ) : (runEnds time).Pairwise (· < ·) := by
  unfold runEnds
  exact List.pairwise_lt_range.filter _

/-- A sample has the time of a run end exactly when it belongs to that run. -/
theorem time_of_run (time : List ℤ) (hs : time.Pairwise (· ≤ ·)) (t b : ℕ) (ht : t < (runEnds time).length) (hb : b < time.length) :
    time[b]? = time[(runEnds time)[t]]? ↔ (b ≤ (runEnds time)[t] ∧ ∀ (h : 0 < t), (runEnds time)[t - 1] < b) := by
  have hmem : (runEnds time)[t] ∈ runEnds time := List.getElem_mem ht
  have hE := runEnds_lt time _ hmem
  have hsort := List.pairwise_iff_getElem.1 (runEnds_sorted time)
  rcases Nat.lt_or_ge (runEnds time)[t] b with hlt | hle
  · constructor
    · intro he
      exfalso
      exact (runEnd_between time hs _ b hlt.le hb).1 he.symm ⟨_, hmem, le_rfl, hlt⟩
    · rintro ⟨h1, _⟩
      omega
  · rw [runEnd_between time hs b _ hle hE]
    constructor
    · intro h
      refine ⟨hle, fun h0 => ?_⟩
      by_contra hcon
      exact h ⟨_, List.getElem_mem (show t - 1 < (runEnds time).length by omega), by omega, hsort (t - 1) t _ _ (by omega)⟩
    · rintro ⟨_, h2⟩ ⟨e, he, h3, h4⟩
      obtain ⟨k, hk, rfl⟩ := List.getElem_of_mem he
      have hkt : k < t := by
        by_contra hcon
        rcases Nat.eq_or_lt_of_le (Nat.le_of_not_lt hcon) with h | h
        · subst h; omega
        · have := hsort t k ht hk h; omega
      have h5 := h2 (by omega)
      rcases Nat.eq_or_lt_of_le (show k ≤ t - 1 by omega) with h | h
      · subst h; omega
      · have := hsort k (t - 1) hk (by omega) h; omega

theorem jdates_run (time : List ℤ) (hs : time.Pairwise (· ≤ ·)) (t : ℕ) (ht : t < (runEnds time).length) :
    (jdates time)[t]? = time[(runEnds time)[t]]? := by
  have hE := runEnds_lt time _ (List.getElem_mem ht)
  unfold jdates
  rw [C12_idl_argunique time hs, List.map_map, List.getElem?_map, List.getElem?_eq_getElem ht, Option.map_some,
    List.getElem?_eq_getElem hE]
  congr 1
  simp only [Function.comp]
  have : pyIndex time.length (((runEnds time)[t] : ℕ) : ℤ) = some (runEnds time)[t] := by
    unfold pyIndex
    simp [hE]
  rw [this, Option.bind_some, List.getElem?_eq_getElem hE, Option.getD_some]

/-- **C269**, for times in order: the integrations of the observation are those of the file. The offsets split the samples, and a sample
belongs to integration `t` exactly when its time is the `t`-th time of the observation. -/
theorem C269_integrations_partial (i : ObsIn) (c : ObsOut) (h : createObs i = .ok c) (ha : ∃ x ∈ i.ant1, 0 < x) (hb : ∃ x ∈ i.ant2, 0 < x)
    (hl1 : i.ant1.length = i.time.length) (hs : i.time.Pairwise (· ≤ ·)) (o : FlagObs) (ho : Spec.Describes c o) :
    GoodOffsets o o.nBl ∧ o.nBl = i.time.length ∧
      ∀ t b, t < o.nTime → b < o.nBl → (InStep o o.nBl t b ↔ c.jdate[t]? = i.time[b]?) := by
  obtain ⟨tb, fb, ants, a, b, g, m, tu, htb, hfb, hants, h1, h2, hg, hhi, hlo, hm, htu, hc⟩ := createObs_ok i c h
  rw [C166_positive_partial i.ant1 i.ant2 i.codes i.mod headerTiles ha hb] at hants
  injection hants with hants
  subst hants
  have hnb : o.nBl = i.time.length := by
    unfold FlagObs.nBl
    rw [ho.tileA, hc, List.length_map]
    exact (renumberTiles_length _ _ _ _ h1).trans hl1
  rw [timeBlocks_eq _ hs] at htb
  split_ifs at htb with hlen
  injection htb with htb
  set E := runEnds i.time with hE
  have hn : o.nTime = E.length := by rw [ho.nTime, hc, ← htb]
  have hne : i.time ≠ [] := by
    intro h0
    rw [hE, h0] at hlen
    simp [runEnds] at hlen
  have hlast : ∀ (k : ℕ) (hk : k < E.length), k + 1 = E.length → E[k] = i.time.length - 1 := by
    intro k hk hk1
    have hl := runEnds_last i.time hne
    rw [← hE] at hl
    have hdl : E.dropLast.length = k := by rw [List.length_dropLast]; omega
    have : E[k]? = some (i.time.length - 1) := by
      rw [hl, List.getElem?_append_right (by omega), hdl]
      simp
    rw [List.getElem?_eq_getElem hk] at this
    exact Option.some.inj this
  have hltE : ∀ (k : ℕ) (hk : k < E.length), E[k] < i.time.length := fun k hk => runEnds_lt i.time _ (List.getElem_mem hk)
  have hoff0 : o.binOffset 0 = 0 := by rw [ho.binOffset, hc, ← htb]; rfl
  have hoff : ∀ (t : ℕ) (ht : t + 1 < E.length), o.binOffset (t + 1) = E[t] + 1 := by
    intro t ht
    rw [ho.binOffset, hc, ← htb]
    simp only [List.getD_cons_succ]
    rw [List.getD_eq_getElem?_getD, List.getElem?_map, List.getElem?_dropLast, if_pos (by omega),
      List.getElem?_eq_getElem (by omega)]
    simp only [Option.map_some, Option.getD_some]
    omega
  have hend : ∀ (t : ℕ) (ht : t < E.length), stepEnd o o.nBl t = E[t] + 1 := by
    intro t ht
    unfold stepEnd
    rw [hn, hnb]
    by_cases hlt : t + 1 < E.length
    · rw [if_pos hlt, hoff t hlt]
    · rw [if_neg hlt, hlast t ht (by omega)]
      have : 0 < i.time.length := List.length_pos_iff.2 hne
      omega
  have hsort := List.pairwise_iff_getElem.1 (runEnds_sorted i.time)
  have hmonoE : ∀ (s t : ℕ) (hs : s < E.length) (ht : t < E.length), s ≤ t → E[s] ≤ E[t] := by
    intro s t hs ht hst
    rcases Nat.eq_or_lt_of_le hst with rfl | hlt
    · exact le_rfl
    · exact (hsort s t hs ht hlt).le
  refine ⟨⟨hoff0, ?_, ?_⟩, hnb, ?_⟩
  · intro s t hst ht
    rw [hn] at ht
    cases s with
    | zero => rw [hoff0]; omega
    | succ s =>
      obtain ⟨t', rfl⟩ : ∃ t', t = t' + 1 := ⟨t - 1, by omega⟩
      rw [hoff s (by omega), hoff t' ht]
      have := hmonoE s t' (by omega) (by omega) (by omega)
      omega
  · intro t ht
    rw [hn] at ht
    rw [hnb]
    cases t with
    | zero => rw [hoff0]; omega
    | succ t =>
      rw [hoff t ht]
      have := hltE t (by omega)
      omega
  · intro t b ht hbt
    rw [hn] at ht
    rw [hnb] at hbt
    have hj : c.jdate[t]? = i.time[E[t]]? := by
      rw [hc]
      exact jdates_run i.time hs t ht
    have hrun : i.time[b]? = i.time[E[t]]? ↔ (b ≤ E[t] ∧ ∀ (h : 0 < t), E[t - 1] < b) := time_of_run i.time hs t b ht hbt
    rw [hj, eq_comm, hrun]
    unfold InStep
    rw [hend t ht, hn]
    constructor
    · rintro ⟨_, h3, h4⟩
      refine ⟨by omega, fun h0 => ?_⟩
      obtain ⟨t', rfl⟩ : ∃ t', t = t' + 1 := ⟨t - 1, by omega⟩
      rw [hoff t' ht] at h3
      show E[t'] < b
      omega
    · rintro ⟨h3, h4⟩
      refine ⟨ht, ?_, by omega⟩
      cases t with
      | zero => rw [hoff0]; omega
      | succ t =>
        rw [hoff t ht]
        have := h4 (by omega)
        simp only [Nat.add_sub_cancel] at this
        omega

/-- **C269**, flags: for times in order, a sample whose time is that of an integration out of use has weight 0 in every polarisation and
channel after the weights have been updated. -/
theorem C269_flagged_partial (i : ObsIn) (c : ObsOut) (h : createObs i = .ok c) (ha : ∃ x ∈ i.ant1, 0 < x) (hb : ∃ x ∈ i.ant2, 0 < x)
    (hl1 : i.ant1.length = i.time.length) (hl2 : i.ant2.length = i.time.length) (hs : i.time.Pairwise (· ≤ ·)) (hf : i.freq ≠ [])
    (o : FlagObs) (ho : Spec.Describes c o) (q : UvParams) (w : Weights) :
    ∃ r, visWeightsUpdate o q w = .ok r ∧ ∀ (t b p f : ℕ), t < c.nTime → b < i.time.length → p < c.nPol → c.timeUse[t]? = some 0 →
      c.jdate[t]? = i.time[b]? → r.weights p f b = 0 := by
  obtain ⟨hoff, hnb, hstep⟩ := C269_integrations_partial i c h ha hb hl1 hs o ho
  have hsz := C268_sizes i c h ha hb hl1 hl2
  have hne : i.time ≠ [] := by
    intro h0
    obtain ⟨tb, _, _, _, _, _, _, _, htb, _⟩ := createObs_ok i c h
    rw [h0] at htb
    rw [timeBlocks_eq _ List.Pairwise.nil] at htb
    simp [runEnds] at htb
  have hpos : 0 < i.time.length := List.length_pos_iff.2 hne
  have h0 : o.tileA ≠ [] := by
    rw [← List.length_pos_iff]
    show 0 < o.nBl
    omega
  have hl : o.tileB.length = o.tileA.length := by
    rw [ho.tileA, ho.tileB, List.length_map, List.length_map, hsz.2.2.1.1, hsz.2.2.1.2.1]
  have hfr : 0 < o.nFreq := by
    rw [ho.nFreq, ← hsz.2.1.1]
    have : c.freq = i.freq := by
      obtain ⟨_, _, _, _, _, _, _, _, _, _, _, _, _, _, _, _, _, _, hc⟩ := createObs_ok i c h
      rw [hc]
    rw [this]
    exact List.length_pos_iff.2 hf
  obtain ⟨r, hr, hw⟩ := C16_update_never_unflags o q w h0 hl hoff hfr
  refine ⟨r, hr, fun t b p f ht hbt hp htu hj => ?_⟩
  refine (hw p f b (by omega)).2 (by rw [ho.nPol]; exact hp) ?_
  right; right; left
  refine ⟨t, (hstep t b (by rw [ho.nTime]; exact ht) (by omega)).2 hj, ?_⟩
  rw [ho.timeUse, List.getD_eq_getElem?_getD, htu]
  rfl

/-- **C269 is violated** for times out of order: here the second sample, taken at time 2, falls into the integration of time 1. -/
theorem C269_unordered : ∃ (time : List ℤ) (r : TimeBlocks), timeBlocks time = .ok r ∧ r.binOffset = [0, 3] ∧ jdates time = [1, 2] ∧
    time[1]? = some 2 := ⟨[1, 2, 1, 2], ⟨2, [0, 3], 3⟩, by decide +kernel, rfl, by decide +kernel, rfl⟩

/-! ## C270: flags of the metafits file -/

/-- Renumbered antennas are at the place of their number in the table. -/
theorem renumber_iff (numbers : List ℕ) (hn : numbers.Nodup) (ants : List ℕ)
    (h : ∀ i j, i < j → j < numbers.length → numbers.getD j 0 ≠ i + 1) (hall : ∀ x ∈ ants, x ∈ numbers) (k t : ℕ)
    (ht : t < numbers.length) (hk : k < ants.length) :
    (renumber numbers ants)[k]? = some (t + 1) ↔ ants[k]? = numbers[t]? := by
  have hmem := hall _ (List.getElem_mem hk)
  obtain ⟨j, hj, hje⟩ := List.getElem_of_mem hmem
  have hget : ∀ q (hq : q < numbers.length), numbers.getD q 0 = numbers[q] := by
    intro q hq
    rw [List.getD_eq_getElem?_getD, List.getElem?_eq_getElem hq, Option.getD_some]
  have hkj : ants[k]? = some (numbers.getD j 0) := by rw [List.getElem?_eq_getElem hk, hget j hj, hje]
  rw [C42_renumber_partial numbers hn ants h k j hj hkj, hkj, hget j hj, List.getElem?_eq_getElem ht, Option.some.injEq, Option.some.injEq,
    Nat.add_right_cancel_iff]
  exact ⟨fun he => by subst he; rfl, fun he => (List.Nodup.getElem_inj_iff hn).1 he⟩

/-- **C270 (partial).** For 128 tiles that C42 renumbers correctly, metafits files that list every antenna once for each polarisation with
the same flag: a sample involves an unused tile exactly when the metafits file flags the antenna at the place of one of its antennas
in the antenna table. -/
theorem C270_flagged_partial (i : ObsIn) (c : ObsOut) (h : createObs i = .ok c) (ha : ∃ x ∈ i.ant1, 0 < x) (hb : ∃ x ∈ i.ant2, 0 < x)
    (hl1 : i.ant1.length = i.time.length) (hl2 : i.ant2.length = i.time.length) (hnum : i.numbers.length = 128) (hnd : i.numbers.Nodup)
    (hal : ∀ j k, j < k → k < i.numbers.length → i.numbers.getD k 0 ≠ j + 1) (hall1 : ∀ x ∈ i.ant1, x ∈ i.numbers)
    (hall2 : ∀ x ∈ i.ant2, x ∈ i.numbers) (hd : MetaHdr) (rows : List MetaRow) (hmf : i.metafits = some (hd, rows))
    (hrows : ∀ p, (∃ r ∈ rows, r.pol = p) → ((rows.filter fun q => q.pol = p).map fun q => q.antenna).Perm (List.range 128))
    (hagree : ∀ r ∈ rows, ∀ s ∈ rows, r.antenna = s.antenna → r.flag = s.flag)
    (o : FlagObs) (ho : Spec.Describes c o) (b : ℕ) (hbt : b < i.time.length) :
    TileFlagged o b ↔ ∃ r ∈ rows, r.flag = 1 ∧ (i.ant1[b]? = i.numbers[r.antenna]? ∨ i.ant2[b]? = i.numbers[r.antenna]?) := by
  obtain ⟨hT, hA, hB⟩ := C267_tiles_partial i c h ha hb hnum
  obtain ⟨_, _, _, _, _, _, m, _, _, _, _, _, _, _, _, _, hm, _, hc⟩ := createObs_ok i c h
  rw [hmf] at hm
  unfold readMetafits at hm
  simp only [bind, Except.bind] at hm
  split at hm
  · cases hm
  rename_i use hu
  split_ifs at hm
  injection hm with hm
  obtain ⟨hlen, p0, _, huse⟩ := C165_tile_of_antenna rows use hu 128 hrows
  have hTU : c.tileUse = use.map fun r => (1 : ℤ) - (r.flag : ℤ) := by
    rw [hc]
    show (tileUse m).1 = _
    rw [← hm]
    simp [tileUse]
  have htu : ∀ (t : ℕ) (ht : t < use.length), o.tileUse t = 0 ↔ use[t].flag = 1 := by
    intro t ht
    rw [ho.tileUse, hTU, List.getD_eq_getElem?_getD, List.getElem?_map, List.getElem?_eq_getElem ht, Option.map_some, Option.getD_some]
    omega
  have htile : ∀ (ants : List ℕ) (l : List ℤ) (t : ℕ), (∀ x ∈ ants, x ∈ i.numbers) → ants.length = i.time.length →
      l = (renumber i.numbers ants).map (fun (x : ℕ) => (x : ℤ)) → t < 128 → (l[b]? = some ((t : ℤ) + 1) ↔ ants[b]? = i.numbers[t]?) := by
    intro ants l t hall hla hl ht
    rw [← renumber_iff i.numbers hnd ants hal hall b t (by omega) (by omega), hl, List.getElem?_map]
    cases (renumber i.numbers ants)[b]? with
    | none => simp
    | some v => simp only [Option.map_some, Option.some.injEq]; omega
  have hnT : o.nTile = 128 := by rw [ho.nTile, hT, hnum]
  have hoA : o.tileA = (renumber i.numbers i.ant1).map fun (x : ℕ) => (x : ℤ) := by rw [ho.tileA, hA]
  have hoB : o.tileB = (renumber i.numbers i.ant2).map fun (x : ℕ) => (x : ℤ) := by rw [ho.tileB, hB]
  unfold TileFlagged UnusedTile
  constructor
  · rintro ⟨v, ⟨t, ht, h0, rfl⟩, hv⟩
    rw [hnT] at ht
    have htl : t < use.length := by omega
    obtain ⟨hmem, hant, _, _⟩ := huse t htl
    refine ⟨use[t], hmem, (htu t htl).1 h0, ?_⟩
    rw [hant]
    rw [htile i.ant1 _ t hall1 hl1 hoA ht, htile i.ant2 _ t hall2 hl2 hoB ht] at hv
    exact hv
  · rintro ⟨r, hr, hf1, hv⟩
    have hra : r.antenna < 128 := by
      have hp := hrows r.pol ⟨r, hr, rfl⟩
      have : r.antenna ∈ (rows.filter fun q => q.pol = r.pol).map fun q => q.antenna :=
        List.mem_map.2 ⟨r, List.mem_filter.2 ⟨hr, by simp⟩, rfl⟩
      exact List.mem_range.1 ((hp.mem_iff).1 this)
    have htl : r.antenna < use.length := by omega
    obtain ⟨hmem, hant, _, _⟩ := huse r.antenna htl
    refine ⟨(r.antenna : ℤ) + 1, ⟨r.antenna, by omega, ?_, rfl⟩, ?_⟩
    · rw [htu _ htl, ← hf1]
      exact hagree _ hmem _ hr hant
    · rw [htile i.ant1 _ _ hall1 hl1 hoA hra, htile i.ant2 _ _ hall2 hl2 hoB hra]
      exact hv

/-- **C270**, weights: every sample with an antenna flagged in the metafits file has weight 0 after the weights have been updated. -/
theorem C270_weights_partial (i : ObsIn) (c : ObsOut) (h : createObs i = .ok c) (ha : ∃ x ∈ i.ant1, 0 < x) (hb : ∃ x ∈ i.ant2, 0 < x)
    (hl1 : i.ant1.length = i.time.length) (hl2 : i.ant2.length = i.time.length) (hnum : i.numbers.length = 128) (hnd : i.numbers.Nodup)
    (hal : ∀ j k, j < k → k < i.numbers.length → i.numbers.getD k 0 ≠ j + 1) (hall1 : ∀ x ∈ i.ant1, x ∈ i.numbers)
    (hall2 : ∀ x ∈ i.ant2, x ∈ i.numbers) (hd : MetaHdr) (rows : List MetaRow) (hmf : i.metafits = some (hd, rows))
    (hrows : ∀ p, (∃ r ∈ rows, r.pol = p) → ((rows.filter fun q => q.pol = p).map fun q => q.antenna).Perm (List.range 128))
    (hagree : ∀ r ∈ rows, ∀ s ∈ rows, r.antenna = s.antenna → r.flag = s.flag) (hs : i.time.Pairwise (· ≤ ·)) (hf : i.freq ≠ [])
    (o : FlagObs) (ho : Spec.Describes c o) (q : UvParams) (w : Weights) :
    ∃ u, visWeightsUpdate o q w = .ok u ∧ ∀ r ∈ rows, r.flag = 1 → ∀ (b p f : ℕ), b < i.time.length → p < c.nPol →
      (i.ant1[b]? = i.numbers[r.antenna]? ∨ i.ant2[b]? = i.numbers[r.antenna]?) → u.weights p f b = 0 := by
  obtain ⟨hoff, hnb, hstep⟩ := C269_integrations_partial i c h ha hb hl1 hs o ho
  have hsz := C268_sizes i c h ha hb hl1 hl2
  have hne : i.time ≠ [] := by
    intro h0
    obtain ⟨tb, _, _, _, _, _, _, _, htb, _⟩ := createObs_ok i c h
    rw [h0] at htb
    rw [timeBlocks_eq _ List.Pairwise.nil] at htb
    simp [runEnds] at htb
  have hpos : 0 < i.time.length := List.length_pos_iff.2 hne
  have h0 : o.tileA ≠ [] := by
    rw [← List.length_pos_iff]
    show 0 < o.nBl
    omega
  have hl : o.tileB.length = o.tileA.length := by
    rw [ho.tileA, ho.tileB, List.length_map, List.length_map, hsz.2.2.1.1, hsz.2.2.1.2.1]
  have hfr : 0 < o.nFreq := by
    rw [ho.nFreq, ← hsz.2.1.1]
    have : c.freq = i.freq := by
      obtain ⟨_, _, _, _, _, _, _, _, _, _, _, _, _, _, _, _, _, _, hc⟩ := createObs_ok i c h
      rw [hc]
    rw [this]
    exact List.length_pos_iff.2 hf
  obtain ⟨u, hu, hw⟩ := C16_update_never_unflags o q w h0 hl hoff hfr
  refine ⟨u, hu, fun r hr hr1 b p f hbt hp hv => ?_⟩
  refine (hw p f b (by omega)).2 (by rw [ho.nPol]; exact hp) ?_
  right; left
  exact (C270_flagged_partial i c h ha hb hl1 hl2 hnum hnd hal hall1 hall2 hd rows hmf hrows hagree o ho b hbt).2 ⟨r, hr, hr1, hv⟩

/-! ## An observation -/

/-- The rows of a metafits file for 128 tiles, the second of which is flagged. -/
def exRows128 : List MetaRow :=
  (List.range 128).flatMap fun (j : ℕ) => [⟨j, "Y", "Tile", 377, if j = 1 then 1 else 0⟩, ⟨j, "X", "Tile", 377, if j = 1 then 1 else 0⟩]

/-- Two integrations of two baselines, between antennas 1 and 2 and antennas 1 and 3. -/
noncomputable def exObsIn (numbers : List ℕ) : ObsIn :=
  { cfgPol := 2, headerPol := 4, freq := [1, 2, 3], freqRes := 1, nFreqAvg := some 2, time := [5, 5, 7, 7], ant1 := [1, 1, 1, 1],
    ant2 := [2, 3, 2, 3], codes := none, mod := 256, numbers := numbers, uv := [(1, 0), (2, 0), (1, 0), (2, 0)], deg := 57,
    imaging := ⟨none, some (1 / 2), some 64, some 64⟩, minBaseline := none, metafits := some (⟨0, 0, 0, 0, 2, "0,0"⟩, exRows128), alt := 370,
    simulation := false, overrideRa := none, overrideDec := none, timeCut := none }

/-- The numbers 1 to 128, in order. -/
def exNumbers128 : List ℕ := (List.range 128).map fun (j : ℕ) => j + 1

theorem exObsIn_ok (numbers : List ℕ) (hn : 128 ≤ numbers.length) : ∃ c, createObs (exObsIn numbers) = .ok c := by
  classical
  have h1 : timeBlocks (exObsIn numbers).time = .ok ⟨2, [0, 2], 2⟩ := by
    show timeBlocks [5, 5, 7, 7] = _
    decide +kernel
  have h2 : createFbin (exObsIn numbers).freq (((exObsIn numbers).nFreqAvg.getD 1 : ℕ) * (exObsIn numbers).freqRes) = .ok [0, 0, 1] := by
    show createFbin [1, 2, 3] (((2 : ℕ) : ℚ) * 1) = _
    decide +kernel
  have h3 : antennaNumbers (exObsIn numbers).ant1 (exObsIn numbers).ant2 (exObsIn numbers).codes (exObsIn numbers).mod headerTiles =
      .ok ([1, 1, 1, 1], [2, 3, 2, 3]) := by
    show antennaNumbers [1, 1, 1, 1] [2, 3, 2, 3] none 256 128 = _
    decide +kernel
  have h4 : ∀ l, ∃ l', renumberTiles headerTiles (exObsIn numbers).numbers l = .ok l' := by
    intro l
    unfold renumberTiles
    rw [if_neg (by show ¬ numbers.length < 128; omega)]
    exact ⟨_, rfl⟩
  obtain ⟨a, ha⟩ := h4 [1, 1, 1, 1]
  obtain ⟨b, hb⟩ := h4 [2, 3, 2, 3]
  have h5 : ∃ g, imagingGrid (exObsIn numbers).deg (exObsIn numbers).imaging = .ok g ∧ g.kpix = 1 / 2 ∧ g.dimension = 64 ∧ g.elements = 64 := by
    show ∃ g, imagingGrid 57 ⟨none, some (1 / 2), some 64, some 64⟩ = .ok g ∧ _
    refine ⟨⟨1 / 2, 64, 64, 57 / (1 / 2 * 64)⟩, ?_, rfl, rfl, rfl⟩
    simp [imagingGrid, setKpix, setDimensions, bind, Except.bind]
  obtain ⟨g, hg, hk, hd, he⟩ := h5
  have hmem : ((1 : ℝ), (0 : ℝ)) ∈ uvPoints ((exObsIn numbers).freq.map fun (x : ℚ) => (x : ℝ)) (exObsIn numbers).uv := by
    show ((1 : ℝ), (0 : ℝ)) ∈ uvPoints ([1, 2, 3].map fun (x : ℚ) => (x : ℝ)) [(1, 0), (2, 0), (1, 0), (2, 0)]
    simp [uvPoints]
  have hmx : ∀ l : List ℝ, (∃ x, x ∈ l) → (∃ m, npMaxR l = .ok m) ∧ ∃ m, npMinR l = .ok m := by
    intro l hl
    cases l with
    | nil => simp at hl
    | cons x xs => exact ⟨⟨_, rfl⟩, _, rfl⟩
  obtain ⟨hi, hhi⟩ : ∃ hi, maxBaselineOf (g.kpix : ℝ) g.dimension g.elements
      (uvPoints ((exObsIn numbers).freq.map fun (x : ℚ) => (x : ℝ)) (exObsIn numbers).uv) = .ok hi := by
    unfold maxBaselineOf
    refine (hmx _ ⟨|uvLength (1, 0)|, List.mem_map.2 ⟨(1, 0), List.mem_filter.2 ⟨hmem, ?_⟩, rfl⟩⟩).1
    rw [hk, hd, he, decide_eq_true_iff]
    norm_num
  obtain ⟨lo, hlo⟩ : ∃ lo, minBaselineOf (exObsIn numbers).minBaseline
      (uvPoints ((exObsIn numbers).freq.map fun (x : ℚ) => (x : ℝ)) (exObsIn numbers).uv) = .ok lo := by
    unfold minBaselineOf
    obtain ⟨m, hm⟩ := (hmx (((uvPoints ((exObsIn numbers).freq.map fun (x : ℚ) => (x : ℝ)) (exObsIn numbers).uv).map uvLength).filter
      fun l => decide (l ≠ 0)) ⟨uvLength (1, 0), List.mem_filter.2 ⟨List.mem_map.2 ⟨(1, 0), hmem, rfl⟩, by simp [uvLength]⟩⟩).2
    rw [hm]
    exact ⟨m, rfl⟩
  have h6 : ∃ m, readMetafits (exObsIn numbers).metafits (exObsIn numbers).alt (exObsIn numbers).simulation (exObsIn numbers).overrideRa
      (exObsIn numbers).overrideDec = .ok m := by
    show ∃ m, readMetafits (some (⟨0, 0, 0, 0, 2, "0,0"⟩, exRows128)) 370 false none none = .ok m
    have : (readMetafits (some (⟨0, 0, 0, 0, 2, "0,0"⟩, exRows128)) 370 false none none).toOption.isSome = true := by decide +kernel
    revert this
    cases readMetafits (some (⟨0, 0, 0, 0, 2, "0,0"⟩, exRows128)) 370 false none none with
    | error e => intro h; cases h
    | ok m => intro _; exact ⟨m, rfl⟩
  obtain ⟨m, hm⟩ := h6
  have h7 : timeUse ((exObsIn numbers).timeCut.getD []) 2 m.timeRes = .ok [1, 1] := rfl
  unfold createObs
  simp only [h1, h2, h3, ha, hb, hg, hhi, hlo, hm, h7, bind, Except.bind, pure, Except.pure]
  exact ⟨_, rfl⟩

/-- The hypotheses of C267 to C270 are met. -/
example : (∃ c, createObs (exObsIn exNumbers128) = .ok c) ∧ (∃ x ∈ (exObsIn exNumbers128).ant1, 0 < x) ∧
    (∃ x ∈ (exObsIn exNumbers128).ant2, 0 < x) ∧ (exObsIn exNumbers128).numbers.length = 128 ∧ (exObsIn exNumbers128).numbers.Nodup ∧
    (∀ j k, j < k → k < (exObsIn exNumbers128).numbers.length → (exObsIn exNumbers128).numbers.getD k 0 ≠ j + 1) ∧
    (∀ x ∈ (exObsIn exNumbers128).ant1, x ∈ (exObsIn exNumbers128).numbers) ∧
    (∀ x ∈ (exObsIn exNumbers128).ant2, x ∈ (exObsIn exNumbers128).numbers) ∧ (exObsIn exNumbers128).time.Pairwise (· ≤ ·) := by
  have hN : (exObsIn exNumbers128).numbers = exNumbers128 := rfl
  have hA : (exObsIn exNumbers128).ant1 = [1, 1, 1, 1] := rfl
  have hB : (exObsIn exNumbers128).ant2 = [2, 3, 2, 3] := rfl
  have hT : (exObsIn exNumbers128).time = [5, 5, 7, 7] := rfl
  rw [hN, hA, hB, hT]
  refine ⟨exObsIn_ok _ (by decide +kernel), ⟨1, by simp, by omega⟩, ⟨2, by simp, by omega⟩, by decide +kernel, by decide +kernel, ?_,
    by decide +kernel, by decide +kernel, by decide +kernel⟩
  intro j k hjk hk
  have : exNumbers128.getD k 0 = k + 1 := by
    unfold exNumbers128 at hk ⊢
    rw [List.length_map, List.length_range] at hk
    rw [List.getD_eq_getElem?_getD, List.getElem?_map, List.getElem?_range hk]
    rfl
  omega

/-- The rows list each antenna once for each polarisation, with the same flag. -/
example : (∀ p, (∃ r ∈ exRows128, r.pol = p) → ((exRows128.filter fun q => q.pol = p).map fun q => q.antenna).Perm (List.range 128)) ∧
    (∀ r ∈ exRows128, ∀ s ∈ exRows128, r.antenna = s.antenna → r.flag = s.flag) ∧ ∃ r ∈ exRows128, r.flag = 1 ∧ r.antenna = 1 := by
  have hp : ∀ r ∈ exRows128, r.pol = "Y" ∨ r.pol = "X" := by decide +kernel
  refine ⟨?_, by decide +kernel, by decide +kernel⟩
  rintro p ⟨r, hr, rfl⟩
  rcases hp r hr with h | h
  · rw [h]
    have : ((exRows128.filter fun q => q.pol = "Y").map fun q => q.antenna) = List.range 128 := by decide +kernel
    rw [this]
  · rw [h]
    have : ((exRows128.filter fun q => q.pol = "X").map fun q => q.antenna) = List.range 128 := by decide +kernel
    rw [this]

/-- With 129 antennas the last keeps its number. -/
example : (∃ c, createObs (exObsIn (exNumbers128 ++ [200])) = .ok c) ∧ 200 ∉ (exNumbers128 ++ [200]).take 128 :=
  ⟨exObsIn_ok _ (by decide +kernel), by decide +kernel⟩

/-- A view of any observation with the properties used by the functions for weights. -/
example (c : ObsOut) : ∃ o, Spec.Describes c o :=
  ⟨{ nPol := c.nPol, nFreq := c.nFreq, nTile := c.nTile, nTime := c.nTime, dimension := 0, elements := 0, kpix := 0, minBaseline := 0,
     maxBaseline := 0, freq := fun f => c.freq.getD f 0, freqUse := fun f => c.freqUse.getD f 0, tileUse := fun t => c.tileUse.getD t 0,
     timeUse := fun t => (c.timeUse.getD t 0 : ℕ), tileA := c.tileA.map fun (x : ℕ) => (x : ℤ),
     tileB := c.tileB.map fun (x : ℕ) => (x : ℤ), binOffset := fun t => (c.binOffset.getD t 0).toNat, tileNames := [] },
   ⟨rfl, rfl, rfl, rfl, fun _ => rfl, fun _ => rfl, fun _ => rfl, fun _ => rfl, rfl, rfl⟩⟩

end PyFHD
