import Verif.Model.ObsMeta
import Mathlib.Tactic.FieldSimp
import Mathlib.Tactic.NormNum
import Mathlib.Tactic.Positivity

/-!
# Metadata of an observation (C163 to C171)
-/

namespace PyFHD

/-! ## The metafits file -/

/-- **C163 is violated**: without a metafits file an exception is raised, whatever the observation. -/
theorem C163_no_metafits_raises (alt : ℚ) (sim : Bool) (ra dec : Option ℚ) : readMetafits none alt sim ra dec = .error .nameError := rfl

/-- **C163**, with a file: the result is that of the file. -/
theorem C163_from_file_partial (h : MetaHdr) (rows : List MetaRow) (alt : ℚ) (sim : Bool) (ra dec : Option ℚ) (m : ObsMeta)
    (hm : readMetafits (some (h, rows)) alt sim ra dec = .ok m) :
    m.obsra = h.ra ∧ m.obsdec = h.dec ∧ m.phasera = h.raPhase ∧ m.phasedec = h.decPhase ∧ m.timeRes = h.intTime ∧
      (∀ r ∈ ra, m.origPhasera = r) ∧ (ra = none → m.origPhasera = h.raPhase) ∧
      (∀ r ∈ dec, m.origPhasedec = r) ∧ (dec = none → m.origPhasedec = h.decPhase) := by
  unfold readMetafits at hm
  simp only [bind, Except.bind] at hm
  cases hr : metaRows rows with
  | error e => rw [hr] at hm; cases hm
  | ok use =>
    rw [hr] at hm
    simp only [] at hm
    split_ifs at hm
    simp only [Except.ok.injEq] at hm
    subst hm
    refine ⟨rfl, rfl, rfl, rfl, rfl, ?_, ?_, ?_, ?_⟩
    · rintro r hr; simp only [Option.mem_def] at hr; simp [hr]
    · intro hr; simp [hr]
    · rintro r hr; simp only [Option.mem_def] at hr; simp [hr]
    · intro hr; simp [hr]

theorem metaRows_sorted (rows use : List MetaRow) (h : metaRows rows = .ok use) :
    ∃ p, (∃ r, r ∈ rows ∧ r.pol = p ∧ (∀ q ∈ rows, r.antenna ≤ q.antenna)) ∧ use.Perm (rows.filter fun q => q.pol = p) ∧
      use.Pairwise fun a b => a.antenna ≤ b.antenna := by
  unfold metaRows at h
  simp only [] at h
  have : Std.Total (fun a b : MetaRow => a.antenna ≤ b.antenna) := ⟨fun a b => le_total _ _⟩
  have : IsTrans MetaRow (fun a b : MetaRow => a.antenna ≤ b.antenna) := ⟨fun a b c => le_trans⟩
  have hs := List.pairwise_insertionSort (fun a b : MetaRow => a.antenna ≤ b.antenna) rows
  have hp := List.perm_insertionSort (fun a b : MetaRow => a.antenna ≤ b.antenna) rows
  cases hl : rows.insertionSort (fun a b : MetaRow => a.antenna ≤ b.antenna) with
  | nil => rw [hl] at h; cases h
  | cons r rest =>
    rw [hl] at h hs hp
    simp only [Except.ok.injEq] at h
    refine ⟨r.pol, ⟨r, hp.mem_iff.mp (by simp), rfl, ?_⟩, ?_, ?_⟩
    · intro q hq
      rcases List.mem_cons.mp (hp.mem_iff.mpr hq) with rfl | hq
      · exact le_refl _
      · exact (List.pairwise_cons.mp hs).1 q hq
    · rw [← h]
      exact hp.filter _
    · rw [← h]
      exact hs.filter _

/-- **C165**: if the rows of each polarisation number the antennas from zero without gaps, the flag and name of a tile are those of the
row of its antenna, for the polarisation of some row of the first antenna. -/
theorem C165_tile_of_antenna (rows use : List MetaRow) (h : metaRows rows = .ok use) (n : ℕ)
    (hn : ∀ p, (∃ r ∈ rows, r.pol = p) → ((rows.filter fun q => q.pol = p).map fun q => q.antenna).Perm (List.range n)) :
    use.length = n ∧ ∃ p, (∃ r ∈ rows, r.antenna = 0 ∧ r.pol = p) ∧
      ∀ (i : ℕ) (hi : i < use.length), use[i] ∈ rows ∧ use[i].antenna = i ∧ use[i].pol = p ∧
        ∀ q ∈ rows, q.antenna = i → q.pol = p → q.flag = use[i].flag ∧ q.tile = use[i].tile ∧ q.height = use[i].height := by
  obtain ⟨p, ⟨r, hr, hrp, hmin⟩, hperm, hsort⟩ := metaRows_sorted rows use h
  have hrange := hn p ⟨r, hr, hrp⟩
  have hanti : use.map (fun q => q.antenna) = List.range n := by
    refine List.Perm.eq_of_pairwise (le := fun a b : ℕ => a ≤ b) (fun a b _ _ h1 h2 => le_antisymm h1 h2) ?_ ?_
      ((hperm.map _).trans hrange)
    · rw [List.pairwise_map]
      exact hsort
    · exact List.pairwise_le_range
  have hlen : use.length = n := by simpa using congrArg List.length hanti
  have hi : ∀ (i : ℕ) (hi : i < use.length), use[i].antenna = i := by
    intro i hi
    have h2 : (use.map (fun q => q.antenna))[i]'(by simpa using hi) = (List.range n)[i]'(by simpa [hlen] using hi) := by
      simp only [hanti]
    simpa using h2
  have hmem : ∀ q, q ∈ use ↔ q ∈ rows ∧ q.pol = p := fun q => by
    rw [hperm.mem_iff, List.mem_filter]; simp
  have hru : r ∈ use := (hmem r).mpr ⟨hr, hrp⟩
  have hpos : 0 < use.length := List.length_pos_of_mem hru
  refine ⟨hlen, p, ⟨r, hr, ?_, hrp⟩, ?_⟩
  · have h0 := hi 0 hpos
    have := hmin use[0] ((hmem _).mp (List.getElem_mem hpos)).1
    omega
  · intro i hlt
    have hm := (hmem _).mp (List.getElem_mem hlt)
    refine ⟨hm.1, hi i hlt, hm.2, ?_⟩
    intro q hq hqa hqp
    obtain ⟨j, hj, hjq⟩ := List.getElem_of_mem ((hmem q).mpr ⟨hq, hqp⟩)
    have : j = i := by rw [← hi j hj, hjq, hqa]
    subst this
    subst hjq
    exact ⟨rfl, rfl, rfl⟩

/-- **C165 is violated**: the flags of other polarisations play no role. -/
theorem C165_other_polarisation_ignored (rows : List MetaRow) (f : MetaRow → MetaRow) (ha : ∀ q, (f q).antenna = q.antenna)
    (hp : ∀ q, (f q).pol = q.pol) (use : List MetaRow) (h : metaRows rows = .ok use) (hf : ∀ q ∈ use, f q = q) :
    metaRows (rows.map f) = .ok use := by
  have hmap : (rows.map f).insertionSort (fun a b : MetaRow => a.antenna ≤ b.antenna)
      = (rows.insertionSort (fun a b : MetaRow => a.antenna ≤ b.antenna)).map f := by
    symm
    apply List.map_insertionSort
    intro a _ b _
    rw [ha, ha]
  unfold metaRows at h ⊢
  simp only [] at h ⊢
  rw [hmap]
  cases hl : rows.insertionSort (fun a b : MetaRow => a.antenna ≤ b.antenna) with
  | nil => rw [hl] at h; cases h
  | cons r rest =>
    rw [hl] at h
    simp only [Except.ok.injEq] at h
    rw [List.map_cons]
    simp only [Except.ok.injEq]
    rw [← List.map_cons, List.filter_map, hp r]
    have : ((fun q : MetaRow => decide (q.pol = r.pol)) ∘ f) = fun q => decide (q.pol = r.pol) := by
      funext q; simp [hp q]
    rw [this, h]
    conv_rhs => rw [← List.map_id use]
    exact List.map_congr_left hf

/-- **C165**: a tile is used if and only if its flag is zero, for flags zero and one, and the number of flagged tiles is counted. -/
theorem C165_use_partial (m : ObsMeta) (hf : ∀ f ∈ m.tileFlag, f = 0 ∨ f = 1) :
    (tileUse m).1.length = m.tileFlag.length ∧ (∀ (i : ℕ) (hi : i < m.tileFlag.length),
      ((tileUse m).1.getD i 7 = 1 ↔ m.tileFlag[i] = 0) ∧ ((tileUse m).1.getD i 7 = 0 ↔ m.tileFlag[i] = 1)) ∧
      (tileUse m).2 = m.tileFlag.sum := by
  refine ⟨by simp [tileUse], ?_, ?_⟩
  · intro i hi
    have h1 := hf _ (List.getElem_mem hi)
    simp only [tileUse]
    rw [List.getD_eq_getElem?_getD, List.getElem?_eq_getElem (by simpa using hi), Option.getD_some, List.getElem_map]
    constructor <;> omega
  · simp only [tileUse]
    generalize m.tileFlag = l at hf
    induction l with
    | nil => rfl
    | cons x xs ih =>
      have h1 := ih fun f hfm => hf f (List.mem_cons_of_mem _ hfm)
      rcases hf x (by simp) with rfl | rfl
      · simpa using h1
      · rw [List.map_cons, List.filter_cons_of_pos (by simp), List.length_cons, List.sum_cons, h1]
        omega

/-- **C164 is violated**: the run stops for flags of which all but one are set. -/
theorem C164_stops_with_one_good_tile (h : MetaHdr) (rows use : List MetaRow) (alt : ℚ) (ra dec : Option ℚ) (hu : metaRows rows = .ok use)
    (hone : (use.map fun r => r.flag).sum + 1 = use.length) : readMetafits (some (h, rows)) alt false ra dec = .error .systemExit := by
  unfold readMetafits
  simp only [bind, Except.bind, hu]
  rw [if_pos]
  refine ⟨?_, trivial⟩
  simp only [List.length_map]
  omega

/-- **C164 is violated**: it does not stop if all tiles are flagged. -/
theorem C164_all_flagged_goes_on (h : MetaHdr) (rows use : List MetaRow) (alt : ℚ) (sim : Bool) (ra dec : Option ℚ)
    (hu : metaRows rows = .ok use) (hall : ∀ r ∈ use, r.flag = 1) : ∃ m, readMetafits (some (h, rows)) alt sim ra dec = .ok m ∧
      (tileUse m).2 = use.length := by
  have hsum : (use.map fun r => r.flag).sum = use.length := by
    have : use.map (fun r => r.flag) = use.map fun _ => 1 := List.map_congr_left hall
    rw [this]
    simp
  have hok : ∃ m, readMetafits (some (h, rows)) alt sim ra dec = .ok m ∧ m.tileFlag = use.map fun r => r.flag := by
    unfold readMetafits
    simp only [bind, Except.bind, hu]
    rw [if_neg]
    · exact ⟨_, rfl, rfl⟩
    · simp only [List.length_map]
      omega
  obtain ⟨m, hm, hfl⟩ := hok
  refine ⟨m, hm, ?_⟩
  have := (C165_use_partial m (by
    intro f hf
    rw [hfl] at hf
    obtain ⟨r, hr, rfl⟩ := List.mem_map.mp hf
    exact Or.inr (hall r hr))).2.2
  rw [this, hfl, hsum]

/-- Two antennas with two polarisations, in the order of the receiver inputs; the second tile is flagged. -/
def exMetaRows : List MetaRow :=
  [⟨1, "Y", "Tile12", 377, 1⟩, ⟨1, "X", "Tile12", 377, 1⟩, ⟨0, "Y", "Tile11", 376, 0⟩, ⟨0, "X", "Tile11", 376, 0⟩]

example : metaRows exMetaRows = .ok [⟨0, "Y", "Tile11", 376, 0⟩, ⟨1, "Y", "Tile12", 377, 1⟩] := by decide +kernel

example : ((exMetaRows.filter fun q => q.pol = "Y").map fun q => q.antenna).Perm (List.range 2) ∧
    ((exMetaRows.filter fun q => q.pol = "X").map fun q => q.antenna).Perm (List.range 2) := by decide +kernel

/-- One of the two tiles is good, and the run stops. -/
example : readMetafits (some (⟨0, 0, 0, 0, 2, "0,0"⟩, exMetaRows)) 0 false none none = .error .systemExit :=
  C164_stops_with_one_good_tile _ exMetaRows [⟨0, "Y", "Tile11", 376, 0⟩, ⟨1, "Y", "Tile12", 377, 1⟩] _ _ _ (by decide +kernel) rfl

/-- Flagging the polarisation `X` of the first tile changes nothing. -/
example : metaRows (exMetaRows.map fun q => if q.pol = "X" then { q with flag := 1 } else q) = metaRows exMetaRows := by decide +kernel

/-! ## Antenna numbers -/

/-- **C166 is violated**: if the first antenna of every visibility is number zero, as for two antennas numbered from zero, a `KeyError`
is raised. -/
theorem C166_zero_raises (a b : List ℕ) (mod nTile : ℕ) (ha : a ≠ []) (hb : b ≠ []) (h0 : ∀ x ∈ a, x = 0) :
    antennaNumbers a b none mod nTile = .error .keyError := by
  unfold antennaNumbers
  cases hma : a.max? with
  | none => rw [List.max?_eq_none_iff] at hma; exact absurd hma ha
  | some ma =>
    cases hmb : b.max? with
    | none => rw [List.max?_eq_none_iff] at hmb; exact absurd hmb hb
    | some mb =>
      have := h0 ma (List.max?_mem hma)
      simp [this]

/-- **C166 is violated**: antennas found from baseline codes are the same for both ends of every baseline, so that all visibilities are
taken for auto-correlations. -/
theorem C166_codes_same (a b c : List ℕ) (mod nTile : ℕ) (ta tb : List ℕ) (h0 : (∀ x ∈ a, x = 0) ∨ ∀ x ∈ b, x = 0)
    (h : antennaNumbers a b (some c) mod nTile = .ok (ta, tb)) : ta = tb := by
  unfold antennaNumbers at h
  cases hma : a.max? with
  | none => rw [hma] at h; cases h
  | some ma =>
    cases hmb : b.max? with
    | none => rw [hma, hmb] at h; cases h
    | some mb =>
      rw [hma, hmb] at h
      simp only [] at h
      have : ¬ (0 < ma ∧ 0 < mb) := by
        rintro ⟨h1, h2⟩
        rcases h0 with h0 | h0
        · have := h0 ma (List.max?_mem hma); omega
        · have := h0 mb (List.max?_mem hmb); omega
      rw [if_neg this] at h
      split_ifs at h
      simp only [Except.ok.injEq, Prod.mk.injEq] at h
      rw [← h.1, ← h.2]

/-- **C166**, where a positive number occurs at each end: the numbers are those of the file. -/
theorem C166_positive_partial (a b : List ℕ) (codes : Option (List ℕ)) (mod nTile : ℕ) (ha : ∃ x ∈ a, 0 < x) (hb : ∃ x ∈ b, 0 < x) :
    antennaNumbers a b codes mod nTile = .ok (a, b) := by
  have key : ∀ l : List ℕ, (∃ x ∈ l, 0 < x) → ∃ m, l.max? = some m ∧ 0 < m := by
    rintro l ⟨x, hx, h0⟩
    cases hm : l.max? with
    | none => rw [List.max?_eq_none_iff] at hm; subst hm; cases hx
    | some m => exact ⟨m, rfl, lt_of_lt_of_le h0 ((List.max?_eq_some_iff.mp hm).2 x hx)⟩
  obtain ⟨ma, h1, h2⟩ := key a ha
  obtain ⟨mb, h3, h4⟩ := key b hb
  unfold antennaNumbers
  rw [h1, h3]
  simp [h2, h4]

example : antennaNumbers [0, 0] [1, 1] none 256 2 = .error .keyError := by decide +kernel

example : antennaNumbers [0, 0, 1] [0, 1, 1] none 256 2 = .ok ([0, 0, 1], [0, 1, 1]) := by decide +kernel

/-! ## Baseline limits -/

/-- The largest and the smallest element of a list. -/
theorem npMaxR_spec (l : List ℝ) (m : ℝ) (h : npMaxR l = .ok m) : m ∈ l ∧ ∀ x ∈ l, x ≤ m := by
  cases l with
  | nil => cases h
  | cons a l =>
    obtain rfl : l.foldl max a = m := Except.ok.inj h
    clear h
    induction l generalizing a with
    | nil => simp
    | cons b l ih =>
      obtain ⟨h1, h2⟩ := ih (max a b)
      simp only [List.foldl_cons]
      have h3 := h2 (max a b) (by simp)
      refine ⟨?_, ?_⟩
      · rcases List.mem_cons.mp h1 with h | h
        · rw [h]
          rcases max_choice a b with h | h <;> rw [h] <;> simp
        · simp [h]
      · intro x hx
        rcases List.mem_cons.mp hx with rfl | hx
        · exact (le_max_left _ _).trans h3
        · rcases List.mem_cons.mp hx with rfl | hx
          · exact (le_max_right _ _).trans h3
          · exact h2 x (by simp [hx])

theorem npMinR_spec (l : List ℝ) (m : ℝ) (h : npMinR l = .ok m) : m ∈ l ∧ ∀ x ∈ l, m ≤ x := by
  cases l with
  | nil => cases h
  | cons a l =>
    obtain rfl : l.foldl min a = m := Except.ok.inj h
    clear h
    induction l generalizing a with
    | nil => simp
    | cons b l ih =>
      obtain ⟨h1, h2⟩ := ih (min a b)
      simp only [List.foldl_cons]
      have h3 := h2 (min a b) (by simp)
      refine ⟨?_, ?_⟩
      · rcases List.mem_cons.mp h1 with h | h
        · rw [h]
          rcases min_choice a b with h | h <;> rw [h] <;> simp
        · simp [h]
      · intro x hx
        rcases List.mem_cons.mp hx with rfl | hx
        · exact h3.trans (min_le_left _ _)
        · rcases List.mem_cons.mp hx with rfl | hx
          · exact h3.trans (min_le_right _ _)
          · exact h2 x (by simp [hx])

namespace Spec

/-- A visibility at coordinates `p` falls on a grid of cells of size `kpix`. -/
def OnGrid (kpix : ℝ) (dimension elements : ℕ) (p : ℝ × ℝ) : Prop := |p.1| / kpix < dimension / 2 ∧ |p.2| / kpix < elements / 2

/-- The coordinates of the visibility of a baseline at a frequency. -/
def uvAt (f : ℝ) (p : ℝ × ℝ) : ℝ × ℝ := (f * p.1, f * p.2)

/-- Length in the plane. -/
noncomputable def planeLength (p : ℝ × ℝ) : ℝ := √(p.1 ^ 2 + p.2 ^ 2)

end Spec

theorem mem_uvPoints (freq : List ℝ) (uv : List (ℝ × ℝ)) (q : ℝ × ℝ) :
    q ∈ uvPoints freq uv ↔ ∃ f ∈ freq, ∃ p ∈ uv, q = Spec.uvAt f p := by
  simp only [uvPoints, List.mem_flatMap, List.mem_map, Spec.uvAt]
  constructor
  · rintro ⟨f, hf, p, hp, rfl⟩; exact ⟨f, hf, p, hp, rfl⟩
  · rintro ⟨f, hf, p, hp, rfl⟩; exact ⟨f, hf, p, hp, rfl⟩

/-- **C167**: the largest length is that of the longest visibility on the grid. -/
theorem C167_longest_on_grid (freq : List ℝ) (uv : List (ℝ × ℝ)) (kpix : ℝ) (d e : ℕ) (m : ℝ)
    (h : maxBaselineOf kpix d e (uvPoints freq uv) = .ok m) :
    (∃ f ∈ freq, ∃ p ∈ uv, Spec.OnGrid kpix d e (Spec.uvAt f p) ∧ m = Spec.planeLength (Spec.uvAt f p)) ∧
      ∀ f ∈ freq, ∀ p ∈ uv, Spec.OnGrid kpix d e (Spec.uvAt f p) → Spec.planeLength (Spec.uvAt f p) ≤ m := by
  classical
  obtain ⟨h1, h2⟩ := npMaxR_spec _ _ h
  constructor
  · obtain ⟨q, hq, rfl⟩ := List.mem_map.mp h1
    obtain ⟨hq1, hq2⟩ := List.mem_filter.mp hq
    obtain ⟨f, hf, p, hp, rfl⟩ := (mem_uvPoints freq uv q).mp hq1
    exact ⟨f, hf, p, hp, by simpa [Spec.OnGrid] using hq2, abs_of_nonneg (Real.sqrt_nonneg _)⟩
  · intro f hf p hp hg
    have := h2 |uvLength (Spec.uvAt f p)| (List.mem_map.mpr ⟨_, List.mem_filter.mpr
      ⟨(mem_uvPoints freq uv _).mpr ⟨f, hf, p, hp, rfl⟩, by simpa [Spec.OnGrid] using hg⟩, rfl⟩)
    exact (le_abs_self _).trans this

/-- **C167**: without the option the smallest length is that of the shortest visibility that is not at the origin. -/
theorem C167_shortest (freq : List ℝ) (uv : List (ℝ × ℝ)) (m : ℝ) (h : minBaselineOf none (uvPoints freq uv) = .ok m) :
    0 < m ∧ (∃ f ∈ freq, ∃ p ∈ uv, m = Spec.planeLength (Spec.uvAt f p)) ∧
      ∀ f ∈ freq, ∀ p ∈ uv, Spec.planeLength (Spec.uvAt f p) = 0 ∨ m ≤ Spec.planeLength (Spec.uvAt f p) := by
  classical
  unfold minBaselineOf at h
  simp only [bind, Except.bind] at h
  cases hm : npMinR (((uvPoints freq uv).map uvLength).filter fun l => decide (l ≠ 0)) with
  | error e => rw [hm] at h; cases h
  | ok x =>
    rw [hm] at h
    obtain rfl : x = m := Except.ok.inj h
    obtain ⟨h1, h2⟩ := npMinR_spec _ _ hm
    obtain ⟨h3, h4⟩ := List.mem_filter.mp h1
    obtain ⟨q, hq, hqx⟩ := List.mem_map.mp h3
    obtain ⟨f, hf, p, hp, rfl⟩ := (mem_uvPoints freq uv q).mp hq
    refine ⟨?_, ⟨f, hf, p, hp, hqx.symm⟩, ?_⟩
    · have h5 : x ≠ 0 := of_decide_eq_true h4
      have h6 : 0 ≤ x := by rw [← hqx]; exact Real.sqrt_nonneg _
      exact lt_of_le_of_ne h6 (Ne.symm h5)
    · intro f hf p hp
      by_cases h0 : Spec.planeLength (Spec.uvAt f p) = 0
      · exact Or.inl h0
      · right
        exact h2 _ (List.mem_filter.mpr ⟨List.mem_map.mpr ⟨_, (mem_uvPoints freq uv _).mpr ⟨f, hf, p, hp, rfl⟩, rfl⟩, decide_eq_true h0⟩)

/-- **C167**: the option `min_baseline` raises the limit and never lowers it. -/
theorem C167_option (pts : List (ℝ × ℝ)) (o m : ℝ) (h : minBaselineOf (some o) pts = .ok m) :
    ∃ m0, minBaselineOf none pts = .ok m0 ∧ m = max o m0 := by
  unfold minBaselineOf at h ⊢
  simp only [bind, Except.bind] at h ⊢
  split at h
  · cases h
  · rename_i x hx
    exact ⟨x, rfl, (Except.ok.inj h).symm⟩

/-- **C168**: with default options every visibility that is on the grid and not at the origin is within the limits. -/
theorem C168_defaults_keep_all (freq : List ℝ) (uv : List (ℝ × ℝ)) (kpix : ℝ) (d e : ℕ) (lo hi : ℝ)
    (hhi : maxBaselineOf kpix d e (uvPoints freq uv) = .ok hi) (hlo : minBaselineOf none (uvPoints freq uv) = .ok lo)
    (f : ℝ) (hf : f ∈ freq) (p : ℝ × ℝ) (hp : p ∈ uv) (hg : Spec.OnGrid kpix d e (Spec.uvAt f p)) (h0 : Spec.uvAt f p ≠ (0, 0)) :
    lo ≤ Spec.planeLength (Spec.uvAt f p) ∧ Spec.planeLength (Spec.uvAt f p) ≤ hi := by
  refine ⟨?_, (C167_longest_on_grid freq uv kpix d e hi hhi).2 f hf p hp hg⟩
  rcases (C167_shortest freq uv lo hlo).2.2 f hf p hp with h | h
  · exfalso
    apply h0
    set q := Spec.uvAt f p
    have h1 : q.1 ^ 2 + q.2 ^ 2 = 0 := by
      have := (Real.sqrt_eq_zero (by positivity)).mp h
      exact this
    have h2 : q.1 = 0 := by nlinarith [sq_nonneg q.1, sq_nonneg q.2]
    have h3 : q.2 = 0 := by nlinarith [sq_nonneg q.1, sq_nonneg q.2]
    exact Prod.ext h2 h3
  · exact h

/-- **C167 is violated** for observations of which no visibility falls on the grid, or all are at the origin: an exception is raised,
also when the option gives the smaller limit. -/
theorem C167_none_raises (freq : List ℝ) (uv : List (ℝ × ℝ)) :
    (∀ (kpix : ℝ) (d e : ℕ), (∀ f ∈ freq, ∀ p ∈ uv, ¬ Spec.OnGrid kpix d e (Spec.uvAt f p)) →
      maxBaselineOf kpix d e (uvPoints freq uv) = .error .valueError) ∧
    ((∀ p ∈ uv, p = (0, 0)) → ∀ o, minBaselineOf o (uvPoints freq uv) = .error .valueError) := by
  classical
  constructor
  · intro kpix d e h
    unfold maxBaselineOf
    have : ((uvPoints freq uv).filter fun p => decide (|p.1| / kpix < d / 2 ∧ |p.2| / kpix < e / 2)) = [] := by
      rw [List.filter_eq_nil_iff]
      intro q hq hd
      obtain ⟨f, hf, p, hp, rfl⟩ := (mem_uvPoints freq uv q).mp hq
      exact h f hf p hp (by simpa [Spec.OnGrid] using hd)
    simp only [this, List.map_nil]
    rfl
  · intro h o
    unfold minBaselineOf
    have : (((uvPoints freq uv).map uvLength).filter fun l => decide (l ≠ 0)) = [] := by
      rw [List.filter_eq_nil_iff]
      intro l hl hd
      obtain ⟨q, hq, rfl⟩ := List.mem_map.mp hl
      obtain ⟨f, hf, p, hp, rfl⟩ := (mem_uvPoints freq uv q).mp hq
      apply of_decide_eq_true hd
      rw [h p hp]
      simp [Spec.uvAt, uvLength]
    simp only [this, npMinR, bind, Except.bind]

/-- Two baselines at one frequency, of lengths five and ten, the second outside the grid. -/
example : maxBaselineOf 1 10 10 (uvPoints [1] [(3, 4), (6, 8)]) = .ok 5 ∧ minBaselineOf none (uvPoints [1] [(3, 4), (6, 8)]) = .ok 5 := by
  classical
  have h5 : √((3 : ℝ) ^ 2 + 4 ^ 2) = 5 := by
    rw [show (3 : ℝ) ^ 2 + 4 ^ 2 = 5 ^ 2 by norm_num]
    exact Real.sqrt_sq (by norm_num)
  have h10 : √((6 : ℝ) ^ 2 + 8 ^ 2) = 10 := by
    rw [show (6 : ℝ) ^ 2 + 8 ^ 2 = 10 ^ 2 by norm_num]
    exact Real.sqrt_sq (by norm_num)
  constructor
  · have : ((uvPoints [1] [((3 : ℝ), (4 : ℝ)), (6, 8)]).filter fun p => decide (|p.1| / 1 < ((10 : ℕ) : ℝ) / 2 ∧ |p.2| / 1 < ((10 : ℕ) : ℝ) / 2))
        = [(3, 4)] := by
      simp only [uvPoints, List.flatMap_cons, List.flatMap_nil, List.map_cons, List.map_nil, List.append_nil, one_mul]
      rw [List.filter_cons_of_pos (by norm_num), List.filter_cons_of_neg (by norm_num)]
      rfl
    unfold maxBaselineOf
    rw [this]
    simp only [List.map_cons, List.map_nil, npMaxR, List.foldl_nil, uvLength, h5]
    norm_num
  · have : (((uvPoints [1] [((3 : ℝ), (4 : ℝ)), (6, 8)]).map uvLength).filter fun l => decide (l ≠ 0)) = [5, 10] := by
      simp only [uvPoints, List.flatMap_cons, List.flatMap_nil, List.map_cons, List.map_nil, List.append_nil, one_mul, uvLength, h5, h10]
      rw [List.filter_cons_of_pos (by norm_num), List.filter_cons_of_pos (by norm_num)]
      rfl
    unfold minBaselineOf
    rw [this]
    simp only [npMinR, bind, Except.bind, List.foldl_cons, List.foldl_nil]
    norm_num

/-! ## Another grid -/

/-- **C169**: the width of the image is one over the size of a cell of the uv plane, in degrees, and the reference pixel is its centre
counted from one. -/
theorem C169_field (o : ObsGrid) (d : ℕ) (k : ℝ) (fov : Option ℝ) (hd : d ≠ 0) (hk : fov = none → k ≠ 0) (hf : ∀ f ∈ fov, f ≠ 0) :
    (updateGrid o d k fov).degpix * d * (updateGrid o d k fov).kpix = 180 / Real.pi ∧
      (∀ f ∈ fov, (updateGrid o d k fov).degpix * d = f) ∧ (fov = none → (updateGrid o d k fov).kpix = k) ∧
      (updateGrid o d k fov).cdelt = ((updateGrid o d k fov).degpix, (updateGrid o d k fov).degpix) ∧
      (updateGrid o d k fov).crpix = ((d : ℝ) / 2 + 1, (d : ℝ) / 2 + 1) ∧ (updateGrid o d k fov).naxis = ((d : ℝ), (d : ℝ)) := by
  have hd' : (d : ℝ) ≠ 0 := Nat.cast_ne_zero.mpr hd
  have hpi := Real.pi_ne_zero
  cases fov with
  | none =>
    have := hk rfl
    refine ⟨?_, by simp, fun _ => rfl, rfl, rfl, rfl⟩
    simp only [updateGrid]
    field_simp
  | some f =>
    have := hf f rfl
    refine ⟨?_, ?_, by simp, rfl, rfl, rfl⟩
    · simp only [updateGrid]
      field_simp
    · rintro g hg
      obtain rfl : f = g := Option.some.inj hg
      simp only [updateGrid]
      field_simp

/-- **C169**: the smaller limit for the length of baselines excludes none that falls on the new grid. -/
theorem C169_limit_keeps_grid (o : ObsGrid) (d : ℕ) (k : ℝ) (hk : 0 < k) (p : ℝ × ℝ) (hg : Spec.OnGrid k d d p)
    (hm : Spec.planeLength p ≤ o.maxBaseline) : Spec.planeLength p ≤ (updateGrid o d k none).maxBaseline ∧
      (updateGrid o d k none).maxBaseline ≤ o.maxBaseline := by
  refine ⟨le_min hm ?_, min_le_left _ _⟩
  obtain ⟨h1, h2⟩ := hg
  rw [div_lt_iff₀ hk] at h1 h2
  have h3 : p.1 ^ 2 ≤ ((d : ℝ) / 2 * k) ^ 2 := by
    rw [← sq_abs p.1]
    exact pow_le_pow_left₀ (abs_nonneg _) h1.le 2
  have h4 : p.2 ^ 2 ≤ ((d : ℝ) / 2 * k) ^ 2 := by
    rw [← sq_abs p.2]
    exact pow_le_pow_left₀ (abs_nonneg _) h2.le 2
  have h5 : (d : ℝ) * k / √2 = √(((d : ℝ) * k) ^ 2 / 2) := by
    rw [Real.sqrt_div (by positivity), Real.sqrt_sq (by positivity)]
  unfold Spec.planeLength
  rw [h5]
  apply Real.sqrt_le_sqrt
  nlinarith

/-- **C169**: updating to the grid it has leaves an observation made with a square grid of even size as it is. -/
theorem C169_same_grid (d : ℕ) (he : Even d) (k : ℝ) (hk : 0 < k) (freq : List ℝ) (uv : List (ℝ × ℝ)) (m : ℝ)
    (hm : maxBaselineOf k d d (uvPoints freq uv) = .ok m) : updateGrid (createGrid d k m) d k none = createGrid d k m := by
  obtain ⟨⟨f, hf, p, hp, hg, hmp⟩, -⟩ := C167_longest_on_grid freq uv k d d m hm
  have h1 := (C169_limit_keeps_grid (createGrid d k m) d k hk (Spec.uvAt f p) hg hmp.ge).1
  have h2 : (updateGrid (createGrid d k m) d k none).maxBaseline = m := by
    apply le_antisymm
    · exact min_le_left _ _
    · rw [hmp] at h1 ⊢
      exact h1
  have h3 : ((d / 2 : ℕ) : ℝ) = (d : ℝ) / 2 := by
    obtain ⟨n, rfl⟩ := he
    rw [show (n + n) / 2 = n by omega]
    push_cast
    ring
  have h2' : min m ((d : ℝ) * k / √2) = m := h2
  simp only [updateGrid, createGrid, h3, h2']

/-- **C169 is violated** for odd sizes: the centre moves by half a pixel. -/
theorem C169_odd_moves (d : ℕ) (ho : Odd d) (k m : ℝ) :
    (updateGrid (createGrid d k m) d k none).crpix.1 = (createGrid d k m).crpix.1 + 1 / 2 := by
  obtain ⟨n, rfl⟩ := ho
  simp only [updateGrid, createGrid]
  rw [show (2 * n + 1) / 2 = n by omega]
  push_cast
  ring

/-! ## The antenna table -/

/-- **C170**: entries of the header that exist are taken from it; missing ones get the documented values. -/
theorem C170_header (h : String → Option FitsVal) :
    layoutGet (layoutHeader h) "coordinate_frame" = some ((h "frame").getD (.str "IRTF")) ∧
      layoutGet (layoutHeader h) "gst0" = some ((h "gstia0").getD (.num (-1))) ∧
      layoutGet (layoutHeader h) "earth_degpd" = some ((h "degpdy").getD (.num 360.985)) ∧
      layoutGet (layoutHeader h) "refdate" = some ((h "rdate").getD (.num (-1))) ∧
      layoutGet (layoutHeader h) "dut1" = some ((h "ut1utc").getD (.num 0)) ∧
      layoutGet (layoutHeader h) "diff_utc" = some ((h "datutc").getD (.num 0)) ∧
      layoutGet (layoutHeader h) "pol_type" = some ((h "poltype").getD (.str "X-Y LIN")) ∧
      layoutGet (layoutHeader h) "n_pol_cal_params" = some ((h "nopcal").getD (.num 0)) ∧
      layoutGet (layoutHeader h) "n_antenna" = some ((h "naxis2").getD (.num 128)) := by
  unfold layoutHeader layoutGet
  refine ⟨?_, ?_, ?_, ?_, ?_, ?_, ?_, ?_, ?_⟩ <;> simp only [fitsOr] <;>
    cases h "iautc" <;> by_cases hi : (h "timesys").getD ((h "timsys").getD (FitsVal.str "UTC")) = FitsVal.str "IAT" <;>
    simp [List.find?_append, hi]

/-- **C170 is violated**: without the number of leap seconds, and with another time system than IAT, the layout has no such entry. -/
theorem C170_leap_seconds_missing (h : String → Option FitsVal) (h1 : h "iautc" = none) (h2 : h "timesys" ≠ some (.str "IAT"))
    (h3 : h "timesys" = none → h "timsys" ≠ some (.str "IAT")) : layoutGet (layoutHeader h) "nleap_sec" = none := by
  have hts : (h "timesys").getD (fitsOr h "timsys" (.str "UTC")) ≠ .str "IAT" := by
    cases ht : h "timesys" with
    | some v => rw [ht] at h2; simpa using h2
    | none =>
      have h4 := h3 ht
      simp only [Option.getD_none, fitsOr]
      cases hs : h "timsys" with
      | some v => rw [hs] at h4; simpa using h4
      | none => simp
  unfold layoutHeader layoutGet
  simp only []
  rw [h1]
  simp only []
  rw [if_neg hts]
  simp

/-- **C171 is violated**: a table without antenna numbers raises an `AttributeError`. -/
theorem C171_no_numbers_raises (h t : String → Option FitsVal) (n : ℕ) (hn : t "nosta" = none) :
    createLayout h t n = .error .attributeError := by
  unfold createLayout
  rw [hn]

/-- **C171**: otherwise names, numbers and coordinates are those of the table, or, for names and coordinates, the documented values. -/
theorem C171_columns_partial (h t : String → Option FitsVal) (n : ℕ) (l : Layout) (hl : createLayout h t n = .ok l) :
    layoutGet l "antenna_numbers" = t "nosta" ∧
      layoutGet l "antenna_names" = some ((t "anname").getD (.strs ((List.range n).map toString))) ∧
      layoutGet l "antenna_coords" = some ((t "stabxyz").getD (.nums (List.replicate (n * 3) 0))) ∧
      layoutGet l "pola" = some ((t "poltya").getD (.str "X")) ∧ layoutGet l "polb" = some ((t "poltyb").getD (.str "Y")) ∧
      (∀ x : ℚ, ∀ xs : List ℚ, t "mntsta" = some (.nums (x :: xs)) →
        layoutGet l "mount_type" = some (if ∀ y ∈ xs, y = x then .num x else .nums (x :: xs))) := by
  have hkey : ∀ key : String, key ∈ ["antenna_numbers", "antenna_names", "antenna_coords", "pola", "polb", "mount_type"] →
      List.find? (fun e : String × FitsVal => decide (e.1 = key)) (layoutHeader h) = none := by
    intro key hk
    rw [List.find?_eq_none]
    unfold layoutHeader
    simp only []
    intro e he
    simp only [List.mem_append, List.mem_cons, List.not_mem_nil, or_false] at he hk
    have hle : ∀ e' ∈ (match h "iautc" with
        | some v => ([("nleap_sec", v)] : Layout)
        | none => if (h "timesys").getD (fitsOr h "timsys" (.str "UTC")) = FitsVal.str "IAT" then [("nleap_sec", fitsOr h "datutc" (.num 0))]
          else []), e'.1 = "nleap_sec" := by
      intro e' he'
      cases hi : h "iautc" with
      | some v => rw [hi] at he'; simp only [List.mem_singleton] at he'; rw [he']
      | none =>
        rw [hi] at he'
        simp only [] at he'
        split_ifs at he' with hc
        · simp only [List.mem_singleton] at he'; rw [he']
        · cases he'
    rcases he with (he | he) | he
    · rcases he with rfl | rfl | rfl | rfl | rfl | rfl | rfl | rfl <;>
        rcases hk with rfl | rfl | rfl | rfl | rfl | rfl <;> simp
    · have := hle e he
      rw [this]
      rcases hk with rfl | rfl | rfl | rfl | rfl | rfl <;> simp
    · rcases he with rfl | rfl | rfl <;> rcases hk with rfl | rfl | rfl | rfl | rfl | rfl <;> simp
  unfold createLayout at hl
  cases hn : t "nosta" with
  | none => rw [hn] at hl; cases hl
  | some numbers =>
    rw [hn] at hl
    simp only [bind, Except.bind] at hl
    cases h1 : collapse (fitsOr t "mntsta" (.num 0)) with
    | error e => rw [h1] at hl; cases hl
    | ok mount =>
      cases h2 : collapse (fitsOr t "staxof" (.num 0)) with
      | error e => rw [h1, h2] at hl; cases hl
      | ok axis =>
        cases h3 : collapse (fitsOr t "polaa" (.num 0)) with
        | error e => rw [h1, h2, h3] at hl; cases hl
        | ok pa =>
          cases h4 : collapse (fitsOr t "polab" (.num 90)) with
          | error e => rw [h1, h2, h3, h4] at hl; cases hl
          | ok pb =>
            rw [h1, h2, h3, h4] at hl
            obtain rfl := Except.ok.inj hl
            refine ⟨?_, ?_, ?_, ?_, ?_, ?_⟩
            · unfold layoutGet
              rw [List.find?_append, hkey _ (by simp)]
              simp
            · unfold layoutGet
              rw [List.find?_append, hkey _ (by simp)]
              simp [fitsOr]
            · unfold layoutGet
              rw [List.find?_append, hkey _ (by simp)]
              simp [fitsOr]
            · unfold layoutGet
              rw [List.find?_append, hkey _ (by simp)]
              simp [fitsOr]
            · unfold layoutGet
              rw [List.find?_append, hkey _ (by simp)]
              simp [fitsOr]
            · intro x xs hx
              have hm : mount = if ∀ y ∈ xs, y = x then .num x else .nums (x :: xs) := by
                unfold fitsOr at h1
                rw [hx] at h1
                simp only [Option.getD_some, collapse, Except.ok.injEq] at h1
                rw [← h1]
                simp
              unfold layoutGet
              rw [List.find?_append, hkey _ (by simp)]
              simp [hm]

/-- A table of two antennas with equal mounts. -/
example : (createLayout (fun _ => none)
      (fun k => if k = "nosta" then some (.nums [1, 2]) else if k = "mntsta" then some (.nums [0, 0]) else none) 2).toOption.bind
    (fun l => layoutGet l "mount_type") = some (.num 0) := by decide +kernel

example : layoutGet (layoutHeader fun _ => none) "nleap_sec" = none := by decide +kernel

end PyFHD
