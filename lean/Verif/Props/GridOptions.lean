import Verif.Model.GridOptions
import Verif.Props.VisGrid
import Verif.Props.Filters
import Verif.Props.CalApplyMore

/-!
# Properties of `visibility_count` and of the options of `visibility_grid` (C116-C120)
-/

namespace PyFHD
open Spec

/-! ## C116 -/

/-- A `VisGridIn` with the same samples. -/
def countIn (g : GridIn) : VisGridIn ℚ where
  toGridIn := g
  fbin := fun _ => 0
  kern := fun _ _ _ _ => 0
  group := fun _ => 0
  vis := fun _ _ => 0
  interp := false
  noConjugate := true

theorem foldl_uniform (d : ℕ) (nVis : ℚ) (bins : List (BinRows ℚ)) (pl : GridPlanes ℚ) :
    (bins.foldl (gridStep d nVis) pl).uniform =
      bins.foldl (fun p b => addBox d p b.x0 b.y0 fun _ => (b.count : ℚ)) pl.uniform := by
  induction bins generalizing pl with
  | nil => rfl
  | cons b t ih => rw [List.foldl_cons, List.foldl_cons, ih]; rfl

/-- The number of members of a bin is its count. -/
theorem bin_count {g : GridIn} {r : HistResult} {hi : ℤ} (hs : HistIntSpec (g.flat.map g.pixel) 0 hi r) (n : ℕ)
    (hn : n ∈ nonzeroIdx r.hist) : r.hist.getD n 0 = ((riSlice r.ri n).getD []).length := by
  have hlen : r.hist.length = (hi - 0 + 1).toNat := by rw [hs.hist]; simp
  have hn' : n < (hi - 0 + 1).toNat := by
    have hn2 := hn
    rw [mem_nonzeroIdx] at hn2
    by_contra hge
    apply hn2
    simp only [List.getD, List.getElem?_eq_none (by omega : r.hist.length ≤ n),
      Option.getD_none]
  rw [hs.slices n hn', Option.getD_some, positions_length, hs.hist]
  simp only [List.getD, List.getElem?_map, List.getElem?_range hn', Option.map_some,
    Option.getD_some, List.count]
  rfl

/-- The plane of counts is the uniform plane of `visibility_grid`, and zero if that grids nothing. -/
theorem countPlane_eq (g : GridIn) (hf : g.freqAll ≠ []) (hl : ∀ b, 0 ≤ blLength g b) :
    ∃ o, visGridCore (countIn g) = .ok o ∧
      countPlane g = .ok (match o with | none => fun _ _ => 0 | some out => out.planes.uniform) := by
  unfold visGridCore countPlane
  rcases gridBins_spec g hf hl with ⟨h, hno⟩ | ⟨r, hi, h, h0, hall, hs, hsome⟩
  · rw [show gridBins (countIn g).toGridIn = .ok none from h, h]
    exact ⟨none, rfl, rfl⟩
  · rw [show gridBins (countIn g).toGridIn = _ from h, h]
    simp only [bind, Except.bind, pure, Except.pure]
    by_cases hz : (nonzeroIdx r.hist).length = 0
    · rw [if_pos hz]
      refine ⟨none, rfl, ?_⟩
      rw [List.length_eq_zero_iff.1 hz]
      rfl
    · rw [if_neg hz]
      refine ⟨_, rfl, ?_⟩
      simp only []
      unfold gridLoop
      rw [foldl_uniform, List.map_map, List.foldl_map]
      congr 1
      have key : ∀ (l : List ℕ) (p : Plane ℚ), (∀ n ∈ l, n ∈ nonzeroIdx r.hist) →
          l.foldl (fun pl i => addBox g.psfDim pl
            (g.corner (g.flat.getD (((riSlice r.ri i).getD []).headD 0) (0, 0)).1
              (g.flat.getD (((riSlice r.ri i).getD []).headD 0) (0, 0)).2).1.toNat
            (g.corner (g.flat.getD (((riSlice r.ri i).getD []).headD 0) (0, 0)).1
              (g.flat.getD (((riSlice r.ri i).getD []).headD 0) (0, 0)).2).2.toNat
            fun _ => (r.hist.getD i 0 : ℚ)) p =
          l.foldl (fun p y => addBox (countIn g).psfDim p
            (((countIn g).binRows ∘ fun i => (riSlice r.ri i).getD []) y).x0
            (((countIn g).binRows ∘ fun i => (riSlice r.ri i).getD []) y).y0
            fun _ => ((((countIn g).binRows ∘ fun i => (riSlice r.ri i).getD []) y).count : ℚ)) p := by
        intro l
        induction l with
        | nil => intro p _; rfl
        | cons n t ih =>
          intro p hmem
          rw [List.foldl_cons, List.foldl_cons, ih _ fun m hm => hmem m (List.mem_cons_of_mem _ hm)]
          congr 1
          rw [bin_count hs n (hmem n List.mem_cons_self)]
          rfl
      exact key _ _ fun n hn => hn

/-- **C116** (square planes). `visibility_count` returns, for every pixel, the number of samples to be gridded whose footprint
covers it; unless told not to, the mean of that number and the one at the mirror pixel. It is zero if there is nothing
to grid. -/
theorem C116_counts_partial (g : GridIn) (hsq : g.elements = g.dimension) (hf : g.freqAll ≠ [])
    (hl : ∀ b, 0 ≤ blLength g b) (hr : 0 < g.res) (hk : 0 < g.kpix) :
    ∃ a b, visibilityCount g true = .ok a ∧ visibilityCount g false = .ok b ∧
      (∀ y x, a y x = ((Finset.range (g.fiUse.length * g.biUse.length)).filter fun k =>
        Reaches g (chanOf g k) (blOf g k) y x).card) ∧
      ∀ y < g.elements, ∀ x < g.dimension,
        b y x = (a y x + a ((g.elements - y) % g.elements) ((g.dimension - x) % g.dimension)) / 2 := by
  obtain ⟨o, h1, h2⟩ := countPlane_eq g hf hl
  obtain ⟨o', h1', hnone, hsome⟩ := C31_planes_partial (countIn g) hsq hf hl hr hk
  rw [h1] at h1'
  cases h1'
  refine ⟨_, _, by unfold visibilityCount; rw [h2]; rfl, by unfold visibilityCount; rw [h2]; rfl, ?_, ?_⟩
  · intro y x
    simp only [if_true]
    cases o with
    | none =>
      simp only []
      have hn := hnone.1 rfl
      rw [Finset.filter_false_of_mem]
      · simp
      · intro k hk hc
        exact hn k (Finset.mem_range.1 hk) hc.1
    | some out =>
      simp only []
      rw [((hsome out rfl).2 y x).2.2.2]
      unfold sumReaching
      rw [← Finset.sum_filter]
      simp
      rfl
  · intro y hy x hx
    simp only [if_true, Bool.false_eq_true, if_false]
    unfold symmetrise
    rw [C23_mirror_entry false _ _ _ _ _ hy hx]
    simp only [negIdx, Nat.mod_eq_of_lt hy, Nat.mod_eq_of_lt hx, Bool.false_eq_true, if_false]

/-! ## C117 -/

/-- **C117 fails**: `filter_uv_uniform` without counts raises when `obs` and `params` are given (a dictionary of `params` has no entry
`dim`): the arguments of `visibility_count` are misplaced. -/
theorem C117_counts_raise {K V : Type} [Field K] (image : List K) (obs params : Option (List (String × V)))
    (hsome : obs.isSome = true ∨ params.isSome = true) (hdim : ∀ p, params = some p → p.lookup "dim" = none)
    (rest : Py (List ℚ)) (weights : Option (List ℚ)) :
    ∃ e, filterUvUniform image none (obs.isSome || params.isSome) (countCall obs params rest) weights = .error e := by
  have hb : (obs.isSome || params.isSome) = true := by
    rcases hsome with h | h <;> simp [h]
  have hc : ∃ e, countCall obs params rest = .error e := by
    unfold countCall
    cases obs with
    | none => exact ⟨_, rfl⟩
    | some o =>
      simp only []
      split
      · cases params with
        | none => exact ⟨_, rfl⟩
        | some p =>
          simp only [hdim p rfl]
          exact ⟨_, rfl⟩
      · exact ⟨_, rfl⟩
  obtain ⟨e, he⟩ := hc
  refine ⟨e, ?_⟩
  unfold filterUvUniform filterCount
  simp only [hb, if_true, he, bind, Except.bind]

/-! ## C118 -/

variable {K : Type} [Field K] [StarRing K]

/-- The item with the model for the visibility. -/
def OptItem.asModel (it : OptItem K) : VisItem K := { it.item with vis := it.model }

/-- The row with the model for the visibility. -/
def OptRow.asModel (r : OptRow K) : GridRow K := { r.row with vis := r.model }

theorem slice_map {α β : Type} (f : α → β) (l : List α) (a b : ℕ) : slice (l.map f) a b = (slice l a b).map f := by
  unfold slice
  rw [← List.map_take, ← List.map_drop]

theorem optRuns_proj (kern : ℕ → ℕ → ℕ → ℕ → K) (sorted : List (OptItem K)) (ui : List ℕ) :
    (optRuns kern sorted ui).map (fun r => r.row) = rowsOfRuns kern (sorted.map fun it => it.item) ui ∧
    (optRuns kern sorted ui).map OptRow.asModel = rowsOfRuns kern (sorted.map OptItem.asModel) ui := by
  unfold optRuns rowsOfRuns
  simp only []
  constructor
  · rw [List.map_filterMap]
    apply List.filterMap_congr
    rintro ⟨e, s⟩ _
    simp only [List.getElem?_map]
    cases sorted[e]? with
    | none => rfl
    | some last =>
      simp only [Option.map_some, slice_map, List.map_map, decide_eq_true_eq]
      rfl
  · rw [List.map_filterMap]
    apply List.filterMap_congr
    rintro ⟨e, s⟩ _
    simp only [List.getElem?_map]
    cases sorted[e]? with
    | none => rfl
    | some last =>
      simp only [Option.map_some, slice_map, List.map_map, decide_eq_true_eq]
      rfl

theorem filterMap_get_map {α β : Type} (f : α → β) (l : List α) (is : List ℕ) :
    (is.filterMap fun i => l[i]?).map f = is.filterMap fun i => (l.map f)[i]? := by
  rw [List.map_filterMap]
  apply List.filterMap_congr
  intro i _
  rw [List.getElem?_map]

theorem optRowsOfBin_proj (kern : ℕ → ℕ → ℕ → ℕ → K) (res : ℕ) (items : List (OptItem K)) :
    (optRowsOfBin kern res items).map (fun r => r.row) = rowsOfBin kern res (items.map fun it => it.item) ∧
    (optRowsOfBin kern res items).map OptRow.asModel = rowsOfBin kern res (items.map OptItem.asModel) := by
  have hg : groupMax (items.map OptItem.asModel) = groupMax (items.map fun it => it.item) := by
    unfold groupMax
    rw [List.map_map, List.map_map]
    rfl
  have hids : (items.map OptItem.asModel).map (xyfIndex res (groupMax (items.map OptItem.asModel))) =
      items.map fun it => xyfIndex res (groupMax (items.map fun it => it.item)) it.item := by
    rw [hg, List.map_map]
    rfl
  have hids' : (items.map fun it => it.item).map (xyfIndex res (groupMax (items.map fun it => it.item))) =
      items.map fun it => xyfIndex res (groupMax (items.map fun it => it.item)) it.item := by
    rw [List.map_map]
    rfl
  unfold optRowsOfBin rowsOfBin rowsDedup
  simp only []
  rw [hids, hids', List.length_map, List.length_map]
  split_ifs
  · rw [(optRuns_proj _ _ _).1, (optRuns_proj _ _ _).2, filterMap_get_map, filterMap_get_map]
    exact ⟨rfl, rfl⟩
  · unfold optDirect rowsDirect
    rw [List.map_map, List.map_map, List.map_map, List.map_map]
    exact ⟨rfl, rfl⟩

theorem optRows_proj (g : VisGridIn K) (o : GridOpts K) (inds : List ℕ) :
    (g.optRows o inds).map (fun r => r.row) = (g.binRows inds).rows ∧
    ∀ m, o.model = some m → (g.optRows o inds).map OptRow.asModel =
      (({ g with vis := m } : VisGridIn K).binRows inds).rows := by
  unfold VisGridIn.optRows VisGridIn.binRows
  simp only []
  constructor
  · split_ifs
    · rw [List.map_map]; rfl
    · rw [(optRowsOfBin_proj _ _ _).1, List.map_map]; rfl
  · intro m hm
    split_ifs
    · rw [List.map_map]
      apply List.map_congr_left
      intro i _
      simp only [Function.comp, OptRow.asModel, VisGridIn.optItem, VisGridIn.modelUse, hm, VisGridIn.interpRow,
        VisGridIn.visUse]
      rfl
    · rw [(optRowsOfBin_proj _ _ _).2, List.map_map]
      congr 1
      apply List.map_congr_left
      intro i _
      simp only [Function.comp, OptItem.asModel, VisGridIn.optItem, VisGridIn.modelUse, hm, VisGridIn.item,
        VisGridIn.visUse]
      rfl

theorem optLoop_proj (d : ℕ) (nVis : K) (bins : List (OptBin K)) :
    (optLoop d nVis bins).base = gridLoop d nVis (bins.map fun b => ⟨b.x0, b.y0, b.count, b.rows.map fun r => r.row⟩) ∧
    (optLoop d nVis bins).model =
      (gridLoop d nVis (bins.map fun b => ⟨b.x0, b.y0, b.count, b.rows.map OptRow.asModel⟩)).image := by
  unfold optLoop gridLoop
  generalize hz : (⟨⟨fun _ _ => 0, fun _ _ => 0, fun _ _ => 0, fun _ _ => 0⟩, fun _ _ => 0, fun _ _ => 0, fun _ _ => 0,
    fun _ _ => 0, fun _ _ => 0⟩ : OptPlanes K) = z
  generalize hy : (⟨fun _ _ => 0, fun _ _ => 0, fun _ _ => 0, fun _ _ => 0⟩ : GridPlanes K) = y1
  have e1 : z.base = y1 := by rw [← hz, ← hy]
  have e2 : z.model = y1.image := by rw [← hz, ← hy]
  have key : ∀ (bins : List (OptBin K)) (z : OptPlanes K) (y1 y2 : GridPlanes K), z.base = y1 → z.model = y2.image →
      (bins.foldl (optStep d nVis) z).base =
        (bins.map fun b => (⟨b.x0, b.y0, b.count, b.rows.map fun r => r.row⟩ : BinRows K)).foldl (gridStep d nVis) y1 ∧
      (bins.foldl (optStep d nVis) z).model =
        ((bins.map fun b => (⟨b.x0, b.y0, b.count, b.rows.map OptRow.asModel⟩ : BinRows K)).foldl
          (gridStep d nVis) y2).image := by
    intro bins
    induction bins with
    | nil => intro z y1 y2 h1 h2; exact ⟨h1, h2⟩
    | cons b t ih =>
      intro z y1 y2 h1 h2
      simp only [List.foldl_cons, List.map_cons]
      apply ih
      · simp only [optStep, h1]
      · simp only [optStep, gridStep, h2]
        congr 1
        funext p
        unfold modelBox imageBox
        rw [List.map_map]
        rfl
  exact key bins z y1 y1 e1 e2

/-- **C118.** The options for a model and for the spectral plane do not change the planes of the data, and the plane of the model is
the image that gridding the model in place of the data gives. (`psf_dim` must be 1 for a model with
`grid_spectral`, see C120.) -/
theorem C118_model_plane (g : VisGridIn K) (o : GridOpts K) (hu : o.gridUniform = false)
    (hs : o.gridSpectral = true → o.model.isSome = true → g.psfDim = 1) :
    (visGridOpts g o).map (·.map fun r => r.out) = visibilityGrid g ∧
    ∀ m, o.model = some m → (visGridOpts g o).map (·.map fun r => r.model) =
      (visibilityGrid { g with vis := m }).map (·.map fun r => r.planes.image) := by
  have hnot : ¬ (o.gridSpectral = true ∧ o.model.isSome = true ∧ g.psfDim ≠ 1) := by
    rintro ⟨h1, h2, h3⟩
    exact h3 (hs h1 h2)
  have hproj := fun inds => optRows_proj g o inds
  constructor
  · unfold visGridOpts visibilityGrid visGridCore
    cases gridBins g.toGridIn with
    | error e => rfl
    | ok x =>
      cases x with
      | none => rfl
      | some b =>
        simp only [bind, Except.bind, pure, Except.pure]
        by_cases hz : b.binI.length = 0
        · rw [if_pos hz, if_pos hz]; rfl
        · rw [if_neg hz, if_neg hz, if_neg hnot]
          simp only [Except.map, Option.map, hu, scalePlane, Bool.false_eq_true, if_false, (optLoop_proj _ _ _).1,
            List.map_map]
          have hbins : (b.binI.map ((fun b : OptBin K => (⟨b.x0, b.y0, b.count, b.rows.map fun r => r.row⟩ : BinRows K)) ∘
              (fun l => (⟨(g.binRows l).x0, (g.binRows l).y0, (g.binRows l).count, g.optRows o l⟩ : OptBin K)) ∘
              fun i => (riSlice b.ri i).getD [])) =
              b.binI.map (g.binRows ∘ fun i => (riSlice b.ri i).getD []) := by
            apply List.map_congr_left
            intro i _
            simp only [Function.comp, (hproj _).1]
          rw [hbins]
  · intro m hm
    unfold visGridOpts visibilityGrid visGridCore
    cases gridBins g.toGridIn with
    | error e => rfl
    | ok x =>
      cases x with
      | none => rfl
      | some b =>
        simp only [bind, Except.bind, pure, Except.pure]
        by_cases hz : b.binI.length = 0
        · rw [if_pos hz, if_pos hz]; rfl
        · rw [if_neg hz, if_neg hz, if_neg hnot]
          simp only [Except.map, Option.map, hu, scalePlane, Bool.false_eq_true, if_false, (optLoop_proj _ _ _).2,
            List.map_map]
          have hbins : (b.binI.map ((fun b : OptBin K => (⟨b.x0, b.y0, b.count, b.rows.map OptRow.asModel⟩ : BinRows K)) ∘
              (fun l => (⟨(g.binRows l).x0, (g.binRows l).y0, (g.binRows l).count, g.optRows o l⟩ : OptBin K)) ∘
              fun i => (riSlice b.ri i).getD [])) =
              b.binI.map (({ g with vis := m } : VisGridIn K).binRows ∘ fun i => (riSlice b.ri i).getD []) := by
            apply List.map_congr_left
            intro i _
            simp only [Function.comp, (hproj _).2 m hm]
            rfl
          rw [hbins]
          unfold visGridFinish
          simp only []
          split_ifs <;> rfl

/-! ## C119 -/

theorem optLoop_count (d : ℕ) (nVis : K) (bins : List (OptBin K)) :
    (optLoop d nVis bins).count = bins.foldl (fun p b => addBox d p b.x0 b.y0 fun _ => (b.count : ℚ)) fun _ _ => 0 := by
  have key : ∀ (bins : List (OptBin K)) (z : OptPlanes K), (bins.foldl (optStep d nVis) z).count =
      bins.foldl (fun p b => addBox d p b.x0 b.y0 fun _ => (b.count : ℚ)) z.count := by
    intro bins
    induction bins with
    | nil => intro z; rfl
    | cons b t ih => intro z; rw [List.foldl_cons, List.foldl_cons, ih]; rfl
  exact key bins _

theorem optLoop_count_nat (d : ℕ) (nVis : K) (bins : List (OptBin K)) (y x : ℕ) :
    ∃ n : ℕ, (optLoop d nVis bins).count y x = n := by
  rw [optLoop_count]
  have key : ∀ (bins : List (OptBin K)) (p : Plane ℚ), (∀ y x, ∃ n : ℕ, p y x = n) →
      ∀ y x, ∃ n : ℕ, (bins.foldl (fun p b => addBox d p b.x0 b.y0 fun _ => (b.count : ℚ)) p) y x = n := by
    intro bins
    induction bins with
    | nil => intro p hp; exact hp
    | cons b t ih =>
      intro p hp
      rw [List.foldl_cons]
      apply ih
      intro y x
      obtain ⟨n, hn⟩ := hp y x
      unfold addBox
      split_ifs
      · exact ⟨n + b.count, by rw [hn]; push_cast; rfl⟩
      · exact ⟨n, hn⟩
  exact key bins _ (fun _ _ => ⟨0, by simp⟩) y x

theorem inv1_nat (n : ℕ) : weightInvertEntry (fun x : ℚ => |x|) id false (some 1) false (n : ℚ) = (n : ℚ)⁻¹ := by
  rw [filterEntry]
  split_ifs with h
  · rw [one_div]
  · have : n = 0 := by
      by_contra hc
      exact h (by exact_mod_cast Nat.one_le_iff_ne_zero.2 hc)
    subst this
    simp

theorem inv0 (q : ℚ) : weightInvertEntry (fun x : ℚ => |x|) id false none false q = q⁻¹ := by
  unfold weightInvertEntry npRecip
  by_cases h : q = 0
  · simp [h]
  · simp [h]

/-- The mean of `1 / n` over the pixels reached by `n > 0` samples. -/
def Spec.meanInverse (e d : ℕ) (count : Plane ℚ) : ℚ :=
  (∑ s ∈ (Finset.range e ×ˢ Finset.range d).filter (fun s => count s.1 s.2 ≠ 0), 1 / count s.1 s.2) /
    ((Finset.range e ×ˢ Finset.range d).filter fun s => count s.1 s.2 ≠ 0).card

theorem sum_flatMap_pixels (e d : ℕ) (f : ℕ → ℕ → ℚ) :
    ((List.range e).flatMap fun y => (List.range d).map fun x => f y x).sum =
      ∑ s ∈ Finset.range e ×ˢ Finset.range d, f s.1 s.2 := by
  have h := list_sum_flatMap_range e d fun s : ℕ × ℕ => f s.1 s.2
  rw [Finset.sum_product, ← h, List.map_flatMap]
  simp only [List.map_map]
  rfl

theorem uniformFactor_eq (e d : ℕ) (count : Plane ℚ) (hc : ∀ y x, ∃ n : ℕ, count y x = n) (y x : ℕ) (hy : y < e)
    (hx : x < d) : uniformFactor e d count y x = count y x * Spec.meanInverse e d count := by
  have hinv : ∀ y x, weightInvertEntry (fun x : ℚ => |x|) id false (some 1) false (count y x) = (count y x)⁻¹ := by
    intro y x
    obtain ⟨n, hn⟩ := hc y x
    rw [hn]
    exact inv1_nat n
  unfold uniformFactor
  simp only [hinv, inv0]
  set all := (List.range e).flatMap fun y => (List.range d).map fun x => (count y x)⁻¹ with hall
  set sel := all.filter fun f => f ≠ 0 with hsel
  have hsum : sel.sum = ∑ s ∈ (Finset.range e ×ˢ Finset.range d).filter (fun s => count s.1 s.2 ≠ 0),
      1 / count s.1 s.2 := by
    have h1 : sel.sum = all.sum := by
      rw [hsel]
      induction all with
      | nil => rfl
      | cons a t ih =>
        rw [List.filter_cons]
        by_cases ha : a = 0
        · rw [if_neg (by simpa using ha), ih]; simp [ha]
        · rw [if_pos (by simpa using ha), List.sum_cons, ih, List.sum_cons]
    rw [h1, hall, sum_flatMap_pixels, Finset.sum_filter]
    apply Finset.sum_congr rfl
    intro s _
    by_cases h : count s.1 s.2 = 0
    · simp [h]
    · simp [h]
  have hlen : (sel.length : ℚ) = ((Finset.range e ×ˢ Finset.range d).filter fun s => count s.1 s.2 ≠ 0).card := by
    have h2 : (sel.length : ℚ) = (all.map fun f => if f ≠ 0 then (1 : ℚ) else 0).sum := by
      rw [hsel]
      induction all with
      | nil => rfl
      | cons a t ih =>
        rw [List.filter_cons]
        by_cases ha : a = 0
        · simp [ha] at ih ⊢; exact ih
        · simp [ha] at ih ⊢; rw [ih]; ring
    rw [h2, hall, List.map_flatMap]
    simp only [List.map_map]
    rw [show ((List.range e).flatMap fun a => (List.range d).map ((fun f : ℚ => if f ≠ 0 then (1 : ℚ) else 0) ∘
      fun x => (count a x)⁻¹)) = (List.range e).flatMap fun y => (List.range d).map fun x =>
        (if count y x ≠ 0 then (1 : ℚ) else 0) by
      congr 1
      funext y
      apply List.map_congr_left
      intro x _
      simp]
    rw [sum_flatMap_pixels, Finset.card_filter]
    push_cast
    rfl
  by_cases hs : sel.length > 0
  · have hm : npMean sel = some (sel.sum / sel.length) := by
      unfold npMean
      rw [if_neg]
      intro hnil
      rw [hnil] at hs
      simp at hs
    simp only [if_pos hs, hm]
    rw [hsum, hlen, ← Spec.meanInverse, inv_div]
    rw [div_eq_mul_inv, inv_inv, mul_comm]
  · simp only [if_neg hs]
    have hz : count y x = 0 := by
      by_contra hne
      apply hs
      apply List.length_pos_of_mem (a := (count y x)⁻¹)
      rw [hsel, List.mem_filter, hall, List.mem_flatMap]
      refine ⟨⟨y, List.mem_range.2 hy, List.mem_map.2 ⟨x, List.mem_range.2 hx, rfl⟩⟩, ?_⟩
      simpa using hne
    rw [hz]
    cases npMean all <;> simp

/-- **C119 fails**: with `grid_uniform` the planes of data, weights and variance and of the model are multiplied by the number of samples
that reach a pixel (times one number for the whole plane), where uniform weighting divides by it. -/
theorem C119_uniform_multiplies (g : VisGridIn K) (o : GridOpts K) (hn : g.noConjugate = true)
    (hf : g.freqAll ≠ []) (hl : ∀ b, 0 ≤ blLength g.toGridIn b) (r : OptOut K)
    (h : visGridOpts g { o with gridUniform := true } = .ok (some r)) :
    visibilityCount g.toGridIn true = .ok r.count ∧
    ∃ r0, visGridOpts g { o with gridUniform := false } = .ok (some r0) ∧
      ∀ y < g.elements, ∀ x < g.dimension,
        r.out.planes.image y x = r0.out.planes.image y x *
          ((r.count y x * Spec.meanInverse g.elements g.dimension r.count : ℚ) : K) ∧
        r.out.planes.weights y x = r0.out.planes.weights y x *
          ((r.count y x * Spec.meanInverse g.elements g.dimension r.count : ℚ) : K) ∧
        r.out.planes.variance y x = r0.out.planes.variance y x *
          ((r.count y x * Spec.meanInverse g.elements g.dimension r.count : ℚ) : K) ∧
        r.model y x = r0.model y x *
          ((r.count y x * Spec.meanInverse g.elements g.dimension r.count : ℚ) : K) := by
  obtain ⟨oc, hoc, hcp⟩ := countPlane_eq g.toGridIn hf hl
  unfold visGridOpts at h ⊢
  unfold visGridCore at hoc
  rw [show gridBins (countIn g.toGridIn).toGridIn = gridBins g.toGridIn from rfl] at hoc
  cases hb : gridBins g.toGridIn with
  | error e => rw [hb] at h; cases h
  | ok x =>
    rw [hb] at h hoc
    simp only [bind, Except.bind, pure, Except.pure] at h hoc
    cases x with
    | none => cases h
    | some b =>
      simp only [bind, Except.bind, pure, Except.pure] at h hoc ⊢
      by_cases hz : b.binI.length = 0
      · rw [if_pos hz] at h; cases h
      · rw [if_neg hz] at h hoc ⊢
        split at h
        · cases h
        · rename_i hnot
          rw [if_neg (by simpa using hnot)]
          simp only [Except.ok.injEq, Option.some.injEq] at h hoc
          subst h
          refine ⟨?_, _, rfl, ?_⟩
          · unfold visibilityCount
            rw [hcp, ← hoc]
            simp only [bind, Except.bind, pure, Except.pure, if_true]
            congr 1
            unfold gridLoop
            rw [foldl_uniform, optLoop_count, List.foldl_map, List.foldl_map, List.foldl_map, List.foldl_map]
            rfl
          · intro y hy x hx
            have hfac := uniformFactor_eq g.elements g.dimension _ (optLoop_count_nat g.psfDim (b.binN.sum : K)
              ((b.binI.map fun i => (riSlice b.ri i).getD []).map fun l =>
        (⟨(g.binRows l).x0, (g.binRows l).y0, (g.binRows l).count, g.optRows o l⟩ : OptBin K))) y x hy hx
            have hrows : ∀ u l, g.optRows { o with gridUniform := u } l = g.optRows o l := fun _ _ => rfl
            simp only [hrows, visGridFinish, hn, if_true, scalePlane, Bool.false_eq_true, if_false]
            rw [hfac]
            exact ⟨rfl, rfl, rfl, rfl⟩

/-! ## C120 -/

/-- **C120 fails**: with a model, `grid_spectral` raises whenever there is something to grid and a kernel has more than one
pixel. -/
theorem C120_model_raises (g : VisGridIn K) (o : GridOpts K) (hs : o.gridSpectral = true) (m : ℕ → ℕ → K)
    (hm : o.model = some m) (hd : g.psfDim ≠ 1) (out : VisGridOut K) (h : visibilityGrid g = .ok (some out)) :
    visGridOpts g o = .error .valueError := by
  unfold visibilityGrid visGridCore at h
  unfold visGridOpts
  cases hb : gridBins g.toGridIn with
  | error e => rw [hb] at h; cases h
  | ok x =>
    rw [hb] at h
    simp only [bind, Except.bind, pure, Except.pure] at h ⊢
    cases x with
    | none => cases h
    | some b =>
      simp only [] at h ⊢
      by_cases hz : b.binI.length = 0
      · rw [if_pos hz] at h; cases h
      · rw [if_neg hz, if_pos ⟨hs, by rw [hm]; rfl, hd⟩]

theorem runEnds_replicate (n : ℕ) (c : ℤ) : runEnds (List.replicate (n + 1) c) = [n] := by
  unfold runEnds
  rw [List.length_replicate, List.range_succ, List.filter_append]
  rw [List.filter_eq_nil_iff.2, List.filter_cons_of_pos, List.filter_nil, List.nil_append]
  · simp
  · intro i hi
    have := List.mem_range.1 hi
    simp only [decide_eq_true_eq, not_or, not_not, List.getElem?_replicate]
    refine ⟨by omega, ?_⟩
    rw [if_pos (by omega), if_pos (by omega)]

theorem optRows_replicate (kern : ℕ → ℕ → ℕ → ℕ → K) (res n : ℕ) (it : OptItem K) :
    optRowsOfBin kern res (List.replicate (n + 2) it) =
      [⟨⟨kern it.item.fbin it.item.y it.item.x, (n + 2) * it.item.vis, n + 2⟩, (n + 2) * it.model, it.freq⟩] := by
  have hsort : ∀ c : ℤ, (List.replicate (n + 2) c).insertionSort (· ≤ ·) = List.replicate (n + 2) c := fun c =>
    List.eq_replicate_iff.2 ⟨by simp, fun b hb => by
      have := (List.perm_insertionSort (· ≤ ·) (List.replicate (n + 2) c)).mem_iff.1 hb
      exact (List.mem_replicate.1 this).2⟩
  have hun : ∀ c : ℤ, idlArgunique (List.replicate (n + 2) c) = [((n + 1 : ℕ) : ℤ)] := by
    intro c
    rw [C12_idl_argunique _ (List.pairwise_replicate.2 (Or.inr le_rfl)), runEnds_replicate]
    rfl
  unfold optRowsOfBin
  simp only []
  have hσ := (sorted_spec (List.replicate (n + 2) it) fun i =>
    xyfIndex res (groupMax ((List.replicate (n + 2) it).map fun it => it.item)) i.item).1
  rw [List.map_replicate (f := fun i : OptItem K => xyfIndex res _ i.item)] at hσ ⊢
  rw [hsort, hun, if_pos (by simp; omega)]
  rw [List.perm_replicate.1 hσ]
  unfold optRuns slice
  have h2 : (n : K) + 1 + 1 = n + 2 := by ring
  simp [List.getElem?_replicate, nsmul_eq_mul, h2]

omit [StarRing K] in
theorem optRows_one (kern : ℕ → ℕ → ℕ → ℕ → K) (res : ℕ) (it : OptItem K) :
    optRowsOfBin kern res [it] = [⟨⟨kern it.item.fbin it.item.y it.item.x, it.item.vis, 1⟩, it.model, it.freq⟩] := by
  unfold optRowsOfBin
  simp only []
  have hun : ∀ c : ℤ, idlArgunique ([c].insertionSort (· ≤ ·)) = [0] := by
    intro c
    rw [show [c].insertionSort (· ≤ ·) = List.replicate (0 + 1) c from rfl,
      C12_idl_argunique _ (List.pairwise_replicate.2 (Or.inr le_rfl)), runEnds_replicate]
    rfl
  rw [List.map_singleton, hun, if_neg (by simp)]
  rfl

/-- **C120 fails**: of `n + 2` equal visibilities in a bin, the data term of the spectral plane counts all, the two terms of the
frequencies count one. -/
theorem C120_repeats_count_once (kern : ℕ → ℕ → ℕ → ℕ → K) (res n : ℕ) (it : OptItem K) (nVis : K) (p : ℕ) :
    let one := optRowsOfBin kern res [it]
    let many := optRowsOfBin kern res (List.replicate (n + 2) it)
    specABox nVis many p = (n + 2) * specABox nVis one p ∧
    weightBox nVis (many.map fun r => r.row) p = (n + 2) * weightBox nVis (one.map fun r => r.row) p ∧
    specBBox nVis many p = specBBox nVis one p ∧ specDBox nVis many p = specDBox nVis one p := by
  simp only [optRows_replicate, optRows_one, specABox, specBBox, specDBox, weightBox, List.map_cons, List.map_nil,
    List.sum_cons, List.sum_nil, add_zero]
  refine ⟨by ring, by ring, trivial, trivial⟩

/-! ## Examples -/

/-- C116: two samples reach the pixel `(7, 10)`, and with its mirror pixel the mean is taken. -/
example : (visibilityCount (exVis false).toGridIn true).map (fun a => (a 7 10, a 9 6, a 4 8)) = .ok (2, 0, 1) ∧
    (visibilityCount (exVis false).toGridIn false).map (fun a => (a 7 10, a 9 6)) = .ok (1, 1) ∧
    Reaches (exVis false).toGridIn 0 0 7 10 ∧ Reaches (exVis false).toGridIn 1 0 7 10 := by decide +kernel

/-- C117: a dictionary of `params`. -/
example : ∃ e, filterUvUniform [(1 : ℚ), 2] none true
    (countCall (some [("n_vis", (1 : ℕ))]) (some [("uu", 2), ("vv", 3)]) (.ok [1, 1])) none = .error e :=
  C117_counts_raise [(1 : ℚ), 2] (some [("n_vis", (1 : ℕ))]) (some [("uu", 2), ("vv", 3)]) (Or.inl rfl)
    (by intro p hp; cases hp; decide) (.ok [1, 1]) none

/-- Options with a model that differs from the data. -/
def exOpts (uniform spectral : Bool) : GridOpts ℚ := ⟨some fun f b => 3 * f + b + 2, uniform, spectral⟩

/-- C118: the model has its own plane. -/
example : (visGridOpts (exVis false) (exOpts false false)).map (·.map fun r => (r.out.planes.image 7 10, r.model 7 10)) =
      .ok (some (247 / 4, 607 / 4)) ∧
    (visibilityGrid (exVis false)).map (·.map fun r => r.planes.image 7 10) = .ok (some (247 / 4)) ∧
    (visibilityGrid { exVis false with vis := fun f b => 3 * f + b + 2 }).map (·.map fun r => r.planes.image 7 10) =
      .ok (some (607 / 4)) := by decide +kernel

/-- C119: the pixel reached by two samples gets twice the weight of the one reached by one. -/
example : (visGridOpts (exVis false) (exOpts true false)).map (·.map fun r => (r.out.planes.image 7 10, r.count 7 10)) =
      .ok (some (1235 / 12, 2)) ∧ (exVis false).noConjugate = true ∧ (exVis false).freqAll ≠ [] ∧
    (visGridOpts (exVis false) (exOpts true false)).map (·.map fun r => (r.out.planes.image 4 8, r.count 4 8)) =
      .ok (some (75, 1)) ∧
    (visGridOpts (exVis false) (exOpts false false)).map (·.map fun r => r.out.planes.image 4 8) =
      .ok (some (90)) := by decide +kernel

example (b : ℕ) : 0 ≤ blLength (exVis false).toGridIn b := by
  unfold blLength exVis exGrid
  positivity

/-- C120: the model makes the call raise, `psf_dim` being 2. -/
example : (visGridOpts (exVis false) (exOpts false true)).map (·.isSome) = .error .valueError ∧ (exVis false).psfDim = 2 ∧
    (visibilityGrid (exVis false)).map (·.isSome) = .ok true := by decide +kernel

/-- C120: the frequency term of two equal visibilities is that of one. -/
example : let it : OptItem ℚ := ⟨⟨0, 1, 2, 0, 5⟩, 7, 3⟩
    let kern : ℕ → ℕ → ℕ → ℕ → ℚ := fun _ _ _ p => p + 1
    specBBox 1 (optRowsOfBin kern 4 [it, it]) 1 = 6 ∧ specBBox 1 (optRowsOfBin kern 4 [it]) 1 = 6 ∧
    specABox 1 (optRowsOfBin kern 4 [it, it]) 1 = 60 := by decide +kernel

end PyFHD
