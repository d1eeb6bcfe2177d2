import Verif.Props.SpectralPlane

/-!
# Relations between two griddings of the same observation (C190-C192)
-/

namespace PyFHD

open Spec

variable {K : Type _} [Field K] [StarRing K]

/-- The same gridding with other visibilities. -/
def Spec.withVis (g : VisGridIn K) (v : ℕ → ℕ → K) : VisGridIn K := { g with vis := v }

/-- The kernel of one visibility of a bin. -/
def rowKern (g : VisGridIn K) (k : ℕ) : ℕ → K :=
  if g.interp then (g.interpRow k).kern else g.kern (g.item k).fbin (g.item k).y (g.item k).x

/-- The three boxes of a bin as sums over its visibilities, for planes of any shape. -/
theorem binRows_sums (g : VisGridIn K) (hr : 0 < g.res) (inds : List ℕ) (nVis : K) (p : ℕ) :
    imageBox nVis (g.binRows inds).rows p
      = (inds.map fun k => star (rowKern g k p) * g.visUse (g.flat.getD k (0, 0))).sum / nVis ∧
    weightBox nVis (g.binRows inds).rows p = (inds.map fun k => star (rowKern g k p)).sum / nVis ∧
    varianceBox nVis (g.binRows inds).rows p
      = (inds.map fun k => star (rowKern g k p) * rowKern g k p).sum / nVis := by
  cases hi : g.interp with
  | true =>
    have hrows : (g.binRows inds).rows = inds.map g.interpRow := by
      unfold VisGridIn.binRows; simp [hi]
    rw [hrows]
    unfold imageBox weightBox varianceBox rowKern
    simp only [List.map_map, Function.comp_def, hi, if_true]
    refine ⟨?_, ?_, ?_⟩ <;> rw [div_eq_mul_inv, ← List.sum_map_mul_right] <;> congr 1 <;>
      refine List.map_congr_left fun k _ => ?_
    · show _ * (g.visUse _ / nVis) = _
      ring
    · show _ * ((1 : K) / nVis) = _
      ring
    · show _ * ((1 : K) / nVis) = _
      ring
  | false =>
    have hrows : (g.binRows inds).rows = rowsOfBin g.kern g.res (inds.map g.item) := by
      unfold VisGridIn.binRows; simp [hi]
    rw [hrows]
    have hb : ∀ it ∈ inds.map g.item, it.x < g.res ∧ it.y < g.res := by
      intro it hit
      obtain ⟨k, _, rfl⟩ := List.mem_map.1 hit
      unfold VisGridIn.item
      simp only []
      obtain ⟨a1, a2, _⟩ := offset_frac g.toGridIn hr
        (g.xcen (g.flat.getD k (0, 0)).1 (g.flat.getD k (0, 0)).2)
      obtain ⟨b1, b2, _⟩ := offset_frac g.toGridIn hr
        (g.ycen (g.flat.getD k (0, 0)).1 (g.flat.getD k (0, 0)).2)
      constructor <;> omega
    obtain ⟨c1, c2, c3⟩ := C30_bin_boxes g.kern g.res (inds.map g.item) hb nVis p
    rw [c1, c2, c3]
    unfold rowKern
    simp only [List.map_map, Function.comp_def, hi]
    exact ⟨rfl, rfl, rfl⟩

theorem rowKern_withVis (g : VisGridIn K) (v : ℕ → ℕ → K) (k : ℕ) : rowKern (withVis g v) k = rowKern g k := rfl

/-- The corner of a bin does not depend on the visibilities. -/
theorem binRows_place (g : VisGridIn K) (v : ℕ → ℕ → K) (inds : List ℕ) :
    ((withVis g v).binRows inds).x0 = (g.binRows inds).x0 ∧ ((withVis g v).binRows inds).y0 = (g.binRows inds).y0 ∧
    ((withVis g v).binRows inds).count = (g.binRows inds).count := ⟨rfl, rfl, rfl⟩

/-- The loop over the bins with the visibilities `v`. -/
def loopOf (g : VisGridIn K) (b : GridBins) (v : ℕ → ℕ → K) : GridPlanes K :=
  gridLoop g.psfDim ((b.binN.sum : ℕ) : K)
    ((b.binI.map fun i => (riSlice b.ri i).getD []).map (withVis g v).binRows)

/-- Either both runs return the empty dictionary, or fail alike, or both return planes. -/
theorem core_cases (g : VisGridIn K) :
    (∃ e, ∀ v, visGridCore (withVis g v) = .error e) ∨ (∀ v, visGridCore (withVis g v) = .ok none) ∨
    ∃ b nf, ∀ v, visGridCore (withVis g v) = .ok (some ⟨loopOf g b v, b.binN.sum, nf⟩) := by
  unfold visGridCore
  simp only [bind, Except.bind, pure, Except.pure]
  have hb : ∀ v, gridBins (withVis g v).toGridIn = gridBins g.toGridIn := fun v => rfl
  simp only [hb]
  cases hg : gridBins g.toGridIn with
  | error e => left; exact ⟨e, fun _ => rfl⟩
  | ok o =>
    right
    cases o with
    | none => left; intro v; rfl
    | some b =>
      by_cases h0 : b.binI.length = 0
      · left; intro v; simp [h0]
      · right
        refine ⟨b, g.fiUse.map fun f => (g.biUse.filter fun bl => 0 < (g.corner f bl).1).length, fun v => ?_⟩
        simp only [h0, if_false]
        rfl

theorem loopOf_image (g : VisGridIn K) (hr : 0 < g.res) (b : GridBins) (v : ℕ → ℕ → K) (y x : ℕ) :
    (loopOf g b v).image y x = (b.binI.map fun i =>
      let inds := (riSlice b.ri i).getD []
      if (g.binRows inds).y0 ≤ y ∧ y < (g.binRows inds).y0 + g.psfDim ∧ (g.binRows inds).x0 ≤ x ∧
          x < (g.binRows inds).x0 + g.psfDim then
        (inds.map fun k => star (rowKern g k ((y - (g.binRows inds).y0) * g.psfDim + (x - (g.binRows inds).x0)))
          * (withVis g v).visUse (g.flat.getD k (0, 0))).sum / ((b.binN.sum : ℕ) : K)
      else 0).sum := by
  unfold loopOf
  rw [(gridLoop_spec _ _ _ y x).1]
  simp only [List.map_map, Function.comp_def]
  congr 1
  refine List.map_congr_left fun i _ => ?_
  obtain ⟨h1, h2, _⟩ := binRows_place g v ((riSlice b.ri i).getD [])
  rw [h1, h2, (binRows_sums (withVis g v) hr _ _ _).1]
  rfl

/-- The other planes do not depend on the visibilities. -/
theorem loopOf_rest (g : VisGridIn K) (hr : 0 < g.res) (b : GridBins) (v w : ℕ → ℕ → K) :
    (loopOf g b v).weights = (loopOf g b w).weights ∧ (loopOf g b v).variance = (loopOf g b w).variance ∧
    (loopOf g b v).uniform = (loopOf g b w).uniform := by
  unfold loopOf
  refine ⟨?_, ?_, ?_⟩ <;> funext y x
  · rw [(gridLoop_spec _ _ _ y x).2.1, (gridLoop_spec _ _ _ y x).2.1]
    simp only [List.map_map, Function.comp_def]
    congr 1
    refine List.map_congr_left fun i _ => ?_
    rw [(binRows_sums (withVis g v) hr _ _ _).2.1, (binRows_sums (withVis g w) hr _ _ _).2.1]
    rfl
  · rw [(gridLoop_spec _ _ _ y x).2.2.1, (gridLoop_spec _ _ _ y x).2.2.1]
    simp only [List.map_map, Function.comp_def]
    congr 1
    refine List.map_congr_left fun i _ => ?_
    rw [(binRows_sums (withVis g v) hr _ _ _).2.2, (binRows_sums (withVis g w) hr _ _ _).2.2]
    rfl
  · rw [(gridLoop_spec _ _ _ y x).2.2.2, (gridLoop_spec _ _ _ y x).2.2.2]
    simp only [List.map_map, Function.comp_def]
    congr 1

theorem sum_map_lin {α : Type _} (l : List α) (a b : K) (u v : α → K) :
    (l.map fun i => a * u i + b * v i).sum = a * (l.map u).sum + b * (l.map v).sum := by
  induction l with
  | nil => simp
  | cons h t ih => simp only [List.map_cons, List.sum_cons, ih]; ring

theorem loopOf_linear (g : VisGridIn K) (hr : 0 < g.res) (b : GridBins) (v w : ℕ → ℕ → K) (a c : K)
    (ha : star a = a) (hc : star c = c) (y x : ℕ) :
    (loopOf g b fun f s => a * v f s + c * w f s).image y x
      = a * (loopOf g b v).image y x + c * (loopOf g b w).image y x := by
  rw [loopOf_image g hr, loopOf_image g hr, loopOf_image g hr, ← sum_map_lin]
  congr 1
  refine List.map_congr_left fun i _ => ?_
  simp only []
  have hv : ∀ s, (withVis g fun f s => a * v f s + c * w f s).visUse s
      = a * (withVis g v).visUse s + c * (withVis g w).visUse s := by
    intro s
    unfold VisGridIn.visUse withVis
    simp only []
    split_ifs
    · rw [star_add, star_mul', star_mul', ha, hc]
    · rfl
  split_ifs
  · simp only [hv]
    rw [mul_div_assoc', mul_div_assoc', ← add_div, ← sum_map_lin]
    congr 2
    refine List.map_congr_left fun k _ => ?_
    ring
  · ring

theorem conjugateMirror_linear (n m : ℕ) (a c : K) (ha : star a = a) (hc : star c = c) (u v : Plane K) (y x : ℕ) :
    conjugateMirror true n m (fun i j => a * u i j + c * v i j) y x
      = a * conjugateMirror true n m u y x + c * conjugateMirror true n m v y x := by
  simp only [conjugateMirror, npRoll1, npFlip, if_true, star_add, star_mul', ha, hc]

theorem finish_withVis (g : VisGridIn K) (v : ℕ → ℕ → K) (o : VisGridOut K) :
    visGridFinish (withVis g v) o = visGridFinish g o := rfl

/-- The planes other than the image after the symmetrisation are functions of the ones before. -/
theorem finish_rest (g : VisGridIn K) (o1 o2 : VisGridOut K) (e1 : o1.planes.weights = o2.planes.weights)
    (e2 : o1.planes.variance = o2.planes.variance) (e3 : o1.planes.uniform = o2.planes.uniform)
    (e4 : o1.nVis = o2.nVis) (e5 : o1.nfVis = o2.nfVis) :
    (visGridFinish g o1).planes.weights = (visGridFinish g o2).planes.weights ∧
    (visGridFinish g o1).planes.variance = (visGridFinish g o2).planes.variance ∧
    (visGridFinish g o1).planes.uniform = (visGridFinish g o2).planes.uniform ∧
    (visGridFinish g o1).nVis = (visGridFinish g o2).nVis ∧
    (visGridFinish g o1).nfVis = (visGridFinish g o2).nfVis := by
  unfold visGridFinish
  cases g.noConjugate with
  | true => exact ⟨e1, e2, e3, e4, e5⟩
  | false => simp only [Bool.false_eq_true, if_false, e1, e2, e3, e4, e5, and_self]

/-! ## C190 -/

/-- **C190.** Gridding is linear: when three runs differ only in the visibilities, and those of the third are a
combination with real coefficients of those of the first two, then its image plane is the same combination of
theirs. -/
theorem C190_linear (g : VisGridIn K) (hr : 0 < g.res) (v w : ℕ → ℕ → K) (a c : K) (ha : star a = a)
    (hc : star c = c) (o1 o2 : VisGridOut K) (h1 : visibilityGrid (withVis g v) = .ok (some o1))
    (h2 : visibilityGrid (withVis g w) = .ok (some o2)) :
    ∃ o, visibilityGrid (withVis g fun f s => a * v f s + c * w f s) = .ok (some o) ∧
      ∀ y x, o.planes.image y x = a * o1.planes.image y x + c * o2.planes.image y x := by
  unfold visibilityGrid at h1 h2 ⊢
  simp only [bind, Except.bind, pure, Except.pure] at h1 h2 ⊢
  rcases core_cases g with ⟨e, h⟩ | h | ⟨b, nf, h⟩
  · rw [h v] at h1; simp at h1
  · rw [h v] at h1; simp at h1
  · rw [h v] at h1
    rw [h w] at h2
    simp only [Option.map_some, Except.ok.injEq, Option.some.injEq] at h1 h2
    rw [h]
    refine ⟨_, rfl, fun y x => ?_⟩
    subst h1 h2
    have hl := loopOf_linear g hr b v w a c ha hc
    rw [finish_withVis, finish_withVis, finish_withVis]
    unfold visGridFinish
    cases g.noConjugate with
    | true => exact hl y x
    | false =>
      simp only [Bool.false_eq_true, if_false]
      unfold symmetrise
      have : (loopOf g b fun f s => a * v f s + c * w f s).image
          = fun i j => a * (loopOf g b v).image i j + c * (loopOf g b w).image i j := by
        funext i j; exact hl i j
      rw [this, conjugateMirror_linear _ _ _ _ ha hc]
      ring

/-! ## C191 -/

/-- **C191.** The weights, the variance, the uniform plane and the counts do not depend on the visibilities. -/
theorem C191_weights (g : VisGridIn K) (hr : 0 < g.res) (v w : ℕ → ℕ → K) (o1 : VisGridOut K)
    (h1 : visibilityGrid (withVis g v) = .ok (some o1)) :
    ∃ o2, visibilityGrid (withVis g w) = .ok (some o2) ∧ o2.planes.weights = o1.planes.weights ∧
      o2.planes.variance = o1.planes.variance ∧ o2.planes.uniform = o1.planes.uniform ∧ o2.nVis = o1.nVis ∧
      o2.nfVis = o1.nfVis := by
  unfold visibilityGrid at h1 ⊢
  simp only [bind, Except.bind, pure, Except.pure] at h1 ⊢
  rcases core_cases g with ⟨e, h⟩ | h | ⟨b, nf, h⟩
  · rw [h v] at h1; simp at h1
  · rw [h v] at h1; simp at h1
  · rw [h v] at h1
    simp only [Option.map_some, Except.ok.injEq, Option.some.injEq] at h1
    rw [h w]
    refine ⟨_, rfl, ?_⟩
    subst h1
    obtain ⟨e1, e2, e3⟩ := loopOf_rest g hr b w v
    rw [finish_withVis, finish_withVis]
    exact finish_rest g _ _ e1 e2 e3 rfl rfl

/-- **C191**, the other outcomes: whether anything is gridded, and which error is raised, does not depend on the
visibilities either. -/
theorem C191_outcome (g : VisGridIn K) (v w : ℕ → ℕ → K) :
    (visibilityGrid (withVis g v) = .ok none → visibilityGrid (withVis g w) = .ok none) ∧
    ∀ e, visibilityGrid (withVis g v) = .error e → visibilityGrid (withVis g w) = .error e := by
  unfold visibilityGrid
  simp only [bind, Except.bind, pure, Except.pure]
  rcases core_cases g with ⟨e, h⟩ | h | ⟨b, nf, h⟩
  · rw [h v, h w]; simp
  · rw [h v, h w]; simp
  · rw [h v, h w]; simp

/-! ## C192 -/

theorem corner_flagged (g : GridIn) (f b : ℕ) (hfill : g.fill = false)
    (hw : g.weight f b ≤ 0) : g.corner f b = (-1, -1) := by
  unfold GridIn.corner
  simp only []
  split_ifs with h1 h2 h3 h4 h5 <;> first | rfl | exact absurd ⟨hfill, hw⟩ h4

/-- **C192.** The values of flagged visibilities have no influence: two runs whose visibilities agree wherever the
weight is positive return the same. -/
theorem C192_flagged (g : VisGridIn K) (hf : g.freqAll ≠ []) (hl : ∀ b, 0 ≤ blLength g.toGridIn b)
    (hfill : g.fill = false) (v w : ℕ → ℕ → K) (hvw : ∀ f b, 0 < g.weight f b → v f b = w f b) :
    visibilityGrid (withVis g v) = visibilityGrid (withVis g w) := by
  have hcore : visGridCore (withVis g v) = visGridCore (withVis g w) := by
    unfold visGridCore
    have hb : ∀ u, gridBins (withVis g u).toGridIn = gridBins g.toGridIn := fun _ => rfl
    simp only [bind, Except.bind, pure, Except.pure, hb]
    rcases gridBins_spec g.toGridIn hf hl with ⟨h, _⟩ | ⟨r, hi, h, h0, hall, hs, _⟩
    · rw [h]
    · rw [h]
      simp only []
      split_ifs
      · rfl
      · have hrows : ∀ i ∈ nonzeroIdx r.hist, (withVis g v).binRows ((riSlice r.ri i).getD [])
            = (withVis g w).binRows ((riSlice r.ri i).getD []) := by
          intro i hi'
          have hlen : r.hist.length = (hi - 0 + 1).toNat := by rw [hs.hist]; simp
          have hn' : i < (hi - 0 + 1).toNat := by
            rw [mem_nonzeroIdx] at hi'
            by_contra hge
            apply hi'
            simp only [List.getD, List.getElem?_eq_none (by omega : r.hist.length ≤ i), Option.getD_none]
          rw [hs.slices i hn', Option.getD_some]
          have hval : ∀ k ∈ positions (fun d => d = 0 + (i : ℤ)) (g.flat.map g.pixel),
              (withVis g v).visUse (g.flat.getD k (0, 0)) = (withVis g w).visUse (g.flat.getD k (0, 0)) := by
            intro k hk
            obtain ⟨d, hd, hdi⟩ := (mem_positions _ _ _).1 hk
            rw [List.getElem?_map] at hd
            obtain ⟨s, hs1, hs2⟩ := Option.map_eq_some_iff.1 hd
            have hg : g.flat.getD k (0, 0) = s := by rw [List.getD_eq_getElem?_getD, hs1]; rfl
            rw [hg]
            have hpos : 0 < g.weight s.1 s.2 := by
              by_contra hle
              have hc := corner_flagged g.toGridIn s.1 s.2 hfill (not_lt.1 hle)
              unfold GridIn.pixel at hs2
              rw [hc] at hs2
              simp only [] at hs2
              omega
            have := hvw _ _ hpos
            unfold VisGridIn.visUse withVis
            simp only [this]
          have hitem : ∀ k ∈ positions (fun d => d = 0 + (i : ℤ)) (g.flat.map g.pixel),
              (withVis g v).item k = (withVis g w).item k := by
            intro k hk
            have := hval k hk
            unfold VisGridIn.item
            simp only [VisItem.mk.injEq]
            exact ⟨rfl, rfl, rfl, rfl, this⟩
          have hint : ∀ k ∈ positions (fun d => d = 0 + (i : ℤ)) (g.flat.map g.pixel),
              (withVis g v).interpRow k = (withVis g w).interpRow k := by
            intro k hk
            have := hval k hk
            unfold VisGridIn.interpRow
            simp only [GridRow.mk.injEq]
            exact ⟨rfl, this, trivial⟩
          unfold VisGridIn.binRows
          have h1 := List.map_congr_left hitem
          have h2 := List.map_congr_left hint
          rw [h1, h2]
          rfl
        have : (List.map (fun i => (riSlice r.ri i).getD []) (nonzeroIdx r.hist)).map (withVis g v).binRows
            = (List.map (fun i => (riSlice r.ri i).getD []) (nonzeroIdx r.hist)).map (withVis g w).binRows := by
          simp only [List.map_map]
          exact List.map_congr_left hrows
        rw [this]
        rfl
  unfold visibilityGrid
  rw [hcore]
  rfl

/-- Two runs on the same observation, one with five times the visibilities of the other: the planes exist and are not
zero. -/
example : 0 < (exVis false).res ∧ (exVis false).fill = false ∧ (exVis false).freqAll ≠ [] ∧
    (visibilityGrid (withVis (exVis false) fun f b => f + 3 * b + 1)).map (fun o => o.map fun o =>
      (o.planes.image 4 8, o.planes.weights 4 8)) = .ok (some (120, 30)) ∧
    (visibilityGrid (withVis (exVis false) fun f b => 5 * (f + 3 * b + 1))).map (fun o => o.map fun o =>
      (o.planes.image 4 8, o.planes.weights 4 8)) = .ok (some (600, 30)) := by
  decide +kernel

end PyFHD
