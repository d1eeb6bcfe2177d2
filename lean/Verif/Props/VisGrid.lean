import Verif.Lemmas.Dedup
import Verif.Props.GridLocations
import Verif.Props.Planes

/-!
# C30 - C32: `visibility_grid`
-/

namespace PyFHD

open Spec

variable {K : Type _} [Field K] [StarRing K]

/-! ## C30 -/

/-- **C30.** Combining the visibilities that share a kernel changes none of the three boxes. -/
theorem C30_dedup_eq_direct (kern : ℕ → ℕ → ℕ → ℕ → K) (res : ℕ) (items : List (VisItem K))
    (hb : ∀ it ∈ items, it.x < res ∧ it.y < res) (nVis : K) (p : ℕ) :
    imageBox nVis (rowsDedup kern res items) p = imageBox nVis (rowsDirect kern items) p ∧
    weightBox nVis (rowsDedup kern res items) p = weightBox nVis (rowsDirect kern items) p ∧
    varianceBox nVis (rowsDedup kern res items) p = varianceBox nVis (rowsDirect kern items) p := by
  have h1 := rowsDedup_sum kern res items hb fun k => star (k p) / nVis
  have h2 := rowsDedup_sum kern res items hb fun k => star (k p) * k p / nVis
  have e : ∀ a b : K, a * (b / nVis) = a / nVis * b := fun a b => by ring
  unfold imageBox weightBox varianceBox
  simp only [e]
  exact ⟨h1.1, h1.2, h2.2⟩

/-- **C30**, in full: whichever path the bin takes, the boxes are the sums over its visibilities of
the conjugated kernel times the visibility, the conjugated kernel, and the squared kernel. -/
theorem C30_bin_boxes (kern : ℕ → ℕ → ℕ → ℕ → K) (res : ℕ) (items : List (VisItem K))
    (hb : ∀ it ∈ items, it.x < res ∧ it.y < res) (nVis : K) (p : ℕ) :
    imageBox nVis (rowsOfBin kern res items) p
      = (items.map fun it => star (kern it.fbin it.y it.x p) * it.vis).sum / nVis ∧
    weightBox nVis (rowsOfBin kern res items) p
      = (items.map fun it => star (kern it.fbin it.y it.x p)).sum / nVis ∧
    varianceBox nVis (rowsOfBin kern res items) p
      = (items.map fun it => star (kern it.fbin it.y it.x p) * kern it.fbin it.y it.x p).sum / nVis
      := by
  have hd : imageBox nVis (rowsDirect kern items) p
      = (items.map fun it => star (kern it.fbin it.y it.x p) * it.vis).sum / nVis ∧
    weightBox nVis (rowsDirect kern items) p
      = (items.map fun it => star (kern it.fbin it.y it.x p)).sum / nVis ∧
    varianceBox nVis (rowsDirect kern items) p
      = (items.map fun it => star (kern it.fbin it.y it.x p) * kern it.fbin it.y it.x p).sum / nVis
      := by
    unfold imageBox weightBox varianceBox rowsDirect
    simp only [List.map_map, Function.comp_def, div_eq_mul_inv, ← mul_assoc,
      List.sum_map_mul_right, mul_one, and_self]
  unfold rowsOfBin
  simp only []
  split_ifs
  · obtain ⟨a, b, c⟩ := C30_dedup_eq_direct kern res items hb nVis p
    rw [a, b, c]; exact hd
  · exact hd

/-! ## C31 -/

omit [StarRing K] in
theorem foldl_addBox {β : Type _} (d : ℕ) (X Y : β → ℕ) (box : β → ℕ → K) (l : List β)
    (init : Plane K) (y x : ℕ) :
    (l.foldl (fun pl b => addBox d pl (X b) (Y b) (box b)) init) y x
      = init y x + (l.map fun b => if Y b ≤ y ∧ y < Y b + d ∧ X b ≤ x ∧ x < X b + d
          then box b ((y - Y b) * d + (x - X b)) else 0).sum := by
  induction l generalizing init with
  | nil => simp
  | cons a t ih =>
    simp only [List.foldl_cons, List.map_cons, List.sum_cons]
    rw [ih]
    unfold addBox
    split_ifs <;> ring

/-- What the loop over the bins adds up. -/
theorem gridLoop_spec (d : ℕ) (nVis : K) (bins : List (BinRows K)) (y x : ℕ) :
    let S := fun (box : BinRows K → ℕ → K) => (bins.map fun b =>
      if b.y0 ≤ y ∧ y < b.y0 + d ∧ b.x0 ≤ x ∧ x < b.x0 + d
        then box b ((y - b.y0) * d + (x - b.x0)) else 0).sum
    (gridLoop d nVis bins).image y x = S (fun b => imageBox nVis b.rows) ∧
    (gridLoop d nVis bins).weights y x = S (fun b => weightBox nVis b.rows) ∧
    (gridLoop d nVis bins).variance y x = S (fun b => varianceBox nVis b.rows) ∧
    (gridLoop d nVis bins).uniform y x = S (fun b _ => (b.count : K)) := by
  intro S
  have proj : ∀ (l : List (BinRows K)) (pl : GridPlanes K),
      (l.foldl (gridStep d nVis) pl).image = l.foldl (fun q b =>
        addBox d q b.x0 b.y0 (imageBox nVis b.rows)) pl.image ∧
      (l.foldl (gridStep d nVis) pl).weights = l.foldl (fun q b =>
        addBox d q b.x0 b.y0 (weightBox nVis b.rows)) pl.weights ∧
      (l.foldl (gridStep d nVis) pl).variance = l.foldl (fun q b =>
        addBox d q b.x0 b.y0 (varianceBox nVis b.rows)) pl.variance ∧
      (l.foldl (gridStep d nVis) pl).uniform = l.foldl (fun q b =>
        addBox d q b.x0 b.y0 fun _ => (b.count : K)) pl.uniform := by
    intro l
    induction l with
    | nil => intro pl; exact ⟨rfl, rfl, rfl, rfl⟩
    | cons a t ih => intro pl; exact ih (gridStep d nVis pl a)
  obtain ⟨p1, p2, p3, p4⟩ := proj bins ⟨fun _ _ => 0, fun _ _ => 0, fun _ _ => 0, fun _ _ => 0⟩
  unfold gridLoop
  rw [p1, p2, p3, p4, foldl_addBox, foldl_addBox, foldl_addBox, foldl_addBox]
  simp [S]

/-- **C31**, order of the bins: gridding the same bins in another order gives the same planes. -/
theorem C31_bin_order (d : ℕ) (nVis : K) {bins bins' : List (BinRows K)} (h : bins.Perm bins')
    (y x : ℕ) :
    (gridLoop d nVis bins).image y x = (gridLoop d nVis bins').image y x ∧
    (gridLoop d nVis bins).weights y x = (gridLoop d nVis bins').weights y x ∧
    (gridLoop d nVis bins).variance y x = (gridLoop d nVis bins').variance y x ∧
    (gridLoop d nVis bins).uniform y x = (gridLoop d nVis bins').uniform y x := by
  obtain ⟨a1, a2, a3, a4⟩ := gridLoop_spec d nVis bins y x
  obtain ⟨b1, b2, b3, b4⟩ := gridLoop_spec d nVis bins' y x
  rw [a1, a2, a3, a4, b1, b2, b3, b4]
  exact ⟨(h.map _).sum_eq, (h.map _).sum_eq, (h.map _).sum_eq, (h.map _).sum_eq⟩

/-- The bins hold the numbers of the samples to be gridded, each once. -/
theorem members_perm {g : GridIn} (hsq : g.elements = g.dimension) (hf : g.freqAll ≠ [])
    (hl : ∀ b, 0 ≤ blLength g b) {r : HistResult} {hi : ℤ} (h0 : 0 ≤ hi)
    (hall : ∀ x ∈ g.flat.map g.pixel, x ≤ hi) (hs : HistIntSpec (g.flat.map g.pixel) 0 hi r) :
    ((nonzeroIdx r.hist).flatMap
        (GridBins.members ⟨r.hist, nonzeroIdx r.hist, r.ri⟩)).Perm
      ((List.range (g.fiUse.length * g.biUse.length)).filter fun k =>
        decide (Gridable g (chanOf g k) (blOf g k))) := by
  set B : GridBins := ⟨r.hist, nonzeroIdx r.hist, r.ri⟩ with hB
  have hlen : r.hist.length = (hi - 0 + 1).toNat := by rw [hs.hist]; simp
  have hmem : ∀ n ∈ nonzeroIdx r.hist,
      B.members n = positions (fun d => d = 0 + (n : ℤ)) (g.flat.map g.pixel) := by
    intro n hn
    have hn' : n < (hi - 0 + 1).toNat := by
      rw [mem_nonzeroIdx] at hn
      by_contra hge
      apply hn
      simp only [List.getD, List.getElem?_eq_none (by omega : r.hist.length ≤ n), Option.getD_none]
    unfold GridBins.members
    simp only [hB, hs.slices n hn', Option.getD_some]
  have hsample : ∀ (k : ℕ) (s : ℕ × ℕ), g.flat[k]? = some s ↔
      k < g.fiUse.length * g.biUse.length ∧ s = (chanOf g k, blOf g k) := by
    intro k s
    constructor
    · intro h
      have hk : k < g.fiUse.length * g.biUse.length := by
        have := (List.getElem?_eq_some_iff.1 h).1
        rwa [flat_length] at this
      obtain ⟨h1, h2⟩ := flat_get_inv g h
      refine ⟨hk, ?_⟩
      unfold chanOf blOf
      unfold GridIn.nb at h1 h2
      simp [List.getD, h1, h2]
    · rintro ⟨hk, rfl⟩
      have hk' : k < g.flat.length := by rw [flat_length]; exact hk
      have h := List.getElem?_eq_getElem hk'
      obtain ⟨h1, h2⟩ := flat_get_inv g h
      rw [h]
      unfold chanOf blOf
      unfold GridIn.nb at h1 h2
      simp [List.getD, h1, h2]
  rw [List.perm_ext_iff_of_nodup]
  · intro k
    simp only [List.mem_flatMap, List.mem_filter, List.mem_range, decide_eq_true_eq]
    constructor
    · rintro ⟨n, hn, hk⟩
      obtain ⟨s, h1, h2⟩ := (members_iff h0 hall hs n k).1 ⟨hn, hk⟩
      obtain ⟨e1, e2⟩ := (hsample k s).1 h1
      subst e2
      refine ⟨e1, ?_⟩
      have hp : 0 ≤ g.pixel (chanOf g k, blOf g k) := by rw [h2]; exact Int.natCast_nonneg _
      have := (pixel_nonneg_iff g hf hl _).1 hp
      unfold Gridable; rw [← hsq] at this ⊢; exact this
    · rintro ⟨hk, hG⟩
      have hG' : GridableOn g g.elements g.dimension (chanOf g k) (blOf g k) := by
        unfold Gridable at hG; rw [← hsq] at hG ⊢; exact hG
      have hp := (pixel_nonneg_iff g hf hl (chanOf g k, blOf g k)).2 hG'
      have := (members_iff h0 hall hs (g.pixel (chanOf g k, blOf g k)).toNat k).2
        ⟨_, (hsample k _).2 ⟨hk, rfl⟩, (Int.toNat_of_nonneg hp).symm⟩
      exact ⟨_, this.1, this.2⟩
  · rw [List.nodup_flatMap]
    refine ⟨fun n hn => ?_, ?_⟩
    · rw [hmem n hn]; exact List.nodup_range.filter _
    · have hnd : (nonzeroIdx r.hist).Nodup := List.nodup_range.filter _
      refine hnd.pairwise_of_forall_ne ?_
      intro m hm n hn hne k k1 k2
      obtain ⟨s, h1, h2⟩ := (members_iff h0 hall hs m k).1 ⟨hm, k1⟩
      obtain ⟨t, h3, h4⟩ := (members_iff h0 hall hs n k).1 ⟨hn, k2⟩
      rw [h1, Option.some.injEq] at h3
      subst h3
      omega
  · exact List.nodup_range.filter _

theorem sum_range_list {M : Type _} [AddCommMonoid M] (n : ℕ) (c : ℕ → M) :
    ((List.range n).map c).sum = ∑ k ∈ Finset.range n, c k := by
  induction n with
  | zero => simp
  | succ n ih => rw [List.range_succ, Finset.sum_range_succ, ← ih]; simp

theorem sum_filter_list {α M : Type _} [AddCommMonoid M] (l : List α) (P : α → Prop)
    [DecidablePred P] (c : α → M) :
    ((l.filter fun a => decide (P a)).map c).sum = (l.map fun a => if P a then c a else 0).sum := by
  induction l with
  | nil => rfl
  | cons a t ih =>
    by_cases h : P a
    · rw [List.filter_cons_of_pos (by simpa using h)]; simp [h, ih]
    · rw [List.filter_cons_of_neg (by simpa using h)]; simp [h, ih]

/-- The kernel that sample `k` of the gridded arrays is gridded with. -/
def usedKernel (g : VisGridIn K) (k p : ℕ) : K :=
  kernelAt g (g.fbin (g.fiUse.getD (k % g.fiUse.length) 0)) (chanOf g.toGridIn k)
    (blOf g.toGridIn k) p

theorem offset_eq_floor (g : GridIn) (hr : 0 < g.res) (c : ℚ) :
    g.offset c = ⌊subPix g.res c⌋ := by
  obtain ⟨h1, h2, h3⟩ := offset_frac g hr c
  have : (g.offset c : ℚ) + g.frac c = subPix g.res c := h3
  obtain ⟨f1, f2⟩ := frac_bounds g c
  symm
  rw [Int.floor_eq_iff]
  constructor <;> linarith

/-- The three boxes of one bin. -/
theorem binRows_boxes (g : VisGridIn K) (hr : 0 < g.res) (hk : 0 < g.kpix) (inds : List ℕ)
    (hin : ∀ k ∈ inds, g.flat.getD k (0, 0) = (chanOf g.toGridIn k, blOf g.toGridIn k))
    (nVis : K) (p : ℕ) :
    imageBox nVis (g.binRows inds).rows p = (inds.map fun k => star (usedKernel g k p)
        * visOf g (chanOf g.toGridIn k) (blOf g.toGridIn k)).sum / nVis ∧
    weightBox nVis (g.binRows inds).rows p
      = (inds.map fun k => star (usedKernel g k p)).sum / nVis ∧
    varianceBox nVis (g.binRows inds).rows p
      = (inds.map fun k => star (usedKernel g k p) * usedKernel g k p).sum / nVis := by
  have hvis : ∀ k ∈ inds, g.visUse (g.flat.getD k (0, 0))
      = visOf g (chanOf g.toGridIn k) (blOf g.toGridIn k) := by
    intro k hkm
    rw [hin k hkm]
    unfold VisGridIn.visUse visOf Mirrored
    simp only [div_pos_iff_of_pos_right hk]
  cases hi : g.interp with
  | true =>
    have hrow : ∀ k ∈ inds, (g.interpRow k).kern p = usedKernel g k p ∧
        (g.interpRow k).vis = visOf g (chanOf g.toGridIn k) (blOf g.toGridIn k) ∧
        (g.interpRow k).weight = 1 := by
      intro k hkm
      refine ⟨?_, hvis k hkm, rfl⟩
      unfold VisGridIn.interpRow VisGridIn.item usedKernel kernelAt interpolateKernel GridIn.interpW
        VisGridIn.fbinOf
      simp only [hin k hkm, offset_eq_floor _ hr, kx_eq, ky_eq, hi, if_true]
      rfl
    have hrows : (g.binRows inds).rows = inds.map g.interpRow := by
      unfold VisGridIn.binRows; simp [hi]
    rw [hrows]
    unfold imageBox weightBox varianceBox
    simp only [List.map_map, Function.comp_def]
    refine ⟨?_, ?_, ?_⟩
    · rw [div_eq_mul_inv, ← List.sum_map_mul_right]
      congr 1
      refine List.map_congr_left fun k hkm => ?_
      obtain ⟨a, b, c⟩ := hrow k hkm
      rw [a, b]; ring
    · rw [div_eq_mul_inv, ← List.sum_map_mul_right]
      congr 1
      refine List.map_congr_left fun k hkm => ?_
      obtain ⟨a, b, c⟩ := hrow k hkm
      rw [a, c]; ring
    · rw [div_eq_mul_inv, ← List.sum_map_mul_right]
      congr 1
      refine List.map_congr_left fun k hkm => ?_
      obtain ⟨a, b, c⟩ := hrow k hkm
      rw [a, c]; ring
  | false =>
    have hrows : (g.binRows inds).rows = rowsOfBin g.kern g.res (inds.map g.item) := by
      unfold VisGridIn.binRows; simp [hi]
    rw [hrows]
    have hb : ∀ it ∈ inds.map g.item, it.x < g.res ∧ it.y < g.res := by
      intro it hit
      obtain ⟨k, _, rfl⟩ := List.mem_map.1 hit
      unfold VisGridIn.item
      simp only []
      obtain ⟨a1, a2, _⟩ := offset_frac g.toGridIn hr
        (g.xcen (g.flat.getD k (0, 0)).1 (g.flat.getD k (0, 0)).2)
      obtain ⟨b1, b2, _⟩ := offset_frac g.toGridIn hr
        (g.ycen (g.flat.getD k (0, 0)).1 (g.flat.getD k (0, 0)).2)
      constructor <;> omega
    obtain ⟨c1, c2, c3⟩ := C30_bin_boxes g.kern g.res (inds.map g.item) hb nVis p
    rw [c1, c2, c3]
    simp only [List.map_map, Function.comp_def]
    have hkern : ∀ k ∈ inds, g.kern (g.item k).fbin (g.item k).y (g.item k).x p
        = usedKernel g k p := by
      intro k hkm
      unfold VisGridIn.item usedKernel kernelAt VisGridIn.fbinOf
      simp only [hin k hkm, offset_eq_floor _ hr, kx_eq, ky_eq, hi]
      rfl
    have hv : ∀ k ∈ inds, (g.item k).vis = visOf g (chanOf g.toGridIn k) (blOf g.toGridIn k) :=
      fun k hkm => hvis k hkm
    refine ⟨?_, ?_, ?_⟩ <;> congr 2 <;> refine List.map_congr_left fun k hkm => ?_
    · rw [hkern k hkm, hv k hkm]
    · rw [hkern k hkm]
    · rw [hkern k hkm]

/-- **C31** (square planes). What `visibility_grid` accumulates before the symmetrisation: each
pixel of the image is the sum over all the samples to be gridded whose footprint covers the pixel of
the conjugated kernel value there times the visibility (conjugated for a mirrored sample), divided
by the number of gridded samples; the weights plane is the same sum with unit visibilities, the
variance plane that of the squared kernel, and the uniform plane counts the samples. There is no
result exactly if there is nothing to grid. `usedKernel` is explained by C32. -/
theorem C31_planes_partial (g : VisGridIn K) (hsq : g.elements = g.dimension)
    (hf : g.freqAll ≠ []) (hl : ∀ b, 0 ≤ blLength g.toGridIn b) (hr : 0 < g.res)
    (hk : 0 < g.kpix) :
    ∃ o, visGridCore g = .ok o ∧
      (o = none ↔ ∀ k < g.fiUse.length * g.biUse.length,
        ¬ Gridable g.toGridIn (chanOf g.toGridIn k) (blOf g.toGridIn k)) ∧
      ∀ out, o = some out →
        out.nVis = ((List.range (g.fiUse.length * g.biUse.length)).filter fun k =>
          decide (Gridable g.toGridIn (chanOf g.toGridIn k) (blOf g.toGridIn k))).length ∧
        ∀ y x,
          out.planes.image y x = sumReaching g.toGridIn y x (fun k p => star (usedKernel g k p)
            * visOf g (chanOf g.toGridIn k) (blOf g.toGridIn k) / out.nVis) ∧
          out.planes.weights y x = sumReaching g.toGridIn y x (fun k p =>
            star (usedKernel g k p) / out.nVis) ∧
          out.planes.variance y x = sumReaching g.toGridIn y x (fun k p =>
            star (usedKernel g k p) * usedKernel g k p / out.nVis) ∧
          out.planes.uniform y x = sumReaching g.toGridIn y x (fun _ _ => 1) := by
  have hGr : ∀ f b, Gridable g.toGridIn f b ↔ GridableOn g.toGridIn g.elements g.dimension f b := by
    intro f b; unfold Gridable; rw [hsq]
  have hflat : ∀ k < g.fiUse.length * g.biUse.length,
      g.flat[k]? = some (chanOf g.toGridIn k, blOf g.toGridIn k) := by
    intro k hk
    have hk' : k < g.flat.length := by rw [flat_length]; exact hk
    have h := List.getElem?_eq_getElem hk'
    obtain ⟨h1, h2⟩ := flat_get_inv g.toGridIn h
    rw [h]
    unfold chanOf blOf
    unfold GridIn.nb at h1 h2
    simp [List.getD, h1, h2]
  rcases gridBins_spec g.toGridIn hf hl with ⟨h, hno⟩ | ⟨r, hi, h, h0, hall, hs, hsome⟩
  · refine ⟨none, ?_, ⟨fun _ k hk => ?_, fun _ => rfl⟩, fun out ho => by cases ho⟩
    · unfold visGridCore; rw [h]; rfl
    · rw [hGr]
      exact hno (chanOf g.toGridIn k, blOf g.toGridIn k) (List.mem_of_getElem? (hflat k hk))
  · set B : GridBins := ⟨r.hist, nonzeroIdx r.hist, r.ri⟩ with hB
    have hperm := members_perm hsq hf hl h0 hall hs
    rw [← hB] at hperm
    set gs := (List.range (g.fiUse.length * g.biUse.length)).filter fun k =>
      decide (Gridable g.toGridIn (chanOf g.toGridIn k) (blOf g.toGridIn k)) with hgs
    -- something is gridded
    have hne : gs ≠ [] := by
      obtain ⟨s, hs1, hs2⟩ := hsome
      obtain ⟨k, hk1, hk2⟩ := List.getElem_of_mem hs1
      have hkl : k < g.fiUse.length * g.biUse.length := by rwa [flat_length] at hk1
      have e := hflat k hkl
      rw [List.getElem?_eq_getElem hk1, hk2, Option.some.injEq] at e
      refine List.ne_nil_of_mem (a := k) ?_
      rw [hgs, List.mem_filter]
      refine ⟨List.mem_range.2 hkl, ?_⟩
      rw [decide_eq_true_eq, hGr]
      rw [e] at hs2; exact hs2
    have hbi : B.binI.length ≠ 0 := by
      intro hc
      have : B.binI = [] := List.length_eq_zero_iff.1 hc
      apply hne
      have hp : ([] : List ℕ).Perm gs := by
        have := hperm
        rw [show nonzeroIdx r.hist = [] from ‹B.binI = []›] at this
        simpa using this
      exact hp.nil_eq.symm
    -- facts about the members of a bin
    have hmemlen : ∀ n ∈ B.binI, r.hist.getD n 0 = (B.members n).length := by
      intro n hn
      have hlen : r.hist.length = (hi - 0 + 1).toNat := by rw [hs.hist]; simp
      have hn' : n < (hi - 0 + 1).toNat := by
        have hn2 := hn
        rw [show B.binI = nonzeroIdx r.hist from rfl, mem_nonzeroIdx] at hn2
        by_contra hge
        apply hn2
        simp only [List.getD, List.getElem?_eq_none (by omega : r.hist.length ≤ n),
          Option.getD_none]
      have hm : B.members n = positions (fun d => d = 0 + (n : ℤ)) (g.flat.map g.pixel) := by
        unfold GridBins.members
        simp only [hB, hs.slices n hn', Option.getD_some]
      rw [hm, positions_length, hs.hist]
      simp only [List.getD, List.getElem?_map, List.getElem?_range hn', Option.map_some,
        Option.getD_some, List.count]
      rfl
    have hNsum : B.binN.sum = gs.length := by
      rw [← hperm.length_eq, List.length_flatMap]
      have e1 : (nonzeroIdx r.hist).map (fun n => (B.members n).length)
          = (nonzeroIdx r.hist).map (fun n => r.hist.getD n 0) := by
        refine List.map_congr_left fun n hn => (hmemlen n hn).symm
      rw [e1]
      change r.hist.sum = _
      unfold nonzeroIdx
      have e2 := sum_filter_list (List.range r.hist.length) (fun n => r.hist.getD n 0 ≠ 0)
        (fun n => r.hist.getD n 0)
      rw [e2]
      have e3 : (List.range r.hist.length).map (fun n => if r.hist.getD n 0 ≠ 0 then r.hist.getD n 0
          else 0) = r.hist := by
        apply List.ext_getElem?
        intro n
        by_cases hn : n < r.hist.length
        · rw [List.getElem?_map, List.getElem?_range hn]
          simp only [Option.map_some, List.getD, List.getElem?_eq_getElem hn, Option.getD_some]
          split_ifs with hz
          · rfl
          · rw [not_not] at hz; rw [hz]
        · rw [List.getElem?_eq_none (by simpa using hn), List.getElem?_eq_none (by simpa using hn)]
      rw [e3]
    have hmk : ∀ n ∈ B.binI, ∀ k ∈ B.members n, k ∈ gs := by
      intro n hn k hk
      exact hperm.mem_iff.1 (List.mem_flatMap.2 ⟨n, hn, hk⟩)
    have hgsk : ∀ k ∈ gs, k < g.fiUse.length * g.biUse.length ∧
        Gridable g.toGridIn (chanOf g.toGridIn k) (blOf g.toGridIn k) := by
      intro k hk
      rw [hgs, List.mem_filter, List.mem_range, decide_eq_true_eq] at hk
      exact hk
    have hcorner : ∀ k ∈ gs, g.corner (chanOf g.toGridIn k) (blOf g.toGridIn k)
        = (anchor g.psfDim g.dimension (uPix g.toGridIn (chanOf g.toGridIn k) (blOf g.toGridIn k)),
          anchor g.psfDim g.elements
            (vPix g.toGridIn (chanOf g.toGridIn k) (blOf g.toGridIn k))) := by
      intro k hk
      rcases corner_spec g.toGridIn (chanOf g.toGridIn k) (blOf g.toGridIn k) hf (hl _) with
        ⟨hc, _⟩ | ⟨_, hc⟩
      · rw [hc, hsq]
      · exact absurd ((hGr _ _).1 (hgsk k hk).2) hc
    -- the corner of the bin is that of each of its members
    have hbin : ∀ n ∈ B.binI, ∀ k ∈ B.members n,
        (g.binRows (B.members n)).x0 = x0 g.toGridIn (chanOf g.toGridIn k) (blOf g.toGridIn k) ∧
        (g.binRows (B.members n)).y0 = y0 g.toGridIn (chanOf g.toGridIn k) (blOf g.toGridIn k) := by
      intro n hn k hkm
      have hhead : (B.members n).headD 0 ∈ B.members n := by
        cases hmm : B.members n with
        | nil => rw [hmm] at hkm; cases hkm
        | cons a t => simp
      obtain ⟨s, h1, h2⟩ := (members_iff h0 hall hs n k).1 ⟨hn, hkm⟩
      obtain ⟨t, h3, h4⟩ := (members_iff h0 hall hs n _).1 ⟨hn, hhead⟩
      have hk1 := hgsk k (hmk n hn k hkm)
      have hk2 := hgsk _ (hmk n hn _ hhead)
      rw [hflat k hk1.1, Option.some.injEq] at h1
      have h3' := h3
      rw [hflat _ hk2.1, Option.some.injEq] at h3
      subst h1
      have hcc := pixel_inj g.toGridIn hf hl hsq.le (s := t)
        (t := (chanOf g.toGridIn k, blOf g.toGridIn k))
        (by rw [← h3]; exact (hGr _ _).1 hk2.2) ((hGr _ _).1 hk1.2) (h4.trans h2.symm)
      unfold VisGridIn.binRows x0 y0
      simp only []
      rw [show g.flat.getD ((B.members n).headD 0) (0, 0) = t by
        simp only [List.getD, h3', Option.getD_some], hcc]
      simp only []
      rw [hcorner k (hmk n hn k hkm)]
      exact ⟨rfl, rfl⟩
    -- the value of a plane
    have plane : ∀ (y x : ℕ) (box : BinRows K → ℕ → K) (c : ℕ → ℕ → K),
        (∀ n ∈ B.binI, ∀ p, box (g.binRows (B.members n)) p
          = ((B.members n).map fun k => c k p).sum) →
        ((B.binI.map fun i => g.binRows (B.members i)).map fun b =>
          if b.y0 ≤ y ∧ y < b.y0 + g.psfDim ∧ b.x0 ≤ x ∧ x < b.x0 + g.psfDim
          then box b ((y - b.y0) * g.psfDim + (x - b.x0)) else 0).sum
          = sumReaching g.toGridIn y x c := by
      intro y x box c hbox
      set C : ℕ → K := fun k =>
        if x0 g.toGridIn (chanOf g.toGridIn k) (blOf g.toGridIn k) ≤ x ∧
          x < x0 g.toGridIn (chanOf g.toGridIn k) (blOf g.toGridIn k) + g.psfDim ∧
          y0 g.toGridIn (chanOf g.toGridIn k) (blOf g.toGridIn k) ≤ y ∧
          y < y0 g.toGridIn (chanOf g.toGridIn k) (blOf g.toGridIn k) + g.psfDim
        then c k ((y - y0 g.toGridIn (chanOf g.toGridIn k) (blOf g.toGridIn k)) * g.psfDim
          + (x - x0 g.toGridIn (chanOf g.toGridIn k) (blOf g.toGridIn k))) else 0 with hC
      have step : (B.binI.map fun i => g.binRows (B.members i)).map (fun b =>
          if b.y0 ≤ y ∧ y < b.y0 + g.psfDim ∧ b.x0 ≤ x ∧ x < b.x0 + g.psfDim
          then box b ((y - b.y0) * g.psfDim + (x - b.x0)) else 0)
          = B.binI.map fun n => ((B.members n).map C).sum := by
        rw [List.map_map]
        refine List.map_congr_left fun n hn => ?_
        simp only [Function.comp_apply]
        rw [hbox n hn]
        set b := g.binRows (B.members n) with hbdef
        by_cases hcov : b.y0 ≤ y ∧ y < b.y0 + g.psfDim ∧ b.x0 ≤ x ∧ x < b.x0 + g.psfDim
        · rw [if_pos hcov]
          congr 1
          refine List.map_congr_left fun k hkm => ?_
          obtain ⟨e1, e2⟩ := hbin n hn k hkm
          rw [← hbdef] at e1 e2
          simp only [hC]
          rw [← e1, ← e2, if_pos ⟨hcov.2.2.1, hcov.2.2.2, hcov.1, hcov.2.1⟩]
        · rw [if_neg hcov]
          symm
          apply List.sum_eq_zero
          intro z hz
          obtain ⟨k, hkm, rfl⟩ := List.mem_map.1 hz
          obtain ⟨e1, e2⟩ := hbin n hn k hkm
          rw [← hbdef] at e1 e2
          simp only [hC]
          rw [← e1, ← e2, if_neg]
          rintro ⟨q1, q2, q3, q4⟩
          exact hcov ⟨q3, q4, q1, q2⟩
      rw [step]
      have e1 : (B.binI.map fun n => ((B.members n).map C).sum).sum
          = ((B.binI.flatMap B.members).map C).sum := by
        induction B.binI with
        | nil => rfl
        | cons a t ih => simp [ih]
      rw [e1, (hperm.map C).sum_eq, hgs, sum_filter_list, sum_range_list]
      unfold sumReaching
      refine Finset.sum_congr rfl fun k _ => ?_
      by_cases hG : Gridable g.toGridIn (chanOf g.toGridIn k) (blOf g.toGridIn k)
      · rw [if_pos hG]
        simp only [hC, Reaches, hG, true_and]
      · rw [if_neg hG, if_neg]
        exact fun hc => hG hc.1
    have hin : ∀ n ∈ B.binI, ∀ k ∈ B.members n,
        g.flat.getD k (0, 0) = (chanOf g.toGridIn k, blOf g.toGridIn k) := by
      intro n hn k hkm
      simp [List.getD, hflat k (hgsk k (hmk n hn k hkm)).1]
    have hval : visGridCore g = .ok (some ⟨gridLoop g.psfDim (B.binN.sum : K)
        (B.binI.map fun i => g.binRows (B.members i)), B.binN.sum,
        g.fiUse.map fun f => (g.biUse.filter fun bl => 0 < (g.corner f bl).1).length⟩) := by
      unfold visGridCore
      rw [h]
      simp only [bind, Except.bind]
      rw [if_neg hbi, List.map_map]
      rfl
    refine ⟨_, hval, ⟨(fun hc => by simp at hc), fun hc => ?_⟩, ?_⟩
    · exfalso
      apply hne
      rw [hgs, List.filter_eq_nil_iff]
      intro k hk
      simpa using hc k (List.mem_range.1 hk)
    · intro out hout
      cases hout
      refine ⟨hNsum, fun y x => ?_⟩
      obtain ⟨l1, l2, l3, l4⟩ := gridLoop_spec g.psfDim (B.binN.sum : K)
        (B.binI.map fun i => g.binRows (B.members i)) y x
      simp only []
      rw [l1, l2, l3, l4]
      refine ⟨plane y x (fun b => imageBox _ b.rows) _ fun n hn p => ?_,
        plane y x (fun b => weightBox _ b.rows) _ fun n hn p => ?_,
        plane y x (fun b => varianceBox _ b.rows) _ fun n hn p => ?_,
        plane y x (fun b _ => (b.count : K)) _ fun n hn p => ?_⟩
      · rw [(binRows_boxes g hr hk _ (hin n hn) _ p).1, div_eq_mul_inv, ← List.sum_map_mul_right]
        simp only [div_eq_mul_inv]
      · rw [(binRows_boxes g hr hk _ (hin n hn) _ p).2.1, div_eq_mul_inv, ← List.sum_map_mul_right]
        simp only [div_eq_mul_inv]
      · rw [(binRows_boxes g hr hk _ (hin n hn) _ p).2.2, div_eq_mul_inv, ← List.sum_map_mul_right]
        simp only [div_eq_mul_inv]
      · unfold VisGridIn.binRows
        simp

/-- **C31** (square planes) for the function as called with `no_conjugate`. -/
theorem C31_visibility_grid_partial (g : VisGridIn K) (hn : g.noConjugate = true)
    (hsq : g.elements = g.dimension) (hf : g.freqAll ≠ [])
    (hl : ∀ b, 0 ≤ blLength g.toGridIn b) (hr : 0 < g.res) (hk : 0 < g.kpix) :
    ∃ o, visibilityGrid g = .ok o ∧ ∀ out, o = some out → ∀ y x,
      out.planes.image y x = sumReaching g.toGridIn y x (fun k p => star (usedKernel g k p)
        * visOf g (chanOf g.toGridIn k) (blOf g.toGridIn k) / out.nVis) := by
  obtain ⟨o, h1, _, h3⟩ := C31_planes_partial g hsq hf hl hr hk
  refine ⟨o.map (visGridFinish g), by unfold visibilityGrid; rw [h1]; rfl, ?_⟩
  intro out ho y x
  cases o with
  | none => cases ho
  | some v =>
    obtain ⟨_, h⟩ := h3 v rfl
    simp only [Option.map_some, Option.some.injEq] at ho
    subst ho
    unfold visGridFinish
    rw [if_pos hn]
    exact (h y x).1

/-- **C31** (square planes) for the function as called without `no_conjugate`: half the sum at the
pixel plus half the conjugate of the sum at the mirror pixel. -/
theorem C31_visibility_grid_mirrored_partial (g : VisGridIn K) (hn : g.noConjugate = false)
    (hsq : g.elements = g.dimension) (hf : g.freqAll ≠ [])
    (hl : ∀ b, 0 ≤ blLength g.toGridIn b) (hr : 0 < g.res) (hk : 0 < g.kpix) :
    ∃ o, visibilityGrid g = .ok o ∧ ∀ out, o = some out →
      let S := fun y x => sumReaching g.toGridIn y x (fun k p => star (usedKernel g k p)
        * visOf g (chanOf g.toGridIn k) (blOf g.toGridIn k) / out.nVis)
      ∀ y x, y < g.elements → x < g.dimension →
        out.planes.image y x
          = (S y x + star (S ((g.elements - y) % g.elements) ((g.dimension - x) % g.dimension)))
            / 2 := by
  obtain ⟨o, h1, _, h3⟩ := C31_planes_partial g hsq hf hl hr hk
  refine ⟨o.map (visGridFinish g), by unfold visibilityGrid; rw [h1]; rfl, ?_⟩
  intro out ho S y x hy hx
  cases o with
  | none => cases ho
  | some v =>
    obtain ⟨_, h⟩ := h3 v rfl
    simp only [Option.map_some, Option.some.injEq] at ho
    have hnv : out.nVis = v.nVis := by
      rw [← ho]; unfold visGridFinish; rw [hn]; rfl
    have himg : out.planes.image = symmetrise true g.elements g.dimension v.planes.image := by
      rw [← ho]; unfold visGridFinish; rw [hn]; rfl
    rw [himg]
    unfold symmetrise
    rw [C23_mirror_entry true _ _ _ _ _ hy hx, (h y x).1, (h _ _).1]
    simp only [S, hnv, if_true, negIdx, Nat.mod_eq_of_lt hy, Nat.mod_eq_of_lt hx]

/-! ## C32 -/

/-- **C32 fails**: the kernel of the sample in row `i` and column `j` of the gridded arrays is that of
the channel in row `(i * n_baselines + j) mod n_frequencies`, whatever `i` is. -/
theorem C32_kernel_frequency (g : VisGridIn K) {i j f b : ℕ} (hi : g.fiUse[i]? = some f)
    (hj : g.biUse[j]? = some b) (p : ℕ) :
    usedKernel g (i * g.biUse.length + j) p
      = kernelAt g (g.fbin (g.fiUse.getD ((i * g.biUse.length + j) % g.fiUse.length) 0)) f b p := by
  have hjl : j < g.biUse.length := (List.getElem?_eq_some_iff.1 hj).1
  have h1 : (i * g.biUse.length + j) / g.biUse.length = i := by
    rw [Nat.add_comm, Nat.add_mul_div_right _ _ (by omega), Nat.div_eq_of_lt hjl, Nat.zero_add]
  have h2 : (i * g.biUse.length + j) % g.biUse.length = j := by
    rw [Nat.add_comm, Nat.add_mul_mod_self_right, Nat.mod_eq_of_lt hjl]
  unfold usedKernel chanOf blOf
  rw [h1, h2]
  simp only [List.getD, hi, hj, Option.getD_some]

/-- **C32 fails**, the first case: with two or more frequencies, the second sample of the first
frequency is gridded with the kernel of the second frequency. -/
theorem C32_second_sample_wrong (g : VisGridIn K) {f f' b : ℕ} (h0 : g.fiUse[0]? = some f)
    (h1 : g.fiUse[1]? = some f') (hb : g.biUse[1]? = some b) (p : ℕ) :
    usedKernel g 1 p = kernelAt g (g.fbin f') f b p := by
  have h := C32_kernel_frequency g h0 hb p
  have hl : 1 < g.fiUse.length := (List.getElem?_eq_some_iff.1 h1).1
  rw [show 0 * g.biUse.length + 1 = 1 by omega, Nat.mod_eq_of_lt hl] at h
  simpa [List.getD, h1] using h

/-- **C32** where it holds: with one frequency, or with one sample per frequency, every sample is
gridded with the kernel of its own frequency. Missing: two or more of both. -/
theorem C32_own_frequency_partial (g : VisGridIn K)
    (h1 : g.fiUse.length = 1 ∨ g.biUse.length = 1) {i j f b : ℕ} (hi : g.fiUse[i]? = some f)
    (hj : g.biUse[j]? = some b) (p : ℕ) :
    usedKernel g (i * g.biUse.length + j) p = kernelAt g (g.fbin f) f b p := by
  rw [C32_kernel_frequency g hi hj]
  have hil : i < g.fiUse.length := (List.getElem?_eq_some_iff.1 hi).1
  have hjl : j < g.biUse.length := (List.getElem?_eq_some_iff.1 hj).1
  have e : (i * g.biUse.length + j) % g.fiUse.length = i := by
    rcases h1 with h | h
    · rw [h, Nat.mod_one]; omega
    · rw [h]
      rw [Nat.mod_eq_of_lt (by omega)]; omega
  rw [e]
  simp [List.getD, hi]

/-- Two frequencies with a kernel each, three baselines, 16 by 16 pixels. -/
def exVis (interp : Bool) : VisGridIn ℚ where
  toGridIn := exGrid 16 16 (fun b => b - 1) (fun b => (b : ℚ) * 3 + 1/2) 3
  fbin := fun f => f
  kern := fun fb y x p => 100 * fb + 10 * y + x + p
  group := fun _ => 0
  vis := fun f b => f + 2 * b + 1
  interp := interp
  noConjugate := true

/-- The hypotheses of C31 are met and something is gridded. -/
example : (exVis false).elements = (exVis false).dimension ∧ (exVis false).freqAll ≠ [] ∧
    0 < (exVis false).res ∧ 0 < (exVis false).kpix ∧ (exVis false).noConjugate = true ∧
    (visibilityGrid (exVis false)).map (fun o => o.map fun o => (o.nVis, o.nfVis))
      = .ok (some (4, [3, 1])) ∧
    Reaches (exVis false).toGridIn 0 1 4 8 ∧ Reaches (exVis false).toGridIn 0 0 7 10 ∧
    Reaches (exVis false).toGridIn 1 0 7 10 := by decide +kernel

/-- C32 fails on this input: the only sample that reaches pixel `(4, 8)` is the second baseline of
the first frequency; the weight there is made of the kernel `100 + 20 + 0` of the second
frequency, not of the first (which gives 20). -/
example : (visibilityGrid (exVis false)).map (fun o => o.map fun o => o.planes.weights 4 8)
      = .ok (some (120 / 4)) ∧ star (kernelAt (exVis false) 0 0 1 0) = 20 := by decide +kernel

example : (exVis false).fiUse[0]? = some 0 ∧ (exVis false).fiUse[1]? = some 1 ∧
    (exVis false).biUse[1]? = some 1 := by decide

/-- C30: three visibilities, two of them with the same kernel, so that the deduplicated path
sums them. -/
example : rowsOfBin (K := ℚ) (fun fb y x p => 100 * fb + 10 * y + x + p) 4
      [⟨1, 2, 0, 0, 5⟩, ⟨3, 0, 1, 0, 7⟩, ⟨1, 2, 0, 0, 11⟩]
    |>.map (fun r => (r.kern 0, r.vis, r.weight)) |> (· = [(21, 16, 2), (103, 7, 1)]) := by
  decide +kernel

end PyFHD
