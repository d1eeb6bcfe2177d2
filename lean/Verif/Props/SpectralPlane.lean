import Verif.Props.TightenedMore

/-!
# The spectral plane with interpolated kernels (C120)
-/

namespace PyFHD

open Spec

variable {K : Type} [Field K] [StarRing K]

/-- The row with its frequency number to the power `e` times `v` for the visibility. -/
def OptRow.freqRow (v : K → K) (e : ℕ) (r : OptRow K) : GridRow K := { r.row with vis := (r.freq : K) ^ e * v r.row.vis }

theorem specBoxes_eq (nVis : K) (rows : List (OptRow K)) (p : ℕ) :
    specABox nVis rows p = imageBox nVis (rows.map (OptRow.freqRow id 1)) p ∧
    specBBox nVis rows p = (imageBox nVis (rows.map (OptRow.freqRow (fun _ => 1) 1)) p +
      star (imageBox nVis (rows.map (OptRow.freqRow (fun _ => 1) 1)) p)) / 2 ∧
    specDBox nVis rows p = (imageBox nVis (rows.map (OptRow.freqRow (fun _ => 1) 2)) p +
      star (imageBox nVis (rows.map (OptRow.freqRow (fun _ => 1) 2)) p)) / 2 := by
  unfold specABox specBBox specDBox imageBox
  simp only [List.map_map]
  refine ⟨?_, ?_, ?_⟩
  · congr 1
    apply List.map_congr_left
    intro r _
    simp [OptRow.freqRow, Function.comp]
  · have : (List.map ((fun r => star (r.kern p) * (r.vis / nVis)) ∘ OptRow.freqRow (fun _ => 1) 1) rows) =
        List.map (fun r => star (r.row.kern p) * ((r.freq : K) / nVis)) rows := by
      apply List.map_congr_left
      intro r _
      simp [OptRow.freqRow, Function.comp]
    rw [this]
  · have : (List.map ((fun r => star (r.kern p) * (r.vis / nVis)) ∘ OptRow.freqRow (fun _ => 1) 2) rows) =
        List.map (fun r => star (r.row.kern p) * ((r.freq : K) ^ 2 / nVis)) rows := by
      apply List.map_congr_left
      intro r _
      simp [OptRow.freqRow, Function.comp]
    rw [this]

/-- The bin with other rows. -/
def OptBin.withRows (f : OptRow K → GridRow K) (b : OptBin K) : BinRows K := ⟨b.x0, b.y0, b.count, b.rows.map f⟩

theorem optLoop_spec_planes (d : ℕ) (nVis : K) (bins : List (OptBin K)) (y x : ℕ) :
    let S := fun (v : K → K) (e : ℕ) => (gridLoop d nVis (bins.map (OptBin.withRows (OptRow.freqRow v e)))).image y x
    (optLoop d nVis bins).specA y x = S id 1 ∧
    (optLoop d nVis bins).specB y x = (S (fun _ => 1) 1 + star (S (fun _ => 1) 1)) / 2 ∧
    (optLoop d nVis bins).specD y x = (S (fun _ => 1) 2 + star (S (fun _ => 1) 2)) / 2 := by
  intro S
  have hproj : ∀ (l : List (OptBin K)) (z : OptPlanes K),
      (l.foldl (optStep d nVis) z).specA = l.foldl (fun pl b => addBox d pl b.x0 b.y0 (specABox nVis b.rows)) z.specA ∧
      (l.foldl (optStep d nVis) z).specB = l.foldl (fun pl b => addBox d pl b.x0 b.y0 (specBBox nVis b.rows)) z.specB ∧
      (l.foldl (optStep d nVis) z).specD = l.foldl (fun pl b => addBox d pl b.x0 b.y0 (specDBox nVis b.rows)) z.specD := by
    intro l
    induction l with
    | nil => intro z; exact ⟨rfl, rfl, rfl⟩
    | cons b t ih => intro z; simp only [List.foldl_cons]; exact ih _
  have hS : ∀ v e, S v e = (bins.map fun b => if b.y0 ≤ y ∧ y < b.y0 + d ∧ b.x0 ≤ x ∧ x < b.x0 + d then
      imageBox nVis (b.rows.map (OptRow.freqRow v e)) ((y - b.y0) * d + (x - b.x0)) else 0).sum := by
    intro v e
    have := (gridLoop_spec d nVis (bins.map (OptBin.withRows (OptRow.freqRow v e))) y x).1
    simp only [List.map_map] at this
    exact this
  have hre : ∀ (l : List (OptBin K)) (F : OptBin K → K),
      (l.map fun b => (F b + star (F b)) / 2).sum = ((l.map F).sum + star (l.map F).sum) / 2 := by
    intro l F
    induction l with
    | nil => simp
    | cons b t ih =>
      simp only [List.map_cons, List.sum_cons, ih, star_add]
      ring
  unfold optLoop
  obtain ⟨h1, h2, h3⟩ := hproj bins ⟨⟨fun _ _ => 0, fun _ _ => 0, fun _ _ => 0, fun _ _ => 0⟩, fun _ _ => 0, fun _ _ => 0,
    fun _ _ => 0, fun _ _ => 0, fun _ _ => 0⟩
  rw [h1, h2, h3, foldl_addBox, foldl_addBox, foldl_addBox, zero_add, zero_add, zero_add, hS, hS, hS, ← hre, ← hre]
  refine ⟨?_, ?_, ?_⟩ <;> congr 1 <;> apply List.map_congr_left <;> intro b _
  · rw [(specBoxes_eq nVis b.rows _).1]
  · rw [(specBoxes_eq nVis b.rows _).2.1]
    split_ifs <;> simp
  · rw [(specBoxes_eq nVis b.rows _).2.2]
    split_ifs <;> simp

/-- The frequency number that gridding gives to a channel and a baseline. -/
def numberOf (g : VisGridIn K) (f b : ℕ) : ℕ := g.flat.idxOf (f, b) % g.nf

/-- The input with frequency number to the power `e` times `v` of the visibility. -/
def VisGridIn.weighted (g : VisGridIn K) (v : K → K) (e : ℕ) : VisGridIn K :=
  { g with vis := fun f b => (numberOf g f b : K) ^ e * v (g.vis f b) }

theorem flat_nodup (g : GridIn) (h1 : g.fiUse.Nodup) (h2 : g.biUse.Nodup) : g.flat.Nodup := by
  unfold GridIn.flat
  rw [List.nodup_flatMap]
  refine ⟨fun f _ => h2.map fun a b h => (Prod.ext_iff.1 h).2, ?_⟩
  refine h1.pairwise_of_forall_ne ?_
  intro f _ f' _ hne s hs hs'
  obtain ⟨b, -, rfl⟩ := List.mem_map.1 hs
  obtain ⟨b', -, h⟩ := List.mem_map.1 hs'
  exact hne (Prod.ext_iff.1 h).1.symm

theorem numberOf_flat (g : VisGridIn K) (h1 : g.fiUse.Nodup) (h2 : g.biUse.Nodup) (k : ℕ) (hk : k < g.flat.length) :
    numberOf g (g.flat.getD k (0, 0)).1 (g.flat.getD k (0, 0)).2 = k % g.nf := by
  unfold numberOf
  have : g.flat.getD k (0, 0) = g.flat[k] := by rw [List.getD_eq_getElem?_getD, List.getElem?_eq_getElem hk]; rfl
  rw [this]
  have e : ((g.flat[k]).1, (g.flat[k]).2) = g.flat[k] := rfl
  rw [e, (flat_nodup g.toGridIn h1 h2).idxOf_getElem k hk]

theorem weighted_rows (g : VisGridIn K) (o : GridOpts K) (hi : g.interp = true) (h1 : g.fiUse.Nodup) (h2 : g.biUse.Nodup) (v : K → K)
    (hv : ∀ z, v (star z) = star (v z)) (e : ℕ) (inds : List ℕ) (hin : ∀ k ∈ inds, k < g.flat.length) :
    OptBin.withRows (OptRow.freqRow v e) ⟨(g.binRows inds).x0, (g.binRows inds).y0, (g.binRows inds).count, g.optRows o inds⟩ =
      (g.weighted v e).binRows inds := by
  unfold OptBin.withRows VisGridIn.optRows VisGridIn.binRows VisGridIn.weighted
  simp only [hi, if_true, List.map_map]
  congr 1
  apply List.map_congr_left
  intro k hk
  have hn := numberOf_flat g h1 h2 k (hin k hk)
  simp only [Function.comp, OptRow.freqRow, VisGridIn.optItem, VisGridIn.interpRow]
  congr 1
  unfold VisGridIn.visUse
  simp only [hn]
  split_ifs
  · rw [hv, star_mul', star_pow]
    simp
  · rfl

theorem visOf_weighted (g : VisGridIn K) (h1 : g.fiUse.Nodup) (h2 : g.biUse.Nodup) (v : K → K) (hv : ∀ z, v (star z) = star (v z))
    (e : ℕ) (k : ℕ) (hk : k < g.fiUse.length * g.biUse.length) :
    visOf (g.weighted v e) (chanOf g.toGridIn k) (blOf g.toGridIn k) =
      ((k % g.fiUse.length : ℕ) : K) ^ e * v (visOf g (chanOf g.toGridIn k) (blOf g.toGridIn k)) := by
  have hk' : k < g.flat.length := by rw [flat_length]; exact hk
  have hn := numberOf_flat g h1 h2 k hk'
  have hfl : g.flat.getD k (0, 0) = (chanOf g.toGridIn k, blOf g.toGridIn k) := by
    have h := List.getElem?_eq_getElem hk'
    obtain ⟨a1, a2⟩ := flat_get_inv g.toGridIn h
    rw [List.getD_eq_getElem?_getD, h]
    unfold chanOf blOf
    unfold GridIn.nb at a1 a2
    simp [List.getD, a1, a2]
  rw [hfl] at hn
  unfold visOf
  have : (g.weighted v e).toGridIn = g.toGridIn := rfl
  rw [this]
  split_ifs
  · unfold VisGridIn.weighted
    simp only []
    rw [hn, hv, star_mul', star_pow]
    unfold GridIn.nf
    simp
  · unfold VisGridIn.weighted
    simp only []
    rw [hn]
    rfl

/-- The real part. -/
def Spec.realPart (z : K) : K := (z + star z) / 2

/-- **C120, as far as it holds**: with interpolated kernels every visibility enters each of the sums of the fit once. The spectral
plane is the slope that the sums give, before the other half is filled; the frequency of a visibility is the number discussed in
`C120_frequency_mixed`. -/
theorem C120_interpolated_partial (g : VisGridIn K) (o : GridOpts K) (hi : g.interp = true) (hn : g.noConjugate = true)
    (hu : o.gridUniform = false) (h1 : g.fiUse.Nodup) (h2 : g.biUse.Nodup) (hsq : g.elements = g.dimension)
    (hf : g.freqAll ≠ []) (hl : ∀ b, 0 ≤ blLength g.toGridIn b) (hr : 0 < g.res) (hk : 0 < g.kpix) (r : OptOut K)
    (h : visGridOpts g o = .ok (some r)) (y x : ℕ) :
    let n := (r.out.nVis : K)
    let freq := fun k : ℕ => ((k % g.fiUse.length : ℕ) : K)
    let A := sumReaching g.toGridIn y x fun k p => star (usedKernel g k p) *
      (freq k * visOf g (chanOf g.toGridIn k) (blOf g.toGridIn k)) / n
    let B := Spec.realPart (sumReaching g.toGridIn y x fun k p => star (usedKernel g k p) * freq k / n)
    let D := Spec.realPart (sumReaching g.toGridIn y x fun k p => star (usedKernel g k p) * freq k ^ 2 / n)
    r.spectral y x = (A - n * B * r.out.planes.image y x) * (D - B ^ 2)⁻¹ := by
  intro n freq A B D
  -- the planes of the weighted input
  have hplane : ∀ (v : K → K) (e : ℕ), (∀ z, v (star z) = star (v z)) → ∀ out, visGridCore (g.weighted v e) = .ok (some out) →
      out.planes.image y x = sumReaching g.toGridIn y x fun k p => star (usedKernel g k p) *
        (freq k ^ e * v (visOf g (chanOf g.toGridIn k) (blOf g.toGridIn k))) / (out.nVis : K) := by
    intro v e hv out hout
    obtain ⟨o', e1, -, e3⟩ := C31_planes_partial (g.weighted v e) hsq hf hl hr hk
    rw [hout] at e1
    obtain rfl := Except.ok.inj e1
    obtain ⟨-, e4⟩ := e3 out rfl
    rw [(e4 y x).1]
    unfold sumReaching
    apply Finset.sum_congr rfl
    intro k hkr
    have := visOf_weighted g h1 h2 v hv e k (Finset.mem_range.1 hkr)
    simp only [show (g.weighted v e).toGridIn = g.toGridIn from rfl]
    split_ifs
    · rw [this]
      rfl
    · rfl
  rcases gridBins_spec g.toGridIn hf hl with ⟨hb, -⟩ | ⟨rr, hi', hb, h0, hall, hs, -⟩
  · unfold visGridOpts at h
    rw [hb] at h
    simp only [bind, Except.bind, pure, Except.pure] at h
    cases h
  have hperm := members_perm hsq hf hl h0 hall hs
  set b : GridBins := ⟨rr.hist, nonzeroIdx rr.hist, rr.ri⟩ with hbdef
  have hmem : ∀ i ∈ b.binI, ∀ k ∈ (riSlice b.ri i).getD [], k < g.flat.length := by
    intro i hib k hkm
    have := hperm.mem_iff.1 (List.mem_flatMap.2 ⟨i, hib, hkm⟩)
    rw [flat_length]
    exact List.mem_range.1 (List.mem_filter.1 this).1
  unfold visGridOpts at h
  rw [hb] at h
  simp only [bind, Except.bind, pure, Except.pure] at h
  split at h
  · cases h
  rename_i hlen
  split at h
  · cases h
  have h' := Option.some.inj (Except.ok.inj h)
  set bins : List (OptBin K) := (b.binI.map fun i => (riSlice b.ri i).getD []).map fun l =>
    (⟨(g.binRows l).x0, (g.binRows l).y0, (g.binRows l).count, g.optRows o l⟩ : OptBin K) with hbins
  have hcore : ∀ (v : K → K) (e : ℕ), (∀ z, v (star z) = star (v z)) →
      ∃ out, visGridCore (g.weighted v e) = .ok (some out) ∧ out.nVis = b.binN.sum ∧
        out.planes = gridLoop g.psfDim (b.binN.sum : K) (bins.map (OptBin.withRows (OptRow.freqRow v e))) := by
    intro v e hv
    refine ⟨⟨gridLoop g.psfDim (b.binN.sum : K) (bins.map (OptBin.withRows (OptRow.freqRow v e))), b.binN.sum,
      g.fiUse.map fun f => (g.biUse.filter fun bl => 0 < (g.corner f bl).1).length⟩, ?_, rfl, rfl⟩
    unfold visGridCore
    have hb' : gridBins (g.weighted v e).toGridIn = .ok (some b) := hb
    rw [hb']
    simp only [bind, Except.bind, pure, Except.pure]
    rw [if_neg hlen]
    have : bins.map (OptBin.withRows (OptRow.freqRow v e)) =
        (b.binI.map fun i => (riSlice b.ri i).getD []).map (g.weighted v e).binRows := by
      rw [hbins, List.map_map]
      apply List.map_congr_left
      intro l hl'
      obtain ⟨i, hib, rfl⟩ := List.mem_map.1 hl'
      exact weighted_rows g o hi h1 h2 v hv e _ (hmem i hib)
    rw [this]
    rfl
  have hid : ∀ z : K, id (star z) = star (id z) := fun _ => rfl
  have hone : ∀ z : K, (fun _ : K => (1 : K)) (star z) = star ((fun _ : K => (1 : K)) z) := fun _ => (star_one K).symm
  obtain ⟨oA, a1, a2, a3⟩ := hcore id 1 hid
  obtain ⟨oB, b1, b2, b3⟩ := hcore (fun _ => 1) 1 hone
  obtain ⟨oD, d1, d2, d3⟩ := hcore (fun _ => 1) 2 hone
  have pA := hplane id 1 hid oA a1
  have pB := hplane (fun _ => 1) 1 hone oB b1
  have pD := hplane (fun _ => 1) 2 hone oD d1
  obtain ⟨s1, s2, s3⟩ := optLoop_spec_planes g.psfDim (b.binN.sum : K) bins y x
  have hnv : r.out.nVis = b.binN.sum := by
    rw [← h']
    simp only [visGridFinish, hn, if_true]
  have hA : (optLoop g.psfDim (b.binN.sum : K) bins).specA y x = A := by
    rw [s1]; beta_reduce; rw [← a3, pA, a2]
    simp only [A, n, hnv, pow_one, id]
  have hB : (optLoop g.psfDim (b.binN.sum : K) bins).specB y x = B := by
    rw [s2]; beta_reduce; rw [← b3, pB, b2]
    simp only [B, n, hnv, pow_one, mul_one, Spec.realPart]
  have hD : (optLoop g.psfDim (b.binN.sum : K) bins).specD y x = D := by
    rw [s3]; beta_reduce; rw [← d3, pD, d2]
    simp only [D, n, hnv, mul_one, Spec.realPart]
  rw [← hA, ← hB, ← hD]
  simp only [n, hnv]
  rw [← h']
  simp only [visGridFinish, hn, if_true, hu, scalePlane, Bool.false_eq_true, if_false]

/-- The hypotheses are met, and the plane is not zero: two visibilities of different frequency reach the pixel. -/
example : (exVis true).interp = true ∧ (exVis true).noConjugate = true ∧ (exVis true).fiUse.Nodup ∧ (exVis true).biUse.Nodup ∧
    (exVis true).elements = (exVis true).dimension ∧ (exVis true).freqAll ≠ [] ∧ 0 < (exVis true).res ∧ 0 < (exVis true).kpix ∧
    (visGridOpts (exVis true) ⟨none, false, true⟩).map (·.map fun r => decide (r.spectral 7 10 = 0)) = .ok (some false) := by
  decide +kernel

end PyFHD
