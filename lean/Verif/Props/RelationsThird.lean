import Verif.Props.Relations
import Verif.Props.Regions

/-!
# Regions grown from other seeds (C232) and gridding in another order (C233)
-/

namespace PyFHD

open Spec

/-! ## C232 -/

section Regions

variable (label : List Bool → List ℕ) (R C : ℕ) (hlabel : ∀ mask, IsLabelling C mask (label mask))
  (img : List (Option ℚ))

include hlabel

/-- The pixels of a region grown from several seeds. -/
theorem region_mem {roi : List ℕ} (hne : roi ≠ []) (hroi : ∀ s ∈ roi, s < img.length) {low high : ℚ} {l : List ℕ}
    (h : regionGrow label R C img roi (some low) (some high) = .ok (some l)) :
    l.Nodup ∧ ∀ p, p ∈ l ↔ Inside R C p ∧ ∃ s ∈ roi, Inside R C s ∧
        InThreshold img low high s ∧ Joined C (InThreshold img low high) s p := by
  obtain ⟨r, h1, _, h3⟩ := C59_region label R C hlabel img roi hne hroi low high
  rw [h] at h1
  simp only [Except.ok.injEq] at h1
  exact h3 l h1.symm

omit hlabel in
theorem inThreshold_lt {low high : ℚ} {p : ℕ} (h : InThreshold img low high p) : p < img.length := by
  obtain ⟨x, h, _⟩ := h
  exact (List.getElem?_eq_some_iff.1 h).1

/-- **C232.** The region grown from one seed is grown from each of its pixels, too. -/
theorem C232_any_pixel {s q : ℕ} (hs : s < img.length) (low high : ℚ) {l : List ℕ}
    (h : regionGrow label R C img [s] (some low) (some high) = .ok (some l)) (hq : q ∈ l) :
    ∃ l', regionGrow label R C img [q] (some low) (some high) = .ok (some l') ∧ l'.Perm l := by
  obtain ⟨hn, hm⟩ := region_mem label R C hlabel img (by simp) (by simpa using hs) h
  obtain ⟨hqi, s', hs', hsi, hst, hj⟩ := (hm q).1 hq
  simp only [List.mem_singleton] at hs'
  subst hs'
  have hqt : InThreshold img low high q := joined_end hj hst
  obtain ⟨r, h1, h2, h3⟩ := C59_region label R C hlabel img [q] (by simp)
    (by simpa using inThreshold_lt img hqt) low high
  cases r with
  | none => exact absurd ⟨hqi, hqt⟩ ((h2.1 rfl) q (by simp))
  | some l' =>
    obtain ⟨hn', hm'⟩ := h3 l' rfl
    refine ⟨l', h1, (List.perm_ext_iff_of_nodup hn' hn).2 fun p => ?_⟩
    rw [hm, hm']
    simp only [List.mem_singleton, exists_eq_left]
    constructor
    · rintro ⟨a, _, _, c⟩
      exact ⟨a, hsi, hst, hj.trans c⟩
    · rintro ⟨a, _, _, c⟩
      exact ⟨a, hqi, hqt, (joined_symm hj).trans c⟩

/-- **C232**, seeds together: the region of several seeds consists of the regions of the single seeds. -/
theorem C232_union {roi : List ℕ} (hne : roi ≠ []) (hroi : ∀ s ∈ roi, s < img.length) (low high : ℚ) (p : ℕ) :
    (∃ l, regionGrow label R C img roi (some low) (some high) = .ok (some l) ∧ p ∈ l) ↔
      ∃ s ∈ roi, ∃ l, regionGrow label R C img [s] (some low) (some high) = .ok (some l) ∧ p ∈ l := by
  constructor
  · rintro ⟨l, h, hp⟩
    obtain ⟨hpi, s, hs, hsi, hst, hj⟩ := ((region_mem label R C hlabel img hne hroi h).2 p).1 hp
    obtain ⟨r, h1, h2, h3⟩ := C59_region label R C hlabel img [s] (by simp) (by simpa using hroi s hs) low high
    cases r with
    | none => exact absurd ⟨hsi, hst⟩ ((h2.1 rfl) s (by simp))
    | some l' => exact ⟨s, hs, l', h1, ((h3 l' rfl).2 p).2 ⟨hpi, s, by simp, hsi, hst, hj⟩⟩
  · rintro ⟨s, hs, l, h, hp⟩
    obtain ⟨hpi, s', hs', hsi, hst, hj⟩ :=
      ((region_mem label R C hlabel img (by simp) (by simpa using hroi s hs) h).2 p).1 hp
    simp only [List.mem_singleton] at hs'
    subst hs'
    obtain ⟨r, h1, h2, h3⟩ := C59_region label R C hlabel img roi hne hroi low high
    cases r with
    | none => exact absurd ⟨hsi, hst⟩ ((h2.1 rfl) _ hs)
    | some l' => exact ⟨l', h1, ((h3 l' rfl).2 p).2 ⟨hpi, _, hs, hsi, hst, hj⟩⟩

/-- **C232**, thresholds: with a wider range the region only gets larger. -/
theorem C232_wider {roi : List ℕ} (hne : roi ≠ []) (hroi : ∀ s ∈ roi, s < img.length) {low high low' high' : ℚ}
    (hl : low' ≤ low) (hh : high ≤ high') {l : List ℕ}
    (h : regionGrow label R C img roi (some low) (some high) = .ok (some l)) :
    ∃ l', regionGrow label R C img roi (some low') (some high') = .ok (some l') ∧ l ⊆ l' := by
  have ht : ∀ p, InThreshold img low high p → InThreshold img low' high' p := by
    rintro p ⟨x, hx, a, b⟩
    exact ⟨x, hx, hl.trans a, b.trans hh⟩
  obtain ⟨r0, h1, h2, h3⟩ := C59_region label R C hlabel img roi hne hroi low high
  rw [h] at h1
  simp only [Except.ok.injEq] at h1
  subst h1
  obtain ⟨r, k1, k2, k3⟩ := C59_region label R C hlabel img roi hne hroi low' high'
  cases r with
  | none =>
    exact absurd (h2.2 fun s hs hh => (k2.1 rfl) s hs ⟨hh.1, ht s hh.2⟩) (by simp)
  | some l' =>
    refine ⟨l', k1, fun p hp => ?_⟩
    obtain ⟨a, s, hs, b, c, d⟩ := ((h3 l rfl).2 p).1 hp
    refine ((k3 l' rfl).2 p).2 ⟨a, s, hs, b, ht s c, ?_⟩
    exact d.lift id fun x y hxy => ⟨ht x hxy.1, ht y hxy.2.1, hxy.2.2⟩

end Regions

/-- The hypotheses are met: in an image of 4 by 4 pixels the region of pixel 5 holds the pixel beside it. -/
example : ∃ label : List Bool → List ℕ, (∀ mask, IsLabelling 4 mask (label mask)) ∧
    ∃ l, regionGrow label 4 4 (List.replicate 16 (some 1)) [5] (some 1) (some 2) = .ok (some l) ∧ 6 ∈ l := by
  choose label hlabel using exists_labelling 4
  have ht : ∀ p < 16, InThreshold (List.replicate 16 (some 1)) 1 2 p := fun p hp =>
    ⟨1, by rw [List.getElem?_replicate, if_pos hp], le_refl _, by norm_num⟩
  obtain ⟨r, h1, h2, h3⟩ := C59_region label 4 4 hlabel (List.replicate 16 (some 1)) [5] (by simp) (by simp) 1 2
  have h5 : Inside 4 4 5 := ⟨1, 1, by omega, by omega, by omega, by omega, by omega⟩
  refine ⟨label, hlabel, ?_⟩
  cases r with
  | none => exact absurd ⟨h5, ht 5 (by omega)⟩ ((h2.1 rfl) 5 (by simp))
  | some l =>
    refine ⟨l, h1, ((h3 l rfl).2 6).2 ⟨⟨1, 2, by omega, by omega, by omega, by omega, by omega⟩, 5, by simp, h5,
      ht 5 (by omega), Relation.ReflTransGen.single ⟨ht 5 (by omega), ht 6 (by omega), Or.inl ⟨by decide, by decide⟩⟩⟩⟩

/-! ## C233 -/

section Order

variable {K : Type} [Field K] [StarRing K]

namespace Spec

/-- The same observation with its samples listed in another order: sample `b` is what was sample `σ b`; `fi` and `bi` are
the channels and samples to be gridded. -/
def relisted (g : VisGridIn K) (σ : ℕ → ℕ) (fi bi : List ℕ) (grp : ℕ → ℕ) : VisGridIn K :=
  { g with
    fiUse := fi
    biUse := bi
    uu := fun b => g.uu (σ b)
    vv := fun b => g.vv (σ b)
    weight := fun f b => g.weight f (σ b)
    vis := fun f b => g.vis f (σ b)
    group := grp }

end Spec

theorem flat_getD (g : GridIn) {k : ℕ} (hk : k < g.fiUse.length * g.biUse.length) :
    g.flat[k]? = some (chanOf g k, blOf g k) := by
  have hk' : k < g.flat.length := by rw [flat_length]; exact hk
  have h := List.getElem?_eq_getElem hk'
  obtain ⟨h1, h2⟩ := flat_get_inv g h
  rw [h]
  unfold chanOf blOf
  unfold GridIn.nb at h1 h2
  simp [List.getD, h1, h2]

theorem range_map_flat {β : Type _} (g : GridIn) (F : ℕ × ℕ → β) :
    (List.range (g.fiUse.length * g.biUse.length)).map (fun k => F (chanOf g k, blOf g k)) = g.flat.map F := by
  apply List.ext_getElem?
  intro k
  by_cases hk : k < g.fiUse.length * g.biUse.length
  · rw [List.getElem?_map, List.getElem?_map, flat_getD g hk, List.getElem?_range hk]
    rfl
  · have h1 : g.flat.length = g.fiUse.length * g.biUse.length := flat_length g
    rw [List.getElem?_eq_none (by simp; omega), List.getElem?_eq_none (by simp [h1]; omega)]

omit [StarRing K] in
theorem sumReaching_flat (g : GridIn) (y x : ℕ) (c : ℕ × ℕ → ℕ → K) :
    sumReaching g y x (fun k p => c (chanOf g k, blOf g k) p) = (g.flat.map fun s =>
      if Reaches g s.1 s.2 y x then c s ((y - y0 g s.1 s.2) * g.psfDim + (x - x0 g s.1 s.2)) else 0).sum := by
  rw [← range_map_flat g]
  unfold sumReaching
  exact (list_range_sumK _ _).symm

omit [Field K] [StarRing K] in
/-- The samples to be gridded are the same in another order. -/
theorem relisted_flat (g : VisGridIn K) (σ : ℕ → ℕ) {fi bi : List ℕ} (grp : ℕ → ℕ) (hfi : fi.Perm g.fiUse)
    (hbi : (bi.map σ).Perm g.biUse) :
    ((relisted g σ fi bi grp).flat.map fun s => (s.1, σ s.2)).Perm g.flat := by
  have e : ((relisted g σ fi bi grp).flat.map fun s => (s.1, σ s.2))
      = fi.flatMap fun f => (bi.map σ).map fun b => (f, b) := by
    unfold GridIn.flat relisted
    simp [List.map_flatMap, Function.comp_def]
  rw [e]
  unfold GridIn.flat
  exact (hfi.flatMap_right _).trans (List.Perm.flatMap_left _ fun f _ => hbi.map _)

omit [StarRing K] in
theorem usedKernel_common (g : VisGridIn K) {fb : ℕ} (hfb : ∀ f ∈ g.fiUse, g.fbin f = fb) {k : ℕ}
    (hk : k < g.fiUse.length * g.biUse.length) (p : ℕ) :
    usedKernel g k p = kernelAt g fb (chanOf g.toGridIn k) (blOf g.toGridIn k) p := by
  unfold usedKernel
  have h0 : 0 < g.fiUse.length := by
    rcases Nat.eq_zero_or_pos g.fiUse.length with h | h
    · rw [h] at hk; omega
    · exact h
  have hm := Nat.mod_lt k h0
  congr 1
  rw [List.getD, List.getElem?_eq_getElem hm]
  exact hfb _ (List.getElem_mem hm)

omit [StarRing K] in
/-- The four planes as sums over the samples to be gridded, when all channels share a kernel. -/
theorem planes_flat (g : VisGridIn K) {fb : ℕ} (hfb : ∀ f ∈ g.fiUse, g.fbin f = fb)
    (c : (ℕ → K) → ℕ → ℕ → ℕ → K) (y x : ℕ) :
    sumReaching g.toGridIn y x (fun k p => c (usedKernel g k) (chanOf g.toGridIn k) (blOf g.toGridIn k) p)
      = (g.flat.map fun s =>
        if Reaches g.toGridIn s.1 s.2 y x then c (kernelAt g fb s.1 s.2) s.1 s.2
          ((y - y0 g.toGridIn s.1 s.2) * g.psfDim + (x - x0 g.toGridIn s.1 s.2)) else 0).sum := by
  rw [← sumReaching_flat g.toGridIn y x fun s p => c (kernelAt g fb s.1 s.2) s.1 s.2 p]
  unfold sumReaching
  refine Finset.sum_congr rfl fun k hk => ?_
  have e : usedKernel g k = kernelAt g fb (chanOf g.toGridIn k) (blOf g.toGridIn k) :=
    funext fun p => usedKernel_common g hfb (Finset.mem_range.1 hk) p
  simp only [e]

theorem range_filter_flat (g : GridIn) (P : ℕ × ℕ → Bool) :
    ((List.range (g.fiUse.length * g.biUse.length)).filter fun k => P (chanOf g k, blOf g k)).length
      = g.flat.countP P := by
  have h := congrArg (List.countP id) (range_map_flat g P)
  rw [List.countP_map, List.countP_map] at h
  rw [← List.countP_eq_length_filter]
  simpa [Function.comp_def] using h

/-- **C233** (square planes, one kernel for all channels). Listing the samples in another order, and naming the channels and
samples to be gridded in another order, changes nothing in the four planes and the number of visibilities. The beam groups
may be anything. Missing: channels with different kernels, for which it is false (below). -/
theorem C233_order_partial (g : VisGridIn K) (hsq : g.elements = g.dimension) (hf : g.freqAll ≠ [])
    (hl : ∀ b, 0 ≤ blLength g.toGridIn b) (hr : 0 < g.res) (hk : 0 < g.kpix) {fb : ℕ}
    (hfb : ∀ f ∈ g.fiUse, g.fbin f = fb) (σ : ℕ → ℕ) {fi bi : List ℕ} (grp : ℕ → ℕ) (hfi : fi.Perm g.fiUse)
    (hbi : (bi.map σ).Perm g.biUse) :
    (visGridCore g = .ok none ∧ visGridCore (relisted g σ fi bi grp) = .ok none) ∨
    ∃ o o', visGridCore g = .ok (some o) ∧ visGridCore (relisted g σ fi bi grp) = .ok (some o') ∧
      o'.nVis = o.nVis ∧ ∀ y x, o'.planes.image y x = o.planes.image y x ∧
        o'.planes.weights y x = o.planes.weights y x ∧ o'.planes.variance y x = o.planes.variance y x ∧
        o'.planes.uniform y x = o.planes.uniform y x := by
  set g' := relisted g σ fi bi grp with hg'
  have hl' : ∀ b, 0 ≤ blLength g'.toGridIn b := fun b => hl (σ b)
  have hfb' : ∀ f ∈ g'.fiUse, g'.fbin f = fb := fun f h => hfb f (hfi.subset h)
  have hperm := relisted_flat g σ grp hfi hbi
  rw [← hg'] at hperm
  obtain ⟨o, h1, h2, h3⟩ := C31_planes_partial g hsq hf hl hr hk
  obtain ⟨o', h1', h2', h3'⟩ := C31_planes_partial g' hsq hf hl' hr hk
  have hcount : ∀ (P : ℕ × ℕ → Bool), g'.flat.countP (fun s => P (s.1, σ s.2)) = g.flat.countP P := by
    intro P
    rw [← hperm.countP_eq, List.countP_map]
    rfl
  have hnone : ∀ g : VisGridIn K, (∀ k < g.fiUse.length * g.biUse.length,
      ¬ Gridable g.toGridIn (chanOf g.toGridIn k) (blOf g.toGridIn k)) ↔
      g.flat.countP (fun s => decide (Gridable g.toGridIn s.1 s.2)) = 0 := by
    intro g
    rw [← range_filter_flat g.toGridIn fun s => decide (Gridable g.toGridIn s.1 s.2)]
    rw [List.length_eq_zero_iff, List.filter_eq_nil_iff]
    simp
  have hc := hcount fun s => decide (Gridable g.toGridIn s.1 s.2)
  have hc' : g'.flat.countP (fun s => decide (Gridable g'.toGridIn s.1 s.2))
      = g.flat.countP fun s => decide (Gridable g.toGridIn s.1 s.2) := hc
  have hiff : o = none ↔ o' = none := by rw [h2, h2', hnone, hnone, hc']
  cases o with
  | none =>
    left
    rw [hiff.1 rfl] at h1'
    exact ⟨h1, h1'⟩
  | some o =>
    cases o' with
    | none => exact absurd (hiff.2 rfl) (by simp)
    | some o' =>
      right
      obtain ⟨n, hp⟩ := h3 o rfl
      obtain ⟨n', hp'⟩ := h3' o' rfl
      have hn : o'.nVis = o.nVis := by
        rw [n, n', range_filter_flat g'.toGridIn fun s => decide (Gridable g'.toGridIn s.1 s.2),
          range_filter_flat g.toGridIn fun s => decide (Gridable g.toGridIn s.1 s.2), hc']
      have hsum : ∀ (F : ℕ × ℕ → K), (g'.flat.map fun s => F (s.1, σ s.2)).sum = (g.flat.map F).sum := by
        intro F
        rw [← (hperm.map F).sum_eq, List.map_map]
        rfl
      refine ⟨o, o', h1, h1', hn, fun y x => ?_⟩
      obtain ⟨a1, a2, a3, a4⟩ := hp y x
      obtain ⟨b1, b2, b3, b4⟩ := hp' y x
      rw [a1, a2, a3, a4, b1, b2, b3, b4, hn]
      refine ⟨?_, ?_, ?_, ?_⟩
      · rw [planes_flat g hfb (fun κ f b p => star (κ p) * visOf g f b / (o.nVis : K)) y x,
          planes_flat g' hfb' (fun κ f b p => star (κ p) * visOf g' f b / (o.nVis : K)) y x]
        refine Eq.trans ?_ (hsum fun s => _)
        rfl
      · rw [planes_flat g hfb (fun κ f b p => star (κ p) / (o.nVis : K)) y x,
          planes_flat g' hfb' (fun κ f b p => star (κ p) / (o.nVis : K)) y x]
        refine Eq.trans ?_ (hsum fun s => _)
        rfl
      · rw [planes_flat g hfb (fun κ f b p => star (κ p) * κ p / (o.nVis : K)) y x,
          planes_flat g' hfb' (fun κ f b p => star (κ p) * κ p / (o.nVis : K)) y x]
        refine Eq.trans ?_ (hsum fun s => _)
        rfl
      · rw [planes_flat g hfb (fun κ f b p => 1) y x, planes_flat g' hfb' (fun κ f b p => 1) y x]
        refine Eq.trans ?_ (hsum fun s => _)
        rfl

/-- Two channels with the same kernel and three samples, of which the first two are exchanged. -/
def exSwap : ℕ → ℕ := fun b => if b = 0 then 1 else if b = 1 then 0 else b

example : ((exVis false).biUse.map exSwap).Perm (exVis false).biUse ∧ (exVis false).fiUse = [0, 1] ∧
    (let g : VisGridIn ℚ := { exVis false with fbin := fun _ => 1 }
     (∀ f ∈ g.fiUse, g.fbin f = 1) ∧
     (visGridCore g).map (fun o => o.map fun o => (o.planes.image 4 8, o.planes.image 7 10))
       = .ok (some (90, 347 / 4)) ∧
     (visGridCore (relisted g exSwap [1, 0] g.biUse g.group)).map
         (fun o => o.map fun o => (o.planes.image 4 8, o.planes.image 7 10))
       = .ok (some (90, 347 / 4))) := by decide +kernel

/-- **C233 fails** when the channels have different kernels: with the first two samples exchanged, the weight at pixel `(4, 8)`,
which only one sample of the first channel reaches, is made of the kernel of the first channel instead of the second. -/
theorem C233_order_matters :
    ∃ (g : VisGridIn ℚ) (σ : ℕ → ℕ), (g.biUse.map σ).Perm g.biUse ∧ g.elements = g.dimension ∧ 0 < g.res ∧ 0 < g.kpix ∧
      ∃ o o', visGridCore g = .ok (some o) ∧ visGridCore (relisted g σ g.fiUse g.biUse g.group) = .ok (some o') ∧
        o.planes.weights 4 8 = 120 / 4 ∧ o'.planes.weights 4 8 = 20 / 4 := by
  have h1 : (visGridCore (exVis false)).map (fun o => o.map fun o => o.planes.weights 4 8) = .ok (some (120 / 4)) := by
    decide +kernel
  have h2 : (visGridCore (relisted (exVis false) exSwap (exVis false).fiUse (exVis false).biUse (exVis false).group)).map
      (fun o => o.map fun o => o.planes.weights 4 8) = .ok (some (20 / 4)) := by
    decide +kernel
  have get : ∀ (r : Py (Option (VisGridOut ℚ))) (v : ℚ),
      r.map (fun o => o.map fun o => o.planes.weights 4 8) = .ok (some v) →
      ∃ o, r = .ok (some o) ∧ o.planes.weights 4 8 = v := by
    intro r v h
    rcases r with e | _ | o
    · cases h
    · cases h
    · refine ⟨o, rfl, ?_⟩
      simpa [Except.map] using h
  obtain ⟨o, a1, a2⟩ := get _ _ h1
  obtain ⟨o', b1, b2⟩ := get _ _ h2
  exact ⟨exVis false, exSwap, by decide, rfl, by decide, by decide +kernel, o, o', a1, b1, a2, b2⟩

end Order

end PyFHD
