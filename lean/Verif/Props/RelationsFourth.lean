import Verif.Props.CalRun
import Verif.Props.RelationsThird

/-!
# Relations between calls: directions of baselines in calibration, griddings of parts (C245, C246)
-/

namespace PyFHD

open Spec

/-! ## C245: the direction of baselines in calibration -/

section Direction

variable {K R : Type} [Field K] [StarRing K] [DecidableEq K] [Field R] [LinearOrder R]

namespace Spec

/-- The same observation with the samples of `rev` taken in the other direction: tiles exchanged, coordinates reversed, data and model
conjugated. -/
def redirected (c : CalRunIn K R) (rev : ℕ → Bool) : CalRunIn K R :=
  { c with
    vis := fun p f s => if rev s then star (c.vis p f s) else c.vis p f s
    model := fun p f s => if rev s then star (c.model p f s) else c.model p f s
    tileA := fun s => if rev s then c.tileB s else c.tileA s
    tileB := fun s => if rev s then c.tileA s else c.tileB s
    uu := fun s => if rev s then -c.uu s else c.uu s
    vv := fun s => if rev s then -c.vv s else c.vv s }

end Spec

variable (c : CalRunIn K R)

theorem count_redirected (rev : ℕ → Bool) (A B : ℕ → ℕ) (t : ℕ) (l : List ℕ) :
    (l.map fun s => if rev s then B s else A s).count t + (l.map fun s => if rev s then A s else B s).count t
      = (l.map A).count t + (l.map B).count t := by
  induction l with
  | nil => rfl
  | cons s l ih =>
    simp only [List.map_cons, List.count_cons]
    cases rev s <;> simp <;> omega

omit [DecidableEq K] in
/-- Both directions of every baseline are in the equations. -/
theorem doubleEqs_redirected (rev : ℕ → Bool) (l : List ℕ) (a b : ℕ → ℕ) (d m : ℕ → K) (w : ℕ → R) :
    (doubleEqs (l.map fun s => (⟨if rev s then b s else a s, if rev s then a s else b s, if rev s then star (d s) else d s,
      if rev s then star (m s) else m s, w s⟩ : CalBaseline K R))).Perm
    (doubleEqs (l.map fun s => (⟨a s, b s, d s, m s, w s⟩ : CalBaseline K R))) := by
  induction l with
  | nil => exact List.Perm.refl _
  | cons s l ih =>
    unfold doubleEqs at ih ⊢
    simp only [List.map_cons, List.filter_cons]
    by_cases hw : 0 < w s
    · simp only [hw, decide_true, if_true, List.map_cons, List.cons_append]
      cases hr : rev s
      · simp only [Bool.false_eq_true, if_false]
        refine List.Perm.cons _ ?_
        exact (List.perm_middle.trans (List.Perm.cons _ ih)).trans List.perm_middle.symm
      · simp only [if_true, star_star]
        refine (List.Perm.cons _ (List.perm_middle.trans (List.Perm.cons _ ih))).trans ?_
        exact (List.Perm.swap _ _ _).trans (List.Perm.cons _ List.perm_middle.symm)
    · simp only [hw, decide_false, Bool.false_eq_true, if_false]
      exact ih

/-- **C245.** Taking baselines in the other direction (all integrations of a baseline alike if they are averaged) changes nothing. -/
theorem C245_direction (rev : ℕ → Bool) (hcast : ∀ r, star (c.cast r) = c.cast r) (hnorm : ∀ x y, c.norm (-x) (-y) = c.norm x y)
    (hrev : c.timeAverage = true → ∀ b < c.nBl, ∀ t < c.nTime, rev (t * c.nBl + b) = rev b) :
    calRun (Spec.redirected c rev) = calRun c := by
  set c' := Spec.redirected c rev with hc'
  have hcut : ∀ f b, c'.isCut f b = c.isCut f b := by
    intro f b
    unfold CalRunIn.isCut
    simp only [hc', Spec.redirected, CalRunIn.minLen, CalRunIn.maxLen]
    cases rev b
    · rfl
    · simp only [if_true, neg_div, abs_neg, hnorm]
      congr
  have hw : ∀ p f b, c'.blWeight p f b = c.blWeight p f b := by
    intro p f b
    unfold CalRunIn.blWeight
    rw [hcut]
    rfl
  have hsum : ∀ l : List K, star l.sum = (l.map star).sum := by
    intro l
    induction l with
    | nil => simp
    | cons x l ih => rw [List.sum_cons, star_add, ih, List.map_cons, List.sum_cons]
  have hav : ∀ (x : ℕ → ℕ → ℕ → K) p f b, b < c.nB →
      c'.average p (fun p f s => if rev s then star (x p f s) else x p f s) f b
        = if rev b then star (c.average p x f b) else c.average p x f b := by
    intro x p f b hb
    unfold CalRunIn.average
    rw [hw]
    have hs : ∀ s ∈ c.samplesOf b, rev s = rev b := by
      intro s hs
      unfold CalRunIn.samplesOf at hs
      unfold CalRunIn.nB at hb
      cases hta : c.timeAverage
      · rw [hta] at hs
        simp only [Bool.false_eq_true, if_false, List.mem_singleton] at hs
        rw [hs]
      · rw [hta] at hs hb
        simp only [if_true, List.mem_map, List.mem_range] at hs hb
        obtain ⟨t, ht, rfl⟩ := hs
        exact hrev hta b hb t ht
    have e : ((c'.samplesOf b).map fun s => (if rev s then star (x p f s) else x p f s) * c'.cast (c'.clip p f s))
        = (c.samplesOf b).map fun s => (if rev b then star (x p f s) else x p f s) * c.cast (c.clip p f s) := by
      apply List.map_congr_left
      intro s h
      rw [hs s h]
      rfl
    rw [e]
    cases hr : rev b
    · rfl
    · simp only [if_true]
      rw [star_mul', hcast, hsum, List.map_map, show c'.cast = c.cast from rfl]
      congr 2
      apply List.map_congr_left
      intro s _
      simp only [Function.comp_apply, star_mul', hcast]
  have hbls : ∀ p, c'.bls p = c.bls p := by
    intro p
    unfold CalRunIn.bls
    simp only [hw]
    rfl
  have hfreqs : ∀ p, c'.freqs p = c.freqs p := by
    intro p
    unfold CalRunIn.freqs
    have e : ∀ f, (List.range c'.nB).map (c'.blWeight p f) = (List.range c.nB).map (c.blWeight p f) := fun f => by
      rw [funext (hw p f)]; rfl
    simp only [e]
    rfl
  have hcount : ∀ p t, ((c'.bls p).map c'.tileA).count t + ((c'.bls p).map c'.tileB).count t
      = ((c.bls p).map c.tileA).count t + ((c.bls p).map c.tileB).count t := by
    intro p t
    rw [hbls]
    exact count_redirected rev c.tileA c.tileB t _
  have htiles : ∀ p, c'.tiles p = c.tiles p := by
    intro p
    unfold CalRunIn.tiles solveTiles
    simp only [hcount]
    rfl
  have hnan : ∀ p t, c'.nanTile p t = c.nanTile p t := by
    intro p t
    unfold CalRunIn.nanTile
    simp only [hcount]
    rfl
  have hlt : ∀ p, ∀ b ∈ c.bls p, b < c.nB := by
    intro p b hb
    unfold CalRunIn.bls at hb
    exact List.mem_range.1 (List.mem_filter.1 hb).1
  have hdata : ∀ p f, c'.blData p f = (c.bls p).map fun b =>
      (⟨if rev b then tilePos (c.tiles p) (c.tileB b) else tilePos (c.tiles p) (c.tileA b),
        if rev b then tilePos (c.tiles p) (c.tileA b) else tilePos (c.tiles p) (c.tileB b),
        if rev b then star (c.average p c.vis f b) else c.average p c.vis f b,
        if rev b then star (c.average p c.model f b) else c.average p c.model f b, c.blWeight p f b⟩ : CalBaseline K R) := by
    intro p f
    rw [blData_eq, htiles, hbls]
    apply List.map_congr_left
    intro b hb
    have h1 := hav c.vis p f b (hlt p b hb)
    have h2 := hav c.model p f b (hlt p b hb)
    rw [hw]
    change (⟨tilePos (c.tiles p) (if rev b then c.tileB b else c.tileA b), tilePos (c.tiles p) (if rev b then c.tileA b else c.tileB b),
      c'.average p (fun p f s => if rev s then star (c.vis p f s) else c.vis p f s) f b,
      c'.average p (fun p f s => if rev s then star (c.model p f s) else c.model p f s) f b, c.blWeight p f b⟩ : CalBaseline K R) = _
    rw [h1, h2]
    cases rev b <;> rfl
  have hsolve : ∀ p f gain, solve (c'.solveIn p f) gain = solve (c.solveIn p f) gain := by
    intro p f gain
    have he : (doubleEqs (c'.blData p f)).Perm (doubleEqs (c.blData p f)) := by
      rw [hdata, blData_eq]
      exact doubleEqs_redirected rev (c.bls p) _ _ _ _ _
    have := solve_perm (c.solveIn p f) _ he rfl gain
    rw [← this]
    congr 1
    unfold SolveIn.withEqs CalRunIn.solveIn CalRunIn.refPos
    simp only [htiles]
    rfl
  have hpol : ∀ p, calRunPol c' p = calRunPol c p := by
    intro p
    unfold calRunPol
    simp only [hsolve, htiles, hfreqs, hnan]
    rfl
  unfold calRun
  rw [funext hpol]
  have hn : nVisCal c' = nVisCal c := by
    unfold nVisCal
    simp only [hw]
    rfl
  rw [hn]
  rfl

/-- The hypotheses of C245 are met, and a baseline does change its direction. -/
example : (∀ r, star ((exRun 1).cast r) = (exRun 1).cast r) ∧ (exRun 1).timeAverage = false ∧
    (Spec.redirected (exRun 1) fun s => s % 2 == 0).tileA 0 ≠ (exRun 1).tileA 0 ∧
    exRunShow (Spec.redirected (exRun 1) fun s => s % 2 == 0) = exRunShow (exRun 1) :=
  ⟨fun _ => rfl, rfl, by decide +kernel, by decide +kernel⟩

end Direction

/-! ## C246: gridding in parts -/

section Parts

variable {K : Type} [Field K] [StarRing K]

namespace Spec

/-- The number of visibilities of a gridding and its planes before they are divided by it: image, weights, variance and counts. Nothing
gridded counts as zero. -/
def totals (r : Py (Option (VisGridOut K))) (y x : ℕ) : Option (ℕ × K × K × K × K) :=
  match r with
  | .ok (some o) => some (o.nVis, o.nVis * o.planes.image y x, o.nVis * o.planes.weights y x, o.nVis * o.planes.variance y x,
      o.planes.uniform y x)
  | .ok none => some (0, 0, 0, 0, 0)
  | .error _ => none

/-- The same observation with other channels and samples to be gridded. -/
def selected (g : VisGridIn K) (fi bi : List ℕ) : VisGridIn K := { g with fiUse := fi, biUse := bi }

end Spec

/-- The totals as sums over samples. -/
theorem totals_flat [CharZero K] (g : VisGridIn K) (hsq : g.elements = g.dimension) (hf : g.freqAll ≠ [])
    (hl : ∀ b, 0 ≤ blLength g.toGridIn b) (hr : 0 < g.res) (hk : 0 < g.kpix) {fb : ℕ} (hfb : ∀ f ∈ g.fiUse, g.fbin f = fb)
    (y x : ℕ) :
    let at_ (F : (ℕ → K) → ℕ → ℕ → ℕ → K) : K := (g.flat.map fun s => if Reaches g.toGridIn s.1 s.2 y x then
      F (kernelAt g fb s.1 s.2) s.1 s.2 ((y - y0 g.toGridIn s.1 s.2) * g.psfDim + (x - x0 g.toGridIn s.1 s.2)) else 0).sum
    totals (visGridCore g) y x = some (g.flat.countP (fun s => decide (Gridable g.toGridIn s.1 s.2)),
      at_ (fun κ f b p => star (κ p) * visOf g f b), at_ (fun κ _ _ p => star (κ p)), at_ (fun κ _ _ p => star (κ p) * κ p),
      at_ (fun _ _ _ _ => 1)) := by
  intro at_
  obtain ⟨o, h1, h2, h3⟩ := C31_planes_partial g hsq hf hl hr hk
  rw [h1]
  have hcnt := range_filter_flat g.toGridIn fun s => decide (Gridable g.toGridIn s.1 s.2)
  cases o with
  | none =>
    have hno := h2.1 rfl
    have hz : g.flat.countP (fun s => decide (Gridable g.toGridIn s.1 s.2)) = 0 := by
      rw [← hcnt, List.length_eq_zero_iff, List.filter_eq_nil_iff]
      intro k hk
      simpa using hno k (List.mem_range.1 hk)
    have hat : ∀ F, at_ F = 0 := by
      intro F
      apply List.sum_eq_zero
      intro v hv
      obtain ⟨s, hs, rfl⟩ := List.mem_map.1 hv
      rw [List.countP_eq_zero] at hz
      rw [if_neg]
      intro hR
      exact absurd hR.1 (by simpa using hz s hs)
    simp only [totals, hat, hz]
  | some o =>
    obtain ⟨hn, hp⟩ := h3 o rfl
    have hn' : o.nVis = g.flat.countP (fun s => decide (Gridable g.toGridIn s.1 s.2)) := by rw [hn, hcnt]
    have hpos : (o.nVis : K) ≠ 0 := by
      rw [Nat.cast_ne_zero]
      intro h0
      have := h2.2 (fun k hk hG => ?_)
      · cases this
      · rw [hn', List.countP_eq_zero] at h0
        exact h0 _ (List.mem_of_getElem? (flat_getD g.toGridIn hk)) (by simpa using hG)
    obtain ⟨a1, a2, a3, a4⟩ := hp y x
    have hmul : ∀ F : (ℕ → K) → ℕ → ℕ → ℕ → K, (o.nVis : K) * sumReaching g.toGridIn y x (fun k p =>
        F (usedKernel g k) (chanOf g.toGridIn k) (blOf g.toGridIn k) p / o.nVis) = at_ F := by
      intro F
      rw [planes_flat g hfb (fun κ f b p => F κ f b p / (o.nVis : K)) y x, ← List.sum_map_mul_left]
      simp only [at_]
      congr 1
      apply List.map_congr_left
      intro s _
      split
      · rw [mul_div_cancel₀ _ hpos]
      · rw [mul_zero]
    simp only [totals]
    rw [a1, a2, a3, a4, hmul fun κ f b p => star (κ p) * visOf g f b, hmul fun κ _ _ p => star (κ p),
      hmul fun κ _ _ p => star (κ p) * κ p, planes_flat g hfb (fun _ _ _ _ => 1) y x, hn']

/-- **C246** (square planes, one kernel for all channels). Gridding a selection of channels and samples in two parts and adding what was
gridded is gridding the whole, for the number of visibilities and all four planes. Missing: channels with different kernels, for which
it is false (C233), and other planes (C28). -/
theorem C246_parts_partial [CharZero K] (g : VisGridIn K) (hsq : g.elements = g.dimension) (hf : g.freqAll ≠ [])
    (hl : ∀ b, 0 ≤ blLength g.toGridIn b) (hr : 0 < g.res) (hk : 0 < g.kpix) {fb : ℕ} (fi fi' bi bi' : List ℕ)
    (hfb : ∀ f ∈ fi ++ fi', g.fbin f = fb) (y x : ℕ) :
    (∃ n a b c d n' a' b' c' d', totals (visGridCore (selected g fi bi)) y x = some (n, a, b, c, d) ∧
      totals (visGridCore (selected g fi bi')) y x = some (n', a', b', c', d') ∧
      totals (visGridCore (selected g fi (bi ++ bi'))) y x = some (n + n', a + a', b + b', c + c', d + d')) ∧
    (∃ n a b c d n' a' b' c' d', totals (visGridCore (selected g fi bi)) y x = some (n, a, b, c, d) ∧
      totals (visGridCore (selected g fi' bi)) y x = some (n', a', b', c', d') ∧
      totals (visGridCore (selected g (fi ++ fi') bi)) y x = some (n + n', a + a', b + b', c + c', d + d')) := by
  have T : ∀ f b : List ℕ, (∀ i ∈ f, i ∈ fi ++ fi') → _ := fun f b hsub =>
    totals_flat (selected g f b) hsq hf hl hr hk (fb := fb) (fun i hi => hfb i (hsub i hi)) y x
  have F1 : ∀ f b b' : List ℕ, (selected g f (b ++ b')).flat.Perm ((selected g f b).flat ++ (selected g f b').flat) := by
    intro f b b'
    unfold GridIn.flat selected
    simp only [List.map_append]
    induction f with
    | nil => exact List.Perm.refl _
    | cons i f ih =>
      simp only [List.flatMap_cons, List.append_assoc]
      refine List.Perm.append_left _ ?_
      refine (List.Perm.append_left _ ih).trans ?_
      rw [← List.append_assoc, ← List.append_assoc]
      exact List.Perm.append_right _ List.perm_append_comm
  have F2 : ∀ f f' b : List ℕ, (selected g (f ++ f') b).flat = (selected g f b).flat ++ (selected g f' b).flat := by
    intro f f' b
    unfold GridIn.flat selected
    simp only [List.flatMap_append]
  constructor
  · refine ⟨_, _, _, _, _, _, _, _, _, _, T fi bi fun _ h => List.mem_append_left _ h,
      T fi bi' fun _ h => List.mem_append_left _ h, ?_⟩
    refine (T fi (bi ++ bi') fun _ h => List.mem_append_left _ h).trans ?_
    have hp := F1 fi bi bi'
    simp only [(hp.countP_eq _), (hp.map _).sum_eq, List.countP_append, List.map_append, List.sum_append]
    rfl
  · refine ⟨_, _, _, _, _, _, _, _, _, _, T fi bi fun _ h => List.mem_append_left _ h,
      T fi' bi fun _ h => List.mem_append_right _ h, ?_⟩
    refine (T (fi ++ fi') bi fun _ h => h).trans ?_
    simp only [F2, List.countP_append, List.map_append, List.sum_append]
    rfl

/-- The hypotheses of C246 are met, with visibilities in both parts. -/
example : let g : VisGridIn ℚ := { exVis false with fbin := fun _ => 1 }
    g.elements = g.dimension ∧ g.freqAll ≠ [] ∧ (∀ b, 0 ≤ blLength g.toGridIn b) ∧ 0 < g.res ∧ 0 < g.kpix ∧
    (∀ f ∈ [0] ++ [1], g.fbin f = 1) ∧ g.biUse = [0, 1, 2] ∧
    (totals (visGridCore (selected g [0, 1] [0])) 7 10).map (fun t => t.1) = some 2 ∧
    (totals (visGridCore (selected g [0, 1] [1, 2])) 7 10).map (fun t => t.1) = some 2 ∧
    totals (visGridCore (selected g [0, 1] [0, 1, 2])) 7 10 = totals (visGridCore g) 7 10 ∧
    (totals (visGridCore g) 7 10).map (fun t => (t.1, t.2.1)) = some (4, 347) :=
  ⟨by decide, by decide, exGrid_len _ _ _ _ _, by decide, by decide +kernel, by decide, by decide +kernel,
    by decide +kernel, by decide +kernel, by decide +kernel, by decide +kernel⟩

/-- **C246 fails** when the channels have different kernels: gridded in one go, sample 1 is given the kernel of another channel than on its
own, and the weights at a pixel are 120 instead of 0 + 20. -/
theorem C246_parts_differ :
    (∀ f ∈ (exVis false).fiUse, (exVis false).fbin f < 2) ∧
    (totals (visGridCore (selected (exVis false) [0, 1] [0])) 4 8).map (fun t => t.2.2.1) = some 0 ∧
    (totals (visGridCore (selected (exVis false) [0, 1] [1, 2])) 4 8).map (fun t => t.2.2.1) = some 20 ∧
    (totals (visGridCore (selected (exVis false) [0, 1] [0, 1, 2])) 4 8).map (fun t => t.2.2.1) = some 120 :=
  ⟨by decide +kernel, by decide +kernel, by decide +kernel, by decide +kernel⟩

end Parts

end PyFHD
