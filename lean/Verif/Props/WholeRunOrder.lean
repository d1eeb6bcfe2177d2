import Verif.Props.WholeRunMore
import Verif.Props.RelationsThird

/-!
# C298: the order of the samples within integrations has no influence on the images of a run
-/

namespace PyFHD

open Spec

namespace Spec

/-- The run with the samples in another order: sample `b` is the former sample `σ b`, in the data, the model, the weights, the lists of tiles and the
positions. -/
noncomputable def reorderedRun (x : RunIn) (σ : Equiv.Perm ℕ) : RunIn :=
  { x with
    obs := { x.obs with tileA := (List.range x.obs.nBl).map fun b => x.obs.tileA.getD (σ b) 0
                        tileB := (List.range x.obs.nBl).map fun b => x.obs.tileB.getD (σ b) 0 }
    uv := { x.uv with uu := fun b => x.uv.uu (σ b), vv := fun b => x.uv.vv (σ b) }
    vis := fun p f b => x.vis p f (σ b)
    model := fun p f b => x.model p f (σ b)
    weights := fun p f b => x.weights p f (σ b)
    cal := withRun x.cal (reordered x.cal.run σ)
    grid := fun p => { x.grid p with uu := fun b => (x.grid p).uu (σ b), vv := fun b => (x.grid p).vv (σ b), group := fun b => (x.grid p).group (σ b) } }

/-- The order changes within integrations only. -/
def WithinSteps (o : FlagObs) (σ : Equiv.Perm ℕ) : Prop :=
  (∀ b, σ b < o.nBl ↔ b < o.nBl) ∧ ∀ t, ∀ b < o.nBl, InStep o o.nBl t (σ b) ↔ InStep o o.nBl t b

/-- Every tile has a baseline. -/
def TilesTakePart (o : FlagObs) : Prop := ∀ t < o.nTile, ((t : ℤ) + 1) ∈ o.tileA ∨ ((t : ℤ) + 1) ∈ o.tileB

end Spec

/-- If every tile has a baseline, the samples of unused tiles are zeroed and no others. -/
theorem tileZero_iff (o : FlagObs) (hl : o.tileB.length = o.tileA.length) (ht : TilesTakePart o) (b : ℕ) : tileZero o b = true ↔ TileFlagged o b := by
  refine ⟨fun h => ?_, tileZero_of_flagged hl⟩
  unfold tileZero at h
  by_cases hc : tileCut o = []
  · rw [if_pos hc] at h
    cases h
  · rw [if_neg hc] at h
    obtain ⟨v, hv⟩ := List.exists_mem_of_ne_nil _ hc
    rw [mem_tileCut] at hv
    obtain ⟨t, t1, t2, t3⟩ := id hv
    have : ∃ b', TileFlagged o b' := by
      rcases ht t t1 with h' | h'
      · obtain ⟨b', hb'⟩ := List.mem_iff_getElem?.1 h'
        exact ⟨b', v, hv, Or.inl (by rw [hb', t3])⟩
      · obtain ⟨b', hb'⟩ := List.mem_iff_getElem?.1 h'
        exact ⟨b', v, hv, Or.inr (by rw [hb', t3])⟩
    obtain ⟨b', hb'⟩ := this
    rw [if_neg (List.ne_nil_of_mem ((mem_matchPositions_tileCut o hl b').2 hb')), decide_eq_true_eq] at h
    exact (mem_matchPositions_tileCut o hl b).1 h

/-- The observation with its samples in another order. -/
def reorderedObs (o : FlagObs) (σ : Equiv.Perm ℕ) : FlagObs :=
  { o with tileA := (List.range o.nBl).map fun b => o.tileA.getD (σ b) 0
           tileB := (List.range o.nBl).map fun b => o.tileB.getD (σ b) 0 }

theorem reorderedObs_nBl (o : FlagObs) (σ : Equiv.Perm ℕ) : (reorderedObs o σ).nBl = o.nBl := by
  show ((List.range o.nBl).map fun b => o.tileA.getD (σ b) 0).length = o.nBl
  simp

theorem reorderedObs_get (l : List ℤ) (n : ℕ) (hn : l.length = n) (σ : Equiv.Perm ℕ) (hσ : ∀ b, σ b < n ↔ b < n) (b : ℕ) :
    ((List.range n).map fun b => l.getD (σ b) 0)[b]? = l[σ b]? := by
  by_cases hb : b < n
  · rw [List.getElem?_map, List.getElem?_range hb, Option.map_some, List.getD_eq_getElem?_getD]
    have : σ b < l.length := by rw [hn]; exact (hσ b).2 hb
    rw [List.getElem?_eq_getElem this]
    rfl
  · rw [List.getElem?_eq_none_iff.2 (by simp; omega), List.getElem?_eq_none_iff.2 (by rw [hn]; exact not_lt.1 fun h => hb ((hσ b).1 h))]

theorem reordered_mem (l : List ℤ) (n : ℕ) (hn : l.length = n) (σ : Equiv.Perm ℕ) (hσ : ∀ b, σ b < n ↔ b < n) (v : ℤ) :
    v ∈ ((List.range n).map fun b => l.getD (σ b) 0) ↔ v ∈ l := by
  rw [List.mem_iff_getElem?, List.mem_iff_getElem?]
  constructor
  · rintro ⟨b, hb⟩
    rw [reorderedObs_get l n hn σ hσ] at hb
    exact ⟨_, hb⟩
  · rintro ⟨b, hb⟩
    refine ⟨σ.symm b, ?_⟩
    rw [reorderedObs_get l n hn σ hσ, Equiv.apply_symm_apply]
    exact hb

/-- The updated weights in the other order. -/
theorem update_reordered (o : FlagObs) (σ : Equiv.Perm ℕ) (hσ : WithinSteps o σ) (ht : TilesTakePart o) (h0 : o.tileA ≠ [])
    (hl : o.tileB.length = o.tileA.length) (ho : GoodOffsets o o.nBl) (hf : 0 < o.nFreq) (hp0 : 0 < o.nPol) (q : UvParams) (w w' : Weights)
    (hw : ∀ p < o.nPol, ∀ f, ∀ b < o.nBl, w' p f b = w p f (σ b)) (r : VwuResult) (hr : visWeightsUpdate o q w = .ok r) :
    ∃ r', visWeightsUpdate (reorderedObs o σ) { q with uu := fun b => q.uu (σ b), vv := fun b => q.vv (σ b) } w' = .ok r' ∧ r'.nVis = r.nVis ∧
      ∀ p < o.nPol, ∀ f, ∀ b < o.nBl, r'.weights p f b = r.weights p f (σ b) := by
  have hn := reorderedObs_nBl o σ
  have hlA : o.tileA.length = o.nBl := rfl
  have hlB : o.tileB.length = o.nBl := hl
  have hl' : (reorderedObs o σ).tileB.length = (reorderedObs o σ).tileA.length := by simp [reorderedObs]
  have h0' : (reorderedObs o σ).tileA ≠ [] := by
    intro h
    have := congrArg List.length h
    rw [show (reorderedObs o σ).tileA.length = o.nBl from hn] at this
    exact h0 (List.eq_nil_of_length_eq_zero this)
  have ht' : TilesTakePart (reorderedObs o σ) := fun t h => (ht t h).imp (reordered_mem o.tileA o.nBl hlA σ hσ.1 _).2
    (reordered_mem o.tileB o.nBl hlB σ hσ.1 _).2
  have hstep : ∀ n t b, InStep (reorderedObs o σ) n t b ↔ InStep o n t b := fun n t b => Iff.rfl
  obtain ⟨r1, a1, a2, a3⟩ := visWeightsUpdate_spec o q w h0 hl ho hf
  rw [hr] at a1
  cases a1
  obtain ⟨r', b1, b2, b3⟩ := visWeightsUpdate_spec (reorderedObs o σ) { q with uu := fun b => q.uu (σ b), vv := fun b => q.vv (σ b) } w' h0' hl'
    ⟨ho.1, ho.2, fun t h => by rw [hn]; exact ho.3 t h⟩ hf
  have hfl : ∀ b, TileFlagged (reorderedObs o σ) b ↔ TileFlagged o (σ b) := by
    intro b
    unfold TileFlagged
    rw [show (reorderedObs o σ).tileA[b]? = o.tileA[σ b]? from reorderedObs_get o.tileA o.nBl hlA σ hσ.1 b,
      show (reorderedObs o σ).tileB[b]? = o.tileB[σ b]? from reorderedObs_get o.tileB o.nBl hlB σ hσ.1 b]
    rfl
  have hz : ∀ f, ∀ b < o.nBl, vwuZero (reorderedObs o σ) { q with uu := fun b => q.uu (σ b), vv := fun b => q.vv (σ b) } f b ↔ vwuZero o q f (σ b) := by
    intro f b hb
    unfold vwuZero
    rw [tileZero_iff _ hl' ht', tileZero_iff _ hl ht, hfl, hn]
    simp only [hstep, hσ.2 _ b hb]
    rfl
  have key : ∀ p < o.nPol, ∀ f, ∀ b < o.nBl, r'.weights p f b = r.weights p f (σ b) := by
    intro p hp f b hb
    rw [b2 p f b (by rw [hn]; exact hb), a2 p f (σ b) ((hσ.1 b).2 hb), hw p hp f b hb]
    by_cases hh : vwuZero o q f (σ b)
    · rw [if_pos ⟨hp, (hz f b hb).2 hh⟩, if_pos ⟨hp, hh⟩]
    · rw [if_neg fun k => hh ((hz f b hb).1 k.2), if_neg fun k => hh k.2]
  refine ⟨r', b1, ?_, key⟩
  rw [a3 hp0, b3 hp0]
  refine Finset.card_bij (fun s _ => (s.1, σ s.2)) ?_ ?_ ?_
  · rintro ⟨f, b⟩ h
    simp only [Finset.mem_filter, allSamples, Finset.mem_product, Finset.mem_range, hn] at h ⊢
    obtain ⟨⟨h1, h2⟩, h3⟩ := h
    exact ⟨⟨h1, (hσ.1 b).2 h2⟩, by rw [← key 0 hp0 f b h2]; exact h3⟩
  · rintro ⟨f, b⟩ - ⟨f', b'⟩ - h
    simp only [Prod.mk.injEq, EmbeddingLike.apply_eq_iff_eq] at h
    exact Prod.ext h.1 h.2
  · rintro ⟨f, b⟩ h
    simp only [Finset.mem_filter, allSamples, Finset.mem_product, Finset.mem_range, hn] at h ⊢
    obtain ⟨⟨h1, h2⟩, h3⟩ := h
    have hb : σ.symm b < o.nBl := by rw [← hσ.1, Equiv.apply_symm_apply]; exact h2
    refine ⟨(f, σ.symm b), ⟨⟨h1, hb⟩, ?_⟩, by simp⟩
    rw [key 0 hp0 f _ hb, Equiv.apply_symm_apply]
    exact h3

/-- The samples to be gridded in the other order. -/
theorem biUse_reordered (nf n : ℕ) (w : ℕ → ℕ → ℚ) (σ : Equiv.Perm ℕ) (hσ : ∀ b, σ b < n ↔ b < n) :
    ((defaultBiUse nf n fun f b => w f (σ b)).map σ).Perm (defaultBiUse nf n w) := by
  have nd : ∀ w : ℕ → ℕ → ℚ, (defaultBiUse nf n w).Nodup := fun w => List.nodup_range.filter _
  refine (List.perm_ext_iff_of_nodup ((nd _).map σ.injective) (nd _)).2 fun b => ?_
  simp only [defaultBiUse, List.mem_map, List.mem_filter, List.mem_range]
  constructor
  · rintro ⟨b', ⟨h1, h2⟩, rfl⟩
    exact ⟨(hσ b').2 h1, h2⟩
  · rintro ⟨h1, h2⟩
    exact ⟨σ.symm b, ⟨by rw [← hσ, Equiv.apply_symm_apply]; exact h1, by simpa using h2⟩, Equiv.apply_symm_apply _ _⟩

namespace Spec

/-- Planes and counts are the same; the counts of the channels may differ. -/
def SamePlanes (o o' : VisGridOut ℂ × Plane ℂ) : Prop := o'.1.planes = o.1.planes ∧ o'.2 = o.2 ∧ o'.1.nVis = o.1.nVis

/-- What gridding needs so that the order does not matter: square planes, a positive resolution, and one kernel for all channels. -/
structure OneKernel (x : RunIn) : Prop where
  square : ∀ p, (x.grid p).elements = (x.grid p).dimension
  res : ∀ p, 0 < (x.grid p).res
  kpix : ∀ p, 0 < (x.grid p).kpix
  kernel : ∀ p, ∀ f < x.obs.nFreq, (x.grid p).fbin f = (x.grid p).fbin 0

end Spec

/-- The gridding of a polarisation with the samples in the other order. -/
theorem gridded_reordered (x : RunIn) (h : RunFits x) (k : OneKernel x) (σ : Equiv.Perm ℕ) (fo : FlagObs)
    (hnf : fo.nFreq = x.obs.nFreq) (hσ : ∀ b, σ b < fo.nBl ↔ b < fo.nBl)
    (v v' : ℕ → ℕ → ℕ → ℂ) (w w' : Weights) (p : ℕ) (hv : ∀ f, ∀ b < fo.nBl, v' p f b = v p f (σ b))
    (hw : ∀ f, ∀ b < fo.nBl, w' p f b = w p f (σ b)) (o : VisGridOut ℂ × Plane ℂ) (ho : x.gridded fo v w p = .ok o) :
    ∃ o', (reorderedRun x σ).gridded (reorderedObs fo σ) v' w' p = .ok o' ∧ SamePlanes o o' := by
  have hn := reorderedObs_nBl fo σ
  set G := x.gridIn fo v w p with hG
  set G' := (reorderedRun x σ).gridIn (reorderedObs fo σ) v' w' p with hG'
  have hwt : ∀ f b, (if b < (reorderedObs fo σ).nBl then w' p f b else 0) = if σ b < fo.nBl then w p f (σ b) else 0 := by
    intro f b
    rw [hn]
    by_cases hb : b < fo.nBl
    · rw [if_pos hb, if_pos ((hσ b).2 hb), hw f b hb]
    · rw [if_neg hb, if_neg fun q => hb ((hσ b).1 q)]
  have hbi : G'.biUse = defaultBiUse fo.nFreq fo.nBl fun f b => if σ b < fo.nBl then w p f (σ b) else 0 := by
    change defaultBiUse fo.nFreq (reorderedObs fo σ).nBl (fun f b => if b < (reorderedObs fo σ).nBl then w' p f b else 0) = _
    rw [hn]
    congr 1
    funext f b
    rw [← hwt, hn]
  have hrel : ∀ u : ℕ → ℕ → ℂ, withVis G' (fun f b => u f (σ b)) = relisted (withVis G u) σ G.fiUse G'.biUse G'.group := by
    intro u
    have e : G'.weight = fun f b => G.weight f (σ b) := by
      funext f b
      exact hwt f b
    change ({ G' with vis := _ } : VisGridIn ℂ) = _
    have e2 : G' = { G' with weight := fun f b => G.weight f (σ b) } := by rw [← e]
    rw [e2]
    rfl
  have hone : ∀ u u' : ℕ → ℕ → ℂ, (∀ f, ∀ b < fo.nBl, u' f b = u f (σ b)) → ∀ o1, visibilityGrid (withVis G u) = .ok (some o1) →
      ∃ o2, visibilityGrid (withVis G' u') = .ok (some o2) ∧ o2.planes = o1.planes ∧ o2.nVis = o1.nVis := by
    intro u u' hu o1 h1
    have e : visibilityGrid (withVis G' u') = visibilityGrid (withVis G' fun f b => u f (σ b)) := by
      refine C192_flagged G' (h.gridFreqs p) (fun b => h.lengths p (σ b)) rfl _ _ fun f b hpos => ?_
      change 0 < (if b < (reorderedObs fo σ).nBl then w' p f b else 0) at hpos
      rw [hn] at hpos
      split_ifs at hpos with hb
      · exact hu f b hb
      · exact absurd hpos (lt_irrefl _)
    rw [e, hrel]
    have hperm : (G'.biUse.map σ).Perm G.biUse := by
      rw [hbi]
      exact biUse_reordered fo.nFreq fo.nBl (fun f b => if b < fo.nBl then w p f b else 0) σ hσ
    have hc := C233_order_partial (withVis G u) (k.square p) (h.gridFreqs p) (h.lengths p) (k.res p) (k.kpix p) (fb := (x.grid p).fbin 0)
      (fun f hf => k.kernel p f (hnf ▸ List.mem_range.1 (List.mem_filter.1 hf).1)) σ (fi := G.fiUse) (bi := G'.biUse) G'.group (List.Perm.refl _) hperm
    unfold visibilityGrid at h1 ⊢
    simp only [bind, Except.bind, pure, Except.pure] at h1 ⊢
    rcases hc with ⟨c1, c2⟩ | ⟨a, a', c1, c2, c3, c4⟩
    · rw [c1] at h1
      cases h1
    · rw [c1] at h1
      simp only [Option.map_some, Except.ok.injEq, Option.some.injEq] at h1
      subst h1
      rw [c2]
      refine ⟨_, rfl, ?_⟩
      have hp : a'.planes = a.planes := by
        have e1 : a'.planes.image = a.planes.image := by funext y z; exact (c4 y z).1
        have e2 : a'.planes.weights = a.planes.weights := by funext y z; exact (c4 y z).2.1
        have e3 : a'.planes.variance = a.planes.variance := by funext y z; exact (c4 y z).2.2.1
        have e4 : a'.planes.uniform = a.planes.uniform := by funext y z; exact (c4 y z).2.2.2
        cases ha : a.planes
        cases ha' : a'.planes
        rw [ha, ha'] at e1 e2 e3 e4
        simp only at e1 e2 e3 e4
        rw [e1, e2, e3, e4]
      unfold visGridFinish
      change (if (withVis G u).noConjugate then a' else _).planes = _ ∧ (if (withVis G u).noConjugate then a' else _).nVis = _
      split_ifs
      · exact ⟨hp, c3⟩
      · refine ⟨?_, c3⟩
        rw [hp]
        rfl
  rw [show x.gridded fo v w p = ({ x with model := x.model } : RunIn).gridded fo v w p from rfl, gridded_eq x fo v w p v x.model, ← hG] at ho
  rw [show (reorderedRun x σ).gridded (reorderedObs fo σ) v' w' p =
    ({ reorderedRun x σ with model := fun p f b => x.model p f (σ b) } : RunIn).gridded (reorderedObs fo σ) v' w' p from rfl,
    gridded_eq (reorderedRun x σ) (reorderedObs fo σ) v' w' p v' fun p f b => x.model p f (σ b), ← hG']
  cases h1 : visibilityGrid (withVis G (v p)) with
  | error e => rw [h1] at ho; cases ho
  | ok ob =>
    rw [h1] at ho
    cases ob with
    | none => cases ho
    | some o1 =>
      cases h2 : visibilityGrid (withVis G (x.model p)) with
      | error e => rw [h2] at ho; cases ho
      | ok ob' =>
        rw [h2] at ho
        cases ob' with
        | none => cases ho
        | some o2 =>
          simp only [Except.ok.injEq] at ho
          subst ho
          obtain ⟨o1', c1, c2, c3⟩ := hone (v p) (v' p) hv o1 h1
          obtain ⟨o2', d1, d2, -⟩ := hone (x.model p) (fun f b => x.model p f (σ b)) (fun f b _ => rfl) o2 h2
          rw [c1, d1]
          exact ⟨_, rfl, c2, by rw [d2], c3⟩

namespace Spec

/-- The results of a run with the samples in the order `σ`: the same gains, residuals, flags and statistics, calibrated data and weights in the other
order, and the same planes and images. -/
def ReorderedRunOut (x : RunIn) (σ : Equiv.Perm ℕ) (R R' : RunOut) : Prop :=
  SameSolution R.cal R'.cal ∧
    (∀ p < x.obs.nPol, ∀ f, ∀ b < x.obs.nBl, R'.cal.vis p f b = R.cal.vis p f (σ b) ∧ R'.weights p f b = R.weights p f (σ b)) ∧
    List.Forall₂ SamePlanes R.planes R'.planes ∧ R'.images = R.images

end Spec

theorem perm_range_of (n : ℕ) (σ : Equiv.Perm ℕ) (hσ : ∀ b, σ b < n ↔ b < n) : ((List.range n).map σ).Perm (List.range n) := by
  refine (List.perm_ext_iff_of_nodup (List.nodup_range.map σ.injective) List.nodup_range).2 fun b => ?_
  simp only [List.mem_map, List.mem_range]
  constructor
  · rintro ⟨b', h1, rfl⟩
    exact (hσ b').2 h1
  · intro h1
    exact ⟨σ.symm b, by rw [← hσ, Equiv.apply_symm_apply]; exact h1, Equiv.apply_symm_apply _ _⟩

theorem SameSolution_trans {a b c : CalibrateOut} (h : SameSolution a b) (h' : SameSolution b c) : SameSolution a c :=
  ⟨h'.1.trans h.1, h'.2.1.trans h.2.1, h'.2.2.1.trans h.2.2.1, h'.2.2.2.trans h.2.2.2⟩

theorem mapM_forall₂ {α β : Type} (S : β → β → Prop) (F G : α → Py β) : ∀ (l : List α) (r : List β),
    (∀ a ∈ l, ∀ o, F a = .ok o → ∃ o', G a = .ok o' ∧ S o o') → l.mapM F = .ok r → ∃ r', l.mapM G = .ok r' ∧ List.Forall₂ S r r'
  | [], r, _, hr => by
    rw [List.mapM_nil] at hr
    cases hr
    exact ⟨[], by rw [List.mapM_nil]; rfl, List.Forall₂.nil⟩
  | a :: l, r, h, hr => by
    rw [List.mapM_cons] at hr ⊢
    simp only [bind, Except.bind, pure, Except.pure] at hr ⊢
    cases h1 : F a with
    | error e => rw [h1] at hr; cases hr
    | ok o =>
      rw [h1] at hr
      simp only at hr
      cases h2 : l.mapM F with
      | error e => rw [h2] at hr; cases hr
      | ok os =>
        rw [h2] at hr
        cases hr
        obtain ⟨o', g1, g2⟩ := h a (by simp) o h1
        obtain ⟨os', g3, g4⟩ := mapM_forall₂ S F G l os (fun b hb => h b (by simp [hb])) h2
        rw [g1, g3]
        exact ⟨_, rfl, List.Forall₂.cons g2 g4⟩

theorem quickIn_same (x : RunIn) (n : ℕ) {gs gs' : List (VisGridOut ℂ × Plane ℂ)} (h : List.Forall₂ SamePlanes gs gs') : x.quickIn n gs' = x.quickIn n gs := by
  have hat : ∀ p : ℕ, (gs'[p]?).map (fun g => (g.1.planes, g.2)) = (gs[p]?).map fun g => (g.1.planes, g.2) := by
    intro p
    induction h generalizing p with
    | nil => rfl
    | cons a b ih =>
      cases p with
      | zero => simp [a.1, a.2.1]
      | succ p => simpa using ih p
  have hm : ∀ {α : Type} (F : GridPlanes ℂ × Plane ℂ → α) (p : ℕ),
      (gs'[p]?).map (fun g => F (g.1.planes, g.2)) = (gs[p]?).map fun g => F (g.1.planes, g.2) := by
    intro α F p
    have := congrArg (Option.map F) (hat p)
    simpa [Option.map_map, Function.comp_def] using this
  unfold RunIn.quickIn
  have m1 := hm (fun g => g.1.uniform) 0
  have m2 := fun p => hm (fun g => g.1.image) p
  have m3 := fun p => hm (fun g => g.1.weights) p
  have m4 := fun p => hm (fun g => g.2) p
  simp only at m1 m2 m3 m4
  simp only [m1, m2, m3, m4]

/-- **C298** (no averaging over time, one kernel for all channels, every tile with a baseline). The order in which the samples of an integration are
listed has no influence on what a run gives: the gains, residuals, flags and statistics, the planes and the exported images are the same, and the
calibrated data and the weights are those of before in the other order. Missing: channels with different kernels (`C233_order_matters`), tiles that
are in no baseline (`C17_last_baseline_flagged`). -/
theorem C298_order_partial (x : RunIn) (h : RunFits x) (k : OneKernel x) (ha : x.cal.run.timeAverage = false) (ht : TilesTakePart x.obs)
    (σ : Equiv.Perm ℕ) (hσ : WithinSteps x.obs σ) (R : RunOut) (hR : imagingRun x = .ok R) :
    ∃ R', imagingRun (reorderedRun x σ) = .ok R' ∧ ReorderedRunOut x σ R R' := by
  obtain ⟨w1, w2, h1, h2, h3, h4, h5, h6⟩ := (run_stages x R).1 hR
  have hp0 : 0 < x.obs.nPol := h.pols.1
  obtain ⟨w1', a1, -, a3⟩ := update_reordered x.obs σ hσ ht h.tileA_ne h.tile_len h.offsets h.freqs hp0 x.uv x.weights
    (fun p f b => x.weights p f (σ b)) (fun _ _ _ _ _ => rfl) w1 h1
  have hN := h.nBl
  have hσ' : ∀ b, σ b < x.cal.run.nBl * x.cal.run.nTime ↔ b < x.cal.run.nBl * x.cal.run.nTime := by rw [← hN]; exact hσ.1
  have hcast : (x.calIn w1.weights).run.cast 0 = 0 := by
    change x.cal.run.cast 0 = 0
    rw [h.cast]
    simp
  set c := x.calIn w1.weights with hc
  set cσ := withRun c (reordered c.run σ) with hcσ
  have hign : ∀ p < cσ.run.nPol, ∀ f < cσ.run.nFreq, ∀ b < cσ.run.nB, ∀ s ∈ cσ.run.samplesOf b, cσ.run.isCut f b = true ∨
      (fun p f s => ((w1'.weights p f s : ℚ) : ℝ)) p f s = cσ.run.weight p f s ∧ (cσ.run.weight p f s ≤ 0 ∨ cσ.run.freqUse f = false ∨
        cσ.run.vis p f s = cσ.run.vis p f s ∧ cσ.run.model p f s = cσ.run.model p f s) := by
    intro p hp f _ b hb s hs
    refine Or.inr ⟨?_, Or.inr (Or.inr ⟨rfl, rfl⟩)⟩
    change ((w1'.weights p f s : ℚ) : ℝ) = ((w1.weights p f (σ s) : ℚ) : ℝ)
    rw [a3 p hp f s (by rw [hN]; exact samplesOf_lt cσ.run b hb s hs)]
  have hAB : TilesExist cσ.run := fun s hs => h.tiles (σ s) ((hσ' s).2 hs)
  have hcal : ∃ r', (reorderedRun x σ).calibrated w1'.weights = .ok r' ∧ SameSolution R.cal r' ∧
      ∀ p < x.obs.nPol, ∀ f, ∀ b < x.obs.nBl, r'.vis p f b = R.cal.vis p f (σ b) := by
    unfold RunIn.calibrated at h2 ⊢
    change ∃ r', (match x.refl with
      | none => calibrateAll (withRun cσ (withData cσ.run cσ.run.vis cσ.run.model fun p f s => ((w1'.weights p f s : ℚ) : ℝ))) x.opts x.obs.inUse
      | some q => calibrateRefl (withRun cσ (withData cσ.run cσ.run.vis cσ.run.model fun p f s => ((w1'.weights p f s : ℚ) : ℝ))) x.opts q
          x.obs.inUse) = .ok r' ∧ _
    cases hq : x.refl with
    | none =>
      rw [hq] at h2
      obtain ⟨r1, b1, b2, b3⟩ := C275_order c ha σ (perm_range_of _ σ hσ') h.pols h.tiles x.opts x.obs.inUse R.cal h2
      obtain ⟨r2, d1, d2, d3⟩ := C274_unused cσ hcast cσ.run.vis cσ.run.model _ hign h.pols hAB x.opts x.obs.inUse r1 b1
      refine ⟨r2, d1, SameSolution_trans b2 d2, fun p hp f b hb => ?_⟩
      rw [d3 p hp f b (hN ▸ hb) rfl, b3 p hp f b (hN ▸ hb)]
    | some q =>
      rw [hq] at h2
      obtain ⟨r1, b1, b2, b3⟩ := C290_order c ha σ (perm_range_of _ σ hσ') h.pols h.tiles x.opts q x.obs.inUse R.cal h2
      obtain ⟨r2, d1, d2, d3⟩ := C290_unused cσ hcast cσ.run.vis cσ.run.model _ hign h.pols hAB x.opts q x.obs.inUse r1 b1
      refine ⟨r2, d1, SameSolution_trans b2 d2, fun p hp f b hb => ?_⟩
      rw [d3 p hp f b (hN ▸ hb) rfl, b3 p hp f b (hN ▸ hb)]
  obtain ⟨r', e1, e2, e3⟩ := hcal
  obtain ⟨w2', f1, f2, f3⟩ := update_reordered (x.obs.restrict R.cal.inUse) σ hσ ht h.tileA_ne h.tile_len ⟨h.offsets.1, h.offsets.2, h.offsets.3⟩
    h.freqs hp0 x.uv w1.weights w1'.weights a3 w2 h3
  obtain ⟨gs', g1, g2⟩ := mapM_forall₂ SamePlanes _
    ((reorderedRun x σ).gridded (reorderedObs (x.obs.restrict R.cal.inUse) σ) r'.vis w2'.weights) (List.range x.obs.nPol) R.planes
    (fun p hp o ho => gridded_reordered x h k σ (x.obs.restrict R.cal.inUse) rfl hσ.1 R.cal.vis r'.vis w2.weights w2'.weights p
      (fun f b hb => e3 p (List.mem_range.1 hp) f b hb) (fun f b hb => f3 p (List.mem_range.1 hp) f b hb) o ho) h5
  refine ⟨⟨r', w2'.weights, gs', R.images⟩, (run_stages _ _).2 ⟨w1', w2', a1, e1, ?_, rfl, ?_, ?_⟩, e2, fun p hp f b hb => ⟨e3 p hp f b hb, ?_⟩, g2, rfl⟩
  · show visWeightsUpdate (reorderedObs (x.obs.restrict r'.inUse) σ) _ w1'.weights = .ok w2'
    rw [e2.2.2.1]
    exact f1
  · show (List.range x.obs.nPol).mapM ((reorderedRun x σ).gridded (reorderedObs (x.obs.restrict r'.inUse) σ) r'.vis w2'.weights) = .ok gs'
    rw [e2.2.2.1]
    exact g1
  · show quickview (x.quickIn w2'.nVis gs') = .ok R.images
    rw [quickIn_same x _ g2, f2]
    exact h6
  · show w2'.weights p f b = R.weights p f (σ b)
    rw [← h4]
    exact f3 p hp f b hb

/-- The hypotheses of C298 are met: the first two samples of the first integration, of different baselines, are swapped. -/
example : ∃ fit R R', imagingRun (exWholeRun fit) = .ok R ∧ imagingRun (reorderedRun (exWholeRun fit) (Equiv.swap 0 1)) = .ok R' ∧
    R'.images = R.images ∧ (exWholeRun fit).cal.run.tileB 0 ≠ (exWholeRun fit).cal.run.tileB 1 := by
  obtain ⟨fit, hfit⟩ := exists_leastSquaresFit
  obtain ⟨R, hR⟩ := exWholeRun_ok fit hfit
  have hlt : ∀ b : ℕ, b ≠ 0 → b ≠ 1 → Equiv.swap 0 1 b = b := fun b h0 h1 => Equiv.swap_apply_of_ne_of_ne h0 h1
  obtain ⟨R', a1, -, -, -, a2⟩ := C298_order_partial _ (exWholeRun_fits fit)
    ⟨fun _ => rfl, fun _ => by norm_num [exWholeRun, exGrid], fun _ => by norm_num [exWholeRun, exGrid], fun p f hf => by
      have hf : f < 4 := hf
      show f / 4 = 0 / 4
      omega⟩ rfl (fun t ht => by
      have ht : t < 3 := ht
      change ((t : ℤ) + 1) ∈ exAfter.tileA ∨ ((t : ℤ) + 1) ∈ exAfter.tileB
      interval_cases t <;> decide) (Equiv.swap 0 1) ⟨fun b => by
      have : (exWholeRun fit).obs.nBl = 10 := by simp [exWholeRun, exAfter, FlagObs.nBl]
      rw [this]
      by_cases h0 : b = 0
      · subst h0; simp
      · by_cases h1 : b = 1
        · subst h1; simp
        · rw [hlt b h0 h1], fun t b _ => by
      have hn : (exWholeRun fit).obs.nBl = 10 := by simp [exWholeRun, exAfter, FlagObs.nBl]
      rw [hn]
      by_cases h0 : b = 0
      · subst h0
        simp [InStep, stepEnd, exWholeRun, exAfter]
        intro _
        split_ifs <;> omega
      · by_cases h1 : b = 1
        · subst h1
          simp [InStep, stepEnd, exWholeRun, exAfter]
          intro _
          split_ifs <;> omega
        · rw [hlt b h0 h1]⟩ R hR
  exact ⟨fit, R, R', hR, a1, a2, by simp [exWholeRun, exCalibrate]⟩

end PyFHD
