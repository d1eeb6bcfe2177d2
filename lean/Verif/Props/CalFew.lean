import Verif.Props.CalConverge

/-!
# C280: tiles with too few baselines

Spec: `Spec.baselinesOf` is the number of baselines with data at a channel that end at a tile; fewer than five are too few.
-/

namespace PyFHD

open Spec

/-! ## The solver -/

section Solver

variable {K R : Type} [Field K] [StarRing K] [DecidableEq K] [Field R] [LinearOrder R]
variable (s : SolveIn K R)

theorem damp_zero (cg : Option R) (new : Option K) (h : new = some 0) : s.damp cg 0 new = 0 := by
  subst h
  cases cg with
  | none => rfl
  | some c =>
    unfold SolveIn.damp
    simp only [zero_mul, add_zero, zero_div]
    split_ifs <;> rfl

theorem solveStep_zero (t : ℕ) (ht : t < s.nTile) (h5 : (s.eqsOf t).length < 5) (i : ℕ) (gain : List K) (hl : gain.length = s.nTile)
    (hg : gain.getD t 0 = 0) (hist : List (Option R)) (stricts : List R) :
    match solveStep s i gain hist stricts with
    | .allZero g => g.length = s.nTile ∧ g.getD t 0 = 0
    | .nan => True
    | .ok g _ _ _ => g.length = s.nTile ∧ g.getD t 0 = 0 := by
  have hnew : s.newGain gain t = some 0 := by
    unfold SolveIn.newGain
    rw [if_neg (by omega)]
  have hgt : gain[t]? = some 0 := by
    rw [List.getElem?_eq_getElem (by omega)]
    rw [List.getD_eq_getElem?_getD, List.getElem?_eq_getElem (by omega)] at hg
    exact congrArg some hg
  unfold solveStep
  simp only []
  split_ifs with hall
  · refine ⟨by simp, ?_⟩
    simp [ht, hnew]
  · have hcurr : (List.zipWith (s.damp (s.convGain i hist stricts)) gain
        (List.zipWith (s.phaseOnly i) gain ((List.range s.nTile).map (s.newGain gain))))[t]? = some 0 := by
      rw [List.getElem?_zipWith, List.getElem?_zipWith, hgt, List.getElem?_map, List.getElem?_range ht]
      simp only [Option.map_some, hnew]
      congr 1
      apply damp_zero
      unfold SolveIn.phaseOnly
      split_ifs <;> simp
    have hlen : (List.zipWith (s.damp (s.convGain i hist stricts)) gain
        (List.zipWith (s.phaseOnly i) gain ((List.range s.nTile).map (s.newGain gain)))).length = s.nTile := by
      simp [hl]
    cases hr : s.refer (List.zipWith (s.damp (s.convGain i hist stricts)) gain
        (List.zipWith (s.phaseOnly i) gain ((List.range s.nTile).map (s.newGain gain)))) with
    | none => trivial
    | some curr =>
      simp only []
      unfold SolveIn.refer at hr
      split_ifs at hr with h1
      · injection hr with hr
        subst hr
        exact ⟨hlen, by rw [List.getD_eq_getElem?_getD, hcurr]; rfl⟩
      · simp only [] at hr
        split_ifs at hr
        injection hr with hr
        subst hr
        exact ⟨by rw [List.length_map, hlen], by rw [List.getD_eq_getElem?_getD, List.getElem?_map, hcurr]; simp⟩

theorem solveFrom_zero (t : ℕ) (ht : t < s.nTile) (h5 : (s.eqsOf t).length < 5) : ∀ (fuel i : ℕ) (gain : List K)
    (_ : gain.length = s.nTile) (_ : gain.getD t 0 = 0) (hist : List (Option R)) (stricts looses : List R) (out : SolveOut K R),
    solveFrom s fuel i gain hist stricts looses = some out → out.gain.length = s.nTile ∧ out.gain.getD t 0 = 0 := by
  intro fuel
  induction fuel with
  | zero =>
    intro i gain hl hg hist stricts looses out ho
    have hs := solveStep_zero s t ht h5 i gain hl hg hist stricts
    unfold solveFrom at ho
    cases e : solveStep s i gain hist stricts with
    | allZero g => rw [e] at ho hs; simp only [Option.some.injEq] at ho; subst ho; exact hs
    | nan => rw [e] at ho; cases ho
    | ok curr cg strict loose =>
      rw [e] at ho hs
      rcases stopTest_cases s i stricts strict loose (looses.getLastD 0) with e' | e' | e' | e' | e' <;>
        simp only [e', Option.some.injEq] at ho <;> subst ho
      · exact hs
      · exact hs
      · exact ⟨hl, hg⟩
      · exact hs
      · exact ⟨hl, hg⟩
  | succ fuel ih =>
    intro i gain hl hg hist stricts looses out ho
    have hs := solveStep_zero s t ht h5 i gain hl hg hist stricts
    unfold solveFrom at ho
    cases e : solveStep s i gain hist stricts with
    | allZero g => rw [e] at ho hs; simp only [Option.some.injEq] at ho; subst ho; exact hs
    | nan => rw [e] at ho; cases ho
    | ok curr cg strict loose =>
      rw [e] at ho hs
      rcases stopTest_cases s i stricts strict loose (looses.getLastD 0) with e' | e' | e' | e' | e'
      · simp only [e'] at ho
        exact ih _ _ hs.1 hs.2 _ _ _ _ ho
      all_goals simp only [e', Option.some.injEq] at ho; subst ho
      · exact hs
      · exact ⟨hl, hg⟩
      · exact hs
      · exact ⟨hl, hg⟩

theorem solve_zero (t : ℕ) (ht : t < s.nTile) (h5 : (s.eqsOf t).length < 5) (gain : List K) (out : SolveOut K R)
    (h : solve s gain = .ok (some out)) : out.gain.length = s.nTile ∧ out.gain.getD t 0 = 0 := by
  unfold solve at h
  split at h
  · cases h
  · split_ifs at h
    simp only [Except.ok.injEq] at h
    refine solveFrom_zero s t ht h5 _ _ _ (by simp [SolveIn.startGain]) ?_ _ _ _ _ h
    simp [SolveIn.startGain, ht, h5]

theorem solveStep_len (i : ℕ) (gain : List K) (hl : gain.length = s.nTile) (hist : List (Option R)) (stricts : List R) :
    match solveStep s i gain hist stricts with
    | .allZero g => g.length = s.nTile
    | .nan => True
    | .ok g _ _ _ => g.length = s.nTile := by
  unfold solveStep
  simp only []
  split_ifs with hall
  · simp
  · have hlen : (List.zipWith (s.damp (s.convGain i hist stricts)) gain
        (List.zipWith (s.phaseOnly i) gain ((List.range s.nTile).map (s.newGain gain)))).length = s.nTile := by
      simp [hl]
    cases hr : s.refer (List.zipWith (s.damp (s.convGain i hist stricts)) gain
        (List.zipWith (s.phaseOnly i) gain ((List.range s.nTile).map (s.newGain gain)))) with
    | none => trivial
    | some curr =>
      simp only []
      unfold SolveIn.refer at hr
      split_ifs at hr with h1
      · injection hr with hr
        subst hr
        exact hlen
      · simp only [] at hr
        split_ifs at hr
        injection hr with hr
        subst hr
        rw [List.length_map, hlen]

/-! ### Equations with such tiles -/

/-- The same equations, but for the values of those with a tile that has too few. -/
def SameBut (few : ℕ → Prop) (e e' : CalEq K) : Prop := e'.a = e.a ∧ e'.b = e.b ∧ (¬ few e.a → ¬ few e.b → e' = e)

theorem forall₂_map_eq {α β γ : Type} {P : α → β → Prop} {F : α → γ} {G : β → γ} (h : ∀ a b, P a b → G b = F a) :
    ∀ {l : List α} {l' : List β}, List.Forall₂ P l l' → l'.map G = l.map F := by
  intro l l' hl
  induction hl with
  | nil => rfl
  | cons h1 _ ih => rw [List.map_cons, List.map_cons, h _ _ h1, ih]

theorem forall₂_maps {α β γ : Type} {P : β → γ → Prop} {F : α → β} {G : α → γ} :
    ∀ {l : List α}, (∀ x ∈ l, P (F x) (G x)) → List.Forall₂ P (l.map F) (l.map G) := by
  intro l
  induction l with
  | nil => exact fun _ => .nil
  | cons a l ih => exact fun h => .cons (h a (by simp)) (ih fun x hx => h x (by simp [hx]))

theorem eqsOf_sameBut (few : ℕ → Prop) (E : List (CalEq K)) (hE : List.Forall₂ (SameBut few) s.eqs E) (t : ℕ) :
    List.Forall₂ (fun e e' => SameBut few e e' ∧ e.a = t) (s.eqsOf t) ((s.withEqs E).eqsOf t) := by
  unfold SolveIn.eqsOf
  change List.Forall₂ _ (s.eqs.filter _) (E.filter _)
  generalize s.eqs = L at hE
  induction hE with
  | nil => exact .nil
  | @cons e e' l l' h1 _ ih =>
    by_cases ht : e.a = t
    · rw [List.filter_cons_of_pos (by simpa using ht), List.filter_cons_of_pos (by simpa [h1.1] using ht)]
      exact .cons ⟨h1, ht⟩ ih
    · rw [List.filter_cons_of_neg (by simpa using ht), List.filter_cons_of_neg (by simpa [h1.1] using ht)]
      exact ih

theorem newGain_sameBut (E : List (CalEq K)) (hE : List.Forall₂ (SameBut fun t => (s.eqsOf t).length < 5) s.eqs E) (hw : s.wts = none)
    (gain : List K) (hz : ∀ t, (s.eqsOf t).length < 5 → gain.getD t 0 = 0) (t : ℕ) :
    (s.withEqs E).newGain gain t = s.newGain gain t := by
  have hof := eqsOf_sameBut s _ E hE t
  unfold SolveIn.newGain
  rw [show (s.withEqs E).wts = none from hw, hw]
  simp only [hof.length_eq.symm, lstsq1_map]
  by_cases h5 : 5 ≤ (s.eqsOf t).length
  · rw [if_pos h5, if_pos h5]
    have key : ∀ e e' : CalEq K, SameBut (fun t => (s.eqsOf t).length < 5) e e' ∧ e.a = t →
        e' = e ∨ gain.getD e.b 0 = 0 ∧ e'.b = e.b := by
      rintro e e' ⟨⟨h1, h2, h3⟩, rfl⟩
      by_cases hb : (s.eqsOf e.b).length < 5
      · exact Or.inr ⟨hz _ hb, h2⟩
      · exact Or.inl (h3 (by omega) hb)
    rw [forall₂_map_eq (F := fun e => star (e.model * star (gain.getD e.b 0)) * (e.model * star (gain.getD e.b 0))) ?_ hof,
      forall₂_map_eq (F := fun e => star (e.model * star (gain.getD e.b 0)) * e.data) ?_ hof]
    · intro e e' h
      rcases key e e' h with rfl | ⟨h1, h2⟩
      · rfl
      · rw [h2, h1]
        simp
    · intro e e' h
      rcases key e e' h with rfl | ⟨h1, h2⟩
      · rfl
      · rw [h2, h1]
        simp
  · rw [if_neg h5, if_neg h5]

/-- What equations with a tile say that has too few of them does not matter to the solver. -/
theorem solve_sameBut (E : List (CalEq K)) (hE : List.Forall₂ (SameBut fun t => (s.eqsOf t).length < 5) s.eqs E) (hw : s.wts = none)
    (gain : List K) : solve (s.withEqs E) gain = solve s gain := by
  have hlen : ∀ t, ((s.withEqs E).eqsOf t).length = (s.eqsOf t).length := fun t => (eqsOf_sameBut s _ E hE t).length_eq.symm
  have hout : ∀ (g : List K), g.length = s.nTile → (∀ t < s.nTile, (s.eqsOf t).length < 5 → g.getD t 0 = 0) →
      ∀ t, (s.eqsOf t).length < 5 → g.getD t 0 = 0 := by
    intro g hl h t ht
    by_cases htn : t < s.nTile
    · exact h t htn ht
    · rw [List.getD_eq_getElem?_getD, List.getElem?_eq_none (by omega)]
      rfl
  have hstep : ∀ i (gain : List K) hist stricts, (∀ t, (s.eqsOf t).length < 5 → gain.getD t 0 = 0) →
      solveStep (s.withEqs E) i gain hist stricts = solveStep s i gain hist stricts := by
    intro i gain hist stricts hz
    unfold solveStep
    rw [funext (newGain_sameBut s E hE hw gain hz)]
    rfl
  have hfrom : ∀ fuel i (gain : List K) hist stricts looses, gain.length = s.nTile → (∀ t < s.nTile, (s.eqsOf t).length < 5 → gain.getD t 0 = 0) →
      solveFrom (s.withEqs E) fuel i gain hist stricts looses = solveFrom s fuel i gain hist stricts looses := by
    intro fuel
    induction fuel with
    | zero =>
      intro i gain hist stricts looses hl hz
      unfold solveFrom
      rw [hstep _ _ _ _ (hout gain hl hz)]
      rfl
    | succ n ih =>
      intro i gain hist stricts looses hl hz
      have hs := fun t ht h5 => solveStep_zero s t ht h5 i gain hl (hz t ht h5) hist stricts
      unfold solveFrom
      rw [hstep _ _ _ _ (hout gain hl hz)]
      cases hst : solveStep s i gain hist stricts with
      | nan => rfl
      | allZero g => rfl
      | ok curr cg a b =>
        rw [hst] at hs
        have hl' : curr.length = s.nTile := by
          have := solveStep_len s i gain hl hist stricts
          rw [hst] at this
          exact this
        simp only [ih (i + 1) curr _ _ _ hl' fun t ht h5 => (hs t ht h5).2]
        rfl
  unfold solve
  have hev : (s.withEqs E).evenly = s.evenly := by
    unfold SolveIn.evenly
    simp only [hlen]
    rfl
  have hst : (s.withEqs E).startGain gain = s.startGain gain := by
    unfold SolveIn.startGain
    simp only [hlen]
    rfl
  rw [show (s.withEqs E).maxIter = s.maxIter from rfl, hev, hst]
  cases s.maxIter with
  | zero => rfl
  | succ n =>
    simp only []
    rw [hfrom _ _ _ _ _ _ (by simp [SolveIn.startGain]) (fun t ht h5 => by simp [SolveIn.startGain, ht, h5])]

variable (c : CalRunIn K R)

/-- **C280**, the tile itself: a tile in use with fewer than five baselines at a channel gets the gain zero there. -/
theorem C280_too_few [IsStrictOrderedRing R] (p : ℕ) (hflag : FlagsAgree c p) (r : CalRunPol K R) (h : calRunPol c p = .ok (some r)) (f t : ℕ)
    (hf : f ∈ c.freqs p) (ht : t ∈ c.tiles p) (h5 : baselinesOf c p f t < 5) : r.gain f t = some 0 := by
  obtain ⟨-, O, rfl, hO⟩ := calRunPol_ok c p r h
  have hpos : tilePos (c.tiles p) t = (c.tiles p).idxOf t := by
    unfold tilePos
    rw [if_pos ht]
  have hlt := List.idxOf_lt_length_iff.2 ht
  have hn : (((c.solveIn p f).eqsOf ((c.tiles p).idxOf t))).length < 5 := by
    rw [← count_eqs c p f t hflag ht, hpos, List.countP_eq_length_filter] at h5
    exact h5
  obtain ⟨h1, h2⟩ := solve_zero (c.solveIn p f) _ hlt hn _ _ (hO f hf)
  rw [(runPolOf_gain c p O f t hf ht).1]
  rw [List.getD_eq_getElem?_getD] at h2
  rw [List.getElem?_eq_getElem (by rw [h1]; exact hlt)] at h2 ⊢
  exact congrArg some h2

/-- **C280**, the other tiles: what the data and models of the baselines of tiles with too few baselines at a channel are, has no influence on
anything that is found at that channel. -/
theorem C280_no_influence [IsStrictOrderedRing R] (hc : c.cast 0 = 0) (p : ℕ) (hflag : FlagsAgree c p) (v m : ℕ → ℕ → ℕ → K)
    (hsame : ∀ f ∈ c.freqs p, ∀ b ∈ c.bls p, 5 ≤ baselinesOf c p f (c.tileA b) → 5 ≤ baselinesOf c p f (c.tileB b) →
      ∀ s ∈ c.samplesOf b, 0 < c.weight p f s → v p f s = c.vis p f s ∧ m p f s = c.model p f s) :
    calRunPol { c with vis := v, model := m } p = calRunPol c p := by
  have hclip0 : ∀ f s, ¬ 0 < c.weight p f s → c.clip p f s = 0 := by
    intro f s h
    unfold CalRunIn.clip
    rw [max_eq_right (not_lt.1 h)]
    exact min_eq_left zero_le_one
  have hnum : ∀ f, ∀ t ∈ c.tiles p, ((c.solveIn p f).eqsOf (tilePos (c.tiles p) t)).length = baselinesOf c p f t := by
    intro f t ht
    rw [← count_eqs c p f t hflag ht, List.countP_eq_length_filter]
    rfl
  have havg : ∀ f ∈ c.freqs p, ∀ b ∈ c.bls p, 5 ≤ baselinesOf c p f (c.tileA b) → 5 ≤ baselinesOf c p f (c.tileB b) →
      ({ c with vis := v, model := m } : CalRunIn K R).average p v f b = c.average p c.vis f b ∧
      ({ c with vis := v, model := m } : CalRunIn K R).average p m f b = c.average p c.model f b := by
    intro f hf b hb hA hB
    change c.average p v f b = _ ∧ c.average p m f b = _
    unfold CalRunIn.average
    constructor
    all_goals
      congr 2
      apply List.map_congr_left
      intro s hs
      by_cases h0 : 0 < c.weight p f s
      · have := hsame f hf b hb hA hB s hs h0
        first | rw [this.1] | rw [this.2]
      · show _ * c.cast (c.clip p f s) = _ * c.cast (c.clip p f s)
        rw [hclip0 f s h0, hc, mul_zero, mul_zero]
  have hsolve : ∀ f ∈ c.freqs p, solve (({ c with vis := v, model := m } : CalRunIn K R).solveIn p f) ((c.tiles p).map (c.gain p f)) =
      solve (c.solveIn p f) ((c.tiles p).map (c.gain p f)) := by
    intro f hf
    refine solve_sameBut (c.solveIn p f) _ ?_ rfl _
    change List.Forall₂ _ (doubleEqs (c.blData p f)) (doubleEqs (({ c with vis := v, model := m } : CalRunIn K R).blData p f))
    rw [blData_eq, blData_eq]
    unfold doubleEqs
    simp only [List.filter_map, List.map_map]
    have hrel : ∀ b ∈ (c.bls p).filter ((fun x : CalBaseline K R => decide (0 < x.weight)) ∘ fun b =>
        ⟨tilePos (c.tiles p) (c.tileA b), tilePos (c.tiles p) (c.tileB b), c.average p c.vis f b, c.average p c.model f b,
          c.blWeight p f b⟩), (¬ ((c.solveIn p f).eqsOf (tilePos (c.tiles p) (c.tileA b))).length < 5 →
          ¬ ((c.solveIn p f).eqsOf (tilePos (c.tiles p) (c.tileB b))).length < 5 →
          ({ c with vis := v, model := m } : CalRunIn K R).average p v f b = c.average p c.vis f b ∧
          ({ c with vis := v, model := m } : CalRunIn K R).average p m f b = c.average p c.model f b) := by
      intro b hb h1 h2
      have hb' := (List.mem_filter.1 hb).1
      obtain ⟨hA, hB⟩ := flags_tiles hflag b hb'
      rw [hnum f _ hA] at h1
      rw [hnum f _ hB] at h2
      exact havg f hf b hb' (by omega) (by omega)
    refine List.rel_append ?_ ?_
    · refine forall₂_maps fun b hb => ⟨rfl, rfl, fun h1 h2 => ?_⟩
      obtain ⟨e1, e2⟩ := hrel b hb h1 h2
      simp only [Function.comp]
      congr 1
    · refine forall₂_maps fun b hb => ⟨rfl, rfl, fun h1 h2 => ?_⟩
      obtain ⟨e1, e2⟩ := hrel b hb h2 h1
      simp only [Function.comp]
      congr 2
  have hmap : (c.freqs p).mapM (fun f => solve (({ c with vis := v, model := m } : CalRunIn K R).solveIn p f) ((c.tiles p).map (c.gain p f))) =
      (c.freqs p).mapM fun f => solve (c.solveIn p f) ((c.tiles p).map (c.gain p f)) := by
    have : ∀ l : List ℕ, (∀ f ∈ l, f ∈ c.freqs p) →
        l.mapM (fun f => solve (({ c with vis := v, model := m } : CalRunIn K R).solveIn p f) ((c.tiles p).map (c.gain p f))) =
          l.mapM fun f => solve (c.solveIn p f) ((c.tiles p).map (c.gain p f)) := by
      intro l
      induction l with
      | nil => exact fun _ => rfl
      | cons a l ih =>
        intro h
        rw [List.mapM_cons, List.mapM_cons, hsolve a (h a (by simp)), ih fun f hf => h f (by simp [hf])]
    exact this _ fun f hf => hf
  unfold calRunPol
  change (if (c.tiles p).isEmpty then _ else if (c.freqs p).isEmpty && p == 0 then _ else
    (((c.freqs p).mapM (fun f => solve (({ c with vis := v, model := m } : CalRunIn K R).solveIn p f) ((c.tiles p).map (c.gain p f)))) >>= _)) = _
  rw [hmap]
  rfl

/-- The solver with data that are exact but for tiles with too few equations. -/
theorem solve_exact_few [IsStrictOrderedRing R] (φ : R →+* K) (hmag : ComplexAbs s.mag φ) (hc : s.cast = φ) (hb : 0 < s.base)
    (hm : 0 < s.maxIter) (hw : s.wts = none) (G gain : List K) (hlen : G.length = s.nTile)
    (hp : ∀ e ∈ s.eqs, 5 ≤ (s.eqsOf e.a).length → 5 ≤ (s.eqsOf e.b).length → e.data = G.getD e.a 0 * star (G.getD e.b 0) * e.model)
    (h0 : ∀ t, (s.eqsOf t).length < 5 → G.getD t 0 = 0) (hstart : ∀ t < s.nTile, 5 ≤ (s.eqsOf t).length → gain.getD t 0 = G.getD t 0)
    (hd : ∀ t < s.nTile, 5 ≤ (s.eqsOf t).length → ∃ e ∈ s.eqs, e.a = t ∧ 5 ≤ (s.eqsOf e.b).length ∧ e.model ≠ 0 ∧ G.getD e.b 0 ≠ 0)
    (hu : ¬ SameNumber s.nTile s.eqs) (hr : s.noRef = false → G.getD s.refTile 0 ≠ 0) :
    ∃ out, solve s gain = .ok (some out) ∧ out.gain = G.map fun g => g * refPhase s φ G := by
  set E := s.eqs.map fun e => if 5 ≤ (s.eqsOf e.a).length ∧ 5 ≤ (s.eqsOf e.b).length then e else ⟨e.a, e.b, 0, e.model⟩ with hE
  have hrel : List.Forall₂ (SameBut fun t => (s.eqsOf t).length < 5) s.eqs E := by
    have : List.Forall₂ (SameBut fun t => (s.eqsOf t).length < 5) (s.eqs.map id) E := by
      refine forall₂_maps fun e _ => ?_
      simp only [id]
      split_ifs with h
      · exact ⟨rfl, rfl, fun _ _ => rfl⟩
      · exact ⟨rfl, rfl, fun h1 h2 => absurd ⟨not_lt.1 h1, not_lt.1 h2⟩ h⟩
    rwa [List.map_id] at this
  have hl : ∀ t, ((s.withEqs E).eqsOf t).length = (s.eqsOf t).length := fun t => (eqsOf_sameBut s _ E hrel t).length_eq.symm
  have hcount : ∀ t, E.countP (fun e => e.a = t) = (s.eqsOf t).length := by
    intro t
    rw [List.countP_eq_length_filter, ← hl t]
    rfl
  have hstart' : s.startGain gain = s.startGain G := by
    unfold SolveIn.startGain
    apply List.map_congr_left
    intro t ht
    split_ifs with h
    · rfl
    · exact hstart t (List.mem_range.1 ht) (not_lt.1 h)
  have hsolve : solve s gain = solve s G := by
    unfold solve
    rw [hstart']
  rw [hsolve, ← solve_sameBut s E hrel hw G]
  refine C39_solver_fixed_point (s.withEqs E) φ hmag hc hb hm G hlen ?_ ?_ ?_ hr
  · intro e he
    obtain ⟨e', he', rfl⟩ := List.mem_map.1 he
    split_ifs with h
    · exact hp e' he' h.1 h.2
    · simp only []
      rcases not_and_or.1 h with h | h
      · rw [h0 _ (not_le.1 h)]
        simp
      · rw [h0 _ (not_le.1 h)]
        simp
  · intro t ht
    by_cases h5 : 5 ≤ (s.eqsOf t).length
    · left
      obtain ⟨e, he, h1, h2, h3, h4⟩ := hd t ht h5
      refine ⟨by rw [show (s.withEqs E).eqs = E from rfl, hcount]; exact h5, e, List.mem_map.2 ⟨e, he, ?_⟩, h1, h3, h4⟩
      rw [if_pos ⟨by rw [h1]; exact h5, h2⟩]
    · right
      exact ⟨by rw [show (s.withEqs E).eqs = E from rfl, hcount]; omega, h0 t (by omega)⟩
  · rintro ⟨h1, n, h2, h3⟩
    refine hu ⟨h1, n, h2, fun t ht => ?_⟩
    rw [← h3 t ht, show (s.withEqs E).eqs = E from rfl, hcount, List.countP_eq_length_filter]
    rfl

/-- **C280**, exact gains: if gains account exactly for the data between tiles with enough baselines, and the solver starts with them, they
are returned for these tiles (up to the phase of the reference tile, which must be one of them), and zero for the others, whatever the data
of the others are. -/
theorem C280_exact [IsStrictOrderedRing R] (φ : R →+* K) (hmag : ComplexAbs c.mag φ) (hc : c.cast = φ) (hb : 0 < c.base)
    (hm : 0 < c.maxIter) (p : ℕ) (g : ℕ → ℕ → K) (ht : c.tiles p ≠ []) (hf : c.freqs p ≠ []) (hflag : FlagsAgree c p)
    (hstart : ∀ f ∈ c.freqs p, ∀ t ∈ c.tiles p, 5 ≤ baselinesOf c p f t → c.gain p f t = g f t ∧ g f t ≠ 0)
    (hdata : ∀ f ∈ c.freqs p, ∀ b ∈ c.bls p, 5 ≤ baselinesOf c p f (c.tileA b) → 5 ≤ baselinesOf c p f (c.tileB b) →
      ∀ s ∈ c.samplesOf b, 0 < c.weight p f s → c.vis p f s = g f (c.tileA b) * star (g f (c.tileB b)) * c.model p f s)
    (hmodel : ∀ f ∈ c.freqs p, ∀ t ∈ c.tiles p, 5 ≤ baselinesOf c p f t → ∃ b ∈ c.bls p, 0 < c.blWeight p f b ∧
      (c.tileA b = t ∨ c.tileB b = t) ∧ 5 ≤ baselinesOf c p f (c.tileA b) ∧ 5 ≤ baselinesOf c p f (c.tileB b) ∧
      c.average p c.model f b ≠ 0)
    (hdiff : ∀ f ∈ c.freqs p, NumbersDiffer c p f)
    (href5 : c.noRef = false → ∀ f ∈ c.freqs p, 5 ≤ baselinesOf c p f (refTile (c.tiles p))) :
    ∃ r, calRunPol c p = .ok (some r) ∧ ∀ f ∈ c.freqs p, ∃ u, star u * u = 1 ∧ (c.noRef = true → u = 1) ∧
      (c.noRef = false → g f (refTile (c.tiles p)) * u = φ (c.mag (g f (refTile (c.tiles p))))) ∧
      ∀ t ∈ c.tiles p, r.gain f t = some (if 5 ≤ baselinesOf c p f t then g f t * u else 0) := by
  set G : ℕ → List K := fun f => (c.tiles p).map fun t => if 5 ≤ baselinesOf c p f t then g f t else 0 with hG
  have hnum : ∀ f, ∀ t ∈ c.tiles p, ((c.solveIn p f).eqsOf (tilePos (c.tiles p) t)).length = baselinesOf c p f t := by
    intro f t ht
    rw [← count_eqs c p f t hflag ht, List.countP_eq_length_filter]
    rfl
  have hgetD : ∀ (F : ℕ → K), ∀ a ∈ c.tiles p, ((c.tiles p).map F).getD (tilePos (c.tiles p) a) 0 = F a := by
    intro F a ha
    have h1 := tilePos_lt_length _ a ha
    have h2 := getD_tilePos (c.tiles p) a ha
    simp only [List.getD, List.getElem?_eq_getElem h1, Option.getD_some] at h2
    simp only [List.getD, List.getElem?_map, List.getElem?_eq_getElem h1, Option.map_some, Option.getD_some, h2]
  have hpos : ∀ i (hi : i < (c.tiles p).length), tilePos (c.tiles p) ((c.tiles p)[i]'hi) = i := by
    intro i hi
    unfold tilePos
    rw [if_pos (List.getElem_mem hi)]
    exact (tiles_nodup c p).idxOf_getElem i hi
  have hclip0 : ∀ f s, ¬ 0 < c.weight p f s → c.clip p f s = 0 := by
    intro f s h
    unfold CalRunIn.clip
    rw [max_eq_right (not_lt.1 h)]
    exact min_eq_left zero_le_one
  have havg : ∀ f ∈ c.freqs p, ∀ b ∈ c.bls p, 5 ≤ baselinesOf c p f (c.tileA b) → 5 ≤ baselinesOf c p f (c.tileB b) →
      c.average p c.vis f b = g f (c.tileA b) * star (g f (c.tileB b)) * c.average p c.model f b := by
    intro f hf b hb hA hB
    unfold CalRunIn.average
    rw [← mul_assoc, ← List.sum_map_mul_left]
    congr 2
    apply List.map_congr_left
    intro s hs
    by_cases h0 : 0 < c.weight p f s
    · rw [hdata f hf b hb hA hB s hs h0]
      ring
    · rw [hclip0 f s h0, hc, map_zero]
      ring
  have hmem : ∀ f, ∀ e ∈ doubleEqs (c.blData p f), ∃ b ∈ c.bls p, 0 < c.blWeight p f b ∧
      (e = ⟨tilePos (c.tiles p) (c.tileA b), tilePos (c.tiles p) (c.tileB b), c.average p c.vis f b, c.average p c.model f b⟩ ∨
       e = ⟨tilePos (c.tiles p) (c.tileB b), tilePos (c.tiles p) (c.tileA b), star (c.average p c.vis f b),
          star (c.average p c.model f b)⟩) := by
    intro f e he
    rw [blData_eq] at he
    unfold doubleEqs at he
    rcases List.mem_append.1 he with h | h
    · obtain ⟨x, hx, rfl⟩ := List.mem_map.1 h
      obtain ⟨hx1, hx2⟩ := List.mem_filter.1 hx
      obtain ⟨b, hb, rfl⟩ := List.mem_map.1 hx1
      exact ⟨b, hb, by simpa using hx2, Or.inl rfl⟩
    · obtain ⟨x, hx, rfl⟩ := List.mem_map.1 h
      obtain ⟨hx1, hx2⟩ := List.mem_filter.1 hx
      obtain ⟨b, hb, rfl⟩ := List.mem_map.1 hx1
      exact ⟨b, hb, by simpa using hx2, Or.inr rfl⟩
  obtain ⟨href, hrefm⟩ := refPos_eq c p ht
  have hrefg : ∀ f ∈ c.freqs p, c.noRef = false → (G f).getD (c.solveIn p f).refTile 0 = g f (refTile (c.tiles p)) := by
    intro f hf hno
    change (G f).getD (c.refPos p) 0 = _
    rw [href, hG]
    simp only []
    rw [hgetD _ _ hrefm, if_pos (href5 hno f hf)]
  have hsol : ∀ f, f ∈ c.freqs p → ∃ out, solve (c.solveIn p f) ((c.tiles p).map (c.gain p f)) = .ok (some out) ∧
      out.gain = (G f).map fun z => z * refPhase (c.solveIn p f) φ (G f) := by
    intro f hf
    refine solve_exact_few (c.solveIn p f) φ hmag hc hb hm rfl (G f) _ (by rw [hG, List.length_map]; rfl) ?_ ?_ ?_ ?_
      (not_sameNumber c p f hflag (hdiff f hf)) ?_
    · intro e he h1 h2
      obtain ⟨b, hb, -, h | h⟩ := hmem f e he
      · obtain ⟨hA, hB⟩ := flags_tiles hflag b hb
        rw [h] at h1 h2 ⊢
        simp only [hnum f _ hA, hnum f _ hB] at h1 h2
        simp only [hG, hgetD _ _ hA, hgetD _ _ hB, if_pos h1, if_pos h2]
        exact havg f hf b hb h1 h2
      · obtain ⟨hA, hB⟩ := flags_tiles hflag b hb
        rw [h] at h1 h2 ⊢
        simp only [hnum f _ hA, hnum f _ hB] at h1 h2
        simp only [hG, hgetD _ _ hA, hgetD _ _ hB, if_pos h1, if_pos h2, havg f hf b hb h2 h1, star_mul', star_star]
        ring
    · intro i h5
      by_cases hi : i < (c.tiles p).length
      · rw [← hpos i hi, hnum f _ (List.getElem_mem hi)] at h5
        rw [← hpos i hi, hG]
        simp only []
        rw [hgetD _ _ (List.getElem_mem hi), if_neg (by omega)]
      · rw [List.getD_eq_getElem?_getD, List.getElem?_eq_none (by rw [hG, List.length_map]; omega)]
        rfl
    · intro i hi h5
      change i < (c.tiles p).length at hi
      rw [← hpos i hi, hnum f _ (List.getElem_mem hi)] at h5
      rw [← hpos i hi, hG]
      simp only []
      rw [hgetD _ _ (List.getElem_mem hi), hgetD _ _ (List.getElem_mem hi), if_pos h5]
      exact (hstart f hf _ (List.getElem_mem hi) h5).1
    · intro i hi h5
      change i < (c.tiles p).length at hi
      rw [← hpos i hi, hnum f _ (List.getElem_mem hi)] at h5
      obtain ⟨b, hb, hw, hab, h1, h2, hmod⟩ := hmodel f hf _ (List.getElem_mem hi) h5
      obtain ⟨hA, hB⟩ := flags_tiles hflag b hb
      have hin : (⟨tilePos (c.tiles p) (c.tileA b), tilePos (c.tiles p) (c.tileB b), c.average p c.vis f b,
          c.average p c.model f b, c.blWeight p f b⟩ : CalBaseline K R) ∈ (c.blData p f).filter fun x => 0 < x.weight := by
        rw [blData_eq]
        exact List.mem_filter.2 ⟨List.mem_map.2 ⟨b, hb, rfl⟩, by simpa using hw⟩
      rcases hab with h | h
      · refine ⟨_, List.mem_append_left _ (List.mem_map.2 ⟨_, hin, rfl⟩), ?_, ?_, hmod, ?_⟩
        · simp only [h, hpos]
        · simp only [hnum f _ hB]
          exact h2
        · simp only [hG, hgetD _ _ hB, if_pos h2]
          exact (hstart f hf _ hB h2).2
      · refine ⟨_, List.mem_append_right _ (List.mem_map.2 ⟨_, hin, rfl⟩), ?_, ?_, ?_, ?_⟩
        · simp only [h, hpos]
        · simp only [hnum f _ hA]
          exact h1
        · simp only [Ne, star_eq_zero]
          exact hmod
        · simp only [hG, hgetD _ _ hA, if_pos h1]
          exact (hstart f hf _ hA h1).2
    · intro hno
      rw [hrefg f hf hno]
      exact (hstart f hf _ hrefm (href5 hno f hf)).2
  have : Nonempty (SolveOut K R) := ⟨⟨[], 0, .zero, [], [], []⟩⟩
  choose! O hO1 hO2 using hsol
  refine ⟨_, calRunPol_of c p O ht (Or.inl hf) hO1, ?_⟩
  intro f hf
  refine ⟨refPhase (c.solveIn p f) φ (G f), ?_, ?_, ?_, ?_⟩
  · unfold refPhase
    split_ifs with hno
    · simp
    · have hno' : c.noRef = false := eq_false_of_ne_true hno
      rw [hrefg f hf hno']
      exact hmag.phase_sq _ (hstart f hf _ hrefm (href5 hno' f hf)).2
  · intro hno
    unfold refPhase
    rw [if_pos (show (c.solveIn p f).noRef = true from hno)]
  · intro hno
    have hg0 := (hstart f hf _ hrefm (href5 hno f hf)).2
    unfold refPhase
    rw [if_neg (by rw [show (c.solveIn p f).noRef = false from hno]; simp), hrefg f hf hno]
    change _ * (_ / φ (c.mag _)) = _
    have hne : φ (c.mag (g f (refTile (c.tiles p)))) ≠ 0 := by
      rw [Ne, map_eq_zero, hmag.zero_iff]
      exact hg0
    rw [← mul_div_assoc, div_eq_iff hne, ← map_mul, hmag.sq]
    ring
  · intro t htt
    rw [(runPolOf_gain c p O f t hf htt).1, hO2 f hf]
    have hlt := List.idxOf_lt_length_iff.2 htt
    rw [List.getElem?_map, hG]
    simp only []
    rw [List.getElem?_map, List.getElem?_eq_getElem hlt, List.getElem_idxOf]
    simp only [Option.map_some]
    split_ifs <;> simp

end Solver

/-! ## Examples -/

/-- `exRun` with a fourth tile in use, whose baseline (to tile 0) has data at three times only; these data are not those of any gains. -/
def exFew : CalRunIn ℚ ℚ :=
  { exRun 0 with
    vis := fun p f s => if s % 4 = 3 then 77 else (exRun 0).vis p f s
    weight := fun _ _ s => if s = 0 then 0 else 1
    tileUse := fun _ => true }

/-- The other tiles' gains behind the data of `exFew`. -/
def exFewTrue : ℕ → ℕ → ℚ := fun _ t => [2, -1, 1 / 2, 3].getD t 0

/-- The conditions of `C280_too_few`: tile 3 has three baselines with data, the others at least five; and the result, in which the gain of
tile 3 is zero and the others are those behind the data, turned so that the gain of the reference tile 1 is positive. -/
example : Spec.FlagsAgree exFew 0 ∧ exFew.freqs 0 = [0] ∧ exFew.tiles 0 = [0, 1, 2, 3] ∧
    ((exFew.tiles 0).map fun t => Spec.baselinesOf exFew 0 0 t) = [8, 5, 6, 3] ∧
    exRunShow exFew =
      some ([[some (-2), some 1, some (-1 / 2), some 0], [some 2, some (-1), some (1 / 2), some 3]], 0, 22) := by
  refine ⟨?_, by decide +kernel, by decide +kernel, by decide +kernel, by decide +kernel⟩
  unfold Spec.FlagsAgree
  decide +kernel

/-- The conditions of `C280_no_influence`: other data and another model on the baseline of tile 3. -/
example : ∀ f ∈ exFew.freqs 0, ∀ b ∈ exFew.bls 0, 5 ≤ Spec.baselinesOf exFew 0 f (exFew.tileA b) →
    5 ≤ Spec.baselinesOf exFew 0 f (exFew.tileB b) → ∀ s ∈ exFew.samplesOf b, 0 < exFew.weight 0 f s →
    (if s % 4 = 3 then (12345 : ℚ) else exFew.vis 0 f s) = exFew.vis 0 f s ∧
      (if s % 4 = 3 then (-9 : ℚ) else exFew.model 0 f s) = exFew.model 0 f s := by
  decide +kernel

theorem exFew_exact : (∀ f ∈ exFew.freqs 0, ∀ t ∈ exFew.tiles 0, 5 ≤ Spec.baselinesOf exFew 0 f t →
      exFew.gain 0 f t = exFewTrue f t ∧ exFewTrue f t ≠ 0) ∧
    (∀ f ∈ exFew.freqs 0, ∀ b ∈ exFew.bls 0, 5 ≤ Spec.baselinesOf exFew 0 f (exFew.tileA b) →
      5 ≤ Spec.baselinesOf exFew 0 f (exFew.tileB b) → ∀ s ∈ exFew.samplesOf b, 0 < exFew.weight 0 f s →
      exFew.vis 0 f s = exFewTrue f (exFew.tileA b) * exFewTrue f (exFew.tileB b) * exFew.model 0 f s) ∧
    (∀ f ∈ exFew.freqs 0, ∀ t ∈ exFew.tiles 0, 5 ≤ Spec.baselinesOf exFew 0 f t → ∃ b ∈ exFew.bls 0, 0 < exFew.blWeight 0 f b ∧
      (exFew.tileA b = t ∨ exFew.tileB b = t) ∧ 5 ≤ Spec.baselinesOf exFew 0 f (exFew.tileA b) ∧
      5 ≤ Spec.baselinesOf exFew 0 f (exFew.tileB b) ∧ exFew.average 0 exFew.model f b ≠ 0) ∧
    ∀ f ∈ exFew.freqs 0, 5 ≤ Spec.baselinesOf exFew 0 f (Spec.refTile (exFew.tiles 0)) := by
  refine ⟨by decide +kernel, by decide +kernel, by decide +kernel, by decide +kernel⟩

/-- The conditions of `C280_exact`, and what it says of `exFew`. -/
example : ∃ r, calRunPol exFew 0 = .ok (some r) ∧ ∀ f ∈ exFew.freqs 0, ∃ u : ℚ, star u * u = 1 ∧ (exFew.noRef = true → u = 1) ∧
    (exFew.noRef = false → exFewTrue f (Spec.refTile (exFew.tiles 0)) * u =
      (RingHom.id ℚ) (exFew.mag (exFewTrue f (Spec.refTile (exFew.tiles 0))))) ∧
    ∀ t ∈ exFew.tiles 0, r.gain f t = some (if 5 ≤ Spec.baselinesOf exFew 0 f t then exFewTrue f t * u else 0) :=
  C280_exact exFew (RingHom.id ℚ) exRunAbs rfl (by decide +kernel) (by decide +kernel) 0 exFewTrue (by decide +kernel) (by decide +kernel)
    (by unfold Spec.FlagsAgree; decide +kernel) exFew_exact.1 (by simpa using exFew_exact.2.1) exFew_exact.2.2.1
    (by unfold Spec.NumbersDiffer; decide +kernel) (fun _ => exFew_exact.2.2.2)

end PyFHD
