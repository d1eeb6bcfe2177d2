import Verif.Model.CalRun
import Verif.Props.CalStep
import Verif.Props.Healpix
import Verif.Props.Quickview

/-!
# Properties of the whole of `vis_calibrate_subroutine` (C121-C129)
-/

set_option linter.unusedSectionVars false

namespace PyFHD

variable {K R : Type} [Field K] [StarRing K] [DecidableEq K] [Field R] [LinearOrder R]

/-! ## The solver under a change of the phases of the tiles -/

section Turn

/-- The equation for data whose tiles have been turned by the phases `H`. -/
def turnEq (H : ℕ → K) (e : CalEq K) : CalEq K := ⟨e.a, e.b, H e.a * star (H e.b) * e.data, e.model⟩

/-- Gains turned by the phases `H`. -/
def turnGain (H : ℕ → K) (g : List K) : List K := g.mapIdx fun t x => x * H t

omit [StarRing K] [DecidableEq K] in
theorem turnGain_getD (H : ℕ → K) (g : List K) (t : ℕ) : (turnGain H g).getD t 0 = g.getD t 0 * H t := by
  unfold turnGain
  simp only [List.getD, List.getElem?_mapIdx]
  cases g[t]? <;> simp

omit [StarRing K] [DecidableEq K] in
theorem turnGain_length (H : ℕ → K) (g : List K) : (turnGain H g).length = g.length := by
  unfold turnGain; simp

theorem lstsq1_map {α : Type} (l : List α) (x y : α → K) : lstsq1 (l.map x) (l.map y) =
    if (l.map fun e => star (x e) * x e).sum = 0 then 0
    else (l.map fun e => star (x e) * y e).sum / (l.map fun e => star (x e) * x e).sum := by
  unfold lstsq1
  simp only [List.map_map, List.zipWith_map, List.zipWith_self]
  rfl

variable (s : SolveIn K R)

/-- The solver's input with the tiles turned by the phases `H`. -/
def SolveIn.turn (H : ℕ → K) : SolveIn K R := { s with eqs := s.eqs.map (turnEq H) }

omit [DecidableEq K] [Field R] [LinearOrder R] in
theorem eqsOf_turn (H : ℕ → K) (t : ℕ) :
    (s.turn H).eqsOf t = (s.eqsOf t).map (turnEq H) := by
  unfold SolveIn.eqsOf SolveIn.turn
  simp only []
  rw [List.filter_map]
  rfl

omit [Field R] [LinearOrder R] in
theorem newGain_turn (H : ℕ → K) (hH : ∀ t, star (H t) * H t = 1) (hw : s.wts = none) (gain : List K) (t : ℕ) :
    (s.turn H).newGain (turnGain H gain) t
      = (s.newGain gain t).map fun g => g * H t := by
  unfold SolveIn.newGain
  rw [eqsOf_turn, show (s.turn H).wts = none from hw, hw]
  simp only [List.length_map, List.map_map]
  have hea : ∀ e ∈ s.eqsOf t, e.a = t := by
    intro e he
    have := (List.mem_filter.1 he).2
    simpa using this
  split_ifs with h5
  · simp only [Option.map_some, Option.some.injEq]
    have e0 := lstsq1_map (s.eqsOf t) (fun e => e.model * star (gain.getD e.b 0)) fun e => e.data
    have e1 := lstsq1_map (s.eqsOf t) (fun e => e.model * star (gain.getD e.b 0 * H e.b))
      fun e => H e.a * star (H e.b) * e.data
    have e2 : (s.eqsOf t).map ((fun e => e.model * star ((turnGain H gain).getD e.b 0)) ∘ turnEq H) =
        (s.eqsOf t).map fun e => e.model * star (gain.getD e.b 0 * H e.b) := by
      apply List.map_congr_left
      intro e _
      simp only [Function.comp, turnGain_getD]
      rfl
    rw [e2, e0, show (s.eqsOf t).map ((fun e : CalEq K => e.data) ∘ turnEq H) =
      (s.eqsOf t).map fun e => H e.a * star (H e.b) * e.data from rfl, e1]
    have d1 : (s.eqsOf t).map (fun e => star (e.model * star (gain.getD e.b 0 * H e.b)) *
        (e.model * star (gain.getD e.b 0 * H e.b))) = (s.eqsOf t).map fun e =>
        star (e.model * star (gain.getD e.b 0)) * (e.model * star (gain.getD e.b 0)) := by
      apply List.map_congr_left
      intro e _
      have := hH e.b
      simp only [star_mul', star_star]
      linear_combination (star e.model * gain.getD e.b 0 * e.model * star (gain.getD e.b 0)) * this
    have d2 : (s.eqsOf t).map (fun e => star (e.model * star (gain.getD e.b 0 * H e.b)) *
        (H e.a * star (H e.b) * e.data)) = (s.eqsOf t).map fun e =>
        (star (e.model * star (gain.getD e.b 0)) * e.data) * H t := by
      apply List.map_congr_left
      intro e he
      have := hH e.b
      rw [hea e he]
      simp only [star_mul', star_star]
      linear_combination (star e.model * gain.getD e.b 0 * H t * e.data) * this
    rw [d1, d2, List.sum_map_mul_right]
    split_ifs
    · simp
    · rw [mul_div_right_comm]
  · simp

/-- The step with turned gains. -/
def SolveStep.turn (H : ℕ → K) : SolveStep K R → SolveStep K R
  | .allZero g => .allZero (turnGain H g)
  | .nan => .nan
  | .ok g cg a b => .ok (turnGain H g) cg a b

variable [IsStrictOrderedRing R]

theorem mag_turn {mag : K → R} {φ : R →+* K} (h : Spec.ComplexAbs mag φ) (z u : K) (hu : star u * u = 1) :
    mag (z * u) = mag z := by
  have h1 : mag u = 1 := by
    have h2 := h.sq u
    rw [hu, ← map_one φ] at h2
    have := Spec.ComplexAbs.real_inj h2
    nlinarith [h.nonneg u]
  rw [h.mul, h1, mul_one]

theorem relChange_turn {mag : K → R} {φ : R →+* K} (h : Spec.ComplexAbs mag φ) (H : ℕ → K)
    (hH : ∀ t, star (H t) * H t = 1) (c o : List K) :
    relChange mag (turnGain H c) (turnGain H o) = relChange mag c o := by
  unfold relChange turnGain
  apply List.ext_getElem
  · simp
  · intro i h1 h2
    simp only [List.getElem_zipWith, List.getElem_mapIdx]
    rw [← sub_mul, mag_turn h _ _ (hH i), mag_turn h _ _ (hH i)]

theorem solveStep_turn (φ : R →+* K) (h : Spec.ComplexAbs s.mag φ) (hc : s.cast = φ) (H : ℕ → K)
    (hH : ∀ t, star (H t) * H t = 1) (hw : s.wts = none) (hr : s.noRef = false → H s.refTile = 1) (i : ℕ) (gain : List K)
    (hl : gain.length = s.nTile) (hist : List (Option R)) (stricts : List R) :
    solveStep (s.turn H) i (turnGain H gain) hist stricts =
      (solveStep s i gain hist stricts).turn H := by
  have hne : ∀ t, H t ≠ 0 := by
    intro t h0
    have := hH t
    rw [h0, mul_zero] at this
    exact zero_ne_one this
  unfold solveStep
  have hng : (s.turn H).newGain (turnGain H gain) = fun t => (s.newGain gain t).map fun g => g * H t :=
    funext fun t => newGain_turn s H hH hw gain t
  have p1 : (s.turn H).phaseOnly i = s.phaseOnly i := rfl
  have p2 : (s.turn H).damp = s.damp := rfl
  have p3 : (s.turn H).convGain i hist stricts = s.convGain i hist stricts := rfl
  have p4 : (s.turn H).refer = s.refer := rfl
  rw [hng, p1, p2, p3, p4, show (s.turn H).nTile = s.nTile from rfl, show (s.turn H).mag = s.mag from rfl]
  simp only []
  have hall : ((List.range s.nTile).map fun t => (s.newGain gain t).map fun g => g * H t).all (fun g => decide (g = some 0)) =
      ((List.range s.nTile).map (s.newGain gain)).all fun g => decide (g = some 0) := by
    rw [List.all_map, List.all_map]
    congr 1
    funext t
    simp only [Function.comp]
    apply decide_eq_decide.2
    cases s.newGain gain t with
    | none => exact Iff.rfl
    | some g => simp [hne t]
  rw [hall]
  split_ifs with ha
  · simp only [SolveStep.turn, SolveStep.allZero.injEq]
    unfold turnGain
    apply List.ext_getElem
    · simp
    · intro t h1 h2
      simp only [List.getElem_map, List.getElem_range, List.getElem_mapIdx]
      cases s.newGain gain t <;> simp
  · have hphase : ∀ (t : ℕ) (o : K) (n : Option K),
        s.phaseOnly i (o * H t) (n.map fun g => g * H t) =
          (s.phaseOnly i o n).map fun g => g * H t := by
      intro t o n
      unfold SolveIn.phaseOnly
      split_ifs
      · cases n with
        | none => rfl
        | some n =>
          simp only [Option.map_some, mag_turn h _ _ (hH t)]
          congr 1
          ring
      · rfl
    have hdamp : ∀ (t : ℕ) (cg : Option R) (o : K) (n : Option K),
        s.damp cg (o * H t) (n.map fun g => g * H t) =
          s.damp cg o n * H t := by
      intro t cg o n
      unfold SolveIn.damp
      cases cg with
      | none => rfl
      | some c =>
        cases n with
        | none => rfl
        | some n =>
          simp only [Option.map_some]
          have e : (n * H t * s.cast c + o * H t * s.cast s.base) / s.cast (s.base + c) =
              (n * s.cast c + o * s.cast s.base) / s.cast (s.base + c) * H t := by ring
          rw [e, mag_turn h _ _ (hH t), mag_turn h _ _ (hH t)]
          split_ifs
          · ring
          · rfl
    have hlist : List.zipWith (s.damp
          (s.convGain i hist stricts)) (turnGain H gain)
          (List.zipWith (s.phaseOnly i) (turnGain H gain)
            ((List.range s.nTile).map fun t => (s.newGain gain t).map fun g => g * H t)) =
        turnGain H (List.zipWith (s.damp (s.convGain i hist stricts)) gain
          (List.zipWith (s.phaseOnly i) gain ((List.range s.nTile).map (s.newGain gain)))) := by
      unfold turnGain
      apply List.ext_getElem
      · simp
      · intro t h1 h2
        simp only [List.getElem_zipWith, List.getElem_mapIdx, List.getElem_map, List.getElem_range, hphase, hdamp]
    rw [hlist]
    generalize List.zipWith (s.damp (s.convGain i hist stricts)) gain
          (List.zipWith (s.phaseOnly i) gain ((List.range s.nTile).map (s.newGain gain))) = G
    have href : s.refer (turnGain H G) =
        (s.refer G).map (turnGain H) := by
      unfold SolveIn.refer
      simp only []
      cases hnr : s.noRef with
      | true => rfl
      | false =>
        simp only [Bool.false_eq_true, if_false, turnGain_getD, hr hnr, mul_one]
        split_ifs
        · rfl
        · simp only [Option.map_some, Option.some.injEq]
          unfold turnGain
          apply List.ext_getElem
          · simp
          · intro t h1 h2
            simp only [List.getElem_map, List.getElem_mapIdx]
            ring
    rw [href]
    cases s.refer G with
    | none => rfl
    | some curr =>
      simp only [Option.map_some, SolveStep.turn, relChange_turn h H hH]

/-- The result with turned gains. -/
def SolveOut.turn (H : ℕ → K) (o : SolveOut K R) : SolveOut K R := { o with gain := turnGain H o.gain }

omit [Field R] [LinearOrder R] [IsStrictOrderedRing R] in
theorem refer_length (g curr : List K) (hr : s.refer g = some curr) :
    curr.length = g.length := by
  unfold SolveIn.refer at hr
  simp only [] at hr
  split_ifs at hr
  · injection hr with hr; rw [hr]
  · injection hr with hr; rw [← hr]; simp

omit [IsStrictOrderedRing R] in
theorem solveStep_length (i : ℕ) (gain curr : List K) (hl : gain.length = s.nTile) (hist : List (Option R))
    (stricts : List R) (cg : Option R) (a b : R) (h : solveStep s i gain hist stricts = .ok curr cg a b) :
    curr.length = s.nTile := by
  unfold solveStep at h
  simp only [] at h
  split_ifs at h
  split at h
  · cases h
  · rename_i hr
    cases h
    rw [refer_length s _ _ hr]
    simp [hl]

theorem solveFrom_turn (φ : R →+* K) (h : Spec.ComplexAbs s.mag φ) (hc : s.cast = φ) (H : ℕ → K)
    (hH : ∀ t, star (H t) * H t = 1) (hw : s.wts = none) (hr : s.noRef = false → H s.refTile = 1) :
    ∀ (fuel i : ℕ) (gain : List K) (hist : List (Option R)) (stricts looses : List R), gain.length = s.nTile →
    solveFrom (s.turn H) fuel i (turnGain H gain) hist stricts looses =
      (solveFrom s fuel i gain hist stricts looses).map (SolveOut.turn H) := by
  intro fuel
  induction fuel with
  | zero =>
    intro i gain hist stricts looses hl
    unfold solveFrom
    rw [solveStep_turn s φ h hc H hH hw hr i gain hl]
    cases hs : solveStep s i gain hist stricts with
    | nan => rfl
    | allZero g =>
      simp only [SolveStep.turn]
      rw [show (s.turn H).mag = s.mag from rfl, relChange_turn h H hH]
      rfl
    | ok curr cg strict loose =>
      simp only [SolveStep.turn]
      rw [show stopTest (s.turn H) = stopTest s from rfl, show (s.turn H).mag = s.mag from rfl]
      rcases stopTest_cases s i stricts strict loose (looses.getLastD 0) with e | e | e | e | e <;>
        simp only [e, relChange_turn h H hH, Option.map_some, SolveOut.turn]
      unfold turnGain
      congr 2
      apply List.ext_getElem <;> simp
  | succ n ih =>
    intro i gain hist stricts looses hl
    unfold solveFrom
    rw [solveStep_turn s φ h hc H hH hw hr i gain hl]
    cases hs : solveStep s i gain hist stricts with
    | nan => rfl
    | allZero g =>
      simp only [SolveStep.turn]
      rw [show (s.turn H).mag = s.mag from rfl, relChange_turn h H hH]
      rfl
    | ok curr cg strict loose =>
      simp only [SolveStep.turn]
      rw [show stopTest (s.turn H) = stopTest s from rfl, show (s.turn H).mag = s.mag from rfl]
      rcases stopTest_cases s i stricts strict loose (looses.getLastD 0) with e | e | e | e | e
      · simp only [e]
        exact ih _ _ _ _ _ (solveStep_length s i gain curr hl _ _ _ _ _ hs)
      all_goals simp only [e, relChange_turn h H hH, Option.map_some, SolveOut.turn]
      unfold turnGain
      congr 2
      apply List.ext_getElem <;> simp

/-- Turning the tiles (but for the reference) in data and starting gains turns the result. -/
theorem solve_turn (φ : R →+* K) (h : Spec.ComplexAbs s.mag φ) (hc : s.cast = φ) (H : ℕ → K)
    (hH : ∀ t, star (H t) * H t = 1) (hw : s.wts = none) (hr : s.noRef = false → H s.refTile = 1) (gain : List K) :
    solve (s.turn H) (turnGain H gain) =
      (solve s gain).map (·.map (SolveOut.turn H)) := by
  unfold solve
  rw [show (s.turn H).maxIter = s.maxIter from rfl]
  have hev : (s.turn H).evenly = s.evenly := by
    unfold SolveIn.evenly
    simp only [eqsOf_turn, List.length_map]
    rfl
  rw [hev]
  cases s.maxIter with
  | zero => rfl
  | succ n =>
    simp only []
    split_ifs
    · rfl
    simp only [Except.map]
    congr 1
    have hst : (s.turn H).startGain (turnGain H gain) =
        turnGain H (s.startGain gain) := by
      unfold SolveIn.startGain
      simp only [eqsOf_turn, List.length_map, turnGain_getD]
      rw [show (s.turn H).nTile = s.nTile from rfl]
      unfold turnGain
      apply List.ext_getElem
      · simp
      · intro t h1 h2
        simp only [List.getElem_map, List.getElem_range, List.getElem_mapIdx]
        split_ifs <;> simp
    rw [hst]
    exact solveFrom_turn s φ h hc H hH hw hr n 0 _ _ _ _ (by unfold SolveIn.startGain; simp)

end Turn

/-! ## The solver and the order of the equations -/

section Perm

variable (s : SolveIn K R)

/-- The solver's input with other equations. -/
def SolveIn.withEqs (E : List (CalEq K)) : SolveIn K R := { s with eqs := E }

/-- The solver sees the equations through the number of those of a tile and the least squares solution only. -/
theorem solve_congr (E : List (CalEq K))
    (hn : ∀ gain t, (s.withEqs E).newGain gain t = s.newGain gain t)
    (hlen : ∀ t, ((s.withEqs E).eqsOf t).length = (s.eqsOf t).length) (gain : List K) :
    solve (s.withEqs E) gain = solve s gain := by
  have hstep : ∀ i gain hist stricts, solveStep (s.withEqs E) i gain hist stricts = solveStep s i gain hist stricts := by
    intro i gain hist stricts
    unfold solveStep
    rw [funext (hn gain)]
    rfl
  have hfrom : ∀ fuel i gain hist stricts looses, solveFrom (s.withEqs E) fuel i gain hist stricts looses =
      solveFrom s fuel i gain hist stricts looses := by
    intro fuel
    induction fuel with
    | zero =>
      intro i gain hist stricts looses
      unfold solveFrom
      rw [hstep]
      rfl
    | succ n ih =>
      intro i gain hist stricts looses
      unfold solveFrom
      rw [hstep]
      cases solveStep s i gain hist stricts with
      | nan => rfl
      | allZero g => rfl
      | ok curr cg a b =>
        simp only [ih]
        rfl
  unfold solve
  have hev : (s.withEqs E).evenly = s.evenly := by
    unfold SolveIn.evenly
    simp only [hlen]
    rfl
  rw [show (s.withEqs E).maxIter = s.maxIter from rfl, hev]
  cases s.maxIter with
  | zero => rfl
  | succ n =>
    simp only []
    rw [hfrom]
    unfold SolveIn.startGain
    simp only [hlen]
    rfl

theorem solve_perm (E : List (CalEq K)) (hp : E.Perm s.eqs) (hw : s.wts = none) (gain : List K) :
    solve (s.withEqs E) gain = solve s gain := by
  have hof : ∀ t, ((s.withEqs E).eqsOf t).Perm (s.eqsOf t) := fun t => hp.filter _
  apply solve_congr
  · intro gain t
    unfold SolveIn.newGain
    rw [show (s.withEqs E).wts = none from hw, hw]
    simp only [(hof t).length_eq, lstsq1_map]
    rw [((hof t).map fun e => star (e.model * star (gain.getD e.b 0)) * (e.model * star (gain.getD e.b 0))).sum_eq,
      ((hof t).map fun e => star (e.model * star (gain.getD e.b 0)) * e.data).sum_eq]
  · exact fun t => (hof t).length_eq

end Perm

/-! ## The run of one polarisation -/

theorem tilePositions_eq (tiles as : List ℕ) (hnd : tiles.Nodup) :
    tilePositions tiles as = as.map fun a => if a ∈ tiles then tiles.idxOf a else 0 := by
  obtain ⟨hl, h⟩ := tilePositions_fold tiles as _ le_rfl (tilePositions tiles as) rfl
  apply List.ext_getElem
  · simp [hl]
  · intro j h1 h2
    have hj : j < as.length := by simpa using h2
    obtain ⟨i1, i2⟩ := h j h1 hj
    rw [List.take_length] at i1 i2
    simp only [List.getElem_map]
    split_ifs with hm
    · obtain ⟨k1, k2⟩ := i2 hm
      have k3 : tiles[(tilePositions tiles as)[j]]'k1 = as[j] := by
        rw [← k2]
        simp [List.getD, List.getElem?_eq_getElem k1]
      rw [← k3]
      exact (hnd.idxOf_getElem _ k1).symm
    · exact i1 hm

/-- The position of a tile among those solved for; zero for others. -/
def tilePos (tiles : List ℕ) (a : ℕ) : ℕ := if a ∈ tiles then tiles.idxOf a else 0

variable (c : CalRunIn K R)

theorem tiles_nodup (p : ℕ) : (c.tiles p).Nodup := by
  unfold CalRunIn.tiles solveTiles
  exact List.nodup_range.filter _

theorem mem_tiles (p t : ℕ) : t ∈ c.tiles p ↔
    t < c.nTile ∧ (∃ b ∈ c.bls p, c.tileA b = t ∨ c.tileB b = t) ∧ c.tileUse t = true := by
  unfold CalRunIn.tiles solveTiles
  rw [List.mem_filter, List.mem_range, Bool.and_eq_true, decide_eq_true_eq]
  have hcount : 0 < ((c.bls p).map c.tileA).count t + ((c.bls p).map c.tileB).count t ↔
      ∃ b ∈ c.bls p, c.tileA b = t ∨ c.tileB b = t := by
    rw [Nat.add_pos_iff_pos_or_pos, List.count_pos_iff, List.count_pos_iff, List.mem_map, List.mem_map]
    constructor
    · rintro (⟨b, hb, e⟩ | ⟨b, hb, e⟩)
      · exact ⟨b, hb, Or.inl e⟩
      · exact ⟨b, hb, Or.inr e⟩
    · rintro ⟨b, hb, e | e⟩
      · exact Or.inl ⟨b, hb, e⟩
      · exact Or.inr ⟨b, hb, e⟩
  rw [hcount]

theorem nanTile_iff (p t : ℕ) : c.nanTile p t = true ↔
    (∀ b ∈ c.bls p, c.tileA b ≠ t ∧ c.tileB b ≠ t) ∧ c.tileUse t = false := by
  unfold CalRunIn.nanTile
  rw [Bool.and_eq_true, decide_eq_true_eq, Bool.not_eq_true', Nat.add_eq_zero_iff, List.count_eq_zero, List.count_eq_zero,
    List.mem_map, List.mem_map]
  constructor
  · rintro ⟨⟨h1, h2⟩, h3⟩
    exact ⟨fun b hb => ⟨fun e => h1 ⟨b, hb, e⟩, fun e => h2 ⟨b, hb, e⟩⟩, h3⟩
  · rintro ⟨h, h3⟩
    exact ⟨⟨fun ⟨b, hb, e⟩ => (h b hb).1 e, fun ⟨b, hb, e⟩ => (h b hb).2 e⟩, h3⟩

theorem blData_eq (p f : ℕ) : c.blData p f = (c.bls p).map fun b =>
    ⟨tilePos (c.tiles p) (c.tileA b), tilePos (c.tiles p) (c.tileB b), c.average p c.vis f b, c.average p c.model f b,
      c.blWeight p f b⟩ := by
  unfold CalRunIn.blData
  simp only [tilePositions_eq _ _ (tiles_nodup c p)]
  apply List.ext_getElem
  · simp
  · intro i h1 h2
    simp [tilePos]

/-- The results written for the solutions `O` of the channels. -/
def runPolOf (p : ℕ) (O : ℕ → SolveOut K R) : CalRunPol K R where
  gain := fun f t =>
    if t < c.nTile ∧ c.nanTile p t = true then none
    else if t ∈ c.tiles p ∧ f ∈ c.freqs p then (O f).gain[(c.tiles p).idxOf t]?
    else some (c.gain p f t)
  convergence := fun f t => if t ∈ c.tiles p ∧ f ∈ c.freqs p then (O f).convergence.getD ((c.tiles p).idxOf t) 0 else 0
  iter := fun f t => if t ∈ c.tiles p ∧ f ∈ c.freqs p then (O f).iter else 0
  nConverged := (((c.freqs p).map O).filter fun r => r.stop.isConverged).length

theorem option_mapM_map {α β : Type} (l : List α) (g : α → β) : (l.map fun a => some (g a)).mapM id = some (l.map g) := by
  induction l with
  | nil => rfl
  | cons a l ih => rw [List.map_cons, List.mapM_cons, ih]; rfl

theorem option_mapM_some {α : Type} : ∀ (l : List (Option α)) (r : List α), l.mapM id = some r →
    l = r.map some := by
  intro l
  induction l with
  | nil => intro r h; injection h with h; rw [← h]; rfl
  | cons a l ih =>
    intro r h
    rw [List.mapM_cons] at h
    cases a with
    | none => cases h
    | some a =>
      cases hl : l.mapM id with
      | none => rw [hl] at h; cases h
      | some t =>
        rw [hl] at h
        injection h with h
        rw [← h, ih t hl]
        rfl

theorem freqs_nodup (p : ℕ) : (c.freqs p).Nodup := List.nodup_range.filter _

theorem calRunPol_of (p : ℕ) (O : ℕ → SolveOut K R) (ht : c.tiles p ≠ []) (hf : c.freqs p ≠ [] ∨ p ≠ 0)
    (hO : ∀ f ∈ c.freqs p, solve (c.solveIn p f) ((c.tiles p).map (c.gain p f)) = .ok (some (O f))) :
    calRunPol c p = .ok (some (runPolOf c p O)) := by
  unfold calRunPol
  have h1 : (c.tiles p).isEmpty = false := by simpa using ht
  have h2 : ((c.freqs p).isEmpty && p == 0) = false := by
    rcases hf with h | h
    · simp [h]
    · simp [h]
  rw [if_neg (by rw [h1]; simp), if_neg (by rw [h2]; simp), mapM_ok _ (fun f => some (O f)) _ hO]
  simp only [bind, Except.bind, pure, Except.pure, option_mapM_map]
  unfold runPolOf
  have hat : ∀ f, (if f ∈ c.freqs p then ((c.freqs p).map O)[(c.freqs p).idxOf f]? else none) =
      if f ∈ c.freqs p then some (O f) else none := by
    intro f
    split_ifs with hm
    · have hlt := List.idxOf_lt_length_iff.2 hm
      rw [List.getElem?_map, List.getElem?_eq_getElem hlt, List.getElem_idxOf]
      rfl
    · rfl
  simp only [hat]
  congr 3
  · funext f t
    by_cases h1 : t < c.nTile ∧ c.nanTile p t = true
    · rw [if_pos h1, if_pos h1]
    · rw [if_neg h1, if_neg h1]
      by_cases h2 : t ∈ c.tiles p
      · by_cases h3 : f ∈ c.freqs p
        · simp only [h2, h3, if_true, and_self]
        · simp only [h2, h3, if_true, if_false, and_false]
      · simp only [h2, if_false, false_and]
  · funext f t
    by_cases h2 : t ∈ c.tiles p
    · by_cases h3 : f ∈ c.freqs p
      · simp only [h2, h3, if_true, and_self]
      · simp only [h2, h3, if_true, if_false, and_false]
    · simp only [h2, if_false, false_and]
  · funext f t
    by_cases h2 : t ∈ c.tiles p
    · by_cases h3 : f ∈ c.freqs p
      · simp only [h2, h3, if_true, and_self]
      · simp only [h2, h3, if_true, if_false, and_false]
    · simp only [h2, if_false, false_and]

theorem calRunPol_ok (p : ℕ) (r : CalRunPol K R) (h : calRunPol c p = .ok (some r)) :
    c.tiles p ≠ [] ∧ ∃ O : ℕ → SolveOut K R, r = runPolOf c p O ∧
      ∀ f ∈ c.freqs p, solve (c.solveIn p f) ((c.tiles p).map (c.gain p f)) = .ok (some (O f)) := by
  have h0 := h
  unfold calRunPol at h
  by_cases h1 : (c.tiles p).isEmpty = true
  · rw [if_pos h1] at h; cases h
  rw [if_neg h1] at h
  by_cases h2 : ((c.freqs p).isEmpty && p == 0) = true
  · rw [if_pos h2] at h; cases h
  rw [if_neg h2] at h
  simp only [bind, Except.bind, pure, Except.pure] at h
  have ht : c.tiles p ≠ [] := by simpa using h1
  have hf : c.freqs p ≠ [] ∨ p ≠ 0 := by
    by_contra hc
    push Not at hc
    exact h2 (by rw [List.isEmpty_iff.2 hc.1, hc.2]; rfl)
  refine ⟨ht, fun f => match solve (c.solveIn p f) ((c.tiles p).map (c.gain p f)) with
    | .ok (some o) => o
    | _ => ⟨[], 0, .zero, [], [], []⟩, ?_⟩
  split at h
  · cases h
  · rename_i outs houts
    obtain ⟨hl, hget⟩ := mapM_range_ok _ _ _ houts
    split at h
    · cases h
    · rename_i rs hrs
      have hsome := option_mapM_some _ _ hrs
      have hO : ∀ f ∈ c.freqs p, solve (c.solveIn p f) ((c.tiles p).map (c.gain p f)) =
          .ok (some (match solve (c.solveIn p f) ((c.tiles p).map (c.gain p f)) with
            | .ok (some o) => o
            | _ => ⟨[], 0, .zero, [], [], []⟩)) := by
        intro f hf
        obtain ⟨i, hi, rfl⟩ := List.mem_iff_getElem.1 hf
        obtain ⟨b, hb, hsol⟩ := hget i hi
        rw [hsome, List.getElem?_map] at hb
        obtain ⟨o, ho, hob⟩ := Option.map_eq_some_iff.1 hb
        rw [hsol, ← hob]
      have := calRunPol_of c p _ ht hf hO
      rw [h0] at this
      injection this with this
      injection this with this
      exact ⟨this, hO⟩

/-! ## C121: phases -/

/-- The tile that phases refer to: tile 1 if it is solved for, else the first tile solved for. -/
def Spec.refTile (tiles : List ℕ) : ℕ := if 1 ∈ tiles then 1 else tiles.headD 0

/-- The flags are consistent: no baseline in use has a flagged tile (and tile numbers exist). -/
def Spec.FlagsAgree (c : CalRunIn K R) (p : ℕ) : Prop :=
  ∀ b ∈ c.bls p, (c.tileA b < c.nTile ∧ c.tileUse (c.tileA b) = true) ∧ c.tileB b < c.nTile ∧ c.tileUse (c.tileB b) = true

/-- When averaging over time, all times have the same list of baselines. -/
def Spec.SameBaselines (c : CalRunIn K R) : Prop :=
  c.timeAverage = true → ∀ t b, c.tileA (t * c.nBl + b) = c.tileA b ∧ c.tileB (t * c.nBl + b) = c.tileB b

/-- Data and starting gains after multiplying the signal of every tile with `H`. -/
def Spec.turned (c : CalRunIn K R) (H : ℕ → ℕ → K) : CalRunIn K R :=
  { c with
    vis := fun p f s => H f (c.tileA s) * star (H f (c.tileB s)) * c.vis p f s
    gain := fun p f t => c.gain p f t * H f t }

theorem flags_tiles {c : CalRunIn K R} {p : ℕ} (h : Spec.FlagsAgree c p) (b : ℕ) (hb : b ∈ c.bls p) :
    c.tileA b ∈ c.tiles p ∧ c.tileB b ∈ c.tiles p := by
  obtain ⟨⟨h1, h2⟩, h3, h4⟩ := h b hb
  exact ⟨(mem_tiles c p _).2 ⟨h1, ⟨b, hb, Or.inl rfl⟩, h2⟩, (mem_tiles c p _).2 ⟨h3, ⟨b, hb, Or.inr rfl⟩, h4⟩⟩

theorem getD_tilePos (tiles : List ℕ) (a : ℕ) (h : a ∈ tiles) : tiles.getD (tilePos tiles a) 0 = a := by
  unfold tilePos
  rw [if_pos h]
  have hlt := List.idxOf_lt_length_iff.2 h
  simp [List.getD, List.getElem?_eq_getElem hlt]

theorem refPos_eq (p : ℕ) (ht : c.tiles p ≠ []) : c.refPos p = tilePos (c.tiles p) (Spec.refTile (c.tiles p)) ∧
    Spec.refTile (c.tiles p) ∈ c.tiles p := by
  unfold CalRunIn.refPos Spec.refTile tilePos
  cases hT : c.tiles p with
  | nil => exact absurd hT ht
  | cons a l =>
    split_ifs with h1 h2 h2
    · exact ⟨rfl, h1⟩
    · refine ⟨by simp, by simp⟩
    · exfalso; apply h2; simp

theorem solveIn_turned (p f : ℕ) (H : ℕ → ℕ → K) (hflag : Spec.FlagsAgree c p) (hper : Spec.SameBaselines c) :
    (Spec.turned c H).solveIn p f = (c.solveIn p f).turn fun i => H f ((c.tiles p).getD i 0) := by
  have havg : ∀ b, (Spec.turned c H).average p (Spec.turned c H).vis f b =
      H f (c.tileA b) * star (H f (c.tileB b)) * c.average p c.vis f b := by
    intro b
    unfold CalRunIn.average
    have e : ((Spec.turned c H).samplesOf b).map (fun s => (Spec.turned c H).vis p f s *
        (Spec.turned c H).cast ((Spec.turned c H).clip p f s)) =
        (c.samplesOf b).map fun s => H f (c.tileA b) * star (H f (c.tileB b)) * (c.vis p f s * c.cast (c.clip p f s)) := by
      apply List.map_congr_left
      intro s hs
      have hsb : c.tileA s = c.tileA b ∧ c.tileB s = c.tileB b := by
        change s ∈ c.samplesOf b at hs
        unfold CalRunIn.samplesOf at hs
        split_ifs at hs with ht
        · obtain ⟨t, -, rfl⟩ := List.mem_map.1 hs
          exact hper ht t b
        · rw [List.mem_singleton.1 hs]
          exact ⟨rfl, rfl⟩
      change H f (c.tileA s) * star (H f (c.tileB s)) * c.vis p f s * c.cast (c.clip p f s) = _
      rw [hsb.1, hsb.2]
      ring
    rw [e, List.sum_map_mul_left]
    change _ * c.cast (invR (c.blWeight p f b)) = _
    ring
  have heqs : doubleEqs ((Spec.turned c H).blData p f) =
      (doubleEqs (c.blData p f)).map (turnEq fun i => H f ((c.tiles p).getD i 0)) := by
    rw [blData_eq, blData_eq]
    simp only [havg]
    change doubleEqs ((c.bls p).map fun b => ⟨tilePos (c.tiles p) (c.tileA b), tilePos (c.tiles p) (c.tileB b),
      H f (c.tileA b) * star (H f (c.tileB b)) * c.average p c.vis f b, c.average p c.model f b, c.blWeight p f b⟩) = _
    unfold doubleEqs
    simp only [List.filter_map, List.map_append, List.map_map]
    have hin : ∀ b ∈ (c.bls p).filter ((fun x : CalBaseline K R => decide (0 < x.weight)) ∘ fun b =>
        ⟨tilePos (c.tiles p) (c.tileA b), tilePos (c.tiles p) (c.tileB b), c.average p c.vis f b, c.average p c.model f b,
          c.blWeight p f b⟩), c.tileA b ∈ c.tiles p ∧ c.tileB b ∈ c.tiles p := fun b hb =>
      flags_tiles hflag b (List.mem_filter.1 hb).1
    congr 1
    · apply List.map_congr_left
      intro b hb
      obtain ⟨ha, hb'⟩ := hin b hb
      simp only [Function.comp, turnEq, getD_tilePos _ _ ha, getD_tilePos _ _ hb']
    · apply List.map_congr_left
      intro b hb
      obtain ⟨ha, hb'⟩ := hin b hb
      simp only [Function.comp, turnEq, getD_tilePos _ _ ha, getD_tilePos _ _ hb', star_mul', star_star]
      congr 1
      ring
  unfold SolveIn.turn
  conv_lhs => unfold CalRunIn.solveIn
  rw [heqs]
  rfl

/-- **C121.** Multiplying the signals of the tiles with phases (none for the reference tile) in the data and the starting gains multiplies
the gains found with these phases, whatever the data, and changes neither convergence nor number of iterations. -/
theorem C121_phases [IsStrictOrderedRing R] (φ : R →+* K) (hmag : Spec.ComplexAbs c.mag φ) (hc : c.cast = φ) (p : ℕ)
    (H : ℕ → ℕ → K) (hH : ∀ f t, star (H f t) * H f t = 1)
    (href : c.noRef = false → ∀ f, H f (Spec.refTile (c.tiles p)) = 1)
    (hflag : Spec.FlagsAgree c p) (hper : Spec.SameBaselines c) (r : CalRunPol K R)
    (h : calRunPol c p = .ok (some r)) :
    ∃ r', calRunPol (Spec.turned c H) p = .ok (some r') ∧
      (∀ f t, r'.gain f t = (r.gain f t).map fun g => g * H f t) ∧
      r'.convergence = r.convergence ∧ r'.iter = r.iter ∧ r'.nConverged = r.nConverged := by
  obtain ⟨ht, O, hr, hO⟩ := calRunPol_ok c p r h
  have hf : c.freqs p ≠ [] ∨ p ≠ 0 := by
    by_contra hcon
    push Not at hcon
    unfold calRunPol at h
    rw [if_neg (by simpa using ht), if_pos (by rw [List.isEmpty_iff.2 hcon.1, hcon.2]; rfl)] at h
    cases h
  have hsol : ∀ f ∈ (Spec.turned c H).freqs p, solve ((Spec.turned c H).solveIn p f)
      (((Spec.turned c H).tiles p).map ((Spec.turned c H).gain p f)) =
      .ok (some ((O f).turn fun i => H f ((c.tiles p).getD i 0))) := by
    intro f hf
    have hg : ((Spec.turned c H).tiles p).map ((Spec.turned c H).gain p f) =
        turnGain (fun i => H f ((c.tiles p).getD i 0)) ((c.tiles p).map (c.gain p f)) := by
      unfold turnGain
      apply List.ext_getElem
      · simp; rfl
      · intro i h1 h2
        have hi : i < (c.tiles p).length := by simpa using h2
        simp only [List.getElem_map, List.getElem_mapIdx]
        change c.gain p f (c.tiles p)[i] * H f (c.tiles p)[i] = _
        simp [List.getD, List.getElem?_eq_getElem hi]
    rw [hg, solveIn_turned c p f H hflag hper, solve_turn (c.solveIn p f) φ hmag hc _ (fun t => hH _ _) rfl, hO f hf]
    · rfl
    · intro hno
      change H f ((c.tiles p).getD (c.refPos p) 0) = 1
      obtain ⟨h1, h2⟩ := refPos_eq c p ht
      rw [h1, getD_tilePos _ _ h2]
      exact href hno f
  refine ⟨_, calRunPol_of (Spec.turned c H) p (fun f => (O f).turn fun i => H f ((c.tiles p).getD i 0)) ht hf hsol, ?_, ?_, ?_, ?_⟩
  · intro f t
    rw [hr]
    unfold runPolOf
    change (if t < c.nTile ∧ c.nanTile p t = true then none
      else if t ∈ c.tiles p ∧ f ∈ c.freqs p then (turnGain _ (O f).gain)[(c.tiles p).idxOf t]?
      else some (c.gain p f t * H f t)) = _
    simp only []
    split_ifs with h1 h2
    · rfl
    · unfold turnGain
      rw [List.getElem?_mapIdx]
      have := getD_tilePos (c.tiles p) t h2.1
      unfold tilePos at this
      rw [if_pos h2.1] at this
      simp only [this]
    · rfl
  · rw [hr]; rfl
  · rw [hr]; rfl
  · rw [hr]
    unfold runPolOf
    simp only [List.filter_map, List.length_map]
    rfl

/-! ## C122: the order of the samples -/

/-- The same samples in the order given by `σ`. -/
def Spec.reordered (c : CalRunIn K R) (σ : ℕ → ℕ) : CalRunIn K R :=
  { c with
    vis := fun p f s => c.vis p f (σ s)
    model := fun p f s => c.model p f (σ s)
    weight := fun p f s => c.weight p f (σ s)
    tileA := fun s => c.tileA (σ s)
    tileB := fun s => c.tileB (σ s)
    uu := fun s => c.uu (σ s)
    vv := fun s => c.vv (σ s) }

/-- **C122.** Without averaging over time, the order of the samples does not matter. -/
theorem C122_order (ha : c.timeAverage = false) (σ : ℕ → ℕ)
    (hσ : ((List.range (c.nBl * c.nTime)).map σ).Perm (List.range (c.nBl * c.nTime))) :
    calRun (Spec.reordered c σ) = calRun c := by
  have hnB : c.nB = c.nBl * c.nTime := by unfold CalRunIn.nB; rw [if_neg (by simp [ha])]
  rw [← hnB] at hσ
  have hso : ∀ b, c.samplesOf b = [b] := fun b => by unfold CalRunIn.samplesOf; rw [if_neg (by simp [ha])]
  have hso' : ∀ b, (Spec.reordered c σ).samplesOf b = [b] := fun b => by
    unfold CalRunIn.samplesOf; rw [if_neg (by simp [Spec.reordered, ha])]
  have hw : ∀ p f b, (Spec.reordered c σ).blWeight p f b = c.blWeight p f (σ b) := by
    intro p f b
    unfold CalRunIn.blWeight
    rw [hso, hso']
    rfl
  have hav : ∀ p f b, (Spec.reordered c σ).average p (Spec.reordered c σ).vis f b = c.average p c.vis f (σ b) := by
    intro p f b
    unfold CalRunIn.average
    rw [hso, hso', hw]
    rfl
  have ham : ∀ p f b, (Spec.reordered c σ).average p (Spec.reordered c σ).model f b = c.average p c.model f (σ b) := by
    intro p f b
    unfold CalRunIn.average
    rw [hso, hso', hw]
    rfl
  have hbls : ∀ p, (((Spec.reordered c σ).bls p).map σ).Perm (c.bls p) := by
    intro p
    unfold CalRunIn.bls
    have := hσ.filter fun b => decide (((List.range c.nFreq).map fun f => c.blWeight p f b).sum ≠ 0)
    rw [List.filter_map] at this
    simp only [hw]
    exact this
  have hfreqs : ∀ p, (Spec.reordered c σ).freqs p = c.freqs p := by
    intro p
    unfold CalRunIn.freqs
    congr 1
    funext f
    have : ((List.range (Spec.reordered c σ).nB).map ((Spec.reordered c σ).blWeight p f)).sum =
        ((List.range c.nB).map (c.blWeight p f)).sum := by
      have h1 := (hσ.map (c.blWeight p f)).sum_eq
      rw [List.map_map] at h1
      rw [← h1]
      congr 1
      apply List.map_congr_left
      intro b _
      exact hw p f b
    rw [this]
    rfl
  have hcA : ∀ p t, (((Spec.reordered c σ).bls p).map (Spec.reordered c σ).tileA).count t = ((c.bls p).map c.tileA).count t := by
    intro p t
    rw [show (((Spec.reordered c σ).bls p).map (Spec.reordered c σ).tileA) =
      (((Spec.reordered c σ).bls p).map σ).map c.tileA by rw [List.map_map]; rfl]
    exact ((hbls p).map _).count_eq t
  have hcB : ∀ p t, (((Spec.reordered c σ).bls p).map (Spec.reordered c σ).tileB).count t = ((c.bls p).map c.tileB).count t := by
    intro p t
    rw [show (((Spec.reordered c σ).bls p).map (Spec.reordered c σ).tileB) =
      (((Spec.reordered c σ).bls p).map σ).map c.tileB by rw [List.map_map]; rfl]
    exact ((hbls p).map _).count_eq t
  have htiles : ∀ p, (Spec.reordered c σ).tiles p = c.tiles p := by
    intro p
    unfold CalRunIn.tiles solveTiles
    simp only [hcA, hcB]
    rfl
  have hnan : ∀ p t, (Spec.reordered c σ).nanTile p t = c.nanTile p t := by
    intro p t
    unfold CalRunIn.nanTile
    simp only [hcA, hcB]
    rfl
  have hdata : ∀ p f, ((Spec.reordered c σ).blData p f).Perm (c.blData p f) := by
    intro p f
    rw [blData_eq, blData_eq, htiles]
    simp only [hav, ham, hw]
    have := (hbls p).map fun b => (⟨tilePos (c.tiles p) (c.tileA b), tilePos (c.tiles p) (c.tileB b),
      c.average p c.vis f b, c.average p c.model f b, c.blWeight p f b⟩ : CalBaseline K R)
    rw [List.map_map] at this
    exact this
  have hsolve : ∀ p f gain, solve ((Spec.reordered c σ).solveIn p f) gain = solve (c.solveIn p f) gain := by
    intro p f gain
    have he : (doubleEqs ((Spec.reordered c σ).blData p f)).Perm (doubleEqs (c.blData p f)) := by
      unfold doubleEqs
      exact (((hdata p f).filter _).map _).append (((hdata p f).filter _).map _)
    have := solve_perm (c.solveIn p f) _ he rfl gain
    rw [← this]
    congr 1
    unfold SolveIn.withEqs CalRunIn.solveIn CalRunIn.refPos
    simp only [htiles]
    rfl
  have hpol : ∀ p, calRunPol (Spec.reordered c σ) p = calRunPol c p := by
    intro p
    unfold calRunPol
    simp only [hsolve, htiles, hfreqs, hnan]
    rfl
  unfold calRun
  rw [funext hpol]
  have hn : nVisCal (Spec.reordered c σ) = nVisCal c := by
    unfold nVisCal
    congr 1
    apply List.map_congr_left
    intro f _
    have h1 := (hσ.filter fun b => decide (c.blWeight (c.nPol - 1) f b ≠ 0)).length_eq
    rw [List.filter_map, List.length_map] at h1
    rw [← h1]
    simp only [hw]
    rfl
  rw [hn]
  rfl

/-! ## C123, C124: units and scale -/

/-- Data and model in other units: multiplied by `k`, which may depend on polarisation and channel. -/
def Spec.rescaled (c : CalRunIn K R) (k : ℕ → ℕ → K) : CalRunIn K R :=
  { c with
    vis := fun p f s => k p f * c.vis p f s
    model := fun p f s => k p f * c.model p f s }

/-- **C123.** Multiplying data and model with the same number (which may depend on polarisation and channel, and be complex)
changes nothing. -/
theorem C123_units (k : ℕ → ℕ → K)
    (hk : ∀ p f, k p f ≠ 0) : calRun (Spec.rescaled c k) = calRun c := by
  have hav : ∀ (x : ℕ → ℕ → ℕ → K) p f b, (Spec.rescaled c k).average p (fun p f s => k p f * x p f s) f b =
      k p f * c.average p x f b := by
    intro x p f b
    unfold CalRunIn.average
    have e : ((Spec.rescaled c k).samplesOf b).map (fun s => k p f * x p f s *
        (Spec.rescaled c k).cast ((Spec.rescaled c k).clip p f s)) =
        (c.samplesOf b).map fun s => k p f * (x p f s * c.cast (c.clip p f s)) := by
      apply List.map_congr_left
      intro s _
      change k p f * x p f s * c.cast (c.clip p f s) = _
      ring
    rw [e, List.sum_map_mul_left]
    change _ * c.cast (invR (c.blWeight p f b)) = _
    ring
  have hsolve : ∀ p f gain, solve ((Spec.rescaled c k).solveIn p f) gain = solve (c.solveIn p f) gain := by
    intro p f gain
    have hn : star (k p f) * k p f ≠ 0 := mul_ne_zero (by rw [Ne, star_eq_zero]; exact hk p f) (hk p f)
    have hd : (Spec.rescaled c k).blData p f =
        (c.blData p f).map fun x => ⟨x.a, x.b, k p f * x.data, k p f * x.model, x.weight⟩ := by
      rw [blData_eq, blData_eq, List.map_map]
      apply List.map_congr_left
      intro b _
      have h1 := hav c.vis p f b
      have h2 := hav c.model p f b
      change (⟨tilePos (c.tiles p) (c.tileA b), tilePos (c.tiles p) (c.tileB b),
        (Spec.rescaled c k).average p (fun p f s => k p f * c.vis p f s) f b,
        (Spec.rescaled c k).average p (fun p f s => k p f * c.model p f s) f b, c.blWeight p f b⟩ : CalBaseline K R) = _
      rw [h1, h2]
      rfl
    have hof : ∀ t, ∃ (l : List (CalEq K × K)), (∀ e ∈ l, star e.2 * e.2 = star (k p f) * k p f) ∧
        (c.solveIn p f).eqsOf t = l.map Prod.fst ∧
        ((c.solveIn p f).withEqs (doubleEqs ((Spec.rescaled c k).blData p f))).eqsOf t =
          l.map fun e => ⟨e.1.a, e.1.b, e.2 * e.1.data, e.2 * e.1.model⟩ := by
      intro t
      refine ⟨(((c.blData p f).filter fun x => 0 < x.weight).map (fun x => ((⟨x.a, x.b, x.data, x.model⟩ : CalEq K), k p f)) ++
        ((c.blData p f).filter fun x => 0 < x.weight).map fun x =>
          ((⟨x.b, x.a, star x.data, star x.model⟩ : CalEq K), star (k p f))).filter fun e => e.1.a = t, ?_, ?_, ?_⟩
      · intro e he
        rcases List.mem_append.1 (List.mem_filter.1 he).1 with h | h
        · obtain ⟨x, -, rfl⟩ := List.mem_map.1 h
          rfl
        · obtain ⟨x, -, rfl⟩ := List.mem_map.1 h
          simp only [star_star]
          ring
      · unfold SolveIn.eqsOf CalRunIn.solveIn doubleEqs
        simp only [List.filter_append, List.filter_map, List.map_append, List.map_map]
        rfl
      · unfold SolveIn.eqsOf SolveIn.withEqs doubleEqs
        rw [hd]
        simp only [List.filter_append, List.filter_map, List.map_append, List.map_map, Function.comp_def, star_mul']
    have := solve_congr (c.solveIn p f) (doubleEqs ((Spec.rescaled c k).blData p f)) (by
      intro gain t
      obtain ⟨l, hl, h1, h2⟩ := hof t
      unfold SolveIn.newGain
      rw [h1, h2, show ((c.solveIn p f).withEqs (doubleEqs ((Spec.rescaled c k).blData p f))).wts = none from rfl,
        show (c.solveIn p f).wts = none from rfl]
      simp only [List.length_map, List.map_map, Function.comp_def]
      rw [lstsq1_map, lstsq1_map]
      have e1 : l.map (fun e => star (e.2 * e.1.model * star (gain.getD e.1.b 0)) *
          (e.2 * e.1.model * star (gain.getD e.1.b 0))) = l.map fun e => (star (k p f) * k p f) *
          (star (e.1.model * star (gain.getD e.1.b 0)) * (e.1.model * star (gain.getD e.1.b 0))) := by
        apply List.map_congr_left
        intro e he
        rw [← hl e he]
        simp only [star_mul']
        ring
      have e2 : l.map (fun e => star (e.2 * e.1.model * star (gain.getD e.1.b 0)) *
          (e.2 * e.1.data)) = l.map fun e => (star (k p f) * k p f) *
          (star (e.1.model * star (gain.getD e.1.b 0)) * e.1.data) := by
        apply List.map_congr_left
        intro e he
        rw [← hl e he]
        simp only [star_mul']
        ring
      rw [e1, e2, List.sum_map_mul_left, List.sum_map_mul_left]
      simp only [mul_eq_zero, hn, false_or]
      rw [mul_div_mul_left _ _ hn]) (by
      intro t
      obtain ⟨l, hl, h1, h2⟩ := hof t
      rw [h1, h2, List.length_map, List.length_map]) gain
    rw [← this]
    rfl
  have hpol : ∀ p, calRunPol (Spec.rescaled c k) p = calRunPol c p := by
    intro p
    unfold calRunPol
    simp only [hsolve]
    rfl
  unfold calRun
  rw [funext hpol]
  rfl

/-- **C124 fails**: the test for divergence compares a ratio with a gain. A gain above 2 (in absolute value) that does not grow counts as
diverging in every iteration, even where nothing changes, and gets a third of the correction whatever `base_gain` is, so that the result
depends on the scale of the gains. -/
theorem C124_large_gains [IsStrictOrderedRing R] (s : SolveIn K R)
    (cg : R) (old new : K) (hbig : 2 < s.mag old)
    (hle : s.mag ((new * s.cast cg + old * s.cast s.base) / s.cast (s.base + cg)) ≤ s.mag old) :
    s.damp (some cg) old (some new) = (new + old * 2) / 3 := by
  unfold SolveIn.damp
  simp only []
  rw [if_pos]
  have h0 : s.mag old ≠ 0 := by linarith
  rw [invR_eq, if_neg h0, ← div_eq_mul_inv]
  have hpos : 0 < s.mag old := by linarith
  calc _ ≤ 1 := (div_le_one hpos).2 hle
    _ < s.mag old / 2 := by linarith

/-- The solver's input for data multiplied with `r ^ 2`. -/
def SolveIn.louder (s : SolveIn K R) (φ : R →+* K) (r : R) : SolveIn K R :=
  s.withEqs (s.eqs.map fun e => ⟨e.a, e.b, φ r * φ r * e.data, e.model⟩)

/-- **C124, as far as it holds**: data `r ^ 2` times as large and gains `r` times as large give solutions of a step `r` times as large.
What is missing is the result of the solver, where the test for divergence gets in the way. -/
theorem C124_scale_partial (s : SolveIn K R) (φ : R →+* K) (hmag : Spec.ComplexAbs s.mag φ) (hw : s.wts = none)
    (r : R) (hr : r ≠ 0) (gain : List K) (t : ℕ) :
    (s.louder φ r).newGain (gain.map fun g => g * φ r) t = (s.newGain gain t).map fun g => g * φ r := by
  have hφ : φ r ≠ 0 := by rw [Ne, map_eq_zero]; exact hr
  have hof : (s.louder φ r).eqsOf t = (s.eqsOf t).map fun e => ⟨e.a, e.b, φ r * φ r * e.data, e.model⟩ := by
    unfold SolveIn.eqsOf SolveIn.louder SolveIn.withEqs
    simp only [List.filter_map]
    rfl
  have hg : ∀ b, (gain.map fun g => g * φ r).getD b 0 = gain.getD b 0 * φ r := by
    intro b
    simp only [List.getD, List.getElem?_map]
    cases gain[b]? <;> simp
  unfold SolveIn.newGain
  rw [hof, show (s.louder φ r).wts = none from hw, hw]
  simp only [List.length_map, List.map_map, Function.comp_def, hg]
  split_ifs with h5
  · rw [lstsq1_map, lstsq1_map]
    have e1 : (s.eqsOf t).map (fun e => star (e.model * star (gain.getD e.b 0 * φ r)) *
        (e.model * star (gain.getD e.b 0 * φ r))) = (s.eqsOf t).map fun e => (φ r * φ r) *
        (star (e.model * star (gain.getD e.b 0)) * (e.model * star (gain.getD e.b 0))) := by
      apply List.map_congr_left
      intro e _
      simp only [star_mul', star_star, hmag.real]
      ring
    have e2 : (s.eqsOf t).map (fun e => star (e.model * star (gain.getD e.b 0 * φ r)) * (φ r * φ r * e.data)) =
        (s.eqsOf t).map fun e => (φ r * φ r * φ r) * (star (e.model * star (gain.getD e.b 0)) * e.data) := by
      apply List.map_congr_left
      intro e _
      simp only [star_mul', star_star, hmag.real]
      ring
    rw [e1, e2, List.sum_map_mul_left, List.sum_map_mul_left]
    simp only [mul_eq_zero, hφ, false_or, Option.map_some, Option.some.injEq]
    split_ifs
    · simp
    · rw [mul_assoc (φ r * φ r), mul_div_mul_left _ _ (mul_ne_zero hφ hφ)]
      ring
  · simp

/-! ## C125: exact gains -/

theorem posA_iff {p t a : ℕ} (ha : a ∈ c.tiles p) (ht : t ∈ c.tiles p) :
    tilePos (c.tiles p) a = tilePos (c.tiles p) t ↔ a = t := by
  constructor
  · intro e
    rw [← getD_tilePos _ _ ha, e, getD_tilePos _ _ ht]
  · rintro rfl; rfl

/-- How many baselines with data at the channel end at the tile. -/
def Spec.baselinesOf (c : CalRunIn K R) (p f t : ℕ) : ℕ :=
  (c.bls p).countP (fun b => decide (0 < c.blWeight p f b) && decide (c.tileA b = t)) +
    (c.bls p).countP (fun b => decide (0 < c.blWeight p f b) && decide (c.tileB b = t))

/-- Not all tiles have equally many baselines with data at the channel. -/
def Spec.NumbersDiffer (c : CalRunIn K R) (p f : ℕ) : Prop :=
  ∃ t ∈ c.tiles p, ∃ t' ∈ c.tiles p, Spec.baselinesOf c p f t ≠ Spec.baselinesOf c p f t'

theorem count_eqs (p f t : ℕ) (hflag : Spec.FlagsAgree c p) (ht : t ∈ c.tiles p) :
    (doubleEqs (c.blData p f)).countP (fun e => decide (e.a = tilePos (c.tiles p) t)) = Spec.baselinesOf c p f t := by
  unfold Spec.baselinesOf
  rw [blData_eq]
  unfold doubleEqs
  rw [List.countP_append]
  simp only [List.filter_map, List.countP_map, List.countP_filter]
  congr 1
  · apply List.countP_congr
    intro b hb
    simp only [Function.comp, Bool.and_eq_true, decide_eq_true_eq, posA_iff c (flags_tiles hflag b hb).1 ht]
    tauto
  · apply List.countP_congr
    intro b hb
    simp only [Function.comp, Bool.and_eq_true, decide_eq_true_eq, posA_iff c (flags_tiles hflag b hb).2 ht]
    tauto

theorem tilePos_lt_length (tiles : List ℕ) (t : ℕ) (ht : t ∈ tiles) : tilePos tiles t < tiles.length := by
  unfold tilePos
  rw [if_pos ht]
  exact List.idxOf_lt_length_iff.2 ht

theorem not_sameNumber (p f : ℕ) (hflag : Spec.FlagsAgree c p) (h : Spec.NumbersDiffer c p f) :
    ¬ Spec.SameNumber (c.solveIn p f).nTile (c.solveIn p f).eqs := by
  rintro ⟨-, n, -, hall⟩
  obtain ⟨t, ht, t', ht', hne⟩ := h
  apply hne
  rw [← count_eqs c p f t hflag ht, ← count_eqs c p f t' hflag ht']
  exact (hall _ (tilePos_lt_length _ _ ht)).trans (hall _ (tilePos_lt_length _ _ ht')).symm

/-- **C278 is violated**, for the routine: if at some channel all tiles have equally many baselines with data, at least five, it ends with an
`IndexError`. -/
theorem C278_array_raises (p : ℕ) (hflag : Spec.FlagsAgree c p) (hm : 0 < c.maxIter) (ht : c.tiles p ≠ []) (f n : ℕ)
    (hf : f ∈ c.freqs p) (hn : 5 ≤ n) (hsame : ∀ t ∈ c.tiles p, Spec.baselinesOf c p f t = n) :
    calRunPol c p = .error .indexError := by
  have hlen : 0 < (c.tiles p).length := List.length_pos_iff.2 ht
  have herr : ∀ g, g ∈ c.freqs p → (∃ r, solve (c.solveIn p g) ((c.tiles p).map (c.gain p g)) = .ok r) ∨
      solve (c.solveIn p g) ((c.tiles p).map (c.gain p g)) = .error .indexError := by
    intro g _
    by_cases h : Spec.SameNumber (c.solveIn p g).nTile (c.solveIn p g).eqs
    · exact Or.inr (C278_same_number_raises _ _ hm h)
    · exact Or.inl (C62_iterations_accepted_partial _ _ hm h)
  have hthis : solve (c.solveIn p f) ((c.tiles p).map (c.gain p f)) = .error .indexError := by
    apply C278_same_number_raises _ _ hm
    refine ⟨hlen, n, hn, fun i hi => ?_⟩
    have htm : (c.tiles p)[i]'hi ∈ c.tiles p := List.getElem_mem hi
    have hpos : tilePos (c.tiles p) ((c.tiles p)[i]'hi) = i := by
      unfold tilePos
      rw [if_pos htm]
      exact (tiles_nodup c p).idxOf_getElem i hi
    rw [← hsame _ htm, ← count_eqs c p f _ hflag htm, hpos]
    rfl
  have hall : ∀ l : List ℕ, f ∈ l → (∀ g ∈ l, g ∈ c.freqs p) →
      l.mapM (fun g => solve (c.solveIn p g) ((c.tiles p).map (c.gain p g))) = .error .indexError := by
    intro l
    induction l with
    | nil => intro h; cases h
    | cons g l ih =>
      intro hm' hsub
      rw [List.mapM_cons]
      rcases herr g (hsub g (List.mem_cons_self ..)) with ⟨r, hr⟩ | hr
      · rcases List.mem_cons.1 hm' with rfl | hm''
        · rw [hthis] at hr
          cases hr
        · rw [hr]
          simp only [bind, Except.bind]
          rw [ih hm'' fun g hg => hsub g (List.mem_cons_of_mem _ hg)]
      · rw [hr]
        rfl
  unfold calRunPol
  rw [if_neg (by simpa using ht), if_neg (by
    have : c.freqs p ≠ [] := List.ne_nil_of_mem hf
    simp [this]), hall _ hf fun g hg => hg]
  rfl

/-- **C278** otherwise: if at every channel two tiles have different numbers of baselines with data, the routine raises nothing. -/
theorem C278_differ_partial (p : ℕ) (hflag : Spec.FlagsAgree c p) (hm : 0 < c.maxIter) (ht : c.tiles p ≠ []) (hf : c.freqs p ≠ [])
    (hdiff : ∀ f ∈ c.freqs p, Spec.NumbersDiffer c p f) : ∃ r, calRunPol c p = .ok r := by
  have hall : ∀ l : List ℕ, (∀ g ∈ l, g ∈ c.freqs p) →
      ∃ rs, l.mapM (fun g => solve (c.solveIn p g) ((c.tiles p).map (c.gain p g))) = .ok rs := by
    intro l
    induction l with
    | nil => exact fun _ => ⟨[], rfl⟩
    | cons g l ih =>
      intro hsub
      have hg := hsub g (List.mem_cons_self ..)
      obtain ⟨r, hr⟩ := C62_iterations_accepted_partial (c.solveIn p g) ((c.tiles p).map (c.gain p g)) hm
        (not_sameNumber c p g hflag (hdiff g hg))
      obtain ⟨rs, hrs⟩ := ih fun g hg => hsub g (List.mem_cons_of_mem _ hg)
      refine ⟨r :: rs, ?_⟩
      rw [List.mapM_cons, hr]
      simp only [bind, Except.bind]
      rw [hrs]
      rfl
  obtain ⟨rs, hrs⟩ := hall _ fun g hg => hg
  unfold calRunPol
  rw [if_neg (by simpa using ht), if_neg (by simp [hf]), hrs]
  simp only [bind, Except.bind]
  split
  · exact ⟨_, rfl⟩
  · exact ⟨_, rfl⟩

/-- **C125.** If gains account exactly for all data in use (at least five equations for every tile, one of them with a
model), and the solver starts with them, the routine returns them, up to the phase at each channel that makes the gain of the reference
tile positive, with and without averaging over time (provided that not all tiles have equally many baselines, C278). -/
theorem C125_exact_gains [IsStrictOrderedRing R] (φ : R →+* K) (hmag : Spec.ComplexAbs c.mag φ) (hc : c.cast = φ)
    (hb : 0 < c.base) (hm : 0 < c.maxIter) (p : ℕ) (g : ℕ → ℕ → K) (ht : c.tiles p ≠ []) (hf : c.freqs p ≠ [])
    (hflag : Spec.FlagsAgree c p)
    (hstart : ∀ f ∈ c.freqs p, ∀ t ∈ c.tiles p, c.gain p f t = g f t ∧ g f t ≠ 0)
    (hdata : ∀ f ∈ c.freqs p, ∀ b ∈ c.bls p, ∀ s ∈ c.samplesOf b, 0 < c.weight p f s →
      c.vis p f s = g f (c.tileA b) * star (g f (c.tileB b)) * c.model p f s)
    (henough : ∀ f ∈ c.freqs p, ∀ t ∈ c.tiles p,
      5 ≤ Spec.baselinesOf c p f t ∧
      ∃ b ∈ c.bls p, 0 < c.blWeight p f b ∧ (c.tileA b = t ∨ c.tileB b = t) ∧ c.average p c.model f b ≠ 0)
    (hdiff : ∀ f ∈ c.freqs p, Spec.NumbersDiffer c p f) :
    ∃ r, calRunPol c p = .ok (some r) ∧ ∀ f ∈ c.freqs p, ∃ u, star u * u = 1 ∧ (c.noRef = true → u = 1) ∧
      (c.noRef = false → g f (Spec.refTile (c.tiles p)) * u = φ (c.mag (g f (Spec.refTile (c.tiles p))))) ∧
      ∀ t ∈ c.tiles p, r.gain f t = some (g f t * u) := by
  have hgetD : ∀ f ∈ c.freqs p, ∀ a ∈ c.tiles p,
      ((c.tiles p).map (c.gain p f)).getD (tilePos (c.tiles p) a) 0 = g f a := by
    intro f hf a ha
    have h1 : tilePos (c.tiles p) a < (c.tiles p).length := by
      unfold tilePos
      rw [if_pos ha]
      exact List.idxOf_lt_length_iff.2 ha
    have h2 := getD_tilePos (c.tiles p) a ha
    simp only [List.getD, List.getElem?_eq_getElem h1, Option.getD_some] at h2
    simp only [List.getD, List.getElem?_map, List.getElem?_eq_getElem h1, Option.map_some, Option.getD_some, h2]
    exact (hstart f hf a ha).1
  have hclip0 : ∀ f s, ¬ 0 < c.weight p f s → c.clip p f s = 0 := by
    intro f s h
    unfold CalRunIn.clip
    rw [max_eq_right (not_lt.1 h)]
    exact min_eq_left zero_le_one
  have havg : ∀ f ∈ c.freqs p, ∀ b ∈ c.bls p, c.average p c.vis f b =
      g f (c.tileA b) * star (g f (c.tileB b)) * c.average p c.model f b := by
    intro f hf b hb
    unfold CalRunIn.average
    rw [← mul_assoc, ← List.sum_map_mul_left]
    congr 2
    apply List.map_congr_left
    intro s hs
    by_cases h0 : 0 < c.weight p f s
    · rw [hdata f hf b hb s hs h0]
      ring
    · rw [hclip0 f s h0, hc, map_zero]
      ring
  have hmem : ∀ f, ∀ e ∈ doubleEqs (c.blData p f), ∃ b ∈ c.bls p, 0 < c.blWeight p f b ∧
      (e = ⟨tilePos (c.tiles p) (c.tileA b), tilePos (c.tiles p) (c.tileB b), c.average p c.vis f b, c.average p c.model f b⟩ ∨
       e = ⟨tilePos (c.tiles p) (c.tileB b), tilePos (c.tiles p) (c.tileA b), star (c.average p c.vis f b),
          star (c.average p c.model f b)⟩) := by
    intro f e he
    rw [blData_eq] at he
    unfold doubleEqs at he
    rcases List.mem_append.1 he with h | h
    · obtain ⟨x, hx, rfl⟩ := List.mem_map.1 h
      obtain ⟨hx1, hx2⟩ := List.mem_filter.1 hx
      obtain ⟨b, hb, rfl⟩ := List.mem_map.1 hx1
      exact ⟨b, hb, by simpa using hx2, Or.inl rfl⟩
    · obtain ⟨x, hx, rfl⟩ := List.mem_map.1 h
      obtain ⟨hx1, hx2⟩ := List.mem_filter.1 hx
      obtain ⟨b, hb, rfl⟩ := List.mem_map.1 hx1
      exact ⟨b, hb, by simpa using hx2, Or.inr rfl⟩
  have hperf : ∀ f ∈ c.freqs p, Spec.Perfect (c.solveIn p f).eqs ((c.tiles p).map (c.gain p f)) := by
    intro f hf e he
    obtain ⟨b, hb, -, h | h⟩ := hmem f e he
    · obtain ⟨ha, hb'⟩ := flags_tiles hflag b hb
      rw [h]
      simp only [hgetD f hf _ ha, hgetD f hf _ hb']
      exact havg f hf b hb
    · obtain ⟨ha, hb'⟩ := flags_tiles hflag b hb
      rw [h]
      simp only [hgetD f hf _ ha, hgetD f hf _ hb', havg f hf b hb, star_mul', star_star]
      ring
  have hcount := fun f t (ht : t ∈ c.tiles p) => count_eqs c p f t hflag ht
  have hdet : ∀ f ∈ c.freqs p, Spec.Determined (c.solveIn p f).nTile (c.solveIn p f).eqs ((c.tiles p).map (c.gain p f)) := by
    intro f hf i hi
    left
    change i < (c.tiles p).length at hi
    have htm : (c.tiles p)[i] ∈ c.tiles p := List.getElem_mem hi
    have hpos : tilePos (c.tiles p) (c.tiles p)[i] = i := by
      unfold tilePos
      rw [if_pos htm]
      exact (tiles_nodup c p).idxOf_getElem i hi
    obtain ⟨h5, b, hb, hw, hab, hmod⟩ := henough f hf _ htm
    obtain ⟨hA, hB⟩ := flags_tiles hflag b hb
    refine ⟨?_, ?_⟩
    · rw [← hcount f _ htm, hpos] at h5
      exact h5
    · have hin : (⟨tilePos (c.tiles p) (c.tileA b), tilePos (c.tiles p) (c.tileB b), c.average p c.vis f b,
          c.average p c.model f b, c.blWeight p f b⟩ : CalBaseline K R) ∈ (c.blData p f).filter fun x => 0 < x.weight := by
        rw [blData_eq]
        exact List.mem_filter.2 ⟨List.mem_map.2 ⟨b, hb, rfl⟩, by simpa using hw⟩
      rcases hab with h | h
      · refine ⟨_, List.mem_append_left _ (List.mem_map.2 ⟨_, hin, rfl⟩), ?_, hmod, ?_⟩
        · simp only [h, hpos]
        · simp only [hgetD f hf _ hB]
          exact (hstart f hf _ hB).2
      · refine ⟨_, List.mem_append_right _ (List.mem_map.2 ⟨_, hin, rfl⟩), ?_, ?_, ?_⟩
        · simp only [h, hpos]
        · simp only [Ne, star_eq_zero]
          exact hmod
        · simp only [hgetD f hf _ hA]
          exact (hstart f hf _ hA).2
  obtain ⟨href, hrefm⟩ := refPos_eq c p ht
  have hrefg : ∀ f ∈ c.freqs p, ((c.tiles p).map (c.gain p f)).getD (c.solveIn p f).refTile 0 =
      g f (Spec.refTile (c.tiles p)) := by
    intro f hf
    change ((c.tiles p).map (c.gain p f)).getD (c.refPos p) 0 = _
    rw [href]
    exact hgetD f hf _ hrefm
  have hsol := fun f (hf : f ∈ c.freqs p) => C39_solver_fixed_point (c.solveIn p f) φ hmag hc hb hm
    ((c.tiles p).map (c.gain p f)) (by rw [List.length_map]; rfl) (hperf f hf) (hdet f hf)
    (not_sameNumber c p f hflag (hdiff f hf)) (fun _ => by
      rw [hrefg f hf]
      exact (hstart f hf _ hrefm).2)
  haveI : Nonempty (SolveOut K R) := ⟨⟨[], 0, .zero, [], [], []⟩⟩
  choose! O hO1 hO2 using hsol
  refine ⟨_, calRunPol_of c p O ht (Or.inl hf) hO1, ?_⟩
  intro f hf
  have hg0 := (hstart f hf _ hrefm).2
  refine ⟨Spec.refPhase (c.solveIn p f) φ ((c.tiles p).map (c.gain p f)), ?_, ?_, ?_, ?_⟩
  · unfold Spec.refPhase
    split_ifs
    · simp
    · rw [hrefg f hf]
      exact hmag.phase_sq _ hg0
  · intro hno
    unfold Spec.refPhase
    rw [if_pos (show (c.solveIn p f).noRef = true from hno)]
  · intro hno
    unfold Spec.refPhase
    rw [if_neg (by rw [show (c.solveIn p f).noRef = false from hno]; simp), hrefg f hf]
    change _ * (_ / φ (c.mag _)) = _
    have hne : φ (c.mag (g f (Spec.refTile (c.tiles p)))) ≠ 0 := by
      rw [Ne, map_eq_zero, hmag.zero_iff]
      exact hg0
    rw [← mul_div_assoc, div_eq_iff hne, ← map_mul, hmag.sq]
    ring
  · intro t htt
    have hnan : ¬ (t < c.nTile ∧ c.nanTile p t = true) := by
      rintro ⟨-, h⟩
      have h1 := ((nanTile_iff c p t).1 h).2
      rw [((mem_tiles c p t).1 htt).2.2] at h1
      cases h1
    unfold runPolOf
    simp only []
    rw [if_neg hnan, if_pos ⟨htt, hf⟩, hO2 f hf]
    have hlt := List.idxOf_lt_length_iff.2 htt
    rw [List.getElem?_map, List.getElem?_map, List.getElem?_eq_getElem hlt, List.getElem_idxOf]
    simp only [Option.map_some, (hstart f hf t htt).1]

/-! ## C126: what cannot matter -/

/-- The limits: shorter than the shortest or longer than the longest baseline (in wavelengths), or outside the uv plane (along either axis
the limit of the other one is used). -/
def Spec.OutOfLimits (c : CalRunIn K R) (f b : ℕ) : Prop :=
  let length := c.norm (c.uu b) (c.vv b) * c.freq f
  length < c.minLen ∨ c.maxLen < length ∨ c.elements / 2 < |c.uu b| * c.freq f / c.kpix ∨
    c.dimension / 2 < |c.vv b| * c.freq f / c.kpix

theorem C126_limits [IsStrictOrderedRing R] (hk : 0 < c.kpix)
    (hnorm : ∀ x y, c.norm (x / c.kpix) (y / c.kpix) = c.norm x y / c.kpix) (f b : ℕ) :
    c.isCut f b = true ↔ Spec.OutOfLimits c f b := by
  unfold CalRunIn.isCut Spec.OutOfLimits
  simp only [decide_eq_true_eq, hnorm, abs_div, abs_of_pos hk]
  have h1 : c.norm (c.uu b) (c.vv b) / c.kpix * c.freq f * c.kpix = c.norm (c.uu b) (c.vv b) * c.freq f := by
    field_simp
  rw [h1, div_mul_eq_mul_div, div_mul_eq_mul_div]

/-- The limits asked for never admit a baseline that the observation does not have. -/
theorem C126_limits_narrow : c.minBaseline ≤ c.minLen ∧ c.maxLen ≤ c.maxBaseline ∧
    (c.minCal ≠ 0 → c.minCal ≤ c.minLen) ∧ (c.maxCal ≠ 0 → c.maxLen ≤ c.maxCal) := by
  unfold CalRunIn.minLen CalRunIn.maxLen
  refine ⟨?_, ?_, ?_, ?_⟩
  · split_ifs
    · exact le_rfl
    · exact le_max_right _ _
  · split_ifs
    · exact le_rfl
    · exact min_le_right _ _
  · intro h
    rw [if_neg h]
    exact le_max_left _ _
  · intro h
    rw [if_neg h]
    exact min_le_left _ _

theorem mapM_congr_mem {α β : Type} (l : List α) (f g : α → Py β) (h : ∀ a ∈ l, f a = g a) : l.mapM f = l.mapM g := by
  induction l with
  | nil => rfl
  | cons a l ih =>
    rw [List.mapM_cons, List.mapM_cons, h a (by simp), ih fun x hx => h x (List.mem_cons_of_mem _ hx)]

/-- The same observation with other visibilities, model and weights. -/
def Spec.withData (c : CalRunIn K R) (v m : ℕ → ℕ → ℕ → K) (w : ℕ → ℕ → ℕ → R) : CalRunIn K R :=
  { c with vis := v, model := m, weight := w }

/-- **C126.** Data and model of flagged samples, of samples out of the limits and of channels not used for calibration, and weights of samples out of
the limits, have no influence on any result. -/
theorem C126_ignored [IsStrictOrderedRing R] (hcast : c.cast 0 = 0) (v m : ℕ → ℕ → ℕ → K) (w : ℕ → ℕ → ℕ → R)
    (h : ∀ p < c.nPol, ∀ f < c.nFreq, ∀ b < c.nB, ∀ s ∈ c.samplesOf b, c.isCut f b = true ∨
      w p f s = c.weight p f s ∧ (c.weight p f s ≤ 0 ∨ c.freqUse f = false ∨
        v p f s = c.vis p f s ∧ m p f s = c.model p f s)) (hpos : 0 < c.nPol) :
    calRun (Spec.withData c v m w) = calRun c := by
  have hwt : ∀ p < c.nPol, ∀ f < c.nFreq, ∀ b < c.nB, (Spec.withData c v m w).blWeight p f b = c.blWeight p f b := by
    intro p hp f hf b hb
    unfold CalRunIn.blWeight
    change (if c.isCut f b then 0 else ((c.samplesOf b).map ((Spec.withData c v m w).clip p f)).sum) = _
    by_cases hc : c.isCut f b = true
    · rw [if_pos hc, if_pos hc]
    · rw [if_neg hc, if_neg hc]
      congr 1
      apply List.map_congr_left
      intro s hs
      unfold CalRunIn.clip
      change min (max (w p f s) 0) 1 = _
      rcases h p hp f hf b hb s hs with h1 | h1
      · exact absurd h1 hc
      · rw [h1.1]
  have hinv : invR (0 : R) = 0 := by rw [invR_eq, if_pos rfl]
  have hav : ∀ p < c.nPol, ∀ f < c.nFreq, c.freqUse f = true → ∀ b < c.nB,
      (Spec.withData c v m w).average p (Spec.withData c v m w).vis f b = c.average p c.vis f b ∧
      (Spec.withData c v m w).average p (Spec.withData c v m w).model f b = c.average p c.model f b := by
    intro p hp f hf hu b hb
    unfold CalRunIn.average
    rw [hwt p hp f hf b hb]
    change (((c.samplesOf b).map fun s => v p f s * c.cast ((Spec.withData c v m w).clip p f s)).sum * _ = _) ∧
      ((c.samplesOf b).map fun s => m p f s * c.cast ((Spec.withData c v m w).clip p f s)).sum * _ = _
    by_cases hc : c.isCut f b = true
    · have h0 : c.blWeight p f b = 0 := by unfold CalRunIn.blWeight; rw [if_pos hc]
      rw [h0, hinv]
      change _ * c.cast 0 = _ * c.cast 0 ∧ _ * c.cast 0 = _ * c.cast 0
      rw [hcast]
      simp
    · have hs : ∀ s ∈ c.samplesOf b, v p f s * c.cast ((Spec.withData c v m w).clip p f s) = c.vis p f s * c.cast (c.clip p f s) ∧
          m p f s * c.cast ((Spec.withData c v m w).clip p f s) = c.model p f s * c.cast (c.clip p f s) := by
        intro s hs
        rcases h p hp f hf b hb s hs with h1 | ⟨h1, h2⟩
        · exact absurd h1 hc
        · have hcl : (Spec.withData c v m w).clip p f s = c.clip p f s := by
            unfold CalRunIn.clip
            change min (max (w p f s) 0) 1 = _
            rw [h1]
          rw [hcl]
          rcases h2 with h2 | h2 | h2
          · have : c.clip p f s = 0 := by
              unfold CalRunIn.clip
              rw [max_eq_right h2]
              exact min_eq_left zero_le_one
            rw [this, hcast, mul_zero, mul_zero, mul_zero, mul_zero]
            exact ⟨rfl, rfl⟩
          · rw [hu] at h2; cases h2
          · rw [h2.1, h2.2]
            exact ⟨rfl, rfl⟩
      rw [List.map_congr_left fun s h => (hs s h).1, List.map_congr_left fun s h => (hs s h).2]
      exact ⟨rfl, rfl⟩
  have hbls : ∀ p < c.nPol, (Spec.withData c v m w).bls p = c.bls p := by
    intro p hp
    unfold CalRunIn.bls
    apply List.filter_congr
    intro b hb
    rw [List.mem_range] at hb
    rw [List.map_congr_left (g := fun f => c.blWeight p f b)]
    · rfl
    · intro f hf
      exact hwt p hp f (List.mem_range.1 hf) b hb
  have hfreqs : ∀ p < c.nPol, (Spec.withData c v m w).freqs p = c.freqs p := by
    intro p hp
    unfold CalRunIn.freqs
    apply List.filter_congr
    intro f hf
    rw [List.map_congr_left (g := c.blWeight p f)]
    · rfl
    · intro b hb
      exact hwt p hp f (List.mem_range.1 hf) b (List.mem_range.1 hb)
  have htiles : ∀ p < c.nPol, (Spec.withData c v m w).tiles p = c.tiles p := by
    intro p hp
    unfold CalRunIn.tiles
    rw [hbls p hp]
    rfl
  have hnan : ∀ p < c.nPol, (Spec.withData c v m w).nanTile p = c.nanTile p := by
    intro p hp
    funext t
    unfold CalRunIn.nanTile
    rw [hbls p hp]
    rfl
  have hin : ∀ p < c.nPol, ∀ f ∈ c.freqs p, (Spec.withData c v m w).solveIn p f = c.solveIn p f := by
    intro p hp f hf
    have hf1 := List.mem_filter.1 hf
    have hf2 : c.freqUse f = true := (Bool.and_eq_true _ _ ▸ hf1.2).2
    have hbd : (Spec.withData c v m w).blData p f = c.blData p f := by
      rw [blData_eq, blData_eq, hbls p hp, htiles p hp]
      apply List.map_congr_left
      intro b hb
      have hb1 : b < c.nB := List.mem_range.1 (List.mem_filter.1 hb).1
      obtain ⟨h1, h2⟩ := hav p hp f (List.mem_range.1 hf1.1) hf2 b hb1
      rw [h1, h2, hwt p hp f (List.mem_range.1 hf1.1) b hb1]
      rfl
    unfold CalRunIn.solveIn CalRunIn.refPos
    rw [hbd, htiles p hp]
    rfl
  have hpol : ∀ p < c.nPol, calRunPol (Spec.withData c v m w) p = calRunPol c p := by
    intro p hp
    unfold calRunPol
    rw [hfreqs p hp, htiles p hp, hnan p hp]
    have : (c.freqs p).mapM (fun f => solve ((Spec.withData c v m w).solveIn p f)
        ((c.tiles p).map ((Spec.withData c v m w).gain p f))) =
        (c.freqs p).mapM fun f => solve (c.solveIn p f) ((c.tiles p).map (c.gain p f)) := by
      apply mapM_congr_mem
      intro f hf
      rw [hin p hp f hf]
      rfl
    simp only [this]
    rfl
  have hn : nVisCal (Spec.withData c v m w) = nVisCal c := by
    unfold nVisCal
    congr 1
    apply List.map_congr_left
    intro f hf
    congr 1
    apply List.filter_congr
    intro b hb
    change decide ((Spec.withData c v m w).blWeight (c.nPol - 1) f b ≠ 0) = _
    rw [hwt (c.nPol - 1) (by omega) f (List.mem_range.1 hf) b (List.mem_range.1 hb)]
  unfold calRun
  rw [hn]
  have : (List.range c.nPol).mapM (calRunPol (Spec.withData c v m w)) = (List.range c.nPol).mapM (calRunPol c) :=
    mapM_congr_mem _ _ _ fun p hp => hpol p (List.mem_range.1 hp)
  change (do let pols ← (List.range c.nPol).mapM (calRunPol (Spec.withData c v m w)); _) = _
  rw [this]

/-! ## C127: what is written -/

/-- **C127, as far as it holds**: gains change only for unflagged tiles with a baseline in use, at channels in use; only flagged tiles become
NaN. Missing: flagged tiles that have baselines in use (`C127_flagged_kept`). -/
theorem C127_written_partial (p : ℕ) (r : CalRunPol K R) (h : calRunPol c p = .ok (some r)) :
    (∀ f t, (t < c.nTile → c.tileUse t = true) → (c.freqUse f = false ∨ ∀ b ∈ c.bls p, c.tileA b ≠ t ∧ c.tileB b ≠ t) →
      r.gain f t = some (c.gain p f t)) ∧
    (∀ f t, t < c.nTile → c.tileUse t = false → (∀ b ∈ c.bls p, c.tileA b ≠ t ∧ c.tileB b ≠ t) → r.gain f t = none) ∧
    (∀ f t, r.gain f t = none → t < c.nTile → c.tileUse t = true → ∃ b ∈ c.bls p, c.tileA b = t ∨ c.tileB b = t) := by
  obtain ⟨ht, O, hr, hO⟩ := calRunPol_ok c p r h
  have hone : ∀ f t, (t < c.nTile → c.tileUse t = true) →
      (c.freqUse f = false ∨ ∀ b ∈ c.bls p, c.tileA b ≠ t ∧ c.tileB b ≠ t) → r.gain f t = some (c.gain p f t) := by
    intro f t h1 h2
    rw [hr]
    unfold runPolOf
    simp only []
    rw [if_neg, if_neg]
    · rintro ⟨h3, h4⟩
      rcases h2 with h2 | h2
      · have h5 := (List.mem_filter.1 h4).2
        rw [h2] at h5
        simp at h5
      · obtain ⟨-, ⟨b, hb, e⟩, -⟩ := (mem_tiles c p t).1 h3
        rcases e with e | e
        · exact (h2 b hb).1 e
        · exact (h2 b hb).2 e
    · rintro ⟨h3, h4⟩
      have h5 := ((nanTile_iff c p t).1 h4).2
      rw [h1 h3] at h5
      cases h5
  refine ⟨hone, ?_, ?_⟩
  · intro f t h1 h2 h3
    rw [hr]
    unfold runPolOf
    simp only []
    rw [if_pos ⟨h1, (nanTile_iff c p t).2 ⟨h3, h2⟩⟩]
  · intro f t hn h1 h2
    by_contra hcon
    push Not at hcon
    rw [hone f t (fun _ => h2) (Or.inr hcon)] at hn
    cases hn

/-- **C127 fails** for a flagged tile with a baseline in use: its gain is not NaN but the starting gain. -/
theorem C127_flagged_kept (p : ℕ) (r : CalRunPol K R) (h : calRunPol c p = .ok (some r)) (t : ℕ) (hu : c.tileUse t = false)
    (hb : ∃ b ∈ c.bls p, c.tileA b = t ∨ c.tileB b = t) (f : ℕ) : r.gain f t = some (c.gain p f t) := by
  obtain ⟨ht, O, hr, hO⟩ := calRunPol_ok c p r h
  rw [hr]
  unfold runPolOf
  simp only []
  rw [if_neg, if_neg]
  · rintro ⟨h3, -⟩
    have := ((mem_tiles c p t).1 h3).2.2
    rw [hu] at this
    cases this
  · rintro ⟨-, h4⟩
    obtain ⟨b, hb, e⟩ := hb
    obtain ⟨h5, h6⟩ := ((nanTile_iff c p t).1 h4).1 b hb
    rcases e with e | e
    · exact h5 e
    · exact h6 e

/-! ## C128: the number of visibilities used -/

/-- **C128 fails**: the number reported is that of the last polarisation, whatever is flagged in the others. -/
theorem C128_last_polarisation (w : ℕ → ℕ → ℕ → R) (hw : w (c.nPol - 1) = c.weight (c.nPol - 1)) :
    nVisCal (Spec.withData c c.vis c.model w) = nVisCal c := by
  have hwt : ∀ f b, (Spec.withData c c.vis c.model w).blWeight (c.nPol - 1) f b = c.blWeight (c.nPol - 1) f b := by
    intro f b
    unfold CalRunIn.blWeight CalRunIn.clip
    change (if c.isCut f b then 0 else ((c.samplesOf b).map fun s => min (max (w (c.nPol - 1) f s) 0) 1).sum) = _
    rw [hw]
  unfold nVisCal
  congr 1
  apply List.map_congr_left
  intro f _
  change ((List.range c.nB).filter fun b => decide ((Spec.withData c c.vis c.model w).blWeight (c.nPol - 1) f b ≠ 0)).length = _
  simp only [hwt]

/-- **C128, as far as it holds**: with one polarisation (and without averaging over time) it is the number of pairs of channel and sample
that are not flagged and within the limits. -/
theorem C128_count_partial [IsStrictOrderedRing R] (ha : c.timeAverage = false) : nVisCal c =
    ((List.range c.nFreq).map fun f => (List.range (c.nBl * c.nTime)).countP fun s =>
      decide (0 < c.weight (c.nPol - 1) f s) && !c.isCut f s).sum := by
  unfold nVisCal
  have hnB : c.nB = c.nBl * c.nTime := by unfold CalRunIn.nB; rw [if_neg (by simp [ha])]
  rw [hnB]
  congr 1
  apply List.map_congr_left
  intro f _
  rw [List.countP_eq_length_filter]
  congr 1
  apply List.filter_congr
  intro b _
  unfold CalRunIn.blWeight CalRunIn.samplesOf CalRunIn.clip
  rw [if_neg (show ¬ c.timeAverage = true by simp [ha])]
  by_cases hc : c.isCut f b = true
  · simp [hc]
  · by_cases hw : 0 < c.weight (c.nPol - 1) f b
    · have : min (max (c.weight (c.nPol - 1) f b) 0) 1 ≠ 0 := (lt_min (lt_max_of_lt_left hw) zero_lt_one).ne'
      simp [hc, hw, this]
    · have : max (c.weight (c.nPol - 1) f b) 0 = 0 := max_eq_right (not_lt.1 hw)
      simp [hc, hw, this]

/-! ## C129: the iterations that fit phases only -/

/-- A weighted average of two numbers of the same size is smaller than these, unless they are equal. -/
theorem mag_average_lt [IsStrictOrderedRing R] (mag : K → R) (φ : R →+* K) (h : Spec.ComplexAbs mag φ) (x y : R) (hx : 0 < x)
    (hy : 0 < y) (n o : K) (hno : mag n = mag o) (hne : n ≠ o) : mag ((n * φ x + o * φ y) / φ (y + x)) < mag o := by
  have hxy : φ (y + x) ≠ 0 := by rw [Ne, map_eq_zero]; linarith
  have key : mag (n * φ x + o * φ y) * mag (n * φ x + o * φ y) =
      (x + y) * (x + y) * (mag o * mag o) - x * y * (mag (n - o) * mag (n - o)) := by
    apply φ.injective
    have e1 := h.sq n
    have e2 := h.sq o
    rw [hno] at e1
    rw [h.sq, map_sub, map_mul φ (x * y), map_mul φ ((x + y) * (x + y)), h.sq (n - o), map_mul φ x y, map_mul φ (x + y), map_add, e2]
    simp only [star_add, star_mul', star_sub, h.real]
    have e3 : star n * n = star o * o := by rw [← e1, e2]
    linear_combination (φ x * φ x + φ x * φ y) * e3
  have hd : 0 < mag (n - o) * mag (n - o) := by
    have := h.nonneg (n - o)
    have h0 : mag (n - o) ≠ 0 := by
      rw [Ne, h.zero_iff, sub_eq_zero]
      exact hne
    positivity
  have hq : mag ((n * φ x + o * φ y) / φ (y + x)) * (y + x) = mag (n * φ x + o * φ y) := by
    have e := h.mul ((n * φ x + o * φ y) / φ (y + x)) (φ (y + x))
    rw [div_mul_cancel₀ _ hxy, h.of_real _ (by linarith)] at e
    exact e.symm
  rw [← hq] at key
  have hpos := h.nonneg ((n * φ x + o * φ y) / φ (y + x))
  have ho := h.nonneg o
  generalize mag ((n * φ x + o * φ y) / φ (y + x)) = a at *
  by_contra hcon
  push Not at hcon
  have h1 : 0 < x * y * (mag (n - o) * mag (n - o)) := by positivity
  have h2 : (y + x) * (y + x) * (mag o * mag o) ≤ (y + x) * (y + x) * (a * a) := by
    apply mul_le_mul_of_nonneg_left (mul_le_mul hcon hcon ho hpos)
    positivity
  have h3 : a * (y + x) * (a * (y + x)) = (y + x) * (y + x) * (a * a) := by ring
  rw [h3] at key
  have h4 : (x + y) * (x + y) * (mag o * mag o) = (y + x) * (y + x) * (mag o * mag o) := by ring
  linarith

/-- **C129, as far as it holds**: in the first `phase_fit_iter` iterations (a quarter of the iterations, at most 4, by default) a new gain is
the solution scaled to the size of the old gain; afterwards it is the solution. -/
theorem C129_phase_fit_partial [IsStrictOrderedRing R] (φ : R →+* K) (hmag : Spec.ComplexAbs c.mag φ) (hc : c.cast = φ) (p f i : ℕ)
    (old n : K) (hold : old ≠ 0) (hn : n ≠ 0) :
    (c.phaseFitIter ≠ 0 → c.phaseIter = c.phaseFitIter) ∧ (c.phaseFitIter = 0 → c.phaseIter = min (c.maxIter / 4) 4) ∧
    (i < c.phaseIter → ∃ r, 0 < r ∧ (c.solveIn p f).phaseOnly i old (some n) = some (n * φ r) ∧ c.mag (n * φ r) = c.mag old) ∧
    (c.phaseIter ≤ i → (c.solveIn p f).phaseOnly i old (some n) = some n) := by
  have hpo : 0 < c.mag old := lt_of_le_of_ne (hmag.nonneg _) fun e => hold ((hmag.zero_iff _).1 e.symm)
  have hpn : 0 < c.mag n := lt_of_le_of_ne (hmag.nonneg _) fun e => hn ((hmag.zero_iff _).1 e.symm)
  refine ⟨fun h => by unfold CalRunIn.phaseIter; rw [if_neg h], fun h => by unfold CalRunIn.phaseIter; rw [if_pos h], ?_, ?_⟩
  · intro hi
    refine ⟨c.mag old * (c.mag n)⁻¹, by positivity, ?_, ?_⟩
    · unfold SolveIn.phaseOnly
      rw [if_pos (show i < (c.solveIn p f).phaseIter from hi)]
      change some (n * c.cast (c.mag old * invR (c.mag n))) = _
      rw [hc, invR_eq, if_neg hpn.ne']
    · rw [hmag.mul, hmag.of_real _ (by positivity)]
      field_simp
  · intro hi
    unfold SolveIn.phaseOnly
    rw [if_neg (show ¬ i < (c.solveIn p f).phaseIter from not_lt.2 hi)]

/-- **C129 fails**: the damped gain of such an iteration is smaller than the old one, unless the phase is unchanged. -/
theorem C129_phase_fit_shrinks [IsStrictOrderedRing R] (s : SolveIn K R) (φ : R →+* K) (hmag : Spec.ComplexAbs s.mag φ)
    (hc : s.cast = φ) (hb : 0 < s.base) (cg : R) (hcg : 0 < cg) (i : ℕ) (hi : i < s.phaseIter) (old n0 n : K) (hold : old ≠ 0)
    (hn0 : n0 ≠ 0) (hn : s.phaseOnly i old (some n0) = some n) (hne : n ≠ old) :
    s.mag (s.damp (some cg) old (some n)) < s.mag old := by
  have hno : s.mag n = s.mag old := by
    unfold SolveIn.phaseOnly at hn
    rw [if_pos hi, Option.map_some, Option.some.injEq, hc, invR_eq] at hn
    have h1 : s.mag n0 ≠ 0 := fun e => hn0 ((hmag.zero_iff _).1 e)
    rw [if_neg h1] at hn
    have h2 := hmag.nonneg n0
    have h3 := hmag.nonneg old
    rw [← hn, hmag.mul, hmag.of_real _ (by positivity)]
    field_simp
  unfold SolveIn.damp
  simp only []
  split_ifs
  · have := mag_average_lt s.mag φ hmag 1 2 one_pos two_pos n old hno hne
    rw [map_one, map_add, map_one, map_ofNat, mul_one] at this
    rw [show ((2 : K) + 1) = 3 by norm_num] at this
    exact this
  · rw [hc]
    exact mag_average_lt s.mag φ hmag cg s.base hcg hb n old hno hne

/-! ## Examples -/

/-- Three tiles and a flagged one at three times, the first sample flagged, two channels, the second not used for calibration; the starting gains explain the data up
to `noise`, which is also added to flagged data. -/
def exRun (noise : ℚ) : CalRunIn ℚ ℚ where
  mag := fun z => |z|
  cast := id
  norm := fun x y => |x| + |y|
  nPol := 1
  nFreq := 2
  nTile := 4
  nTime := 3
  nBl := 4
  vis := fun _ _ s => [-2, 1, -(1 / 2), 7].getD (s % 4) 0 * (1 + (s : ℚ)) + (if s = 5 ∨ s % 4 = 3 then noise else 0)
  model := fun _ _ s => 1 + (s : ℚ)
  weight := fun _ _ s => if s % 4 = 3 ∨ s = 0 then 0 else 1
  tileA := fun s => [0, 0, 1, 0].getD (s % 4) 0
  tileB := fun s => [1, 2, 2, 3].getD (s % 4) 0
  tileUse := fun t => t ≠ 3
  freqUse := fun f => f = 0
  uu := fun s => 1 + (s % 4 : ℕ)
  vv := fun _ => 1
  freq := fun f => 1 + f
  kpix := 1 / 2
  dimension := 100
  elements := 100
  minBaseline := 1
  maxBaseline := 20
  minCal := 2
  maxCal := 0
  timeAverage := false
  gain := fun _ _ t => [2, -1, 1 / 2, 3].getD t 0
  maxIter := 3
  phaseFitIter := 1
  thresh := 1 / 1000
  adaptive := true
  base := 1
  noRef := false

/-- The gains and counts of the first polarisation. -/
def exRunShow (c : CalRunIn ℚ ℚ) : Option (List (List (Option ℚ)) × ℕ × ℕ) :=
  match calRun c with
  | .ok (some o) => o.pols.head?.map fun r =>
      ((List.range c.nFreq).map fun f => (List.range c.nTile).map (r.gain f), r.nConverged, o.nVisCal)
  | _ => none

/-- Phases of the tiles that leave the reference tile alone. -/
def exTurns : ℕ → ℕ → ℚ := fun _ t => if t = 0 then -1 else 1

theorem exRunAbs : Spec.ComplexAbs (fun z : ℚ => |z|) (RingHom.id ℚ) := ⟨fun z => abs_nonneg z, fun z => by simp, fun r => by simp⟩

/-- The conditions of C121, and the result: the gains that do not fit exactly turn with the data. -/
example : (exRun 1).cast = RingHom.id ℚ ∧ Spec.FlagsAgree (exRun 1) 0 ∧ Spec.SameBaselines (exRun 1) ∧
    Spec.refTile ((exRun 1).tiles 0) = 1 ∧ (∀ f t, star (exTurns f t) * exTurns f t = 1) ∧ (∀ f, exTurns f 1 = 1) ∧
    exRunShow (exRun 1) = some ([[some (-271821872 / 135131721), some (2283606736934 / 2290858952957),
      some (-2486511277 / 4864529576), none], [some 2, some (-1), some (1 / 2), none]], 0, 16) ∧
    exRunShow (Spec.turned (exRun 1) exTurns) = some ([[some (271821872 / 135131721),
      some (2283606736934 / 2290858952957), some (-2486511277 / 4864529576), none],
      [some (-2), some (-1), some (1 / 2), none]], 0, 16) := by
  refine ⟨rfl, by unfold Spec.FlagsAgree; decide +kernel, fun h => absurd h (by decide), by decide +kernel, ?_, fun f => rfl,
    by decide +kernel, by decide +kernel⟩
  intro f t
  unfold exTurns
  split_ifs <;> simp

/-- C122: the samples in reverse order. -/
example : (exRun 1).timeAverage = false ∧
    ((List.range ((exRun 1).nBl * (exRun 1).nTime)).map fun s => 11 - s).Perm (List.range ((exRun 1).nBl * (exRun 1).nTime)) ∧
    exRunShow (Spec.reordered (exRun 1) fun s => 11 - s) = exRunShow (exRun 1) ∧
    (Spec.reordered (exRun 1) fun s => 11 - s).vis 0 0 0 ≠ (exRun 1).vis 0 0 0 := by
  refine ⟨rfl, by decide +kernel, by decide +kernel, by decide +kernel⟩

/-- C123: other units. -/
example : exRunShow (Spec.rescaled (exRun 1) fun _ f => -5 - f) = exRunShow (exRun 1) ∧
    (∀ f : ℕ, (-5 - f : ℚ) ≠ 0) := by
  refine ⟨by decide +kernel, ?_⟩
  intro f
  have : (0 : ℚ) ≤ f := Nat.cast_nonneg f
  linarith

/-- C124: data 16 times as large from gains 4 times as large. -/
def exLouder (r : ℚ) : CalRunIn ℚ ℚ :=
  { exRun 1 with vis := fun p f s => r * r * (exRun 1).vis p f s, gain := fun p f t => r * (exRun 1).gain p f t }

/-- C124 fails: the gains are not 4 times as large. -/
example : exRunShow (exLouder 1) = exRunShow (exRun 1) ∧
    exRunShow (exLouder 4) ≠ (exRunShow (exRun 1)).map (fun x => (x.1.map (·.map (Option.map (4 * ·))), x.2)) := by
  decide +kernel

/-- The conditions of `C124_large_gains`, with a base gain of 1: the plain average would be 5 / 2. -/
example : 2 < ((exRun 1).solveIn 0 0).mag 3 ∧
    ((exRun 1).solveIn 0 0).mag ((2 * ((exRun 1).solveIn 0 0).cast 1 + 3 * ((exRun 1).solveIn 0 0).cast ((exRun 1).solveIn 0 0).base) /
      ((exRun 1).solveIn 0 0).cast (((exRun 1).solveIn 0 0).base + 1)) ≤ ((exRun 1).solveIn 0 0).mag 3 ∧
    ((exRun 1).solveIn 0 0).damp (some 1) 3 (some 2) = 8 / 3 := by
  decide +kernel

/-- The conditions of C125 and the result: the exact gains, turned so that the gain of tile 1 is positive. -/
example : (exRun 0).freqs 0 = [0] ∧ (exRun 0).tiles 0 = [0, 1, 2] ∧ Spec.FlagsAgree (exRun 0) 0 ∧
    (∀ f ∈ (exRun 0).freqs 0, ∀ b ∈ (exRun 0).bls 0, ∀ s ∈ (exRun 0).samplesOf b, 0 < (exRun 0).weight 0 f s →
      (exRun 0).vis 0 f s = (exRun 0).gain 0 f ((exRun 0).tileA b) * star ((exRun 0).gain 0 f ((exRun 0).tileB b)) *
        (exRun 0).model 0 f s) ∧
    (∀ f ∈ (exRun 0).freqs 0, ∀ t ∈ (exRun 0).tiles 0,
      5 ≤ Spec.baselinesOf (exRun 0) 0 f t ∧
      ∃ b ∈ (exRun 0).bls 0, 0 < (exRun 0).blWeight 0 f b ∧ ((exRun 0).tileA b = t ∨ (exRun 0).tileB b = t) ∧
        (exRun 0).average 0 (exRun 0).model f b ≠ 0) ∧
    (∀ f ∈ (exRun 0).freqs 0, Spec.NumbersDiffer (exRun 0) 0 f) ∧
    exRunShow (exRun 0) = some ([[some (-2), some 1, some (-1 / 2), none], [some 2, some (-1), some (1 / 2), none]], 0, 16) := by
  unfold Spec.FlagsAgree Spec.NumbersDiffer
  refine ⟨by decide +kernel, by decide +kernel, by decide +kernel, by decide +kernel, by decide +kernel, by decide +kernel,
    by decide +kernel⟩

/-- C278: with the first sample all tiles have six baselines. -/
example : (∀ t ∈ { exRun 0 with weight := fun _ _ s => if s % 4 = 3 then 0 else 1 }.tiles 0,
      Spec.baselinesOf { exRun 0 with weight := fun _ _ s => if s % 4 = 3 then 0 else 1 } 0 0 t = 6) ∧
    calRunPol { exRun 0 with weight := fun _ _ s => if s % 4 = 3 then 0 else 1 } 0 = .error .indexError := by
  refine ⟨by decide +kernel, ?_⟩
  exact C278_array_raises _ 0 (by unfold Spec.FlagsAgree; decide +kernel) (by decide +kernel) (by decide +kernel) 0 6 (by decide +kernel)
    (by decide) (by decide +kernel)

/-- C278, the partial theorem: without it, it is calibrated. -/
example : ∃ r, calRunPol (exRun 1) 0 = .ok r :=
  C278_differ_partial _ 0 (by unfold Spec.FlagsAgree; decide +kernel) (by decide +kernel) (by decide +kernel) (by decide +kernel)
    (by unfold Spec.NumbersDiffer; decide +kernel)

/-- C126: changes to flagged data, to the channel not in use, and to data of baselines that are too long. -/
def exIgnored : CalRunIn ℚ ℚ := { exRun 1 with maxCal := 7 / 2, maxBaseline := 20, nTime := 6 }

example : (∀ p < exIgnored.nPol, ∀ f < exIgnored.nFreq, ∀ b < exIgnored.nB, ∀ s ∈ exIgnored.samplesOf b,
      exIgnored.isCut f b = true ∨ exIgnored.weight p f s = exIgnored.weight p f s ∧ (exIgnored.weight p f s ≤ 0 ∨
        exIgnored.freqUse f = false ∨
        (if s % 4 < 2 ∧ f = 0 then exIgnored.vis p f s else 99) = exIgnored.vis p f s ∧ exIgnored.model p f s = exIgnored.model p f s)) ∧
    exIgnored.isCut 0 2 = true ∧ exIgnored.isCut 0 1 = false ∧
    (exRunShow (Spec.withData exIgnored (fun p f s => if s % 4 < 2 ∧ f = 0 then exIgnored.vis p f s else 99) exIgnored.model
      exIgnored.weight) = exRunShow exIgnored) ∧ exRunShow exIgnored ≠ none := by
  refine ⟨by decide +kernel, by decide +kernel, by decide +kernel, by decide +kernel, by decide +kernel⟩

/-- The conditions of `C126_limits`; the baseline of length 5 at the second frequency is 10 wavelengths long. -/
example : 0 < (exRun 1).kpix ∧ (∀ x y, (exRun 1).norm (x / (exRun 1).kpix) (y / (exRun 1).kpix) = (exRun 1).norm x y / (exRun 1).kpix) ∧
    (exRun 1).norm ((exRun 1).uu 3) ((exRun 1).vv 3) * (exRun 1).freq 1 = 10 ∧
    (exRun 1).isCut 1 3 = false ∧ { exRun 1 with maxCal := 9 }.isCut 1 3 = true ∧ { exRun 1 with maxCal := 9 }.isCut 0 3 = false := by
  refine ⟨by decide +kernel, ?_, by decide +kernel, by decide +kernel, by decide +kernel, by decide +kernel⟩
  intro x y
  change |x / (1 / 2)| + |y / (1 / 2)| = (|x| + |y|) / (1 / 2)
  rw [abs_div x, abs_div y, abs_of_pos (by norm_num : (0 : ℚ) < 1 / 2), add_div]

/-- C127: tile 3 is flagged and has no baseline in use; the channel not in use keeps its gains. With tile 2 flagged instead,
neither tile 2 nor tile 3 becomes NaN. -/
example : (∀ b ∈ (exRun 1).bls 0, (exRun 1).tileA b ≠ 3 ∧ (exRun 1).tileB b ≠ 3) ∧ (exRun 1).tileUse 3 = false ∧
    (exRunShow (exRun 1)).map (fun x => x.1.map (·.getD 3 (some 0))) = some [none, none] ∧
    (exRunShow (exRun 1)).map (fun x => x.1.getD 1 []) = some [some 2, some (-1), some (1 / 2), none] ∧
    (∃ b ∈ { exRun 1 with tileUse := fun t => t ≠ 2 }.bls 0, (exRun 1).tileB b = 2) ∧
    (exRunShow { exRun 1 with tileUse := fun t => t ≠ 2 }).map (fun x => x.1.getD 0 [] |>.drop 2) = some [some (1 / 2), some 3] := by
  decide +kernel

/-- C128: flagging all of the first of two polarisations does not change the number. -/
example : nVisCal { exRun 1 with nPol := 2 } = 16 ∧
    nVisCal (Spec.withData { exRun 1 with nPol := 2 } (exRun 1).vis (exRun 1).model
      fun p f s => if p = 0 then 0 else (exRun 1).weight p f s) = 16 ∧
    ((List.range 2).map fun f => (List.range 12).countP fun s => decide (0 < (exRun 1).weight 0 f s) && !(exRun 1).isCut f s).sum = 16 := by
  decide +kernel

/-- C129: a new gain of opposite sign; the iteration fits phases only, and yet the gain shrinks to a third. -/
example : 0 < ((exRun 1).solveIn 0 0).phaseIter ∧ ((exRun 1).solveIn 0 0).phaseOnly 0 2 (some (-6)) = some (-2) ∧
    ((exRun 1).solveIn 0 0).damp (some 1) 2 (some (-2)) = 2 / 3 ∧
    ((exRun 1).solveIn 0 0).phaseOnly 1 2 (some (-6)) = some (-6) := by
  decide +kernel

end PyFHD
