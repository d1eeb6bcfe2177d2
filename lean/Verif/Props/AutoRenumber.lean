import Verif.Props.FlagRenumber

/-!
# C285, continued: the starting gains from auto-correlations do not depend on the numbers of the tiles
-/

namespace PyFHD

open Spec

variable {π : Equiv.Perm ℕ}

/-- The auto-correlations of the same tiles: what is at the place of tile `t` in one list is at the place of tile `π t` in the other. -/
def Spec.SameAutos (π : Equiv.Perm ℕ) (tiles tiles' : List ℕ) (a a' : ℕ → ℕ → ℕ → Option ℝ) : Prop :=
  ∀ k k' t : ℕ, tiles[k]? = some t → tiles'[k']? = some (π t) → ∀ p f, a' p f k' = a p f k

theorem lastAuto_some {tiles : List ℕ} {t k : ℕ} (h : lastAuto tiles t = some k) : tiles[k]? = some t := by
  unfold lastAuto at h
  have hm := List.mem_of_getLast? h
  rw [List.mem_filter, List.mem_range, decide_eq_true_eq] at hm
  obtain ⟨h1, h2⟩ := hm
  rw [getD_of_lt h1] at h2
  rw [List.getElem?_eq_getElem h1, h2]

theorem lastAuto_none {tiles : List ℕ} {t : ℕ} : lastAuto tiles t = none ↔ t ∉ tiles := by
  unfold lastAuto
  rw [List.getLast?_eq_none_iff, List.filter_eq_nil_iff]
  constructor
  · intro h ht
    obtain ⟨k, hk, e⟩ := List.getElem_of_mem ht
    exact h k (List.mem_range.2 hk) (by rw [decide_eq_true_eq, getD_of_lt hk, e])
  · intro h k hk hc
    rw [decide_eq_true_eq, getD_of_lt (List.mem_range.1 hk)] at hc
    exact h (hc ▸ List.getElem_mem _)

theorem sumNaN_perm {a b : List (Option ℝ)} (h : a.Perm b) : sumNaN a = sumNaN b := by
  induction h with
  | nil => rfl
  | cons x _ ih => simp only [sumNaN, ih]
  | swap x y l =>
    simp only [sumNaN]
    cases x <;> cases y <;> cases sumNaN l <;> simp [bind, Option.bind, pure]
    ring
  | trans _ _ h1 h2 => exact h1.trans h2

theorem range_renamed {n : ℕ} (hπ : ∀ t, π t < n ↔ t < n) : (List.range n).Perm ((List.range n).map π) := by
  rw [List.perm_ext_iff_of_nodup List.nodup_range ((List.nodup_map_iff π.injective).2 List.nodup_range)]
  intro t
  obtain ⟨s, rfl⟩ := π.surjective t
  rw [List.mem_range, hπ, List.mem_map]
  constructor
  · exact fun hs => ⟨s, List.mem_range.2 hs, rfl⟩
  · rintro ⟨r, hr, e⟩
    rw [← π.injective e]
    exact List.mem_range.1 hr

/-- **C285.** The starting gains from the auto-correlations are those of the same tiles: also the errors are the same. -/
theorem C285_auto_init (c : CalRunIn ℂ ℝ) (hπ : ∀ t, π t < c.nTile ↔ t < c.nTile) (tiles tiles' : List ℕ)
    (ht : tiles'.Perm (tiles.map π)) (autos autos' models models' : ℕ → ℕ → ℕ → Option ℝ)
    (ha : SameAutos π tiles tiles' autos autos') (hm : SameAutos π tiles tiles' models models') :
    autoInitOf (renumbered c π) tiles' autos' models' = (autoInitOf c tiles autos models).map (renamed π) := by
  have hg0 : ∀ p f t, autoGain0 sqrtNaN tiles' (autos' p) (models' p) f (π t) = autoGain0 sqrtNaN tiles (autos p) (models p) f t := by
    intro p f t
    unfold autoGain0
    cases h : lastAuto tiles t with
    | none =>
      have : lastAuto tiles' (π t) = none := by
        rw [lastAuto_none, mem_renamed π ht]
        exact lastAuto_none.1 h
      rw [this]
    | some k =>
      cases h' : lastAuto tiles' (π t) with
      | none =>
        rw [lastAuto_none, mem_renamed π ht] at h'
        exact absurd (List.mem_of_getElem? (lastAuto_some h)) h'
      | some k' =>
        simp only [ha k k' t (lastAuto_some h) (lastAuto_some h'), hm k k' t (lastAuto_some h) (lastAuto_some h')]
  have hmean : ∀ p, meanNaN ((samples c.nFreq c.nTile).map fun s => autoGain0 sqrtNaN tiles' (autos' p) (models' p) s.1 s.2) =
      meanNaN ((samples c.nFreq c.nTile).map fun s => autoGain0 sqrtNaN tiles (autos p) (models p) s.1 s.2) := by
    intro p
    have hperm : ((samples c.nFreq c.nTile).map fun s => autoGain0 sqrtNaN tiles' (autos' p) (models' p) s.1 s.2).Perm
        ((samples c.nFreq c.nTile).map fun s => autoGain0 sqrtNaN tiles (autos p) (models p) s.1 s.2) := by
      unfold samples
      rw [List.map_flatMap, List.map_flatMap]
      refine List.Perm.flatMap_left _ fun f _ => ?_
      rw [List.map_map, List.map_map]
      refine ((range_renamed hπ).map _).trans ?_
      rw [List.map_map]
      refine List.Perm.of_eq (List.map_congr_left fun t _ => ?_)
      exact hg0 p f t
    unfold meanNaN
    rw [sumNaN_perm hperm, hperm.length_eq]
  have hscale : autoScaleOf (renumbered c π) = autoScaleOf c := rfl
  have htiles : (∀ t ∈ tiles', t < c.nTile) ↔ ∀ t ∈ tiles, t < c.nTile := by
    constructor
    · intro h t htt
      exact (hπ t).1 (h _ ((mem_renamed π ht t).2 htt))
    · intro h t htt
      obtain ⟨s, rfl⟩ := π.surjective t
      exact (hπ s).2 (h s ((mem_renamed π ht s).1 htt))
  unfold autoInitOf
  rw [hscale]
  show ((visCalAutoInit sqrtNaN c.nFreq c.nTile tiles' autos' models' (autoScaleOf c)).map _) = _
  unfold visCalAutoInit
  simp only [htiles]
  split_ifs
  · simp only [Except.map, Except.ok.injEq]
    apply eq_renamed
    intro p f t
    unfold autoInitPol
    simp only [hg0, hmean]
  · rfl

/-- **C285.** `calibrate` with the starting gains, the flagging and the fits to the auto-correlations of the source does not depend on the
numbers of the tiles. -/
theorem C285_all (c c' : CalibrateIn) (fit : FlagFit ℝ) (hstd : ∀ a b : List ℝ, a.Perm b → fit.std a = fit.std b) (flagFreq : Bool)
    (lstsq : List ℝ → List ℝ → ℝ × ℝ) (auto auto' : ℕ → ℕ → ℕ → Option ℝ) (ha : ∀ p f t, auto' p f (π t) = auto p f t)
    (autos autos' models models' : ℕ → ℕ → ℕ → Option ℝ) (ha1 : SameAutos π c.autoTiles (c.autoTiles.map π) autos autos')
    (ha2 : SameAutos π c.autoTiles (c.autoTiles.map π) models models')
    (hinit : c.autoInit = autoInitOf c.run c.autoTiles autos models)
    (hflagF : c.flag = flagStepOf fit c.run.nPol c.run.nFreq c.run.nTile flagFreq)
    (hautoF : c.autoFit = autoFitOf lstsq c.run.nPol c.run.nFreq auto c.autoTiles)
    (hc' : c' = { c with
      run := renumbered c.run π
      cables := c.cables.map fun q => (q.1, fun t => q.2 (π.symm t))
      ratio := fun p f t => c.ratio p f (π.symm t)
      autoTiles := c.autoTiles.map π
      autoInit := autoInitOf (renumbered c.run π) (c.autoTiles.map π) autos' models'
      autoFit := autoFitOf lstsq c.run.nPol c.run.nFreq auto' (c.autoTiles.map π) })
    (hπ : ∀ t, π t < c.run.nTile ↔ t < c.run.nTile) (hflag : ∀ p < c.run.nPol, FlagsAgree c.run p)
    (href : c.run.noRef = false → ∀ p < c.run.nPol, refTile ((renumbered c.run π).tiles p) = π (refTile (c.run.tiles p)))
    (hpol : 1 ≤ c.run.nPol ∧ c.run.nPol ≤ 2) (hAB : TilesExist c.run) (o : CalOpts) (u u' : InUse) (hu : SameUse π u u')
    (r : CalibrateOut) (hr : calibrateAll c o u = .ok r) :
    ∃ r', calibrateAll c' o u' = .ok r' ∧ (∀ p f t, r'.gain p f (π t) = r.gain p f t) ∧
      (∀ p f t, r'.residual p f (π t) = r.residual p f t) ∧ SameUse π r.inUse r'.inUse ∧ r'.stats = r.stats ∧
      ∀ p < c.run.nPol, ∀ f, ∀ s < c.run.nBl * c.run.nTime, r'.vis p f s = r.vis p f s := by
  refine C285_calibrate c c' fit hstd flagFreq lstsq auto auto' ha hflagF hautoF ?_ hπ hflag href hpol hAB o u u' hu r hr
  rw [hc', C285_auto_init c.run hπ c.autoTiles _ (List.Perm.refl _) autos autos' models models' ha1 ha2, hinit]

/-! ## Examples -/

/-- Auto-correlations of the tiles 0 and 2 in this order, and of the same tiles in the other order after exchange of their numbers. -/
example : SameAutos (Equiv.swap 0 2) [0, 2] [0, 2] (fun _ _ k => [some 8, some 2].getD k none) (fun _ _ k => [some 2, some 8].getD k none) := by
  intro k k' t h h' p f
  match k, k' with
  | 0, 0 => simp at h h'; subst h; simp at h'
  | 0, 1 => rfl
  | 1, 0 => rfl
  | 1, 1 => simp at h h'; subst h; simp at h'
  | k + 2, _ => simp at h
  | _, k + 2 => simp at h'

/-- The gains of these tiles are not the same: the tiles are told apart. -/
example : sqrtNaN (8 / 2) = some 2 := by
  unfold sqrtNaN
  rw [if_neg (by norm_num), show (8 / 2 : ℝ) = 2 ^ 2 by norm_num, Real.sqrt_sq (by norm_num)]

end PyFHD
