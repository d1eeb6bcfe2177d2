import Verif.Model.FreqSplit
import Verif.Props.VisGrid
import Verif.Props.Healpix
import Verif.Props.ImagingOpts

/-!
# C105-C109: the planes of the HEALPix export
-/

namespace PyFHD

open Spec Finset

variable {K : Type _} [Field K] [StarRing K]

/-! ## Sums over samples -/

theorem getD_in {α : Type _} (l : List α) {i : ℕ} (d : α) (h : i < l.length) : l.getD i d = l[i] := by
  simp [List.getD, h]

/-- A sum over the flat indices is a sum over channels and baselines. -/
theorem sum_flat {M : Type _} [AddCommMonoid M] (F B : List ℕ) (c : ℕ → ℕ → M) :
    ∑ k ∈ range (F.length * B.length), c (F.getD (k / B.length) 0) (B.getD (k % B.length) 0)
      = (F.map fun f => (B.map fun b => c f b).sum).sum := by
  rcases Nat.eq_zero_or_pos B.length with h0 | hB
  · rw [List.length_eq_zero_iff] at h0
    subst h0
    simp
  induction F with
  | nil => simp
  | cons a t ih =>
    rw [List.length_cons, Nat.succ_mul, Nat.add_comm, sum_range_add, List.map_cons, List.sum_cons, ← ih]
    congr 1
    · have : (B.map fun b => c a b).sum = ∑ k ∈ range B.length, c a (B.getD k 0) := by
        rw [← sum_range_list]
        congr 1
        apply List.ext_getElem
        · simp
        · intro i h1 h2
          have : i < B.length := by simpa using h1
          simp [List.getD, this]
      rw [this]
      apply sum_congr rfl
      intro k hk
      have hk := mem_range.1 hk
      rw [Nat.div_eq_of_lt hk, Nat.mod_eq_of_lt hk]
      rfl
    · apply sum_congr rfl
      intro k _
      rw [Nat.add_div_left _ hB, Nat.add_mod_left]
      rfl

/-- The channels in use of range number `fi`. -/
def Spec.rangeChannels (nFreq nAvg : ℕ) (freqUse : ℕ → ℤ) (fi : ℕ) : Finset ℕ :=
  (range nFreq).filter fun c => c / nAvg = fi ∧ 0 < freqUse c

/-- All channels in use. -/
def Spec.usedChannels (nFreq : ℕ) (freqUse : ℕ → ℤ) : Finset ℕ := (range nFreq).filter fun c => 0 < freqUse c

/-- The sum over the channels `F` and the baselines of the samples that reach pixel `(y, x)`, of `c f b p` where `p` is
the place of the pixel in the footprint of the sample. -/
def Spec.cellSum (g : GridIn) (F : Finset ℕ) (c : ℕ → ℕ → ℕ → K) (y x : ℕ) : K :=
  ∑ f ∈ F, (g.biUse.map fun b => if Reaches g f b y x then
    c f b ((y - y0 g f b) * g.psfDim + (x - x0 g f b)) else 0).sum

/-- Half of a plane plus half of its conjugate at the opposite cell. -/
def Spec.mirrored (n m : ℕ) (S : ℕ → ℕ → K) (y x : ℕ) : K :=
  (S y x + star (S ((n - y) % n) ((m - x) % m))) / 2

/-- The number of baselines gridded in a channel. -/
def Spec.gridded (g : GridIn) (f : ℕ) : ℕ := (g.biUse.filter fun b => decide (Gridable g f b)).length

/-- What the gridding of a list of channels gives if they share the beam. -/
theorem grid_sums [CharZero K] (g : VisGridIn K) (hn : g.noConjugate = false)
    (hsq : g.elements = g.dimension) (hf : g.freqAll ≠ []) (hl : ∀ b, 0 ≤ blLength g.toGridIn b)
    (hr : 0 < g.res) (hk : 0 < g.kpix) (hnd : g.fiUse.Nodup)
    (hb : ∀ f ∈ g.fiUse, ∀ f' ∈ g.fiUse, g.fbin f = g.fbin f') :
    ∃ o, visibilityGrid g = .ok o ∧
      (o = none ↔ ∀ f ∈ g.fiUse, ∀ b ∈ g.biUse, ¬ Gridable g.toGridIn f b) ∧
      ∀ out, o = some out →
        out.nVis = ∑ f ∈ g.fiUse.toFinset, gridded g.toGridIn f ∧
        out.nfVis = g.fiUse.map (gridded g.toGridIn) ∧
        ∀ y x, y < g.elements → x < g.dimension →
          out.planes.image y x * out.nVis = mirrored g.elements g.dimension
            (cellSum g.toGridIn g.fiUse.toFinset
              fun f b p => star (kernelAt g (g.fbin f) f b p) * visOf g f b) y x ∧
          out.planes.weights y x * out.nVis = mirrored g.elements g.dimension
            (cellSum g.toGridIn g.fiUse.toFinset fun f b p => star (kernelAt g (g.fbin f) f b p)) y x ∧
          out.planes.variance y x * out.nVis = mirrored g.elements g.dimension
            (cellSum g.toGridIn g.fiUse.toFinset
              fun f b p => star (kernelAt g (g.fbin f) f b p) * kernelAt g (g.fbin f) f b p) y x / 2 := by
  obtain ⟨o, h1, h2, h3⟩ := C31_planes_partial g hsq hf hl hr hk
  have hker : ∀ k < g.fiUse.length * g.biUse.length, ∀ p, usedKernel g k p
      = kernelAt g (g.fbin (chanOf g.toGridIn k)) (chanOf g.toGridIn k) (blOf g.toGridIn k) p := by
    intro k hk p
    have hF : 0 < g.fiUse.length := by
      rcases Nat.eq_zero_or_pos g.fiUse.length with h | h
      · rw [h] at hk; omega
      · exact h
    have hB : 0 < g.biUse.length := by
      rcases Nat.eq_zero_or_pos g.biUse.length with h | h
      · rw [h] at hk; omega
      · exact h
    have m1 : g.fiUse.getD (k % g.fiUse.length) 0 ∈ g.fiUse := by
      rw [getD_in _ _ (Nat.mod_lt _ hF)]; exact List.getElem_mem _
    have m2 : chanOf g.toGridIn k ∈ g.fiUse := by
      unfold chanOf
      rw [getD_in _ _ ((Nat.div_lt_iff_lt_mul hB).2 hk)]; exact List.getElem_mem _
    unfold usedKernel
    rw [hb _ m1 _ m2]
  have hsum : ∀ (c : ℕ → ℕ → ℕ → K) (N : K) (y x : ℕ), N ≠ 0 →
      ∀ c' : ℕ → ℕ → K, (∀ k < g.fiUse.length * g.biUse.length, ∀ p,
        c' k p = c (chanOf g.toGridIn k) (blOf g.toGridIn k) p / N) →
      sumReaching g.toGridIn y x c' * N = cellSum g.toGridIn g.fiUse.toFinset c y x := by
    intro c N y x hN c' hc
    unfold cellSum
    rw [List.sum_toFinset _ hnd,
      ← sum_flat g.fiUse g.biUse fun f b => if Reaches g.toGridIn f b y x then
        c f b ((y - y0 g.toGridIn f b) * g.psfDim + (x - x0 g.toGridIn f b)) else 0]
    unfold sumReaching
    rw [sum_mul]
    apply sum_congr rfl
    intro k hk
    have hk := mem_range.1 hk
    show _ = if Reaches g.toGridIn (chanOf g.toGridIn k) (blOf g.toGridIn k) y x then _ else _
    split_ifs
    · rw [hc k hk, div_mul_cancel₀ _ hN]; rfl
    · rw [zero_mul]
  have hcorner : ∀ f b, (0 < (g.corner f b).1) ↔ Gridable g.toGridIn f b := by
    intro f b
    have hG : Gridable g.toGridIn f b ↔ GridableOn g.toGridIn g.elements g.dimension f b := by
      unfold Gridable; rw [hsq]
    rw [hG]
    rcases corner_spec g.toGridIn f b hf (hl b) with ⟨e, h⟩ | ⟨e, h⟩
    · rw [e]; exact ⟨fun _ => h, fun _ => h.1.1⟩
    · rw [e]; exact ⟨fun hc => by simp at hc, fun hc => absurd hc h⟩
  have hcount : ((List.range (g.fiUse.length * g.biUse.length)).filter fun k =>
      decide (Gridable g.toGridIn (chanOf g.toGridIn k) (blOf g.toGridIn k))).length
      = ∑ f ∈ g.fiUse.toFinset, gridded g.toGridIn f := by
    rw [List.sum_toFinset _ hnd]
    have e1 : ∀ l : List ℕ, ∀ P : ℕ → Prop, ∀ _ : DecidablePred P,
        (l.filter fun k => decide (P k)).length = (l.map fun k => if P k then 1 else 0).sum := by
      intro l P _
      induction l with
      | nil => rfl
      | cons a t ih =>
        by_cases h : P a
        · rw [List.filter_cons_of_pos (by simpa using h)]; simp [h, ih]; omega
        · rw [List.filter_cons_of_neg (by simpa using h)]; simp [h, ih]
    rw [e1 _ _ inferInstance, sum_range_list]
    have := sum_flat g.fiUse g.biUse fun f b => if Gridable g.toGridIn f b then 1 else 0
    refine Eq.trans this ?_
    congr 1
    apply List.map_congr_left
    intro f _
    unfold gridded
    rw [e1 _ _ inferInstance]
  refine ⟨o.map (visGridFinish g), by unfold visibilityGrid; rw [h1]; rfl, ?_, ?_⟩
  · rw [Option.map_eq_none_iff, h2]
    constructor
    · intro h f hf' b hb'
      obtain ⟨i, hi, rfl⟩ := List.getElem_of_mem hf'
      obtain ⟨j, hj, rfl⟩ := List.getElem_of_mem hb'
      have := h (i * g.biUse.length + j) (by nlinarith)
      unfold chanOf blOf at this
      rw [show i * g.biUse.length + j = j + i * g.biUse.length by omega,
        Nat.add_mul_div_right _ _ (by omega), Nat.div_eq_of_lt hj, Nat.zero_add,
        Nat.add_mul_mod_self_right, Nat.mod_eq_of_lt hj, getD_in _ _ hi, getD_in _ _ hj] at this
      exact this
    · intro h k hk
      have hB : 0 < g.biUse.length := by
        rcases Nat.eq_zero_or_pos g.biUse.length with h | h
        · rw [h] at hk; omega
        · exact h
      apply h
      · unfold chanOf
        rw [getD_in _ _ ((Nat.div_lt_iff_lt_mul hB).2 hk)]; exact List.getElem_mem _
      · unfold blOf
        rw [getD_in _ _ (Nat.mod_lt _ hB)]; exact List.getElem_mem _
  · intro out hout
    cases o with
    | none => cases hout
    | some v =>
      obtain ⟨hv, h⟩ := h3 v rfl
      simp only [Option.map_some, Option.some.injEq] at hout
      have hnv : out.nVis = v.nVis := by rw [← hout]; unfold visGridFinish; rw [hn]; rfl
      have hnf : out.nfVis = v.nfVis := by rw [← hout]; unfold visGridFinish; rw [hn]; rfl
      have hvf : v.nfVis = g.fiUse.map (gridded g.toGridIn) := by
        unfold visGridCore at h1
        simp only [bind, Except.bind] at h1
        cases hb : gridBins g.toGridIn with
        | error e => rw [hb] at h1; cases h1
        | ok b =>
          rw [hb] at h1
          cases b with
          | none => cases h1
          | some b =>
            simp only [] at h1
            split_ifs at h1
            · cases h1
            · simp only [pure, Except.pure, Except.ok.injEq, Option.some.injEq] at h1
              rw [← h1]
              simp only []
              apply List.map_congr_left
              intro f _
              unfold gridded
              congr 1
              apply List.filter_congr
              intro b _
              rw [decide_eq_decide]
              exact hcorner f b
      have hN0 : (v.nVis : K) ≠ 0 := by
        have hne : ¬ ∀ k < g.fiUse.length * g.biUse.length,
            ¬ Gridable g.toGridIn (chanOf g.toGridIn k) (blOf g.toGridIn k) := by
          rw [← h2]; simp
        push Not at hne
        obtain ⟨k, hk, hG⟩ := hne
        rw [hv, Nat.cast_ne_zero, ← Nat.pos_iff_ne_zero]
        apply List.length_pos_of_mem (a := k)
        rw [List.mem_filter]
        exact ⟨List.mem_range.2 hk, by simpa using hG⟩
      refine ⟨by rw [hnv, hv, hcount], by rw [hnf, hvf], fun y x hy hx => ?_⟩
      have i1 : out.planes.image = symmetrise true g.elements g.dimension v.planes.image := by
        rw [← hout]; unfold visGridFinish; rw [hn]; rfl
      have i2 : out.planes.weights = symmetrise true g.elements g.dimension v.planes.weights := by
        rw [← hout]; unfold visGridFinish; rw [hn]; rfl
      have i3 : out.planes.variance = fun y x => (v.planes.variance y x
          + conjugateMirror false g.elements g.dimension v.planes.variance y x) / 4 := by
        rw [← hout]; unfold visGridFinish; rw [hn]; rfl
      have hstar : star (v.nVis : K) = v.nVis := star_natCast _
      have half : ∀ (P : Plane K) (c : ℕ → ℕ → ℕ → K),
          (∀ y x, P y x * v.nVis = cellSum g.toGridIn g.fiUse.toFinset c y x) →
          symmetrise true g.elements g.dimension P y x * v.nVis
            = mirrored g.elements g.dimension (cellSum g.toGridIn g.fiUse.toFinset c) y x := by
        intro P c hP
        unfold symmetrise mirrored
        rw [C23_mirror_entry true _ _ _ _ _ hy hx]
        simp only [if_true, negIdx, Nat.mod_eq_of_lt hy, Nat.mod_eq_of_lt hx]
        rw [← hP, ← hP, star_mul', hstar]
        ring
      refine ⟨?_, ?_, ?_⟩
      · rw [i1, hnv]
        refine half _ _ fun y x => ?_
        rw [(h y x).1]
        exact hsum _ _ _ _ hN0 _ fun k hk p => by rw [hker k hk]
      · rw [i2, hnv]
        refine half _ _ fun y x => ?_
        rw [(h y x).2.1]
        exact hsum _ _ _ _ hN0 _ fun k hk p => by rw [hker k hk]
      · rw [i3, hnv]
        simp only []
        have hP : ∀ y x, v.planes.variance y x * v.nVis = cellSum g.toGridIn g.fiUse.toFinset
            (fun f b p => star (kernelAt g (g.fbin f) f b p) * kernelAt g (g.fbin f) f b p) y x := by
          intro y x
          rw [(h y x).2.2.1]
          exact hsum (fun f b p => star (kernelAt g (g.fbin f) f b p) * kernelAt g (g.fbin f) f b p)
            _ _ _ hN0 _ fun k hk p => by rw [hker k hk]
        have hreal : ∀ y x, star (cellSum g.toGridIn g.fiUse.toFinset
            (fun f b p => star (kernelAt g (g.fbin f) f b p) * kernelAt g (g.fbin f) f b p) y x)
            = cellSum g.toGridIn g.fiUse.toFinset
            (fun f b p => star (kernelAt g (g.fbin f) f b p) * kernelAt g (g.fbin f) f b p) y x := by
          intro y x
          unfold cellSum
          rw [star_sum]
          apply sum_congr rfl
          intro f _
          have : ∀ l : List K, star l.sum = (l.map star).sum := by
            intro l
            induction l with
            | nil => simp
            | cons a t ih => simp [ih]
          rw [this, List.map_map]
          congr 1
          apply List.map_congr_left
          intro b _
          simp only [Function.comp_apply]
          split_ifs
          · rw [star_mul', star_star, mul_comm]
          · exact star_zero _
        unfold mirrored
        rw [C23_mirror_entry false _ _ _ _ _ hy hx, hreal, ← hP, ← hP]
        simp only [Bool.false_eq_true, if_false, negIdx, Nat.mod_eq_of_lt hy, Nat.mod_eq_of_lt hx]
        ring


/-! ## The loop over the ranges of channels -/

theorem mem_expChannels (nFreq nAvg : ℕ) (freqUse : ℕ → ℤ) (fi c : ℕ) :
    c ∈ expChannels nFreq nAvg freqUse fi ↔ c < nFreq ∧ c / nAvg = fi ∧ 0 < freqUse c := by
  unfold expChannels expBin
  simp

theorem expChannels_nodup (nFreq nAvg : ℕ) (freqUse : ℕ → ℤ) (fi : ℕ) :
    (expChannels nFreq nAvg freqUse fi).Nodup := List.nodup_range.filter _

theorem expChannels_toFinset (nFreq nAvg : ℕ) (freqUse : ℕ → ℤ) (fi : ℕ) :
    (expChannels nFreq nAvg freqUse fi).toFinset = rangeChannels nFreq nAvg freqUse fi := by
  ext c
  rw [List.mem_toFinset, mem_expChannels]
  unfold rangeChannels
  simp

/-- What is asked of the inputs: a square plane, frequencies, and the same beam for all channels in use of a
range. -/
structure Spec.SplitOk (s : SplitIn K) : Prop where
  conj : s.grid.noConjugate = false
  square : s.grid.elements = s.grid.dimension
  freqs : s.grid.freqAll ≠ []
  lengths : ∀ b, 0 ≤ blLength s.grid.toGridIn b
  res : 0 < s.grid.res
  kpix : 0 < s.grid.kpix
  beam : ∀ fi, ∀ c ∈ rangeChannels s.nFreq s.nAvg s.freqUse fi,
    ∀ c' ∈ rangeChannels s.nFreq s.nAvg s.freqUse fi, s.grid.fbin c = s.grid.fbin c'

/-- The sum of the visibilities `vis` in a cell, each times the conjugate of the kernel of its own channel. -/
def Spec.visSum (s : SplitIn K) (vis : ℕ → ℕ → K) (F : Finset ℕ) : ℕ → ℕ → K :=
  cellSum s.grid.toGridIn F fun f b p => star (kernelAt s.grid (s.grid.fbin f) f b p)
    * if Mirrored s.grid.toGridIn b then star (vis f b) else vis f b

/-- The sum of the conjugate kernels in a cell. -/
def Spec.kernelSum (s : SplitIn K) (F : Finset ℕ) : ℕ → ℕ → K :=
  cellSum s.grid.toGridIn F fun f b p => star (kernelAt s.grid (s.grid.fbin f) f b p)

/-- The sum of the squared moduli of the kernels in a cell. -/
def Spec.kernelSquares (s : SplitIn K) (F : Finset ℕ) : ℕ → ℕ → K :=
  cellSum s.grid.toGridIn F fun f b p =>
    star (kernelAt s.grid (s.grid.fbin f) f b p) * kernelAt s.grid (s.grid.fbin f) f b p

/-- The four planes of the channels `F`. -/
structure Spec.IsPlanes (s : SplitIn K) (F : Finset ℕ) (p : SplitPlanes K) : Prop where
  dirty : ∀ y < s.grid.elements, ∀ x < s.grid.dimension,
    p.dirty y x = mirrored s.grid.elements s.grid.dimension (visSum s s.grid.vis F) y x
  model : ∀ y < s.grid.elements, ∀ x < s.grid.dimension,
    p.model y x = mirrored s.grid.elements s.grid.dimension (visSum s s.model F) y x
  weights : ∀ y < s.grid.elements, ∀ x < s.grid.dimension,
    p.weights y x = mirrored s.grid.elements s.grid.dimension (kernelSum s F) y x * s.rephase y x
  variance : ∀ y < s.grid.elements, ∀ x < s.grid.dimension,
    p.variance y x = mirrored s.grid.elements s.grid.dimension (kernelSquares s F) y x / 2 * s.rephase y x

/-- Something is gridded in range `fi`. -/
def Spec.Any (s : SplitIn K) (fi : ℕ) : Prop :=
  ∃ c ∈ rangeChannels s.nFreq s.nAvg s.freqUse fi, ∃ b ∈ s.grid.biUse, Gridable s.grid.toGridIn c b

theorem cellSum_zero (g : GridIn) (F : Finset ℕ) (c : ℕ → ℕ → ℕ → K)
    (h : ∀ f ∈ F, ∀ b ∈ g.biUse, ¬ Gridable g f b) (y x : ℕ) : cellSum g F c y x = 0 := by
  unfold cellSum
  apply sum_eq_zero
  intro f hf
  apply List.sum_eq_zero
  intro v hv
  obtain ⟨b, hb, rfl⟩ := List.mem_map.1 hv
  rw [if_neg]
  exact fun hR => h f hf b hb hR.1

theorem gridBoth_spec [CharZero K] (s : SplitIn K) (ok : SplitOk s) (fi : ℕ) :
    (s.gridBoth fi = .ok none ∧ ¬ Any s fi) ∨
    ∃ o m, s.gridBoth fi = .ok (some (o, m)) ∧ Any s fi ∧
      o.nVis = ∑ c ∈ rangeChannels s.nFreq s.nAvg s.freqUse fi, gridded s.grid.toGridIn c ∧
      o.nfVis = (expChannels s.nFreq s.nAvg s.freqUse fi).map (gridded s.grid.toGridIn) ∧
      IsPlanes s (rangeChannels s.nFreq s.nAvg s.freqUse fi) (splitPlanes s.rephase o m) := by
  have hbm : ∀ f ∈ (s.gridIn fi).fiUse, ∀ f' ∈ (s.gridIn fi).fiUse,
      (s.gridIn fi).fbin f = (s.gridIn fi).fbin f' := by
    intro f hf f' hf'
    have e := expChannels_toFinset s.nFreq s.nAvg s.freqUse fi
    refine ok.beam fi f ?_ f' ?_
    · rw [← e]; exact List.mem_toFinset.2 hf
    · rw [← e]; exact List.mem_toFinset.2 hf'
  have hnd : (s.gridIn fi).fiUse.Nodup := expChannels_nodup _ _ _ _
  obtain ⟨o, h1, h2, h3⟩ := grid_sums (s.gridIn fi) ok.conj ok.square ok.freqs ok.lengths ok.res ok.kpix hnd hbm
  obtain ⟨m, m1, m2, m3⟩ := grid_sums { s.gridIn fi with vis := s.model } ok.conj ok.square ok.freqs
    ok.lengths ok.res ok.kpix hnd hbm
  have hany : (∀ f ∈ (s.gridIn fi).fiUse, ∀ b ∈ (s.gridIn fi).biUse, ¬ Gridable (s.gridIn fi).toGridIn f b)
      ↔ ¬ Any s fi := by
    unfold Any
    rw [← expChannels_toFinset]
    constructor
    · rintro h ⟨c, hc, b, hb, hG⟩
      exact h c (List.mem_toFinset.1 hc) b hb hG
    · intro h f hf b hb hG
      exact h ⟨f, List.mem_toFinset.2 hf, b, hb, hG⟩
  by_cases hA : Any s fi
  · right
    have hn : ∀ q : Option (VisGridOut K), (q = none ↔ ∀ f ∈ (s.gridIn fi).fiUse, ∀ b ∈ (s.gridIn fi).biUse,
        ¬ Gridable (s.gridIn fi).toGridIn f b) → ∃ v, q = some v := by
      intro q hq
      cases q with
      | none => exact absurd hA (hany.1 (hq.1 rfl))
      | some v => exact ⟨v, rfl⟩
    obtain ⟨v, rfl⟩ := hn o h2
    obtain ⟨w, rfl⟩ := hn m m2
    obtain ⟨a1, a2, a3⟩ := h3 v rfl
    obtain ⟨b1, b2, b3⟩ := m3 w rfl
    have e : (s.gridIn fi).fiUse.toFinset = rangeChannels s.nFreq s.nAvg s.freqUse fi :=
      expChannels_toFinset s.nFreq s.nAvg s.freqUse fi
    have hnv : w.nVis = v.nVis := b1.trans a1.symm
    refine ⟨v, w.planes.image, ?_, hA, ?_, a2, ?_⟩
    · unfold SplitIn.gridBoth
      rw [h1, m1]
    · rw [a1, e]; rfl
    · constructor
      · intro y hy x hx
        refine Eq.trans (a3 y x hy hx).1 ?_
        rw [e]; rfl
      · intro y hy x hx
        show w.planes.image y x * (v.nVis : K) = _
        rw [← hnv]
        refine Eq.trans (b3 y x hy hx).1 ?_
        show mirrored _ _ (cellSum _ (s.gridIn fi).fiUse.toFinset _) y x = _
        rw [e]; rfl
      · intro y hy x hx
        show v.planes.weights y x * s.rephase y x * (v.nVis : K) = _
        rw [mul_right_comm, (a3 y x hy hx).2.1, e]; rfl
      · intro y hy x hx
        show v.planes.variance y x * s.rephase y x * (v.nVis : K) = _
        rw [mul_right_comm, (a3 y x hy hx).2.2, e]; rfl
  · left
    refine ⟨?_, hA⟩
    have : o = none := h2.2 (hany.2 hA)
    subst this
    unfold SplitIn.gridBoth
    rw [h1]

theorem isPlanes_zero (s : SplitIn K) (F : Finset ℕ)
    (h : ∀ f ∈ F, ∀ b ∈ s.grid.biUse, ¬ Gridable s.grid.toGridIn f b) : IsPlanes s F zeroPlanes := by
  have hz : ∀ (c : ℕ → ℕ → ℕ → K) (y x : ℕ), mirrored s.grid.elements s.grid.dimension (cellSum s.grid.toGridIn F c) y x = 0 := by
    intro c y x
    unfold mirrored
    rw [cellSum_zero _ _ _ h, cellSum_zero _ _ _ h]
    simp
  constructor
  · intro y _ x _; unfold visSum; rw [hz]; rfl
  · intro y _ x _; unfold visSum; rw [hz]; rfl
  · intro y _ x _; unfold kernelSum; rw [hz, zero_mul]; rfl
  · intro y _ x _; unfold kernelSquares; rw [hz, zero_div, zero_mul]; rfl

open Classical in
/-- One pass of the loop. -/
theorem split_step [CharZero K] (s : SplitIn K) (ok : SplitOk s) (fi : ℕ) :
    ∃ P : SplitPlanes K, IsPlanes s (rangeChannels s.nFreq s.nAvg s.freqUse fi) P ∧
      ∀ st : SplitState K, s.step st fi = .ok ⟨st.planes ++ [P],
        st.nVis + ∑ c ∈ rangeChannels s.nFreq s.nAvg s.freqUse fi, gridded s.grid.toGridIn c,
        if Any s fi then setCounts st.nfVis (expChannels s.nFreq s.nAvg s.freqUse fi)
          ((expChannels s.nFreq s.nAvg s.freqUse fi).map (gridded s.grid.toGridIn)) else st.nfVis⟩ := by
  have hg0 : ¬ Any s fi → ∑ c ∈ rangeChannels s.nFreq s.nAvg s.freqUse fi, gridded s.grid.toGridIn c = 0 := by
    intro hA
    apply sum_eq_zero
    intro c hc
    unfold gridded
    rw [List.length_eq_zero_iff, List.filter_eq_nil_iff]
    intro b hb hG
    exact hA ⟨c, hc, b, hb, by simpa using hG⟩
  rcases gridBoth_spec s ok fi with ⟨h, hA⟩ | ⟨o, m, h, hA, h1, h2, h3⟩
  · refine ⟨zeroPlanes, isPlanes_zero s _ fun f hf b hb hG => hA ⟨f, hf, b, hb, hG⟩, fun st => ?_⟩
    unfold SplitIn.step
    simp only [h]
    rw [if_neg hA, hg0 hA, Nat.add_zero]
    split_ifs <;> rfl
  · refine ⟨_, h3, fun st => ?_⟩
    unfold SplitIn.step
    simp only [h]
    rw [if_neg, if_pos hA, h1, h2]
    intro h0
    obtain ⟨c, hc, _⟩ := hA
    rw [← expChannels_toFinset, List.length_eq_zero_iff.1 h0] at hc
    simp at hc

open Classical in
/-- The whole loop. -/
theorem freqSplit_ok [CharZero K] (s : SplitIn K) (ok : SplitOk s) (nf : ℕ → ℕ) :
    ∃ P : ℕ → SplitPlanes K, (∀ fi, IsPlanes s (rangeChannels s.nFreq s.nAvg s.freqUse fi) (P fi)) ∧
      freqSplit s nf = .ok ⟨(List.range (expNf s.nFreq s.nAvg)).map P,
        ∑ fi ∈ range (expNf s.nFreq s.nAvg), ∑ c ∈ rangeChannels s.nFreq s.nAvg s.freqUse fi,
          gridded s.grid.toGridIn c,
        (List.range (expNf s.nFreq s.nAvg)).foldl (fun a fi =>
          if Any s fi then setCounts a (expChannels s.nFreq s.nAvg s.freqUse fi)
            ((expChannels s.nFreq s.nAvg s.freqUse fi).map (gridded s.grid.toGridIn)) else a) nf⟩ := by
  choose P hP hstep using split_step s ok
  refine ⟨P, hP, ?_⟩
  unfold freqSplit
  generalize expNf s.nFreq s.nAvg = n
  induction n with
  | zero => rfl
  | succ n ih =>
    rw [List.range_succ, List.foldlM_append, ih]
    simp only [bind, Except.bind, List.foldlM_cons, List.foldlM_nil, hstep, pure, Except.pure,
      List.map_append, List.map_cons, List.map_nil, sum_range_succ, List.foldl_append, List.foldl_cons,
      List.foldl_nil]

/-- The ranges in use cover the channels in use. -/
theorem sum_ranges {M : Type _} [AddCommMonoid M] (nFreq nAvg : ℕ) (freqUse : ℕ → ℤ) (c : ℕ → M) :
    ∑ fi ∈ range (expNf nFreq nAvg), ∑ f ∈ rangeChannels nFreq nAvg freqUse fi, c f
      = ∑ f ∈ usedChannels nFreq freqUse, c f := by
  rw [← sum_fiberwise_of_maps_to (s := usedChannels nFreq freqUse) (t := range (expNf nFreq nAvg))
    (g := fun f => f / nAvg)]
  · apply sum_congr rfl
    intro fi _
    apply sum_congr _ fun _ _ => rfl
    ext f
    unfold rangeChannels usedChannels
    simp only [mem_filter, mem_range]
    tauto
  · intro f hf
    unfold usedChannels at hf
    have hf := mem_range.1 (mem_filter.1 hf).1
    rw [mem_range, expNf_eq _ _ (by omega)]
    have : f / nAvg ≤ (nFreq - 1) / nAvg := Nat.div_le_div_right (by omega)
    omega

theorem setCounts_getD (l : List ℕ) (hnd : l.Nodup) (v : ℕ → ℕ) (a : ℕ → ℕ) (c : ℕ) :
    setCounts a l (l.map v) c = if c ∈ l then v c else a c := by
  unfold setCounts
  induction l generalizing a with
  | nil => simp
  | cons b t ih =>
    rw [List.map_cons, List.zip_cons_cons, List.foldl_cons, ih (List.nodup_cons.1 hnd).2]
    by_cases hc : c ∈ t
    · simp [hc]
    · by_cases hcb : c = b
      · subst hcb; simp [hc]
      · simp [hc, hcb]

/-! ## C105: the planes -/

/-- **C105.** The planes of a range of channels are sums, over the visibilities of the channels in use of the
range and of the given baselines, of the visibility (for the dirty and the model plane), of 1 (for the weights) and
of the kernel (for the variance), times the conjugate of the kernel of the channel, at the cell and (conjugated) at the
opposite cell, each with a factor 1/2 (1/4 for the variance). There is one set of planes for each range. This is for square planes and
ranges of channels that share the beam; without the latter C32 fails. -/
theorem C105_planes_partial [CharZero K] (s : SplitIn K) (ok : SplitOk s) (nf : ℕ → ℕ) :
    ∃ st, freqSplit s nf = .ok st ∧ st.planes.length = expNf s.nFreq s.nAvg ∧
      ∀ fi p, st.planes[fi]? = some p → IsPlanes s (rangeChannels s.nFreq s.nAvg s.freqUse fi) p := by
  obtain ⟨P, hP, h⟩ := freqSplit_ok s ok nf
  refine ⟨_, h, by simp, fun fi p hp => ?_⟩
  rw [List.getElem?_map] at hp
  obtain ⟨i, hi, rfl⟩ := Option.map_eq_some_iff.1 hp
  have : i = fi := by
    obtain ⟨h1, h2⟩ := List.getElem?_eq_some_iff.1 hi
    simpa using h2.symm
  rw [this]
  exact hP fi

theorem mirrored_sum {ι : Type _} (n m : ℕ) (I : Finset ι) (S : ι → ℕ → ℕ → K) (y x : ℕ) :
    ∑ i ∈ I, mirrored n m (S i) y x = mirrored n m (fun y x => ∑ i ∈ I, S i y x) y x := by
  unfold mirrored
  rw [← sum_div, sum_add_distrib, star_sum]

/-- **C105**, the averaging length: the sum of the dirty planes of all ranges does not depend on the number of channels
in a range, and is the plane of all channels in use. The same holds for the model. -/
theorem C105_sum_of_ranges_partial [CharZero K] (s : SplitIn K) (ok : SplitOk s) (nf : ℕ → ℕ) :
    ∃ st, freqSplit s nf = .ok st ∧
      ∀ y < s.grid.elements, ∀ x < s.grid.dimension,
        (st.planes.map fun p => p.dirty y x).sum = mirrored s.grid.elements s.grid.dimension
          (visSum s s.grid.vis (usedChannels s.nFreq s.freqUse)) y x ∧
        (st.planes.map fun p => p.model y x).sum = mirrored s.grid.elements s.grid.dimension
          (visSum s s.model (usedChannels s.nFreq s.freqUse)) y x := by
  obtain ⟨P, hP, h⟩ := freqSplit_ok s ok nf
  refine ⟨_, h, fun y hy x hx => ?_⟩
  simp only [List.map_map]
  have key : ∀ vis : ℕ → ℕ → K, ∑ fi ∈ range (expNf s.nFreq s.nAvg),
      mirrored s.grid.elements s.grid.dimension
        (visSum s vis (rangeChannels s.nFreq s.nAvg s.freqUse fi)) y x
      = mirrored s.grid.elements s.grid.dimension
        (visSum s vis (usedChannels s.nFreq s.freqUse)) y x := by
    intro vis
    rw [mirrored_sum]
    have : (fun y x => ∑ fi ∈ range (expNf s.nFreq s.nAvg),
        visSum s vis (rangeChannels s.nFreq s.nAvg s.freqUse fi) y x)
        = visSum s vis (usedChannels s.nFreq s.freqUse) := by
      funext y x
      unfold visSum cellSum
      exact sum_ranges s.nFreq s.nAvg s.freqUse _
    rw [this]
  rw [sum_range_list, sum_range_list]
  refine ⟨Eq.trans (sum_congr rfl fun fi _ => (hP fi).dirty y hy x hx) (key _),
    Eq.trans (sum_congr rfl fun fi _ => (hP fi).model y hy x hx) (key _)⟩

/-! ## C106: the counts -/

/-- **C106**, the total: `obs["n_vis"]` after the split is the number of visibilities gridded in the channels in use. -/
theorem C106_total_partial [CharZero K] (s : SplitIn K) (ok : SplitOk s) (nf : ℕ → ℕ) :
    ∃ st, freqSplit s nf = .ok st ∧
      st.nVis = ∑ c ∈ usedChannels s.nFreq s.freqUse, gridded s.grid.toGridIn c := by
  obtain ⟨P, _, h⟩ := freqSplit_ok s ok nf
  refine ⟨_, h, ?_⟩
  exact sum_ranges s.nFreq s.nAvg s.freqUse _

open Classical in
theorem counts_fold (s : SplitIn K) (n : ℕ) (nf : ℕ → ℕ) (c : ℕ) :
    ((List.range n).foldl (fun a fi =>
      if Any s fi then setCounts a (expChannels s.nFreq s.nAvg s.freqUse fi)
        ((expChannels s.nFreq s.nAvg s.freqUse fi).map (gridded s.grid.toGridIn)) else a) nf) c
      = if (c < s.nFreq ∧ 0 < s.freqUse c) ∧ c / s.nAvg < n ∧ Any s (c / s.nAvg)
        then gridded s.grid.toGridIn c else nf c := by
  induction n with
  | zero => simp
  | succ n ih =>
    rw [List.range_succ, List.foldl_append, List.foldl_cons, List.foldl_nil]
    by_cases hA : Any s n
    · rw [if_pos hA, setCounts_getD _ (expChannels_nodup _ _ _ _), ih]
      have hm := mem_expChannels s.nFreq s.nAvg s.freqUse n c
      by_cases hc : c < s.nFreq ∧ c / s.nAvg = n ∧ 0 < s.freqUse c
      · rw [if_pos (hm.2 hc), if_pos]
        exact ⟨⟨hc.1, hc.2.2⟩, by omega, by rw [hc.2.1]; exact hA⟩
      · rw [if_neg fun h => hc (hm.1 h)]
        congr 1
        apply propext
        constructor
        · rintro ⟨h1, h2, h3⟩; exact ⟨h1, by omega, h3⟩
        · rintro ⟨h1, h2, h3⟩
          refine ⟨h1, ?_, h3⟩
          rcases Nat.lt_succ_iff_lt_or_eq.1 h2 with h | h
          · exact h
          · exact absurd ⟨h1.1, h, h1.2⟩ hc
    · rw [if_neg hA, ih]
      congr 1
      apply propext
      constructor
      · rintro ⟨h1, h2, h3⟩; exact ⟨h1, by omega, h3⟩
      · rintro ⟨h1, h2, h3⟩
        refine ⟨h1, ?_, h3⟩
        rcases Nat.lt_succ_iff_lt_or_eq.1 h2 with h | h
        · exact h
        · rw [h] at h3; exact absurd h3 hA

/-- **C106** where it holds: after the split the count of a channel in use is the number of its gridded
visibilities, if anything was gridded in its range of channels. -/
theorem C106_counts_partial [CharZero K] (s : SplitIn K) (ok : SplitOk s) (nf : ℕ → ℕ) :
    ∃ st, freqSplit s nf = .ok st ∧ ∀ c ∈ usedChannels s.nFreq s.freqUse,
      Any s (c / s.nAvg) → st.nfVis c = gridded s.grid.toGridIn c := by
  obtain ⟨P, _, h⟩ := freqSplit_ok s ok nf
  refine ⟨_, h, fun c hc hA => ?_⟩
  unfold usedChannels at hc
  rw [mem_filter, mem_range] at hc
  simp only []
  rw [counts_fold, if_pos]
  refine ⟨hc, ?_, hA⟩
  rw [expNf_eq _ _ (by omega)]
  have : c / s.nAvg ≤ (s.nFreq - 1) / s.nAvg := Nat.div_le_div_right (by omega)
  omega

/-- **C106 fails**: when nothing is gridded in a range of channels, none of its visibilities is counted, but its
channels keep the counts from before the split, which are those of the other polarization, of the other half of the
data, or of the gridding of the whole observation. -/
theorem C106_stale_counts [CharZero K] (s : SplitIn K) (ok : SplitOk s) (nf : ℕ → ℕ) :
    ∃ st, freqSplit s nf = .ok st ∧ ∀ c, ¬ Any s (c / s.nAvg) → st.nfVis c = nf c ∧
      (c ∈ usedChannels s.nFreq s.freqUse → gridded s.grid.toGridIn c = 0) := by
  obtain ⟨P, _, h⟩ := freqSplit_ok s ok nf
  refine ⟨_, h, fun c hA => ⟨?_, fun hc => ?_⟩⟩
  · simp only []
    rw [counts_fold, if_neg]
    exact fun h => hA h.2.2
  · unfold usedChannels at hc
    rw [mem_filter] at hc
    unfold gridded
    rw [List.length_eq_zero_iff, List.filter_eq_nil_iff]
    intro b hb hG
    refine hA ⟨c, ?_, b, hb, by simpa using hG⟩
    unfold rangeChannels
    exact mem_filter.2 ⟨hc.1, rfl, hc.2⟩

/-- **C106 fails** across polarizations: the counts exported for the second are those of the first wherever
nothing of the second is gridded. -/
theorem C106_counts_of_first [CharZero K] (s1 s2 : SplitIn K) (ok1 : SplitOk s1) (ok2 : SplitOk s2)
    (nf : ℕ → ℕ) : ∃ a b, exportSplits [s1, s2] nf = .ok [a, b] ∧
      ∀ c ∈ usedChannels s1.nFreq s1.freqUse, Any s1 (c / s1.nAvg) → ¬ Any s2 (c / s2.nAvg) →
        b.nfVis c = gridded s1.grid.toGridIn c := by
  obtain ⟨a, ha, h1⟩ := C106_counts_partial s1 ok1 nf
  obtain ⟨b, hb, h2⟩ := C106_stale_counts s2 ok2 a.nfVis
  refine ⟨a, b, by simp [exportSplits, ha, hb], fun c hc hA hn => ?_⟩
  rw [(h2 c hn).1, h1 c hc hA]

/-! ## C107: the baselines used by default -/

theorem sum_nonneg_pos_iff (l : List ℚ) (h : ∀ x ∈ l, 0 ≤ x) : 0 < l.sum ↔ ∃ x ∈ l, 0 < x := by
  induction l with
  | nil => simp
  | cons a t ih =>
    have ha := h a (by simp)
    have ht := ih fun x hx => h x (by simp [hx])
    have hs : 0 ≤ t.sum := List.sum_nonneg fun x hx => h x (by simp [hx])
    rw [List.sum_cons]
    constructor
    · intro hp
      by_cases h0 : 0 < a
      · exact ⟨a, by simp, h0⟩
      · obtain ⟨x, hx, hx0⟩ := ht.1 (by linarith)
        exact ⟨x, by simp [hx], hx0⟩
    · rintro ⟨x, hx, hx0⟩
      rcases List.mem_cons.1 hx with rfl | hx
      · linarith
      · have := ht.2 ⟨x, hx, hx0⟩; linarith

/-- **C107** for the gridding on its own: the baselines used by default are those with a positive weight in some
channel. -/
theorem C107_gridding_default (nFreq nBl : ℕ) (w : ℕ → ℕ → ℚ) (b : ℕ) :
    b ∈ defaultBiUse nFreq nBl w ↔ b < nBl ∧ ∃ f < nFreq, 0 < w f b := by
  unfold defaultBiUse
  simp only [List.mem_filter, List.mem_range, ne_eq, decide_not, Bool.not_eq_true', decide_eq_false_iff_not]
  have hnn : ∀ x ∈ (List.range nFreq).map fun f => max (w f b) 0, 0 ≤ x := by
    intro x hx
    obtain ⟨f, _, rfl⟩ := List.mem_map.1 hx
    exact le_max_right _ _
  have hpos := sum_nonneg_pos_iff _ hnn
  have h0 : 0 ≤ ((List.range nFreq).map fun f => max (w f b) 0).sum := List.sum_nonneg hnn
  have e : (¬ ((List.range nFreq).map fun f => max (w f b) 0).sum = 0) ↔
      0 < ((List.range nFreq).map fun f => max (w f b) 0).sum :=
    ⟨fun h => lt_of_le_of_ne h0 (Ne.symm h), fun h => ne_of_gt h⟩
  rw [e, hpos]
  simp

/-- **C107 fails** for the split: the numbers it uses for the baselines are those of the channels with a positive
weight (of one of the first two polarizations) in some baseline. -/
theorem C107_split_default_channels (nPol nFreq nBl : ℕ) (w : ℕ → ℕ → ℕ → ℚ) (b : ℕ) :
    b ∈ splitDefaultBi nPol nFreq nBl w ↔ b < nFreq ∧ ∃ i < nBl, 0 < w 0 b i ∨ (1 < nPol ∧ 0 < w 1 b i) := by
  unfold splitDefaultBi
  simp only [List.mem_filter, List.mem_range, decide_eq_true_eq]
  rw [sum_nonneg_pos_iff]
  · by_cases h : 1 < nPol
    · simp only [h, if_true, List.mem_map, List.mem_range, true_and]
      constructor
      · rintro ⟨hb, v, ⟨i, hi, rfl⟩, hv⟩
        refine ⟨hb, i, hi, ?_⟩
        rcases lt_max_iff.1 hv with h | h
        · exact lt_max_iff.1 h
        · exact absurd h (lt_irrefl _)
      · rintro ⟨hb, i, hi, hv⟩
        exact ⟨hb, _, ⟨i, hi, rfl⟩, lt_max_iff.2 (Or.inl (lt_max_iff.2 hv))⟩
    · simp [h]
  · intro x hx
    obtain ⟨i, _, rfl⟩ := List.mem_map.1 hx
    split_ifs <;> exact le_max_right _ _

/-- **C107 fails**: baselines beyond the number of channels are never used by default, whatever their
weights. -/
theorem C107_split_default_misses (nPol nFreq nBl : ℕ) (w : ℕ → ℕ → ℕ → ℚ) (b : ℕ) (hb : nFreq ≤ b) :
    b ∉ splitDefaultBi nPol nFreq nBl w := by
  rw [C107_split_default_channels]
  omega

/-! ## C108: the files -/

/-- **C108**: each of the four files holds the array it is named after, but all four files hold the same four
arrays. -/
theorem C108_files_same (ps : List (SplitPlanes K)) :
    (uvfFiles ps).map Prod.fst = ["dirty_uv_arr", "weights_uv", "variance_uv_arr", "model_uv_arr"] ∧
    (∀ f ∈ uvfFiles ps, ("dirty_uv", ps.map fun p => p.dirty) ∈ f.2 ∧
      ("weights_uv", ps.map fun p => p.weights) ∈ f.2 ∧ ("variance_uv", ps.map fun p => p.variance) ∈ f.2 ∧
      ("model_uv", ps.map fun p => p.model) ∈ f.2 ∧ f.2.length = 4) := by
  unfold uvfFiles
  refine ⟨rfl, fun f hf => ?_⟩
  simp only [List.mem_cons, List.not_mem_nil, or_false] at hf
  rcases hf with rfl | rfl | rfl | rfl <;> simp

/-! ## C109: rephasing -/

/-- The image of a uv plane at any position, as `Spec.fourier` at pixels. -/
noncomputable def Spec.fourierAt (n m : ℕ) (f : Plane ℂ) (k l : ℝ) : ℂ :=
  (∑ a ∈ range n, ∑ b ∈ range m, f a b *
    Complex.exp (-(2 * Real.pi * Complex.I) *
      (((a : ℂ) - n / 2) * ((k : ℂ) - n / 2) / n + ((b : ℂ) - m / 2) * ((l : ℂ) - m / 2) / m)))
    / ((n : ℂ) * m)

theorem fourierAt_nat (n m : ℕ) (f : Plane ℂ) (k l : ℕ) : fourierAt n m f k l = fourier n m f k l := by
  unfold fourierAt fourier
  simp

/-- The image of a rephased plane, in general. -/
theorem fourier_phaseShift (n m : ℕ) (hm : 0 < m) (f : Plane ℂ) (x y : ℝ) (k l : ℕ) :
    fourier n m (fun a b => f a b * phaseShift m n false x y a b) k l
      = fourierAt n m f (k - (y - n / 2) * (n / m)) (l - (x - m / 2)) := by
  unfold fourier fourierAt
  congr 1
  apply sum_congr rfl
  intro a ha
  have hn0 : (n : ℂ) ≠ 0 := by
    have := mem_range.1 ha
    exact_mod_cast (by omega : n ≠ 0)
  have hm0 : (m : ℂ) ≠ 0 := by exact_mod_cast (by omega : m ≠ 0)
  apply sum_congr rfl
  intro b _
  rw [mul_assoc]
  congr 1
  unfold phaseShift
  simp only [Bool.false_eq_true, if_false]
  rw [Complex.ofReal_cos, Complex.ofReal_sin, ← Complex.exp_mul_I, ← Complex.exp_add]
  congr 1
  push_cast
  field_simp
  ring

/-- **C109.** For a square plane, rephasing displaces the image so that its centre comes to the pixel of the
original phase centre, `x` columns and `y` rows from the start. Nothing is changed when the phase centres are the same. -/
theorem C109_displaces_partial (n : ℕ) (hn : 0 < n) (f : Plane ℂ) (x y : ℝ) (k l : ℕ) :
    fourier n n (fun a b => f a b * phaseShift n n false x y a b) k l
      = fourierAt n n f (k - (y - n / 2)) (l - (x - n / 2)) ∧
    fourier n n (fun a b => f a b * phaseShift n n true x y a b) k l = fourier n n f k l := by
  constructor
  · rw [fourier_phaseShift n n hn]
    have : (n : ℝ) ≠ 0 := by exact_mod_cast (by omega : n ≠ 0)
    rw [div_self this, mul_one]
  · unfold phaseShift
    simp

/-- **C109**, whole pixels: the value at the pixel of the original phase centre is that of the centre before. -/
theorem C109_centre_partial (n : ℕ) (hn : 0 < n) (f : Plane ℂ) (x y : ℕ) :
    fourier n n (fun a b => f a b * phaseShift n n false x y a b) y x
      = (∑ a ∈ range n, ∑ b ∈ range n, f a b) / ((n : ℂ) * n) := by
  rw [(C109_displaces_partial n hn f x y y x).1]
  unfold fourierAt
  congr 1
  apply sum_congr rfl
  intro a _
  apply sum_congr rfl
  intro b _
  push_cast
  simp

/-- **C109 fails** for planes that are not square: the rows are displaced by the wrong amount, `n / m` times what
it should be. -/
theorem C109_rectangle_wrong (n m : ℕ) (hm : 0 < m) (x y : ℝ) :
    (∀ (f : Plane ℂ) (k l : ℕ), fourier n m (fun a b => f a b * phaseShift m n false x y a b) k l
      = fourierAt n m f (k - (y - n / 2) * (n / m)) (l - (x - m / 2))) ∧
    (n ≠ m → y ≠ n / 2 → (y - n / 2) * (n / m) ≠ y - (n : ℝ) / 2) := by
  refine ⟨fun f k l => fourier_phaseShift n m hm f x y k l, fun h hy he => h ?_⟩
  have hm0 : (m : ℝ) ≠ 0 := by exact_mod_cast (by omega : m ≠ 0)
  have h1 : (n : ℝ) / m = 1 := mul_left_cancel₀ (sub_ne_zero.2 hy) (by rw [he, mul_one])
  rw [div_eq_one_iff_eq hm0] at h1
  exact_mod_cast h1

/-- **C105**, the images: for a square plane of even size the image of a plane is the real part of its Fourier sum, in
units of the area of a pixel, times the number of visibilities. -/
theorem C105_image (n : ℕ) (hn : 0 < n) (hn2 : n % 2 = 0) (degpix : ℝ) (nVis : ℕ) (plane : Plane ℂ) :
    ∃ im, splitImage n degpix nVis plane = .ok im ∧ ∀ k l, im k l
      = (fourier n n (fun a b => plane a b * nVis) k l).re / (degpix * (Real.pi / 180)) ^ 2 := by
  obtain ⟨out, h, _, _, hi⟩ := C97_image { uniform := fun _ => .error .typeError, degpix := some degpix } n hn hn2
    rfl rfl rfl rfl rfl rfl rfl plane
  refine ⟨_, by unfold splitImage; rw [h], fun k l => ?_⟩
  rw [hi]
  have e : fourier n n (fun a b => plane a b * (nVis : ℂ)) k l = fourier n n plane k l * ((nVis : ℝ) : ℂ) := by
    unfold fourier
    rw [div_mul_eq_mul_div, sum_mul]
    congr 1
    apply sum_congr rfl
    intro a _
    rw [sum_mul]
    apply sum_congr rfl
    intro b _
    push_cast
    ring
  rw [e, Complex.re_mul_ofReal, Complex.re_mul_ofReal]
  show (fourier n n plane k l).re * ((degpix * (Real.pi / 180)) ^ 2)⁻¹ * (nVis : ℝ) = _
  ring

/-! ## Examples -/

/-- Four channels of which the fourth is not in use, in ranges of two channels that share a beam, three baselines,
16 by 16 pixels; `w` are the weights. -/
def exFreqSplit (w : ℕ → ℕ → ℚ) : SplitIn ℚ where
  grid := {
    toGridIn := { exGrid 16 16 (fun b => b - 1) (fun b => (b : ℚ) * 3 + 1/2) 3 with
      freqAll := [1, 5/4, 3/2, 7/4], weight := w }
    fbin := fun f => f / 2
    kern := fun fb y x p => 100 * fb + 10 * y + x + p
    group := fun _ => 0
    vis := fun f b => f + 2 * b + 1
    interp := false
    noConjugate := false }
  model := fun f b => 3 * f + b
  nFreq := 4
  nAvg := 2
  freqUse := fun c => if c = 3 then 0 else 1
  groupOf := fun _ _ => 0
  rephase := fun _ _ => 1

theorem exFreqSplit_ok (w : ℕ → ℕ → ℚ) : SplitOk (exFreqSplit w) where
  conj := rfl
  square := rfl
  freqs := by simp [exFreqSplit]
  lengths := fun b => by
    unfold blLength
    simp only [exFreqSplit, exGrid]
    positivity
  res := by simp [exFreqSplit, exGrid]
  kpix := by simp [exFreqSplit, exGrid]
  beam := fun fi c hc c' hc' => by
    unfold rangeChannels at hc hc'
    exact ((mem_filter.1 hc).2.1).trans ((mem_filter.1 hc').2.1).symm

/-- The hypotheses of C105 and C106 are met: there are two ranges, visibilities are gridded in both, and
the second range has one channel. -/
example : ((freqSplit (exFreqSplit fun _ _ => 1) fun _ => 7).map fun st =>
      (st.planes.length, st.nVis, [0, 1, 2, 3].map st.nfVis)) = .ok (2, 7, [3, 2, 2, 7]) ∧
    ((freqSplit (exFreqSplit fun _ _ => 1) fun _ => 7).map fun st =>
      st.planes.map fun p => (p.dirty 4 8, p.dirty 3 8)) = .ok [(74, 40), (0, 330)] := by decide +kernel

/-- C106 fails: the weights of the second polarization are zero in the third channel, and the count of the third
channel is that of the first polarization. -/
example : ((exportSplits [exFreqSplit fun _ _ => 1, exFreqSplit fun f _ => if f = 2 then 0 else 1] fun _ => 7).map fun l =>
      l.map fun st => (st.nVis, [0, 1, 2, 3].map st.nfVis)) = .ok [(7, [3, 2, 2, 7]), (5, [3, 2, 2, 7])] := by
  decide +kernel

/-- C107: two channels and four baselines, all of positive weight. -/
example : splitDefaultBi 2 2 4 (fun _ _ _ => 1) = [0, 1] ∧ defaultBiUse 2 4 (fun _ _ => 1) = [0, 1, 2, 3] := by
  decide +kernel

end PyFHD
