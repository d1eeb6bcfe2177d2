import Verif.Model.FlaggedRun
import Verif.Props.RunFiles
import Verif.Props.Flagging

/-!
# C311, C312: runs that begin with the basic flagging
-/

namespace PyFHD

open Spec

namespace Spec

/-- A channel that the basic flagging removes: outside the limits of frequency (in MHz), or, with `flag_frequencies`, near an edge of a coarse channel
(an observation with fewer than 24 channels has only such channels). -/
def CutChannel (o : FlagObs) (c : FlagConfig) (f : ℕ) : Prop :=
  (∃ s, c.freqStart = some s ∧ o.freq f / 1000000 < s) ∨ (∃ s, c.freqEnd = some s ∧ s < o.freq f / 1000000) ∨
    (c.flagFrequencies = true ∧ (o.nFreq < 24 ∨ NearEdge (32 / (768 / o.nFreq)) ((2 + 768 / o.nFreq - 1) / (768 / o.nFreq)) f))

/-- A sample that survives the cuts of channels: it has positive weight in the input and its channel is not removed. -/
def Survives (x : RunIn) (c : FlagConfig) (p f b : ℕ) : Prop := 0 < x.weights p f b ∧ ¬CutChannel x.obs c f

/-- A sample that the run with basic flagging may use: nothing requires that it is flagged, and it survives the cuts of channels or, without
`flag_frequencies`, belongs to a channel of which nothing survives (these are taken into use again). -/
def KeptSample (x : RunIn) (c : FlagConfig) (p f b : ℕ) : Prop :=
  ¬MustFlag x.obs x.uv f b ∧ (Survives x c p f b ∨ (c.flagFrequencies = false ∧ ∀ s < x.obs.nBl, ¬Survives x c p f s))

/-- The data `v` are zero where those of the run are, unless `flag_frequencies` is set. -/
def SameZeros (x : RunIn) (c : FlagConfig) (v : ℕ → ℕ → ℕ → ℂ) : Prop :=
  c.flagFrequencies = true ∨ ∀ p f b, v p f b = 0 ↔ x.vis p f b = 0

end Spec

theorem Spec.RunFits.goodTiles {x : RunIn} (h : RunFits x) : GoodTiles x.obs where
  len := h.tile_len
  memA := by
    intro v hv
    rw [h.tileA, List.mem_map] at hv
    obtain ⟨s, hs, rfl⟩ := hv
    have := (h.tiles s (List.mem_range.1 hs)).1
    omega
  memB := by
    intro v hv
    rw [h.tileB, List.mem_map] at hv
    obtain ⟨s, hs, rfl⟩ := hv
    have := (h.tiles s (List.mem_range.1 hs)).2
    omega

/-- The run after the flagging fits as the one before. -/
theorem Spec.RunFits.basicFlagged {x : RunIn} (h : RunFits x) (r : BasicResult) : RunFits (x.basicFlagged r) where
  pols := h.pols
  freqs := h.freqs
  samples := h.samples
  tileA := h.tileA
  tileB := h.tileB
  tiles := h.tiles
  offsets := ⟨h.offsets.1, h.offsets.2, h.offsets.3⟩
  cast := h.cast
  gridFreqs := h.gridFreqs
  lengths := h.lengths

theorem visFlagBasic_zeros (o : FlagObs) (c : FlagConfig) (hc : c.flagFrequencies = true) (v v' : ℕ → ℕ → ℕ → Bool) (w : Weights) :
    visFlagBasic o c v w = visFlagBasic o c v' w := by
  have hc' : ∀ q : Prop, ¬(c.flagFrequencies = false ∧ q) := fun q hq => by
    rw [hc] at hq
    exact absurd hq.1 (by decide)
  unfold visFlagBasic
  simp only [if_neg (hc' _)]

/-- The basic flagging depends on the data only through their zeros, and with `flag_frequencies` not at all. -/
theorem basic_zeros (x : RunIn) (c : FlagConfig) (v m : ℕ → ℕ → ℕ → ℂ) (hz : SameZeros x c v) : (withSky x v m).basic c = x.basic c := by
  rcases hz with hz | hz
  · exact visFlagBasic_zeros x.obs c hz _ _ _
  · unfold RunIn.basic
    congr 1
    funext p f b
    simp only [withSky, ne_eq, hz p f b]

theorem basic_spec (x : RunIn) (h : RunFits x) (c : FlagConfig) (r : BasicResult) (hr : x.basic c = .ok r) :
    ∃ w1 v, BasicSpec x.obs c v w1 r ∧ ∀ p f b, 0 < w1 p f b ↔ Survives x c p f b := by
  have ht : c.flagTiles = [] := by
    by_contra hne
    exact C22_flag_basic_with_tiles_raises _ _ _ _ hne r hr
  have hf : c.flagFrequencies = true → 768 / x.obs.nFreq ≠ 0 := by
    intro hc h0
    unfold RunIn.basic visFlagBasic basicWeights1 at hr
    simp [ht, hc, h0, bind, Except.bind] at hr
  obtain ⟨w1, h1, h2⟩ := basicWeights1_ok x.obs c x.weights ht hf
  have hb : 0 < x.obs.nBl := by rw [h.nBl]; exact h.samples
  obtain ⟨r', e1, e2⟩ := visFlagBasic_spec x.obs c (fun p f s => by classical exact decide (x.vis p f s ≠ 0)) x.weights w1 h1 h.goodTiles h.freqs hb
  have : r = r' := by
    unfold RunIn.basic at hr
    rw [hr] at e1
    exact Except.ok.inj e1
  subst this
  refine ⟨w1, _, e2, fun p f b => ?_⟩
  have hn : c.flagFrequencies = true → x.obs.nFreq ≤ 768 := fun hc => by
    by_contra hn
    exact hf hc (Nat.div_eq_of_lt (by omega))
  have he : (c.flagFrequencies = true ∧ edgeChannel x.obs.nFreq f = true) ↔
      (c.flagFrequencies = true ∧ (x.obs.nFreq < 24 ∨
        NearEdge (32 / (768 / x.obs.nFreq)) ((2 + 768 / x.obs.nFreq - 1) / (768 / x.obs.nFreq)) f)) := by
    refine and_congr_right fun hc => ?_
    by_cases h24 : x.obs.nFreq < 24
    · exact ⟨fun _ => Or.inl h24, fun _ => C21_few_channels _ _ h.freqs h24⟩
    · rw [edgeChannel_iff _ _ (by omega) (hn hc)]
      exact ⟨Or.inr, fun h => h.resolve_left h24⟩
  rw [h2]
  unfold Survives CutChannel
  rw [← he]
  split_ifs with hc
  · exact ⟨fun h => absurd h (lt_irrefl _), fun h => absurd hc h.2⟩
  · exact ⟨fun h => ⟨h, hc⟩, fun h => h.1⟩

/-- A sample that has to be flagged in the input has to be flagged after the basic flagging. -/
theorem basic_mustFlag (x : RunIn) (h : RunFits x) (c : FlagConfig) (r : BasicResult) (hr : x.basic c = .ok r) (f b : ℕ)
    (hm : MustFlag x.obs x.uv f b) : MustFlag (x.basicFlagged r).obs x.uv f b := by
  obtain ⟨w1, v, sp, -⟩ := basic_spec x h c r hr
  rcases hm with hm | hm | hm | hm | hm
  · left
    show r.freqUse f = 0
    rw [sp.freq, if_neg]
    rintro ⟨-, h2⟩
    rw [hm] at h2
    simp at h2
  · right; left
    obtain ⟨v, ⟨t, t1, t2, t3⟩, h2⟩ := hm
    refine ⟨v, ⟨t, t1, ?_, t3⟩, h2⟩
    show r.tileUse t = 0
    rw [sp.tile, if_neg]
    rintro ⟨-, h2⟩
    rw [t2] at h2
    simp at h2
  · exact Or.inr (Or.inr (Or.inl hm))
  · exact Or.inr (Or.inr (Or.inr (Or.inl hm)))
  · exact Or.inr (Or.inr (Or.inr (Or.inr hm)))

/-- The samples in use after the basic flagging are among those that the run with basic flagging may use. -/
theorem used_kept (x : RunIn) (h : RunFits x) (c : FlagConfig) (r : BasicResult) (hr : x.basic c = .ok r) (p f b : ℕ)
    (hu : UsedSample (x.basicFlagged r) p f b) : KeptSample x c p f b := by
  obtain ⟨w1, v, sp, hs⟩ := basic_spec x h c r hr
  obtain ⟨u1, u2⟩ := hu
  have u1 : 0 < r.weights p f b := u1
  refine ⟨fun hm => u2 (basic_mustFlag x h c r hr f b hm), ?_⟩
  by_cases ht : ∃ t, t < x.obs.nTime ∧ x.obs.timeUse t ≤ 0 ∧ x.obs.binOffset t ≤ b ∧ b + 1 < stepEnd x.obs x.obs.nBl t
  · rw [sp.zeroed p f b ht] at u1
    exact absurd u1 (lt_irrefl _)
  · rcases sp.others p f b ht with h1 | ⟨h1, h2, -⟩
    · rw [h1] at u1
      exact Or.inl ((hs p f b).1 u1)
    · refine Or.inr ⟨h1, fun s hs' hsv => ?_⟩
      have : chanHas w1 x.obs.nBl p f = true := (chanHas_iff _ _ _ _).2 ⟨s, hs', (hs p f s).2 hsv⟩
      rw [h2] at this
      cases this

/-- **C311.** In a run that begins with the basic flagging, data and model of samples that this flagging removes, or that were flagged before, have no
influence on the gains, flags, weights, planes and images. With `flag_frequencies` this holds for any change; without it a whole channel without
weight is taken into use again where its data are not zero, so that the data have to keep their zeros, and the samples of these channels count as
used. -/
theorem C311_flagged (x : RunIn) (h : RunFits x) (c : FlagConfig) (v m : ℕ → ℕ → ℕ → ℂ) (hz : SameZeros x c v)
    (hvm : ∀ p < x.obs.nPol, ∀ f b, b < x.obs.nBl → KeptSample x c p f b → v p f b = x.vis p f b ∧ m p f b = x.model p f b)
    (R : RunOut) (hR : flaggedRun x c = .ok R) : ∃ R', flaggedRun (withSky x v m) c = .ok R' ∧ SameRun R R' := by
  unfold flaggedRun at hR ⊢
  rw [basic_zeros x c v m hz]
  cases hr : x.basic c with
  | error e => rw [hr] at hR; cases hR
  | ok r =>
    rw [hr] at hR
    exact C294_flagged (x.basicFlagged r) (h.basicFlagged r) v m (fun p hp f b hb hu => hvm p hp f b hb (used_kept x h c r hr p f b hu)) R hR

/-- **C311**, the HEALPix files of such runs are the same. -/
theorem C311_files (x : RunIn) (h : RunFits x) (c : FlagConfig) (v m : ℕ → ℕ → ℕ → ℂ) (hz : SameZeros x c v)
    (hvm : ∀ p < x.obs.nPol, ∀ f b, b < x.obs.nBl → KeptSample x c p f b → v p f b = x.vis p f b ∧ m p f b = x.model p f b)
    (e : ExportIn) (he : ∀ r, x.basic c = .ok r → ExportFits (x.basicFlagged r) e) (q : FileIn) (im : ℕ → ℕ → ℕ → ℚ) (nf : ℕ → ℕ)
    (files : List RunFile) (hf : flaggedFiles x c e q nf = .ok files) : flaggedFiles (withSky x v m) c { e with im := im } q nf = .ok files := by
  unfold flaggedFiles at hf ⊢
  rw [basic_zeros x c v m hz]
  cases hr : x.basic c with
  | error er => rw [hr] at hf; cases hf
  | ok r =>
    rw [hr] at hf
    simp only [bind, Except.bind] at hf ⊢
    cases hR : imagingRun (x.basicFlagged r) with
    | error er => rw [hR] at hf; cases hf
    | ok R =>
      rw [hR] at hf
      obtain ⟨R', a1, a2⟩ := C309_flagged (x.basicFlagged r) (h.basicFlagged r) v m
        (fun p hp f b hb hu => hvm p hp f b hb (used_kept x h c r hr p f b hu)) R hR
      have a1' : imagingRun ((withSky x v m).basicFlagged r) = .ok R' := a1
      rw [a1']
      simp only [] at hf ⊢
      rw [← hf]
      exact a2 e (he r hr) q im nf

/-- **C311**, only samples that the run with basic flagging may use have weight after it; in particular, with `flag_frequencies` none of a channel
that is cut. -/
theorem C311_used (x : RunIn) (h : RunFits x) (c : FlagConfig) (R : RunOut) (hR : flaggedRun x c = .ok R) :
    ∀ p < x.obs.nPol, ∀ f, ∀ b < x.obs.nBl, 0 < R.weights p f b →
      KeptSample x c p f b ∧ (c.flagFrequencies = true → ¬CutChannel x.obs c f) := by
  intro p hp f b hb hpos
  unfold flaggedRun at hR
  cases hr : x.basic c with
  | error e => rw [hr] at hR; cases hR
  | ok r =>
    rw [hr] at hR
    obtain ⟨u, -⟩ := run_positive (x.basicFlagged r) (h.basicFlagged r) R hR p f b hp hb hpos
    have hk := used_kept x h c r hr p f b u
    refine ⟨hk, fun hc => ?_⟩
    rcases hk.2 with hs | ⟨hs, -⟩
    · exact hs.2
    · rw [hc] at hs
      cases hs

/-- **C312.** In other units of flux a run that begins with the basic flagging finds the same gains, flags and weights, and its planes and images are
multiplied by the factor. -/
theorem C312_units (x : RunIn) (h : RunFits x) (hi : ImagesFit x) (hres : ∀ p, 0 < (x.grid p).res) (c : FlagConfig) (k : ℝ) (hk : k ≠ 0) (R : RunOut)
    (hR : flaggedRun x c = .ok R) :
    ∃ R', flaggedRun (withSky x (fun p f b => k * x.vis p f b) fun p f b => k * x.model p f b) c = .ok R' ∧ SameSolution R.cal R'.cal ∧
      R'.weights = R.weights ∧ List.Forall₂ (PlanesScaled k) R.planes R'.planes ∧ ∃ u,
      List.Forall₂ (FileScaled k x.obs.nPol (x.images u).n) R.images.files R'.images.files := by
  unfold flaggedRun at hR ⊢
  have hz : SameZeros x c fun p f b => k * x.vis p f b := Or.inr fun p f b => by
    rw [mul_eq_zero]
    exact ⟨fun h => h.resolve_left (by exact_mod_cast hk), Or.inr⟩
  rw [basic_zeros x c _ _ hz]
  cases hr : x.basic c with
  | error e => rw [hr] at hR; cases hR
  | ok r =>
    rw [hr] at hR
    exact C295_units (x.basicFlagged r) (h.basicFlagged r) ⟨hi.size, hi.pad, hi.filter⟩ hres k hk R hR

/-- **C312**, the HEALPix files. -/
theorem C312_files (x : RunIn) (h : RunFits x) (hi : ImagesFit x) (hres : ∀ p, 0 < (x.grid p).res) (c : FlagConfig) (k : ℝ) (hk : k ≠ 0)
    (e : ExportIn) (he : ∀ r, x.basic c = .ok r → ExportFits (x.basicFlagged r) e) (hr0 : 0 < e.res) (q : FileIn) (im : ℕ → ℕ → ℕ → ℚ) (nf : ℕ → ℕ)
    (files : List RunFile) (hf : flaggedFiles x c e q nf = .ok files) :
    ∃ files', flaggedFiles (withSky x (fun p f b => k * x.vis p f b) fun p f b => k * x.model p f b) c { e with im := im } q nf = .ok files' ∧
      List.Forall₂ (FileInUnits k) files files' := by
  have hz : SameZeros x c fun p f b => k * x.vis p f b := Or.inr fun p f b => by
    rw [mul_eq_zero]
    exact ⟨fun h => h.resolve_left (by exact_mod_cast hk), Or.inr⟩
  unfold flaggedFiles at hf ⊢
  rw [basic_zeros x c _ _ hz]
  cases hr : x.basic c with
  | error er => rw [hr] at hf; cases hf
  | ok r =>
    rw [hr] at hf
    simp only [bind, Except.bind] at hf ⊢
    cases hR : imagingRun (x.basicFlagged r) with
    | error er => rw [hR] at hf; cases hf
    | ok R =>
      rw [hR] at hf
      obtain ⟨R', a1, a2⟩ := C310_units (x.basicFlagged r) (h.basicFlagged r) ⟨hi.size, hi.pad, hi.filter⟩ hres k hk R hR
      obtain ⟨files', b1, b2⟩ := a2 e (he r hr) hr0 q im nf files hf
      have a1' : imagingRun ((withSky x (fun p f b => k * x.vis p f b) fun p f b => k * x.model p f b).basicFlagged r) = .ok R' := a1
      rw [a1']
      exact ⟨files', b1, b2⟩

/-! ## Examples -/

/-- The flagging without limits of frequency keeps everything of the run of the examples. -/
theorem exWholeRun_basic (fit : List ℕ → List ℝ → ℕ → List ℝ) :
    ∃ r, (exWholeRun fit).basic ⟨none, none, [], false⟩ = .ok r ∧ (exWholeRun fit).basicFlagged r = exWholeRun fit := by
  have h := exWholeRun_fits fit
  obtain ⟨w1, h1, h2⟩ := basicWeights1_ok (exWholeRun fit).obs ⟨none, none, [], false⟩ (exWholeRun fit).weights rfl (fun h => by cases h)
  have hw : w1 = fun _ _ _ => 1 := by
    funext p f b
    rw [h2, if_neg]
    · rfl
    · rintro (⟨s, hs, -⟩ | ⟨s, hs, -⟩ | ⟨hs, -⟩) <;> cases hs
  have hb : 0 < (exWholeRun fit).obs.nBl := by rw [h.nBl]; exact h.samples
  obtain ⟨r, e1, e2⟩ := visFlagBasic_spec (exWholeRun fit).obs _ (fun p f s => by classical exact decide ((exWholeRun fit).vis p f s ≠ 0))
    (exWholeRun fit).weights w1 h1 h.goodTiles h.freqs hb
  refine ⟨r, e1, ?_⟩
  have a1 : r.weights = (exWholeRun fit).weights := by
    funext p f b
    rcases e2.others p f b (by rintro ⟨t, -, ht, -⟩; exact absurd ht (by show ¬(1 : ℤ) ≤ 0; decide)) with h | ⟨-, h, -⟩
    · rw [h, hw]; rfl
    · rw [hw] at h
      have : chanHas (fun _ _ _ => 1) (exWholeRun fit).obs.nBl p f = true := (chanHas_iff _ _ _ _).2 ⟨0, hb, one_pos⟩
      rw [h] at this
      cases this
  have a2 : r.freqUse = (exWholeRun fit).obs.freqUse := by
    funext f
    rw [e2.freq]
    show _ = if f < 3 then 1 else 0
    refine if_congr ⟨fun hq => ?_, fun hq => ⟨fun hc => (Bool.false_ne_true hc).elim, ?_⟩⟩ rfl rfl
    · by_contra hf
      have h2 : (if f < 3 then 1 else 0 : ℤ) % 2 = 1 := hq.2
      rw [if_neg hf] at h2
      exact absurd h2 (by decide)
    · show (if f < 3 then 1 else 0 : ℤ) % 2 = 1
      rw [if_pos hq]
      decide
  have a3 : r.tileUse = (exWholeRun fit).obs.tileUse := by
    funext t
    rw [e2.tile, hw]
    show _ = if t < 3 then 1 else 0
    refine if_congr ⟨fun hq => ?_, fun hq => ⟨fun p hp => ?_, ?_⟩⟩ rfl rfl
    · by_contra hf
      have h2 : (if t < 3 then 1 else 0 : ℤ) % 2 = 1 := hq.2
      rw [if_neg hf] at h2
      exact absurd h2 (by decide)
    · have hp : p < 2 := hp
      show tileHas exAfter (fun _ _ _ => 1) p t = true
      interval_cases p <;> interval_cases t <;> decide +kernel
    · show (if t < 3 then 1 else 0 : ℤ) % 2 = 1
      rw [if_pos hq]
      decide
  unfold RunIn.basicFlagged
  rw [a1, a2, a3]

/-- The hypotheses of C311 and C312 are met: the run with flagging gives images; with other data in the channel that is not in use it gives the same,
nothing of this channel has weight, and in twice the unit the gains are the same. -/
example : ∃ fit R R' R'' files, flaggedRun (exWholeRun fit) ⟨none, none, [], false⟩ = .ok R ∧
    flaggedRun (withSky (exWholeRun fit) (fun p f b => if f = 3 then 1 else (exWholeRun fit).vis p f b) fun p f b =>
      if f = 3 then 5 else (exWholeRun fit).model p f b) ⟨none, none, [], false⟩ = .ok R' ∧ SameRun R R' ∧
    (∀ p < 2, ∀ b < 10, ¬0 < R.weights p 3 b) ∧
    flaggedRun (withSky (exWholeRun fit) (fun p f b => (2 : ℝ) * (exWholeRun fit).vis p f b) fun p f b => (2 : ℝ) * (exWholeRun fit).model p f b)
      ⟨none, none, [], false⟩ = .ok R'' ∧ SameSolution R.cal R''.cal ∧
    flaggedFiles (exWholeRun fit) ⟨none, none, [], false⟩ (exExportRun fit) exFileIn (fun _ => 0) = .ok files ∧ files.length = 4 ∧
    flaggedFiles (withSky (exWholeRun fit) (fun p f b => if f = 3 then 1 else (exWholeRun fit).vis p f b) fun p f b =>
      if f = 3 then 5 else (exWholeRun fit).model p f b) ⟨none, none, [], false⟩ (exExportRun fit) exFileIn (fun _ => 0) = .ok files := by
  obtain ⟨fit, hfit⟩ := exists_leastSquaresFit
  obtain ⟨R, hR⟩ := exWholeRun_ok fit hfit
  obtain ⟨r, r1, r2⟩ := exWholeRun_basic fit
  have hF : flaggedRun (exWholeRun fit) ⟨none, none, [], false⟩ = .ok R := by
    unfold flaggedRun
    rw [r1]
    show imagingRun ((exWholeRun fit).basicFlagged r) = _
    rw [r2, hR]
  have h3 : ∀ b, MustFlag (exWholeRun fit).obs (exWholeRun fit).uv 3 b := fun b => Or.inl rfl
  have hz : SameZeros (exWholeRun fit) ⟨none, none, [], false⟩ fun p f b => if f = 3 then 1 else (exWholeRun fit).vis p f b := Or.inr fun p f b => by
    have hv : (exWholeRun fit).vis p f b = 4 * ((p + f + b + 1 : ℕ) : ℂ) := rfl
    have hn : (exWholeRun fit).vis p f b ≠ 0 := by
      rw [hv]
      exact mul_ne_zero (by norm_num) (Nat.cast_ne_zero.2 (by omega))
    simp only []
    split_ifs
    · exact ⟨fun h => absurd h one_ne_zero, fun h => absurd h hn⟩
    · rfl
  have hvm : ∀ p < (exWholeRun fit).obs.nPol, ∀ f b, b < (exWholeRun fit).obs.nBl → KeptSample (exWholeRun fit) ⟨none, none, [], false⟩ p f b →
      (if f = 3 then 1 else (exWholeRun fit).vis p f b) = (exWholeRun fit).vis p f b ∧
      (if f = 3 then 5 else (exWholeRun fit).model p f b) = (exWholeRun fit).model p f b := by
    intro p _ f b _ hk
    have hf : f ≠ 3 := by
      rintro rfl
      exact hk.1 (h3 b)
    rw [if_neg hf, if_neg hf]
    exact ⟨rfl, rfl⟩
  have he : ∀ r', (exWholeRun fit).basic ⟨none, none, [], false⟩ = .ok r' → ExportFits ((exWholeRun fit).basicFlagged r') (exExportRun fit) := by
    intro r' hr'
    rw [r1] at hr'
    rw [← Except.ok.inj hr', r2]
    exact exExportRun_fits fit
  obtain ⟨out, files, -, h2, h4, -⟩ := C308_files _ (exWholeRun_fits fit) R _ (exExportRun_fits fit) (exExportRun_grids fit) exFileIn exFileIn_fits fun _ => 0
  have hG : flaggedFiles (exWholeRun fit) ⟨none, none, [], false⟩ (exExportRun fit) exFileIn (fun _ => 0) = .ok files := by
    unfold flaggedFiles
    rw [r1]
    simp only [bind, Except.bind]
    rw [r2, hR]
    exact h2
  obtain ⟨R', a1, a2⟩ := C311_flagged (exWholeRun fit) (exWholeRun_fits fit) _ _ (fun p f b => if f = 3 then 5 else (exWholeRun fit).model p f b) hz hvm R hF
  obtain ⟨R'', b1, b2, -⟩ := C312_units (exWholeRun fit) (exWholeRun_fits fit) (exWholeRun_images fit) (fun p => by norm_num [exWholeRun, exGrid]) _ 2
    two_ne_zero R hF
  exact ⟨fit, R, R', R'', files, hF, a1, a2, fun p hp b hb hpos =>
    (C311_used (exWholeRun fit) (exWholeRun_fits fit) _ R hF p hp 3 b (by
      show b < ((List.range 10).map fun _ => (1 : ℤ)).length
      rw [List.length_map, List.length_range]
      exact hb) hpos).1.1 (h3 b), b1, b2, hG, h4,
    C311_files (exWholeRun fit) (exWholeRun_fits fit) _ _ _ hz hvm _ he exFileIn (exExportRun fit).im _ files hG⟩

end PyFHD
