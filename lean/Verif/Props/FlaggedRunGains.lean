import Verif.Props.FlaggedRunSame
import Verif.Props.WholeRunGains

/-!
# C319: the instrument in runs with basic flagging
-/

namespace PyFHD

open Spec

/-- The basic flagging of the data of another instrument that are zero at the same samples (where this matters). -/
theorem basic_instrument (x : RunIn) (c : FlagConfig) (v : ℕ → ℕ → ℕ → ℂ) (hz : SameZeros x c v) (k : CalibrateIn) (o : CalOpts) (t : Option ReflTable) :
    (withInstrument x v k o t).basic c = x.basic c :=
  basic_zeros x c v x.model hz

/-- **C319.** The instrument has no influence on the results of a run with basic flagging: the claim of C318, where the data have to be the model seen
through the gains at the samples that the flagging keeps, and to be zero at the same samples where the flagging looks at them. -/
theorem C319_instrument (x : RunIn) (h : RunFits x) (c : FlagConfig) (v : ℕ → ℕ → ℕ → ℂ) (hz : SameZeros x c v) (k : CalibrateIn) (o : CalOpts)
    (t : Option ReflTable) (h' : RunFits (withInstrument x v k o t)) (hf : x.opts.flag = false) (hf' : o.flag = false) (g g' : Gains)
    (s : ∀ r, x.basic c = .ok r → SeenThrough (x.basicFlagged r) g ∧ SeenThrough (withInstrument (x.basicFlagged r) v k o t) g')
    (R : RunOut) (hR : flaggedRun x c = .ok R) :
    ∃ R', flaggedRun (withInstrument x v k o t) c = .ok R' ∧ R'.weights = R.weights ∧ R'.planes = R.planes ∧ R'.images = R.images ∧
      ∀ (e : ExportIn) (_ : ∀ r, x.basic c = .ok r → ExportFits (x.basicFlagged r) e) (im : ℕ → ℕ → ℕ → ℚ) (q : FileIn) (nf : ℕ → ℕ),
        flaggedFiles (withInstrument x v k o t) c { e with im := im } q nf = flaggedFiles x c e q nf := by
  cases hr : x.basic c with
  | error e =>
    unfold flaggedRun at hR
    rw [hr] at hR
    cases hR
  | ok r =>
    have hb := basic_instrument x c v hz k o t
    rw [hr] at hb
    have k1 : imagingRun (x.basicFlagged r) = .ok R := by
      unfold flaggedRun at hR
      rw [hr] at hR
      exact hR
    obtain ⟨s1, s2⟩ := s r hr
    obtain ⟨R', a1, a2, a3, a4, a5⟩ := C318_instrument (x.basicFlagged r) (h.basicFlagged r) v k o t (h'.basicFlagged r) hf hf' g g' s1 s2 R k1
    have a1' : imagingRun ((withInstrument x v k o t).basicFlagged r) = .ok R' := a1
    refine ⟨R', ?_, a2, a3, a4, fun e he im q nf => ?_⟩
    · unfold flaggedRun
      rw [hb]
      exact a1
    · have e1 : flaggedFiles x c e q nf = runFiles (x.basicFlagged r) e q R nf := by
        unfold flaggedFiles
        rw [hr]
        simp only [bind, Except.bind]
        rw [k1]
      have e2 : flaggedFiles (withInstrument x v k o t) c { e with im := im } q nf =
          runFiles ((withInstrument x v k o t).basicFlagged r) { e with im := im } q R' nf := by
        unfold flaggedFiles
        rw [hb]
        simp only [bind, Except.bind]
        rw [a1']
      rw [e1, e2]
      exact (a5 e (he r rfl) im nf).2 q

/-- The hypotheses of C319 are met by the instruments of Props/WholeRunGains. -/
example : ∃ fit R R' F, flaggedRun (exWholeRun fit) ⟨none, none, [], false⟩ = .ok R ∧ flaggedRun (exOther fit) ⟨none, none, [], false⟩ = .ok R' ∧
    R'.images = R.images ∧ flaggedFiles (exWholeRun fit) ⟨none, none, [], false⟩ (exExportRun fit) exFileIn (fun _ => 0) = .ok F ∧
    flaggedFiles (exOther fit) ⟨none, none, [], false⟩ (exExportRun fit) exFileIn (fun _ => 0) = .ok F ∧ F.length = 4 := by
  obtain ⟨fit, hfit⟩ := exists_leastSquaresFit
  obtain ⟨R, hR⟩ := exWholeRun_ok fit hfit
  obtain ⟨r, r1, r2⟩ := exWholeRun_basic fit
  have hr : ∀ r', (exWholeRun fit).basic ⟨none, none, [], false⟩ = .ok r' → (exWholeRun fit).basicFlagged r' = exWholeRun fit := by
    intro r' hr'
    rw [r1] at hr'
    rw [← Except.ok.inj hr', r2]
  have h0 : flaggedRun (exWholeRun fit) ⟨none, none, [], false⟩ = .ok R := by
    unfold flaggedRun
    rw [r1]
    simp only [bind, Except.bind]
    rw [r2]
    exact hR
  have hz : SameZeros (exWholeRun fit) ⟨none, none, [], false⟩ fun p f b => 9 * (exWholeRun fit).model p f b := Or.inr fun p f b => by
    show (9 : ℂ) * (exWholeRun fit).model p f b = 0 ↔ (4 : ℂ) * (exWholeRun fit).model p f b = 0
    simp only [mul_eq_zero, OfNat.ofNat_ne_zero, false_or]
  obtain ⟨R', a1, -, -, a4, a5⟩ := C319_instrument (exWholeRun fit) (exWholeRun_fits fit) ⟨none, none, [], false⟩ _ hz _ _ _ (exOther_fits fit) rfl rfl _ _
    (fun r' hr' => by
      rw [hr r' hr']
      exact ⟨exWholeRun_seen fit hfit, exOther_seen fit hfit⟩) R h0
  obtain ⟨-, F, -, f1, f2, -⟩ := C308_files _ (exWholeRun_fits fit) R _ (exExportRun_fits fit) (exExportRun_grids fit) exFileIn exFileIn_fits fun _ => 0
  have f0 : flaggedFiles (exWholeRun fit) ⟨none, none, [], false⟩ (exExportRun fit) exFileIn (fun _ => 0) = .ok F := by
    unfold flaggedFiles
    rw [r1]
    simp only [bind, Except.bind]
    rw [r2, hR]
    exact f1
  have k := a5 (exExportRun fit) (fun r' hr' => by rw [hr r' hr']; exact exExportRun_fits fit) (exExportRun fit).im exFileIn fun _ => 0
  exact ⟨fit, R, R', F, h0, a1, a4, f0, k.trans f0, f2⟩

end PyFHD
