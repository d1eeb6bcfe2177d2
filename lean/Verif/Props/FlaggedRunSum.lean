import Verif.Props.FlaggedRunSame
import Verif.Props.WholeExportSum

/-!
# C317: sums of skies in runs with basic flagging
-/

namespace PyFHD

open Spec

/-- A run with basic flagging on another sky that is zero at the same samples (where this matters). -/
theorem flaggedRun_sky (x : RunIn) (c : FlagConfig) (r : BasicResult) (hr : x.basic c = .ok r) (v m : ℕ → ℕ → ℕ → ℂ) (hz : SameZeros x c v) :
    flaggedRun (withSky x v m) c = imagingRun (withSky (x.basicFlagged r) v m) := by
  unfold flaggedRun
  rw [basic_zeros x c v m hz, hr]
  rfl

theorem flaggedFiles_sky (x : RunIn) (c : FlagConfig) (r : BasicResult) (hr : x.basic c = .ok r) (v m : ℕ → ℕ → ℕ → ℂ) (hz : SameZeros x c v)
    (R : RunOut) (hR : flaggedRun (withSky x v m) c = .ok R) (e : ExportIn) (q : FileIn) (nf : ℕ → ℕ) :
    flaggedFiles (withSky x v m) c e q nf = runFiles (withSky (x.basicFlagged r) v m) e q R nf := by
  rw [flaggedRun_sky x c r hr v m hz] at hR
  have hR' : imagingRun ((withSky x v m).basicFlagged r) = .ok R := hR
  unfold flaggedFiles
  rw [basic_zeros x c v m hz, hr]
  simp only [bind, Except.bind]
  rw [hR']
  rfl

/-- **C317.** Skies add up in runs with basic flagging: the claim of C315 for the samples that the flagging keeps. Where the flagging looks at the data,
they have to be zero at the same samples for the three skies. -/
theorem C317_sum (x : RunIn) (h : RunFits x) (hi : ImagesFit x) (hres : ∀ p, 0 < (x.grid p).res) (hflag : x.opts.flag = false) (c : FlagConfig) (g : Gains)
    (v1 m1 v2 m2 v3 m3 : ℕ → ℕ → ℕ → ℂ) (z1 : SameZeros x c v1) (z2 : SameZeros x c v2) (z3 : SameZeros x c v3)
    (s : ∀ r, x.basic c = .ok r → ExactSky (x.basicFlagged r) g v1 m1 ∧ ExactSky (x.basicFlagged r) g v2 m2 ∧ ExactSky (x.basicFlagged r) g v3 m3)
    (a b : ℝ) (hm : ∀ p < x.obs.nPol, ∀ f, ∀ s < x.cal.run.nBl * x.cal.run.nTime, KeptSample x c p f s → m3 p f s = a * m1 p f s + b * m2 p f s)
    (R1 R2 R3 : RunOut) (hR1 : flaggedRun (withSky x v1 m1) c = .ok R1) (hR2 : flaggedRun (withSky x v2 m2) c = .ok R2)
    (hR3 : flaggedRun (withSky x v3 m3) c = .ok R3) :
    R2.weights = R1.weights ∧ R3.weights = R1.weights ∧ ∀ p < x.obs.nPol,
      (∃ o1 o2 o3, R1.planes[p]? = some o1 ∧ R2.planes[p]? = some o2 ∧ R3.planes[p]? = some o3 ∧
        (∀ i j, o3.1.planes.image i j = a * o1.1.planes.image i j + b * o2.1.planes.image i j) ∧ (∀ i j, o3.2 i j = a * o1.2 i j + b * o2.2 i j) ∧
        o2.1.planes.weights = o1.1.planes.weights ∧ o3.1.planes.weights = o1.1.planes.weights) ∧
      FilesAdd a b .dirty p R1.images R2.images R3.images ∧ FilesAdd a b .model p R1.images R2.images R3.images := by
  cases hr : x.basic c with
  | error e =>
    unfold flaggedRun at hR1
    rw [basic_zeros x c v1 m1 z1, hr] at hR1
    cases hR1
  | ok r =>
    rw [flaggedRun_sky x c r hr v1 m1 z1] at hR1
    rw [flaggedRun_sky x c r hr v2 m2 z2] at hR2
    rw [flaggedRun_sky x c r hr v3 m3 z3] at hR3
    obtain ⟨s1, s2, s3⟩ := s r hr
    exact C315_sum (x.basicFlagged r) (h.basicFlagged r) ⟨hi.size, hi.pad, hi.filter⟩ hres hflag g v1 m1 v2 m2 v3 m3 s1 s2 s3 a b
      (fun p hp f s hs hu => hm p hp f s hs (used_kept x h c r hr p f s hu)) R1 R2 R3 hR1 hR2 hR3

/-- **C317**, the files: the three runs write their HEALPix files, and the cubes of data and model add up in every file. -/
theorem C317_files (x : RunIn) (h : RunFits x) (hi : ImagesFit x) (hres : ∀ p, 0 < (x.grid p).res) (hflag : x.opts.flag = false) (c : FlagConfig) (g : Gains)
    (v1 m1 v2 m2 v3 m3 : ℕ → ℕ → ℕ → ℂ) (z1 : SameZeros x c v1) (z2 : SameZeros x c v2) (z3 : SameZeros x c v3)
    (s : ∀ r, x.basic c = .ok r → ExactSky (x.basicFlagged r) g v1 m1 ∧ ExactSky (x.basicFlagged r) g v2 m2 ∧ ExactSky (x.basicFlagged r) g v3 m3)
    (a b : ℝ) (hm : ∀ p < x.obs.nPol, ∀ f, ∀ s < x.cal.run.nBl * x.cal.run.nTime, KeptSample x c p f s → m3 p f s = a * m1 p f s + b * m2 p f s)
    (R1 : RunOut) (hR1 : flaggedRun (withSky x v1 m1) c = .ok R1)
    (e : ExportIn) (he : ∀ r, x.basic c = .ok r → ExportFits (x.basicFlagged r) e ∧ ExportGrids (x.basicFlagged r) e) (q : FileIn) (hq : MapFits e.dim q)
    (im2 im3 : ℕ → ℕ → ℕ → ℚ) (nf : ℕ → ℕ) :
    ∃ F1 F2 F3, flaggedFiles (withSky x v1 m1) c e q nf = .ok F1 ∧ flaggedFiles (withSky x v2 m2) c { e with im := im2 } q nf = .ok F2 ∧
      flaggedFiles (withSky x v3 m3) c { e with im := im3 } q nf = .ok F3 ∧ F1.length = 2 * x.obs.nPol ∧ F2.length = 2 * x.obs.nPol ∧
      F3.length = 2 * x.obs.nPol ∧ ∀ (k : ℕ) (f1 f2 f3 : RunFile), F1[k]? = some f1 → F2[k]? = some f2 → F3[k]? = some f3 → FileAdds a b f1 f2 f3 := by
  cases hr : x.basic c with
  | error e =>
    unfold flaggedRun at hR1
    rw [basic_zeros x c v1 m1 z1, hr] at hR1
    cases hR1
  | ok r =>
    have k1 := hR1
    rw [flaggedRun_sky x c r hr v1 m1 z1] at k1
    obtain ⟨s1, s2, s3⟩ := s r hr
    have hi' : ImagesFit (x.basicFlagged r) := ⟨hi.size, hi.pad, hi.filter⟩
    obtain ⟨R2, k2⟩ := C315_runs (x.basicFlagged r) (h.basicFlagged r) hi' hres hflag g v1 m1 v2 m2 s1 s2 R1 k1
    obtain ⟨R3, k3⟩ := C315_runs (x.basicFlagged r) (h.basicFlagged r) hi' hres hflag g v1 m1 v3 m3 s1 s3 R1 k1
    rw [flaggedFiles_sky x c r hr v1 m1 z1 R1 hR1, flaggedFiles_sky x c r hr v2 m2 z2 R2 (by rw [flaggedRun_sky x c r hr v2 m2 z2]; exact k2),
      flaggedFiles_sky x c r hr v3 m3 z3 R3 (by rw [flaggedRun_sky x c r hr v3 m3 z3]; exact k3)]
    exact C316_files (x.basicFlagged r) (h.basicFlagged r) hi' hres hflag g v1 m1 v2 m2 v3 m3 s1 s2 s3 a b
      (fun p hp f s hs hu => hm p hp f s hs (used_kept x h c r hr p f s hu)) R1 R2 R3 k1 k2 k3 e (he r hr).1 (he r hr).2 q hq im2 im3 nf

/-- The hypotheses of C317 are met by the skies of Props/WholeRunSum. -/
example : ∃ fit F1 F2 F3, flaggedFiles (exBright fit 1) ⟨none, none, [], false⟩ (exExportRun fit) exFileIn (fun _ => 0) = .ok F1 ∧
    flaggedFiles (exBright fit 2) ⟨none, none, [], false⟩ (exExportRun fit) exFileIn (fun _ => 0) = .ok F2 ∧
    flaggedFiles (exBright fit 3) ⟨none, none, [], false⟩ (exExportRun fit) exFileIn (fun _ => 0) = .ok F3 ∧ F1.length = 4 ∧
    ∀ (k : ℕ) (f1 f2 f3 : RunFile), F1[k]? = some f1 → F2[k]? = some f2 → F3[k]? = some f3 → FileAdds 1 1 f1 f2 f3 := by
  obtain ⟨fit, hfit⟩ := exists_leastSquaresFit
  obtain ⟨R, hR⟩ := exWholeRun_ok fit hfit
  obtain ⟨r, r1, r2⟩ := exWholeRun_basic fit
  have hz : ∀ k : ℝ, k ≠ 0 → SameZeros (exWholeRun fit) ⟨none, none, [], false⟩ (exBright fit k).vis := fun k hk => Or.inr fun p f b => by
    show (k : ℂ) * _ = 0 ↔ _
    rw [mul_eq_zero]
    exact ⟨fun h => h.resolve_left (by exact_mod_cast hk), Or.inr⟩
  obtain ⟨R1, a1, -⟩ := C295_units _ (exWholeRun_fits fit) (exWholeRun_images fit) (fun p => by norm_num [exWholeRun, exGrid]) 1 (by norm_num) R hR
  have h1 : flaggedRun (exBright fit 1) ⟨none, none, [], false⟩ = .ok R1 := by
    refine (flaggedRun_sky (exWholeRun fit) _ r r1 _ _ (hz 1 (by norm_num))).trans ?_
    rw [r2]
    exact a1
  have hr : ∀ r', (exWholeRun fit).basic ⟨none, none, [], false⟩ = .ok r' → (exWholeRun fit).basicFlagged r' = exWholeRun fit := by
    intro r' hr'
    rw [r1] at hr'
    rw [← Except.ok.inj hr', r2]
  obtain ⟨F1, F2, F3, f1, f2, f3, f4, -, -, f5⟩ := C317_files (exWholeRun fit) (exWholeRun_fits fit) (exWholeRun_images fit)
    (fun p => by norm_num [exWholeRun, exGrid]) rfl ⟨none, none, [], false⟩ (fun _ _ _ => ((2 : ℝ) : ℂ)) (exBright fit 1).vis (exBright fit 1).model
    (exBright fit 2).vis (exBright fit 2).model (exBright fit 3).vis (exBright fit 3).model (hz 1 (by norm_num)) (hz 2 (by norm_num)) (hz 3 (by norm_num))
    (fun r' hr' => by
      rw [hr r' hr']
      exact ⟨exBright_sky fit hfit 1 (by norm_num), exBright_sky fit hfit 2 (by norm_num), exBright_sky fit hfit 3 (by norm_num)⟩) 1 1
    (fun p _ f s _ _ => by
      show ((3 : ℝ) : ℂ) * (exWholeRun fit).model p f s = ((1 : ℝ) : ℂ) * (((1 : ℝ) : ℂ) * (exWholeRun fit).model p f s) +
        ((1 : ℝ) : ℂ) * (((2 : ℝ) : ℂ) * (exWholeRun fit).model p f s)
      push_cast
      ring) R1 h1 (exExportRun fit) (fun r' hr' => by
      rw [hr r' hr']
      exact ⟨exExportRun_fits fit, exExportRun_grids fit⟩) exFileIn exFileIn_fits (fun _ _ _ => 0) (fun _ _ _ => 0) fun _ => 0
  exact ⟨fit, F1, F2, F3, f1, f2, f3, f4, f5⟩

end PyFHD
