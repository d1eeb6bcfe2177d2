import Verif.Model.CalPoly
import Verif.Model.CalApply
import Verif.Model.PlotCurves

/-!
# Model of the fits of `calibrate` one after the other (calibrate.py 102-128)

The pieces are those of `CalApply` and `CalPoly`, here with complex numbers, the resistant mean of `CalStats` and `np.unwrap` of
`PlotCurves`.
-/

namespace PyFHD

/-- `np.unwrap` (calibration_utils.py 1013) of phases that are numbers. -/
noncomputable def unwrapNumbers (l : List ℝ) : List ℝ := (unwrap (l.map some)).map fun x => x.getD 0

/-- The numerical functions of `vis_cal_polyfit` (calibration_utils.py 944-1025) for complex gains; the fit is a parameter. -/
noncomputable def complexFit (fit : List ℕ → List ℝ → ℕ → List ℝ) : PolyFit ℝ ℂ :=
  { fit := fit, unwrap := unwrapNumbers, mag := fun z => ‖z‖, arg := Complex.arg, expi := fun x => Complex.exp ((x : ℂ) * Complex.I),
    cast := fun x => (x : ℂ) }

/-- `resistant_mean(., 2)` (calibration_utils.py 830, 839). Simplification: `NaN` is replaced by 0, so that theorems apply only where the
mean of the amplitudes is a number. -/
noncomputable def rmeanTwo (l : List ℝ) : ℝ := (resistantMean l 2).getD 0

/-- The options of the fits: polynomial fits, the digital gain jump, the degrees, the channels below the jump, the distinct cable lengths
with that of each tile if the bandpass is averaged over cables, and the auto-correlation ratios with the tiles that have them. -/
structure FitOpts where
  poly : Bool
  jump : Bool
  ampDeg : ℕ
  phaseDeg : ℕ
  low : ℕ → Bool
  cables : Option (List ℕ × (ℕ → ℕ))
  ratio : Option ((ℕ → ℕ → ℝ) × List ℕ)

/-- `vis_cal_bandpass` without a file (calibration_utils.py 738-850). -/
noncomputable def chainBandpass (o : FitOpts) (freqUse tileUse : List ℕ) (gain : ℕ → ℕ → ℂ) : BandpassOut ℂ :=
  match o.cables with
  | none => bandpassGlobal (fun x : ℝ => (x : ℂ)) (fun z : ℂ => ‖z‖) rmeanTwo gain freqUse tileUse
  | some (cables, cable) =>
    bandpassCable (fun x : ℝ => (x : ℂ)) (fun z : ℂ => ‖z‖) rmeanTwo gain freqUse tileUse cables cable o.ratio.isSome

/-- The gains before the bandpass: divided by the ratios (calibrate.py 105-108). -/
noncomputable def chainDivide (o : FitOpts) (gain : ℕ → ℕ → ℂ) : ℕ → ℕ → ℂ :=
  match o.ratio with
  | none => gain
  | some (r, _) => fun f t => autoRatioDivide (fun x : ℝ => (x : ℂ)) 1 (fun _ => r) (fun _ => gain) 0 f t

/-- The gains after the fits: multiplied by the ratios (calibrate.py 125-126). -/
noncomputable def chainRemultiply (o : FitOpts) (gain : ℕ → ℕ → ℂ) : ℕ → ℕ → ℂ :=
  match o.ratio with
  | none => gain
  | some (r, auto) => fun f t => autoRatioRemultiply (fun x : ℝ => (x : ℂ)) 1 (fun _ => r) auto (fun _ => gain) 0 f t

/-- The gains of one polarisation and tile after bandpass and polynomial fits (calibrate.py 102-126, without reflections). Remainders that
are not numbers are not modelled (0). -/
noncomputable def fittedGains (fit : List ℕ → List ℝ → ℕ → List ℝ) (o : FitOpts) (freqUse tileUse : List ℕ) (gain : ℕ → ℕ → ℂ) (t : ℕ) :
    Py (ℕ → ℂ) :=
  let b := chainBandpass o freqUse tileUse (chainDivide o gain)
  if o.poly then
    (polyTile (complexFit fit) o.jump o.ampDeg o.phaseDeg freqUse o.low fun f => (b.remainder f t).getD 0).map fun h f =>
      chainRemultiply o (fun f _ => h f * b.bandpass f t) f t
  else .ok fun f => chainRemultiply o b.bandpass f t

end PyFHD
