import Verif.Model.Imaging
import Mathlib.Analysis.SpecialFunctions.Complex.Arg
import Mathlib.Analysis.SpecialFunctions.Sqrt

/-!
# Model of `grid_beam_per_baseline` (gridding/gridding_utils.py) and its set-up in `visibility_grid`

Kernels made for every baseline from the image of the beam. Numbers are exact; a kernel that is not a number is `none`.
-/

namespace PyFHD

/-! ## The window of the beam -/

/-- `psf_intermediate_res` (visibility_grid.py 182-184). -/
noncomputable def intermediateRes (res : ℕ) : ℕ := min (⌈Real.sqrt res / 2⌉₊ * 2) res

/-- `image_bot` (visibility_grid.py 188). -/
noncomputable def imageBot (psfDim res imageDim : ℕ) : ℤ :=
  pyInt (-((psfDim : ℚ) / 2) * intermediateRes res + (imageDim : ℚ) / 2)

/-- `image_top` (visibility_grid.py 189-193). -/
noncomputable def imageTop (psfDim res imageDim : ℕ) : ℤ :=
  pyInt (((psfDim : ℚ) * res - 1) - (psfDim : ℚ) / 2 * intermediateRes res + (imageDim : ℚ) / 2)

/-- Channel and baseline taken for the entry `ind` of the flattened array of samples (visibility_grid.py 258 and 370). -/
def bpbSample (nFreq ind : ℕ) : ℕ × ℕ := (ind % nFreq, ind / nFreq)

/-! ## The kernel of a visibility -/

/-- The arguments that matter. The window from `bot` to `top` is taken to start inside the image. -/
structure BpbIn where
  dim : ℕ
  beam : Plane ℂ
  l : Plane ℝ
  m : Plane ℝ
  n : Plane ℝ
  psfDim : ℕ
  res : ℕ
  bot : ℕ
  top : ℕ
  uu : ℕ → ℝ
  vv : ℕ → ℝ
  ww : ℕ → ℝ
  freq : ℕ → ℝ
  x : ℕ → ℝ
  y : ℕ → ℝ
  xmin : ℕ
  ymin : ℕ
  clipFloor : Bool
  maskThreshold : ℝ

/-- Summing a plane of `W` by `W` pixels over squares of `res` pixels (gridding_utils.py 635-648), by reshaping and transposing: the
arrays are given by their flattened entries. Other errors than those of `reshape` do not arise for `res` above zero. -/
def sumDown {K : Type _} [AddCommMonoid K] (psfDim res W : ℕ) (p : Plane K) : Py (ℕ → K) :=
  if res = 0 then .error .zeroDivision
  else
    let nx := W / res
    let ny := W / res
    let flat (k : ℕ) : K := p (k / W) (k % W)
    if W * W ≠ res * ny * nx * res then .error .valueError
    else
      let transposed (k : ℕ) : K := flat (((k / res % (res * ny)) * nx + k / (res * ny * res)) * res + k % res)
      let summed (a b : ℕ) : K := ∑ c ∈ Finset.range (res * res), transposed ((a * nx + b) * (res * res) + c)
      if nx * ny ≠ psfDim * psfDim then .error .valueError
      else .ok fun k => summed (k % ny) (k / ny)

namespace BpbIn

variable (c : BpbIn)

/-- The image of the beam with the phases of the visibility of baseline `b` and channel `f` (gridding_utils.py 600-616). -/
noncomputable def phased (b f : ℕ) : Plane ℂ := fun i j =>
  let du := c.uu b * c.freq f - c.x (c.xmin + c.psfDim / 2)
  let dv := c.vv b * c.freq f - c.y (c.ymin + c.psfDim / 2)
  let w := c.n i j * c.ww b * c.freq f
  c.beam i j * Complex.exp (2 * Real.pi * Complex.I * ((-w + c.l i j * du + c.m i j * dv : ℝ) : ℂ))

/-- The kernel of a visibility (gridding_utils.py 598-651). -/
noncomputable def kernel (b f : ℕ) : Py (ℕ → ℂ) := do
  let out ← dirtyImage { notReal := true, uniform := fun _ => .error .typeError } c.dim c.dim (c.phased b f)
  sumDown c.psfDim c.res (min (c.top + 1) c.dim - c.bot) fun i j => out.image (c.bot + i) (c.bot + j)

/-- The largest absolute value in the box (gridding_utils.py 661-662). -/
noncomputable def maxAmp (rows : List (ℕ → ℂ)) : ℝ :=
  (rows.map fun r => ((List.range (c.psfDim * c.psfDim)).map fun k => ‖r k‖).foldr max 0).foldr max 0

/-- An entry with its absolute value reduced (gridding_utils.py 663-668). -/
noncomputable def clipEntry (thr : ℝ) (z : ℂ) : ℂ :=
  (((max (‖z‖ - thr) 0) * Real.cos z.arg : ℝ) : ℂ) + Complex.I * (((max (‖z‖ - thr) 0) * Real.sin z.arg : ℝ) : ℂ)

/-- The clip of the kernels (gridding_utils.py 659-672). -/
noncomputable def clipRows (rows : List (ℕ → ℂ)) : List (ℕ → Option ℂ) :=
  if c.clipFloor then
    let thr := c.maxAmp rows / c.maskThreshold
    rows.map fun r =>
      let ref := ∑ k ∈ Finset.range (c.psfDim * c.psfDim), r k
      let tmp := ∑ k ∈ Finset.range (c.psfDim * c.psfDim), clipEntry thr (r k)
      fun k => if tmp = 0 then none else some (clipEntry thr (r k) * (ref / tmp))
  else rows.map fun r k => some (r k)

/-- The kernels of a group of visibilities given by channel and baseline (gridding_utils.py 598-672 and 688). -/
noncomputable def box (vis : List (ℕ × ℕ)) : Py (List (ℕ → Option ℂ)) := do
  let rows ← vis.mapM fun v => c.kernel v.2 v.1
  return c.clipRows rows

end BpbIn

/-! ## The integrals for degridding -/

/-- Integral of the beam, of its square, and number of visibilities, by channel. -/
structure BeamIntegrals where
  beam : ℕ → ℂ
  beam2 : ℕ → ℝ
  count : ℕ → ℕ

/-- One turn of the loop (gridding_utils.py 683-686). -/
noncomputable def integralStep (psfDim res : ℕ) (rows : List (ℕ → ℂ)) (s : BeamIntegrals) (ii f : ℕ) : Py BeamIntegrals :=
  if psfDim * psfDim ≤ ii then .error .indexError
  else
    let t1 := (rows.map fun r => r ii).sum / ((res : ℂ) ^ 2)
    let t2 := (rows.map fun r => ‖r ii‖ ^ 2).sum / ((res : ℝ) ^ 2)
    .ok ⟨Function.update s.beam f (s.beam f + t1), Function.update s.beam2 f (s.beam2 f + t2),
      Function.update s.count f (s.count f + 1)⟩

/-- The integrals (gridding_utils.py 674-686) for visibilities of the channels `freqs` (rows that are numbers). -/
noncomputable def beamIntegrals (psfDim res : ℕ) (rows : List (ℕ → ℂ)) : ℕ → List ℕ → BeamIntegrals → Py BeamIntegrals
  | _, [], s => .ok s
  | ii, f :: fs, s =>
    match integralStep psfDim res rows s ii f with
    | .error e => .error e
    | .ok s' => beamIntegrals psfDim res rows (ii + 1) fs s'

end PyFHD
