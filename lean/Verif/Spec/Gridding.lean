import Verif.Model.Gridding
import Mathlib.Algebra.BigOperators.Group.Finset.Basic

/-!
# Specifications for the gridding

Only the input structures `GridIn` and `VisGridIn` of the model are used here.
-/

namespace PyFHD.Spec

/-- Sample `b` is gridded at its mirror point. -/
def Mirrored (g : GridIn) (b : ℕ) : Prop := 0 < g.vv b / g.kpix

instance (g : GridIn) (b : ℕ) : Decidable (Mirrored g b) := by unfold Mirrored; infer_instance

/-- The two coordinates of a sample in pixels from the centre of the plane. -/
def uPix (g : GridIn) (f b : ℕ) : ℚ :=
  g.freqAll.getD f 0 * ((if Mirrored g b then -1 else 1) * (g.uu b / g.kpix))
@[inherit_doc uPix]
def vPix (g : GridIn) (f b : ℕ) : ℚ :=
  g.freqAll.getD f 0 * ((if Mirrored g b then -1 else 1) * (g.vv b / g.kpix))

/-- First pixel of a footprint of `psf` pixels around coordinate `c` on an axis of `n` pixels. -/
def anchor (psf n : ℕ) (c : ℚ) : ℤ := ⌊c⌋ + ((n : ℤ) - psf) / 2 + 1

/-- The footprint is inside the axis and does not touch its ends. -/
def InsideAxis (psf n : ℕ) (c : ℚ) : Prop := 0 < anchor psf n c ∧ anchor psf n c + psf < n

instance (psf n : ℕ) (c : ℚ) : Decidable (InsideAxis psf n c) := by
  unfold InsideAxis; infer_instance

/-- Length of a baseline in the units of `min_baseline` per frequency. -/
def blLength (g : GridIn) (b : ℕ) : ℚ := g.norm (g.uu b / g.kpix) (g.vv b / g.kpix) * g.kpix

/-- The baseline is inside the allowed range at every frequency of the observation. -/
def LengthOk (g : GridIn) (b : ℕ) : Prop :=
  ∀ φ ∈ g.freqAll, g.minBaseline ≤ φ * blLength g b ∧ φ * blLength g b ≤ g.maxBaseline

instance (g : GridIn) (b : ℕ) : Decidable (LengthOk g b) := by unfold LengthOk; infer_instance

/-- The sample is to be gridded on a plane of `nx` by `ny` pixels: unflagged and of allowed length
(unless the model is filled), not masked, and its footprint inside the plane. -/
def GridableOn (g : GridIn) (nx ny : ℕ) (f b : ℕ) : Prop :=
  InsideAxis g.psfDim nx (uPix g f b) ∧ InsideAxis g.psfDim ny (vPix g f b) ∧
    (g.fill = false → 0 < g.weight f b ∧ LengthOk g b) ∧ ¬ (g.mask = true ∧ Mirrored g b)

instance (g : GridIn) (nx ny f b : ℕ) : Decidable (GridableOn g nx ny f b) := by
  unfold GridableOn; infer_instance

/-- The sample is to be gridded. -/
def Gridable (g : GridIn) (f b : ℕ) : Prop := GridableOn g g.dimension g.elements f b

instance (g : GridIn) (f b : ℕ) : Decidable (Gridable g f b) := by
  unfold Gridable; infer_instance

/-- Position of a coordinate inside its pixel in units of the kernel table. -/
def subPix (res : ℕ) (c : ℚ) : ℚ := (c - ⌊c⌋) * res

/-- Pixel `p` of the kernel of sample `(f, b)` for the frequency bin `fb`: the entry of the table at
the sub-pixel position, or the bilinear interpolation of its four neighbours. -/
def kernelAt {K : Type _} [Field K] (g : VisGridIn K) (fb f b p : ℕ) : K :=
  let X := ⌊subPix g.res (uPix g.toGridIn f b)⌋.toNat
  let Y := ⌊subPix g.res (vPix g.toGridIn f b)⌋.toNat
  let s : ℚ := subPix g.res (uPix g.toGridIn f b) - ⌊subPix g.res (uPix g.toGridIn f b)⌋
  let t : ℚ := subPix g.res (vPix g.toGridIn f b) - ⌊subPix g.res (vPix g.toGridIn f b)⌋
  if g.interp then
    g.kern fb Y X p * (((1 - s) * (1 - t) : ℚ) : K) + g.kern fb Y (X + 1) p * ((s * (1 - t) : ℚ) : K)
      + g.kern fb (Y + 1) X p * (((1 - s) * t : ℚ) : K)
      + g.kern fb (Y + 1) (X + 1) p * ((s * t : ℚ) : K)
  else g.kern fb Y X p

/-- First column and first row of the footprint of a sample. -/
def x0 (g : GridIn) (f b : ℕ) : ℕ := (anchor g.psfDim g.dimension (uPix g f b)).toNat
@[inherit_doc x0]
def y0 (g : GridIn) (f b : ℕ) : ℕ := (anchor g.psfDim g.elements (vPix g f b)).toNat

/-- The sample is to be gridded and its footprint covers pixel `(y, x)`. -/
def Reaches (g : GridIn) (f b y x : ℕ) : Prop :=
  Gridable g f b ∧ x0 g f b ≤ x ∧ x < x0 g f b + g.psfDim ∧ y0 g f b ≤ y ∧ y < y0 g f b + g.psfDim

instance (g : GridIn) (f b y x : ℕ) : Decidable (Reaches g f b y x) := by
  unfold Reaches; infer_instance

/-- Channel and baseline sample number `k` of the gridded arrays, counted row by row. -/
def chanOf (g : GridIn) (k : ℕ) : ℕ := g.fiUse.getD (k / g.biUse.length) 0
@[inherit_doc chanOf]
def blOf (g : GridIn) (k : ℕ) : ℕ := g.biUse.getD (k % g.biUse.length) 0

/-- The visibility of a sample, conjugated if it is gridded at its mirror point. -/
def visOf {K : Type _} [Star K] (g : VisGridIn K) (f b : ℕ) : K :=
  if Mirrored g.toGridIn b then star (g.vis f b) else g.vis f b

/-- Sum over the samples that reach pixel `(y, x)` of `c k p`, where `p` is the place of the pixel in
the footprint of sample `k`. -/
def sumReaching {K : Type _} [AddCommMonoid K] (g : GridIn) (y x : ℕ) (c : ℕ → ℕ → K) : K :=
  ∑ k ∈ Finset.range (g.fiUse.length * g.biUse.length),
    if Reaches g (chanOf g k) (blOf g k) y x then
      c k ((y - y0 g (chanOf g k) (blOf g k)) * g.psfDim + (x - x0 g (chanOf g k) (blOf g k)))
    else 0

end PyFHD.Spec
