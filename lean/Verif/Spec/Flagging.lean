import Verif.Model.Flagging
import Mathlib.Data.Finset.Prod
import Mathlib.Data.Finset.Range

/-!
# Specifications for the weight functions

Only the input structure `FlagObs` of the model is used here, none of its functions.
-/

namespace PyFHD.Spec

/-- First sample after time step `t`: the next offset, or the number of samples. -/
def stepEnd (o : FlagObs) (n t : ℕ) : ℕ := if t + 1 < o.nTime then o.binOffset (t + 1) else n

/-- Sample `b` belongs to time step `t` of an observation with `n` samples. -/
def InStep (o : FlagObs) (n t b : ℕ) : Prop :=
  t < o.nTime ∧ o.binOffset t ≤ b ∧ b < stepEnd o n t

instance (o : FlagObs) (n t b : ℕ) : Decidable (InStep o n t b) := by
  unfold InStep; infer_instance

/-- The time steps split the samples: offsets start at zero, ascend, and stay inside. -/
structure GoodOffsets (o : FlagObs) (n : ℕ) : Prop where
  zero : o.binOffset 0 = 0
  mono : ∀ s t, s ≤ t → t < o.nTime → o.binOffset s ≤ o.binOffset t
  le : ∀ t, t < o.nTime → o.binOffset t ≤ n

/-- Tile number `v` (counted from one) is marked unused. -/
def UnusedTile (o : FlagObs) (v : ℤ) : Prop := ∃ t, t < o.nTile ∧ o.tileUse t = 0 ∧ v = (t : ℤ) + 1

/-- Sample `b` involves an unused tile. -/
def TileFlagged (o : FlagObs) (b : ℕ) : Prop :=
  ∃ v, UnusedTile o v ∧ (o.tileA[b]? = some v ∨ o.tileB[b]? = some v)

/-- Length of the baseline in wavelengths outside the allowed range. -/
def OutOfRange (o : FlagObs) (q : UvParams) (f b : ℕ) : Prop :=
  o.freq f * (q.norm (q.uu b / o.kpix) (q.vv b / o.kpix) * o.kpix) < o.minBaseline ∨
    o.maxBaseline < o.freq f * (q.norm (q.uu b / o.kpix) (q.vv b / o.kpix) * o.kpix)

/-- `-1` for the baselines that are gridded at their mirror point (`v > 0`), else `1`. -/
def flip (o : FlagObs) (q : UvParams) (b : ℕ) : ℚ := if 0 < q.vv b / o.kpix then -1 else 1

/-- First pixel of the kernel footprint along one axis of `n` pixels for a coordinate `c` in
pixels from the centre. -/
def corner (psf n : ℕ) (c : ℚ) : ℚ := (⌊c⌋ : ℤ) + (n : ℚ) / 2 - ((psf : ℚ) / 2 - 1)

/-- The footprint `[x, x + psf - 1]` is not strictly inside `[0, n - 1]`. -/
def OffAxis (psf n : ℕ) (x : ℚ) : Prop := x ≤ 0 ∨ (n : ℚ) - 1 ≤ x + psf - 1

/-- The kernel footprint of the sample touches the border of the uv grid or leaves it. -/
def OffGrid (o : FlagObs) (q : UvParams) (f b : ℕ) : Prop :=
  OffAxis q.psfDim o.dimension
      (corner q.psfDim o.dimension (o.freq f * (flip o q b * (q.uu b / o.kpix)))) ∨
    OffAxis q.psfDim o.elements
      (corner q.psfDim o.elements (o.freq f * (flip o q b * (q.vv b / o.kpix))))

/-- The samples that `vis_weights_update` has to remove. -/
def MustFlag (o : FlagObs) (q : UvParams) (f b : ℕ) : Prop :=
  o.freqUse f = 0 ∨ TileFlagged o b ∨ (∃ t, InStep o o.nBl t b ∧ o.timeUse t = 0) ∨
    OutOfRange o q f b ∨ OffGrid o q f b

/-- All `(frequency, baseline)` pairs. -/
def allSamples (o : FlagObs) : Finset (ℕ × ℕ) := Finset.range o.nFreq ×ˢ Finset.range o.nBl

end PyFHD.Spec
