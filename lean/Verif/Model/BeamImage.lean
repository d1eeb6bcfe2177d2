import Verif.Model.Regions
import Verif.Model.CalApply
import Mathlib.Analysis.SpecialFunctions.Complex.Arg
import Mathlib.Analysis.SpecialFunctions.Trigonometric.Basic

/-!
# Model of the images of the beam

`gaussian_decomp` and `beam_image` (beam_setup/beam_utils.py), `beam_image_cube` (healpix/healpix_utils.py). Numbers are exact. In
`beam_image` the Gaussian beam of a polarisation and frequency bin is a parameter, an image given by its flattened pixels, because the
exponential of a rational number is not rational; `gaussianDecomp` says what it is.
-/

namespace PyFHD

/-! ## Sums of Gaussians -/

/-- The five parameters of a lobe, a row of `var` (beam_utils.py 18-23). -/
structure Lobe (R : Type _) where
  amp : R
  ox : R
  sx : R
  oy : R
  sy : R
  deriving DecidableEq, Repr

section Decomp

variable {R : Type _} [Field R] [LinearOrder R]

/-- `np.reshape(p, [p.size // 5, 5])` (beam_utils.py 18): raises if parameters are left over. -/
def lobesOf : List R → Py (List (Lobe R))
  | [] => .ok []
  | a :: b :: c :: d :: e :: l =>
    match lobesOf l with
    | .ok rest => .ok (⟨a, b, c, d, e⟩ :: rest)
    | .error err => .error err
  | _ => .error .valueError

/-- The parameters as they lie in the array. -/
def flatLobes (lobes : List (Lobe R)) : List R := lobes.flatMap fun l => [l.amp, l.ox, l.sx, l.oy, l.sy]

/-- An offset on a grid of `n` pixels instead of `m` (beam_utils.py 28-36); `x.size` is used for both axes. -/
def shiftOffset (n m o : R) : R := if m < n then o + |n / 2 - m / 2| else o - |m / 2 - n / 2|

/-- What the array of the caller holds after the call (beam_utils.py 28-40 and 58-59): `+=`, `-=` and `*=` act on views of it. An array
of floats in one piece is assumed, so that `np.reshape` makes no copy. Only the offsets of lines 41-42 are new arrays. -/
def Lobe.after (nx ny : ℕ) (npix res : Option R) (ft : Bool) (l : Lobe R) : Lobe R :=
  let ox := match npix with
    | some m => shiftOffset (nx : R) m l.ox
    | none => l.ox
  let oy := match npix with
    | some m => shiftOffset (nx : R) m l.oy
    | none => l.oy
  match res with
  | some r => ⟨l.amp, ox, l.sx * r, oy, l.sy * r⟩
  | none => if ft then ⟨l.amp, ox - (nx : R) / 2, l.sx, oy - (ny : R) / 2, l.sy⟩ else ⟨l.amp, ox, l.sx, oy, l.sy⟩

/-- The parameters from which the image is computed (beam_utils.py 28-42). -/
def Lobe.used (nx ny : ℕ) (npix res : Option R) (l : Lobe R) : Lobe R :=
  let l' := l.after nx ny npix res false
  match res with
  | some r => { l' with
      ox := (l'.ox - (nx : R) / 2) * r + (nx : R) / 2
      oy := (l'.oy - (ny : R) / 2) * r + (ny : R) / 2 }
  | none => l'

/-- One lobe at a point (beam_utils.py 46-49). The widths are taken to be nonzero. -/
def Lobe.value (exp : R → R) (l : Lobe R) (x y : R) : R :=
  l.amp * (exp (-(y - l.oy) ^ 2 / (2 * l.sy ^ 2)) * exp (-(x - l.ox) ^ 2 / (2 * l.sx ^ 2)))

/-- `gaussian_decomp` without `ftransform` (beam_utils.py 7-52 and 78): the image, rows along `y`. Adding to an image of `x.size` rows
raises unless both sizes agree. -/
def gaussianDecomp (exp : R → R) (x y : List R) (p : List R) (npix res : Option R) : Py (ℕ → ℕ → R) :=
  match lobesOf p with
  | .error e => .error e
  | .ok lobes =>
    if lobes ≠ [] ∧ x.length ≠ y.length then .error .valueError
    else .ok fun (i : ℕ) (j : ℕ) =>
      (lobes.map fun l => (l.used x.length y.length npix res).value exp (x.getD j 0) (y.getD i 0)).sum

/-- The array `p` after the call (beam_utils.py 18-42 and 58-59). -/
def gaussianDecompAfter (nx ny : ℕ) (p : List R) (npix res : Option R) (ft : Bool) : List R :=
  match lobesOf p with
  | .error _ => p
  | .ok lobes => flatLobes (lobes.map fun l => l.after nx ny npix res ft)

/-- `model_npix` (beam_utils.py 144). -/
def modelNpix (pixHorizon : R) : R := pixHorizon * (13 / 10)

/-- `model_res` (beam_utils.py 145). -/
def modelRes (kpix : R) (dim : ℕ) (pixHorizon : R) : R := 2 * kpix * dim / pixHorizon * (1 / 2 / kpix)

end Decomp

/-- One entry of the transform of a lobe (beam_utils.py 61-76), `kx` and `ky` from the centre of the plane; the offsets of the lobe are
already taken from the centre of the image. -/
noncomputable def Lobe.transform (nx ny : ℕ) (l : Lobe ℝ) (i j : ℕ) : ℂ :=
  let kx : ℝ := (i : ℝ) - (nx : ℝ) / 2
  let ky : ℝ := (j : ℝ) - (ny : ℝ) / 2
  ((l.amp ^ 2 * Real.pi / ((nx : ℝ) * ny) * l.sx * l.sy : ℝ) : ℂ) *
    Complex.exp (((2 * Real.pi ^ 2 / ((nx : ℝ) * ny) * l.sx ^ 2 * kx ^ 2 + l.sy ^ 2 * ky ^ 2 : ℝ) : ℂ)
      - ((2 * Real.pi / nx * (l.ox * kx + l.oy * ky) : ℝ) : ℂ) * Complex.I)

/-- `gaussian_decomp` with `ftransform` (beam_utils.py 53-78). The parameters of all lobes are multiplied with the plane at once: the
shapes `(n_lobes,)` and `(x.size, y.size)` fit for one lobe, and for `y.size` lobes, each of which then makes one column. The volumes
(55-56) are not modelled. -/
noncomputable def gaussianDecompFt (nx ny : ℕ) (p : List ℝ) (npix res : Option ℝ) : Py (ℕ → ℕ → ℂ) :=
  match lobesOf p with
  | .error e => .error e
  | .ok lobes =>
    let use := lobes.map fun l =>
      let u := l.used nx ny npix res
      { u with ox := u.ox - (nx : ℝ) / 2, oy := u.oy - (ny : ℝ) / 2 }
    match use with
    | [l] => .ok (l.transform nx ny)
    | _ =>
      if use.length = ny then .ok fun (i : ℕ) (j : ℕ) => (use.getD j ⟨0, 0, 0, 0, 0⟩).transform nx ny i j
      else .error .valueError

/-! ## The image of the beam -/

/-- What `beam_image` and `beam_image_cube` read. `gauss pol fbin pixel` is the Gaussian beam on the image (`none` if there are no
Gaussian parameters), `ids pol` is `psf["id"][pol, 0, :]`, with no negative numbers. -/
structure BeamIn where
  dimension : ℕ
  elements : ℕ
  nPol : ℕ
  nFreq : ℕ
  gauss : Option (ℕ → ℕ → ℕ → ℚ)
  ids : ℕ → List ℕ
  fbin : List ℕ
  freqUse : List Bool
  fnorm : List ℚ
  obsx : ℚ
  obsy : ℚ

/-- The sizes of the groups of baselines that are not empty (beam_utils.py 133-136). -/
def groupCounts (ids : List ℕ) : Py (List ℕ) :=
  match histogram (labQ ids) 1 none (some 0) none with
  | .error e => .error e
  | .ok h => .ok ((nonzeroIdx h.hist).map fun i => h.hist.getD i 0)

/-- `beam_single` after the loop over the groups and the division (beam_utils.py 169-183 and 216-233). `gi_use` is a tuple with one
array: for `gi = 0` the factor is the array of all group sizes, which fits the image if there is one (or, by chance, one for every
column); for `gi = 1` the tuple has no entry. The case of no groups cannot arise. -/
def groupMean (dim : ℕ) (counts : List ℕ) (prev g : ℕ → ℚ) : Py (ℕ → ℚ) :=
  match counts with
  | [n] => .ok fun (p : ℕ) => (prev p + g p * n) / n
  | _ => if counts.length = dim then .error .indexError else .error .valueError

/-- The state of the loops of `beam_image`: `beam_single`, the sum of the images and of the norms. -/
structure BeamAcc where
  single : ℕ → ℚ
  base : ℕ → ℚ
  norm : ℚ

/-- `fnorm[fbin]`. -/
def BeamIn.normOf (m : BeamIn) (b : ℕ) : Py ℚ :=
  match m.fnorm[b]? with
  | some c => .ok c
  | none => .error .indexError

/-- One bin of the squared beam (beam_utils.py 165-184 and 201). `beam_single` is not set to zero before. -/
def BeamIn.squareStep (m : BeamIn) (counts : List ℕ) (G : ℕ → ℕ → ℚ) (binsUse : List ℕ) (s : BeamAcc) (b : ℕ) :
    Py BeamAcc := do
  let single ← groupMean m.dimension counts s.single (G b)
  let c ← m.normOf b
  let nf : ℚ := binsUse.count b
  return ⟨single, fun (p : ℕ) => s.base p + nf * single p ^ 2, s.norm + nf * c⟩

/-- One channel of the beam that is not squared (beam_utils.py 210-235). -/
def BeamIn.plainStep (m : BeamIn) (counts : List ℕ) (G : ℕ → ℕ → ℚ) (s : BeamAcc) (b : ℕ) : Py BeamAcc := do
  let single ← groupMean m.dimension counts (fun _ => 0) (G b)
  let c ← m.normOf b
  return ⟨single, fun (p : ℕ) => s.base p + single p, s.norm + c⟩

/-- `beam_base / n_bin_use` (beam_utils.py 244-245); a division by zero is no number. -/
def BeamAcc.image (s : BeamAcc) : ℕ → Option ℚ := fun (p : ℕ) => npDiv (s.base p) s.norm

/-- The channels in use (beam_utils.py 148). -/
def BeamIn.channels (m : BeamIn) : List ℕ := (List.range m.freqUse.length).filter fun f => m.freqUse.getD f false

/-- `beam_image` (beam_utils.py 81-245) for square images of `dimension` pixels. Without Gaussian parameters the kernel is put into the
uv plane with `beam_base_uv1[xl : xh + 1, yl : yh + 1]`, whose limits are floats, which raises a `TypeError` (with several groups
another exception may come before). A single frequency without `square` raises: a NumPy integer cannot be indexed (and a
Python integer has no `size`, an `AttributeError`). -/
def beamImage (m : BeamIn) (pol : ℕ) (freq : Option ℕ) (square : Bool) : Py (ℕ → Option ℚ) := do
  let counts ← groupCounts (m.ids pol)
  let zero : BeamAcc := ⟨fun _ => 0, fun _ => 0, 0⟩
  if square then do
    let binsUse ← takeFlat m.fbin (match freq with
      | some f => [f]
      | none => m.channels)
    let bins := binsUse.dedup.insertionSort (· ≤ ·)
    match m.gauss with
    | some G => do
      let s ← bins.foldlM (m.squareStep counts (G pol) binsUse) zero
      return s.image
    | none => if bins = [] then return zero.image else .error .typeError
  else
    match freq with
    | some _ => .error .indexError
    | none => do
      let binsUse ← takeFlat m.fbin m.channels
      match m.gauss with
      | some G => do
        let s ← binsUse.foldlM (m.plainStep counts (G pol)) zero
        return s.image
      | none => .error .typeError

/-! ## The cube of beam images -/

/-- The options of `beam_image_cube`. Frequencies given by the caller are integers here. -/
structure CubeOpt where
  freqArr : Option (List ℕ)
  polArr : Option (List ℕ)
  nFreqBin : Option ℕ
  square : Bool
  threshold : Option ℚ

/-- `freq_i_arr` (healpix_utils.py 344-352). -/
def cubeFreqs (nFreq : ℕ) (o : CubeOpt) : Py (List ℕ) :=
  match o.nFreqBin, o.freqArr with
  | some 0, _ => .error .zeroDivision
  | some (n + 1), _ => .ok ((List.range (n + 1)).map fun i => i * nFreq / (n + 1))
  | none, some l => .ok l
  | none, none => .error .systemExit

/-- Assigning one image to a range of frequencies (healpix_utils.py 375). -/
def fillSlice {α : Type _} (l : List α) (a b : ℕ) (v : α) : List α :=
  l.mapIdx fun (j : ℕ) (w : α) => if a ≤ j ∧ j < b then v else w

/-- Growing the region around the pointing centre (healpix_utils.py 376-385). A region that cannot be grown, `None`, is no index of a
flat array. If some pixel is not a number, neither is the maximum, and no pixel is in the range. -/
def cubeMask (label : List Bool → List ℕ) (m : BeamIn) (low : ℚ) (img : ℕ → Option ℚ) : Py (List ℕ) :=
  let pixels := (List.range (m.dimension * m.dimension)).map img
  match nanMax pixels with
  | none => .error .indexError
  | some hi =>
    match regionGrow label m.dimension m.dimension pixels
        [(pyInt (m.obsx + m.obsy * m.dimension)).toNat] (some low) (some hi) with
    | .error e => .error e
    | .ok none => .error .indexError
    | .ok (some l) => .ok l

/-- The images of one polarisation and the mask. -/
structure CubeState where
  row : List (ℕ → Option ℚ)
  mask : ℕ → ℚ

/-- One frequency bin (healpix_utils.py 371-385). An image of other than `dimension` columns does not fit (for `dimension` one, growing
the region raises). -/
def cubeStep (label : List Bool → List ℕ) (m : BeamIn) (o : CubeOpt) (freqs : List ℕ) (h : HistResult) (pol : ℕ)
    (s : CubeState) (b : ℕ) : Py CubeState :=
  match riSlice h.ri b with
  | none => .error .indexError
  | some members =>
    match members[0]?, members[h.hist.getD b 0 - 1]? with
    | some a, some c => do
      let img ← beamImage m pol (some (freqs.getD a 0)) o.square
      if m.elements ≠ m.dimension then .error .valueError
      else do
        let thr := o.threshold.getD (5 / 100)
        let grown ← cubeMask label m (if o.square then thr ^ 2 else thr) img
        return ⟨fillSlice s.row a (c + 1) img, fun (p : ℕ) => s.mask p * if p ∈ grown then 1 else 0⟩
    | _, _ => .error .indexError

/-- One polarisation (healpix_utils.py 370-385), starting from a row of zero images. -/
def cubePol (label : List Bool → List ℕ) (m : BeamIn) (o : CubeOpt) (freqs : List ℕ) (h : HistResult)
    (s : List (List (ℕ → Option ℚ)) × (ℕ → ℚ)) (pol : ℕ) : Py (List (List (ℕ → Option ℚ)) × (ℕ → ℚ)) := do
  let r ← (nonzeroIdx h.hist).foldlM (cubeStep label m o freqs h pol)
    ⟨List.replicate freqs.length (fun _ => some 0), s.2⟩
  return (s.1 ++ [r.row], r.mask)

/-- `beam_image_cube` (healpix_utils.py 300-386). Frequencies in Hz (354-357) are interpolated to floats, which are no indices; and
`np.interp` raises if their number is not that of the channels. `pol_i_arr` is not used. The return of line 367 is never reached, because
the histogram of no frequencies raises and bins are not negative. -/
def beamImageCube (label : List Bool → List ℕ) (m : BeamIn) (o : CubeOpt) :
    Py (List (List (ℕ → Option ℚ)) × (ℕ → ℚ)) := do
  let freqs ← cubeFreqs m.nFreq o
  if npMedian (freqs.map fun (f : ℕ) => (f : ℚ)) > m.nFreq then
    if freqs.length = m.nFreq then .error .indexError else .error .valueError
  else do
    let bins ← takeFlat m.fbin freqs
    let h ← histogram (labQ bins) 1 none (some 0) none
    (List.range m.nPol).foldlM (cubePol label m o freqs h) ([], fun _ => 1)

end PyFHD
