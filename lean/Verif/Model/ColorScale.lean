import Verif.Model.Basic
import Mathlib.Algebra.Order.Field.Basic

/-!
# Model of `quick_image`, `log_color_calc` and `color_range` (plotting/image.py)

An image is the list of its pixels, in any order; `none` is NaN. Numbers are exact; an infinite number (from a division by
zero or the logarithm of zero) is not told apart from NaN. Logarithm and power of ten are parameters.
-/

namespace PyFHD

section Color

variable {R : Type} [Field R] [LinearOrder R]

/-! ## Numbers that may be NaN -/

/-- `a < b`, false for NaN. -/
def nanLt : Option R → Option R → Bool
  | some a, some b => decide (a < b)
  | _, _ => false

/-- The least of some numbers. -/
def leastOf : List R → Option R
  | [] => none
  | a :: l => some (l.foldl min a)

/-- The greatest of some numbers. -/
def greatestOf : List R → Option R
  | [] => none
  | a :: l => some (l.foldl max a)

/-- The default of `data_range` with NaN left out, `np.nanmin` and `np.nanmax` (image.py 186-187): an empty image raises. -/
def nanRange (data : List (Option R)) : Py (Option R × Option R) :=
  if data = [] then .error .valueError else .ok (leastOf (data.filterMap id), greatestOf (data.filterMap id))

/-- The default of `data_range` in `log_color_calc`, `np.min` and `np.max` (image.py 363): NaN if a pixel is. -/
def plainRange (data : List (Option R)) : Py (Option R × Option R) :=
  if data = [] then .error .valueError
  else if none ∈ data then .ok (none, none)
  else .ok (leastOf (data.filterMap id), greatestOf (data.filterMap id))

/-- A range that is given is used as it is (image.py 185-187 and 362-363). -/
def rangeOr (given : Option (Option R × Option R)) (default : Py (Option R × Option R)) : Py (Option R × Option R) :=
  match given with
  | some r => .ok r
  | none => default

/-! ## Colours -/

/-- `color_range` (image.py 548-575): first and last colour of the data and their number. `count_missing` is `None` by default,
which cannot be compared with 0. -/
def colorRange : Option ℕ → Py (ℕ × ℕ × ℕ)
  | none => .error .typeError
  | some c => if 0 < c then .ok (1, 255, 255) else .ok (0, 255, 256)

/-- `(x - r0) * k / (r1 - r0) + c` (image.py 194-196, 443-449, 482-493, 510-512), NaN if there is one among the numbers or the range is empty. -/
def rescale (k c : R) (r : Option R × Option R) (x : Option R) : Option R :=
  match r.1, r.2, x with
  | some r0, some r1, some v => if r1 - r0 = 0 then none else some ((v - r0) * k / (r1 - r0) + c)
  | _, _, _ => none

/-- One pixel on the linear scale (image.py 194-205): the colour is compared with the range of the data. -/
def linearPixel (c0 c1 n : ℕ) (r : Option R × Option R) (x : Option R) : Option R :=
  let s := rescale ((n : R) - 1) c0 r x
  let s1 := if nanLt s r.1 then some (c0 : R) else s
  if nanLt r.2 s1 then some (c1 : R) else s1

/-- `np.linspace(c0, c1, num=5)` (image.py 211, 533, 539). -/
def ticks5 (c0 c1 : ℕ) : List R := (List.range 5).map fun i => (c0 : R) + ((c1 : R) - c0) * i / 4

/-- The number written at a tick (image.py 212-215, 534-537, 540-543), before it is formatted; for a logarithmic scale its
logarithm. -/
def tickLabel (n : ℕ) (r : Option R × Option R) (t : R) : Option R :=
  match r.1, r.2 with
  | some r0, some r1 => some (t * (r1 - r0) / ((n : R) - 1) + r0)
  | _, _ => none

inductive ColorProfile
  | logCut | symLog | absolute | other
  deriving DecidableEq, Repr

/-- What is drawn: pixels, ticks and the numbers at the ticks. -/
structure Drawing (R : Type) where
  pixels : List (Option R)
  ticks : List R
  labels : List (Option R)

/-- The logarithm of a number (image.py 420 and 473); of zero or less there is none. -/
def logOf (log : R → R) : Option R → Option R
  | some x => if 0 < x then some (log x) else none
  | none => none

/-- `min_pos` (image.py 381-391). -/
def minPos (data : List (Option R)) (r : Option R × Option R) : R :=
  match leastOf ((data.filterMap id).filter fun x => decide (0 < x)) with
  | some m => m
  | none =>
    match nanLt (some 0) r.1, r.1, nanLt (some 0) r.2, r.2 with
    | true, some r0, _, _ => r0
    | _, _, true, some r1 => r1 / 10
    | _, _, _, _ => 1 / 100

/-- The lower end of the colour scale of `log_cut`, a logarithm (image.py 414-418); `log_cut_val` is not given. -/
def logCutVal (log : R → R) (data : List (Option R)) (r : Option R × Option R) : R :=
  match r.1 with
  | some r0 => if 0 < r0 then log r0 else log (minPos data r)
  | none => log (minPos data r)

/-- One pixel of the profile `log_cut` (image.py 420-454). -/
def logCutPixel (log pow : R → R) (data : List (Option R)) (r : Option R × Option R) (c0 n : ℕ) (x : Option R) : Option R :=
  let cut := logCutVal log data r
  let l1 := logOf log r.2
  let first : ℕ := if some 0 ∈ data then 2 else 1
  match x with
  | none => none
  | some v =>
    if v < 0 then some 0
    else if v = 0 then some 1
    else
      let d := if v < pow cut then cut else log v
      let d1 := if nanLt l1 (some d) then l1 else some d
      rescale ((n : R) - first - 1) ((c0 : R) + first) (some cut, l1) d1

/-- `max_neg` where some pixel is negative, else nothing is used of it (image.py 394-397). -/
def maxNeg (data : List (Option R)) : Option R := greatestOf ((data.filterMap id).filter fun x => decide (x < 0))

/-- `min_abs` (image.py 463-471). -/
def minAbsOf (data : List (Option R)) (given : Option R) : R :=
  match given with
  | some m => m
  | none =>
    match leastOf ((data.filterMap id).filter fun x => decide (0 < x)), maxNeg data with
    | some p, some q => min p |q|
    | some p, none => p
    | none, some q => |q|
    | none, none => 1

/-- The colours brought into the range of colours (image.py 498-505 and 514-521). -/
def clampColor (c0 c1 : ℕ) (s : Option R) : Option R :=
  let s1 := if nanLt s (some (c0 : R)) then some (c0 : R) else s
  if nanLt (some (c1 : R)) s1 then some (c1 : R) else s1

/-- One pixel of the profile `sym_log` (image.py 473-505); `m` is taken to be positive. -/
def symLogPixel (log : R → R) (m : R) (r : Option R × Option R) (c0 c1 n : ℕ) (x : Option R) : Option R :=
  let lr := (some (log m), logOf log r.2)
  clampColor c0 c1 (match x with
    | none => some 0
    | some v => if v = 0 then some (c0 : R) else rescale ((n : R) - 1) c0 lr (some (log |v|)))

/-- One pixel of the profile `abs` (image.py 509-521). -/
def absPixel (r : Option R × Option R) (c0 c1 n : ℕ) (x : Option R) : Option R :=
  clampColor c0 c1 (rescale ((n : R) - 1) c0 r (x.map fun v => |v|))

/-- The missing pixels get colour 0 (image.py 163, 207-209 and 523-525). -/
def paintMissing (missing : List Bool) (l : List (Option R)) : List (Option R) :=
  List.zipWith (fun b x => if b then some 0 else x) missing l

/-- `log_color_calc` (image.py 299-545). `missing` marks the pixels of `wh_missing`, `count` is `count_missing`; `data_range` has
two entries. Not modelled: `log_cut_val` given and `invert_colorbar`. -/
def logColorCalc (log pow : R → R) (data : List (Option R)) (range : Option (Option R × Option R)) (profile : ColorProfile)
    (minAbs : Option R) (count : Option ℕ) (missing : List Bool) : Py (Drawing R) := do
  if profile = .other then .error .valueError
  else
    let r ← rangeOr range (plainRange data)
    if nanLt r.2 r.1 then .error .valueError
    else
      let profile := if profile = .symLog ∧ nanLt (some 0) r.1 = true then .logCut else profile
      let (c0, c1, n) ← colorRange count
      if nanLt r.2 (some 0) = true ∧ profile ≠ .absolute then .error .valueError
      else
        let low := match profile with
          | .symLog => log (minAbsOf data minAbs)
          | _ => logCutVal log data r
        let pixel := match profile with
          | .logCut => logCutPixel log pow data r c0 n
          | .symLog => symLogPixel log (minAbsOf data minAbs) r c0 c1 n
          | _ => absPixel r c0 c1 n
        let scale := match profile with
          | .absolute => r
          | _ => (some low, logOf log r.2)
        return ⟨if 0 < count.getD 0 then paintMissing missing (data.map pixel) else data.map pixel,
          ticks5 c0 c1, (ticks5 c0 c1).map (tickLabel n scale)⟩

/-! ## `quick_image` -/

/-- The image as `quick_image` gets it (real numbers, two dimensions), the value of missing pixels, and the options. -/
structure QuickIn (R : Type) where
  image : List (Option R)
  missingValue : Option R
  range : Option (Option R × Option R)
  minAbs : Option R
  useLog : Bool
  profile : ColorProfile

namespace QuickIn

variable (q : QuickIn R)

/-- `wh_missing` (image.py 159). -/
def missing : List Bool := q.image.map fun x => decide (q.missingValue ≠ none ∧ x = q.missingValue)

/-- `count_missing` (image.py 160 and 165). -/
def countMissing : ℕ := q.missing.countP id

/-- The image with missing pixels set to NaN (image.py 158-163): the array of the caller. -/
def masked : List (Option R) := List.zipWith (fun b x => if b then none else x) q.missing q.image

/-- What `quick_image` hands to matplotlib (image.py 157-216). If missing pixels are asked for and there are none, `missing_color`
is not defined, which matters with `log` only. -/
def draw (log pow : R → R) : Py (Drawing R) :=
  if q.useLog then
    if q.missingValue ≠ none ∧ q.countMissing = 0 then .error .nameError
    else logColorCalc log pow q.masked q.range q.profile q.minAbs (some q.countMissing) q.missing
  else do
    let r ← rangeOr q.range (nanRange q.masked)
    let (c0, c1, n) ← colorRange (some q.countMissing)
    let pix := q.masked.map (linearPixel c0 c1 n r)
    return ⟨if q.missingValue ≠ none ∧ 0 < q.countMissing then paintMissing q.missing pix else pix,
      ticks5 c0 c1, (ticks5 c0 c1).map (tickLabel n r)⟩

end QuickIn

end Color

/-! ## The name of the file -/

/-- The options for the output: the name (empty if none), and the three formats. -/
structure SaveOpts where
  savefile : String
  png : Bool
  eps : Bool
  pdf : Bool

/-- The name of the file that is written, if any (image.py 101-140). `ext` gives the extension of a name in small letters. -/
def savedAs (ext : String → String) (o : SaveOpts) : Option String :=
  if o.savefile = "" ∧ o.png = false ∧ o.eps = false ∧ o.pdf = false then none
  else
    let given := o.png || o.eps || o.pdf
    let eps := if given then o.eps else decide (ext o.savefile = ".eps")
    let pdf := if given then o.pdf else decide (ext o.savefile = ".pdf")
    let png := if given then o.png else !(decide (ext o.savefile = ".eps") || decide (ext o.savefile = ".pdf"))
    let name := if o.savefile = "" then "idl_quick_image" else o.savefile
    let several := decide (1 < png.toNat + eps.toNat + pdf.toNat)
    if several || png then some (name ++ ".png")
    else if pdf then some (name ++ ".pdf")
    else if eps then some (name ++ ".eps")
    else some name

end PyFHD
