import Verif.Model.Basic
import Mathlib.Algebra.BigOperators.Group.Finset.Basic

/-!
# Model of `rebin` and its helpers (pyfhd_utils.py 377-637)
-/

namespace PyFHD

/-- A NumPy array of one or two dimensions with exact rational entries. A 1-D array is held as a
single row with `oneD` set. Only the entries inside the shape mean anything. -/
structure Arr where
  oneD : Bool
  rows : ℕ
  cols : ℕ
  get : ℕ → ℕ → ℚ

/-- `np.fix` for integer arrays, nothing for float arrays. -/
def fixIf (isInt : Bool) (x : ℚ) : ℚ := if isInt then ((pyInt x : ℤ) : ℚ) else x

/-- `np.floor` for integer arrays, nothing for float arrays. -/
def floorIf (isInt : Bool) (x : ℚ) : ℚ := if isInt then ((⌊x⌋ : ℤ) : ℚ) else x

/-- Mean of `n` numbers. -/
def meanN (n : ℕ) (f : ℕ → ℚ) : ℚ := (∑ q ∈ Finset.range n, f q) / (n : ℚ)

/-- `inferences` of `rebin_rows` (459-470) and `rebin_columns` (410-418) along one axis of old
length `n` with factor `s`, at new position `k`: the difference to the next sample divided by the
factor, times the position inside the block; the padding makes it zero in the last block. -/
def inference (isInt : Bool) (n s : ℕ) (f : ℕ → ℚ) (k : ℕ) : ℚ :=
  floorIf isInt (if k < (n - 1) * s then (f (k / s + 1) - f (k / s)) / (s : ℚ) * ((k % s : ℕ) : ℚ)
    else 0)

/-- Expansion along one axis: `inferences + np.repeat(a, s)` (472, 420). -/
def expandAxis (isInt : Bool) (n s : ℕ) (f : ℕ → ℚ) (k : ℕ) : ℚ :=
  inference isInt n s f k + f (k / s)

/-- `rebin` (476-637) with `shape = (s0, s1)`. `isInt` says that the array holds integers.
Not modelled: a 2-D array of a single row that is to be expanded (624-625), whose
axes `rebin_columns` does not handle; it is an error here. Zero-size shapes raise a division
error. -/
def rebin (isInt : Bool) (a : Arr) (s0 s1 : ℕ) (sample : Bool) : Py Arr :=
  let o0 := a.rows
  let o1 := a.cols
  -- 549-550 (`shape` is taken to be a tuple)
  if a.oneD = false ∧ o0 = s0 ∧ o1 = s1 then .ok a
  else if o0 = 0 ∨ o1 = 0 ∨ s0 = 0 ∨ s1 = 0 then .error .zeroDivision
  else if sample then
    -- 556-560
    if o0 = 1 ∧ a.oneD = false then
      if s1 > o1 then .ok ⟨false, s1 / o1, o1, fun _ c => a.get 0 c⟩
      else .ok a
    else if o0 = 1 then
      if s1 > o1 then .ok ⟨true, 1, o1 * (s1 / o1), fun _ c => a.get 0 (c / (s1 / o1))⟩
      else .ok ⟨true, 1, (o1 + o1 / s1 - 1) / (o1 / s1), fun _ c => a.get 0 (c * (o1 / s1))⟩
    else
      -- 562-576
      let r1 : Arr := if s0 ≥ o0 then ⟨false, o0 * (s0 / o0), o1, fun r c => a.get (r / (s0 / o0)) c⟩
        else ⟨false, (o0 + o0 / s0 - 1) / (o0 / s0), o1, fun r c => a.get (r * (o0 / s0)) c⟩
      if s1 ≥ o1 then .ok ⟨false, r1.rows, o1 * (s1 / o1), fun r c => r1.get r (c / (s1 / o1))⟩
      else .ok ⟨false, r1.rows, (o1 + o1 / s1 - 1) / (o1 / s1), fun r c => r1.get r (c * (o1 / s1))⟩
  else if s0 < o0 ∨ s1 < o1 then
    -- 582-585
    if max o0 s0 % min o0 s0 ≠ 0 ∨ max o1 s1 % min o1 s1 ≠ 0 then .error .valueError
    else
      -- 587-592: `np.tile` of whole arrays
      let t : Arr :=
        if s0 > o0 then ⟨false, s0 * o0, o1, fun r c => a.get (r % o0) c⟩
        else if s1 > o1 then ⟨false, o0, s1 * o1, fun r c => a.get r (c % o1)⟩
        else a
      -- 594-596: row-major reshape to (s0, p, s1, q)
      let p := t.rows / s0
      let q := t.cols / s1
      let resh : ℕ → ℕ → ℕ → ℕ → ℚ := fun i u j v =>
        let k := ((i * p + u) * s1 + j) * q + v
        t.get (k / t.cols) (k % t.cols)
      -- 598-611
      let byCol : ℕ → ℕ → ℕ → ℚ := fun i u j => fixIf isInt (meanN q fun v => resh i u j v)
      .ok ⟨decide (s0 = 1), s0, s1, fun i j => fixIf isInt (meanN p fun u => byCol i u j)⟩
  else
    -- 615-636
    if s0 % o0 ≠ 0 ∨ s1 % o1 ≠ 0 then .error .valueError
    else
      let rs := s0 / o0
      let cs := s1 / o1
      if o0 = 1 then
        if a.oneD then
          .ok ⟨decide (s0 = 1), s0, s1, fun _ c => expandAxis isInt o1 cs (fun k => a.get 0 k) c⟩
        else .error .valueError
      else
        let rowReb : ℕ → ℕ → ℚ := fun r c => expandAxis isInt o0 rs (fun k => a.get k c) r
        if o1 = s1 then .ok ⟨false, s0, s1, rowReb⟩
        else .ok ⟨false, s0, s1, fun r c => expandAxis isInt o1 cs (fun k => rowReb r k) c⟩

end PyFHD
