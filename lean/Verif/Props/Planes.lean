import Verif.Model.Planes
import Mathlib.Tactic.Ring
import Mathlib.Tactic.NormNum
import Mathlib.Tactic.Linarith
import Mathlib.Tactic.FieldSimp

/-!
# C23 - C26: whole-plane operations
-/

namespace PyFHD

variable {K : Type _}

/-- Index of `-i` modulo `n`. -/
def negIdx (n i : ℕ) : ℕ := (n - i % n) % n

theorem negIdx_lt {n i : ℕ} (h : 0 < n) : negIdx n i < n := Nat.mod_lt _ h

theorem negIdx_negIdx {n i : ℕ} (h : i < n) : negIdx n (negIdx n i) = i := by
  unfold negIdx
  rw [Nat.mod_eq_of_lt h]
  rcases Nat.eq_zero_or_pos i with rfl | hi
  · simp
  · rw [Nat.mod_eq_of_lt (show n - i < n by omega), Nat.mod_eq_of_lt (show n - i < n by omega),
      Nat.mod_eq_of_lt (show n - (n - i) < n by omega)]
    omega

theorem flip_roll_idx {n i : ℕ} (h : i < n) : n - 1 - (i + n - 1) % n = negIdx n i := by
  unfold negIdx
  rw [Nat.mod_eq_of_lt h]
  rcases Nat.eq_zero_or_pos i with rfl | hi
  · rw [Nat.mod_eq_of_lt (show 0 + n - 1 < n by omega)]; simp
  · have h1 : i + n - 1 = n + (i - 1) := by omega
    rw [h1, Nat.add_mod_left, Nat.mod_eq_of_lt (show i - 1 < n by omega),
      Nat.mod_eq_of_lt (show n - i < n by omega)]
    omega

/-- **C23**, entries: entry `(i, j)` of the mirror is the conjugate of entry `(-i, -j)` of the
input, indices taken modulo the shape; real arrays are not conjugated. -/
theorem C23_mirror_entry [Star K] (c : Bool) (n m : ℕ) (a : Plane K) (i j : ℕ) (hi : i < n)
    (hj : j < m) : conjugateMirror c n m a i j =
      if c then star (a (negIdx n i) (negIdx m j)) else a (negIdx n i) (negIdx m j) := by
  unfold conjugateMirror npRoll1 npFlip
  cases c <;> simp [flip_roll_idx hi, flip_roll_idx hj]

/-- **C23**, involution: mirroring twice gives the input back, for every shape. -/
theorem C23_mirror_involutive [InvolutiveStar K] (c : Bool) (n m : ℕ) (a : Plane K) (i j : ℕ)
    (hi : i < n) (hj : j < m) : conjugateMirror c n m (conjugateMirror c n m a) i j = a i j := by
  rw [C23_mirror_entry c n m _ i j hi hj,
    C23_mirror_entry c n m a _ _ (negIdx_lt (by omega)) (negIdx_lt (by omega)),
    negIdx_negIdx hi, negIdx_negIdx hj]
  cases c <;> simp

/-- **C23**, symmetrising: the symmetrised plane is its own mirror. -/
theorem C23_symmetrise_hermitian [Field K] [StarRing K] (c : Bool) (n m : ℕ) (a : Plane K)
    (i j : ℕ) (hi : i < n) (hj : j < m) :
    conjugateMirror c n m (symmetrise c n m a) i j = symmetrise c n m a i j := by
  have e := C23_mirror_entry c n m (symmetrise c n m a) i j hi hj
  have e1 := C23_mirror_entry c n m a i j hi hj
  have e2 := C23_mirror_entry c n m a _ _ (negIdx_lt (i := i) (by omega : 0 < n))
    (negIdx_lt (i := j) (by omega : 0 < m))
  rw [negIdx_negIdx hi, negIdx_negIdx hj] at e2
  rw [e]
  unfold symmetrise
  rw [e1, e2]
  cases c
  · simp [add_comm]
  · simp [star_div₀, add_comm]

/-- **C23**, symmetrising leaves a plane alone that is its own mirror (in characteristic not 2). -/
theorem C23_symmetrise_fixed [Field K] [Star K] (c : Bool) (n m : ℕ) (a : Plane K)
    (h2 : (2 : K) ≠ 0)
    (h : ∀ i j, i < n → j < m → conjugateMirror c n m a i j = a i j) (i j : ℕ)
    (hi : i < n) (hj : j < m) : symmetrise c n m a i j = a i j := by
  unfold symmetrise
  rw [h i j hi hj, ← two_mul, mul_div_assoc, mul_div_cancel₀]
  exact h2

example : (List.range 3).map (fun i => (List.range 2).map fun j =>
      conjugateMirror (K := ℤ) false 3 2 (fun i j => 10 * i + j) i j)
    = [[0, 1], [20, 21], [10, 11]] := by decide +kernel

/-- **C24.** After the reformat the first two planes are unchanged, the third is half the
difference of the old third and the mirrored old fourth, and the fourth is the mirror of the
third. -/
theorem C24_crosspol_reformat [Field K] [StarRing K] (n m : ℕ) (im : ℕ → Plane K) (i j : ℕ)
    (hi : i < n) (hj : j < m) :
    crosspolReformat n m im 0 i j = im 0 i j ∧ crosspolReformat n m im 1 i j = im 1 i j ∧
    crosspolReformat n m im 2 i j = (im 2 i j - star (im 3 (negIdx n i) (negIdx m j))) / 2 ∧
    crosspolReformat n m im 3 i j
      = star (crosspolReformat n m im 2 (negIdx n i) (negIdx m j)) := by
  refine ⟨rfl, rfl, ?_, ?_⟩
  · have := C23_mirror_entry true n m (im 3) i j hi hj
    simp only [if_true] at this
    simp only [crosspolReformat, if_true, this]
  · have := C23_mirror_entry true n m (crosspolReformat n m im 2) i j hi hj
    simp only [if_true] at this
    rw [← this]
    rfl

/-- **C24**, applying it twice gives zero for both cross planes. -/
theorem C24_crosspol_reformat_twice [Field K] [StarRing K] (n m : ℕ) (im : ℕ → Plane K) (i j : ℕ)
    (hi : i < n) (hj : j < m) :
    crosspolReformat n m (crosspolReformat n m im) 2 i j = 0 ∧
    crosspolReformat n m (crosspolReformat n m im) 3 i j = 0 := by
  have key : ∀ i j, i < n → j < m →
      crosspolReformat n m (crosspolReformat n m im) 2 i j = 0 := by
    intro i j hi hj
    have h1 := (C24_crosspol_reformat n m (crosspolReformat n m im) i j hi hj).2.2.1
    have h2 := (C24_crosspol_reformat n m im (negIdx n i) (negIdx m j) (negIdx_lt (by omega))
      (negIdx_lt (by omega))).2.2.2
    rw [negIdx_negIdx hi, negIdx_negIdx hj] at h2
    rw [h1, h2, star_star, sub_self, zero_div]
  refine ⟨key i j hi hj, ?_⟩
  rw [(C24_crosspol_reformat n m (crosspolReformat n m im) i j hi hj).2.2.2,
    key _ _ (negIdx_lt (by omega)) (negIdx_lt (by omega)), star_zero]

example : crosspolReformat (K := ℚ) 2 2 (fun p i j => 10 * p + 2 * i + j) 2 1 0 = -5 ∧
    crosspolReformat (K := ℚ) 2 2 (fun p i j => 10 * p + 2 * i * i + j) 3 1 1 = -5 := by
  decide +kernel

/-- **C25** is violated: the fourth plane is zero for every input, because the third plane is
overwritten with its real part before its imaginary part is read. -/
theorem C25_imaginary_part_lost (im : ℕ → Plane Cx) (i j : ℕ) :
    crosspolSplit im 3 i j = ⟨0, 0⟩ := rfl

/-- **C25**, partial: the third plane is the real part of the old third plane and the first two are
unchanged; the fourth is the imaginary part if (and only if) the third plane was real. Missing: the
imaginary part of any other image. -/
theorem C25_crosspol_split_partial (im : ℕ → Plane Cx) (i j : ℕ) :
    crosspolSplit im 2 i j = ⟨(im 2 i j).re, 0⟩ ∧
    crosspolSplit im 0 i j = im 0 i j ∧ crosspolSplit im 1 i j = im 1 i j ∧
    (crosspolSplit im 3 i j = ⟨(im 2 i j).im, 0⟩ ↔ (im 2 i j).im = 0) := by
  refine ⟨rfl, rfl, rfl, ?_⟩
  rw [C25_imaginary_part_lost]
  constructor
  · intro h
    have := congrArg Cx.re h
    exact this.symm
  · intro h; rw [h]

example : crosspolSplit (fun p i j => ⟨p + i, j⟩) 3 1 1 = ⟨0, 0⟩ ∧
    crosspolSplit (fun p i j => ⟨p + i, j⟩) 2 1 1 = ⟨3, 0⟩ := by decide +kernel

/-! ### C26 -/

theorem bcast_isSome (t s : ℕ) : (bcastIdx t s 0).isSome = true ↔ s = t ∨ s = 1 := by
  unfold bcastIdx; split_ifs <;> simp_all

/-- **C26** is violated: the call raises `ValueError` for every array with at least one entry,
except for a single polarisation with as many frequencies as baseline samples. -/
theorem C26_deproject_raises (nPol nFreq nBl : ℕ) (ww freq : ℕ → ℝ) (d : ℝ)
    (vis : ℕ → ℕ → ℕ → ℂ) (hb : 0 < nBl)
    (h : ¬ (nPol = 1 ∧ nFreq = nBl)) :
    deprojectW nPol nFreq nBl ww freq d vis = .error .valueError := by
  unfold deprojectW
  simp only [bcast_isSome]
  rw [if_neg]
  rintro ⟨h1, h2⟩
  apply h
  rcases h1 with h1 | h1
  · rcases h2 with h2 | h2
    · rw [h2] at h1
      have : nPol * nBl = 1 * nBl := by rw [h1, one_mul]
      exact ⟨Nat.eq_of_mul_eq_mul_right hb this, h2⟩
    · rw [h2] at h1
      obtain ⟨h3, h4⟩ := (⟨Nat.eq_one_of_mul_eq_one_right h1, Nat.eq_one_of_mul_eq_one_left h1⟩ : nPol = 1 ∧ nBl = 1)
      exact ⟨h3, by omega⟩
  · obtain ⟨h3, h4⟩ := (⟨Nat.eq_one_of_mul_eq_one_right h1, Nat.eq_one_of_mul_eq_one_left h1⟩ : nPol = 1 ∧ nBl = 1)
    refine ⟨h3, ?_⟩
    rcases h2 with h2 | h2 <;> omega

/-- **C26**, partial: in the one shape that works (one polarisation, `n_freq = n_baselines`),
opposite directions undo each other. Missing: all other shapes, where the call raises. -/
theorem C26_deproject_undo_partial (n : ℕ) (ww freq : ℕ → ℝ) (d : ℝ) (vis : ℕ → ℕ → ℕ → ℂ) :
    (deprojectW 1 n n ww freq d vis >>= deprojectW 1 n n ww freq (-d)) = .ok vis := by
  unfold deprojectW
  simp only [bcast_isSome, one_mul, true_or, and_self, if_true, bind, Except.bind]
  congr 1
  funext p f b
  simp only [bcastIdx, if_true, Option.getD_some]
  split_ifs
  · rw [mul_assoc, ← Complex.exp_add]
    rw [show (d : ℂ) * Complex.I * (ww (f % n) * freq b)
      + ((-d : ℝ) : ℂ) * Complex.I * (ww (f % n) * freq b) = 0 by push_cast; ring]
    rw [Complex.exp_zero, mul_one]
  · rfl

/-- **C26** is violated even in that shape: the factor of frequency `f`, baseline `b` is computed
from baseline `f` and frequency `b`. -/
theorem C26_deproject_transposed (n : ℕ) (ww freq : ℕ → ℝ) (d : ℝ) (vis : ℕ → ℕ → ℕ → ℂ) :
    ∃ vis', deprojectW 1 n n ww freq d vis = .ok vis' ∧ ∀ f b, f < n → vis' 0 f b
      = vis 0 f b * Complex.exp (d * Complex.I * (ww f * freq b)) := by
  unfold deprojectW
  simp only [bcast_isSome, one_mul, true_or, and_self, if_true]
  refine ⟨_, rfl, fun f b hf => ?_⟩
  simp [bcastIdx, Nat.mod_eq_of_lt hf]

/-- Two polarisations, three frequencies and four baselines meet the hypotheses of the first. -/
example : deprojectW 2 3 4 (fun _ => 1) (fun _ => 1) 1 (fun _ _ _ => 1) = .error .valueError :=
  C26_deproject_raises 2 3 4 _ _ _ _ (by norm_num) (by norm_num)

end PyFHD
