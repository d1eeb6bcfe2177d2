import Verif.Model.Imaging
import Verif.Props.Planes
import Mathlib.Algebra.Field.GeomSum
import Mathlib.Algebra.BigOperators.Field
import Mathlib.Tactic.FieldSimp
import Mathlib.Tactic.Linarith
import Mathlib.Tactic.Ring
import Mathlib.Tactic.IntervalCases
import Mathlib.Analysis.SpecialFunctions.Complex.Log

/-!
# C96-C99: images from uv planes
-/

namespace PyFHD

open Complex Finset

/-! ## The transform -/

theorem fftRoot_add (n : ℕ) (j k : ℤ) : fftRoot n (j + k) = fftRoot n j * fftRoot n k := by
  unfold fftRoot
  rw [← Complex.exp_add]
  congr 1
  push_cast
  ring

theorem fftRoot_mul_self (n : ℕ) (k : ℤ) : fftRoot n (n * k) = 1 := by
  unfold fftRoot
  by_cases hn : n = 0
  · simp [hn]
  · have : (n : ℂ) ≠ 0 := by exact_mod_cast hn
    rw [show -(2 * (Real.pi : ℂ) * I * ((n * k : ℤ) : ℂ) / n) = ((-k : ℤ) : ℂ) * (2 * Real.pi * I) by
      push_cast; field_simp]
    exact Complex.exp_int_mul_two_pi_mul_I _

theorem fftRoot_congr (n : ℕ) {j k : ℤ} (h : (n : ℤ) ∣ j - k) : fftRoot n j = fftRoot n k := by
  obtain ⟨c, hc⟩ := h
  rw [show j = k + n * c by omega, fftRoot_add, fftRoot_mul_self, mul_one]

theorem fftRoot_zero (n : ℕ) : fftRoot n 0 = 1 := by simp [fftRoot]

theorem fftRoot_conj (n : ℕ) (k : ℤ) : (starRingEnd ℂ) (fftRoot n k) = fftRoot n (-k) := by
  unfold fftRoot
  rw [← Complex.exp_conj]
  congr 1
  simp only [map_neg, map_div₀, map_mul, Complex.conj_I, Complex.conj_ofReal, map_ofNat, map_intCast,
    map_natCast]
  push_cast
  ring

/-- A sum over a shifted array. -/
theorem sum_fftshift (n : ℕ) (hn : 0 < n) (g : ℕ → ℂ) (k : ℤ) :
    ∑ i ∈ range n, g ((i + (n - n / 2)) % n) * fftRoot n (k * i)
      = ∑ a ∈ range n, g a * fftRoot n (k * (a + (n / 2 : ℕ))) := by
  have hh : n / 2 ≤ n := Nat.div_le_self n 2
  refine sum_nbij' (fun i => (i + (n - n / 2)) % n) (fun a => (a + n / 2) % n) ?_ ?_ ?_ ?_ ?_
  · intro i _; exact mem_range.2 (Nat.mod_lt _ hn)
  · intro i _; exact mem_range.2 (Nat.mod_lt _ hn)
  · intro i hi
    rw [Nat.mod_add_mod, show i + (n - n / 2) + n / 2 = i + n by omega, Nat.add_mod_right]
    exact Nat.mod_eq_of_lt (mem_range.1 hi)
  · intro i hi
    rw [Nat.mod_add_mod, show i + n / 2 + (n - n / 2) = i + n by omega, Nat.add_mod_right]
    exact Nat.mod_eq_of_lt (mem_range.1 hi)
  · intro i _
    congr 1
    apply fftRoot_congr
    rw [← mul_sub]
    apply Dvd.dvd.mul_left
    have h1 : (((i + (n - n / 2)) % n : ℕ) : ℤ) = (i + (n - (n / 2 : ℕ))) % n := by
      push_cast [Nat.cast_sub hh]; rfl
    rw [h1]
    have := Int.emod_add_mul_ediv ((i : ℤ) + (n - (n / 2 : ℕ))) n
    refine ⟨((i : ℤ) + (n - (n / 2 : ℕ))) / n - 1, ?_⟩
    have e : ((i : ℤ) + (n - (n / 2 : ℕ))) % n
      = (i : ℤ) + (n - (n / 2 : ℕ)) - n * (((i : ℤ) + (n - (n / 2 : ℕ))) / n) := by omega
    rw [e]; ring

/-- The index of a shifted pixel, up to multiples of the size. -/
theorem shift_dvd (n : ℕ) (k : ℕ) :
    (n : ℤ) ∣ ((((k + (n - n / 2)) % n : ℕ) : ℤ)) - ((k : ℤ) - (n / 2 : ℕ)) := by
  have hh : n / 2 ≤ n := Nat.div_le_self n 2
  have h1 : (((k + (n - n / 2)) % n : ℕ) : ℤ) = (k + (n - (n / 2 : ℕ))) % n := by
    push_cast [Nat.cast_sub hh]; rfl
  rw [h1]
  have := Int.emod_add_mul_ediv ((k : ℤ) + (n - (n / 2 : ℕ))) n
  refine ⟨1 - ((k : ℤ) + (n - (n / 2 : ℕ))) / n, ?_⟩
  have e : ((k : ℤ) + (n - (n / 2 : ℕ))) % n
    = (k : ℤ) + (n - (n / 2 : ℕ)) - n * (((k : ℤ) + (n - (n / 2 : ℕ))) / n) := by omega
  rw [e]; ring

/-- The transform of the code for any size: the origin of the image is at `n // 2`, that of the uv plane
at `-(n // 2)`, counted from the end. -/
theorem uvToImage_eq (n m : ℕ) (hn : 0 < n) (hm : 0 < m) (f : Plane ℂ) (k l : ℕ) :
    uvToImage n m f k l = (∑ a ∈ range n, ∑ b ∈ range m, f a b *
      fftRoot n (((k : ℤ) - (n / 2 : ℕ)) * (a + (n / 2 : ℕ))) *
      fftRoot m (((l : ℤ) - (m / 2 : ℕ)) * (b + (m / 2 : ℕ)))) / ((n : ℂ) * m) := by
  unfold uvToImage fftForward
  show (∑ i ∈ range n, ∑ j ∈ range m, fftshift n m f i j *
      fftRoot n ((((k + (n - n / 2)) % n : ℕ) : ℤ) * i) *
      fftRoot m ((((l + (m - m / 2)) % m : ℕ) : ℤ) * j)) / _ = _
  congr 1
  have hk : ∀ i : ℕ, fftRoot n ((((k + (n - n / 2)) % n : ℕ) : ℤ) * i)
      = fftRoot n (((k : ℤ) - (n / 2 : ℕ)) * i) := fun i =>
    fftRoot_congr n (by rw [← sub_mul]; exact (shift_dvd n k).mul_right _)
  have hl : ∀ j : ℕ, fftRoot m ((((l + (m - m / 2)) % m : ℕ) : ℤ) * j)
      = fftRoot m (((l : ℤ) - (m / 2 : ℕ)) * j) := fun j =>
    fftRoot_congr m (by rw [← sub_mul]; exact (shift_dvd m l).mul_right _)
  simp only [hk, hl]
  have hin : ∀ i : ℕ, ∑ j ∈ range m, fftshift n m f i j *
        fftRoot n (((k : ℤ) - (n / 2 : ℕ)) * i) * fftRoot m (((l : ℤ) - (m / 2 : ℕ)) * j)
      = (∑ b ∈ range m, f ((i + (n - n / 2)) % n) b *
          fftRoot m (((l : ℤ) - (m / 2 : ℕ)) * (b + (m / 2 : ℕ)))) *
        fftRoot n (((k : ℤ) - (n / 2 : ℕ)) * i) := by
    intro i
    rw [← sum_fftshift m hm (fun b => f ((i + (n - n / 2)) % n) b) ((l : ℤ) - (m / 2 : ℕ)), sum_mul]
    apply sum_congr rfl
    intro j _
    unfold fftshift
    ring
  simp only [hin]
  rw [sum_fftshift n hn (fun a => ∑ b ∈ range m, f a b *
          fftRoot m (((l : ℤ) - (m / 2 : ℕ)) * (b + (m / 2 : ℕ)))) ((k : ℤ) - (n / 2 : ℕ))]
  apply sum_congr rfl
  intro a _
  rw [sum_mul]
  apply sum_congr rfl
  intro b _
  ring

/-- The image of a uv plane: pixel `(k, l)` lies `k - n/2`, `l - m/2` from the centre of the
image, cell `(a, b)` lies `a - n/2`, `b - m/2` from the centre of the plane. -/
noncomputable def Spec.fourier (n m : ℕ) (f : Plane ℂ) (k l : ℕ) : ℂ :=
  (∑ a ∈ range n, ∑ b ∈ range m, f a b *
    exp (-(2 * Real.pi * I) *
      (((a : ℂ) - n / 2) * ((k : ℂ) - n / 2) / n + ((b : ℂ) - m / 2) * ((l : ℂ) - m / 2) / m)))
    / ((n : ℂ) * m)

theorem fftRoot_even (h : ℕ) (hh : 0 < h) (k a : ℕ) :
    fftRoot (2 * h) (((k : ℤ) - (2 * h / 2 : ℕ)) * (a + (2 * h / 2 : ℕ)))
      = exp (-(2 * Real.pi * I) * (((a : ℂ) - (2 * h : ℕ) / 2) * ((k : ℂ) - (2 * h : ℕ) / 2) / (2 * h : ℕ))) := by
  have e : 2 * h / 2 = h := by omega
  rw [e, fftRoot_congr (2 * h) (k := ((k : ℤ) - h) * (a - h))
    ⟨(k : ℤ) - h, by push_cast; ring⟩]
  unfold fftRoot
  congr 1
  have : (h : ℂ) ≠ 0 := by exact_mod_cast hh.ne'
  push_cast
  field_simp

/-- **C97.** For even sizes the transform is the Fourier sum with both origins in the middle. -/
theorem C97_fourier (n m : ℕ) (hn : 0 < n) (hm : 0 < m) (hn2 : n % 2 = 0) (hm2 : m % 2 = 0)
    (f : Plane ℂ) (k l : ℕ) : uvToImage n m f k l = Spec.fourier n m f k l := by
  rw [uvToImage_eq n m hn hm, Spec.fourier]
  congr 1
  apply sum_congr rfl
  intro a _
  apply sum_congr rfl
  intro b _
  obtain ⟨h, rfl⟩ : ∃ h, n = 2 * h := ⟨n / 2, by omega⟩
  obtain ⟨h', rfl⟩ : ∃ h, m = 2 * h := ⟨m / 2, by omega⟩
  rw [fftRoot_even h (by omega), fftRoot_even h' (by omega), mul_assoc, ← Complex.exp_add]
  congr 2
  ring

/-- The visibilities of a source of flux `S` that is `p`, `q` pixels from the centre of the image. -/
noncomputable def Spec.pointSource (n m : ℕ) (S : ℂ) (p q : ℤ) : Plane ℂ := fun a b =>
  S * exp (2 * Real.pi * I * (((a : ℂ) - n / 2) * p / n + ((b : ℂ) - m / 2) * q / m))

theorem sum_root (n : ℕ) (hn : 0 < n) (d c : ℤ) :
    ∑ a ∈ range n, fftRoot n (d * (a + c)) = if (n : ℤ) ∣ d then (n : ℂ) else 0 := by
  have hr : ∀ a : ℕ, fftRoot n (d * (a + c)) = fftRoot n (d * c) * fftRoot n d ^ a := by
    intro a
    rw [mul_add, fftRoot_add, mul_comm]
    congr 1
    induction a with
    | zero => simp [fftRoot_zero]
    | succ a ih => rw [pow_succ, ← ih, ← fftRoot_add]; congr 1; push_cast; ring
  simp only [hr, ← mul_sum]
  by_cases hd : (n : ℤ) ∣ d
  · rw [if_pos hd]
    have h1 : fftRoot n d = 1 := by
      rw [fftRoot_congr n (k := 0) (by simpa using hd), fftRoot_zero]
    have h2 : fftRoot n (d * c) = 1 := by
      rw [fftRoot_congr n (k := 0) (by simpa using hd.mul_right c), fftRoot_zero]
    simp [h1, h2]
  · rw [if_neg hd]
    have h1 : fftRoot n d ≠ 1 := by
      intro h
      unfold fftRoot at h
      rw [Complex.exp_eq_one_iff] at h
      obtain ⟨z, hz⟩ := h
      apply hd
      have hn0 : (n : ℂ) ≠ 0 := by exact_mod_cast hn.ne'
      have hp : (2 * (Real.pi : ℂ) * I) ≠ 0 := Complex.two_pi_I_ne_zero
      have : (d : ℂ) = -(z * n) := by
        have h3 : (2 * (Real.pi : ℂ) * I) * (d / n) = (2 * (Real.pi : ℂ) * I) * (-z) := by
          rw [mul_neg, ← mul_div_assoc]
          linear_combination -hz
        have h4 := mul_left_cancel₀ hp h3
        rw [div_eq_iff hn0] at h4
        rw [h4]; ring
      refine ⟨-z, ?_⟩
      have h5 : (d : ℂ) = ((n * -z : ℤ) : ℂ) := by rw [this]; push_cast; ring
      exact_mod_cast h5
    have hg : fftRoot n d ^ n = 1 := by
      have : ∀ a : ℕ, fftRoot n d ^ a = fftRoot n (d * a) := by
        intro a
        induction a with
        | zero => simp [fftRoot_zero]
        | succ a ih => rw [pow_succ, ih, ← fftRoot_add]; congr 1; push_cast; ring
      rw [this, mul_comm, fftRoot_mul_self]
    rw [geom_sum_eq h1, hg, sub_self, zero_div, mul_zero]

/-- **C97**, a source: with visibilities everywhere, a point source appears at its pixel with its flux,
and all the other pixels are zero. -/
theorem C97_point_source (n m : ℕ) (hn : 0 < n) (hm : 0 < m) (hn2 : n % 2 = 0) (hm2 : m % 2 = 0)
    (S : ℂ) (k₀ l₀ k l : ℕ) (hk₀ : k₀ < n) (hl₀ : l₀ < m) (hk : k < n) (hl : l < m) :
    uvToImage n m (Spec.pointSource n m S ((k₀ : ℤ) - n / 2) ((l₀ : ℤ) - m / 2)) k l
      = if k = k₀ ∧ l = l₀ then S else 0 := by
  rw [uvToImage_eq n m hn hm]
  have hn0 : (n : ℂ) ≠ 0 := by exact_mod_cast hn.ne'
  have hm0 : (m : ℂ) ≠ 0 := by exact_mod_cast hm.ne'
  have hs : ∀ a b : ℕ, Spec.pointSource n m S ((k₀ : ℤ) - n / 2) ((l₀ : ℤ) - m / 2) a b
      = S * (fftRoot n (-((k₀ : ℤ) - (n / 2 : ℕ)) * (a + (n / 2 : ℕ))) *
          fftRoot m (-((l₀ : ℤ) - (m / 2 : ℕ)) * (b + (m / 2 : ℕ)))) := by
    intro a b
    unfold Spec.pointSource
    congr 1
    obtain ⟨h, rfl⟩ : ∃ h, n = 2 * h := ⟨n / 2, by omega⟩
    obtain ⟨h', rfl⟩ : ∃ h, m = 2 * h := ⟨m / 2, by omega⟩
    have e1 : 2 * h / 2 = h := by omega
    have e2 : 2 * h' / 2 = h' := by omega
    rw [e1, e2, fftRoot_congr (2 * h) (k := -((k₀ : ℤ) - h) * (a - h))
        ⟨-((k₀ : ℤ) - h), by push_cast; ring⟩,
      fftRoot_congr (2 * h') (k := -((l₀ : ℤ) - h') * (b - h')) ⟨-((l₀ : ℤ) - h'), by push_cast; ring⟩]
    unfold fftRoot
    rw [← Complex.exp_add]
    congr 1
    have e3 : ((2 * h : ℕ) : ℤ) / 2 = h := by push_cast; omega
    have e4 : ((2 * h' : ℕ) : ℤ) / 2 = h' := by push_cast; omega
    rw [e3, e4]
    push_cast at hn0 hm0 ⊢
    field_simp
  have hsum : ∑ a ∈ range n, ∑ b ∈ range m,
      Spec.pointSource n m S ((k₀ : ℤ) - n / 2) ((l₀ : ℤ) - m / 2) a b *
        fftRoot n (((k : ℤ) - (n / 2 : ℕ)) * (a + (n / 2 : ℕ))) *
        fftRoot m (((l : ℤ) - (m / 2 : ℕ)) * (b + (m / 2 : ℕ)))
      = S * ((∑ a ∈ range n, fftRoot n (((k : ℤ) - k₀) * (a + (n / 2 : ℕ)))) *
          ∑ b ∈ range m, fftRoot m (((l : ℤ) - l₀) * (b + (m / 2 : ℕ)))) := by
    rw [sum_mul_sum, mul_sum]
    apply sum_congr rfl
    intro a _
    rw [mul_sum]
    apply sum_congr rfl
    intro b _
    rw [hs]
    rw [show ((k : ℤ) - k₀) * (a + (n / 2 : ℕ))
        = -((k₀ : ℤ) - (n / 2 : ℕ)) * (a + (n / 2 : ℕ)) + ((k : ℤ) - (n / 2 : ℕ)) * (a + (n / 2 : ℕ)) by
          ring,
      show ((l : ℤ) - l₀) * (b + (m / 2 : ℕ))
        = -((l₀ : ℤ) - (m / 2 : ℕ)) * (b + (m / 2 : ℕ)) + ((l : ℤ) - (m / 2 : ℕ)) * (b + (m / 2 : ℕ)) by
          ring, fftRoot_add, fftRoot_add]
    ring
  rw [hsum, sum_root n hn, sum_root m hm]
  have hd1 : (n : ℤ) ∣ (k : ℤ) - k₀ ↔ k = k₀ := by
    constructor
    · intro h
      have := Int.eq_zero_of_abs_lt_dvd h (by rw [abs_lt]; omega)
      omega
    · rintro rfl; simp
  have hd2 : (m : ℤ) ∣ (l : ℤ) - l₀ ↔ l = l₀ := by
    constructor
    · intro h
      have := Int.eq_zero_of_abs_lt_dvd h (by rw [abs_lt]; omega)
      omega
    · rintro rfl; simp
  rw [if_congr hd1 rfl rfl, if_congr hd2 rfl rfl]
  by_cases h1 : k = k₀ <;> by_cases h2 : l = l₀ <;> simp [h1, h2]
  field_simp

/-- **C97**, total flux: the central pixel of the image is the mean of the uv plane. -/
theorem C97_centre (n m : ℕ) (hn : 0 < n) (hm : 0 < m) (f : Plane ℂ) :
    uvToImage n m f (n / 2) (m / 2)
      = (∑ a ∈ range n, ∑ b ∈ range m, f a b) / ((n : ℂ) * m) := by
  rw [uvToImage_eq n m hn hm]
  simp [fftRoot_zero]

/-- **C97**, linearity. -/
theorem C97_linear (n m : ℕ) (f g : Plane ℂ) (c d : ℂ) (k l : ℕ) :
    uvToImage n m (fun a b => c * f a b + d * g a b) k l
      = c * uvToImage n m f k l + d * uvToImage n m g k l := by
  unfold uvToImage fftForward fftshift
  simp only []
  rw [← mul_div_assoc, ← mul_div_assoc, ← add_div]
  congr 1
  rw [mul_sum, mul_sum, ← sum_add_distrib]
  apply sum_congr rfl
  intro i _
  rw [mul_sum, mul_sum, ← sum_add_distrib]
  apply sum_congr rfl
  intro j _
  ring

/-- **C97**, no imaginary part: the image of a Hermitian plane is real, so that nothing is lost by taking
the real part. -/
theorem C97_hermitian_real (n m : ℕ) (hn : 0 < n) (hm : 0 < m) (hn2 : n % 2 = 0) (hm2 : m % 2 = 0)
    (f : Plane ℂ) (hf : ∀ a < n, ∀ b < m, f ((n - a) % n) ((m - b) % m) = star (f a b)) (k l : ℕ) :
    (uvToImage n m f k l).im = 0 := by
  rw [← Complex.conj_eq_iff_im, uvToImage_eq n m hn hm, map_div₀, map_mul, map_natCast, map_natCast]
  congr 1
  have hneg : ∀ n : ℕ, n % 2 = 0 → 0 < n → ∀ (d : ℤ) (a : ℕ), a < n →
      fftRoot n (-(d * (a + (n / 2 : ℕ)))) = fftRoot n (d * (((n - a) % n : ℕ) + (n / 2 : ℕ))) := by
    intro n h2 h0 d a ha
    apply fftRoot_congr
    rw [← neg_mul, neg_mul, ← mul_neg, ← mul_sub]
    apply Dvd.dvd.mul_left
    rcases Nat.eq_zero_or_pos a with rfl | hp
    · rw [Nat.sub_zero, Nat.mod_self]
      exact ⟨-1, by push_cast; omega⟩
    · rw [Nat.mod_eq_of_lt (by omega)]
      exact ⟨-2, by push_cast [Nat.cast_sub ha.le]; omega⟩
  have hinv : ∀ n : ℕ, 0 < n → ∀ a < n, (n - (n - a) % n) % n = a := by
    intro n h0 a ha
    rcases Nat.eq_zero_or_pos a with rfl | hp
    · simp
    · rw [Nat.mod_eq_of_lt (show n - a < n by omega), Nat.mod_eq_of_lt (by omega)]; omega
  rw [map_sum]
  refine sum_nbij' (fun a => (n - a) % n) (fun a => (n - a) % n) ?_ ?_ ?_ ?_ ?_
  · intro a _; exact mem_range.2 (Nat.mod_lt _ hn)
  · intro a _; exact mem_range.2 (Nat.mod_lt _ hn)
  · intro a ha; exact hinv n hn a (mem_range.1 ha)
  · intro a ha; exact hinv n hn a (mem_range.1 ha)
  · intro a ha
    rw [map_sum]
    refine sum_nbij' (fun b => (m - b) % m) (fun b => (m - b) % m) ?_ ?_ ?_ ?_ ?_
    · intro b _; exact mem_range.2 (Nat.mod_lt _ hm)
    · intro b _; exact mem_range.2 (Nat.mod_lt _ hm)
    · intro b hb; exact hinv m hm b (mem_range.1 hb)
    · intro b hb; exact hinv m hm b (mem_range.1 hb)
    · intro b hb
      rw [map_mul, map_mul, fftRoot_conj, fftRoot_conj, hneg n hn2 hn _ a (mem_range.1 ha),
        hneg m hm2 hm _ b (mem_range.1 hb), hf a (mem_range.1 ha) b (mem_range.1 hb)]
      rfl

/-- **C97**, after gridding: the image of a plane made Hermitian at the end of the gridding (C23) is
real. -/
theorem C97_gridded_real (n m : ℕ) (hn : 0 < n) (hm : 0 < m) (hn2 : n % 2 = 0) (hm2 : m % 2 = 0)
    (f : Plane ℂ) (k l : ℕ) : (uvToImage n m (symmetrise true n m f) k l).im = 0 := by
  apply C97_hermitian_real n m hn hm hn2 hm2
  intro a ha b hb
  have h := C23_symmetrise_hermitian true n m f a b ha hb
  have e1 : negIdx n a = (n - a) % n := by unfold negIdx; rw [Nat.mod_eq_of_lt ha]
  have e2 : negIdx m b = (m - b) % m := by unfold negIdx; rw [Nat.mod_eq_of_lt hb]
  rw [← e1, ← e2]
  rw [C23_mirror_entry true n m _ a b ha hb] at h
  simp only [if_true] at h
  rw [← h, star_star]

theorem root_inverse (n : ℕ) (hn : 0 < n) (g : ℕ → ℂ) (c e : ℤ) (a : ℕ) (ha : a < n) :
    ∑ k ∈ range n, (∑ a' ∈ range n, g a' * fftRoot n (((k : ℤ) - c) * (a' + e))) *
        fftRoot n (-(((k : ℤ) - c) * (a + e))) = n * g a := by
  have h1 : ∀ k : ℕ, (∑ a' ∈ range n, g a' * fftRoot n (((k : ℤ) - c) * (a' + e))) *
        fftRoot n (-(((k : ℤ) - c) * (a + e)))
      = ∑ a' ∈ range n, g a' * fftRoot n (((a' : ℤ) - a) * (k + -c)) := by
    intro k
    rw [sum_mul]
    apply sum_congr rfl
    intro a' _
    rw [mul_assoc, ← fftRoot_add]
    congr 2
    ring
  simp only [h1]
  rw [sum_comm]
  simp only [← mul_sum]
  have h2 : ∀ a' ∈ range n, g a' * ∑ k ∈ range n, fftRoot n (((a' : ℤ) - a) * (k + -c))
      = if a' = a then n * g a else 0 := by
    intro a' ha'
    rw [sum_root n hn]
    have : (n : ℤ) ∣ (a' : ℤ) - a ↔ a' = a := by
      constructor
      · intro h
        have h1 := mem_range.1 ha'
        have := Int.eq_zero_of_abs_lt_dvd h (by rw [abs_lt]; omega)
        omega
      · rintro rfl; simp
    rw [if_congr this rfl rfl]
    by_cases h : a' = a
    · rw [if_pos h, if_pos h, h, mul_comm]
    · rw [if_neg h, if_neg h, mul_zero]
  rw [sum_congr rfl h2, sum_ite_eq' (range n) a (fun _ => (n : ℂ) * g a), if_pos (mem_range.2 ha)]

/-- The plane can be computed from the image. -/
theorem uvToImage_inverse (n m : ℕ) (hn : 0 < n) (hm : 0 < m) (f : Plane ℂ) (a b : ℕ) (ha : a < n)
    (hb : b < m) :
    ∑ k ∈ range n, ∑ l ∈ range m, uvToImage n m f k l *
        fftRoot n (-(((k : ℤ) - (n / 2 : ℕ)) * (a + (n / 2 : ℕ)))) *
        fftRoot m (-(((l : ℤ) - (m / 2 : ℕ)) * (b + (m / 2 : ℕ)))) = f a b := by
  have hn0 : (n : ℂ) ≠ 0 := by exact_mod_cast hn.ne'
  have hm0 : (m : ℂ) ≠ 0 := by exact_mod_cast hm.ne'
  have h1 : ∀ k l : ℕ, uvToImage n m f k l *
        fftRoot n (-(((k : ℤ) - (n / 2 : ℕ)) * (a + (n / 2 : ℕ)))) *
        fftRoot m (-(((l : ℤ) - (m / 2 : ℕ)) * (b + (m / 2 : ℕ))))
      = (∑ a' ∈ range n, (∑ b' ∈ range m, f a' b' *
            fftRoot m (((l : ℤ) - (m / 2 : ℕ)) * (b' + (m / 2 : ℕ)))) *
          fftRoot n (((k : ℤ) - (n / 2 : ℕ)) * (a' + (n / 2 : ℕ)))) *
          fftRoot n (-(((k : ℤ) - (n / 2 : ℕ)) * (a + (n / 2 : ℕ)))) *
        fftRoot m (-(((l : ℤ) - (m / 2 : ℕ)) * (b + (m / 2 : ℕ)))) / ((n : ℂ) * m) := by
    intro k l
    rw [uvToImage_eq n m hn hm, div_mul_eq_mul_div, div_mul_eq_mul_div]
    congr 3
    apply sum_congr rfl
    intro a' _
    rw [sum_mul]
    apply sum_congr rfl
    intro b' _
    ring
  simp only [h1]
  rw [sum_comm]
  have h2 : ∀ l : ℕ, ∑ k ∈ range n, (∑ a' ∈ range n, (∑ b' ∈ range m, f a' b' *
            fftRoot m (((l : ℤ) - (m / 2 : ℕ)) * (b' + (m / 2 : ℕ)))) *
          fftRoot n (((k : ℤ) - (n / 2 : ℕ)) * (a' + (n / 2 : ℕ)))) *
          fftRoot n (-(((k : ℤ) - (n / 2 : ℕ)) * (a + (n / 2 : ℕ)))) *
        fftRoot m (-(((l : ℤ) - (m / 2 : ℕ)) * (b + (m / 2 : ℕ)))) / ((n : ℂ) * m)
      = (∑ b' ∈ range m, f a b' * fftRoot m (((l : ℤ) - (m / 2 : ℕ)) * (b' + (m / 2 : ℕ)))) *
        fftRoot m (-(((l : ℤ) - (m / 2 : ℕ)) * (b + (m / 2 : ℕ)))) / m := by
    intro l
    rw [← sum_div, ← sum_mul, root_inverse n hn (fun a' => ∑ b' ∈ range m, f a' b' *
            fftRoot m (((l : ℤ) - (m / 2 : ℕ)) * (b' + (m / 2 : ℕ)))) _ _ a ha]
    field_simp
  simp only [h2]
  rw [← sum_div, root_inverse m hm (fun b' => f a b') _ _ b hb]
  field_simp

/-- **C97**, no information is lost: planes with the same (complex) image are the same. -/
theorem C97_injective (n m : ℕ) (hn : 0 < n) (hm : 0 < m) (f g : Plane ℂ)
    (h : ∀ k < n, ∀ l < m, uvToImage n m f k l = uvToImage n m g k l) (a b : ℕ) (ha : a < n)
    (hb : b < m) : f a b = g a b := by
  rw [← uvToImage_inverse n m hn hm f a b ha hb, ← uvToImage_inverse n m hn hm g a b ha hb]
  apply sum_congr rfl
  intro k hk
  apply sum_congr rfl
  intro l hl
  rw [h k (mem_range.1 hk) l (mem_range.1 hl)]

/-- **C97**, odd sizes: the uv plane of an odd size is not centred where its middle cell is: the image
of a plane that vanishes but for this cell is not real, let alone constant. -/
theorem C97_odd_shifted (n m : ℕ) (hn : 3 ≤ n) (hn2 : n % 2 = 1) (hm : 0 < m) :
    (uvToImage n m (fun a b => if a = n / 2 ∧ b = m / 2 then 1 else 0) (n / 2 + 1) (m / 2)).im ≠ 0 := by
  have h0 : (n : ℂ) ≠ 0 := by
    have : n ≠ 0 := by omega
    exact_mod_cast this
  have hval : uvToImage n m (fun a b => if a = n / 2 ∧ b = m / 2 then 1 else 0) (n / 2 + 1) (m / 2)
      = fftRoot n (-1) / ((n : ℂ) * m) := by
    rw [uvToImage_eq n m (by omega) hm]
    congr 1
    rw [sum_eq_single_of_mem (n / 2) (mem_range.2 (by omega)), sum_eq_single_of_mem (m / 2)
      (mem_range.2 (by omega))]
    · simp only [and_self, if_true, one_mul, sub_self, zero_mul, fftRoot_zero, mul_one]
      exact fftRoot_congr n ⟨1, by push_cast; omega⟩
    · intro b _ hb; simp [hb]
    · intro a _ ha; apply sum_eq_zero; intro b _; simp [ha]
  rw [hval]
  have he : fftRoot n (-1) = exp (((2 * Real.pi / n : ℝ) : ℂ) * I) := by
    unfold fftRoot
    congr 1
    push_cast
    field_simp
  rw [he, show ((n : ℂ) * m) = ((n * m : ℕ) : ℂ) by push_cast; rfl, Complex.div_natCast_im,
    Complex.exp_ofReal_mul_I_im]
  have hn3 : (3 : ℝ) ≤ n := by exact_mod_cast hn
  have hpos : 0 < Real.sin (2 * Real.pi / n) := by
    apply Real.sin_pos_of_pos_of_lt_pi
    · have := Real.pi_pos; positivity
    · rw [div_lt_iff₀ (by linarith)]
      nlinarith [Real.pi_pos]
  apply div_ne_zero hpos.ne'
  exact_mod_cast (Nat.mul_pos (by omega) hm).ne'

/-! ## Examples -/

/-- A source of flux 3 at the pixel (1, 5) of an image of 4 by 6 pixels. -/
example : uvToImage 4 6 (Spec.pointSource 4 6 3 (-1) 2) 1 5 = 3 ∧
    uvToImage 4 6 (Spec.pointSource 4 6 3 (-1) 2) 2 4 = 0 := by
  have h := C97_point_source 4 6 (by norm_num) (by norm_num) (by norm_num) (by norm_num) 3 1 5
  constructor
  · simpa using h 1 5 (by norm_num) (by norm_num) (by norm_num) (by norm_num)
  · simpa using h 2 4 (by norm_num) (by norm_num) (by norm_num) (by norm_num)

/-- A plane that is not constant and meets the hypothesis of `C97_hermitian_real`. -/
example : ∀ a < 4, ∀ b < 2, (fun a _ => if a = 1 then I else if a = 3 then -I else 2 : Plane ℂ)
    ((4 - a) % 4) ((2 - b) % 2)
      = star ((fun a _ => if a = 1 then I else if a = 3 then -I else 2 : Plane ℂ) a b) := by
  intro a ha b hb
  interval_cases a <;> interval_cases b <;> simp

/-- The central pixel of the image of a plane is its mean. -/
example : uvToImage 2 2 (fun a b => (a : ℂ) + 2 * b) 1 1 = 3 / 2 := by
  have h := C97_centre 2 2 (by norm_num) (by norm_num) (fun a b => (a : ℂ) + 2 * b)
  norm_num [sum_range_succ] at h
  exact h

end PyFHD
