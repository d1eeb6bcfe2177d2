import Verif.Props.ImagingOpts

/-!
# C249, C250: images of filtered planes, total flux and power of images
-/

namespace PyFHD

open Finset Complex

/-! ## Sums of pixels and of cells -/

/-- The sum of all pixels, for planes of any size. -/
theorem image_total (n m : ℕ) (hn : 0 < n) (hm : 0 < m) (f : Plane ℂ) :
    ∑ k ∈ range n, ∑ l ∈ range m, uvToImage n m f k l = f ((n - n / 2) % n) ((m - m / 2) % m) := by
  rw [← uvToImage_inverse n m hn hm f _ _ (Nat.mod_lt _ hn) (Nat.mod_lt _ hm)]
  apply sum_congr rfl
  intro k _
  apply sum_congr rfl
  intro l _
  have h : ∀ (n : ℕ) (k : ℤ), 0 < n → fftRoot n (-((k - (n / 2 : ℕ)) * ((((n - n / 2) % n : ℕ) : ℤ) + (n / 2 : ℕ)))) = 1 := by
    intro n k h0
    rw [← fftRoot_zero n]
    apply fftRoot_congr
    have : (n : ℤ) ∣ (((n - n / 2) % n : ℕ) : ℤ) + (n / 2 : ℕ) := by
      rcases Nat.lt_or_ge 1 n with h1 | h1
      · rw [Nat.mod_eq_of_lt (by omega)]
        exact ⟨1, by omega⟩
      · obtain rfl : n = 1 := by omega
        exact one_dvd _
    rw [sub_zero]
    exact (this.mul_left _).neg_right
  rw [h n k hn, h m l hm, mul_one, mul_one]

/-- **C250**, total flux: the sum of all pixels is the cell of the zero baseline, for planes of even size. -/
theorem C250_total_partial (n m : ℕ) (hn : 0 < n) (hm : 0 < m) (hn2 : n % 2 = 0) (hm2 : m % 2 = 0) (f : Plane ℂ) :
    ∑ k ∈ range n, ∑ l ∈ range m, uvToImage n m f k l = f (n / 2) (m / 2) := by
  rw [image_total n m hn hm, Nat.mod_eq_of_lt (by omega), Nat.mod_eq_of_lt (by omega)]
  congr 1 <;> omega

/-- **C250 fails** for planes of odd size: what is at the centre of the plane adds nothing to the sum of the pixels. -/
theorem C250_total_odd (n m : ℕ) (hn : 3 ≤ n) (hn2 : n % 2 = 1) (hm : 0 < m) (S : ℂ) :
    ∑ k ∈ range n, ∑ l ∈ range m, uvToImage n m (fun a b => if a = n / 2 ∧ b = m / 2 then S else 0) k l = 0 := by
  rw [image_total n m (by omega) hm, Nat.mod_eq_of_lt (by omega : n - n / 2 < n), if_neg (by omega)]

/-- **C250**, power: the sum of the squares of all pixels is the mean of the squares of all cells. -/
theorem C250_power (n m : ℕ) (hn : 0 < n) (hm : 0 < m) (f : Plane ℂ) :
    ∑ k ∈ range n, ∑ l ∈ range m, ‖uvToImage n m f k l‖ ^ 2 = (∑ a ∈ range n, ∑ b ∈ range m, ‖f a b‖ ^ 2) / (n * m) := by
  have hsq : ∀ z : ℂ, ((‖z‖ ^ 2 : ℝ) : ℂ) = z * (starRingEnd ℂ) z := by
    intro z
    rw [Complex.mul_conj, Complex.normSq_eq_norm_sq]
  apply Complex.ofReal_injective
  push_cast
  simp only [← Complex.ofReal_pow, hsq]
  have hconj : ∀ k l : ℕ, (starRingEnd ℂ) (uvToImage n m f k l) = (∑ a ∈ range n, ∑ b ∈ range m, (starRingEnd ℂ) (f a b) *
      (fftRoot n (-(((k : ℤ) - (n / 2 : ℕ)) * (a + (n / 2 : ℕ)))) *
      fftRoot m (-(((l : ℤ) - (m / 2 : ℕ)) * (b + (m / 2 : ℕ)))))) / ((n : ℂ) * m) := by
    intro k l
    rw [uvToImage_eq n m hn hm, map_div₀, map_mul, map_natCast, map_natCast, map_sum]
    congr 1
    apply sum_congr rfl
    intro a _
    rw [map_sum]
    apply sum_congr rfl
    intro b _
    rw [map_mul, map_mul, fftRoot_conj, fftRoot_conj, mul_assoc]
  simp only [hconj, mul_div_assoc', ← sum_div]
  congr 1
  simp only [mul_sum]
  calc ∑ k ∈ range n, ∑ l ∈ range m, ∑ a ∈ range n, ∑ b ∈ range m, uvToImage n m f k l * ((starRingEnd ℂ) (f a b) *
        (fftRoot n (-(((k : ℤ) - (n / 2 : ℕ)) * (a + (n / 2 : ℕ)))) *
        fftRoot m (-(((l : ℤ) - (m / 2 : ℕ)) * (b + (m / 2 : ℕ))))))
      = ∑ k ∈ range n, ∑ a ∈ range n, ∑ b ∈ range m, ∑ l ∈ range m, (starRingEnd ℂ) (f a b) * (uvToImage n m f k l *
        fftRoot n (-(((k : ℤ) - (n / 2 : ℕ)) * (a + (n / 2 : ℕ)))) *
        fftRoot m (-(((l : ℤ) - (m / 2 : ℕ)) * (b + (m / 2 : ℕ))))) := by
        apply sum_congr rfl
        intro k _
        rw [sum_comm]
        apply sum_congr rfl
        intro a _
        rw [sum_comm]
        apply sum_congr rfl
        intro b _
        apply sum_congr rfl
        intro l _
        ring
    _ = ∑ a ∈ range n, ∑ b ∈ range m, (starRingEnd ℂ) (f a b) * ∑ k ∈ range n, ∑ l ∈ range m, (uvToImage n m f k l *
        fftRoot n (-(((k : ℤ) - (n / 2 : ℕ)) * (a + (n / 2 : ℕ)))) *
        fftRoot m (-(((l : ℤ) - (m / 2 : ℕ)) * (b + (m / 2 : ℕ))))) := by
        rw [sum_comm]
        apply sum_congr rfl
        intro a _
        rw [sum_comm]
        apply sum_congr rfl
        intro b _
        rw [mul_sum]
        apply sum_congr rfl
        intro k _
        rw [mul_sum]
    _ = _ := by
        apply sum_congr rfl
        intro a ha
        apply sum_congr rfl
        intro b hb
        rw [uvToImage_inverse n m hn hm f a b (mem_range.1 ha) (mem_range.1 hb), mul_comm]

theorem norm_fftRoot (n : ℕ) (k : ℤ) : ‖fftRoot n k‖ = 1 := by
  unfold fftRoot
  have : -(2 * (Real.pi : ℂ) * I * k / n) = ((-(2 * Real.pi * k / n) : ℝ) : ℂ) * I := by push_cast; ring
  rw [this, Complex.norm_exp_ofReal_mul_I]

/-- **C250**, errors: no pixel differs by more than the mean of the differences of the cells. -/
theorem C250_error (n m : ℕ) (hn : 0 < n) (hm : 0 < m) (f g : Plane ℂ) (k l : ℕ) :
    ‖uvToImage n m f k l - uvToImage n m g k l‖ ≤ (∑ a ∈ range n, ∑ b ∈ range m, ‖f a b - g a b‖) / (n * m) := by
  rw [uvToImage_eq n m hn hm, uvToImage_eq n m hn hm, ← sub_div, ← sum_sub_distrib, norm_div, norm_mul, Complex.norm_natCast,
    Complex.norm_natCast]
  apply div_le_div_of_nonneg_right _ (by positivity)
  refine (norm_sum_le _ _).trans (sum_le_sum fun a _ => ?_)
  rw [← sum_sub_distrib]
  refine (norm_sum_le _ _).trans (sum_le_sum fun b _ => ?_)
  rw [← sub_mul, ← sub_mul, norm_mul, norm_mul, norm_fftRoot, norm_fftRoot, mul_one, mul_one]

/-! ## Filters -/

namespace Spec

/-- The image `img` convolved with `psf`, whose centre is at `(n/2, m/2)`; both repeat beyond their edges. -/
noncomputable def convolved (n m : ℕ) (img psf : Plane ℂ) : Plane ℂ := fun k l =>
  ∑ k' ∈ range n, ∑ l' ∈ range m, img k' l' * psf ((k + (n - k') + n / 2) % n) ((l + (m - l') + m / 2) % m)

/-- A filter that treats opposite baselines alike. -/
def EvenFilter (n : ℕ) (w : Plane ℚ) : Prop := ∀ a < n, ∀ b < n, w ((n - a) % n) ((n - b) % n) = w a b

end Spec

theorem place_dvd (n k k' : ℕ) (hk : k' < n) :
    (n : ℤ) ∣ ((((k + (n - k') + n / 2) % n : ℕ) : ℤ) - (n / 2 : ℕ)) - ((k : ℤ) - k') := by
  have e : (((k + (n - k') + n / 2) % n : ℕ) : ℤ) = (k : ℤ) + (n - k') + (n / 2 : ℕ) - n * (((k + (n - k') + n / 2) / n : ℕ) : ℤ) := by
    have := Nat.div_add_mod (k + (n - k') + n / 2) n
    have h2 : ((n * ((k + (n - k') + n / 2) / n) + (k + (n - k') + n / 2) % n : ℕ) : ℤ) = ((k + (n - k') + n / 2 : ℕ) : ℤ) := by rw [this]
    push_cast [Nat.cast_sub hk.le] at h2 ⊢
    linarith
  rw [e]
  refine ⟨1 - (((k + (n - k') + n / 2) / n : ℕ) : ℤ), ?_⟩
  ring

/-- The image of a product of planes is the convolution of their images, for planes of any size. -/
theorem uvToImage_mul (n m : ℕ) (hn : 0 < n) (hm : 0 < m) (f w : Plane ℂ) (k l : ℕ) :
    uvToImage n m (fun a b => f a b * w a b) k l = Spec.convolved n m (uvToImage n m f) (uvToImage n m w) k l := by
  unfold Spec.convolved
  have hw : ∀ k' ∈ range n, ∀ l' ∈ range m, uvToImage n m w ((k + (n - k') + n / 2) % n) ((l + (m - l') + m / 2) % m) =
      (∑ a ∈ range n, ∑ b ∈ range m, w a b * (fftRoot n (((k : ℤ) - k') * (a + (n / 2 : ℕ))) *
        fftRoot m (((l : ℤ) - l') * (b + (m / 2 : ℕ))))) / ((n : ℂ) * m) := by
    intro k' hk' l' hl'
    rw [uvToImage_eq n m hn hm]
    congr 1
    apply sum_congr rfl
    intro a _
    apply sum_congr rfl
    intro b _
    rw [mul_assoc]
    congr 2
    · apply fftRoot_congr
      rw [← sub_mul]
      exact (place_dvd n k k' (mem_range.1 hk')).mul_right _
    · apply fftRoot_congr
      rw [← sub_mul]
      exact (place_dvd m l l' (mem_range.1 hl')).mul_right _
  rw [sum_congr rfl fun k' hk' => sum_congr rfl fun l' hl' => by rw [hw k' hk' l' hl']]
  rw [uvToImage_eq n m hn hm]
  simp only [mul_div_assoc', ← sum_div]
  congr 1
  simp only [mul_sum]
  symm
  calc ∑ k' ∈ range n, ∑ l' ∈ range m, ∑ a ∈ range n, ∑ b ∈ range m, uvToImage n m f k' l' * (w a b *
        (fftRoot n (((k : ℤ) - k') * (a + (n / 2 : ℕ))) * fftRoot m (((l : ℤ) - l') * (b + (m / 2 : ℕ)))))
      = ∑ k' ∈ range n, ∑ a ∈ range n, ∑ b ∈ range m, ∑ l' ∈ range m, (w a b *
        fftRoot n (((k : ℤ) - (n / 2 : ℕ)) * (a + (n / 2 : ℕ))) * fftRoot m (((l : ℤ) - (m / 2 : ℕ)) * (b + (m / 2 : ℕ)))) *
        (uvToImage n m f k' l' * fftRoot n (-(((k' : ℤ) - (n / 2 : ℕ)) * (a + (n / 2 : ℕ)))) *
        fftRoot m (-(((l' : ℤ) - (m / 2 : ℕ)) * (b + (m / 2 : ℕ))))) := by
        apply sum_congr rfl
        intro k' _
        rw [sum_comm]
        apply sum_congr rfl
        intro a _
        rw [sum_comm]
        apply sum_congr rfl
        intro b _
        apply sum_congr rfl
        intro l' _
        have h1 : ∀ (n : ℕ) (k k' a : ℤ), fftRoot n ((k - k') * (a + (n / 2 : ℕ))) =
            fftRoot n ((k - (n / 2 : ℕ)) * (a + (n / 2 : ℕ))) * fftRoot n (-((k' - (n / 2 : ℕ)) * (a + (n / 2 : ℕ)))) := by
          intro n k k' a
          rw [← fftRoot_add]
          congr 1
          ring
        rw [h1 n k k' a, h1 m l l' b]
        ring
    _ = ∑ a ∈ range n, ∑ b ∈ range m, (w a b *
        fftRoot n (((k : ℤ) - (n / 2 : ℕ)) * (a + (n / 2 : ℕ))) * fftRoot m (((l : ℤ) - (m / 2 : ℕ)) * (b + (m / 2 : ℕ)))) *
        ∑ k' ∈ range n, ∑ l' ∈ range m,
        (uvToImage n m f k' l' * fftRoot n (-(((k' : ℤ) - (n / 2 : ℕ)) * (a + (n / 2 : ℕ)))) *
        fftRoot m (-(((l' : ℤ) - (m / 2 : ℕ)) * (b + (m / 2 : ℕ))))) := by
        rw [sum_comm]
        apply sum_congr rfl
        intro a _
        rw [sum_comm]
        apply sum_congr rfl
        intro b _
        rw [mul_sum]
        apply sum_congr rfl
        intro k' _
        rw [mul_sum]
    _ = _ := by
        apply sum_congr rfl
        intro a ha
        apply sum_congr rfl
        intro b hb
        rw [uvToImage_inverse n m hn hm f a b (mem_range.1 ha) (mem_range.1 hb)]
        ring

/-- The image with a filter and without mask and padding, after the threshold. -/
theorem dirtyImage_filter (o : ImgOpts) (n : ℕ) (plane : Plane ℂ) (mask w : Plane ℚ)
    (ht : imgThreshold o ⟨n, n, plane, plane, true⟩
      = .ok ((⟨n, n, plane, plane, true⟩ : ImgState).inplace fun i j v => v * (mask i j : ℂ)))
    (hm : o.mask = none) (hf : o.filter = .sameSize w) (hp : o.pad = none) :
    ∃ out, dirtyImage o n n plane = .ok out ∧ out.rows = n ∧ out.cols = n ∧
      ∀ k l, out.image k l = imgFinish o (imgDegpix o
        (((⟨n, n, plane, plane, true⟩ : ImgState).inplace fun i j v => v * (mask i j : ℂ)).inplace fun i j v => v * (w i j : ℂ))) k l := by
  have hr : ∀ s' : ImgState, (imgDegpix o s').rows = s'.rows ∧ (imgDegpix o s').cols = s'.cols := by
    intro s'; unfold imgDegpix; split <;> exact ⟨rfl, rfl⟩
  unfold dirtyImage
  simp only [ht, imgMask, hm, imgFilter, hf, imgPad, hp]
  exact ⟨_, rfl, (hr _).1, (hr _).2, fun k l => rfl⟩

/-- **C249.** With default options, the image of a plane with a filter (of the size of the plane and the same for opposite baselines) is
the image without the filter, convolved with the image of the filter itself as the point-spread function. -/
theorem C249_filter (o : ImgOpts) (n : ℕ) (hn : 0 < n) (hn2 : n % 2 = 0) (ht : o.threshold = some 0)
    (hw : o.width = none) (hm : o.mask = none) (hp : o.pad = none) (hb : o.beam = none) (hc : o.norm = none)
    (plane : Plane ℂ) (w : Plane ℚ) (hev : Spec.EvenFilter n w) :
    ∃ filtered plain psf, dirtyImage { o with filter := .sameSize w } n n plane = .ok filtered ∧
      dirtyImage { o with filter := .none } n n plane = .ok plain ∧
      dirtyImage { o with filter := .none, degpix := none } n n (fun a b => (w a b : ℂ)) = .ok psf ∧
      filtered.rows = n ∧ filtered.cols = n ∧
      ∀ k l, filtered.image k l = Spec.convolved n n plain.image psf.image k l := by
  obtain ⟨mask, h1, h2⟩ := C96_default_keeps n hn
  obtain ⟨plain, e1, -, -, e2⟩ := C97_image { o with filter := .none } n hn hn2 ht hw hm rfl hp hb hc plane
  obtain ⟨psf, f1, -, -, f2⟩ := C97_image { o with filter := .none, degpix := none } n hn hn2 ht hw hm rfl hp hb hc (fun a b => (w a b : ℂ))
  have hreal : ∀ k l, (uvToImage n n (fun a b => (w a b : ℂ)) k l).im = 0 := by
    intro k l
    apply C97_hermitian_real n n hn hn hn2 hn2
    intro a ha b hb
    rw [hev a ha b hb]
    simp
  have hps : ∀ k l, psf.image k l = uvToImage n n (fun a b => (w a b : ℂ)) k l := by
    intro k l
    rw [f2, ← C97_fourier n n hn hn hn2 hn2]
    have : (((uvToImage n n (fun a b => (w a b : ℂ)) k l).re : ℝ) : ℂ) = uvToImage n n (fun a b => (w a b : ℂ)) k l := by
      apply Complex.ext
      · simp
      · simp [hreal]
    have hpx : Spec.pixelFactor ({ o with filter := FilterArg.none, degpix := none } : ImgOpts).degpix = 1 := rfl
    rw [hpx, this]
    simp
  have t1 : imgThreshold { o with filter := .sameSize w } ⟨n, n, plane, plane, true⟩
      = .ok ((⟨n, n, plane, plane, true⟩ : ImgState).inplace fun i j v => v * (mask i j : ℂ)) := by
    unfold imgThreshold
    simp only [ht, hw, h1, ne_eq, not_true_eq_false, if_false]
  have run := dirtyImage_filter { o with filter := .sameSize w } n plane mask w t1 hm rfl hp
  obtain ⟨filtered, g1, g2, g3, g4⟩ := run
  refine ⟨filtered, plain, psf, g1, e1, f1, g2, g3, fun k l => ?_⟩
  rw [g4, finish_degpix { o with filter := .sameSize w } hb hc]
  have hz : uvToImage n n (fun a b => plane a b * (mask a b : ℂ) * (w a b : ℂ)) k l
      = Spec.convolved n n (uvToImage n n plane) (uvToImage n n fun a b => (w a b : ℂ)) k l := by
    rw [← uvToImage_mul n n hn hn]
    unfold uvToImage fftForward fftshift
    simp only []
    congr 1
    apply sum_congr rfl
    intro a ha
    apply sum_congr rfl
    intro b hb
    rw [h2 _ (Nat.mod_lt _ hn) _ (Nat.mod_lt _ hn)]
    simp
  simp only [ImgState.inplace, hz]
  unfold Spec.convolved
  simp only [e2, hps, ← C97_fourier n n hn hn hn2 hn2]
  cases hnr : o.notReal with
  | true =>
    simp only [if_true]
    rw [sum_mul]
    apply sum_congr rfl
    intro k' _
    rw [sum_mul]
    apply sum_congr rfl
    intro l' _
    ring
  | false =>
    simp only [Bool.false_eq_true, if_false]
    rw [Complex.re_sum, Complex.ofReal_sum, sum_mul]
    apply sum_congr rfl
    intro k' _
    rw [Complex.re_sum, Complex.ofReal_sum, sum_mul]
    apply sum_congr rfl
    intro l' _
    rw [Complex.mul_re, hreal, mul_zero, sub_zero]
    have : ∀ a b, uvToImage n n (fun a b => (w a b : ℂ)) a b = (((uvToImage n n (fun a b => (w a b : ℂ)) a b).re : ℝ) : ℂ) := by
      intro a b
      apply Complex.ext
      · simp
      · simp [hreal]
    conv_rhs => rw [this]
    push_cast
    ring

/-- A filter that is the same for opposite baselines: the cells at and beside the zero baseline are kept. -/
example : Spec.EvenFilter 4 (fun a b => if 1 ≤ a ∧ 1 ≤ b then 1 else 0) ∧
    ¬ Spec.EvenFilter 4 (fun a b => if a ≤ 2 ∧ 1 ≤ b then 1 else 0) := by
  unfold Spec.EvenFilter
  decide +kernel

/-- The sum over the pixels for a plane with values, and the power. -/
example : (∑ k ∈ range 4, ∑ l ∈ range 4, uvToImage 4 4 (fun a b => (a : ℂ) + 10 * b) k l = 22) ∧
    (∑ k ∈ range 2, ∑ l ∈ range 2, ‖uvToImage 2 2 (fun a b => (a : ℂ) + b) k l‖ ^ 2 = 3 / 2) := by
  refine ⟨?_, ?_⟩
  · rw [C250_total_partial 4 4 (by norm_num) (by norm_num) (by norm_num) (by norm_num)]
    norm_num
  · rw [C250_power 2 2 (by norm_num) (by norm_num)]
    simp [sum_range_succ]
    norm_num

end PyFHD
