import Verif.Model.BandpassTransfer
import Mathlib.Data.Rat.Floor
import Mathlib.Tactic.FieldSimp
import Mathlib.Tactic.NormNum

/-!
# Bandpass from a calfits file (C156 to C162)
-/

namespace PyFHD

variable {K : Type} [Field K]

/-- What has to hold for a file to be used. -/
theorem transfer_inv (file : Option BpFile) (o : BpObs) (cal : ℕ → ℕ → ℕ → K) (out : BpOut K)
    (h : transferBandpass file o cal = .ok (some out)) :
    ∃ c lay c2 c3 g, file = some c ∧ c.delay = false ∧ layoutOf c.types = .ok lay ∧ lay ≠ .other ∧ (lay = .fall2018 → c.nWin = 1) ∧
      bpJones (if lay = .fall2018 then dropWindow c else c) o = .ok (some c2) ∧ bpChannels c2 o = .ok (some c3) ∧
      bpTimes c3 o = .ok (some true) ∧ (if lay = .fall2018 then dropWindow c else c).nAnt = o.nTile ∧ bpGains c3 o = .ok g ∧
      o.nFreq = o.nTile ∧ out.gain = g ∧
      out.rem = fun p f t => if g p f t = 0 then none else some (cal p f t / (g p f t : K)) := by
  unfold transferBandpass at h
  cases file with
  | none => simp at h
  | some c =>
    by_cases hd : c.delay = true
    · simp only [hd, if_true] at h; cases h
    simp only [bind, Except.bind, hd] at h
    simp only [Bool.false_eq_true, if_false] at h
    cases hl : layoutOf c.types with
    | error e => rw [hl] at h; cases h
    | ok lay =>
      rw [hl] at h
      simp only [] at h
      by_cases ho : lay = .other ∨ (lay = .fall2018 ∧ c.nWin ≠ 1)
      · rw [if_pos ho] at h; cases h
      · rw [if_neg ho] at h
        push Not at ho
        cases hj : bpJones (if lay = .fall2018 then dropWindow c else c) o with
        | error e => rw [hj] at h; cases h
        | ok r =>
          rw [hj] at h
          cases r with
          | none => cases h
          | some c2 =>
            simp only [] at h
            cases hch : bpChannels c2 o with
            | error e => rw [hch] at h; cases h
            | ok r =>
              rw [hch] at h
              cases r with
              | none => cases h
              | some c3 =>
                simp only [] at h
                cases ht : bpTimes c3 o with
                | error e => rw [ht] at h; cases h
                | ok r =>
                  rw [ht] at h
                  cases r with
                  | none => cases h
                  | some b =>
                    simp only [] at h
                    by_cases ha : (if lay = .fall2018 then dropWindow c else c).nAnt ≠ o.nTile
                    · rw [if_pos ha] at h; cases h
                    · rw [if_neg ha] at h
                      cases b with
                      | false => simp at h
                      | true =>
                        simp only [Bool.true_eq_false, if_false] at h
                        cases hg : bpGains c3 o with
                        | error e => rw [hg] at h; cases h
                        | ok g =>
                          rw [hg] at h
                          simp only [] at h
                          by_cases hs : o.nFreq = o.nTile
                          · rw [if_pos hs] at h
                            simp only [Except.ok.injEq, Option.some.injEq] at h
                            exact ⟨c, lay, c2, c3, g, rfl, by simpa using hd, hl, ho.1, ho.2, hj, hch, ht, by simpa using ha, hg, hs, by rw [← h], by rw [← h]⟩
                          · rw [if_neg hs] at h; cases h

/-- The converse. -/
theorem transfer_use (c : BpFile) (o : BpObs) (cal : ℕ → ℕ → ℕ → K) (lay : CalLayout) (c2 c3 : BpFile) (g : ℕ → ℕ → ℕ → ℤ)
    (hd : c.delay = false) (hl : layoutOf c.types = .ok lay) (ho : lay ≠ .other) (hw : lay = .fall2018 → c.nWin = 1)
    (hj : bpJones (if lay = .fall2018 then dropWindow c else c) o = .ok (some c2)) (hch : bpChannels c2 o = .ok (some c3))
    (ht : bpTimes c3 o = .ok (some true)) (ha : (if lay = .fall2018 then dropWindow c else c).nAnt = o.nTile) (hg : bpGains c3 o = .ok g)
    (hs : o.nFreq = o.nTile) : transferBandpass (some c) o cal
      = .ok (some ⟨g, fun p f t => if g p f t = 0 then none else some (cal p f t / (g p f t : K))⟩) := by
  unfold transferBandpass
  simp only [bind, Except.bind, hd, hl]
  have h1 : ¬ (lay = .other ∨ (lay = .fall2018 ∧ c.nWin ≠ 1)) := by
    push Not
    exact ⟨ho, hw⟩
  simp only [Bool.false_eq_true, if_false]
  rw [if_neg h1, hj]
  simp only []
  rw [hch]
  simp only []
  rw [ht]
  simp only [Bool.true_eq_false, if_false]
  rw [if_neg (by simpa using ha), hg]
  simp only []
  rw [if_pos hs]

theorem bpJones_some (c : BpFile) (o : BpObs) (c2 : BpFile) (h : bpJones c o = .ok (some c2)) :
    o.nPol ≤ c.nJones ∧ c2.nAnt = c.nAnt ∧ c2.nFreq = c.nFreq ∧ c2.nTime = c.nTime ∧ c2.chwidth = c.chwidth ∧ c2.inttime = c.inttime ∧
      c2.timeDelt = c.timeDelt ∧ c2.nArr = c.nArr := by
  unfold bpJones at h
  by_cases h1 : c.nJones < o.nPol
  · rw [if_pos h1] at h; cases h
  rw [if_neg h1] at h
  simp only [] at h
  split_ifs at h
  · simp only [Except.ok.injEq, Option.some.injEq] at h
    subst h
    exact ⟨by omega, rfl, rfl, rfl, rfl, rfl, rfl, rfl⟩
  · simp only [Except.ok.injEq, Option.some.injEq] at h
    subst h
    exact ⟨by omega, rfl, rfl, rfl, rfl, rfl, rfl, rfl⟩

/-- The first frequency of the file plays no role for the polarisations. -/
theorem bpJones_start (c : BpFile) (o : BpObs) (c2 : BpFile) (nu : ℚ) (h : bpJones c o = .ok (some c2)) :
    bpJones { c with freqStart := nu } o = .ok (some { c2 with freqStart := nu }) := by
  unfold bpJones at h ⊢
  by_cases h1 : c.nJones < o.nPol
  · rw [if_pos h1] at h; cases h
  rw [if_neg h1] at h ⊢
  simp only [] at h ⊢
  by_cases h2 : c.xorient = "north" ∨ c.xorient = "south"
  · rw [if_pos h2] at h ⊢
    by_cases h3 : o.nPol < 2 ∨ (2 < o.nPol ∧ o.nPol < 4)
    · rw [if_pos h3] at h; cases h
    · rw [if_neg h3] at h ⊢
      simp only [Except.ok.injEq, Option.some.injEq] at h
      rw [← h]
      rfl
  · rw [if_neg h2] at h ⊢
    simp only [Except.ok.injEq, Option.some.injEq] at h
    rw [← h]

theorem bpChannels_some (c : BpFile) (o : BpObs) (c2 : BpFile) (h : bpChannels c o = .ok (some c2)) : c.chwidth = o.freqRes ∧ c2 = c := by
  unfold bpChannels at h
  by_cases h1 : c.chwidth = o.freqRes
  · rw [if_pos h1] at h
    simp only [Except.ok.injEq, Option.some.injEq] at h
    exact ⟨h1, h.symm⟩
  · rw [if_neg h1] at h
    simp only [] at h
    split_ifs at h <;> simp at h

theorem bpTimes_true (c : BpFile) (o : BpObs) (h : bpTimes c o = .ok (some true)) : c.nTime = 1 := by
  unfold bpTimes at h
  by_contra h1
  rw [if_neg h1] at h
  simp only [] at h
  split_ifs at h <;> simp at h

/-- **C156 is violated**: a file is used only for observations with as many channels as tiles that have one polarisation, or as many
polarisations as tiles. -/
theorem C156_only_square (file : Option BpFile) (o : BpObs) (hpol : 0 < o.nPol) (cal : ℕ → ℕ → ℕ → K) (out : BpOut K)
    (h : transferBandpass file o cal = .ok (some out)) :
    o.nFreq = o.nTile ∧ (o.nPol = 1 ∨ o.nPol = o.nTile) := by
  obtain ⟨c, lay, c2, c3, g, -, -, -, -, -, hj, hch, -, hant, hg, hsq, -, -⟩ := transfer_inv file o cal out h
  obtain ⟨-, h1, -⟩ := bpJones_some _ _ _ hj
  obtain ⟨-, rfl⟩ := bpChannels_some _ _ _ hch
  rw [hant] at h1
  refine ⟨hsq, ?_⟩
  unfold bpGains at hg
  simp only [] at hg
  split_ifs at hg with hshape
  by_contra hcon
  push Not at hcon
  obtain ⟨hp1, hp2⟩ := hcon
  rw [h1, hsq] at hshape
  have hp3 : min o.nPol 2 = 2 := by omega
  rw [hp3] at hshape
  by_cases ht : o.nTile = 1
  · rw [ht] at hshape
    by_cases hf : c3.nFreq = 1
    · simp [hf, hp1] at hshape
    · simp [hf, hp1] at hshape
  · by_cases hf : c3.nFreq = 1
    · simp [hf, hp1, ht] at hshape
      omega
    · simp [hf, hp1, ht] at hshape
      omega

/-- **C156 is violated**: for a standard file that fits an observation of two polarisations and three or more tiles, the run ends with a
`ValueError`. -/
theorem C156_two_polarisations_raise (c : BpFile) (o : BpObs) (cal : ℕ → ℕ → ℕ → K) (hd : c.delay = false)
    (hl : layoutOf c.types = .ok .standard) (hp : o.nPol = 2) (hj : c.nJones = 2) (hx : c.xorient = "east")
    (hw : c.chwidth = o.freqRes) (ht : c.nTime = 1) (ha : c.nAnt = o.nTile) (hf : c.nFreq = o.nFreq) (h3 : 3 ≤ o.nTile) :
    transferBandpass (some c) o cal = .error .valueError := by
  unfold transferBandpass
  simp only [bind, Except.bind, hd, hl]
  have h1 : bpJones c o = .ok (some { c with nJones := o.nPol }) := by
    unfold bpJones
    rw [if_neg (by omega)]
    simp only []
    rw [if_neg (by rw [hx]; decide)]
  have h2 : bpChannels { c with nJones := o.nPol } o = .ok (some { c with nJones := o.nPol }) := by
    unfold bpChannels
    rw [if_pos hw]
  have h3' : bpTimes { c with nJones := o.nPol } o = .ok (some true) := by
    unfold bpTimes
    rw [if_pos ht]
  have h4 : bpGains { c with nJones := o.nPol } o = .error .valueError := by
    unfold bpGains
    simp only []
    rw [if_neg]
    rw [ha, hf, hp]
    by_cases hf1 : o.nFreq = 1
    · simp [hf1, show o.nTile ≠ 1 by omega]
    · simp [hf1, show o.nTile ≠ 1 by omega]
      omega
  simp only [Bool.false_eq_true, if_false, reduceCtorEq, false_and, or_self, h1]
  rw [h2]
  simp only []
  rw [h3']
  simp only []
  rw [if_neg (by simpa using ha), h4]
  rfl

/-- **C156 is violated** also where a file is used: for one polarisation the gain of a tile and channel is the real part of the value in
the file truncated to an integer; imaginary parts are lost. -/
theorem C156_truncated (c : BpFile) (o : BpObs) (cal : ℕ → ℕ → ℕ → K) (out : BpOut K) (hl : layoutOf c.types = .ok .standard)
    (hp : o.nPol = 1) (h2 : 2 ≤ o.nTile) (hfr : c.nFreq = o.nFreq) (h : transferBandpass (some c) o cal = .ok (some out)) (t f : ℕ) :
    out.gain 0 t f = truncInt (c.data t f 0 0 0) := by
  obtain ⟨c', lay, c2, c3, g, hc, -, hlay, -, -, hj, hch, -, hant, hg, hsq, hgain, -⟩ := transfer_inv (some c) o cal out h
  obtain rfl : c = c' := Option.some.inj hc
  rw [hl] at hlay
  obtain rfl : CalLayout.standard = lay := Except.ok.inj hlay
  rw [if_neg (by decide)] at hj hant
  obtain ⟨hle, h1, h1f, -⟩ := bpJones_some _ _ _ hj
  obtain ⟨-, rfl⟩ := bpChannels_some _ _ _ hch
  have hdata : c3.data = c.data := by
    unfold bpJones at hj
    rw [if_neg (by omega)] at hj
    simp only [] at hj
    split_ifs at hj with ho hn
    · exfalso; apply hn; left; omega
    · simp only [Except.ok.injEq, Option.some.injEq] at hj
      rw [← hj]
  rw [hgain]
  unfold bpGains at hg
  simp only [] at hg
  split_ifs at hg with hshape
  have ht : c3.nAnt ≠ 1 := by rw [h1, hant]; omega
  have hf : c3.nFreq ≠ 1 := by rw [h1f, hfr]; omega
  rw [← Except.ok.inj hg, hp]
  simp [ht, hf, fillAxes, hdata]

/-- Values between minus one and one, such as those of a bandpass divided by its mean, become zero, and values from one to two one. -/
theorem C156_small_values_lost (x : ℚ) : (-1 < x → x < 1 → truncInt x = 0) ∧ (1 ≤ x → x < 2 → truncInt x = 1) := by
  unfold truncInt
  constructor
  · intro h1 h2
    split_ifs with h
    · rw [Int.floor_eq_iff]; constructor <;> push_cast <;> linarith
    · rw [Int.ceil_eq_iff]; constructor <;> push_cast <;> linarith
  · intro h1 h2
    rw [if_pos (by linarith), Int.floor_eq_iff]
    constructor <;> push_cast <;> linarith

/-- **C157 is violated**: for files with the orientation `north` both polarisations get the values of the second of the file. -/
theorem C157_both_second (c : BpFile) (o : BpObs) (hx : c.xorient = "north") (hp : o.nPol = 2) (c2 : BpFile)
    (h : bpJones c o = .ok (some c2)) (a f t r : ℕ) : c2.data a f t 0 r = c.data a f t 1 r ∧ c2.data a f t 1 r = c.data a f t 1 r := by
  unfold bpJones at h
  by_cases h1 : c.nJones < o.nPol
  · rw [if_pos h1] at h; cases h
  rw [if_neg h1] at h
  simp only [] at h
  rw [if_pos (Or.inl hx)] at h
  split_ifs at h with h2
  simp only [Except.ok.injEq, Option.some.injEq] at h
  subst h
  simp [orientJones, hp]

/-- **C157 is violated** also for four products: the first two get the values of the second of the file, the last two those of the fourth.
The orientation `south` does the same. -/
theorem C157_four_products (c : BpFile) (o : BpObs) (hx : c.xorient = "north" ∨ c.xorient = "south") (hp : o.nPol = 4) (h4 : 4 ≤ c.nJones) :
    ∃ c2, bpJones c o = .ok (some c2) ∧ ∀ a f t r : ℕ, c2.data a f t 0 r = c.data a f t 1 r ∧ c2.data a f t 1 r = c.data a f t 1 r ∧
      c2.data a f t 2 r = c.data a f t 3 r ∧ c2.data a f t 3 r = c.data a f t 3 r := by
  refine ⟨orientJones { c with nJones := o.nPol } o.nPol, ?_, ?_⟩
  · unfold bpJones
    rw [if_neg (by omega)]
    simp only []
    rw [if_pos hx, if_neg (by omega)]
  · intro a f t r
    simp [orientJones, hp]

/-- **C157**, for other orientations: the polarisations are those of the file. -/
theorem C157_east_partial (c : BpFile) (o : BpObs) (hn : c.xorient ≠ "north") (hs : c.xorient ≠ "south") (hp : o.nPol ≤ c.nJones) :
    ∃ c2, bpJones c o = .ok (some c2) ∧ c2.data = c.data := by
  unfold bpJones
  rw [if_neg (by omega)]
  simp only []
  rw [if_neg (by simp [hn, hs])]
  exact ⟨_, rfl, rfl⟩

/-- **C158 is violated**: a file with another channel width than the observation is never used. -/
theorem C158_other_width_not_used (c : BpFile) (o : BpObs) (hw : c.chwidth ≠ o.freqRes) (cal : ℕ → ℕ → ℕ → K) (out : BpOut K) :
    transferBandpass (some c) o cal ≠ .ok (some out) := by
  intro h
  obtain ⟨c', lay, c2, c3, g, hc, -, -, -, -, hj, hch, -⟩ := transfer_inv (some c) o cal out h
  obtain rfl : c = c' := Option.some.inj hc
  obtain ⟨-, -, -, -, hwid, -⟩ := bpJones_some _ _ _ hj
  obtain ⟨h1, -⟩ := bpChannels_some _ _ _ hch
  apply hw
  rw [← h1, hwid]
  split_ifs <;> rfl

/-- **C158 is violated**: a file with channels twice as narrow that starts at the first channel of the observation, and that otherwise
fits, does not lead to an average but to an exception. -/
theorem C158_averaging_raises (c : BpFile) (o : BpObs) (n : ℕ) (hn : 2 ≤ n) (h0 : c.chwidth ≠ 0) (hw : o.freqRes = n * c.chwidth)
    (hs : c.freqStart = o.freq0) : ∃ e, bpChannels c o = .error e := by
  have hf : o.freqRes / c.chwidth = n := by rw [hw]; field_simp
  have hn1 : (1 : ℚ) < n := by exact_mod_cast hn
  unfold bpChannels
  have hne : c.chwidth ≠ o.freqRes := by
    rw [hw]
    intro h
    have h2 : ((n : ℚ) - 1) * c.chwidth = 0 := by linarith
    rcases mul_eq_zero.mp h2 with h3 | h3
    · linarith
    · exact h0 h3
  rw [if_neg hne]
  simp only [hf]
  rw [if_pos hn1.le, if_neg (by simp), if_neg (by simpa using hs), if_pos hn1]
  split_ifs
  · exact ⟨_, rfl⟩
  · exact ⟨_, rfl⟩
  · exact ⟨_, rfl⟩

/-- **C158 is violated**: the first frequency of a file that is used is not compared with that of the observation. -/
theorem C158_start_unchecked (c : BpFile) (o : BpObs) (cal : ℕ → ℕ → ℕ → K) (nu : ℚ)
    (out : BpOut K) (h : transferBandpass (some c) o cal = .ok (some out)) :
    transferBandpass (some { c with freqStart := nu }) o cal = .ok (some out) := by
  obtain ⟨c', lay, c2, c3, g, hc, hd, hl, ho, hwin, hj, hch, htm, hant, hg, hsq, hgain, hrem⟩ := transfer_inv (some c) o cal out h
  obtain rfl : c = c' := Option.some.inj hc
  obtain ⟨h1, rfl⟩ := bpChannels_some _ _ _ hch
  have hcs : (if lay = .fall2018 then dropWindow { c with freqStart := nu } else { c with freqStart := nu })
      = { (if lay = .fall2018 then dropWindow c else c) with freqStart := nu } := by split_ifs <;> rfl
  have hout : out = ⟨g, fun p f t => if g p f t = 0 then none else some (cal p f t / (g p f t : K))⟩ := by
    cases out
    simp only [] at hgain hrem
    rw [hgain, hrem]
  rw [hout]
  refine transfer_use { c with freqStart := nu } o cal lay { c3 with freqStart := nu } { c3 with freqStart := nu } g hd hl ho hwin
    ?_ ?_ ?_ ?_ ?_ hsq
  · rw [hcs]
    exact bpJones_start _ _ _ _ hj
  · unfold bpChannels
    rw [if_pos h1]
  · unfold bpTimes
    rw [if_pos (bpTimes_true _ _ htm)]
  · rw [hcs]
    exact hant
  · rw [← hg]
    rfl

/-- **C159 is violated**: files with several times are never used. -/
theorem C159_several_times_not_used (c : BpFile) (o : BpObs) (ht : c.nTime ≠ 1) (cal : ℕ → ℕ → ℕ → K) (out : BpOut K) :
    transferBandpass (some c) o cal ≠ .ok (some out) := by
  intro h
  obtain ⟨c', lay, c2, c3, g, hc, -, -, -, -, hj, hch, htm, -⟩ := transfer_inv (some c) o cal out h
  obtain rfl : c = c' := Option.some.inj hc
  obtain ⟨-, -, -, hnt, -⟩ := bpJones_some _ _ _ hj
  obtain ⟨-, rfl⟩ := bpChannels_some _ _ _ hch
  apply ht
  rw [← bpTimes_true _ _ htm, hnt]
  split_ifs <;> rfl

/-- **C159 is violated**: files with one time per pointing of the telescope are skipped whatever the pointing. -/
theorem C159_pointings_skipped (c : BpFile) (o : BpObs) (ht : c.nTime ≠ 1) (h1 : 1600 < c.inttime) (h2 : c.inttime < 2000) :
    bpTimes c o = .ok none := by
  unfold bpTimes
  rw [if_neg ht, if_pos (Or.inl ⟨h2, h1⟩)]

/-- **C160 is violated**: files with a spectral window are not used for more than one tile. -/
theorem C160_window_not_used (c : BpFile) (o : BpObs) (hl : layoutOf c.types = .ok .fall2018) (h2 : 2 ≤ o.nTile) (cal : ℕ → ℕ → ℕ → K)
    (out : BpOut K) : transferBandpass (some c) o cal ≠ .ok (some out) := by
  intro h
  obtain ⟨c', lay, c2, c3, g, hc, -, hlay, -, hwin, hj, hch, -, hant, -⟩ := transfer_inv (some c) o cal out h
  obtain rfl : c = c' := Option.some.inj hc
  rw [hl] at hlay
  obtain rfl : CalLayout.fall2018 = lay := Except.ok.inj hlay
  rw [if_pos rfl] at hant
  have := hwin rfl
  have h3 : (dropWindow c).nAnt = c.nWin := rfl
  omega

/-- The axes of the current convention. -/
example : layoutOf ["narrays", "jones", "time", "freqs", "if", "antaxis"] = .ok .fall2018 := by decide +kernel

example : layoutOf ["narrays", "jones", "time", "freqs", "antaxis"] = .ok .standard := by decide +kernel

/-- **C161**: files that are missing, hold delays, do not follow a known convention, have several spectral windows, too few
polarisations, or (with one time and the channel width of the observation) another number of antennas, are skipped: the result is
that of a run without the option. -/
theorem C161_skipped {O : Type} (file : Option BpFile) (o : BpObs) (cal : ℕ → ℕ → ℕ → K) (ofFile : BpOut K → O) (fit : Py O)
    (h : file = none ∨ ∃ c, file = some c ∧ (c.delay = true ∨ layoutOf c.types = .ok .other ∨
      (layoutOf c.types = .ok .fall2018 ∧ c.nWin ≠ 1) ∨
      (layoutOf c.types = .ok .standard ∧ (c.nJones < o.nPol ∨
        (c.xorient = "east" ∧ c.chwidth = o.freqRes ∧ c.nTime = 1 ∧ c.nAnt ≠ o.nTile))))) :
    bandpassStep (some file) o cal ofFile fit = bandpassStep none o cal ofFile fit := by
  have hnone : transferBandpass file o cal = .ok none := by
    rcases h with rfl | ⟨c, rfl, h⟩
    · rfl
    · unfold transferBandpass
      simp only [bind, Except.bind]
      cases hd : c.delay
      · simp only [Bool.false_eq_true, if_false]
        rcases h with h | h | ⟨h, hw⟩ | ⟨hl, h⟩
        · rw [hd] at h; cases h
        · rw [h]; simp
        · rw [h]; simp [hw]
        · rw [hl]
          simp only [reduceCtorEq, false_and, or_self, if_false]
          by_cases hj : c.nJones < o.nPol
          · have : bpJones c o = .ok none := by unfold bpJones; rw [if_pos hj]
            rw [this]
          · rcases h with h | ⟨hx, hw, ht, ha⟩
            · exact absurd h hj
            · have h1 : bpJones c o = .ok (some { c with nJones := o.nPol }) := by
                unfold bpJones
                rw [if_neg hj]
                simp only []
                rw [if_neg (by rw [hx]; decide)]
              have h2 : bpChannels { c with nJones := o.nPol } o = .ok (some { c with nJones := o.nPol }) := by
                unfold bpChannels
                rw [if_pos hw]
              have h3 : bpTimes { c with nJones := o.nPol } o = .ok (some true) := by
                unfold bpTimes
                rw [if_pos ht]
              rw [h1]
              simp only []
              rw [h2]
              simp only []
              rw [h3]
              simp only []
              rw [if_pos ha]
      · rfl
  unfold bandpassStep
  simp only [bind, Except.bind]
  rw [hnone]

/-- **C162**, where the bandpass of the file is used: its product with the remaining gains is the gains, at the entries where the
bandpass is not zero, if its tiles are read as channels and its channels as tiles. -/
theorem C162_product_partial [CharZero K] (file : Option BpFile) (o : BpObs) (cal : ℕ → ℕ → ℕ → K) (out : BpOut K)
    (h : transferBandpass file o cal = .ok (some out)) (p f t : ℕ) (hne : out.gain p f t ≠ 0) :
    ∃ r, out.rem p f t = some r ∧ (out.gain p f t : K) * r = cal p f t := by
  obtain ⟨-, -, -, -, g, -, -, -, -, -, -, -, -, -, -, -, hgain, hrem⟩ := transfer_inv file o cal out h
  rw [hgain] at hne ⊢
  rw [hrem]
  simp only []
  rw [if_neg hne]
  refine ⟨_, rfl, ?_⟩
  have : (g p f t : K) ≠ 0 := by exact_mod_cast hne
  field_simp

/-- **C162 is violated**: the gain of a tile at a channel is divided by the bandpass of another tile at another channel: tile and channel
are exchanged. Where the bandpass is zero the remaining gain is not finite. -/
theorem C162_exchanged (c : BpFile) (o : BpObs) (cal : ℕ → ℕ → ℕ → K) (out : BpOut K) (hl : layoutOf c.types = .ok .standard)
    (hp : o.nPol = 1) (h2 : 2 ≤ o.nTile) (hfr : c.nFreq = o.nFreq) (h : transferBandpass (some c) o cal = .ok (some out)) (tile chan : ℕ) :
    out.rem 0 chan tile = if truncInt (c.data chan tile 0 0 0) = 0 then none
      else some (cal 0 chan tile / (truncInt (c.data chan tile 0 0 0) : K)) := by
  have hg := C156_truncated c o cal out hl hp h2 hfr h chan tile
  obtain ⟨-, -, -, -, g, -, -, -, -, -, -, -, -, -, -, -, hgain, hrem⟩ := transfer_inv (some c) o cal out h
  rw [hgain] at hg
  rw [hrem]
  simp only []
  rw [hg]

/-- Two tiles, two channels, one polarisation; the values of the file are three halves, one half, two and minus three halves. -/
def exBpFile : BpFile where
  delay := false
  types := ["narrays", "jones", "time", "freqs", "antaxis"]
  nAnt := 2
  nFreq := 2
  nTime := 1
  nJones := 1
  nArr := 3
  nWin := 1
  xorient := "east"
  chwidth := 80
  freqStart := 0
  timeStart := 0
  timeDelt := 0
  inttime := 0
  data a f _ _ r := if r = 0 then (if a = 0 then (if f = 0 then 3 / 2 else 1 / 2) else (if f = 0 then 2 else -3 / 2)) else 7

def exBpObs : BpObs := ⟨1, 2, 2, 80, 0, 2, 0⟩

theorem exBp_used : ∃ out, transferBandpass (some exBpFile) exBpObs (fun _ f t => ((f + 2 * t + 1 : ℕ) : ℚ)) = .ok (some out) := by
  have hg : ∃ g, bpGains exBpFile exBpObs = .ok g := by
    unfold bpGains
    simp only []
    rw [if_pos (by decide +kernel)]
    exact ⟨_, rfl⟩
  obtain ⟨g, hg⟩ := hg
  exact ⟨_, transfer_use exBpFile exBpObs _ .standard exBpFile exBpFile g rfl (by decide +kernel) (by decide) (by decide) rfl
    (by unfold bpChannels; exact if_pos rfl) (by unfold bpTimes; exact if_pos rfl) rfl hg rfl⟩

example : ∃ out : BpOut ℚ, transferBandpass (some exBpFile) exBpObs (fun _ f t => ((f + 2 * t + 1 : ℕ) : ℚ)) = .ok (some out) ∧
    out.gain 0 0 1 = 0 ∧ out.gain 0 1 1 = -1 := by
  obtain ⟨out, h⟩ := exBp_used
  refine ⟨out, h, ?_, ?_⟩
  · rw [C156_truncated exBpFile exBpObs _ out (by decide +kernel) rfl (by decide) rfl h]
    exact (C156_small_values_lost _).1 (by norm_num [exBpFile]) (by norm_num [exBpFile])
  · rw [C156_truncated exBpFile exBpObs _ out (by decide +kernel) rfl (by decide) rfl h]
    decide +kernel

/-- The same file for two polarisations, three tiles and two channels. -/
example : transferBandpass (some { exBpFile with nJones := 2, nAnt := 3 }) { exBpObs with nPol := 2, nTile := 3 }
    (fun _ _ _ => (1 : ℚ)) = .error .valueError :=
  C156_two_polarisations_raise _ _ _ rfl (by decide +kernel) rfl rfl rfl rfl rfl rfl rfl (by decide)

example : ∃ e, bpChannels { exBpFile with chwidth := 40 } exBpObs = .error e :=
  C158_averaging_raises _ _ 2 (le_refl _) (by norm_num) (by norm_num [exBpObs]) rfl

/-- A file with the orientation `north`: both polarisations get the value of the second. -/
example : ∃ c2, bpJones { exBpFile with nJones := 2, xorient := "north", data := fun _ _ _ j _ => (j : ℚ) + 5 } { exBpObs with nPol := 2 }
    = .ok (some c2) ∧ c2.data 0 0 0 0 0 = 6 ∧ c2.data 0 0 0 1 0 = 6 := by
  refine ⟨_, by unfold bpJones; rw [if_neg (by decide)]; simp only []; rw [if_pos (Or.inl trivial), if_neg (by decide)], ?_, ?_⟩
  · norm_num [orientJones]
  · norm_num [orientJones]

/-- A file with four products and the orientation `south`. -/
example : ∃ c2, bpJones { exBpFile with nJones := 4, xorient := "south", data := fun _ _ _ j _ => (j : ℚ) + 5 } { exBpObs with nPol := 4 }
    = .ok (some c2) ∧ c2.data 0 0 0 2 0 = 8 := by
  obtain ⟨c2, h, hd⟩ := C157_four_products { exBpFile with nJones := 4, xorient := "south", data := fun _ _ _ j _ => (j : ℚ) + 5 }
    { exBpObs with nPol := 4 } (Or.inr rfl) rfl (le_refl _)
  exact ⟨c2, h, by rw [(hd 0 0 0 0).2.2.1]; norm_num⟩

/-- Two times, half an hour each. -/
example : bpTimes { exBpFile with nTime := 2, inttime := 1800 } exBpObs = .ok none :=
  C159_pointings_skipped _ _ (by decide) (by norm_num) (by norm_num)

/-- A file with three antennas for an observation of two tiles is skipped. -/
example : bandpassStep (some (some { exBpFile with nAnt := 3 })) exBpObs (fun _ _ _ => (1 : ℚ)) (fun _ => 0) (.ok 5) = .ok 5 :=
  C161_skipped _ _ _ _ _ (.inr ⟨_, rfl, .inr (.inr (.inr ⟨by decide +kernel, .inr ⟨rfl, rfl, rfl, by decide⟩⟩))⟩)

end PyFHD
