import Verif.Props.BandpassTransfer
import Verif.Props.ObsMeta
import Verif.Props.SavImport
import Verif.Props.ColorScale

/-!
# Further claims on imported files, metadata and colour scales (C159, C166, C175, C188)

Added after edits of the model that no theorem noticed.
-/

namespace PyFHD

/-- **C159 is violated** for files whose times have the length of those of the observation: averaging them raises. -/
theorem C159_average_raises (c : BpFile) (o : BpObs) (ht : c.nTime ≠ 1) (hi : ¬(1600 < c.inttime ∧ c.inttime < 2000))
    (hd : ¬(1600 < c.timeDelt ∧ c.timeDelt < 2000)) (hf : c.timeDelt = o.timeRes) : bpTimes c o = .error .attributeError := by
  unfold bpTimes
  rw [if_neg ht, if_neg (by rintro (⟨a, b⟩ | ⟨a, b⟩); exacts [hi ⟨b, a⟩, hd ⟨b, a⟩]), if_pos (by rw [hf])]

example : bpTimes { exBpFile with nTime := 2, inttime := 2, timeDelt := 2 } { exBpObs with timeRes := 2 } = .error .attributeError :=
  C159_average_raises _ _ (by decide) (by norm_num) (by norm_num) rfl

/-- **C166**, the codes: they are used only when the largest tile number they give is the number of tiles. -/
theorem C166_codes_range (a b c : List ℕ) (mod nTile : ℕ) (ta tb : List ℕ) (h0 : (∀ x ∈ a, x = 0) ∨ ∀ x ∈ b, x = 0)
    (h : antennaNumbers a b (some c) mod nTile = .ok (ta, tb)) :
    (∀ k ∈ c, k / mod ≤ nTile) ∧ ∃ k ∈ c, k / mod = nTile := by
  unfold antennaNumbers at h
  cases ha : a.max? with
  | none => rw [ha] at h; cases h
  | some ma =>
    cases hb : b.max? with
    | none => rw [ha, hb] at h; cases h
    | some mb =>
      rw [ha, hb] at h
      dsimp only at h
      have hz : ¬(0 < ma ∧ 0 < mb) := by
        rintro ⟨h1, h2⟩
        rcases h0 with h0 | h0
        · have := h0 ma (List.max?_mem ha); omega
        · have := h0 mb (List.max?_mem hb); omega
      rw [if_neg hz] at h
      split_ifs at h with hm
      obtain ⟨m1, m2⟩ := List.max?_eq_some_iff.mp hm
      refine ⟨fun k hk => m2 _ (List.mem_map.mpr ⟨k, hk, rfl⟩), ?_⟩
      obtain ⟨k, hk, e⟩ := List.mem_map.mp m1
      exact ⟨k, hk, e⟩

example : antennaNumbers [0, 0] [0, 0] (some [256, 512]) 256 2 = .ok ([1, 2], [1, 2]) := by decide +kernel

/-- **C188**: a beam of IDL without baselines, or with fewer than three axes, is refused. -/
theorem C188_no_baselines {B L : Type} (dir stem : List Char) (beam id : Nd B) (load : Py L)
    (h : beam.shape.length < 3 ∨ ∃ nf np, beam.shape = [0, nf, np]) :
    createPsf dir stem ".sav".toList (.ok (beam, id)) load = .error .indexError := by
  have hc : beam.transpose.shape.length < 3 ∨ beam.transpose.shape.getD 2 0 = 0 := by
    rcases h with h | ⟨nf, np, h⟩
    · exact Or.inl (by simpa [Nd.transpose] using h)
    · exact Or.inr (by simp [Nd.transpose, h])
  unfold createPsf
  rw [if_pos rfl]
  dsimp only
  rw [if_pos hc]

section
variable {R : Type} [Field R] [LinearOrder R] [IsStrictOrderedRing R]

/-- **C175**, the lower end of the logarithmic scale: it is the logarithm of a positive number, and if no pixel is positive this number is not
above the upper end of a range that reaches to positive numbers. -/
theorem C175_lower_end (log : R → R) (data : List (Option R)) (r0 r1 : R) :
    ∃ lo, 0 < lo ∧ logCutVal log data (some r0, some r1) = log lo ∧
      ((∀ x, some x ∈ data → x ≤ 0) → r0 ≤ r1 → 0 < r1 → lo ≤ r1) := by
  unfold logCutVal
  by_cases h0 : 0 < r0
  · exact ⟨r0, h0, by simp [h0], fun _ h _ => h⟩
  · simp only [if_neg h0]
    refine ⟨minPos data (some r0, some r1), ?_, rfl, ?_⟩
    · unfold minPos
      cases hl : leastOf ((data.filterMap id).filter fun x => decide (0 < x)) with
      | some m =>
        have : m ∈ (data.filterMap id).filter fun x => decide (0 < x) := by
          have hne : (data.filterMap id).filter (fun x => decide (0 < x)) ≠ [] := by
            intro hc; rw [hc] at hl; cases hl
          revert hl
          cases hq : (data.filterMap id).filter (fun x => decide (0 < x)) with
          | nil => exact absurd hq hne
          | cons a l =>
            intro hl
            obtain rfl := Option.some.inj hl
            have key : ∀ (l : List R) (a : R), l.foldl min a ∈ a :: l := by
              intro l
              induction l with
              | nil => intro a; simp
              | cons b l ih =>
                intro a
                rw [List.foldl_cons]
                rcases List.mem_cons.mp (ih (min a b)) with e | e
                · rcases min_choice a b with e' | e' <;> rw [e, e'] <;> simp
                · exact List.mem_cons_of_mem _ (List.mem_cons_of_mem _ e)
            exact key l a
        simpa using (List.mem_filter.mp this).2
      | none =>
        simp only [nanLt, decide_eq_false h0]
        by_cases h1 : 0 < r1
        · simp only [decide_eq_true h1]; positivity
        · simp only [decide_eq_false h1]; norm_num
    · intro hneg _ hr1
      unfold minPos
      have : (data.filterMap id).filter (fun x => decide (0 < x)) = [] := by
        rw [List.filter_eq_nil_iff]
        intro x hx
        have := hneg x (by simpa using hx)
        simpa using this
      rw [this]
      simp only [leastOf, nanLt, decide_eq_false h0, decide_eq_true hr1]
      rw [div_le_iff₀ (by norm_num)]
      linarith

end

example : logCutVal (fun x : ℚ => x) [some (-1), some 0] (some (-1), some 1) = 1 / 10 := by
  decide +kernel

end PyFHD
