import Verif.Props.SavImport

/-!
Theorems added after edits of the model that no other theorem noticed.
-/

namespace PyFHD

/-- **C187**: an array of pointers that are all null becomes an array of as many floats, all of them NaN. -/
theorem C187_nulls_alone (xs : List Sav) (hx : ∀ x ∈ xs, x = .nul) :
    ∃ a : NumArr, (Sav.objs (.nul :: xs)).convert = .ok (.arr a) ∧ a.shape = [xs.length + 1] ∧ (∀ l, a.entry l = none) ∧ a.isInt = false := by
  have h1 : (Sav.nul :: xs).any Sav.noTruth = false := by
    rw [List.any_eq_false]
    intro x h
    rcases List.mem_cons.1 h with rfl | h
    · simp [Sav.noTruth]
    · rw [hx x h]; simp [Sav.noTruth]
  have h2 : (Sav.nul :: xs).all Sav.isNul = true := by
    rw [List.all_eq_true]
    intro x h
    rcases List.mem_cons.1 h with rfl | h
    · rfl
    · rw [hx x h]; rfl
  refine ⟨⟨⟨[xs.length + 1], fun _ => none⟩, false⟩, ?_, rfl, fun _ => rfl, rfl⟩
  rw [Sav.convert, nullsFirst, h1, h2]
  rfl

/-- Two null pointers. -/
example : ∃ a : NumArr, (Sav.objs [.nul, .nul]).convert = .ok (.arr a) ∧ a.shape = [2] ∧ a.isInt = false := by
  obtain ⟨a, h1, h2, -, h4⟩ := C187_nulls_alone [.nul] (by simp)
  exact ⟨a, h1, h2, h4⟩

/-- **C187**: with a null pointer in front and other pointers that are null or point to numbers, strings or arrays of one number, not all of them
null, the null pointers become NaN and the rest is kept. -/
theorem C187_nulls_in_front (xs : List Sav)
    (hx : ∀ x ∈ xs, x = .nul ∨ (∃ i v, x = .num i v) ∨ (∃ b, x = .bytes b) ∨ ∃ a : NumArr, x = .nums a ∧ a.size = 1) (hn : ∃ x ∈ xs, x ≠ .nul) :
    ∃ ys, (Sav.objs (.nul :: xs)).convert = .ok (.objArr (.num false none :: ys)) ∧ ys.length = xs.length ∧
      ∀ (i : ℕ) (x : Sav), xs[i]? = some x → ys[i]? = some (if x.isNul then .num false none else x) := by
  have h1 : (Sav.nul :: xs).any Sav.noTruth = false := by
    rw [List.any_eq_false]
    intro x h
    rcases List.mem_cons.1 h with rfl | h
    · simp [Sav.noTruth]
    · rcases hx x h with rfl | ⟨i, v, rfl⟩ | ⟨b, rfl⟩ | ⟨a, rfl, ha⟩ <;> simp [Sav.noTruth, *]
  have h2 : (Sav.nul :: xs).all Sav.isNul = false := by
    obtain ⟨x, hm, hne⟩ := hn
    rw [List.all_eq_false]
    refine ⟨x, List.mem_cons_of_mem _ hm, ?_⟩
    cases x <;> simp_all [Sav.isNul]
  refine ⟨xs.map Sav.noNull, ?_, by simp, fun i x hi => ?_⟩
  · rw [Sav.convert, nullsFirst, h1, h2]
    rfl
  · rw [List.getElem?_map, hi]
    cases x <;> rfl

/-- A null pointer, an array of one number and a string. -/
example : ∃ ys, (Sav.objs [.nul, .nums ⟨⟨[1], fun _ => some 7⟩, true⟩, .bytes ['a']]).convert = .ok (.objArr (.num false none :: ys)) ∧ ys.length = 2 := by
  obtain ⟨ys, h1, h2, -⟩ := C187_nulls_in_front [.nums ⟨⟨[1], fun _ => some 7⟩, true⟩, .bytes ['a']] (by
    intro x hx
    rcases List.mem_cons.1 hx with rfl | hx
    · exact Or.inr (Or.inr (Or.inr ⟨_, rfl, rfl⟩))
    · exact Or.inr (Or.inr (Or.inl ⟨['a'], List.mem_singleton.1 hx⟩))) ⟨.bytes ['a'], by simp, by simp⟩
  exact ⟨ys, h1, h2⟩

end PyFHD
