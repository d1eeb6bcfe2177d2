import Mathlib.Tactic.Common
import Verif.Model.StorageLists
import Verif.Props.Storage

/-!
# C286: lists in saved dictionaries
-/

namespace PyFHD

/-! ## Specification -/

/-- A number (truth values are the numbers 0 and 1) as its real and imaginary part; nothing for strings and `None`. -/
def Spec.number : Scal → Option (Flt × Flt)
  | .bool b => some (some (if b then 1 else 0), some 0)
  | .int n => some (some n, some 0)
  | .flt x => some (x, some 0)
  | .cplx a b => some (a, b)
  | .str _ => none
  | .none => none

/-- The entry of an array at a place, as a number. -/
def Spec.entryNumber (a : HArr) (i : ℕ) : Option (Flt × Flt) :=
  match a with
  | .bools l => l[i]?.bind fun b => Spec.number (.bool b)
  | .ints l => l[i]?.bind fun n => Spec.number (.int n)
  | .flts l => l[i]?.bind fun x => Spec.number (.flt x)
  | .cplxs l => l[i]?.bind fun z => Spec.number (.cplx z.1 z.2)
  | _ => none

/-- A list of numbers whose integers fit into 64 bits. -/
def Spec.Numbers (conv : ℤ → ℤ) (l : List Scal) : Prop :=
  ∀ s ∈ l, Spec.number s ≠ none ∧ ∀ n, s = .int n → conv n = n

/-! ## Proofs -/

theorem maxRank_le {l : List Scal} {m : ℕ} : maxRank l ≤ m ↔ ∀ s ∈ l, s.rank ≤ m := by
  induction l with
  | nil => simp [maxRank]
  | cons a t ih =>
    have : maxRank (a :: t) = max a.rank (maxRank t) := rfl
    rw [this, max_le_iff, ih]
    simp

theorem rank_of_number {s : Scal} (h : Spec.number s ≠ none) : s.rank ≤ 3 := by
  cases s <;> simp [Spec.number, Scal.rank] at h ⊢

theorem isOk_number {conv : ℤ → ℤ} {l : List Scal} (h : Spec.Numbers conv l) : maxRank l ≤ 3 :=
  maxRank_le.2 fun s hs => rank_of_number (h s hs).1

/-- The array that is stored for a list of numbers has the same numbers. -/
theorem store_numbers (render' : Obj → String) (render : Scal → String) {conv : ℤ → ℤ} (h0 : conv 0 = 0)
    (h1 : conv 1 = 1) {l : List Scal} (h : Spec.Numbers conv l) :
    ∃ a, (do let b ← formatArray render' (npArray1 render l); storeArr conv b) = .ok a ∧
      a.isNum = decide (l = [] ∨ maxRank l ≠ 0) ∧ (∀ r, a ≠ .bytes r) ∧
      ∀ (i : ℕ), Spec.entryNumber a i = l[i]?.bind Spec.number := by
  by_cases hl : l = []
  · subst hl
    exact ⟨.flts [], rfl, by simp [HArr.isNum], by simp, fun i => by simp [Spec.entryNumber]⟩
  have h3 := isOk_number h
  unfold npArray1
  rw [if_neg hl]
  by_cases c0 : maxRank l = 0
  · rw [if_pos c0]
    refine ⟨_, rfl, by simp [HArr.isNum, hl, c0], by simp, fun i => ?_⟩
    simp only [Spec.entryNumber, List.getElem?_map]
    cases hi : l[i]? with
    | none => rfl
    | some s =>
      have := maxRank_le.1 c0.le s (List.mem_of_getElem? hi)
      cases s <;> simp [Scal.rank] at this
      rfl
  rw [if_neg c0]
  by_cases c1 : maxRank l = 1
  · rw [if_pos c1]
    refine ⟨_, rfl, by simp [HArr.isNum, c0], by simp, fun i => ?_⟩
    simp only [Spec.entryNumber, List.getElem?_map, Option.map_map]
    cases hi : l[i]? with
    | none => rfl
    | some s =>
      have := maxRank_le.1 c1.le s (List.mem_of_getElem? hi)
      have hc := (h s (List.mem_of_getElem? hi)).2
      cases s with
      | bool b =>
        cases b
        · simp [Scal.toInt, h0, Spec.number]
        · simp [Scal.toInt, h1, Spec.number]
      | int n => simp [Scal.toInt, hc n rfl]
      | _ => simp [Scal.rank] at this
  rw [if_neg c1]
  by_cases c2 : maxRank l = 2
  · rw [if_pos c2]
    refine ⟨_, rfl, by simp [HArr.isNum, c0], by simp, fun i => ?_⟩
    simp only [Spec.entryNumber, List.getElem?_map]
    cases hi : l[i]? with
    | none => rfl
    | some s =>
      have := maxRank_le.1 c2.le s (List.mem_of_getElem? hi)
      cases s with
      | bool b => rfl
      | int n => rfl
      | flt x => rfl
      | _ => simp [Scal.rank] at this
  rw [if_neg c2, if_pos (by omega)]
  refine ⟨_, rfl, by simp [HArr.isNum, c0], by simp, fun i => ?_⟩
  simp only [Spec.entryNumber, List.getElem?_map]
  cases hi : l[i]? with
  | none => rfl
  | some s =>
    have := (h s (List.mem_of_getElem? hi)).1
    cases s with
    | bool b => rfl
    | int n => rfl
    | flt x => rfl
    | cplx a b => rfl
    | _ => simp [Spec.number] at this

theorem allOnes_map (l : List Scal) : allOnes (l.map LItem.one) = some l := by
  induction l with
  | nil => rfl
  | cons a t ih => simp [allOnes, ih]

theorem allOnes_seq {l : List LItem} {b : Bool} {r : List Scal} (h : LItem.seq b r ∈ l) : allOnes l = none := by
  induction l with
  | nil => simp at h
  | cons a t ih =>
    cases a with
    | one s =>
      have : LItem.seq b r ∈ t := by simpa using h
      simp [allOnes, ih this]
    | seq b' r' => rfl

theorem allSeqs_map (l : List (Bool × List Scal)) : allSeqs (l.map fun r => LItem.seq r.1 r.2) = some l := by
  induction l with
  | nil => rfl
  | cons a t ih => simp [allSeqs, ih]

/-- **C286**: a list of numbers is saved and loads back as an array with the same numbers, in the same order. -/
theorem C286_numbers (render' : Obj → String) (render : Scal → String) (conv : ℤ → ℤ) (cast : HArr → HArr → HArr)
    (logger : Bool) (h0 : conv 0 = 0) (h1 : conv 1 = 1) (l : List Scal) (h : Spec.Numbers conv l) :
    ∃ a, listRoundTrip render' render conv cast logger (l.map .one) = .ok (.array [l.length] a) ∧
      ∀ (i : ℕ), Spec.entryNumber a i = l[i]?.bind Spec.number := by
  obtain ⟨a, e, _, hb, hi⟩ := store_numbers render' render h0 h1 h
  refine ⟨a, ?_, hi⟩
  unfold listRoundTrip saveList npArray
  rw [allOnes_map]
  simp only [bind, Except.bind] at e ⊢
  cases hf : formatArray render' (npArray1 render l) with
  | error x => rw [hf] at e; simp at e
  | ok b =>
    rw [hf] at e
    simp only [] at e ⊢
    rw [e]
    simp only []
    cases a <;> first | rfl | exact absurd rfl (hb _)

/-- **C286**: a list of ASCII strings loads back as an array of the same strings. -/
theorem C286_strings_partial (render' : Obj → String) (render : Scal → String) (conv : ℤ → ℤ)
    (cast : HArr → HArr → HArr) (logger : Bool) (l : List String) (hl : l ≠ []) (h : ∀ s ∈ l, Spec.Ascii s) :
    listRoundTrip render' render conv cast logger (l.map fun s => .one (.str s)) = .ok (.array [l.length] (.strs l)) := by
  have e1 : l.map (fun s => LItem.one (.str s)) = (l.map Scal.str).map .one := by simp
  have hne : l.map Scal.str ≠ [] := by simpa using hl
  have hr : maxRank (l.map Scal.str) = 4 := by
    refine le_antisymm (maxRank_le.2 fun s hs => ?_) ?_
    · obtain ⟨x, _, rfl⟩ := List.mem_map.1 hs; rfl
    · obtain ⟨x, hx⟩ := List.exists_mem_of_ne_nil l hl
      exact maxRank_le.1 le_rfl (.str x) (List.mem_map.2 ⟨x, hx, rfl⟩)
  have e2 : npArray1 render (l.map Scal.str) = .strs l := by
    unfold npArray1
    rw [if_neg hne, hr]
    simp [Function.comp_def, Scal.toStr]
  have : toBytes l = .ok l := by
    unfold toBytes
    rw [if_pos (List.all_eq_true.2 fun s hs => (isAscii_iff s).2 (h s hs))]
  unfold listRoundTrip saveList npArray
  rw [e1, allOnes_map]
  simp only [e2, formatArray, this, Except.map, storeArr, bind, Except.bind, loadList, decodeBytes, if_neg hl,
    List.length_map]

/-- **C286 is violated** by a list with a string that is not ASCII: it cannot be saved, and the error is one of a name without
a value. -/
theorem C286_non_ascii_raises (render' : Obj → String) (render : Scal → String) (conv : ℤ → ℤ)
    (cast : HArr → HArr → HArr) (l : List String) (s : String) (hs : s ∈ l) (h : ¬ Spec.Ascii s) :
    listRoundTrip render' render conv cast true (l.map fun s => .one (.str s)) = .error .nameError := by
  have hl : l ≠ [] := List.ne_nil_of_mem hs
  have e1 : l.map (fun s => LItem.one (.str s)) = (l.map Scal.str).map .one := by simp
  have hne : l.map Scal.str ≠ [] := by simpa using hl
  have hr : maxRank (l.map Scal.str) = 4 := by
    refine le_antisymm (maxRank_le.2 fun s hs => ?_) ?_
    · obtain ⟨x, _, rfl⟩ := List.mem_map.1 hs; rfl
    · exact maxRank_le.1 le_rfl (.str s) (List.mem_map.2 ⟨s, hs, rfl⟩)
  have e2 : npArray1 render (l.map Scal.str) = .strs l := by
    unfold npArray1
    rw [if_neg hne, hr]
    simp [Function.comp_def, Scal.toStr]
  have : toBytes l = .error .valueError := by
    unfold toBytes
    rw [if_neg]
    intro hc
    exact h ((isAscii_iff s).1 (List.all_eq_true.1 hc s hs))
  unfold listRoundTrip saveList npArray
  rw [e1, allOnes_map]
  simp only [e2, formatArray, this, Except.map, bind, Except.bind, if_true]

/-- **C286**: a list of arrays (or lists) of numbers of one length loads back as an array with two axes, whose rows are
the arrays. -/
theorem C286_rows (render' : Obj → String) (render : Scal → String) (conv : ℤ → ℤ) (cast : HArr → HArr → HArr)
    (logger : Bool) (h0 : conv 0 = 0) (h1 : conv 1 = 1) (n : ℕ) (l : List (Bool × List Scal)) (hl : l ≠ [])
    (hn : ∀ r ∈ l, r.2.length = n) (h : ∀ r ∈ l, Spec.Numbers conv r.2) :
    ∃ a, listRoundTrip render' render conv cast logger (l.map fun r => .seq r.1 r.2) = .ok (.array [l.length, n] a) ∧
      ∀ (i j : ℕ) (r : Bool × List Scal), l[i]? = some r → j < n → Spec.entryNumber a (i * n + j) = r.2[j]?.bind Spec.number := by
  have hall : Spec.Numbers conv (l.flatMap Prod.snd) := by
    intro s hs
    obtain ⟨r, hr, hsr⟩ := List.mem_flatMap.1 hs
    exact h r hr s hsr
  obtain ⟨a, e, hnum, hb, hi⟩ := store_numbers render' render h0 h1 hall
  refine ⟨a, ?_, ?_⟩
  · unfold listRoundTrip saveList npArray
    obtain ⟨r0, t, rfl⟩ := List.exists_cons_of_ne_nil hl
    rw [allOnes_seq (b := r0.1) (r := r0.2) (by simp), allSeqs_map]
    have hh : ((r0 :: t).headD (true, [])).2.length = n := hn r0 (by simp)
    simp only [hh]
    rw [if_pos (List.all_eq_true.2 fun r hr => decide_eq_true (hn r hr))]
    simp only [bind, Except.bind] at e ⊢
    cases hf : formatArray render' (npArray1 render ((r0 :: t).flatMap Prod.snd)) with
    | error x => rw [hf] at e; simp at e
    | ok b =>
      rw [hf] at e
      simp only [] at e ⊢
      rw [e]
      simp only []
      cases a <;> first | rfl | exact absurd rfl (hb _)
  · intro i j r hr hj
    rw [hi]
    congr 1
    clear hi hb e hnum a hall h hl
    induction l generalizing i with
    | nil => simp at hr
    | cons r0 t ih =>
      have hr0 := hn r0 (by simp)
      cases i with
      | zero =>
        simp only [List.getElem?_cons_zero, Option.some.injEq] at hr
        subst hr
        rw [List.flatMap_cons, List.getElem?_append_left (by omega)]
        simp
      | succ i =>
        rw [List.flatMap_cons, List.getElem?_append_right (by rw [hr0, Nat.add_mul]; omega)]
        have : (i + 1) * n + j - r0.2.length = i * n + j := by rw [hr0, Nat.add_mul]; omega
        rw [this]
        exact ih (fun r h => hn r (List.mem_cons_of_mem _ h)) i (by simpa using hr)

/-- The kind of an array. -/
def Spec.sameKind : HArr → HArr → Prop
  | .ints _, .ints _ => True
  | .flts _, .flts _ => True
  | .cplxs _, .cplxs _ => True
  | _, _ => False

/-- A list of arrays is of different lengths. -/
theorem npArray_ragged (render : Scal → String) (l : List LItem) {b b' : Bool} {r r' : List Scal} (h1 : LItem.seq b r ∈ l)
    (h2 : LItem.seq b' r' ∈ l) (h : r.length ≠ r'.length) : npArray render l = none := by
  unfold npArray
  rw [allOnes_seq h1]
  cases hs : allSeqs l with
  | none => rfl
  | some rows =>
    have hmem : ∀ (l : List LItem) rows, allSeqs l = some rows → ∀ b r, LItem.seq b r ∈ l → (b, r) ∈ rows := by
      intro l
      induction l with
      | nil => simp
      | cons x t ih =>
        intro rows hrows b r hbr
        cases x with
        | one s => simp [allSeqs] at hrows
        | seq b0 r0 =>
          simp only [allSeqs, Option.map_eq_some_iff] at hrows
          obtain ⟨rt, ht, rfl⟩ := hrows
          rcases List.mem_cons.1 hbr with e | e
          · injection e with e1 e2; subst e1; subst e2; simp
          · exact List.mem_cons_of_mem _ (ih rt ht b r e)
    simp only []
    rw [if_neg]
    intro hc
    rw [List.all_eq_true] at hc
    have a1 := of_decide_eq_true (hc _ (hmem l rows hs b r h1))
    have a2 := of_decide_eq_true (hc _ (hmem l rows hs b' r' h2))
    exact h (a1.trans a2.symm)

/-- **C286**: a list of arrays of numbers of different lengths loads back as these arrays, if all have the same type and
there is a logger. `cast` leaves arrays of the same type as they are. -/
theorem C286_ragged_partial (render' : Obj → String) (render : Scal → String) (conv : ℤ → ℤ) (cast : HArr → HArr → HArr)
    (hcast : ∀ a b, Spec.sameKind a b → cast a b = b) (l : List (List Scal)) (r r' : List Scal)
    (hr : r ∈ l) (hr' : r' ∈ l) (hlen : r.length ≠ r'.length)
    (hk : ∀ s ∈ l, ∀ s' ∈ l, Spec.sameKind (npArray1 render s) (npArray1 render s')) :
    listRoundTrip render' render conv cast true (l.map (.seq true)) = .ok (.rows (l.map (npArray1 render))) := by
  have hm : (l.map (LItem.seq true)).mapM (formatRow render' render) = .ok (l.map (npArray1 render)) := by
    have : ∀ t : List (List Scal), (∀ s ∈ t, s ∈ l) →
        (t.map (LItem.seq true)).mapM (formatRow render' render) = .ok (t.map (npArray1 render)) := by
      intro t
      induction t with
      | nil => intro _; rfl
      | cons s t ih =>
        intro ht
        have hs := hk s (ht s (by simp)) s (ht s (by simp))
        have hf : formatRow render' render (.seq true s) = .ok (npArray1 render s) := by
          unfold formatRow
          simp only []
          cases hN : npArray1 render s <;> simp [hN, Spec.sameKind] at hs <;> rfl
        simp only [List.map_cons, List.mapM_cons, hf, ih fun s h => ht s (by simp [h]), bind, Except.bind, pure, Except.pure]
    exact this l fun s h => h
  unfold listRoundTrip saveList
  rw [npArray_ragged render _ (List.mem_map.2 ⟨r, hr, rfl⟩) (List.mem_map.2 ⟨r', hr', rfl⟩) hlen]
  simp only [saveRagged, if_true, hm]
  have hnum : (l.map (npArray1 render)).all HArr.isNum = true := by
    rw [List.all_eq_true]
    intro a ha
    obtain ⟨s, hs, rfl⟩ := List.mem_map.1 ha
    have := hk s hs s hs
    cases hN : npArray1 render s <;> simp [hN, Spec.sameKind] at this <;> rfl
  rw [if_pos hnum]
  simp only [bind, Except.bind, loadList]
  congr 2
  have hd : (l.map (npArray1 render)).headD (.flts []) ∈ l.map (npArray1 render) := by
    obtain ⟨x, t, rfl⟩ := List.exists_cons_of_ne_nil (List.ne_nil_of_mem hr)
    simp
  obtain ⟨s0, hs0, he⟩ := List.mem_map.1 hd
  rw [← he]
  conv_rhs => rw [← List.map_id (l.map (npArray1 render))]
  refine List.map_congr_left fun a ha => ?_
  obtain ⟨s, hs, rfl⟩ := List.mem_map.1 ha
  exact hcast _ _ (hk s0 hs0 s hs)

/-- **C286 is violated** by lists of lists of different lengths: they cannot be saved, with a logger or without; without
a logger, neither can arrays of different lengths. -/
theorem C286_ragged_raises (render' : Obj → String) (render : Scal → String) (conv : ℤ → ℤ) (cast : HArr → HArr → HArr)
    (logger : Bool) (l : List (List Scal)) (r r' : List Scal) (hr : r ∈ l) (hr' : r' ∈ l) (hlen : r.length ≠ r'.length) :
    listRoundTrip render' render conv cast logger (l.map (.seq false)) = .error .attributeError ∧
      listRoundTrip render' render conv cast false (l.map (.seq true)) = .error .attributeError := by
  obtain ⟨x, t, rfl⟩ := List.exists_cons_of_ne_nil (List.ne_nil_of_mem hr)
  constructor
  · unfold listRoundTrip saveList
    rw [npArray_ragged render _ (List.mem_map.2 ⟨r, hr, rfl⟩) (List.mem_map.2 ⟨r', hr', rfl⟩) hlen]
    cases logger
    · rfl
    · simp only [saveRagged, if_true, List.map_cons, List.mapM_cons, formatRow, bind, Except.bind]
  · unfold listRoundTrip saveList
    rw [npArray_ragged render _ (List.mem_map.2 ⟨r, hr, rfl⟩) (List.mem_map.2 ⟨r', hr', rfl⟩) hlen]
    rfl

/-- **C286**, for lists of real numbers with a `None`: it becomes NaN, the numbers stay. -/
theorem C286_none (render' : Obj → String) (render : Scal → String) (conv : ℤ → ℤ) (cast : HArr → HArr → HArr)
    (logger : Bool) (l : List Scal) (hn : Scal.none ∈ l)
    (h : ∀ s ∈ l, s = .none ∨ ∃ x : Flt, Spec.number s = some (x, some 0) ∧ ∀ a b, s ≠ .cplx a b) :
    ∃ a, listRoundTrip render' render conv cast logger (l.map .one) = .ok (.array [l.length] a) ∧
      ∀ (i : ℕ) (s : Scal), l[i]? = some s →
        Spec.entryNumber a i = some ((Spec.number s).getD (none, some 0)) := by
  have hl : l ≠ [] := List.ne_nil_of_mem hn
  have hr : maxRank l = 5 := by
    refine le_antisymm (maxRank_le.2 fun s _ => by cases s <;> simp [Scal.rank]) ?_
    exact maxRank_le.1 le_rfl .none hn
  have hstr : ∀ s ∈ l, ∀ x, s ≠ .str x := by
    rintro s hs x rfl
    rcases h _ hs with e | ⟨y, e, _⟩
    · simp at e
    · simp [Spec.number] at e
  have hany : (l.any fun s => decide (s.rank = 4)) = false := by
    rw [List.any_eq_false]
    intro s hs
    have := hstr s hs
    cases s <;> simp [Scal.rank] at this ⊢
  have e1 : npArray1 render l = .objs (l.map (Scal.toObj render false)) := by
    unfold npArray1
    rw [if_neg hl, hr, hany]
    simp
  have ent : ∀ s ∈ l, Scal.toObj render false s = .none ∧ s = .none ∨
      ∃ x, Scal.toObj render false s = .flt x ∧ Spec.number s = some (x, some 0) := by
    intro s hs
    rcases h s hs with rfl | ⟨x, hx, hc⟩
    · exact Or.inl ⟨rfl, rfl⟩
    · right
      cases s with
      | none => simp [Spec.number] at hx
      | str y => simp [Spec.number] at hx
      | cplx a b => exact absurd rfl (hc a b)
      | bool b => exact ⟨_, rfl, rfl⟩
      | int n => exact ⟨_, rfl, rfl⟩
      | flt y => exact ⟨_, rfl, rfl⟩
  have hs1 : (l.map (Scal.toObj render false)).any Obj.isStr = false := by
    rw [List.any_eq_false]
    intro o ho
    obtain ⟨s, hs, rfl⟩ := List.mem_map.1 ho
    rcases ent s hs with ⟨e, _⟩ | ⟨x, e, _⟩ <;> rw [e] <;> simp [Obj.isStr]
  have hs2 : ((l.map (Scal.toObj render false)).map (Obj.fill (.flt none))).any Obj.isCplx = false := by
    rw [List.any_eq_false]
    intro o ho
    obtain ⟨o', ho', rfl⟩ := List.mem_map.1 ho
    obtain ⟨s, hs, rfl⟩ := List.mem_map.1 ho'
    rcases ent s hs with ⟨e, _⟩ | ⟨x, e, _⟩ <;> rw [e] <;> simp [Obj.isCplx, Obj.fill]
  have hf : formatArray render' (npArray1 render l) =
      .ok (.flts (((l.map (Scal.toObj render false)).map (Obj.fill (.flt none))).map Obj.toFlt)) := by
    rw [e1]
    unfold formatArray
    split
    · rename_i heq; simp at heq
    · rename_i heq; simp at heq; exact absurd heq hl
    · rename_i l' _ heq
      injection heq with heq
      subst heq
      rw [if_neg (by simp only [hs1]; simp)]
      simp only [hs2]
      simp
    · rename_i hne; exact absurd rfl (hne _)
  refine ⟨.flts (((l.map (Scal.toObj render false)).map (Obj.fill (.flt none))).map Obj.toFlt), ?_, ?_⟩
  · unfold listRoundTrip saveList npArray
    rw [allOnes_map]
    simp only [hf, storeArr, bind, Except.bind, loadList]
  · intro i s hi
    have hs := List.mem_of_getElem? hi
    simp only [Spec.entryNumber, List.getElem?_map, hi, Option.map_some, Option.bind_some]
    rcases ent s hs with ⟨e, rfl⟩ | ⟨x, e, e2⟩
    · rw [e]; rfl
    · rw [e, e2]; rfl

/-! ## Examples -/

/-- A list of numbers of different types. -/
example : Spec.Numbers id [.int 3, .flt (some (1 / 2)), .bool true] := by
  intro s hs
  simp only [List.mem_cons, List.not_mem_nil, or_false] at hs
  rcases hs with rfl | rfl | rfl <;> simp [Spec.number]

example : listRoundTrip (fun _ => "") (fun _ => "") id (fun _ b => b) true
    [.one (.int 3), .one (.flt (some (1 / 2))), .one (.bool true)] =
      .ok (.array [3] (.flts [some 3, some (1 / 2), some 1])) := by decide +kernel

/-- Names of polarisations. -/
example : listRoundTrip (fun _ => "") (fun _ => "") id (fun _ b => b) false [.one (.str "XX"), .one (.str "YY")] =
    .ok (.array [2] (.strs ["XX", "YY"])) := by decide +kernel

example : ∃ s ∈ ["XX", "µ"], ¬ Spec.Ascii s :=
  ⟨"µ", by simp, by rw [← isAscii_iff]; decide +kernel⟩

example : listRoundTrip (fun _ => "") (fun _ => "") id (fun _ b => b) true [.one (.str "XX"), .one (.str "µ")] =
    .error .nameError := by decide +kernel

/-- Rows. -/
example : listRoundTrip (fun _ => "") (fun _ => "") id (fun _ b => b) true
    [.seq true [.int 1, .int 2], .seq false [.int 3, .int 4]] = .ok (.array [2, 2] (.ints [1, 2, 3, 4])) := by
  decide +kernel

/-- Rows of different lengths. -/
example : listRoundTrip (fun _ => "") (fun _ => "") id (fun _ b => b) true
    [.seq true [.int 1, .int 2], .seq true [.int 3]] = .ok (.rows [.ints [1, 2], .ints [3]]) := by
  decide +kernel

example : listRoundTrip (fun _ => "") (fun _ => "") id (fun _ b => b) true
    [.seq false [.int 1, .int 2], .seq false [.int 3]] = .error .attributeError := by
  decide +kernel

/-- A number and a `None`. -/
example : listRoundTrip (fun _ => "") (fun _ => "") id (fun _ b => b) true [.one (.int 1), .one .none] =
    .ok (.array [2] (.flts [some 1, none])) := by
  decide +kernel

end PyFHD
