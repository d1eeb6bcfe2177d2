import Verif.Model.TestData

/-!
# C299, C300: test data come as asked for, and what the printed types show
-/

namespace PyFHD

namespace Spec

/-- The result for the file and the further files: one value if there is only one file, else the list with the value of every file, in the order
of the names. -/
def InOrder {A : Type} (reads : List Char → A → Prop) (file : List Char) (args : List (List Char)) : Several A → Prop
  | .one a => args = [] ∧ reads file a
  | .list l => args ≠ [] ∧ List.Forall₂ reads (file :: args) l

/-- A name of a `.sav` file in the directory itself. -/
def SavName (file : List Char) : Prop := ∃ stem, stem ≠ [] ∧ '/' ∉ stem ∧ file = stem ++ ".sav".toList

end Spec

theorem mapM_readAll {A : Type} (f : List Char → Py A) : ∀ (l : List (List Char)) (r : List A),
    l.mapM f = .ok r ↔ List.Forall₂ (fun n a => f n = .ok a) l r := by
  intro l
  induction l with
  | nil =>
    intro r
    rw [List.mapM_nil]
    constructor
    · intro h
      rw [← Except.ok.inj h]
      exact .nil
    · intro h
      cases h
      rfl
  | cons x l ih =>
    intro r
    rw [List.mapM_cons]
    cases hx : f x with
    | error e =>
      constructor
      · intro h
        exact absurd h (by simp [bind, Except.bind])
      · intro h
        cases h with
        | cons h1 _ => rw [hx] at h1; exact absurd h1 (by simp)
    | ok a =>
      cases hl : l.mapM f with
      | error e =>
        constructor
        · intro h
          exact absurd h (by simp [bind, Except.bind])
        · intro h
          cases h with
          | cons _ h2 => rw [(ih _).2 h2] at hl; exact absurd hl (by simp)
      | ok as =>
        simp only [bind, Except.bind, pure, Except.pure]
        constructor
        · intro h
          rw [← Except.ok.inj h]
          exact .cons hx ((ih _).1 hl)
        · intro h
          cases h with
          | cons h1 h2 =>
            rw [hx] at h1
            rw [(ih _).2 h2] at hl
            rw [Except.ok.inj h1, Except.ok.inj hl]

theorem readSeveral_spec {A : Type} (f : List Char → Py A) (file : List Char) (args : List (List Char)) (out : Several A) :
    readSeveral f file args = .ok out ↔ Spec.InOrder (fun n a => f n = .ok a) file args out := by
  unfold readSeveral
  cases hf : f file with
  | error e =>
    constructor
    · intro h
      exact absurd h (by simp [bind, Except.bind])
    · intro h
      cases out with
      | one a => rw [h.2] at hf; exact absurd hf (by simp)
      | list l =>
        obtain ⟨_, h⟩ := h
        cases h with
        | cons h1 _ => rw [hf] at h1; exact absurd h1 (by simp)
  | ok a =>
    cases args with
    | nil =>
      constructor
      · intro h
        rw [← Except.ok.inj h]
        exact ⟨rfl, hf⟩
      · intro h
        cases out with
        | one b =>
          have := Except.ok.inj (hf.symm.trans h.2)
          rw [this]
          rfl
        | list l => exact absurd rfl h.1
    | cons x xs =>
      simp only [bind, Except.bind, List.length_cons, Nat.zero_lt_succ, if_true]
      cases hl : (x :: xs).mapM f with
      | error e =>
        constructor
        · intro h
          exact absurd h (by simp)
        · intro h
          cases out with
          | one b => exact absurd h.1 (by simp)
          | list l =>
            obtain ⟨_, h⟩ := h
            cases h with
            | cons h1 h2 => rw [(mapM_readAll f _ _).2 h2] at hl; exact absurd hl (by simp)
      | ok as =>
        constructor
        · intro h
          rw [← Except.ok.inj h]
          exact ⟨by simp, .cons hf ((mapM_readAll f _ _).1 hl)⟩
        · intro h
          cases out with
          | one b => exact absurd h.1 (by simp)
          | list l =>
            obtain ⟨_, h⟩ := h
            cases h with
            | cons h1 h2 =>
              rw [(mapM_readAll f _ _).2 h2] at hl
              rw [← Except.ok.inj hl, ← Except.ok.inj (hf.symm.trans h1)]
              rfl

/-- **C299.** `get_data` returns the contents of the files in the order of the names, a single file without a list; every file is read once
with the reader of its extension, from the directory or, for an absolute name, from there. -/
theorem C299_order {V : Type} (r : Readers V) (dir : DiskPath) (file : List Char) (args : List (List Char)) (out : Several (Loaded V)) :
    getData r dir file args = .ok out ↔ Spec.InOrder (fun n c =>
      ∃ p, ((n.head? = some '/' ∧ p = pathParts n) ∨ (n.head? ≠ some '/' ∧ p = dir ++ pathParts n)) ∧
        ((pathSuffix p = ".sav".toList ∧ r.readsav p = .ok c) ∨ (pathSuffix p ≠ ".sav".toList ∧ r.npLoad p = .ok c))) file args out := by
  have e : (fun n (c : Loaded V) => readTest r dir n = .ok c) = (fun n c =>
      ∃ p, ((n.head? = some '/' ∧ p = pathParts n) ∨ (n.head? ≠ some '/' ∧ p = dir ++ pathParts n)) ∧
        ((pathSuffix p = ".sav".toList ∧ r.readsav p = .ok c) ∨ (pathSuffix p ≠ ".sav".toList ∧ r.npLoad p = .ok c))) := by
    funext n c
    apply propext
    unfold readTest joinPath
    simp only []
    constructor
    · intro h
      by_cases hn : n.head? = some '/'
      · rw [if_pos hn] at h
        refine ⟨_, Or.inl ⟨hn, rfl⟩, ?_⟩
        by_cases hs : pathSuffix (pathParts n) = ".sav".toList
        · rw [if_pos hs] at h
          exact Or.inl ⟨hs, h⟩
        · rw [if_neg hs] at h
          exact Or.inr ⟨hs, h⟩
      · rw [if_neg hn] at h
        refine ⟨_, Or.inr ⟨hn, rfl⟩, ?_⟩
        by_cases hs : pathSuffix (dir ++ pathParts n) = ".sav".toList
        · rw [if_pos hs] at h
          exact Or.inl ⟨hs, h⟩
        · rw [if_neg hs] at h
          exact Or.inr ⟨hs, h⟩
    · rintro ⟨p, hp, h⟩
      have hj : (if n.head? = some '/' then pathParts n else dir ++ pathParts n) = p := by
        rcases hp with ⟨h1, rfl⟩ | ⟨h1, rfl⟩
        · exact if_pos h1
        · exact if_neg h1
      rw [hj]
      rcases h with ⟨h1, h2⟩ | ⟨h1, h2⟩
      · rw [if_pos h1, h2]
      · rw [if_neg h1, h2]
  unfold getData
  rw [readSeveral_spec, e]

theorem sav_suffix {file : List Char} (h : Spec.SavName file) (dir : DiskPath) :
    pathSuffix (joinPath dir file) = ".sav".toList := by
  obtain ⟨stem, h0, h1, rfl⟩ := h
  have hslash : ∀ c ∈ stem ++ ".sav".toList, c ≠ '/' := by
    intro c hc
    rcases List.mem_append.1 hc with hc | hc
    · rintro rfl
      exact h1 hc
    · have hall : ∀ c ∈ ".sav".toList, c ≠ '/' := by decide
      exact hall c hc
  have hparts : pathParts (stem ++ ".sav".toList) = [stem ++ ".sav".toList] := by
    unfold pathParts
    rw [List.splitOnP_eq_singleton (by
      intro c hc
      simpa using hslash c hc)]
    have h2 : stem ++ ".sav".toList ≠ [] := by simp
    have h3 : stem ++ ".sav".toList ≠ ['.'] := by
      intro h
      have := congrArg List.length h
      simp at this
    have hb : (!(stem ++ ".sav".toList == [] || stem ++ ".sav".toList == ['.'])) = true := by
      rw [Bool.not_eq_true', Bool.or_eq_false_iff]
      exact ⟨beq_eq_false_iff_ne.2 h2, beq_eq_false_iff_ne.2 h3⟩
    rw [List.filter_cons, if_pos hb, List.filter_nil]
  have hhead : (stem ++ ".sav".toList).head? ≠ some '/' := by
    intro h
    exact hslash '/' (List.mem_of_head? h) rfl
  unfold joinPath
  rw [if_neg hhead, hparts]
  unfold pathSuffix
  have hlast : (dir ++ [stem ++ ".sav".toList]).getLast?.getD [] = stem ++ ".sav".toList := by simp
  simp only [hlast]
  have htake : (stem ++ ".sav".toList).reverse.takeWhile (· != '.') = ['v', 'a', 's'] := by
    rw [List.reverse_append]
    rfl
  rw [htake]
  have hlen : (stem ++ ".sav".toList).length - ['v', 'a', 's'].length - 1 = stem.length := by
    simp
  rw [hlen, if_pos ⟨by simp, List.length_pos_iff.2 h0, by simp⟩, List.drop_left]

theorem parts_cons (sub n : List Char) (h : '/' ∉ sub) :
    pathParts (sub ++ '/' :: n) = (if sub = [] ∨ sub = ['.'] then [] else [sub]) ++ pathParts n := by
  unfold pathParts
  rw [List.splitOnP_first (p := (· == '/')) (fun c hc => beq_eq_false_iff_ne.2 (by
    rintro rfl
    exact h hc)) '/' (by rfl), List.filter_cons]
  by_cases hs : sub = [] ∨ sub = ['.']
  · rw [if_pos hs, if_neg (by rcases hs with rfl | rfl <;> simp), List.nil_append]
  · rw [if_neg hs, if_pos (by
      push Not at hs
      rw [Bool.not_eq_true', Bool.or_eq_false_iff]
      exact ⟨beq_eq_false_iff_ne.2 hs.1, beq_eq_false_iff_ne.2 hs.2⟩)]
    rfl

/-- **C299**, names with directories: a file named with a directory in front is the file of that name in the directory, and `./` in front of a
name changes nothing. -/
theorem C299_directories {V : Type} (r : Readers V) (dir : DiskPath) (sub n : List Char) (hn : n.head? ≠ some '/') (args : List (List Char)) :
    (sub ≠ [] → sub ≠ ['.'] → '/' ∉ sub → getData r dir (sub ++ '/' :: n) [] = getData r (dir ++ [sub]) n []) ∧
      getData r dir ("./".toList ++ n) args = getData r dir n args := by
  constructor
  · intro h0 h1 h2
    have e : joinPath dir (sub ++ '/' :: n) = joinPath (dir ++ [sub]) n := by
      unfold joinPath
      rw [if_neg hn, if_neg (by
        cases sub with
        | nil => exact absurd rfl h0
        | cons c l =>
          simp only [List.cons_append, List.head?_cons, Option.some.injEq]
          rintro rfl
          exact h2 List.mem_cons_self), parts_cons sub n h2, if_neg (by simp [h0, h1]), List.append_assoc]
    unfold getData readSeveral readTest
    rw [e]
    rfl
  · have e : joinPath dir ("./".toList ++ n) = joinPath dir n := by
      have hd : "./".toList ++ n = ['.'] ++ '/' :: n := rfl
      unfold joinPath
      rw [if_neg hn, hd, if_neg (by simp), parts_cons ['.'] n (by decide), if_pos (Or.inr rfl), List.nil_append]
    unfold getData readSeveral readTest
    rw [e]

/-- The hypotheses are met: the file `x.sav` in `b` and in the directory itself. -/
example {V : Type} (r : Readers V) : getData r ["a".toList] "b/x.sav".toList [] = getData r ["a".toList, "b".toList] "x.sav".toList [] ∧
    getData r ["a".toList] "./x.sav".toList [] = getData r ["a".toList] "x.sav".toList [] :=
  ⟨(C299_directories r ["a".toList] "b".toList "x.sav".toList (by decide) []).1 (by decide) (by decide) (by decide),
    (C299_directories r ["a".toList] [] "x.sav".toList (by decide) []).2⟩

/-- **C299.** For `.sav` files `get_savs` and `get_data` are the same. -/
theorem C299_savs {V : Type} (r : Readers V) (dir : DiskPath) (file : List Char) (args : List (List Char))
    (h : ∀ n ∈ file :: args, Spec.SavName n) : getSavs r dir file args = getData r dir file args := by
  have e : ∀ n ∈ file :: args, r.readsav (joinPath dir n) = readTest r dir n := by
    intro n hn
    unfold readTest
    simp only []
    rw [if_pos (sav_suffix (h n hn) dir)]
  have em : ∀ l : List (List Char), (∀ n ∈ l, r.readsav (joinPath dir n) = readTest r dir n) →
      l.mapM (fun f => r.readsav (joinPath dir f)) = l.mapM (readTest r dir) := by
    intro l
    induction l with
    | nil => intro _; rfl
    | cons x l ih =>
      intro hl
      rw [List.mapM_cons, List.mapM_cons, hl x List.mem_cons_self, ih fun n hn => hl n (List.mem_cons_of_mem x hn)]
  unfold getSavs getData readSeveral
  show (do let a ← r.readsav (joinPath dir file); _) = _
  rw [e file List.mem_cons_self, em args fun n hn => e n (List.mem_cons_of_mem file hn)]

/-- **C299.** `get_data_sav` returns the value of the first key of every file, whatever the other keys are. -/
theorem C299_first_key {V : Type} (r : Readers V) (dir : DiskPath) (file : List Char) (args : List (List Char)) (out : Several V) :
    getDataSav r dir file args = .ok out ↔
      Spec.InOrder (fun n v => ∃ k rest, readTest r dir n = .ok (.dict ((k, v) :: rest))) file args out := by
  have e : (fun n (v : V) => (do let d ← readTest r dir n; savValue d : Py V) = .ok v) =
      (fun n v => ∃ k rest, readTest r dir n = .ok (.dict ((k, v) :: rest))) := by
    funext n v
    apply propext
    cases hr : readTest r dir n with
    | error e => simp [bind, Except.bind]
    | ok d =>
      simp only [bind, Except.bind, Except.ok.injEq]
      cases d with
      | dict l =>
        cases l with
        | nil => simp [savValue, firstValue]
        | cons kv l =>
          obtain ⟨k, w⟩ := kv
          simp only [savValue, firstValue, Except.ok.injEq, Loaded.dict.injEq, List.cons.injEq, Prod.mk.injEq]
          constructor
          · rintro rfl
            exact ⟨k, l, ⟨rfl, rfl⟩, rfl⟩
          · rintro ⟨_, _, ⟨_, h⟩, _⟩
            exact h
      | boxed l => simp [savValue]
      | array n => simp [savValue]
  unfold getDataSav
  rw [readSeveral_spec, e]

/-- **C299.** `get_data_items` returns the value of the first key of the dictionary in every file. -/
theorem C299_items {V : Type} (r : Readers V) (dir : DiskPath) (file : List Char) (args : List (List Char)) (out : Several V) :
    getDataItems r dir file args = .ok out ↔
      Spec.InOrder (fun n v => ∃ k rest, readTest r dir n = .ok (.boxed ((k, v) :: rest))) file args out := by
  have e : (fun n (v : V) => (do let d ← readTest r dir n; itemValue d : Py V) = .ok v) =
      (fun n v => ∃ k rest, readTest r dir n = .ok (.boxed ((k, v) :: rest))) := by
    funext n v
    apply propext
    cases hr : readTest r dir n with
    | error e => simp [bind, Except.bind]
    | ok d =>
      simp only [bind, Except.bind, Except.ok.injEq]
      cases d with
      | boxed l =>
        cases l with
        | nil => simp [itemValue, firstValue]
        | cons kv l =>
          obtain ⟨k, w⟩ := kv
          simp only [itemValue, firstValue, Except.ok.injEq, Loaded.boxed.injEq, List.cons.injEq, Prod.mk.injEq]
          constructor
          · rintro rfl
            exact ⟨k, l, ⟨rfl, rfl⟩, rfl⟩
          · rintro ⟨_, _, ⟨_, h⟩, _⟩
            exact h
      | dict l => simp [itemValue]
      | array n =>
        simp only [itemValue]
        split_ifs <;> simp
  unfold getDataItems
  rw [readSeveral_spec, e]

/-- **C299.** `get_data_items` never works for a `.sav` file, although `get_data` reads it: a dictionary has no `item`. -/
theorem C299_items_sav {V : Type} (r : Readers V) (hr : ∀ p c, r.readsav p = .ok c → ∃ e, c = .dict e) (dir : DiskPath) (file : List Char)
    (args : List (List Char)) (h : Spec.SavName file) (c : Loaded V) (hc : r.readsav (joinPath dir file) = .ok c) :
    getDataItems r dir file args = .error .attributeError := by
  obtain ⟨e, rfl⟩ := hr _ _ hc
  unfold getDataItems readSeveral readTest
  simp only [sav_suffix h dir, if_true, hc, bind, Except.bind, itemValue]

/-- Readers for the examples. -/
def exReaders : Readers ℕ where
  readsav p := if p = ["d".toList, "a.sav".toList] then .ok (.dict [("x", 1), ("y", 2)])
    else if p = ["d".toList, "b.sav".toList] then .ok (.dict [("z", 3)]) else .error .keyError
  npLoad p := if p = ["e".toList, "c.npy".toList] then .ok (.boxed [("w", 4)]) else .error .keyError

example : Spec.SavName "a.sav".toList := ⟨['a'], by decide, by decide, rfl⟩

example : getDataSav exReaders ["d".toList] "a.sav".toList ["b.sav".toList] = .ok (.list [1, 3]) :=
  (C299_first_key exReaders _ _ _ _).2 ⟨by decide,
    .cons ⟨"x", [("y", 2)], rfl⟩ (.cons ⟨"z", [], rfl⟩ .nil)⟩

example : getDataItems exReaders ["d".toList] "/e/c.npy".toList [] = .ok (.one 4) :=
  (C299_items exReaders _ _ _ _).2 ⟨rfl, "w", [], rfl⟩

example : getDataItems exReaders ["d".toList] "a.sav".toList [] = .error .attributeError := rfl

/-! ## C300 -/

namespace Spec

mutual
/-- No array, at any depth, lacks a first element. -/
def Showable : Shown → Prop
  | .array _ _ first => first ≠ none
  | .dict d => ShowableDict d
  | .object _ => True
  | .other _ => True
/-- The same for the values of a dictionary. -/
def ShowableDict : ShownDict → Prop
  | .nil => True
  | .cons _ v rest => Showable v ∧ ShowableDict rest
end

mutual
/-- The entries below a value: for every one the name its dictionary is printed with, and its key. -/
def entriesOf (key : String) : Shown → List (String × String)
  | .dict d => entriesIn ("  " ++ key) d
  | _ => []
/-- The entries of a dictionary at all depths, in order. -/
def entriesIn (name : String) : ShownDict → List (String × String)
  | .nil => []
  | .cons k v rest => (name, k) :: (entriesOf k v ++ entriesIn name rest)
end

/-- A line that belongs to an entry. -/
def LineOf (e : String × String) (line : String) : Prop := ∃ rest, line = e.1 ++ "[" ++ e.2 ++ "]" ++ rest

/-- One dictionary after the other. -/
def appended : ShownDict → ShownDict → ShownDict
  | .nil, d => d
  | .cons k v rest, d => .cons k v (appended rest d)

end Spec

mutual
theorem printShown_ok (name key : String) (indent : ℕ) : ∀ v : Shown, (printShown name key indent v).2 = none ↔ Spec.Showable v
  | .array _ _ none => by simp [printShown, Spec.Showable]
  | .array _ _ (some (t, inner)) => by simp [printShown, Spec.Showable]
  | .dict d => by
    simp only [printShown, Spec.Showable]
    exact printTypes_ok _ _ d
  | .object _ => by simp [printShown, Spec.Showable]
  | .other _ => by simp [printShown, Spec.Showable]
theorem printTypes_ok (name : String) (indent : ℕ) : ∀ d : ShownDict, (printTypes name indent d).2 = none ↔ Spec.ShowableDict d
  | .nil => by simp [printTypes, Spec.ShowableDict]
  | .cons k v rest => by
    have h1 := printShown_ok name k indent v
    have h2 := printTypes_ok name indent rest
    simp only [printTypes, Spec.ShowableDict]
    rcases hv : printShown name k indent v with ⟨l, _ | e⟩
    · rw [hv] at h1
      simp only at h1 ⊢
      rw [h2]
      constructor
      · exact fun h => ⟨by simpa using h1, h⟩
      · exact fun h => h.2
    · rw [hv] at h1
      simp only at h1 ⊢
      constructor
      · intro h; exact absurd h (by simp)
      · intro h; exact absurd (h1.2 h.1) (by simp)
end

/-- **C300.** Printing the types ends without an exception exactly if no array, at any depth, is empty or without axes. -/
theorem C300_complete_iff (name : String) (indent : ℕ) (d : ShownDict) :
    (printTypes name indent d).2 = none ↔ Spec.ShowableDict d := printTypes_ok name indent d

mutual
theorem printShown_lines (name key : String) (indent : ℕ) : ∀ v : Shown, Spec.Showable v →
    ∃ sub, List.Sublist sub (printShown name key indent v).1 ∧ List.Forall₂ Spec.LineOf ((name, key) :: Spec.entriesOf key v) sub
  | .array _ _ none => fun h => absurd rfl h
  | .array dtype shape (some (t, inner)) => fun _ => by
    refine ⟨[name ++ "[" ++ key ++ "] : " ++ dtype ++ " " ++ shape], ?_, .cons ⟨" : " ++ dtype ++ " " ++ shape, ?_⟩ .nil⟩
    · simp only [printShown, List.cons_append]
      exact List.Sublist.cons_cons _ (List.nil_sublist _)
    · simp only [String.append_assoc]
      rfl
  | .dict d => fun h => by
    obtain ⟨sub, h1, h2⟩ := printTypes_lines ("  " ++ key) (indent + 2) d h
    refine ⟨(name ++ "[" ++ key ++ "]  : <class 'dict'>") :: sub, ?_, .cons ⟨"  : <class 'dict'>", ?_⟩ h2⟩
    · simp only [printShown]
      exact List.Sublist.cons_cons _ h1
    · simp only [String.append_assoc]
      rfl
  | .object text => fun _ => by
    refine ⟨[name ++ "[" ++ key ++ "]  : <class 'object'>"], ?_, .cons ⟨"  : <class 'object'>", ?_⟩ .nil⟩
    · simp only [printShown]
      exact List.Sublist.cons_cons _ (List.nil_sublist _)
    · simp only [String.append_assoc]
      rfl
  | .other t => fun _ => by
    refine ⟨[name ++ "[" ++ key ++ "]  : " ++ t], ?_, .cons ⟨"  : " ++ t, ?_⟩ .nil⟩
    · simp only [printShown]
      exact List.Sublist.refl _
    · simp only [String.append_assoc]
      rfl
theorem printTypes_lines (name : String) (indent : ℕ) : ∀ d : ShownDict, Spec.ShowableDict d →
    ∃ sub, List.Sublist sub (printTypes name indent d).1 ∧ List.Forall₂ Spec.LineOf (Spec.entriesIn name d) sub
  | .nil => fun _ => ⟨[], List.nil_sublist _, .nil⟩
  | .cons k v rest => fun h => by
    obtain ⟨s1, h1, h2⟩ := printShown_lines name k indent v h.1
    obtain ⟨s2, h3, h4⟩ := printTypes_lines name indent rest h.2
    have hv := (printShown_ok name k indent v).2 h.1
    refine ⟨s1 ++ s2, ?_, ?_⟩
    · simp only [printTypes]
      rcases hp : printShown name k indent v with ⟨l, _ | e⟩
      · rw [hp] at h1
        exact h1.append h3
      · rw [hp] at hv
        exact absurd hv (by simp)
    · exact List.rel_append h2 h4
end

/-- **C300.** When no array lacks a first element, every entry at every depth has its own line, in the order of the entries. -/
theorem C300_lines_partial (name : String) (indent : ℕ) (d : ShownDict) (h : Spec.ShowableDict d) :
    ∃ sub, List.Sublist sub (printTypes name indent d).1 ∧ List.Forall₂ Spec.LineOf (Spec.entriesIn name d) sub :=
  printTypes_lines name indent d h

/-- **C300.** An array without a first element ends the printing with an `IndexError`: neither its line nor any later one is printed. -/
theorem C300_empty_array (name : String) (indent : ℕ) (before after : ShownDict) (k dtype shape : String) (h : Spec.ShowableDict before) :
    printTypes name indent (Spec.appended before (.cons k (.array dtype shape none) after)) =
      ((printTypes name indent before).1, some .indexError) := by
  revert h
  induction before using ShownDict.rec (motive_1 := fun _ => True) with
  | array => trivial
  | dict => trivial
  | object => trivial
  | other => trivial
  | nil => intro _; rfl
  | cons k' v rest _ ih =>
    intro h
    have hv := (printShown_ok name k' indent v).2 h.1
    simp only [Spec.appended, printTypes]
    rcases hp : printShown name k' indent v with ⟨l, _ | e⟩
    · simp only [ih h.2]
    · rw [hp] at hv
      exact absurd hv (by simp)

/-- **C300.** The lines do not show the structure: a dictionary inside its namesake prints the same lines whether the last entry is in the inner or in
the outer one, because the names are always indented by the same two blanks. -/
theorem C300_ambiguous (name key m t : String) (indent : ℕ) :
    ∃ d d' : ShownDict, d ≠ d' ∧ Spec.ShowableDict d ∧ Spec.ShowableDict d' ∧
      d = .cons key (.dict (.cons key (.dict .nil) (.cons m (.other t) .nil))) .nil ∧
      d' = .cons key (.dict (.cons key (.dict (.cons m (.other t) .nil)) .nil)) .nil ∧
      printTypes name indent d = printTypes name indent d' := by
  refine ⟨_, _, ?_, ?_, ?_, rfl, rfl, ?_⟩
  · simp
  · simp [Spec.ShowableDict, Spec.Showable]
  · simp [Spec.ShowableDict, Spec.Showable]
  · simp only [printTypes, printShown]
    rfl

example : (printTypes "d" 1 (.cons "k" (.dict (.cons "k" (.dict .nil) (.cons "m" (.other "<class 'int'>") .nil))) .nil)).1 =
    ["d[k]  : <class 'dict'>", "  k[k]  : <class 'dict'>", "  k[m]  : <class 'int'>"] := by decide +kernel

example : Spec.ShowableDict (.cons "k" (.dict (.cons "a" (.array "float64" "(2,)" (some ("<class 'numpy.float64'>", none))) .nil)) .nil) :=
  ⟨⟨by show (some _ : Option (String × Option String)) ≠ none; simp, trivial⟩, trivial⟩

example : printTypes "d" 1 (.cons "k" (.other "<class 'int'>") (.cons "a" (.array "float64" "(0,)" none) (.cons "b" (.other "x") .nil))) =
    (["d[k]  : <class 'int'>"], some .indexError) := by decide +kernel

end PyFHD
