import Verif.Model.SavImport
import Verif.Props.Quickview
import Verif.Props.Tightened

/-!
# Reading IDL files (C182 to C189)
-/

namespace PyFHD

namespace Spec

/-- Indices within a shape. -/
def InShape (s l : List ℕ) : Prop := List.Forall₂ (fun i n : ℕ => i < n) l s

/-- A variable of an IDL structure: a number, a string, an array of numbers, an array of strings, a structure, an array of pointers to
arrays of numbers. -/
inductive Idl
  | num (isInt : Bool) (v : Option ℚ)
  | str (s : List Char)
  | nums (a : NumArr)
  | strs (l : List (List Char))
  | struct (fields : List (List Char × Idl))
  | ptrs (l : List NumArr)

mutual
/-- The column of a record array with one record in which `readsav` puts the variable. -/
def Idl.column : Idl → Sav
  | .num i v => .nums ⟨⟨[1], fun _ => v⟩, i⟩
  | .str s => .objs [.bytes s]
  | .nums a => .objs [.nums a]
  | .strs l => .objs [.objs (l.map .bytes)]
  | .struct fs => .objs [.recs (columns fs)]
  | .ptrs l => .objs [.objs (l.map .nums)]
/-- The columns of a structure. -/
def columns : List (List Char × Idl) → List (List Char × Sav)
  | [] => []
  | (n, x) :: rest => (n, x.column) :: columns rest
end

mutual
/-- Variables that IDL can hold: no empty arrays; here the arrays behind pointers have one shape and one type. -/
def Idl.Valid : Idl → Prop
  | .num _ _ => True
  | .str _ => True
  | .nums a => a.size ≠ 0
  | .strs l => l ≠ []
  | .struct fs => validFields fs
  | .ptrs l => l ≠ [] ∧ ∃ s i, ∀ a ∈ l, a.shape = s ∧ a.isInt = i ∧ (i = true → ∀ k v, a.entry k = some v → v.den = 1)
/-- All variables of a structure. -/
def validFields : List (List Char × Idl) → Prop
  | [] => True
  | (_, x) :: rest => x.Valid ∧ validFields rest
end

/-- The same entries within the shape. -/
def SameArray (a b : NumArr) : Prop :=
  a.shape = b.shape ∧ a.isInt = b.isInt ∧ ∀ l, InShape a.shape l → a.entry l = b.entry l

mutual
/-- What one expects of a variable in a dictionary. -/
def Idl.Becomes : Idl → SavOut → Prop
  | .num i v, .num j w => i = j ∧ v = w
  | .str s, .text t => s = t
  | .nums a, .arr b => SameArray a b
  | .strs l, .strs m => m = l.map stripChars
  | .struct fs, .dict gs => fieldsBecome fs gs
  | .ptrs l, .arr b => ∃ a ∈ l, b.shape = l.length :: a.shape ∧ b.isInt = a.isInt ∧
      ∀ i k, InShape a.shape k → ∀ c, l[i]? = some c → b.entry (i :: k) = c.entry k
  | _, _ => False
/-- Structure by structure: the names in lower case, in the same order. -/
def fieldsBecome : List (List Char × Idl) → List (List Char × SavOut) → Prop
  | [], [] => True
  | (n, x) :: fs, (m, y) :: gs => m = n.map Char.toLower ∧ x.Becomes y ∧ fieldsBecome fs gs
  | _, _ => False
end

end Spec

open Spec

/-! ## Broadcasting -/

theorem zipWith_inShape (s l : List ℕ) (h : InShape s l) :
    List.zipWith (fun i m : ℕ => if m = 1 then 0 else i) l s = l := by
  induction h with
  | nil => rfl
  | @cons i n _ _ hi _ ih =>
    rw [List.zipWith_cons_cons, ih]
    split_ifs with h1
    · have : i = 0 := by omega
      rw [this]
    · rfl

theorem zipWith_ok (s : List ℕ) :
    (List.zipWith (fun n m : ℕ => decide (m = n ∨ m = 1)) s s).all id = true := by
  induction s with
  | nil => rfl
  | cons a s ih => simp

theorem broadcast_same {α : Type} (a : Nd α) :
    ∃ b, a.broadcastTo a.shape = some b ∧ b.shape = a.shape ∧ ∀ l, InShape a.shape l → b.entry l = a.entry l := by
  unfold Nd.broadcastTo
  simp only [Nat.sub_self, List.replicate_zero, List.nil_append, List.drop_zero, List.take_zero]
  rw [if_pos ⟨rfl, zipWith_ok _⟩]
  refine ⟨_, rfl, rfl, fun l hl => ?_⟩
  simp only []
  rw [zipWith_inShape _ _ hl]

/-! ## C182: model visibilities of a file -/

/-- The array in a file. -/
def SavVis.array {K : Type} : SavVis K → Nd K
  | .plain a => a
  | .pointer a => a

theorem readPol_ok {K : Type} (files : List Char → Option (SavVis K)) (polNames : List (List Char)) (p : ℕ) (name : List Char)
    (hn : polNames[p]? = some name) (v : SavVis K) (hv : files name = some v) (h1 : ∀ a, v = .plain a → a.size ≠ 1) :
    readPol files polNames p = .ok v.array.transpose := by
  unfold readPol
  rw [hn]
  simp only [hv]
  cases v with
  | pointer a => rfl
  | plain a =>
    simp only [SavVis.unpack, if_neg (h1 a rfl)]
    rfl

theorem importSav_ok {K P : Type} [Inhabited K] (params : Option P) (files : List Char → Option (SavVis K))
    (polNames : List (List Char)) (nPol : ℕ) (M : Nd K) (q : P) (h : importSav params files polNames nPol = .ok (M, q)) :
    0 < nPol ∧ params = some q ∧ ∃ first, readPol files polNames 0 = .ok first ∧ M.shape = nPol :: first.shape ∧
      (∀ l, M.entry (0 :: l) = first.entry l) ∧
      ∀ p, 0 < p → p < nPol → ∃ a b, readPol files polNames p = .ok a ∧ a.broadcastTo first.shape = some b ∧
        ∀ l, M.entry (p :: l) = b.entry l := by
  unfold importSav at h
  cases params with
  | none => cases h
  | some q' =>
    simp only [] at h
    cases hf : readPol files polNames 0 with
    | error e => rw [hf] at h; cases h
    | ok first =>
      rw [hf] at h
      simp only [] at h
      split_ifs at h with h0
      cases hm : (List.range' 1 (nPol - 1)).mapM fun p => (readPol files polNames p).bind (assignPol first.shape) with
      | error e => rw [hm] at h; cases h
      | ok rest =>
        rw [hm] at h
        simp only [Except.ok.injEq, Prod.mk.injEq] at h
        obtain ⟨rfl, rfl⟩ := h
        refine ⟨by omega, rfl, first, rfl, rfl, fun l => rfl, ?_⟩
        intro p hp hp'
        obtain ⟨hl, hg⟩ := mapM_range_ok _ _ _ hm
        obtain ⟨b, hb, hfb⟩ := hg (p - 1) (by rw [List.length_range']; omega)
        rw [List.getElem_range', show 1 + 1 * (p - 1) = p by omega] at hfb
        cases ha : readPol files polNames p with
        | error e => rw [ha] at hfb; cases hfb
        | ok a =>
          rw [ha] at hfb
          simp only [Except.bind, assignPol] at hfb
          cases hbb : a.broadcastTo first.shape with
          | none => rw [hbb] at hfb; cases hfb
          | some b' =>
            rw [hbb] at hfb
            obtain rfl := Except.ok.inj hfb
            refine ⟨a, b', rfl, hbb, fun l => ?_⟩
            simp only [List.headD_cons, List.tail_cons]
            obtain ⟨k, rfl⟩ : ∃ k, p = k + 1 := ⟨p - 1, by omega⟩
            rw [List.getElem?_cons_succ]
            rw [Nat.add_sub_cancel] at hb
            rw [hb]
            rfl

theorem mapM_exists {α β : Type} (f : α → Py β) (l : List α) (h : ∀ x ∈ l, ∃ v, f x = .ok v) : ∃ r, l.mapM f = .ok r := by
  induction l with
  | nil => exact ⟨[], rfl⟩
  | cons a l ih =>
    obtain ⟨v, hv⟩ := h a (by simp)
    obtain ⟨r, hr⟩ := ih fun x hx => h x (List.mem_cons_of_mem _ hx)
    refine ⟨v :: r, ?_⟩
    rw [List.mapM_cons, hv, hr]
    rfl

namespace Spec

/-- The files of the first `nPol` polarisations are there, and `arr p` is the array in that of polarisation `p`: behind a pointer, or of
more or less than one number. -/
def HasFiles {K : Type} (files : List Char → Option (SavVis K)) (polNames : List (List Char)) (nPol : ℕ) (arr : ℕ → Nd K) : Prop :=
  ∀ p < nPol, ∃ name v, polNames[p]? = some name ∧ files name = some v ∧ v.array = arr p ∧ ∀ a, v = .plain a → a.size ≠ 1

end Spec

theorem readPol_of {K : Type} {files : List Char → Option (SavVis K)} {polNames : List (List Char)} {nPol : ℕ} {arr : ℕ → Nd K}
    (h : HasFiles files polNames nPol arr) (p : ℕ) (hp : p < nPol) : readPol files polNames p = .ok (arr p).transpose := by
  obtain ⟨name, v, hn, hv, ha, h1⟩ := h p hp
  rw [readPol_ok files polNames p name hn v hv h1, ha]

theorem broadcast_two {α : Type} (n m n' m' : ℕ) (e : List ℕ → α) (h1 : n' = n ∨ n' = 1) (h2 : m' = m ∨ m' = 1) :
    ∃ b, (⟨[n', m'], e⟩ : Nd α).broadcastTo [n, m] = some b ∧
      ∀ i j, b.entry [i, j] = e [if n' = 1 then 0 else i, if m' = 1 then 0 else j] := by
  unfold Nd.broadcastTo
  simp only [List.length_cons, List.length_nil, Nat.sub_self, List.replicate_zero, List.nil_append, List.drop_zero, List.take_zero]
  rw [if_pos]
  · exact ⟨_, rfl, fun i j => rfl⟩
  · refine ⟨rfl, ?_⟩
    simp [h1, h2]

theorem broadcast_two_none {α : Type} (n m n' m' : ℕ) (e : List ℕ → α) (h : ¬((n' = n ∨ n' = 1) ∧ (m' = m ∨ m' = 1))) :
    (⟨[n', m'], e⟩ : Nd α).broadcastTo [n, m] = none := by
  unfold Nd.broadcastTo
  simp only [List.length_cons, List.length_nil, Nat.sub_self, List.replicate_zero, List.nil_append, List.drop_zero, List.take_zero]
  rw [if_neg]
  rintro ⟨-, hb⟩
  apply h
  simpa using hb

/-- **C183 is violated** for IDL files: a polarisation whose file has one baseline or one channel only is accepted, and its one
value is repeated for all baselines or channels of the first polarisation. -/
theorem C183_repeated {K P : Type} [Inhabited K] (q : P) (files : List Char → Option (SavVis K)) (polNames : List (List Char))
    (nPol : ℕ) (h0 : 0 < nPol) (arr : ℕ → Nd K) (hf : HasFiles files polNames nPol arr) (nb nf : ℕ) (nbs nfs : ℕ → ℕ)
    (hfirst : nbs 0 = nb ∧ nfs 0 = nf) (hshape : ∀ p < nPol, (arr p).shape = [nbs p, nfs p])
    (hfit : ∀ p < nPol, (nbs p = nb ∨ nbs p = 1) ∧ (nfs p = nf ∨ nfs p = 1)) :
    ∃ M, importSav (some q) files polNames nPol = .ok (M, q) ∧ M.shape = [nPol, nf, nb] ∧
      ∀ p < nPol, ∀ f < nf, ∀ b < nb,
        M.entry [p, f, b] = (arr p).entry [if nbs p = 1 then 0 else b, if nfs p = 1 then 0 else f] := by
  have hr := fun p hp => readPol_of hf p hp
  have hs0 : ((arr 0).transpose).shape = [nf, nb] := by
    unfold Nd.transpose
    rw [hshape 0 h0, hfirst.1, hfirst.2]
    rfl
  have hb : ∀ p < nPol, ∃ b, ((arr p).transpose).broadcastTo [nf, nb] = some b ∧
      ∀ i j, b.entry [i, j] = (arr p).entry [if nbs p = 1 then 0 else j, if nfs p = 1 then 0 else i] := by
    intro p hp
    obtain ⟨b, h1, h2⟩ := broadcast_two nf nb (nfs p) (nbs p) (fun l => (arr p).entry l.reverse) (hfit p hp).2 (hfit p hp).1
    refine ⟨b, ?_, fun i j => h2 i j⟩
    rw [← h1]
    unfold Nd.transpose
    rw [hshape p hp]
    rfl
  have hok : ∃ M, importSav (some q) files polNames nPol = .ok (M, q) := by
    unfold importSav
    simp only [hr 0 h0, if_neg (by omega : ¬nPol = 0)]
    obtain ⟨r, hrr⟩ := mapM_exists (fun p => (readPol files polNames p).bind (assignPol ((arr 0).transpose).shape))
      (List.range' 1 (nPol - 1)) (by
        intro p hp
        rw [List.mem_range'_1] at hp
        obtain ⟨b, h1, -⟩ := hb p (by omega)
        refine ⟨b, ?_⟩
        rw [hr p (by omega)]
        simp only [Except.bind, assignPol, hs0, h1])
    rw [hrr]
    exact ⟨_, rfl⟩
  obtain ⟨M, hM⟩ := hok
  obtain ⟨-, -, first, e1, e2, e3, e4⟩ := importSav_ok _ _ _ _ _ _ hM
  rw [hr 0 h0] at e1
  obtain rfl := Except.ok.inj e1
  refine ⟨M, hM, by rw [e2, hs0], ?_⟩
  intro p hp f hfl b hbl
  rcases Nat.eq_zero_or_pos p with rfl | hpos
  · rw [e3]
    unfold Nd.transpose
    simp only [List.reverse_cons, List.reverse_nil, List.nil_append, List.singleton_append]
    rw [hfirst.1, hfirst.2]
    congr 2
    · split_ifs <;> omega
    · congr 1
      split_ifs <;> omega
  · obtain ⟨a, b', a1, a2, a3⟩ := e4 p hpos hp
    rw [hr p hp] at a1
    obtain rfl := Except.ok.inj a1
    obtain ⟨b'', c1, c2⟩ := hb p hp
    rw [hs0, c1] at a2
    obtain rfl := Option.some.inj a2
    rw [a3, c2]

/-- **C182**: with a file for every polarisation, all of the same shape and of more than one number or behind a pointer, the entry of
polarisation `p`, channel `f` and baseline `b` is that of baseline `b` and channel `f` in the file of polarisation `p`. -/
theorem C182_entries_partial {K P : Type} [Inhabited K] (q : P) (files : List Char → Option (SavVis K)) (polNames : List (List Char))
    (nPol : ℕ) (h0 : 0 < nPol) (arr : ℕ → Nd K) (hf : HasFiles files polNames nPol arr) (nb nf : ℕ)
    (hshape : ∀ p < nPol, (arr p).shape = [nb, nf]) :
    ∃ M, importSav (some q) files polNames nPol = .ok (M, q) ∧ M.shape = [nPol, nf, nb] ∧
      ∀ p < nPol, ∀ f < nf, ∀ b < nb, M.entry [p, f, b] = (arr p).entry [b, f] := by
  obtain ⟨M, h1, h2, h3⟩ := C183_repeated q files polNames nPol h0 arr hf nb nf (fun _ => nb) (fun _ => nf) ⟨rfl, rfl⟩ hshape
    (fun p _ => ⟨Or.inl rfl, Or.inl rfl⟩)
  refine ⟨M, h1, h2, fun p hp f hfl b hbl => ?_⟩
  rw [h3 p hp f hfl b hbl]
  congr 2
  · split_ifs <;> omega
  · congr 1
    split_ifs <;> omega

/-- A result means that all files were there. -/
theorem C182_files_needed {K P : Type} [Inhabited K] (params : Option P) (files : List Char → Option (SavVis K))
    (polNames : List (List Char)) (nPol : ℕ) (M : Nd K) (q : P) (h : importSav params files polNames nPol = .ok (M, q)) :
    params = some q ∧ ∀ p < nPol, ∃ name v, polNames[p]? = some name ∧ files name = some v := by
  obtain ⟨-, h1, first, e1, -, -, e4⟩ := importSav_ok _ _ _ _ _ _ h
  refine ⟨h1, fun p hp => ?_⟩
  have : ∃ a, readPol files polNames p = .ok a := by
    rcases Nat.eq_zero_or_pos p with rfl | hpos
    · exact ⟨_, e1⟩
    · obtain ⟨a, _, a1, _⟩ := e4 p hpos hp
      exact ⟨a, a1⟩
  obtain ⟨a, ha⟩ := this
  unfold readPol at ha
  split at ha
  · cases ha
  · rename_i name hn
    split at ha
    · cases ha
    · rename_i v hv
      exact ⟨name, v, hn, hv⟩

/-- A missing file of the first polarisation or of the parameters ends the run. -/
theorem C182_missing_ends {K P : Type} [Inhabited K] (params : Option P) (files : List Char → Option (SavVis K))
    (polNames : List (List Char)) (nPol : ℕ) (name : List Char) (hn : polNames[0]? = some name)
    (h : params = none ∨ files name = none) : importSav params files polNames nPol = .error .systemExit := by
  unfold importSav
  cases params with
  | none => rfl
  | some q =>
    rcases h with h | h
    · cases h
    · simp only [readPol, hn, h]

/-- **C182 fails** for one baseline and one channel: an array of one number loses an axis. -/
theorem C182_one_number_loses_axis {K P : Type} [Inhabited K] (q : P) (files : List Char → Option (SavVis K))
    (polNames : List (List Char)) (nPol : ℕ) (h0 : 0 < nPol)
    (hf : ∀ p < nPol, ∃ name e, polNames[p]? = some name ∧ files name = some (.plain ⟨[1, 1], e⟩)) :
    ∃ M, importSav (some q) files polNames nPol = .ok (M, q) ∧ M.shape = [nPol, 1] := by
  have hr : ∀ p < nPol, ∃ e, readPol files polNames p = .ok ⟨[1], e⟩ := by
    intro p hp
    obtain ⟨name, e, hn, hv⟩ := hf p hp
    refine ⟨fun l => e (0 :: l.reverse), ?_⟩
    simp [readPol, hn, hv, SavVis.unpack, Nd.size, Nd.row, Nd.transpose]
  obtain ⟨e, he⟩ := hr 0 h0
  have hok : ∃ M, importSav (some q) files polNames nPol = .ok (M, q) := by
    unfold importSav
    simp only [he, if_neg (by omega : ¬nPol = 0)]
    obtain ⟨r, hrr⟩ := mapM_exists (fun p => (readPol files polNames p).bind (assignPol [1]))
      (List.range' 1 (nPol - 1)) (by
        intro p hp
        rw [List.mem_range'_1] at hp
        obtain ⟨e', h'⟩ := hr p (by omega)
        obtain ⟨b, h1, -⟩ := broadcast_same (⟨[1], e'⟩ : Nd K)
        refine ⟨b, ?_⟩
        rw [h']
        simp only [Except.bind, assignPol, h1])
    rw [hrr]
    exact ⟨_, rfl⟩
  obtain ⟨M, hM⟩ := hok
  obtain ⟨-, -, first, e1, e2, -⟩ := importSav_ok _ _ _ _ _ _ hM
  rw [he] at e1
  obtain rfl := Except.ok.inj e1
  exact ⟨M, hM, e2⟩

/-! ## C183: models that do not fit -/

/-- A polarisation with another number of baselines or channels than the first, other than one, is refused. -/
theorem C183_other_shape_refused_partial {K P : Type} [Inhabited K] (q : P) (files : List Char → Option (SavVis K))
    (polNames : List (List Char)) (nPol : ℕ) (arr : ℕ → Nd K) (hf : HasFiles files polNames nPol arr)
    (nbs nfs : ℕ → ℕ) (hshape : ∀ p < nPol, (arr p).shape = [nbs p, nfs p]) (p : ℕ) (hp0 : 0 < p) (hp : p < nPol)
    (hbad : (nbs p ≠ nbs 0 ∧ nbs p ≠ 1) ∨ (nfs p ≠ nfs 0 ∧ nfs p ≠ 1)) :
    importSav (some q) files polNames nPol = .error .valueError := by
  have hr := fun p hp => readPol_of hf p hp
  have ht : ∀ p < nPol, (arr p).transpose = ⟨[nfs p, nbs p], fun l => (arr p).entry l.reverse⟩ := by
    intro p hp
    unfold Nd.transpose
    rw [hshape p hp]
    rfl
  unfold importSav
  simp only [hr 0 (by omega), if_neg (by omega : ¬nPol = 0)]
  have : ((List.range' 1 (nPol - 1)).mapM fun p => (readPol files polNames p).bind (assignPol ((arr 0).transpose).shape)) =
      .error .valueError := by
    apply mapM_error_kind _ _ _ _ p (by rw [List.mem_range'_1]; omega)
    · rw [hr p hp, ht p hp, ht 0 (by omega)]
      simp only [Except.bind, assignPol]
      rw [broadcast_two_none _ _ _ _ _ (by tauto)]
    · intro i hi
      rw [List.mem_range'_1] at hi
      rw [hr i (by omega)]
      simp only [Except.bind, assignPol]
      cases ((arr i).transpose).broadcastTo ((arr 0).transpose).shape with
      | none => exact Or.inr rfl
      | some b => exact Or.inl ⟨b, rfl⟩
  rw [this]

/-- **C183 is violated** for IDL files: whatever the number of channels of the observation, a model with `nf` channels is returned. -/
theorem C183_sav_channels_unchecked {K P : Type} [Inhabited K] (q : P) (files : List Char → Option (SavVis K))
    (polNames : List (List Char)) (nPol : ℕ) (h0 : 0 < nPol) (arr : ℕ → Nd K) (hf : HasFiles files polNames nPol arr) (nb nf : ℕ)
    (hshape : ∀ p < nPol, (arr p).shape = [nb, nf]) (nFreq : ℕ) (u : Py (ℕ × Py (Nd K × P))) :
    ∃ M, visModelTransfer "sav".toList nFreq (importSav (some q) files polNames nPol) u = .ok (M, q) ∧ M.shape = [nPol, nf, nb] := by
  obtain ⟨M, h1, h2, -⟩ := C182_entries_partial q files polNames nPol h0 arr hf nb nf hshape
  refine ⟨M, ?_, h2⟩
  unfold visModelTransfer
  rw [if_pos rfl, h1]

/-- For a uvfits file another number of channels ends the run, and the right one gives what the file holds. -/
theorem C183_uvfits_partial {V : Type} (n m : ℕ) (sav v : Py V) :
    visModelTransfer "uvfits".toList n sav (.ok (m, v)) = if m = n then v else .error .systemExit := by
  unfold visModelTransfer
  rw [if_neg (by decide), if_pos rfl]
  by_cases h : m = n <;> simp [h]

/-- Any other type of file ends the run. -/
theorem C183_other_type {V : Type} (t : List Char) (h1 : t ≠ "sav".toList) (h2 : t ≠ "uvfits".toList) (n : ℕ) (sav : Py V)
    (u : Py (ℕ × Py V)) : visModelTransfer t n sav u = .error .systemExit := by
  unfold visModelTransfer
  rw [if_neg h1, if_neg h2]

/-! ## C184: structures become dictionaries -/

theorem castTo_int (i : Bool) (v : Option ℚ) (h : i = true → ∀ q, v = some q → q.den = 1) : castTo i v = v := by
  unfold castTo
  cases i with
  | false => rfl
  | true =>
    cases v with
    | none => rfl
    | some q =>
      have hq := h rfl q rfl
      have e : ((q.num : ℤ) : ℚ) = q := Rat.coe_int_num_of_den_eq_one hq
      simp only [if_true, Option.map_some]
      rw [← e]
      simp

theorem stackRow_same (a b : NumArr) (hs : b.shape = a.shape)
    (hi : a.isInt = true → ∀ k v, b.entry k = some v → v.den = 1) :
    ∃ r, stackRow a (.nums b) = some r ∧ ∀ k, InShape a.shape k → r.entry k = b.entry k := by
  obtain ⟨c, h1, h2, h3⟩ := broadcast_same b.toNd
  simp only [stackRow, ← hs]
  rw [h1]
  refine ⟨_, rfl, fun k hk => ?_⟩
  simp only []
  rw [h3 k hk]
  exact castTo_int _ _ fun h q hq => hi h k q hq

theorem mapM_option {α β : Type} (f : α → Option β) (P : α → β → Prop) :
    ∀ l : List α, (∀ x ∈ l, ∃ y, f x = some y ∧ P x y) →
      ∃ r, l.mapM f = some r ∧ r.length = l.length ∧ ∀ (i : ℕ) (x : α), l[i]? = some x → ∃ y, r[i]? = some y ∧ P x y := by
  intro l
  induction l with
  | nil => intro _; exact ⟨[], rfl, rfl, by simp⟩
  | cons a l ih =>
    intro h
    obtain ⟨y, hy, hP⟩ := h a (by simp)
    obtain ⟨r, h1, h2, h3⟩ := ih fun x hx => h x (List.mem_cons_of_mem _ hx)
    refine ⟨y :: r, by rw [List.mapM_cons, hy, h1]; rfl, by simp [h2], ?_⟩
    intro i x hi
    cases i with
    | zero =>
      rw [List.getElem?_cons_zero] at hi
      obtain rfl := Option.some.inj hi
      exact ⟨y, rfl, hP⟩
    | succ i =>
      rw [List.getElem?_cons_succ] at hi
      exact h3 i x hi

theorem decodeAll_bytes (l : List (List Char)) : decodeAll (l.map .bytes) = .ok (l.map stripChars) := by
  unfold decodeAll
  induction l with
  | nil => rfl
  | cons a l ih =>
    rw [List.map_cons, List.mapM_cons, ih]
    rfl

theorem stackArrays_same (a : NumArr) (l : List NumArr) (ha : a ∈ l) (s : List ℕ) (i : Bool)
    (h : ∀ b ∈ l, b.shape = s ∧ b.isInt = i ∧ (i = true → ∀ k v, b.entry k = some v → v.den = 1)) :
    ∃ b, stackArrays a (l.map .nums) = .arr b ∧ b.shape = l.length :: a.shape ∧ b.isInt = a.isInt ∧
      ∀ j k, InShape a.shape k → ∀ c, l[j]? = some c → b.entry (j :: k) = c.entry k := by
  have hnn : (l.map Sav.nums).map Sav.noNull = l.map Sav.nums := by
    rw [List.map_map]
    rfl
  obtain ⟨r, h1, h2, h3⟩ := mapM_option (stackRow a)
    (fun (x : Sav) r => ∀ c, x = .nums c → ∀ k, InShape a.shape k → r.entry k = c.entry k) (l.map .nums) (by
      intro x hx
      obtain ⟨b, hb, rfl⟩ := List.mem_map.1 hx
      obtain ⟨e1, e2, e3⟩ := h b hb
      obtain ⟨f1, f2, -⟩ := h a ha
      obtain ⟨r, hr1, hr2⟩ := stackRow_same a b (by rw [e1, f1]) (by rw [f2]; exact e3)
      refine ⟨r, hr1, fun c hc k hk => ?_⟩
      obtain rfl := Sav.nums.inj hc
      exact hr2 k hk)
  unfold stackArrays
  rw [hnn, h1]
  refine ⟨_, rfl, by simp, rfl, ?_⟩
  intro j k hk c hc
  obtain ⟨y, hy, hP⟩ := h3 j (.nums c) (by rw [List.getElem?_map, hc]; rfl)
  simp only [List.headD_cons, List.tail_cons, hy, Option.map_some, Option.getD_some]
  exact hP c rfl k hk

theorem sameArray_refl (a : NumArr) : SameArray a a := ⟨rfl, rfl, fun _ _ => rfl⟩

mutual
theorem column_converts : ∀ (x : Idl), x.Valid → ∀ (n : List Char) (rest : List (List Char × Sav)) (r : List (List Char × SavOut)),
    convertFields rest = .ok r → ∃ v, convertFields ((n, x.column) :: rest) = .ok ((n.map Char.toLower, v) :: r) ∧ x.Becomes v
  | .num i v, _, n, rest, r, h => by
    refine ⟨.num i v, ?_, ⟨rfl, rfl⟩⟩
    simp [Idl.column, convertFields, Sav.unpack, Nd.size, h]
  | .str s, _, n, rest, r, h => by
    refine ⟨.text s, ?_, rfl⟩
    simp [Idl.column, convertFields, Sav.convert, h]
  | .nums a, hv, n, rest, r, h => by
    refine ⟨.arr a, ?_, sameArray_refl a⟩
    have : a.size ≠ 0 := hv
    simp [Idl.column, convertFields, Sav.convert, h, this]
  | .strs l, hv, n, rest, r, h => by
    refine ⟨.strs (l.map stripChars), ?_, rfl⟩
    have hd := decodeAll_bytes l
    cases l with
    | nil => exact absurd rfl hv
    | cons a l =>
      simp only [Idl.column, List.map_cons, convertFields, Sav.convert]
      rw [List.map_cons] at hd
      rw [hd, h]
      rfl
  | .struct fs, hv, n, rest, r, h => by
    obtain ⟨gs, h1, h2⟩ := columns_convert fs hv
    refine ⟨.dict gs, ?_, h2⟩
    simp only [Idl.column, convertFields, Sav.convert, h1, h]
    rfl
  | .ptrs l, hv, n, rest, r, h => by
    obtain ⟨hne, s, i, hall⟩ := hv
    cases l with
    | nil => exact absurd rfl hne
    | cons a l =>
      obtain ⟨b, h1, h2, h3, h4⟩ := stackArrays_same a (a :: l) (by simp) s i hall
      refine ⟨.arr b, ?_, ⟨a, by simp, h2, h3, h4⟩⟩
      simp only [Idl.column, List.map_cons, convertFields, Sav.convert]
      rw [List.map_cons] at h1
      rw [h1, h]
theorem columns_convert : ∀ (fs : List (List Char × Idl)), validFields fs →
    ∃ gs, convertFields (columns fs) = .ok gs ∧ fieldsBecome fs gs
  | [], _ => ⟨[], by simp [columns, convertFields], trivial⟩
  | (n, x) :: fs, hv => by
    obtain ⟨gs, h1, h2⟩ := columns_convert fs hv.2
    obtain ⟨v, h3, h4⟩ := column_converts x hv.1 n (columns fs) gs h1
    exact ⟨(n.map Char.toLower, v) :: gs, by simp only [columns]; exact h3, ⟨rfl, h4, h2⟩⟩
end

/-- **C184**: a structure, of any depth, becomes a dictionary with the names in lower case, in which structures are dictionaries,
numbers numbers, strings strings, arrays the same arrays, and arrays of pointers to arrays of one shape and type one array. -/
theorem C184_structures (fs : List (List Char × Idl)) (hv : validFields fs) :
    ∃ gs, recarrayToDict (columns fs) = .ok (.dict gs) ∧ fieldsBecome fs gs := by
  obtain ⟨gs, h1, h2⟩ := columns_convert fs hv
  refine ⟨gs, ?_, h2⟩
  unfold recarrayToDict
  rw [h1]
  rfl

/-- Arrays without entries, and empty object arrays, raise. -/
theorem C184_empty_raises (n : List Char) (a : NumArr) (ha : a.size = 0) (rest : List (List Char × Sav)) :
    recarrayToDict ((n, .objs [.nums a]) :: rest) = .error .indexError ∧ recarrayToDict ((n, .objs []) :: rest) = .error .indexError := by
  constructor
  · unfold recarrayToDict
    simp [convertFields, Sav.convert, ha, Except.map]
  · unfold recarrayToDict
    simp [convertFields, Sav.convert, Sav.unpack, Except.map]

/-! ## C185: arrays of structures -/

/-- **C185 is violated**: of an array of structures within a structure, or of a field that is a structure in an array of structures,
the first record is kept and the others have no influence on the result. -/
theorem C185_later_records_lost (n : List Char) (fs : List (List Char × Sav)) (x : Sav) (xs : List Sav) (rest : List (List Char × Sav)) :
    convertFields ((n, .objs (.recs fs :: x :: xs)) :: rest) = convertFields ((n, .objs [.recs fs]) :: rest) := by
  simp only [convertFields, Sav.unpack, Sav.convert]

/-- Numbers of an array of structures are kept: the field is the array of the numbers of all records. -/
theorem C185_numbers_kept_partial (n : List Char) (a : NumArr) (hs : 2 ≤ a.size) (rest : List (List Char × Sav))
    (r : List (List Char × SavOut)) (hr : convertFields rest = .ok r) :
    convertFields ((n, .nums a) :: rest) = .ok ((n.map Char.toLower, .arr a) :: r) := by
  have h1 : a.size ≠ 1 := by omega
  have h0 : a.size ≠ 0 := by omega
  simp [convertFields, Sav.unpack, h1, h0, hr]

/-! ## C186: padding of strings -/

namespace Spec

/-- `t` is `s` without white space around it. -/
def Stripped (s t : List Char) : Prop :=
  (∃ u v, s = u ++ t ++ v ∧ (∀ c ∈ u, c.isWhitespace = true) ∧ ∀ c ∈ v, c.isWhitespace = true) ∧
  (∀ c, t.head? = some c → c.isWhitespace = false) ∧ ∀ c, t.getLast? = some c → c.isWhitespace = false

end Spec

theorem dropWhile_split (s : List Char) : ∃ u, s = u ++ s.dropWhile Char.isWhitespace ∧ ∀ c ∈ u, c.isWhitespace = true :=
  ⟨s.takeWhile Char.isWhitespace, (List.takeWhile_append_dropWhile).symm, fun _ hc => (List.all_eq_true.1 (List.all_takeWhile)) _ hc⟩

theorem dropWhile_head (s : List Char) (c : Char) (h : (s.dropWhile Char.isWhitespace).head? = some c) : c.isWhitespace = false := by
  have := List.head?_dropWhile_not Char.isWhitespace s
  rw [h] at this
  simpa using this

theorem stripChars_spec (s : List Char) : Stripped s (stripChars s) := by
  obtain ⟨u, hu, hu'⟩ := dropWhile_split s
  set a := s.dropWhile Char.isWhitespace with ha
  obtain ⟨v, hv, hv'⟩ := dropWhile_split a.reverse
  have hst : stripChars s = (a.reverse.dropWhile Char.isWhitespace).reverse := rfl
  have hav : a = stripChars s ++ v.reverse := by
    have := congrArg List.reverse hv
    rw [List.reverse_reverse, List.reverse_append] at this
    rw [hst]
    exact this
  refine ⟨⟨u, v.reverse, ?_, hu', fun c hc => hv' c (List.mem_reverse.1 hc)⟩, ?_, ?_⟩
  · rw [List.append_assoc, ← hav]
    exact hu
  · intro c hc
    apply dropWhile_head s c
    rw [← ha, hav]
    rw [List.head?_append, hc]
    rfl
  · intro c hc
    apply dropWhile_head a.reverse c
    rw [hst, List.getLast?_reverse] at hc
    exact hc

/-- **C186**, for arrays: every string of an array of strings loses the white space around it. -/
theorem C186_arrays_stripped_partial (n : List Char) (l : List (List Char)) (hl : l ≠ []) :
    ∃ m, recarrayToDict [(n, .objs [.objs (l.map .bytes)])] = .ok (.dict [(n.map Char.toLower, .strs m)]) ∧
      List.Forall₂ Stripped l m := by
  refine ⟨l.map stripChars, ?_, ?_⟩
  · have hd := decodeAll_bytes l
    cases l with
    | nil => exact absurd rfl hl
    | cons a l =>
      unfold recarrayToDict
      simp only [List.map_cons, convertFields, Sav.convert]
      rw [List.map_cons] at hd
      rw [hd]
      rfl
  · rw [List.forall₂_map_right_iff]
    exact List.forall₂_same.2 fun s _ => stripChars_spec s

/-- **C186 is violated**: a single string keeps it. -/
theorem C186_single_kept (n s : List Char) :
    recarrayToDict [(n, .objs [.bytes s])] = .ok (.dict [(n.map Char.toLower, .text s)]) := by
  unfold recarrayToDict
  simp [convertFields, Sav.convert, Except.map]

/-! ## C187: arrays of pointers -/

/-- **C187 is violated**: behind pointers, an array of one number after an array of several is repeated to the length of the first, where
a list of both is expected. -/
theorem C187_repeated (n : List Char) (k : ℕ) (e : List ℕ → Option ℚ) (v : Option ℚ) :
    ∃ b : NumArr, recarrayToDict [(n, .objs [.objs [.nums ⟨⟨[k], e⟩, false⟩, .nums ⟨⟨[1], fun _ => v⟩, false⟩]])] =
        .ok (.dict [(n.map Char.toLower, .arr b)]) ∧ b.shape = [2, k] ∧ ∀ j, b.entry [1, j] = v := by
  obtain ⟨c, h1, -, -⟩ := broadcast_same (⟨[k], e⟩ : Nd (Option ℚ))
  have h2 : ∃ d, (⟨[1], fun _ => v⟩ : Nd (Option ℚ)).broadcastTo [k] = some d ∧ ∀ l, d.entry l = v := by
    unfold Nd.broadcastTo
    simp
  obtain ⟨d, h2, h3⟩ := h2
  refine ⟨⟨⟨[2, k], fun l => (([⟨c.shape, fun l => castTo false (c.entry l)⟩, ⟨d.shape, fun l => castTo false (d.entry l)⟩] :
    List (Nd (Option ℚ)))[l.headD 0]?.map fun r => r.entry l.tail).getD none⟩, false⟩, ?_, rfl, ?_⟩
  · unfold recarrayToDict
    simp [convertFields, Sav.convert, stackArrays, Sav.noNull, stackRow, h1, h2, Except.map]
  · intro j
    simp [castTo, h3]

/-- **C187 is violated**: behind pointers, an array of floats after an array of integers of the same shape loses its fractions:
what is kept is the integer next to it in the direction of zero. -/
theorem C187_truncated (n : List Char) (k : ℕ) (e : List ℕ → Option ℚ) (f : ℕ → ℚ) :
    ∃ b : NumArr, recarrayToDict [(n, .objs [.objs [.nums ⟨⟨[k], e⟩, true⟩, .nums ⟨⟨[k], fun l => some (f (l.head?.getD 0))⟩, false⟩]])] =
        .ok (.dict [(n.map Char.toLower, .arr b)]) ∧ ∀ j < k, ∃ z : ℤ, b.entry [1, j] = some (z : ℚ) ∧ |(z : ℚ)| ≤ |f j| ∧ |f j - z| < 1 := by
  obtain ⟨c, h1, -, -⟩ := broadcast_same (⟨[k], e⟩ : Nd (Option ℚ))
  obtain ⟨d, h2, -, h3⟩ := broadcast_same (⟨[k], fun l => some (f (l.head?.getD 0))⟩ : Nd (Option ℚ))
  refine ⟨⟨⟨[2, k], fun l => (([⟨c.shape, fun l => castTo true (c.entry l)⟩, ⟨d.shape, fun l => castTo true (d.entry l)⟩] :
    List (Nd (Option ℚ)))[l.headD 0]?.map fun r => r.entry l.tail).getD none⟩, true⟩, ?_, ?_⟩
  · unfold recarrayToDict
    simp only [] at h1 h2
    simp [convertFields, Sav.convert, stackArrays, Sav.noNull, stackRow, h1, h2, Except.map]
  · intro j hj
    have := h3 [j] (List.Forall₂.cons hj List.Forall₂.nil)
    by_cases hf : 0 ≤ f j
    · refine ⟨⌊f j⌋, by simp [castTo, this, hf], ?_, ?_⟩
      · rw [abs_of_nonneg (by exact_mod_cast Int.floor_nonneg.2 hf), abs_of_nonneg hf]
        exact Int.floor_le _
      · rw [abs_of_nonneg (by linarith [Int.floor_le (f j)])]
        linarith [Int.lt_floor_add_one (f j)]
    · have hf' : f j < 0 := not_le.1 hf
      have hc : ((⌈f j⌉ : ℤ) : ℚ) ≤ 0 := by
        have : ⌈f j⌉ ≤ 0 := Int.ceil_le.2 (by simpa using hf'.le)
        exact_mod_cast this
      refine ⟨⌈f j⌉, by simp [castTo, this, hf], ?_, ?_⟩
      · rw [abs_of_nonpos hc, abs_of_neg hf']
        linarith [Int.le_ceil (f j)]
      · rw [abs_of_nonpos (by linarith [Int.le_ceil (f j)])]
        linarith [Int.ceil_lt_add_one (f j)]

/-- Arrays of which one cannot be repeated to the shape of the first become a list, with NaN for null pointers. -/
theorem C187_list_partial (n : List Char) (a : NumArr) (xs : List Sav) (x : Sav) (hx : x ∈ xs) (b : NumArr) (hb : x = .nums b)
    (hne : b.broadcastTo a.shape = none) :
    recarrayToDict [(n, .objs [.objs (.nums a :: xs)])] =
      .ok (.dict [(n.map Char.toLower, .lst (.nums a :: xs.map Sav.noNull))]) := by
  have hnone : ((.nums a :: xs : List Sav).map Sav.noNull).mapM (stackRow a) = none := by
    have : stackRow a (.nums b) = none := by simp [stackRow, hne]
    have hmem : Sav.nums b ∈ (.nums a :: xs : List Sav).map Sav.noNull :=
      List.mem_map.2 ⟨x, List.mem_cons_of_mem _ hx, by rw [hb]; rfl⟩
    generalize (Sav.nums a :: xs).map Sav.noNull = l at hmem
    induction l with
    | nil => cases hmem
    | cons y l ih =>
      rw [List.mapM_cons]
      rcases List.mem_cons.1 hmem with h | h
      · rw [← h, this]
        rfl
      · cases stackRow a y with
        | none => rfl
        | some z => rw [ih h]; rfl
  unfold recarrayToDict
  simp only [convertFields, Sav.convert]
  unfold stackArrays
  rw [hnone]
  rfl

/-- A null pointer after an array of floats becomes a row of NaN; after an array of integers, which cannot hold NaN, the result is a list. -/
theorem C187_null_pointer (n : List Char) (k : ℕ) (e : List ℕ → Option ℚ) :
    (∃ b : NumArr, recarrayToDict [(n, .objs [.objs [.nums ⟨⟨[k], e⟩, false⟩, .nul]])] =
      .ok (.dict [(n.map Char.toLower, .arr b)]) ∧ b.shape = [2, k] ∧ (∀ j < k, b.entry [0, j] = e [j]) ∧ ∀ j, b.entry [1, j] = none) ∧
    recarrayToDict [(n, .objs [.objs [.nums ⟨⟨[k], e⟩, true⟩, .nul]])] =
      .ok (.dict [(n.map Char.toLower, .lst [.nums ⟨⟨[k], e⟩, true⟩, .num false none])]) := by
  obtain ⟨c, h1, -, h3⟩ := broadcast_same (⟨[k], e⟩ : Nd (Option ℚ))
  refine ⟨⟨⟨⟨[2, k], fun l => (([⟨c.shape, fun l => castTo false (c.entry l)⟩, ⟨[k], fun _ => castTo false none⟩] :
    List (Nd (Option ℚ)))[l.headD 0]?.map fun r => r.entry l.tail).getD none⟩, false⟩, ?_, rfl, ?_, ?_⟩, ?_⟩
  · unfold recarrayToDict
    simp [convertFields, Sav.convert, stackArrays, Sav.noNull, stackRow, h1, Except.map]
  · intro j hj
    have := h3 [j] (List.Forall₂.cons hj List.Forall₂.nil)
    simp [castTo, this]
  · intro j
    simp [castTo]
  · unfold recarrayToDict
    simp [convertFields, Sav.convert, stackArrays, Sav.noNull, stackRow, h1, Except.map]

/-- A number among arrays of floats is repeated. -/
theorem C187_number_repeated (n : List Char) (k : ℕ) (e : List ℕ → Option ℚ) (i : Bool) (v : ℚ) :
    ∃ b : NumArr, recarrayToDict [(n, .objs [.objs [.nums ⟨⟨[k], e⟩, false⟩, .num i (some v)]])] =
      .ok (.dict [(n.map Char.toLower, .arr b)]) ∧ b.shape = [2, k] ∧ ∀ j, b.entry [1, j] = some v := by
  obtain ⟨c, h1, -, h3⟩ := broadcast_same (⟨[k], e⟩ : Nd (Option ℚ))
  refine ⟨⟨⟨[2, k], fun l => (([⟨c.shape, fun l => castTo false (c.entry l)⟩, ⟨[k], fun _ => castTo false (some v)⟩] :
    List (Nd (Option ℚ)))[l.headD 0]?.map fun r => r.entry l.tail).getD none⟩, false⟩, ?_, rfl, ?_⟩
  · unfold recarrayToDict
    simp [convertFields, Sav.convert, stackArrays, Sav.noNull, stackRow, h1, Except.map]
  · intro j
    simp [castTo]

/-! ## C188: the beam -/

/-- **C188**: of a beam of IDL the kernels of the first baseline are taken, with the polarisation first, and the groups of all baselines;
a copy is written beside the file. -/
theorem C188_first_baseline {B L : Type} (dir stem : List Char) (nb nf np : ℕ) (hb : nb ≠ 0) (beam id : Nd B)
    (h1 : beam.shape = [nb, nf, np]) (h2 : id.shape = [nb, nf, np]) (load : Py L) :
    ∃ P I : Nd B, createPsf dir stem ".sav".toList (.ok (beam, id)) load = .ok (.fromSav P I (dir ++ stem ++ ".h5".toList)) ∧
      P.shape = [np, nf] ∧ I.shape = [np, nf, nb] ∧ (∀ p f, P.entry [p, f] = beam.entry [0, f, p]) ∧
      ∀ p f b, I.entry [p, f, b] = id.entry [b, f, p] := by
  unfold createPsf
  rw [if_pos rfl]
  simp only [Nd.transpose, h1]
  rw [if_neg (by simp [hb])]
  refine ⟨_, _, rfl, by simp, by simp [h2], fun p f => rfl, fun p f b => rfl⟩

/-- HDF5 files are loaded, FITS files end the run. -/
theorem C188_other_files {B L : Type} (dir stem : List Char) (sav : Py (Nd B × Nd B)) (l : L) :
    createPsf dir stem ".h5".toList sav (.ok l) = .ok (.loaded l) ∧ createPsf dir stem ".hdf5".toList sav (.ok l) = .ok (.loaded l) ∧
    ∀ load : Py L, createPsf dir stem ".fits".toList sav load = .error .systemExit := by
  refine ⟨?_, ?_, fun load => ?_⟩
  · unfold createPsf
    rw [if_neg (by decide), if_pos (Or.inl rfl)]
  · unfold createPsf
    rw [if_neg (by decide), if_pos (Or.inr rfl)]
  · unfold createPsf
    rw [if_neg (by decide), if_neg (by decide), if_pos rfl]

/-- **C188 is violated**: for any other suffix, such as capital letters, there is neither a beam nor an error. -/
theorem C188_no_beam {B L : Type} (dir stem suffix : List Char) (sav : Py (Nd B × Nd B)) (load : Py L)
    (h : suffix ∉ [".sav".toList, ".h5".toList, ".hdf5".toList, ".fits".toList]) :
    createPsf dir stem suffix sav load = .ok .nothing := by
  simp only [List.mem_cons, List.not_mem_nil, or_false, not_or] at h
  unfold createPsf
  rw [if_neg h.1, if_neg (by tauto), if_neg h.2.2.2]

/-! ## C189: arrays of arrays of arrays -/

theorem vRows_length {α : Type} (a : Nd α) (n m : ℕ) (s : List ℕ) (h : a.shape = n :: m :: s) : vRows a = (List.range n).map a.row := by
  unfold vRows
  rw [h]

/-- Blocks of equal length: the entry of a block in the joined list. -/
theorem flatMap_blocks {α β : Type} (f : α → List β) (n : ℕ) : ∀ (l : List α), (∀ x ∈ l, (f x).length = n) → ∀ (i j : ℕ) (x : α), l[i]? = some x →
    j < n → (l.flatMap f)[i * n + j]? = (f x)[j]? := by
  intro l
  induction l with
  | nil => intro _ i j x h; cases i <;> cases h
  | cons a l ih =>
    intro h i j x hi hj
    rw [List.flatMap_cons]
    have ha := h a (by simp)
    cases i with
    | zero =>
      rw [List.getElem?_cons_zero] at hi
      obtain rfl := Option.some.inj hi
      rw [List.getElem?_append_left (by omega)]
      simp
    | succ i =>
      rw [List.getElem?_cons_succ] at hi
      rw [List.getElem?_append_right (by rw [ha]; nlinarith), ha, show (i + 1) * n + j - n = i * n + j by
        rw [Nat.add_mul, Nat.one_mul]; omega]
      exact ih (fun y hy => h y (List.mem_cons_of_mem _ hy)) i j x hi hj

/-- **C189**, for arrays of one shape: they are stacked. -/
theorem C189_same_shape_partial {α : Type} (xs : List (Nd α)) (hne : xs ≠ []) (n m : ℕ) (s : List ℕ)
    (h : ∀ x ∈ xs, x.shape = n :: m :: s) (h0 : 0 < n) :
    ∃ b, vstackReshape xs = some b ∧ b.shape = xs.length :: n :: m :: s ∧
      ∀ i j k x, xs[i]? = some x → j < n → b.entry (i :: j :: k) = some (x.entry (j :: k)) := by
  have hrows : ∀ x ∈ xs, (vRows x).length = n := by
    intro x hx
    rw [vRows_length x n m s (h x hx)]
    simp
  have hlen : (xs.flatMap vRows).length = xs.length * n := by
    rw [List.length_flatMap, List.sum_eq_card_nsmul _ n]
    · simp
    · intro y hy
      obtain ⟨x, hx, rfl⟩ := List.mem_map.1 hy
      exact hrows x hx
  cases xs with
  | nil => exact absurd rfl hne
  | cons x l =>
    have hx := h x (by simp)
    unfold vstackReshape
    simp only []
    rw [if_pos]
    · refine ⟨_, rfl, by simp [hx], ?_⟩
      intro i j k y hy hj
      simp only [hx, List.headD_cons, List.tail_cons]
      rw [hrows x (by simp), flatMap_blocks vRows n _ hrows i j y hy hj,
        vRows_length y n m s (h y (List.mem_of_getElem? hy))]
      simp [List.getElem?_map, List.getElem?_range hj, Nd.row]
    · refine ⟨?_, by rw [hlen, hrows x (by simp)]⟩
      rw [List.all_eq_true]
      intro r hr
      obtain ⟨y, hy, hry⟩ := List.mem_flatMap.1 hr
      rw [vRows_length y n m s (h y hy)] at hry
      obtain ⟨i, -, rfl⟩ := List.mem_map.1 hry
      have : (vRows x).headD x = x.row 0 := by
        rw [vRows_length x n m s hx]
        obtain ⟨k, rfl⟩ : ∃ k, n = k + 1 := ⟨n - 1, by omega⟩
        rw [List.range_succ_eq_map]
        rfl
      rw [this]
      simp [Nd.row, h y hy, hx]

/-- **C189**, for arrays of one axis and one length: they become the rows. -/
theorem C189_rows_partial {α : Type} (xs : List (Nd α)) (hne : xs ≠ []) (n : ℕ) (h : ∀ x ∈ xs, x.shape = [n]) :
    ∃ b, vstackReshape xs = some b ∧ b.shape = [xs.length, n] ∧ ∀ i k x, xs[i]? = some x → b.entry (i :: k) = some (x.entry k) := by
  have h1 : ∀ x ∈ xs, vRows x = [x] := by
    intro x hx
    unfold vRows
    rw [h x hx]
  have h2 : ∀ l : List (Nd α), (∀ x ∈ l, vRows x = [x]) → l.flatMap vRows = l := by
    intro l hl
    induction l with
    | nil => rfl
    | cons a l ih => rw [List.flatMap_cons, hl a (by simp), ih fun x hx => hl x (by simp [hx])]; rfl
  cases xs with
  | nil => exact absurd rfl hne
  | cons x l =>
    have hx := h x (by simp)
    unfold vstackReshape
    simp only []
    rw [h2 _ h1, h1 x (by simp), if_pos]
    · refine ⟨_, rfl, by simp [hx], fun i k y hy => ?_⟩
      simp only [hx, List.headD_cons, List.tail_cons, hy, Option.map_some]
    · refine ⟨?_, by simp⟩
      rw [List.all_eq_true]
      intro r hr
      simp [h r hr, hx]

/-- Two rows of three entries. -/
example : ∃ b, vstackReshape [(⟨[3], fun l => l.headD 0⟩ : Nd ℕ), ⟨[3], fun l => 10 + l.headD 0⟩] = some b ∧ b.shape = [2, 3] ∧ b.entry [1, 2] = some 12 := by
  obtain ⟨b, h1, h2, h3⟩ := C189_rows_partial [(⟨[3], fun l => l.headD 0⟩ : Nd ℕ), ⟨[3], fun l => 10 + l.headD 0⟩] (by simp) 3 (by simp)
  exact ⟨b, h1, h2, h3 1 [2] _ rfl⟩

/-- **C189 is violated**: arrays with different numbers of rows that have the right number of rows together are cut at the wrong places:
the last row of the second one is the first row of the third. -/
theorem C189_misaligned {α : Type} (r k : ℕ) (e1 e2 e3 : List ℕ → α) :
    ∃ b, vstackReshape [⟨[r + 1, k], e1⟩, ⟨[r, k], e2⟩, ⟨[r + 2, k], e3⟩] = some b ∧ b.shape = [3, r + 1, k] ∧
      ∀ j, b.entry [1, r, j] = some (e3 [0, j]) := by
  have h1 : ∀ (n : ℕ) (e : List ℕ → α), vRows (⟨[n, k], e⟩ : Nd α) = (List.range n).map (⟨[n, k], e⟩ : Nd α).row := fun n e => rfl
  unfold vstackReshape
  simp only []
  rw [if_pos]
  · refine ⟨_, rfl, rfl, fun j => ?_⟩
    simp only [List.headD_cons, List.tail_cons, List.flatMap_cons, List.flatMap_nil, List.append_nil, h1]
    rw [List.getElem?_append_right (by simp), List.getElem?_append_right (by simp)]
    simp [List.range_succ_eq_map, Nd.row]
  · constructor
    · simp only [List.flatMap_cons, List.flatMap_nil, List.append_nil, h1, List.all_eq_true, List.mem_append, List.mem_map,
        decide_eq_true_eq]
      have hh : ((List.map (⟨[r + 1, k], e1⟩ : Nd α).row (List.range (r + 1))).headD ⟨[r + 1, k], e1⟩).shape = [k] := by
        rw [List.range_succ_eq_map]
        rfl
      rintro y (⟨i, -, rfl⟩ | ⟨i, -, rfl⟩ | ⟨i, -, rfl⟩) <;> rw [hh] <;> rfl
    · simp only [List.flatMap_cons, List.flatMap_nil, List.append_nil, h1, List.length_append, List.length_map, List.length_range,
        List.length_cons, List.length_nil]
      ring

/-! ## Examples -/

/-- Two polarisations, two baselines and three channels. -/
def exSavFiles (name : List Char) : Option (SavVis ℚ) :=
  if name = "XX".toList then some (.plain ⟨[2, 3], fun l => 10 * l.getD 0 0 + l.getD 1 0⟩)
  else if name = "YY".toList then some (.pointer ⟨[2, 3], fun l => 100 + 10 * l.getD 0 0 + l.getD 1 0⟩)
  else none

/-- C182. -/
example : (importSav (some ()) exSavFiles ["XX".toList, "YY".toList] 2).map (fun r => (r.1.shape, r.1.entry [0, 2, 1], r.1.entry [1, 2, 1])) =
    .ok ([2, 3, 2], 12, 112) ∧
    HasFiles exSavFiles ["XX".toList, "YY".toList] 2
      (fun p => ⟨[2, 3], fun l => 100 * p + 10 * l.getD 0 0 + l.getD 1 0⟩) := by
  refine ⟨by decide +kernel, ?_⟩
  intro p hp
  match p, hp with
  | 0, _ => exact ⟨"XX".toList, _, rfl, rfl, by simp [SavVis.array], fun a ha => by
      obtain rfl := SavVis.plain.inj ha
      decide⟩
  | 1, _ => exact ⟨"YY".toList, _, rfl, rfl, by simp [SavVis.array], fun a ha => by cases ha⟩

/-- C184: a structure in a structure. -/
example : validFields [("A".toList, .num true (some 3)), ("INFO".toList, .struct [("Name".toList, .str "x ".toList),
    ("T".toList, .strs ["a ".toList, "b".toList])])] := by
  simp [validFields, Idl.Valid]

example : stripChars "  ab c ".toList = "ab c".toList := by decide

/-- C188: a suffix in capital letters. -/
example : ".SAV".toList ∉ [".sav".toList, ".h5".toList, ".hdf5".toList, ".fits".toList] := by decide

end PyFHD
