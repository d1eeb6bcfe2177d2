import Mathlib.Tactic.Common
import Verif.Model.Storage

/-!
# C47, C48, C71: saving and loading
-/

namespace PyFHD

/-! ## Specification -/

/-- The value of a key. -/
def Dict.lookup (j : String) : Dict → Option Val
  | .nil => none
  | .cons k v rest => if j = k then some v else rest.lookup j

/-- The keys of a dictionary. -/
def Dict.keys : Dict → List String
  | .nil => []
  | .cons k _ rest => k :: rest.keys

/-- What is found in a value by following a path of keys: nothing, a dictionary (`some none`) or another
value. Two values are equal as Python values when they agree on all paths. -/
def Spec.probe : Val → List String → Option (Option Leaf)
  | .leaf l, [] => some (some l)
  | .dict _, [] => some none
  | .leaf _, _ :: _ => none
  | .dict d, k :: ks => (d.lookup k).bind fun v => Spec.probe v ks

/-- A string of ASCII characters: code points up to 127. -/
def Spec.Ascii (s : String) : Prop := ∀ c ∈ s.toList, c.toNat ≤ 127

theorem isAscii_iff (s : String) : isAscii s = true ↔ Spec.Ascii s := by
  unfold isAscii Spec.Ascii
  simp only [List.all_eq_true, decide_eq_true_eq]
  exact forall₂_congr fun c _ => by omega

/-- A value of a dictionary that survives: `None`, numbers, strings if h5py returns them with a `dtype`, arrays with
at least one axis of numbers (integers that fit in 64 bits), of truth values or of ASCII strings. -/
def Spec.PlainLeaf (conv : ℤ → ℤ) (strDtype : Bool) : Leaf → Prop
  | .none => True
  | .int _ => True
  | .flt _ => True
  | .cplx _ _ => True
  | .bool _ => True
  | .str _ => strDtype = true
  | .array shape a => shape ≠ [] ∧
      match a with
      | .ints l => ∀ x ∈ l, conv x = x
      | .flts _ => True
      | .cplxs _ => True
      | .bools _ => True
      | .strs l => l ≠ [] ∧ ∀ s ∈ l, Spec.Ascii s
      | _ => False

mutual
/-- A value, however nested, with distinct keys in all dictionaries. -/
def Spec.Distinct : Val → Prop
  | .leaf _ => True
  | .dict d => Spec.DistinctD d
/-- See `Spec.Distinct`. -/
def Spec.DistinctD : Dict → Prop
  | .nil => True
  | .cons k v rest => k ∉ rest.keys ∧ Spec.Distinct v ∧ Spec.DistinctD rest
end

/-! ## Groups -/

/-- The member of a name. -/
def Group.find (j : String) : Group → Option (Node × Bool)
  | .nil => none
  | .cons k b n rest => if j = k then some (n, b) else rest.find j

/-- The names of the members. -/
def Group.names : Group → List String
  | .nil => []
  | .cons k _ _ rest => k :: rest.names

theorem Group.names_insert (k : String) (b : Bool) (n : Node) :
    ∀ (g : Group) (j : String), j ∈ (g.insert k b n).names ↔ j = k ∨ j ∈ g.names
  | .nil, j => by simp [Group.insert, Group.names]
  | .cons k' b' n' rest, j => by
    unfold Group.insert
    split_ifs
    · simp [Group.names]
    · simp only [Group.names, List.mem_cons, Group.names_insert k b n rest j]
      tauto

theorem Group.nodup_insert (k : String) (b : Bool) (n : Node) :
    ∀ (g : Group), k ∉ g.names → g.names.Nodup → (g.insert k b n).names.Nodup
  | .nil, _, _ => by simp [Group.insert, Group.names]
  | .cons k' b' n' rest, h, hn => by
    unfold Group.insert
    simp only [Group.names, List.mem_cons, not_or, List.nodup_cons] at h hn
    split_ifs
    · simp only [Group.names, List.nodup_cons, List.mem_cons, not_or]
      exact ⟨h, hn⟩
    · simp only [Group.names, List.nodup_cons, Group.names_insert]
      refine ⟨?_, Group.nodup_insert k b n rest h.2 hn.2⟩
      rintro (e | e)
      · exact h.1 e.symm
      · exact hn.1 e

theorem Group.find_insert (k : String) (b : Bool) (n : Node) :
    ∀ (g : Group) (j : String), k ∉ g.names →
      (g.insert k b n).find j = if j = k then some (n, b) else g.find j
  | .nil, j, _ => by simp [Group.insert, Group.find]
  | .cons k' b' n' rest, j, h => by
    unfold Group.insert
    simp only [Group.names, List.mem_cons, not_or] at h
    split_ifs with h1 h2 h2
    · simp [Group.find, h2]
    · simp [Group.find, h2]
    · subst h2
      simp only [Group.find, if_neg h.1]
      rw [Group.find_insert j b n rest j h.2, if_pos rfl]
    · simp only [Group.find]
      rw [Group.find_insert k b n rest j h.2, if_neg h2]

theorem Group.size_insert (k : String) (b : Bool) (n : Node) :
    ∀ (g : Group), (g.insert k b n).size = g.size + 1
  | .nil => rfl
  | .cons k' b' n' rest => by
    unfold Group.insert
    split_ifs
    · rfl
    · simp only [Group.size, Group.size_insert k b n rest]

theorem Group.mem_names_iff : ∀ (g : Group) (j : String), j ∈ g.names ↔ ∃ x, g.find j = some x
  | .nil, j => by simp [Group.names, Group.find]
  | .cons k b n rest, j => by
    simp only [Group.names, List.mem_cons, Group.find, Group.mem_names_iff rest j]
    by_cases h : j = k <;> simp [h]

theorem Dict.mem_keys_iff : ∀ (d : Dict) (j : String), j ∈ d.keys ↔ ∃ x, d.lookup j = some x
  | .nil, j => by simp [Dict.keys, Dict.lookup]
  | .cons k v rest, j => by
    simp only [Dict.keys, List.mem_cons, Dict.lookup, Dict.mem_keys_iff rest j]
    by_cases h : j = k <;> simp [h]

theorem distinctD_nodup : ∀ d : Dict, Spec.DistinctD d → d.keys.Nodup
  | .nil, _ => List.nodup_nil
  | .cons k v rest, h => by
    simp only [Spec.DistinctD] at h
    rw [Dict.keys, List.nodup_cons]
    exact ⟨h.1, distinctD_nodup rest h.2.2⟩

theorem distinctD_lookup : ∀ (d : Dict) (k : String) (v : Val), Spec.DistinctD d →
    d.lookup k = some v → Spec.Distinct v
  | .nil, _, _, _, h => by simp [Dict.lookup] at h
  | .cons k' v' rest, k, v, hd, h => by
    simp only [Spec.DistinctD] at hd
    unfold Dict.lookup at h
    split_ifs at h
    · injection h with h; subst h; exact hd.2.1
    · exact distinctD_lookup rest k v hd.2.2 h

/-- What saving a dictionary puts in the file. -/
theorem saveDict_spec (render : Obj → String) (conv : ℤ → ℤ) : ∀ (d : Dict) (g g' : Group),
    d.keys.Nodup → (∀ k ∈ d.keys, k ∉ g.names) → g.names.Nodup → saveDict render conv g d = .ok g' →
    g'.names.Nodup ∧ g'.size = g.size + d.keys.length ∧
    (∀ k v, d.lookup k = some v → ∃ n b, saveVal render conv v = .ok (n, b) ∧ g'.find k = some (n, b)) ∧
    ∀ k ∉ d.keys, g'.find k = g.find k
  | .nil, g, g', _, _, hg, h => by
    simp only [saveDict, Except.ok.injEq] at h
    subst h
    exact ⟨hg, rfl, by simp [Dict.lookup], fun _ _ => rfl⟩
  | .cons k v rest, g, g', hd, hdis, hg, h => by
    simp only [Dict.keys, List.nodup_cons, List.mem_cons, forall_eq_or_imp] at hd hdis
    simp only [saveDict] at h
    split at h
    · simp at h
    · rename_i n b hv
      obtain ⟨h1, h2, h3, h4⟩ := saveDict_spec render conv rest (g.insert k b n) g' hd.2 (by
          intro j hj
          rw [Group.names_insert]
          rintro (e | e)
          · exact hd.1 (e ▸ hj)
          · exact hdis.2 j hj e)
        (Group.nodup_insert k b n g hdis.1 hg) h
      refine ⟨h1, by rw [h2, Group.size_insert]; simp [Dict.keys]; omega, ?_, ?_⟩
      · intro j w hj
        unfold Dict.lookup at hj
        split_ifs at hj with hjk
        · injection hj with hj
          subst hj hjk
          refine ⟨n, b, hv, ?_⟩
          rw [h4 j hd.1, Group.find_insert j b n g j hdis.1, if_pos rfl]
        · exact h3 j w hj
      · intro j hj
        simp only [Dict.keys, List.mem_cons, not_or] at hj
        rw [h4 j hj.2, Group.find_insert k b n g j hdis.1, if_neg hj.1]

/-- Loading a group whose members can all be loaded. -/
theorem loadGroup_ok (sd : Bool) : ∀ (g : Group),
    (∀ k n b, g.find k = some (n, b) → ∃ v, loadNode sd b n = .ok v) → g.names.Nodup →
    ∃ d, loadGroup sd g = .ok d ∧ (∀ k, g.find k = none → d.lookup k = none) ∧
      ∀ k n b v, g.find k = some (n, b) → loadNode sd b n = .ok v → d.lookup k = some v
  | .nil, _, _ => ⟨.nil, rfl, by simp [Dict.lookup], by simp [Group.find]⟩
  | .cons k b n rest, h, hn => by
    simp only [Group.names, List.nodup_cons] at hn
    obtain ⟨v, hv⟩ := h k n b (by simp [Group.find])
    obtain ⟨d, h1, h2, h3⟩ := loadGroup_ok sd rest (by
        intro j m c hj
        apply h j m c
        have : j ≠ k := by
          rintro rfl
          exact hn.1 ((Group.mem_names_iff rest j).2 ⟨_, hj⟩)
        simp only [Group.find, if_neg this, hj]) hn.2
    refine ⟨.cons k v d, by simp only [loadGroup, hv, h1], ?_, ?_⟩
    · intro j hj
      unfold Group.find at hj
      split_ifs at hj with hjk
      simp only [Dict.lookup, if_neg hjk, h2 j hj]
    · intro j m c w hj hw
      unfold Group.find at hj
      split_ifs at hj with hjk
      · simp only [Option.some.injEq, Prod.mk.injEq] at hj
        obtain ⟨rfl, rfl⟩ := hj
        rw [hv] at hw
        injection hw with hw
        simp only [Dict.lookup, if_pos hjk, hw]
      · simp only [Dict.lookup, if_neg hjk]
        exact h3 j m c w hj hw

/-- A member that cannot be loaded spoils the group. -/
theorem loadGroup_error (sd : Bool) : ∀ (g : Group) (k : String) (n : Node) (b : Bool) (e : PyErr),
    g.find k = some (n, b) → loadNode sd b n = .error e → ∃ e', loadGroup sd g = .error e'
  | .nil, _, _, _, _, h, _ => by simp [Group.find] at h
  | .cons k' b' n' rest, k, n, b, e, h, he => by
    unfold Group.find at h
    split_ifs at h with hk
    · simp only [Option.some.injEq, Prod.mk.injEq] at h
      obtain ⟨rfl, rfl⟩ := h
      exact ⟨e, by simp only [loadGroup, he]⟩
    · obtain ⟨e', he'⟩ := loadGroup_error sd rest k n b e h he
      cases hl : loadNode sd b' n' with
      | error e2 => exact ⟨e2, by simp only [loadGroup, hl]⟩
      | ok v => exact ⟨e', by simp only [loadGroup, hl, he']⟩

/-! ## The round trip -/

theorem storeArr_plain (render : Obj → String) (conv : ℤ → ℤ) (sd : Bool) (shape : List ℕ) (a : HArr)
    (h : Spec.PlainLeaf conv sd (.array shape a)) :
    ∃ d b, saveLeaf render conv (.array shape a) = .ok (d, b) ∧
      loadData sd b d = .ok (.array shape a) := by
  obtain ⟨hs, h⟩ := h
  cases a with
  | ints l =>
    simp only [] at h
    have : l.map conv = l := by
      conv_rhs => rw [← List.map_id l]
      exact List.map_congr_left h
    refine ⟨.array shape (.ints l), false, ?_, rfl⟩
    simp only [saveLeaf, formatArray, storeArr, this, if_neg hs]
  | flts l => exact ⟨.array shape (.flts l), false, by simp only [saveLeaf, formatArray, storeArr, if_neg hs], rfl⟩
  | cplxs l => exact ⟨.array shape (.cplxs l), false, by simp only [saveLeaf, formatArray, storeArr, if_neg hs], rfl⟩
  | bools l => exact ⟨.array shape (.bools l), false, by simp only [saveLeaf, formatArray, storeArr, if_neg hs], rfl⟩
  | strs l =>
    simp only [] at h
    have : toBytes l = .ok l := by
      unfold toBytes
      rw [if_pos (List.all_eq_true.2 fun s hs => (isAscii_iff s).2 (h.2 s hs))]
    refine ⟨.array shape (.bytes l), false, ?_, ?_⟩
    · simp only [saveLeaf, formatArray, this, Except.map, storeArr, if_neg hs]
    · simp only [loadData, Bool.false_eq_true, if_false, decodeBytes, if_neg h.1, Except.map]
  | bytes l => exact absurd h (by simp)
  | objs l => exact absurd h (by simp)

theorem roundtrip_leaf (render : Obj → String) (conv : ℤ → ℤ) (sd : Bool) (l : Leaf)
    (h : Spec.PlainLeaf conv sd l) :
    ∃ d b, saveLeaf render conv l = .ok (d, b) ∧ loadData sd b d = .ok l := by
  cases l with
  | none => exact ⟨_, _, rfl, rfl⟩
  | int n => exact ⟨_, _, rfl, rfl⟩
  | flt x => exact ⟨_, _, rfl, rfl⟩
  | cplx a b => exact ⟨_, _, rfl, rfl⟩
  | bool b => exact ⟨_, _, rfl, rfl⟩
  | str s =>
    refine ⟨.str s, false, rfl, ?_⟩
    have : sd = true := h
    simp [loadData, this]
  | array shape a => exact storeArr_plain render conv sd shape a h

/-- A value all of whose parts survive, with distinct keys. -/
def Spec.Plain (conv : ℤ → ℤ) (strDtype : Bool) (v : Val) : Prop :=
  Spec.Distinct v ∧ ∀ p l, Spec.probe v p = some (some l) → Spec.PlainLeaf conv strDtype l

mutual
theorem saveVal_ok (render : Obj → String) (conv : ℤ → ℤ) (sd : Bool) : ∀ v : Val,
    Spec.Plain conv sd v → ∃ n b, saveVal render conv v = .ok (n, b)
  | .leaf l, h => by
    obtain ⟨d, b, h1, _⟩ := roundtrip_leaf render conv sd l (h.2 [] l rfl)
    exact ⟨.data d, b, by simp only [saveVal, h1]⟩
  | .dict d, h => by
    obtain ⟨g, hg⟩ := saveDict_ok render conv sd d .nil h
    exact ⟨.group g, false, by simp only [saveVal, hg]⟩
theorem saveDict_ok (render : Obj → String) (conv : ℤ → ℤ) (sd : Bool) : ∀ (d : Dict) (g : Group),
    Spec.Plain conv sd (.dict d) → ∃ g', saveDict render conv g d = .ok g'
  | .nil, g, _ => ⟨g, by simp only [saveDict]⟩
  | .cons k v rest, g, h => by
    obtain ⟨h1, h2⟩ := h
    simp only [Spec.Distinct, Spec.DistinctD] at h1
    obtain ⟨n, b, hv⟩ := saveVal_ok render conv sd v ⟨h1.2.1, fun p l hp => h2 (k :: p) l (by
      simp only [Spec.probe, Dict.lookup, if_true, Option.bind_some, hp])⟩
    obtain ⟨g', hg'⟩ := saveDict_ok render conv sd rest (g.insert k b n) ⟨by
        simp only [Spec.Distinct]; exact h1.2.2, fun p l hp => by
        cases p with
        | nil => simp [Spec.probe] at hp
        | cons j p =>
          apply h2 (j :: p) l
          have hne : j ≠ k := by
            rintro rfl
            apply h1.1
            rw [Dict.mem_keys_iff]
            cases hl : rest.lookup j with
            | none => simp [Spec.probe, hl] at hp
            | some x => exact ⟨x, rfl⟩
          simpa only [Spec.probe, Dict.lookup, if_neg hne] using hp⟩
    exact ⟨g', by simp only [saveDict, hv, hg']⟩
end

theorem plain_lookup {conv : ℤ → ℤ} {sd : Bool} {d : Dict} {k : String} {v : Val}
    (h : Spec.Plain conv sd (.dict d)) (hk : d.lookup k = some v) : Spec.Plain conv sd v :=
  ⟨distinctD_lookup d k v (by simpa only [Spec.Distinct] using h.1) hk, fun p l hp => h.2 (k :: p) l (by
    simp only [Spec.probe, hk, Option.bind_some, hp])⟩

/-- Loading what was saved, along every path. Induction on the size of the value. -/
theorem roundtrip (render : Obj → String) (conv : ℤ → ℤ) (sd : Bool) (m : ℕ) : ∀ v : Val,
    sizeOf v ≤ m → Spec.Plain conv sd v → ∀ n b, saveVal render conv v = .ok (n, b) →
    ∃ v', loadNode sd b n = .ok v' ∧ ∀ p, Spec.probe v' p = Spec.probe v p := by
  induction m with
  | zero =>
    intro v hv
    cases v <;> simp at hv
  | succ m ih =>
    intro v hv hp n b hs
    cases v with
    | leaf l =>
      obtain ⟨d, b', h1, h2⟩ := roundtrip_leaf render conv sd l (hp.2 [] l rfl)
      simp only [saveVal, h1, Except.ok.injEq, Prod.mk.injEq] at hs
      obtain ⟨rfl, rfl⟩ := hs
      exact ⟨.leaf l, by simp only [loadNode, h2, Except.map], fun _ => rfl⟩
    | dict d =>
      simp only [saveVal] at hs
      split at hs
      · simp at hs
      · rename_i g hg
        simp only [Except.ok.injEq, Prod.mk.injEq] at hs
        obtain ⟨rfl, rfl⟩ := hs
        have hdist : Spec.DistinctD d := by simpa only [Spec.Distinct] using hp.1
        obtain ⟨h1, _, h3, h4⟩ := saveDict_spec render conv d .nil g (distinctD_nodup d hdist)
          (by simp [Group.names]) (by simp [Group.names]) hg
        have hsize : ∀ (d : Dict) (k : String) (v : Val), d.lookup k = some v → sizeOf v < sizeOf d := by
          intro d k v
          have : ∀ d : Dict, d.lookup k = some v → sizeOf v < sizeOf d := by
            intro d
            exact Dict.rec (motive_1 := fun _ => True)
              (motive_2 := fun d => d.lookup k = some v → sizeOf v < sizeOf d)
              (fun _ => trivial) (fun _ _ => trivial) (fun h => by simp [Dict.lookup] at h)
              (fun k' v' rest _ ih h => by
                unfold Dict.lookup at h
                split_ifs at h
                · injection h with h
                  subst h
                  simp; omega
                · have := ih h
                  simp; omega) d
          exact this d
        have hmem : ∀ k n b, g.find k = some (n, b) → ∃ v, d.lookup k = some v ∧
            saveVal render conv v = .ok (n, b) := by
          intro k n b hf
          by_cases hk : k ∈ d.keys
          · obtain ⟨v, hv⟩ := (Dict.mem_keys_iff d k).1 hk
            obtain ⟨n', b', e1, e2⟩ := h3 k v hv
            rw [hf] at e2
            simp only [Option.some.injEq, Prod.mk.injEq] at e2
            obtain ⟨rfl, rfl⟩ := e2
            exact ⟨v, hv, e1⟩
          · rw [h4 k hk] at hf; simp [Group.find] at hf
        have hd : sizeOf d ≤ m := by simp at hv; omega
        obtain ⟨d', l1, l2, l3⟩ := loadGroup_ok sd g (by
            intro k n b hf
            obtain ⟨v, hv1, hv2⟩ := hmem k n b hf
            obtain ⟨v', e1, _⟩ := ih v (by have := hsize d k v hv1; omega) (plain_lookup hp hv1) n b hv2
            exact ⟨v', e1⟩) h1
        refine ⟨.dict d', by simp only [loadNode, l1, Except.map], ?_⟩
        intro p
        cases p with
        | nil => rfl
        | cons k p =>
          simp only [Spec.probe]
          cases hl : d.lookup k with
          | none =>
            have hk : k ∉ d.keys := by
              rw [Dict.mem_keys_iff]; rintro ⟨x, hx⟩; rw [hl] at hx; simp at hx
            rw [l2 k (by rw [h4 k hk]; rfl)]
          | some v =>
            obtain ⟨n, b, e1, e2⟩ := h3 k v hl
            obtain ⟨v', f1, f2⟩ := ih v (by have := hsize d k v hl; omega) (plain_lookup hp hl) n b e1
            rw [l3 k n b v' e2 f1, Option.bind_some, Option.bind_some, f2]

/-- **C47 (partial).** A dictionary with no or at least two keys, nested in any way, whose parts are `None`, numbers,
truth values, arrays (with at least one axis) of numbers, truth values or ASCII strings - and strings, if
h5py returns them as NumPy objects - is saved, and loading the file gives a dictionary that agrees with it on
all paths of keys. Missing: one key at the top, strings, object arrays, arrays without axes (below). -/
theorem C47_round_trip_partial (render : Obj → String) (conv : ℤ → ℤ) (sd : Bool) (d : Dict)
    (h : Spec.Plain conv sd (.dict d)) (hk : d.keys.length ≠ 1) :
    ∃ file v, save render conv d = .ok file ∧ load sd file = .ok v ∧
      ∀ p, Spec.probe v p = Spec.probe (.dict d) p := by
  obtain ⟨g, hg⟩ := saveDict_ok render conv sd d .nil h
  have hdist : Spec.DistinctD d := by simpa only [Spec.Distinct] using h.1
  obtain ⟨_, h2, _, _⟩ := saveDict_spec render conv d .nil g (distinctD_nodup d hdist)
    (by simp [Group.names]) (by simp [Group.names]) hg
  obtain ⟨v', h3, h4⟩ := roundtrip render conv sd (sizeOf (Val.dict d)) (.dict d) le_rfl h (.group g)
    false (by simp only [saveVal, hg])
  refine ⟨g, v', hg, ?_, h4⟩
  have hsz : g.size ≠ 1 := by rw [h2]; simpa [Group.size] using hk
  have : load sd g = (loadGroup sd g).map Val.dict := by
    unfold load
    split
    · exact absurd rfl hsz
    · rfl
  rw [this]
  simpa only [loadNode] using h3

/-- **C47 is violated** by every dictionary with one key: loading the file does not give a dictionary. -/
theorem C47_single_key (render : Obj → String) (conv : ℤ → ℤ) (sd : Bool) (k : String) (v : Val)
    (file : Group) (h : save render conv (.cons k v .nil) = .ok file) :
    ∀ d, load sd file ≠ .ok (.dict d) := by
  intro d hd
  unfold save at h
  simp only [saveDict] at h
  split at h
  · simp at h
  · rename_i n b _
    simp only [Except.ok.injEq, Group.insert] at h
    subst h
    simp only [load] at hd
    cases hs : sliceAll n with
    | error e => rw [hs] at hd; simp [Except.map] at hd
    | ok l => rw [hs] at hd; simp [Except.map] at hd

/-- **C47 is violated** by strings, if h5py returns them as `bytes`: a file saved from a dictionary with
a string anywhere (and not exactly one key) cannot be loaded. -/
theorem C47_strings_raise (render : Obj → String) (conv : ℤ → ℤ) (d : Dict)
    (hd : Spec.Distinct (.dict d)) (hk : d.keys.length ≠ 1) (p : List String) (s : String)
    (hp : Spec.probe (.dict d) p = some (some (.str s))) (file : Group)
    (hs : save render conv d = .ok file) : ∃ e, load false file = .error e := by
  have key : ∀ (p : List String) (v : Val), Spec.Distinct v → Spec.probe v p = some (some (.str s)) →
      ∀ n b, saveVal render conv v = .ok (n, b) → ∃ e, loadNode false b n = .error e := by
    intro p
    induction p with
    | nil =>
      intro v _ hv n b hs
      cases v with
      | leaf l =>
        simp only [Spec.probe, Option.some.injEq] at hv
        subst hv
        simp only [saveVal, saveLeaf, Except.ok.injEq, Prod.mk.injEq] at hs
        obtain ⟨rfl, rfl⟩ := hs
        exact ⟨.attributeError, by simp [loadNode, loadData, Except.map]⟩
      | dict d => simp [Spec.probe] at hv
    | cons k p ih =>
      intro v hdv hv n b hs
      cases v with
      | leaf l => simp [Spec.probe] at hv
      | dict d =>
        simp only [saveVal] at hs
        split at hs
        · simp at hs
        · rename_i g hg
          simp only [Except.ok.injEq, Prod.mk.injEq] at hs
          obtain ⟨rfl, rfl⟩ := hs
          have hdist : Spec.DistinctD d := by simpa only [Spec.Distinct] using hdv
          obtain ⟨_, _, h3, _⟩ := saveDict_spec render conv d .nil g (distinctD_nodup d hdist)
            (by simp [Group.names]) (by simp [Group.names]) hg
          simp only [Spec.probe] at hv
          cases hl : d.lookup k with
          | none => rw [hl] at hv; simp at hv
          | some w =>
            rw [hl, Option.bind_some] at hv
            obtain ⟨n, b, e1, e2⟩ := h3 k w hl
            obtain ⟨e, he⟩ := ih w (distinctD_lookup d k w hdist hl) hv n b e1
            obtain ⟨e', he'⟩ := loadGroup_error false g k n b e e2 he
            exact ⟨e', by simp only [loadNode, he', Except.map]⟩
  have hdist : Spec.DistinctD d := by simpa only [Spec.Distinct] using hd
  obtain ⟨_, h2, _, _⟩ := saveDict_spec render conv d .nil file (distinctD_nodup d hdist)
    (by simp [Group.names]) (by simp [Group.names]) hs
  obtain ⟨e, he⟩ := key p (.dict d) hd hp (.group file) false (by
    have : saveDict render conv .nil d = .ok file := hs
    simp only [saveVal, this])
  have hsz : file.size ≠ 1 := by rw [h2]; simpa [Group.size] using hk
  have : load false file = (loadGroup false file).map Val.dict := by
    unfold load
    split
    · exact absurd rfl hsz
    · rfl
  rw [this]
  exact ⟨e, by simpa only [loadNode] using he⟩

/-- **C47 is violated** by an array without axes: saving raises. -/
theorem C47_zero_dim_array_raises (render : Obj → String) (conv : ℤ → ℤ) (k : String) (a : HArr)
    (rest : Dict) : ∃ e, save render conv (.cons k (.leaf (.array [] a)) rest) = .error e := by
  unfold save
  have : ∃ e, saveLeaf render conv (.array [] a) = .error e := by
    unfold saveLeaf
    simp only []
    split
    · exact ⟨_, rfl⟩
    · split
      · exact ⟨_, rfl⟩
      · exact ⟨_, if_pos trivial⟩
  obtain ⟨e, he⟩ := this
  exact ⟨e, by simp only [saveDict, saveVal, he]⟩

/-- **C47**, for arrays saved by themselves: an array of numbers is loaded as it was; an array of strings as
byte strings. -/
theorem C47_array_partial (render : Obj → String) (conv : ℤ → ℤ) (sd : Bool) (name : String)
    (shape : List ℕ) (a : HArr) (h : Spec.PlainLeaf conv sd (.array shape a)) :
    ∃ file, saveArray render conv name shape a = .ok file ∧
      load sd file = .ok (.leaf (.array shape (match a with | .strs l => .bytes l | a => a))) := by
  obtain ⟨hs, h⟩ := h
  unfold saveArray
  simp only [saveDict, saveVal]
  cases a with
  | ints l =>
    simp only [] at h
    have : l.map conv = l := by
      conv_rhs => rw [← List.map_id l]
      exact List.map_congr_left h
    simp only [saveLeaf, formatArray, storeArr, this, if_neg hs]
    exact ⟨_, rfl, rfl⟩
  | flts l => simp only [saveLeaf, formatArray, storeArr, if_neg hs]; exact ⟨_, rfl, rfl⟩
  | cplxs l => simp only [saveLeaf, formatArray, storeArr, if_neg hs]; exact ⟨_, rfl, rfl⟩
  | bools l => simp only [saveLeaf, formatArray, storeArr, if_neg hs]; exact ⟨_, rfl, rfl⟩
  | strs l =>
    simp only [] at h
    have : toBytes l = .ok l := by
      unfold toBytes
      rw [if_pos (List.all_eq_true.2 fun s hs => (isAscii_iff s).2 (h.2 s hs))]
    simp only [saveLeaf, formatArray, this, Except.map, storeArr, if_neg hs]
    exact ⟨_, rfl, rfl⟩
  | bytes l => exact absurd h (by simp)
  | objs l => exact absurd h (by simp)

/-! ## C48 -/

/-- **C48 (partial)**, numeric object arrays: the result has the same length, `None` becomes NaN and other
entries keep their value, unless their real part is NaN in a complex array. Missing: such entries
lose their imaginary part (`C48_nan_real_part`). -/
theorem C48_numeric_partial (render : Obj → String) (l : List Obj) (hne : l ≠ [])
    (h' : ∀ o ∈ l, ∀ s, o ≠ .str s) :
    ∃ a, formatArray render (.objs l) = .ok a ∧
      ((∀ o ∈ l, ∀ x y, o ≠ .cplx x y) → ∃ r, a = .flts r ∧ r.length = l.length ∧
        ∀ (i : ℕ) (o : Obj), l[i]? = some o → (o = .none → r[i]? = some none) ∧ ∀ x, o = .flt x → r[i]? = some x) ∧
      ((∃ x y, .cplx x y ∈ l) → ∃ r, a = .cplxs r ∧ r.length = l.length ∧
        ∀ (i : ℕ) (o : Obj), l[i]? = some o → (o = .none → r[i]? = some (none, none)) ∧
          (∀ x, o = .flt (some x) → r[i]? = some (some x, some 0)) ∧
          ∀ x y, o = .cplx (some x) y → r[i]? = some (some x, y)) := by
  have h : ∀ o ∈ l, o.isStr = false := by
    intro o ho
    have := h' o ho
    cases o with
    | str s => exact absurd rfl (this s)
    | _ => rfl
  cases l with
  | nil => exact absurd rfl hne
  | cons o0 t =>
    generalize hL : o0 :: t = L at *
    have h0 : formatArray render (.objs L) =
        if (L.map (Obj.fill (.flt none))).any Obj.isCplx then
          .ok (.cplxs ((L.map (Obj.fill (.flt none))).map fun o => cplxNan o.toCplx))
        else .ok (.flts ((L.map (Obj.fill (.flt none))).map Obj.toFlt)) := by
      subst hL
      unfold formatArray
      simp only []
      rw [if_neg]
      rw [List.any_eq_true]
      rintro ⟨o, ho, hs⟩
      rw [h o ho] at hs; simp at hs
    have hc : (L.map (Obj.fill (.flt none))).any Obj.isCplx = L.any Obj.isCplx := by
      rw [List.any_map]
      congr 1
      funext o
      cases o <;> rfl
    rw [h0, hc]
    by_cases hx : L.any Obj.isCplx = true
    · rw [if_pos hx]
      refine ⟨_, rfl, ?_, ?_⟩
      · intro hno
        rw [List.any_eq_true] at hx
        obtain ⟨o, ho, hs⟩ := hx
        have := hno o ho
        cases o with
        | cplx x y => exact absurd rfl (this x y)
        | _ => simp [Obj.isCplx] at hs
      · intro _
        refine ⟨_, rfl, by simp, ?_⟩
        intro i o hi
        rw [List.map_map]
        simp only [List.getElem?_map, hi, Option.map_some]
        refine ⟨?_, ?_, ?_⟩
        · rintro rfl; rfl
        · rintro x rfl; rfl
        · rintro x y rfl; rfl
    · rw [if_neg hx]
      refine ⟨_, rfl, ?_, ?_⟩
      · intro _
        refine ⟨_, rfl, by simp, ?_⟩
        intro i o hi
        rw [List.map_map]
        simp only [List.getElem?_map, hi, Option.map_some]
        refine ⟨?_, ?_⟩
        · rintro rfl; rfl
        · rintro x rfl; rfl
      · rintro ⟨x, y, ho⟩
        exact absurd (List.any_eq_true.2 ⟨_, ho, rfl⟩) hx

/-- **C48 (partial)**, arrays with strings: if all are ASCII, the result has the same length, `None` becomes the empty
string and every string is kept. Numbers among them become text. -/
theorem C48_strings_partial (render : Obj → String) (l : List Obj) (hex : ∃ s, .str s ∈ l)
    (hs : ∀ o ∈ l, ∀ s, o = .str s → Spec.Ascii s)
    (hr' : ∀ o ∈ l, (∀ s, o ≠ .str s) → Spec.Ascii (render o)) :
    ∃ r, formatArray render (.objs l) = .ok (.bytes r) ∧ r.length = l.length ∧
      ∀ (i : ℕ) (o : Obj), l[i]? = some o → (o = .none → r[i]? = some "") ∧
        (∀ s, o = .str s → r[i]? = some s) ∧
        (o ≠ .none → (∀ s, o ≠ .str s) → r[i]? = some (render o)) := by
  have h : ∃ o ∈ l, o.isStr = true := by
    obtain ⟨s, hs⟩ := hex
    exact ⟨_, hs, rfl⟩
  have hr : ∀ o ∈ l, o.isStr = false → Spec.Ascii (render o) := by
    intro o ho hf
    refine hr' o ho ?_
    rintro s rfl
    cases hf
  cases l with
  | nil => obtain ⟨o, ho, _⟩ := h; simp at ho
  | cons o0 t =>
    generalize hL : o0 :: t = L at *
    have hany : L.any Obj.isStr = true := by
      rw [List.any_eq_true]; exact h
    have h0 : formatArray render (.objs L) =
        (toBytes ((L.map (Obj.fill (.str ""))).map (Obj.render render))).map HArr.bytes := by
      subst hL
      unfold formatArray
      simp only []
      rw [if_pos hany]
    have hall : ((L.map (Obj.fill (.str ""))).map (Obj.render render)).all isAscii = true := by
      rw [List.map_map, List.all_map, List.all_eq_true]
      intro o ho
      cases o with
      | none => rfl
      | str s => exact (isAscii_iff _).2 (hs _ ho s rfl)
      | flt x => exact (isAscii_iff _).2 (hr _ ho rfl)
      | cplx x y => exact (isAscii_iff _).2 (hr _ ho rfl)
    rw [h0]
    unfold toBytes
    rw [if_pos hall]
    refine ⟨_, rfl, by simp, ?_⟩
    intro i o hi
    rw [List.map_map]
    simp only [List.getElem?_map, hi, Option.map_some]
    refine ⟨?_, ?_, ?_⟩
    · rintro rfl; rfl
    · rintro s rfl; rfl
    · intro h1 h2
      cases o <;> simp_all [Obj.fill, Obj.render, Obj.isStr]

/-- **C48 is violated** by an entry with real part NaN in a complex array: its imaginary part is lost. -/
theorem C48_nan_real_part (render : Obj → String) (l : List Obj) (h' : ∀ o ∈ l, ∀ s, o ≠ .str s)
    (i : ℕ) (y : ℚ) (hi : l[i]? = some (.cplx none (some y))) :
    ∃ r, formatArray render (.objs l) = .ok (.cplxs r) ∧ r[i]? = some (none, none) := by
  have h : ∀ o ∈ l, o.isStr = false := by
    intro o ho
    have := h' o ho
    cases o with
    | str s => exact absurd rfl (this s)
    | _ => rfl
  have hmem := List.mem_of_getElem? hi
  have hne : l ≠ [] := List.ne_nil_of_mem hmem
  cases l with
  | nil => exact absurd rfl hne
  | cons o0 t =>
    generalize hL : o0 :: t = L at *
    have h0 : formatArray render (.objs L) =
        if (L.map (Obj.fill (.flt none))).any Obj.isCplx then
          .ok (.cplxs ((L.map (Obj.fill (.flt none))).map fun o => cplxNan o.toCplx))
        else .ok (.flts ((L.map (Obj.fill (.flt none))).map Obj.toFlt)) := by
      subst hL
      unfold formatArray
      simp only []
      rw [if_neg]
      rw [List.any_eq_true]
      rintro ⟨o, ho, hs⟩
      rw [h o ho] at hs; simp at hs
    have hc : (L.map (Obj.fill (.flt none))).any Obj.isCplx = true := by
      rw [List.any_map, List.any_eq_true]
      exact ⟨_, hmem, rfl⟩
    rw [h0, if_pos hc]
    refine ⟨_, rfl, ?_⟩
    rw [List.map_map, List.getElem?_map, hi]
    rfl

/-- **C48 is violated** by strings outside ASCII: an error. -/
theorem C48_non_ascii_raises (render : Obj → String) (l : List Obj) (s : String)
    (h : Obj.str s ∈ l) (hs' : ¬Spec.Ascii s) :
    formatArray render (.objs l) = .error .valueError ∧ ∀ m, s ∈ m →
      formatArray render (.strs m) = .error .valueError := by
  have hs : isAscii s = false := by
    rw [← Bool.not_eq_true, isAscii_iff]; exact hs'
  constructor
  · cases l with
    | nil => simp at h
    | cons o0 t =>
      generalize hL : o0 :: t = L at *
      have hany : L.any Obj.isStr = true := List.any_eq_true.2 ⟨_, h, rfl⟩
      have h0 : formatArray render (.objs L) =
          (toBytes ((L.map (Obj.fill (.str ""))).map (Obj.render render))).map HArr.bytes := by
        subst hL
        unfold formatArray
        simp only []
        rw [if_pos hany]
      rw [h0]
      unfold toBytes
      rw [if_neg]
      · rfl
      · rw [List.all_eq_true]
        intro hall
        have := hall s (by
          rw [List.map_map]
          exact List.mem_map.2 ⟨_, h, rfl⟩)
        rw [hs] at this; simp at this
  · intro m hm
    unfold formatArray toBytes
    simp only []
    rw [if_neg]
    · rfl
    · rw [List.all_eq_true]
      intro hall
      rw [hall s hm] at hs; simp at hs

/-! ## C71 -/

/-- **C71 (partial).** Arrays without `None` are not changed. -/
theorem C71_argument_kept_partial (a : HArr) (h : ∀ l, a = .objs l → Obj.none ∉ l) :
    formatArrayArg a = a := by
  cases a with
  | objs l =>
    have hn := h l rfl
    have key : ∀ v, l.map (Obj.fill v) = l := by
      intro v
      conv_rhs => rw [← List.map_id l]
      apply List.map_congr_left
      intro o ho
      cases o with
      | none => exact absurd ho hn
      | _ => rfl
    unfold formatArrayArg
    simp only [key, ite_self]
  | _ => rfl

/-- **C71 is violated** by object arrays with `None`: all of them are replaced in the array that the caller
passed. -/
theorem C71_none_replaced (l : List Obj) (h : Obj.none ∈ l) :
    formatArrayArg (.objs l) ≠ .objs l ∧ ∃ l', formatArrayArg (.objs l) = .objs l' ∧ Obj.none ∉ l' := by
  have key : ∀ v, v ≠ Obj.none → Obj.none ∉ l.map (Obj.fill v) := by
    intro v hv hm
    obtain ⟨o, _, ho⟩ := List.mem_map.1 hm
    cases o <;> simp [Obj.fill] at ho
    exact hv ho
  have : ∃ l', formatArrayArg (.objs l) = .objs l' ∧ Obj.none ∉ l' := by
    unfold formatArrayArg
    simp only []
    split_ifs
    · exact ⟨_, rfl, key _ (by simp)⟩
    · exact ⟨_, rfl, key _ (by simp)⟩
  refine ⟨?_, this⟩
  obtain ⟨l', h1, h2⟩ := this
  rw [h1]
  intro e
  injection e with e
  exact h2 (e ▸ h)

/-! ## Examples -/

/-- A nested dictionary. -/
def exDict : Dict :=
  .cons "b" (.dict (.cons "z" (.leaf .none) (.cons "a" (.leaf (.array [2] (.ints [1, 2]))) .nil)))
    (.cons "a" (.leaf (.flt (some (1 / 2)))) (.cons "n" (.leaf (.array [1] (.strs ["x"]))) .nil))

example : ((save (fun _ => "") id exDict).toOption.bind fun f => (load false f).toOption).map
    (fun v => (Spec.probe v ["b", "a"], Spec.probe v ["b", "z"], Spec.probe v ["n"], Spec.probe v ["c"]))
    = some (some (some (.array [2] (.ints [1, 2]))), some (some .none),
      some (some (.array [1] (.strs ["x"]))), none) := by decide +kernel
example : exDict.keys.length ≠ 1 ∧ Spec.Distinct (.dict exDict) := by
  simp [exDict, Dict.keys, Spec.Distinct, Spec.DistinctD]
example : Spec.Plain id false (.dict (.cons "a" (.leaf (.int 3)) (.cons "b"
    (.leaf (.array [2] (.ints [1, 2]))) .nil))) := by
  refine ⟨by simp [Spec.Distinct, Spec.DistinctD, Dict.keys], ?_⟩
  intro p l h
  cases p with
  | nil => simp [Spec.probe] at h
  | cons k p =>
    cases p with
    | nil =>
      simp only [Spec.probe, Dict.lookup] at h
      split_ifs at h <;> simp [Spec.probe] at h <;> subst h <;> simp [Spec.PlainLeaf]
    | cons k' p =>
      simp only [Spec.probe, Dict.lookup] at h
      split_ifs at h <;> simp [Spec.probe] at h
example : (save (fun _ => "") id (.cons "a" (.leaf (.str "s")) (.cons "b" (.leaf .none) .nil))).bind
    (load false) = .error .attributeError := by rfl
example : (save (fun _ => "") id (.cons "a" (.leaf (.array [1] (.ints [7]))) .nil)).bind (load false)
    = .ok (.leaf (.array [1] (.ints [7]))) := by rfl
example : formatArray (fun _ => "1.0") (.objs [.none, .flt (some 1), .cplx none (some 2)])
    = .ok (.cplxs [(none, none), (some 1, some 0), (none, none)]) := by decide +kernel
example : formatArray (fun _ => "1.0") (.objs [.none, .flt (some 1), .str "x"])
    = .ok (.bytes ["", "1.0", "x"]) := by decide +kernel
example : formatArrayArg (.objs [.none, .flt (some 1)]) = .objs [.flt none, .flt (some 1)] := by
  decide +kernel

end PyFHD
