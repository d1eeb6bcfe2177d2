import Verif.Model.LazyBeam
import Verif.Props.Storage

/-!
# C293: beams that are loaded lazily
-/

namespace PyFHD

/-! ## Specification -/

/-- A single number. -/
def Spec.IsNumber : Leaf → Prop
  | .int _ => True
  | .flt _ => True
  | .cplx _ _ => True
  | .bool _ => True
  | _ => False

/-- An array of numbers or of truth values, with at least one axis. -/
def Spec.NumArray (conv : ℤ → ℤ) : Leaf → Prop
  | .array shape (.ints l) => shape ≠ [] ∧ ∀ x ∈ l, conv x = x
  | .array shape (.flts _) => shape ≠ []
  | .array shape (.cplxs _) => shape ≠ []
  | .array shape (.bools _) => shape ≠ []
  | _ => False

theorem dictGet_of_lookup (key : String) (v : Val) : ∀ d : Dict, d.lookup key = some v → beamDictGet key d = .ok v
  | .nil, h => by simp [Dict.lookup] at h
  | .cons k x rest, h => by
    unfold Dict.lookup at h
    unfold beamDictGet
    split_ifs at h ⊢ with hk
    · injection h with h; rw [h]
    · exact dictGet_of_lookup key v rest h

theorem groupGet_of_find (key : String) (n : Node) (b : Bool) :
    ∀ g : Group, g.find key = some (n, b) → groupGet key g = .ok n
  | .nil, h => by simp [Group.find] at h
  | .cons k c x rest, h => by
    unfold Group.find at h
    unfold groupGet
    split_ifs at h ⊢ with hk
    · simp only [Option.some.injEq, Prod.mk.injEq] at h; rw [h.1]
    · exact groupGet_of_find key n b rest h

/-- What is in the file under a key. -/
theorem saved_member {render : Obj → String} {conv : ℤ → ℤ} {d : Dict} {file : Group} {key : String} {l : Leaf}
    (hd : d.keys.Nodup) (hs : save render conv d = .ok file) (hl : d.lookup key = some (.leaf l)) :
    ∃ s b, saveLeaf render conv l = .ok (s, b) ∧ groupGet key file = .ok (.data s) := by
  obtain ⟨_, _, h3, _⟩ := saveDict_spec render conv d .nil file hd (by simp [Group.names]) (by simp [Group.names]) hs
  obtain ⟨n, b, h4, h5⟩ := h3 key _ hl
  simp only [saveVal] at h4
  cases h6 : saveLeaf render conv l with
  | error e => rw [h6] at h4; cases h4
  | ok p =>
    obtain ⟨s, c⟩ := p
    rw [h6] at h4
    simp only [Except.ok.injEq, Prod.mk.injEq] at h4
    obtain ⟨rfl, rfl⟩ := h4
    exact ⟨s, c, rfl, groupGet_of_find key _ _ file h5⟩

/-! ## Numbers -/

/-- C293: a number of a beam file that PyFHD wrote cannot be read when the file is loaded lazily: PyFHD stores numbers
without axes and reads them as the first entry along an axis. -/
theorem C293_lazy_number {render : Obj → String} {conv : ℤ → ℤ} {sd : Bool} {d : Dict} {file : Group} {key : String}
    {l : Leaf} (hd : d.keys.Nodup) (hs : save render conv d = .ok file) (hl : d.lookup key = some (.leaf l))
    (hn : Spec.IsNumber l) :
    ∃ src, loadBeam true sd file = .ok src ∧ beamNumber key src = .error .valueError := by
  obtain ⟨s, b, h1, h2⟩ := saved_member hd hs hl
  refine ⟨.lazyFile file, rfl, ?_⟩
  have hs' : s = .scalar l := by
    cases l with
    | none => exact hn.elim
    | str s => exact hn.elim
    | array shape a => exact hn.elim
    | _ =>
      simp only [saveLeaf, Except.ok.injEq, Prod.mk.injEq] at h1
      exact h1.1.symm
  simp only [beamNumber, h2, hs', firstEntry]

/-- C293: the weights cannot be updated with a lazily loaded beam that PyFHD wrote, whatever the data: the first function
of the pipeline that uses the beam raises a `ValueError`. -/
theorem C293_lazy_fails {render : Obj → String} {conv : ℤ → ℤ} {sd : Bool} {d : Dict} {file : Group}
    {n : ℤ} (hd : d.keys.Nodup) (hs : save render conv d = .ok file) (hl : d.lookup "dim" = some (.leaf (.int n)))
    (o : FlagObs) (uu vv : ℕ → ℚ) (norm : ℚ → ℚ → ℚ) (w : Weights) :
    ∃ src, loadBeam true sd file = .ok src ∧ visWeightsUpdateB src o uu vv norm w = .error .valueError := by
  obtain ⟨src, h1, h2⟩ := C293_lazy_number (sd := sd) hd hs hl trivial
  exact ⟨src, h1, by simp only [visWeightsUpdateB, h2, bind, Except.bind]⟩

/-- What loading into memory gives under a key. -/
theorem loadBeam_memory {render : Obj → String} {conv : ℤ → ℤ} {sd : Bool} {d : Dict} (hp : Spec.Plain conv sd (.dict d))
    (hk : d.keys.length ≠ 1) {file : Group} (hs : save render conv d = .ok file) :
    ∃ d', loadBeam false sd file = .ok (.inMemory d') ∧
      ∀ key l, d.lookup key = some (.leaf l) → beamDictGet key d' = .ok (.leaf l) := by
  obtain ⟨file', v, h1, h2, h3⟩ := C47_round_trip_partial render conv sd d hp hk
  have : file' = file := by rw [hs] at h1; exact (Except.ok.inj h1).symm
  subst this
  cases v with
  | leaf l =>
    have := h3 []
    simp [Spec.probe] at this
  | dict d' =>
    refine ⟨d', by simp only [loadBeam, Bool.false_eq_true, if_false, h2], fun key l hl => ?_⟩
    have h4 := h3 [key]
    simp only [Spec.probe, hl, Option.bind_some] at h4
    cases h5 : d'.lookup key with
    | none => simp [h5] at h4
    | some x =>
      rw [h5, Option.bind_some] at h4
      cases x with
      | dict y => simp [Spec.probe] at h4
      | leaf y =>
        simp only [Spec.probe, Option.some.injEq] at h4
        rw [h4] at h5
        exact dictGet_of_lookup key _ d' h5

/-- C293: loaded into memory, the same file gives the number that was saved. -/
theorem C293_memory_number_partial {render : Obj → String} {conv : ℤ → ℤ} {sd : Bool} {d : Dict}
    (hp : Spec.Plain conv sd (.dict d)) (hk : d.keys.length ≠ 1) {file : Group} (hs : save render conv d = .ok file)
    {key : String} {l : Leaf} (hl : d.lookup key = some (.leaf l)) :
    ∃ src, loadBeam false sd file = .ok src ∧ beamNumber key src = .ok l := by
  obtain ⟨d', h1, h2⟩ := loadBeam_memory hp hk hs
  exact ⟨.inMemory d', h1, by simp only [beamNumber, h2 key l hl]⟩

/-- C293: arrays of numbers are the same lazily and in memory. -/
theorem C293_arrays_partial {render : Obj → String} {conv : ℤ → ℤ} {sd : Bool} {d : Dict}
    (hp : Spec.Plain conv sd (.dict d)) (hk : d.keys.length ≠ 1) {file : Group} (hs : save render conv d = .ok file)
    {key : String} {l : Leaf} (hl : d.lookup key = some (.leaf l)) (hn : Spec.NumArray conv l) (lazy : Bool) :
    ∃ src, loadBeam lazy sd file = .ok src ∧ beamArray key src = .ok l := by
  cases lazy with
  | false =>
    obtain ⟨d', h1, h2⟩ := loadBeam_memory hp hk hs
    exact ⟨.inMemory d', h1, by simp only [beamArray, h2 key l hl]⟩
  | true =>
    have hd : d.keys.Nodup := distinctD_nodup d (by simpa only [Spec.Distinct] using hp.1)
    obtain ⟨s, b, h1, h2⟩ := saved_member hd hs hl
    refine ⟨.lazyFile file, rfl, ?_⟩
    have hs' : ∃ shape a, l = .array shape a ∧ s = .array shape a := by
      cases l with
      | array shape a =>
        refine ⟨shape, a, rfl, ?_⟩
        cases a with
        | ints x =>
          simp only [Spec.NumArray] at hn
          have : x.map conv = x := by
            conv_rhs => rw [← List.map_id x]
            exact List.map_congr_left hn.2
          simp only [saveLeaf, formatArray, storeArr, this, if_neg hn.1, Except.ok.injEq, Prod.mk.injEq] at h1
          exact h1.1.symm
        | flts x =>
          simp only [Spec.NumArray] at hn
          simp only [saveLeaf, formatArray, storeArr, if_neg hn, Except.ok.injEq, Prod.mk.injEq] at h1
          exact h1.1.symm
        | cplxs x =>
          simp only [Spec.NumArray] at hn
          simp only [saveLeaf, formatArray, storeArr, if_neg hn, Except.ok.injEq, Prod.mk.injEq] at h1
          exact h1.1.symm
        | bools x =>
          simp only [Spec.NumArray] at hn
          simp only [saveLeaf, formatArray, storeArr, if_neg hn, Except.ok.injEq, Prod.mk.injEq] at h1
          exact h1.1.symm
        | strs x => exact absurd hn (by simp [Spec.NumArray])
        | bytes x => exact absurd hn (by simp [Spec.NumArray])
        | objs x => exact absurd hn (by simp [Spec.NumArray])
      | _ => exact absurd hn (by simp [Spec.NumArray])
    obtain ⟨shape, a, rfl, rfl⟩ := hs'
    simp only [beamArray, h2, sliceAll]

/-- C293: a file in which the size of the kernel is an array with one entry gives the same weights lazily and in
memory. -/
theorem C293_one_entry_partial {render : Obj → String} {conv : ℤ → ℤ} {sd : Bool} {d : Dict}
    (hp : Spec.Plain conv sd (.dict d)) (hk : d.keys.length ≠ 1) {file : Group} (hs : save render conv d = .ok file)
    {n : ℕ} (hl : d.lookup "dim" = some (.leaf (.array [1] (.ints [(n : ℤ)])))) (lazy : Bool)
    (o : FlagObs) (uu vv : ℕ → ℚ) (norm : ℚ → ℚ → ℚ) (w : Weights) :
    ∃ src, loadBeam lazy sd file = .ok src ∧
      visWeightsUpdateB src o uu vv norm w = visWeightsUpdate o ⟨uu, vv, norm, n⟩ w := by
  cases lazy with
  | false =>
    obtain ⟨src, h1, h2⟩ := C293_memory_number_partial hp hk hs hl
    refine ⟨src, h1, ?_⟩
    simp only [visWeightsUpdateB, h2, bind, Except.bind, kernelSize, Int.natCast_nonneg, if_true, Int.toNat_natCast]
  | true =>
    have hc : conv (n : ℤ) = n := by
      have := hp.2 ["dim"] (.array [1] (.ints [(n : ℤ)])) (by simp only [Spec.probe, hl, Option.bind_some])
      simpa [Spec.PlainLeaf] using this
    have hd : d.keys.Nodup := distinctD_nodup d (by simpa only [Spec.Distinct] using hp.1)
    obtain ⟨s, b, h1, h2⟩ := saved_member hd hs hl
    refine ⟨.lazyFile file, rfl, ?_⟩
    have hs' : s = .array [1] (.ints [(n : ℤ)]) := by
      simp only [saveLeaf, formatArray, storeArr, List.map_cons, List.map_nil, hc, reduceCtorEq, if_false,
        Except.ok.injEq, Prod.mk.injEq] at h1
      exact h1.1.symm
    simp only [visWeightsUpdateB, beamNumber, h2, hs', firstEntry, headOf, bind, Except.bind, kernelSize,
      Int.natCast_nonneg, if_true, Int.toNat_natCast]

/-- C293: in memory, the number gives the weights of that size of the kernel. -/
theorem C293_memory_partial {render : Obj → String} {conv : ℤ → ℤ} {sd : Bool} {d : Dict}
    (hp : Spec.Plain conv sd (.dict d)) (hk : d.keys.length ≠ 1) {file : Group} (hs : save render conv d = .ok file)
    {n : ℕ} (hl : d.lookup "dim" = some (.leaf (.int n)))
    (o : FlagObs) (uu vv : ℕ → ℚ) (norm : ℚ → ℚ → ℚ) (w : Weights) :
    ∃ src, loadBeam false sd file = .ok src ∧
      visWeightsUpdateB src o uu vv norm w = visWeightsUpdate o ⟨uu, vv, norm, n⟩ w := by
  obtain ⟨src, h1, h2⟩ := C293_memory_number_partial hp hk hs hl
  refine ⟨src, h1, ?_⟩
  simp only [visWeightsUpdateB, h2, bind, Except.bind, kernelSize, Int.natCast_nonneg, if_true, Int.toNat_natCast]

/-! ## Examples -/

/-- A beam: the size of the kernel, the groups and the normalisation. -/
def exBeamDict : Dict :=
  .cons "dim" (.leaf (.int 4)) (.cons "resolution" (.leaf (.int 2))
    (.cons "id" (.leaf (.array [1, 1, 3] (.ints [0, 0, 0]))) (.cons "fnorm" (.leaf (.array [2] (.flts [some 1, none]))) .nil)))

/-- As `exBeamDict`, with the size of the kernel as an array. -/
def exBeamDict1 : Dict :=
  .cons "dim" (.leaf (.array [1] (.ints [4]))) (.cons "resolution" (.leaf (.array [1] (.ints [2]))) .nil)

theorem exBeam_plain : Spec.Plain id true (.dict exBeamDict) := by
  refine ⟨by simp [Spec.Distinct, Spec.DistinctD, exBeamDict, Dict.keys], fun p l h => ?_⟩
  match p, h with
  | [], h => simp [Spec.probe] at h
  | [k], h =>
    simp only [Spec.probe, exBeamDict, Dict.lookup] at h
    split_ifs at h <;> simp [Spec.probe] at h <;> subst h <;> simp [Spec.PlainLeaf]
  | k :: j :: r, h =>
    simp only [Spec.probe, exBeamDict, Dict.lookup] at h
    split_ifs at h <;> simp [Spec.probe] at h

theorem exBeam1_plain : Spec.Plain id true (.dict exBeamDict1) := by
  refine ⟨by simp [Spec.Distinct, Spec.DistinctD, exBeamDict1, Dict.keys], fun p l h => ?_⟩
  match p, h with
  | [], h => simp [Spec.probe] at h
  | [k], h =>
    simp only [Spec.probe, exBeamDict1, Dict.lookup] at h
    split_ifs at h <;> simp [Spec.probe] at h <;> subst h <;> simp [Spec.PlainLeaf]
  | k :: j :: r, h =>
    simp only [Spec.probe, exBeamDict1, Dict.lookup] at h
    split_ifs at h <;> simp [Spec.probe] at h

/-- The hypotheses of `C293_lazy_fails`, `C293_lazy_number`, `C293_memory_partial` and `C293_memory_number_partial` hold
together, with four members in the file. -/
example : ∃ file, save (fun _ => "") id exBeamDict = .ok file ∧ file.size = 4 ∧ exBeamDict.keys.Nodup ∧
    exBeamDict.keys.length ≠ 1 ∧ Spec.Plain id true (.dict exBeamDict) ∧
    exBeamDict.lookup "dim" = some (.leaf (.int 4)) ∧
    exBeamDict.lookup "fnorm" = some (.leaf (.array [2] (.flts [some 1, none]))) ∧
    Spec.NumArray id (.array [2] (.flts [some 1, none])) := by
  obtain ⟨g, hg⟩ := saveDict_ok (fun _ => "") id true exBeamDict .nil exBeam_plain
  obtain ⟨_, h2, _, _⟩ := saveDict_spec (fun _ => "") id exBeamDict .nil g (by simp [exBeamDict, Dict.keys])
    (by simp [Group.names]) (by simp [Group.names]) hg
  exact ⟨g, hg, by rw [h2]; rfl, by simp [exBeamDict, Dict.keys], by simp [exBeamDict, Dict.keys], exBeam_plain, rfl,
    by simp [exBeamDict, Dict.lookup], by simp [Spec.NumArray]⟩

/-- The hypotheses of `C293_one_entry_partial`. -/
example : ∃ file, save (fun _ => "") id exBeamDict1 = .ok file ∧ exBeamDict1.keys.length ≠ 1 ∧
    Spec.Plain id true (.dict exBeamDict1) ∧
    exBeamDict1.lookup "dim" = some (.leaf (.array [1] (.ints [((4 : ℕ) : ℤ)]))) := by
  obtain ⟨g, hg⟩ := saveDict_ok (fun _ => "") id true exBeamDict1 .nil exBeam1_plain
  exact ⟨g, hg, by simp [exBeamDict1, Dict.keys], exBeam1_plain, rfl⟩

end PyFHD
