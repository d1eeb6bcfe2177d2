import Verif.Model.Degrid
import Verif.Props.Healpix

/-!
# Degridding and the holographic mapping function (C230, C231)
-/

namespace PyFHD

open Spec

namespace Spec

/-- The arguments of a call fit a function: every parameter gets at most one argument and every argument a parameter, and the required
parameters get one. -/
def CallFits (required optional : List String) (nPos : ℕ) (kws : List String) : Prop :=
  nPos ≤ (required ++ optional).length ∧
  (∀ k ∈ kws, ∃ i, nPos ≤ i ∧ (required ++ optional)[i]? = some k) ∧
  (∀ r ∈ required, (∃ i, i < nPos ∧ (required ++ optional)[i]? = some r) ∨ r ∈ kws)

/-- A map holds an array for every pixel of a square. -/
def FullMap (mapFn : List (List (Option HoloEntry))) (n : ℕ) : Prop :=
  mapFn.length = n ∧ ∀ row ∈ mapFn, row.length = n ∧ ∀ e ∈ row, ∃ a : HoloEntry, e = some a ∧ 0 < a.ndim

/-- The array of a pixel holds a value above the threshold. -/
def Above (mapFn : List (List (Option HoloEntry))) (threshold : ℚ) (x y : ℕ) : Prop :=
  ∃ row e, mapFn[x]? = some row ∧ row[y]? = some (some e) ∧ ∃ m ∈ (e : HoloEntry).mags, threshold < m

end Spec

theorem mem_take_iff_index (l : List String) (n : ℕ) (k : String) :
    (l.take n).contains k = true ↔ ∃ i, i < n ∧ l[i]? = some k := by
  rw [List.contains_eq_mem, decide_eq_true_eq, List.mem_iff_getElem?]
  constructor
  · rintro ⟨i, hi⟩
    rw [List.getElem?_take] at hi
    split_ifs at hi with h
    exact ⟨i, h, hi⟩
  · rintro ⟨i, h, hi⟩
    exact ⟨i, by rw [List.getElem?_take, if_pos h, hi]⟩

/-- A call binds exactly if its arguments fit, for a function whose parameters have different names. -/
theorem bindCall_spec (s : PySig) (nPos : ℕ) (kws : List String) (hn : s.names.Nodup) :
    bindCall s nPos kws = .ok () ↔ CallFits s.required s.optional nPos kws := by
  unfold bindCall CallFits
  rw [show s.required ++ s.optional = s.names from rfl]
  have hinj : ∀ (i j : ℕ) (k : String), s.names[i]? = some k → s.names[j]? = some k → i = j := by
    intro i j k hi hj
    obtain ⟨hi', hi⟩ := List.getElem?_eq_some_iff.mp hi
    obtain ⟨hj', hj⟩ := List.getElem?_eq_some_iff.mp hj
    exact (List.Nodup.getElem_inj_iff hn).mp (hi.trans hj.symm)
  by_cases h1 : s.names.length < nPos
  · rw [if_pos h1]
    simp only [reduceCtorEq, false_iff, not_and]
    intro h; omega
  rw [if_neg h1]
  by_cases h2 : kws.any (fun k => !s.names.contains k) = true
  · rw [if_pos h2]
    simp only [reduceCtorEq, false_iff]
    rintro ⟨_, h, _⟩
    obtain ⟨k, hk, hc⟩ := List.any_eq_true.mp h2
    obtain ⟨i, _, hi⟩ := h k hk
    have : k ∈ s.names := List.mem_of_getElem? hi
    simp [this] at hc
  rw [if_neg h2]
  by_cases h3 : kws.any (fun k => (s.names.take nPos).contains k) = true
  · rw [if_pos h3]
    simp only [reduceCtorEq, false_iff]
    rintro ⟨_, h, _⟩
    obtain ⟨k, hk, hc⟩ := List.any_eq_true.mp h3
    obtain ⟨j, hj, hj'⟩ := (mem_take_iff_index _ _ _).mp hc
    obtain ⟨i, hi, hi'⟩ := h k hk
    have := hinj i j k hi' hj'
    omega
  rw [if_neg h3]
  by_cases h4 : s.required.any (fun r => !(s.names.take nPos).contains r && !kws.contains r) = true
  · rw [if_pos h4]
    simp only [reduceCtorEq, false_iff]
    rintro ⟨_, _, h⟩
    obtain ⟨r, hr, hc⟩ := List.any_eq_true.mp h4
    simp only [Bool.and_eq_true, Bool.not_eq_true'] at hc
    rcases h r hr with h | h
    · rw [(mem_take_iff_index _ _ _).mpr h] at hc
      exact absurd hc.1 (by simp)
    · simp [h] at hc
  rw [if_neg h4]
  simp only [true_iff]
  refine ⟨by omega, ?_, ?_⟩
  · intro k hk
    have hm : k ∈ s.names := by
      by_contra hm
      exact h2 (List.any_eq_true.mpr ⟨k, hk, by simp [hm]⟩)
    obtain ⟨i, hi⟩ := List.mem_iff_getElem?.mp hm
    refine ⟨i, ?_, hi⟩
    by_contra hlt
    exact h3 (List.any_eq_true.mpr ⟨k, hk, (mem_take_iff_index _ _ _).mpr ⟨i, by omega, hi⟩⟩)
  · intro r hr
    by_contra hc
    rw [not_or] at hc
    refine h4 (List.any_eq_true.mpr ⟨r, hr, ?_⟩)
    have : (s.names.take nPos).contains r = false := by
      rw [← Bool.not_eq_true]
      exact fun h => hc.1 ((mem_take_iff_index _ _ _).mp h)
    rw [this]; simp [hc.2]

/-! ## C230 -/

/-- The call in `visibility_degrid` does not fit the function it calls: nothing is passed for its logger. -/
theorem C230_call_does_not_fit :
    ¬ CallFits ["obs", "psf", "params", "vis_weights", "logger"]
      ["bi_use", "fi_use", "fill_model_visibilities", "interp_flag", "mask_mirror_indices"] 4
      ["fill_model_visibilities", "interp_flag"] := by
  rintro ⟨_, _, h⟩
  rcases h "logger" (by simp) with ⟨i, hi, he⟩ | h
  · match i, hi with
    | 0, _ => simp at he
    | 1, _ => simp at he
    | 2, _ => simp at he
    | 3, _ => simp at he
  · simp at h

/-- Degridding never returns visibilities, whatever its arguments are. -/
theorem C230_never {V : Type} (complexFlag : Py Bool) (nSpectral : Py ℕ) (interp : Py Bool) (beamPerBaseline : Bool)
    (rest : Bool → ℕ → Bool → Py V) (v : V) :
    visibilityDegrid complexFlag nSpectral interp beamPerBaseline rest ≠ .ok v := by
  have hb : bindCall gridLocationsSig 4 ["fill_model_visibilities", "interp_flag"] ≠ .ok () := by
    rw [Ne, bindCall_spec gridLocationsSig 4 _ (by decide +kernel)]
    exact C230_call_does_not_fit
  unfold visibilityDegrid
  cases complexFlag with
  | error e => exact fun h => by cases h
  | ok cf =>
    cases nSpectral with
    | error e => exact fun h => by cases h
    | ok ns =>
      cases interp with
      | error e => exact fun h => by cases h
      | ok ip =>
        simp only [bind, Except.bind]
        cases hb' : bindCall gridLocationsSig 4 ["fill_model_visibilities", "interp_flag"] with
        | error e => exact fun h => by cases h
        | ok u => exact absurd hb' hb

/-- With the flags given as arrays it is a `TypeError`. -/
theorem C230_type_error {V : Type} (cf ip beamPerBaseline : Bool) (ns : ℕ) (rest : Bool → ℕ → Bool → Py V) :
    visibilityDegrid (.ok cf) (.ok ns) (.ok ip) beamPerBaseline rest = .error .typeError := rfl

/-- The calls in gridding and in the count of visibilities do fit. -/
theorem C230_other_calls_partial :
    CallFits ["obs", "psf", "params", "vis_weights", "logger"]
      ["bi_use", "fi_use", "fill_model_visibilities", "interp_flag", "mask_mirror_indices"] 5
      ["bi_use", "fi_use", "mask_mirror_indices", "interp_flag"] ∧
    CallFits ["obs", "psf", "params", "vis_weights", "logger"]
      ["bi_use", "fi_use", "fill_model_visibilities", "interp_flag", "mask_mirror_indices"] 5
      ["bi_use", "fi_use", "mask_mirror_indices", "fill_model_visibilities"] := by
  constructor
  · exact (bindCall_spec gridLocationsSig 5 ["bi_use", "fi_use", "mask_mirror_indices", "interp_flag"]
      (by decide +kernel)).mp (by decide +kernel)
  · exact (bindCall_spec gridLocationsSig 5 ["bi_use", "fi_use", "mask_mirror_indices", "fill_model_visibilities"]
      (by decide +kernel)).mp (by decide +kernel)

/-! ## C231 -/

/-- No map function is ever converted. -/
theorem C231_never {V : Type} (mapFn : List (List (Option HoloEntry))) (dimension : ℕ) (elements : Option ℕ) (threshold : ℚ)
    (rest : List ℕ → Py V) (v : V) : holoConvert mapFn dimension elements threshold rest ≠ .ok (some v) := by
  unfold holoConvert
  simp only
  cases (holoPixels dimension (elements.getD dimension)).mapM
      fun p => holoPixel mapFn dimension (elements.getD dimension) threshold p.1 p.2 with
  | error e => exact fun h => by cases h
  | ok counts =>
    simp only [bind, Except.bind, pure, Except.pure]
    split_ifs
    · exact fun h => by cases h
    · exact fun h => by cases h

theorem mem_holoPixels (n el : ℕ) (p : ℕ × ℕ) : p ∈ holoPixels n el ↔ p.1 + 1 < n ∧ p.2 + 1 < el := by
  unfold holoPixels
  simp only [List.mem_flatMap, List.mem_range, List.mem_map]
  constructor
  · rintro ⟨x, hx, y, hy, rfl⟩
    exact ⟨by simp only; omega, by simp only; omega⟩
  · rintro ⟨h1, h2⟩
    exact ⟨p.1, by omega, p.2, by omega, rfl⟩

theorem holoPixel_full (mapFn : List (List (Option HoloEntry))) (n : ℕ) (threshold : ℚ) (hf : FullMap mapFn n) (x y : ℕ) (hx : x < n)
    (hy : y < n) : ∃ c, holoPixel mapFn n n threshold x y = .ok c ∧ (c ≠ 0 ↔ Above mapFn threshold x y) := by
  obtain ⟨hl, hr⟩ := hf
  have hx' : x < mapFn.length := by omega
  have hrow := hr mapFn[x] (List.getElem_mem hx')
  have hy' : y < mapFn[x].length := by omega
  obtain ⟨e, he, hnd⟩ := hrow.2 mapFn[x][y] (List.getElem_mem hy')
  have e1 : mapFn[x]? = some mapFn[x] := List.getElem?_eq_getElem hx'
  have e2 : mapFn[x][y]? = some (some e) := by rw [List.getElem?_eq_getElem hy', he]
  refine ⟨holoCount threshold e, ?_, ?_⟩
  · unfold holoPixel
    rw [e1]
    simp only [e2, if_pos (And.intro hx hy)]
  · unfold holoCount Above
    rw [Nat.mul_ne_zero_iff, ← Nat.pos_iff_ne_zero (n := List.countP _ _), List.countP_pos_iff]
    constructor
    · rintro ⟨_, m, hm, ht⟩
      exact ⟨_, e, e1, e2, m, hm, by simpa using ht⟩
    · rintro ⟨row, e', h1, h2, m, hm, ht⟩
      rw [e1] at h1
      cases h1
      rw [e2] at h2
      cases h2
      exact ⟨by omega, m, hm, by simpa using ht⟩

/-- For a square map with an array for every pixel, 0 is returned exactly if no pixel outside the last row and column holds a value above the
threshold, and otherwise an `AttributeError` is raised. Missing: the conversion itself (`C231_never`), the last row and column
(`C231_last_ignored`). -/
theorem C231_nothing_partial {V : Type} (mapFn : List (List (Option HoloEntry))) (n : ℕ) (threshold : ℚ) (rest : List ℕ → Py V)
    (hf : FullMap mapFn n) :
    (holoConvert mapFn n none threshold rest = .ok none ↔ ∀ x y, x + 1 < n → y + 1 < n → ¬ Above mapFn threshold x y) ∧
    ((∃ x y, x + 1 < n ∧ y + 1 < n ∧ Above mapFn threshold x y) →
      holoConvert mapFn n none threshold rest = .error .attributeError) := by
  have hall : ∀ p : ℕ × ℕ, ∃ c, p ∈ holoPixels n n → holoPixel mapFn n n threshold p.1 p.2 = .ok c ∧
      (c ≠ 0 ↔ Above mapFn threshold p.1 p.2) := by
    intro p
    by_cases hp : p ∈ holoPixels n n
    · have := (mem_holoPixels n n p).mp hp
      obtain ⟨c, hc⟩ := holoPixel_full mapFn n threshold hf p.1 p.2 (by omega) (by omega)
      exact ⟨c, fun _ => hc⟩
    · exact ⟨0, fun h => absurd h hp⟩
  choose g hg using hall
  have hm := mapM_ok (fun p : ℕ × ℕ => holoPixel mapFn n n threshold p.1 p.2) g (holoPixels n n) (fun p hp => (hg p hp).1)
  have hz : (((holoPixels n n).map g).all (· == 0)) = true ↔ ∀ x y, x + 1 < n → y + 1 < n → ¬ Above mapFn threshold x y := by
    rw [List.all_eq_true]
    constructor
    · intro h x y hx hy hA
      have hp := (mem_holoPixels n n (x, y)).mpr ⟨hx, hy⟩
      have := h (g (x, y)) (List.mem_map_of_mem hp)
      exact (hg _ hp).2.mpr hA (by simpa using this)
    · intro h c hc
      obtain ⟨p, hp, rfl⟩ := List.mem_map.mp hc
      have hpp := (mem_holoPixels n n p).mp hp
      by_contra hne
      exact h p.1 p.2 hpp.1 hpp.2 ((hg p hp).2.mp (by simpa using hne))
  unfold holoConvert
  simp only [Option.getD_none, hm, bind, Except.bind, pure, Except.pure]
  constructor
  · rw [← hz]
    by_cases h : (((holoPixels n n).map g).all (· == 0)) = true
    · simp [h]
    · rw [if_neg h]
      simp [h]
  · rintro ⟨x, y, hx, hy, hA⟩
    have : ¬ (((holoPixels n n).map g).all (· == 0)) = true := fun h => hz.mp h x y hx hy hA
    rw [if_neg this]

/-- Values in the last row or column are never looked at: if there are no others the result is 0 as for an empty map. -/
theorem C231_last_ignored {V : Type} (mapFn : List (List (Option HoloEntry))) (n : ℕ) (threshold : ℚ) (rest : List ℕ → Py V)
    (hf : FullMap mapFn n) (h : ∀ x y, Above mapFn threshold x y → x + 1 = n ∨ y + 1 = n) :
    holoConvert mapFn n none threshold rest = .ok none :=
  (C231_nothing_partial mapFn n threshold rest hf).1.mpr fun x y hx hy hA => by
    rcases h x y hA with h | h <;> omega

/-- Two by two pixels with one value above the threshold in the last column. -/
def exHolo : List (List (Option HoloEntry)) := [[some ⟨2, [0]⟩, some ⟨2, [1]⟩], [some ⟨2, [0]⟩, some ⟨2, [0]⟩]]

example : FullMap exHolo 2 ∧ Above exHolo (1/2) 0 1 := by
  refine ⟨⟨rfl, ?_⟩, ⟨[some ⟨2, [0]⟩, some ⟨2, [1]⟩], ⟨2, [1]⟩, rfl, rfl, 1, by simp, by norm_num⟩⟩
  intro row hrow
  simp only [exHolo, List.mem_cons, List.not_mem_nil, or_false] at hrow
  rcases hrow with rfl | rfl <;> refine ⟨rfl, fun e he => ?_⟩ <;> simp at he
  · rcases he with rfl | rfl
    · exact ⟨_, rfl, by decide⟩
    · exact ⟨_, rfl, by decide⟩
  · subst he
    exact ⟨_, rfl, by decide⟩

example : (holoConvert exHolo 2 none (1/2) (fun _ => Except.ok ())).toOption = some none := by decide +kernel

example : (match holoConvert [[some ⟨2, [1]⟩, some ⟨2, [1]⟩], [some ⟨2, [0]⟩, some ⟨2, [0]⟩]] 2 none (1/2) (fun _ => Except.ok ()) with
    | .error e => some e | .ok _ => none) = some PyErr.attributeError := by decide +kernel

end PyFHD
