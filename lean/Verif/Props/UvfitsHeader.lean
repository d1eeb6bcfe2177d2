import Verif.Model.UvfitsHeader
import Verif.Props.DataSetup

/-!
# Header and group parameters of the file (C217 to C219)
-/

namespace PyFHD

open Spec

namespace Spec

/-- The value of a group parameter in the uvfits format: parameters with the same name are added. -/
def groupValue (cols : List GroupCol) (name : String) (b : ℕ) : ℚ :=
  ((cols.filter fun c => c.name == name).map fun c => c.raw.getD b 0 * c.scale + c.zero).sum

/-- The file holds `n` visibilities. -/
def Rows (cols : List GroupCol) (n : ℕ) : Prop := ∀ c ∈ cols, c.raw.length = n

/-- A name is used once. -/
def Once (cols : List GroupCol) (name : String) : Prop := (cols.filter fun c => c.name == name).length = 1

end Spec

theorem uvField_some (cols : List GroupCol) (name : String) (h : ∃ c ∈ cols, c.name = name) :
    ∃ c ∈ cols, c.name = name ∧ cols.find? (fun c => c.name == name) = some c ∧ uvField cols name = some c.values := by
  have : (cols.find? fun c => c.name == name).isSome = true := by
    rw [List.find?_isSome]
    obtain ⟨c, hc, hn⟩ := h
    exact ⟨c, hc, by simp [hn]⟩
  obtain ⟨c, hc⟩ := Option.isSome_iff_exists.mp this
  refine ⟨c, List.mem_of_find?_eq_some hc, by simpa using List.find?_some hc, hc, by rw [uvField, hc]; rfl⟩

theorem uvField_once (cols : List GroupCol) (name : String) (n : ℕ) (hr : Rows cols n) (h : Once cols name) :
    uvField cols name = some ((List.range n).map (groupValue cols name)) := by
  obtain ⟨c, hc⟩ := List.length_eq_one_iff.mp h
  have hmem : c ∈ cols.filter fun c => c.name == name := by rw [hc]; simp
  have hcm := List.mem_filter.mp hmem
  obtain ⟨d, hd, hdn, _, hf⟩ := uvField_some cols name ⟨c, hcm.1, by simpa using hcm.2⟩
  have hdc : d = c := by
    have : d ∈ cols.filter fun c => c.name == name := List.mem_filter.mpr ⟨hd, by simp [hdn]⟩
    rw [hc] at this; simpa using this
  subst hdc
  rw [hf]
  congr 1
  apply List.ext_getElem
  · simp [GroupCol.values, hr d hd]
  · intro i h1 h2
    have hi : i < d.raw.length := by simpa [GroupCol.values] using h1
    simp [GroupCol.values, groupValue, hc, hi]

/-- When the names of coordinates, date and antennas are each used once, these are what the file says for every visibility. -/
theorem C217_columns_partial (cols : List GroupCol) (n : ℕ) (hr : Rows cols n) (hu : Once cols "UU") (hv : Once cols "VV")
    (hw : Once cols "WW") (hd : Once cols "DATE") (h1 : Once cols "ANTENNA1") (h2 : Once cols "ANTENNA2") :
    createParams cols true = .ok
      { uu := (List.range n).map (groupValue cols "UU"), vv := (List.range n).map (groupValue cols "VV"),
        ww := (List.range n).map (groupValue cols "WW"), time := (List.range n).map (groupValue cols "DATE"),
        antenna1 := (List.range n).map (groupValue cols "ANTENNA1"),
        antenna2 := (List.range n).map (groupValue cols "ANTENNA2") } := by
  unfold createParams uvAntennas
  rw [if_pos rfl, uvField_once cols _ n hr hu, uvField_once cols _ n hr hv, uvField_once cols _ n hr hw,
    uvField_once cols _ n hr hd, uvField_once cols _ n hr h1, uvField_once cols _ n hr h2]
  rfl

/-- When the date is split into two parameters, as the format allows, only the first is used: the times are off by the second. -/
theorem C217_split_date (cols : List GroupCol) (ant : Bool) (n : ℕ) (hr : Rows cols n) (p : GroupParams)
    (h : createParams cols ant = .ok p) (c1 c2 : GroupCol)
    (hd : (cols.filter fun c => c.name == "DATE") = [c1, c2]) (b : ℕ) (hb : b < n) :
    p.time[b]? = some (groupValue cols "DATE" b - (c2.raw.getD b 0 * c2.scale + c2.zero)) := by
  have hfind : cols.find? (fun c => c.name == "DATE") = some c1 := by
    rw [← List.head?_filter, hd]; rfl
  have hf : uvField cols "DATE" = some c1.values := by rw [uvField, hfind]; rfl
  have hc1 : c1 ∈ cols := List.mem_of_find?_eq_some hfind
  have ht : p.time = c1.values := by
    unfold createParams at h
    rw [hf] at h
    split at h
    · rename_i u v w t r _ _ _ e4 _
      cases e4
      cases r with
      | error e => cases h
      | ok ab => cases h; rfl
    · cases h
  have hlen : b < c1.raw.length := by rw [hr c1 hc1]; exact hb
  rw [ht]
  simp [GroupCol.values, groupValue, hd, hlen]

/-- When the first part is the day, all visibilities of the day get the same time, whatever the second part says. -/
theorem C217_split_day (cols : List GroupCol) (ant : Bool) (n : ℕ) (hr : Rows cols n) (p : GroupParams)
    (h : createParams cols ant = .ok p) (c1 c2 : GroupCol)
    (hd : (cols.filter fun c => c.name == "DATE") = [c1, c2]) (day : ℚ) (hday : c1.raw = List.replicate n day) :
    ∃ t, ∀ b < n, p.time[b]? = some t := by
  refine ⟨day * c1.scale + c1.zero, fun b hb => ?_⟩
  rw [C217_split_date cols ant n hr p h c1 c2 hd b hb]
  simp [groupValue, hd, hday, hb]

/-- A file with the date in two parameters: day and fraction. -/
def exUvCols : List GroupCol :=
  [⟨"UU", 1, 0, [1, 2]⟩, ⟨"VV", 1, 0, [3, 4]⟩, ⟨"WW", 1, 0, [5, 6]⟩, ⟨"ANTENNA1", 1, 0, [1, 1]⟩, ⟨"ANTENNA2", 1, 0, [2, 2]⟩,
    ⟨"DATE", 1, 2456000, [1/2, 1/2]⟩]

example : Rows exUvCols 2 ∧ Once exUvCols "UU" ∧ Once exUvCols "DATE" ∧ Once exUvCols "ANTENNA2" := by
  refine ⟨?_, by unfold Once; decide +kernel, by unfold Once; decide +kernel, by unfold Once; decide +kernel⟩
  unfold Rows; decide +kernel

example : (createParams (exUvCols ++ [⟨"DATE", 1, 0, [1/8, 1/4]⟩]) true).map GroupParams.time =
    .ok [4912001/2, 4912001/2] := by decide +kernel

/-! ## Header -/

/-- For an instrument that astropy knows, the place, the pointing and the presence of a date are taken from the header, and the place from
astropy where the header does not give it. -/
theorem C218_header_first_partial (sites : String → Option Site) (fits : ℚ → String) (instrument : String) (h : UvCards)
    (cols : List GroupCol) (s : Site) (hs : sites instrument = some s) (r : UvPlace)
    (hr : uvHeader sites fits instrument h cols = .ok r) :
    (∀ x, h.lon = some x → r.site.lon = x) ∧ (h.lon = none → r.site.lon = s.lon) ∧
    (∀ x, h.lat = some x → r.site.lat = x) ∧ (h.lat = none → r.site.lat = s.lat) ∧
    (∀ x, h.alt = some x → r.site.alt = x) ∧ (h.alt = none → r.site.alt = s.alt) := by
  unfold uvHeader at hr
  simp only [bind, Except.bind, hs] at hr
  split at hr
  · cases hr
  split at hr
  · cases hr
  split at hr
  · cases hr
  split at hr
  · cases hr
  split at hr
  · cases hr
  cases hr
  refine ⟨?_, ?_, ?_, ?_, ?_, ?_⟩ <;> intros <;> simp_all

/-- For another instrument the file cannot be read, even if the header gives the place. -/
theorem C218_unknown_fails (sites : String → Option Site) (fits : ℚ → String) (instrument : String) (h : UvCards)
    (cols : List GroupCol) (hs : sites instrument = none) : ∃ e, uvHeader sites fits instrument h cols = .error e := by
  unfold uvHeader
  simp only [bind, Except.bind, hs]
  split
  · exact ⟨_, rfl⟩
  split
  · exact ⟨_, rfl⟩
  split
  · exact ⟨_, rfl⟩
  exact ⟨_, rfl⟩

/-- The pointing is that of `OBSRA` and `OBSDEC`, else that of `RA` and `DEC`; a file with neither is refused. -/
theorem C219_pointing (sites : String → Option Site) (fits : ℚ → String) (instrument : String) (h : UvCards)
    (cols : List GroupCol) (r : UvPlace) (hr : uvHeader sites fits instrument h cols = .ok r) :
    (∀ x, h.obsra = some x → r.obsra = x) ∧ (h.obsra = none → h.ra = some r.obsra) ∧
      (∀ x, h.obsdec = some x → r.obsdec = x) ∧ (h.obsdec = none → h.dec = some r.obsdec) := by
  unfold uvHeader at hr
  simp only [bind, Except.bind] at hr
  split at hr
  · cases hr
  split at hr
  · cases hr
  rename_i ra hra
  split at hr
  · cases hr
  rename_i dec hdec
  have hro : r.obsra = ra ∧ r.obsdec = dec := by
    split at hr
    · cases hr
    split at hr
    · cases hr
    split at hr
    · cases hr
    cases hr
    exact ⟨rfl, rfl⟩
  rw [hro.1, hro.2]
  have key : ∀ (a b : Option ℚ) (x : ℚ), cardOr a b = .ok x → (∀ y, a = some y → x = y) ∧ (a = none → b = some x) := by
    intro a b x hx
    unfold cardOr at hx
    cases a with
    | some a =>
      cases hx
      refine ⟨fun y hy => ?_, fun h => ?_⟩
      · cases hy; rfl
      · cases h
    | none =>
      cases b with
      | some b =>
        cases hx
        refine ⟨fun y hy => ?_, fun _ => rfl⟩
        cases hy
      | none => cases hx
  obtain ⟨k1, k2⟩ := key _ _ _ hra
  obtain ⟨k3, k4⟩ := key _ _ _ hdec
  exact ⟨k1, k2, k3, k4⟩

/-- A file without a pointing or without a date is refused. -/
theorem C219_refused (sites : String → Option Site) (fits : ℚ → String) (instrument : String) (h : UvCards)
    (cols : List GroupCol) (hm : (h.obsra = none ∧ h.ra = none) ∨ (h.obsdec = none ∧ h.dec = none) ∨
      (h.dateObs = none ∧ h.dateobs = none)) : uvHeader sites fits instrument h cols = .error .keyError := by
  have key : ∀ (α : Type) (a b : Option α) (e : PyErr), cardOr a b = .error e → e = .keyError := by
    intro α a b e he
    unfold cardOr at he
    cases a <;> cases b <;> cases he
    rfl
  unfold uvHeader
  simp only [bind, Except.bind]
  split
  · rename_i e he; rw [key _ _ _ _ he]
  rename_i hd
  split
  · rename_i e he; rw [key _ _ _ _ he]
  rename_i hra
  split
  · rename_i e he; rw [key _ _ _ _ he]
  rename_i hdec
  rcases hm with ⟨h1, h2⟩ | ⟨h1, h2⟩ | ⟨h1, h2⟩
  · rw [h1, h2] at hra; cases hra
  · rw [h1, h2] at hdec; cases hdec
  · rw [h1, h2] at hd; cases hd

/-- The reference date is the zero of the date's parameter, or the first value of the first one if the date is split; the recorded date is
this one, whatever date the header gives. -/
theorem C219_date (sites : String → Option Site) (fits : ℚ → String) (instrument : String) (h : UvCards)
    (cols : List GroupCol) (r : UvPlace) (hr : uvHeader sites fits instrument h cols = .ok r) :
    r.dateobs = fits r.jd0 ∧ ∃ c ∈ cols, c.name = "DATE" ∧ (Once cols "DATE" → r.jd0 = c.zero) ∧
      (¬ Once cols "DATE" → ∃ x, c.raw.head? = some x ∧ r.jd0 = x * c.scale + c.zero) := by
  unfold uvHeader at hr
  simp only [bind, Except.bind] at hr
  split at hr
  · cases hr
  split at hr
  · cases hr
  split at hr
  · cases hr
  split at hr
  · cases hr
  split at hr
  · cases hr
  split at hr
  · cases hr
  rename_i jd hjd
  cases hr
  refine ⟨rfl, ?_⟩
  show ∃ c ∈ cols, c.name = "DATE" ∧ (Once cols "DATE" → jd = c.zero) ∧
      (¬ Once cols "DATE" → ∃ x, c.raw.head? = some x ∧ jd = x * c.scale + c.zero)
  unfold uvJd0 at hjd
  cases hf : cols.find? (fun c => c.name == "DATE") with
  | none => rw [hf] at hjd; cases hjd
  | some c =>
    rw [hf] at hjd
    simp only at hjd
    have hmem := List.mem_of_find?_eq_some hf
    have hn : c.name = "DATE" := by simpa using List.find?_some hf
    refine ⟨c, hmem, hn, ?_, ?_⟩
    · intro ho
      rw [if_neg (by rw [List.countP_eq_length_filter]; unfold Once at ho; omega)] at hjd
      cases hjd; rfl
    · intro ho
      have h1 : 0 < cols.countP (fun c => c.name == "DATE") :=
        List.countP_pos_iff.mpr ⟨c, hmem, by simp [hn]⟩
      have h2 : cols.countP (fun c => c.name == "DATE") ≠ 1 := by
        intro e; exact ho (by unfold Once; rw [← List.countP_eq_length_filter]; exact e)
      rw [if_pos (by omega)] at hjd
      unfold GroupCol.values at hjd
      cases hrw : c.raw with
      | nil => rw [hrw] at hjd; cases hjd
      | cons x l =>
        rw [hrw] at hjd
        simp only [List.map_cons, Except.ok.injEq] at hjd
        exact ⟨x, rfl, by rw [← hjd]; ring⟩

/-- A header with `RA` and `DEC` only, for a known and for an unknown instrument. -/
def exUvCards : UvCards := ⟨none, some "2014-07-01", none, some 60, none, some (-27), none, some (-26), none⟩

def exUvSites (s : String) : Option Site := if s = "mwa" then some ⟨116, -27, 377⟩ else none

example : uvHeader exUvSites (fun _ => "date") "mwa" exUvCards exUvCols =
    .ok ⟨60, -27, ⟨116, -26, 377⟩, 2456000, "date"⟩ := by decide +kernel

example : uvHeader exUvSites (fun _ => "date") "hera" { exUvCards with lon := some 21, alt := some 1000 } exUvCols =
    .error .typeError := by decide +kernel

end PyFHD
