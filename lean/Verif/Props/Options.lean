import Verif.Model.Options
import Mathlib.Data.List.Nodup
import Mathlib.Tactic.Common

/-!
# Options on the command line and in the configuration file (C198 to C203)
-/

namespace PyFHD

namespace Spec

/-- The arguments of every mention of an option on the command line. -/
def mentions (d : OptDecl) (cl : List Arg) : List (List (List Char)) :=
  (cl.filter fun a => decide (a.name ∈ d.names)).map Arg.vals

/-- The settings of an option in the file, without nulls. -/
def settings (d : OptDecl) (file : List (String × YVal)) : List YVal :=
  (file.filter fun kv => decide ("--" ++ kv.1 ∈ d.names ∧ kv.2 ≠ .null)).map Prod.snd

/-- The value that arguments mean for options that hold one text, one number or a list of texts. -/
def Means (cv : Conv) (k : OptKind) (vals : List (List Char)) (x : OptVal) : Prop :=
  match k, vals with
  | .text, [v] => x = .text v
  | .int, [v] => ∃ i, cv.int v = some i ∧ x = .num i
  | .float, [v] => ∃ q, cv.float v = some q ∧ x = .num q
  | .oneOf l, [v] => (∃ s ∈ l, s.toList = v) ∧ x = .text v
  | .oneOfInts l, [v] => ∃ i ∈ l, cv.int v = some i ∧ x = .num i
  | .many, vs => x = .list vs
  | _, _ => False

/-- Options that hold one text, one number or a list of texts. -/
def Holds : OptKind → Prop
  | .switch => False
  | .chars => False
  | .append => False
  | _ => True

/-- The arguments that a setting of the file stands for. -/
def settingVals : YVal → List (List Char)
  | .null => []
  | .plain s => [s]
  | .seq l => l

/-- A text that turns a switch on, in any case. -/
def On : YVal → Prop
  | .plain s => s.map Char.toLower ∈ ["true".toList, "yes".toList, "on".toList, "1".toList]
  | _ => False

/-- A text that leaves a switch off. -/
def Off : YVal → Prop
  | .plain s => s.map Char.toLower ∈ ["false".toList, "no".toList, "off".toList, "0".toList]
  | _ => False

/-- A text taken apart into its characters. -/
def characters (v : List Char) : List (List Char) := v.map fun c => [c]

end Spec

/-- The names and keys of the options are all different. -/
def TableOk (table : List OptDecl) : Prop :=
  (table.map OptDecl.dest).Nodup ∧ (table.flatMap OptDecl.names).Nodup ∧ ∀ d ∈ table, d.names ≠ []

theorem table_ok : TableOk optionTable := by
  unfold TableOk
  decide +kernel

theorem names_unique {table : List OptDecl} (hn : (table.flatMap OptDecl.names).Nodup) {d e : OptDecl}
    (hd : d ∈ table) (he : e ∈ table) {n : String} (h1 : n ∈ d.names) (h2 : n ∈ e.names) : d = e := by
  induction table with
  | nil => cases hd
  | cons a t ih =>
    rw [List.flatMap_cons, List.nodup_append] at hn
    obtain ⟨_, ht, hdis⟩ := hn
    rcases List.mem_cons.1 hd with rfl | hd'
    · rcases List.mem_cons.1 he with rfl | he'
      · rfl
      · exact absurd rfl (hdis n h1 n (List.mem_flatMap.2 ⟨e, he', h2⟩))
    · rcases List.mem_cons.1 he with rfl | he'
      · exact absurd rfl (hdis n h2 n (List.mem_flatMap.2 ⟨d, hd', h1⟩))
      · exact ih ht hd' he'

theorem dest_unique {table : List OptDecl} (hn : (table.map OptDecl.dest).Nodup) {d e : OptDecl}
    (hd : d ∈ table) (he : e ∈ table) (h : d.dest = e.dest) : d = e :=
  List.inj_on_of_nodup_map hn hd he h

theorem findOpt_some {table : List OptDecl} {n : String} {d : OptDecl} (h : findOpt table n = some d) :
    d ∈ table ∧ n ∈ d.names := by
  refine ⟨List.mem_of_find?_eq_some h, ?_⟩
  have := List.find?_some h
  simpa using this

theorem findOpt_of {table : List OptDecl} (ht : TableOk table) {n : String} {d : OptDecl} (hd : d ∈ table)
    (h : n ∈ d.names) : findOpt table n = some d := by
  cases hf : findOpt table n with
  | none =>
    have := List.find?_eq_none.1 hf d hd
    simp [h] at this
  | some e =>
    obtain ⟨he, hn⟩ := findOpt_some hf
    rw [names_unique ht.2.1 hd he h hn]

theorem findOpt_none {table : List OptDecl} {n : String} :
    findOpt table n = none ↔ ∀ d ∈ table, n ∉ d.names := by
  unfold findOpt
  rw [List.find?_eq_none]
  constructor
  · intro h d hd; simpa using h d hd
  · intro h d hd; simpa using h d hd

theorem defaults_of {table : List OptDecl} (ht : TableOk table) {d : OptDecl} (hd : d ∈ table) :
    defaults table d.dest = d.default := by
  unfold defaults
  cases hf : table.find? fun e => e.dest == d.dest with
  | none =>
    have := List.find?_eq_none.1 hf d hd
    simp at this
  | some e =>
    have h1 := List.mem_of_find?_eq_some hf
    have h2 := List.find?_some hf
    have : e = d := dest_unique ht.1 h1 hd (by simpa using h2)
    rw [this]

/-- Meeting an option several times. -/
def takeAll (cv : Conv) (k : OptKind) : OptVal → List (List (List Char)) → Py OptVal
  | old, [] => .ok old
  | old, v :: rest =>
    match takeArg cv k old v with
    | .error e => .error e
    | .ok x => takeAll cv k x rest

theorem parseArgs_value {table : List OptDecl} (ht : TableOk table) (cv : Conv) {d : OptDecl} (hd : d ∈ table) :
    ∀ (args : List Arg) (ns ns' : String → OptVal), parseArgs table cv args ns = .ok ns' →
      takeAll cv d.kind (ns d.dest) (Spec.mentions d args) = .ok (ns' d.dest)
  | [], ns, ns', h => by
    cases h
    rfl
  | a :: rest, ns, ns', h => by
    rw [parseArgs] at h
    cases hf : findOpt table a.name with
    | none => rw [hf] at h; cases h
    | some e =>
      rw [hf] at h
      obtain ⟨he, hn⟩ := findOpt_some hf
      simp only at h
      cases hk : takeArg cv e.kind (ns e.dest) a.vals with
      | error x => rw [hk] at h; cases h
      | ok v =>
        rw [hk] at h
        have ih := parseArgs_value ht cv hd rest _ ns' h
        by_cases hde : d = e
        · subst hde
          rw [if_pos rfl] at ih
          have : Spec.mentions d (a :: rest) = a.vals :: Spec.mentions d rest := by
            unfold Spec.mentions
            rw [List.filter_cons_of_pos (by simpa using hn), List.map_cons]
          rw [this, takeAll, hk]
          exact ih
        · have hdn : d.dest ≠ e.dest := fun x => hde (dest_unique ht.1 hd he x)
          rw [if_neg hdn] at ih
          have : Spec.mentions d (a :: rest) = Spec.mentions d rest := by
            unfold Spec.mentions
            rw [List.filter_cons_of_neg]
            intro x
            exact hde (names_unique ht.2.1 hd he (by simpa using x) hn)
          rw [this]
          exact ih

theorem takeArg_means {cv : Conv} {k : OptKind} (hk : Spec.Holds k) {old x : OptVal} {vals : List (List Char)}
    (h : takeArg cv k old vals = .ok x) : Spec.Means cv k vals x := by
  cases k with
  | switch => exact hk.elim
  | chars => exact hk.elim
  | append => exact hk.elim
  | many =>
    rcases vals with _ | ⟨v, _ | ⟨w, r⟩⟩ <;> (simp only [takeArg] at h; cases h; rfl)
  | text =>
    rcases vals with _ | ⟨v, _ | ⟨w, r⟩⟩ <;> simp only [takeArg, convertArg] at h <;> cases h
    rfl
  | int =>
    rcases vals with _ | ⟨v, _ | ⟨w, r⟩⟩ <;> simp only [takeArg, convertArg] at h
    · cases h
    · cases hi : cv.int v with
      | none => rw [hi] at h; cases h
      | some i => rw [hi] at h; cases h; exact ⟨i, hi, rfl⟩
    · cases h
  | float =>
    rcases vals with _ | ⟨v, _ | ⟨w, r⟩⟩ <;> simp only [takeArg, convertArg] at h
    · cases h
    · cases hi : cv.float v with
      | none => rw [hi] at h; cases h
      | some i => rw [hi] at h; cases h; exact ⟨i, hi, rfl⟩
    · cases h
  | oneOf l =>
    rcases vals with _ | ⟨v, _ | ⟨w, r⟩⟩ <;> simp only [takeArg, convertArg] at h
    · cases h
    · by_cases hc : (l.map String.toList).contains v = true
      · rw [if_pos hc] at h; cases h
        have : v ∈ l.map String.toList := by simpa using hc
        exact ⟨List.mem_map.1 this, rfl⟩
      · rw [if_neg hc] at h; cases h
    · cases h
  | oneOfInts l =>
    rcases vals with _ | ⟨v, _ | ⟨w, r⟩⟩ <;> simp only [takeArg, convertArg] at h
    · cases h
    · cases hi : cv.int v with
      | none => rw [hi] at h; cases h
      | some i =>
        rw [hi] at h
        simp only at h
        by_cases hc : l.contains i = true
        · rw [if_pos hc] at h; cases h
          exact ⟨i, by simpa using hc, hi, rfl⟩
        · rw [if_neg hc] at h; cases h
    · cases h

theorem takeAll_means {cv : Conv} {k : OptKind} (hk : Spec.Holds k) :
    ∀ (l : List (List (List Char))) (old x : OptVal), takeAll cv k old l = .ok x →
      (∀ v, l.getLast? = some v → Spec.Means cv k v x) ∧ (l = [] → x = old)
  | [], old, x, h => by
    cases h
    exact ⟨fun v hv => (by cases hv), fun _ => rfl⟩
  | v :: rest, old, x, h => by
    rw [takeAll] at h
    cases ht : takeArg cv k old v with
    | error e => rw [ht] at h; cases h
    | ok y =>
      rw [ht] at h
      obtain ⟨h1, h2⟩ := takeAll_means hk rest y x h
      refine ⟨fun w hw => ?_, fun e => (by cases e)⟩
      cases rest with
      | nil =>
        cases hw
        rw [h2 rfl]
        exact takeArg_means hk ht
      | cons a b =>
        rw [List.getLast?_cons_cons] at hw
        exact h1 w hw

theorem findKey_of {table : List OptDecl} (ht : TableOk table) {n : String} {d : OptDecl} (hd : d ∈ table)
    (h : "--" ++ n ∈ d.names) : findKey table n = some d := findOpt_of ht hd h

theorem findKey_some {table : List OptDecl} {n : String} {d : OptDecl} (h : findKey table n = some d) :
    d ∈ table ∧ "--" ++ n ∈ d.names := findOpt_some h

theorem last_name {d : OptDecl} (h : d.names ≠ []) : d.names.getLast?.getD "" ∈ d.names := by
  rw [List.getLast?_eq_some_getLast h]
  exact List.getLast_mem h

theorem settingArgs_name {d : OptDecl} {v : YVal} {l : List Arg} (h : settingArgs d v = .ok l) :
    ∀ a ∈ l, a.name = d.names.getLast?.getD "" := by
  intro a ha
  cases v with
  | null => cases h; cases ha
  | plain s =>
    simp only [settingArgs] at h
    split at h
    · split at h
      · cases h; rw [List.mem_singleton] at ha; rw [ha]
      · split at h <;> cases h; cases ha
    · cases h; rw [List.mem_singleton] at ha; rw [ha]
  | seq s =>
    simp only [settingArgs] at h
    split at h
    · cases h
      obtain ⟨x, _, rfl⟩ := List.mem_map.1 ha
      rfl
    · split at h <;> cases h
      rw [List.mem_singleton] at ha; rw [ha]

theorem settingArgs_own {d : OptDecl} (hn : d.names ≠ []) {v : YVal} {l : List Arg} (h : settingArgs d v = .ok l) :
    Spec.mentions d l = l.map Arg.vals := by
  unfold Spec.mentions
  rw [List.filter_eq_self.2]
  intro a ha
  rw [settingArgs_name h a ha]
  simpa using last_name hn

theorem settingArgs_other {table : List OptDecl} (ht : TableOk table) {d e : OptDecl} (hd : d ∈ table) (he : e ∈ table)
    (hde : d ≠ e) {v : YVal} {l : List Arg} (h : settingArgs e v = .ok l) : Spec.mentions d l = [] := by
  unfold Spec.mentions
  rw [List.filter_eq_nil_iff.2]
  · rfl
  · intro a ha x
    rw [settingArgs_name h a ha] at x
    exact hde (names_unique ht.2.1 hd he (by simpa using x) (last_name (ht.2.2 e he)))

theorem mentions_append (d : OptDecl) (a b : List Arg) :
    Spec.mentions d (a ++ b) = Spec.mentions d a ++ Spec.mentions d b := by
  unfold Spec.mentions
  rw [List.filter_append, List.map_append]

theorem settings_cons (d : OptDecl) (kv : String × YVal) (rest : List (String × YVal)) :
    Spec.settings d (kv :: rest) =
      if "--" ++ kv.1 ∈ d.names ∧ kv.2 ≠ .null then kv.2 :: Spec.settings d rest else Spec.settings d rest := by
  unfold Spec.settings
  by_cases h : "--" ++ kv.1 ∈ d.names ∧ kv.2 ≠ .null
  · rw [if_pos h, List.filter_cons_of_pos (by simpa using h), List.map_cons]
  · rw [if_neg h, List.filter_cons_of_neg (by simpa using h)]

/-- The mentions of an option that the file stands for. -/
theorem fileArgs_mentions {table : List OptDecl} (ht : TableOk table) {d : OptDecl} (hd : d ∈ table) (cl : List Arg) :
    ∀ (file : List (String × YVal)) (fa : List Arg), fileArgs table cl file = .ok fa →
      ((∃ a ∈ cl, a.name ∈ d.names) → Spec.mentions d fa = []) ∧
      ((∀ a ∈ cl, a.name ∉ d.names) → ∃ ls : List (List Arg),
        List.Forall₂ (fun v l => settingArgs d v = .ok l) (Spec.settings d file) ls ∧
          Spec.mentions d fa = ls.flatten.map Arg.vals)
  | [], fa, h => by
    cases h
    exact ⟨fun _ => rfl, fun _ => ⟨[], .nil, rfl⟩⟩
  | (key, v) :: rest, fa, h => by
    rw [fileArgs] at h
    by_cases hv : v = .null
    · rw [if_pos hv] at h
      have ih := fileArgs_mentions ht hd cl rest fa h
      rw [settings_cons, if_neg (fun x => x.2 hv)]
      exact ih
    rw [if_neg hv] at h
    cases hk : findKey table key with
    | none =>
      have hkey : "--" ++ key ∉ d.names := findOpt_none.1 hk d hd
      rw [hk] at h
      simp only at h
      split at h
      · have ih := fileArgs_mentions ht hd cl rest fa h
        rw [settings_cons, if_neg (fun x => hkey x.1)]
        exact ih
      · cases h
    | some e =>
      obtain ⟨he, hek⟩ := findKey_some hk
      rw [hk] at h
      simp only at h
      by_cases hcl : (cl.any fun a => e.names.contains a.name) = true
      · rw [if_pos hcl] at h
        obtain ⟨i1, i2⟩ := fileArgs_mentions ht hd cl rest fa h
        refine ⟨i1, fun hno => ?_⟩
        have hde : d ≠ e := by
          rintro rfl
          obtain ⟨a, ha, hx⟩ := List.any_eq_true.1 hcl
          exact hno a ha (by simpa using hx)
        rw [settings_cons, if_neg (fun x => hde (names_unique ht.2.1 hd he x.1 hek))]
        exact i2 hno
      · rw [if_neg hcl] at h
        cases hs : settingArgs e v with
        | error x => rw [hs] at h; cases h
        | ok l =>
          rw [hs] at h
          simp only at h
          cases hr : fileArgs table cl rest with
          | error x => rw [hr] at h; cases h
          | ok r =>
            rw [hr] at h
            cases h
            obtain ⟨i1, i2⟩ := fileArgs_mentions ht hd cl rest r hr
            by_cases hde : d = e
            · subst hde
              refine ⟨fun ⟨a, ha, hx⟩ => ?_, fun hno => ?_⟩
              · exact absurd (List.any_eq_true.2 ⟨a, ha, by simpa using hx⟩) hcl
              · obtain ⟨ls, f, m⟩ := i2 hno
                rw [settings_cons, if_pos ⟨hek, hv⟩]
                refine ⟨l :: ls, .cons hs f, ?_⟩
                rw [mentions_append, settingArgs_own (ht.2.2 d hd) hs, m, List.flatten_cons, List.map_append]
            · have hm := settingArgs_other ht hd he hde hs
              rw [settings_cons, if_neg (fun x => hde (names_unique ht.2.1 hd he x.1 hek)), mentions_append, hm,
                List.nil_append]
              exact ⟨i1, i2⟩

theorem parseOptions_inv {table : List OptDecl} {cv : Conv} {file : List (String × YVal)} {cl : List Arg}
    {ns : String → OptVal} (h : parseOptions table cv file cl = .ok ns) :
    ∃ fa, fileArgs table cl file = .ok fa ∧ parseArgs table cv (fa ++ cl) (defaults table) = .ok ns := by
  unfold parseOptions at h
  cases hf : fileArgs table cl file with
  | error e => rw [hf] at h; cases h
  | ok fa => rw [hf] at h; exact ⟨fa, rfl, h⟩

theorem parseOptions_value {table : List OptDecl} (ht : TableOk table) {cv : Conv} {file : List (String × YVal)}
    {cl : List Arg} {ns : String → OptVal} (h : parseOptions table cv file cl = .ok ns) {d : OptDecl} (hd : d ∈ table) :
    ((∃ a ∈ cl, a.name ∈ d.names) → takeAll cv d.kind d.default (Spec.mentions d cl) = .ok (ns d.dest)) ∧
    ((∀ a ∈ cl, a.name ∉ d.names) → ∃ ls : List (List Arg),
        List.Forall₂ (fun v l => settingArgs d v = .ok l) (Spec.settings d file) ls ∧
          takeAll cv d.kind d.default (ls.flatten.map Arg.vals) = .ok (ns d.dest)) := by
  obtain ⟨fa, hf, hp⟩ := parseOptions_inv h
  obtain ⟨m1, m2⟩ := fileArgs_mentions ht hd cl file fa hf
  have hv := parseArgs_value ht cv hd _ _ _ hp
  rw [mentions_append, defaults_of ht hd] at hv
  refine ⟨fun x => ?_, fun x => ?_⟩
  · rw [m1 x, List.nil_append] at hv
    exact hv
  · obtain ⟨ls, f, m⟩ := m2 x
    have : Spec.mentions d cl = [] := by
      unfold Spec.mentions
      rw [List.filter_eq_nil_iff.2 (fun a ha y => x a ha (by simpa using y))]
      rfl
    rw [m, this, List.append_nil] at hv
    exact ⟨ls, f, hv⟩

theorem mentions_ne {d : OptDecl} {cl : List Arg} {v : List (List Char)}
    (h : (Spec.mentions d cl).getLast? = some v) : ∃ a ∈ cl, a.name ∈ d.names := by
  have : v ∈ Spec.mentions d cl := List.mem_of_getLast? h
  unfold Spec.mentions at this
  obtain ⟨a, ha, _⟩ := List.mem_map.1 this
  rw [List.mem_filter] at ha
  exact ⟨a, ha.1, by simpa using ha.2⟩

theorem mentions_nil {d : OptDecl} {cl : List Arg} (h : Spec.mentions d cl = []) : ∀ a ∈ cl, a.name ∉ d.names := by
  intro a ha hn
  have : a.vals ∈ Spec.mentions d cl := by
    unfold Spec.mentions
    exact List.mem_map.2 ⟨a, List.mem_filter.2 ⟨ha, by simpa using hn⟩, rfl⟩
  rw [h] at this
  cases this

theorem settingArgs_holds {d : OptDecl} (hk : Spec.Holds d.kind) {v : YVal} (hv : v ≠ .null) {l : List Arg}
    (h : settingArgs d v = .ok l) : l = [⟨d.names.getLast?.getD "", Spec.settingVals v⟩] := by
  cases v with
  | null => exact absurd rfl hv
  | plain s =>
    simp only [settingArgs] at h
    rw [if_neg (fun e => by rw [e] at hk; exact hk)] at h
    cases h; rfl
  | seq s =>
    simp only [settingArgs] at h
    rw [if_neg (fun e => by rw [e] at hk; exact hk)] at h
    split at h <;> cases h
    rfl

theorem settings_nonnull {d : OptDecl} {file : List (String × YVal)} : ∀ v ∈ Spec.settings d file, v ≠ .null := by
  intro v hv
  unfold Spec.settings at hv
  obtain ⟨kv, h, rfl⟩ := List.mem_map.1 hv
  have := (List.mem_filter.1 h).2
  simp only [decide_eq_true_eq] at this
  exact this.2

theorem forall₂_vals {d : OptDecl} (hk : Spec.Holds d.kind) : ∀ {vs : List YVal} {ls : List (List Arg)},
    (∀ v ∈ vs, v ≠ .null) → List.Forall₂ (fun v l => settingArgs d v = .ok l) vs ls →
      ls.flatten.map Arg.vals = vs.map Spec.settingVals
  | _, _, _, .nil => rfl
  | v :: vs, l :: ls, hn, .cons h t => by
    rw [settingArgs_holds hk (hn v (by simp)) h, List.flatten_cons, List.map_append,
      forall₂_vals hk (fun w hw => hn w (by simp [hw])) t]
    rfl

/-- **C198.** An option that holds a text, a number or a list of texts has the value given last on the command line; if it is not
on the command line, the value set last in the file; if it is not there either, its default. -/
theorem C198_value (cv : Conv) (file : List (String × YVal)) (cl : List Arg) (ns : String → OptVal)
    (h : parseOptions optionTable cv file cl = .ok ns) (d : OptDecl) (hd : d ∈ optionTable) (hk : Spec.Holds d.kind) :
    (∀ v, (Spec.mentions d cl).getLast? = some v → Spec.Means cv d.kind v (ns d.dest)) ∧
    (Spec.mentions d cl = [] → ∀ v, (Spec.settings d file).getLast? = some v →
      Spec.Means cv d.kind (Spec.settingVals v) (ns d.dest)) ∧
    (Spec.mentions d cl = [] → Spec.settings d file = [] → ns d.dest = d.default) := by
  obtain ⟨p1, p2⟩ := parseOptions_value table_ok h hd
  refine ⟨fun v hv => ?_, fun hm v hv => ?_, fun hm hs => ?_⟩
  · exact (takeAll_means hk _ _ _ (p1 (mentions_ne hv))).1 v hv
  · obtain ⟨ls, f, t⟩ := p2 (mentions_nil hm)
    rw [forall₂_vals hk settings_nonnull f] at t
    refine (takeAll_means hk _ _ _ t).1 _ ?_
    rw [List.getLast?_map, hv]
    rfl
  · obtain ⟨ls, f, t⟩ := p2 (mentions_nil hm)
    rw [hs] at f
    cases f
    exact (takeAll_means hk _ _ _ t).2 rfl

/-! ## Switches -/

theorem takeAll_switch {cv : Conv} : ∀ (l : List (List (List Char))) (old x : OptVal),
    takeAll cv .switch old l = .ok x → x = if l = [] then old else .bool true
  | [], old, x, h => by cases h; rfl
  | v :: rest, old, x, h => by
    rw [takeAll] at h
    rw [if_neg (by simp)]
    rcases v with _ | ⟨a, b⟩
    · have := takeAll_switch rest (.bool true) x h
      rw [this]
      split <;> rfl
    · cases h

theorem settingArgs_switch {d : OptDecl} (hk : d.kind = .switch) {v : YVal} (hv : v ≠ .null) {l : List Arg}
    (h : settingArgs d v = .ok l) : (Spec.On v ∧ l ≠ []) ∨ (Spec.Off v ∧ ¬ Spec.On v ∧ l = []) := by
  cases v with
  | null => exact absurd rfl hv
  | plain s =>
    simp only [settingArgs] at h
    rw [if_pos hk] at h
    split at h
    · rename_i ho
      cases h
      exact .inl ⟨by simpa [onTexts, Spec.On] using ho, by simp⟩
    · rename_i hn
      split at h
      · rename_i ho
        cases h
        exact .inr ⟨by simpa [offTexts, Spec.Off] using ho, by simpa [onTexts, Spec.On] using hn, rfl⟩
      · cases h
  | seq s =>
    simp only [settingArgs] at h
    rw [hk] at h
    rw [if_neg (by decide), if_neg (by decide)] at h
    cases h

theorem forall₂_switch {d : OptDecl} (hk : d.kind = .switch) : ∀ {vs : List YVal} {ls : List (List Arg)},
    (∀ v ∈ vs, v ≠ .null) → List.Forall₂ (fun v l => settingArgs d v = .ok l) vs ls →
      (ls.flatten ≠ [] ↔ ∃ v ∈ vs, Spec.On v)
  | _, _, _, .nil => by simp
  | v :: vs, l :: ls, hn, .cons h t => by
    have ih := forall₂_switch hk (fun w hw => hn w (by simp [hw])) t
    rw [List.flatten_cons]
    rcases settingArgs_switch hk (hn v (by simp)) h with ⟨ho, hl⟩ | ⟨_, ho, hl⟩
    · constructor
      · intro _; exact ⟨v, by simp, ho⟩
      · intro _ e; exact hl (List.append_eq_nil_iff.1 e).1
    · subst hl
      rw [List.nil_append, ih]
      constructor
      · rintro ⟨w, hw, hx⟩; exact ⟨w, by simp [hw], hx⟩
      · rintro ⟨w, hw, hx⟩
        rcases List.mem_cons.1 hw with rfl | hw'
        · exact absurd hx ho
        · exact ⟨w, hw', hx⟩

/-- The value of a switch. -/
theorem switch_value {cv : Conv} {file : List (String × YVal)} {cl : List Arg} {ns : String → OptVal}
    (h : parseOptions optionTable cv file cl = .ok ns) {d : OptDecl} (hd : d ∈ optionTable) (hk : d.kind = .switch) :
    ((∃ a ∈ cl, a.name ∈ d.names) ∨ (∃ v ∈ Spec.settings d file, Spec.On v) → ns d.dest = .bool true) ∧
    (¬ ((∃ a ∈ cl, a.name ∈ d.names) ∨ ∃ v ∈ Spec.settings d file, Spec.On v) → ns d.dest = d.default) := by
  obtain ⟨p1, p2⟩ := parseOptions_value table_ok h hd
  rw [hk] at p1 p2
  by_cases hc : ∃ a ∈ cl, a.name ∈ d.names
  · have := takeAll_switch _ _ _ (p1 hc)
    rw [if_neg] at this
    · exact ⟨fun _ => this, fun x => absurd (.inl hc) x⟩
    · intro e
      obtain ⟨a, ha, hn⟩ := hc
      exact mentions_nil e a ha hn
  · obtain ⟨ls, f, t⟩ := p2 (fun a ha hn => hc ⟨a, ha, hn⟩)
    have hs := forall₂_switch hk settings_nonnull f
    have := takeAll_switch _ _ _ t
    simp only [List.map_eq_nil_iff] at this
    refine ⟨fun x => ?_, fun x => ?_⟩
    · rw [if_neg (hs.2 (x.resolve_left hc))] at this
      exact this
    · have hx : ls.flatten = [] := by
        by_contra hne
        exact x (.inr (hs.1 hne))
      rw [if_pos hx] at this
      exact this

theorem switch_defaults : ∀ d ∈ optionTable, d.kind = .switch →
    d.default = .bool (d.dest == "export_images") := by
  decide +kernel

/-- **C199, partial.** Every switch but `export_images` is on exactly when it is named on the command line or the file turns
it on. -/
theorem C199_switch_partial (cv : Conv) (file : List (String × YVal)) (cl : List Arg) (ns : String → OptVal)
    (h : parseOptions optionTable cv file cl = .ok ns) (d : OptDecl) (hd : d ∈ optionTable) (hk : d.kind = .switch)
    (he : d.dest ≠ "export_images") :
    (ns d.dest = .bool true ↔
      (∃ a ∈ cl, a.name ∈ d.names) ∨ ∃ kv ∈ file, "--" ++ kv.1 ∈ d.names ∧ Spec.On kv.2) ∧
    (ns d.dest = .bool true ∨ ns d.dest = .bool false) := by
  have hs : (∃ v ∈ Spec.settings d file, Spec.On v) ↔ ∃ kv ∈ file, "--" ++ kv.1 ∈ d.names ∧ Spec.On kv.2 := by
    constructor
    · rintro ⟨v, hv, ho⟩
      unfold Spec.settings at hv
      obtain ⟨kv, hm, rfl⟩ := List.mem_map.1 hv
      obtain ⟨m, x⟩ := List.mem_filter.1 hm
      exact ⟨kv, m, (of_decide_eq_true x).1, ho⟩
    · rintro ⟨kv, hm, hn, ho⟩
      refine ⟨kv.2, List.mem_map.2 ⟨kv, List.mem_filter.2 ⟨hm, decide_eq_true ⟨hn, ?_⟩⟩, rfl⟩, ho⟩
      intro e
      rw [e] at ho
      exact ho
  obtain ⟨p1, p2⟩ := switch_value h hd hk
  rw [hs] at p1 p2
  have hdf : d.default = .bool false := by
    rw [switch_defaults d hd hk]
    simp [he]
  rw [hdf] at p2
  by_cases hc : (∃ a ∈ cl, a.name ∈ d.names) ∨ ∃ kv ∈ file, "--" ++ kv.1 ∈ d.names ∧ Spec.On kv.2
  · exact ⟨⟨fun _ => hc, fun _ => p1 hc⟩, .inl (p1 hc)⟩
  · refine ⟨⟨fun x => ?_, fun x => absurd x hc⟩, .inr (p2 hc)⟩
    rw [p2 hc] at x
    cases x

/-- **C199, violated.** No file and no command line turns the export of images off. -/
theorem C199_export_images_on (cv : Conv) (file : List (String × YVal)) (cl : List Arg) (ns : String → OptVal)
    (h : parseOptions optionTable cv file cl = .ok ns) : ns "export_images" = .bool true := by
  have hx : ∃ d ∈ optionTable, d.dest = "export_images" ∧ d.kind = .switch ∧ d.default = .bool true := by
    decide +kernel
  obtain ⟨d, hd, he, hk, hdf⟩ := hx
  obtain ⟨p1, p2⟩ := switch_value h hd hk
  rw [← he]
  by_cases hc : (∃ a ∈ cl, a.name ∈ d.names) ∨ ∃ v ∈ Spec.settings d file, Spec.On v
  · exact p1 hc
  · rw [p2 hc, hdf]

/-! ## Command line and file -/

/-- **C200, partial.** What the file says about an option that is named on the command line has no effect, whatever it
is. -/
theorem C200_file_ignored_partial (cv : Conv) (file : List (String × YVal)) (cl : List Arg) (d : OptDecl)
    (hd : d ∈ optionTable) (hc : ∃ a ∈ cl, a.name ∈ d.names) :
    parseOptions optionTable cv file cl =
      parseOptions optionTable cv (file.filter fun kv => decide ("--" ++ kv.1 ∉ d.names)) cl := by
  have key : ∀ f : List (String × YVal), fileArgs optionTable cl f =
      fileArgs optionTable cl (f.filter fun kv => decide ("--" ++ kv.1 ∉ d.names)) := by
    intro f
    induction f with
    | nil => rfl
    | cons kv rest ih =>
      obtain ⟨k, v⟩ := kv
      by_cases hk : "--" ++ k ∈ d.names
      · rw [List.filter_cons_of_neg (by simpa using hk), ← ih, fileArgs]
        by_cases hv : v = .null
        · rw [if_pos hv]
        · rw [if_neg hv, findKey_of table_ok hd hk]
          simp only
          rw [if_pos]
          obtain ⟨a, ha, hn⟩ := hc
          exact List.any_eq_true.2 ⟨a, ha, by simpa using hn⟩
      · rw [List.filter_cons_of_pos (by simpa using hk), fileArgs, fileArgs, ih]
  unfold parseOptions
  rw [key file]

/-- **C200, violated.** A switch that the file turns on is on with every command line. -/
theorem C200_switch_stays_on (cv : Conv) (file : List (String × YVal)) (cl : List Arg) (ns : String → OptVal)
    (h : parseOptions optionTable cv file cl = .ok ns) (d : OptDecl) (hd : d ∈ optionTable) (hk : d.kind = .switch)
    (hf : ∃ kv ∈ file, "--" ++ kv.1 ∈ d.names ∧ Spec.On kv.2) : ns d.dest = .bool true := by
  obtain ⟨kv, hm, hn, ho⟩ := hf
  refine (switch_value h hd hk).1 (.inr ⟨kv.2, List.mem_map.2 ⟨kv, List.mem_filter.2 ⟨hm, decide_eq_true ⟨hn, ?_⟩⟩, rfl⟩, ho⟩)
  intro e
  rw [e] at ho
  exact ho

/-! ## Lists -/

theorem takeAll_append {cv : Conv} : ∀ (l : List (List (List Char))) (acc : List (List (List Char))) (x : OptVal),
    takeAll cv .append (.lists acc) l = .ok x →
      ∃ vs : List (List Char), l = vs.map (fun v => [v]) ∧ x = .lists (acc ++ vs.map Spec.characters)
  | [], acc, x, h => by
    cases h
    exact ⟨[], rfl, by simp⟩
  | v :: rest, acc, x, h => by
    rw [takeAll] at h
    rcases v with _ | ⟨a, _ | ⟨b, c⟩⟩
    · cases h
    · simp only [takeArg] at h
      obtain ⟨vs, rfl, hx⟩ := takeAll_append rest _ x h
      exact ⟨a :: vs, rfl, by rw [hx, List.append_assoc]; rfl⟩
    · cases h

theorem takeAll_chars {cv : Conv} : ∀ (l : List (List (List Char))) (old x : OptVal),
    takeAll cv .chars old l = .ok x →
      (l = [] → x = old) ∧ (l ≠ [] → ∃ v, l.getLast? = some [v] ∧ x = .list (Spec.characters v))
  | [], old, x, h => by
    cases h
    exact ⟨fun _ => rfl, fun e => absurd rfl e⟩
  | v :: rest, old, x, h => by
    refine ⟨fun e => (by cases e), fun _ => ?_⟩
    rw [takeAll] at h
    rcases v with _ | ⟨a, _ | ⟨b, c⟩⟩
    · cases h
    · simp only [takeArg, convertArg] at h
      obtain ⟨i1, i2⟩ := takeAll_chars rest _ x h
      by_cases hr : rest = []
      · subst hr
        exact ⟨a, rfl, i1 rfl⟩
      · obtain ⟨w, h1, h2⟩ := i2 hr
        refine ⟨w, ?_, h2⟩
        obtain ⟨r, rs, rfl⟩ := List.exists_cons_of_ne_nil hr
        rw [List.getLast?_cons_cons]
        exact h1
    · cases h

/-- **C201, violated.** The tiles to flag never are a list of names: each name is taken apart into its characters, on
the command line and in the file. -/
theorem C201_tiles_in_pieces (cv : Conv) (file : List (String × YVal)) (cl : List Arg) (ns : String → OptVal)
    (h : parseOptions optionTable cv file cl = .ok ns) (d : OptDecl) (hd : d ∈ optionTable)
    (hk : d.dest = "flag_tiles" ∨ d.dest = "ps_tile_flag_list") :
    ∃ vs : List (List Char), ns d.dest = .lists (vs.map Spec.characters) ∧
      ((∃ a ∈ cl, a.name ∈ d.names) → Spec.mentions d cl = vs.map fun v => [v]) := by
  have hx : ∀ d ∈ optionTable, d.dest = "flag_tiles" ∨ d.dest = "ps_tile_flag_list" →
      d.kind = .append ∧ d.default = .lists [] := by
    decide +kernel
  obtain ⟨hkind, hdf⟩ := hx d hd hk
  obtain ⟨p1, p2⟩ := parseOptions_value table_ok h hd
  rw [hkind, hdf] at p1 p2
  by_cases hc : ∃ a ∈ cl, a.name ∈ d.names
  · obtain ⟨vs, h1, h2⟩ := takeAll_append _ _ _ (p1 hc)
    exact ⟨vs, by simpa using h2, fun _ => h1⟩
  · obtain ⟨ls, _, t⟩ := p2 (fun a ha hn => hc ⟨a, ha, hn⟩)
    obtain ⟨vs, _, h2⟩ := takeAll_append _ _ _ t
    exact ⟨vs, by simpa using h2, fun x => absurd x hc⟩

/-- **C201, violated.** The times to cut, if given, are single characters, not numbers. -/
theorem C201_times_in_pieces (cv : Conv) (file : List (String × YVal)) (cl : List Arg) (ns : String → OptVal)
    (h : parseOptions optionTable cv file cl = .ok ns) (d : OptDecl) (hd : d ∈ optionTable)
    (hk : d.dest = "time_cut" ∨ d.dest = "tile_flag_list") :
    (ns d.dest = .none ∨ ∃ v : List Char, ns d.dest = .list (Spec.characters v)) ∧
      ((∃ a ∈ cl, a.name ∈ d.names) → ∃ v : List Char, (Spec.mentions d cl).getLast? = some [v] ∧
        ns d.dest = .list (Spec.characters v)) := by
  have hx : ∀ d ∈ optionTable, d.dest = "time_cut" ∨ d.dest = "tile_flag_list" →
      d.kind = .chars ∧ d.default = .none := by
    decide +kernel
  obtain ⟨hkind, hdf⟩ := hx d hd hk
  obtain ⟨p1, p2⟩ := parseOptions_value table_ok h hd
  rw [hkind, hdf] at p1 p2
  by_cases hc : ∃ a ∈ cl, a.name ∈ d.names
  · have hne : Spec.mentions d cl ≠ [] := by
      intro e
      obtain ⟨a, ha, hn⟩ := hc
      exact mentions_nil e a ha hn
    obtain ⟨v, h1, h2⟩ := (takeAll_chars _ _ _ (p1 hc)).2 hne
    exact ⟨.inr ⟨v, h2⟩, fun _ => ⟨v, h1, h2⟩⟩
  · obtain ⟨ls, _, t⟩ := p2 (fun a ha hn => hc ⟨a, ha, hn⟩)
    refine ⟨?_, fun x => absurd x hc⟩
    obtain ⟨i1, i2⟩ := takeAll_chars _ _ _ t
    by_cases hl : ls.flatten.map Arg.vals = []
    · exact .inl (i1 hl)
    · obtain ⟨v, _, hv⟩ := i2 hl
      exact .inr ⟨v, hv⟩

/-! ## Mistakes -/

namespace Spec

/-- Arguments that an option accepts. -/
def Accepts (cv : Conv) (k : OptKind) (vals : List (List Char)) : Prop :=
  match k with
  | .switch => vals = []
  | .many => True
  | .text => ∃ v, vals = [v]
  | .chars => ∃ v, vals = [v]
  | .append => ∃ v, vals = [v]
  | .int => ∃ v i, vals = [v] ∧ cv.int v = some i
  | .float => ∃ v q, vals = [v] ∧ cv.float v = some q
  | .oneOf l => ∃ s ∈ l, vals = [s.toList]
  | .oneOfInts l => ∃ v, ∃ i ∈ l, vals = [v] ∧ cv.int v = some i

/-- A good argument on the command line: the name of an option followed by what it accepts. -/
def GoodArg (cv : Conv) (a : Arg) : Prop :=
  ∃ d ∈ optionTable, a.name ∈ d.names ∧ Accepts cv d.kind a.vals

/-- A value in the file that an option accepts: switches take words for on and off, lists belong to options that can be
repeated. -/
def AcceptsSetting (cv : Conv) (k : OptKind) (v : YVal) : Prop :=
  match v with
  | .null => True
  | .plain s => if k = .switch then On v ∨ Off v else Accepts cv k [s]
  | .seq _ => k = .append ∨ k = .many

/-- A good setting of the file: null, or for an option on the command line, or a value that the option accepts. An empty
list is good under any name. -/
def GoodSetting (cv : Conv) (cl : List Arg) (key : String) (v : YVal) : Prop :=
  v = .null ∨ (v = .seq [] ∧ ∀ d ∈ optionTable, "--" ++ key ∉ d.names) ∨
    ∃ d ∈ optionTable, "--" ++ key ∈ d.names ∧
      ((∃ a ∈ cl, a.name ∈ d.names) ∨ AcceptsSetting cv d.kind v)

end Spec

theorem takeArg_accepts (cv : Conv) (k : OptKind) (old : OptVal) (vals : List (List Char)) :
    (Spec.Accepts cv k vals → ∃ x, takeArg cv k old vals = .ok x) ∧
      (¬ Spec.Accepts cv k vals → takeArg cv k old vals = .error .systemExit) := by
  cases k with
  | switch =>
    rcases vals with _ | ⟨v, r⟩
    · exact ⟨fun _ => ⟨_, rfl⟩, fun h => absurd rfl h⟩
    · exact ⟨fun h => (by cases h), fun _ => rfl⟩
  | many =>
    refine ⟨fun _ => ?_, fun h => absurd trivial h⟩
    rcases vals with _ | ⟨v, _ | ⟨w, r⟩⟩ <;> exact ⟨_, rfl⟩
  | append =>
    rcases vals with _ | ⟨v, _ | ⟨w, r⟩⟩
    · exact ⟨fun ⟨v, h⟩ => (by cases h), fun _ => rfl⟩
    · refine ⟨fun _ => ?_, fun h => absurd ⟨v, rfl⟩ h⟩
      cases old <;> exact ⟨_, rfl⟩
    · exact ⟨fun ⟨v, h⟩ => (by cases h), fun _ => rfl⟩
  | text =>
    rcases vals with _ | ⟨v, _ | ⟨w, r⟩⟩
    · exact ⟨fun ⟨v, h⟩ => (by cases h), fun _ => rfl⟩
    · exact ⟨fun _ => ⟨_, rfl⟩, fun h => absurd ⟨v, rfl⟩ h⟩
    · exact ⟨fun ⟨v, h⟩ => (by cases h), fun _ => rfl⟩
  | chars =>
    rcases vals with _ | ⟨v, _ | ⟨w, r⟩⟩
    · exact ⟨fun ⟨v, h⟩ => (by cases h), fun _ => rfl⟩
    · exact ⟨fun _ => ⟨_, rfl⟩, fun h => absurd ⟨v, rfl⟩ h⟩
    · exact ⟨fun ⟨v, h⟩ => (by cases h), fun _ => rfl⟩
  | int =>
    rcases vals with _ | ⟨v, _ | ⟨w, r⟩⟩
    · exact ⟨fun ⟨v, i, h, _⟩ => (by cases h), fun _ => rfl⟩
    · simp only [takeArg, convertArg]
      cases hi : cv.int v with
      | none =>
        refine ⟨fun ⟨v', i, h, h2⟩ => ?_, fun _ => rfl⟩
        cases h
        rw [hi] at h2; cases h2
      | some i => exact ⟨fun _ => ⟨_, rfl⟩, fun h => absurd ⟨v, i, rfl, hi⟩ h⟩
    · exact ⟨fun ⟨v, i, h, _⟩ => (by cases h), fun _ => rfl⟩
  | float =>
    rcases vals with _ | ⟨v, _ | ⟨w, r⟩⟩
    · exact ⟨fun ⟨v, i, h, _⟩ => (by cases h), fun _ => rfl⟩
    · simp only [takeArg, convertArg]
      cases hi : cv.float v with
      | none =>
        refine ⟨fun ⟨v', i, h, h2⟩ => ?_, fun _ => rfl⟩
        cases h
        rw [hi] at h2; cases h2
      | some i => exact ⟨fun _ => ⟨_, rfl⟩, fun h => absurd ⟨v, i, rfl, hi⟩ h⟩
    · exact ⟨fun ⟨v, i, h, _⟩ => (by cases h), fun _ => rfl⟩
  | oneOf l =>
    rcases vals with _ | ⟨v, _ | ⟨w, r⟩⟩
    · exact ⟨fun ⟨s, _, h⟩ => (by cases h), fun _ => rfl⟩
    · simp only [takeArg, convertArg]
      by_cases hc : (l.map String.toList).contains v = true
      · rw [if_pos hc]
        refine ⟨fun _ => ⟨_, rfl⟩, fun h => ?_⟩
        have : v ∈ l.map String.toList := by simpa using hc
        obtain ⟨s, hs, e⟩ := List.mem_map.1 this
        exact absurd ⟨s, hs, by rw [e]⟩ h
      · rw [if_neg hc]
        refine ⟨fun ⟨s, hs, e⟩ => ?_, fun _ => rfl⟩
        cases e
        exact absurd (by simpa using ⟨s, hs, rfl⟩) hc
    · exact ⟨fun ⟨s, _, h⟩ => (by cases h), fun _ => rfl⟩
  | oneOfInts l =>
    rcases vals with _ | ⟨v, _ | ⟨w, r⟩⟩
    · exact ⟨fun ⟨v, i, _, h, _⟩ => (by cases h), fun _ => rfl⟩
    · simp only [takeArg, convertArg]
      cases hi : cv.int v with
      | none =>
        refine ⟨fun ⟨v', i, _, h, h2⟩ => ?_, fun _ => rfl⟩
        cases h
        rw [hi] at h2; cases h2
      | some i =>
        simp only
        by_cases hc : l.contains i = true
        · rw [if_pos hc]
          exact ⟨fun _ => ⟨_, rfl⟩, fun h => absurd ⟨v, i, by simpa using hc, rfl, hi⟩ h⟩
        · rw [if_neg hc]
          refine ⟨fun ⟨v', j, hj, h, h2⟩ => ?_, fun _ => rfl⟩
          cases h
          rw [hi] at h2
          cases h2
          exact absurd (by simpa using hj) hc
    · exact ⟨fun ⟨v, i, _, h, _⟩ => (by cases h), fun _ => rfl⟩

theorem parseArgs_good (cv : Conv) : ∀ (args : List Arg) (ns : String → OptVal),
    ((∀ a ∈ args, Spec.GoodArg cv a) → ∃ ns', parseArgs optionTable cv args ns = .ok ns') ∧
      ((¬ ∀ a ∈ args, Spec.GoodArg cv a) → parseArgs optionTable cv args ns = .error .systemExit)
  | [], ns => ⟨fun _ => ⟨ns, rfl⟩, fun h => absurd (fun a ha => by cases ha) h⟩
  | a :: rest, ns => by
    rw [parseArgs]
    cases hf : findOpt optionTable a.name with
    | none =>
      refine ⟨fun h => ?_, fun _ => rfl⟩
      obtain ⟨d, hd, hn, _⟩ := h a (by simp)
      exact absurd hn (findOpt_none.1 hf d hd)
    | some d =>
      obtain ⟨hd, hn⟩ := findOpt_some hf
      simp only
      obtain ⟨t1, t2⟩ := takeArg_accepts cv d.kind (ns d.dest) a.vals
      by_cases ha : Spec.Accepts cv d.kind a.vals
      · obtain ⟨x, hx⟩ := t1 ha
        rw [hx]
        obtain ⟨i1, i2⟩ := parseArgs_good cv rest fun k => if k = d.dest then x else ns k
        refine ⟨fun h => i1 fun b hb => h b (by simp [hb]), fun h => i2 fun h' => h fun b hb => ?_⟩
        rcases List.mem_cons.1 hb with rfl | hb'
        · exact ⟨d, hd, hn, ha⟩
        · exact h' b hb'
      · rw [t2 ha]
        refine ⟨fun h => ?_, fun _ => rfl⟩
        obtain ⟨e, he, hen, hea⟩ := h a (by simp)
        rw [names_unique table_ok.2.1 he hd hen hn] at hea
        exact absurd hea ha

theorem settingArgs_good (cv : Conv) {d : OptDecl} (hd : d ∈ optionTable) (v : YVal) (hv : v ≠ .null) :
    Spec.AcceptsSetting cv d.kind v →
    ∃ l, settingArgs d v = .ok l ∧ ∀ a ∈ l, Spec.GoodArg cv a := by
  have hn := last_name (table_ok.2.2 d hd)
  intro h
  cases v with
  | null => exact absurd rfl hv
  | plain s =>
    simp only [Spec.AcceptsSetting] at h
    simp only [settingArgs]
    by_cases hk : d.kind = .switch
    · rw [if_pos hk] at h ⊢
      by_cases ho : (onTexts.map String.toList).contains (s.map Char.toLower) = true
      · rw [if_pos ho]
        refine ⟨_, rfl, fun a ha => ?_⟩
        rw [List.mem_singleton] at ha
        subst ha
        exact ⟨d, hd, hn, by rw [hk]; rfl⟩
      · rw [if_neg ho, if_pos]
        · exact ⟨_, rfl, fun a ha => by cases ha⟩
        · rcases h with h | h
          · exact absurd (by simpa [onTexts, Spec.On] using h) ho
          · simpa [offTexts, Spec.Off] using h
    · rw [if_neg hk] at h ⊢
      refine ⟨_, rfl, fun a ha => ?_⟩
      rw [List.mem_singleton] at ha
      subst ha
      exact ⟨d, hd, hn, h⟩
  | seq l =>
    simp only [Spec.AcceptsSetting] at h
    simp only [settingArgs]
    by_cases hk : d.kind = .append
    · rw [if_pos hk]
      refine ⟨_, rfl, fun a ha => ?_⟩
      obtain ⟨s, _, rfl⟩ := List.mem_map.1 ha
      exact ⟨d, hd, hn, by rw [hk]; exact ⟨s, rfl⟩⟩
    · have hm := h.resolve_left hk
      rw [if_neg hk, if_pos hm]
      refine ⟨_, rfl, fun a ha => ?_⟩
      rw [List.mem_singleton] at ha
      subst ha
      exact ⟨d, hd, hn, by rw [hm]; trivial⟩

theorem settingArgs_bad (cv : Conv) {d : OptDecl} (hd : d ∈ optionTable) (v : YVal) (hv : v ≠ .null)
    (h : ¬ Spec.AcceptsSetting cv d.kind v) :
    settingArgs d v = .error .systemExit ∨ ∃ l, settingArgs d v = .ok l ∧ ¬ ∀ a ∈ l, Spec.GoodArg cv a := by
  have hn := last_name (table_ok.2.2 d hd)
  cases v with
  | null => exact absurd rfl hv
  | plain s =>
    simp only [Spec.AcceptsSetting] at h
    simp only [settingArgs]
    by_cases hk : d.kind = .switch
    · rw [if_pos hk] at h ⊢
      left
      rw [if_neg, if_neg]
      · intro x
        exact h (.inr (by simpa [offTexts, Spec.Off] using x))
      · intro x
        exact h (.inl (by simpa [onTexts, Spec.On] using x))
    · rw [if_neg hk] at h ⊢
      right
      refine ⟨_, rfl, fun x => ?_⟩
      obtain ⟨e, he, hen, hea⟩ := x _ (List.mem_singleton.2 rfl)
      rw [names_unique table_ok.2.1 he hd hen hn] at hea
      exact h hea
  | seq l =>
    simp only [Spec.AcceptsSetting, not_or] at h
    left
    simp only [settingArgs]
    rw [if_neg h.1, if_neg h.2]

theorem fileArgs_good (cv : Conv) (cl : List Arg) : ∀ file : List (String × YVal),
    ((∀ kv ∈ file, Spec.GoodSetting cv cl kv.1 kv.2) →
      ∃ fa, fileArgs optionTable cl file = .ok fa ∧ ∀ a ∈ fa, Spec.GoodArg cv a) ∧
    ((¬ ∀ kv ∈ file, Spec.GoodSetting cv cl kv.1 kv.2) → fileArgs optionTable cl file = .error .systemExit ∨
      ∃ fa, fileArgs optionTable cl file = .ok fa ∧ ¬ ∀ a ∈ fa, Spec.GoodArg cv a)
  | [] => ⟨fun _ => ⟨[], rfl, fun a ha => by cases ha⟩, fun h => absurd (fun a ha => by cases ha) h⟩
  | (key, v) :: rest => by
    obtain ⟨i1, i2⟩ := fileArgs_good cv cl rest
    have step : Spec.GoodSetting cv cl key v → ((¬ ∀ kv ∈ (key, v) :: rest, Spec.GoodSetting cv cl kv.1 kv.2) →
        ¬ ∀ kv ∈ rest, Spec.GoodSetting cv cl kv.1 kv.2) := by
      intro hg h h'
      refine h fun kv hkv => ?_
      rcases List.mem_cons.1 hkv with rfl | hm
      · exact hg
      · exact h' kv hm
    rw [fileArgs]
    by_cases hv : v = .null
    · rw [if_pos hv]
      exact ⟨fun h => i1 fun kv hkv => h kv (by simp [hkv]), fun h => i2 (step (.inl hv) h)⟩
    rw [if_neg hv]
    cases hk : findKey optionTable key with
    | none =>
      have hno := findOpt_none.1 hk
      simp only
      by_cases he : v = .seq []
      · rw [if_pos he]
        exact ⟨fun h => i1 fun kv hkv => h kv (by simp [hkv]), fun h => i2 (step (.inr (.inl ⟨he, hno⟩)) h)⟩
      · rw [if_neg he]
        refine ⟨fun h => ?_, fun _ => .inl rfl⟩
        rcases h (key, v) (by simp) with x | x | ⟨d, hd, hx, _⟩
        · exact absurd x hv
        · exact absurd x.1 he
        · exact absurd hx (hno d hd)
    | some d =>
      obtain ⟨hd, hdk⟩ := findKey_some hk
      simp only
      by_cases hcl : (cl.any fun a => d.names.contains a.name) = true
      · rw [if_pos hcl]
        have hg : Spec.GoodSetting cv cl key v := by
          obtain ⟨a, ha, hx⟩ := List.any_eq_true.1 hcl
          exact .inr (.inr ⟨d, hd, hdk, .inl ⟨a, ha, by simpa using hx⟩⟩)
        exact ⟨fun h => i1 fun kv hkv => h kv (by simp [hkv]), fun h => i2 (step hg h)⟩
      · rw [if_neg hcl]
        by_cases hgood : Spec.AcceptsSetting cv d.kind v
        · obtain ⟨l, hl, hlg⟩ := settingArgs_good cv hd v hv hgood
          rw [hl]
          simp only
          refine ⟨fun h => ?_, fun h => ?_⟩
          · obtain ⟨fa, hfa, hg⟩ := i1 fun kv hkv => h kv (by simp [hkv])
            rw [hfa]
            refine ⟨_, rfl, fun a ha => ?_⟩
            rcases List.mem_append.1 ha with ha | ha
            · exact hlg a ha
            · exact hg a ha
          · rcases i2 (step (.inr (.inr ⟨d, hd, hdk, .inr hgood⟩)) h) with e | ⟨fa, hfa, hb⟩
            · rw [e]; exact .inl rfl
            · rw [hfa]
              exact .inr ⟨_, rfl, fun x => hb fun a ha => x a (by simp [ha])⟩
        · refine ⟨fun h => ?_, fun _ => ?_⟩
          · rcases h (key, v) (by simp) with x | x | ⟨e, he, hx, y⟩
            · exact absurd x hv
            · exact absurd hdk (x.2 d hd)
            · have hed := names_unique table_ok.2.1 he hd hx hdk
              subst hed
              rcases y with ⟨a, ha, hn⟩ | y
              · exact absurd (List.any_eq_true.2 ⟨a, ha, by simpa using hn⟩) hcl
              · exact absurd y hgood
          · rcases settingArgs_bad cv hd v hv hgood with e | ⟨l, hl, hb⟩
            · rw [e]; exact .inl rfl
            · rw [hl]
              simp only
              cases hr : fileArgs optionTable cl rest with
              | error e =>
                left
                have : e = .systemExit := by
                  by_cases hg : ∀ kv ∈ rest, Spec.GoodSetting cv cl kv.1 kv.2
                  · obtain ⟨fa, hfa, _⟩ := i1 hg
                    rw [hr] at hfa; cases hfa
                  · rcases i2 hg with x | ⟨fa, hfa, _⟩
                    · rw [hr] at x; cases x; rfl
                    · rw [hr] at hfa; cases hfa
                rw [this]
              | ok r => exact .inr ⟨_, rfl, fun x => hb fun a ha => x a (by simp [ha])⟩

/-- **C202.** The program goes on with a configuration exactly when every argument names an option and has a value that
the option accepts, and every setting of the file too; in all other cases it ends. -/
theorem C202_mistakes (cv : Conv) (file : List (String × YVal)) (cl : List Arg) :
    ((∃ ns, parseOptions optionTable cv file cl = .ok ns) ↔
      (∀ a ∈ cl, Spec.GoodArg cv a) ∧ ∀ kv ∈ file, Spec.GoodSetting cv cl kv.1 kv.2) ∧
    ((¬ ∃ ns, parseOptions optionTable cv file cl = .ok ns) →
      parseOptions optionTable cv file cl = .error .systemExit) := by
  obtain ⟨f1, f2⟩ := fileArgs_good cv cl file
  by_cases hf : ∀ kv ∈ file, Spec.GoodSetting cv cl kv.1 kv.2
  · obtain ⟨fa, hfa, hg⟩ := f1 hf
    unfold parseOptions
    rw [hfa]
    obtain ⟨p1, p2⟩ := parseArgs_good cv (fa ++ cl) (defaults optionTable)
    simp only
    by_cases hc : ∀ a ∈ cl, Spec.GoodArg cv a
    · obtain ⟨ns, hns⟩ := p1 fun a ha => (List.mem_append.1 ha).elim (hg a) (hc a)
      rw [hns]
      exact ⟨⟨fun _ => ⟨hc, hf⟩, fun _ => ⟨ns, rfl⟩⟩, fun x => absurd ⟨ns, rfl⟩ x⟩
    · rw [p2 fun x => hc fun a ha => x a (by simp [ha])]
      exact ⟨⟨fun ⟨_, h⟩ => (by cases h), fun x => absurd x.1 hc⟩, fun _ => rfl⟩
  · unfold parseOptions
    rcases f2 hf with e | ⟨fa, hfa, hb⟩
    · rw [e]
      exact ⟨⟨fun ⟨_, h⟩ => (by cases h), fun x => absurd x.2 hf⟩, fun _ => rfl⟩
    · rw [hfa]
      simp only
      rw [(parseArgs_good cv (fa ++ cl) (defaults optionTable)).2 fun x => hb fun a ha => x a (by simp [ha])]
      exact ⟨⟨fun ⟨_, h⟩ => (by cases h), fun x => absurd x.2 hf⟩, fun _ => rfl⟩

/-! ## The configuration file that comes with the program -/

/-- **C203, partial.** Every key of the file that comes with the program, but three, is an option. -/
theorem C203_keys_partial : ∀ k ∈ shippedKeys,
    k ∉ ["deproject-w-term", "calibration-checkpoint", "calibration-catalog-file-path"] →
      ∃ d ∈ optionTable, "--" ++ k ∈ d.names := by
  decide +kernel

/-- **C203, violated.** Giving a value to one of the other three ends the program, whatever the value, the rest of the file and
the command line. -/
theorem C203_keys_refused (cv : Conv) (file : List (String × YVal)) (cl : List Arg) (k : String) (s : List Char)
    (hk : k = "deproject-w-term" ∨ k = "calibration-checkpoint" ∨ k = "calibration-catalog-file-path")
    (hm : (k, YVal.plain s) ∈ file) :
    k ∈ shippedKeys ∧ parseOptions optionTable cv file cl = .error .systemExit := by
  have hx : ∀ k ∈ ["deproject-w-term", "calibration-checkpoint", "calibration-catalog-file-path"],
      k ∈ shippedKeys ∧ ∀ d ∈ optionTable, "--" ++ k ∉ d.names := by
    decide +kernel
  obtain ⟨h1, h2⟩ := hx k (by simpa using hk)
  refine ⟨h1, ?_⟩
  refine (C202_mistakes cv file cl).2 fun h => ?_
  obtain ⟨_, g⟩ := (C202_mistakes cv file cl).1.1 h
  rcases g _ hm with x | ⟨x, _⟩ | ⟨d, hd, x, _⟩
  · cases x
  · cases x
  · exact h2 d hd x

/-! ## Examples -/

/-- Reads decimal digits. -/
def exampleConv : Conv where
  int s := s.foldl (fun acc c => acc.bind fun n =>
    if c.isDigit then some (10 * n + (c.toNat - '0'.toNat : ℕ)) else none) (some 0)
  float s := s.foldl (fun acc c => acc.bind fun n =>
    if c.isDigit then some (10 * n + (c.toNat - '0'.toNat : ℕ)) else none) (some 0)

/-- A command line and a file that are read: C198 to C201 apply. -/
example :
    let cl : List Arg := [⟨"--dimension", ["1024".toList]⟩, ⟨"-ft", ["11".toList]⟩, ⟨"--time-cut", ["42".toList]⟩,
      ⟨"--dimension", ["512".toList]⟩]
    let file : List (String × YVal) := [("elements", .plain "256".toList), ("dimension", .plain "x".toList),
      ("export-images", .plain "False".toList), ("silent", .plain "True".toList), ("kbinsize", .null)]
    (match parseOptions optionTable exampleConv file cl with
      | .ok ns => some (["dimension", "elements", "kbinsize", "export_images", "silent", "cal_stop", "flag_tiles",
          "time_cut"].map ns)
      | .error _ => none) =
    some [.num 512, .num 256, .num (1 / 2), .bool true, .bool true, .bool false,
      .lists [["1".toList, "1".toList]], .list ["4".toList, "2".toList]] := by
  decide +kernel

/-- A wrong number, an unknown name, a missing value, a value for a switch, and a key of the file that comes with the program
end it. -/
example :
    let run := fun (f : List (String × YVal)) (c : List Arg) =>
      match parseOptions optionTable exampleConv f c with
      | .ok _ => none
      | .error e => some e
    run [] [⟨"--dimension", ["x".toList]⟩] = some .systemExit ∧
    run [] [⟨"--nothing", []⟩] = some .systemExit ∧
    run [] [⟨"--kbinsize", []⟩] = some .systemExit ∧
    run [] [⟨"--silent", ["1".toList]⟩] = some .systemExit ∧
    run [("deproject-w-term", .plain "1".toList)] [] = some .systemExit ∧
    run [("deproject-w-term", .null)] [⟨"--n-pol", ["4".toList]⟩] = none ∧
    run [] [⟨"--n-pol", ["3".toList]⟩] = some .systemExit := by
  decide +kernel

end PyFHD
