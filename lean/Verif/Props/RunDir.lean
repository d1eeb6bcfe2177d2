import Verif.Model.RunDir
import Mathlib.Data.List.Induction
import Mathlib.Data.List.TakeWhile
import Mathlib.Tactic.Linarith
import Mathlib.Tactic.Ring
import Mathlib.Tactic.NormNum
import Mathlib.Algebra.Order.Field.Rat

/-!
# Start and end of a run (C204 to C211)
-/

namespace PyFHD

namespace Spec

/-- Every directory or file lies in a directory. -/
def Sound (d : Disk) : Prop := ∀ q x, d.dir (q ++ [x]) = true ∨ d.file (q ++ [x]) = true → d.dir q = true

/-- A name of a directory or file: no slash in it. -/
def OneName (s : List Char) : Prop := '/' ∉ s

end Spec

theorem split_char {s : List Char} {c : Char} (h : c ∉ s) : List.splitOnP (· == c) s = [s] := by
  refine List.splitOnP_eq_singleton fun x hx => ?_
  rw [beq_eq_false_iff_ne]
  rintro rfl
  exact h hx

theorem split_at_char {s : List Char} {c : Char} (t : List Char) (h : c ∉ s) :
    List.splitOnP (· == c) (s ++ c :: t) = s :: List.splitOnP (· == c) t := by
  rw [List.splitOnP_append_cons (p := (· == c)) s t (sep := c) (by simp), split_char h]
  rfl

theorem pathParts_one {s : List Char} (h : '/' ∉ s) (hne : s ≠ []) (hd : s ≠ ['.']) : pathParts s = [s] := by
  unfold pathParts
  rw [split_char h]
  rw [List.filter_cons_of_pos]
  · rfl
  · simp [hne, hd]

theorem slash_underscored {s : List Char} : '/' ∈ underscored s ↔ '/' ∈ s := by
  unfold underscored
  rw [List.mem_map]
  constructor
  · rintro ⟨c, hc, h⟩
    split at h
    · cases h
    · rwa [h] at hc
  · intro h
    exact ⟨'/', h, rfl⟩

theorem dirName_parts {ds : Option (List Char)} {time : List Char} (ht : '/' ∉ time) (hd : ∀ s, ds = some s → '/' ∉ s) :
    pathParts (runDirName ds time) = [runDirName ds time] := by
  cases ds with
  | none =>
    refine pathParts_one ?_ ?_ ?_
    · show '/' ∉ "pyfhd_".toList ++ time
      rw [List.mem_append, not_or]
      exact ⟨by decide, ht⟩
    · intro e; cases e
    · intro e; cases e
  | some s =>
    refine pathParts_one ?_ ?_ ?_
    · show '/' ∉ "pyfhd_".toList ++ underscored s
      rw [List.mem_append, not_or, slash_underscored]
      exact ⟨by decide, hd s rfl⟩
    · intro e; cases e
    · intro e; cases e

theorem logName_parts {ds : Option (List Char)} {time : List Char} (ht : '/' ∉ time) (hd : ∀ s, ds = some s → '/' ∉ s) :
    pathParts (runLogName ds time ++ ".log".toList) = [runLogName ds time ++ ".log".toList] := by
  cases ds with
  | none =>
    refine pathParts_one ?_ ?_ ?_
    · show '/' ∉ ("pyfhd_".toList ++ time) ++ ".log".toList
      simp only [List.mem_append, not_or]
      exact ⟨⟨by decide, ht⟩, by decide⟩
    · intro e; cases e
    · intro e; cases e
  | some s =>
    refine pathParts_one ?_ ?_ ?_
    · show '/' ∉ ("pyfhd_".toList ++ underscored s ++ "_".toList ++ time) ++ ".log".toList
      simp only [List.mem_append, not_or, slash_underscored]
      exact ⟨⟨⟨⟨by decide, hd s rfl⟩, by decide⟩, ht⟩, by decide⟩
    · intro e; cases e
    · intro e; cases e

theorem mkdir_ok {d : Disk} {p : DiskPath} (h1 : d.dir p = false) (h2 : d.file p = false)
    (h3 : d.dir p.dropLast = true) : mkdir d p = .ok { d with dir := fun q => q == p || d.dir q } := by
  unfold mkdir
  rw [h1, h2, h3]
  rfl

/-- **C204.** When the output path or its parent is a directory and the names are free of files, the run gets the directory of its
name in the output path. This directory and the output path exist afterwards, a log file is there if asked for, nothing
else is new and nothing is gone, and a warning is given exactly when the directory was there before. -/
theorem C204_directory (disk : Disk) (c : DirCfg) (time : List Char)
    (ht : Spec.OneName time) (hd : ∀ s, c.description = some s → Spec.OneName s)
    (hout : disk.dir c.outputPath = true ∨ disk.file c.outputPath = false ∧ disk.dir c.outputPath.dropLast = true)
    (hfile : disk.file (c.outputPath ++ [runDirName c.description time]) = false)
    (hlog : disk.dir (c.outputPath ++ [runDirName c.description time,
      runLogName c.description time ++ ".log".toList]) = false) :
    ∃ r, makeRunDir disk c time = .ok r ∧
      r.outputDir = c.outputPath ++ [match c.description with
        | none => "pyfhd_".toList ++ time
        | some s => "pyfhd_".toList ++ s.map fun ch => if ch = ' ' then '_' else ch] ∧
      (∀ q, r.disk.dir q = true ↔ disk.dir q = true ∨ q = c.outputPath ∨ q = r.outputDir) ∧
      (∀ q, r.disk.file q = true ↔ disk.file q = true ∨ c.logFile = true ∧
        q = r.outputDir ++ [(match c.description with
          | none => "pyfhd_".toList ++ time
          | some s => "pyfhd_".toList ++ (s.map fun ch => if ch = ' ' then '_' else ch) ++ "_".toList ++ time) ++
            ".log".toList]) ∧
      (r.existed = true ↔ disk.dir r.outputDir = true) := by
  set nm := runDirName c.description time with hnm
  set lg := runLogName c.description time ++ ".log".toList with hlg
  have hpn : pathParts nm = [nm] := dirName_parts ht hd
  have hpl : pathParts lg = [lg] := logName_parts ht hd
  have enm : nm = match c.description with
        | none => "pyfhd_".toList ++ time
        | some s => "pyfhd_".toList ++ s.map fun ch => if ch = ' ' then '_' else ch := by
    rw [hnm]; cases c.description <;> rfl
  have elg : lg = (match c.description with
          | none => "pyfhd_".toList ++ time
          | some s => "pyfhd_".toList ++ (s.map fun ch => if ch = ' ' then '_' else ch) ++ "_".toList ++ time) ++
            ".log".toList := by
    rw [hlg]; cases c.description <;> rfl
  rw [← enm, ← elg]
  -- the output path
  obtain ⟨d1, hd1, hdir1, hfile1⟩ : ∃ d1, (if disk.dir c.outputPath then Except.ok disk else mkdir disk c.outputPath) = .ok d1 ∧
      (∀ q, d1.dir q = true ↔ disk.dir q = true ∨ q = c.outputPath) ∧ d1.file = disk.file := by
    cases hp : disk.dir c.outputPath with
    | true =>
      refine ⟨disk, rfl, fun q => ⟨.inl, ?_⟩, rfl⟩
      rintro (h | rfl)
      · exact h
      · exact hp
    | false =>
      rcases hout with h | ⟨h1, h2⟩
      · rw [hp] at h; cases h
      · refine ⟨_, mkdir_ok hp h1 h2, fun q => ?_, rfl⟩
        simp only [Bool.or_eq_true, beq_iff_eq]
        exact Or.comm
  have hne : c.outputPath ++ [nm] ≠ c.outputPath := by
    intro e
    have := congrArg List.length e
    simp at this
  have hd1out : d1.dir (c.outputPath ++ [nm]) = disk.dir (c.outputPath ++ [nm]) := by
    rw [Bool.eq_iff_iff, hdir1]
    exact ⟨fun h => h.resolve_right hne, .inl⟩
  obtain ⟨d2, hd2, hdir2, hfile2⟩ : ∃ d2, (if d1.dir (c.outputPath ++ [nm]) then Except.ok d1 else mkdir d1 (c.outputPath ++ [nm])) = .ok d2 ∧
      (∀ q, d2.dir q = true ↔ d1.dir q = true ∨ q = c.outputPath ++ [nm]) ∧ d2.file = disk.file := by
    cases hp : d1.dir (c.outputPath ++ [nm]) with
    | true =>
      refine ⟨d1, rfl, fun q => ⟨.inl, ?_⟩, hfile1⟩
      rintro (h | rfl)
      · exact h
      · exact hp
    | false =>
      refine ⟨_, mkdir_ok hp (by rw [hfile1]; exact hfile) ?_, fun q => ?_, hfile1⟩
      · rw [List.dropLast_concat, hdir1]; exact .inr rfl
      · simp only [Bool.or_eq_true, beq_iff_eq]
        exact Or.comm
  have hlogp : c.outputPath ++ [nm] ++ [lg] = c.outputPath ++ [nm, lg] := by simp
  obtain ⟨d3, hd3, hdir3, hfile3⟩ : ∃ d3, (if c.logFile then openLog d2 (c.outputPath ++ [nm] ++ [lg]) else Except.ok d2) = .ok d3 ∧
      d3.dir = d2.dir ∧ (∀ q, d3.file q = true ↔ disk.file q = true ∨ c.logFile = true ∧ q = c.outputPath ++ [nm] ++ [lg]) := by
    cases hl : c.logFile with
    | false => exact ⟨d2, rfl, rfl, fun q => by rw [hfile2]; simp⟩
    | true =>
      have hno : d2.dir (c.outputPath ++ [nm] ++ [lg]) = false := by
        rw [Bool.eq_false_iff, Ne, hdir2, hdir1, hlogp]
        rintro ((h | h) | h)
        · rw [hlog] at h; cases h
        · have := congrArg List.length h
          simp at this
        · have := congrArg List.length h
          simp at this
      refine ⟨{ d2 with file := fun q => q == (c.outputPath ++ [nm] ++ [lg]) || d2.file q }, ?_, rfl, fun q => ?_⟩
      · rw [if_pos rfl]
        unfold openLog
        rw [hno, List.dropLast_concat, (hdir2 _).2 (.inr rfl)]
        rfl
      · simp only [Bool.or_eq_true, beq_iff_eq, hfile2, true_and]
        exact Or.comm
  refine ⟨{ disk := d3, outputDir := c.outputPath ++ [nm], existed := d1.dir (c.outputPath ++ [nm]),
            logPath := if c.logFile then some (c.outputPath ++ [nm] ++ [lg]) else none,
            printed := !disk.dir c.outputPath }, ?_, rfl, fun q => ?_, hfile3, ?_⟩
  · unfold makeRunDir
    rw [hd1]
    simp only
    rw [← hnm, ← hlg, hpn, hpl, hd2]
    simp only
    rw [hd3]
  · simp only [hdir3, hdir2, hdir1]
    exact or_assoc
  · simp only [hd1out]

/-- **C207, violated.** A description with a slash ends the set-up with an error when there is no directory for its first
part. -/
theorem C207_slash_fails (disk : Disk) (hs : Spec.Sound disk) (c : DirCfg) (time a b : List Char)
    (hc : c.description = some (a ++ '/' :: b)) (ha : '/' ∉ a) (hb : '/' ∉ b) (hb0 : b ≠ []) (hb1 : b ≠ ['.'])
    (hout : disk.dir c.outputPath = true) (hno : disk.dir (c.outputPath ++ ["pyfhd_".toList ++ underscored a]) = false) :
    makeRunDir disk c time = .error .fileNotFound := by
  have hparts : pathParts (runDirName c.description time) = ["pyfhd_".toList ++ underscored a, underscored b] := by
    have e : runDirName c.description time = ("pyfhd_".toList ++ underscored a) ++ '/' :: underscored b := by
      rw [hc]
      simp [runDirName, underscored]
    have h1 : '/' ∉ "pyfhd_".toList ++ underscored a := by
      rw [List.mem_append, not_or, slash_underscored]
      exact ⟨by decide, ha⟩
    have h2 : '/' ∉ underscored b := by rwa [slash_underscored]
    have h3 : underscored b ≠ [] := by unfold underscored; simpa using hb0
    have h4 : underscored b ≠ ['.'] := by
      intro e4
      rcases b with _ | ⟨x, _ | ⟨y, t⟩⟩
      · exact hb0 rfl
      · simp only [underscored, List.map_cons, List.map_nil, List.cons.injEq, and_true] at e4
        split at e4
        · cases e4
        · exact hb1 (by rw [e4])
      · simp [underscored] at e4
    unfold pathParts
    rw [e, split_at_char _ h1, split_char h2]
    rw [List.filter_cons_of_pos, List.filter_cons_of_pos]
    · rfl
    · simp [h3, h4]
    · simp
  unfold makeRunDir
  rw [hout, if_pos rfl]
  simp only
  rw [hparts]
  have e : c.outputPath ++ ["pyfhd_".toList ++ underscored a, underscored b] =
      (c.outputPath ++ ["pyfhd_".toList ++ underscored a]) ++ [underscored b] := by simp
  have h1 : disk.dir (c.outputPath ++ ["pyfhd_".toList ++ underscored a] ++ [underscored b]) = false := by
    rw [Bool.eq_false_iff]
    intro h
    rw [hs _ _ (.inl h)] at hno
    cases hno
  have h2 : disk.file (c.outputPath ++ ["pyfhd_".toList ++ underscored a] ++ [underscored b]) = false := by
    rw [Bool.eq_false_iff]
    intro h
    rw [hs _ _ (.inr h)] at hno
    cases hno
  rw [e, h1]
  simp only [Bool.false_eq_true, if_false]
  unfold mkdir
  rw [h1, h2, List.dropLast_concat, hno]
  rfl

theorem mkdir_mono {d d' : Disk} {p : DiskPath} (h : mkdir d p = .ok d') :
    (∀ q, d.dir q = true → d'.dir q = true) ∧ (∀ q, d.file q = true → d'.file q = true) ∧ d'.dir p = true := by
  unfold mkdir at h
  split at h
  · cases h
  · split at h
    · cases h
      exact ⟨fun q hq => by simp [hq], fun q hq => hq, by simp⟩
    · cases h

theorem openLog_mono {d d' : Disk} {p : DiskPath} (h : openLog d p = .ok d') :
    d'.dir = d.dir ∧ (∀ q, d.file q = true → d'.file q = true) := by
  unfold openLog at h
  split at h
  · cases h
  · split at h
    · cases h
      exact ⟨rfl, fun q hq => by simp [hq]⟩
    · cases h

theorem makeRunDir_mono {disk : Disk} {c : DirCfg} {time : List Char} {r : RunDir} (h : makeRunDir disk c time = .ok r) :
    (∀ q, disk.dir q = true → r.disk.dir q = true) ∧ (∀ q, disk.file q = true → r.disk.file q = true) ∧
      r.disk.dir r.outputDir = true ∧ r.outputDir = c.outputPath ++ pathParts (runDirName c.description time) ∧
      (disk.dir r.outputDir = true → r.existed = true) := by
  unfold makeRunDir at h
  cases h1 : (if disk.dir c.outputPath then Except.ok disk else mkdir disk c.outputPath) with
  | error e => rw [h1] at h; cases h
  | ok d1 =>
    rw [h1] at h
    simp only at h
    have m1 : (∀ q, disk.dir q = true → d1.dir q = true) ∧ (∀ q, disk.file q = true → d1.file q = true) := by
      split at h1
      · cases h1; exact ⟨fun _ x => x, fun _ x => x⟩
      · exact ⟨(mkdir_mono h1).1, (mkdir_mono h1).2.1⟩
    set out := c.outputPath ++ pathParts (runDirName c.description time) with hout
    cases h2 : (if d1.dir out then Except.ok d1 else mkdir d1 out) with
    | error e => rw [h2] at h; cases h
    | ok d2 =>
      rw [h2] at h
      simp only at h
      have m2 : (∀ q, d1.dir q = true → d2.dir q = true) ∧ (∀ q, d1.file q = true → d2.file q = true) ∧
          d2.dir out = true := by
        split at h2
        · rename_i hx; cases h2; exact ⟨fun _ x => x, fun _ x => x, hx⟩
        · exact mkdir_mono h2
      cases h3 : (if c.logFile then openLog d2 (out ++ pathParts (runLogName c.description time ++ ".log".toList))
          else Except.ok d2) with
      | error e => rw [h3] at h; cases h
      | ok d3 =>
        rw [h3] at h
        cases h
        have m3 : d3.dir = d2.dir ∧ (∀ q, d2.file q = true → d3.file q = true) := by
          split at h3
          · exact openLog_mono h3
          · cases h3; exact ⟨rfl, fun _ x => x⟩
        refine ⟨fun q hq => ?_, fun q hq => m3.2 q (m2.2.1 q (m1.2 q hq)), ?_, rfl, fun hq => m1.1 _ hq⟩
        · show d3.dir q = true
          rw [m3.1]; exact m2.1 q (m1.1 q hq)
        · show d3.dir out = true
          rw [m3.1]; exact m2.2.2

/-- **C205.** A run that uses the directory of an earlier run, with any other runs between them, is warned of it. -/
theorem C205_warned (disk : Disk) (c c' : DirCfg) (t t' : List Char) (r r' : RunDir) (between : Disk)
    (h : makeRunDir disk c t = .ok r) (hb : ∀ q, r.disk.dir q = true → between.dir q = true)
    (h' : makeRunDir between c' t' = .ok r') (hsame : r'.outputDir = r.outputDir) : r'.existed = true := by
  obtain ⟨_, _, hd, _⟩ := makeRunDir_mono h
  refine (makeRunDir_mono h').2.2.2.2 (hb _ ?_)
  rw [hsame]; exact hd

theorem underscored_eq {s : List Char} (h : ' ' ∉ s) : underscored s = s := by
  unfold underscored
  conv_rhs => rw [← List.map_id s]
  refine List.map_congr_left fun c hc => ?_
  rw [if_neg (by rintro rfl; exact h hc)]
  rfl

/-- **C205, partial.** Descriptions without blanks and slashes that differ give different directories, at any times. -/
theorem C205_own_directory_partial (disk disk' : Disk) (c c' : DirCfg) (t t' a b : List Char) (r r' : RunDir)
    (h : makeRunDir disk c t = .ok r) (h' : makeRunDir disk' c' t' = .ok r') (hp : c.outputPath = c'.outputPath)
    (hc : c.description = some a) (hc' : c'.description = some b) (ha : ' ' ∉ a ∧ '/' ∉ a) (hb : ' ' ∉ b ∧ '/' ∉ b)
    (hne : a ≠ b) : r.outputDir ≠ r'.outputDir := by
  obtain ⟨_, _, _, e, _⟩ := makeRunDir_mono h
  obtain ⟨_, _, _, e', _⟩ := makeRunDir_mono h'
  have n1 : ∀ s t, '/' ∉ s → pathParts (runDirName (some s) t) = ["pyfhd_".toList ++ underscored s] := by
    intro s t hs
    refine pathParts_one ?_ ?_ ?_
    · show '/' ∉ "pyfhd_".toList ++ underscored s
      rw [List.mem_append, not_or, slash_underscored]
      exact ⟨by decide, hs⟩
    · intro e; cases e
    · intro e; cases e
  rw [hc, n1 a t ha.2, underscored_eq ha.1] at e
  rw [hc', n1 b t' hb.2, underscored_eq hb.1] at e'
  rw [e, e', hp]
  intro x
  have := List.append_cancel_left x
  rw [List.cons.injEq] at this
  exact hne (List.append_cancel_left this.1)

/-- **C205, violated.** Two descriptions that differ in a blank and an underscore share a directory, at any times; so do two runs
without description started in the same second. -/
theorem C205_shared (disk disk' : Disk) (c c' : DirCfg) (t t' : List Char) (r r' : RunDir)
    (h : makeRunDir disk c t = .ok r) (h' : makeRunDir disk' c' t' = .ok r') (hp : c.outputPath = c'.outputPath)
    (hsame : (∃ a b, c.description = some (a ++ ' ' :: b) ∧ c'.description = some (a ++ '_' :: b)) ∨
      c.description = none ∧ c'.description = none ∧ t = t') : r.outputDir = r'.outputDir := by
  obtain ⟨_, _, _, e, _⟩ := makeRunDir_mono h
  obtain ⟨_, _, _, e', _⟩ := makeRunDir_mono h'
  rw [e, e', hp]
  rcases hsame with ⟨a, b, h1, h2⟩ | ⟨h1, h2, rfl⟩
  · rw [h1, h2]
    simp [runDirName, underscored]
  · rw [h1, h2]

/-- **C206.** Times being written with a fixed number of characters, two runs have the same name of log and configuration files only if
they started in the same second, and only with the same description up to blanks and underscores. -/
theorem C206_log_names (ds ds' : Option (List Char)) (t t' : List Char) (hl : t.length = t'.length) :
    runLogName ds t = runLogName ds' t' ↔
      t = t' ∧ (ds.map fun s => s.map fun ch => if ch = ' ' then '_' else ch) =
        ds'.map fun s => s.map fun ch => if ch = ' ' then '_' else ch := by
  have hu : "_".toList.length = 1 := rfl
  unfold runLogName
  generalize "pyfhd_".toList = p
  generalize "_".toList = u at hu
  cases ds with
  | none =>
    cases ds' with
    | none => exact ⟨fun e => ⟨List.append_cancel_left e, rfl⟩, fun e => by rw [e.1]⟩
    | some b =>
      refine ⟨fun e => ?_, fun e => by cases e.2⟩
      have := congrArg List.length e
      simp only [List.length_append] at this
      omega
  | some a =>
    cases ds' with
    | none =>
      refine ⟨fun e => ?_, fun e => by cases e.2⟩
      have := congrArg List.length e
      simp only [List.length_append] at this
      omega
    | some b =>
      constructor
      · intro e
        obtain ⟨h1, h2⟩ := List.append_inj' e hl
        obtain ⟨h3, _⟩ := List.append_inj' h1 rfl
        have h4 : underscored a = underscored b := List.append_cancel_left h3
        exact ⟨h2, congrArg some h4⟩
      · rintro ⟨rfl, h⟩
        have : underscored a = underscored b := Option.some.inj h
        simp only [this]

/-- **C207, partial.** An output path that does not exist is created when its parent is a directory. -/
theorem C207_created_partial (disk : Disk) (hs : Spec.Sound disk) (c : DirCfg) (time : List Char)
    (ht : Spec.OneName time) (hd : ∀ s, c.description = some s → Spec.OneName s)
    (h1 : disk.dir c.outputPath = false) (h2 : disk.file c.outputPath = false)
    (h3 : disk.dir c.outputPath.dropLast = true) :
    ∃ r, makeRunDir disk c time = .ok r ∧ r.disk.dir c.outputPath = true ∧ r.existed = false := by
  have n1 : disk.dir (c.outputPath ++ [runDirName c.description time]) = false := by
    rw [Bool.eq_false_iff]
    intro h
    rw [hs _ _ (.inl h)] at h1
    cases h1
  have n2 : disk.file (c.outputPath ++ [runDirName c.description time]) = false := by
    rw [Bool.eq_false_iff]
    intro h
    rw [hs _ _ (.inr h)] at h1
    cases h1
  have n3 : disk.dir (c.outputPath ++ [runDirName c.description time, runLogName c.description time ++ ".log".toList]) =
      false := by
    rw [Bool.eq_false_iff]
    intro h
    have e : c.outputPath ++ [runDirName c.description time, runLogName c.description time ++ ".log".toList] =
      (c.outputPath ++ [runDirName c.description time]) ++ [runLogName c.description time ++ ".log".toList] := by simp
    rw [e] at h
    rw [hs _ _ (.inl h)] at n1
    cases n1
  obtain ⟨r, hr, ho, hdir, _, hex⟩ := C204_directory disk c time ht hd (.inr ⟨h2, h3⟩) n2 n3
  refine ⟨r, hr, (hdir _).2 (.inr (.inl rfl)), ?_⟩
  rw [Bool.eq_false_iff]
  intro h
  rw [hex] at h
  have e : r.outputDir = c.outputPath ++ [runDirName c.description time] := by
    rw [ho]
    cases c.description <;> rfl
  rw [e, n1] at h
  cases h

/-- **C207, violated.** An output path whose parent does not exist ends the set-up with an error. -/
theorem C207_nested_fails (disk : Disk) (c : DirCfg) (time : List Char) (h1 : disk.dir c.outputPath = false)
    (h2 : disk.file c.outputPath = false) (h3 : disk.dir c.outputPath.dropLast = false) :
    makeRunDir disk c time = .error .fileNotFound := by
  unfold makeRunDir
  rw [h1]
  simp only [Bool.false_eq_true, if_false]
  unfold mkdir
  rw [h1, h2, h3]
  rfl

/-! ## Messages -/

/-- The handlers after several runs in one process. -/
def handlersAfter (runs : List (Bool × Option DiskPath)) : List LogHandler :=
  runs.foldl (fun hs r => closeHandlers (addHandlers hs r.1 r.2)) []

/-- **C208, partial.** In the first run of a process each message appears once on the screen unless the run is silent, and once in
the log file if there is one; for a silent run without log file, messages that are not warnings appear nowhere. -/
theorem C208_once_partial (silent : Bool) (logPath : Option DiskPath) (warning : Bool)
    (h : silent = false ∨ logPath ≠ none ∨ warning = false) :
    (deliver (addHandlers [] silent logPath) warning).count .screen = (if silent then 0 else 1) ∧
      ∀ p, (deliver (addHandlers [] silent logPath) warning).count (.log p) = if logPath = some p then 1 else 0 := by
  cases silent <;> cases logPath with
  | none => cases warning <;> simp_all [addHandlers, deliver]
  | some q =>
    refine ⟨by simp [addHandlers, deliver], fun p => ?_⟩
    by_cases hq : q = p
    · subst hq; simp [addHandlers, deliver]
    · simp [addHandlers, deliver, hq]

/-- **C208, violated.** A silent run without log file shows warnings on the screen, and tells of the creation of the output path
whether silent or not. -/
theorem C208_silent_speaks :
    deliver (addHandlers [] true none) true = [.screen] ∧
      ∀ (disk : Disk) (c : DirCfg) (time : List Char) (r : RunDir), disk.dir c.outputPath = false →
        makeRunDir disk c time = .ok r → r.printed = true := by
  refine ⟨rfl, fun disk c time r hd h => ?_⟩
  unfold makeRunDir at h
  split at h
  · cases h
  · simp only at h
    split at h
    · cases h
    · split at h
      · cases h
      · cases h
        simp [hd]

theorem handlersAfter_append (runs : List (Bool × Option DiskPath)) (r : Bool × Option DiskPath) :
    handlersAfter (runs ++ [r]) = addHandlers (handlersAfter runs) r.1 r.2 := by
  unfold handlersAfter
  rw [List.foldl_append]
  rfl

theorem handlers_counts (runs : List (Bool × Option DiskPath)) :
    (handlersAfter runs).count .terminal = (runs.filter fun r => !r.1).length ∧
      ∀ p, (handlersAfter runs).count (.file p) = (runs.filter fun r => decide (r.2 = some p)).length := by
  induction runs using List.reverseRecOn with
  | nil => exact ⟨rfl, fun _ => rfl⟩
  | append_singleton runs r ih =>
    obtain ⟨i1, i2⟩ := ih
    rw [handlersAfter_append]
    obtain ⟨s, l⟩ := r
    constructor
    · cases s <;> cases l <;> simp [addHandlers, i1, List.count_append]
    · intro p
      cases s <;> cases l with
      | none => simp [addHandlers, i2, List.count_append]
      | some q =>
        by_cases hq : q = p
        · subst hq; simp [addHandlers, i2, List.count_append]
        · simp [addHandlers, i2, List.count_append, hq]

/-- **C208, violated.** With several runs in one process, each message of the last appears on the screen as often as there were runs
that are not silent, and in the log file of every earlier run. -/
theorem C208_repeated (runs : List (Bool × Option DiskPath)) (warning : Bool) (h : handlersAfter runs ≠ []) :
    (deliver (handlersAfter runs) warning).count .screen = (runs.filter fun r => !r.1).length ∧
      ∀ p, (deliver (handlersAfter runs) warning).count (.log p) =
        (runs.filter fun r => decide (r.2 = some p)).length := by
  obtain ⟨i1, i2⟩ := handlers_counts runs
  have key : ∀ hs : List LogHandler, (hs.map fun h => match h with
      | .terminal => Sink.screen
      | .file p => .log p).count .screen = hs.count .terminal ∧
      ∀ p, (hs.map fun h => match h with
        | .terminal => Sink.screen
        | .file p => .log p).count (.log p) = hs.count (.file p) := by
    intro hs
    induction hs with
    | nil => exact ⟨rfl, fun _ => rfl⟩
    | cons a t ih =>
      obtain ⟨j1, j2⟩ := ih
      cases a with
      | terminal =>
        refine ⟨by simp [j1], fun p => by simp [j2]⟩
      | file q =>
        refine ⟨by simp [j1], fun p => ?_⟩
        by_cases hq : q = p
        · subst hq; simp [j2]
        · simp [j2, hq]
  unfold deliver
  rw [if_neg h]
  exact ⟨(key _).1.trans i1, fun p => ((key _).2 p).trans (i2 p)⟩

theorem dropBar_none : ∀ {s : List Char}, '|' ∉ s → dropBarBlanks s = s
  | [], _ => rfl
  | c :: rest, h => by
    have hc : c ≠ '|' := fun e => h (by simp [e])
    have ih := dropBar_none (s := rest) (fun x => h (by simp [x]))
    rw [dropBarBlanks.eq_2]
    · rw [ih]
    · intro r e
      exact absurd e hc

/-- **C209, partial.** What is reported in the first message for a value without bars, after a label without bars and
underscores: the value with a blank for every underscore. It is the value itself exactly when there is no underscore in it. -/
theorem C209_reported_partial (label v : List Char) (hl : '|' ∉ label ∧ '_' ∉ label ∧ label.head? ≠ some ' ' ∧ label ≠ [])
    (hv : '|' ∉ v) :
    bannerLine (label ++ v) = label ++ v.map (fun c => if c = '_' then ' ' else c) ∧
      (bannerLine (label ++ v) = label ++ v ↔ '_' ∉ v) := by
  obtain ⟨h1, h2, h3, h4⟩ := hl
  have e1 : stripLeft (label ++ v) = label ++ v := by
    obtain ⟨c, t, rfl⟩ := List.exists_cons_of_ne_nil h4
    unfold stripLeft
    rw [List.cons_append, List.dropWhile_cons_of_neg]
    simpa using h3
  have e2 : label.map (fun c => if c = '_' then ' ' else c) = label := by
    conv_rhs => rw [← List.map_id label]
    refine List.map_congr_left fun c hc => ?_
    rw [if_neg (by rintro rfl; exact h2 hc)]
    rfl
  have hno : '|' ∉ label ++ v.map (fun c => if c = '_' then ' ' else c) := by
    rw [List.mem_append, not_or]
    refine ⟨h1, fun hx => ?_⟩
    obtain ⟨c, hc, e⟩ := List.mem_map.1 hx
    split at e
    · cases e
    · exact hv (e ▸ hc)
  have e3 : bannerLine (label ++ v) = label ++ v.map (fun c => if c = '_' then ' ' else c) := by
    unfold bannerLine
    rw [e1, List.map_append, e2, dropBar_none hno, List.filter_eq_self]
    intro c hc
    simp only [bne_iff_ne, ne_eq]
    rintro rfl
    exact hno hc
  refine ⟨e3, ?_⟩
  rw [e3]
  constructor
  · intro h hm
    have := List.append_cancel_left h
    have hm' : '_' ∈ v.map (fun c => if c = '_' then ' ' else c) := by rw [this]; exact hm
    obtain ⟨c, _, e⟩ := List.mem_map.1 hm'
    split at e
    · cases e
    · rename_i hne; exact hne e
  · intro h
    congr 1
    conv_rhs => rw [← List.map_id v]
    refine List.map_congr_left fun c hc => ?_
    rw [if_neg (by rintro rfl; exact h hc)]
    rfl

/-- **C209, violated.** Two configuration files whose names differ in a blank and an underscore are reported alike. -/
theorem C209_confused (label a b : List Char) :
    bannerLine (label ++ (a ++ '_' :: b)) = bannerLine (label ++ (a ++ ' ' :: b)) ∨
      (stripLeft (label ++ a) = [] ∧ label ++ a = List.replicate (label ++ a).length ' ') := by
  by_cases h : stripLeft (label ++ a) = []
  · right
    refine ⟨h, ?_⟩
    rw [List.eq_replicate_iff]
    refine ⟨rfl, fun c hc => ?_⟩
    unfold stripLeft at h
    rw [List.dropWhile_eq_nil_iff] at h
    simpa using h c hc
  · left
    have key : ∀ (s t : List Char), stripLeft s ≠ [] → stripLeft (s ++ t) = stripLeft s ++ t := by
      intro s t hs
      unfold stripLeft at hs ⊢
      induction s with
      | nil => exact absurd rfl hs
      | cons c r ih =>
        by_cases hc : (c == ' ') = true
        · simp only [List.cons_append, List.dropWhile_cons, hc, if_true] at hs ⊢
          exact ih hs
        · simp only [List.cons_append, List.dropWhile_cons, hc, Bool.false_eq_true, if_false]
    unfold bannerLine
    rw [← List.append_assoc, ← List.append_assoc, key _ _ h, key _ _ h]
    congr 2
    simp

/-! ## The commit -/

/-- **C210, partial.** With a complete file of information, the recorded commit is its first line. -/
theorem C210_commit_partial (l0 l1 l2 rest git : List Char) (h0 : '\n' ∉ l0) (h1 : '\n' ∉ l1) (h2 : '\n' ∉ l2) :
    recordedCommit (some (l0 ++ '\n' :: (l1 ++ '\n' :: l2))) git = .ok l0 ∧
      recordedCommit (some (l0 ++ '\n' :: (l1 ++ '\n' :: (l2 ++ '\n' :: rest)))) git = .ok l0 := by
  constructor
  · unfold recordedCommit gitDescribe
    simp only [split_at_char _ h0, split_at_char _ h1, split_char h2]
  · unfold recordedCommit gitDescribe
    simp only [split_at_char _ h0, split_at_char _ h1, split_at_char _ h2]

/-- **C210, violated.** Without that file the commit is whatever git writes in the working directory, with its newline: that of another
repository, or nothing at all; the text saying that no information was found is never recorded in its place. A file with
fewer than three lines ends the program. -/
theorem C210_any_repository (git : List Char) :
    recordedCommit none git = .ok git ∧ recordedCommit none [] = .ok [] ∧
      ∀ text : List Char, text.count '\n' < 2 → recordedCommit (some text) git = .error .indexError := by
  refine ⟨rfl, rfl, fun text h => ?_⟩
  have hlen : ∀ s : List Char, (List.splitOnP (· == '\n') s).length = s.count '\n' + 1 := by
    intro s
    induction s with
    | nil => rfl
    | cons c r ih =>
      rw [List.splitOnP_cons_eq_if_modifyHead]
      by_cases hc : (c == '\n') = true
      · rw [if_pos hc, List.length_cons, ih]
        simp only [beq_iff_eq] at hc
        rw [hc, List.count_cons_self]
      · rw [if_neg hc, List.length_modifyHead, ih, List.count_cons_of_ne]
        simpa using hc
  have hl := hlen text
  unfold recordedCommit gitDescribe
  rcases hsp : List.splitOnP (· == '\n') text with _ | ⟨a, _ | ⟨b, _ | ⟨c, d⟩⟩⟩
  · simp only [hsp]
  · simp only [hsp]
  · simp only [hsp]
  · rw [hsp] at hl
    simp only [List.length_cons] at hl
    omega

/-! ## Durations -/

theorem roundEven_near (x : ℚ) : |(roundEven x : ℚ) - x| ≤ 1 / 2 := by
  have h1 := Int.floor_le x
  have h2 := Int.lt_floor_add_one x
  unfold roundEven
  simp only
  split
  · rw [abs_le]; constructor <;> linarith
  · split
    · push_cast; rw [abs_le]; constructor <;> linarith
    · split
      · rw [abs_le]; constructor <;> linarith
      · push_cast; rw [abs_le]; constructor <;> linarith

namespace Spec

/-- The time that a written duration stands for, in seconds. -/
def Duration.inSeconds : PyFHD.Duration → ℚ
  | .millis q => q / 1000
  | .seconds q => q
  | .delta d h m s u => d * 86400 + h * 3600 + m * 60 + s + u / 1000000

end Spec

theorem timeDelta_seconds (t : ℚ) :
    |Spec.Duration.inSeconds (timeDelta t) - t| ≤ 1 / 2000000 ∧
      ∃ d h m s u : ℤ, timeDelta t = .delta d h m s u ∧ 0 ≤ h ∧ h < 24 ∧ 0 ≤ m ∧ m < 60 ∧ 0 ≤ s ∧ s < 60 ∧
        0 ≤ u ∧ u < 1000000 := by
  set us := roundEven (t * 1000000) with hus
  have hn := roundEven_near (t * 1000000)
  rw [← hus] at hn
  have hdec : us / 1000000 / 86400 * 86400 + us / 1000000 % 86400 / 3600 * 3600 +
      us / 1000000 % 3600 / 60 * 60 + us / 1000000 % 60 = us / 1000000 := by omega
  have hus2 : us / 1000000 * 1000000 + us % 1000000 = us := by omega
  have hval : Spec.Duration.inSeconds (timeDelta t) = (us : ℚ) / 1000000 := by
    have e1 : ((us / 1000000 / 86400 * 86400 + us / 1000000 % 86400 / 3600 * 3600 +
      us / 1000000 % 3600 / 60 * 60 + us / 1000000 % 60 : ℤ) : ℚ) = ((us / 1000000 : ℤ) : ℚ) := by rw [hdec]
    have e2 : ((us / 1000000 * 1000000 + us % 1000000 : ℤ) : ℚ) = (us : ℚ) := by rw [hus2]
    simp only [timeDelta, Spec.Duration.inSeconds, ← hus]
    push_cast at e1 e2 ⊢
    rw [e1]
    linarith
  refine ⟨?_, _, _, _, _, _, rfl, ?_, ?_, ?_, ?_, ?_, ?_, ?_, ?_⟩
  · rw [hval]
    rw [abs_le] at hn ⊢
    constructor <;> linarith [hn.1, hn.2]
  all_goals omega

/-- **C211.** The time reported for a step differs from the time it took by at most half a unit of the last digit written; times up to a
second are in milliseconds, times over a minute in days, hours, minutes and seconds, each in its range. -/
theorem C211_durations (start stop : ℚ) :
    |Spec.Duration.inSeconds (timeDiff start stop) - (stop - start)| ≤ 1 / 200000 ∧
      (stop - start < 1 → (∃ q, timeDiff start stop = .millis q) ∧
        |Spec.Duration.inSeconds (timeDiff start stop) - (stop - start)| ≤ 1 / 200000000) ∧
      (1 ≤ stop - start → stop - start ≤ 60 → ∃ q, timeDiff start stop = .seconds q) ∧
      (60 < stop - start → |Spec.Duration.inSeconds (timeDiff start stop) - (stop - start)| ≤ 1 / 2000000 ∧
        ∃ d h m s u : ℤ, timeDiff start stop = .delta d h m s u ∧ 0 ≤ h ∧ h < 24 ∧ 0 ≤ m ∧ m < 60 ∧ 0 ≤ s ∧ s < 60 ∧
          0 ≤ u ∧ u < 1000000) := by
  by_cases h1 : 60 < stop - start
  · have e : timeDiff start stop = timeDelta (stop - start) := by
      unfold timeDiff; simp only; rw [if_pos h1]
    obtain ⟨a, b⟩ := timeDelta_seconds (stop - start)
    rw [e]
    exact ⟨a.trans (by norm_num), fun h => by linarith, fun _ h => by linarith, fun _ => ⟨a, b⟩⟩
  · by_cases h2 : stop - start < 1
    · have e : timeDiff start stop = .millis (roundEven ((stop - start) * 1000 * 100000) / 100000) := by
        unfold timeDiff; simp only; rw [if_neg h1, if_pos h2]
      have hn := roundEven_near ((stop - start) * 1000 * 100000)
      have hb : |Spec.Duration.inSeconds (timeDiff start stop) - (stop - start)| ≤ 1 / 200000000 := by
        rw [e]
        simp only [Spec.Duration.inSeconds]
        rw [abs_le] at hn ⊢
        constructor <;> linarith [hn.1, hn.2]
      exact ⟨hb.trans (by norm_num), fun _ => ⟨⟨_, e⟩, hb⟩, fun h => by linarith, fun h => absurd h h1⟩
    · have e : timeDiff start stop = .seconds (roundEven ((stop - start) * 100000) / 100000) := by
        unfold timeDiff; simp only; rw [if_neg h1, if_neg h2]
      have hn := roundEven_near ((stop - start) * 100000)
      have hb : |Spec.Duration.inSeconds (timeDiff start stop) - (stop - start)| ≤ 1 / 200000 := by
        rw [e]
        simp only [Spec.Duration.inSeconds]
        rw [abs_le] at hn ⊢
        constructor <;> linarith [hn.1, hn.2]
      exact ⟨hb, fun h => absurd h h2, fun _ _ => ⟨_, e⟩, fun h => absurd h h1⟩

/-! ## Examples -/

/-- A disk with a root, a directory and a file. -/
def exampleDisk : Disk where
  dir q := q == [] || q == ["data".toList]
  file q := q == ["data".toList, "x".toList]

/-- The paths and tests of a run on this disk. -/
def exampleRun (p : DiskPath) (d : Option (List Char)) :
    Option (DiskPath × Option DiskPath × Bool × Bool × Bool) :=
  match makeRunDir exampleDisk ⟨p, d, false, true⟩ "2026_11_16_12_00_00".toList with
  | .ok r => some (r.outputDir, r.logPath, r.existed, r.disk.dir r.outputDir, r.printed)
  | .error _ => none

/-- It meets the hypotheses of C204 and C207 for an output path that is there, one that is created; a nested one is not created. -/
example : exampleRun ["data".toList] (some "my run".toList) =
    some (["data".toList, "pyfhd_my_run".toList],
      some ["data".toList, "pyfhd_my_run".toList, "pyfhd_my_run_2026_11_16_12_00_00.log".toList], false, true, false) := by
  decide +kernel

example : exampleRun ["new".toList] none =
    some (["new".toList, "pyfhd_2026_11_16_12_00_00".toList],
      some ["new".toList, "pyfhd_2026_11_16_12_00_00".toList, "pyfhd_2026_11_16_12_00_00.log".toList], false, true,
      true) := by
  decide +kernel

example : exampleRun ["new".toList, "out".toList] none = none := by
  decide +kernel

example : exampleRun ["data".toList] (some "a/b".toList) = none := by
  decide +kernel

example : Spec.Sound exampleDisk := by
  intro q x h
  rcases q with _ | ⟨a, _ | ⟨b, t⟩⟩
  · decide
  · simp only [exampleDisk, List.cons_append, List.nil_append, Bool.or_eq_true, beq_iff_eq] at h ⊢
    rcases h with (h | h) | h
    · cases h
    · cases h
    · cases h; right; rfl
  · simp [exampleDisk] at h

/-- Two runs in one process: each message of the second is shown twice and written to both logs. -/
example : deliver (handlersAfter [(false, some ["a".toList]), (false, some ["b".toList])]) false =
    [.screen, .log ["a".toList], .screen, .log ["b".toList]] := by
  decide

example : bannerLine "        Confifuration File: my_config.yaml".toList = "Confifuration File: my config.yaml".toList ∧
    bannerLine "    |    8888   |".toList = "8888   ".toList := by
  decide +kernel

example : timeDiff 0 (7325 + 1 / 4) = .delta 0 2 2 5 250000 ∧ timeDiff 0 (3 / 2) = .seconds (3 / 2) ∧
    timeDiff 0 (1 / 3) = .millis (33333333 / 100000) := by
  decide +kernel

end PyFHD
