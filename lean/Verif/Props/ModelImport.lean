import Verif.Model.ModelImport
import Verif.Props.UvfitsHeader
import Verif.Props.RunDir
import Verif.Props.Healpix

/-!
# Model visibilities from uvfits files and for IDL, IDL files (C226 to C229)
-/

namespace PyFHD

open Spec

/-! ## C226 -/

theorem once_contains {cols : List GroupCol} {s : String} (h : Once cols s) : (cols.map GroupCol.name).contains s = true := by
  obtain ⟨c, hc⟩ := List.length_eq_one_iff.mp h
  have hmem : c ∈ cols.filter fun c => c.name == s := by rw [hc]; simp
  have := List.mem_filter.mp hmem
  simp only [List.contains_eq_mem, List.mem_map, decide_eq_true_eq]
  exact ⟨c, this.1, by simpa using this.2⟩

theorem validate_once {cols : List GroupCol} (hu : Once cols "UU") (hv : Once cols "VV") (hw : Once cols "WW")
    (hd : Once cols "DATE") (h1 : Once cols "ANTENNA1") (h2 : Once cols "ANTENNA2")
    (hf : (cols.map GroupCol.name).head? ≠ some "DATE") : validateParams (cols.map GroupCol.name) = .ok () := by
  have hdc := once_contains hd
  unfold validateParams
  rw [once_contains hu, once_contains hv, once_contains hw, once_contains h1, once_contains h2]
  generalize cols.map GroupCol.name = l at hf hdc
  cases e : l.findIdx? (· == "DATE") with
  | none =>
    rw [List.findIdx?_eq_none_iff] at e
    have : "DATE" ∈ l := by simpa using hdc
    have := e _ this
    simp at this
  | some i =>
    have hi : i ≠ 0 := by
      rintro rfl
      rw [List.findIdx?_eq_some_iff_getElem] at e
      obtain ⟨h, hp, _⟩ := e
      apply hf
      cases l with
      | nil => simp at h
      | cons x xs => simpa using hp
    simp [hi]

theorem uvHeader_once {sites : String → Option Site} (fits : ℚ → String) {instrument : String} {h : UvCards}
    {cols : List GroupCol} (hs : sites instrument ≠ none) (hdate : h.dateObs ≠ none) (hra : h.obsra ≠ none)
    (hdec : h.obsdec ≠ none) (hu : Once cols "UU") (hv : Once cols "VV") (hw : Once cols "WW")
    (hd : Once cols "DATE") (h1 : Once cols "ANTENNA1") (h2 : Once cols "ANTENNA2")
    (hf : (cols.map GroupCol.name).head? ≠ some "DATE") : ∃ pl, uvHeader sites fits instrument h cols = .ok pl := by
  obtain ⟨s, hs⟩ := Option.ne_none_iff_exists'.mp hs
  obtain ⟨d, hdate⟩ := Option.ne_none_iff_exists'.mp hdate
  obtain ⟨r, hra⟩ := Option.ne_none_iff_exists'.mp hra
  obtain ⟨e, hdec⟩ := Option.ne_none_iff_exists'.mp hdec
  have hj : ∃ j, uvJd0 cols = .ok j := by
    obtain ⟨c, hc⟩ := List.length_eq_one_iff.mp hd
    have : (cols.filter fun c => c.name == "DATE").head? = some c := by rw [hc]; rfl
    rw [List.head?_filter] at this
    unfold uvJd0
    rw [this]
    simp only
    split_ifs with hlt
    · rw [List.countP_eq_length_filter, hc] at hlt
      simp at hlt
    · exact ⟨_, rfl⟩
  obtain ⟨j, hj⟩ := hj
  unfold uvHeader
  rw [hdate, hra, hdec, hs, hj]
  simp only [cardOr, bind, Except.bind, pure, Except.pure, validate_once hu hv hw hd h1 h2 hf]
  exact ⟨_, rfl⟩

/-- A uvfits file of model visibilities with as many channels as the data: the visibilities and the coordinates are those of the file.
Missing: the frequencies of these channels are not compared (`C226_other_frequencies`). -/
theorem C226_model_visibilities_partial {α C : Type} (mk : α → α → C) (sites : String → Option Site) (fits : ℚ → String)
    (instrument : String) (f : UvFile α) (nb np k cfgPol n : ℕ) (get : List ℕ → α)
    (hs : sites instrument ≠ none) (hdate : f.cards.dateObs ≠ none) (hra : f.cards.obsra ≠ none) (hdec : f.cards.obsdec ≠ none)
    (hr : Rows f.cols n) (hu : Once f.cols "UU") (hv : Once f.cols "VV") (hw : Once f.cols "WW") (hd : Once f.cols "DATE")
    (h1 : Once f.cols "ANTENNA1") (h2 : Once f.cols "ANTENNA2") (hf : (f.cols.map GroupCol.name).head? ≠ some "DATE")
    (hdata : f.data = ⟨nb :: (List.replicate k 1 ++ [f.nFreq, np, 3]), get⟩) (hnp : f.nPol = np) (hb : nb ≠ 1)
    (hnf : f.nFreq ≠ 1) (hp : np ≠ 1) (hpol : cfgPol ≤ np) :
    ∃ vis params, importModelUvfits mk sites fits instrument f f.nFreq cfgPol = .ok (vis, params) ∧
      vis.shape = [if cfgPol = 0 then np else cfgPol, f.nFreq, nb] ∧
      (∀ p c b, vis.get [p, c, b] = mk (get (b :: (List.replicate k 0 ++ [c, p, 0])))
          (get (b :: (List.replicate k 0 ++ [c, p, 1])))) ∧
      params.uu = (List.range n).map (groupValue f.cols "UU") ∧ params.vv = (List.range n).map (groupValue f.cols "VV") ∧
      params.ww = (List.range n).map (groupValue f.cols "WW") ∧ params.time = (List.range n).map (groupValue f.cols "DATE") ∧
      params.antenna1 = (List.range n).map (groupValue f.cols "ANTENNA1") ∧
      params.antenna2 = (List.range n).map (groupValue f.cols "ANTENNA2") := by
  obtain ⟨pl, hpl⟩ := uvHeader_once fits hs hdate hra hdec hu hv hw hd h1 h2 hf
  obtain ⟨vis, wts, hx, hsh, _, hget⟩ := C44_extract_visibilities_partial mk get nb f.nFreq np k cfgPol hb hnf hp hpol
  have hc := C217_columns_partial f.cols n hr hu hv hw hd h1 h2
  refine ⟨vis,
      { uu := (List.range n).map (groupValue f.cols "UU"), vv := (List.range n).map (groupValue f.cols "VV"),
        ww := (List.range n).map (groupValue f.cols "WW"), time := (List.range n).map (groupValue f.cols "DATE"),
        antenna1 := (List.range n).map (groupValue f.cols "ANTENNA1"),
        antenna2 := (List.range n).map (groupValue f.cols "ANTENNA2") }, ?_, hsh, fun p c b => (hget p c b).1, ?_⟩
  · unfold importModelUvfits
    rw [hpl]
    simp only [bind, Except.bind, pure, Except.pure, ne_eq, not_true_eq_false, if_false, once_contains h1, once_contains h2,
      Bool.and_self, hc, hdata, hnp, hx]
  · exact ⟨rfl, rfl, rfl, rfl, rfl, rfl⟩

/-- A model with another number of channels is never used. -/
theorem C226_other_count {α C : Type} (mk : α → α → C) (sites : String → Option Site) (fits : ℚ → String)
    (instrument : String) (f : UvFile α) (obsFreq cfgPol : ℕ) (h : f.nFreq ≠ obsFreq) :
    ∀ r, importModelUvfits mk sites fits instrument f obsFreq cfgPol ≠ .ok r := by
  intro r hr
  unfold importModelUvfits at hr
  cases hh : uvHeader sites fits instrument f.cards f.cols with
  | error e => rw [hh] at hr; cases hr
  | ok pl =>
    rw [hh] at hr
    simp only [bind, Except.bind, if_pos h] at hr
    cases hr

/-- A header that can be read and another number of channels end the program. -/
theorem C226_other_count_ends {α C : Type} (mk : α → α → C) (sites : String → Option Site) (fits : ℚ → String)
    (instrument : String) (f : UvFile α) (obsFreq cfgPol : ℕ) (h : f.nFreq ≠ obsFreq)
    (hs : sites instrument ≠ none) (hdate : f.cards.dateObs ≠ none) (hra : f.cards.obsra ≠ none) (hdec : f.cards.obsdec ≠ none)
    (hu : Once f.cols "UU") (hv : Once f.cols "VV") (hw : Once f.cols "WW") (hd : Once f.cols "DATE")
    (h1 : Once f.cols "ANTENNA1") (h2 : Once f.cols "ANTENNA2") (hf : (f.cols.map GroupCol.name).head? ≠ some "DATE") :
    importModelUvfits mk sites fits instrument f obsFreq cfgPol = .error .systemExit := by
  obtain ⟨pl, hpl⟩ := uvHeader_once fits hs hdate hra hdec hu hv hw hd h1 h2 hf
  unfold importModelUvfits
  rw [hpl]
  simp only [bind, Except.bind, if_pos h]

/-- A model for other frequencies is used as if it were for those of the data: the frequencies of the file do not matter. -/
theorem C226_other_frequencies {α C : Type} (mk : α → α → C) (sites : String → Option Site) (fits : ℚ → String)
    (instrument : String) (f : UvFile α) (obsFreq cfgPol : ℕ) (crpix cdelt crval : ℚ) :
    importModelUvfits mk sites fits instrument { f with crpix := crpix, cdelt := cdelt, crval := crval } obsFreq cfgPol =
      importModelUvfits mk sites fits instrument f obsFreq cfgPol := rfl

/-- A file with two visibilities, two channels from 100 MHz and two polarisations. -/
def exUvFile : UvFile ℕ :=
  { cards := ⟨some "2013", none, some 1, none, some 2, none, none, none, none⟩, cols := exUvCols, nFreq := 2, nPol := 2,
    crpix := 1, cdelt := 80000, crval := 100000000,
    data := ⟨[2, 1, 1, 2, 2, 3], fun ix => ix.foldl (fun a i => 10 * a + i) 0⟩ }

def exSites (s : String) : Option Site := if s = "mwa" then some ⟨116, -26, 377⟩ else none

example : (importModelUvfits (fun a b : ℕ => (a, b)) exSites (fun _ => "") "mwa" exUvFile 2 0).toOption.map
    (fun r => (r.1.shape, r.1.get [1, 0, 1], r.2.time)) = some ([2, 2, 2], (100010, 100011), [4912001/2, 4912001/2]) := by
  decide +kernel

example : ({ exUvFile with crval := 200000000 } : UvFile ℕ).freqs ≠ exUvFile.freqs := by decide +kernel

/-! ## C227 -/

theorem splitWords_word {w : List Char} (hw : ∀ c ∈ w, pySpace c = false) (rest acc : List Char) :
    splitWords (w ++ rest) acc = splitWords rest (w.reverse ++ acc) := by
  induction w generalizing acc with
  | nil => rfl
  | cons c cs ih =>
    rw [List.cons_append, splitWords, if_neg (by rw [hw c (by simp)]; simp), ih (fun d hd => hw d (by simp [hd]))]
    simp

theorem splitWords_blank {w : List Char} (hw : ∀ c ∈ w, pySpace c = false) (hne : w ≠ []) (rest : List Char) :
    splitWords (w ++ ' ' :: rest) [] = w :: splitWords rest [] := by
  rw [splitWords_word hw, List.append_nil, splitWords, if_pos (by decide), if_neg (by simpa using hne), List.reverse_reverse]

theorem splitWords_last {w : List Char} (hw : ∀ c ∈ w, pySpace c = false) (hne : w ≠ []) : splitWords w [] = [w] := by
  have := splitWords_word hw [] []
  rw [List.append_nil, List.append_nil] at this
  rw [this, splitWords, if_neg (by simpa using hne), List.reverse_reverse]

theorem repr_word (n : ℕ) : (∀ c ∈ (Nat.repr n).toList, pySpace c = false) ∧ (Nat.repr n).toList ≠ [] := by
  rw [Nat.toList_repr]
  constructor
  · intro c hc
    have hd := Nat.isDigit_of_mem_toDigits (by norm_num) (by norm_num) hc
    unfold pySpace
    simp only [Bool.or_eq_false_iff, beq_eq_false_iff_ne]
    refine ⟨⟨⟨⟨⟨?_, ?_⟩, ?_⟩, ?_⟩, ?_⟩, ?_⟩ <;> (rintro rfl; revert hd; decide)
  · exact Nat.toDigits_ne_nil

theorem idlCommand_argv (dir obsId : List Char) (nPol : ℕ) (rest : List Char)
    (hc : idlCommand dir obsId nPol = "idl -IDL_DEVICE ps -e convert_model_arr_to_sav -args ".toList ++ rest) :
    splitWords (idlCommand dir obsId nPol) [] =
      ["idl", "-IDL_DEVICE", "ps", "-e", "convert_model_arr_to_sav", "-args"].map String.toList ++ splitWords rest [] := by
  rw [hc]
  have e : "idl -IDL_DEVICE ps -e convert_model_arr_to_sav -args ".toList = "idl".toList ++ ' ' :: ("-IDL_DEVICE".toList ++ ' ' ::
      ("ps".toList ++ ' ' :: ("-e".toList ++ ' ' :: ("convert_model_arr_to_sav".toList ++ ' ' :: ("-args".toList ++ [' ']))))) := by
    decide +kernel
  rw [e]
  simp only [List.append_assoc, List.cons_append, List.nil_append]
  rw [splitWords_blank (by decide +kernel) (by decide +kernel), splitWords_blank (by decide +kernel) (by decide +kernel),
    splitWords_blank (by decide +kernel) (by decide +kernel), splitWords_blank (by decide +kernel) (by decide +kernel),
    splitWords_blank (by decide +kernel) (by decide +kernel), splitWords_blank (by decide +kernel) (by decide +kernel)]
  rfl

/-- IDL gets the directory, the observation and the number of polarisations as its three arguments, when directory and observation are
not empty and without blanks. With an absolute path this directory is that of the file, seen from where IDL is run. Missing: blanks in
the path (`C227_blank`) and relative paths (`C227_relative`). -/
theorem C227_arguments_partial {C : Type} (cwd : List Char) (a : NdArray C) (obsId dir : List Char) (nPol : ℕ) (r : IdlRun C)
    (h : convertModelToSav cwd a obsId dir nPol = .ok r) (hd : ∀ c ∈ dir, pySpace c = false) (hd0 : dir.head? = some '/')
    (ho : ∀ c ∈ obsId, pySpace c = false) (ho0 : obsId ≠ []) :
    r.argv = ["idl", "-IDL_DEVICE", "ps", "-e", "convert_model_arr_to_sav", "-args"].map String.toList ++
        [dir, obsId, (Nat.repr nPol).toList] ∧
      r.file = resolveDir r.cwd dir ++ '/' :: obsId ++ "_vis_model.h5".toList ∧ r.cwd = dir := by
  have hne : dir ≠ [] := by rintro rfl; simp at hd0
  unfold convertModelToSav at h
  cases hds : idlDatasets a obsId nPol with
  | error e => rw [hds] at h; cases h
  | ok ds =>
    rw [hds] at h
    simp only [bind, Except.bind, pure, Except.pure, Except.ok.injEq] at h
    subst h
    refine ⟨?_, ?_, ?_⟩
    · show splitWords (idlCommand dir obsId nPol) [] = _
      rw [idlCommand_argv dir obsId nPol (dir ++ ' ' :: (obsId ++ ' ' :: (Nat.repr nPol).toList))
        (by unfold idlCommand; simp only [List.append_assoc, List.cons_append, List.nil_append])]
      rw [splitWords_blank hd hne, splitWords_blank ho ho0, splitWords_last (repr_word nPol).1 (repr_word nPol).2]
    · have h1 : (dir ++ '/' :: obsId ++ "_vis_model.h5".toList).head? = some '/' := by
        cases dir with
        | nil => exact absurd rfl hne
        | cons x xs => simpa using hd0
      simp only [resolveDir, if_pos h1, if_pos hd0]
    · simp only [resolveDir, if_pos hd0]

/-- A blank in the name of the directory: IDL gets its two parts as separate arguments, so that the second part stands where the
observation is expected. -/
theorem C227_blank {C : Type} (cwd : List Char) (a : NdArray C) (obsId d1 d2 : List Char) (nPol : ℕ) (r : IdlRun C)
    (h : convertModelToSav cwd a obsId (d1 ++ ' ' :: d2) nPol = .ok r) (h1 : ∀ c ∈ d1, pySpace c = false) (hn1 : d1 ≠ [])
    (h2 : ∀ c ∈ d2, pySpace c = false) (hn2 : d2 ≠ []) :
    r.argv[6]? = some d1 ∧ r.argv[7]? = some d2 := by
  unfold convertModelToSav at h
  cases hds : idlDatasets a obsId nPol with
  | error e => rw [hds] at h; cases h
  | ok ds =>
    rw [hds] at h
    simp only [bind, Except.bind, pure, Except.pure, Except.ok.injEq] at h
    subst h
    have e : splitWords (idlCommand (d1 ++ ' ' :: d2) obsId nPol) [] = _ :=
      idlCommand_argv (d1 ++ ' ' :: d2) obsId nPol (d1 ++ ' ' :: (d2 ++ ' ' :: (obsId ++ ' ' :: (Nat.repr nPol).toList)))
        (by unfold idlCommand; simp only [List.append_assoc, List.cons_append, List.nil_append])
    rw [splitWords_blank h1 hn1, splitWords_blank h2 hn2] at e
    simp only [e]
    exact ⟨rfl, rfl⟩

/-- With a relative path IDL is run inside the directory and looks for a directory of this name there, while the file is in the
directory itself. -/
theorem C227_relative {C : Type} (cwd : List Char) (a : NdArray C) (obsId dir : List Char) (nPol : ℕ) (r : IdlRun C)
    (h : convertModelToSav cwd a obsId dir nPol = .ok r) (hne : dir ≠ []) (hd : dir.head? ≠ some '/') :
    r.file = cwd ++ '/' :: dir ++ '/' :: obsId ++ "_vis_model.h5".toList ∧
      resolveDir r.cwd dir = cwd ++ '/' :: dir ++ '/' :: dir ∧
      r.file ≠ resolveDir r.cwd dir ++ '/' :: obsId ++ "_vis_model.h5".toList := by
  unfold convertModelToSav at h
  cases hds : idlDatasets a obsId nPol with
  | error e => rw [hds] at h; cases h
  | ok ds =>
    rw [hds] at h
    simp only [bind, Except.bind, pure, Except.pure, Except.ok.injEq] at h
    subst h
    have h1 : (dir ++ '/' :: obsId ++ "_vis_model.h5".toList).head? ≠ some '/' := by
      cases dir with
      | nil => exact absurd rfl hne
      | cons x xs => simpa using hd
    simp only [resolveDir, if_neg h1, if_neg hd]
    refine ⟨by simp, by simp, ?_⟩
    intro he
    have := congrArg List.length he
    simp only [List.length_append, List.length_cons] at this
    omega

def exModelArr : NdArray ℕ := ⟨[2, 3, 4], fun ix => ix.foldl (fun a i => 10 * a + i) 0⟩

example : (convertModelToSav "/home".toList exModelArr "106".toList "/out/v".toList 2).toOption.map
    (fun r => (r.argv.map String.ofList, String.ofList r.file)) =
    some (["idl", "-IDL_DEVICE", "ps", "-e", "convert_model_arr_to_sav", "-args", "/out/v", "106", "2"],
      "/out/v/106_vis_model.h5") := by decide +kernel

example : (convertModelToSav "/home".toList exModelArr "106".toList "out v".toList 2).toOption.map
    (fun r => (r.argv.map String.ofList)) =
    some ["idl", "-IDL_DEVICE", "ps", "-e", "convert_model_arr_to_sav", "-args", "out", "v", "106", "2"] := by decide +kernel

/-! ## C228 -/

theorem idlDatasets_eq {C : Type} (np nf nb : ℕ) (get : List ℕ → C) (obsId : List Char) (nPol : ℕ) (h : nPol ≤ np) :
    idlDatasets ⟨[np, nf, nb], get⟩ obsId nPol = .ok (((idlPolNames.take nPol).zipIdx).map fun x =>
      ⟨obsId ++ "_vis_model_".toList ++ x.1.toList, ⟨[nb, nf], fun ix => get [x.2, ix.getD 1 0, ix.getD 0 0]⟩⟩) := by
  unfold idlDatasets
  refine mapM_ok _ _ _ fun x hx => ?_
  have : x.2 < nPol := by
    have := List.snd_lt_of_mem_zipIdx hx
    simp only [Nat.zero_add, List.length_take] at this
    omega
  simp only [polTransposed, bind, Except.bind, pure, Except.pure, if_pos (show x.2 < np by omega)]

/-- For up to four polarisations: every one is written under the name of the observation and its own name, with baselines along the first
axis and channels along the second, and the names differ. -/
theorem C228_datasets {C : Type} (np nf nb : ℕ) (get : List ℕ → C) (obsId : List Char) (nPol : ℕ) (h : nPol ≤ np) (h4 : nPol ≤ 4) :
    ∃ ds, idlDatasets ⟨[np, nf, nb], get⟩ obsId nPol = .ok ds ∧ ds.length = nPol ∧ (ds.map IdlData.name).Nodup ∧
      ∀ p < nPol, ∃ d, ds[p]? = some d ∧
        d.name = obsId ++ "_vis_model_".toList ++ (["XX", "YY", "XY", "YX"].getD p "").toList ∧
        d.arr.shape = [nb, nf] ∧ ∀ b f, d.arr.get [b, f] = get [p, f, b] := by
  refine ⟨_, idlDatasets_eq np nf nb get obsId nPol h, ?_, ?_, ?_⟩
  · simp [idlPolNames]; omega
  · rw [List.map_map]
    have : (((idlPolNames.take nPol).zipIdx).map fun x => x.1.toList).Nodup := by
      rcases (show nPol = 0 ∨ nPol = 1 ∨ nPol = 2 ∨ nPol = 3 ∨ nPol = 4 by omega) with rfl | rfl | rfl | rfl | rfl <;> decide +kernel
    have hm : ((idlPolNames.take nPol).zipIdx).map (IdlData.name ∘ fun x : String × ℕ =>
        (⟨obsId ++ "_vis_model_".toList ++ x.1.toList, ⟨[nb, nf], fun ix => get [x.2, ix.getD 1 0, ix.getD 0 0]⟩⟩ : IdlData C)) =
        (((idlPolNames.take nPol).zipIdx).map fun x => x.1.toList).map fun s => obsId ++ "_vis_model_".toList ++ s := by
      rw [List.map_map]; rfl
    rw [hm]
    exact this.map fun a b hab => List.append_cancel_left hab
  · intro p hp
    have hp' : p < idlPolNames.length := by simp [idlPolNames]; omega
    refine ⟨⟨obsId ++ "_vis_model_".toList ++ (["XX", "YY", "XY", "YX"].getD p "").toList,
      ⟨[nb, nf], fun ix => get [p, ix.getD 1 0, ix.getD 0 0]⟩⟩, ?_, rfl, rfl, fun b f => rfl⟩
    rw [List.getElem?_map, List.getElem?_zipIdx, List.getElem?_take_of_lt hp, List.getElem?_eq_getElem hp']
    simp only [Option.map_some, Nat.zero_add]
    have : idlPolNames[p] = ["XX", "YY", "XY", "YX"].getD p "" := by
      rw [show ["XX", "YY", "XY", "YX"] = idlPolNames from rfl, List.getD, List.getElem?_eq_getElem hp']; rfl
    rw [this]

/-- Fewer polarisations in the array than asked for: nothing is passed to IDL. -/
theorem C228_too_few {C : Type} (cwd : List Char) (np nf nb : ℕ) (get : List ℕ → C) (obsId dir : List Char) (nPol : ℕ)
    (h : np < nPol) (h4 : nPol ≤ 4) : convertModelToSav cwd ⟨[np, nf, nb], get⟩ obsId dir nPol = .error .indexError := by
  have hd : idlDatasets ⟨[np, nf, nb], get⟩ obsId nPol = .error .indexError := by
    have hlen : (idlPolNames.take nPol).length = nPol := by simp [idlPolNames]; omega
    unfold idlDatasets
    have key : ∀ (l : List (String × ℕ)) (g : String × ℕ → Py (IdlData C)),
        (∀ x ∈ l, (∃ v, g x = .ok v) ∨ g x = .error .indexError) → (∃ x ∈ l, g x = .error .indexError) →
        l.mapM g = .error .indexError := by
      intro l g hall hex
      induction l with
      | nil => obtain ⟨x, hx, _⟩ := hex; cases hx
      | cons y ys ih =>
        rw [List.mapM_cons]
        rcases hall y (by simp) with ⟨v, hv⟩ | he
        · rw [hv]
          obtain ⟨x, hx, hxe⟩ := hex
          have hx' : x ∈ ys := by
            rcases List.mem_cons.mp hx with rfl | h
            · rw [hv] at hxe; cases hxe
            · exact h
          simp only [bind, Except.bind]
          rw [ih (fun z hz => hall z (by simp [hz])) ⟨x, hx', hxe⟩]
        · rw [he]; rfl
    apply key
    · intro x _
      simp only [polTransposed, bind, Except.bind, pure, Except.pure]
      by_cases hx : x.2 < np
      · left; simp [hx]
      · right; simp [hx]
    · have hp' : np < (idlPolNames.take nPol).length := by omega
      refine ⟨((idlPolNames.take nPol)[np], np), ?_, ?_⟩
      · rw [List.mem_iff_getElem?]
        exact ⟨np, by rw [List.getElem?_zipIdx, List.getElem?_eq_getElem hp']; simp⟩
      · simp [polTransposed, bind, Except.bind]
  unfold convertModelToSav
  rw [hd]
  rfl

example : (idlDatasets exModelArr "106".toList 2).toOption.map (fun ds => ds.map fun d => (String.ofList d.name, d.arr.shape, d.arr.get [3, 2])) =
    some [("106_vis_model_XX", [4, 3], 23), ("106_vis_model_YY", [4, 3], 123)] := by decide +kernel

/-! ## C229 -/

/-- An IDL file that is found: what is returned is its content, and files other than the copy are as before, as is the file itself if the
copy has another path. Missing: the file in the directory of the copies (`C229_overwritten`). -/
theorem C229_read_partial {B V : Type} (parse : B → V) (expand : B → B) (fs : List Char → Option (SavFile B))
    (savPath tmpDir : List Char) (f : SavFile B) (h : fs savPath = some f) (hne : savTemp tmpDir savPath ≠ savPath) :
    (convertSav parse expand fs savPath tmpDir).1 = .ok (parse (if f.compressed then expand f.content else f.content)) ∧
      (convertSav parse expand fs savPath tmpDir).2 savPath = some f ∧
      ∀ p, p ≠ savTemp tmpDir savPath → (convertSav parse expand fs savPath tmpDir).2 p = fs p := by
  unfold convertSav
  rw [h]
  simp only
  by_cases hc : f.compressed = true
  · rw [if_pos hc, if_pos hc]
    exact ⟨rfl, (if_neg hne.symm).trans h, fun p hp => if_neg hp⟩
  · rw [if_neg hc, if_neg hc]
    exact ⟨rfl, h, fun p _ => rfl⟩

/-- A missing file ends the program and no file is written. -/
theorem C229_missing {B V : Type} (parse : B → V) (expand : B → B) (fs : List Char → Option (SavFile B))
    (savPath tmpDir : List Char) (h : fs savPath = none) :
    convertSav parse expand fs savPath tmpDir = (.error .systemExit, fs) := by
  unfold convertSav
  rw [h]

theorem last_of_split (s : List Char) : '/' ∉ (List.splitOnP (· == '/') s).getLastD [] := by
  induction s with
  | nil => simp [List.splitOnP_nil]
  | cons c cs ih =>
    rw [List.splitOnP_cons_eq_if_modifyHead]
    split_ifs with hc
    · have hne : List.splitOnP (fun x => x == '/') cs ≠ [] := List.splitOnP_ne_nil _ _
      obtain ⟨a, l, hl⟩ := List.exists_cons_of_ne_nil hne
      rw [hl] at ih ⊢
      simpa [List.getLastD] using ih
    · have hne : List.splitOnP (fun x => x == '/') cs ≠ [] := List.splitOnP_ne_nil _ _
      obtain ⟨a, l, hl⟩ := List.exists_cons_of_ne_nil hne
      rw [hl] at ih ⊢
      cases l with
      | nil =>
        simp only [List.modifyHead_cons, List.getLastD_cons, List.getLastD_nil, List.mem_cons, not_or] at ih ⊢
        exact ⟨fun h => hc (by simp [← h]), ih⟩
      | cons b l => simpa [List.getLastD] using ih

/-- The copy is made directly in the given directory. -/
theorem C229_copy_place (tmpDir savPath : List Char) :
    ∃ name, savTemp tmpDir savPath = tmpDir ++ '/' :: name ∧ '/' ∉ name :=
  ⟨_, rfl, last_of_split savPath⟩

/-- A compressed file directly in the directory of the copies is replaced by its copy. -/
theorem C229_overwritten {B V : Type} (parse : B → V) (expand : B → B) (fs : List Char → Option (SavFile B))
    (tmpDir name : List Char) (f : SavFile B) (hn : '/' ∉ name) (h : fs (tmpDir ++ '/' :: name) = some f)
    (hc : f.compressed = true) :
    (convertSav parse expand fs (tmpDir ++ '/' :: name) tmpDir).2 (tmpDir ++ '/' :: name) =
      some ⟨false, expand f.content⟩ := by
  have ht : savTemp tmpDir (tmpDir ++ '/' :: name) = tmpDir ++ '/' :: name := by
    unfold savTemp
    rw [List.splitOnP_append_cons (p := (· == '/')) tmpDir name (sep := '/') (by simp), split_char hn]
    simp
  unfold convertSav
  rw [h]
  simp only [if_pos hc, ht, if_true]

example : (convertSav (fun b : ℕ => b) (fun b => b + 1) (fun p => if p = "a/x.sav".toList then some ⟨true, 5⟩ else none)
    "a/x.sav".toList "t".toList).1 = .ok 6 ∧ savTemp "t".toList "a/x.sav".toList = "t/x.sav".toList := by decide +kernel

end PyFHD
