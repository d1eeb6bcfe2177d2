import Mathlib.Algebra.Order.Group.Abs
import Mathlib.Data.List.GetD
import Mathlib.Tactic.FieldSimp
import Mathlib.Tactic.Linarith
import Mathlib.Tactic.Positivity
import Mathlib.Tactic.Ring
import Verif.Model.ModelVis
import Verif.Lemmas.Arrays

/-!
# C46, C70: matching model visibilities to the data
-/

namespace PyFHD

/-! ## Specification -/

/-- A file in which every one of the ascending times has one block of samples, with the antenna pairs `pairs` in
this order: every pair of the antennas once, and either no auto-correlation or all. -/
structure Spec.Regular (p : VisParams) (times : List ℚ) (pairs : List (ℕ × ℕ)) : Prop where
  sorted : times.Pairwise (· < ·)
  times_ne : times ≠ []
  pairs_ne : pairs ≠ []
  time : p.time = times.flatMap fun t => List.replicate pairs.length t
  ant1 : p.ant1 = times.flatMap fun _ => pairs.map Prod.fst
  ant2 : p.ant2 = times.flatMap fun _ => pairs.map Prod.snd
  crosses : pairs.countP (fun ab => decide (ab.1 ≠ ab.2)) =
    (pairs.map Prod.fst ++ pairs.map Prod.snd).dedup.length *
      ((pairs.map Prod.fst ++ pairs.map Prod.snd).dedup.length - 1) / 2
  autos : pairs.countP (fun ab => decide (ab.1 = ab.2)) = 0 ∨
    pairs.countP (fun ab => decide (ab.1 = ab.2)) =
      (pairs.map Prod.fst ++ pairs.map Prod.snd).dedup.length

/-- `tidx` gives the one-based tile index of the antennas in the data: the antenna number itself when no number exceeds the number
of tiles, otherwise the place of the number among the tile names. -/
def Spec.TileIndex (tileNames : List ℕ) (ants : List ℕ) (tidx : ℕ → ℕ) : Prop :=
  ((∀ a ∈ ants, a ≤ tileNames.length) ∧ ∀ a ∈ ants, tidx a = a) ∨
    ((∃ a ∈ ants, tileNames.length < a) ∧ tileNames.Nodup ∧
      ∀ a ∈ ants, ∃ i, tileNames[i]? = some a ∧ tidx a = i + 1)

/-! ## Lists -/

theorem npUnique_congr {α : Type} [LinearOrder α] (l : List α) (m : List α)
    (hs : m.Pairwise (· < ·)) (h : ∀ x, x ∈ l ↔ x ∈ m) : npUnique l = m := by
  apply List.Perm.eq_of_pairwise (le := (· < ·)) (fun a b _ _ h1 h2 => absurd h1 (lt_asymm h2))
    (npUnique_sorted l) hs
  rw [List.perm_ext_iff_of_nodup ((npUnique_sorted l).imp fun h => ne_of_lt h)
    (hs.imp fun h => ne_of_lt h)]
  intro x
  rw [mem_npUnique, h]

theorem npUnique_length {α : Type} [LinearOrder α] (l : List α) :
    (npUnique l).length = l.dedup.length := by
  apply List.Perm.length_eq
  rw [List.perm_ext_iff_of_nodup ((npUnique_sorted l).imp fun h => ne_of_lt h) l.nodup_dedup]
  intro x
  rw [mem_npUnique, List.mem_dedup]

theorem flatMap_const_length {α β : Type} (ts : List α) (l : List β) :
    (ts.flatMap fun _ => l).length = ts.length * l.length := by
  induction ts with
  | nil => simp
  | cons t ts ih => rw [List.flatMap_cons, List.length_append, ih, List.length_cons]; ring

theorem flatMap_blocks_get {α β : Type} (ts : List α) (f : α → List β) (P : ℕ)
    (hP : ∀ t, (f t).length = P) (k j : ℕ) (hj : j < P) :
    (ts.flatMap f)[k * P + j]? = (ts[k]?).bind fun t => (f t)[j]? := by
  induction ts generalizing k with
  | nil => simp
  | cons t ts ih =>
    rw [List.flatMap_cons]
    cases k with
    | zero => rw [Nat.zero_mul, Nat.zero_add, List.getElem?_append_left (by rw [hP]; exact hj)]; simp
    | succ k =>
      rw [List.getElem?_append_right (by rw [hP, Nat.succ_mul]; omega), hP]
      rw [show (k + 1) * P + j - P = k * P + j by rw [Nat.succ_mul]; omega, ih]
      simp

theorem flatMap_const_take {α β : Type} (ts : List α) (l : List β) (h : ts ≠ []) :
    (ts.flatMap fun _ => l).take l.length = l := by
  cases ts with
  | nil => exact absurd rfl h
  | cons t ts => rw [List.flatMap_cons, List.take_left]

theorem flatMap_zipWith {α β γ δ : Type} (ts : List α) (f : β → γ → δ) (l : List β) (m : List γ)
    (h : l.length = m.length) :
    List.zipWith f (ts.flatMap fun _ => l) (ts.flatMap fun _ => m)
      = ts.flatMap fun _ => List.zipWith f l m := by
  induction ts with
  | nil => rfl
  | cons t ts ih =>
    rw [List.flatMap_cons, List.flatMap_cons, List.flatMap_cons, List.zipWith_append h, ih]

theorem zipWith_fst_snd {α β γ : Type} (f : α → β → γ) (l : List (α × β)) :
    List.zipWith f (l.map Prod.fst) (l.map Prod.snd) = l.map fun ab => f ab.1 ab.2 := by
  induction l with
  | nil => rfl
  | cons a t ih => simp [ih]

theorem mem_flatMap_const {α β : Type} (ts : List α) (l : List β) (h : ts ≠ []) (x : β) :
    x ∈ ts.flatMap (fun _ => l) ↔ x ∈ l := by
  rw [List.mem_flatMap]
  constructor
  · rintro ⟨_, _, h⟩; exact h
  · intro hx
    obtain ⟨t, ht⟩ := List.exists_mem_of_ne_nil ts h
    exact ⟨t, ht, hx⟩

theorem whereTrue_map_getElem? {α : Type} (l : List α) (p : α → Bool) (k j : ℕ)
    (h : (whereTrue (l.map p))[k]? = some j) : ∃ x, l[j]? = some x ∧ (l.filter p)[k]? = some x := by
  have key : ∀ n ≤ l.length,
      ((List.range n).filter fun i => (l.map p).getD i false).map (fun i => l[i]?)
        = ((l.take n).filter p).map some := by
    intro n hn
    induction n with
    | zero => simp
    | succ n ih =>
      rw [List.range_succ, List.filter_append, List.map_append, ih (by omega),
        List.take_add_one, List.filter_append, List.map_append]
      congr 1
      have hlt : n < l.length := by omega
      rw [List.getElem?_eq_getElem hlt, Option.toList_some]
      have hg : (l.map p).getD n false = p l[n] := by
        simp only [List.getD, List.getElem?_map, List.getElem?_eq_getElem hlt, Option.map_some,
          Option.getD_some]
      by_cases hp : p l[n] = true
      · rw [List.filter_cons_of_pos (by rw [hg]; exact hp), List.filter_cons_of_pos hp]
        simp [List.getElem?_eq_getElem hlt]
      · rw [List.filter_cons_of_neg (by rw [hg]; exact hp), List.filter_cons_of_neg hp]
        simp
  have h2 := key l.length le_rfl
  rw [List.take_length] at h2
  unfold whereTrue at h
  rw [List.length_map] at h
  have h3 := congrArg (fun m => m[k]?) h2
  simp only [List.getElem?_map, h, Option.map_some] at h3
  have hj : j < l.length := by
    have := List.mem_of_getElem? h
    exact List.mem_range.1 (List.mem_filter.1 this).1
  refine ⟨l[j], List.getElem?_eq_getElem hj, ?_⟩
  rw [List.getElem?_eq_getElem hj] at h3
  cases hf : (l.filter p)[k]? with
  | none => rw [hf] at h3; simp at h3
  | some y => rw [hf] at h3; simp at h3; rw [h3]

theorem whereTrue_map_length {α : Type} (l : List α) (p : α → Bool) :
    (whereTrue (l.map p)).length = (l.filter p).length := by
  have key : ∀ n ≤ l.length,
      ((List.range n).filter fun i => (l.map p).getD i false).length = ((l.take n).filter p).length := by
    intro n hn
    induction n with
    | zero => simp
    | succ n ih =>
      rw [List.range_succ, List.filter_append, List.length_append, ih (by omega),
        List.take_add_one, List.filter_append, List.length_append]
      congr 1
      have hlt : n < l.length := by omega
      rw [List.getElem?_eq_getElem hlt, Option.toList_some]
      have hg : (l.map p).getD n false = p l[n] := by
        simp only [List.getD, List.getElem?_map, List.getElem?_eq_getElem hlt, Option.map_some,
          Option.getD_some]
      by_cases hp : p l[n] = true
      · rw [List.filter_cons_of_pos (by rw [hg]; exact hp), List.filter_cons_of_pos hp]; rfl
      · rw [List.filter_cons_of_neg (by rw [hg]; exact hp), List.filter_cons_of_neg hp]; rfl
  have h2 := key l.length le_rfl
  rw [List.take_length] at h2
  unfold whereTrue
  rw [List.length_map]
  exact h2

theorem mem_whereTrue_map {α : Type} (l : List α) (p : α → Bool) (j : ℕ) :
    j ∈ whereTrue (l.map p) ↔ ∃ x, l[j]? = some x ∧ p x = true := by
  unfold whereTrue
  rw [List.mem_filter, List.mem_range, List.length_map]
  constructor
  · rintro ⟨h1, h2⟩
    refine ⟨l[j], List.getElem?_eq_getElem h1, ?_⟩
    simpa only [List.getD, List.getElem?_map, List.getElem?_eq_getElem h1, Option.map_some,
      Option.getD_some] using h2
  · rintro ⟨x, h1, h2⟩
    have hj : j < l.length := by
      by_contra hc
      rw [List.getElem?_eq_none (by omega)] at h1; simp at h1
    refine ⟨hj, ?_⟩
    simp only [List.getD, List.getElem?_map, h1, Option.map_some, Option.getD_some, h2]

theorem whereTrue_nodup (mask : List Bool) : (whereTrue mask).Nodup :=
  List.nodup_range.filter _

/-! ## The counts of a regular file -/

theorem flagInfo_regular {p : VisParams} {times : List ℚ} {pairs : List (ℕ × ℕ)}
    (h : Spec.Regular p times pairs) :
    (flagInfo p).uniqueTimes = times ∧ (flagInfo p).perStep = pairs.length ∧
      (flagInfo p).numVisis = times.length * pairs.length ∧
      (∀ a, a ∈ (flagInfo p).antNames ↔ a ∈ pairs.map Prod.fst ++ pairs.map Prod.snd) ∧
      (flagInfo p).antNames.length = (pairs.map Prod.fst ++ pairs.map Prod.snd).dedup.length ∧
      (flagInfo p).numAutos = times.length * pairs.countP (fun ab => decide (ab.1 = ab.2)) ∧
      (flagInfo p).crossLocs = whereTrue (pairs.map fun ab => decide (ab.1 ≠ ab.2)) ∧
      (flagInfo p).autoLocs = whereTrue (pairs.map fun ab => decide (ab.1 = ab.2)) ∧
      (flagInfo p).ant1 = pairs.map Prod.fst ∧ (flagInfo p).ant2 = pairs.map Prod.snd := by
  have hnames : ∀ a, a ∈ npUnique (npUnique p.ant1 ++ npUnique p.ant2) ↔
      a ∈ pairs.map Prod.fst ++ pairs.map Prod.snd := by
    intro a
    rw [mem_npUnique, List.mem_append, List.mem_append, mem_npUnique, mem_npUnique, h.ant1, h.ant2,
      mem_flatMap_const _ _ h.times_ne, mem_flatMap_const _ _ h.times_ne]
  have hlen : (npUnique (npUnique p.ant1 ++ npUnique p.ant2)).length
      = (pairs.map Prod.fst ++ pairs.map Prod.snd).dedup.length := by
    apply List.Perm.length_eq
    rw [List.perm_ext_iff_of_nodup ((npUnique_sorted _).imp fun h => ne_of_lt h)
      (List.nodup_dedup _)]
    intro a
    rw [hnames, List.mem_dedup]
  have hz : ∀ f : ℕ → ℕ → Bool, List.zipWith f p.ant1 p.ant2
      = times.flatMap fun _ => pairs.map fun ab => f ab.1 ab.2 := by
    intro f
    rw [h.ant1, h.ant2, flatMap_zipWith _ _ _ _ (by simp), zipWith_fst_snd]
  have hcount : ∀ ts : List ℚ, ∀ q : ℕ × ℕ → Bool, (ts.flatMap fun _ => pairs.map q).countP id
      = ts.length * pairs.countP q := by
    intro ts q
    induction ts with
    | nil => simp
    | cons t ts ih =>
      rw [List.flatMap_cons, List.countP_append, ih, List.countP_map, List.length_cons]
      have : pairs.countP (id ∘ q) = pairs.countP q := rfl
      rw [this]; ring
  have hna : (List.zipWith (fun a b => decide (a = b)) p.ant1 p.ant2).countP id
      = times.length * pairs.countP (fun ab => decide (ab.1 = ab.2)) := by
    rw [hz, hcount]
  have htl : 0 < times.length := List.length_pos_iff.2 h.times_ne
  have hstep : (npUnique (npUnique p.ant1 ++ npUnique p.ant2)).length
        * ((npUnique (npUnique p.ant1 ++ npUnique p.ant2)).length - 1) / 2 +
      (if (List.zipWith (fun a b => decide (a = b)) p.ant1 p.ant2).countP id = 0 then 0
        else (npUnique (npUnique p.ant1 ++ npUnique p.ant2)).length) = pairs.length := by
    rw [hna, hlen, ← h.crosses]
    have htot : pairs.countP (fun ab => decide (ab.1 ≠ ab.2))
        + pairs.countP (fun ab => decide (ab.1 = ab.2)) = pairs.length := by
      rw [List.length_eq_countP_add_countP (fun ab : ℕ × ℕ => decide (ab.1 ≠ ab.2))]
      congr 1
      apply List.countP_congr
      intro ab _
      simp
    rcases h.autos with ha | ha
    · rw [ha, Nat.mul_zero, if_pos rfl]; omega
    · by_cases h0 : pairs.countP (fun ab => decide (ab.1 = ab.2)) = 0
      · rw [h0, Nat.mul_zero, if_pos rfl]; omega
      · rw [if_neg (Nat.mul_ne_zero htl.ne' h0), ← ha]; omega
  have hutimes : npUnique p.time = times := by
    apply npUnique_congr _ _ h.sorted
    intro x
    rw [h.time, List.mem_flatMap]
    constructor
    · rintro ⟨t, ht, hx⟩
      rw [(List.mem_replicate.1 hx).2]; exact ht
    · intro hx
      exact ⟨x, hx, List.mem_replicate.2 ⟨by simpa using h.pairs_ne, rfl⟩⟩
  refine ⟨hutimes, hstep, ?_, hnames, hlen, hna, ?_, ?_, ?_, ?_⟩
  · show p.ant1.length = _
    rw [h.ant1, flatMap_const_length, List.length_map]
  · show whereTrue ((List.zipWith _ p.ant1 p.ant2).take _) = _
    rw [hstep, hz]
    have := flatMap_const_take times (pairs.map fun ab => decide (ab.1 ≠ ab.2)) h.times_ne
    rw [List.length_map] at this
    rw [this]
  · show whereTrue ((List.zipWith _ p.ant1 p.ant2).take _) = _
    rw [hstep, hz]
    have := flatMap_const_take times (pairs.map fun ab => decide (ab.1 = ab.2)) h.times_ne
    rw [List.length_map] at this
    rw [this]
  · show p.ant1.take _ = _
    rw [hstep, h.ant1]
    have := flatMap_const_take times (pairs.map Prod.fst) h.times_ne
    rwa [List.length_map] at this
  · show p.ant2.take _ = _
    rw [hstep, h.ant2]
    have := flatMap_const_take times (pairs.map Prod.snd) h.times_ne
    rwa [List.length_map] at this

/-! ## Nearest times -/

theorem argminScan_spec (t : ℚ) (ms : List ℚ) (pre : List ℚ) (best : ℕ) (d : ℚ)
    (hb : ∃ m, pre[best]? = some m ∧ |m - t| = d) (hmin : ∀ m ∈ pre, d ≤ |m - t|) :
    ∃ m, (pre ++ ms)[argminScan t ms best d pre.length]? = some m ∧ ∀ m' ∈ pre ++ ms, |m - t| ≤ |m' - t| := by
  induction ms generalizing pre best d with
  | nil =>
    obtain ⟨m, h1, h2⟩ := hb
    rw [argminScan, List.append_nil]
    exact ⟨m, h1, fun m' hm' => h2 ▸ hmin m' hm'⟩
  | cons x xs ih =>
    rw [argminScan]
    have hl : (pre ++ [x]).length = pre.length + 1 := by simp
    have happ : pre ++ x :: xs = (pre ++ [x]) ++ xs := by simp
    have hlt : ∀ i m, pre[i]? = some m → i < pre.length := by
      intro i m h
      by_contra hc
      rw [List.getElem?_eq_none (by omega)] at h; simp at h
    split_ifs with hx
    · rw [happ, ← hl]
      apply ih
      · exact ⟨x, by rw [List.getElem?_append_right le_rfl]; simp, rfl⟩
      · intro m hm
        rw [List.mem_append, List.mem_singleton] at hm
        rcases hm with hm | rfl
        · exact le_trans hx.le (hmin m hm)
        · exact le_rfl
    · rw [happ, ← hl]
      apply ih
      · obtain ⟨m, h1, h2⟩ := hb
        exact ⟨m, by rw [List.getElem?_append_left (hlt _ _ h1)]; exact h1, h2⟩
      · intro m hm
        rw [List.mem_append, List.mem_singleton] at hm
        rcases hm with hm | rfl
        · exact hmin m hm
        · exact not_lt.1 hx

theorem nearestTime_spec (times : List ℚ) (t : ℚ) (h : times ≠ []) :
    ∃ i m, nearestTime times t = some i ∧ times[i]? = some m ∧ ∀ m' ∈ times, |m - t| ≤ |m' - t| := by
  cases times with
  | nil => exact absurd rfl h
  | cons x xs =>
    obtain ⟨m, h1, h2⟩ := argminScan_spec t xs [x] 0 |x - t| ⟨x, rfl, rfl⟩
      (by intro m hm; rw [List.mem_singleton.1 hm])
    exact ⟨_, m, rfl, h1, h2⟩

/-- What a successful matching of the times gives. -/
theorem matchTimes_ok {rnd : ℚ → ℚ} {timeRes : ℚ} {dts mts : List ℚ} {use : List ℕ} (hm : mts ≠ [])
    (h : matchTimes rnd timeRes dts mts = .ok use) :
    use.length = dts.length ∧
      ∃ off : ℚ, (off = 0 ∨ (1 / 4 ≤ off * 86400 ∧ off * 86400 ≤ timeRes / 2)) ∧
        ∀ (k i : ℕ) (t : ℚ), dts[k]? = some t → use[k]? = some i →
          ∃ m, mts[i]? = some m ∧ ∀ m' ∈ mts, |m + off - t| ≤ |m' + off - t| := by
  unfold matchTimes at h
  split at h
  · simp at h
  · rename_i off _
    simp only [] at h
    split_ifs at h with hc
    injection h with h
    -- the shift as one number
    obtain ⟨o, ho, hsh⟩ : ∃ o : ℚ, (o = 0 ∨ (1 / 4 ≤ o * 86400 ∧ o * 86400 ≤ timeRes / 2)) ∧
        shiftTimes off timeRes mts = mts.map fun m => m + o := by
      unfold shiftTimes
      split_ifs with hs
      · refine ⟨off / 86400, Or.inr ?_, rfl⟩
        rw [div_mul_cancel₀ _ (by norm_num)]
        refine ⟨by norm_num at hs ⊢; exact hs.1, hs.2⟩
      · exact ⟨0, Or.inl rfl, by simp⟩
    have hne : shiftTimes off timeRes mts ≠ [] := by rw [hsh]; simpa using hm
    have hfm : ∀ l : List ℚ, l.filterMap (nearestTime (shiftTimes off timeRes mts))
        = l.map fun t => (nearestTime (shiftTimes off timeRes mts) t).getD 0 := by
      intro l
      induction l with
      | nil => rfl
      | cons x xs ih =>
        obtain ⟨i, m, hi, _⟩ := nearestTime_spec _ x hne
        rw [List.filterMap_cons, hi, ih, List.map_cons, hi]
        rfl
    rw [hfm] at h
    refine ⟨by rw [← h, List.length_map], o, ho, ?_⟩
    intro k i t hk hi
    rw [← h, List.getElem?_map, hk, Option.map_some, Option.some.injEq] at hi
    obtain ⟨i', m, h1, h2, h3⟩ := nearestTime_spec _ t hne
    rw [h1, Option.getD_some] at hi
    subst hi
    rw [hsh, List.getElem?_map] at h2
    cases hm' : mts[i']? with
    | none => rw [hm'] at h2; simp at h2
    | some x =>
      rw [hm', Option.map_some, Option.some.injEq] at h2
      refine ⟨x, rfl, ?_⟩
      intro m'' hmem
      rw [h2]
      apply h3
      rw [hsh]
      exact List.mem_map.2 ⟨m'', hmem, rfl⟩

theorem matchTimes_error {rnd : ℚ → ℚ} {timeRes : ℚ} {dts mts : List ℚ} (hd : dts ≠ [])
    (hm : mts ≠ []) : (∃ use, matchTimes rnd timeRes dts mts = .ok use) ∨
      matchTimes rnd timeRes dts mts = .error .systemExit := by
  have hmd : ∀ t, ∃ d, minDist mts t = some d := by
    intro t
    unfold minDist
    cases hmin : (mts.map fun m => |m - t|).min? with
    | some d => exact ⟨d, rfl⟩
    | none => rw [List.min?_eq_none_iff] at hmin; simp at hmin; exact absurd hmin hm
  have hmm : ∀ l : List ℚ, ∃ ds, l.mapM (minDist mts) = some ds ∧ ds.length = l.length := by
    intro l
    induction l with
    | nil => exact ⟨[], rfl, rfl⟩
    | cons x xs ih =>
      obtain ⟨d, hd⟩ := hmd x
      obtain ⟨ds, hds, hl⟩ := ih
      exact ⟨d :: ds, by rw [List.mapM_cons, hd, hds]; rfl, by simp [hl]⟩
  obtain ⟨ds, hds, hl⟩ := hmm dts
  have hne : ds ≠ [] := by
    intro h
    rw [h] at hl
    exact hd (List.length_eq_zero_iff.1 hl.symm)
  unfold matchTimes timeOffset
  simp only [hds, if_neg hne]
  split_ifs
  · exact Or.inr rfl
  · exact Or.inl ⟨_, rfl⟩

namespace Spec

/-- Two integrations of the data have the same nearest integration in the model, whose times
may be shifted by a constant as above. -/
def TimesCollide (timeRes : ℚ) (dts mts : List ℚ) : Prop :=
  ∃ off : ℚ, (off = 0 ∨ (1 / 4 ≤ off * 86400 ∧ off * 86400 ≤ timeRes / 2)) ∧
    ∃ (k k' : ℕ) (t t' m : ℚ), k ≠ k' ∧ dts[k]? = some t ∧ dts[k']? = some t' ∧ m ∈ mts ∧
      (∀ m' ∈ mts, |m + off - t| ≤ |m' + off - t|) ∧ ∀ m' ∈ mts, |m + off - t'| ≤ |m' + off - t'|

/-- The number of different antennas in a list of pairs. -/
def numAntennas (pairs : List (ℕ × ℕ)) : ℕ :=
  (pairs.map Prod.fst ++ pairs.map Prod.snd).toFinset.card

end Spec

/-- When the matching of the times gives up. -/
theorem matchTimes_exit {rnd : ℚ → ℚ} {timeRes : ℚ} {dts mts : List ℚ} (hm : mts ≠ [])
    (h : matchTimes rnd timeRes dts mts = .error .systemExit) : Spec.TimesCollide timeRes dts mts := by
  unfold matchTimes at h
  split at h
  · simp at h
  · rename_i off _
    simp only [] at h
    split_ifs at h with hc
    obtain ⟨o, ho, hsh⟩ : ∃ o : ℚ, (o = 0 ∨ (1 / 4 ≤ o * 86400 ∧ o * 86400 ≤ timeRes / 2)) ∧
        shiftTimes off timeRes mts = mts.map fun m => m + o := by
      unfold shiftTimes
      split_ifs with hs
      · refine ⟨off / 86400, Or.inr ?_, rfl⟩
        rw [div_mul_cancel₀ _ (by norm_num)]
        refine ⟨by norm_num at hs ⊢; exact hs.1, hs.2⟩
      · exact ⟨0, Or.inl rfl, by simp⟩
    have hne : shiftTimes off timeRes mts ≠ [] := by rw [hsh]; simpa using hm
    have hfm : ∀ l : List ℚ, l.filterMap (nearestTime (shiftTimes off timeRes mts))
        = l.map fun t => (nearestTime (shiftTimes off timeRes mts) t).getD 0 := by
      intro l
      induction l with
      | nil => rfl
      | cons x xs ih =>
        obtain ⟨i, m, hi, _⟩ := nearestTime_spec _ x hne
        rw [List.filterMap_cons, hi, ih, List.map_cons, hi]
        rfl
    rw [hfm, npUnique_length] at hc
    set f : ℚ → ℕ := fun t => (nearestTime (shiftTimes off timeRes mts) t).getD 0 with hf
    have hnd : ¬(dts.map f).Nodup := by
      intro hn
      rw [List.dedup_eq_self.2 hn, List.length_map] at hc
      exact hc rfl
    rw [List.nodup_iff_getElem?_ne_getElem?] at hnd
    push Not at hnd
    obtain ⟨k, k', hkk, hk', he⟩ := hnd
    rw [List.length_map] at hk'
    rw [List.getElem?_map, List.getElem?_map, List.getElem?_eq_getElem hk',
      List.getElem?_eq_getElem (hkk.trans hk'), Option.map_some, Option.map_some, Option.some.injEq] at he
    have key : ∀ t, ∃ m, mts[f t]? = some m ∧ ∀ m' ∈ mts, |m + o - t| ≤ |m' + o - t| := by
      intro t
      obtain ⟨i, m, h1, h2, h3⟩ := nearestTime_spec _ t hne
      have hfi : f t = i := by simp [hf, h1]
      rw [hfi]
      rw [hsh, List.getElem?_map] at h2
      cases hm' : mts[i]? with
      | none => rw [hm'] at h2; simp at h2
      | some x =>
        rw [hm', Option.map_some, Option.some.injEq] at h2
        refine ⟨x, rfl, ?_⟩
        intro m'' hmem
        rw [h2]
        apply h3
        rw [hsh]
        exact List.mem_map.2 ⟨m'', hmem, rfl⟩
    obtain ⟨m, a1, a2⟩ := key dts[k]
    obtain ⟨m', b1, b2⟩ := key dts[k']
    rw [he, b1, Option.some.injEq] at a1
    subst a1
    exact ⟨o, ho, k, k', _, _, m', hkk.ne, List.getElem?_eq_getElem _, List.getElem?_eq_getElem _,
      List.mem_of_getElem? b1, a2, b2⟩

/-! ## Tiles -/

theorem foldl_max_le (l : List ℕ) (a n : ℕ) : l.foldl max a ≤ n ↔ a ≤ n ∧ ∀ x ∈ l, x ≤ n := by
  induction l generalizing a with
  | nil => simp
  | cons x xs ih =>
    rw [List.foldl_cons, ih]
    simp only [List.mem_cons, forall_eq_or_imp, sup_le_iff]
    tauto

/-- A tile index is not flagged exactly when an antenna of the data has it. -/
theorem flagIndexes_spec {tileNames names : List ℕ} {tidx : ℕ → ℕ}
    (h : Spec.TileIndex tileNames names tidx) (x : ℕ) (h1 : 1 ≤ x) (h2 : x ≤ tileNames.length) :
    x ∉ flagIndexes tileNames names ↔ ∃ a ∈ names, tidx a = x := by
  unfold flagIndexes
  rcases h with ⟨hle, hid⟩ | ⟨⟨b, hb, hgt⟩, hnd, hidx⟩
  · rw [if_neg (by rw [not_lt, foldl_max_le]; exact ⟨Nat.zero_le _, hle⟩)]
    rw [List.mem_filter]
    simp only [List.mem_map, List.mem_range, decide_eq_true_eq, not_and, not_not]
    constructor
    · intro h
      have := h ⟨x - 1, by omega, by omega⟩
      exact ⟨x, this, hid x this⟩
    · rintro ⟨a, ha, rfl⟩ _
      rw [hid a ha]; exact ha
  · have hmax : names.foldl max 0 > tileNames.length := by
      by_contra hc
      rw [not_lt, foldl_max_le] at hc
      exact absurd (hc.2 b hb) (by omega)
    rw [if_pos hmax]
    simp only [List.mem_map, List.mem_filter, List.mem_range, decide_eq_true_eq, not_exists, not_and,
      and_imp]
    constructor
    · intro h
      by_contra hc
      have h3 := h (x - 1) (by omega)
      by_cases hmem : tileNames.getD (x - 1) 0 ∈ names
      · apply hc
        obtain ⟨i, hi, hti⟩ := hidx _ hmem
        refine ⟨_, hmem, ?_⟩
        rw [hti]
        have hx : x - 1 < tileNames.length := by omega
        have hil : i < tileNames.length := by
          by_contra hcc
          rw [List.getElem?_eq_none (by omega)] at hi; simp at hi
        simp only [List.getD, List.getElem?_eq_getElem hx, List.getElem?_eq_getElem hil,
          Option.getD_some, Option.some.injEq] at hi
        have := (List.Nodup.getElem_inj_iff hnd).1 hi
        omega
      · exact h3 hmem (by omega)
    · rintro ⟨a, ha, rfl⟩ j hj hnm hjx
      obtain ⟨i, hi, hti⟩ := hidx a ha
      have : j = i := by omega
      subst this
      apply hnm
      simp only [List.getD, hi, Option.getD_some]
      exact ha

/-! ## Index assignment -/

theorem zip_foldl_set_get {V : Type} (idx : List ℕ) (vals : List V) (dst : List V)
    (hl : vals.length = idx.length) (hn : idx.Nodup) (hb : ∀ i ∈ idx, i < dst.length) :
    ((idx.zip vals).foldl (fun l iv => l.set iv.1 iv.2) dst).length = dst.length ∧
    (∀ (k i : ℕ) (v : V), idx[k]? = some i → vals[k]? = some v →
      ((idx.zip vals).foldl (fun l iv => l.set iv.1 iv.2) dst)[i]? = some v) ∧
    ∀ s : ℕ, s ∉ idx → ((idx.zip vals).foldl (fun l iv => l.set iv.1 iv.2) dst)[s]? = dst[s]? := by
  induction idx generalizing vals dst with
  | nil => simp
  | cons i is ih =>
    cases vals with
    | nil => simp at hl
    | cons v vs =>
      rw [List.zip_cons_cons, List.foldl_cons]
      rw [List.nodup_cons] at hn
      obtain ⟨h1, h2, h3⟩ := ih vs (dst.set i v) (by simpa using hl) hn.2
        (fun j hj => by rw [List.length_set]; exact hb j (List.mem_cons_of_mem _ hj))
      refine ⟨by rw [h1, List.length_set], ?_, ?_⟩
      · intro k j w hk hw
        cases k with
        | zero =>
          simp only [List.getElem?_cons_zero, Option.some.injEq] at hk hw
          subst hk hw
          rw [h3 i hn.1]
          rw [List.getElem?_set_self (hb i (by simp))]
        | succ k =>
          simp only [List.getElem?_cons_succ] at hk hw
          exact h2 k j w hk hw
      · intro s hs
        rw [List.mem_cons, not_or] at hs
        rw [h3 s hs.2]
        rw [List.getElem?_set_ne (fun h => hs.1 h.symm)]

theorem fancyAssign_ok {V : Type} (dst : List V) (idx : List ℕ) (vals : List V)
    (hl : vals.length = idx.length) (hn : idx.Nodup) (hb : ∀ i ∈ idx, i < dst.length) :
    ∃ l, fancyAssign dst idx vals = .ok l ∧ l.length = dst.length ∧
      (∀ (k i : ℕ) (v : V), idx[k]? = some i → vals[k]? = some v → l[i]? = some v) ∧
      ∀ s : ℕ, s ∉ idx → l[s]? = dst[s]? := by
  unfold fancyAssign
  rw [if_neg, if_pos hl]
  · exact ⟨_, rfl, zip_foldl_set_get idx vals dst hl hn hb⟩
  · rw [List.any_eq_true]
    rintro ⟨i, hi, h⟩
    have := hb i hi
    simp only [decide_eq_true_eq] at h
    omega

theorem fancyRead_ok {V : Type} (src : List V) (idx : List ℕ) (h : ∀ i ∈ idx, i < src.length) :
    ∃ l, fancyRead src idx = .ok l ∧ l.length = idx.length ∧
      ∀ k i : ℕ, idx[k]? = some i → l[k]? = src[i]? := by
  unfold fancyRead
  have : ∃ l, idx.mapM (fun i => src[i]?) = some l ∧ l.length = idx.length ∧
      ∀ k i : ℕ, idx[k]? = some i → l[k]? = src[i]? := by
    induction idx with
    | nil => exact ⟨[], rfl, rfl, by simp⟩
    | cons i is ih =>
      obtain ⟨l, h1, h2, h3⟩ := ih (fun j hj => h j (List.mem_cons_of_mem _ hj))
      have hi := h i (by simp)
      refine ⟨src[i] :: l, ?_, by simp [h2], ?_⟩
      · rw [List.mapM_cons, h1, List.getElem?_eq_getElem hi]; rfl
      · intro k j hk
        cases k with
        | zero =>
          simp only [List.getElem?_cons_zero, Option.some.injEq] at hk
          subst hk
          simp [List.getElem?_eq_getElem hi]
        | succ k => simpa using h3 k j (by simpa using hk)
  obtain ⟨l, h1, h2⟩ := this
  rw [h1]
  exact ⟨l, rfl, h2⟩

theorem block_index_inj {P t t' j j' : ℕ} (hj : j < P) (hj' : j' < P) (h : t * P + j = t' * P + j') :
    t = t' ∧ j = j' := by
  have hP : 0 < P := by omega
  have h1 : (t * P + j) / P = t := by
    rw [Nat.add_comm, Nat.add_mul_div_right _ _ hP, Nat.div_eq_of_lt hj]; omega
  have h2 : (t' * P + j') / P = t' := by
    rw [Nat.add_comm, Nat.add_mul_div_right _ _ hP, Nat.div_eq_of_lt hj']; omega
  have : t = t' := by rw [← h1, ← h2, h]
  subst this
  exact ⟨rfl, by omega⟩

theorem block_index_lt {P T t j : ℕ} (hj : j < P) (ht : t < T) : t * P + j < T * P := by
  have : (t + 1) * P ≤ T * P := Nat.mul_le_mul_right _ ht
  rw [Nat.succ_mul] at this
  omega

/-- The loop over time steps without auto-correlations. -/
theorem copyLoop {V : Type} (vis : List V) (cl ml : List ℕ) (P M T : ℕ) (hlen : cl.length = ml.length)
    (hcl : ∀ j ∈ cl, j < P) (hn : cl.Nodup) (steps : List (ℕ × ℕ)) (dst : List V)
    (hdst : dst.length = T * P) (hsteps : ∀ s ∈ steps, s.2 < T ∧ ∀ j ∈ ml, s.1 * M + j < vis.length)
    (hnd : (steps.map Prod.snd).Nodup) :
    ∃ out, steps.foldlM (fun dst (s : ℕ × ℕ) =>
        copyStep vis dst (cl.map fun j => s.2 * P + j) (ml.map fun j => s.1 * M + j)) dst = .ok out ∧
      out.length = dst.length ∧
      (∀ s ∈ steps, ∀ k j i : ℕ, cl[k]? = some j → ml[k]? = some i →
        out[s.2 * P + j]? = vis[s.1 * M + i]?) ∧
      ∀ t j : ℕ, j < P → (t ∉ steps.map Prod.snd ∨ j ∉ cl) → out[t * P + j]? = dst[t * P + j]? := by
  induction steps generalizing dst with
  | nil => exact ⟨dst, rfl, rfl, by simp, by simp⟩
  | cons s ss ih =>
    rw [List.map_cons, List.nodup_cons] at hnd
    have hs := hsteps s (by simp)
    obtain ⟨vals, hv1, hv2, hv3⟩ := fancyRead_ok vis (ml.map fun j => s.1 * M + j) (by
      intro i hi
      obtain ⟨j, hj, rfl⟩ := List.mem_map.1 hi
      exact hs.2 j hj)
    have hidxn : (cl.map fun j => s.2 * P + j).Nodup := by
      apply hn.map
      intro a b h
      simpa using h
    obtain ⟨l, hl1, hl2, hl3, hl4⟩ := fancyAssign_ok dst (cl.map fun j => s.2 * P + j) vals
      (by rw [hv2, List.length_map, List.length_map, hlen]) hidxn (by
        intro i hi
        obtain ⟨j, hj, rfl⟩ := List.mem_map.1 hi
        rw [hdst]
        exact block_index_lt (hcl j hj) hs.1)
    obtain ⟨out, ho1, ho2, ho3, ho4⟩ := ih l (by rw [hl2, hdst])
      (fun s' hs' => hsteps s' (List.mem_cons_of_mem _ hs')) hnd.2
    refine ⟨out, ?_, by rw [ho2, hl2], ?_, ?_⟩
    · rw [List.foldlM_cons]
      simp only [copyStep, bind, Except.bind, hv1, hl1] at ho1 ⊢
      exact ho1
    · intro s' hs' k j i hj hi
      rw [List.mem_cons] at hs'
      rcases hs' with rfl | hs'
      · have hjm : j ∈ cl := List.mem_of_getElem? hj
        rw [ho4 s'.2 j (hcl j hjm) (Or.inl hnd.1)]
        have hk : k < ml.length := by
          by_contra hc
          rw [List.getElem?_eq_none (by omega)] at hi; simp at hi
        have h1 := hv3 k (s'.1 * M + i) (by rw [List.getElem?_map, hi]; rfl)
        have hlt := hs.2 i (List.mem_of_getElem? hi)
        rw [List.getElem?_eq_getElem hlt] at h1 ⊢
        exact hl3 k (s'.2 * P + j) _ (by rw [List.getElem?_map, hj]; rfl) h1
      · exact ho3 s' hs' k j i hj hi
    · intro t j hj ht
      rw [ho4 t j hj (by
        rcases ht with ht | ht
        · left; intro h; exact ht (by rw [List.map_cons]; exact List.mem_cons_of_mem _ h)
        · exact Or.inr ht)]
      apply hl4
      intro hmem
      obtain ⟨j', hj', he⟩ := List.mem_map.1 hmem
      obtain ⟨e1, e2⟩ := block_index_inj (hcl j' hj') hj he
      rcases ht with ht | ht
      · exact ht (by rw [← e1]; simp)
      · exact ht (e2 ▸ hj')

/-! ## C46 -/

/-- **C46 (partial).** A regular data file and a regular model file without auto-correlations, the
cross-correlations of the data being, in order, the model's pairs of tiles that the data has. Then the
function exits (times or antennas that cannot be matched), or it returns one column for every data
sample: zero for an auto-correlation, and for a pair of antennas the column of a model sample with the
same tiles whose time, up to a common shift (0, or between a quarter second and half an integration),
is nearest to the sample's time. It exits only if two integrations have the same nearest one or the model
has fewer antennas. Missing: models with auto-correlations (`C46_model_autos_fail`). -/
theorem C46_model_matched_partial {V : Type} [Zero V] (rnd : ℚ → ℚ) (timeRes : ℚ)
    (tileNames : List ℕ) (pd pm : VisParams) (dts mts : List ℚ) (dp mp : List (ℕ × ℕ))
    (hd : Spec.Regular pd dts dp) (hm : Spec.Regular pm mts mp) (vis : List V)
    (hvis : vis.length = pm.ant1.length) (hna : ∀ ab ∈ mp, ab.1 ≠ ab.2) (tidx : ℕ → ℕ)
    (htidx : Spec.TileIndex tileNames (dp.map Prod.fst ++ dp.map Prod.snd) tidx)
    (hrange : ∀ ab ∈ mp, 1 ≤ ab.1 ∧ ab.1 ≤ tileNames.length ∧ 1 ≤ ab.2 ∧ ab.2 ≤ tileNames.length)
    (hsame : (dp.filter fun ab => decide (ab.1 ≠ ab.2)).map (fun ab => (tidx ab.1, tidx ab.2)) =
      mp.filter fun ab => decide ((∃ a ∈ dp.map Prod.fst ++ dp.map Prod.snd, tidx a = ab.1) ∧
        ∃ a ∈ dp.map Prod.fst ++ dp.map Prod.snd, tidx a = ab.2)) :
    (flagModelVisibilities rnd timeRes tileNames pd pm vis = .error .systemExit ∧
      (Spec.TimesCollide timeRes dts mts ∨ Spec.numAntennas mp < Spec.numAntennas dp)) ∨
    ∃ out, flagModelVisibilities rnd timeRes tileNames pd pm vis = .ok out ∧
      out.length = pd.ant1.length ∧
      ∃ off : ℚ, (off = 0 ∨ (1 / 4 ≤ off * 86400 ∧ off * 86400 ≤ timeRes / 2)) ∧
        ∀ (s a b : ℕ) (t : ℚ), pd.ant1[s]? = some a → pd.ant2[s]? = some b → pd.time[s]? = some t →
          (a = b → out[s]? = some 0) ∧
          (a ≠ b → ∃ (u : ℕ) (m : ℚ), pm.ant1[u]? = some (tidx a) ∧ pm.ant2[u]? = some (tidx b) ∧
            pm.time[u]? = some m ∧ (∀ m' ∈ pm.time, |m + off - t| ≤ |m' + off - t|) ∧
            (∃ v, vis[u]? = some v ∧ out[s]? = some v)) := by
  obtain ⟨d1, d2, d3, d4, d5, d6, d7, d8, d9, d10⟩ := flagInfo_regular hd
  obtain ⟨m1, m2, m3, m4, m5, m6, m7, m8, m9, m10⟩ := flagInfo_regular hm
  unfold flagModelVisibilities
  simp only [bind, Except.bind]
  rw [d1, m1]
  rcases matchTimes_error (rnd := rnd) (timeRes := timeRes) hd.times_ne hm.times_ne with ⟨use, hu⟩ | hu
  swap
  · left; rw [hu]; exact ⟨rfl, Or.inl (matchTimes_exit hm.times_ne hu)⟩
  rw [hu]
  simp only []
  split_ifs with hant
  · rw [d5, m5] at hant
    exact Or.inl ⟨rfl, Or.inr (by
      unfold Spec.numAntennas
      rw [List.card_toFinset, List.card_toFinset]
      exact hant)⟩
  right
  obtain ⟨hul, off, hoff, hnear⟩ := matchTimes_ok hm.times_ne hu
  have hautos0 : (flagInfo pm).numAutos = 0 := by
    rw [m6, List.countP_eq_zero.2, Nat.mul_zero]
    intro ab hab
    simpa using hna ab hab
  -- the included model samples
  have hP : ∀ ab ∈ mp, ((decide (ab.1 ∉ flagIndexes tileNames (flagInfo pd).antNames) &&
      decide (ab.2 ∉ flagIndexes tileNames (flagInfo pd).antNames)) = true ↔
      decide ((∃ a ∈ dp.map Prod.fst ++ dp.map Prod.snd, tidx a = ab.1) ∧
        ∃ a ∈ dp.map Prod.fst ++ dp.map Prod.snd, tidx a = ab.2) = true) := by
    intro ab hab
    have hr := hrange ab hab
    have ht : Spec.TileIndex tileNames (flagInfo pd).antNames tidx := by
      rcases htidx with ⟨x1, x2⟩ | ⟨⟨b, y1, y2⟩, y3, y4⟩
      · exact Or.inl ⟨fun a ha => x1 a ((d4 a).1 ha), fun a ha => x2 a ((d4 a).1 ha)⟩
      · exact Or.inr ⟨⟨b, (d4 b).2 y1, y2⟩, y3, fun a ha => y4 a ((d4 a).1 ha)⟩
    have e1 := flagIndexes_spec ht ab.1 hr.1 hr.2.1
    have e2 := flagIndexes_spec ht ab.2 hr.2.2.1 hr.2.2.2
    rw [Bool.and_eq_true, decide_eq_true_eq, decide_eq_true_eq, decide_eq_true_eq, e1, e2]
    simp only [d4]
  have hinc : includePerTime (flagIndexes tileNames (flagInfo pd).antNames) (flagInfo pm)
      = mp.map fun ab => decide ((∃ a ∈ dp.map Prod.fst ++ dp.map Prod.snd, tidx a = ab.1) ∧
        ∃ a ∈ dp.map Prod.fst ++ dp.map Prod.snd, tidx a = ab.2) := by
    unfold includePerTime
    rw [m9, m10, zipWith_fst_snd]
    apply List.map_congr_left
    intro ab hab
    exact Bool.eq_iff_iff.2 (hP ab hab)
  have hia : includeAutos (flagInfo pm) = false := by
    unfold includeAutos
    rw [hautos0]; simp
  rw [hinc, hia, d3]
  have hstep : ∀ (cr au : List ℕ), (flagModelStep vis (flagInfo pd) (flagInfo pm) cr au false)
      = fun dst (s : ℕ × ℕ) => copyStep vis dst
        ((whereTrue (dp.map fun ab => decide (ab.1 ≠ ab.2))).map fun j => s.2 * dp.length + j)
        (cr.map fun j => s.1 * mp.length + j) := by
    intro cr au
    funext dst s
    unfold flagModelStep
    simp only [Bool.false_eq_true, if_false, d2, m2, d7, bind, Except.bind]
    split
    · rename_i h; rw [h]
    · rename_i h; rw [h]
  rw [hstep]
  set cl := whereTrue (dp.map fun ab => decide (ab.1 ≠ ab.2)) with hcl
  set ml := whereTrue (mp.map fun ab => decide ((∃ a ∈ dp.map Prod.fst ++ dp.map Prod.snd,
    tidx a = ab.1) ∧ ∃ a ∈ dp.map Prod.fst ++ dp.map Prod.snd, tidx a = ab.2)) with hml
  have hlen : cl.length = ml.length := by
    rw [hcl, hml, whereTrue_map_length, whereTrue_map_length, ← hsame, List.length_map]
  have hclP : ∀ j ∈ cl, j < dp.length := by
    intro j hj
    rw [hcl, mem_whereTrue_map] at hj
    obtain ⟨x, hx, _⟩ := hj
    by_contra hc
    rw [List.getElem?_eq_none (by omega)] at hx; simp at hx
  have hmlP : ∀ j ∈ ml, j < mp.length := by
    intro j hj
    rw [hml, mem_whereTrue_map] at hj
    obtain ⟨x, hx, _⟩ := hj
    by_contra hc
    rw [List.getElem?_eq_none (by omega)] at hx; simp at hx
  have hvl : vis.length = mts.length * mp.length := by
    rw [hvis, hm.ant1, flatMap_const_length, List.length_map]
  have huse : ∀ k i, use[k]? = some i → k < dts.length ∧ i < mts.length := by
    intro k i hk
    have hkl : k < use.length := by
      by_contra hc
      rw [List.getElem?_eq_none (by omega)] at hk; simp at hk
    have hkd : k < dts.length := by omega
    obtain ⟨m, hm', _⟩ := hnear k i dts[k] (List.getElem?_eq_getElem hkd) hk
    refine ⟨hkd, ?_⟩
    by_contra hc
    rw [List.getElem?_eq_none (by omega)] at hm'; simp at hm'
  obtain ⟨out, ho1, ho2, ho3, ho4⟩ := copyLoop vis cl ml dp.length mp.length dts.length hlen hclP
    (whereTrue_nodup _) use.zipIdx (List.replicate (dts.length * dp.length) 0) (by simp) (by
      rintro ⟨i, k⟩ hs
      rw [List.mem_zipIdx_iff_getElem?] at hs
      obtain ⟨hk, hi⟩ := huse k i hs
      exact ⟨hk, fun j hj => by rw [hvl]; exact block_index_lt (hmlP j hj) hi⟩) (by
      rw [List.zipIdx_map_snd]; exact List.nodup_range')
  refine ⟨out, ho1, ?_, off, hoff, ?_⟩
  · rw [ho2, List.length_replicate, hd.ant1, flatMap_const_length, List.length_map]
  intro s a b t ha hb ht
  -- decompose the sample number
  have hsl : s < dts.length * dp.length := by
    by_contra hc
    rw [hd.ant1, List.getElem?_eq_none (by rw [flatMap_const_length, List.length_map]; omega)] at ha
    simp at ha
  have hdp0 : 0 < dp.length := List.length_pos_iff.2 hd.pairs_ne
  obtain ⟨k, j, hj, rfl⟩ : ∃ k j, j < dp.length ∧ s = k * dp.length + j :=
    ⟨s / dp.length, s % dp.length, Nat.mod_lt _ hdp0, by rw [Nat.div_add_mod']⟩
  have hk : k < dts.length := by
    by_contra hc
    have : dts.length * dp.length ≤ k * dp.length := Nat.mul_le_mul_right _ (by omega)
    omega
  rw [hd.ant1, flatMap_blocks_get _ _ dp.length (by simp) k j hj, List.getElem?_eq_getElem hk,
    Option.bind_some, List.getElem?_map, List.getElem?_eq_getElem hj, Option.map_some,
    Option.some.injEq] at ha
  rw [hd.ant2, flatMap_blocks_get _ _ dp.length (by simp) k j hj, List.getElem?_eq_getElem hk,
    Option.bind_some, List.getElem?_map, List.getElem?_eq_getElem hj, Option.map_some,
    Option.some.injEq] at hb
  rw [hd.time, flatMap_blocks_get _ _ dp.length (by simp) k j hj, List.getElem?_eq_getElem hk,
    Option.bind_some, List.getElem?_replicate, if_pos hj, Option.some.injEq] at ht
  constructor
  · intro hab
    rw [ho4 k j hj (Or.inr ?_), List.getElem?_replicate, if_pos hsl]
    intro hmem
    rw [hcl, mem_whereTrue_map] at hmem
    obtain ⟨x, hx, hx2⟩ := hmem
    rw [List.getElem?_eq_getElem hj, Option.some.injEq] at hx
    rw [decide_eq_true_eq] at hx2
    apply hx2
    rw [← hx, ha, hb, hab]
  · intro hab
    have hjc : j ∈ cl := by
      rw [hcl, mem_whereTrue_map]
      exact ⟨dp[j], List.getElem?_eq_getElem hj, by rw [decide_eq_true_eq, ha, hb]; exact hab⟩
    obtain ⟨q, hq, hqj⟩ := List.mem_iff_getElem.1 hjc
    have hqc : cl[q]? = some j := by rw [List.getElem?_eq_getElem hq, hqj]
    have hqm : q < ml.length := by omega
    have hmq : ml[q]? = some ml[q] := List.getElem?_eq_getElem hqm
    have hku : k < use.length := by omega
    have huk : use[k]? = some use[k] := List.getElem?_eq_getElem hku
    obtain ⟨m, hmk, hmn⟩ := hnear k use[k] dts[k] (List.getElem?_eq_getElem hk) huk
    have hres := ho3 (use[k], k) (by rw [List.mem_zipIdx_iff_getElem?]; exact huk) q j ml[q] hqc hmq
    simp only [] at hres
    obtain ⟨x, hx1, hx2⟩ := whereTrue_map_getElem? dp _ q j hqc
    obtain ⟨y, hy1, hy2⟩ := whereTrue_map_getElem? mp _ q ml[q] hmq
    rw [← hsame, List.getElem?_map, hx2, Option.map_some, Option.some.injEq] at hy2
    rw [List.getElem?_eq_getElem hj, Option.some.injEq] at hx1
    have hmlq : ml[q] < mp.length := hmlP _ (List.getElem_mem hqm)
    have hui := (huse k use[k] huk).2
    have hub : use[k] * mp.length + ml[q] < vis.length := by
      rw [hvl]; exact block_index_lt hmlq hui
    refine ⟨use[k] * mp.length + ml[q], m, ?_, ?_, ?_, ?_, ?_⟩
    · rw [hm.ant1, flatMap_blocks_get _ _ mp.length (by simp) _ _ hmlq, List.getElem?_eq_getElem hui,
        Option.bind_some, List.getElem?_map, hy1, Option.map_some, ← hy2, ← hx1, ha]
    · rw [hm.ant2, flatMap_blocks_get _ _ mp.length (by simp) _ _ hmlq, List.getElem?_eq_getElem hui,
        Option.bind_some, List.getElem?_map, hy1, Option.map_some, ← hy2, ← hx1, hb]
    · rw [hm.time, flatMap_blocks_get _ _ mp.length (by simp) _ _ hmlq, hmk, Option.bind_some,
        List.getElem?_replicate, if_pos hmlq]
    · intro m' hm'
      rw [hm.time, List.mem_flatMap] at hm'
      obtain ⟨t', ht', hmt⟩ := hm'
      rw [(List.mem_replicate.1 hmt).2, ← ht]
      exact hmn t' ht'
    · exact ⟨_, List.getElem?_eq_getElem hub, by rw [hres, List.getElem?_eq_getElem hub]⟩

/-- **C46.** A model with fewer antennas than the data is never used. -/
theorem C46_fewer_antennas_refused {V : Type} [Zero V] (rnd : ℚ → ℚ) (timeRes : ℚ)
    (tileNames : List ℕ) (pd pm : VisParams) (dts mts : List ℚ) (dp mp : List (ℕ × ℕ))
    (hd : Spec.Regular pd dts dp) (hm : Spec.Regular pm mts mp) (vis : List V)
    (hlt : Spec.numAntennas mp < Spec.numAntennas dp) :
    flagModelVisibilities rnd timeRes tileNames pd pm vis = .error .systemExit := by
  obtain ⟨d1, d2, d3, d4, d5, d6, d7, d8, d9, d10⟩ := flagInfo_regular hd
  obtain ⟨m1, m2, m3, m4, m5, m6, m7, m8, m9, m10⟩ := flagInfo_regular hm
  unfold flagModelVisibilities
  simp only [bind, Except.bind]
  rw [d1, m1]
  rcases matchTimes_error (rnd := rnd) (timeRes := timeRes) hd.times_ne hm.times_ne with ⟨use, hu⟩ | hu
  · rw [hu]
    simp only []
    rw [if_pos]
    rw [d5, m5]
    unfold Spec.numAntennas at hlt
    rw [List.card_toFinset, List.card_toFinset] at hlt
    exact hlt
  · rw [hu]

theorem copyStep_mismatch {V : Type} (vis dst : List V) (idx ml : List ℕ) (h : idx.length ≠ ml.length)
    (h1 : ml.length ≠ 1) : ∃ e, copyStep vis dst idx ml = .error e := by
  unfold copyStep
  simp only [bind, Except.bind]
  unfold fancyRead
  cases hr : ml.mapM fun i => vis[i]? with
  | none => exact ⟨_, rfl⟩
  | some l =>
    have hl : l.length = ml.length := by
      clear h h1
      induction ml generalizing l with
      | nil => cases hr; rfl
      | cons x xs ih =>
        rw [List.mapM_cons] at hr
        cases hx : vis[x]? with
        | none => rw [hx] at hr; simp at hr
        | some v =>
          rw [hx] at hr
          cases hxs : xs.mapM fun i => vis[i]? with
          | none => rw [hxs] at hr; simp at hr
          | some l' =>
            rw [hxs] at hr
            have : v :: l' = l := by simpa using hr
            rw [← this, List.length_cons, ih l' hxs, List.length_cons]
    simp only []
    unfold fancyAssign
    split_ifs with h2 h3
    · exact ⟨_, rfl⟩
    · omega
    · split
      · simp at hl; omega
      · exact ⟨_, rfl⟩

/-- **C46 is violated** by every model that has auto-correlations: if the data has a pair of different
antennas and the model the auto-correlation of a tile in the data, there is no result (the index
arrays have different lengths). -/
theorem C46_model_autos_fail {V : Type} [Zero V] (rnd : ℚ → ℚ) (timeRes : ℚ)
    (tileNames : List ℕ) (pd pm : VisParams) (dts mts : List ℚ) (dp mp : List (ℕ × ℕ))
    (hd : Spec.Regular pd dts dp) (hm : Spec.Regular pm mts mp) (vis : List V) (tidx : ℕ → ℕ)
    (htidx : Spec.TileIndex tileNames (dp.map Prod.fst ++ dp.map Prod.snd) tidx)
    (hrange : ∀ ab ∈ mp, 1 ≤ ab.1 ∧ ab.1 ≤ tileNames.length ∧ 1 ≤ ab.2 ∧ ab.2 ≤ tileNames.length)
    (hsame : (dp.filter fun ab => decide (ab.1 ≠ ab.2)).map (fun ab => (tidx ab.1, tidx ab.2)) =
      mp.filter fun ab => decide (ab.1 ≠ ab.2 ∧ (∃ a ∈ dp.map Prod.fst ++ dp.map Prod.snd, tidx a = ab.1) ∧
        ∃ a ∈ dp.map Prod.fst ++ dp.map Prod.snd, tidx a = ab.2))
    (hcross : ∃ ab ∈ dp, ab.1 ≠ ab.2)
    (hauto : ∃ a ∈ dp.map Prod.fst ++ dp.map Prod.snd, (tidx a, tidx a) ∈ mp) :
    ∃ e, flagModelVisibilities rnd timeRes tileNames pd pm vis = .error e := by
  obtain ⟨d1, d2, d3, d4, d5, d6, d7, d8, d9, d10⟩ := flagInfo_regular hd
  obtain ⟨m1, m2, m3, m4, m5, m6, m7, m8, m9, m10⟩ := flagInfo_regular hm
  unfold flagModelVisibilities
  simp only [bind, Except.bind]
  rw [d1, m1]
  rcases matchTimes_error (rnd := rnd) (timeRes := timeRes) hd.times_ne hm.times_ne with ⟨use, hu⟩ | hu
  swap
  · rw [hu]; exact ⟨_, rfl⟩
  rw [hu]
  simp only []
  split_ifs with hant
  · exact ⟨_, rfl⟩
  obtain ⟨hul, _⟩ := matchTimes_ok hm.times_ne hu
  have ht : Spec.TileIndex tileNames (flagInfo pd).antNames tidx := by
    rcases htidx with ⟨x1, x2⟩ | ⟨⟨b, y1, y2⟩, y3, y4⟩
    · exact Or.inl ⟨fun a ha => x1 a ((d4 a).1 ha), fun a ha => x2 a ((d4 a).1 ha)⟩
    · exact Or.inr ⟨⟨b, (d4 b).2 y1, y2⟩, y3, fun a ha => y4 a ((d4 a).1 ha)⟩
  set flags := flagIndexes tileNames (flagInfo pd).antNames with hflags
  set inc : ℕ × ℕ → Bool := fun ab => decide (ab.1 ∉ flags) && decide (ab.2 ∉ flags) with hinc
  have hincl : includePerTime flags (flagInfo pm) = mp.map inc := by
    unfold includePerTime
    rw [m9, m10, zipWith_fst_snd]
  have hP : ∀ ab ∈ mp, (inc ab = true ↔ (∃ a ∈ dp.map Prod.fst ++ dp.map Prod.snd, tidx a = ab.1) ∧
        ∃ a ∈ dp.map Prod.fst ++ dp.map Prod.snd, tidx a = ab.2) := by
    intro ab hab
    have hr := hrange ab hab
    have e1 := flagIndexes_spec ht ab.1 hr.1 hr.2.1
    have e2 := flagIndexes_spec ht ab.2 hr.2.2.1 hr.2.2.2
    rw [hinc]
    simp only []
    rw [Bool.and_eq_true, decide_eq_true_eq, decide_eq_true_eq, e1, e2]
    simp only [d4]
  -- more model samples than data samples
  have hcnt : (dp.filter fun ab => decide (ab.1 ≠ ab.2)).length + 1 ≤ (mp.filter inc).length := by
    have e1 : (dp.filter fun ab => decide (ab.1 ≠ ab.2)).length
        = ((mp.filter inc).filter fun ab => decide (ab.1 ≠ ab.2)).length := by
      have := congrArg List.length hsame
      rw [List.length_map] at this
      rw [this, List.filter_filter]
      congr 1
      apply List.filter_congr
      intro ab hab
      rw [Bool.eq_iff_iff, decide_eq_true_eq, Bool.and_eq_true, decide_eq_true_eq, hP ab hab]
    rw [e1]
    obtain ⟨a, ha, hamp⟩ := hauto
    have hin : (tidx a, tidx a) ∈ mp.filter inc :=
      List.mem_filter.2 ⟨hamp, (hP _ hamp).2 ⟨⟨a, ha, rfl⟩, ⟨a, ha, rfl⟩⟩⟩
    have h2 := List.length_eq_length_filter_add (l := mp.filter inc)
      (fun ab : ℕ × ℕ => decide (ab.1 ≠ ab.2))
    have h3 : 0 < ((mp.filter inc).filter fun ab : ℕ × ℕ => !decide (ab.1 ≠ ab.2)).length := by
      apply List.length_pos_of_mem (a := (tidx a, tidx a))
      exact List.mem_filter.2 ⟨hin, by simp⟩
    omega
  have hc1 : 1 ≤ (dp.filter fun ab => decide (ab.1 ≠ ab.2)).length := by
    obtain ⟨ab, h1, h2⟩ := hcross
    exact List.length_pos_of_mem (List.mem_filter.2 ⟨h1, by simpa using h2⟩)
  have hlt : 0 < use.length := by rw [hul]; exact List.length_pos_iff.2 hd.times_ne
  cases huse : use with
  | nil => rw [huse] at hlt; simp at hlt
  | cons u us =>
    rw [List.zipIdx_cons, List.foldlM_cons, hincl]
    simp only [flagModelStep, bind, Except.bind]
    obtain ⟨e, he⟩ := copyStep_mismatch vis (List.replicate (flagInfo pd).numVisis 0)
      ((flagInfo pd).crossLocs.map fun j => 0 * (flagInfo pd).perStep + j)
      ((whereTrue (mp.map inc)).map fun j => u * (flagInfo pm).perStep + j)
      (by
        rw [List.length_map, List.length_map, d7, whereTrue_map_length, whereTrue_map_length]
        omega)
      (by rw [List.length_map, whereTrue_map_length]; omega)
    rw [he]
    exact ⟨e, rfl⟩

/-! ## C70: a constant offset of the model times -/

/-- `n` integrations of `timeRes` seconds, as Julian dates from `t0`. -/
def Spec.integrations (t0 timeRes : ℚ) (n : ℕ) : List ℚ :=
  (List.range n).map fun (k : ℕ) => t0 + (k : ℚ) * (timeRes / 86400)

theorem timeOffset_const (rnd : ℚ → ℚ) (dts mts : List ℚ) (c : ℚ) (hd : dts ≠ [])
    (h : ∀ t ∈ dts, minDist mts t = some c) : timeOffset rnd dts mts = some (rnd (c * 86400)) := by
  have hm : ∀ l : List ℚ, (∀ t ∈ l, minDist mts t = some c) →
      l.mapM (minDist mts) = some (List.replicate l.length c) := by
    intro l hl
    induction l with
    | nil => rfl
    | cons x xs ih =>
      rw [List.mapM_cons, hl x (by simp), ih fun t ht => hl t (List.mem_cons_of_mem _ ht)]
      rfl
  unfold timeOffset
  rw [hm dts h]
  have hl : 0 < dts.length := List.length_pos_iff.2 hd
  have hl' : (dts.length : ℚ) ≠ 0 := by exact_mod_cast hl.ne'
  simp only []
  rw [if_neg (by simp; exact hd)]
  congr 2
  rw [List.map_replicate, List.sum_replicate, List.length_replicate, nsmul_eq_mul]
  field_simp

theorem integrations_get (t0 timeRes : ℚ) (n k : ℕ) (hk : k < n) :
    (Spec.integrations t0 timeRes n)[k]? = some (t0 + (k : ℚ) * (timeRes / 86400)) := by
  unfold Spec.integrations
  rw [List.getElem?_map, List.getElem?_range hk, Option.map_some]

/-- The least distance of a grid to a displaced grid. -/
theorem minDist_grid (t0 timeRes e : ℚ) (n k : ℕ) (hk : k < n) (he : |e| ≤ timeRes / 2) :
    minDist (Spec.integrations (t0 + e / 86400) timeRes n) (t0 + (k : ℚ) * (timeRes / 86400))
      = some (|e| / 86400) := by
  unfold minDist
  rw [List.min?_eq_some_iff]
  have hval : ∀ i : ℕ, |t0 + e / 86400 + (i : ℚ) * (timeRes / 86400) - (t0 + (k : ℚ) * (timeRes / 86400))|
      = |e + ((i : ℚ) - k) * timeRes| / 86400 := by
    intro i
    rw [show t0 + e / 86400 + (i : ℚ) * (timeRes / 86400) - (t0 + (k : ℚ) * (timeRes / 86400))
      = (e + ((i : ℚ) - k) * timeRes) / 86400 by ring, abs_div]
    norm_num
  constructor
  · rw [List.mem_map]
    refine ⟨t0 + e / 86400 + (k : ℚ) * (timeRes / 86400), ?_, ?_⟩
    · exact List.mem_of_getElem? (integrations_get _ _ n k hk)
    · rw [hval, sub_self, zero_mul, add_zero]
  · intro x hx
    obtain ⟨m, hm, rfl⟩ := List.mem_map.1 hx
    unfold Spec.integrations at hm
    obtain ⟨i, _, rfl⟩ := List.mem_map.1 hm
    rw [hval]
    apply div_le_div_of_nonneg_right _ (by norm_num)
    have hr : 0 ≤ timeRes := by have := abs_nonneg e; linarith
    have h1 := neg_abs_le e
    have h2 := le_abs_self e
    rcases lt_trichotomy i k with h | h | h
    · have h3 : (i : ℚ) + 1 ≤ k := by exact_mod_cast h
      have h4 : ((i : ℚ) - k) * timeRes ≤ -1 * timeRes := mul_le_mul_of_nonneg_right (by linarith) hr
      rw [abs_of_nonpos (a := e + ((i : ℚ) - k) * timeRes) (by linarith)]
      linarith
    · rw [h, sub_self, zero_mul, add_zero]
    · have h3 : (k : ℚ) + 1 ≤ i := by exact_mod_cast h
      have h4 : 1 * timeRes ≤ ((i : ℚ) - k) * timeRes := mul_le_mul_of_nonneg_right (by linarith) hr
      rw [abs_of_nonneg (a := e + ((i : ℚ) - k) * timeRes) (by linarith)]
      linarith

theorem shift_grid (t0 timeRes e off : ℚ) (n : ℕ) :
    shiftTimes off timeRes (Spec.integrations (t0 + e / 86400) timeRes n)
      = Spec.integrations (t0 + (if 1 / 4 ≤ off ∧ off ≤ timeRes / 2 then e + off else e) / 86400)
          timeRes n := by
  unfold shiftTimes
  norm_num
  split_ifs with h
  · unfold Spec.integrations
    rw [List.map_map]
    apply List.map_congr_left
    intro k _
    simp only [Function.comp]
    ring
  · rfl

theorem nearestTime_grid (t0 timeRes e : ℚ) (n k : ℕ) (hn : 0 < n) :
    ∃ i, nearestTime (Spec.integrations (t0 + e / 86400) timeRes n) (t0 + (k : ℚ) * (timeRes / 86400))
        = some i ∧ i < n ∧
      ∀ j < n, |e + ((i : ℚ) - k) * timeRes| ≤ |e + ((j : ℚ) - k) * timeRes| := by
  have hne : Spec.integrations (t0 + e / 86400) timeRes n ≠ [] := by
    unfold Spec.integrations
    simp; omega
  obtain ⟨i, m, h1, h2, h3⟩ := nearestTime_spec _ (t0 + (k : ℚ) * (timeRes / 86400)) hne
  have hval : ∀ i : ℕ, |t0 + e / 86400 + (i : ℚ) * (timeRes / 86400) - (t0 + (k : ℚ) * (timeRes / 86400))|
      = |e + ((i : ℚ) - k) * timeRes| / 86400 := by
    intro i
    rw [show t0 + e / 86400 + (i : ℚ) * (timeRes / 86400) - (t0 + (k : ℚ) * (timeRes / 86400))
      = (e + ((i : ℚ) - k) * timeRes) / 86400 by ring, abs_div]
    norm_num
  have hi : i < n := by
    by_contra hc
    rw [List.getElem?_eq_none (by unfold Spec.integrations; simp; omega)] at h2; simp at h2
  refine ⟨i, h1, hi, ?_⟩
  intro j hj
  rw [integrations_get _ _ n i hi, Option.some.injEq] at h2
  have := h3 _ (List.mem_of_getElem? (integrations_get (t0 + e / 86400) timeRes n j hj))
  rw [← h2, hval, hval] at this
  exact (div_le_div_iff_of_pos_right (by norm_num)).1 this

/-- **C70 (partial).** A model whose integrations are all earlier than the data's by at most half an
integration, or later by less than a quarter, is matched step by step. `rnd`, the rounding to
hundredths of a second, leaves the offset as it is. Missing: later models, see `C70_later_model_exits`. -/
theorem C70_offset_partial (rnd : ℚ → ℚ) (t0 timeRes e : ℚ) (n : ℕ) (hn : 0 < n)
    (hres : 1 / 2 ≤ timeRes) (hrnd : rnd |e| = |e|) (h1 : -(timeRes / 2) ≤ e) (h2 : e < timeRes / 4) :
    matchTimes rnd timeRes (Spec.integrations t0 timeRes n)
      (Spec.integrations (t0 + e / 86400) timeRes n) = .ok (List.range n) := by
  have habs : |e| ≤ timeRes / 2 := abs_le.2 ⟨h1, by linarith⟩
  have hdl : (Spec.integrations t0 timeRes n).length = n := by simp [Spec.integrations]
  have hoff : timeOffset rnd (Spec.integrations t0 timeRes n)
      (Spec.integrations (t0 + e / 86400) timeRes n) = some |e| := by
    rw [timeOffset_const rnd _ _ (|e| / 86400)]
    · rw [div_mul_cancel₀ _ (by norm_num), hrnd]
    · intro h; rw [h] at hdl; simp at hdl; omega
    · intro t ht
      unfold Spec.integrations at ht
      obtain ⟨k, hk, rfl⟩ := List.mem_map.1 ht
      exact minDist_grid t0 timeRes e n k (List.mem_range.1 hk) habs
  unfold matchTimes
  rw [hoff]
  simp only []
  rw [shift_grid]
  set e' := (if 1 / 4 ≤ |e| ∧ |e| ≤ timeRes / 2 then e + |e| else e) with he'
  have hle : |e'| < timeRes / 2 := by
    rw [he']
    split_ifs with hs
    · rcases le_total 0 e with h0 | h0
      · rw [abs_of_nonneg h0, abs_of_nonneg (by linarith)]; linarith
      · rw [abs_of_nonpos h0]; simp; linarith
    · rw [not_and_or] at hs
      rcases hs with hs | hs
      · linarith
      · exact absurd habs hs
  have huse : (Spec.integrations t0 timeRes n).filterMap
      (nearestTime (Spec.integrations (t0 + e' / 86400) timeRes n)) = List.range n := by
    have : ∀ k ∈ List.range n, nearestTime (Spec.integrations (t0 + e' / 86400) timeRes n)
        (t0 + (k : ℚ) * (timeRes / 86400)) = some k := by
      intro k hk
      rw [List.mem_range] at hk
      obtain ⟨i, hi, hin, hmin⟩ := nearestTime_grid t0 timeRes e' n k hn
      rw [hi]
      congr 1
      have := hmin k hk
      rw [sub_self, zero_mul, add_zero] at this
      have h3 := neg_abs_le e'
      have h4 := le_abs_self e'
      have h5 := le_abs_self (e' + ((i : ℚ) - k) * timeRes)
      have h6 := neg_abs_le (e' + ((i : ℚ) - k) * timeRes)
      rcases lt_trichotomy i k with h | h | h
      · have h7 : (i : ℚ) + 1 ≤ k := by exact_mod_cast h
        have h8 : ((i : ℚ) - k) * timeRes ≤ -1 * timeRes :=
          mul_le_mul_of_nonneg_right (by linarith) (by linarith)
        linarith
      · exact h
      · have h7 : (k : ℚ) + 1 ≤ i := by exact_mod_cast h
        have h8 : 1 * timeRes ≤ ((i : ℚ) - k) * timeRes :=
          mul_le_mul_of_nonneg_right (by linarith) (by linarith)
        linarith
    unfold Spec.integrations at this ⊢
    rw [List.filterMap_map]
    exact (List.filterMap_congr (g := fun k => some k) this).trans List.filterMap_some
  rw [huse, hdl, npUnique_congr (List.range n) (List.range n) List.pairwise_lt_range (fun _ => Iff.rfl),
    List.length_range]
  simp

/-- **C70 is violated**: when the model is later by more than a quarter of an integration (and at least a
quarter of a second), the correction doubles the offset instead of removing it; the first two data steps match the
same model step and the program exits. -/
theorem C70_later_model_exits (rnd : ℚ → ℚ) (t0 timeRes e : ℚ) (n : ℕ) (hn : 2 ≤ n)
    (hrnd : rnd e = e) (h0 : 1 / 4 ≤ e) (h1 : timeRes / 4 < e) (h2 : e ≤ timeRes / 2) :
    matchTimes rnd timeRes (Spec.integrations t0 timeRes n)
      (Spec.integrations (t0 + e / 86400) timeRes n) = .error .systemExit := by
  have habs : |e| = e := abs_of_nonneg (by linarith)
  have hdl : (Spec.integrations t0 timeRes n).length = n := by simp [Spec.integrations]
  have hoff : timeOffset rnd (Spec.integrations t0 timeRes n)
      (Spec.integrations (t0 + e / 86400) timeRes n) = some e := by
    rw [timeOffset_const rnd _ _ (|e| / 86400)]
    · rw [div_mul_cancel₀ _ (by norm_num), habs, hrnd]
    · intro h; rw [h] at hdl; simp at hdl; omega
    · intro t ht
      unfold Spec.integrations at ht
      obtain ⟨k, hk, rfl⟩ := List.mem_map.1 ht
      exact minDist_grid t0 timeRes e n k (List.mem_range.1 hk) (by rw [habs]; exact h2)
  unfold matchTimes
  rw [hoff]
  simp only []
  have hsh := shift_grid t0 timeRes e e n
  rw [if_pos ⟨h0, h2⟩] at hsh
  rw [hsh]
  have hzero : ∀ k : ℕ, k < 2 → nearestTime (Spec.integrations (t0 + (e + e) / 86400) timeRes n)
      (t0 + (k : ℚ) * (timeRes / 86400)) = some 0 := by
    intro k hk
    obtain ⟨i, hi, hin, hmin⟩ := nearestTime_grid t0 timeRes (e + e) n k (by omega)
    rw [hi]
    congr 1
    by_contra hne
    have h3 := hmin 0 (by omega)
    have hi1 : (1 : ℚ) ≤ i := by exact_mod_cast Nat.one_le_iff_ne_zero.2 hne
    have hk' : k = 0 ∨ k = 1 := by omega
    have hpos : 0 < timeRes := by linarith
    rcases hk' with rfl | rfl
    · have h8 : 1 * timeRes ≤ (i : ℚ) * timeRes := mul_le_mul_of_nonneg_right hi1 hpos.le
      simp only [Nat.cast_zero, sub_zero, zero_mul, add_zero] at h3
      rw [abs_of_nonneg (by linarith), abs_of_nonneg (by linarith)] at h3
      linarith
    · have h8 : 0 ≤ ((i : ℚ) - 1) * timeRes := mul_nonneg (by linarith) hpos.le
      simp only [Nat.cast_zero, Nat.cast_one, zero_sub, neg_mul, one_mul] at h3
      rw [abs_of_nonneg (by linarith), abs_of_nonpos (by linarith)] at h3
      linarith
  rw [if_pos]
  rw [npUnique_length]
  intro hlen
  -- the list of matches starts with 0, 0
  obtain ⟨q, rfl⟩ : ∃ q, n = q + 2 := ⟨n - 2, by omega⟩
  have hlist : ∃ rest, (Spec.integrations t0 timeRes (q + 2)).filterMap
      (nearestTime (Spec.integrations (t0 + (e + e) / 86400) timeRes (q + 2))) = 0 :: 0 :: rest ∧
      rest.length ≤ q := by
    unfold Spec.integrations at hzero ⊢
    have hr : List.range (q + 2) = 0 :: 1 :: (List.range q).map (· + 2) := by
      rw [List.range_succ_eq_map, List.range_succ_eq_map]
      simp [List.map_map, Function.comp_def]
    conv =>
      enter [1, rest, 1, 1, 2]
      rw [hr]
    rw [List.map_cons, List.map_cons, List.filterMap_cons, hzero 0 (by omega), List.filterMap_cons]
    have h1' := hzero 1 (by omega)
    rw [h1']
    refine ⟨_, rfl, ?_⟩
    refine le_trans (List.length_filterMap_le _ _) ?_
    simp
  obtain ⟨rest, hl1, hl2⟩ := hlist
  rw [hl1, hdl] at hlen
  have : (0 :: 0 :: rest).dedup.length ≤ rest.length + 1 := by
    rw [List.dedup_cons_of_mem (by simp)]
    exact (List.dedup_sublist _).length_le
  omega

/-- The same for the whole function. -/
theorem C70_later_model_refused {V : Type} [Zero V] (rnd : ℚ → ℚ) (t0 timeRes e : ℚ) (n : ℕ) (hn : 2 ≤ n)
    (hrnd : rnd e = e) (h0 : 1 / 4 ≤ e) (h1 : timeRes / 4 < e) (h2 : e ≤ timeRes / 2)
    (tileNames : List ℕ) (pd pm : VisParams) (dp mp : List (ℕ × ℕ))
    (hd : Spec.Regular pd (Spec.integrations t0 timeRes n) dp)
    (hm : Spec.Regular pm (Spec.integrations (t0 + e / 86400) timeRes n) mp) (vis : List V) :
    flagModelVisibilities rnd timeRes tileNames pd pm vis = .error .systemExit := by
  unfold flagModelVisibilities
  simp only [bind, Except.bind]
  rw [(flagInfo_regular hd).1, (flagInfo_regular hm).1,
    C70_later_model_exits rnd t0 timeRes e n hn hrnd h0 h1 h2]

/-! ## Examples -/

/-- Data: tiles 1 and 3 of three, with autos, two integrations of two seconds (times in days). -/
def exData : VisParams :=
  ⟨[0, 0, 0, 2 / 86400, 2 / 86400, 2 / 86400], [1, 1, 3, 1, 1, 3], [1, 3, 3, 1, 3, 3]⟩

/-- Model: three tiles, no autos, the same times. -/
def exModel : VisParams :=
  ⟨[0, 0, 0, 2 / 86400, 2 / 86400, 2 / 86400], [1, 1, 2, 1, 1, 2], [2, 3, 3, 2, 3, 3]⟩

/-- Model with autos. -/
def exModelAutos : VisParams :=
  ⟨[0, 0, 0, 0, 0, 0, 2 / 86400, 2 / 86400, 2 / 86400, 2 / 86400, 2 / 86400, 2 / 86400],
    [1, 1, 1, 2, 2, 3, 1, 1, 1, 2, 2, 3], [1, 2, 3, 2, 3, 3, 1, 2, 3, 2, 3, 3]⟩

example : flagModelVisibilities (V := ℕ) id 2 [11, 12, 13] exData exModel [1, 2, 3, 4, 5, 6]
    = .ok [0, 2, 0, 0, 5, 0] := by decide +kernel
example : flagModelVisibilities (V := ℕ) id 2 [11, 12, 13] exData exModelAutos
    [1, 2, 3, 4, 5, 6, 7, 8, 9, 10, 11, 12] = .error .valueError := by decide +kernel
example : Spec.Regular exData [0, 2 / 86400] [(1, 1), (1, 3), (3, 3)] := by
  constructor <;> decide +kernel
example : Spec.Regular exModel [0, 2 / 86400] [(1, 2), (1, 3), (2, 3)] := by
  constructor <;> decide +kernel
example : Spec.Regular exModelAutos [0, 2 / 86400] [(1, 1), (1, 2), (1, 3), (2, 2), (2, 3), (3, 3)] := by
  constructor <;> decide +kernel
example : Spec.numAntennas [(1, 2)] < Spec.numAntennas [(1, 2), (1, 3), (2, 3)] := by decide
example : flagModelVisibilities (V := ℕ) id 2 [11, 12, 13] exModel ⟨[0, 2 / 86400], [1, 1], [2, 2]⟩ [1, 2]
    = .error .systemExit := by decide +kernel
example : Spec.TileIndex [11, 12, 13] [1, 1, 3, 1, 3, 3] id := Or.inl (by decide)
example : ([(1, 1), (1, 3), (3, 3)].filter fun ab : ℕ × ℕ => decide (ab.1 ≠ ab.2)).map
    (fun ab => (id ab.1, id ab.2)) =
      [(1, 2), (1, 3), (2, 3)].filter fun ab => decide ((∃ a ∈ [1, 1, 3, 1, 3, 3], id a = ab.1) ∧
        ∃ a ∈ [1, 1, 3, 1, 3, 3], id a = ab.2) := by decide
example : matchTimes id 2 (Spec.integrations 0 2 3) (Spec.integrations (3 / 5 / 86400) 2 3)
    = .error .systemExit := by decide +kernel
example : matchTimes id 2 (Spec.integrations 0 2 3) (Spec.integrations (-(3 / 5) / 86400) 2 3)
    = .ok [0, 1, 2] := by decide +kernel

end PyFHD
