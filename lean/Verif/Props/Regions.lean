import Verif.Model.Regions
import Verif.Lemmas.Gridding
import Verif.Props.Healpix
import Mathlib.Logic.Relation

/-!
# Growing a region (C59), sums over time (C60), the pages of the calibration plots (C58)
-/

namespace PyFHD

namespace Spec

/-- Two pixels of an image with `C` columns share a side. -/
def Touch (C p q : ℕ) : Prop :=
  (p / C = q / C ∧ (q % C = p % C + 1 ∨ p % C = q % C + 1)) ∨
    (p % C = q % C ∧ (q / C = p / C + 1 ∨ p / C = q / C + 1))

/-- There is a path of pixels with the property `P` from one pixel to the other, each sharing a side with the next. -/
def Joined (C : ℕ) (P : ℕ → Prop) : ℕ → ℕ → Prop :=
  Relation.ReflTransGen fun p q => P p ∧ P q ∧ Touch C p q

/-- What `scipy.ndimage.label` does: 0 for the background, and the same positive number for two other pixels exactly if they are
joined. -/
structure IsLabelling (C : ℕ) (mask : List Bool) (lab : List ℕ) : Prop where
  length : lab.length = mask.length
  background : ∀ p, p < mask.length → (lab.getD p 0 = 0 ↔ mask[p]? = some false)
  same : ∀ p q, mask[p]? = some true → mask[q]? = some true →
    (lab.getD p 0 = lab.getD q 0 ↔ Joined C (fun k => mask[k]? = some true) p q)

/-- The pixel is a number in the range. -/
def InThreshold (img : List (Option ℚ)) (low high : ℚ) (p : ℕ) : Prop :=
  ∃ x, img[p]? = some (some x) ∧ low ≤ x ∧ x ≤ high

/-- The pixel is not on an edge of the image of `R` by `C` pixels. -/
def Inside (R C p : ℕ) : Prop := ∃ i j, p = i * C + j ∧ 0 < i ∧ i + 1 < R ∧ 0 < j ∧ j + 1 < C

end Spec

open Spec

theorem interior_iff (R C p : ℕ) : interior R C p = true ↔ Inside R C p := by
  unfold interior Inside
  simp only [Bool.and_eq_true, decide_eq_true_eq]
  constructor
  · rintro ⟨⟨⟨h1, h2⟩, h3⟩, h4⟩
    exact ⟨p / C, p % C, by rw [Nat.mul_comm]; exact (Nat.div_add_mod p C).symm, h1, h2, h3, h4⟩
  · rintro ⟨i, j, rfl, h1, h2, h3, h4⟩
    have hj : j < C := by omega
    have e1 : (i * C + j) / C = i := by
      rw [Nat.add_comm, Nat.add_mul_div_right _ _ (by omega), Nat.div_eq_of_lt hj, Nat.zero_add]
    have e2 : (i * C + j) % C = j := by
      rw [Nat.add_comm, Nat.add_mul_mod_self_right, Nat.mod_eq_of_lt hj]
    rw [e1, e2]
    exact ⟨⟨⟨h1, h2⟩, h3⟩, h4⟩

theorem joined_symm {C : ℕ} {P : ℕ → Prop} {p q : ℕ} (h : Joined C P p q) : Joined C P q p := by
  induction h with
  | refl => exact .refl
  | tail _ hb ih =>
    refine Relation.ReflTransGen.head ?_ ih
    obtain ⟨h1, h2, h3⟩ := hb
    refine ⟨h2, h1, ?_⟩
    unfold Touch at h3 ⊢
    omega

theorem joined_end {C : ℕ} {P : ℕ → Prop} {p q : ℕ} (h : Joined C P p q) (hp : P p) : P q := by
  induction h with
  | refl => exact hp
  | tail _ hb _ => exact hb.2.1

/-- Every image can be labelled, so that what is assumed of `scipy.ndimage.label` can be met. -/
theorem exists_labelling (C : ℕ) (mask : List Bool) : ∃ lab, IsLabelling C mask lab := by
  classical
  set P : ℕ → Prop := fun k => mask[k]? = some true with hP
  have hex : ∀ p, ∃ q, Joined C P p q := fun p => ⟨p, .refl⟩
  refine ⟨(List.range mask.length).map fun p => if P p then Nat.find (hex p) + 1 else 0, ?_, ?_, ?_⟩
  · simp
  · intro p hp
    have hg : ((List.range mask.length).map fun p => if P p then Nat.find (hex p) + 1 else 0).getD p 0 =
        if P p then Nat.find (hex p) + 1 else 0 := by
      rw [List.getD_eq_getElem?_getD, List.getElem?_map, List.getElem?_range hp]; rfl
    rw [hg]
    by_cases h : P p
    · rw [if_pos h]
      simp only [hP] at h
      rw [h]; simp
    · rw [if_neg h]
      simp only [hP] at h
      rw [List.getElem?_eq_getElem hp] at h ⊢
      simpa using h
  · intro p q hp hq
    have hg : ∀ p, P p → ((List.range mask.length).map fun p =>
        if P p then Nat.find (hex p) + 1 else 0).getD p 0 = Nat.find (hex p) + 1 := by
      intro p h
      have hl : p < mask.length := (List.getElem?_eq_some_iff.mp h).1
      rw [List.getD_eq_getElem?_getD, List.getElem?_map, List.getElem?_range hl]
      simp [h]
    rw [hg p hp, hg q hq]
    constructor
    · intro h
      have h1 := Nat.find_spec (hex p)
      have h2 := Nat.find_spec (hex q)
      rw [show Nat.find (hex p) = Nat.find (hex q) by omega] at h1
      exact h1.trans (joined_symm h2)
    · intro h
      congr 1
      apply le_antisymm
      · exact Nat.find_min' _ (h.trans (Nat.find_spec (hex q)))
      · exact Nat.find_min' _ ((joined_symm h).trans (Nat.find_spec (hex p)))

/-! ## The histogram of the labels -/

theorem hist_labels (lab : List ℕ) (hne : lab ≠ []) :
    ∃ h hi, histogram (labQ lab) 1 none (some 1) none = .ok h ∧ (∀ v ∈ lab, v ≤ hi) ∧
      h.hist = (List.range hi).map (fun i => lab.count (i + 1)) ∧
      ∀ i, i < hi → riSlice h.ri i = some (positions (fun d => d = i + 1) lab) ∧
        ∃ e, h.ri[i + 1]? = some e ∧ e ≤ h.ri.length := by
  set L : List ℤ := lab.map fun (v : ℕ) => (v : ℤ) with hL
  have hneQ : toQ L ≠ [] := by
    simp [toQ, hL, hne]
  obtain ⟨M, hM⟩ := listMax?_isSome hneQ
  obtain ⟨M1, M2⟩ := listMax?_spec _ _ hM
  obtain ⟨z, hz, rfl⟩ := toQ_mem M1
  obtain ⟨m, hm, rfl⟩ := List.mem_map.mp hz
  have hmax : ∀ v ∈ lab, v ≤ m := by
    intro v hv
    have : (((v : ℕ) : ℤ) : ℚ) ≤ (((m : ℕ) : ℤ) : ℚ) :=
      M2 _ (List.mem_map.mpr ⟨_, List.mem_map.mpr ⟨v, hv, rfl⟩, rfl⟩)
    exact_mod_cast this
  set hi : ℕ := max m 1 with hhi
  have h1hi : (1 : ℤ) ≤ (hi : ℤ) := by omega
  obtain ⟨r, hr, hs⟩ := histInt_spec L h1hi
  have hr' : histogram (labQ lab) 1 none (some 1) none = .ok r := by
    have e : histogram (labQ lab) 1 none (some 1) none =
        histogram (toQ L) 1 none (some ((1 : ℤ) : ℚ)) (some ((hi : ℤ) : ℚ)) := by
      unfold histogram labQ
      rw [← hL, hM]
      simp only [Option.orElse_some, Option.orElse_none]
      have h2 : (if ((1 : ℤ) : ℚ) > (((m : ℕ) : ℤ) : ℚ) then ((1 : ℤ) : ℚ) else (((m : ℕ) : ℤ) : ℚ)) =
          ((hi : ℤ) : ℚ) := by
        split_ifs with h
        · have : (m : ℤ) < 1 := by exact_mod_cast h
          have : hi = 1 := by omega
          rw [this]; rfl
        · have : ¬(m : ℤ) < 1 := by exact_mod_cast h
          have : hi = m := by omega
          rw [this]
      have h3 : (if ((1 : ℤ) : ℚ) > ((hi : ℤ) : ℚ) then ((1 : ℤ) : ℚ) else ((hi : ℤ) : ℚ)) = ((hi : ℤ) : ℚ) := by
        rw [if_neg]
        push Not
        exact_mod_cast h1hi
      have one : (1 : ℚ) = ((1 : ℤ) : ℚ) := by norm_num
      rw [h3]
      rw [one, h2]
    rw [e, hr]
  have hn : ((hi : ℤ) - 1 + 1).toNat = hi := by omega
  have hcount : ∀ i : ℕ, L.count (1 + (i : ℤ)) = lab.count (i + 1) := by
    intro i
    rw [hL]
    have : (1 : ℤ) + (i : ℤ) = ((i + 1 : ℕ) : ℤ) := by push_cast; ring
    rw [this]
    exact List.count_map_of_injective _ _ (fun a b h => by simpa using h) _
  refine ⟨r, hi, hr', ?_, ?_, ?_⟩
  · intro v hv
    have := hmax v hv
    omega
  · rw [hs.hist, hn]
    apply List.map_congr_left
    intro i _
    exact hcount i
  · intro i hi'
    refine ⟨?_, ?_⟩
    · rw [hs.slices i (by rw [hn]; exact hi')]
      congr 1
      unfold positions
      rw [hL, List.length_map]
      apply List.filter_congr
      intro p hp
      rw [List.mem_range] at hp
      rw [List.getElem?_map, List.getElem?_eq_getElem hp]
      simp only [Option.map_some, Option.any_some, decide_eq_decide]
      omega
    · have hq : ((1 : ℤ) : ℚ) ≤ ((hi : ℤ) : ℚ) := by exact_mod_cast h1hi
      obtain ⟨r2, hr2, hs2⟩ := histogramCore_spec (toQ L) (w := 1) (by norm_num) hq
      rw [histogram_minmax _ _ _ _ hq, hr2] at hr
      cases hr
      have hnb : nBins ((1 : ℤ) : ℚ) 1 ((hi : ℤ) : ℚ) = hi := by rw [nBins_int h1hi, hn]
      refine ⟨_, hs2.riHead (i + 1) (by rw [hnb]; omega), ?_⟩
      rw [hs2.riLen, ← hs2.sum (by norm_num)]
      have : (r.hist.take (i + 1)).sum ≤ r.hist.sum := by
        conv_rhs => rw [← List.take_append_drop (i + 1) r.hist, List.sum_append]
        omega
      omega

theorem growFrom_eq (lab : List ℕ) (hne : lab ≠ []) (labels : List ℕ) (hl : ∀ l ∈ labels, l + 1 ∈ lab) :
    growFrom lab labels = .ok (if labels = [] then none
      else some (labels.flatMap fun l => positions (fun d => d = l + 1) lab)) := by
  obtain ⟨h, hi, hh, hmax, hhist, hri⟩ := hist_labels lab hne
  have hlt : ∀ l ∈ labels, l < hi := fun l hl' => by have := hmax _ (hl l hl'); omega
  have hcount : countLabels h labels = .ok ((labels.map fun l => lab.count (l + 1)).sum) := by
    unfold countLabels
    rw [mapM_ok _ (fun l => lab.count (l + 1)) labels]
    · rfl
    · intro l hl'
      rw [hhist, List.getElem?_map, List.getElem?_range (hlt l hl')]
      rfl
  have hparts : labels.mapM (growPiece h (labels.length != 1)) =
      .ok (labels.map fun l => positions (fun d => d = l + 1) lab) := by
    apply mapM_ok
    intro l hl'
    obtain ⟨h1, e, h2, h3⟩ := hri l (hlt l hl')
    unfold growPiece
    rw [h2, h1]
    simp [h3]
  unfold growFrom
  simp only [bind, Except.bind, hh, hcount, hparts]
  cases labels with
  | nil => rfl
  | cons l ls =>
    have : 0 < ((l :: ls).map fun l => lab.count (l + 1)).sum := by
      rw [List.map_cons, List.sum_cons]
      have := List.count_pos_iff.mpr (hl l (by simp))
      omega
    rw [if_pos this, if_neg (by simp), ← List.flatMap_def]
    rfl

theorem seedLabels_eq (roiLab : List ℕ) (hne : roiLab ≠ []) :
    ∃ labels, seedLabels roiLab = .ok labels ∧ labels ≠ [] ∧ labels.Pairwise (· < ·) ∧
      ∀ v, v ∈ labels ↔ v ∈ roiLab := by
  unfold seedLabels
  by_cases h1 : 1 < roiLab.length
  · rw [if_pos h1]
    set L : List ℤ := roiLab.map fun (v : ℕ) => (v : ℤ) with hL
    obtain ⟨x, hx⟩ := List.exists_mem_of_ne_nil _ hne
    obtain ⟨r, hi, hr, hi0, hmax, hs⟩ := hist_min0_int L ⟨(x : ℤ), List.mem_map.mpr ⟨x, hx, rfl⟩, by omega⟩
    refine ⟨nonzeroIdx r.hist, ?_, ?_, ?_, ?_⟩
    · simp only [bind, Except.bind, labQ, ← hL, hr]; rfl
    rotate_left
    · exact (List.pairwise_lt_range).filter _
    rotate_left
    all_goals
      have hmem : ∀ v : ℕ, v ∈ nonzeroIdx r.hist ↔ v ∈ roiLab := by
        intro v
        rw [mem_nonzeroIdx, hs.hist]
        by_cases hv : v < (hi - 0 + 1).toNat
        · rw [List.getD_eq_getElem?_getD, List.getElem?_map, List.getElem?_range hv]
          simp only [Option.map_some, Option.getD_some]
          rw [Nat.ne_zero_iff_zero_lt, List.count_pos_iff, hL, List.mem_map]
          constructor
          · rintro ⟨a, ha, he⟩
            have : a = v := by omega
            rwa [← this]
          · intro h; exact ⟨v, h, by omega⟩
        · rw [List.getD_eq_getElem?_getD, List.getElem?_eq_none (by simpa using hv)]
          simp only [Option.getD_none, ne_eq, not_true_eq_false, false_iff]
          intro h
          have := hmax (v : ℤ) (List.mem_map.mpr ⟨v, h, rfl⟩)
          omega
    · intro h
      have := (hmem x).mpr hx
      rw [h] at this
      cases this
    · exact hmem
  · rw [if_neg h1]
    refine ⟨roiLab, rfl, hne, ?_, fun v => Iff.rfl⟩
    match roiLab, hne, h1 with
    | [a], _, _ => simp
    | a :: b :: l, _, h => simp at h

theorem takeFlat_ok {α : Type} (l : List α) (d : α) (idx : List ℕ) (h : ∀ i ∈ idx, i < l.length) :
    takeFlat l idx = .ok (idx.map fun i => l.getD i d) := by
  unfold takeFlat
  apply mapM_ok
  intro i hi
  rw [List.getElem?_eq_getElem (h i hi), List.getD_eq_getElem?_getD, List.getElem?_eq_getElem (h i hi)]
  rfl

theorem positions_nodup {α : Type} (P : α → Prop) [DecidablePred P] (l : List α) : (positions P l).Nodup :=
  List.nodup_range.filter _

/-- The region: the pixels that are not on an edge and are joined, through pixels in the range, with a seed that is in the
range and not on an edge; each once; and nothing if there is no such seed. `label` is any function that labels as
`scipy.ndimage.label` does. -/
theorem C59_region (label : List Bool → List ℕ) (R C : ℕ) (hlabel : ∀ mask, IsLabelling C mask (label mask))
    (img : List (Option ℚ)) (roi : List ℕ) (hne : roi ≠ [])
    (hroi : ∀ s ∈ roi, s < img.length) (low high : ℚ) :
    ∃ r, regionGrow label R C img roi (some low) (some high) = .ok r ∧
      (r = none ↔ ∀ s ∈ roi, ¬(Inside R C s ∧ InThreshold img low high s)) ∧
      ∀ l, r = some l → l.Nodup ∧ ∀ p, p ∈ l ↔ Inside R C p ∧ ∃ s ∈ roi, Inside R C s ∧
        InThreshold img low high s ∧ Joined C (InThreshold img low high) s p := by
  set mask := img.map (threshOne (some low) (some high)) with hmask
  have hml : mask.length = img.length := by simp [hmask]
  have hmt : ∀ p, mask[p]? = some true ↔ InThreshold img low high p := by
    intro p
    rw [hmask, List.getElem?_map]
    unfold InThreshold
    rcases img[p]? with _ | _ | x <;> simp [threshOne]
  have hP : (fun k => mask[k]? = some true) = InThreshold img low high := funext fun k => propext (hmt k)
  have hL := hlabel mask
  set lab := zeroEdges R C (label mask) with hlab
  have hlabl : lab.length = img.length := by rw [hlab, zeroEdges, List.length_mapIdx, hL.length, hml]
  -- the labels after the edges are removed
  have hval : ∀ p, p < img.length → lab.getD p 0 = if interior R C p then (label mask).getD p 0 else 0 := by
    intro p hp
    rw [hlab, zeroEdges, List.getD_eq_getElem?_getD, List.getElem?_mapIdx,
      List.getElem?_eq_getElem (by rw [hL.length, hml]; exact hp), List.getD_eq_getElem?_getD,
      List.getElem?_eq_getElem (by rw [hL.length, hml]; exact hp)]
    rfl
  have hnz : ∀ p, p < img.length → (lab.getD p 0 ≠ 0 ↔ Inside R C p ∧ InThreshold img low high p) := by
    intro p hp
    rw [hval p hp, ← interior_iff, ← hmt]
    by_cases hi : interior R C p = true
    · rw [if_pos hi]
      have := hL.background p (by omega)
      rw [Ne, this]
      have hx : p < mask.length := by omega
      rw [List.getElem?_eq_getElem hx]
      simp [hi]
    · rw [if_neg hi]
      simp [hi]
  have hne0 : img ≠ [] := by
    obtain ⟨s, hs⟩ := List.exists_mem_of_ne_nil _ hne
    intro h
    have := hroi s hs
    rw [h] at this
    simp at this
  have hlne : lab ≠ [] := by
    intro h
    rw [h] at hlabl
    exact hne0 (List.length_eq_zero_iff.mp hlabl.symm)
  obtain ⟨labels, h1, h2, h3, h4⟩ := seedLabels_eq (roi.map fun i => lab.getD i 0) (by simpa using hne)
  -- the labels that are used
  obtain ⟨use, hu1, hu2, hu3⟩ : ∃ use, dropBackground labels = .ok use ∧ use.Nodup ∧
      ∀ v, v ∈ use ↔ v + 1 ∈ labels := by
    cases hlb : labels with
    | nil => exact absurd hlb h2
    | cons a rest =>
      rw [hlb] at h3
      rw [List.pairwise_cons] at h3
      refine ⟨_, rfl, ?_, ?_⟩
      · have hnd : ((if a = 0 then rest else a :: rest)).Pairwise (· < ·) := by
          split_ifs
          · exact h3.2
          · exact List.pairwise_cons.mpr h3
        have hpos : ∀ v ∈ (if a = 0 then rest else a :: rest), 0 < v := by
          intro v hv
          split_ifs at hv with ha
          · have := h3.1 v hv; omega
          · rcases List.mem_cons.mp hv with rfl | hv
            · omega
            · have := h3.1 v hv; omega
        rw [List.nodup_map_iff_inj_on (hnd.imp (fun h => Nat.ne_of_lt h))]
        intro x hx y hy hxy
        have := hpos x hx
        have := hpos y hy
        omega
      · intro v
        rw [List.mem_map]
        constructor
        · rintro ⟨w, hw, rfl⟩
          split_ifs at hw with ha
          · have := h3.1 w hw
            rw [show w - 1 + 1 = w by omega]
            exact List.mem_cons_of_mem _ hw
          · have : 0 < w := by
              rcases List.mem_cons.mp hw with rfl | hw'
              · omega
              · have := h3.1 w hw'; omega
            rw [show w - 1 + 1 = w by omega]
            exact hw
        · intro hv
          refine ⟨v + 1, ?_, by omega⟩
          split_ifs with ha
          · rcases List.mem_cons.mp hv with h | h
            · omega
            · exact h
          · exact hv
  have hseed : ∀ v, v ∈ use ↔ ∃ s ∈ roi, lab.getD s 0 = v + 1 := by
    intro v
    rw [hu3, h4, List.mem_map]
  have hin : ∀ l ∈ use, l + 1 ∈ lab := by
    intro l hl
    obtain ⟨s, hs, he⟩ := (hseed l).mp hl
    have hsl : s < lab.length := by rw [hlabl]; exact hroi s hs
    rw [← he, List.getD_eq_getElem?_getD, List.getElem?_eq_getElem hsl]
    exact List.getElem_mem _
  refine ⟨if use = [] then none else some (use.flatMap fun l => positions (fun d => d = l + 1) lab), ?_, ?_, ?_⟩
  · unfold regionGrow
    simp only [bind, Except.bind]
    rw [takeFlat_ok img none roi hroi]
    simp only [reduceCtorEq, or_self, false_and, if_false]
    rw [← hmask, ← hlab, takeFlat_ok lab 0 roi (by rw [hlabl]; exact hroi)]
    simp only [h1, hu1]
    exact growFrom_eq lab hlne use hin
  · split_ifs with hu
    · simp only [true_iff]
      rintro s hs ⟨hi, ht⟩
      have hz := (hnz s (hroi s hs)).mpr ⟨hi, ht⟩
      have : lab.getD s 0 - 1 ∈ use := (hseed _).mpr ⟨s, hs, by omega⟩
      rw [hu] at this
      cases this
    · simp only [false_iff, not_forall]
      obtain ⟨v, hv⟩ := List.exists_mem_of_ne_nil _ hu
      obtain ⟨s, hs, he⟩ := (hseed v).mp hv
      exact ⟨s, hs, fun h => h ((hnz s (hroi s hs)).mp (by omega))⟩
  · intro l hl
    split_ifs at hl with hu
    cases hl
    refine ⟨?_, ?_⟩
    · rw [List.nodup_flatMap]
      refine ⟨fun v _ => positions_nodup _ _, ?_⟩
      refine hu2.imp ?_
      intro a b hab
      intro p hpa hpb
      rw [mem_positions] at hpa hpb
      obtain ⟨d, hd, hda⟩ := hpa
      obtain ⟨d', hd', hdb⟩ := hpb
      rw [hd] at hd'
      cases hd'
      omega
    · intro p
      rw [List.mem_flatMap]
      constructor
      · rintro ⟨v, hv, hp⟩
        obtain ⟨d, hd, hdv⟩ := (mem_positions _ _ _).mp hp
        have hpl : p < img.length := by rw [← hlabl]; exact (List.getElem?_eq_some_iff.mp hd).1
        have hpv : lab.getD p 0 = v + 1 := by rw [List.getD_eq_getElem?_getD, hd]; exact hdv
        obtain ⟨s, hs, he⟩ := (hseed v).mp hv
        have i1 := (hnz p hpl).mp (by omega)
        have i2 := (hnz s (hroi s hs)).mp (by omega)
        refine ⟨i1.1, s, hs, i2.1, i2.2, ?_⟩
        rw [hval p hpl, if_pos ((interior_iff _ _ _).mpr i1.1)] at hpv
        rw [hval s (hroi s hs), if_pos ((interior_iff _ _ _).mpr i2.1)] at he
        have := (hL.same s p ((hmt s).mpr i2.2) ((hmt p).mpr i1.2)).mp (by omega)
        rw [hP] at this
        exact this
      · rintro ⟨hpi, s, hs, hsi, hst, hj⟩
        have hpt := joined_end hj hst
        have hpl : p < img.length := by
          obtain ⟨x, hx, _⟩ := hpt
          exact (List.getElem?_eq_some_iff.mp hx).1
        have hz := (hnz s (hroi s hs)).mpr ⟨hsi, hst⟩
        have hsame : lab.getD s 0 = lab.getD p 0 := by
          rw [hval s (hroi s hs), hval p hpl, if_pos ((interior_iff _ _ _).mpr hsi),
            if_pos ((interior_iff _ _ _).mpr hpi)]
          rw [← hP] at hj
          exact (hL.same s p ((hmt s).mpr hst) ((hmt p).mpr hpt)).mpr hj
        refine ⟨lab.getD s 0 - 1, (hseed _).mpr ⟨s, hs, by omega⟩, ?_⟩
        rw [mem_positions]
        have hpl' : p < lab.length := by omega
        refine ⟨lab[p], List.getElem?_eq_getElem hpl', ?_⟩
        have : lab.getD p 0 = lab[p] := by
          rw [List.getD_eq_getElem?_getD, List.getElem?_eq_getElem hpl']; rfl
        omega

theorem nanMin_spec : ∀ (l : List (Option ℚ)), l ≠ [] → (∀ v ∈ l, v ≠ none) →
    ∃ a, nanMin l = some a ∧ some a ∈ l ∧ ∀ x, some x ∈ l → a ≤ x
  | [], h, _ => absurd rfl h
  | [v], _, hv => by
    obtain ⟨a, rfl⟩ := Option.ne_none_iff_exists'.mp (hv v (by simp))
    exact ⟨a, rfl, by simp, by intro x hx; simp at hx; rw [hx]⟩
  | v :: w :: l, _, hv => by
    obtain ⟨a, rfl⟩ := Option.ne_none_iff_exists'.mp (hv v (by simp))
    obtain ⟨b, h1, h2, h3⟩ := nanMin_spec (w :: l) (by simp) fun u hu => hv u (List.mem_cons_of_mem _ hu)
    refine ⟨min a b, ?_, ?_, ?_⟩
    · unfold nanMin; rw [h1]
    · rcases min_choice a b with h | h <;> rw [h]
      · simp
      · exact List.mem_cons_of_mem _ h2
    · intro x hx
      rcases List.mem_cons.mp hx with h | h
      · cases h; exact min_le_left _ _
      · exact le_trans (min_le_right _ _) (h3 x h)

theorem nanMax_spec : ∀ (l : List (Option ℚ)), l ≠ [] → (∀ v ∈ l, v ≠ none) →
    ∃ a, nanMax l = some a ∧ some a ∈ l ∧ ∀ x, some x ∈ l → x ≤ a
  | [], h, _ => absurd rfl h
  | [v], _, hv => by
    obtain ⟨a, rfl⟩ := Option.ne_none_iff_exists'.mp (hv v (by simp))
    exact ⟨a, rfl, by simp, by intro x hx; simp at hx; rw [hx]⟩
  | v :: w :: l, _, hv => by
    obtain ⟨a, rfl⟩ := Option.ne_none_iff_exists'.mp (hv v (by simp))
    obtain ⟨b, h1, h2, h3⟩ := nanMax_spec (w :: l) (by simp) fun u hu => hv u (List.mem_cons_of_mem _ hu)
    refine ⟨max a b, ?_, ?_, ?_⟩
    · unfold nanMax; rw [h1]
    · rcases max_choice a b with h | h <;> rw [h]
      · simp
      · exact List.mem_cons_of_mem _ h2
    · intro x hx
      rcases List.mem_cons.mp hx with h | h
      · cases h; exact le_max_left _ _
      · exact le_trans (h3 x h) (le_max_right _ _)

/-- Thresholds that are not given are the smallest and the largest value of the seeds, if these are numbers. -/
theorem C59_default_thresholds (label : List Bool → List ℕ) (R C : ℕ) (img : List (Option ℚ)) (roi : List ℕ)
    (hne : roi ≠ []) (hroi : ∀ s ∈ roi, ∃ x, img[s]? = some (some x)) (low high : Option ℚ) :
    ∃ a b, (∃ s ∈ roi, img[s]? = some (some a)) ∧ (∃ s ∈ roi, img[s]? = some (some b)) ∧
      (∀ s ∈ roi, ∀ x, img[s]? = some (some x) → a ≤ x ∧ x ≤ b) ∧
      regionGrow label R C img roi low high =
        regionGrow label R C img roi (some (low.getD a)) (some (high.getD b)) := by
  have hlen : ∀ s ∈ roi, s < img.length := fun s hs => by
    obtain ⟨x, hx⟩ := hroi s hs
    exact (List.getElem?_eq_some_iff.mp hx).1
  have hvals := takeFlat_ok img none roi hlen
  set vals := roi.map fun i => img.getD i none with hv
  have hvne : vals ≠ [] := by simpa [hv] using hne
  have hmem : ∀ x : ℚ, some x ∈ vals ↔ ∃ s ∈ roi, img[s]? = some (some x) := by
    intro x
    rw [hv, List.mem_map]
    constructor
    · rintro ⟨s, hs, h⟩
      refine ⟨s, hs, ?_⟩
      obtain ⟨y, hy⟩ := hroi s hs
      rw [List.getD_eq_getElem?_getD, hy] at h
      rw [hy, ← h]; rfl
    · rintro ⟨s, hs, h⟩
      exact ⟨s, hs, by rw [List.getD_eq_getElem?_getD, h]; rfl⟩
  have hno : ∀ v ∈ vals, v ≠ none := by
    intro v hv'
    rw [hv, List.mem_map] at hv'
    obtain ⟨s, hs, h⟩ := hv'
    obtain ⟨y, hy⟩ := hroi s hs
    rw [List.getD_eq_getElem?_getD, hy] at h
    rw [← h]; simp
  obtain ⟨a, ha1, ha2, ha3⟩ := nanMin_spec vals hvne hno
  obtain ⟨b, hb1, hb2, hb3⟩ := nanMax_spec vals hvne hno
  refine ⟨a, b, (hmem a).mp ha2, (hmem b).mp hb2, ?_, ?_⟩
  · intro s hs x hx
    have := (hmem x).mpr ⟨s, hs, hx⟩
    exact ⟨ha3 x this, hb3 x this⟩
  · unfold regionGrow
    simp only [bind, Except.bind, hvals, ha1, hb1, hvne, and_false, if_false]
    cases low <;> cases high <;> rfl

/-- Without seeds, and without all thresholds, the minimum of nothing raises. -/
theorem C59_no_seeds (label : List Bool → List ℕ) (R C : ℕ) (img : List (Option ℚ)) (low high : Option ℚ) :
    ∃ e, regionGrow label R C img [] low high = .error e := by
  unfold regionGrow
  simp only [bind, Except.bind, takeFlat, List.mapM_nil, pure, Except.pure]
  split_ifs
  · exact ⟨_, rfl⟩
  · exact ⟨.indexError, by simp [seedLabels, dropBackground]⟩

/-- An image of 4 by 5 pixels with two regions above 1/2, one of them touching the edge, and a NaN. -/
def exRegion : List (Option ℚ) :=
  [some 0, some 0, some 0, some 0, some 0,
   some 0, some 1, some 0, some 1, some 1,
   some 0, some 1, some 0, none, some 0,
   some 0, some 0, some 0, some 0, some 0]

/-- The labels of that image. -/
def exLabel : List Bool → List ℕ := fun _ =>
  [0, 0, 0, 0, 0, 0, 1, 0, 2, 2, 0, 1, 0, 0, 0, 0, 0, 0, 0, 0]

example : regionGrow exLabel 4 5 exRegion [6] (some (1 / 2)) (some 2) = .ok (some [6, 11]) ∧
    regionGrow exLabel 4 5 exRegion [8, 11] none none = .ok (some [6, 11, 8]) ∧
    regionGrow exLabel 4 5 exRegion [7] (some (1 / 2)) (some 2) = .ok none := by decide +kernel
example : ∃ label : List Bool → List ℕ, ∀ mask, IsLabelling 5 mask (label mask) :=
  ⟨fun mask => (exists_labelling 5 mask).choose, fun mask => (exists_labelling 5 mask).choose_spec⟩

/-! ## C60: sums over time -/

theorem list_range_sumK {K : Type} [AddCommMonoid K] (g : ℕ → K) (n : ℕ) :
    ((List.range n).map g).sum = ∑ i ∈ Finset.range n, g i := by
  induction n with
  | zero => simp
  | succ n ih => rw [List.range_succ, List.map_append, List.sum_append, ih, Finset.sum_range_succ]; simp

/-- At each frequency and baseline, the sum over the time steps of the weighted visibilities, where the visibilities of a frequency
are ordered by time step and then by baseline. -/
theorem C60_sum {K : Type} [Field K] (vis : List K) (nf nt nb : ℕ) (w : ℕ → ℕ → ℕ → K)
    (hl : vis.length = nf * nt * nb) :
    ∃ out, timeSum vis nf nt nb [nf, nt, nb] w = .ok out ∧ out.length = nf ∧
      ∀ f, f < nf → ∃ row, out[f]? = some row ∧ row.length = nb ∧
        ∀ b, b < nb → row[b]? = some (∑ t ∈ Finset.range nt, vis.getD (f * (nt * nb) + (t * nb + b)) 0 * w f t b) := by
  refine ⟨_, by unfold timeSum; rw [if_neg (by simp), if_neg (by simp [hl])], by simp, ?_⟩
  intro f hf
  refine ⟨_, by rw [List.getElem?_map, List.getElem?_range hf]; rfl, by simp, ?_⟩
  intro b hb
  rw [List.getElem?_map, List.getElem?_range hb, Option.map_some, ← list_range_sumK]
  congr 2
  apply List.map_congr_left
  intro t _
  congr 2
  ring

/-- Weights of another shape end the program; visibilities that do not fit raise. -/
theorem C60_wrong_shape {K : Type} [Field K] (vis : List K) (nf nt nb : ℕ) (shape : List ℕ) (w : ℕ → ℕ → ℕ → K) :
    (timeSum vis nf nt nb shape w = .error .systemExit ↔ shape ≠ [nf, nt, nb]) ∧
    (timeSum vis nf nt nb [nf, nt, nb] w = .error .valueError ↔ vis.length ≠ nf * nt * nb) := by
  unfold timeSum
  refine ⟨?_, ?_⟩
  · constructor
    · intro h hs
      rw [if_neg (by simpa using hs)] at h
      split_ifs at h; cases h
    · intro h; rw [if_pos h]
  · rw [if_neg (by simp)]
    constructor
    · intro h hs
      rw [if_neg (by simpa using hs)] at h
      cases h
    · intro h; rw [if_pos h]

/-- The result is not an average: visibilities that do not depend on time are multiplied with the sum of the weights. -/
theorem C60_not_average {K : Type} [Field K] (vis : List K) (nf nt nb : ℕ) (w : ℕ → ℕ → ℕ → K)
    (hl : vis.length = nf * nt * nb) (f b : ℕ) (hf : f < nf) (hb : b < nb) (v : K)
    (hv : ∀ t, t < nt → vis.getD (f * (nt * nb) + (t * nb + b)) 0 = v) :
    ∃ out row, timeSum vis nf nt nb [nf, nt, nb] w = .ok out ∧ out[f]? = some row ∧
      row[b]? = some (v * ∑ t ∈ Finset.range nt, w f t b) := by
  obtain ⟨out, h1, _, h3⟩ := C60_sum vis nf nt nb w hl
  obtain ⟨row, h4, _, h6⟩ := h3 f hf
  refine ⟨out, row, h1, h4, ?_⟩
  rw [h6 b hb, Finset.mul_sum]
  congr 1
  apply Finset.sum_congr rfl
  intro t ht
  rw [hv t (Finset.mem_range.mp ht)]

example : timeSum ([1, 2, 3, 4, 5, 6, 7, 8] : List ℚ) 2 2 2 [2, 2, 2] (fun f t b => (f + 2 * t + b : ℕ)) =
    .ok [[6, 14], [26, 44]] := by decide +kernel
example : timeSum ([1, 2, 3, 4] : List ℚ) 2 2 1 [2, 1, 2] (fun _ _ _ => 1) = .error .systemExit := by decide +kernel

/-! ## C58: the calibration plots -/

theorem plotPage_first (n : ℕ) (h : 128 ≤ n) (use : ℕ → Bool) :
    plotPage n use 0 = .ok ((List.range 128).map fun i => ⟨0, i / 16, i % 16, i, i, use i⟩) := by
  have hp : (pageTiles n 0).toNat = 128 := by
    unfold pageTiles
    rw [if_neg]
    · rfl
    · have : 0 < n / 128 := Nat.div_pos h (by norm_num)
      simpa using this.ne'
  unfold plotPage
  rw [hp]
  have : ((List.range 128).map fun i => 0 * (16 * 8) + i) = List.range 128 := by simp
  rw [this]
  apply mapM_ok
  intro i hi
  rw [List.mem_range] at hi
  unfold plotPanel
  rw [if_pos (by omega)]
  simp

/-- From 128 to 255 tiles, each of the first 128 tiles has one panel, at its own place, with its own name and its own gains, and the
curves of exactly the tiles in use. Missing: the other tiles and other numbers of tiles, see the violations. -/
theorem C58_first_page_partial (n : ℕ) (h1 : 128 ≤ n) (h2 : n < 256) (use : ℕ → Bool) :
    ∃ panels, plotCals n use = .ok panels ∧
      (panels.map fun p => (p.page, p.row, p.col)).Nodup ∧
      (∀ p ∈ panels, p.title = p.tile ∧ p.row < 8 ∧ p.col < 16 ∧ p.curves = use p.tile) ∧
      ∀ tile, (panels.filter fun p => p.tile = tile).length = if tile < 128 then 1 else 0 := by
  have hd : n / (16 * 8) = 1 := by omega
  refine ⟨(List.range 128).map fun i => ⟨0, i / 16, i % 16, i, i, use i⟩, ?_, ?_, ?_, ?_⟩
  · unfold plotCals
    rw [hd]
    simp only [List.range_one, List.mapM_cons, List.mapM_nil, plotPage_first n h1, bind, Except.bind, pure,
      Except.pure, List.flatten_cons, List.flatten_nil, List.append_nil]
  · rw [List.map_map, List.nodup_map_iff_inj_on List.nodup_range]
    intro a _ b _ hab
    simp only [Function.comp, Prod.mk.injEq, true_and] at hab
    omega
  · intro p hp
    rw [List.mem_map] at hp
    obtain ⟨i, hi, rfl⟩ := hp
    rw [List.mem_range] at hi
    refine ⟨rfl, ?_, ?_, rfl⟩ <;> simp only [] <;> omega
  · intro tile
    rw [List.filter_map, List.length_map]
    by_cases ht : tile < 128
    · rw [if_pos ht]
      rw [← List.countP_eq_length_filter, ← List.count_eq_one_of_mem (List.nodup_range (n := 128))
        (List.mem_range.mpr ht), List.count_eq_countP]
      apply List.countP_congr
      intro i _
      simp
    · rw [if_neg ht, List.length_eq_zero_iff, List.filter_eq_nil_iff]
      intro i hi
      rw [List.mem_range] at hi
      simp only [Function.comp, decide_eq_true_eq]
      omega

/-- **Violation.** With fewer than 128 tiles nothing is drawn. -/
theorem C58_few_tiles_none (n : ℕ) (h : n < 128) (use : ℕ → Bool) : plotCals n use = .ok [] := by
  unfold plotCals
  rw [Nat.div_eq_of_lt (by omega)]
  rfl

/-- **Violation.** With more than 128 and fewer than 256 tiles, the tiles from the 129th on are not drawn. -/
theorem C58_tail_missing (n : ℕ) (h1 : 128 < n) (h2 : n < 256) (use : ℕ → Bool) (tile : ℕ) (h3 : 128 ≤ tile) :
    ∃ panels, plotCals n use = .ok panels ∧ ∀ p ∈ panels, p.tile ≠ tile := by
  obtain ⟨panels, hp, _, _, hcount⟩ := C58_first_page_partial n (by omega) h2 use
  refine ⟨panels, hp, fun p hpp he => ?_⟩
  have := hcount tile
  rw [if_neg (by omega), List.length_eq_zero_iff, List.filter_eq_nil_iff] at this
  exact this p hpp (by simpa using he)

theorem mapM_error {α β : Type _} (f : α → Py β) : ∀ (l : List α) (a : α), a ∈ l → (∃ e, f a = .error e) →
    ∃ e, l.mapM f = .error e := by
  intro l
  induction l with
  | nil => intro a h; cases h
  | cons b l ih =>
    intro a ha he
    rw [List.mapM_cons]
    simp only [bind, Except.bind]
    rcases hb : f b with e | v
    · exact ⟨e, rfl⟩
    · rcases List.mem_cons.mp ha with rfl | ha
      · obtain ⟨e, he⟩ := he; rw [he] at hb; cases hb
      · obtain ⟨e, he⟩ := ih a ha he
        rw [he]; exact ⟨e, rfl⟩

/-- **Violation.** With 256 tiles or more the plots raise an `IndexError`: the name of a tile is looked up at its index times the
number of the page. -/
theorem C58_many_tiles_raise (n : ℕ) (h : 256 ≤ n) (use : ℕ → Bool) : plotCals n use = .error .indexError := by
  have hidx : ∀ page e, plotPage n use page = .error e → e = .indexError := by
    intro page e he
    unfold plotPage at he
    have gen : ∀ l : List ℕ, l.mapM (plotPanel n page use) = .error e → e = .indexError := by
      intro l
      induction l with
      | nil => intro h; cases h
      | cons a l ih =>
        intro h
        rw [List.mapM_cons] at h
        simp only [bind, Except.bind] at h
        rcases hb : plotPanel n page use a with e' | v
        · rw [hb] at h
          cases h
          unfold plotPanel at hb
          split_ifs at hb
          cases hb; rfl
        · rw [hb] at h
          rcases hr : l.mapM (plotPanel n page use) with e' | v'
          · rw [hr] at h
            cases h
            exact ih hr
          · rw [hr] at h; cases h
    exact gen _ he
  have hlast : ∃ e, plotPage n use (n / 128 - 1) = .error e := by
    set P := n / 128 with hP
    have hP2 : 2 ≤ P := by omega
    have hpt : (pageTiles n (P - 1)).toNat = 128 := by
      unfold pageTiles
      rw [show P - 1 + 1 = P by omega, if_neg]
      · rfl
      · have : 0 < n / (16 * 8 * P) := Nat.div_pos (by omega) (by omega)
        omega
    apply mapM_error _ _ ((P - 1) * (16 * 8) + 127)
    · rw [List.mem_map]
      exact ⟨127, by rw [List.mem_range, hpt]; norm_num, rfl⟩
    · refine ⟨.indexError, ?_⟩
      unfold plotPanel
      rw [if_neg]
      rw [show P - 1 + 1 = P by omega]
      have : 2 * ((P - 1) * (16 * 8) + 127) ≤ P * ((P - 1) * (16 * 8) + 127) := Nat.mul_le_mul_right _ hP2
      omega
  have hall : ∀ l : List ℕ, ∀ e, l.mapM (plotPage n use) = .error e → e = .indexError := by
    intro l
    induction l with
    | nil => intro e h; cases h
    | cons a l ih =>
      intro e h
      rw [List.mapM_cons] at h
      simp only [bind, Except.bind] at h
      rcases hb : plotPage n use a with e' | v
      · rw [hb] at h
        cases h
        exact hidx a _ hb
      · rw [hb] at h
        rcases hr : l.mapM (plotPage n use) with e' | v'
        · rw [hr] at h
          cases h
          exact ih _ hr
        · rw [hr] at h; cases h
  obtain ⟨e, he⟩ := mapM_error (plotPage n use) (List.range (n / (16 * 8))) (n / 128 - 1)
    (by rw [List.mem_range]; omega) hlast
  unfold plotCals
  rw [he, hall _ e he]
  rfl

example : 128 ≤ 136 ∧ 136 < 256 ∧ 100 < 128 ∧ 256 ≤ 256 := by decide
example : (plotCals 128 fun t => t != 3).toOption.bind (fun l => l[19]?) =
    some ⟨0, 1, 3, 19, 19, true⟩ := by decide +kernel

end PyFHD
