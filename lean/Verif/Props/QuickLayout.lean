import Verif.Model.QuickLayout
import Mathlib.Tactic.Linarith
import Mathlib.Tactic.FieldSimp
import Mathlib.Tactic.Ring
import Mathlib.Tactic.NormNum
import Mathlib.Tactic.Positivity

/-!
# C260, C261: where images and panels are drawn
-/

namespace PyFHD

namespace Spec

/-- The panel of row `r` from the top and column `c` from the left, both from zero, of a grid of equal panels on the unit square. -/
def gridPanel (rows cols r c : ℕ) : Box :=
  ⟨c / cols, (c + 1) / cols, (rows - 1 - r) / rows, (rows - r) / rows⟩

/-- A point inside a rectangle, with its left and lower edge. -/
def InBox (b : Box) (x y : ℚ) : Prop := b.left ≤ x ∧ x < b.right ∧ b.bottom ≤ y ∧ y < b.top

/-- Coordinates with equal steps. -/
def regular (start step : ℚ) (n : ℕ) : List ℚ := (List.range n).map fun (i : ℕ) => start + i * step

end Spec

open Spec

/-! ## C260: panels -/

/-- **C260** Panel number `k` (from one) is that of row `(k - 1) / cols` and column `(k - 1) % cols` of the grid. -/
theorem C260_panel (rows cols r c : ℕ) (hc : c < cols) (hr : r < rows) (m : Option (List ℚ)) (hm : ∀ l, m = some l → l.length = 4) :
    quickPlace m (some (rows, cols, ((r * cols + c + 1 : ℕ) : ℤ))) = .ok (some (gridPanel rows cols r c)) := by
  have hrows : (rows : ℚ) ≠ 0 := by exact_mod_cast (by omega : rows ≠ 0)
  have hcols : (cols : ℚ) ≠ 0 := by exact_mod_cast (by omega : cols ≠ 0)
  have e1 : (((r * cols + c + 1 : ℕ) : ℤ) - 1) % (cols : ℤ) = (c : ℤ) := by
    have : (((r * cols + c + 1 : ℕ) : ℤ) - 1) = ((r * cols + c : ℕ) : ℤ) := by push_cast; ring
    rw [this, ← Int.natCast_mod]
    congr 1
    rw [Nat.add_comm, Nat.add_mul_mod_self_right, Nat.mod_eq_of_lt hc]
  have e2 : (((r * cols + c + 1 : ℕ) : ℤ) - 1) / (cols : ℤ) = (r : ℤ) := by
    have : (((r * cols + c + 1 : ℕ) : ℤ) - 1) = ((r * cols + c : ℕ) : ℤ) := by push_cast; ring
    rw [this, ← Int.natCast_div]
    congr 1
    rw [Nat.add_comm, Nat.add_mul_div_right _ _ (by omega), Nat.div_eq_of_lt hc, Nat.zero_add]
  have hbox : (⟨((c : ℤ) : ℚ) / cols, ((c : ℤ) : ℚ) / cols + 1 / cols, 1 - (((r : ℤ) : ℚ) + 1) / rows,
      1 - (((r : ℤ) : ℚ) + 1) / rows + 1 / rows⟩ : Box) = gridPanel rows cols r c := by
    unfold gridPanel
    simp only [Box.mk.injEq, Int.cast_natCast]
    refine ⟨trivial, ?_, ?_, ?_⟩ <;> field_simp <;> ring
  have hz : ¬ (rows = 0 ∨ cols = 0) := by omega
  unfold quickPlace
  rcases m with _ | l
  · simp only [posPlace, bind, Except.bind, pure, Except.pure, if_neg hz, e1, e2, hbox]
  · have := hm l rfl
    match l, this with
    | [a, b, w, h], _ => simp only [posPlace, bind, Except.bind, pure, Except.pure, if_neg hz, e1, e2, hbox]

/-- **C260** The panels of a grid are in the figure, and every point of the figure is in exactly one of them. -/
theorem C260_tiling (rows cols : ℕ) (x y : ℚ) (hx : 0 ≤ x ∧ x < 1) (hy : 0 ≤ y ∧ y < 1) (hr : 0 < rows) (hc : 0 < cols) :
    ∃! rc : ℕ × ℕ, rc.1 < rows ∧ rc.2 < cols ∧ InBox (gridPanel rows cols rc.1 rc.2) x y := by
  have hrq : (0 : ℚ) < rows := by exact_mod_cast hr
  have hcq : (0 : ℚ) < cols := by exact_mod_cast hc
  have hin : ∀ r c : ℕ, InBox (gridPanel rows cols r c) x y ↔
      ((c : ℚ) ≤ x * cols ∧ x * cols < c + 1) ∧ ((rows : ℚ) - 1 - r ≤ y * rows ∧ y * rows < rows - r) := by
    intro r c
    unfold InBox gridPanel
    simp only
    rw [div_le_iff₀ hcq, lt_div_iff₀ hcq, div_le_iff₀ hrq, lt_div_iff₀ hrq]
    tauto
  set c := ⌊x * cols⌋.toNat with hcdef
  set q := ⌊y * rows⌋.toNat with hqdef
  have fx : 0 ≤ ⌊x * cols⌋ := Int.floor_nonneg.2 (mul_nonneg hx.1 hcq.le)
  have fy : 0 ≤ ⌊y * rows⌋ := Int.floor_nonneg.2 (mul_nonneg hy.1 hrq.le)
  have cc : ((c : ℕ) : ℚ) = ((⌊x * cols⌋ : ℤ) : ℚ) := by
    have : ((c : ℕ) : ℤ) = ⌊x * cols⌋ := Int.toNat_of_nonneg fx
    exact_mod_cast congrArg (fun z : ℤ => (z : ℚ)) this
  have qq : ((q : ℕ) : ℚ) = ((⌊y * rows⌋ : ℤ) : ℚ) := by
    have : ((q : ℕ) : ℤ) = ⌊y * rows⌋ := Int.toNat_of_nonneg fy
    exact_mod_cast congrArg (fun z : ℤ => (z : ℚ)) this
  have c1 := Int.floor_le (x * cols)
  have c2 := Int.lt_floor_add_one (x * cols)
  have q1 := Int.floor_le (y * rows)
  have q2 := Int.lt_floor_add_one (y * rows)
  rw [← cc] at c1 c2
  rw [← qq] at q1 q2
  have hcl : c < cols := by
    have : (c : ℚ) < cols := by nlinarith
    exact_mod_cast this
  have hql : q < rows := by
    have : (q : ℚ) < rows := by nlinarith
    exact_mod_cast this
  have hsub : ((rows - 1 - q : ℕ) : ℚ) = rows - 1 - q := by
    rw [Nat.cast_sub (by omega), Nat.cast_sub (by omega)]
    simp
  refine ⟨(rows - 1 - q, c), ⟨by simp only; omega, hcl, ?_⟩, ?_⟩
  · rw [hin]
    simp only
    rw [hsub]
    exact ⟨⟨c1, c2⟩, by linarith, by linarith⟩
  · rintro ⟨r', c'⟩ ⟨h1, h2, h3⟩
    rw [hin] at h3
    obtain ⟨⟨a1, a2⟩, b1, b2⟩ := h3
    simp only at h1 h2
    have e1 : c' = c := by
      have u1 : (c' : ℚ) < c + 1 := by linarith
      have u2 : (c : ℚ) < c' + 1 := by linarith
      have u1' : c' < c + 1 := by exact_mod_cast u1
      have u2' : c < c' + 1 := by exact_mod_cast u2
      omega
    have e2 : r' = rows - 1 - q := by
      have u1 : (rows : ℚ) < r' + q + 2 := by linarith
      have u2 : (r' : ℚ) + q < rows := by linarith
      have u1' : rows < r' + q + 2 := by exact_mod_cast u1
      have u2' : r' + q < rows := by exact_mod_cast u2
      omega
    rw [e1, e2]

/-- **C260** A panel given by its left and lower edge, its width and its height is that rectangle. -/
theorem C260_place (a b w h : ℚ) : ∃ box, quickPlace (some [a, b, w, h]) none = .ok (some box) ∧
    ∀ x y, InBox box x y ↔ (0 ≤ x - a ∧ x - a < w) ∧ 0 ≤ y - b ∧ y - b < h := by
  refine ⟨_, rfl, fun x y => ?_⟩
  unfold InBox
  simp only
  constructor
  · rintro ⟨h1, h2, h3, h4⟩
    exact ⟨⟨by linarith, by linarith⟩, by linarith, by linarith⟩
  · rintro ⟨⟨h1, h2⟩, h3, h4⟩
    exact ⟨by linarith, by linarith, by linarith, by linarith⟩

/-- Calls whose axes have a place. -/
def Spec.Placed (c : QuickCall) : Prop := ∃ b, quickPlace c.multiPos c.multi = .ok b

/-- **C260** is violated: however many panels of a figure are drawn, one call after the other, every file has a single panel, that of
the call that wrote it, and no figure is left for the next one. -/
theorem C260_one_panel_each (cs : List QuickCall) (h : ∀ c ∈ cs, Placed c) :
    (∀ f ∈ (quickCalls noFigures cs).files, ∃ c ∈ cs, ∃ b, quickPlace c.multiPos c.multi = .ok b ∧ c.file = some f.1 ∧ f.2 = [b]) ∧
    (quickCalls noFigures cs).files.length = cs.countP (fun c => c.file.isSome) ∧ ∀ w, (quickCalls noFigures cs).opened w = none := by
  have : ∀ (cs : List QuickCall) (s : Figures), (∀ c ∈ cs, Placed c) → (∀ w, s.opened w = none) →
      (∀ f ∈ (quickCalls s cs).files, f ∈ s.files ∨
        ∃ c ∈ cs, ∃ b, quickPlace c.multiPos c.multi = .ok b ∧ c.file = some f.1 ∧ f.2 = [b]) ∧
      (quickCalls s cs).files.length = s.files.length + cs.countP (fun c => c.file.isSome) ∧ ∀ w, (quickCalls s cs).opened w = none := by
    intro cs
    induction cs with
    | nil => intro s _ hs; exact ⟨fun f hf => .inl hf, rfl, hs⟩
    | cons c cs ih =>
      intro s hc hs
      obtain ⟨b, hb⟩ := hc c (by simp)
      have h1 : ∀ w, (quickCall s c).1.opened w = none := by
        intro w
        simp [quickCall, hb, hs]
      obtain ⟨i1, i2, i3⟩ := ih (quickCall s c).1 (fun c' hc' => hc c' (by simp [hc'])) h1
      refine ⟨?_, ?_, i3⟩
      · intro f hf
        rcases i1 f hf with hf | ⟨c', hc', r⟩
        · cases hcf : c.file with
          | none =>
            simp only [quickCall, hb, hcf] at hf
            exact .inl hf
          | some g =>
            simp only [quickCall, hb, hcf, hs, Option.getD_none, List.nil_append] at hf
            rcases List.mem_cons.1 hf with rfl | hf
            · exact .inr ⟨c, by simp, b, hb, hcf, rfl⟩
            · exact .inl hf
        · exact .inr ⟨c', by simp [hc'], r⟩
      · simp only [quickCalls, i2, List.countP_cons]
        cases hcf : c.file <;> simp [quickCall, hb, hcf]
        omega
  obtain ⟨h1, h2, h3⟩ := this cs noFigures h (fun _ => rfl)
  refine ⟨fun f hf => ?_, by simpa [noFigures] using h2, h3⟩
  rcases h1 f hf with hf | hf
  · cases hf
  · exact hf

/-- Four panels of a two by two figure. -/
def exPanels : List QuickCall := [1, 2, 3, 4].map fun k => ⟨1, some "panels", none, some (2, 2, k)⟩

example : (∀ c ∈ exPanels, Placed c) ∧ (quickCalls noFigures exPanels).files.length = 4 := by
  refine ⟨?_, rfl⟩
  intro c hc
  simp only [exPanels, List.map_cons, List.map_nil, List.mem_cons, List.not_mem_nil, or_false] at hc
  rcases hc with rfl | rfl | rfl | rfl <;> exact ⟨_, rfl⟩

/-- **C260** is violated also by a call with a wrong place: it leaves its figure open, so that the next image in this window is drawn
over the axes of the failed one (and the figure is closed only then). -/
theorem C260_left_open (s : Figures) (c c' : QuickCall) (e : PyErr) (f : String) (b : Option Box)
    (h : quickPlace c.multiPos c.multi = .error e) (hs : s.opened c.window = none) (hw : c'.window = c.window) (hf : c'.file = some f)
    (hb : quickPlace c'.multiPos c'.multi = .ok b) :
    (quickCall s c).2 = some e ∧ (quickCalls s [c, c']).files = (f, [(posPlace c.multiPos).toOption.join, b]) :: s.files ∧
      (quickCalls s [c, c']).opened c.window = none := by
  refine ⟨?_, ?_, ?_⟩
  · simp [quickCall, h]
  · simp [quickCalls, quickCall, h, hs, hw, hf, hb]
  · simp [quickCalls, quickCall, h, hs, hw, hf, hb]

example : quickPlace (some [0, 0, 1]) none = .error .valueError ∧ quickPlace none none = .ok none := ⟨rfl, rfl⟩

/-! ## C261: coordinates -/

theorem regular_ends (start step : ℚ) (n : ℕ) : endsOf (regular start step (n + 1)) = .ok (start, start + n * step) := by
  unfold endsOf regular
  have h1 : ((List.range (n + 1)).map fun (i : ℕ) => start + (i : ℚ) * step).head? = some start := by
    rw [List.head?_map, List.head?_range]
    simp
  have h2 : ((List.range (n + 1)).map fun (i : ℕ) => start + (i : ℚ) * step).getLast? = some (start + n * step) := by
    rw [List.getLast?_map, List.getLast?_range]
    simp
  rw [h1, h2]

/-- **C261**, partial: with coordinates of equal steps, each column of pixels is drawn over its coordinate; without coordinates each pixel
is drawn over its indices. Missing: the rows (`C261_upside_down`). -/
theorem C261_columns_partial (x0 dx y0 dy : ℚ) (n m i j : ℕ) (hdx : 0 ≤ dx) (hj : j < m + 1) (xr yr : Option (ℚ × ℚ)) :
    ∃ e, quickExtent (some (regular x0 dx (m + 1))) (some (regular y0 dy (n + 1))) xr yr = .ok (some e) ∧
      (pixelBox (some e) (n + 1) (m + 1) i j).left ≤ x0 + j * dx ∧ x0 + j * dx ≤ (pixelBox (some e) (n + 1) (m + 1) i j).right := by
  refine ⟨⟨x0, x0 + m * dx, y0, y0 + n * dy⟩, ?_, ?_, ?_⟩
  · simp [quickExtent, regular_ends, bind, Except.bind, pure, Except.pure]
  · have hm : (0 : ℚ) < ((m + 1 : ℕ) : ℚ) := by exact_mod_cast Nat.succ_pos m
    have hjq : (0 : ℚ) ≤ j := Nat.cast_nonneg j
    simp only [pixelBox, Option.getD_some]
    have : (x0 + m * dx - x0) * j / ((m + 1 : ℕ) : ℚ) ≤ j * dx := by
      rw [div_le_iff₀ hm]
      push_cast
      nlinarith [mul_nonneg hjq hdx]
    linarith
  · have hm : (0 : ℚ) < ((m + 1 : ℕ) : ℚ) := by exact_mod_cast Nat.succ_pos m
    have hjm : (j : ℚ) ≤ m := by exact_mod_cast (by omega : j ≤ m)
    simp only [pixelBox, Option.getD_some]
    have : j * dx ≤ (x0 + m * dx - x0) * (j + 1) / ((m + 1 : ℕ) : ℚ) := by
      rw [le_div_iff₀ hm]
      push_cast
      nlinarith [mul_nonneg (sub_nonneg.2 hjm) hdx]
    linarith

/-- **C261**, partial: without coordinates each pixel is centred at its indices. -/
theorem C261_indices_partial (n m i j : ℕ) (hn : 0 < n) (hm : 0 < m) :
    quickExtent none none none none = .ok none ∧
    pixelBox none n m i j = ⟨j - 1 / 2, j + 1 / 2, i + 1 / 2, i - 1 / 2⟩ := by
  have hmq : (m : ℚ) ≠ 0 := by exact_mod_cast hm.ne'
  have hnq : (n : ℚ) ≠ 0 := by exact_mod_cast hn.ne'
  refine ⟨rfl, ?_⟩
  simp only [pixelBox, Option.getD_none, Box.mk.injEq]
  refine ⟨?_, ?_, ?_, ?_⟩ <;> field_simp <;> ring

/-- **C261** is violated: with coordinates, the rows are drawn upside down. Row `i` is where row `n - 1 - i` belongs: its middle is the
mirror image; the first row is not over its coordinate for two or more rows. -/
theorem C261_upside_down (x0 dx y0 dy : ℚ) (n m i j : ℕ) (hdy : 0 < dy) (hn : 0 < n) (xr yr : Option (ℚ × ℚ)) :
    ∃ e, quickExtent (some (regular x0 dx (m + 1))) (some (regular y0 dy (n + 1))) xr yr = .ok (some e) ∧
      y0 < (pixelBox (some e) (n + 1) (m + 1) 0 j).bottom ∧
      (i < n + 1 → (pixelBox (some e) (n + 1) (m + 1) i j).bottom ≤ y0 + ((n - i : ℕ) : ℚ) * dy ∧
        y0 + ((n - i : ℕ) : ℚ) * dy ≤ (pixelBox (some e) (n + 1) (m + 1) i j).top) := by
  have hnq : (0 : ℚ) < ((n + 1 : ℕ) : ℚ) := by exact_mod_cast Nat.succ_pos n
  have hn1 : (1 : ℚ) ≤ n := by exact_mod_cast hn
  refine ⟨⟨x0, x0 + m * dx, y0, y0 + n * dy⟩, ?_, ?_, fun hi => ?_⟩
  · simp [quickExtent, regular_ends, bind, Except.bind, pure, Except.pure]
  · simp only [pixelBox, Option.getD_some]
    have : (y0 + n * dy - y0) * (((0 : ℕ) : ℚ) + 1) / ((n + 1 : ℕ) : ℚ) < n * dy := by
      rw [div_lt_iff₀ hnq]
      push_cast
      nlinarith [mul_pos (by linarith : (0 : ℚ) < n) hdy]
    linarith
  · have hin : (i : ℚ) ≤ n := by exact_mod_cast (by omega : i ≤ n)
    have hi0 : (0 : ℚ) ≤ i := Nat.cast_nonneg i
    rw [Nat.cast_sub (by omega)]
    simp only [pixelBox, Option.getD_some]
    constructor
    · have : (i : ℚ) * dy ≤ (y0 + n * dy - y0) * (i + 1) / ((n + 1 : ℕ) : ℚ) := by
        rw [le_div_iff₀ hnq]
        push_cast
        nlinarith [mul_nonneg (sub_nonneg.2 hin) hdy.le]
      linarith
    · have : (y0 + n * dy - y0) * i / ((n + 1 : ℕ) : ℚ) ≤ i * dy := by
        rw [div_le_iff₀ hnq]
        push_cast
        nlinarith [mul_nonneg hi0 hdy.le]
      linarith

/-- Rows at 0, 1, 2: the first is drawn between 4/3 and 2. -/
example : quickExtent (some (regular 0 1 3)) (some (regular 0 1 3)) none none = .ok (some ⟨0, 2, 0, 2⟩) ∧
    pixelBox (some ⟨0, 2, 0, 2⟩) 3 3 0 0 = ⟨0, 2 / 3, 4 / 3, 2⟩ := by
  constructor
  · simp only [quickExtent, regular_ends 0 1 2, bind, Except.bind, pure, Except.pure]
    norm_num
  · decide +kernel

end PyFHD
