import Verif.Model.Basic

/-!
# Model of where `quick_image` draws (plotting/image.py 218-296)

The pixels of the image in the coordinates of the axes, the place of the axes in the figure, and the figures that are open between
calls. Numbers are rational. Colours are in `Model/ColorScale`.
-/

namespace PyFHD

/-- A rectangle: left, right, bottom, top. -/
structure Box where
  left : ℚ
  right : ℚ
  bottom : ℚ
  top : ℚ
  deriving DecidableEq, Repr

/-- First and last element (`v[0]`, `v[-1]`). -/
def endsOf (v : List ℚ) : Py (ℚ × ℚ) := match v.head?, v.getLast? with
  | some a, some b => .ok (a, b)
  | _, _ => .error .indexError

/-- `extent` (image.py 222-227). `xrange` and `yrange` are pairs. -/
def quickExtent (xvals yvals : Option (List ℚ)) (xrange yrange : Option (ℚ × ℚ)) : Py (Option Box) :=
  match xvals, yvals with
  | some xs, some ys => do
    let x ← endsOf xs
    let y ← endsOf ys
    pure (some ⟨x.1, x.2, y.1, y.2⟩)
  | _, _ => match xrange, yrange with
    | some x, some y => pure (some ⟨x.1, x.2, y.1, y.2⟩)
    | _, _ => pure none

/-- Where `ax.imshow` (image.py 229-237) draws the pixel of row `i` and column `j` of an image of `n` rows and `m` columns. The origin
is the default of matplotlib, `upper`: the first row is at the top of the extent. Without extent the pixels have centres at their
indices, with the vertical axis pointing down. -/
def pixelBox (extent : Option Box) (n m i j : ℕ) : Box :=
  let e : Box := extent.getD ⟨-1 / 2, (m : ℚ) - 1 / 2, (n : ℚ) - 1 / 2, -1 / 2⟩
  { left := e.left + (e.right - e.left) * j / m, right := e.left + (e.right - e.left) * (j + 1) / m,
    bottom := e.top - (e.top - e.bottom) * (i + 1) / n, top := e.top - (e.top - e.bottom) * i / n }

/-- The place given by `multi_pos`, a left and lower edge, a width and a height (image.py 266-271). -/
def posPlace : Option (List ℚ) → Py (Option Box)
  | none => .ok none
  | some [a, b, w, h] => .ok (some ⟨a, a + w, b, b + h⟩)
  | some _ => .error .valueError

/-- The place of the axes in the figure: `multi_pos` first, then `start_multi_params` (rows, columns and index from
one), or where `plt.subplots` put them (`none`). (image.py 265-288). -/
def quickPlace (multiPos : Option (List ℚ)) (multi : Option (ℕ × ℕ × ℤ)) : Py (Option Box) := do
  let first ← posPlace multiPos
  match multi with
  | none => pure first
  | some (rows, cols, index) =>
    if rows = 0 ∨ cols = 0 then .error .zeroDivision
    else
      let k := index - 1
      let left : ℚ := ((k % (cols : ℤ) : ℤ) : ℚ) / cols
      let bottom : ℚ := 1 - (((k / (cols : ℤ) : ℤ) : ℚ) + 1) / rows
      pure (some ⟨left, left + 1 / cols, bottom, bottom + 1 / rows⟩)

/-- A call as far as figures matter: the number of the window, the file that is written if any, and the place of the axes. -/
structure QuickCall where
  window : ℕ
  file : Option String
  multiPos : Option (List ℚ)
  multi : Option (ℕ × ℕ × ℤ)

/-- The axes in each open figure, and the axes in each file written so far, the latest first. -/
structure Figures where
  opened : ℕ → Option (List (Option Box))
  files : List (String × List (Option Box))

/-- No figure and no file. -/
def noFigures : Figures := ⟨fun _ => none, []⟩

/-- One call (image.py 219, 265-296): axes are added to the figure of the window, which is made if it is not open; the figure is saved,
or shown, and closed. If the place of the axes is wrong the call raises and the figure stays open, with axes where they were put before. An
empty list of coordinates, which raises before, is left out. -/
def quickCall (s : Figures) (c : QuickCall) : Figures × Option PyErr :=
  let old := (s.opened c.window).getD []
  match quickPlace c.multiPos c.multi with
  | .error e => (⟨fun w => if w = c.window then some (old ++ [((posPlace c.multiPos).toOption).join]) else s.opened w, s.files⟩, some e)
  | .ok place =>
    (⟨fun w => if w = c.window then none else s.opened w,
      match c.file with
      | some f => (f, old ++ [place]) :: s.files
      | none => s.files⟩, none)

/-- Several calls one after the other, each in a `try`. -/
def quickCalls : Figures → List QuickCall → Figures
  | s, [] => s
  | s, c :: cs => quickCalls (quickCall s c).1 cs

end PyFHD
