import Mathlib.Data.Rat.Floor

/-!
# What a histogram is, independently of the model
-/

namespace PyFHD.Spec

/-- `d` belongs to bin `i` of the bins of width `w` that start at `lo`, restricted to values not
above `hi`. -/
def InBin (lo w hi : ℚ) (i : ℕ) (d : ℚ) : Prop :=
  lo ≤ d ∧ d ≤ hi ∧ lo + i * w ≤ d ∧ d < lo + (i + 1) * w

instance (lo w hi : ℚ) (i : ℕ) : DecidablePred (InBin lo w hi i) := fun d => by
  unfold InBin; infer_instance

/-- `d` lies in the closed range `[lo, hi]`. -/
def InRange (lo hi d : ℚ) : Prop := lo ≤ d ∧ d ≤ hi

instance (lo hi : ℚ) : DecidablePred (InRange lo hi) := fun d => by
  unfold InRange; infer_instance

/-- Ascending list of the positions of `l` whose element satisfies `P`. -/
def positions {α : Type _} (P : α → Prop) [DecidablePred P] (l : List α) : List ℕ :=
  (List.range l.length).filter fun p => l[p]?.any fun d => decide (P d)

end PyFHD.Spec
