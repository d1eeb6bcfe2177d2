import Verif.Spec.Histogram

/-!
# Specifications for the array helpers, independent of the model
-/

namespace PyFHD.Spec

/-- Ascending positions `p` where `a1[p]` or `a2[p]` is one of `values`. -/
def matchPositions (a1 a2 values : List ℤ) : List ℕ :=
  (List.range a1.length).filter fun p =>
    (a1[p]?.any fun v => decide (v ∈ values)) || (a2[p]?.any fun v => decide (v ∈ values))

/-- Ascending list of the positions at which a run of equal elements ends. -/
def runEnds (l : List ℤ) : List ℕ :=
  (List.range l.length).filter fun i => decide (i + 1 = l.length ∨ l[i + 1]? ≠ l[i]?)

/-- `v` is a sample of `x` that stands at place `k` (counted from zero) when `x` is sorted. -/
def HasRank (x : List ℚ) (k : ℕ) (v : ℚ) : Prop :=
  v ∈ x ∧ x.countP (fun y => decide (y < v)) ≤ k ∧ k < x.countP (fun y => decide (y ≤ v))

instance (x : List ℚ) (k : ℕ) (v : ℚ) : Decidable (HasRank x k v) := by
  unfold HasRank; infer_instance

end PyFHD.Spec
