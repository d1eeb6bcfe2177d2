import Verif.Model.Arrays

/-!
# Model of `filter_uv_uniform` (gridding/filters.py)

Planes are flat lists. Planes of one pixel (for which `weight_invert` returns a scalar) are not
modelled.
-/

namespace PyFHD

variable {K : Type _} [Field K]

/-- Mean of a list, `none` for an empty one (NumPy gives NaN). -/
def npMean (l : List ℚ) : Option ℚ := if l = [] then none else some (l.sum / l.length)

/-- The number of visibilities used by the filter (filters.py 62-80). `count` is the result of
`visibility_count`, called if `obs` or `params` is given (`hasObs`). (The call passes `params` as `psf`,
`weights` as `params` and `pyfhd_config` as `vis_weights`; its outcome is a parameter here.) -/
def filterCount (n : ℕ) (visCount : Option (List ℚ)) (hasObs : Bool) (count : Py (List ℚ))
    (weights : Option (List ℚ)) : Py (List ℚ) :=
  match visCount with
  | some c => .ok c
  | none =>
    if hasObs then count
    else match weights with
      | some w =>
        if w.length = n then
          match listMax? w with
          | none => .error .valueError
          | some m =>
            if m = 0 then .ok w
            else match listMin? ((w.filter fun x => 0 < x).map fun x => |x|) with
              | none => .error .valueError
              | some lo => .ok (w.map fun x => |x| / lo)
        else .error .typeError
      | none => .error .typeError

/-- The pixels used to normalise the filter (filters.py 85-88): their filter values. -/
def filterSelected (n : ℕ) (weights : Option (List ℚ)) (filt : List ℚ) : List ℚ :=
  let nz := (filt.zip filt).filter fun p => p.1 ≠ 0
  match weights with
  | some w => if w.length = n then ((w.zip filt).filter fun p => p.1 ≠ 0).map (·.2) else nz.map (·.2)
  | none => nz.map (·.2)

/-- `filter_uv_uniform` (filters.py 8-96); `none` when the division by the mean (90-93) does not give
finite numbers. -/
def filterUvUniform (image : List K) (visCount : Option (List ℚ)) (hasObs : Bool)
    (count : Py (List ℚ)) (weights : Option (List ℚ)) : Py (Option (List K × List ℚ)) := do
  let c ← filterCount image.length visCount hasObs count weights
  let filt := c.map (weightInvertEntry (fun x : ℚ => |x|) id false (some 1) false)
  let sel := filterSelected image.length weights filt
  let mean := if sel.length > 0 then npMean sel else npMean filt
  match mean with
  | none => return none
  | some m =>
    if m = 0 then return none
    else
      let f := filt.map (· / m)
      return some (List.zipWith (fun v (w : ℚ) => v * (w : K)) image f, f)

end PyFHD
