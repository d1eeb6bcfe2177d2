import Verif.Model.Basic

/-!
# Model of `visibility_degrid` and `holo_mapfn_convert`

`visibility_degrid` (gridding/visibility_degrid.py 19-376) up to the call that always raises; `holo_mapfn_convert`
(gridding/gridding_utils.py 783-865).
-/

namespace PyFHD

/-! ## Calls -/

/-- The parameters of a Python function, without `*args`, `**kwargs` and parameters given by name only. -/
structure PySig where
  required : List String
  optional : List String

/-- All parameters in order. -/
def PySig.names (s : PySig) : List String := s.required ++ s.optional

/-- Binding the arguments of a call: `nPos` arguments by position and those with the names `kws`. Python raises a `TypeError` for too many
arguments, for a name that is unknown or bound twice, and for a required parameter without argument. -/
def bindCall (s : PySig) (nPos : ℕ) (kws : List String) : Py Unit :=
  if s.names.length < nPos then .error .typeError
  else if kws.any (fun k => !s.names.contains k) then .error .typeError
  else if kws.any (fun k => (s.names.take nPos).contains k) then .error .typeError
  else if s.required.any (fun r => !(s.names.take nPos).contains r && !kws.contains r) then .error .typeError
  else .ok ()

/-- The parameters of `baseline_grid_locations` (gridding_utils.py 84-95). -/
def gridLocationsSig : PySig :=
  { required := ["obs", "psf", "params", "vis_weights", "logger"]
    optional := ["bi_use", "fi_use", "fill_model_visibilities", "interp_flag", "mask_mirror_indices"] }

/-! ## Degridding -/

/-- `visibility_degrid` (visibility_degrid.py 82-106) up to the first call. The first arguments are `psf["complex_flag"][0]`,
`obs["degrid_spectral_terms"][0]`, `psf["interpolate_kernel"][0]`, which raise if the key is missing or the value is a single number;
`rest` is what follows (visibility_degrid.py 108-376). -/
def visibilityDegrid {V : Type} (complexFlag : Py Bool) (nSpectral : Py ℕ) (interp : Py Bool) (beamPerBaseline : Bool)
    (rest : Bool → ℕ → Bool → Py V) : Py V := do
  let cf ← complexFlag
  let ns ← nSpectral
  let ip ← interp
  let ip' := if beamPerBaseline && ip then false else ip
  bindCall gridLocationsSig 4 ["fill_model_visibilities", "interp_flag"]
  rest cf ns ip'

/-! ## Holographic mapping function -/

/-- The array of a pixel: number of axes and the absolute values. -/
structure HoloEntry where
  ndim : ℕ
  mags : List ℚ

/-- `np.size(np.where(abs(temp_arr) > threshold))` (gridding_utils.py 822): an index for every axis. -/
def holoCount (threshold : ℚ) (e : HoloEntry) : ℕ := e.ndim * e.mags.countP (fun m => decide (threshold < m))

/-- One pass of the loop (gridding_utils.py 821-823): the pixel is read from `map_fn` and written to an array of `elements` rows and
`dimension` columns. A pixel without array is `None`, of which `abs` raises. -/
def holoPixel (mapFn : List (List (Option HoloEntry))) (dimension elements : ℕ) (threshold : ℚ) (xi yi : ℕ) : Py ℕ :=
  match mapFn[xi]? with
  | none => .error .indexError
  | some row =>
    match row[yi]? with
    | none => .error .indexError
    | some none => .error .typeError
    | some (some e) => if xi < elements ∧ yi < dimension then .ok (holoCount threshold e) else .error .indexError

/-- The pixels of the loops (gridding_utils.py 819-820). -/
def holoPixels (dimension elements : ℕ) : List (ℕ × ℕ) :=
  (List.range (dimension - 1)).flatMap fun xi => (List.range (elements - 1)).map fun yi => (xi, yi)

/-- `holo_mapfn_convert` (gridding_utils.py 809-865); `none` for `elements` takes `dimension`. With a pixel to use, `histogram` is called
with the tuple of `np.where`, which has no method `flatten`. What follows is not reached. -/
def holoConvert {V : Type} (mapFn : List (List (Option HoloEntry))) (dimension : ℕ) (elements : Option ℕ) (threshold : ℚ)
    (rest : List ℕ → Py V) : Py (Option V) := do
  let el := elements.getD dimension
  let counts ← (holoPixels dimension el).mapM fun p => holoPixel mapFn dimension el threshold p.1 p.2
  if counts.all (· == 0) then return none
  else do
    let data ← (.error .attributeError : Py (List ℕ))
    let v ← rest data
    return some v

end PyFHD
