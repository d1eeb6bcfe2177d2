import Verif.Model.DataSetup

/-!
# Model of the header and the group parameters of a uvfits file (data_setup/uvfits.py 50-205, 249-283)
-/

namespace PyFHD

/-- One group parameter of the file: its name (`PTYPE`, stripped), its scale and zero (`PSCAL`, `PZERO`) and what is stored for every
visibility. -/
structure GroupCol where
  name : String
  scale : ℚ
  zero : ℚ
  raw : List ℚ
  deriving DecidableEq

/-- A column as astropy gives it, scaled. -/
def GroupCol.values (c : GroupCol) : List ℚ := c.raw.map fun r => r * c.scale + c.zero

/-- `params_data[name]`: astropy gives the first parameter of this name; a further one is renamed with an underscore. -/
def uvField (cols : List GroupCol) (name : String) : Option (List ℚ) :=
  (cols.find? fun c => c.name == name).map GroupCol.values

/-- The dictionary returned by `create_params`. -/
structure GroupParams where
  uu : List ℚ
  vv : List ℚ
  ww : List ℚ
  time : List ℚ
  antenna1 : List ℚ
  antenna2 : List ℚ
  deriving DecidableEq

/-- The two antennas of every visibility (uvfits.py 258-275); `none` if a column is missing. Codes of baselines are whole
numbers. -/
def uvAntennas (cols : List GroupCol) (ant : Bool) : Option (Py (List ℚ × List ℚ)) :=
  if ant then
    match uvField cols "ANTENNA1", uvField cols "ANTENNA2" with
    | some a, some b => some (.ok (a, b))
    | _, _ => none
  else
    (uvField cols "BASELINE").map fun codes =>
      (decodeBaselines (codes.map fun q => ⌊q⌋.toNat)).map fun l => (l.map fun p => (p.1 : ℚ), l.map fun p => (p.2 : ℚ))

/-- `create_params` (uvfits.py 249-283); `ant` is `ant1_i and ant2_i`. A missing column ends the program. -/
def createParams (cols : List GroupCol) (ant : Bool) : Py GroupParams :=
  match uvField cols "UU", uvField cols "VV", uvField cols "WW", uvField cols "DATE", uvAntennas cols ant with
  | some u, some v, some w, some t, some r => r.map fun ab => ⟨u, v, w, t, ab.1, ab.2⟩
  | _, _, _, _, _ => .error .systemExit

/-- The cards of the header that are read with a substitute (uvfits.py 79-86, 91-101, 117-128), and the zeros of the group
parameters. -/
structure UvCards where
  dateObs : Option String
  dateobs : Option String
  obsra : Option ℚ
  ra : Option ℚ
  obsdec : Option ℚ
  dec : Option ℚ
  lon : Option ℚ
  lat : Option ℚ
  alt : Option ℚ

/-- A place on Earth: longitude, latitude, height. -/
structure Site where
  lon : ℚ
  lat : ℚ
  alt : ℚ
  deriving DecidableEq

/-- The entries of the header dictionary that come from these cards. -/
structure UvPlace where
  obsra : ℚ
  obsdec : ℚ
  site : Site
  jd0 : ℚ
  dateobs : String
  deriving DecidableEq

/-- `params_header[key]` with a second key when the first is missing. -/
def cardOr {α : Type} (a b : Option α) : Py α :=
  match a, b with
  | some x, _ => .ok x
  | none, some y => .ok y
  | none, none => .error .keyError

/-- `jd0` (uvfits.py 190-203), where `bzero` of a column is its zero. -/
def uvJd0 (cols : List GroupCol) : Py ℚ :=
  match cols.find? fun c => c.name == "DATE" with
  | none => .error .valueError
  | some c =>
    if 1 < cols.countP (fun c => c.name == "DATE") then
      match c.values with
      | [] => .error .indexError
      | v :: _ => .ok (c.zero + v - c.zero)
    else .ok c.zero

/-- `extract_header` (uvfits.py 50-213) apart from the numbers copied from the header and the frequencies. `sites` are the places
known to astropy and `fits` writes a date. For an unknown instrument `EarthLocation("mwa")` is called, which raises a `TypeError`
as it wants coordinates. -/
def uvHeader (sites : String → Option Site) (fits : ℚ → String) (instrument : String) (h : UvCards) (cols : List GroupCol) :
    Py UvPlace := do
  let _ ← cardOr h.dateObs h.dateobs
  let ra ← cardOr h.obsra h.ra
  let dec ← cardOr h.obsdec h.dec
  match sites instrument with
  | none => .error .typeError
  | some s => do
    validateParams (cols.map GroupCol.name)
    let jd ← uvJd0 cols
    return ⟨ra, dec, ⟨h.lon.getD s.lon, h.lat.getD s.lat, h.alt.getD s.alt⟩, jd, fits jd⟩

end PyFHD
