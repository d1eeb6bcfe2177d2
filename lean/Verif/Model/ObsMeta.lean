import Verif.Model.Basic
import Mathlib.Data.List.Sort
import Mathlib.Analysis.Real.Sqrt
import Mathlib.Analysis.SpecialFunctions.Trigonometric.Basic

/-!
# Model of the rest of obs.py and of `create_layout` (uvfits.py)

The metadata of an observation: flags and names of tiles, baseline limits, phase centre, the antenna table, and the changes made for
another grid. Positions on the sky (astropy) are not part of it.
-/

namespace PyFHD

/-! ## The metafits file -/

/-- One row of the table of a metafits file: an input of the receiver, that is an antenna and a polarisation. -/
structure MetaRow where
  antenna : ℕ
  pol : String
  tile : String
  height : ℚ
  flag : ℕ
  deriving DecidableEq

/-- The entries of the header that are used. -/
structure MetaHdr where
  ra : ℚ
  dec : ℚ
  raPhase : ℚ
  decPhase : ℚ
  intTime : ℚ
  delays : String

/-- What `read_metafits` returns, except for positions computed by astropy. -/
structure ObsMeta where
  tileNames : List String
  tileHeight : List ℚ
  tileFlag : List ℕ
  obsra : ℚ
  obsdec : ℚ
  phasera : ℚ
  phasedec : ℚ
  origPhasera : ℚ
  origPhasedec : ℚ
  timeRes : ℚ
  delays : Option (List String)

/-- The rows of the first polarisation, ordered by antenna with a stable sort (obs.py 315-318). -/
def metaRows (rows : List MetaRow) : Py (List MetaRow) :=
  let s := rows.insertionSort fun a b => a.antenna ≤ b.antenna
  match s with
  | [] => .error .indexError
  | r :: _ => .ok (s.filter fun q => q.pol = r.pol)

/-- `read_metafits` (obs.py 300-412) for the file found, `none` if there is none. Without a file the names `hdr` and `data` have no
value when they are used at the end (lines 402 and 410), so that whatever was computed before is lost. `exit()` ends the program. -/
def readMetafits (file : Option (MetaHdr × List MetaRow)) (alt : ℚ) (simulation : Bool) (overrideRa overrideDec : Option ℚ) : Py ObsMeta :=
  match file with
  | none => .error .nameError
  | some (h, rows) => do
    let use ← metaRows rows
    let flags : List ℕ := use.map fun r => r.flag
    if ((flags.sum : ℕ) : ℤ) = (flags.length : ℤ) - 1 ∧ simulation = false then .error .systemExit
    else
      .ok { tileNames := use.map (·.tile), tileHeight := use.map fun r => r.height - alt, tileFlag := flags, obsra := h.ra, obsdec := h.dec,
            phasera := h.raPhase, phasedec := h.decPhase, origPhasera := overrideRa.getD h.raPhase,
            origPhasedec := overrideDec.getD h.decPhase, timeRes := h.intTime, delays := some (h.delays.splitOn ",") }

/-- `tile_use` and `n_tile_flag` of `create_obs` (obs.py 230-232). -/
def tileUse (m : ObsMeta) : List ℤ × ℕ :=
  let use : List ℤ := m.tileFlag.map fun f : ℕ => (1 : ℤ) - (f : ℤ)
  (use, (use.filter (· = 0)).length)

/-! ## Antenna numbers -/

/-- The choice between the antenna numbers and the baseline codes (obs.py 96-124), up to the start of the renumbering loop. `codes` is
`params["baseline_arr"]`, which exists only if the file has no antenna numbers, `mod` the modulus found from the smallest code. The
number of tiles taken from the codes is a floating point number, with which the loop of line 139 cannot run. -/
def antennaNumbers (a b : List ℕ) (codes : Option (List ℕ)) (mod nTile : ℕ) : Py (List ℕ × List ℕ) :=
  match a.max?, b.max? with
  | some ma, some mb =>
    if 0 < ma ∧ 0 < mb then .ok (a, b)
    else match codes with
      | none => .error .keyError
      | some c =>
        let t := c.map fun x => x / mod
        if t.max? = some nTile then .ok (t, t) else .error .typeError
  | _, _ => .error .valueError

/-! ## Baseline limits -/

/-- The coordinates of all visibilities (obs.py 159-160), in wavelengths. -/
def uvPoints (freq : List ℝ) (uv : List (ℝ × ℝ)) : List (ℝ × ℝ) := freq.flatMap fun f => uv.map fun p => (f * p.1, f * p.2)

/-- The length of a visibility (obs.py 161). -/
noncomputable def uvLength (p : ℝ × ℝ) : ℝ := √(p.1 ^ 2 + p.2 ^ 2)

/-- `np.max`. -/
noncomputable def npMaxR : List ℝ → Py ℝ
  | [] => .error .valueError
  | x :: xs => .ok (xs.foldl max x)

/-- `np.min`. -/
noncomputable def npMinR : List ℝ → Py ℝ
  | [] => .error .valueError
  | x :: xs => .ok (xs.foldl min x)

open Classical in
/-- `obs["max_baseline"]` (obs.py 193-197). -/
noncomputable def maxBaselineOf (kpix : ℝ) (dimension elements : ℕ) (pts : List (ℝ × ℝ)) : Py ℝ :=
  npMaxR ((pts.filter fun p => decide (|p.1| / kpix < dimension / 2 ∧ |p.2| / kpix < elements / 2)).map fun p => |uvLength p|)

open Classical in
/-- `obs["min_baseline"]` (obs.py 198-203). -/
noncomputable def minBaselineOf (opt : Option ℝ) (pts : List (ℝ × ℝ)) : Py ℝ := do
  let m ← npMinR ((pts.map uvLength).filter fun l => decide (l ≠ 0))
  match opt with
  | none => .ok m
  | some o => .ok (max o m)

/-! ## Another grid -/

/-- The part of an observation that describes its grid. -/
structure ObsGrid where
  dimension : ℝ
  elements : ℝ
  obsx : ℝ
  obsy : ℝ
  kpix : ℝ
  degpix : ℝ
  maxBaseline : ℝ
  naxis : ℝ × ℝ
  cdelt : ℝ × ℝ
  crpix : ℝ × ℝ

/-- `update_obs` (obs.py 532-543) without the bins of frequencies (`updateFbin`). -/
noncomputable def updateGrid (o : ObsGrid) (dimension : ℕ) (kbinsize : ℝ) (fov : Option ℝ) : ObsGrid :=
  let kpix := match fov with
    | none => kbinsize
    | some f => 180 / Real.pi / f
  let degpix := 180 / Real.pi / (kpix * dimension)
  { dimension := dimension, elements := dimension, obsx := dimension / 2, obsy := dimension / 2, kpix := kpix, degpix := degpix,
    maxBaseline := min o.maxBaseline (dimension * kpix / √2), naxis := (dimension, dimension), cdelt := (degpix, degpix),
    crpix := (dimension / 2 + 1, dimension / 2 + 1) }

/-- The grid of `create_obs` (obs.py 188-197), `read_metafits` (obs.py 306-307) and `project_slant_orthographic` (obs.py 456-459) for
a square grid. -/
noncomputable def createGrid (dimension : ℕ) (kpix maxBaseline : ℝ) : ObsGrid :=
  let degpix := 180 / Real.pi / (kpix * dimension)
  { dimension := dimension, elements := dimension, obsx := (dimension / 2 : ℕ), obsy := (dimension / 2 : ℕ), kpix := kpix,
    degpix := degpix, maxBaseline := maxBaseline, naxis := (dimension, dimension), cdelt := (degpix, degpix),
    crpix := ((dimension / 2 : ℕ) + 1, (dimension / 2 : ℕ) + 1) }

/-! ## The antenna table -/

/-- A value of a header or of a table. -/
inductive FitsVal where
  | num (x : ℚ)
  | str (s : String)
  | nums (l : List ℚ)
  | strs (l : List String)
  deriving DecidableEq

/-- `try: layout[key] = file[name]`, `except KeyError: layout[key] = default`. -/
def fitsOr (file : String → Option FitsVal) (name : String) (dflt : FitsVal) : FitsVal := (file name).getD dflt

/-- The layout of the antennas as an association list of keys and values. -/
abbrev Layout := List (String × FitsVal)

/-- `layout[key]`. -/
def layoutGet (l : Layout) (key : String) : Option FitsVal := (List.find? (fun e => e.1 = key) l).map fun e => e.2

/-- The first lines of `create_layout` (uvfits.py 408-521), which read the header `h`. The entry `nleap_sec` is left out if the file
has none and its time system is not IAT. Time systems are taken to have no surrounding blanks. -/
def layoutHeader (h : String → Option FitsVal) : Layout :=
  let centre : FitsVal := match h "arrayx", h "arrayy", h "arrayz" with
    | some (.num x), some (.num y), some (.num z) => .nums [x, y, z]
    | _, _, _ => .nums [-2559454.07880307, 5095372.14368305, -2849057.18534633]
  let timeSystem := (h "timesys").getD (fitsOr h "timsys" (.str "UTC"))
  let diffUtc := fitsOr h "datutc" (.num 0)
  let leap : Layout := match h "iautc" with
    | some v => [("nleap_sec", v)]
    | none => if timeSystem = .str "IAT" then [("nleap_sec", diffUtc)] else []
  [("array_center", centre), ("coordinate_frame", fitsOr h "frame" (.str "IRTF")), ("gst0", fitsOr h "gstia0" (.num (-1))),
    ("earth_degpd", fitsOr h "degpdy" (.num 360.985)), ("refdate", fitsOr h "rdate" (.num (-1))), ("time_system", timeSystem),
    ("dut1", fitsOr h "ut1utc" (.num 0)), ("diff_utc", diffUtc)] ++ leap ++
  [("pol_type", fitsOr h "poltype" (.str "X-Y LIN")), ("n_pol_cal_params", fitsOr h "nopcal" (.num 0)),
    ("n_antenna", fitsOr h "naxis2" (.num 128))]

/-- A constant array becomes one number (uvfits.py 363-367), as for entries checked with `check_min_max`. -/
def collapse : FitsVal → Py FitsVal
  | .nums [] => .error .valueError
  | .nums (x :: xs) => .ok (if xs.all (· = x) then .num x else .nums (x :: xs))
  | v => .ok v

/-- `create_layout` (uvfits.py 408-639) for the header `h` and the columns `t` of the antenna table. `n` is the number of antennas, an
integer in the header. Without antenna numbers the code calls a method `warning` of the dictionary (line 535). The entries
`polcala`, `polcalb`, `diameter` and `beamfwhm`, and the messages about sizes, are left out; so is the file written at the end. -/
def createLayout (h t : String → Option FitsVal) (n : ℕ) : Py Layout :=
  match t "nosta" with
  | none => .error .attributeError
  | some numbers => do
    let mount ← collapse (fitsOr t "mntsta" (.num 0))
    let axis ← collapse (fitsOr t "staxof" (.num 0))
    let polaO ← collapse (fitsOr t "polaa" (.num 0))
    let polbO ← collapse (fitsOr t "polab" (.num 90))
    .ok (layoutHeader h ++
      [("antenna_names", fitsOr t "anname" (.strs ((List.range n).map toString))), ("antenna_numbers", numbers),
        ("antenna_coords", fitsOr t "stabxyz" (.nums (List.replicate (n * 3) 0))), ("mount_type", mount), ("axis_offset", axis),
        ("pola", fitsOr t "poltya" (.str "X")), ("pola_orientation", polaO), ("polb", fitsOr t "poltyb" (.str "Y")),
        ("polb_orientation", polbO)])

end PyFHD
