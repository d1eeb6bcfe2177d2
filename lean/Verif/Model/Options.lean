import Mathlib.Data.Rat.Defs
import Mathlib.Algebra.Order.Ring.Rat
import Verif.Model.Setup

/-!
# Model of the options: `pyfhd_parser` (pyfhd_tools/pyfhd_setup.py 15-1010)

The table of options is taken over from the code. How argparse and configargparse use such a table is modelled here, it
is not code of the repository: options are given by their full names, abbreviations and joined short
names are left out, as are the positional argument `obs_id` and `--version` (110-116), which stores nothing.
-/

namespace PyFHD

/-- The value of an option in the configuration. Numbers of type int and float are not told apart; texts stand for
strings and paths. -/
inductive OptVal
  | none
  | bool (b : Bool)
  | num (q : ℚ)
  | text (s : List Char)
  | list (l : List (List Char))
  | lists (l : List (List (List Char)))
  deriving DecidableEq

/-- What an option does with its arguments: `action="store_true"`; a string or path; `type=int`; `type=float`; choices
among texts or numbers; `type=list`, which takes a text apart into its characters; `type=list` with
`action="append"`; `nargs="*"`. -/
inductive OptKind
  | switch
  | text
  | int
  | float
  | oneOf (l : List String)
  | oneOfInts (l : List ℤ)
  | chars
  | append
  | many
  deriving DecidableEq

/-- One call of `add_argument`: the names, the key in the configuration (the first long name without the leading dashes,
other dashes replaced by underscores), what it does, and its default. -/
structure OptDecl where
  names : List String
  dest : String
  kind : OptKind
  default : OptVal

/-- The choices of `image_filter` and `deconvolution_filter` (pyfhd_setup.py 614-621, 691-698). -/
def filterNames : List String :=
  ["filter_uv_uniform", "filter_uv_hanning", "filter_uv_natural", "filter_uv_radial",
    "filter_uv_tapered_uniform", "filter_uv_optimal"]

/-- The options (pyfhd_setup.py 33-38, 117-1008), in the order of the code. -/
def optionTable : List OptDecl :=
  [⟨["-c", "--config"], "config", .text, .text "./pyfhd.yaml".toList⟩,
  ⟨["-i", "--input-path"], "input_path", .text, .text "./input/".toList⟩,
  ⟨["-r", "--recalculate-all"], "recalculate_all", .switch, .bool false⟩,
  ⟨["-s", "--silent"], "silent", .switch, .bool false⟩,
  ⟨["-l", "--log-file"], "log_file", .switch, .bool false⟩,
  ⟨["--instrument"], "instrument", .oneOf ["mwa"], .text "mwa".toList⟩,
  ⟨["--dimension"], "dimension", .int, .num 2048⟩,
  ⟨["--elements"], "elements", .int, .num 2048⟩,
  ⟨["--kbinsize"], "kbinsize", .float, .num (1 / 2)⟩,
  ⟨["--FoV", "--fov"], "FoV", .float, .none⟩,
  ⟨["--deproject_w_term"], "deproject_w_term", .float, .none⟩,
  ⟨["--conserve-memory"], "conserve_memory", .switch, .bool false⟩,
  ⟨["--memory-threshold"], "memory_threshold", .int, .num 100000000⟩,
  ⟨["--min-baseline"], "min_baseline", .float, .num 1⟩,
  ⟨["--n-pol"], "n_pol", .oneOfInts [0, 2, 4], .num 2⟩,
  ⟨["--save-checkpoints"], "save_checkpoints", .switch, .bool false⟩,
  ⟨["--obs-checkpoint"], "obs_checkpoint", .text, .none⟩,
  ⟨["--calibrate-checkpoint"], "calibrate_checkpoint", .text, .none⟩,
  ⟨["--gridding-checkpoint"], "gridding_checkpoint", .text, .none⟩,
  ⟨["--override-target-phasera"], "override_target_phasera", .float, .none⟩,
  ⟨["--override-target-phasedec"], "override_target_phasedec", .float, .none⟩,
  ⟨["-cv", "--calibrate-visibilities"], "calibrate_visibilities", .switch, .bool false⟩,
  ⟨["--diffuse-calibrate"], "diffuse_calibrate", .text, .none⟩,
  ⟨["--transfer-calibration"], "transfer_calibration", .text, .none⟩,
  ⟨["--calibration_catalog-file-path"], "calibration_catalog_file_path", .text, .none⟩,
  ⟨["--return-cal-visibilities"], "return_cal_visibilities", .switch, .bool false⟩,
  ⟨["--cal-stop"], "cal_stop", .switch, .bool false⟩,
  ⟨["--transfer-model-uv"], "transfer_model_uv", .text, .none⟩,
  ⟨["--cal-convergence-threshold"], "cal_convergence_threshold", .float, .num (1 / 10000000)⟩,
  ⟨["--cal-adaptive-calibration-gain"], "cal_adaptive_calibration_gain", .switch, .bool false⟩,
  ⟨["--cal-base-gain"], "cal_base_gain", .float, .none⟩,
  ⟨["--min-cal-baseline"], "min_cal_baseline", .float, .num 50⟩,
  ⟨["--max-cal-baseline"], "max_cal_baseline", .float, .none⟩,
  ⟨["--allow-sidelobe-cal-sources"], "allow_sidelobe_cal_sources", .switch, .bool false⟩,
  ⟨["--cable-bandpass-fit"], "cable_bandpass_fit", .switch, .bool false⟩,
  ⟨["--cal-bp-transfer"], "cal_bp_transfer", .text, .none⟩,
  ⟨["--calibration-polyfit"], "calibration_polyfit", .switch, .bool false⟩,
  ⟨["--cal-amp-degree-fit"], "cal_amp_degree_fit", .int, .num 2⟩,
  ⟨["--cal-phase-degree-fit"], "cal_phase_degree_fit", .int, .num 1⟩,
  ⟨["--cal-reflection-hyperresolve"], "cal_reflection_hyperresolve", .switch, .bool false⟩,
  ⟨["--cal-reflection-mode-theory"], "cal_reflection_mode_theory", .float, .num 150⟩,
  ⟨["--cal-reflection-mode-delay"], "cal_reflection_mode_delay", .switch, .bool false⟩,
  ⟨["--cal-reflection-mode-file"], "cal_reflection_mode_file", .switch, .bool false⟩,
  ⟨["--calibration-auto-fit"], "calibration_auto_fit", .switch, .bool false⟩,
  ⟨["--calibration-auto-initialize"], "calibration_auto_initialize", .switch, .bool false⟩,
  ⟨["--cal-gain-init"], "cal_gain_init", .int, .num 1⟩,
  ⟨["--vis-baseline-hist"], "vis_baseline_hist", .switch, .bool false⟩,
  ⟨["--bandpass-calibrate"], "bandpass_calibrate", .switch, .bool false⟩,
  ⟨["--cal-time-average"], "cal_time_average", .switch, .bool false⟩,
  ⟨["--auto-ratio-calibration"], "auto_ratio_calibration", .switch, .bool false⟩,
  ⟨["--digital-gain-jump-polyfit"], "digital_gain_jump_polyfit", .switch, .bool false⟩,
  ⟨["--calibration-flag-iterate"], "calibration_flag_iterate", .int, .num 0⟩,
  ⟨["--cal-phase-fit-iter"], "cal_phase_fit_iter", .int, .num 4⟩,
  ⟨["--max-cal-iter"], "max_cal_iter", .int, .num 100⟩,
  ⟨["-fm", "--flag-model"], "flag_model", .switch, .bool false⟩,
  ⟨["-fv", "--flag-visibilities"], "flag_visibilities", .switch, .bool false⟩,
  ⟨["-fc", "--flag-calibration"], "flag_calibration", .switch, .bool false⟩,
  ⟨["-fcf", "--flag-calibration-frequencies"], "flag_calibration_frequencies", .switch, .bool false⟩,
  ⟨["-fb", "--flag-basic"], "flag_basic", .switch, .bool false⟩,
  ⟨["-ft", "--flag-tiles"], "flag_tiles", .append, .lists []⟩,
  ⟨["-ff", "--flag-frequencies"], "flag_frequencies", .switch, .bool false⟩,
  ⟨["--flag-freq-start"], "flag_freq_start", .float, .none⟩,
  ⟨["--flag-freq-end"], "flag_freq_end", .float, .none⟩,
  ⟨["--transfer-weights"], "transfer_weights", .text, .none⟩,
  ⟨["--time-cut"], "time_cut", .chars, .none⟩,
  ⟨["-b", "--beam-file-path"], "beam_file_path", .text, .none⟩,
  ⟨["-ll", "--lazy-load-beam"], "lazy_load_beam", .switch, .bool false⟩,
  ⟨["--recalculate-beam"], "recalculate_beam", .switch, .bool false⟩,
  ⟨["--beam-nfreq-avg"], "beam_nfreq_avg", .int, .num 16⟩,
  ⟨["--psf-dim"], "psf_dim", .int, .num 54⟩,
  ⟨["--psf-resolution"], "psf_resolution", .int, .num 100⟩,
  ⟨["--beam-mask-threshold"], "beam_mask_threshold", .int, .num 100⟩,
  ⟨["--beam-model-version"], "beam_model_version", .int, .num 2⟩,
  ⟨["--beam-clip-floor"], "beam_clip_floor", .switch, .bool false⟩,
  ⟨["--interpolate-kernel"], "interpolate_kernel", .switch, .bool false⟩,
  ⟨["--beam-per-baseline"], "beam_per_baseline", .switch, .bool false⟩,
  ⟨["--dipole-mutual-coupling-factor"], "dipole_mutual_coupling_factor", .switch, .bool false⟩,
  ⟨["--beam-offset-time"], "beam_offset_time", .float, .num 56⟩,
  ⟨["-g", "--recalculate-grid"], "recalculate_grid", .switch, .bool false⟩,
  ⟨["--image-filter"], "image_filter", .oneOf filterNames, .text "filter_uv_uniform".toList⟩,
  ⟨["--mask-mirror-indices"], "mask_mirror_indices", .switch, .bool false⟩,
  ⟨["--grid-weights"], "grid_weights", .switch, .bool false⟩,
  ⟨["--grid-variance"], "grid_variance", .switch, .bool false⟩,
  ⟨["--grid-uniform"], "grid_uniform", .switch, .bool false⟩,
  ⟨["--grid-spectral"], "grid_spectral", .switch, .bool false⟩,
  ⟨["--grid_psf_file"], "grid_psf_file", .many, .list []⟩,
  ⟨["-d", "--deconvolve"], "deconvolve", .switch, .bool false⟩,
  ⟨["--max-deconvolution-components"], "max_deconvolution_components", .int, .num 20000⟩,
  ⟨["--dft-threshold"], "dft_threshold", .switch, .bool false⟩,
  ⟨["--return-decon-visibilities"], "return_decon_visibilities", .switch, .bool false⟩,
  ⟨["--deconvolution-filter"], "deconvolution_filter", .oneOf filterNames, .text "filter_uv_uniform".toList⟩,
  ⟨["--smooth-width"], "smooth_width", .int, .num 32⟩,
  ⟨["--filter-background"], "filter_background", .switch, .bool false⟩,
  ⟨["-o", "--output-path"], "output_path", .text, .text "./output/".toList⟩,
  ⟨["--description"], "description", .text, .none⟩,
  ⟨["--export-images"], "export_images", .switch, .bool true⟩,
  ⟨["--cleanup"], "cleanup", .switch, .bool false⟩,
  ⟨["--snapshot-healpix-export"], "snapshot_healpix_export", .switch, .bool false⟩,
  ⟨["--pad-uv-image"], "pad_uv_image", .float, .num 1⟩,
  ⟨["--ring-radius-multi"], "ring_radius_multi", .float, .num 10⟩,
  ⟨["--save-obs"], "save_obs", .switch, .bool false⟩,
  ⟨["--save-params"], "save_params", .switch, .bool false⟩,
  ⟨["--save-cal"], "save_cal", .switch, .bool false⟩,
  ⟨["--save-visibilities"], "save_visibilities", .switch, .bool false⟩,
  ⟨["--save-weights"], "save_weights", .switch, .bool false⟩,
  ⟨["--save-healpix-fits"], "save_healpix_fits", .switch, .bool false⟩,
  ⟨["--calibration-plots"], "calibration_plots", .switch, .bool false⟩,
  ⟨["-m", "--model-file-type"], "model_file_type", .oneOf ["sav", "uvfits"], .text "sav".toList⟩,
  ⟨["--model-file-path"], "model_file_path", .text, .text "./input".toList⟩,
  ⟨["--diffuse-model"], "diffuse_model", .text, .none⟩,
  ⟨["--model-catalog-file-path"], "model_catalog_file_path", .text, .none⟩,
  ⟨["--allow-sidelobe-model-sources"], "allow_sidelobe_model_sources", .switch, .bool false⟩,
  ⟨["-sim", "--run-simulation"], "run_simulation", .switch, .bool false⟩,
  ⟨["--in-situ-sim-input"], "in_situ_sim_input", .text, .none⟩,
  ⟨["--eor-vis-filepath"], "eor_vis_filepath", .text, .none⟩,
  ⟨["--enhance-eor"], "enhance_eor", .float, .num 1⟩,
  ⟨["--sim-noise"], "sim_noise", .text, .none⟩,
  ⟨["--tile-flag-list"], "tile_flag_list", .chars, .none⟩,
  ⟨["--remove-sim-flags"], "remove_sim_flags", .switch, .bool false⟩,
  ⟨["--extra-vis-filepath"], "extra_vis_filepath", .text, .none⟩,
  ⟨["--ps-kbinsize"], "ps_kbinsize", .float, .num (1 / 2)⟩,
  ⟨["--ps-kspan"], "ps_kspan", .int, .num 0⟩,
  ⟨["--ps-beam-threshold"], "ps_beam_threshold", .float, .num 0⟩,
  ⟨["--ps-fov"], "ps_fov", .float, .none⟩,
  ⟨["--ps-dimension"], "ps_dimension", .int, .none⟩,
  ⟨["--ps-degpix"], "ps_degpix", .float, .none⟩,
  ⟨["--ps-nfreq-avg"], "ps_nfreq_avg", .float, .none⟩,
  ⟨["--ps-tile-flag-list"], "ps_tile_flag_list", .append, .lists []⟩,
  ⟨["--n-avg"], "n_avg", .int, .num 2⟩,
  ⟨["--rephase-weights"], "rephase_weights", .switch, .bool false⟩,
  ⟨["--restrict-healpix-inds"], "restrict_healpix_inds", .switch, .bool false⟩,
  ⟨["--healpix-inds"], "healpix_inds", .text, .none⟩,
  ⟨["--split-ps-export"], "split_ps_export", .switch, .bool false⟩,
  ⟨["--IDL_calibrate"], "IDL_calibrate", .switch, .bool false⟩,
  ⟨["--grid_IDL_outputs"], "grid_IDL_outputs", .switch, .bool false⟩,
  ⟨["--IDL_healpix_gridded_outputs"], "IDL_healpix_gridded_outputs", .switch, .bool false⟩,
  ⟨["--IDL_output_dir"], "IDL_output_dir", .text, .none⟩,
  ⟨["--IDL_dry_run"], "IDL_dry_run", .switch, .bool false⟩,
  ⟨["--IDL_variables_file"], "IDL_variables_file", .text, .none⟩,
  ⟨["--grid_psf_file_sav"], "grid_psf_file_sav", .text, .bool false⟩,
  ⟨["--grid_psf_file_npz"], "grid_psf_file_npz", .text, .bool false⟩]

/-- The keys of the configuration file that comes with the program (pyfhd.yaml 1-155). -/
def shippedKeys : List String :=
  ["input-path", "recalculate-all", "silent", "log-file", "conserve-memory", "instrument",
    "memory-threshold", "dimension", "elements", "kbinsize", "FoV", "min-baseline", "n-pol",
    "deproject-w-term", "save-checkpoints", "obs-checkpoint", "calibration-checkpoint",
    "gridding-checkpoint", "override-target-phasera", "override-target-phasedec", "beam-file-path",
    "lazy-load-beam", "recalculate-beam", "beam-clip-floor", "interpolate-kernel",
    "dipole-mutual-coupling-factor", "beam-nfreq-avg", "psf-dim", "psf-resolution", "beam-mask-threshold",
    "beam-model-version", "beam-offset-time", "beam-per-baseline", "calibrate-visibilities",
    "cable-bandpass-fit", "cal-bp-transfer", "calibration-polyfit", "allow-sidelobe-cal-sources",
    "cal-amp-degree-fit", "cal-phase-degree-fit", "cal-reflection-hyperresolve",
    "cal-reflection-mode-theory", "cal-reflection-mode-delay", "cal-reflection-mode-file",
    "calibration-auto-fit", "calibration-auto-initialize", "cal-gain-init", "cal-convergence-threshold",
    "cal-adaptive-calibration-gain", "cal-base-gain", "cal-phase-fit-iter", "min-cal-baseline",
    "vis-baseline-hist", "bandpass-calibrate", "auto-ratio-calibration", "cal-time-average",
    "digital-gain-jump-polyfit", "return-cal-visibilities", "calibration-flag-iterate",
    "diffuse-calibrate", "calibration-catalog-file-path", "transfer-calibration", "cal-stop",
    "transfer-model-uv", "max-cal-iter", "calibration-plots", "flag-basic", "flag-freq-start",
    "flag-freq-end", "flag-tiles", "flag-frequencies", "flag-model", "flag-calibration",
    "flag-calibration-frequencies", "flag-visibilities", "transfer-weights", "time-cut",
    "recalculate-grid", "image-filter", "mask-mirror-indices", "grid-spectral", "grid-weights",
    "grid-variance", "grid-uniform", "deconvolve", "max-deconvolution-components", "filter-background",
    "smooth-width", "dft-threshold", "return-decon-visibilities", "deconvolution-filter", "output-path",
    "export-images", "cleanup", "save-obs", "save-params", "save-cal", "save-visibilities", "save-weights",
    "save-healpix-fits", "snapshot-healpix-export", "pad-uv-image", "ring-radius-multi", "description",
    "model-file-type", "model-file-path", "diffuse-model", "model-catalog-file-path",
    "allow-sidelobe-model-sources", "run-simulation", "in-situ-sim-input", "eor-vis-filepath",
    "enhance-eor", "sim-noise", "tile-flag-list", "remove-sim-flags", "ps-kbinsize", "ps-kspan",
    "ps-beam-threshold", "ps-fov", "ps-dimension", "ps-degpix", "ps-nfreq-avg", "ps-tile-flag-list",
    "n-avg", "rephase-weights", "restrict-healpix-inds", "healpix-inds", "split-ps-export"]

/-- The functions `int` and `float` of Python on texts: `none` for `ValueError`. -/
structure Conv where
  int : List Char → Option ℤ
  float : List Char → Option ℚ

/-- One option on the command line: its name and the arguments that follow. -/
structure Arg where
  name : String
  vals : List (List Char)
  deriving DecidableEq

/-- The value made of one argument (argparse `_get_values`, with the types and choices of pyfhd_setup.py 33-1008). `none` if
the argument is refused. -/
def convertArg (cv : Conv) : OptKind → List Char → Option OptVal
  | .text, v => some (.text v)
  | .int, v => (cv.int v).map fun i => .num i
  | .float, v => (cv.float v).map .num
  | .oneOf l, v => if (l.map String.toList).contains v then some (.text v) else none
  | .oneOfInts l, v =>
    match cv.int v with
    | some i => if l.contains i then some (.num i) else none
    | none => none
  | .chars, v => some (.list (v.map fun c => [c]))
  | _, _ => none

/-- The new value of an option after it is met with these arguments (argparse `_StoreTrueAction`, `_StoreAction`,
`_AppendAction`). -/
def takeArg (cv : Conv) (k : OptKind) (old : OptVal) (vals : List (List Char)) : Py OptVal :=
  match k, vals with
  | .switch, [] => .ok (.bool true)
  | .switch, _ :: _ => .error .systemExit
  | .append, [v] =>
    match old with
    | .lists l => .ok (.lists (l ++ [v.map fun c => [c]]))
    | _ => .ok (.lists [v.map fun c => [c]])
  | .many, vs => .ok (.list vs)
  | k, [v] =>
    match convertArg cv k v with
    | some x => .ok x
    | none => .error .systemExit
  | _, _ => .error .systemExit

/-- The option of a name. -/
def findOpt (table : List OptDecl) (name : String) : Option OptDecl :=
  table.find? fun d => d.names.contains name

/-- The namespace before any argument is met: the defaults. -/
def defaults (table : List OptDecl) : String → OptVal := fun k =>
  match table.find? fun d => d.dest == k with
  | some d => d.default
  | none => .none

/-- Going through the arguments (argparse `parse_args`). -/
def parseArgs (table : List OptDecl) (cv : Conv) : List Arg → (String → OptVal) → Py (String → OptVal)
  | [], ns => .ok ns
  | a :: rest, ns =>
    match findOpt table a.name with
    | none => .error .systemExit
    | some d =>
      match takeArg cv d.kind (ns d.dest) a.vals with
      | .error e => .error e
      | .ok v => parseArgs table cv rest fun k => if k = d.dest then v else ns k

/-- The option with a key of the configuration file: its long names without the dashes. -/
def findKey (table : List OptDecl) (key : String) : Option OptDecl :=
  table.find? fun d => d.names.contains ("--" ++ key)

/-- The texts that turn a switch on or off (configargparse `convert_item_to_command_line_arg`). -/
def onTexts : List String := ["true", "yes", "on", "1"]

/-- See `onTexts`. -/
def offTexts : List String := ["false", "no", "off", "0"]

/-- The arguments made of one setting of the file. The text of a switch is compared without regard to case; a
list of texts is accepted by options that append and by those with `nargs`. -/
def settingArgs (d : OptDecl) (v : YVal) : Py (List Arg) :=
  let name := d.names.getLast?.getD ""
  match v with
  | .null => .ok []
  | .plain s =>
    if d.kind = .switch then
      if (onTexts.map String.toList).contains (s.map Char.toLower) then .ok [⟨name, []⟩]
      else if (offTexts.map String.toList).contains (s.map Char.toLower) then .ok []
      else .error .systemExit
    else .ok [⟨name, [s]⟩]
  | .seq l =>
    if d.kind = .append then .ok (l.map fun s => ⟨name, [s]⟩)
    else if d.kind = .many then .ok [⟨name, l⟩]
    else .error .systemExit

/-- The arguments made of the configuration file: a null is ignored, a key that is not an option ends the program (an
empty list under such a key does not), and a setting is ignored when the option is on the command line. -/
def fileArgs (table : List OptDecl) (cl : List Arg) : List (String × YVal) → Py (List Arg)
  | [] => .ok []
  | (key, v) :: rest =>
    if v = .null then fileArgs table cl rest
    else match findKey table key with
      | none => if v = .seq [] then fileArgs table cl rest else .error .systemExit
      | some d =>
        if cl.any fun a => d.names.contains a.name then fileArgs table cl rest
        else match settingArgs d v with
          | .error e => .error e
          | .ok l =>
            match fileArgs table cl rest with
            | .error e => .error e
            | .ok r => .ok (l ++ r)

/-- `pyfhd_parser().parse_args()` (pyfhd_setup.py 33-1010, pyfhd.py 94) with a table of options: the settings of the file come
before the arguments of the command line. -/
def parseOptions (table : List OptDecl) (cv : Conv) (file : List (String × YVal)) (cl : List Arg) :
    Py (String → OptVal) :=
  match fileArgs table cl file with
  | .error e => .error e
  | .ok fa => parseArgs table cv (fa ++ cl) (defaults table)

end PyFHD
