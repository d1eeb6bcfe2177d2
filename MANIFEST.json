{
 "claims": [
  {
   "property": "C01",
   "status": "proved",
   "theorems": [
    "PyFHD.C01_histogram_counts",
    "PyFHD.C01_histogram_default_limits",
    "PyFHD.C01_histogram_errors"
   ],
   "note": "All data, positive bin sizes and limits; exact rational arithmetic."
  },
  {
   "property": "C02",
   "status": "proved",
   "theorems": [
    "PyFHD.C02_reverse_indices"
   ],
   "note": "Every bin's reverse-index slice is the ascending list of member positions."
  },
  {
   "property": "C03",
   "status": "proved",
   "theorems": [
    "PyFHD.C03_histogram_partition"
   ],
   "note": "Counts conserve the in-range data; slices partition the in-range positions."
  },
  {
   "property": "C04",
   "status": "partial",
   "theorems": [
    "PyFHD.C04_numBins_partial",
    "PyFHD.C04_numBins_one",
    "PyFHD.C04_numBins_max_overflows"
   ],
   "note": "Holds when no datum equals max, or for one bin. The code violates it otherwise: C04_numBins_max_overflows proves an out-of-bounds write for every input with a datum equal to max and two or more bins."
  },
  {
   "property": "C05",
   "status": "partial",
   "theorems": [
    "PyFHD.C05_array_match_partial",
    "PyFHD.C05_even_multiplicity_missed",
    "PyFHD.C05_single_array_fails"
   ],
   "note": "Proved for two arrays when no value is listed an even number of times. The code violates the rest: values listed an even number of times are missed, and a call without the second array raises (both proved in general)."
  },
  {
   "property": "C06",
   "status": "proved",
   "theorems": [
    "PyFHD.C06_weight_invert",
    "PyFHD.C06_weight_invert_threshold",
    "PyFHD.C06_weight_invert_twice",
    "PyFHD.C06_integer_weights_vanish"
   ],
   "note": "All weights over any field, threshold and use_abs; round trip without threshold. Integer arrays are a separate model, where all weights of size 2 or more are proved to vanish."
  },
  {
   "property": "C07",
   "status": "proved",
   "theorems": [
    "PyFHD.C07_rebin_block_mean",
    "PyFHD.C07_rebin_block_mean_int",
    "PyFHD.C07_rebin_not_divisor"
   ],
   "note": "All shapes and entries; exact arithmetic for floats, double truncation for integer arrays."
  },
  {
   "property": "C08",
   "status": "proved",
   "theorems": [
    "PyFHD.C08_rebin_expand_float",
    "PyFHD.C08_rebin_expand_int",
    "PyFHD.C08_rebin_expand_1d",
    "PyFHD.C08_rebin_not_multiple"
   ],
   "note": "Arrays of two or more rows and 1-D arrays, all factors. A 2-D array of one row is not handled by the code and is outside the model."
  },
  {
   "property": "C09",
   "status": "partial",
   "theorems": [
    "PyFHD.C09_mixed_rebin_single_row_partial",
    "PyFHD.C09_mixed_rebin_mixes_rows",
    "PyFHD.C09_mixed_rebin_single_col_partial",
    "PyFHD.C09_mixed_rebin_mixes_cols"
   ],
   "note": "Proved for a single row (column). For more rows (columns) the code averages all of them together; proved in general."
  },
  {
   "property": "C10",
   "status": "proved",
   "theorems": [
    "PyFHD.C10_meshgrid",
    "PyFHD.C10_meshgrid_square"
   ],
   "note": "All shapes and axes."
  },
  {
   "property": "C11",
   "status": "proved",
   "theorems": [
    "PyFHD.C11_deriv_coefficients",
    "PyFHD.C11_divide_factorial",
    "PyFHD.C11_nonpositive"
   ],
   "note": "All n; evaluated as a polynomial at every rational point."
  },
  {
   "property": "C12",
   "status": "proved",
   "theorems": [
    "PyFHD.C12_idl_argunique",
    "PyFHD.C12_idl_argunique_values"
   ],
   "note": "All sorted integer arrays."
  },
  {
   "property": "C13",
   "status": "partial",
   "theorems": [
    "PyFHD.C13_idl_median_even_partial",
    "PyFHD.C13_odd_length_off_by_one",
    "PyFHD.C13_odd_length_not_middle"
   ],
   "note": "Proved for even lengths. Violated for odd lengths: the sample one place above the middle is returned, and a single sample raises (proved for every odd length)."
  },
  {
   "property": "C14",
   "status": "partial",
   "theorems": [
    "PyFHD.C14_split_pairs",
    "PyFHD.C14_split_value_partial",
    "PyFHD.C14_negative_odd_weight"
   ],
   "note": "Structure (ascending, disjoint, equal size, equal weights, zero elsewhere, upper bounds) in full; the exact value when the odd weight is not negative. The code keeps a negative odd weight in both samples (proved), so the lower bound 0 fails there."
  },
  {
   "property": "C15",
   "status": "partial",
   "theorems": [
    "PyFHD.C15_usable_pair_missed",
    "PyFHD.C15_flagged_step_selected",
    "PyFHD.C15_even_usable_partial",
    "PyFHD.C15_first_pair_partial"
   ],
   "note": "Holds for the first pair of two or three steps, and the even set only ever contains samples of even steps of usable pairs (C15_even_usable_partial). Violated otherwise: for four or more steps a usable pair is never selected, and if the first step is flagged its first sample is selected (both proved in general)."
  },
  {
   "property": "C16",
   "status": "partial",
   "theorems": [
    "PyFHD.C16_update_never_unflags",
    "PyFHD.C16_update_keeps_others_partial"
   ],
   "note": "Never unflags and zeroes everything required: in full. The rest keep their weight: unless unused tiles exist and none of them has a baseline (see C17)."
  },
  {
   "property": "C17",
   "status": "partial",
   "theorems": [
    "PyFHD.C17_last_baseline_zeroed",
    "PyFHD.C17_other_baselines_kept_partial"
   ],
   "note": "Violated: the last sample is zeroed at every frequency (proved in general). All other samples are proved untouched."
  },
  {
   "property": "C18",
   "status": "proved",
   "theorems": [
    "PyFHD.C18_n_vis"
   ],
   "note": "All weights, flags, coordinates; time blocks must split the samples, both tile lists have equal non-zero length."
  },
  {
   "property": "C19",
   "status": "proved",
   "theorems": [
    "PyFHD.C19_flag_basic"
   ],
   "note": "All configurations without named tiles (C22), tile numbers in 1..n_tile."
  },
  {
   "property": "C20",
   "status": "partial",
   "theorems": [
    "PyFHD.C20_last_sample_kept",
    "PyFHD.C20_flagged_step_zeroed_partial"
   ],
   "note": "Every sample but the last of a flagged step; the last one provably keeps a positive weight, so the claim is violated by the code."
  },
  {
   "property": "C21",
   "status": "proved",
   "theorems": [
    "PyFHD.C21_edge_channels",
    "PyFHD.C21_edge_fine_channels",
    "PyFHD.C21_few_channels"
   ],
   "note": "The effect of the whole function on every weight; also in terms of the 32 fine channels of a coarse channel for averaging factors dividing 32. Fewer than 24 channels: all are removed."
  },
  {
   "property": "C22",
   "status": "partial",
   "theorems": [
    "PyFHD.C22_flag_tiles_raises",
    "PyFHD.C22_known_tile_raises",
    "PyFHD.C22_flag_basic_with_tiles_raises"
   ],
   "note": "Violated: the function raises for every input (proved), in particular for every known tile name with any blanks around it (C22_known_tile_raises), so no run with flag_tiles passes basic flagging (proved)."
  },
  {
   "property": "C23",
   "status": "proved",
   "theorems": [
    "PyFHD.C23_mirror_entry",
    "PyFHD.C23_mirror_involutive",
    "PyFHD.C23_symmetrise_hermitian",
    "PyFHD.C23_symmetrise_fixed"
   ],
   "note": "Entry formula of the mirror, the mirror is an involution, the symmetrised plane is Hermitian and a Hermitian plane is left alone."
  },
  {
   "property": "C24",
   "status": "proved",
   "theorems": [
    "PyFHD.C24_crosspol_reformat",
    "PyFHD.C24_crosspol_reformat_twice"
   ],
   "note": "The third plane becomes the Hermitian combination and the fourth its partner; applying the function twice is described too."
  },
  {
   "property": "C25",
   "status": "partial",
   "theorems": [
    "PyFHD.C25_imaginary_part_lost",
    "PyFHD.C25_crosspol_split_partial"
   ],
   "note": "The source violates this: the real part is written through a view before the imaginary part is read, so the fourth plane is always zero (C25_imaginary_part_lost). The partial theorem covers the third plane and the names."
  },
  {
   "property": "C26",
   "status": "partial",
   "theorems": [
    "PyFHD.C26_deproject_raises",
    "PyFHD.C26_deproject_undo_partial",
    "PyFHD.C26_deproject_transposed"
   ],
   "note": "The source violates this: the multiplication raises for every shape except one polarisation with as many channels as baselines (C26_deproject_raises), and there the factor is transposed (C26_deproject_transposed). The partial theorem: where it runs, doing and undoing is the identity."
  },
  {
   "property": "C27",
   "status": "proved",
   "theorems": [
    "PyFHD.C27_weights",
    "PyFHD.C27_constant_kernel",
    "PyFHD.C27_between_corners",
    "PyFHD.C27_linear_kernel"
   ],
   "note": ""
  },
  {
   "property": "C28",
   "status": "partial",
   "theorems": [
    "PyFHD.C28_footprint_inside_partial",
    "PyFHD.C28_footprint_outside"
   ],
   "note": "Proved for square planes (elements = dimension). For other planes it is false of the code: baseline_grid_locations tests x against elements and y against dimension; C28_footprint_outside proves a footprint leaves the plane."
  },
  {
   "property": "C29",
   "status": "partial",
   "theorems": [
    "PyFHD.C29_bins_partition_partial",
    "PyFHD.C29_bins_mix_anchors"
   ],
   "note": "Proved for square planes. On planes with elements > dimension the bin number does not determine the corner: C29_bins_mix_anchors."
  },
  {
   "property": "C30",
   "status": "proved",
   "theorems": [
    "PyFHD.C30_dedup_eq_direct",
    "PyFHD.C30_bin_boxes"
   ],
   "note": ""
  },
  {
   "property": "C31",
   "status": "partial",
   "theorems": [
    "PyFHD.C31_bin_order",
    "PyFHD.C31_planes_partial",
    "PyFHD.C31_visibility_grid_partial",
    "PyFHD.C31_visibility_grid_mirrored_partial"
   ],
   "note": "Proved for square planes (elements = dimension), the only shape for which baseline_grid_locations bins visibilities correctly (C28, C29). Covers interpolated and table kernels, with and without no_conjugate; the kernel is that of C32. grid_uniform and spectral planes are in C118 to C120."
  },
  {
   "property": "C32",
   "status": "partial",
   "theorems": [
    "PyFHD.C32_kernel_frequency",
    "PyFHD.C32_second_sample_wrong",
    "PyFHD.C32_own_frequency_partial"
   ],
   "note": "False of the code: visibility_grid takes inds % n_freq_use on a row-major (frequency, baseline) array. C32_kernel_frequency gives the channel actually used; the partial theorem covers one frequency or one baseline."
  },
  {
   "property": "C33",
   "status": "proved",
   "theorems": [
    "PyFHD.C33_filter_uv_uniform",
    "PyFHD.C33_no_finite_filter",
    "PyFHD.C33_from_weights",
    "PyFHD.C33_no_counts_raises"
   ],
   "note": "The hypothesis asks for a pixel with count at least 1 among the pixels that are normalised; C33_no_finite_filter shows what happens otherwise. The call to visibility_count when no count is given is not modelled."
  },
  {
   "property": "C34",
   "status": "proved",
   "theorems": [
    "PyFHD.C34_gains_removed",
    "PyFHD.C34_products_refused"
   ],
   "note": "weight_invert is modelled by its entry function (C06); gains are nonzero exactly when their absolute value is."
  },
  {
   "property": "C35",
   "status": "partial",
   "theorems": [
    "PyFHD.C35_four_pol_key_error",
    "PyFHD.C35_cross_phase_not_applied",
    "PyFHD.C35_four_pol_partial",
    "PyFHD.C35_phase_least_squares",
    "PyFHD.C35_phase_found"
   ],
   "note": "False of the code: obs[\"n_times\"] raises KeyError (C35_four_pol_key_error), and the fitted phase is never applied (C35_cross_phase_not_applied). If n_times is supplied, the phase that is fitted is the least squares one (C35_phase_least_squares), and a phase in the data is found exactly (C35_phase_found)."
  },
  {
   "property": "C36",
   "status": "proved",
   "theorems": [
    "PyFHD.C36_auto_ratio_round_trip"
   ],
   "note": "The square root is a parameter with sqrt x > 0 for x > 0."
  },
  {
   "property": "C37",
   "status": "proved",
   "theorems": [
    "PyFHD.C37_bandpass_product",
    "PyFHD.C37_cable_bandpass_product",
    "PyFHD.C37_cable_group",
    "PyFHD.C37_common_shape"
   ],
   "note": "resistant_mean is a parameter; both the global and the cable bandpass; C37_common_shape says that a common shape of the gains is found. The transfer from a file is not modelled."
  },
  {
   "property": "C38",
   "status": "proved",
   "theorems": [
    "PyFHD.C38_solver_terminates"
   ],
   "note": "The loop of one frequency is modelled iteration by iteration. For every run whose gains are numbers: at most max_cal_iter iterations, reported iteration below it, no iteration but the last meets a stopping rule, and fewer iterations only if the last meets one or all new gains vanish. Runs that turn to NaN (reference gain zero, C64) are outside; max_cal_iter = 0 is C62."
  },
  {
   "property": "C39",
   "status": "proved",
   "theorems": [
    "PyFHD.C39_step_fixed_point",
    "PyFHD.C39_solver_fixed_point"
   ],
   "note": "One iteration and, by induction, the whole solver, for every damping (constant or adaptive), phase-only setting, threshold and number of iterations, with and without weights. The absolute value is any mag with mag z^2 = conj z * z. For arrays not excluded by C278."
  },
  {
   "property": "C40",
   "status": "proved",
   "theorems": [
    "PyFHD.C40_adaptive_gain",
    "PyFHD.C40_gain_stays_bounded",
    "PyFHD.C40_final_convergence",
    "PyFHD.C40_value"
   ],
   "note": "NaN results (0/0) are modelled as no number. C40_value gives the value for a known final convergence, C40_final_convergence says that the limit of an ideal relaxation is found."
  },
  {
   "property": "C41",
   "status": "partial",
   "theorems": [
    "PyFHD.C41_decode_iff",
    "PyFHD.C41_first_antenna_partial",
    "PyFHD.C41_odd_second_antenna_wrong",
    "PyFHD.C41_no_first_antenna_wrong"
   ],
   "note": "Violated by the code: the divisor is guessed from the smallest code. Proved: the numbers are recovered iff the guess is 256 (C41_decode_iff), it is when the smallest baseline is (1,1) or (1,even), and the decoding is wrong when it is (1,odd>1) or (a>=2, even)."
  },
  {
   "property": "C42",
   "status": "partial",
   "theorems": [
    "PyFHD.C42_renumber_partial",
    "PyFHD.C42_renumber_aliasing"
   ],
   "note": "Violated by the code: the loop overwrites numbers it later compares. Proved where no antenna number equals the index of an earlier entry; otherwise the result is the index of another tile."
  },
  {
   "property": "C43",
   "status": "partial",
   "theorems": [
    "PyFHD.C43_time_blocks_partial",
    "PyFHD.C43_single_time_type_error"
   ],
   "note": "Violated for a single time: create_obs raises a TypeError. Proved for two or more distinct times, in terms of sample times only."
  },
  {
   "property": "C44",
   "status": "partial",
   "theorems": [
    "PyFHD.C44_extract_visibilities_partial",
    "PyFHD.C44_single_axis_fails"
   ],
   "note": "Violated when there is one baseline, one channel or one polarisation (np.squeeze removes the axis): IndexError. Proved otherwise, for any number of singleton axes."
  },
  {
   "property": "C45",
   "status": "proved",
   "theorems": [
    "PyFHD.C45_frequency_axis"
   ],
   "note": "For all header values, in exact arithmetic."
  },
  {
   "property": "C46",
   "status": "partial",
   "theorems": [
    "PyFHD.C46_model_matched_partial",
    "PyFHD.C46_fewer_antennas_refused",
    "PyFHD.C46_model_autos_fail"
   ],
   "note": "Violated by every model with auto-correlations (C46_model_autos_fail: the index arrays have different lengths). Proved for models without, for all regular files, flag patterns and both naming schemes of tiles."
  },
  {
   "property": "C47",
   "status": "partial",
   "theorems": [
    "PyFHD.C47_round_trip_partial",
    "PyFHD.C47_single_key",
    "PyFHD.C47_strings_raise",
    "PyFHD.C47_zero_dim_array_raises",
    "PyFHD.C47_array_partial"
   ],
   "note": "Proved: any nested dictionary (any depth, any number of keys other than one at the top) of None, numbers, booleans, arrays with at least one axis of numbers, booleans or ASCII strings round-trips, comparing along all key paths; strings too if h5py returns them as NumPy objects (parameter strDtype). Violations proved: a dictionary with exactly one key never loads as a dictionary; a string anywhere makes the file unloadable when h5py returns bytes; arrays without axes cannot be saved; string arrays saved alone come back as bytes. Missing: object arrays round-trip (they change type), lazy_load."
  },
  {
   "property": "C48",
   "status": "partial",
   "theorems": [
    "PyFHD.C48_numeric_partial",
    "PyFHD.C48_strings_partial",
    "PyFHD.C48_nan_real_part",
    "PyFHD.C48_non_ascii_raises",
    "PyFHD.C48_integers"
   ],
   "note": "Proved for all object arrays: length kept, None becomes NaN (numeric) or the empty string (with strings), other entries keep their value. Violations proved: an entry with real part NaN in a complex array loses its imaginary part; strings outside ASCII raise. Numbers in an array with strings become text."
  },
  {
   "property": "C49",
   "status": "partial",
   "theorems": [
    "PyFHD.C49_resume_obs_partial",
    "PyFHD.C49_unreadable"
   ],
   "note": "Proved for all stages (arbitrary functions), all configurations and all later failures: the resumed run performs exactly the actions of the original run after the checkpoint, with equal values and the same end. Assumes that the checkpoint file loads unchanged (C47 gives this for plain dictionaries). Violation proved: the obs dictionary contains the instrument name, so the checkpoint cannot be loaded when h5py returns strings as bytes."
  },
  {
   "property": "C50",
   "status": "partial",
   "theorems": [
    "PyFHD.C50_calibrate_checkpoint_raises",
    "PyFHD.C50_resume_calibration_partial"
   ],
   "note": "Violation proved: with calibrate_checkpoint set every run ends with an exception before writing anything (main reads the key calibration_checkpoint, which the parser does not define). Proved conditionally: if the configuration had that key, the resumed run equals the rest of the original run."
  },
  {
   "property": "C51",
   "status": "partial",
   "theorems": [
    "PyFHD.C51_planes_partial",
    "PyFHD.C51_obs_lost"
   ],
   "note": "Proved: the resumed run passes the same planes. Violation proved: the observation passed to imaging and export differs, because the number of visibilities per channel set while gridding is not in the checkpoint."
  },
  {
   "property": "C52",
   "status": "partial",
   "theorems": [
    "PyFHD.C52_continues_iff_partial",
    "PyFHD.C52_exit_iff_invalid_partial",
    "PyFHD.C52_missing_file_stops",
    "PyFHD.C52_valid_enhance_stops",
    "PyFHD.C52_invalid_enhance_accepted",
    "PyFHD.C52_sidelobe_raises",
    "PyFHD.C52_other_files_not_checked"
   ],
   "note": "Exact characterisation of the configurations that continue (C52_continues_iff_partial), equal to validity when allow_sidelobe_model_sources is off and enhance_eor <= 1. Violations proved: the enhance_eor test is inverted (valid ones are stopped, invalid ones accepted), allow_sidelobe_model_sources raises KeyError because the parser has no model_visibilities, files inside the model directory and the beam and checkpoint files are never looked at."
  },
  {
   "property": "C53",
   "status": "partial",
   "theorems": [
    "PyFHD.C53_conflicts_partial",
    "PyFHD.C53_others_kept_partial",
    "PyFHD.C53_modes_kept"
   ],
   "note": "All clauses except the last. Violation proved: the reflection modes are never changed, because the nested conditional never counts above 1, so several can stay on."
  },
  {
   "property": "C54",
   "status": "partial",
   "theorems": [
    "PyFHD.C54_text_iff",
    "PyFHD.C54_round_trip_partial",
    "PyFHD.C54_output_dir_not_read",
    "PyFHD.C54_list_not_read",
    "PyFHD.C54_names",
    "PyFHD.C54_list_names",
    "PyFHD.C54_never_read"
   ],
   "note": "Round trip for all configurations whose written names are option names and whose texts have no quote; exact condition for a text, and exactly which options are written under readable names (C54_names, C54_list_names). Reading (a part of YAML and configargparse) is modelled, not code of the repository. Violations proved: IDL_calibrate, part of every configuration, is written as IDL-calibrate, which is not an option, so no written file can be read (C54_never_read); the same for output_dir, added by every set-up; lists are written under a name with underscores; a quote is not escaped."
  },
  {
   "property": "C55",
   "status": "partial",
   "theorems": [
    "PyFHD.C55_bilinear_partial",
    "PyFHD.C55_constant_partial",
    "PyFHD.C55_integer_zero",
    "PyFHD.C55_linear"
   ],
   "note": "Bilinear interpolation of the four pixels around a position inside the image with no integer coordinate, hence a constant image is kept, and linear in the image. Violation: a HEALPix pixel with an integer coordinate gets 0 (C55_integer_zero), because floor and ceiling coincide and the last of several contributions of one image pixel replaces the others. Positions from healpy/astropy are inputs."
  },
  {
   "property": "C56",
   "status": "partial",
   "theorems": [
    "PyFHD.C56_each_channel_once",
    "PyFHD.C56_nf_vis_sum",
    "PyFHD.C56_all_exported_partial",
    "PyFHD.C56_tail_lost"
   ],
   "note": "Each used channel is gridded in exactly one averaged channel; nf_vis of an exported channel is the sum over its channels; all is exported when n_avg divides n_freq. Violation: otherwise the last averaged channel is gridded but never exported (C56_tail_lost)."
  },
  {
   "property": "C57",
   "status": "partial",
   "theorems": [
    "PyFHD.C57_create_obs_partial",
    "PyFHD.C57_update_obs_last_bin"
   ],
   "note": "Violated by update_obs: the loop stops one bin early so the channels of the last bin get bin 0. Proved for create_obs, and the exact relation of the two."
  },
  {
   "property": "C58",
   "status": "partial",
   "theorems": [
    "PyFHD.C58_first_page_partial",
    "PyFHD.C58_few_tiles_none",
    "PyFHD.C58_tail_missing",
    "PyFHD.C58_many_tiles_raise"
   ],
   "note": "From 128 to 255 tiles the first 128 tiles are drawn once, in their own panel, with their own name. Violations: nothing is drawn for fewer than 128 tiles (C58_few_tiles_none), tiles from the 129th on are not drawn (C58_tail_missing), 256 or more tiles raise IndexError (C58_many_tiles_raise)."
  },
  {
   "property": "C59",
   "status": "proved",
   "theorems": [
    "PyFHD.C59_region",
    "PyFHD.C59_default_thresholds",
    "PyFHD.C59_no_seeds"
   ],
   "note": "scipy.ndimage.label is an input, assumed to label 4-connected components (exists_labelling shows the assumption can be met). NaN pixels are background; default thresholds in C59_default_thresholds. Two-dimensional images, non-negative pixel numbers."
  },
  {
   "property": "C60",
   "status": "proved",
   "theorems": [
    "PyFHD.C60_sum",
    "PyFHD.C60_wrong_shape",
    "PyFHD.C60_not_average"
   ],
   "note": "For visibilities in an arbitrary field. C60_not_average: in spite of its name the function does not divide by the weights."
  },
  {
   "property": "C61",
   "status": "partial",
   "theorems": [
    "PyFHD.C61_reference_out_of_range",
    "PyFHD.C61_ratio_value",
    "PyFHD.C61_reference_ratio_partial"
   ],
   "note": "False of the code when a tile before the reference has no auto-correlation."
  },
  {
   "property": "C62",
   "status": "partial",
   "theorems": [
    "PyFHD.C62_no_iterations_name_error",
    "PyFHD.C62_iterations_accepted_partial"
   ],
   "note": "Violated: the test for less than one iteration comes after the test for less than five and is never reached; with 0 the function fails with a NameError (C62_no_iterations_name_error). Partial: other values are accepted."
  },
  {
   "property": "C63",
   "status": "partial",
   "theorems": [
    "PyFHD.C63_not_backed_up",
    "PyFHD.C63_backed_up_when_met",
    "PyFHD.C63_reported_convergence_partial"
   ],
   "note": "Violated: the code backs up when the current solution met the threshold (C63_backed_up_when_met), not when it missed it (C63_not_backed_up). Partial: divergence, convergence and exhaustion report and return as documented."
  },
  {
   "property": "C64",
   "status": "partial",
   "theorems": [
    "PyFHD.C64_reference_without_equations",
    "PyFHD.C64_numbers_without_reference_partial"
   ],
   "note": "Violated: with fewer than five equations the gain of the reference tile is zero and the division by its absolute value makes all gains NaN (C64_reference_without_equations). Partial: numbers whenever no reference tile is used."
  },
  {
   "property": "C65",
   "status": "partial",
   "theorems": [
    "PyFHD.C65_later_weights_ignored",
    "PyFHD.C65_equal_weights_partial"
   ],
   "note": "Violated: the first weights of the list are used for every tile, so those beyond the largest number of equations of a tile have no influence (C65_later_weights_ignored). Partial: equal weights give the unweighted solution."
  },
  {
   "property": "C66",
   "status": "partial",
   "theorems": [
    "PyFHD.C66_flagged_tile_counts_as_first",
    "PyFHD.C66_unflagged_tile_position_partial"
   ],
   "note": "Violated: positions of tiles not solved for stay at the initial 0, so their baselines count for the first solved tile (C66_flagged_tile_counts_as_first). Partial: baselines of unflagged tiles are put at the right position."
  },
  {
   "property": "C67",
   "status": "partial",
   "theorems": [
    "PyFHD.C67_grid_partial",
    "PyFHD.C67_fov_ignored",
    "PyFHD.C67_fov_zero_raises",
    "PyFHD.C67_no_dimension_raises"
   ],
   "note": "Violated: a non-zero FoV has no effect, FoV 0 raises ZeroDivisionError, a missing dimension always raises. Proved without FoV and with dimension."
  },
  {
   "property": "C68",
   "status": "partial",
   "theorems": [
    "PyFHD.C68_single_cut_raises",
    "PyFHD.C68_all_or_nothing",
    "PyFHD.C68_no_cut_partial"
   ],
   "note": "Violated: any single non-zero cut raises, and any accepted list cuts no integration or all of them. Proved without cuts and for the cut 0."
  },
  {
   "property": "C69",
   "status": "partial",
   "theorems": [
    "PyFHD.C69_missing_value_error",
    "PyFHD.C69_first_parameter_rejected",
    "PyFHD.C69_validation_partial"
   ],
   "note": "Violated: ValueError instead of KeyError for missing BASELINE or DATE, and either at place 0 is refused. Proved: acceptance implies all are present; files starting with UU that have all are accepted; missing coordinates give KeyError."
  },
  {
   "property": "C70",
   "status": "partial",
   "theorems": [
    "PyFHD.C70_offset_partial",
    "PyFHD.C70_later_model_exits",
    "PyFHD.C70_later_model_refused"
   ],
   "note": "Violated: a model later than the data by more than a quarter of an integration makes the program exit. Proved for models that are earlier (up to half an integration) or later by less than a quarter."
  },
  {
   "property": "C71",
   "status": "partial",
   "theorems": [
    "PyFHD.C71_argument_kept_partial",
    "PyFHD.C71_none_replaced"
   ],
   "note": "Proved for all arrays without None. Violation proved: for object arrays with None every None of the caller's own array is overwritten."
  },
  {
   "property": "C72",
   "status": "partial",
   "theorems": [
    "PyFHD.C72_weights_saved_partial",
    "PyFHD.C72_weights_alone_raise"
   ],
   "note": "Proved when both options are on. Violation proved: with save_weights alone, every run that starts from the data ends with an exception and writes nothing."
  },
  {
   "property": "C73",
   "status": "proved",
   "theorems": [
    "PyFHD.C73_only_asked",
    "PyFHD.C73_cal_stop"
   ],
   "note": "All stages, all configurations; stages are arbitrary functions."
  },
  {
   "property": "C74",
   "status": "partial",
   "theorems": [
    "PyFHD.C74_exports_partial",
    "PyFHD.C74_no_calibration_raises",
    "PyFHD.C74_no_gridding_raises"
   ],
   "note": "Proved: with calibration and gridding with a model, the run ends normally and the exporting functions receive exactly these values. Violations proved: with calibration off, or gridding off without a checkpoint, the run ends with an exception and exports nothing."
  },
  {
   "property": "C75",
   "status": "partial",
   "theorems": [
    "PyFHD.C75_exit_status_zero"
   ],
   "note": "Violation proved: the status is 0 for every stopped set-up (exit() without argument). Nothing positive to prove."
  },
  {
   "property": "C76",
   "status": "partial",
   "theorems": [
    "PyFHD.C76_outside_wraps",
    "PyFHD.C76_outside_zero_partial"
   ],
   "note": "Violation: a pixel just to the left of the image gets a mixture of both sides of the image (C76_outside_wraps). Partial: pixels at least two rows below or one row above the image get 0."
  },
  {
   "property": "C77",
   "status": "proved",
   "theorems": [
    "PyFHD.C77_nearest_field"
   ],
   "note": "The separations computed by astropy are inputs; fields at least 20 degrees apart (51.5 degrees for the fields in the code). Holds although the comparison mixes degrees with 2 pi."
  },
  {
   "property": "C78",
   "status": "partial",
   "theorems": [
    "PyFHD.C78_size_partial",
    "PyFHD.C78_dimension",
    "PyFHD.C78_default_raises",
    "PyFHD.C78_fov_ignored"
   ],
   "note": "The order of precedence holds when the export gets as far as a size. Violations: the default ps_kspan = 0 is taken as given and raises ZeroDivisionError (C78_default_raises), ps_fov has no effect since ps_kbinsize has a default (C78_fov_ignored)."
  },
  {
   "property": "C79",
   "status": "partial",
   "theorems": [
    "PyFHD.C79_files_partial",
    "PyFHD.C79_no_split_raises"
   ],
   "note": "Proved with split_ps_export. Violation: without it (the default) the weights are not bound and the export raises NameError (C79_no_split_raises)."
  },
  {
   "property": "C80",
   "status": "partial",
   "theorems": [
    "PyFHD.C80_definition",
    "PyFHD.C80_within",
    "PyFHD.C80_odd_exists_partial",
    "PyFHD.C80_order",
    "PyFHD.C80_affine",
    "PyFHD.C80_majority",
    "PyFHD.C80_even_undefined"
   ],
   "note": "Range, order, unit and robustness are proved for all real arrays, existence for an odd number of data. Violated for an even number: 19 times 0, once 1 and 18 times 2 (and every such mixture of at least 19) leaves nothing after the second rejection, the result is NaN (C80_even_undefined)."
  },
  {
   "property": "C81",
   "status": "proved",
   "theorems": [
    "PyFHD.C81_value",
    "PyFHD.C81_sky_cancels",
    "PyFHD.C81_flagged",
    "PyFHD.C81_own_split",
    "PyFHD.C81_single_time"
   ],
   "note": "Standard deviations are represented by their squares; 4N\u00b2 noise\u00b2 is the sum of all squared differences of the pair differences, which is the definition of the variance without its mean."
  },
  {
   "property": "C82",
   "status": "partial",
   "theorems": [
    "PyFHD.C82_ratio_partial",
    "PyFHD.C82_mixed_raises",
    "PyFHD.C82_single_wrong"
   ],
   "note": "Proved when the models of each bin are all zero or all nonzero. Violated otherwise: the indices are reduced to nonzero models but the model values are not, so a bin with a zero and two nonzero models raises (C82_mixed_raises), and with one nonzero model a perfect calibration gets a residual of n-1 (C82_single_wrong)."
  },
  {
   "property": "C83",
   "status": "partial",
   "theorems": [
    "PyFHD.C83_sample",
    "PyFHD.C83_sample_1d_partial",
    "PyFHD.C83_rows_ignored",
    "PyFHD.C83_single_row_wrong"
   ],
   "note": "Proved for arrays of two or more rows and for 1-D arrays sampled to one row. Violated: the number of rows is ignored for 1-D arrays (C83_rows_ignored); a 2-D array of one row gets more rows instead of more columns (C83_single_row_wrong)."
  },
  {
   "property": "C84",
   "status": "partial",
   "theorems": [
    "PyFHD.C84_all_samples",
    "PyFHD.C84_average_partial",
    "PyFHD.C84_time_order",
    "PyFHD.C84_single_step_raises",
    "PyFHD.C84_none",
    "PyFHD.C84_missing_step_raises"
   ],
   "note": "C84_all_samples, C84_none and C84_time_order (the samples of a tile in an observation with repeated baselines) hold; C84_average_partial needs at least two used time steps, all present. For a single used time step and two or more frequencies the function raises an error (C84_single_step_raises)."
  },
  {
   "property": "C85",
   "status": "partial",
   "theorems": [
    "PyFHD.C85_positive",
    "PyFHD.C85_proportional",
    "PyFHD.C85_one_bad_auto",
    "PyFHD.C85_tile_out_of_range",
    "PyFHD.C85_scale",
    "PyFHD.C85_start"
   ],
   "note": "C85_positive and C85_proportional hold (the square root is a parameter). The last sentence fails: one NaN or negative auto-correlation resets the initial gains of the whole polarisation to 1 (C85_one_bad_auto)."
  },
  {
   "property": "C86",
   "status": "partial",
   "theorems": [
    "PyFHD.C86_frequencies",
    "PyFHD.C86_least_squares",
    "PyFHD.C86_exact",
    "PyFHD.C86_other_tiles",
    "PyFHD.C86_scale_partial",
    "PyFHD.C86_scale_junk",
    "PyFHD.C86_single_pol_raises",
    "PyFHD.C86_params",
    "PyFHD.C86_params_of_gains"
   ],
   "note": "np.linalg.lstsq is a parameter assumed to minimise the sum of squares (exLstsq_least shows such a function exists). C86_frequencies, C86_least_squares, C86_exact, C86_other_tiles, C86_params hold. The mean slope is right when every tile has an auto-correlation (C86_scale_partial); otherwise it contains uninitialised memory and can be any number (C86_scale_junk). A single polarisation raises IndexError (C86_single_pol_raises). Tiles listed twice are not modelled."
  },
  {
   "property": "C87",
   "status": "partial",
   "theorems": [
    "PyFHD.C87_only_flags",
    "PyFHD.C87_tile_tests",
    "PyFHD.C87_frequency_test",
    "PyFHD.C87_amplitude_rule",
    "PyFHD.C87_dead_tile_kept",
    "PyFHD.C87_small_array",
    "PyFHD.C87_passes"
   ],
   "note": "C87_only_flags, C87_tile_tests, C87_frequency_test and C87_amplitude_rule hold; standard deviation and polynomial fits are parameters. The last clause fails: tiles without variation are kept, since the assignment is made to a copy (C87_dead_tile_kept). The five-sigma tests cannot act with 23 or fewer tiles (C87_small_array). Gains that are NaN are not modelled."
  },
  {
   "property": "C88",
   "status": "partial",
   "theorems": [
    "PyFHD.C88_phase",
    "PyFHD.C88_phase_least",
    "PyFHD.C88_amp_least_dropped",
    "PyFHD.C88_amp_dropped",
    "PyFHD.C88_amp_partial",
    "PyFHD.C88_default_degrees",
    "PyFHD.C88_jump_zero",
    "PyFHD.C88_jump_low_raises",
    "PyFHD.C88_jump_raises",
    "PyFHD.C88_jump_shifted",
    "PyFHD.C88_jump_degree_raises",
    "PyFHD.C88_file_raises",
    "PyFHD.C88_delay_raises",
    "PyFHD.C88_hyper_alone_raises",
    "PyFHD.C88_reflection_scaled",
    "PyFHD.C88_reflection_partial"
   ],
   "note": "The phase fit is the least squares polynomial at every channel. Violations proved: the amplitude fit is evaluated without its coefficient of highest degree (range(degree) instead of degree+1); with the gain jump, data above the jump get zero gains, data below it raise, data across it raise unless the first used channel is 1, and then the lower fit is shifted by one channel and flagged edge channels get zero; degrees other than 2 raise; reading the modes from file always raises, the delay spectrum raises for fewer tiles than half the channels, hyperresolution alone raises; a reflection fitted without hyperresolution is applied multiplied by the number of channels. The hyperresolved fit and the cable length selection are not modelled."
  },
  {
   "property": "C89",
   "status": "partial",
   "theorems": [
    "PyFHD.C89_consistent",
    "PyFHD.C89_polyfit_alone_raises",
    "PyFHD.C89_no_fits",
    "PyFHD.C89_lossless_fits",
    "PyFHD.C89_means",
    "PyFHD.C89_used_only",
    "PyFHD.C89_zero_residual",
    "PyFHD.C89_no_data"
   ],
   "note": "Consistency of gains, residual and visibilities and the meaning of the statistics are proved for every combination of options, with the individual steps as functions (modelled in other properties). Violation proved: polynomial fits without the bandpass always raise, because the arguments are exchanged in the call."
  },
  {
   "property": "C90",
   "status": "partial",
   "theorems": [
    "PyFHD.C90_flagged_ignored",
    "PyFHD.C90_proportional_partial",
    "PyFHD.C90_offset_partial",
    "PyFHD.C90_unequal_weights",
    "PyFHD.C90_few_products_raise"
   ],
   "note": "Flagged samples are ignored; the answer is right when Q is proportional to U, or when all used cells have equal total weight. Violation proved: the sums over time are not divided by the weights, so that an offset between Q and U together with unequal flagging changes the slope (C90_unequal_weights)."
  },
  {
   "property": "C91",
   "status": "proved",
   "theorems": [
    "PyFHD.C91_projection",
    "PyFHD.C91_unit",
    "PyFHD.C91_centre",
    "PyFHD.C91_injective",
    "PyFHD.C91_arrays"
   ],
   "note": "l, m and n + 1 are shown equal to scalar products with the east, north and outward unit vectors; unit length, range, uniqueness of the centre, injectivity on the hemisphere, arrays with missing coordinates and optional arguments. Exact real arithmetic."
  },
  {
   "property": "C92",
   "status": "partial",
   "theorems": [
    "PyFHD.C92_separation",
    "PyFHD.C92_zero",
    "PyFHD.C92_nearest_same",
    "PyFHD.C92_nearest"
   ],
   "note": "Everything holds without the option for the nearest angle (C92_separation, C92_zero). With it the property fails: the larger of the angle (in degrees) and 2 pi minus it is taken, so equal directions are 2 pi degrees apart (C92_nearest_same) and directions less than pi degrees apart get a wrong angle (C92_nearest)."
  },
  {
   "property": "C93",
   "status": "partial",
   "theorems": [
    "PyFHD.C93_north_partial",
    "PyFHD.C93_south_sign",
    "PyFHD.C93_zenith_nan",
    "PyFHD.C93_flat_array",
    "PyFHD.C93_parallactic_direction"
   ],
   "note": "Holds when the zenith is to the north of the phase centre (C93_north_partial). Otherwise the property fails: the quadrant of the parallactic angle is lost by a one-argument arc tangent, so that both parameters have the wrong sign when the zenith is to the south (C93_south_sign), and they are not numbers when the phase centre is the zenith (C93_zenith_nan). C93_flat_array shows what the parameters are for. The WCS object built from them is not modelled."
  },
  {
   "property": "C94",
   "status": "proved",
   "theorems": [
    "PyFHD.C94_planes",
    "PyFHD.C94_calibration",
    "PyFHD.C94_before"
   ],
   "note": "The stages are arbitrary functions; C94_planes and C94_calibration relate inputs and outputs of the stages of a run."
  },
  {
   "property": "C95",
   "status": "proved",
   "theorems": [
    "PyFHD.C95_step",
    "PyFHD.C95_stops_at_zero",
    "PyFHD.C95_factor"
   ],
   "note": "An iteration (C95_step), the stop with zero gains (C95_stops_at_zero) and the damping factor (C95_factor). The minimum is stated over the baselines, not over the doubled equations of the code. With baseline weights the weights do not belong to their baselines (C65). numpy's lstsq is modelled by the least-norm solution of the normal equation; exact arithmetic; the sum of base and factor is nonzero."
  },
  {
   "property": "C96",
   "status": "partial",
   "theorems": [
    "PyFHD.C96_mask",
    "PyFHD.C96_default_keeps",
    "PyFHD.C96_fraction_amplifies",
    "PyFHD.C96_fraction_raises",
    "PyFHD.C96_not_square_raises"
   ],
   "note": "Proved for the default width and all widths given as a whole number of pixels not larger than the plane (C96_mask, C96_default_keeps). Violated for fractional widths: between an even number and the next odd one the mask exceeds 1 (C96_fraction_amplifies), between an odd number and the next even one ValueError (C96_fraction_raises). Planes that are not square raise ValueError unless the threshold is turned off (C96_not_square_raises)."
  },
  {
   "property": "C97",
   "status": "partial",
   "theorems": [
    "PyFHD.C97_fourier",
    "PyFHD.C97_point_source",
    "PyFHD.C97_centre",
    "PyFHD.C97_linear",
    "PyFHD.C97_hermitian_real",
    "PyFHD.C97_gridded_real",
    "PyFHD.C97_injective",
    "PyFHD.C97_odd_shifted",
    "PyFHD.C97_image"
   ],
   "note": "Proved for all planes of even size (C97_fourier, C97_point_source, C97_centre, C97_hermitian_real, C97_gridded_real, C97_image for the function as a whole) and linearity and injectivity for all sizes (C97_linear, C97_injective). Violated for odd sizes: the plane is shifted with fftshift instead of ifftshift, so that a real symmetric plane gives a complex image (C97_odd_shifted)."
  },
  {
   "property": "C98",
   "status": "partial",
   "theorems": [
    "PyFHD.C98_padding_refines",
    "PyFHD.C98_fraction_scales",
    "PyFHD.C98_below_one_raises"
   ],
   "note": "Proved for whole factors and square planes of even size without beam or normalisation (C98_padding_refines). Violated for other factors: between 1 and 2 nothing is padded but the image is multiplied by the square of the factor (C98_fraction_scales), below 1 ValueError (C98_below_one_raises)."
  },
  {
   "property": "C99",
   "status": "partial",
   "theorems": [
    "PyFHD.C99_caller",
    "PyFHD.C99_kept_partial",
    "PyFHD.C99_filter_overwrites",
    "PyFHD.C99_units_overwrite"
   ],
   "note": "C99_caller states exactly what the plane of the caller holds afterwards. It is kept for the default threshold without mask, without a filter of the size of the plane, and without units or with padding or a filter of another size (C99_kept_partial). Violated otherwise: multiplied by a filter of its size (C99_filter_overwrites), divided by the area of a pixel (C99_units_overwrite)."
  },
  {
   "property": "C100",
   "status": "proved",
   "theorems": [
    "PyFHD.C100_residual",
    "PyFHD.C100_brightness",
    "PyFHD.C100_central_source"
   ],
   "note": "C100_residual for every export that succeeds; C100_brightness and C100_central_source without padding, for filters other than filter_uv_optimal, and except the last of four polarisations (see C104). Assumed: filter_uv_uniform multiplies by a filter that does not depend on the plane (proved of its model in C33)."
  },
  {
   "property": "C101",
   "status": "partial",
   "theorems": [
    "PyFHD.C101_weights_wrong"
   ],
   "note": "False of the code: each file holds the planes of all polarisations, the same for all files, and the weights have been multiplied by the filter (C101_weights_wrong)."
  },
  {
   "property": "C102",
   "status": "partial",
   "theorems": [
    "PyFHD.C102_padding_raises",
    "PyFHD.C102_padding_two_raises"
   ],
   "note": "False of the code: the filter does not fit the padded array, so that every padding that changes the size raises (C102_padding_raises, C102_padding_two_raises). Without padding the export works (C100_brightness)."
  },
  {
   "property": "C103",
   "status": "partial",
   "theorems": [
    "PyFHD.C103_data_kept_partial",
    "PyFHD.C103_model_weights_filtered",
    "PyFHD.C103_names_changed"
   ],
   "note": "The gridded data are kept (C103_data_kept_partial). The model and the weights are multiplied by the filter (C103_model_weights_filtered), and the names of the polarisations are changed (C103_names_changed)."
  },
  {
   "property": "C104",
   "status": "partial",
   "theorems": [
    "PyFHD.C104_imaginary_zero",
    "PyFHD.C104_weights_zero",
    "PyFHD.C104_real_part_partial"
   ],
   "note": "The real part is exported (C104_real_part_partial); the images of the imaginary part are zero (C104_imaginary_zero)."
  },
  {
   "property": "C105",
   "status": "partial",
   "theorems": [
    "PyFHD.C105_planes_partial",
    "PyFHD.C105_sum_of_ranges_partial",
    "PyFHD.C105_image"
   ],
   "note": "Proved for square planes and ranges whose channels share a beam bin (without the latter C32 fails, without the former C28). Model gridding is modelled as a second pass with the same kernels."
  },
  {
   "property": "C106",
   "status": "partial",
   "theorems": [
    "PyFHD.C106_total_partial",
    "PyFHD.C106_counts_partial",
    "PyFHD.C106_stale_counts",
    "PyFHD.C106_counts_of_first"
   ],
   "note": "The total is proved. The counts per channel hold only where something was gridded in the range: otherwise the channels keep the counts of the previous polarization or half (C106_stale_counts, C106_counts_of_first)."
  },
  {
   "property": "C107",
   "status": "partial",
   "theorems": [
    "PyFHD.C107_gridding_default",
    "PyFHD.C107_split_default_channels",
    "PyFHD.C107_split_default_misses"
   ],
   "note": "Proved for the gridding on its own. For the split the sum is over the wrong axis: channel numbers are used as baseline numbers (C107_split_default_channels), so that baselines beyond the number of channels are never used."
  },
  {
   "property": "C108",
   "status": "partial",
   "theorems": [
    "PyFHD.C108_files_same"
   ],
   "note": "Each file holds the array it is named after, but every file holds all four arrays (C108_files_same)."
  },
  {
   "property": "C109",
   "status": "partial",
   "theorems": [
    "PyFHD.C109_displaces_partial",
    "PyFHD.C109_centre_partial",
    "PyFHD.C109_rectangle_wrong"
   ],
   "note": "Proved for square planes; for others the rows are displaced by the wrong amount (C109_rectangle_wrong)."
  },
  {
   "property": "C110",
   "status": "proved",
   "theorems": [
    "PyFHD.C110_only_flags"
   ],
   "note": "All inputs for which the call returns; what the memory of tile_fom contains and the standard deviation are arbitrary."
  },
  {
   "property": "C111",
   "status": "proved",
   "theorems": [
    "PyFHD.C111_flags"
   ],
   "note": "As C110."
  },
  {
   "property": "C112",
   "status": "partial",
   "theorems": [
    "PyFHD.C112_tiles_considered",
    "PyFHD.C112_dead_tile_partial",
    "PyFHD.C112_memory_decides"
   ],
   "note": "The code violates the property: tile_fom is np.empty, and the figures are added to what the memory contains. C112_memory_decides: for every input there are contents with which no tile is flagged and, for every tile, contents with which it is. C112_dead_tile_partial: with zeros the tiles without data are flagged."
  },
  {
   "property": "C113",
   "status": "partial",
   "theorems": [
    "PyFHD.C113_names",
    "PyFHD.C113_returns_needs"
   ],
   "note": "The code violates the property. C113_returns_needs: a call that returns had at least two channels, two time steps, and left more than ten weights in every time step; otherwise idl_median raises IndexError or the attribute size of a tuple is asked for (examples)."
  },
  {
   "property": "C114",
   "status": "partial",
   "theorems": [
    "PyFHD.C114_tile_rule",
    "PyFHD.C114_channel_rule",
    "PyFHD.C114_single_pass",
    "PyFHD.C114_few_tiles_kept"
   ],
   "note": "The code violates the property: the first cut keeps what is near OR not zero (should be AND), so nothing with data is left out. C114_single_pass: the decision is the plain distance from the median in deviations of all. C114_few_tiles_kept: with at most six tiles a tile with data is never flagged, for a standard deviation exact up to ten percent."
  },
  {
   "property": "C115",
   "status": "partial",
   "theorems": [
    "PyFHD.C115_flagging_ends_run"
   ],
   "note": "The code violates the property: main calls vis_flag without the logger. C115_flagging_ends_run: every such run ends with an exception and writes no checkpoint of calibration or gridding."
  },
  {
   "property": "C116",
   "status": "partial",
   "theorems": [
    "PyFHD.C116_counts_partial"
   ],
   "note": "C116_counts_partial: proved in full for square planes; on other planes baseline_grid_locations tests x against elements (C28), so the claim fails there already in the samples kept."
  },
  {
   "property": "C117",
   "status": "partial",
   "theorems": [
    "PyFHD.C117_counts_raise"
   ],
   "note": "Violated: filters.py 64-74 passes its arguments by position in the wrong places, so the call of visibility_count gets params as psf; C117_counts_raise proves that it raises for every observation whose params have no entry 'dim'. With given counts the filter is C25-C27."
  },
  {
   "property": "C118",
   "status": "proved",
   "theorems": [
    "PyFHD.C118_model_plane"
   ],
   "note": "C118_model_plane, without grid_uniform; with grid_spectral and a model psf_dim must be 1, the other case raises (C120)."
  },
  {
   "property": "C119",
   "status": "partial",
   "theorems": [
    "PyFHD.C119_uniform_multiplies"
   ],
   "note": "Violated: visibility_grid.py 520-538 multiplies by weight_invert of the filter, which is itself the inverse of the counts. C119_uniform_multiplies: every plane is multiplied by count times one constant, for all inputs with no_conjugate."
  },
  {
   "property": "C120",
   "status": "partial",
   "theorems": [
    "PyFHD.C120_model_raises",
    "PyFHD.C120_repeats_count_once",
    "PyFHD.C120_interpolated_partial",
    "PyFHD.C120_single_partial",
    "PyFHD.C120_frequency_partial",
    "PyFHD.C120_frequency_mixed",
    "PyFHD.C120_symmetric"
   ],
   "note": "Violated three times. C120_model_raises: 436-438 adds a flat box to a square without .flat, ValueError for every input with a model and something to grid. C120_repeats_count_once: n+2 equal visibilities give n+2 times the data term but once the frequency terms (417-422 lack the weights). C120_frequency_mixed: 258 decodes the channel as in column-major order, so that with two baselines and channels or more the frequency number belongs to another channel. What holds: C120_interpolated_partial (with interpolated kernels every visibility enters each sum of the fit once, and the plane is the slope those sums give), C120_symmetric (the other half is the conjugate mirror), C120_single_partial (a visibility alone in its bin) and C120_frequency_partial (one baseline)."
  },
  {
   "property": "C121",
   "status": "proved",
   "theorems": [
    "PyFHD.C121_phases"
   ],
   "note": "For all data and options, at the level of the whole routine (selection, averaging, iteration, convergence). Assumes that no baseline in use has a flagged tile (otherwise see C66), exact arithmetic and an absolute value satisfying its laws, no calibration_weights."
  },
  {
   "property": "C122",
   "status": "proved",
   "theorems": [
    "PyFHD.C122_order"
   ],
   "note": "Whole routine, all permutations; the sums are exact (rounding not modelled)."
  },
  {
   "property": "C123",
   "status": "proved",
   "theorems": [
    "PyFHD.C123_units"
   ],
   "note": "Whole routine, any nonzero factor per polarisation and channel."
  },
  {
   "property": "C124",
   "status": "partial",
   "theorems": [
    "PyFHD.C124_large_gains",
    "PyFHD.C124_scale_partial"
   ],
   "note": "Violated: the test for divergence (vis_calibrate_subroutine.py 353-358) compares the ratio |new|/|old| with |old|/2 instead of 1/2. C124_large_gains: every gain above 2 that does not grow counts as diverging and gets a third of the correction whatever base_gain is; an example shows that the results of the routine do not scale. C124_scale_partial proves the scaling of the least squares solutions of a step."
  },
  {
   "property": "C125",
   "status": "proved",
   "theorems": [
    "PyFHD.C125_exact_gains"
   ],
   "note": "Whole routine. Assumes at least five equations per tile and channel, one with a nonzero averaged model, that no baseline in use has a flagged tile, and that not all tiles have equally many baselines (C278)."
  },
  {
   "property": "C126",
   "status": "proved",
   "theorems": [
    "PyFHD.C126_limits",
    "PyFHD.C126_limits_narrow",
    "PyFHD.C126_ignored"
   ],
   "note": "Whole routine, all pairs of inputs that agree on what is in use; C126_limits states the limits in wavelengths. Note that the limits of the uv plane use elements for u and dimension for v (exchanged); equal in practice. For data of flagged tiles with unflagged samples see C66."
  },
  {
   "property": "C127",
   "status": "partial",
   "theorems": [
    "PyFHD.C127_written_partial",
    "PyFHD.C127_flagged_kept",
    "PyFHD.C127_solved"
   ],
   "note": "Violated: vis_calibrate_subroutine.py 220 combines the conditions with & instead of |, so a flagged tile with baselines in use keeps its starting gain (C127_flagged_kept). Everything else holds (C127_written_partial). The treatment of NaN gains in 433-440 is not modelled."
  },
  {
   "property": "C128",
   "status": "partial",
   "theorems": [
    "PyFHD.C128_last_polarisation",
    "PyFHD.C128_count_partial"
   ],
   "note": "Violated with several polarisations: the weights of the last one only are counted (C128_last_polarisation). C128_count_partial gives the count, which includes channels not in use."
  },
  {
   "property": "C129",
   "status": "partial",
   "theorems": [
    "PyFHD.C129_phase_fit_partial",
    "PyFHD.C129_phase_fit_shrinks"
   ],
   "note": "Violated: the undamped solution is rescaled to the old amplitude (C129_phase_fit_partial), but the damped average with the old gain is always smaller unless the phase is unchanged (C129_phase_fit_shrinks)."
  },
  {
   "property": "C130",
   "status": "proved",
   "theorems": [
    "PyFHD.C130_block_sums",
    "PyFHD.C130_total",
    "PyFHD.C130_window_raises"
   ],
   "note": "For all sizes, also that any other window raises (C130_window_raises)."
  },
  {
   "property": "C131",
   "status": "proved",
   "theorems": [
    "PyFHD.C131_kernel",
    "PyFHD.C131_own_kernel"
   ],
   "note": "For images of even size whose pixels match the fine uv pixels, n_tracked = 0 (visibility_grid sets it to zero), and a window inside the image; uses the whole of dirty_image_generate. numpy's FFT is trusted to be the sum that defines it."
  },
  {
   "property": "C132",
   "status": "partial",
   "theorems": [
    "PyFHD.C132_clip_partial",
    "PyFHD.C132_faint_kernel_nan",
    "PyFHD.C132_no_clip",
    "PyFHD.C132_threshold"
   ],
   "note": "Violated: the threshold comes from the largest value of the group, and a kernel nowhere above it becomes NaN (C132_faint_kernel_nan). Otherwise proved (C132_clip_partial)."
  },
  {
   "property": "C133",
   "status": "partial",
   "theorems": [
    "PyFHD.C133_counts_partial",
    "PyFHD.C133_first_pixel",
    "PyFHD.C133_many_raise",
    "PyFHD.C133_square_first_pixel"
   ],
   "note": "Violated: np.sum(box_matrix, 0) sums over visibilities instead of pixels, so a single visibility adds the first pixel of its kernel (C133_first_pixel), and more visibilities than pixels raise IndexError (C133_many_raise). The counts are right."
  },
  {
   "property": "C134",
   "status": "partial",
   "theorems": [
    "PyFHD.C134_window_partial",
    "PyFHD.C134_displaced"
   ],
   "note": "The size is right; centred for resolutions 1 and 2. Violated for 3 and more (C134_displaced): image_bot uses the intermediate resolution, the size the full one."
  },
  {
   "property": "C135",
   "status": "partial",
   "theorems": [
    "PyFHD.C135_own_coordinates_partial",
    "PyFHD.C135_own_iff_partial",
    "PyFHD.C135_other_coordinates"
   ],
   "note": "Violated like C32: inds % n_freq and inds // n_freq are applied to an array with the baselines last. C135_own_iff_partial says exactly which samples get their own kernel; C135_other_coordinates shows one that does not."
  },
  {
   "property": "C136",
   "status": "proved",
   "theorems": [
    "PyFHD.C136_regrid",
    "PyFHD.C136_same_grid",
    "PyFHD.C136_oblong_raises",
    "PyFHD.C136_left_over"
   ],
   "note": "On square grids the value at a pixel is that of the lobes at the corresponding place of the first grid, over any ordered field and with any function in place of exp. The statement is restricted to square grids; C136_oblong_raises shows that other grids raise when there is a lobe."
  },
  {
   "property": "C137",
   "status": "partial",
   "theorems": [
    "PyFHD.C137_fraction",
    "PyFHD.C137_dimension_partial",
    "PyFHD.C137_cells_ignored",
    "PyFHD.C137_wrong_direction"
   ],
   "note": "C137_fraction and C137_dimension_partial: for uv cells of one size, images of all sizes show the same beam in the same direction. Violated for uv cells of another size: the size cancels (C137_cells_ignored), so two images of one beam with different cells differ in every direction off the centre (C137_wrong_direction)."
  },
  {
   "property": "C138",
   "status": "partial",
   "theorems": [
    "PyFHD.C138_parameters_partial",
    "PyFHD.C138_changed",
    "PyFHD.C138_second_call",
    "PyFHD.C138_transform_moves"
   ],
   "note": "C138_parameters_partial: without another grid and without the transform the parameters are left alone. Violated otherwise: widths and offsets of the caller's array are changed in place (C138_changed), and a second evaluation with the changed array gives another image (C138_second_call)."
  },
  {
   "property": "C139",
   "status": "partial",
   "theorems": [
    "PyFHD.C139_several_lobes_raise",
    "PyFHD.C139_not_a_transform",
    "PyFHD.C139_phase_partial"
   ],
   "note": "Violated. C139_several_lobes_raise: with more than one lobe the parameters do not broadcast against the plane, unless there are as many lobes as columns. C139_not_a_transform: for one lobe the result grows away from the centre and is no Fourier transform of an image without negative values."
  },
  {
   "property": "C140",
   "status": "partial",
   "theorems": [
    "PyFHD.C140_average_partial"
   ],
   "note": "C140_average_partial: for Gaussian beams, baselines that all have the same beam and norms whose sum is not zero, the image at every pixel is the quotient of the two sums. Not made otherwise: see C143, C144."
  },
  {
   "property": "C141",
   "status": "partial",
   "theorems": [
    "PyFHD.C141_one_bin_partial",
    "PyFHD.C141_too_bright"
   ],
   "note": "C141_one_bin_partial: holds when all channels in use are in one bin. Violated with two or more bins: the image is too bright wherever the beams are positive (C141_too_bright)."
  },
  {
   "property": "C142",
   "status": "partial",
   "theorems": [
    "PyFHD.C142_one_frequency_partial",
    "PyFHD.C142_plain_raises"
   ],
   "note": "C142_one_frequency_partial: holds with square. Violated without: the call raises (C142_plain_raises)."
  },
  {
   "property": "C143",
   "status": "partial",
   "theorems": [
    "PyFHD.C143_kernels_raise"
   ],
   "note": "Violated: without Gaussian parameters every call for a frequency in use raises (C143_kernels_raise)."
  },
  {
   "property": "C144",
   "status": "partial",
   "theorems": [
    "PyFHD.C144_groups_raise"
   ],
   "note": "Violated: with two different beams among the baselines every call raises (C144_groups_raise). With one group the average is proved in C140."
  },
  {
   "property": "C145",
   "status": "partial",
   "theorems": [
    "PyFHD.C145_frequency_partial",
    "PyFHD.C145_overwritten",
    "PyFHD.C145_export_last_bin"
   ],
   "note": "C145_frequency_partial: holds at every frequency that is not enclosed by frequencies of a bin with a larger number, hence for ascending bins. Violated otherwise (C145_overwritten), and in the export, where channels of the last bin get the beam of bin 0 (C145_export_last_bin, by the error of C57)."
  },
  {
   "property": "C146",
   "status": "partial",
   "theorems": [
    "PyFHD.C146_mask_partial",
    "PyFHD.C146_centre_in_mask",
    "PyFHD.C146_faint_centre_raises",
    "PyFHD.C146_odd_image_raises"
   ],
   "note": "C146_mask_partial: the mask is exactly the region, for all beams, thresholds and sizes, when all beams reach the threshold at the centre; scipy.ndimage.label is a parameter with its specification. Violated when a beam is below the threshold at the centre (C146_faint_centre_raises) and for every odd image size (C146_odd_image_raises)."
  },
  {
   "property": "C147",
   "status": "partial",
   "theorems": [
    "PyFHD.C147_polarisations_ignored",
    "PyFHD.C147_hertz_raises",
    "PyFHD.C147_plain_raises",
    "PyFHD.C147_number_of_frequencies_partial",
    "PyFHD.C147_no_frequencies"
   ],
   "note": "C147_number_of_frequencies_partial and C147_no_frequencies hold. Violated: pol_i_arr is ignored (C147_polarisations_ignored), frequencies in Hz raise (C147_hertz_raises), square=False and images that are not square raise (C147_plain_raises)."
  },
  {
   "property": "C148",
   "status": "proved",
   "theorems": [
    "PyFHD.C148_best_fit"
   ],
   "note": "Cable reflections without auto-correlations, nominal mode and hyper-resolution; any set of channels in use."
  },
  {
   "property": "C149",
   "status": "partial",
   "theorems": [
    "PyFHD.C149_recovered_partial",
    "PyFHD.C149_flagged_biased",
    "PyFHD.C149_flagged_not_recovered"
   ],
   "note": "Proved when no channel is flagged and the reflection has a whole number of turns over the band (C149_recovered_partial). Violated otherwise: with only the last channel flagged the amplitude found is too small by 1-1/(N-1)^2 or the mode is another one (C149_flagged_biased, C149_flagged_not_recovered), because the mean over the channels in use is subtracted first."
  },
  {
   "property": "C150",
   "status": "proved",
   "theorems": [
    "PyFHD.C150_round_trip"
   ],
   "note": "Channels at equal distances, at least two of them, cables marked as to be fitted; the speed of light is a parameter."
  },
  {
   "property": "C151",
   "status": "partial",
   "theorems": [
    "PyFHD.C151_untouched_partial",
    "PyFHD.C151_fitted_partial",
    "PyFHD.C151_selection_ignored",
    "PyFHD.C151_mode_of_cable"
   ],
   "note": "C151_untouched_partial and C151_fitted_partial give the rule without auto-correlations. Violated with auto-correlations: the selection by cable length has no effect on the modes (C151_selection_ignored)."
  },
  {
   "property": "C152",
   "status": "partial",
   "theorems": [
    "PyFHD.C152_mode_search_partial",
    "PyFHD.C152_own_cable_included",
    "PyFHD.C152_no_mean",
    "PyFHD.C152_spectrum"
   ],
   "note": "Holds for the search of the mode (C152_mode_search_partial). Violated in the fit of amplitude and phase: tiles to compare with are selected by the mode found, so that unless it equals the nominal mode the tile itself and all tiles on the same cable are included (C152_own_cable_included)."
  },
  {
   "property": "C153",
   "status": "proved",
   "theorems": [
    "PyFHD.C153_amplitudes_kept"
   ],
   "note": "|exp(i x)| = 1 for the factor applied with auto-correlations."
  },
  {
   "property": "C154",
   "status": "partial",
   "theorems": [
    "PyFHD.C154_normalised_partial",
    "PyFHD.C154_neighbour_lost"
   ],
   "note": "A tile that is not followed by a tile without auto-correlations is normalised by its own mean (C154_normalised_partial). Violated: the tile before a tile without auto-correlations loses its own (rebin adds zero times NaN) and gets a mode 2.5 below the nominal one whatever its data (C154_neighbour_lost)."
  },
  {
   "property": "C155",
   "status": "proved",
   "theorems": [
    "PyFHD.C155_phases_recovered"
   ],
   "note": "Whole number of turns M with 2M below the number of channels, no flagged channel; which tiles it is compared with is C152."
  },
  {
   "property": "C156",
   "status": "partial",
   "theorems": [
    "PyFHD.C156_only_square",
    "PyFHD.C156_two_polarisations_raise",
    "PyFHD.C156_truncated",
    "PyFHD.C156_small_values_lost"
   ],
   "note": "Violated. For two polarisations and three or more tiles every standard file that fits ends in a ValueError (C156_two_polarisations_raise): an array over tile, channel and polarisation is assigned to one over polarisation, tile and channel. Files are used only if channels and tiles are equally many and there is one polarisation or as many as tiles (C156_only_square); there the values lose their imaginary part and are truncated to integers (C156_truncated, C156_small_values_lost)."
  },
  {
   "property": "C157",
   "status": "partial",
   "theorems": [
    "PyFHD.C157_both_second",
    "PyFHD.C157_four_products",
    "PyFHD.C157_east_partial"
   ],
   "note": "Violated: both polarisations get the values of the second (C157_both_second). Other orientations are left alone (C157_east_partial)."
  },
  {
   "property": "C158",
   "status": "partial",
   "theorems": [
    "PyFHD.C158_other_width_not_used",
    "PyFHD.C158_averaging_raises",
    "PyFHD.C158_start_unchecked"
   ],
   "note": "Violated: files with another channel width are never used (C158_other_width_not_used); averaging raises (C158_averaging_raises); the first frequency of files that are used is not looked at (C158_start_unchecked)."
  },
  {
   "property": "C159",
   "status": "partial",
   "theorems": [
    "PyFHD.C159_several_times_not_used",
    "PyFHD.C159_pointings_skipped",
    "PyFHD.C159_average_raises"
   ],
   "note": "Violated: files with several times are never used (C159_several_times_not_used), those per pointing are always skipped (C159_pointings_skipped), since the delays of an observation are strings."
  },
  {
   "property": "C160",
   "status": "partial",
   "theorems": [
    "PyFHD.C160_window_not_used"
   ],
   "note": "Violated: the mean is taken over the antennas, so such a file is used for one tile at most (C160_window_not_used)."
  },
  {
   "property": "C161",
   "status": "proved",
   "theorems": [
    "PyFHD.C161_skipped"
   ],
   "note": "For all listed kinds of unsuitable files in the standard convention; for antenna counts, of files that reach that test."
  },
  {
   "property": "C162",
   "status": "partial",
   "theorems": [
    "PyFHD.C162_product_partial",
    "PyFHD.C162_exchanged"
   ],
   "note": "Holds entrywise where the bandpass is not zero (C162_product_partial), but gains are at polarisation, channel and tile and the bandpass at polarisation, tile and channel: the gain of a tile at a channel is divided by the value of another tile and channel, and is not finite where truncation gives zero (C162_exchanged)."
  },
  {
   "property": "C163",
   "status": "partial",
   "theorems": [
    "PyFHD.C163_no_metafits_raises",
    "PyFHD.C163_from_file_partial"
   ],
   "note": "Violated: without a metafits file the names hdr and data are read without having been set (C163_no_metafits_raises). With a file the values are those of the file and of the options (C163_from_file_partial)."
  },
  {
   "property": "C164",
   "status": "partial",
   "theorems": [
    "PyFHD.C164_stops_with_one_good_tile",
    "PyFHD.C164_all_flagged_goes_on"
   ],
   "note": "Violated: the test is for all tiles but one. A run with exactly one good tile stops (C164_stops_with_one_good_tile), one with none goes on (C164_all_flagged_goes_on). The program also ends with exit(), that is with the status of success."
  },
  {
   "property": "C165",
   "status": "partial",
   "theorems": [
    "PyFHD.C165_tile_of_antenna",
    "PyFHD.C165_other_polarisation_ignored",
    "PyFHD.C165_use_partial"
   ],
   "note": "Names and flags belong to the antennas whatever the order of rows (C165_tile_of_antenna), and tile_use and the count follow the flags (C165_use_partial). Violated for flags of the other polarisation, which are ignored (C165_other_polarisation_ignored)."
  },
  {
   "property": "C166",
   "status": "partial",
   "theorems": [
    "PyFHD.C166_zero_raises",
    "PyFHD.C166_codes_same",
    "PyFHD.C166_positive_partial",
    "PyFHD.C166_codes_range"
   ],
   "note": "Violated: if one end of all baselines is number zero, as for two antennas counted from zero without auto-correlations, a KeyError is raised (C166_zero_raises); with baseline codes both ends become the same antenna (C166_codes_same). Holds if both ends have a positive number somewhere (C166_positive_partial)."
  },
  {
   "property": "C167",
   "status": "partial",
   "theorems": [
    "PyFHD.C167_longest_on_grid",
    "PyFHD.C167_shortest",
    "PyFHD.C167_option",
    "PyFHD.C167_none_raises"
   ],
   "note": "C167_longest_on_grid, C167_shortest and C167_option for all data for which limits exist; without any visibility on the grid, or away from the origin, an exception is raised (C167_none_raises)."
  },
  {
   "property": "C168",
   "status": "proved",
   "theorems": [
    "PyFHD.C168_defaults_keep_all"
   ],
   "note": "In real arithmetic; rounding of the comparison made later in gridding is not modelled."
  },
  {
   "property": "C169",
   "status": "partial",
   "theorems": [
    "PyFHD.C169_field",
    "PyFHD.C169_limit_keeps_grid",
    "PyFHD.C169_same_grid",
    "PyFHD.C169_odd_moves"
   ],
   "note": "C169_field, C169_limit_keeps_grid and C169_same_grid for even sizes; for odd sizes the centre moves by half a pixel (C169_odd_moves). The bins of frequencies are C57."
  },
  {
   "property": "C170",
   "status": "partial",
   "theorems": [
    "PyFHD.C170_header",
    "PyFHD.C170_leap_seconds_missing"
   ],
   "note": "C170_header for the entries that are always set; violated for the number of leap seconds, which is announced as -1 but not set (C170_leap_seconds_missing)."
  },
  {
   "property": "C171",
   "status": "partial",
   "theorems": [
    "PyFHD.C171_no_numbers_raises",
    "PyFHD.C171_columns_partial"
   ],
   "note": "C171_columns_partial for tables with antenna numbers; without them an AttributeError is raised instead of the announced default (C171_no_numbers_raises)."
  },
  {
   "property": "C172",
   "status": "partial",
   "theorems": [
    "PyFHD.C172_wide_partial",
    "PyFHD.C172_saturates",
    "PyFHD.C172_darkens",
    "PyFHD.C172_all_dark",
    "PyFHD.C172_constant"
   ],
   "note": "Proved where the range of the data contains 0 (1 with missing pixels) to 255 (C172_wide_partial). Fails otherwise: the scaled colours are compared with the range of the data (image.py 200-205), so the top of the range saturates if it is below 255 (C172_saturates), the bottom is flattened if it is above the first colour (C172_darkens), an image above 255 is drawn in one colour (C172_all_dark) and an image of one value is not drawn (C172_constant)."
  },
  {
   "property": "C173",
   "status": "partial",
   "theorems": [
    "PyFHD.C173_linear",
    "PyFHD.C173_log_absent_raises",
    "PyFHD.C173_log_negative_alike",
    "PyFHD.C173_log_nothing_drawn"
   ],
   "note": "Holds on the linear scale (C173_linear). On the logarithmic scale: NameError if no pixel is missing (C173_log_absent_raises), negative pixels have the colour of missing ones (C173_log_negative_alike), and without a range no positive pixel is drawn if one is missing (C173_log_nothing_drawn, np.min of NaN)."
  },
  {
   "property": "C174",
   "status": "partial",
   "theorems": [
    "PyFHD.C174_changed",
    "PyFHD.C174_unchanged_partial"
   ],
   "note": "Fails with missing pixels: they are set to NaN in the array of the caller (C174_changed). Holds without (C174_unchanged_partial)."
  },
  {
   "property": "C175",
   "status": "proved",
   "theorems": [
    "PyFHD.C175_ordered",
    "PyFHD.C175_lower_end"
   ],
   "note": "C175_ordered, for exact numbers and any increasing logarithm with its inverse; the options log_cut_val and invert_colorbar are not used by quick_image."
  },
  {
   "property": "C176",
   "status": "partial",
   "theorems": [
    "PyFHD.C176_linear_partial",
    "PyFHD.C176_missing_off",
    "PyFHD.C176_log_off"
   ],
   "note": "Holds on the linear scale without missing pixels (C176_linear_partial); with missing pixels every label is off by one colour (C176_missing_off); with log_cut the first label is off by one or two colours (C176_log_off)."
  },
  {
   "property": "C177",
   "status": "partial",
   "theorems": [
    "PyFHD.C177_sign_lost",
    "PyFHD.C177_size_partial"
   ],
   "note": "Fails: a value and its negative have the same colour (C177_sign_lost). Colours are ordered by the size of the value (C177_size_partial)."
  },
  {
   "property": "C178",
   "status": "partial",
   "theorems": [
    "PyFHD.C178_negative_saturate",
    "PyFHD.C178_nonneg_partial"
   ],
   "note": "Holds for values whose size is within the range (C178_nonneg_partial). The range is not that of absolute values, so negative values beyond it saturate (C178_negative_saturate)."
  },
  {
   "property": "C179",
   "status": "partial",
   "theorems": [
    "PyFHD.C179_twice",
    "PyFHD.C179_format_partial",
    "PyFHD.C179_several"
   ],
   "note": "The extension is always added, so a name that has one gets it twice (C179_twice). Otherwise as stated (C179_format_partial, C179_several)."
  },
  {
   "property": "C180",
   "status": "partial",
   "theorems": [
    "PyFHD.C180_default_raises"
   ],
   "note": "Fails for every input: the default of count_missing is None, which is compared with 0 (C180_default_raises). With the option given the function works, see C175, C177 and C178."
  },
  {
   "property": "C181",
   "status": "proved",
   "theorems": [
    "PyFHD.C181_converged"
   ],
   "note": "C181_converged, for exact arithmetic and runs without NaN. Channels are those of C127_solved."
  },
  {
   "property": "C182",
   "status": "partial",
   "theorems": [
    "PyFHD.C182_entries_partial",
    "PyFHD.C182_files_needed",
    "PyFHD.C182_missing_ends",
    "PyFHD.C182_one_number_loses_axis"
   ],
   "note": "C182_entries_partial covers files of one shape with more than one number or behind a pointer, for all n_pol, n_freq, n_baselines; C182_files_needed and C182_missing_ends: the files. Violated for one baseline and one channel (C182_one_number_loses_axis): the test for size 1 meant for pointers (90, 109) takes the first row, and the result has two axes instead of three."
  },
  {
   "property": "C183",
   "status": "partial",
   "theorems": [
    "PyFHD.C183_repeated",
    "PyFHD.C183_other_shape_refused_partial",
    "PyFHD.C183_sav_channels_unchecked",
    "PyFHD.C183_uvfits_partial",
    "PyFHD.C183_other_type"
   ],
   "note": "C183_uvfits_partial: a uvfits model with another number of channels ends the run. C183_other_shape_refused_partial: different shapes raise, unless an axis has length one. Violated: C183_repeated (a polarisation with one baseline or channel is repeated over the others by broadcasting) and C183_sav_channels_unchecked (for IDL files the number of channels is not compared with obs)."
  },
  {
   "property": "C184",
   "status": "proved",
   "theorems": [
    "PyFHD.C184_structures",
    "PyFHD.C184_empty_raises"
   ],
   "note": "C184_structures by induction over the structure; the form of what readsav returns is Spec.columns. C184_empty_raises: arrays without entries, which IDL does not have, raise IndexError."
  },
  {
   "property": "C185",
   "status": "partial",
   "theorems": [
    "PyFHD.C185_later_records_lost",
    "PyFHD.C185_numbers_kept_partial"
   ],
   "note": "Violated: C185_later_records_lost (line 588 takes the first element of an array of records). What holds: C185_numbers_kept_partial, numbers directly in the records."
  },
  {
   "property": "C186",
   "status": "partial",
   "theorems": [
    "PyFHD.C186_arrays_stripped_partial",
    "PyFHD.C186_single_kept"
   ],
   "note": "C186_arrays_stripped_partial: strings in arrays. Violated for single strings (C186_single_kept): line 604 decodes without strip."
  },
  {
   "property": "C187",
   "status": "partial",
   "theorems": [
    "PyFHD.C187_repeated",
    "PyFHD.C187_truncated",
    "PyFHD.C187_list_partial",
    "PyFHD.C187_null_pointer",
    "PyFHD.C187_number_repeated",
    "PyFHD.C187_nulls_alone",
    "PyFHD.C187_nulls_in_front"
   ],
   "note": "Same shape and type: C184_structures. Violated: C187_repeated (an array of one number after a longer one is repeated, not kept in a list) and C187_truncated (floats after integers lose their fraction, since the new array has the type of the first). C187_list_partial: arrays that cannot be broadcast become a list."
  },
  {
   "property": "C188",
   "status": "partial",
   "theorems": [
    "PyFHD.C188_first_baseline",
    "PyFHD.C188_other_files",
    "PyFHD.C188_no_beam",
    "PyFHD.C188_no_baselines"
   ],
   "note": "C188_first_baseline, C188_other_files. Violated for any other suffix, such as .SAV (C188_no_beam): None is returned and the run goes on without a beam."
  },
  {
   "property": "C189",
   "status": "partial",
   "theorems": [
    "PyFHD.C189_same_shape_partial",
    "PyFHD.C189_rows_partial",
    "PyFHD.C189_misaligned"
   ],
   "note": "C189_same_shape_partial: arrays of one shape are stacked. Violated (C189_misaligned): arrays with r+1, r and r+2 rows are joined and cut at the wrong places. Modelled is one pass of the loop for an object array of one axis."
  },
  {
   "property": "C190",
   "status": "proved",
   "theorems": [
    "PyFHD.C190_linear"
   ],
   "note": "Three runs compared through the sums over the bins: C190_linear holds for planes of any shape, with and without interpolation, and after the symmetrisation."
  },
  {
   "property": "C191",
   "status": "proved",
   "theorems": [
    "PyFHD.C191_weights",
    "PyFHD.C191_outcome"
   ],
   "note": "C191_weights for planes and counts, C191_outcome for empty results and errors."
  },
  {
   "property": "C192",
   "status": "proved",
   "theorems": [
    "PyFHD.C192_flagged"
   ],
   "note": "C192_flagged: equality of the whole result."
  },
  {
   "property": "C193",
   "status": "proved",
   "theorems": [
    "PyFHD.C193_idempotent"
   ],
   "note": "C193_idempotent: the second update returns exactly what the first returned."
  },
  {
   "property": "C194",
   "status": "proved",
   "theorems": [
    "PyFHD.C194_products",
    "PyFHD.C194_unit",
    "PyFHD.C194_linear"
   ],
   "note": "C194_products, C194_unit, C194_linear; without the cross-phase fit, whose failure is C35."
  },
  {
   "property": "C195",
   "status": "proved",
   "theorems": [
    "PyFHD.C195_direction"
   ],
   "note": "C195_direction: equality of the whole result. Baselines with v = 0 exactly are excluded by the statement: they are never mirrored, so their direction decides which half they are put in."
  },
  {
   "property": "C196",
   "status": "proved",
   "theorems": [
    "PyFHD.C196_two_steps"
   ],
   "note": "C196_two_steps. Integer arrays are truncated in every step and are not claimed."
  },
  {
   "property": "C197",
   "status": "proved",
   "theorems": [
    "PyFHD.C197_joined",
    "PyFHD.C197_order"
   ],
   "note": "C197_joined and C197_order."
  },
  {
   "property": "C198",
   "status": "proved",
   "theorems": [
    "PyFHD.C198_value"
   ],
   "note": "The table of options is that of the code; argparse and configargparse are modelled. int() and float() are parameters."
  },
  {
   "property": "C199",
   "status": "partial",
   "theorems": [
    "PyFHD.C199_switch_partial",
    "PyFHD.C199_export_images_on"
   ],
   "note": "Proved for all switches but export_images (C199_switch_partial). Violated: export_images has the default True and can only be turned on, so images are exported with every file and command line (C199_export_images_on)."
  },
  {
   "property": "C200",
   "status": "partial",
   "theorems": [
    "PyFHD.C200_file_ignored_partial",
    "PyFHD.C200_switch_stays_on"
   ],
   "note": "Proved: the file has no effect on options named on the command line (C200_file_ignored_partial), whose value is then the last one given (C198_value). Violated: there is no way to say off, so a switch that the file turns on stays on with every command line (C200_switch_stays_on)."
  },
  {
   "property": "C201",
   "status": "partial",
   "theorems": [
    "PyFHD.C201_tiles_in_pieces",
    "PyFHD.C201_times_in_pieces"
   ],
   "note": "Violated for all four options: type=list takes each text apart into characters (C201_tiles_in_pieces, C201_times_in_pieces). Proved is exactly what arrives; without the options it is the default."
  },
  {
   "property": "C202",
   "status": "proved",
   "theorems": [
    "PyFHD.C202_mistakes"
   ],
   "note": "Exact condition, for the command line and the file; the program ends with SystemExit otherwise."
  },
  {
   "property": "C203",
   "status": "partial",
   "theorems": [
    "PyFHD.C203_keys_partial",
    "PyFHD.C203_keys_refused"
   ],
   "note": "Proved for all keys but three (C203_keys_partial). Violated for deproject-w-term (the option is deproject_w_term), calibration-checkpoint (calibrate-checkpoint) and calibration-catalog-file-path (calibration_catalog-file-path): any value ends the program (C203_keys_refused)."
  },
  {
   "property": "C204",
   "status": "proved",
   "theorems": [
    "PyFHD.C204_directory"
   ],
   "note": "The disk is a set of directories and files; permissions, links and the part .. are not modelled."
  },
  {
   "property": "C205",
   "status": "partial",
   "theorems": [
    "PyFHD.C205_warned",
    "PyFHD.C205_own_directory_partial",
    "PyFHD.C205_shared"
   ],
   "note": "Proved: every reuse is warned of (C205_warned); descriptions without blanks and slashes that differ give different directories (C205_own_directory_partial). Violated: descriptions that differ in a blank and an underscore, and runs without description within one second, share a directory (C205_shared)."
  },
  {
   "property": "C206",
   "status": "proved",
   "theorems": [
    "PyFHD.C206_log_names"
   ],
   "note": "Equivalence, for times of equal length, which strftime gives."
  },
  {
   "property": "C207",
   "status": "partial",
   "theorems": [
    "PyFHD.C207_slash_fails",
    "PyFHD.C207_created_partial",
    "PyFHD.C207_nested_fails"
   ],
   "note": "Proved when the parent exists (C207_created_partial). Violated: a path whose parent does not exist ends the program with FileNotFoundError (C207_nested_fails), and so does a description with a slash (C207_slash_fails)."
  },
  {
   "property": "C208",
   "status": "partial",
   "theorems": [
    "PyFHD.C208_once_partial",
    "PyFHD.C208_silent_speaks",
    "PyFHD.C208_repeated"
   ],
   "note": "Proved for the first run in a process (C208_once_partial). Violated: a silent run without log file shows warnings, and the creation of the output path is told although silent (C208_silent_speaks); handlers are closed at the end but stay, so later runs in the process show each message several times and write it to the logs of earlier runs (C208_repeated). The rules of the logging library are modelled."
  },
  {
   "property": "C209",
   "status": "partial",
   "theorems": [
    "PyFHD.C209_reported_partial",
    "PyFHD.C209_confused"
   ],
   "note": "Exact: a value is reported with blanks for its underscores, so unchanged exactly when it has none (C209_reported_partial, for values without bars). Violated: names that differ in a blank and an underscore are reported alike (C209_confused)."
  },
  {
   "property": "C210",
   "status": "partial",
   "theorems": [
    "PyFHD.C210_commit_partial",
    "PyFHD.C210_any_repository"
   ],
   "note": "Proved with a complete information file (C210_commit_partial). Violated: without it the output of git in the working directory is taken, whatever repository that is and even if empty, with its newline; the text that nothing was found is never used; a file with fewer than three lines raises IndexError (C210_any_repository)."
  },
  {
   "property": "C211",
   "status": "proved",
   "theorems": [
    "PyFHD.C211_durations"
   ],
   "note": "In exact arithmetic; round and timedelta round halves to even."
  },
  {
   "property": "C212",
   "status": "proved",
   "theorems": [
    "PyFHD.C212_nside"
   ],
   "note": "Over exact reals: rounding of the logarithm is not modelled. For image pixels larger than a quarter of the sky the power is below one and pix2vec fails."
  },
  {
   "property": "C213",
   "status": "proved",
   "theorems": [
    "PyFHD.C213_horizon",
    "PyFHD.C213_none_left"
   ],
   "note": "For lists with an nside and not exactly one pixel; positions strictly inside a cell of the image (C55 and C76 treat the others). When no pixel is left the call fails (C213_none_left)."
  },
  {
   "property": "C214",
   "status": "partial",
   "theorems": [
    "PyFHD.C214_no_list_fails",
    "PyFHD.C214_list_partial"
   ],
   "note": "The code violates it: without a list the mask is indexed by floating point numbers, so every call fails (C214_no_list_fails). The switch is off unless given. With a list the call does not fail (C214_list_partial)."
  },
  {
   "property": "C215",
   "status": "partial",
   "theorems": [
    "PyFHD.C215_nearest_partial",
    "PyFHD.C215_kept"
   ],
   "note": "The code violates it: the chosen list is written to the options, and a later call with the same options uses it for another observation (C215_kept). For fresh options the nearest list is used (C215_nearest_partial; C77 says which this is)."
  },
  {
   "property": "C216",
   "status": "partial",
   "theorems": [
    "PyFHD.C216_counts_partial",
    "PyFHD.C216_whole_counted"
   ],
   "note": "The number of pixels is right; the number of masked pixels is right when all pixels lie strictly inside cells (C216_counts_partial). Pixels with a whole coordinate are counted as masked though nothing is (C216_whole_counted)."
  },
  {
   "property": "C217",
   "status": "partial",
   "theorems": [
    "PyFHD.C217_columns_partial",
    "PyFHD.C217_split_date",
    "PyFHD.C217_split_day"
   ],
   "note": "Holds when each name is used once (C217_columns_partial). The code violates it when the date is split into two parameters: only the first is read (C217_split_date), so that all visibilities of a day get the same time (C217_split_day) and the import fails (C43_single_time_type_error)."
  },
  {
   "property": "C218",
   "status": "partial",
   "theorems": [
    "PyFHD.C218_header_first_partial",
    "PyFHD.C218_unknown_fails"
   ],
   "note": "Holds for instruments astropy knows (C218_header_first_partial). The code violates it for others: the substitute call raises, whatever the header gives (C218_unknown_fails)."
  },
  {
   "property": "C219",
   "status": "proved",
   "theorems": [
    "PyFHD.C219_pointing",
    "PyFHD.C219_refused",
    "PyFHD.C219_date"
   ],
   "note": "All three parts, for all headers."
  },
  {
   "property": "C220",
   "status": "proved",
   "theorems": [
    "PyFHD.C220_integers_exact"
   ],
   "note": "For every rounding to p binary digits that keeps order and integers (the rounding of float64 is proved to be one, p = 53) the model with rounding after every operation equals the exact model, so C01 to C03 apply to it."
  },
  {
   "property": "C221",
   "status": "partial",
   "theorems": [
    "PyFHD.C221_returned_partial",
    "PyFHD.C221_near_partial",
    "PyFHD.C221_within_partial",
    "PyFHD.C221_out_of_bounds",
    "PyFHD.C221_out_of_bounds_default"
   ],
   "note": "The code violates the claim: with bins of width 0.1 any data that reach from 0 to 0.6 make the compiled loop write one element past the counts (C221_out_of_bounds). Proved instead: whenever the call returns the bins partition the data of the range in order; a datum lies between the edges of its bin up to a few rounding errors; and the call returns if the upper limit is less than one bin above the last edge by a margin of the order of the rounding error. Overflow and subnormal numbers are not modelled."
  },
  {
   "property": "C222",
   "status": "partial",
   "theorems": [
    "PyFHD.C222_nothing_without_images",
    "PyFHD.C222_saved_partial",
    "PyFHD.C222_paths_distinct",
    "PyFHD.C222_names"
   ],
   "note": "The code violates the claim: results are saved by quickview only, so that a run without export_images saves none of them whatever was asked for (C222_nothing_without_images, for all stages and options), and the model visibilities are never saved although the help of the option says so. Proved: with export_images exactly the results asked for are saved, under distinct paths; the planes only when they were computed in this run."
  },
  {
   "property": "C223",
   "status": "partial",
   "theorems": [
    "PyFHD.C223_distinct_partial",
    "PyFHD.C223_filters_collide",
    "PyFHD.C223_filter_in_name"
   ],
   "note": "The code violates the claim: the name contains only the last word of the filter, so that filter_uv_uniform and filter_uv_tapered_uniform give the same names. Proved: within a run all names are distinct, for every filter that can be chosen."
  },
  {
   "property": "C224",
   "status": "partial",
   "theorems": [
    "PyFHD.C224_even_partial",
    "PyFHD.C224_odd_half_pixel",
    "PyFHD.C224_again"
   ],
   "note": "The code violates the claim: the reference pixel is truncated, so that images of odd size are off by half a pixel, and the matrix of the observation is multiplied in place, so that the second export has a wrong scale. Proved for the first export of images of even size."
  },
  {
   "property": "C225",
   "status": "proved",
   "theorems": [
    "PyFHD.C225_uv_coordinates"
   ],
   "note": "For every even size, cell size and cell."
  },
  {
   "property": "C226",
   "status": "partial",
   "theorems": [
    "PyFHD.C226_model_visibilities_partial",
    "PyFHD.C226_other_count",
    "PyFHD.C226_other_count_ends",
    "PyFHD.C226_other_frequencies"
   ],
   "note": "Violated: only the number of channels is compared, a model for other frequencies is used (C226_other_frequencies). Proved: with equal numbers the visibilities and parameters are those of the file; another number is never used."
  },
  {
   "property": "C227",
   "status": "partial",
   "theorems": [
    "PyFHD.C227_arguments_partial",
    "PyFHD.C227_blank",
    "PyFHD.C227_relative",
    "PyFHD.C227_run"
   ],
   "note": "Violated: the command is split at blanks, a blank in the directory shifts the arguments (C227_blank), and with a relative directory IDL, run inside it, looks for a directory of the same name there (C227_relative). Proved for absolute directories without blanks."
  },
  {
   "property": "C228",
   "status": "proved",
   "theorems": [
    "PyFHD.C228_datasets",
    "PyFHD.C228_too_few"
   ],
   "note": "For arrays of visibilities with three axes."
  },
  {
   "property": "C229",
   "status": "partial",
   "theorems": [
    "PyFHD.C229_read_partial",
    "PyFHD.C229_missing",
    "PyFHD.C229_copy_place",
    "PyFHD.C229_overwritten"
   ],
   "note": "Violated: a compressed file in the directory of temporary files is replaced by its copy (C229_overwritten). Proved for other paths; files are taken to have one path each."
  },
  {
   "property": "C230",
   "status": "partial",
   "theorems": [
    "PyFHD.C230_call_does_not_fit",
    "PyFHD.C230_never",
    "PyFHD.C230_type_error",
    "PyFHD.C230_other_calls_partial"
   ],
   "note": "Violated for all arguments: the call of baseline_grid_locations lacks the logger (C230_never). What follows that call is not modelled. Proved: the other calls of it fit (C230_other_calls_partial)."
  },
  {
   "property": "C231",
   "status": "partial",
   "theorems": [
    "PyFHD.C231_never",
    "PyFHD.C231_nothing_partial",
    "PyFHD.C231_last_ignored"
   ],
   "note": "Violated: no map is ever converted (C231_never), and values in the last row and column are not looked at (C231_last_ignored). Proved: when 0 is returned, for square maps with an array for every pixel."
  },
  {
   "property": "C232",
   "status": "proved",
   "theorems": [
    "PyFHD.C232_any_pixel",
    "PyFHD.C232_union",
    "PyFHD.C232_wider"
   ],
   "note": "Seed (C232_any_pixel), several seeds (C232_union), ranges (C232_wider). The labelling of connected components is a parameter with the specification of C59."
  },
  {
   "property": "C233",
   "status": "partial",
   "theorems": [
    "PyFHD.C233_order_partial",
    "PyFHD.C233_order_matters"
   ],
   "note": "Proved for square planes when all channels to be gridded use the same kernel (C233_order_partial), for relabelled samples, reordered lists and arbitrary beam groups. Violated when channels have different kernels: the kernel is looked up by the position of the sample in the list (C32), so that exchanging two samples changes the weights (C233_order_matters)."
  },
  {
   "property": "C234",
   "status": "partial",
   "theorems": [
    "PyFHD.C234_adjoint_partial"
   ],
   "note": "C234_adjoint_partial, for square planes and channels that share a kernel; with other channels samples get the kernels of other channels (C32), and on other planes the footprints leave the plane (C28)."
  },
  {
   "property": "C235",
   "status": "partial",
   "theorems": [
    "PyFHD.C235_matched_partial",
    "PyFHD.C235_source_partial"
   ],
   "note": "C235_matched_partial and C235_source_partial, for square planes of even size and channels that share a kernel; the rest is excluded by C32, C28 and C97_odd_shifted."
  },
  {
   "property": "C236",
   "status": "partial",
   "theorems": [
    "PyFHD.C236_offset_partial",
    "PyFHD.C236_position_partial",
    "PyFHD.C236_whole_pixel",
    "PyFHD.C236_centre_partial",
    "PyFHD.C236_corner_partial"
   ],
   "note": "Index and remainder are in range for every rounding (C236_offset_partial), the first pixel is exact for even sizes (C236_corner_partial), the coordinate has a relative error of two roundings (C236_centre_partial), and the position is right up to three rounding errors unless the coordinate is within two rounding errors below a whole number (C236_position_partial). Violated there: a coordinate between -2^-54 and 0 is put a whole pixel away, as the remainder rounds to 1 and wraps to offset 0 without moving the pixel (C236_whole_pixel)."
  },
  {
   "property": "C237",
   "status": "proved",
   "theorems": [
    "PyFHD.C237_weights"
   ],
   "note": "C237_weights, for any rounding that is monotone, keeps integers and has a relative error of at most 2^-p; float64 is an instance."
  },
  {
   "property": "C238",
   "status": "proved",
   "theorems": [
    "PyFHD.C238_numbers"
   ],
   "note": "The flags of tiles and of baselines must agree and the reference tile must stay the same tile: otherwise the common phase differs and with it the relative changes that decide convergence."
  },
  {
   "property": "C239",
   "status": "proved",
   "theorems": [
    "PyFHD.C239_channels"
   ],
   "note": "Both runs are taken to succeed; whether a run succeeds can depend on other channels (an error there ends the run)."
  },
  {
   "property": "C240",
   "status": "partial",
   "theorems": [
    "PyFHD.C240_real_partial",
    "PyFHD.C240_imaginary_partial",
    "PyFHD.C240_factor",
    "PyFHD.C240_empty_pixel"
   ],
   "note": "Square planes, as C31; the sum is any tree of rounded operations on parts of kernels and visibilities. Overflow and subnormal numbers are not modelled."
  },
  {
   "property": "C241",
   "status": "proved",
   "theorems": [
    "PyFHD.C241_hermitian",
    "PyFHD.C241_fixed"
   ],
   "note": "For every rounding that is odd and keeps doubling exact, which is proved for the rounding to 53 digits."
  },
  {
   "property": "C242",
   "status": "proved",
   "theorems": [
    "PyFHD.C242_reference",
    "PyFHD.C242_position_again",
    "PyFHD.C242_pixel_again",
    "PyFHD.C242_no_confusion",
    "PyFHD.C242_centre"
   ],
   "note": "Over the reals; the projection that astropy computes is written out (FITS paper II) and trusted. Astrometry as project_slant_orthographic makes it."
  },
  {
   "property": "C243",
   "status": "partial",
   "theorems": [
    "PyFHD.C243_horizon_partial",
    "PyFHD.C243_mask_partial",
    "PyFHD.C243_south_lost"
   ],
   "note": "Proved with the zenith to the north of the phase centre. Violated with the zenith to the south (C243_south_lost): the sign of the slant parameters is wrong (C93), the horizon is that of a zenith mirrored at the phase centre, and some position above the horizon has no pixel."
  },
  {
   "property": "C244",
   "status": "partial",
   "theorems": [
    "PyFHD.C244_phase_partial",
    "PyFHD.C244_south_w_term"
   ],
   "note": "Proved with the zenith to the north of the phase centre. Violated with the zenith to the south (C244_south_w_term): the phase differs by twice the w term."
  },
  {
   "property": "C245",
   "status": "proved",
   "theorems": [
    "PyFHD.C245_direction"
   ],
   "note": "All results of the routine, for any set of baselines taken in the other direction; needs that weights read as gains are their own conjugates and that the length of (-u,-v) is that of (u,v). With averaging over time all integrations of a baseline have to be taken in the same direction, since the routine reads the tiles of the first integration only."
  },
  {
   "property": "C246",
   "status": "partial",
   "theorems": [
    "PyFHD.C246_parts_partial",
    "PyFHD.C246_parts_differ"
   ],
   "note": "Proved for square planes and one kernel for all channels (C246_parts_partial), for the number of visibilities and all planes. Violation (C246_parts_differ): with different kernels the parts do not add up, because a sample gets the kernel of another sample of its group (C32)."
  },
  {
   "property": "C247",
   "status": "partial",
   "theorems": [
    "PyFHD.C247_restored_partial",
    "PyFHD.C247_cross_phase"
   ],
   "note": "XX and YY are restored exactly whatever the reference tile. Violation for XY and YX: the phases of X and Y refer to tiles independently of each other, so that the corrected products have an unknown phase, different for every channel (C247_restored_partial says which, C247_cross_phase is an example in which the sign is wrong); the phase that vis_calibration_apply would fit is never applied (C35). Without a reference tile there is no such phase."
  },
  {
   "property": "C248",
   "status": "partial",
   "theorems": [
    "PyFHD.C248_linear_partial",
    "PyFHD.C248_range_partial",
    "PyFHD.C248_error_partial",
    "PyFHD.C248_integer_positions"
   ],
   "note": "Proved for positions strictly between rows and columns of pixels. Violation: positions with an integer coordinate get 0 (C248_integer_positions, C55)."
  },
  {
   "property": "C249",
   "status": "proved",
   "theorems": [
    "PyFHD.C249_filter"
   ],
   "note": "For the whole function with the default threshold and without mask, padding, beam and normalisation; the convolution repeats beyond the edges of the image, as the discrete transform does. Exact arithmetic."
  },
  {
   "property": "C250",
   "status": "partial",
   "theorems": [
    "PyFHD.C250_total_partial",
    "PyFHD.C250_total_odd",
    "PyFHD.C250_power",
    "PyFHD.C250_error"
   ],
   "note": "Power and error bounds hold for all sizes, the total flux for even sizes. Violation: for odd sizes the sum of pixels is the value of another cell than the central one (C250_total_odd), see C97."
  },
  {
   "property": "C251",
   "status": "proved",
   "theorems": [
    "PyFHD.C251_split_again"
   ],
   "note": "All weights and observations for which the function returns a pair."
  },
  {
   "property": "C252",
   "status": "partial",
   "theorems": [
    "PyFHD.C252_range_partial",
    "PyFHD.C252_undone",
    "PyFHD.C252_rest"
   ],
   "note": "Holds with flag_frequencies (C252_range_partial). Violated without it, which is the default of the command line: lines 165-183 put every channel without weights back where the data are not zero, including those that flag_freq_start and flag_freq_end removed just before (C252_undone: weight one for every sample with data of a baseline used in the range; C252_rest: zero elsewhere)."
  },
  {
   "property": "C253",
   "status": "partial",
   "theorems": [
    "PyFHD.C253_again_partial",
    "PyFHD.C253_channel_returns"
   ],
   "note": "Holds with flag_frequencies (C253_again_partial). Violated without: a channel with weights in flagged time steps only is put back by the second call (C253_channel_returns)."
  },
  {
   "property": "C254",
   "status": "proved",
   "theorems": [
    "PyFHD.C254_position_again",
    "PyFHD.C254_altaz_again",
    "PyFHD.C254_culmination"
   ],
   "note": "The transformation of astropy is replaced by the rotation of the sky (Model/AltAz)."
  },
  {
   "property": "C255",
   "status": "proved",
   "theorems": [
    "PyFHD.C255_zenith"
   ],
   "note": "As C254."
  },
  {
   "property": "C256",
   "status": "partial",
   "theorems": [
    "PyFHD.C256_horizon_partial",
    "PyFHD.C256_south_lost"
   ],
   "note": "Holds with the zenith to the north of the phase centre; violated with the zenith to the south (C256_south_lost), from the sign of the slant (C93)."
  },
  {
   "property": "C257",
   "status": "partial",
   "theorems": [
    "PyFHD.C257_residual",
    "PyFHD.C257_exact_fit",
    "PyFHD.C257_whole_turn"
   ],
   "note": "C257_residual: the angle is right up to whole turns; C257_exact_fit. Violated in that it is not the smallest one: raw and fitted phases are unwrapped separately, so that phases on both sides of half a turn in the first channel give a residual of nearly a whole turn in all channels (C257_whole_turn). Signs of zero are not modelled."
  },
  {
   "property": "C258",
   "status": "partial",
   "theorems": [
    "PyFHD.C258_inside",
    "PyFHD.C258_unused_tile",
    "PyFHD.C258_no_number"
   ],
   "note": "C258_inside holds. Violated: the limits are those of all tiles, in use or not, though the comment says otherwise (C258_unused_tile), and without any gain that is a number the function raises (C258_no_number)."
  },
  {
   "property": "C259",
   "status": "partial",
   "theorems": [
    "PyFHD.C259_points_partial",
    "PyFHD.C259_drawn",
    "PyFHD.C259_lost"
   ],
   "note": "Holds for all curves but the residual phases (C259_points_partial). Violated for these: np.unwrap loses all channels after the first that is not a number (C259_lost)."
  },
  {
   "property": "C260",
   "status": "partial",
   "theorems": [
    "PyFHD.C260_panel",
    "PyFHD.C260_tiling",
    "PyFHD.C260_place",
    "PyFHD.C260_one_panel_each",
    "PyFHD.C260_left_open"
   ],
   "note": "Proved: the place of each panel, and that the panels tile the figure (`C260_panel`, `C260_place`, `C260_tiling`). Violated by the code: each call makes, saves and closes a figure of its own, so a file has a single panel (`C260_one_panel_each`); a call that raises for a wrong place leaves its figure open until the next call for this window, whose image is drawn over it (`C260_left_open`)."
  },
  {
   "property": "C261",
   "status": "partial",
   "theorems": [
    "PyFHD.C261_columns_partial",
    "PyFHD.C261_indices_partial",
    "PyFHD.C261_upside_down"
   ],
   "note": "Proved for columns and, without coordinates, for both axes. Violated by the code for rows with coordinates: `imshow` puts the first row at the top, which `extent` makes the last coordinate (`C261_upside_down`)."
  },
  {
   "property": "C262",
   "status": "partial",
   "theorems": [
    "PyFHD.C262_passed_partial",
    "PyFHD.C262_accepts",
    "PyFHD.C262_relative"
   ],
   "note": "Proved with the tolerance that is really used. Violated by the code: the relative tolerance of `assert_allclose` is added, so numbers that differ by more than the tolerance can pass (`C262_relative`)."
  },
  {
   "property": "C263",
   "status": "partial",
   "theorems": [
    "PyFHD.C263_all_saved_partial",
    "PyFHD.C263_other_file"
   ],
   "note": "Proved for `.sav` and `.npy` files. Violated by the code for others: a `NameError` if it is the first, else the file before is converted again without a word (`C263_other_file`)."
  },
  {
   "property": "C264",
   "status": "partial",
   "theorems": [
    "PyFHD.C264_entries_partial",
    "PyFHD.C264_repeated"
   ],
   "note": "Proved for arrays of one shape. Violated by the code: a polarisation with a single baseline is repeated (`C264_repeated`)."
  },
  {
   "property": "C265",
   "status": "proved",
   "theorems": [
    "PyFHD.C265_solver",
    "PyFHD.C265_amplitudes"
   ],
   "note": "Whole routine, every way to stop. Assumes exact data (as C125), starting phases right up to a common one, and exact arithmetic."
  },
  {
   "property": "C266",
   "status": "partial",
   "theorems": [
    "PyFHD.C266_solver",
    "PyFHD.C266_common_error_partial",
    "PyFHD.C266_test_strikes"
   ],
   "note": "Proved with the factor of the average not adapted and gains so small that the test for divergence does not strike (|g| o^3 <= o^2 + 1 with o the factor of the error); beyond that the test replaces improving gains, and the errors of the tiles differ (`C266_test_strikes`)."
  },
  {
   "property": "C267",
   "status": "partial",
   "theorems": [
    "PyFHD.C267_fewer_raises",
    "PyFHD.C267_more_left_alone",
    "PyFHD.C267_tiles_partial"
   ],
   "note": "Violated: the number of tiles is the constant 128, so fewer antennas raise an error (C267_fewer_raises) and antennas beyond the first 128 keep their number (C267_more_left_alone). Proved for 128 antennas (C267_tiles_partial), where C42 says what renumbering does."
  },
  {
   "property": "C268",
   "status": "partial",
   "theorems": [
    "PyFHD.C268_sizes",
    "PyFHD.C268_tile_flags_any_length",
    "PyFHD.C268_limits_partial",
    "PyFHD.C268_limit_above"
   ],
   "note": "Sizes, counts and the centre are proved (C268_sizes). Violated for the flags of tiles, which have as many entries as the metafits file has antennas (C268_tile_flags_any_length), and for the limits of baselines if the option for the shortest is above the longest (C268_limit_above); without the option C268_limits_partial."
  },
  {
   "property": "C269",
   "status": "partial",
   "theorems": [
    "PyFHD.C269_integrations_partial",
    "PyFHD.C269_flagged_partial",
    "PyFHD.C269_unordered"
   ],
   "note": "For times in order (C269_integrations_partial, C269_flagged_partial); violated for others (C269_unordered)."
  },
  {
   "property": "C270",
   "status": "partial",
   "theorems": [
    "PyFHD.C270_flagged_partial",
    "PyFHD.C270_weights_partial"
   ],
   "note": "For 128 antennas that are renumbered correctly (C42), metafits files with every antenna once for each polarisation and equal flags in both, and times in order. Other cases: C42, C165, C267, C269."
  },
  {
   "property": "C271",
   "status": "proved",
   "theorems": [
    "PyFHD.C271_smooth_kept",
    "PyFHD.C271_data_restored"
   ],
   "note": "With or without cable groups and auto-correlation ratios; without gain jump and reflections. The hypothesis that the resistant mean of the bandpass is a number is met for an odd number of channels (C80)."
  },
  {
   "property": "C272",
   "status": "partial",
   "theorems": [
    "PyFHD.C272_tiles_alike",
    "PyFHD.C272_lost",
    "PyFHD.C272_common_partial"
   ],
   "note": "Violated: the gains are real and the same for all tiles (C272_tiles_alike), phases and factors of the tiles are lost, with cable groups too (C272_lost). Kept are gains that are real, common and of mean 1 (C272_common_partial)."
  },
  {
   "property": "C273",
   "status": "proved",
   "theorems": [
    "PyFHD.C273_exact",
    "PyFHD.C273_model_data"
   ],
   "note": "One or two polarisations (with four the application raises, see C35), without gain jump, cable reflections and starts from auto-correlations. Gains of flagged tiles (NaN in the code) are zero in the model. The least-squares fit is a parameter with its specification."
  },
  {
   "property": "C274",
   "status": "proved",
   "theorems": [
    "PyFHD.C274_unused"
   ],
   "note": "Whole `calibrate`; auto-correlations are held fixed. A run whose solver ends in NaN is not covered (an error in the model)."
  },
  {
   "property": "C275",
   "status": "proved",
   "theorems": [
    "PyFHD.C275_order"
   ],
   "note": "Whole `calibrate` without time averaging; auto-correlations are held fixed."
  },
  {
   "property": "C276",
   "status": "proved",
   "theorems": [
    "PyFHD.C276_units"
   ],
   "note": "Whole `calibrate`; auto-correlations, which serve only as starts and fits of amplitudes, are held fixed."
  },
  {
   "property": "C277",
   "status": "proved",
   "theorems": [
    "PyFHD.C277_direction"
   ],
   "note": "Whole `calibrate` for XX and YY; the norm of coordinates is required to be even and real numbers are self-conjugate, as in the code."
  },
  {
   "property": "C278",
   "status": "partial",
   "theorems": [
    "PyFHD.C278_array_raises",
    "PyFHD.C278_differ_partial",
    "PyFHD.C278_same_number_raises"
   ],
   "note": "Violated: the index arrays of all tiles are put into an array of objects; if they have one shape it gets three axes, and its rows are no valid index, so that the routine ends with an IndexError (C278_same_number_raises for a channel, C278_array_raises for the routine, numbers of at least five). Partial: if the numbers differ at every channel, nothing is raised."
  },
  {
   "property": "C279",
   "status": "partial",
   "theorems": [
    "PyFHD.C279_fits_partial",
    "PyFHD.C279_zero_raises",
    "PyFHD.C279_zero_line_partial",
    "PyFHD.C279_calibrate_raises"
   ],
   "note": "Violated by the code: C279_zero_raises (the fits of one tile) and C279_calibrate_raises (all of calibrate: the tile in use has fewer than five baselines with data at each channel in use). Assumes that the bandpass does not vanish at the tile (stated for the bandpass itself) and more channels in use than the degree. C279_fits_partial: fits with nonzero leading coefficients raise nothing and are those of C88. PolyTrim models exact arithmetic; for amplitudes that are exactly zero, floats give exactly zero coefficients as well."
  },
  {
   "property": "C280",
   "status": "proved",
   "theorems": [
    "PyFHD.C280_too_few",
    "PyFHD.C280_no_influence",
    "PyFHD.C280_exact"
   ],
   "note": "C280_too_few (gain zero), C280_no_influence (equal results for any other data and models on the baselines of such tiles at such channels), C280_exact (gains that explain the other baselines are returned). Concerns vis_calibrate_subroutine; what the later fits do with such tiles is C279. FlagsAgree: baselines with data have both tiles in use."
  },
  {
   "property": "C281",
   "status": "proved",
   "theorems": [
    "PyFHD.C281_planes",
    "PyFHD.C281_residual",
    "PyFHD.C281_images"
   ],
   "note": "C281_planes and C281_images compose the theorems on calibration (C273), weights (C16), gridding (C192, C118) and images (C100). The conditions are those of C273: exact gains at the start, polynomial fits that can represent them, no auto-correlation fits. Images without padding; gridding with uniform and spectral weighting off."
  },
  {
   "property": "C282",
   "status": "partial",
   "theorems": [
    "PyFHD.C282_cubes_partial"
   ],
   "note": "Violated on the lines of the pixel grid, where the maps are zero (C55_integer_zero), and for the channels left over when n_avg does not divide the number of channels (C56_tail_lost). C282_cubes_partial proves it for all HEALPix pixels strictly within a cell of the image."
  },
  {
   "property": "C283",
   "status": "partial",
   "theorems": [
    "PyFHD.C283_no_residual",
    "PyFHD.C283_difference_partial"
   ],
   "note": "Violated: C283_no_residual shows that no file of a run holds a residual cube. C283_difference_partial proves that the difference of dirty and model cube is the cube of the residual images."
  },
  {
   "property": "C284",
   "status": "partial",
   "theorems": [
    "PyFHD.C284_numbers"
   ],
   "note": "Proved for one or two polarisations with consistent flags, if the reference tile stays the same tile and the solver ends with numbers; flagging and the fits to auto-correlations enter as functions that treat renamed tiles alike; cable reflections are not part of the modelled chain."
  },
  {
   "property": "C285",
   "status": "partial",
   "theorems": [
    "PyFHD.C285_auto_init",
    "PyFHD.C285_all",
    "PyFHD.C285_flags",
    "PyFHD.C285_step",
    "PyFHD.C285_autos",
    "PyFHD.C285_calibrate",
    "PyFHD.C285_fitted"
   ],
   "note": "C285_flags and C285_auto_init in full for real gains: of the standard deviation only its independence of the order is assumed, the polynomial fits are arbitrary functions. C285_all has the remaining conditions of C284 (one or two polarisations, the reference tile stays the same tile, the cable reflections are in C287)."
  },
  {
   "property": "C286",
   "status": "partial",
   "theorems": [
    "PyFHD.C286_numbers",
    "PyFHD.C286_strings_partial",
    "PyFHD.C286_non_ascii_raises",
    "PyFHD.C286_rows",
    "PyFHD.C286_ragged_partial",
    "PyFHD.C286_ragged_raises",
    "PyFHD.C286_none"
   ],
   "note": "Proved for numbers, None, ASCII strings, rows of one length and arrays of one type of different lengths. Violated by strings that are not ASCII (an unbound name is raised), by lists of lists of different lengths and, without a logger, by arrays of different lengths (C286_non_ascii_raises, C286_ragged_raises). The conversion of arrays of different types to the type of the first is a parameter."
  },
  {
   "property": "C287",
   "status": "partial",
   "theorems": [
    "PyFHD.C287_numbers_partial",
    "PyFHD.C287_missing_autos"
   ],
   "note": "Proved without auto-correlations and with auto-correlations for every tile. Violated where a tile has none (C287_missing_autos): the tile before it in the order loses its own."
  },
  {
   "property": "C288",
   "status": "partial",
   "theorems": [
    "PyFHD.C288_reflection",
    "PyFHD.C288_no_reflection",
    "PyFHD.C288_phases_only",
    "PyFHD.C288_returns"
   ],
   "note": "Proved for one or two polarisations, the options cal_reflection_mode_theory with cal_reflection_hyperresolve, and without the scaling by auto-correlations afterwards; fits that end with NaN are not modelled. `C288_returns`: without auto-correlations the fit does not fail if the polynomials do not vanish."
  },
  {
   "property": "C289",
   "status": "partial",
   "theorems": [
    "PyFHD.C289_numbers",
    "PyFHD.C289_exact"
   ],
   "note": "C289_exact without ratios of auto-correlations, for the channels and tiles in use after the search for bad tiles (which may take tiles and channels out of use as long as the fits can represent the gains on the rest); C289_numbers for all options of C288, if the reference tile stays the same tile, the flags are consistent and the calibration without NaN succeeds."
  },
  {
   "property": "C290",
   "status": "partial",
   "theorems": [
    "PyFHD.C290_unused",
    "PyFHD.C290_order",
    "PyFHD.C290_units",
    "PyFHD.C290_direction"
   ],
   "note": "Proved for one or two polarisations and the options of C288, for calls that end with numbers; the order of samples without averaging over time."
  },
  {
   "property": "C291",
   "status": "partial",
   "theorems": [
    "PyFHD.C291_flagged_partial",
    "PyFHD.C291_own_grid_partial",
    "PyFHD.C291_kept_partial",
    "PyFHD.C291_tile_list",
    "PyFHD.C291_no_split",
    "PyFHD.C291_noise_partial",
    "PyFHD.C291_no_influence_partial"
   ],
   "note": "Holds with split_ps_export, two or more time steps and an empty ps_tile_flag_list. The code violates the rest: any entry in ps_tile_flag_list ends the export with an error, as does split_ps_export = False or a single time step. That unflagged pairs keep their weight needs the condition of C17 (some unused tile has a baseline, or no tile is unused)."
  },
  {
   "property": "C292",
   "status": "partial",
   "theorems": [
    "PyFHD.C292_equal_partial",
    "PyFHD.C292_length"
   ],
   "note": "Holds when plane and kernel have sizes of the same parity, no baseline leaves the allowed range of lengths at any frequency and mirror points are not masked. Fails otherwise: vis_weights_update tests the length per channel but the gridding for all channels at once, so that one sample of a pair can be dropped alone (C292_length and example)."
  },
  {
   "property": "C293",
   "status": "partial",
   "theorems": [
    "PyFHD.C293_lazy_number",
    "PyFHD.C293_lazy_fails",
    "PyFHD.C293_memory_number_partial",
    "PyFHD.C293_arrays_partial",
    "PyFHD.C293_one_entry_partial",
    "PyFHD.C293_memory_partial"
   ],
   "note": "Violated for every beam file PyFHD wrote: C293_lazy_number (a saved number cannot be read lazily) and C293_lazy_fails (vis_weights_update raises ValueError for all data), while C293_memory_number_partial and C293_memory_partial show that the same file works in memory. Proved: arrays of numbers agree (C293_arrays_partial) and the weights agree when the size of the kernel is stored with one axis (C293_one_entry_partial). Missing: kernels stored as object arrays or in chunks, gridding itself with a lazy file. Trusted: h5py raises ValueError for [0] on a dataset without axes."
  },
  {
   "property": "C294",
   "status": "proved",
   "theorems": [
    "PyFHD.C294_flagged"
   ],
   "note": "For the run modelled in Model/WholeRun (auto-correlations taken as given; no flag_basic, flag_visibilities, grid_uniform, checkpoints or cal_stop)."
  },
  {
   "property": "C295",
   "status": "proved",
   "theorems": [
    "PyFHD.C295_units"
   ],
   "note": "For the run modelled in Model/WholeRun, exact arithmetic, images of even size without padding and a filter that multiplies the plane with factors that depend on counts and weights only. The images are compared for the files written by quickview of one or two polarisations."
  },
  {
   "property": "C296",
   "status": "proved",
   "theorems": [
    "PyFHD.C296_exact"
   ],
   "note": "For the run modelled in Model/WholeRun without calibration from auto-correlations and without flag_visibilities; the conditions on the gains are those of C273 and C289 (at least five baselines for every tile, not all tiles with equally many baselines: see C278 for what happens otherwise). The solver starts with the exact gains (cal_gain_init). The search for bad tiles may take tiles and channels out of use; the gains are then those of the rest, and the residual images are still zero."
  },
  {
   "property": "C297",
   "status": "proved",
   "theorems": [
    "PyFHD.C297_numbers"
   ],
   "note": "For the run modelled in Model/WholeRun. The reference tile is chosen by its number (tile 1, else the first one), so the condition that it stays the same is needed; if the visibilities are averaged over time before the calibration, the integrations must have the same baselines."
  },
  {
   "property": "C298",
   "status": "partial",
   "theorems": [
    "PyFHD.C298_order_partial"
   ],
   "note": "Proved for runs without averaging over time, with one kernel for all channels and every tile in some baseline. Missing: channels with different kernels, for which the code does depend on the order (C233_order_matters), and tiles without a baseline, for which the last sample is flagged (C17)."
  },
  {
   "property": "C299",
   "status": "partial",
   "theorems": [
    "PyFHD.C299_order",
    "PyFHD.C299_directories",
    "PyFHD.C299_savs",
    "PyFHD.C299_first_key",
    "PyFHD.C299_items",
    "PyFHD.C299_items_sav"
   ],
   "note": "The order, the extensions, the agreement of get_savs and get_data and the first keys are proved without conditions; the last sentence is false: get_data_items raises an AttributeError for every .sav file (C299_items_sav)."
  },
  {
   "property": "C300",
   "status": "partial",
   "theorems": [
    "PyFHD.C300_complete_iff",
    "PyFHD.C300_lines_partial",
    "PyFHD.C300_empty_array",
    "PyFHD.C300_ambiguous"
   ],
   "note": "Proved for dictionaries without empty arrays or arrays without axes (C300_complete_iff says that these are exactly the ones that are printed to the end); C300_empty_array: an empty array ends the printing with an IndexError. The second half is false: C300_ambiguous gives different dictionaries with the same lines."
  },
  {
   "property": "C301",
   "status": "proved",
   "theorems": [
    "PyFHD.C301_exact",
    "PyFHD.C301_cubes",
    "PyFHD.C301_exports"
   ],
   "note": "For the run modelled in Model/WholeRun and its export in Model/WholeExport (split_ps_export, no list of tiles to flag, vis_model given); the conditions on the gains are those of C296. C301_exact is about the uv planes, C301_cubes about the maps of equal images; the transform between them is a function of the plane and the number of visibilities. C301_exports shows that the export succeeds."
  },
  {
   "property": "C302",
   "status": "proved",
   "theorems": [
    "PyFHD.C302_flagged"
   ],
   "note": "For the run modelled in Model/WholeRun and its export in Model/WholeExport. The beam and the noise, which the export computes from the calibrated data, are not part of the claim: the noise is allowed to be computed from any imaginary parts."
  },
  {
   "property": "C303",
   "status": "proved",
   "theorems": [
    "PyFHD.C303_units"
   ],
   "note": "For the run modelled in Model/WholeRun and its export in Model/WholeExport, exact arithmetic; the conditions on the images are those of C295, of which the export of a run is a continuation."
  },
  {
   "property": "C304",
   "status": "proved",
   "theorems": [
    "PyFHD.C304_numbers"
   ],
   "note": "For the run modelled in Model/WholeRun and its export in Model/WholeExport; the conditions are those of C297."
  },
  {
   "property": "C305",
   "status": "proved",
   "theorems": [
    "PyFHD.C305_sets"
   ],
   "note": "For the run modelled in Model/WholeRun and its export in Model/WholeExport. For ranges of channels with different beams the planes are not these sums (C32)."
  },
  {
   "property": "C306",
   "status": "proved",
   "theorems": [
    "PyFHD.C306_direction"
   ],
   "note": "For runs within RunFits (Model/WholeRun) and a choice of samples within Turnable: lengths even in the coordinates, mask_mirror_indices off, v nonzero for turned samples, whole baselines turned if calibration averages over time. With v = 0 and u nonzero the grid decides about the direction by the sign of v alone, so such samples are excluded."
  },
  {
   "property": "C307",
   "status": "proved",
   "theorems": [
    "PyFHD.C307_direction"
   ],
   "note": "Conditions of C306 for the run and those of C301 for the export (ExportFits), export resolution kbin positive, no mask in the export."
  },
  {
   "property": "C308",
   "status": "proved",
   "theorems": [
    "PyFHD.C308_files",
    "PyFHD.C308_exact"
   ],
   "note": "For vis_model_arr given and residual off. The maps of healpix_cnv_generate, the beams and degpix are parameters; images have even size (C105). Arithmetic is exact."
  },
  {
   "property": "C309",
   "status": "proved",
   "theorems": [
    "PyFHD.C309_flagged",
    "PyFHD.C309_numbers",
    "PyFHD.C309_direction"
   ],
   "note": "Conditions of C302, C304 and C307 (ExportFits, RenamedRun, Turnable)."
  },
  {
   "property": "C310",
   "status": "proved",
   "theorems": [
    "PyFHD.C310_units"
   ],
   "note": "Conditions of C303; exact arithmetic."
  },
  {
   "property": "C311",
   "status": "proved",
   "theorems": [
    "PyFHD.C311_flagged",
    "PyFHD.C311_files",
    "PyFHD.C311_used"
   ],
   "note": "Exact arithmetic; one or two polarisations; `calibrate_visibilities`, `recalculate_grid` and `export_images` are set. Named tiles (`flag_tiles`) make the flagging raise (C22), so there is nothing to say about them. The export has the conditions of C302."
  },
  {
   "property": "C312",
   "status": "proved",
   "theorems": [
    "PyFHD.C312_units",
    "PyFHD.C312_files"
   ],
   "note": "Exact arithmetic; conditions on images as in C295 (even size, no padding, filter that depends on weights only)."
  },
  {
   "property": "C313",
   "status": "proved",
   "theorems": [
    "PyFHD.C313_direction",
    "PyFHD.C313_direction_files",
    "PyFHD.C313_numbers",
    "PyFHD.C313_numbers_files",
    "PyFHD.C313_exact"
   ],
   "note": "Exact arithmetic; conditions as in C297, C306, C308 and C309."
  },
  {
   "property": "C314",
   "status": "proved",
   "theorems": [
    "PyFHD.C314_limits",
    "PyFHD.C314_limits_files",
    "PyFHD.C314_again"
   ],
   "note": "`C314_limits`, `C314_limits_files`: the equality of runs and of files for all limits. `C314_again`: the run on the flagged input, flagged again, is the run on the input, with `flag_frequencies` and all time steps in use as the statement says."
  },
  {
   "property": "C315",
   "status": "proved",
   "theorems": [
    "PyFHD.C315_sum",
    "PyFHD.C315_runs"
   ],
   "note": "`C315_sum` for weights, planes of data and model, weights planes, dirty and model images; `C315_runs`: if the run on one such sky succeeds, so do those on the others. The conditions for exact gains are those of C296 (`ExactSetup`), gathered with the data in `ExactSky`."
  },
  {
   "property": "C316",
   "status": "proved",
   "theorems": [
    "PyFHD.C316_planes",
    "PyFHD.C316_files"
   ],
   "note": "`C316_planes` for the planes of all ranges of channels, `C316_files` for the files, with the conditions of C315 and of C308 (`ExportGrids`, `MapFits`); the imaginary parts from which the noise is computed may differ between the runs."
  },
  {
   "property": "C317",
   "status": "proved",
   "theorems": [
    "PyFHD.C317_sum",
    "PyFHD.C317_files"
   ],
   "note": "`C317_sum` for weights, planes and images, `C317_files` for the HEALPix files; the conditions are those of C315 and C316 on what the basic flagging gives."
  },
  {
   "property": "C318",
   "status": "proved",
   "theorems": [
    "PyFHD.C318_instrument"
   ],
   "note": "The runs are those of Model/WholeRun and Model/ExportFiles, in exact arithmetic. The gains are those the calibration can represent (ExactSetup, as in C296); calibration that flags tiles is excluded. In the example gains 2 and 3 give the same images and the same four files."
  },
  {
   "property": "C319",
   "status": "proved",
   "theorems": [
    "PyFHD.C319_instrument"
   ],
   "note": "As C318, for runs that begin with the basic flagging (Model/FlaggedRun). The calibration is the one the code runs after the flagging; conditions on the gains are at the samples that the flagging keeps."
  },
  {
   "property": "C320",
   "status": "proved",
   "theorems": [
    "PyFHD.C320_again"
   ],
   "note": "In exact arithmetic, for the runs of Model/WholeRun and Model/ExportFiles; gains as in C296. In the example data seen through gains of 2 are calibrated, then calibrated again to gains of 1."
  },
  {
   "property": "C321",
   "status": "proved",
   "theorems": [
    "PyFHD.C321_images",
    "PyFHD.C321_planes"
   ],
   "note": "For the runs of Model/WholeRun (one or two polarisations), in exact arithmetic, for sizes and paddings for which quickview does not raise (C102) and a uniform filter that multiplies the plane (ImagesFit). That the weights are filtered in place before they are exported is what the code does (C103)."
  }
 ]
}