# Formal model of PyFHD: design

The subject is the Python package in `/repo/PyFHD` (read as text, never run).
The model and the proofs are in Lean 4 under `/verif/lean/Verif`.

## Layout

* `Verif/Model/*.lean`: definitions that mirror the Python functions branch by branch.
  Each definition cites file and lines in `/repo` and states its simplifications.
* `Verif/Spec/*.lean` or the head of a `Props` file: small, model-independent specifications.
* `Verif/Lemmas/*.lean`: helper lemmas.
* `Verif/Props/*.lean`: the property theorems `Cnn_...`, each with an example that meets its
  hypotheses, and counterexamples where the code violates the property.
* `seeded/LOG.jsonl`: wrong programs tried against the theorems (edits of the model in a copy), with the
  theorems that failed and the theorems added because none failed.

## Modelling conventions

* Python exceptions, `sys.exit` and unchecked out-of-bounds writes in compiled (numba) code
  are values of an error type; a function that can fail returns `Except`.
* 1-D arrays are `List`; 2-D and 3-D arrays of fixed shape are functions from indices.
* Real floating point is replaced by exact arithmetic: integers, rationals, real numbers, or an arbitrary
  (ordered) field. Complex numbers are an arbitrary field with an involution (`StarRing`),
  so that the results hold in particular for the complex numbers. Rounding, overflow, NaN
  and infinities are modelled only where the code tests for them; NaN is then `none`.
* In-place mutation is modelled by returning the new value; aliasing is modelled explicitly
  where it matters (C25, C42, C99, C138).
* External code (h5py, FFT, least squares, SciPy `label`, file system, astropy) is a parameter or is replaced by
  its mathematical definition; see the trusted base.
* Where the code violates a property, the negation is proved for all inputs of a described kind, the part that
  holds is proved under the name `..._partial`, and the property has the status "partial".

## Plan and outcome per property

English statements are in `properties.jsonl`. "violated" theorems prove the negation, or an exception, for all inputs of a described kind.

| id | title | code modelled | how proved | outcome |
|----|----|----|----|----|
| C01 | Histogram counts are exact | pyfhd_utils.py: histogram, get_bins, get_hist | fold over the data with checked writes; induction over the data, floor arithmetic over the rationals, cursor invariants (`Props/Histogram`) | proved: All data, positive bin sizes and limits; exact rational arithmetic. |
| C02 | Reverse indices select exactly the members of a bin | pyfhd_utils.py: histogram, get_ri | fold over the data with checked writes; induction over the data, floor arithmetic over the rationals, cursor invariants (`Props/Histogram`) | proved: Every bin's reverse-index slice is the ascending list of member positions. |
| C03 | A histogram partitions the in-range data | pyfhd_utils.py: histogram, get_hist, get_ri | fold over the data with checked writes; induction over the data, floor arithmetic over the rationals, cursor invariants (`Props/Histogram`) | proved: Counts conserve the in-range data; slices partition the in-range positions. |
| C04 | Histogram with a requested number of bins counts the maximum | pyfhd_utils.py: histogram, get_hist | fold over the data with checked writes; induction over the data, floor arithmetic over the rationals, cursor invariants (`Props/Histogram`) | partial: Holds when no datum equals max, or for one bin. The code violates it otherwise: C04_numBins_max_overflows proves an out-of-bounds write for every input with a datum equal to max and two or more bins. |
| C05 | array_match returns exactly the matching positions | pyfhd_utils.py: array_match | list functions; induction and sorting lemmas (`Props/Arrays`) | partial: Proved for two arrays when no value is listed an even number of times. The code violates the rest: values listed an even number of times are missed, and a call without the second array raises (both proved in general). |
| C06 | weight_invert never yields an infinite weight and inverts the rest | pyfhd_utils.py: weight_invert | list functions; induction and sorting lemmas (`Props/Arrays`) | proved: All weights over any field, threshold and use_abs; round trip without threshold. Integer arrays are a separate model, where all weights of size 2 or more are proved to vanish. |
| C07 | Downsampling rebin is the block average and preserves the mean | pyfhd_utils.py: rebin | arrays as functions of indices; division with remainder, sums over blocks (`Props/Rebin`) | proved: All shapes and entries; exact arithmetic for floats, double truncation for integer arrays. |
| C08 | Upsampling rebin keeps the samples and interpolates between them | pyfhd_utils.py: rebin, rebin_rows, rebin_columns | arrays as functions of indices; division with remainder, sums over blocks (`Props/Rebin`) | proved: Arrays of two or more rows and 1-D arrays, all factors. A 2-D array of one row is not handled by the code and is outside the model. |
| C09 | rebin that enlarges one axis and reduces the other acts on each axis separately | pyfhd_utils.py: rebin | arrays as functions of indices; division with remainder, sums over blocks (`Props/Rebin`) | partial: Proved for a single row (column). For more rows (columns) the code averages all of them together; proved in general. |
| C10 | meshgrid gives the coordinates of every pixel | pyfhd_utils.py: meshgrid | list functions; induction and sorting lemmas (`Props/Arrays`) | proved: All shapes and axes. |
| C11 | Derivative coefficients are the falling factorial polynomial | pyfhd_utils.py: deriv_coefficients | list functions; induction and sorting lemmas (`Props/Arrays`) | proved: All n; evaluated as a polynomial at every rational point. |
| C12 | idl_argunique points at the last occurrence of each distinct value | pyfhd_utils.py: idl_argunique | list functions; induction and sorting lemmas (`Props/Arrays`) | proved: All sorted integer arrays. |
| C13 | idl_median of an odd number of samples is the middle sample | pyfhd_utils.py: idl_median | list functions; induction and sorting lemmas (`Props/Arrays`) | partial: Proved for even lengths. Violated for odd lengths: the sample one place above the middle is returned, and a single sample raises (proved for every odd length). |
| C14 | Even/odd splitting pairs up integrations with equal weights | pyfhd_utils.py: split_vis_weights | lists of indices; counting (`Props/SplitWeights`) | partial: Structure (ascending, disjoint, equal size, equal weights, zero elsewhere, upper bounds) in full; the exact value when the odd weight is not negative. The code keeps a negative odd weight in both samples (proved), so the lower bound 0 fails there. |
| C15 | Even/odd splitting uses every usable pair of integrations | pyfhd_utils.py: split_vis_weights | lists of indices; counting (`Props/SplitWeights`) | partial: Holds for the first pair of two or three steps, and the even set only ever contains samples of even steps of usable pairs (C15_even_usable_partial). Violated otherwise: for four or more steps a usable pair is never selected, and if the first step is flagged its first sample is selected (both proved in general). |
| C16 | Updating the weights never unflags and zeroes every sample that cannot be gridded | pyfhd_utils.py: vis_weights_update, array_match | pointwise characterisation of the weights after the update (`Props/WeightsUpdate`) | partial: Never unflags and zeroes everything required: in full. The rest keep their weight: unless unused tiles exist and none of them has a baseline (see C17). |
| C17 | Flagging a tile without baselines leaves all weights alone | pyfhd_utils.py: vis_weights_update, array_match | pointwise characterisation of the weights after the update (`Props/WeightsUpdate`) | partial: Violated: the last sample is zeroed at every frequency (proved in general). All other samples are proved untouched. |
| C18 | n_vis counts the unflagged first-polarisation samples | pyfhd_utils.py: vis_weights_update, histogram | pointwise characterisation of the weights after the update (`Props/WeightsUpdate`) | proved: All weights, flags, coordinates; time blocks must split the samples, both tile lists have equal non-zero length. |
| C19 | Basic flagging only removes tiles and frequencies and reports true counts | flagging.py: vis_flag_basic | loops pointwise; pointwise characterisation of the flags (`Props/Flagging`) | proved: All configurations without named tiles (C22), tile numbers in 1..n_tile. |
| C20 | Basic flagging zeroes every sample of a flagged time step | flagging.py: vis_flag_basic | loops pointwise; pointwise characterisation of the flags (`Props/Flagging`) | partial: Every sample but the last of a flagged step; the last one provably keeps a positive weight, so the claim is violated by the code. |
| C21 | Channel-edge flagging removes exactly the edge channels | flagging.py: vis_flag_basic | loops pointwise; pointwise characterisation of the flags (`Props/Flagging`) | proved: The effect of the whole function on every weight; also in terms of the 32 fine channels of a coarse channel for averaging factors dividing 32. Fewer than 24 channels: all are removed. |
| C22 | Flagging tiles by name zeroes exactly the baselines of those tiles | flagging.py: vis_flag_tiles | loops pointwise; pointwise characterisation of the flags (`Props/Flagging`) | partial: Violated: the function raises for every input (proved), in particular for every known tile name with any blanks around it (C22_known_tile_raises), so no run with flag_tiles passes basic flagging (proved). |
| C23 | Mirroring a uv plane is an involution and symmetrising gives a Hermitian plane | gridding_utils.py: conjugate_mirror, visibility_grid.py: visibility_grid | planes as functions of two indices; involution of indices, star ring (`Props/Planes`) | proved: Entry formula of the mirror, the mirror is an involution, the symmetrised plane is Hermitian and a Hermitian plane is left alone. |
| C24 | Cross-polarisation reformat yields a conjugate-mirrored pair | gridding_utils.py: crosspol_reformat | planes as functions of two indices; involution of indices, star ring (`Props/Planes`) | proved: The third plane becomes the Hermitian combination and the fourth its partner; applying the function twice is described too. |
| C25 | Splitting the cross-polarisation image keeps real and imaginary parts | pyfhd_utils.py: crosspol_split_real_imaginary | planes as functions of two indices; involution of indices, star ring (`Props/Planes`) | partial: The source violates this: the real part is written through a view before the imaginary part is read, so the fourth plane is always zero (C25_imaginary_part_lost). The partial theorem covers the third plane and the names. |
| C26 | w-term deprojection can be undone | pyfhd_utils.py: simple_deproject_w_term | planes as functions of two indices; involution of indices, star ring (`Props/Planes`) | partial: The source violates this: the multiplication raises for every shape except one polarisation with as many channels as baselines (C26_deproject_raises), and there the factor is transposed (C26_deproject_transposed). The partial theorem: where it runs, doing and undoing is the identity. |
| C27 | Sub-pixel interpolation weights are non-negative and sum to one | gridding_utils.py: baseline_grid_locations, interpolate_kernel | coordinates over the rationals; histogram theorems (`Props/GridLocations`) | proved:  |
| C28 | Every visibility to be gridded has its kernel footprint inside the grid | gridding_utils.py: baseline_grid_locations, visibility_grid.py: visibility_grid | coordinates over the rationals; histogram theorems (`Props/GridLocations`) | partial: Proved for square planes (elements = dimension). For other planes it is false of the code: baseline_grid_locations tests x against elements and y against dimension; C28_footprint_outside proves a footprint leaves the plane. |
| C29 | Gridding bins partition the unflagged visibilities by anchor pixel | gridding_utils.py: baseline_grid_locations | coordinates over the rationals; histogram theorems (`Props/GridLocations`) | partial: Proved for square planes. On planes with elements > dimension the bin number does not determine the corner: C29_bins_mix_anchors. |
| C30 | Combining visibilities that share a kernel does not change the gridded plane | visibility_grid.py: visibility_grid, pyfhd_utils.py: idl_argunique | gridding loop as a fold over bins; refinement to a sum over the visibilities, linearity, permutation of sums (`Props/VisGrid`) | proved:  |
| C31 | The gridded uv plane is the kernel-weighted sum of the visibilities | visibility_grid.py: visibility_grid | gridding loop as a fold over bins; refinement to a sum over the visibilities, linearity, permutation of sums (`Props/VisGrid`) | partial: Proved for square planes (elements = dimension), the only shape for which baseline_grid_locations bins visibilities correctly (C28, C29). Covers interpolated and table kernels, with and without no_conjugate; the kernel is that of C32. grid_uniform and spectral planes are in C118 to C120. |
| C32 | Gridding looks up the kernel of the visibility's own frequency | visibility_grid.py: visibility_grid | gridding loop as a fold over bins; refinement to a sum over the visibilities, linearity, permutation of sums (`Props/VisGrid`) | partial: False of the code: visibility_grid takes inds % n_freq_use on a row-major (frequency, baseline) array. C32_kernel_frequency gives the channel actually used; the partial theorem covers one frequency or one baseline. |
| C33 | Uniform weighting filter is normalised | filters.py: filter_uv_uniform, pyfhd_utils.py: weight_invert | planes as lists; sums (`Props/Filters`) | proved: The hypothesis asks for a pixel with count at least 1 among the pixels that are normalised; C33_no_finite_filter shows what happens otherwise. The call to visibility_count when no count is given is not modelled. |
| C34 | Applying calibration gains removes the gains from the visibilities | calibration_utils.py: vis_calibration_apply, pyfhd_utils.py: weight_invert | gains as functions; field identities (`Props/CalApply`); case analysis on the branch in question; the passes of the amplitude tests by induction over their number (`Props/Tightened`) | proved: weight_invert is modelled by its entry function (C06); gains are nonzero exactly when their absolute value is. |
| C35 | Calibration works for four polarisations | calibration_utils.py: vis_calibration_apply | gains as functions; field identities (`Props/CalApply`); gains as functions; field identities, means over lists (`Props/CalApplyMore`) | partial: False of the code: obs["n_times"] raises KeyError (C35_four_pol_key_error), and the fitted phase is never applied (C35_cross_phase_not_applied). If n_times is supplied, the phase that is fitted is the least squares one (C35_phase_least_squares), and a phase in the data is found exactly (C35_phase_found). |
| C36 | Auto-correlation ratio division is undone by remultiplication | calibration_utils.py: cal_auto_ratio_divide, cal_auto_ratio_remultiply | gains as functions; field identities (`Props/CalApply`) | proved: The square root is a parameter with sqrt x > 0 for x > 0. |
| C37 | Bandpass and residual gain factorise the gains | calibration_utils.py: vis_cal_bandpass | gains as functions; field identities (`Props/CalApply`) | proved: resistant_mean is a parameter; both the global and the cable bandpass; C37_common_shape says that a common shape of the gains is found. The transfer from a file is not modelled. |
| C38 | The calibration solver terminates within max_cal_iter iterations | vis_calibrate_subroutine.py: vis_calibrate_subroutine | solver as a loop with fuel and its termination; least squares over fields with involution (`Props/CalSolve`) | proved: The loop of one frequency is modelled iteration by iteration. For every run whose gains are numbers: at most max_cal_iter iterations, reported iteration below it, no iteration but the last meets a stopping rule, and fewer iterations only if the last meets one or all new gains vanish. Runs that turn to NaN (reference gain zero, C64) are outside; max_cal_iter = 0 is C62. |
| C39 | A perfect calibration solution is a fixed point | vis_calibrate_subroutine.py: vis_calibrate_subroutine | solver as a loop with fuel and its termination; least squares over fields with involution (`Props/CalSolve`) | proved: One iteration and, by induction, the whole solver, for every damping (constant or adaptive), phase-only setting, threshold and number of iterations, with and without weights. The absolute value is any mag with mag z^2 = conj z * z. For arrays not excluded by C278. |
| C40 | The adaptive damping factor is bounded | calibration_utils.py: calculate_adaptive_gain | gains as functions; field identities (`Props/CalApply`); gains as functions; field identities, means over lists (`Props/CalApplyMore`) | proved: NaN results (0/0) are modelled as no number. C40_value gives the value for a known final convergence, C40_final_convergence says that the limit of an ideal relaxation is found. |
| C41 | Baseline codes decode into the two antenna numbers | uvfits.py: create_params | index arithmetic, folds, histogram theorems (`Props/DataSetup`) | partial: Violated by the code: the divisor is guessed from the smallest code. Proved: the numbers are recovered iff the guess is 256 (C41_decode_iff), it is when the smallest baseline is (1,1) or (1,even), and the decoding is wrong when it is (1,odd>1) or (a>=2, even). |
| C42 | Antenna numbers map to tile indices | obs.py: create_obs | index arithmetic, folds, histogram theorems (`Props/DataSetup`) | partial: Violated by the code: the loop overwrites numbers it later compares. Proved where no antenna number equals the index of an earlier entry; otherwise the result is the index of another tile. |
| C43 | Time blocks partition the visibilities by integration | obs.py: create_obs, pyfhd_utils.py: idl_argunique | index arithmetic, folds, histogram theorems (`Props/DataSetup`) | partial: Violated for a single time: create_obs raises a TypeError. Proved for two or more distinct times, in terms of sample times only. |
| C44 | Imported visibilities are the file's values with axes (pol, frequency, baseline) | uvfits.py: extract_visibilities | index arithmetic, folds, histogram theorems (`Props/DataSetup`) | partial: Violated when there is one baseline, one channel or one polarisation (np.squeeze removes the axis): IndexError. Proved otherwise, for any number of singleton axes. |
| C45 | The frequency axis follows the FITS header | uvfits.py: extract_header | index arithmetic, folds, histogram theorems (`Props/DataSetup`) | proved: For all header values, in exact arithmetic. |
| C46 | Model visibilities are matched to data baselines | vis_model_transfer.py: flag_model_visibilities | matching loops; induction (`Props/ModelVis`) | partial: Violated by every model with auto-correlations (C46_model_autos_fail: the index arrays have different lengths). Proved for models without, for all regular files, flag patterns and both naming schemes of tiles. |
| C47 | Saved dictionaries load back unchanged | pyfhd_io.py: save, save_dataset, dict_to_group, load, load_dataset, group_to_dict, format_array | value trees and file trees; structural induction (`Props/Storage`) | partial: Proved: any nested dictionary (any depth, any number of keys other than one at the top) of None, numbers, booleans, arrays with at least one axis of numbers, booleans or ASCII strings round-trips, comparing along all key paths; strings too if h5py returns them as NumPy objects (parameter strDtype). Violations proved: a dictionary with exactly one key never loads as a dictionary; a string anywhere makes the file unloadable when h5py returns bytes; arrays without axes cannot be saved; string arrays saved alone come back as bytes. Missing: object arrays round-trip (they change type), lazy_load. |
| C48 | Object arrays are stored without losing entries | pyfhd_io.py: format_array | value trees and file trees; structural induction (`Props/Storage`); unfolding the saving of an array of integers and the parameters of the projection (`Props/TightenedEighth`) | partial: Proved for all object arrays: length kept, None becomes NaN (numeric) or the empty string (with strings), other entries keep their value. Violations proved: an entry with real part NaN in a complex array loses its imaginary part; strings outside ASCII raise. Numbers in an array with strings become text. |
| C49 | Resuming from the observation checkpoint gives the same results | pyfhd.py: main | stages as arbitrary functions; case analysis over the options and traces of calls (`Props/Pipeline`) | partial: Proved for all stages (arbitrary functions), all configurations and all later failures: the resumed run performs exactly the actions of the original run after the checkpoint, with equal values and the same end. Assumes that the checkpoint file loads unchanged (C47 gives this for plain dictionaries). Violation proved: the obs dictionary contains the instrument name, so the checkpoint cannot be loaded when h5py returns strings as bytes. |
| C50 | Resuming from the calibration checkpoint gives the same results | pyfhd.py: main | stages as arbitrary functions; case analysis over the options and traces of calls (`Props/Pipeline`) | partial: Violation proved: with calibrate_checkpoint set every run ends with an exception before writing anything (main reads the key calibration_checkpoint, which the parser does not define). Proved conditionally: if the configuration had that key, the resumed run equals the rest of the original run. |
| C51 | Resuming from the gridding checkpoint gives the same results | pyfhd.py: main | stages as arbitrary functions; case analysis over the options and traces of calls (`Props/Pipeline`) | partial: Proved: the resumed run passes the same planes. Violation proved: the observation passed to imaging and export differs, because the number of visibilities per channel set while gridding is not in the checkpoint. |
| C52 | Invalid configurations stop the program before any processing | pyfhd_setup.py: pyfhd_setup, _check_file_exists | checks as an error counter; case analysis (`Props/Setup`) | partial: Exact characterisation of the configurations that continue (C52_continues_iff_partial), equal to validity when allow_sidelobe_model_sources is off and enhance_eor <= 1. Violations proved: the enhance_eor test is inverted (valid ones are stopped, invalid ones accepted), allow_sidelobe_model_sources raises KeyError because the parser has no model_visibilities, files inside the model directory and the beam and checkpoint files are never looked at. |
| C53 | Conflicting options are resolved | pyfhd_setup.py: pyfhd_setup | checks as an error counter; case analysis (`Props/Setup`) | partial: All clauses except the last. Violation proved: the reflection modes are never changed, because the nested conditional never counts above 1, so several can stay on. |
| C54 | The written configuration file reproduces the configuration | pyfhd_setup.py: write_collated_yaml_config | checks as an error counter; case analysis (`Props/Setup`); evaluation over the table of options of the code; the unknown key makes the reader refuse every file (`Props/SetupNames`) | partial: Round trip for all configurations whose written names are option names and whose texts have no quote; exact condition for a text, and exactly which options are written under readable names (C54_names, C54_list_names). Reading (a part of YAML and configargparse) is modelled, not code of the repository. Violations proved: IDL_calibrate, part of every configuration, is written as IDL-calibrate, which is not an option, so no written file can be read (C54_never_read); the same for output_dir, added by every set-up; lists are written under a name with underscores; a quote is not escaped. |
| C55 | HEALPix interpolation weights of a pixel sum to one | healpix_utils.py: healpix_cnv_generate, healpix_cnv_apply | loops over pixels; bilinear weights, intervals (`Props/Healpix`) | partial: Bilinear interpolation of the four pixels around a position inside the image with no integer coordinate, hence a constant image is kept, and linear in the image. Violation: a HEALPix pixel with an integer coordinate gets 0 (C55_integer_zero), because floor and ceiling coincide and the last of several contributions of one image pixel replaces the others. Positions from healpy/astropy are inputs. |
| C56 | Frequency averaging for export uses each channel once | export.py: healpix_snapshot_cube_generate, healpix_utils.py: vis_model_freq_split | loops over pixels; bilinear weights, intervals (`Props/Healpix`) | partial: Each used channel is gridded in exactly one averaged channel; nf_vis of an exported channel is the sum over its channels; all is exported when n_avg divides n_freq. Violation: otherwise the last averaged channel is gridded but never exported (C56_tail_lost). |
| C57 | Re-deriving observation metadata keeps the frequency-to-beam map | obs.py: update_obs, create_obs | index arithmetic, folds, histogram theorems (`Props/DataSetup`) | partial: Violated by update_obs: the loop stops one bin early so the channels of the last bin get bin 0. Proved for create_obs, and the exact relation of the two. |
| C58 | Calibration plots cover every tile | calibration.py: plot_cals | connected components with SciPy label as a parameter; induction over paths (`Props/Regions`) | partial: From 128 to 255 tiles the first 128 tiles are drawn once, in their own panel, with their own name. Violations: nothing is drawn for fewer than 128 tiles (C58_few_tiles_none), tiles from the 129th on are not drawn (C58_tail_missing), 256 or more tiles raise IndexError (C58_many_tiles_raise). |
| C59 | Region growing returns exactly the connected region of the seed | pyfhd_utils.py: region_grow | connected components with SciPy label as a parameter; induction over paths (`Props/Regions`) | proved: scipy.ndimage.label is an input, assumed to label 4-connected components (exists_labelling shows the assumption can be met). NaN pixels are background; default thresholds in C59_default_thresholds. Two-dimensional images, non-negative pixel numbers. |
| C60 | Time averaging with weights sums over time steps only | pyfhd_utils.py: reshape_and_average_in_time | connected components with SciPy label as a parameter; induction over paths (`Props/Regions`) | proved: For visibilities in an arbitrary field. C60_not_average: in spite of its name the function does not divide by the weights. |
| C61 | The auto ratio of the reference tile is 1 | calibration_utils.py: cal_auto_ratio_divide, vis_extract_autocorr | gains as functions; field identities (`Props/CalApply`) | partial: False of the code when a tile before the reference has no auto-correlation. |
| C62 | An impossible number of calibration iterations is rejected | vis_calibrate_subroutine.py: vis_calibrate_subroutine | solver as a loop with fuel and its termination; least squares over fields with involution (`Props/CalSolve`) | partial: Violated: the test for less than one iteration comes after the test for less than five and is never reached; with 0 the function fails with a NameError (C62_no_iterations_name_error). Partial: other values are accepted. |
| C63 | Backing up to the previous calibration solution | vis_calibrate_subroutine.py: vis_calibrate_subroutine | solver as a loop with fuel and its termination; least squares over fields with involution (`Props/CalSolve`) | partial: Violated: the code backs up when the current solution met the threshold (C63_backed_up_when_met), not when it missed it (C63_not_backed_up). Partial: divergence, convergence and exhaustion report and return as documented. |
| C64 | A reference tile with too few baselines does not spoil the calibration | vis_calibrate_subroutine.py: vis_calibrate_subroutine | solver as a loop with fuel and its termination; least squares over fields with involution (`Props/CalSolve`) | partial: Violated: with fewer than five equations the gain of the reference tile is zero and the division by its absolute value makes all gains NaN (C64_reference_without_equations). Partial: numbers whenever no reference tile is used. |
| C65 | Calibration weights belong to their baselines | vis_calibrate_subroutine.py: vis_calibrate_subroutine | solver as a loop with fuel and its termination; least squares over fields with involution (`Props/CalSolve`) | partial: Violated: the first weights of the list are used for every tile, so those beyond the largest number of equations of a tile have no influence (C65_later_weights_ignored). Partial: equal weights give the unweighted solution. |
| C66 | Baselines of flagged tiles do not enter the calibration of other tiles | vis_calibrate_subroutine.py: vis_calibrate_subroutine | solver as a loop with fuel and its termination; least squares over fields with involution (`Props/CalSolve`) | partial: Violated: positions of tiles not solved for stay at the initial 0, so their baselines count for the first solved tile (C66_flagged_tile_counts_as_first). Partial: baselines of unflagged tiles are put at the right position. |
| C67 | The imaging grid follows the options FoV, kbinsize, dimension and elements | obs.py: create_obs | index arithmetic, folds, histogram theorems (`Props/DataSetup`) | partial: Violated: a non-zero FoV has no effect, FoV 0 raises ZeroDivisionError, a missing dimension always raises. Proved without FoV and with dimension. |
| C68 | The option time_cut removes the first or last seconds | obs.py: create_obs | index arithmetic, folds, histogram theorems (`Props/DataSetup`) | partial: Violated: any single non-zero cut raises, and any accepted list cuts no integration or all of them. Proved without cuts and for the cut 0. |
| C69 | Files that lack needed group parameters are refused, others accepted | uvfits.py: extract_header | index arithmetic, folds, histogram theorems (`Props/DataSetup`) | partial: Violated: ValueError instead of KeyError for missing BASELINE or DATE, and either at place 0 is refused. Proved: acceptance implies all are present; files starting with UU that have all are accepted; missing coordinates give KeyError. |
| C70 | A constant time offset of the model does not disturb the matching | vis_model_transfer.py: flag_model_visibilities | matching loops; induction (`Props/ModelVis`) | partial: Violated: a model later than the data by more than a quarter of an integration makes the program exit. Proved for models that are earlier (up to half an integration) or later by less than a quarter. |
| C71 | Saving does not change the data in memory | pyfhd_io.py: format_array, pyfhd_io.py: save_dataset | value trees and file trees; structural induction (`Props/Storage`) | partial: Proved for all arrays without None. Violation proved: for object arrays with None every None of the caller's own array is overwritten. |
| C72 | The weights can be saved without the visibilities | pyfhd.py: main | stages as arbitrary functions; case analysis over the options and traces of calls (`Props/Pipeline`) | partial: Proved when both options are on. Violation proved: with save_weights alone, every run that starts from the data ends with an exception and writes nothing. |
| C73 | cal_stop stops after calibration and saves what was asked for | pyfhd.py: main | stages as arbitrary functions; case analysis over the options and traces of calls (`Props/Pipeline`) | proved: All stages, all configurations; stages are arbitrary functions. |
| C74 | Images and cubes are exported from the values computed before | pyfhd.py: main | stages as arbitrary functions; case analysis over the options and traces of calls (`Props/Pipeline`) | partial: Proved: with calibration and gridding with a model, the run ends normally and the exporting functions receive exactly these values. Violations proved: with calibration off, or gridding off without a checkpoint, the run ends with an exception and exports nothing. |
| C75 | A set-up that finds errors reports failure to the calling shell | pyfhd_setup.py: pyfhd_setup | checks as an error counter; case analysis (`Props/Setup`) | partial: Violation proved: the status is 0 for every stopped set-up (exit() without argument). Nothing positive to prove. |
| C76 | HEALPix pixels outside the image get nothing | healpix_utils.py: healpix_cnv_generate, healpix_cnv_apply | loops over pixels; bilinear weights, intervals (`Props/Healpix`) | partial: Violation: a pixel just to the left of the image gets a mixture of both sides of the image (C76_outside_wraps). Partial: pixels at least two rows below or one row above the image get 0. |
| C77 | The list of HEALPix pixels is that of the nearest field | healpix_utils.py: healpix_cnv_generate, pyfhd_utils.py: angle_difference | loops over pixels; bilinear weights, intervals (`Props/Healpix`) | proved: The separations computed by astropy are inputs; fields at least 20 degrees apart (51.5 degrees for the fields in the code). Holds although the comparison mixes degrees with 2 pi. |
| C78 | The size of the exported images follows the options | export.py: healpix_snapshot_cube_generate, pyfhd_setup.py: pyfhd_parser | loops over pixels; bilinear weights, intervals (`Props/Healpix`) | partial: The order of precedence holds when the export gets as far as a size. Violations: the default ps_kspan = 0 is taken as given and raises ZeroDivisionError (C78_default_raises), ps_fov has no effect since ps_kbinsize has a default (C78_fov_ignored). |
| C79 | The export writes one cube for each half and polarization | export.py: healpix_snapshot_cube_generate | loops over pixels; bilinear weights, intervals (`Props/Healpix`) | partial: Proved with split_ps_export. Violation: without it (the default) the weights are not bound and the export raises NameError (C79_no_split_raises). |
| C80 | The resistant mean exists and is robust | pyfhd_utils.py: resistant_mean | lists over ordered fields; medians by sorting (`Props/CalStats`) | partial: Range, order, unit and robustness are proved for all real arrays, existence for an odd number of data. Violated for an even number: 19 times 0, once 1 and 18 times 2 (and every such mixture of at least 19) leaves nothing after the second rejection, the result is NaN (C80_even_undefined). |
| C81 | The noise estimate comes from the unflagged even-odd pairs only | pyfhd_utils.py: vis_noise_calc | lists over ordered fields; medians by sorting (`Props/CalStats`) | proved: Standard deviations are represented by their squares; 4N² noise² is the sum of all squared differences of the pair differences, which is the definition of the variance without its mean. |
| C82 | Calibration residuals are reported by baseline length | calibration_utils.py: vis_baseline_hist | lists over ordered fields; medians by sorting (`Props/CalStats`) | partial: Proved when the models of each bin are all zero or all nonzero. Violated otherwise: the indices are reduced to nonzero models but the model values are not, so a bin with a zero and two nonzero models raises (C82_mixed_raises), and with one nonzero model a perfect calibration gets a residual of n-1 (C82_single_wrong). |
| C83 | Sampling rebin picks the pixel at the proportional position | pyfhd_utils.py: rebin | arrays as functions of indices; division with remainder, sums over blocks (`Props/Rebin`) | partial: Proved for arrays of two or more rows and for 1-D arrays sampled to one row. Violated: the number of rows is ignored for 1-D arrays (C83_rows_ignored); a 2-D array of one row gets more rows instead of more columns (C83_single_row_wrong). |
| C84 | Extracted auto-correlations are the samples of a tile with itself, averaged over the used times on request | calibration_utils.py: vis_extract_autocorr | lists of auto-correlations; least squares with a parameter (`Props/CalAuto`); case analysis on the branch in question; the passes of the amplitude tests by induction over their number (`Props/Tightened`) | partial: C84_all_samples, C84_none and C84_time_order (the samples of a tile in an observation with repeated baselines) hold; C84_average_partial needs at least two used time steps, all present. For a single used time step and two or more frequencies the function raises an error (C84_single_step_raises). |
| C85 | Initial gains from auto-correlations are positive and proportional to the square root of data over model | calibration_utils.py: vis_cal_auto_init | lists of auto-correlations; least squares with a parameter (`Props/CalAuto`); case analysis on the branch in question; the passes of the amplitude tests by induction over their number (`Props/Tightened`); unfolding the fit to the auto-correlations; C80_affine for the scale, and the sum over all samples for the factor of the starting gains (`Props/TightenedNinth`) | partial: C85_positive and C85_proportional hold (the square root is a parameter). The last sentence fails: one NaN or negative auto-correlation resets the initial gains of the whole polarisation to 1 (C85_one_bad_auto). |
| C86 | The fit to auto-correlations keeps phases and is the least-squares line over unflagged neighbourhoods | calibration_utils.py: vis_cal_auto_fit | lists of auto-correlations; least squares with a parameter (`Props/CalAuto`); case analysis on the branch in question; the passes of the amplitude tests by induction over their number (`Props/Tightened`) | partial: np.linalg.lstsq is a parameter assumed to minimise the sum of squares (exLstsq_least shows such a function exists). C86_frequencies, C86_least_squares, C86_exact, C86_other_tiles, C86_params hold. The mean slope is right when every tile has an auto-correlation (C86_scale_partial); otherwise it contains uninitialised memory and can be any number (C86_scale_junk). A single polarisation raises IndexError (C86_single_pol_raises). Tiles listed twice are not modelled. |
| C87 | Calibration flagging removes exactly the tiles and frequencies that fail a documented test | calibration_utils.py: vis_calibration_flag | loop over figures of merit; invariants (`Props/CalFlag`); case analysis on the branch in question; the passes of the amplitude tests by induction over their number (`Props/Tightened`) | partial: C87_only_flags, C87_tile_tests, C87_frequency_test and C87_amplitude_rule hold; standard deviation and polynomial fits are parameters. The last clause fails: tiles without variation are kept, since the assignment is made to a copy (C87_dead_tile_kept). The five-sigma tests cannot act with 23 or fewer tiles (C87_small_array). Gains that are NaN are not modelled. |
| C88 | Polynomial and reflection fits of the gains | calibration_utils.py:vis_cal_polyfit | polynomial fits with a least-squares parameter; composition of the steps of calibration (`Props/CalPoly`) | partial: The phase fit is the least squares polynomial at every channel. Violations proved: the amplitude fit is evaluated without its coefficient of highest degree (range(degree) instead of degree+1); with the gain jump, data above the jump get zero gains, data below it raise, data across it raise unless the first used channel is 1, and then the lower fit is shifted by one channel and flagged edge channels get zero; degrees other than 2 raise; reading the modes from file always raises, the delay spectrum raises for fewer tiles than half the channels, hyperresolution alone raises; a reflection fitted without hyperresolution is applied multiplied by the number of channels. The hyperresolved fit and the cable length selection are not modelled. |
| C89 | Calibration run: gains, residuals and statistics belong together | calibrate.py:calibrate | polynomial fits with a least-squares parameter; composition of the steps of calibration (`Props/CalPoly`); case analysis on the branch in question; the passes of the amplitude tests by induction over their number (`Props/Tightened`) | partial: Consistency of gains, residual and visibilities and the meaning of the statistics are proved for every combination of options, with the individual steps as functions (modelled in other properties). Violation proved: polynomial fits without the bandpass always raise, because the arguments are exchanged in the call. |
| C90 | Mixing angle of Stokes Q and U | calibrate.py:calibrate_qu_mixing, pyfhd_utils.py:reshape_and_average_in_time | sums over used cells; least squares line (`Props/QUMix`); case analysis on the branch in question; the passes of the amplitude tests by induction over their number (`Props/Tightened`) | partial: Flagged samples are ignored; the answer is right when Q is proportional to U, or when all used cells have equal total weight. Violation proved: the sums over time are not divided by the weights, so that an offset between Q and U together with unequal flagging changes the slope (C90_unequal_weights). |
| C91 | Direction cosines are those of the pixels about the phase centre | `l_m_n` | real trigonometry (Mathlib) (`Props/Sky`) | proved: l, m and n + 1 are shown equal to scalar products with the east, north and outward unit vectors; unit length, range, uniqueness of the centre, injectivity on the hemisphere, arrays with missing coordinates and optional arguments. Exact real arithmetic. |
| C92 | The angular distance is a distance | `angle_difference` | real trigonometry (Mathlib) (`Props/Sky`) | partial: Everything holds without the option for the nearest angle (C92_separation, C92_zero). With it the property fails: the larger of the angle (in degrees) and 2 pi minus it is taken, so equal directions are 2 pi degrees apart (C92_nearest_same) and directions less than pi degrees apart get a wrong angle (C92_nearest). |
| C93 | The slant orthographic parameters describe the tilt of the array | `project_slant_orthographic`, `parallactic_angle` | real trigonometry (Mathlib) (`Props/Sky`); case analysis on the branch in question; the passes of the amplitude tests by induction over their number (`Props/Tightened`) | partial: Holds when the zenith is to the north of the phase centre (C93_north_partial). Otherwise the property fails: the quadrant of the parallactic angle is lost by a one-argument arc tangent, so that both parameters have the wrong sign when the zenith is to the south (C93_south_sign), and they are not numbers when the phase centre is the zenith (C93_zenith_nan). C93_flat_array shows what the parameters are for. The WCS object built from them is not modelled. |
| C94 | Each stage of a run works on the results of the stage before | `main` | stages as arbitrary functions; case analysis over the options and traces of calls (`Props/Pipeline`); case analysis over the steps before calibration, over the files that are saved, and induction over the words of a command (`Props/TightenedSeventh`) | proved: The stages are arbitrary functions; C94_planes and C94_calibration relate inputs and outputs of the stages of a run. |
| C95 | Each calibration iteration is a damped least-squares step | `vis_calibrate_subroutine`, `calculate_adaptive_gain` | one iteration as a least-squares minimum; sums of squares (`Props/CalStep`) | proved: An iteration (C95_step), the stop with zero gains (C95_stops_at_zero) and the damping factor (C95_factor). The minimum is stated over the baselines, not over the doubled equations of the code. With baseline weights the weights do not belong to their baselines (C65). numpy's lstsq is modelled by the least-norm solution of the normal equation; exact arithmetic; the sum of base and factor is nonzero. |
| C96 | The baseline threshold of an image only removes weight | `dirty_image_generate` | discrete Fourier transform; padding as index arithmetic (`Props/ImagingOpts`) | partial: Proved for the default width and all widths given as a whole number of pixels not larger than the plane (C96_mask, C96_default_keeps). Violated for fractional widths: between an even number and the next odd one the mask exceeds 1 (C96_fraction_amplifies), between an odd number and the next even one ValueError (C96_fraction_raises). Planes that are not square raise ValueError unless the threshold is turned off (C96_not_square_raises). |
| C97 | A dirty image is the Fourier transform of its uv plane | `dirty_image_generate` | discrete Fourier transform over the complex numbers (Mathlib); reindexing of sums (`Props/Imaging`); discrete Fourier transform; padding as index arithmetic (`Props/ImagingOpts`) | partial: Proved for all planes of even size (C97_fourier, C97_point_source, C97_centre, C97_hermitian_real, C97_gridded_real, C97_image for the function as a whole) and linearity and injectivity for all sizes (C97_linear, C97_injective). Violated for odd sizes: the plane is shifted with fftshift instead of ifftshift, so that a real symmetric plane gives a complex image (C97_odd_shifted). |
| C98 | Padding the uv plane refines the image and keeps its values | `dirty_image_generate` | discrete Fourier transform; padding as index arithmetic (`Props/ImagingOpts`) | partial: Proved for whole factors and square planes of even size without beam or normalisation (C98_padding_refines). Violated for other factors: between 1 and 2 nothing is padded but the image is multiplied by the square of the factor (C98_fraction_scales), below 1 ValueError (C98_below_one_raises). |
| C99 | Making an image leaves the uv plane alone | `dirty_image_generate`, `quickview` | discrete Fourier transform; padding as index arithmetic (`Props/ImagingOpts`) | partial: C99_caller states exactly what the plane of the caller holds afterwards. It is kept for the default threshold without mask, without a filter of the size of the plane, and without units or with padding or a filter of another size (C99_kept_partial). Violated otherwise: multiplied by a filter of its size (C99_filter_overwrites), divided by the area of a pixel (C99_units_overwrite). |
| C100 | The exported images are brightnesses, and the residual is data minus model | `get_image_renormalization`, `quickview` | composition of imaging and gridding models; linearity (`Props/Quickview`) | proved: C100_residual for every export that succeeds; C100_brightness and C100_central_source without padding, for filters other than filter_uv_optimal, and except the last of four polarisations (see C104). Assumed: filter_uv_uniform multiplies by a filter that does not depend on the plane (proved of its model in C33). |
| C101 | The exported uv weights are those of the polarisation as gridded | `quickview` | composition of imaging and gridding models; linearity (`Props/Quickview`) | partial: False of the code: each file holds the planes of all polarisations, the same for all files, and the weights have been multiplied by the filter (C101_weights_wrong). |
| C102 | Images can be exported with padding | `quickview` | composition of imaging and gridding models; linearity (`Props/Quickview`) | partial: False of the code: the filter does not fit the padded array, so that every padding that changes the size raises (C102_padding_raises, C102_padding_two_raises). Without padding the export works (C100_brightness). |
| C103 | Exporting images does not change what is exported afterwards | `quickview`, `crosspol_split_real_imaginary` | composition of imaging and gridding models; linearity (`Props/Quickview`) | partial: The gridded data are kept (C103_data_kept_partial). The model and the weights are multiplied by the filter (C103_model_weights_filtered), and the names of the polarisations are changed (C103_names_changed). |
| C104 | The real and imaginary parts of the cross-polarised image are exported | `quickview`, `crosspol_split_real_imaginary` | composition of imaging and gridding models; linearity (`Props/Quickview`) | partial: The real part is exported (C104_real_part_partial); the images of the imaginary part are zero (C104_imaginary_zero). |
| C105 | The exported uv planes hold every visibility of the channels of a range, once | healpix_utils.py: vis_model_freq_split, visibility_grid.py: visibility_grid | loop over frequency bins; sums over channels (`Props/FreqSplit`) | partial: Proved for square planes and ranges whose channels share a beam bin (without the latter C32 fails, without the former C28). Model gridding is modelled as a second pass with the same kernels. |
| C106 | The visibility counts exported with a cube are those of that cube | healpix_utils.py: vis_model_freq_split, export.py: healpix_snapshot_cube_generate | loop over frequency bins; sums over channels (`Props/FreqSplit`) | partial: The total is proved. The counts per channel hold only where something was gridded in the range: otherwise the channels keep the counts of the previous polarization or half (C106_stale_counts, C106_counts_of_first). |
| C107 | Without a selection the baselines with unflagged data are used | healpix_utils.py: vis_model_freq_split, gridding_utils.py: baseline_grid_locations | loop over frequency bins; sums over channels (`Props/FreqSplit`) | partial: Proved for the gridding on its own. For the split the sum is over the wrong axis: channel numbers are used as baseline numbers (C107_split_default_channels), so that baselines beyond the number of channels are never used. |
| C108 | Each saved uvf file holds the array it is named after | healpix_utils.py: vis_model_freq_split | loop over frequency bins; sums over channels (`Props/FreqSplit`) | partial: Each file holds the array it is named after, but every file holds all four arrays (C108_files_same). |
| C109 | Rephasing weights displaces their image to the original phase centre | healpix_utils.py: phase_shift_uv_image | loop over frequency bins; sums over channels (`Props/FreqSplit`) | partial: Proved for square planes; for others the rows are displaced by the wrong amount (C109_rectangle_wrong). |
| C110 | Flagging of the calibrated visibilities only removes data, and accounts for what it removes | `vis_flag` | loops over channels and tiles; medians and histogram theorems (`Props/VisFlag`) | proved: All inputs for which the call returns; what the memory of tile_fom contains and the standard deviation are arbitrary. |
| C111 | Flagging removes baselines out of range and channels without data, and counts what is left | `vis_flag` | loops over channels and tiles; medians and histogram theorems (`Props/VisFlag`) | proved: As C110. |
| C112 | Which tiles are flagged depends on the data alone | `vis_flag` | case analysis on the branch in question; the running median by comparing the window with a list of places (`Props/TightenedMore`); loops over channels and tiles; medians and histogram theorems (`Props/VisFlag`) | partial: The code violates the property: tile_fom is np.empty, and the figures are added to what the memory contains. C112_memory_decides: for every input there are contents with which no tile is flagged and, for every tile, contents with which it is. C112_dead_tile_partial: with zeros the tiles without data are flagged. |
| C113 | Flagging returns for every observation | `vis_flag`, `idl_median` | case analysis on the branch in question; the running median by comparing the window with a list of places (`Props/TightenedMore`); loops over channels and tiles; medians and histogram theorems (`Props/VisFlag`) | partial: The code violates the property. C113_returns_needs: a call that returns had at least two channels, two time steps, and left more than ten weights in every time step; otherwise idl_median raises IndexError or the attribute size of a tuple is asked for (examples). |
| C114 | A tile far from the others is found however few or many there are | `vis_flag` | case analysis on the branch in question; the running median by comparing the window with a list of places (`Props/TightenedMore`); loops over channels and tiles; medians and histogram theorems (`Props/VisFlag`) | partial: The code violates the property: the first cut keeps what is near OR not zero (should be AND), so nothing with data is left out. C114_single_pass: the decision is the plain distance from the median in deviations of all. C114_few_tiles_kept: with at most six tiles a tile with data is never flagged, for a standard deviation exact up to ten percent. |
| C115 | A run can flag the calibrated visibilities | `main`, `vis_flag` | loops over channels and tiles; medians and histogram theorems (`Props/VisFlag`) | partial: The code violates the property: main calls vis_flag without the logger. C115_flagging_ends_run: every such run ends with an exception and writes no checkpoint of calibration or gridding. |
| C116 | The counts of visibilities are counts | gridding_utils.py:visibility_count, gridding_utils.py:baseline_grid_locations | gridding with all options as a fold; refinement to sums (`Props/GridOptions`) | partial: C116_counts_partial: proved in full for square planes; on other planes baseline_grid_locations tests x against elements (C28), so the claim fails there already in the samples kept. |
| C117 | Uniform weighting without given counts computes them | filters.py:filter_uv_uniform | gridding with all options as a fold; refinement to sums (`Props/GridOptions`) | partial: Violated: filters.py 64-74 passes its arguments by position in the wrong places, so the call of visibility_count gets params as psf; C117_counts_raise proves that it raises for every observation whose params have no entry 'dim'. With given counts the filter is C25-C27. |
| C118 | Gridding a model beside the data | visibility_grid.py:visibility_grid | gridding with all options as a fold; refinement to sums (`Props/GridOptions`) | proved: C118_model_plane, without grid_uniform; with grid_spectral and a model psf_dim must be 1, the other case raises (C120). |
| C119 | grid_uniform divides by the counts | visibility_grid.py:visibility_grid | gridding with all options as a fold; refinement to sums (`Props/GridOptions`) | partial: Violated: visibility_grid.py 520-538 multiplies by weight_invert of the filter, which is itself the inverse of the counts. C119_uniform_multiplies: every plane is multiplied by count times one constant, for all inputs with no_conjugate. |
| C120 | The spectral plane weighs every visibility alike | visibility_grid.py:visibility_grid | gridding with all options as a fold; refinement to sums (`Props/GridOptions`); the sums of the spectral fit as images of gridding with other visibilities (`specBoxes_eq`, `optLoop_spec_planes`), so that the statement about the image plane of C31 gives each of them (`Props/SpectralPlane`); case analysis on the branch in question; the running median by comparing the window with a list of places (`Props/TightenedMore`) | partial: Violated three times. C120_model_raises: 436-438 adds a flat box to a square without .flat, ValueError for every input with a model and something to grid. C120_repeats_count_once: n+2 equal visibilities give n+2 times the data term but once the frequency terms (417-422 lack the weights). C120_frequency_mixed: 258 decodes the channel as in column-major order, so that with two baselines and channels or more the frequency number belongs to another channel. What holds: C120_interpolated_partial (with interpolated kernels every visibility enters each sum of the fit once, and the plane is the slope those sums give), C120_symmetric (the other half is the conjugate mirror), C120_single_partial (a visibility alone in its bin) and C120_frequency_partial (one baseline). |
| C121 | Turning the phase of a tile turns its gain | vis_calibrate_subroutine.py:vis_calibrate_subroutine | whole routine as a composition with checked indices; equality with the specification per channel and tile (`Props/CalRun`) | proved: For all data and options, at the level of the whole routine (selection, averaging, iteration, convergence). Assumes that no baseline in use has a flagged tile (otherwise see C66), exact arithmetic and an absolute value satisfying its laws, no calibration_weights. |
| C122 | The order of the samples does not matter to calibration | vis_calibrate_subroutine.py:vis_calibrate_subroutine | whole routine as a composition with checked indices; equality with the specification per channel and tile (`Props/CalRun`) | proved: Whole routine, all permutations; the sums are exact (rounding not modelled). |
| C123 | Calibration does not depend on the units of flux | vis_calibrate_subroutine.py:vis_calibrate_subroutine | whole routine as a composition with checked indices; equality with the specification per channel and tile (`Props/CalRun`) | proved: Whole routine, any nonzero factor per polarisation and channel. |
| C124 | Gains scale with the data | `vis_calibrate_subroutine` | whole routine as a composition with checked indices; equality with the specification per channel and tile (`Props/CalRun`) | partial: Violated: the test for divergence (vis_calibrate_subroutine.py 353-358) compares the ratio /new///old/ with /old//2 instead of 1/2. C124_large_gains: every gain above 2 that does not grow counts as diverging and gets a third of the correction whatever base_gain is; an example shows that the results of the routine do not scale. C124_scale_partial proves the scaling of the least squares solutions of a step. |
| C125 | Exact gains are returned by the calibration routine | vis_calibrate_subroutine.py:vis_calibrate_subroutine | whole routine as a composition with checked indices; equality with the specification per channel and tile (`Props/CalRun`) | proved: Whole routine. Assumes at least five equations per tile and channel, one with a nonzero averaged model, that no baseline in use has a flagged tile, and that not all tiles have equally many baselines (C278). |
| C126 | Calibration ignores what it is told to ignore | vis_calibrate_subroutine.py:vis_calibrate_subroutine | whole routine as a composition with checked indices; equality with the specification per channel and tile (`Props/CalRun`) | proved: Whole routine, all pairs of inputs that agree on what is in use; C126_limits states the limits in wavelengths. Note that the limits of the uv plane use elements for u and dimension for v (exchanged); equal in practice. For data of flagged tiles with unflagged samples see C66. |
| C127 | Calibration changes the gains of solved tiles only, and marks flagged tiles | `vis_calibrate_subroutine` | whole routine as a composition with checked indices; equality with the specification per channel and tile (`Props/CalRun`); case analysis on the branch in question; the running median by comparing the window with a list of places (`Props/TightenedMore`) | partial: Violated: vis_calibrate_subroutine.py 220 combines the conditions with & instead of /, so a flagged tile with baselines in use keeps its starting gain (C127_flagged_kept). Everything else holds (C127_written_partial). The treatment of NaN gains in 433-440 is not modelled. |
| C128 | The number of visibilities used in calibration | `vis_calibrate_subroutine` | whole routine as a composition with checked indices; equality with the specification per channel and tile (`Props/CalRun`) | partial: Violated with several polarisations: the weights of the last one only are counted (C128_last_polarisation). C128_count_partial gives the count, which includes channels not in use. |
| C129 | The first iterations fit phases only | `vis_calibrate_subroutine` | whole routine as a composition with checked indices; equality with the specification per channel and tile (`Props/CalRun`) | partial: Violated: the undamped solution is rescaled to the old amplitude (C129_phase_fit_partial), but the damped average with the old gain is always smaller unless the phase is unchanged (C129_phase_fit_shrinks). |
| C130 | Kernels per baseline keep all of the fine kernel | gridding_utils.py:grid_beam_per_baseline | kernel as a function of the coordinates; index arithmetic (`Props/BeamBaseline`) | proved: For all sizes, also that any other window raises (C130_window_raises). |
| C131 | The kernel of a baseline is the transform of the beam at its distance | gridding_utils.py:grid_beam_per_baseline | kernel as a function of the coordinates; index arithmetic (`Props/BeamBaseline`); case analysis on the branch in question; the running median by comparing the window with a list of places (`Props/TightenedMore`) | proved: For images of even size whose pixels match the fine uv pixels, n_tracked = 0 (visibility_grid sets it to zero), and a window inside the image; uses the whole of dirty_image_generate. numpy's FFT is trusted to be the sum that defines it. |
| C132 | Clipping the kernels keeps their sums | `grid_beam_per_baseline` | kernel as a function of the coordinates; index arithmetic (`Props/BeamBaseline`); case analysis on the branch in question; the running median by comparing the window with a list of places (`Props/TightenedMore`) | partial: Violated: the threshold comes from the largest value of the group, and a kernel nowhere above it becomes NaN (C132_faint_kernel_nan). Otherwise proved (C132_clip_partial). |
| C133 | The beam integrals of degridding are integrals over the beam | `grid_beam_per_baseline` | kernel as a function of the coordinates; index arithmetic (`Props/BeamBaseline`); case analysis on the branch in question; the running median by comparing the window with a list of places (`Props/TightenedMore`) | partial: Violated: np.sum(box_matrix, 0) sums over visibilities instead of pixels, so a single visibility adds the first pixel of its kernel (C133_first_pixel), and more visibilities than pixels raise IndexError (C133_many_raise). The counts are right. |
| C134 | The window of the beam is centred | `visibility_grid` | kernel as a function of the coordinates; index arithmetic (`Props/BeamBaseline`) | partial: The size is right; centred for resolutions 1 and 2. Violated for 3 and more (C134_displaced): image_bot uses the intermediate resolution, the size the full one. |
| C135 | Kernels per baseline use the coordinates of the visibility | `visibility_grid` | kernel as a function of the coordinates; index arithmetic (`Props/BeamBaseline`) | partial: Violated like C32: inds % n_freq and inds // n_freq are applied to an array with the baselines last. C135_own_iff_partial says exactly which samples get their own kernel; C135_other_coordinates shows one that does not. |
| C136 | A Gaussian beam keeps its shape on another grid | `gaussian_decomp` | Gaussians with any function in place of exp, real and complex exponentials (`Props/GaussBeam`); induction over the list of parameters; case analysis on the name (`Props/TightenedFifth`) | proved: On square grids the value at a pixel is that of the lobes at the corresponding place of the first grid, over any ordered field and with any function in place of exp. The statement is restricted to square grids; C136_oblong_raises shows that other grids raise when there is a lobe. |
| C137 | The image of the beam shows the same beam at every resolution | `beam_image` | Gaussians with any function in place of exp, real and complex exponentials (`Props/GaussBeam`) | partial: C137_fraction and C137_dimension_partial: for uv cells of one size, images of all sizes show the same beam in the same direction. Violated for uv cells of another size: the size cancels (C137_cells_ignored), so two images of one beam with different cells differ in every direction off the centre (C137_wrong_direction). |
| C138 | Evaluating a Gaussian beam leaves its parameters alone | `gaussian_decomp` | Gaussians with any function in place of exp, real and complex exponentials (`Props/GaussBeam`) | partial: C138_parameters_partial: without another grid and without the transform the parameters are left alone. Violated otherwise: widths and offsets of the caller's array are changed in place (C138_changed), and a second evaluation with the changed array gives another image (C138_second_call). |
| C139 | The transformed beam is the Fourier transform of the beam | `gaussian_decomp` | Gaussians with any function in place of exp, real and complex exponentials (`Props/GaussBeam`); case analysis on the branch in question; the running median by comparing the window with a list of places (`Props/TightenedMore`) | partial: Violated. C139_several_lobes_raise: with more than one lobe the parameters do not broadcast against the plane, unless there are as many lobes as columns. C139_not_a_transform: for one lobe the result grows away from the centre and is no Fourier transform of an image without negative values. |
| C140 | The beam of an observation averages over its channels | `beam_image` | fold over bins; sums over the channels in use (`Props/BeamImage`) | partial: C140_average_partial: for Gaussian beams, baselines that all have the same beam and norms whose sum is not zero, the image at every pixel is the quotient of the two sums. Not made otherwise: see C143, C144. |
| C141 | The squared beam of an observation averages the squares | `beam_image` | fold over bins; sums over the channels in use (`Props/BeamImage`) | partial: C141_one_bin_partial: holds when all channels in use are in one bin. Violated with two or more bins: the image is too bright wherever the beams are positive (C141_too_bright). |
| C142 | The beam at one frequency is that of its bin | `beam_image` | fold over bins; sums over the channels in use (`Props/BeamImage`) | partial: C142_one_frequency_partial: holds with square. Violated without: the call raises (C142_plain_raises). |
| C143 | Images of the beam can be made from gridding kernels | `beam_image` | fold over bins; sums over the channels in use (`Props/BeamImage`) | partial: Violated: without Gaussian parameters every call for a frequency in use raises (C143_kernels_raise). |
| C144 | The image of the beam weighs groups of baselines by their size | `beam_image` | fold over bins; sums over the channels in use (`Props/BeamImage`) | partial: Violated: with two different beams among the baselines every call raises (C144_groups_raise). With one group the average is proved in C140. |
| C145 | Each frequency of the beam cube gets the beam of its channel | `beam_image_cube`, `update_obs` | fold over bins with ranges of frequencies; connected regions (`Props/BeamCube`) | partial: C145_frequency_partial: holds at every frequency that is not enclosed by frequencies of a bin with a larger number, hence for ascending bins. Violated otherwise (C145_overwritten), and in the export, where channels of the last bin get the beam of bin 0 (C145_export_last_bin, by the error of C57). |
| C146 | The beam mask is the region above the threshold around the pointing centre | `beam_image_cube` | fold over bins with ranges of frequencies; connected regions (`Props/BeamCube`) | partial: C146_mask_partial: the mask is exactly the region, for all beams, thresholds and sizes, when all beams reach the threshold at the centre; scipy.ndimage.label is a parameter with its specification. Violated when a beam is below the threshold at the centre (C146_faint_centre_raises) and for every odd image size (C146_odd_image_raises). |
| C147 | Options of the beam cube | `beam_image_cube` | fold over bins with ranges of frequencies; connected regions (`Props/BeamCube`) | partial: C147_number_of_frequencies_partial and C147_no_frequencies hold. Violated: pol_i_arr is ignored (C147_polarisations_ignored), frequencies in Hz raise (C147_hertz_raises), square=False and images that are not square raise (C147_plain_raises). |
| C148 | The reflection fitted to a cable leaves the smallest residual | `vis_cal_polyfit` | sums over the channels are written as geometric sums of turns; completing the square shows that the largest sum leaves the least residual; a turn that is not the identity makes a sum strictly shorter than its number of terms, which makes the mode unique; the rest by unfolding (`Props/CalReflect`) | proved: Cable reflections without auto-correlations, nominal mode and hyper-resolution; any set of channels in use. |
| C149 | A cable reflection in the gains is recovered | `vis_cal_polyfit` | sums over the channels are written as geometric sums of turns; completing the square shows that the largest sum leaves the least residual; a turn that is not the identity makes a sum strictly shorter than its number of terms, which makes the mode unique; the rest by unfolding (`Props/CalReflect`) | partial: Proved when no channel is flagged and the reflection has a whole number of turns over the band (C149_recovered_partial). Violated otherwise: with only the last channel flagged the amplitude found is too small by 1-1/(N-1)^2 or the mode is another one (C149_flagged_biased, C149_flagged_not_recovered), because the mean over the channels in use is subtracted first. |
| C150 | The nominal mode of a cable is its round-trip delay | `vis_cal_polyfit` | sums over the channels are written as geometric sums of turns; completing the square shows that the largest sum leaves the least residual; a turn that is not the identity makes a sum strictly shorter than its number of terms, which makes the mode unique; the rest by unfolding (`Props/CalReflect`) | proved: Channels at equal distances, at least two of them, cables marked as to be fitted; the speed of light is a parameter. |
| C151 | Only the selected cables are fitted | `vis_cal_polyfit` | sums over the channels are written as geometric sums of turns; completing the square shows that the largest sum leaves the least residual; a turn that is not the identity makes a sum strictly shorter than its number of terms, which makes the mode unique; the rest by unfolding (`Props/CalReflect`); case analysis on the branch in question; the running median by comparing the window with a list of places (`Props/TightenedMore`) | partial: C151_untouched_partial and C151_fitted_partial give the rule without auto-correlations. Violated with auto-correlations: the selection by cable length has no effect on the modes (C151_selection_ignored). |
| C152 | A tile is compared only with tiles on other cables | `vis_cal_polyfit` | sums over the channels are written as geometric sums of turns; completing the square shows that the largest sum leaves the least residual; a turn that is not the identity makes a sum strictly shorter than its number of terms, which makes the mode unique; the rest by unfolding (`Props/CalReflect`); case analysis on the branch in question; the running median by comparing the window with a list of places (`Props/TightenedMore`); the comparison is over a list of tiles with another mode; normalisation of a tile does not involve other tiles if no mean is missing (`Props/TightenedSixth`) | partial: Holds for the search of the mode (C152_mode_search_partial). Violated in the fit of amplitude and phase: tiles to compare with are selected by the mode found, so that unless it equals the nominal mode the tile itself and all tiles on the same cable are included (C152_own_cable_included). |
| C153 | With auto-correlations the reflection fit keeps gain amplitudes | `vis_cal_polyfit` | sums over the channels are written as geometric sums of turns; completing the square shows that the largest sum leaves the least residual; a turn that is not the identity makes a sum strictly shorter than its number of terms, which makes the mode unique; the rest by unfolding (`Props/CalReflect`) | proved: /exp(i x)/ = 1 for the factor applied with auto-correlations. |
| C154 | Missing auto-correlations affect one tile only | `vis_cal_polyfit`, `rebin_columns` | sums over the channels are written as geometric sums of turns; completing the square shows that the largest sum leaves the least residual; a turn that is not the identity makes a sum strictly shorter than its number of terms, which makes the mode unique; the rest by unfolding (`Props/CalReflect`) | partial: A tile that is not followed by a tile without auto-correlations is normalised by its own mean (C154_normalised_partial). Violated: the tile before a tile without auto-correlations loses its own (rebin adds zero times NaN) and gets a mode 2.5 below the nominal one whatever its data (C154_neighbour_lost). |
| C155 | Phases of a reflection are recovered | `vis_cal_polyfit` | sums over the channels are written as geometric sums of turns; completing the square shows that the largest sum leaves the least residual; a turn that is not the identity makes a sum strictly shorter than its number of terms, which makes the mode unique; the rest by unfolding (`Props/CalReflect`) | proved: Whole number of turns M with 2M below the number of channels, no flagged channel; which tiles it is compared with is C152. |
| C156 | A bandpass file becomes the bandpass gains | `transfer_bandpass` | inversion of `transfer_bandpass`: what has to hold for a file to be used (`transfer_inv`) and the converse (`transfer_use`); the violations follow from the shapes of the arrays. (`Props/BandpassTransfer`) | partial: Violated. For two polarisations and three or more tiles every standard file that fits ends in a ValueError (C156_two_polarisations_raise): an array over tile, channel and polarisation is assigned to one over polarisation, tile and channel. Files are used only if channels and tiles are equally many and there is one polarisation or as many as tiles (C156_only_square); there the values lose their imaginary part and are truncated to integers (C156_truncated, C156_small_values_lost). |
| C157 | Files with x towards north have their polarisations exchanged | `transfer_bandpass` | inversion of `transfer_bandpass`: what has to hold for a file to be used (`transfer_inv`) and the converse (`transfer_use`); the violations follow from the shapes of the arrays. (`Props/BandpassTransfer`) | partial: Violated: both polarisations get the values of the second (C157_both_second). Other orientations are left alone (C157_east_partial). |
| C158 | Bandpass files with other channels are adapted | `transfer_bandpass` | inversion of `transfer_bandpass`: what has to hold for a file to be used (`transfer_inv`) and the converse (`transfer_use`); the violations follow from the shapes of the arrays. (`Props/BandpassTransfer`) | partial: Violated: files with another channel width are never used (C158_other_width_not_used); averaging raises (C158_averaging_raises); the first frequency of files that are used is not looked at (C158_start_unchecked). |
| C159 | Bandpass files with several times give the time of the observation | `transfer_bandpass`, `read_metafits` | inversion of `transfer_bandpass`: what has to hold for a file to be used (`transfer_inv`) and the converse (`transfer_use`); the violations follow from the shapes of the arrays. (`Props/BandpassTransfer`); case analysis on the branch in question (`Props/TightenedThird`) | partial: Violated: files with several times are never used (C159_several_times_not_used), those per pointing are always skipped (C159_pointings_skipped), since the delays of an observation are strings. |
| C160 | Bandpass files with a spectral window axis are used | `transfer_bandpass` | inversion of `transfer_bandpass`: what has to hold for a file to be used (`transfer_inv`) and the converse (`transfer_use`); the violations follow from the shapes of the arrays. (`Props/BandpassTransfer`) | partial: Violated: the mean is taken over the antennas, so such a file is used for one tile at most (C160_window_not_used). |
| C161 | Unsuitable bandpass files are skipped | `transfer_bandpass`, `vis_cal_bandpass` | inversion of `transfer_bandpass`: what has to hold for a file to be used (`transfer_inv`) and the converse (`transfer_use`); the violations follow from the shapes of the arrays. (`Props/BandpassTransfer`) | proved: For all listed kinds of unsuitable files in the standard convention; for antenna counts, of files that reach that test. |
| C162 | Bandpass and remainder multiply to the gains | `transfer_bandpass` | inversion of `transfer_bandpass`: what has to hold for a file to be used (`transfer_inv`) and the converse (`transfer_use`); the violations follow from the shapes of the arrays. (`Props/BandpassTransfer`) | partial: Holds entrywise where the bandpass is not zero (C162_product_partial), but gains are at polarisation, channel and tile and the bandpass at polarisation, tile and channel: the gain of a tile at a channel is divided by the value of another tile and channel, and is not finite where truncation gives zero (C162_exchanged). |
| C163 | Metadata without a metafits file | `read_metafits` | case analysis of the model of `read_metafits` and `create_layout`; a sorted list whose keys are a permutation of 0..n-1 has key i at place i; lengths and grids in the reals. (`Props/ObsMeta`) | partial: Violated: without a metafits file the names hdr and data are read without having been set (C163_no_metafits_raises). With a file the values are those of the file and of the options (C163_from_file_partial). |
| C164 | A run stops when all tiles are flagged | `read_metafits` | case analysis of the model of `read_metafits` and `create_layout`; a sorted list whose keys are a permutation of 0..n-1 has key i at place i; lengths and grids in the reals. (`Props/ObsMeta`) | partial: Violated: the test is for all tiles but one. A run with exactly one good tile stops (C164_stops_with_one_good_tile), one with none goes on (C164_all_flagged_goes_on). The program also ends with exit(), that is with the status of success. |
| C165 | Each tile gets its own flag | `read_metafits`, `create_obs` | case analysis of the model of `read_metafits` and `create_layout`; a sorted list whose keys are a permutation of 0..n-1 has key i at place i; lengths and grids in the reals. (`Props/ObsMeta`) | partial: Names and flags belong to the antennas whatever the order of rows (C165_tile_of_antenna), and tile_use and the count follow the flags (C165_use_partial). Violated for flags of the other polarisation, which are ignored (C165_other_polarisation_ignored). |
| C166 | Antenna numbers of the file are accepted | `create_obs` | case analysis of the model of `read_metafits` and `create_layout`; a sorted list whose keys are a permutation of 0..n-1 has key i at place i; lengths and grids in the reals. (`Props/ObsMeta`); case analysis on the branch in question (`Props/TightenedThird`) | partial: Violated: if one end of all baselines is number zero, as for two antennas counted from zero without auto-correlations, a KeyError is raised (C166_zero_raises); with baseline codes both ends become the same antenna (C166_codes_same). Holds if both ends have a positive number somewhere (C166_positive_partial). |
| C167 | Baseline limits are those of the data | `create_obs` | case analysis of the model of `read_metafits` and `create_layout`; a sorted list whose keys are a permutation of 0..n-1 has key i at place i; lengths and grids in the reals. (`Props/ObsMeta`) | partial: C167_longest_on_grid, C167_shortest and C167_option for all data for which limits exist; without any visibility on the grid, or away from the origin, an exception is raised (C167_none_raises). |
| C168 | Default baseline limits exclude nothing | `create_obs` | case analysis of the model of `read_metafits` and `create_layout`; a sorted list whose keys are a permutation of 0..n-1 has key i at place i; lengths and grids in the reals. (`Props/ObsMeta`) | proved: In real arithmetic; rounding of the comparison made later in gridding is not modelled. |
| C169 | Changing the grid keeps field of view and baselines consistent | `update_obs`, `read_metafits`, `project_slant_orthographic` | case analysis of the model of `read_metafits` and `create_layout`; a sorted list whose keys are a permutation of 0..n-1 has key i at place i; lengths and grids in the reals. (`Props/ObsMeta`) | partial: C169_field, C169_limit_keeps_grid and C169_same_grid for even sizes; for odd sizes the centre moves by half a pixel (C169_odd_moves). The bins of frequencies are C57. |
| C170 | Missing entries of the antenna header get defaults | `create_layout` | case analysis of the model of `read_metafits` and `create_layout`; a sorted list whose keys are a permutation of 0..n-1 has key i at place i; lengths and grids in the reals. (`Props/ObsMeta`) | partial: C170_header for the entries that are always set; violated for the number of leap seconds, which is announced as -1 but not set (C170_leap_seconds_missing). |
| C171 | Missing columns of the antenna table get defaults | `create_layout`, `_check_layout_valid` | case analysis of the model of `read_metafits` and `create_layout`; a sorted list whose keys are a permutation of 0..n-1 has key i at place i; lengths and grids in the reals. (`Props/ObsMeta`) | partial: C171_columns_partial for tables with antenna numbers; without them an AttributeError is raised instead of the announced default (C171_no_numbers_raises). |
| C172 | Colours are proportional to values on the linear scale | `quick_image`, `color_range` | the drawing is unfolded once per scale (`draw_linear`, `draw_log`); ranges are least and greatest elements of the set of numbers shown; the rest is order in an ordered field. (`Props/ColorScale`) | partial: Proved where the range of the data contains 0 (1 with missing pixels) to 255 (C172_wide_partial). Fails otherwise: the scaled colours are compared with the range of the data (image.py 200-205), so the top of the range saturates if it is below 255 (C172_saturates), the bottom is flattened if it is above the first colour (C172_darkens), an image above 255 is drawn in one colour (C172_all_dark) and an image of one value is not drawn (C172_constant). |
| C173 | Missing pixels have a colour of their own | `quick_image`, `log_color_calc` | the drawing is unfolded once per scale (`draw_linear`, `draw_log`); ranges are least and greatest elements of the set of numbers shown; the rest is order in an ordered field. (`Props/ColorScale`) | partial: Holds on the linear scale (C173_linear). On the logarithmic scale: NameError if no pixel is missing (C173_log_absent_raises), negative pixels have the colour of missing ones (C173_log_negative_alike), and without a range no positive pixel is drawn if one is missing (C173_log_nothing_drawn, np.min of NaN). |
| C174 | Drawing leaves the image as it was | `quick_image` | the drawing is unfolded once per scale (`draw_linear`, `draw_log`); ranges are least and greatest elements of the set of numbers shown; the rest is order in an ordered field. (`Props/ColorScale`) | partial: Fails with missing pixels: they are set to NaN in the array of the caller (C174_changed). Holds without (C174_unchanged_partial). |
| C175 | The logarithmic scale with cut is ordered | `log_color_calc` | the drawing is unfolded once per scale (`draw_linear`, `draw_log`); ranges are least and greatest elements of the set of numbers shown; the rest is order in an ordered field. (`Props/ColorScale`); case analysis on the branch in question (`Props/TightenedThird`) | proved: C175_ordered, for exact numbers and any increasing logarithm with its inverse; the options log_cut_val and invert_colorbar are not used by quick_image. |
| C176 | The numbers at the colour bar are the values that have the colour | `quick_image`, `log_color_calc` | the drawing is unfolded once per scale (`draw_linear`, `draw_log`); ranges are least and greatest elements of the set of numbers shown; the rest is order in an ordered field. (`Props/ColorScale`) | partial: Holds on the linear scale without missing pixels (C176_linear_partial); with missing pixels every label is off by one colour (C176_missing_off); with log_cut the first label is off by one or two colours (C176_log_off). |
| C177 | The symmetric logarithmic scale tells signs apart | `log_color_calc` | the drawing is unfolded once per scale (`draw_linear`, `draw_log`); ranges are least and greatest elements of the set of numbers shown; the rest is order in an ordered field. (`Props/ColorScale`) | partial: Fails: a value and its negative have the same colour (C177_sign_lost). Colours are ordered by the size of the value (C177_size_partial). |
| C178 | The scale of absolute values covers the absolute values | `log_color_calc` | the drawing is unfolded once per scale (`draw_linear`, `draw_log`); ranges are least and greatest elements of the set of numbers shown; the rest is order in an ordered field. (`Props/ColorScale`) | partial: Holds for values whose size is within the range (C178_nonneg_partial). The range is not that of absolute values, so negative values beyond it saturate (C178_negative_saturate). |
| C179 | The figure is written to the file that was named | `quick_image` | the drawing is unfolded once per scale (`draw_linear`, `draw_log`); ranges are least and greatest elements of the set of numbers shown; the rest is order in an ordered field. (`Props/ColorScale`) | partial: The extension is always added, so a name that has one gets it twice (C179_twice). Otherwise as stated (C179_format_partial, C179_several). |
| C180 | Logarithmic colours can be computed without missing pixels | `log_color_calc`, `color_range` | the drawing is unfolded once per scale (`draw_linear`, `draw_log`); ranges are least and greatest elements of the set of numbers shown; the rest is order in an ordered field. (`Props/ColorScale`) | partial: Fails for every input: the default of count_missing is None, which is compared with 0 (C180_default_raises). With the option given the function works, see C175, C177 and C178. |
| C181 | The number of converged channels | `vis_calibrate_subroutine` | case analysis on the branch in question; the running median by comparing the window with a list of places (`Props/TightenedMore`) | proved: C181_converged, for exact arithmetic and runs without NaN. Channels are those of C127_solved. |
| C182 | Model visibilities of IDL files keep their place | `import_vis_model_from_sav` | arrays as shapes with entries, broadcasting as a map of indices; structures by mutual induction over a small type of IDL variables (`column_converts`, `columns_convert`); stacking by lemmas on blocks of equal length. (`Props/SavImport`) | partial: C182_entries_partial covers files of one shape with more than one number or behind a pointer, for all n_pol, n_freq, n_baselines; C182_files_needed and C182_missing_ends: the files. Violated for one baseline and one channel (C182_one_number_loses_axis): the test for size 1 meant for pointers (90, 109) takes the first row, and the result has two axes instead of three. |
| C183 | A model that does not fit is refused | `vis_model_transfer`, `import_vis_model_from_sav`, `import_vis_model_from_uvfits` | arrays as shapes with entries, broadcasting as a map of indices; structures by mutual induction over a small type of IDL variables (`column_converts`, `columns_convert`); stacking by lemmas on blocks of equal length. (`Props/SavImport`) | partial: C183_uvfits_partial: a uvfits model with another number of channels ends the run. C183_other_shape_refused_partial: different shapes raise, unless an axis has length one. Violated: C183_repeated (a polarisation with one baseline or channel is repeated over the others by broadcasting) and C183_sav_channels_unchecked (for IDL files the number of channels is not compared with obs). |
| C184 | IDL structures become dictionaries, to any depth | `recarray_to_dict` | arrays as shapes with entries, broadcasting as a map of indices; structures by mutual induction over a small type of IDL variables (`column_converts`, `columns_convert`); stacking by lemmas on blocks of equal length. (`Props/SavImport`) | proved: C184_structures by induction over the structure; the form of what readsav returns is Spec.columns. C184_empty_raises: arrays without entries, which IDL does not have, raise IndexError. |
| C185 | Arrays of structures keep all records | `recarray_to_dict` | arrays as shapes with entries, broadcasting as a map of indices; structures by mutual induction over a small type of IDL variables (`column_converts`, `columns_convert`); stacking by lemmas on blocks of equal length. (`Props/SavImport`) | partial: Violated: C185_later_records_lost (line 588 takes the first element of an array of records). What holds: C185_numbers_kept_partial, numbers directly in the records. |
| C186 | Strings lose their padding | `recarray_to_dict` | arrays as shapes with entries, broadcasting as a map of indices; structures by mutual induction over a small type of IDL variables (`column_converts`, `columns_convert`); stacking by lemmas on blocks of equal length. (`Props/SavImport`) | partial: C186_arrays_stripped_partial: strings in arrays. Violated for single strings (C186_single_kept): line 604 decodes without strip. |
| C187 | Pointers to arrays become an array or a list, with the same numbers | `recarray_to_dict` | arrays as shapes with entries, broadcasting as a map of indices; structures by mutual induction over a small type of IDL variables (`column_converts`, `columns_convert`); stacking by lemmas on blocks of equal length. (`Props/SavImport`); case analysis on the model function (`Props/TightenedFourth`) | partial: Same shape and type: C184_structures. Violated: C187_repeated (an array of one number after a longer one is repeated, not kept in a list) and C187_truncated (floats after integers lose their fraction, since the new array has the type of the first). C187_list_partial: arrays that cannot be broadcast become a list. |
| C188 | create_psf returns the beam of the first baseline or fails | `create_psf` | arrays as shapes with entries, broadcasting as a map of indices; structures by mutual induction over a small type of IDL variables (`column_converts`, `columns_convert`); stacking by lemmas on blocks of equal length. (`Props/SavImport`); case analysis on the branch in question (`Props/TightenedThird`) | partial: C188_first_baseline, C188_other_files. Violated for any other suffix, such as .SAV (C188_no_beam): None is returned and the run goes on without a beam. |
| C189 | Arrays of arrays of arrays are stacked only if they fit | `recarray_to_dict` | arrays as shapes with entries, broadcasting as a map of indices; structures by mutual induction over a small type of IDL variables (`column_converts`, `columns_convert`); stacking by lemmas on blocks of equal length. (`Props/SavImport`) | partial: C189_same_shape_partial: arrays of one shape are stacked. Violated (C189_misaligned): arrays with r+1, r and r+2 rows are joined and cut at the wrong places. Modelled is one pass of the loop for an object array of one axis. |
| C190 | Gridding is linear in the visibilities | `visibility_grid` | Two or three runs of the gridding that differ in the visibilities only are reduced to the same list of bins; the boxes of every bin are sums over its members (C30), and these sums are linear in the visibilities and free of them for the weights. (`Props/Relations`) | proved: Three runs compared through the sums over the bins: C190_linear holds for planes of any shape, with and without interpolation, and after the symmetrisation. |
| C191 | Weights do not depend on the visibilities | `visibility_grid` | Two or three runs of the gridding that differ in the visibilities only are reduced to the same list of bins; the boxes of every bin are sums over its members (C30), and these sums are linear in the visibilities and free of them for the weights. (`Props/Relations`) | proved: C191_weights for planes and counts, C191_outcome for empty results and errors. |
| C192 | Flagged visibilities have no influence on the gridded planes | `visibility_grid`, `baseline_grid_locations` | Two or three runs of the gridding that differ in the visibilities only are reduced to the same list of bins; the boxes of every bin are sums over its members (C30), and these sums are linear in the visibilities and free of them for the weights. (`Props/Relations`) | proved: C192_flagged: equality of the whole result. |
| C193 | Updating the weights again changes nothing | `vis_weights_update` | Compositions of runs: the zeroing conditions of the weight update do not depend on the weights; inverses of products are products of inverses; mirrored coordinates coincide; block sums of block sums are block sums; counts add. (`Props/RelationsMore`) | proved: C193_idempotent: the second update returns exactly what the first returned. |
| C194 | Gains applied one after the other multiply | `vis_calibration_apply` | Compositions of runs: the zeroing conditions of the weight update do not depend on the weights; inverses of products are products of inverses; mirrored coordinates coincide; block sums of block sums are block sums; counts add. (`Props/RelationsMore`) | proved: C194_products, C194_unit, C194_linear; without the cross-phase fit, whose failure is C35. |
| C195 | The direction of a baseline does not matter to gridding | `baseline_grid_locations`, `visibility_grid` | Compositions of runs: the zeroing conditions of the weight update do not depend on the weights; inverses of products are products of inverses; mirrored coordinates coincide; block sums of block sums are block sums; counts add. (`Props/RelationsMore`) | proved: C195_direction: equality of the whole result. Baselines with v = 0 exactly are excluded by the statement: they are never mirrored, so their direction decides which half they are put in. |
| C196 | Shrinking an array in steps is shrinking it at once | `rebin` | Compositions of runs: the zeroing conditions of the weight update do not depend on the weights; inverses of products are products of inverses; mirrored coordinates coincide; block sums of block sums are block sums; counts add. (`Props/RelationsMore`) | proved: C196_two_steps. Integer arrays are truncated in every step and are not claimed. |
| C197 | The histogram of joined data is the sum of the histograms | `histogram`, `l_m_n` | Compositions of runs: the zeroing conditions of the weight update do not depend on the weights; inverses of products are products of inverses; mirrored coordinates coincide; block sums of block sums are block sums; counts add. (`Props/RelationsMore`) | proved: C197_joined and C197_order. |
| C198 | An option has the value given last, on the command line before the file, else its default | `pyfhd_parser`, `main` | the value of one option is followed through all arguments (`parseArgs_value`, `fileArgs_mentions`), using that all names and keys of the table differ, which is checked by evaluation; then induction over the mentions of that option; the condition for success by induction over arguments and settings. (`Props/Options`) | proved: The table of options is that of the code; argparse and configargparse are modelled. int() and float() are parameters. |
| C199 | A switch is on exactly when it is asked for | `pyfhd_parser` | the value of one option is followed through all arguments (`parseArgs_value`, `fileArgs_mentions`), using that all names and keys of the table differ, which is checked by evaluation; then induction over the mentions of that option; the condition for success by induction over arguments and settings. (`Props/Options`) | partial: Proved for all switches but export_images (C199_switch_partial). Violated: export_images has the default True and can only be turned on, so images are exported with every file and command line (C199_export_images_on). |
| C200 | The command line overrides the configuration file | `pyfhd_parser` | the value of one option is followed through all arguments (`parseArgs_value`, `fileArgs_mentions`), using that all names and keys of the table differ, which is checked by evaluation; then induction over the mentions of that option; the condition for success by induction over arguments and settings. (`Props/Options`) | partial: Proved: the file has no effect on options named on the command line (C200_file_ignored_partial), whose value is then the last one given (C198_value). Violated: there is no way to say off, so a switch that the file turns on stays on with every command line (C200_switch_stays_on). |
| C201 | Lists given as options arrive as they were given | `pyfhd_parser` | the value of one option is followed through all arguments (`parseArgs_value`, `fileArgs_mentions`), using that all names and keys of the table differ, which is checked by evaluation; then induction over the mentions of that option; the condition for success by induction over arguments and settings. (`Props/Options`) | partial: Violated for all four options: type=list takes each text apart into characters (C201_tiles_in_pieces, C201_times_in_pieces). Proved is exactly what arrives; without the options it is the default. |
| C202 | Wrong options end the program and right ones do not | `pyfhd_parser` | the value of one option is followed through all arguments (`parseArgs_value`, `fileArgs_mentions`), using that all names and keys of the table differ, which is checked by evaluation; then induction over the mentions of that option; the condition for success by induction over arguments and settings. (`Props/Options`) | proved: Exact condition, for the command line and the file; the program ends with SystemExit otherwise. |
| C203 | Every key of the configuration file that comes with the program can be set | pyfhd.yaml:1-155, `pyfhd_parser` | the value of one option is followed through all arguments (`parseArgs_value`, `fileArgs_mentions`), using that all names and keys of the table differ, which is checked by evaluation; then induction over the mentions of that option; the condition for success by induction over arguments and settings. (`Props/Options`) | partial: Proved for all keys but three (C203_keys_partial). Violated for deproject-w-term (the option is deproject_w_term), calibration-checkpoint (calibrate-checkpoint) and calibration-catalog-file-path (calibration_catalog-file-path): any value ends the program (C203_keys_refused). |
| C204 | Each run has a directory in the output path | `pyfhd_logger` | case analysis of the three steps of the set-up of directories; induction over the runs of a process for the handlers; distances from the rounded value for the durations. (`Props/RunDir`) | proved: The disk is a set of directories and files; permissions, links and the part .. are not modelled. |
| C205 | Different runs have different directories | `pyfhd_logger` | case analysis of the three steps of the set-up of directories; induction over the runs of a process for the handlers; distances from the rounded value for the durations. (`Props/RunDir`) | partial: Proved: every reuse is warned of (C205_warned); descriptions without blanks and slashes that differ give different directories (C205_own_directory_partial). Violated: descriptions that differ in a blank and an underscore, and runs without description within one second, share a directory (C205_shared). |
| C206 | Log and configuration files of different runs have different names | `pyfhd_logger`, `write_collated_yaml_config` | case analysis of the three steps of the set-up of directories; induction over the runs of a process for the handlers; distances from the rounded value for the durations. (`Props/RunDir`) | proved: Equivalence, for times of equal length, which strftime gives. |
| C207 | An output path that does not exist is created | `pyfhd_logger` | case analysis of the three steps of the set-up of directories; induction over the runs of a process for the handlers; distances from the rounded value for the durations. (`Props/RunDir`) | partial: Proved when the parent exists (C207_created_partial). Violated: a path whose parent does not exist ends the program with FileNotFoundError (C207_nested_fails), and so does a description with a slash (C207_slash_fails). |
| C208 | Each message appears once where it was asked for | `pyfhd_logger`, `finish_pyfhd` | case analysis of the three steps of the set-up of directories; induction over the runs of a process for the handlers; distances from the rounded value for the durations. (`Props/RunDir`) | partial: Proved for the first run in a process (C208_once_partial). Violated: a silent run without log file shows warnings, and the creation of the output path is told although silent (C208_silent_speaks); handlers are closed at the end but stay, so later runs in the process show each message several times and write it to the logs of earlier runs (C208_repeated). The rules of the logging library are modelled. |
| C209 | The first message of the log names the inputs | `pyfhd_logger` | case analysis of the three steps of the set-up of directories; induction over the runs of a process for the handlers; distances from the rounded value for the durations. (`Props/RunDir`) | partial: Exact: a value is reported with blanks for its underscores, so unchanged exactly when it has none (C209_reported_partial, for values without bars). Violated: names that differ in a blank and an underscore are reported alike (C209_confused). |
| C210 | The recorded commit is that of the program | `pyfhd_logger`, `retrieve_gitdict` | case analysis of the three steps of the set-up of directories; induction over the runs of a process for the handlers; distances from the rounded value for the durations. (`Props/RunDir`) | partial: Proved with a complete information file (C210_commit_partial). Violated: without it the output of git in the working directory is taken, whatever repository that is and even if empty, with its newline; the text that nothing was found is never used; a file with fewer than three lines raises IndexError (C210_any_repository). |
| C211 | Reported durations are the durations | `_print_time_diff`, `finish_pyfhd` | case analysis of the three steps of the set-up of directories; induction over the runs of a process for the handlers; distances from the rounded value for the durations. (`Props/RunDir`) | proved: In exact arithmetic; round and timedelta round halves to even. |
| C212 | The HEALPix resolution matches the image | `healpix_cnv_generate`, `healpix_snapshot_cube_generate` | the choice of pixels in `Model/HealpixPixels`, with the positions, altitudes and files as parameters; the resolution by the monotony of the logarithm, the cut by induction over the list, and the values with the theorems on the interpolation (C55). (`Props/HealpixPixels`) | proved: Over exact reals: rounding of the logarithm is not modelled. For image pixels larger than a quarter of the sky the power is below one and pix2vec fails. |
| C213 | A list of HEALPix pixels is used with its positions | `healpix_cnv_generate` | the choice of pixels in `Model/HealpixPixels`, with the positions, altitudes and files as parameters; the resolution by the monotony of the logarithm, the cut by induction over the list, and the values with the theorems on the interpolation (C55). (`Props/HealpixPixels`) | proved: For lists with an nside and not exactly one pixel; positions strictly inside a cell of the image (C55 and C76 treat the others). When no pixel is left the call fails (C213_none_left). |
| C214 | Maps without a list of HEALPix pixels | `healpix_cnv_generate` | the choice of pixels in `Model/HealpixPixels`, with the positions, altitudes and files as parameters; the resolution by the monotony of the logarithm, the cut by induction over the list, and the values with the theorems on the interpolation (C55). (`Props/HealpixPixels`) | partial: The code violates it: without a list the mask is indexed by floating point numbers, so every call fails (C214_no_list_fails). The switch is off unless given. With a list the call does not fail (C214_list_partial). |
| C215 | The list of HEALPix pixels belongs to the observation | `healpix_cnv_generate` | the choice of pixels in `Model/HealpixPixels`, with the positions, altitudes and files as parameters; the resolution by the monotony of the logarithm, the cut by induction over the list, and the values with the theorems on the interpolation (C55). (`Props/HealpixPixels`) | partial: The code violates it: the chosen list is written to the options, and a later call with the same options uses it for another observation (C215_kept). For fresh options the nearest list is used (C215_nearest_partial; C77 says which this is). |
| C216 | Recorded numbers of HEALPix pixels | `healpix_cnv_generate` | the choice of pixels in `Model/HealpixPixels`, with the positions, altitudes and files as parameters; the resolution by the monotony of the logarithm, the cut by induction over the list, and the values with the theorems on the interpolation (C55). (`Props/HealpixPixels`) | partial: The number of pixels is right; the number of masked pixels is right when all pixels lie strictly inside cells (C216_counts_partial). Pixels with a whole coordinate are counted as masked though nothing is (C216_whole_counted). |
| C217 | Coordinates and times of the visibilities are those of the file | `create_params` | case analysis of the steps of `uvHeader`; the columns of the file with a sum over the parameters of a name as specification. (`Props/UvfitsHeader`) | partial: Holds when each name is used once (C217_columns_partial). The code violates it when the date is split into two parameters: only the first is read (C217_split_date), so that all visibilities of a day get the same time (C217_split_day) and the import fails (C43_single_time_type_error). |
| C218 | The place of the telescope comes from the file or from the instrument | `extract_header` | case analysis of the steps of `uvHeader`; the columns of the file with a sum over the parameters of a name as specification. (`Props/UvfitsHeader`) | partial: Holds for instruments astropy knows (C218_header_first_partial). The code violates it for others: the substitute call raises, whatever the header gives (C218_unknown_fails). |
| C219 | Pointing and reference date of the file | `extract_header` | case analysis of the steps of `uvHeader`; the columns of the file with a sum over the parameters of a name as specification. (`Props/UvfitsHeader`) | proved: All three parts, for all headers. |
| C220 | Histograms of integers are exact in floating point | `get_bins`, `get_hist`, `get_ri`, `histogram` | a rounding is an order-preserving map that keeps integers and has a bounded relative error, proved for the rounding to 53 digits from the exponent of a rational; the histogram model with a rounding after every operation is compared with the exact one element by element (integers), or classified by a monotone function of the datum (floats); the failing input is evaluated by the kernel (`Props/FloatHist`) | proved: For every rounding to p binary digits that keeps order and integers (the rounding of float64 is proved to be one, p = 53) the model with rounding after every operation equals the exact model, so C01 to C03 apply to it. |
| C221 | Histograms of floating point data stay in their arrays | `get_bins`, `get_hist`, `get_ri`, `histogram` | a rounding is an order-preserving map that keeps integers and has a bounded relative error, proved for the rounding to 53 digits from the exponent of a rational; the histogram model with a rounding after every operation is compared with the exact one element by element (integers), or classified by a monotone function of the datum (floats); the failing input is evaluated by the kernel (`Props/FloatHist`) | partial: The code violates the claim: with bins of width 0.1 any data that reach from 0 to 0.6 make the compiled loop write one element past the counts (C221_out_of_bounds). Proved instead: whenever the call returns the bins partition the data of the range in order; a datum lies between the edges of its bin up to a few rounding errors; and the call returns if the upper limit is less than one bin above the last edge by a margin of the order of the rounding error. Overflow and subnormal numbers are not modelled. |
| C222 | The results asked for are saved | `quickview`, `main`, `pyfhd_parser` | every action of a run is shown not to save a result, phase by phase, for arbitrary stages; names are split at the first separator, which the words do not contain; the matrix after n exports by induction over n (`Props/OutputFiles`); case analysis over the steps before calibration, over the files that are saved, and induction over the words of a command (`Props/TightenedSeventh`) | partial: The code violates the claim: results are saved by quickview only, so that a run without export_images saves none of them whatever was asked for (C222_nothing_without_images, for all stages and options), and the model visibilities are never saved although the help of the option says so. Proved: with export_images exactly the results asked for are saved, under distinct paths; the planes only when they were computed in this run. |
| C223 | No exported image replaces another | `quickview`, `pyfhd_parser` | every action of a run is shown not to save a result, phase by phase, for arbitrary stages; names are split at the first separator, which the words do not contain; the matrix after n exports by induction over n (`Props/OutputFiles`); induction over the list of parameters; case analysis on the name (`Props/TightenedFifth`) | partial: The code violates the claim: the name contains only the last word of the filter, so that filter_uv_uniform and filter_uv_tapered_uniform give the same names. Proved: within a run all names are distinct, for every filter that can be chosen. |
| C224 | The header of an image gives the positions the program uses | `quickview`, `project_slant_orthographic`, `update_obs`, `pixel_to_radec` | every action of a run is shown not to save a result, phase by phase, for arbitrary stages; names are split at the first separator, which the words do not contain; the matrix after n exports by induction over n (`Props/OutputFiles`) | partial: The code violates the claim: the reference pixel is truncated, so that images of odd size are off by half a pixel, and the matrix of the observation is multiplied in place, so that the second export has a wrong scale. Proved for the first export of images of even size. |
| C225 | The files of uv weights give the coordinates of the cells | `quickview` | every action of a run is shown not to save a result, phase by phase, for arbitrary stages; names are split at the first separator, which the words do not contain; the matrix after n exports by induction over n (`Props/OutputFiles`) | proved: For every even size, cell size and cell. |
| C226 | A model of visibilities belongs to the channels of the data | `import_vis_model_from_uvfits`, `extract_header` | composition of the theorems on header, group parameters and data of a uvfits file; splitting a command into words by induction over the words; the last part of a path holds no separator, by induction over the path (`Props/ModelImport`) | partial: Violated: only the number of channels is compared, a model for other frequencies is used (C226_other_frequencies). Proved: with equal numbers the visibilities and parameters are those of the file; another number is never used. |
| C227 | IDL gets directory, observation and number of polarisations | `convert_vis_model_arr_to_sav`, `run_command` | composition of the theorems on header, group parameters and data of a uvfits file; splitting a command into words by induction over the words; the last part of a path holds no separator, by induction over the path (`Props/ModelImport`); case analysis over the steps before calibration, over the files that are saved, and induction over the words of a command (`Props/TightenedSeventh`) | partial: Violated: the command is split at blanks, a blank in the directory shifts the arguments (C227_blank), and with a relative directory IDL, run inside it, looks for a directory of the same name there (C227_relative). Proved for absolute directories without blanks. |
| C228 | Every polarisation is written for IDL under its own name | `convert_vis_model_arr_to_sav` | composition of the theorems on header, group parameters and data of a uvfits file; splitting a command into words by induction over the words; the last part of a path holds no separator, by induction over the path (`Props/ModelImport`) | proved: For arrays of visibilities with three axes. |
| C229 | Reading an IDL file leaves files as they are | `convert_sav_to_dict` | composition of the theorems on header, group parameters and data of a uvfits file; splitting a command into words by induction over the words; the last part of a path holds no separator, by induction over the path (`Props/ModelImport`) | partial: Violated: a compressed file in the directory of temporary files is replaced by its copy (C229_overwritten). Proved for other paths; files are taken to have one path each. |
| C230 | Degridding returns visibilities | `visibility_degrid`, `baseline_grid_locations` | binding of arguments characterised by indices of parameters; the loop over pixels as a map that succeeds on full maps (`Props/Degrid`) | partial: Violated for all arguments: the call of baseline_grid_locations lacks the logger (C230_never). What follows that call is not modelled. Proved: the other calls of it fit (C230_other_calls_partial). |
| C231 | A holographic map is converted to a sparse one | `holo_mapfn_convert` | binding of arguments characterised by indices of parameters; the loop over pixels as a map that succeeds on full maps (`Props/Degrid`) | partial: Violated: no map is ever converted (C231_never), and values in the last row and column are not looked at (C231_last_ignored). Proved: when 0 is returned, for square maps with an array for every pixel. |
| C232 | A region does not depend on which of its pixels it is grown from | `region_grow` | both runs are described by the theorem on one run (C59, C31); paths between pixels are joined, and sums over the list of samples are permuted; the failing input is evaluated by the kernel (`Props/RelationsThird`) | proved: Seed (C232_any_pixel), several seeds (C232_union), ranges (C232_wider). The labelling of connected components is a parameter with the specification of C59. |
| C233 | The order of the visibilities does not matter to gridding | `visibility_grid`, `baseline_grid_locations` | both runs are described by the theorem on one run (C59, C31); paths between pixels are joined, and sums over the list of samples are permuted; the failing input is evaluated by the kernel (`Props/RelationsThird`) | partial: Proved for square planes when all channels to be gridded use the same kernel (C233_order_partial), for relabelled samples, reordered lists and arbitrary beam groups. Violated when channels have different kernels: the kernel is looked up by the position of the sample in the list (C32), so that exchanging two samples changes the weights (C233_order_matters). |
| C234 | Gridding is the adjoint of sampling the uv plane with the kernels | `visibility_grid` | the sums of C31 are exchanged with the sum over the plane and reindexed over the footprint, which lies inside the plane; the plane of a source is then inserted, and real and imaginary part are separated by the theorems on Hermitian planes (C97) (`Props/EndToEnd`) | partial: C234_adjoint_partial, for square planes and channels that share a kernel; with other channels samples get the kernels of other channels (C32), and on other planes the footprints leave the plane (C28). |
| C235 | The dirty image compares the visibilities with those of a source at the pixel | `visibility_grid`, `dirty_image_generate`, `grid_beam_per_baseline` | the sums of C31 are exchanged with the sum over the plane and reindexed over the footprint, which lies inside the plane; the plane of a source is then inserted, and real and imaginary part are separated by the theorems on Hermitian planes (C97) (`Props/EndToEnd`) | partial: C235_matched_partial and C235_source_partial, for square planes of even size and channels that share a kernel; the rest is excluded by C32, C28 and C97_odd_shifted. |
| C236 | Gridding positions are accurate in floating point arithmetic | `baseline_grid_locations` | every rounding is replaced by its bounds (monotone, exact on integers, relative error); the failing coordinates by monotony from one evaluated number (`Props/FloatGrid`) | partial: Index and remainder are in range for every rounding (C236_offset_partial), the first pixel is exact for even sizes (C236_corner_partial), the coordinate has a relative error of two roundings (C236_centre_partial), and the position is right up to three rounding errors unless the coordinate is within two rounding errors below a whole number (C236_position_partial). Violated there: a coordinate between -2^-54 and 0 is put a whole pixel away, as the remainder rounds to 1 and wraps to offset 0 without moving the pixel (C236_whole_pixel). |
| C237 | Interpolation weights in floating point arithmetic | `baseline_grid_locations` | every rounding is replaced by its bounds (monotone, exact on integers, relative error); the failing coordinates by monotony from one evaluated number (`Props/FloatGrid`) | proved: C237_weights, for any rounding that is monotone, keeps integers and has a relative error of at most 2^-p; float64 is an instance. |
| C238 | Calibration does not depend on how tiles are numbered | `vis_calibrate_subroutine` | one step of the solver commutes with a renumbering of the equations, then induction over the iterations; the list of tiles of the renumbered run is a permutation of the renumbered list; channels by the theorem on the steps of a run (`Props/CalRenumber`) | proved: The flags of tiles and of baselines must agree and the reference tile must stay the same tile: otherwise the common phase differs and with it the relative changes that decide convergence. |
| C239 | A channel is calibrated on its own | `vis_calibrate_subroutine` | one step of the solver commutes with a renumbering of the equations, then induction over the iterations; the list of tiles of the renumbered run is a permutation of the renumbered list; channels by the theorem on the steps of a run (`Props/CalRenumber`) | proved: Both runs are taken to succeed; whether a run succeeds can depend on other channels (an error there ends the run). |
| C240 | Rounding in gridded planes is bounded by the number of operations | `visibility_grid` | induction over the tree of operations for the error bound; the exact sum from C31; mirror images by index arithmetic and the oddness of the rounding (`Props/FloatSum`) | partial: Square planes, as C31; the sum is any tree of rounded operations on parts of kernels and visibilities. Overflow and subnormal numbers are not modelled. |
| C241 | The symmetrised plane is exactly Hermitian in floating point numbers too | `visibility_grid`, `conjugate_mirror` | induction over the tree of operations for the error bound; the exact sum from C31; mirror images by index arithmetic and the oddness of the rounding (`Props/FloatSum`) | proved: For every rounding that is odd and keeps doubling exact, which is proved for the rounding to 53 digits. |
| C242 | Positions and pixels belong to each other | `radec_to_pixel`, `pixel_to_radec`, `project_slant_orthographic` | unfolding the saving of an array of integers and the parameters of the projection (`Props/TightenedEighth`); the projection in components towards east, north and the phase centre; the direction of a pixel is the larger root of a quadratic equation, which is the near side; the horizon and the phases with the theorems on the slant parameters (C93) (`Props/UnitConv`) | proved: Over the reals; the projection that astropy computes is written out (FITS paper II) and trusted. Astrometry as project_slant_orthographic makes it. |
| C243 | The mask of the horizon is that of the array | `quickview`, `radec_to_pixel`, `pixel_to_radec`, `project_slant_orthographic` | the projection in components towards east, north and the phase centre; the direction of a pixel is the larger root of a quadratic equation, which is the near side; the horizon and the phases with the theorems on the slant parameters (C93) (`Props/UnitConv`) | partial: Proved with the zenith to the north of the phase centre. Violated with the zenith to the south (C243_south_lost): the sign of the slant parameters is wrong (C93), the horizon is that of a zenith mirrored at the phase centre, and some position above the horizon has no pixel. |
| C244 | Sources have the phases of their pixels | `create_obs`, `project_slant_orthographic`, `radec_to_pixel` | the projection in components towards east, north and the phase centre; the direction of a pixel is the larger root of a quadratic equation, which is the near side; the horizon and the phases with the theorems on the slant parameters (C93) (`Props/UnitConv`) | partial: Proved with the zenith to the north of the phase centre. Violated with the zenith to the south (C244_south_w_term): the phase differs by twice the w term. |
| C245 | The direction of baselines does not matter to calibration | `vis_calibrate_subroutine` | calibration: both directions of a baseline enter the equations, so that the lists of equations are permutations of each other; gridding in parts: the planes are sums over the list of samples, which is a permutation of the two lists joined (`Props/RelationsFourth`) | proved: All results of the routine, for any set of baselines taken in the other direction; needs that weights read as gains are their own conjugates and that the length of (-u,-v) is that of (u,v). With averaging over time all integrations of a baseline have to be taken in the same direction, since the routine reads the tiles of the first integration only. |
| C246 | Griddings of parts add up to the gridding of the whole | `visibility_grid`, gridding_utils.py | calibration: both directions of a baseline enter the equations, so that the lists of equations are permutations of each other; gridding in parts: the planes are sums over the list of samples, which is a permutation of the two lists joined (`Props/RelationsFourth`) | partial: Proved for square planes and one kernel for all channels (C246_parts_partial), for the number of visibilities and all planes. Violation (C246_parts_differ): with different kernels the parts do not add up, because a sample gets the kernel of another sample of its group (C32). |
| C247 | Calibrated data are the data without gains | `vis_calibrate_subroutine`, `vis_calibration_apply` | composition of C125 with the value of every entry of `vis_calibration_apply`; phases of absolute value one cancel against their conjugates (`Props/RelationsFifth`) | partial: XX and YY are restored exactly whatever the reference tile. Violation for XY and YX: the phases of X and Y refer to tiles independently of each other, so that the corrected products have an unknown phase, different for every channel (C247_restored_partial says which, C247_cross_phase is an example in which the sign is wrong); the phase that vis_calibration_apply would fit is never applied (C35). Without a reference tile there is no such phase. |
| C248 | HEALPix maps show the image they are made from | `healpix_cnv_apply`, `healpix_cnv_generate` | the value at a position is the bilinear interpolation of four pixels (C55), whose weights are non-negative, sum to one and reproduce linear functions (`Props/HealpixSmooth`) | partial: Proved for positions strictly between rows and columns of pixels. Violation: positions with an integer coordinate get 0 (C248_integer_positions, C55). |
| C249 | Filtering a uv plane convolves the image with the image of the filter | `dirty_image_generate` | the inverse of the transform of the code (`uvToImage_inverse`) is inserted and the order of the sums exchanged; symmetric filters have real images (`Props/ImageRelations`) | proved: For the whole function with the default threshold and without mask, padding, beam and normalisation; the convolution repeats beyond the edges of the image, as the discrete transform does. Exact arithmetic. |
| C250 | Images conserve flux and power | `dirty_image_generate` | the inverse of the transform of the code (`uvToImage_inverse`) is inserted and the order of the sums exchanged; symmetric filters have real images (`Props/ImageRelations`) | partial: Power and error bounds hold for all sizes, the total flux for even sizes. Violation: for odd sizes the sum of pixels is the value of another cell than the central one (C250_total_odd), see C97. |
| C251 | Splitting weights into even and odd time steps a second time changes nothing | pyfhd_utils.py: split_vis_weights | the weights after the first call are written in closed form (`visFlagBasic_weights`, `splitApply_twice`) and inserted in the second call (`Props/FlagTwice`) | proved: All weights and observations for which the function returns a pair. |
| C252 | The range of frequencies asked for is what is kept | flagging.py: vis_flag_basic | the weights after the first call are written in closed form (`visFlagBasic_weights`, `splitApply_twice`) and inserted in the second call (`Props/FlagTwice`) | partial: Holds with flag_frequencies (C252_range_partial). Violated without it, which is the default of the command line: lines 165-183 put every channel without weights back where the data are not zero, including those that flag_freq_start and flag_freq_end removed just before (C252_undone: weight one for every sample with data of a baseline used in the range; C252_rest: zero elsewhere). |
| C253 | Basic flagging of already flagged weights changes nothing | flagging.py: vis_flag_basic | the weights after the first call are written in closed form (`visFlagBasic_weights`, `splitApply_twice`) and inserted in the second call (`Props/FlagTwice`) | partial: Holds with flag_frequencies (C253_again_partial). Violated without: a channel with weights in flagged time steps only is put back by the second call (C253_channel_returns). |
| C254 | Altitude and azimuth and positions on the sky convert into each other | unit_conv.py: altaz_to_radec, radec_to_altaz | both conversions are rotations of unit vectors (`icrsOf_spec`, `altazOf_spec`); the horizon is joined with C243 (`Props/AltAz`) | proved: The transformation of astropy is replaced by the rotation of the sky (Model/AltAz). |
| C255 | The zenith and the altitude in the metadata agree with each other | obs.py: read_metafits, unit_conv.py: altaz_to_radec, radec_to_altaz, pyfhd_utils.py: angle_difference | both conversions are rotations of unit vectors (`icrsOf_spec`, `altazOf_spec`); the horizon is joined with C243 (`Props/AltAz`) | proved: As C254. |
| C256 | The horizon of the image is the horizon of the place | obs.py: project_slant_orthographic, unit_conv.py: radec_to_altaz, radec_to_pixel | both conversions are rotations of unit vectors (`icrsOf_spec`, `altazOf_spec`); the horizon is joined with C243 (`Props/AltAz`) | partial: Holds with the zenith to the north of the phase centre; violated with the zenith to the south (C256_south_lost), from the sign of the slant (C93). |
| C257 | The residual phases in the calibration plots are angles between raw and fitted gains | calibration.py: plot_cals | `np.unwrap` is written as a recursion over the channels, with the sum of corrections as invariant (a multiple of a whole turn); limits by induction over the values (`Props/PlotCurves`) | partial: C257_residual: the angle is right up to whole turns; C257_exact_fit. Violated in that it is not the smallest one: raw and fitted phases are unwrapped separately, so that phases on both sides of half a turn in the first channel give a residual of nearly a whole turn in all channels (C257_whole_turn). Signs of zero are not modelled. |
| C258 | The axes of the calibration plots fit the tiles that are drawn | calibration.py: plot_cals | `np.unwrap` is written as a recursion over the channels, with the sum of corrections as invariant (a multiple of a whole turn); limits by induction over the values (`Props/PlotCurves`) | partial: C258_inside holds. Violated: the limits are those of all tiles, in use or not, though the comment says otherwise (C258_unused_tile), and without any gain that is a number the function raises (C258_no_number). |
| C259 | A channel without gain is left out of the calibration plots alone | calibration.py: plot_cals | `np.unwrap` is written as a recursion over the channels, with the sum of corrections as invariant (a multiple of a whole turn); limits by induction over the values (`Props/PlotCurves`) | partial: Holds for all curves but the residual phases (C259_points_partial). Violated for these: np.unwrap loses all channels after the first that is not a number (C259_lost). |
| C260 | Panels of a figure | `quick_image` | rational arithmetic on rectangles; floor for the panel of a point; induction over calls with the invariant that no figure is open (`Props/QuickLayout`) | partial: Proved: the place of each panel, and that the panels tile the figure (`C260_panel`, `C260_place`, `C260_tiling`). Violated by the code: each call makes, saves and closes a figure of its own, so a file has a single panel (`C260_one_panel_each`); a call that raises for a wrong place leaves its figure open until the next call for this window, whose image is drawn over it (`C260_left_open`). |
| C261 | Pixels at their coordinates | `quick_image` | rational arithmetic on rectangles; floor for the panel of a point; induction over calls with the invariant that no figure is open (`Props/QuickLayout`) | partial: Proved for columns and, without coordinates, for both axes. Violated by the code for rows with coordinates: `imshow` puts the first row at the top, which `extent` makes the last coordinate (`C261_upside_down`). |
| C262 | Comparison with a tolerance | `try_assert_all_close` | case analysis on NaN; induction over files with the invariant that keys are unique; broadcasting unfolded for two axes (`Props/TestTools`) | partial: Proved with the tolerance that is really used. Violated by the code: the relative tolerance of `assert_allclose` is added, so numbers that differ by more than the tolerance can pass (`C262_relative`). |
| C263 | Conversion of files for tests | `convert_to_h5` | case analysis on NaN; induction over files with the invariant that keys are unique; broadcasting unfolded for two axes (`Props/TestTools`) | partial: Proved for `.sav` and `.npy` files. Violated by the code for others: a `NameError` if it is the first, else the file before is converted again without a word (`C263_other_file`). |
| C264 | Axes of visibilities from IDL | `sav_file_vis_arr_swap_axes` | case analysis on NaN; induction over files with the invariant that keys are unique; broadcasting unfolded for two axes (`Props/TestTools`) | partial: Proved for arrays of one shape. Violated by the code: a polarisation with a single baseline is repeated (`C264_repeated`). |
| C265 | Errors of amplitude do not grow in calibration | `vis_calibrate_subroutine`, calibration_utils.py | induction over the iterations with an invariant on amplitudes and a common phase (bounds inverse to each other are kept by weighted means); for a common error the recursion x -> (x + 1/x)/2, its contraction and the monotonicity of the measures of convergence (`Props/CalConverge`) | proved: Whole routine, every way to stop. Assumes exact data (as C125), starting phases right up to a common one, and exact arithmetic. |
| C266 | A common error of amplitude is removed | `vis_calibrate_subroutine` | induction over the iterations with an invariant on amplitudes and a common phase (bounds inverse to each other are kept by weighted means); for a common error the recursion x -> (x + 1/x)/2, its contraction and the monotonicity of the measures of convergence (`Props/CalConverge`) | partial: Proved with the factor of the average not adapted and gains so small that the test for divergence does not strike (/g/ o^3 <= o^2 + 1 with o the factor of the error); beyond that the test replaces improving gains, and the errors of the tiles differ (`C266_test_strikes`). |
| C267 | The observation has the tiles of the file | `extract_header`, `create_obs` | inversion of the composition; the renumbering loop by induction; runs of equal times against the offsets; the metafits rows as a permutation of the tiles (`Props/ObsCreate`) | partial: Violated: the number of tiles is the constant 128, so fewer antennas raise an error (C267_fewer_raises) and antennas beyond the first 128 keep their number (C267_more_left_alone). Proved for 128 antennas (C267_tiles_partial), where C42 says what renumbering does. |
| C268 | The parts of an observation fit together | `create_obs`, `read_metafits` | inversion of the composition; the renumbering loop by induction; runs of equal times against the offsets; the metafits rows as a permutation of the tiles (`Props/ObsCreate`) | partial: Sizes, counts and the centre are proved (C268_sizes). Violated for the flags of tiles, which have as many entries as the metafits file has antennas (C268_tile_flags_any_length), and for the limits of baselines if the option for the shortest is above the longest (C268_limit_above); without the option C268_limits_partial. |
| C269 | Samples are flagged with the integration they were taken in | `create_obs`, pyfhd_utils.py | inversion of the composition; the renumbering loop by induction; runs of equal times against the offsets; the metafits rows as a permutation of the tiles (`Props/ObsCreate`) | partial: For times in order (C269_integrations_partial, C269_flagged_partial); violated for others (C269_unordered). |
| C270 | A tile flagged in the metafits file is flagged in the data | `create_obs`, `read_metafits`, pyfhd_utils.py | inversion of the composition; the renumbering loop by induction; runs of equal times against the offsets; the metafits rows as a permutation of the tiles (`Props/ObsCreate`) | partial: For 128 antennas that are renumbered correctly (C42), metafits files with every antenna once for each polarisation and equal flags in both, and times in order. Other cases: C42, C165, C267, C269. |
| C271 | Smooth gains with a common bandpass pass through the fits | `calibrate`, `vis_cal_bandpass`, `vis_cal_polyfit` | composition of bandpass, polynomial fits and application: homogeneity and robustness of the resistant mean, uniqueness of unwrapped phases, exactness of least squares (`Props/CalChain`) | proved: With or without cable groups and auto-correlation ratios; without gain jump and reflections. The hypothesis that the resistant mean of the bandpass is a number is met for an odd number of channels (C80). |
| C272 | The bandpass alone keeps the gains of the tiles | `calibrate`, `vis_cal_bandpass` | composition of bandpass, polynomial fits and application: homogeneity and robustness of the resistant mean, uniqueness of unwrapped phases, exactness of least squares (`Props/CalChain`) | partial: Violated: the gains are real and the same for all tiles (C272_tiles_alike), phases and factors of the tiles are lost, with cable groups too (C272_lost). Kept are gains that are real, common and of mean 1 (C272_common_partial). |
| C273 | Gains that account for the data survive the whole calibration | `calibrate`, `vis_calibrate_subroutine`, `vis_cal_bandpass`, `vis_cal_polyfit`, `vis_calibration_apply` | composition of solver, flagging, fits and application: exact gains are a fixed point of the solver, representable gains of the fits; the data divided by them (`Props/Calibrate`) | proved: One or two polarisations (with four the application raises, see C35), without gain jump, cable reflections and starts from auto-correlations. Gains of flagged tiles (NaN in the code) are zero in the model. The least-squares fit is a parameter with its specification. |
| C274 | Data not used for calibration have no influence on the result of calibrate | `calibrate`, `vis_calibrate_subroutine` | the relations of the solver carried through flagging, fits and application, which see only the gains (`Props/CalibrateRelations`) | proved: Whole `calibrate`; auto-correlations are held fixed. A run whose solver ends in NaN is not covered (an error in the model). |
| C275 | The order of the samples has no influence on the result of calibrate | `calibrate`, `vis_calibrate_subroutine` | the relations of the solver carried through flagging, fits and application, which see only the gains (`Props/CalibrateRelations`) | proved: Whole `calibrate` without time averaging; auto-correlations are held fixed. |
| C276 | Units of data and model have no influence on the gains of calibrate | `calibrate`, `vis_calibrate_subroutine` | the relations of the solver carried through flagging, fits and application, which see only the gains (`Props/CalibrateRelations`) | proved: Whole `calibrate`; auto-correlations, which serve only as starts and fits of amplitudes, are held fixed. |
| C277 | The direction of baselines has no influence on the gains of calibrate | `calibrate`, `vis_calibrate_subroutine` | the relations of the solver carried through flagging, fits and application, which see only the gains (`Props/CalibrateRelations`) | proved: Whole `calibrate` for XX and YY; the norm of coordinates is required to be even and real numbers are self-conjugate, as in the code. |
| C278 | Arrays in which all tiles have equally many baselines can be calibrated | `vis_calibrate_subroutine` | whole routine as a composition with checked indices; equality with the specification per channel and tile (`Props/CalRun`); solver as a loop with fuel and its termination; least squares over fields with involution (`Props/CalSolve`) | partial: Violated: the index arrays of all tiles are put into an array of objects; if they have one shape it gets three axes, and its rows are no valid index, so that the routine ends with an IndexError (C278_same_number_raises for a channel, C278_array_raises for the routine, numbers of at least five). Partial: if the numbers differ at every channel, nothing is raised. |
| C279 | A tile for which no gain can be found does not stop the calibration | `vis_cal_polyfit`, `calibrate` | coefficients of polynomials without leading zeros; least squares reproduce the zero polynomial (`Props/PolyTrim`) | partial: Violated by the code: C279_zero_raises (the fits of one tile) and C279_calibrate_raises (all of calibrate: the tile in use has fewer than five baselines with data at each channel in use). Assumes that the bandpass does not vanish at the tile (stated for the bandpass itself) and more channels in use than the degree. C279_fits_partial: fits with nonzero leading coefficients raise nothing and are those of C88. PolyTrim models exact arithmetic; for amplitudes that are exactly zero, floats give exactly zero coefficients as well. |
| C280 | A tile with too few baselines at a channel gets gain zero and has no influence on the others | `vis_calibrate_subroutine` | zero is a fixed point of the update of such a tile; the equations of two inputs that differ only where a factor is zero give the same updates, by induction over the iterations (`Props/CalFew`) | proved: C280_too_few (gain zero), C280_no_influence (equal results for any other data and models on the baselines of such tiles at such channels), C280_exact (gains that explain the other baselines are returned). Concerns vis_calibrate_subroutine; what the later fits do with such tiles is C279. FlagsAgree: baselines with data have both tiles in use. |
| C281 | With exact gains nothing is left in the residual images | `main`, `calibrate`, `calibrate_qu_mixing`, `vis_flag_tiles`, `vis_flag_basic`, `vis_flag`, `visibility_grid`, `get_image_renormalization`, `quickview` | composition: positive updated weights imply channels and tiles in use, where the calibrated data are the model; gridding does not see other samples, and the images are functions of the planes (`Props/NoResidual`) | proved: C281_planes and C281_images compose the theorems on calibration (C273), weights (C16), gridding (C192, C118) and images (C100). The conditions are those of C273: exact gains at the start, polynomial fits that can represent them, no auto-correlation fits. Images without padding; gridding with uniform and spectral weighting off. |
| C282 | Exported HEALPix cubes show the images of their channels | `healpix_snapshot_cube_generate`, `healpix_cnv_apply` | the loop over averaged channels as a map that succeeds, with the interpolation theorem (C55) and its linearity for every image (`Props/ExportCubes`) | partial: Violated on the lines of the pixel grid, where the maps are zero (C55_integer_zero), and for the channels left over when n_avg does not divide the number of channels (C56_tail_lost). C282_cubes_partial proves it for all HEALPix pixels strictly within a cell of the image. |
| C283 | The export writes the residual | `healpix_snapshot_cube_generate`, `create_obs`, `pyfhd_parser` | the loop over averaged channels as a map that succeeds, with the interpolation theorem (C55) and its linearity for every image (`Props/ExportCubes`) | partial: Violated: C283_no_residual shows that no file of a run holds a residual cube. C283_difference_partial proves that the difference of dirty and model cube is the cube of the residual images. |
| C284 | The numbers of the tiles have no influence on the calibration | `calibrate`, `vis_calibrate_subroutine`, `vis_cal_bandpass`, `vis_cal_polyfit` | the solver under renumbering (C238), order independence of medians, variances and resistant means, and each step of `calibrate` shown to commute with renaming (`Props/CalibrateRenumber`) | partial: Proved for one or two polarisations with consistent flags, if the reference tile stays the same tile and the solver ends with numbers; flagging and the fits to auto-correlations enter as functions that treat renamed tiles alike; cable reflections are not part of the modelled chain. |
| C285 | Calibration flagging, starting gains and fits from auto-correlations treat tiles alike | `vis_cal_auto_init`, `vis_calibration_flag`, `vis_cal_auto_fit`, `calibrate` | the sum over all tiles does not depend on the order; the place of a tile in the list of auto-correlations is found by its number (`Props/AutoRenumber`); places among the used tiles move by a permutation; an invariant of the loop of tests relates the two runs; medians do not depend on the order (`Props/FlagRenumber`); unfolding the fit to the auto-correlations; C80_affine for the scale, and the sum over all samples for the factor of the starting gains (`Props/TightenedNinth`) | partial: C285_flags and C285_auto_init in full for real gains: of the standard deviation only its independence of the order is assumed, the polynomial fits are arbitrary functions. C285_all has the remaining conditions of C284 (one or two polarisations, the reference tile stays the same tile, the cable reflections are in C287). |
| C286 | Lists in a saved dictionary load back as arrays with the same entries | `save_dataset`, `load_dataset` | induction over the items; case distinction over the common type of the values (`Props/StorageLists`) | partial: Proved for numbers, None, ASCII strings, rows of one length and arrays of one type of different lengths. Violated by strings that are not ASCII (an unbound name is raised), by lists of lists of different lengths and, without a logger, by arrays of different lengths (C286_non_ascii_raises, C286_ragged_raises). The conversion of arrays of different types to the type of the first is a parameter. |
| C287 | The fit of cable reflections does not depend on the numbers of the tiles | `vis_cal_polyfit`, `rebin_columns` | sums and means over the other tiles do not depend on the order; the copy of a row of means keeps it if none is missing (`Props/ReflectRenumber`) | partial: Proved without auto-correlations and with auto-correlations for every tile. Violated where a tile has none (C287_missing_autos): the tile before it in the order loses its own. |
| C288 | The fit of cable reflections changes only the gains of the fitted tiles | `calibrate`, `vis_cal_polyfit` | inversion of the run into its steps; the fit multiplies each gain by a factor that is one for tiles not fitted; optimality of the fitted reflection (C148) for the ratio of solved to fitted gains (`Props/CalibrateReflect`) | partial: Proved for one or two polarisations, the options cal_reflection_mode_theory with cal_reflection_hyperresolve, and without the scaling by auto-correlations afterwards; fits that end with NaN are not modelled. `C288_returns`: without auto-correlations the fit does not fail if the polynomials do not vanish. |
| C289 | Exact gains and tile numbers in a calibration with cable reflections | `calibrate`, `vis_cal_polyfit` | each step commutes with renaming (C284, C287); with zero residuals the best reflection is zero, so the result of C273 is kept (`Props/CalibrateReflMore`) | partial: C289_exact without ratios of auto-correlations, for the channels and tiles in use after the search for bad tiles (which may take tiles and channels out of use as long as the fits can represent the gains on the rest); C289_numbers for all options of C288, if the reference tile stays the same tile, the flags are consistent and the calibration without NaN succeeds. |
| C290 | With the fit of cable reflections, calibrate still depends only on the data used, not on order, units or direction | `calibrate`, `vis_cal_polyfit`, `vis_calibrate_subroutine` | the solver finds the same gains (C122, C123, C126, C245), and all later steps including the fit of reflections depend on these alone (`Props/CalibrateReflRelations`) | partial: Proved for one or two polarisations and the options of C288, for calls that end with numbers; the order of samples without averaging over time. |
| C291 | Flagged samples have no weight in exported cubes | export.py: healpix_snapshot_cube_generate, pyfhd_utils.py: vis_weights_update, split_vis_weights, vis_noise_calc, flagging.py: vis_flag_tiles, obs.py: update_obs | the chain is taken apart into the update of the weights (C16) and the split (C14); a flagged partner makes the common weight non-positive, so that neither sample is gridded; counts are compared pair by pair (`Props/ExportWeights`) | partial: Holds with split_ps_export, two or more time steps and an empty ps_tile_flag_list. The code violates the rest: any entry in ps_tile_flag_list ends the export with an error, as does split_ps_export = False or a single time step. That unflagged pairs keep their weight needs the condition of C17 (some unused tile has a baseline, or no tile is unused). |
| C292 | The even and odd cubes hold equally many visibilities | export.py: healpix_snapshot_cube_generate, gridding_utils.py: baseline_grid_locations, pyfhd_utils.py: vis_weights_update | the chain is taken apart into the update of the weights (C16) and the split (C14); a flagged partner makes the common weight non-positive, so that neither sample is gridded; counts are compared pair by pair (`Props/ExportWeights`) | partial: Holds when plane and kernel have sizes of the same parity, no baseline leaves the allowed range of lengths at any frequency and mirror points are not masked. Fails otherwise: vis_weights_update tests the length per channel but the gridding for all channels at once, so that one sample of a pair can be dropped alone (C292_length and example). |
| C293 | Loading the beam lazily gives the same results as loading it into memory | `create_psf`, `vis_weights_update`, `beam_image`, `baseline_grid_locations`, `visibility_grid`, `save_dataset`, `load` | The beam is a dictionary or an open file; theorems compose saving, loading and the first use of the beam, by cases on the value stored under a key, using the round trip of C47. (`Props/LazyBeam`) | partial: Violated for every beam file PyFHD wrote: C293_lazy_number (a saved number cannot be read lazily) and C293_lazy_fails (vis_weights_update raises ValueError for all data), while C293_memory_number_partial and C293_memory_partial show that the same file works in memory. Proved: arrays of numbers agree (C293_arrays_partial) and the weights agree when the size of the kernel is stored with one axis (C293_one_entry_partial). Missing: kernels stored as object arrays or in chunks, gridding itself with a lazy file. Trusted: h5py raises ValueError for [0] on a dataset without axes. |
| C294 | Flagged samples change nothing in a whole run | `main`, calibrate.py, visibility_grid.py, pyfhd_quickview.py | a run is characterised by its stages (`run_stages`, an equivalence); each stage's theorem (C16, C274/C290, C118, C190-C192, C100) is applied to the result of the stage before, so the claims hold for the composition (`Props/WholeRun`) | proved: For the run modelled in Model/WholeRun (auto-correlations taken as given; no flag_basic, flag_visibilities, grid_uniform, checkpoints or cal_stop). |
| C295 | Units of flux go through a whole run | `main`, calibrate.py, visibility_grid.py, pyfhd_quickview.py | a run is characterised by its stages (`run_stages`, an equivalence); each stage's theorem (C16, C274/C290, C118, C190-C192, C100) is applied to the result of the stage before, so the claims hold for the composition (`Props/WholeRun`) | proved: For the run modelled in Model/WholeRun, exact arithmetic, images of even size without padding and a filter that multiplies the plane with factors that depend on counts and weights only. The images are compared for the files written by quickview of one or two polarisations. |
| C296 | A perfectly calibratable observation gives empty residual images | `main`, calibrate.py, visibility_grid.py, pyfhd_quickview.py | exact gains: C273/C289 for the calibration, C16 twice for the weights, C192 for the planes, C281 for the images; the examples run the whole model on three tiles, ten samples and four channels (`Props/WholeRunMore`) | proved: For the run modelled in Model/WholeRun without calibration from auto-correlations and without flag_visibilities; the conditions on the gains are those of C273 and C289 (at least five baselines for every tile, not all tiles with equally many baselines: see C278 for what happens otherwise). The solver starts with the exact gains (cal_gain_init). The search for bad tiles may take tiles and channels out of use; the gains are then those of the rest, and the residual images are still zero. |
| C297 | The numbers of the tiles do not change the images of a run | `main`, calibrate.py, `vis_weights_update` | `visWeightsUpdate` commutes with renumbering (all three results), baselines in use have tiles in use after the update, C284/C289 for the calibration, C192 for the planes (`Props/WholeRunRenumber`) | proved: For the run modelled in Model/WholeRun. The reference tile is chosen by its number (tile 1, else the first one), so the condition that it stays the same is needed; if the visibilities are averaged over time before the calibration, the integrations must have the same baselines. |
| C298 | The order in which baselines are listed has no influence on a run | `main`, `vis_weights_update`, calibrate.py, visibility_grid.py | the stages of a run one after the other: the update of the weights is reordered by its specification, the calibration by `C275_order`/`C290_order` and `C274_unused`/`C290_unused`, the gridding by `C233_order_partial`; the images follow because all planes and counts are equal (`Props/WholeRunOrder`) | partial: Proved for runs without averaging over time, with one kernel for all channels and every tile in some baseline. Missing: channels with different kernels, for which the code does depend on the order (C233_order_matters), and tiles without a baseline, for which the last sample is flagged (C17). |
| C299 | Test data come in the order they are asked for | `get_data`, `get_data_items`, `get_data_sav`, `get_savs` | induction over the list of names and over nested dictionaries (`Props/TestData`) | partial: The order, the extensions, the agreement of get_savs and get_data and the first keys are proved without conditions; the last sentence is false: get_data_items raises an AttributeError for every .sav file (C299_items_sav). |
| C300 | The printed types show the whole dictionary | `print_types` | induction over the list of names and over nested dictionaries (`Props/TestData`) | partial: Proved for dictionaries without empty arrays or arrays without axes (C300_complete_iff says that these are exactly the ones that are printed to the end); C300_empty_array: an empty array ends the printing with an IndexError. The second half is false: C300_ambiguous gives different dictionaries with the same lines. |
| C301 | A perfectly calibratable observation exports data cubes that equal the model cubes | `main`, `healpix_snapshot_cube_generate`, `vis_model_freq_split` | weights of the export are positive only where those of the run are (C291), and there the sample is one that the run uses (`run_positive`); C192 for the gridding of data and model, induction over the ranges of channels and over the halves and polarisations (`Props/WholeExport`) | proved: For the run modelled in Model/WholeRun and its export in Model/WholeExport (split_ps_export, no list of tiles to flag, vis_model given); the conditions on the gains are those of C296. C301_exact is about the uv planes, C301_cubes about the maps of equal images; the transform between them is a function of the plane and the number of visibilities. C301_exports shows that the export succeeds. |
| C302 | Flagged samples change nothing in the exported HEALPix cubes of a run | `main`, `healpix_snapshot_cube_generate`, `vis_model_freq_split` | weights of the export are positive only where those of the run are (C291), and there the sample is one that the run uses (`run_positive`); C192 for the gridding of data and model, induction over the ranges of channels and over the halves and polarisations (`Props/WholeExport`) | proved: For the run modelled in Model/WholeRun and its export in Model/WholeExport. The beam and the noise, which the export computes from the calibrated data, are not part of the claim: the noise is allowed to be computed from any imaginary parts. |
| C303 | The exported HEALPix planes are proportional to the unit of flux | `main`, `healpix_snapshot_cube_generate`, `vis_model_freq_split` | C190-C192 for the gridding of scaled data, induction over the ranges of channels and over the halves and polarisations; `calibrated_scaled` for the calibration (`Props/WholeExportUnits`) | proved: For the run modelled in Model/WholeRun and its export in Model/WholeExport, exact arithmetic; the conditions on the images are those of C295, of which the export of a run is a continuation. |
| C304 | The numbers of the tiles have no influence on the exported HEALPix planes | `main`, `healpix_snapshot_cube_generate` | C297 for the run; the weights of the export do not use the numbers of the tiles (`update_renumbered`), and the rest of the export not at all (`Props/WholeExportNumbers`) | proved: For the run modelled in Model/WholeRun and its export in Model/WholeExport; the conditions are those of C297. |
| C305 | Every exported set of planes holds the calibrated data of its own half and polarisation | `main`, `healpix_snapshot_cube_generate`, `vis_model_freq_split` | induction over the sets of the export; C105 and C106 for each of them (`Props/WholeExportSets`) | proved: For the run modelled in Model/WholeRun and its export in Model/WholeExport. For ranges of channels with different beams the planes are not these sums (C32). |
| C306 | The direction in which baselines are listed does not change the images of a run | `main`, vis_calibrate_subroutine.py:vis_calibrate_subroutine, visibility_grid.py:visibility_grid | composition of the lemmas on turned samples of flagging, weights, calibration (with the fit of cable reflections) and gridding (C195) through the stages of the run (`Props/WholeRunDirection`) | proved: For runs within RunFits (Model/WholeRun) and a choice of samples within Turnable: lengths even in the coordinates, mask_mirror_indices off, v nonzero for turned samples, whole baselines turned if calibration averages over time. With v = 0 and u nonzero the grid decides about the direction by the sign of v alone, so such samples are excluded. |
| C307 | The direction in which baselines are listed does not change the exported HEALPix planes | `main`, `healpix_snapshot_cube_generate` | turned samples leave the weights of the export and every range of channels (C195) unchanged; combined with C306 on samples with positive weight (`Props/WholeExportDirection`) | proved: Conditions of C306 for the run and those of C301 for the export (ExportFits), export resolution kbin positive, no mask in the export. |
| C308 | A run writes one HEALPix file per half and polarisation, with the maps of its own planes | `main`, `healpix_snapshot_cube_generate`, healpix_utils.py:healpix_cnv_apply | the map of an image is shown to commute with maps of the values (real factors, the embedding of the rationals); images of planes are linear; C301, C302, C303, C304, C307 for the planes (`Props/RunFiles`) | proved: For vis_model_arr given and residual off. The maps of healpix_cnv_generate, the beams and degpix are parameters; images have even size (C105). Arithmetic is exact. |
| C309 | Flagged samples, tile numbers and directions of baselines have no influence on the HEALPix files | `main`, `healpix_snapshot_cube_generate` | the map of an image is shown to commute with maps of the values (real factors, the embedding of the rationals); images of planes are linear; C301, C302, C303, C304, C307 for the planes (`Props/RunFiles`) | proved: Conditions of C302, C304 and C307 (ExportFits, RenamedRun, Turnable). |
| C310 | The HEALPix files are in the unit of the data | `main`, `healpix_snapshot_cube_generate` | the map of an image is shown to commute with maps of the values (real factors, the embedding of the rationals); images of planes are linear; C301, C302, C303, C304, C307 for the planes (`Props/RunFiles`) | proved: Conditions of C303; exact arithmetic. |
| C311 | Samples removed by basic flagging have no influence on the results of a run | pyfhd.py, flagging.py | The basic flagging is shown to depend on the data through their zeros only, and what it keeps is described by frequency limits, edges and input weights; C294, C295, C309 and C310 then apply to the flagged run. (`Props/FlaggedRun`) | proved: Exact arithmetic; one or two polarisations; `calibrate_visibilities`, `recalculate_grid` and `export_images` are set. Named tiles (`flag_tiles`) make the flagging raise (C22), so there is nothing to say about them. The export has the conditions of C302. |
| C312 | A run with basic flagging does not depend on the unit of flux | pyfhd.py, flagging.py | The basic flagging is shown to depend on the data through their zeros only, and what it keeps is described by frequency limits, edges and input weights; C294, C295, C309 and C310 then apply to the flagged run. (`Props/FlaggedRun`) | proved: Exact arithmetic; conditions on images as in C295 (even size, no padding, filter that depends on weights only). |
| C313 | Numbers of tiles, directions of baselines and exact gains in runs with basic flagging | pyfhd.py, flagging.py | The basic flagging of renumbered or turned samples is compared with that of the original; C297, C306, C308 and C309 then apply. (`Props/FlaggedRunSame`) | proved: Exact arithmetic; conditions as in C297, C306, C308 and C309. |
| C314 | Limits of frequency, and flagging again | flagging.py, pyfhd.py | The limits are shown to act on the weights exactly as input flags; a second basic flagging is shown to keep weights and channels, so that the run is the same. (`Props/FlaggedRunTwice`) | proved: `C314_limits`, `C314_limits_files`: the equality of runs and of files for all limits. `C314_again`: the run on the flagged input, flagged again, is the run on the input, with `flag_frequencies` and all time steps in use as the statement says. |
| C315 | Skies add up | pyfhd.py, calibrate.py, visibility_grid.py, pyfhd_quickview.py | With exact gains all three runs calibrate to their models (C296), so the weights agree; gridding is linear in the data (C190), the Fourier image too, and the normalisation depends on the weights only. (`Props/WholeRunSum`) | proved: `C315_sum` for weights, planes of data and model, weights planes, dirty and model images; `C315_runs`: if the run on one such sky succeeds, so do those on the others. The conditions for exact gains are those of C296 (`ExactSetup`), gathered with the data in `ExactSky`. |
| C316 | Skies add up in the HEALPix files | export.py, healpix_utils.py, pyfhd.py | The gridding of every range of channels is linear at the samples with positive weight (C190, C192); the loops over ranges, polarisations and halves are followed for three exports at once; the map of an image is shown to be linear. (`Props/WholeExportSum`) | proved: `C316_planes` for the planes of all ranges of channels, `C316_files` for the files, with the conditions of C315 and of C308 (`ExportGrids`, `MapFits`); the imaginary parts from which the noise is computed may differ between the runs. |
| C317 | Skies add up in runs with basic flagging | pyfhd.py, flagging.py, export.py | The basic flagging depends on the zeros of the data only (C311), so the three runs are runs on the same flagged input; C315 and C316 then apply. (`Props/FlaggedRunSum`) | proved: `C317_sum` for weights, planes and images, `C317_files` for the HEALPix files; the conditions are those of C315 and C316 on what the basic flagging gives. |
| C318 | The instrument has no influence on the results of a calibrated run | pyfhd.py, calibrate.py, visibility_grid.py, export.py | With exact gains both calibrations succeed and give the model at the samples with positive weight (C273, C289); gridding and export depend on these samples only (C294, C302). (`Props/WholeRunGains`) | proved: The runs are those of Model/WholeRun and Model/ExportFiles, in exact arithmetic. The gains are those the calibration can represent (ExactSetup, as in C296); calibration that flags tiles is excluded. In the example gains 2 and 3 give the same images and the same four files. |
| C319 | The instrument has no influence on the results of a run with basic flagging | pyfhd.py, flagging.py, calibrate.py, export.py | The basic flagging depends on the zeros of the data only (C311), so both runs are runs on the same flagged input; C318 then applies. (`Props/FlaggedRunGains`) | proved: As C318, for runs that begin with the basic flagging (Model/FlaggedRun). The calibration is the one the code runs after the flagging; conditions on the gains are at the samples that the flagging keeps. |
| C320 | Calibrating calibrated data changes nothing | pyfhd.py, calibrate.py, calibration_utils.py, export.py | With exact gains the calibrated data are the model at the samples in use (C296), so gains of one explain them exactly; constants are smooth gains; C318 then applies to the second run. (`Props/WholeRunAgain`) | proved: In exact arithmetic, for the runs of Model/WholeRun and Model/ExportFiles; gains as in C296. In the example data seen through gains of 2 are calibrated, then calibrated again to gains of 1. |
| C321 | What the exported images of a run show | pyfhd.py, pyfhd_quickview.py, visibility_grid.py | The stages of the run are taken apart; the images of a polarisation (C100) and the number of visibilities (C16, C17) are put in for the planes and weights of the run. (`Props/WholeRunImages`) | proved: For the runs of Model/WholeRun (one or two polarisations), in exact arithmetic, for sizes and paddings for which quickview does not raise (C102) and a uniform filter that multiplies the plane (ImagesFit). That the weights are filtered in place before they are exported is what the code does (C103). |

## Parts of the code that are modelled

Lines of the body (without doc string) that a definition of the model cites. A cited line may be simplified; the comment of the definition says how.

| function | file | lines cited | modules |
|----|----|----|----|
| `create_psf` | PyFHD/beam_setup/beam.py | 50 of 50 | LazyBeam, SavImport |
| `gaussian_decomp` | PyFHD/beam_setup/beam_utils.py | 64 of 64 | BeamImage |
| `beam_image` | PyFHD/beam_setup/beam_utils.py | 134 of 134 | BeamImage, LazyBeam |
| `calibrate` | PyFHD/calibration/calibrate.py | 126 of 126 | CalChain, CalPoly, Calibrate, CalibrateFlag, CalibrateReflect, PolyTrim |
| `calibrate_qu_mixing` | PyFHD/calibration/calibrate.py | 66 of 66 | QUMix |
| `vis_extract_autocorr` | PyFHD/calibration/calibration_utils.py | 52 of 52 | CalAuto |
| `vis_cal_auto_init` | PyFHD/calibration/calibration_utils.py | 24 of 24 | CalAuto, CalibrateFlag |
| `vis_calibration_flag` | PyFHD/calibration/calibration_utils.py | 126 of 126 | CalFlag, CalibrateFlag, WholeRun |
| `transfer_bandpass` | PyFHD/calibration/calibration_utils.py | 343 of 343 | BandpassTransfer |
| `vis_cal_bandpass` | PyFHD/calibration/calibration_utils.py | 123 of 136 | BandpassTransfer, CalApply, CalChain |
| `vis_cal_polyfit` | PyFHD/calibration/calibration_utils.py | 362 of 362 | CalChain, CalPoly, CalReflect, Calibrate, CalibrateReflect, PolyTrim |
| `vis_cal_auto_fit` | PyFHD/calibration/calibration_utils.py | 47 of 61 | CalAuto |
| `vis_calibration_apply` | PyFHD/calibration/calibration_utils.py | 87 of 87 | CalApply |
| `vis_baseline_hist` | PyFHD/calibration/calibration_utils.py | 42 of 42 | CalStats |
| `cal_auto_ratio_divide` | PyFHD/calibration/calibration_utils.py | 11 of 11 | CalApply |
| `cal_auto_ratio_remultiply` | PyFHD/calibration/calibration_utils.py | 5 of 5 | CalApply |
| `calculate_adaptive_gain` | PyFHD/calibration/calibration_utils.py | 51 of 51 | CalApply |
| `vis_calibrate_subroutine` | PyFHD/calibration/vis_calibrate_subroutine.py | 396 of 396 | CalRun, CalSolve |
| `create_obs` | PyFHD/data_setup/obs.py | 220 of 220 | DataSetup, ObsCreate, ObsMeta |
| `read_metafits` | PyFHD/data_setup/obs.py | 113 of 114 | AltAz, BandpassTransfer, ObsCreate, ObsMeta |
| `project_slant_orthographic` | PyFHD/data_setup/obs.py | 37 of 53 | ObsMeta, OutputFiles, Sky, UnitConv |
| `update_obs` | PyFHD/data_setup/obs.py | 19 of 26 | DataSetup, ExportWeights, ObsMeta, OutputFiles, Quickview |
| `extract_header` | PyFHD/data_setup/uvfits.py | 164 of 169 | DataSetup, ModelImport, ObsCreate, UvfitsHeader |
| `create_params` | PyFHD/data_setup/uvfits.py | 35 of 35 | DataSetup, UvfitsHeader |
| `extract_visibilities` | PyFHD/data_setup/uvfits.py | 22 of 23 | DataSetup |
| `_check_layout_valid` | PyFHD/data_setup/uvfits.py | 5 of 11 | ObsMeta |
| `create_layout` | PyFHD/data_setup/uvfits.py | 232 of 236 | ObsMeta |
| `vis_flag_tiles` | PyFHD/flagging/flagging.py | 29 of 29 | Flagging |
| `vis_flag_basic` | PyFHD/flagging/flagging.py | 108 of 108 | Flagging |
| `vis_flag` | PyFHD/flagging/flagging.py | 120 of 120 | VisFlag |
| `filter_uv_uniform` | PyFHD/gridding/filters.py | 39 of 39 | Filters, GridOptions |
| `interpolate_kernel` | PyFHD/gridding/gridding_utils.py | 7 of 7 | Gridding |
| `conjugate_mirror` | PyFHD/gridding/gridding_utils.py | 8 of 8 | Planes |
| `baseline_grid_locations` | PyFHD/gridding/gridding_utils.py | 164 of 164 | ExportWeights, FloatGrid, Gridding, LazyBeam, WholeRun |
| `dirty_image_generate` | PyFHD/gridding/gridding_utils.py | 134 of 134 | Imaging |
| `grid_beam_per_baseline` | PyFHD/gridding/gridding_utils.py | 94 of 98 | BeamBaseline, LazyBeam |
| `visibility_count` | PyFHD/gridding/gridding_utils.py | 47 of 47 | GridOptions, LazyBeam |
| `holo_mapfn_convert` | PyFHD/gridding/gridding_utils.py | 56 of 56 | Degrid |
| `crosspol_reformat` | PyFHD/gridding/gridding_utils.py | 8 of 8 | Planes |
| `visibility_degrid` | PyFHD/gridding/visibility_degrid.py | 296 of 296 | Degrid |
| `visibility_grid` | PyFHD/gridding/visibility_grid.py | 489 of 489 | BeamBaseline, FloatSum, FreqSplit, GridOptions, Gridding, LazyBeam, Planes |
| `healpix_snapshot_cube_generate` | PyFHD/healpix/export.py | 164 of 166 | ExportCubes, ExportFiles, ExportWeights, FreqSplit, Healpix, HealpixPixels, LazyBeam, WholeExport |
| `healpix_cnv_apply` | PyFHD/healpix/healpix_utils.py | 9 of 10 | ExportFiles, Healpix |
| `healpix_cnv_generate` | PyFHD/healpix/healpix_utils.py | 207 of 207 | Healpix, HealpixPixels |
| `beam_image_cube` | PyFHD/healpix/healpix_utils.py | 50 of 50 | BeamImage |
| `phase_shift_uv_image` | PyFHD/healpix/healpix_utils.py | 25 of 28 | FreqSplit |
| `vis_model_freq_split` | PyFHD/healpix/healpix_utils.py | 149 of 172 | ExportCubes, ExportFiles, FreqSplit, Healpix |
| `dtype_picker` | PyFHD/io/pyfhd_io.py | 9 of 9 | Storage |
| `_is_complex` | PyFHD/io/pyfhd_io.py | 1 of 1 | Storage |
| `_is_string` | PyFHD/io/pyfhd_io.py | 1 of 1 | Storage |
| `format_array` | PyFHD/io/pyfhd_io.py | 29 of 30 | Storage, StorageLists |
| `save_dataset` | PyFHD/io/pyfhd_io.py | 85 of 85 | Storage, StorageLists |
| `dict_to_group` | PyFHD/io/pyfhd_io.py | 4 of 4 | Storage |
| `save` | PyFHD/io/pyfhd_io.py | 24 of 26 | Storage |
| `load_dataset` | PyFHD/io/pyfhd_io.py | 12 of 14 | Storage, StorageLists |
| `group_to_dict` | PyFHD/io/pyfhd_io.py | 8 of 8 | Storage |
| `load` | PyFHD/io/pyfhd_io.py | 25 of 25 | LazyBeam, Storage |
| `recarray_to_dict` | PyFHD/io/pyfhd_io.py | 69 of 69 | SavImport |
| `convert_sav_to_dict` | PyFHD/io/pyfhd_io.py | 22 of 22 | ModelImport |
| `get_image_renormalization` | PyFHD/io/pyfhd_quickview.py | 20 of 20 | Quickview |
| `quickview` | PyFHD/io/pyfhd_quickview.py | 299 of 300 | OutputFiles, Quickview, UnitConv |
| `plot_cals` | PyFHD/plotting/calibration.py | 198 of 212 | PlotCurves, Regions |
| `quick_image` | PyFHD/plotting/image.py | 179 of 196 | ColorScale, QuickLayout |
| `log_color_calc` | PyFHD/plotting/image.py | 193 of 193 | ColorScale |
| `color_range` | PyFHD/plotting/image.py | 12 of 12 | ColorScale |
| `_print_time_diff` | PyFHD/pyfhd.py | 10 of 10 | RunDir |
| `finish_pyfhd` | PyFHD/pyfhd.py | 4 of 22 | RunDir |
| `main` | PyFHD/pyfhd.py | 441 of 441 | ExportFiles, FlaggedRun, LazyBeam, Options, Pipeline, VisFlag, WholeExport, WholeRun |
| `retrieve_gitdict` | PyFHD/pyfhd_tools/git_helper.py | 17 of 17 | RunDir |
| `pyfhd_parser` | PyFHD/pyfhd_tools/pyfhd_setup.py | 987 of 987 | Options |
| `_check_file_exists` | PyFHD/pyfhd_tools/pyfhd_setup.py | 13 of 13 | Setup |
| `write_collated_yaml_config` | PyFHD/pyfhd_tools/pyfhd_setup.py | 42 of 48 | Setup |
| `pyfhd_logger` | PyFHD/pyfhd_tools/pyfhd_setup.py | 70 of 137 | RunDir |
| `pyfhd_setup` | PyFHD/pyfhd_tools/pyfhd_setup.py | 312 of 312 | RunDir, Setup |
| `get_bins` | PyFHD/pyfhd_tools/pyfhd_utils.py | 2 of 2 | FloatHist, Histogram |
| `get_hist` | PyFHD/pyfhd_tools/pyfhd_utils.py | 25 of 25 | FloatHist, Histogram |
| `get_ri` | PyFHD/pyfhd_tools/pyfhd_utils.py | 36 of 36 | FloatHist, Histogram |
| `histogram` | PyFHD/pyfhd_tools/pyfhd_utils.py | 30 of 30 | FloatHist, Histogram |
| `l_m_n` | PyFHD/pyfhd_tools/pyfhd_utils.py | 38 of 38 | Sky |
| `rebin_columns` | PyFHD/pyfhd_tools/pyfhd_utils.py | 13 of 13 | CalReflect, Rebin |
| `rebin_rows` | PyFHD/pyfhd_tools/pyfhd_utils.py | 16 of 16 | Rebin |
| `rebin` | PyFHD/pyfhd_tools/pyfhd_utils.py | 91 of 91 | Rebin |
| `weight_invert` | PyFHD/pyfhd_tools/pyfhd_utils.py | 51 of 51 | Arrays, CalAuto |
| `array_match` | PyFHD/pyfhd_tools/pyfhd_utils.py | 42 of 42 | Arrays |
| `meshgrid` | PyFHD/pyfhd_tools/pyfhd_utils.py | 20 of 20 | Arrays |
| `deriv_coefficients` | PyFHD/pyfhd_tools/pyfhd_utils.py | 17 of 17 | Arrays |
| `idl_argunique` | PyFHD/pyfhd_tools/pyfhd_utils.py | 1 of 1 | Arrays |
| `angle_difference` | PyFHD/pyfhd_tools/pyfhd_utils.py | 13 of 13 | Healpix, Sky |
| `parallactic_angle` | PyFHD/pyfhd_tools/pyfhd_utils.py | 6 of 6 | Sky |
| `simple_deproject_w_term` | PyFHD/pyfhd_tools/pyfhd_utils.py | 11 of 11 | Planes |
| `resistant_mean` | PyFHD/pyfhd_tools/pyfhd_utils.py | 25 of 25 | CalStats |
| `run_command` | PyFHD/pyfhd_tools/pyfhd_utils.py | 7 of 7 | ModelImport |
| `vis_weights_update` | PyFHD/pyfhd_tools/pyfhd_utils.py | 82 of 82 | Flagging, LazyBeam |
| `split_vis_weights` | PyFHD/pyfhd_tools/pyfhd_utils.py | 54 of 54 | Flagging |
| `vis_noise_calc` | PyFHD/pyfhd_tools/pyfhd_utils.py | 23 of 23 | CalStats |
| `idl_median` | PyFHD/pyfhd_tools/pyfhd_utils.py | 17 of 19 | Arrays, VisFlag |
| `reshape_and_average_in_time` | PyFHD/pyfhd_tools/pyfhd_utils.py | 12 of 12 | QUMix, Regions |
| `region_grow` | PyFHD/pyfhd_tools/pyfhd_utils.py | 67 of 67 | Regions |
| `crosspol_split_real_imaginary` | PyFHD/pyfhd_tools/pyfhd_utils.py | 10 of 10 | Planes, Quickview |
| `altaz_to_radec` | PyFHD/pyfhd_tools/unit_conv.py | 9 of 9 | AltAz |
| `radec_to_altaz` | PyFHD/pyfhd_tools/unit_conv.py | 5 of 7 | AltAz |
| `radec_to_pixel` | PyFHD/pyfhd_tools/unit_conv.py | 31 of 31 | HealpixPixels, UnitConv |
| `pixel_to_radec` | PyFHD/pyfhd_tools/unit_conv.py | 23 of 23 | UnitConv |
| `vis_model_transfer` | PyFHD/source_modeling/vis_model_transfer.py | 7 of 7 | SavImport |
| `import_vis_model_from_sav` | PyFHD/source_modeling/vis_model_transfer.py | 46 of 46 | SavImport |
| `import_vis_model_from_uvfits` | PyFHD/source_modeling/vis_model_transfer.py | 22 of 22 | ModelImport |
| `_FlaggingInfoCounter.__init__` | PyFHD/source_modeling/vis_model_transfer.py | 46 of 46 | ModelVis |
| `flag_model_visibilities` | PyFHD/source_modeling/vis_model_transfer.py | 198 of 198 | ModelVis |
| `convert_vis_model_arr_to_sav` | PyFHD/source_modeling/vis_model_transfer.py | 36 of 36 | ModelImport |

## Parts of the code that are not modelled

* Reading of files (uvfits, metafits, sav, layout tables) beyond the index arithmetic on their contents; writing of figures; the texts of log messages.
* Of the parser (`pyfhd_parser`): help texts, abbreviated and joined option names, the positional argument, `--version`.
* The instrument models that make gridding kernels (`create_psf` reads them from a file).
* Rounding of floating point numbers except in histograms (`Model/FloatHist`) in the positions of visibilities (`Model/FloatGrid`) and in sums over visibilities and the symmetrised plane (`Model/FloatSum`), integer overflow, the time and memory a run takes.
* `visibility_degrid` after its first call, which always raises (C230).
* Parallelism inside numba and NumPy.

Functions of which no line is modelled: `_is_none` (PyFHD/io/pyfhd_io.py 78-93), `_decode_byte_arr` (PyFHD/io/pyfhd_io.py 97-111). Also the test helpers in `pyfhd_tools/test_utils.py`.

## Trusted base

* Lean's kernel (Lean 4.33.0) and Mathlib's definitions that occur in statements (rationals, reals, complex numbers, finite sums, exp, sin, cos).
* That the definitions in `Verif/Model` describe the Python code; differences are recorded
  in the comment of each definition. The definitions are not extracted from the code by a tool.
* The semantics of NumPy, numba and h5py as stated in those comments (shapes, broadcasting, indexing, order of evaluation, views and copies).
* External functions, as parameters with an explicit hypothesis (and an example or a lemma that shows that such a function exists) or replaced by their definition:
  * `scipy.ndimage.label`: parameter with `IsLabelling` (existence: `exists_labelling`).
  * `np.linalg.lstsq`, `np.polyfit`: a parameter that minimises the sum of squares, or the solution of the normal equation.
  * `Polynomial.convert` removes leading coefficients that are exactly zero: modelled in `Model/PolyTrim` only; `Model/CalPoly` keeps all coefficients.
  * `np.std`, `np.linalg.norm`, `sqrt`, `arctan2`: parameters, or represented by squares.
  * `np.log10` and the power of ten for colours: parameters with `IsLogPow` (example: `Real.logb 10` and the real power).
  * `np.fft.fft2`, `ifft2`, `fftshift`: their definition as finite sums and index shifts.
  * `astropy` convolution, `scipy.signal.medfilt`/`median_filter`: definition or parameter as cited.
  * `filter_uv_uniform` inside `quickview`: a parameter that multiplies by a filter; the function itself is modelled in `Filters`.
  * `scipy.io.readsav`: the form of what it returns for a structure is `Spec.columns` (Props/SavImport).
  * `argparse` and `configargparse`: the use they make of the table of options is modelled in `Model/Options`; `int()` and `float()` are parameters.
  * In `Model/UvfitsHeader` astropy gives the first group parameter of a name, and `EarthLocation("mwa")` raises; in `Model/HealpixPixels` the positions and altitudes of HEALPix pixels are parameters.
  * The orthographic projection of astropy's WCS objects is written out over the reals in `Model/UnitConv` after the FITS standard.
  * `Model/AltAz` replaces the transformation of astropy between altitude and azimuth and positions by a rotation of the sky whose zenith is at the local sidereal time (a parameter) and the latitude.
  * `logging`, `Path.mkdir`, `round`, `timedelta`: modelled in `Model/RunDir`.
  * Rounding: all models but `Model/FloatHist`, `Model/FloatGrid` and `Model/FloatSum` compute exactly. There the rounding is a parameter with `Rounding` (existence: `roundFloat_rounding`, the rounding to 53 binary digits); overflow and subnormal numbers are not modelled.
  * `np.arange` for floating point numbers is modelled as NumPy computes it (Model/FloatHist).
  * In `beam_image` the image of a Gaussian beam is a parameter; `gaussian_decomp` itself is modelled in the same file.
  * In the pipeline model the numerical stages are arbitrary functions.
* `vcheck`, which rebuilds the project from a clean checkout.

### Axioms per theorem

Obtained with `Lean.collectAxioms` (as `#print axioms`). No theorem depends on any other axiom.

* no axioms: `C10_meshgrid_square`, `C229_missing`, `C229_read_partial`, `C230_type_error`.
* `propext`: `C58_few_tiles_none`, `C73_only_asked`, `C74_exports_partial`, `C74_no_gridding_raises`, `C88_delay_raises`, `C88_hyper_alone_raises`, `C89_consistent`, `C89_lossless_fits`, `C89_no_fits`, `C179_format_partial`, `C182_missing_ends`, `C231_never`, `C269_unordered`, `C300_ambiguous`, `C300_complete_iff`, `C300_empty_array`.
* `propext, Quot.sound`: `C10_meshgrid`, `C23_mirror_entry`, `C23_mirror_involutive`, `C24_crosspol_reformat`, `C24_crosspol_reformat_twice`, `C25_crosspol_split_partial`, `C25_imaginary_part_lost`, `C31_bin_order`, `C37_cable_group`, `C42_renumber_aliasing`, `C42_renumber_partial`, `C50_calibrate_checkpoint_raises`, `C60_wrong_shape`, `C65_later_weights_ignored`, `C66_unflagged_tile_position_partial`, `C69_missing_value_error`, `C71_argument_kept_partial`, `C71_none_replaced`, `C72_weights_alone_raise`, `C72_weights_saved_partial`, `C73_cal_stop`, `C74_no_calibration_raises`, `C84_missing_step_raises`, `C86_least_squares`, `C86_other_tiles`, `C86_params`, `C86_params_of_gains`, `C86_single_pol_raises`, `C87_only_flags`, `C87_passes`, `C88_file_raises`, `C89_no_data`, `C89_polyfit_alone_raises`, `C89_used_only`, `C90_few_products_raise`, `C94_before`, `C94_calibration`, `C115_flagging_ends_run`, `C126_limits_narrow`, `C128_last_polarisation`, `C135_other_coordinates`, `C135_own_coordinates_partial`, `C136_left_over`, `C136_oblong_raises`, `C138_parameters_partial`, `C157_both_second`, `C157_east_partial`, `C157_four_products`, `C173_log_absent_raises`, `C174_changed`, `C174_unchanged_partial`, `C180_default_raises`, `C189_rows_partial`, `C208_once_partial`, `C208_repeated`, `C209_confused`, `C209_reported_partial`, `C210_any_repository`, `C222_nothing_without_images`, `C230_other_calls_partial`, `C263_all_saved_partial`, `C263_other_file`, `C264_entries_partial`, `C300_lines_partial`.
* `propext, Classical.choice, Quot.sound`: all other property theorems (798).
