{"id": "C01", "title": "Histogram counts are exact", "statement": "histogram(data, bin_size, min, max) succeeds for every positive bin size and min<=max, and entry i of the returned counts is exactly the number of data elements d with min<=d<=max and min+i*bin_size <= d < min+(i+1)*bin_size; the returned bin list is min, min+bin_size, ... and its last element is <= max.", "quantifier": "all data lists of any length (including out-of-range values), all min<=max, all positive bin sizes (integer or fractional)", "why_tests_cant": "The off-by-one at the upper edge depends on whether bin_size divides the range, on data equal to max and on data outside the range; the space of lists and bin sizes is infinite.", "anchors": ["PyFHD/pyfhd_tools/pyfhd_utils.py: histogram, get_bins, get_hist"]}
{"id": "C02", "title": "Reverse indices select exactly the members of a bin", "statement": "For every bin i of a histogram call, the slice ri[ri[i]:ri[i+1]] of the returned reverse indices is exactly the ascending list of positions of the data elements counted in bin i, so its length is the count of bin i.", "quantifier": "all data lists, all min<=max, all positive bin sizes, every bin index", "why_tests_cant": "Every caller (gridding, calibration, baseline flagging) indexes arrays through these slices; the running cursor writes must not collide for any data order, a property of all interleavings of bins in the data.", "anchors": ["PyFHD/pyfhd_tools/pyfhd_utils.py: histogram, get_ri"]}
{"id": "C03", "title": "A histogram partitions the in-range data", "statement": "The counts sum to the number of in-range elements; each in-range position occurs in exactly one bin's reverse-index slice, exactly once; no out-of-range position occurs in any slice; the reverse index array has length n_bins+1+(number in range).", "quantifier": "all data lists, all min<=max, all positive bin sizes", "why_tests_cant": "Conservation over arbitrary data cannot be enumerated; a lost or duplicated index silently drops or doubles a visibility.", "anchors": ["PyFHD/pyfhd_tools/pyfhd_utils.py: histogram, get_hist, get_ri"]}
{"id": "C04", "title": "Histogram with a requested number of bins counts the maximum", "statement": "When num_bins is given, histogram returns num_bins bins and counts every in-range datum, including one equal to max, in one of them.", "quantifier": "all data lists, all min<max and all num_bins>=1", "why_tests_cant": "Whether the maximum lands in the last bin is a boundary that a test with an unlucky sample does not exercise; the write goes through compiled code without a bounds check.", "anchors": ["PyFHD/pyfhd_tools/pyfhd_utils.py: histogram, get_hist"]}
{"id": "C05", "title": "array_match returns exactly the matching positions", "statement": "array_match(a1, values, a2) returns the ascending list of positions p with a1[p] or a2[p] in values, and -1 when there are none, whatever the multiplicity of the values; with a2 omitted only a1 is considered.", "quantifier": "all integer arrays a1, a2 of equal length and all value lists", "why_tests_cant": "The result is used to zero weights of flagged tiles: it must be right for all tile layouts and multiplicities.", "anchors": ["PyFHD/pyfhd_tools/pyfhd_utils.py: array_match"]}
{"id": "C06", "title": "weight_invert never yields an infinite weight and inverts the rest", "statement": "weight_invert(w) has the same length as w; entry i is 1/w[i] where w[i] is selected (nonzero, or at least the threshold when one is given, comparing |w[i]| under use_abs) and 0 elsewhere; in particular w[i]=0 always gives 0; applying it twice without a threshold gives w back.", "quantifier": "all weight arrays over any field, all thresholds, both values of use_abs", "why_tests_cant": "Zero, negative and below-threshold entries may occur at any position and in any combination.", "anchors": ["PyFHD/pyfhd_tools/pyfhd_utils.py: weight_invert"]}
{"id": "C07", "title": "Downsampling rebin is the block average and preserves the mean", "statement": "rebin to a shape that divides the old shape returns at (i,j) the mean of the corresponding block of the input, hence the total of the output times the block area equals the total of the input; shapes that are not divisors raise ValueError.", "quantifier": "all rectangular real arrays and all target shapes smaller or equal in both dimensions", "why_tests_cant": "Shapes and contents are unbounded.", "anchors": ["PyFHD/pyfhd_tools/pyfhd_utils.py: rebin"]}
{"id": "C08", "title": "Upsampling rebin keeps the samples and interpolates between them", "statement": "rebin to an integer multiple in both dimensions returns an array whose entries at multiples of the factor are the original samples, whose entries in between lie between the neighbouring samples, and that repeats the last sample past the end; for arrays of integers the results are integers. Shapes that are not multiples raise ValueError.", "quantifier": "all arrays, all integer expansion factors", "why_tests_cant": "Interpolation has edge behaviour at every position, for every factor.", "anchors": ["PyFHD/pyfhd_tools/pyfhd_utils.py: rebin, rebin_rows, rebin_columns"]}
{"id": "C09", "title": "rebin that enlarges one axis and reduces the other acts on each axis separately", "statement": "Reducing one dimension and enlarging the other gives the block mean along the reduced axis and the expansion along the other: the result for a given row (column) depends only on the corresponding input rows (columns).", "quantifier": "all 2-D arrays, all pairs of divisor/multiple shapes", "why_tests_cant": "A mixed resize is a rare call and depends on the content of every row.", "anchors": ["PyFHD/pyfhd_tools/pyfhd_utils.py: rebin"]}
{"id": "C10", "title": "meshgrid gives the coordinates of every pixel", "statement": "meshgrid(dimension, elements, axis) has elements rows and dimension columns; entry (r,c) is c for axis 1 and r for axis 2; with two arguments meshgrid(n, axis) is the square case.", "quantifier": "all positive dimensions and elements, every row and column, both axes", "why_tests_cant": "Row/column transposition is invisible in square tests.", "anchors": ["PyFHD/pyfhd_tools/pyfhd_utils.py: meshgrid"]}
{"id": "C11", "title": "Derivative coefficients are the falling factorial polynomial", "statement": "deriv_coefficients(n) is the list of coefficients, highest power first, of (x-1)(x-2)...(x-(n-1)), of length n; with divide_factorial entry m is divided by (m+1)!; n<=0 gives 0.", "quantifier": "all integers n, all evaluation points x", "why_tests_cant": "Unbounded order; an in-place slice update is easily wrong by evaluation order.", "anchors": ["PyFHD/pyfhd_tools/pyfhd_utils.py: deriv_coefficients"]}
{"id": "C12", "title": "idl_argunique points at the last occurrence of each distinct value", "statement": "For a sorted array the returned indices are exactly, in ascending order, the positions i where i is the last position or arr[i+1] differs from arr[i]; they are in bounds and index each distinct value exactly once.", "quantifier": "all sorted integer arrays", "why_tests_cant": "Run lengths are arbitrary; the gridding dedup relies on the run boundaries.", "anchors": ["PyFHD/pyfhd_tools/pyfhd_utils.py: idl_argunique"]}
{"id": "C13", "title": "idl_median of an odd number of samples is the middle sample", "statement": "idl_median(x) returns the sample with as many samples below as above it for odd length, and the upper of the two middle samples for even length (IDL's MEDIAN).", "quantifier": "all non-empty lists", "why_tests_cant": "Requires an order argument over all lists; a test with repeated values passes by accident.", "anchors": ["PyFHD/pyfhd_tools/pyfhd_utils.py: idl_median"]}
{"id": "C14", "title": "Even/odd splitting pairs up integrations with equal weights", "statement": "split_vis_weights returns two index sets of equal size, disjoint and ascending; after the call the weights at the k-th even index and the k-th odd index agree for every polarisation and frequency, are between 0 and the smaller of the two original weights clipped to [0,1], and all other weights are zero.", "quantifier": "all weights, all numbers of time steps >=2, all bin offsets, all time-use patterns with at least one used step", "why_tests_cant": "Time-flag patterns and layouts are exponentially many.", "anchors": ["PyFHD/pyfhd_tools/pyfhd_utils.py: split_vis_weights"]}
{"id": "C15", "title": "Even/odd splitting uses every usable pair of integrations", "statement": "Every baseline sample of two consecutive unflagged time steps (counted from the first unflagged one) is selected by split_vis_weights, samples of even steps in the even set and of odd steps in the odd set, and no sample of a flagged step is selected.", "quantifier": "all numbers of time steps >=2, all bin offsets, all time-use patterns", "why_tests_cant": "Requires reasoning over all layouts of time steps.", "anchors": ["PyFHD/pyfhd_tools/pyfhd_utils.py: split_vis_weights"]}
{"id": "C16", "title": "Updating the weights never unflags and zeroes every sample that cannot be gridded", "statement": "vis_weights_update never changes a weight other than to 0; afterwards every sample of a frequency channel, tile or time step marked unused, every sample outside [min_baseline,max_baseline] and every sample whose kernel footprint leaves the uv grid has weight 0, and every other sample keeps its weight.", "quantifier": "all weights, obs flags, uvw coordinates, kernel and grid sizes", "why_tests_cant": "Interaction of five independent flag sources over arbitrary arrays.", "anchors": ["PyFHD/pyfhd_tools/pyfhd_utils.py: vis_weights_update, array_match"]}
{"id": "C17", "title": "Flagging a tile without baselines leaves all weights alone", "statement": "If every unused tile takes part in no baseline, vis_weights_update does not zero any weight on account of tile flags.", "quantifier": "all tile-use patterns and baseline lists", "why_tests_cant": "The sentinel returned by array_match is a valid negative index in NumPy.", "anchors": ["PyFHD/pyfhd_tools/pyfhd_utils.py: vis_weights_update, array_match"]}
{"id": "C18", "title": "n_vis counts the unflagged first-polarisation samples", "statement": "After vis_weights_update obs['n_vis'] equals the number of (frequency, baseline) samples with positive first-polarisation weight whose kernel footprint is inside the grid.", "quantifier": "all weights, flags and coordinates", "why_tests_cant": "Ties the histogram total to a set cardinality over arbitrary arrays.", "anchors": ["PyFHD/pyfhd_tools/pyfhd_utils.py: vis_weights_update, histogram"]}
{"id": "C19", "title": "Basic flagging only removes tiles and frequencies and reports true counts", "statement": "vis_flag_basic returns tile_use and freq_use flags in {0,1} that are 0 wherever they were 0 before, tile_use is 0 for every tile without a positively weighted baseline in some polarisation, and n_tile_flag, n_freq_flag, n_time_flag equal the number of zero entries.", "quantifier": "all weights, use flags and configurations", "why_tests_cant": "Quantifies over all weight arrays and use patterns.", "anchors": ["PyFHD/flagging/flagging.py: vis_flag_basic"]}
{"id": "C20", "title": "Basic flagging zeroes every sample of a flagged time step", "statement": "After vis_flag_basic every baseline sample of a time step with time_use<=0 has weight 0.", "quantifier": "all bin offsets, numbers of time steps and time-use patterns", "why_tests_cant": "An off-by-one at the end of each time block affects one baseline per time step.", "anchors": ["PyFHD/flagging/flagging.py: vis_flag_basic"]}
{"id": "C21", "title": "Channel-edge flagging removes exactly the edge channels", "statement": "With flag_frequencies on and n_freq dividing 768, vis_flag_basic zeroes exactly the channels whose position in their coarse channel is within ceil(2/(768/n_freq)) of either edge.", "quantifier": "all n_freq dividing 768, all channels", "why_tests_cant": "All channel counts and channels; integer division by n_freq.", "anchors": ["PyFHD/flagging/flagging.py: vis_flag_basic"]}
{"id": "C22", "title": "Flagging tiles by name zeroes exactly the baselines of those tiles", "statement": "vis_flag_tiles(names) sets to zero the weights of exactly the baselines that involve a named tile and skips unknown names.", "quantifier": "all tile name lists and baseline layouts", "why_tests_cant": "Depends on reverse-index slices for arbitrary layouts.", "anchors": ["PyFHD/flagging/flagging.py: vis_flag_tiles"]}
{"id": "C23", "title": "Mirroring a uv plane is an involution and symmetrising gives a Hermitian plane", "statement": "conjugate_mirror applied twice returns the input; its entry (i,j) is the conjugate of entry (-i mod n, -j mod m); (A + conjugate_mirror(A))/2 is unchanged by conjugate_mirror, and leaves a plane that is already Hermitian unchanged.", "quantifier": "all complex arrays of every shape", "why_tests_cant": "Index arithmetic modulo the dimensions for every shape, odd or even.", "anchors": ["PyFHD/gridding/gridding_utils.py: conjugate_mirror", "PyFHD/gridding/visibility_grid.py: visibility_grid"]}
{"id": "C24", "title": "Cross-polarisation reformat yields a conjugate-mirrored pair", "statement": "After crosspol_reformat the 4th plane is the conjugate mirror of the 3rd, the 3rd is half the difference of the old 3rd and the mirrored old 4th, the first two are unchanged, and a second application gives zero for both cross planes.", "quantifier": "all stacks of four complex uv planes", "why_tests_cant": "Algebraic identity over all planes.", "anchors": ["PyFHD/gridding/gridding_utils.py: crosspol_reformat"]}
{"id": "C25", "title": "Splitting the cross-polarisation image keeps real and imaginary parts", "statement": "crosspol_split_real_imaginary returns the real part of the input 3rd plane as plane 3 and its imaginary part as plane 4.", "quantifier": "all stacks of four complex images", "why_tests_cant": "Aliasing of array views: the failure depends on the imaginary part being nonzero.", "anchors": ["PyFHD/pyfhd_tools/pyfhd_utils.py: crosspol_split_real_imaginary"]}
{"id": "C26", "title": "w-term deprojection can be undone", "statement": "simple_deproject_w_term with direction d followed by direction -d returns the original visibilities, and each visibility of polarisation p, frequency f, baseline b is multiplied by exp(d*i*ww[b]*freq[f]).", "quantifier": "all visibility arrays, all w coordinates and frequencies", "why_tests_cant": "Shape/broadcast behaviour depends on n_freq, n_baselines, n_pol.", "anchors": ["PyFHD/pyfhd_tools/pyfhd_utils.py: simple_deproject_w_term"]}
{"id": "C27", "title": "Sub-pixel interpolation weights are non-negative and sum to one", "statement": "The four weights dx0dy0, dx0dy1, dx1dy0, dx1dy1 returned for each visibility by baseline_grid_locations are in [0,1] and sum to 1, so interpolating a constant kernel gives the constant, and the interpolated kernel lies between the smallest and the largest of its four corners.", "quantifier": "all uv coordinates (positive, negative or integral), all resolutions", "why_tests_cant": "Floor and fractional part of arbitrary reals of both signs.", "anchors": ["PyFHD/gridding/gridding_utils.py: baseline_grid_locations, interpolate_kernel"]}
{"id": "C28", "title": "Every visibility to be gridded has its kernel footprint inside the grid", "statement": "Every visibility that appears in a gridding bin has 0 < xmin, xmin+psf_dim-1 < dimension-1 and the same for ymin with elements, so the kernel box addressed in the uv plane is in bounds.", "quantifier": "all uv coordinates, weights, grid and kernel sizes", "why_tests_cant": "A single out-of-range sample among millions corrupts the plane or raises.", "anchors": ["PyFHD/gridding/gridding_utils.py: baseline_grid_locations", "PyFHD/gridding/visibility_grid.py: visibility_grid"]}
{"id": "C29", "title": "Gridding bins partition the unflagged visibilities by anchor pixel", "statement": "Each visibility with positive weight and in-range footprint is in exactly one of the returned bins, visibilities in one bin share both xmin and ymin, and a flagged visibility is in none.", "quantifier": "all coordinates, weights and flags", "why_tests_cant": "Pixel index encoding x + y*dimension must be injective on all values that can occur.", "anchors": ["PyFHD/gridding/gridding_utils.py: baseline_grid_locations"]}
{"id": "C30", "title": "Combining visibilities that share a kernel does not change the gridded plane", "statement": "For any bin, the deduplicated path of visibility_grid (sort by kernel id, sum visibilities of equal kernel, one kernel product per distinct id with a count) adds the same values to the image, weights and variance planes as treating each visibility separately.", "quantifier": "all lists of visibilities, kernel ids, kernels", "why_tests_cant": "Which branch runs depends on the ratio of distinct kernels; equality is a linear-algebra identity over all lists.", "anchors": ["PyFHD/gridding/visibility_grid.py: visibility_grid", "PyFHD/pyfhd_tools/pyfhd_utils.py: idl_argunique"]}
{"id": "C31", "title": "The gridded uv plane is the kernel-weighted sum of the visibilities", "statement": "With no_conjugate, pixel (y,x) of image_uv equals 1/n_vis times the sum, over all bins and all visibilities of the bin whose footprint covers (y,x), of the conjugated kernel value at (y-ymin, x-xmin) times the visibility; the result does not depend on the order of the bins.", "quantifier": "all visibility sets, kernels, pixels", "why_tests_cant": "Accumulation over overlapping boxes in arbitrary order.", "anchors": ["PyFHD/gridding/visibility_grid.py: visibility_grid"]}
{"id": "C32", "title": "Gridding looks up the kernel of the visibility's own frequency", "statement": "The kernel used for the visibility at (frequency f, baseline b) of the gridded arrays is the one for the frequency bin of channel f.", "quantifier": "all numbers of frequencies and baselines, every visibility", "why_tests_cant": "Row-major versus column-major index decoding agrees for one channel or one baseline only.", "anchors": ["PyFHD/gridding/visibility_grid.py: visibility_grid"]}
{"id": "C33", "title": "Uniform weighting filter is normalised", "statement": "filter_uv_uniform returns a filter that is zero where fewer than one visibility contributes and proportional to 1/count elsewhere, with mean 1 over the pixels with nonzero weight (if weights are given) or nonzero filter, and the image multiplied pixelwise by that filter.", "quantifier": "all images, count planes, weight planes of the same size with at least one pixel of nonzero filter among the pixels that are normalised", "why_tests_cant": "Normalisation over arbitrary planes.", "anchors": ["PyFHD/gridding/filters.py: filter_uv_uniform", "PyFHD/pyfhd_tools/pyfhd_utils.py: weight_invert"]}
{"id": "C34", "title": "Applying calibration gains removes the gains from the visibilities", "statement": "If each visibility is gain_a * conj(gain_b) * truth with nonzero gains, vis_calibration_apply returns truth for every polarisation product, frequency and baseline; where either gain is zero the returned visibility is 0.", "quantifier": "all gains, visibilities, tile pairs, frequencies and the polarisation pairings XX, YY", "why_tests_cant": "Index bookkeeping between polarisations, tiles and conjugation for every baseline.", "anchors": ["PyFHD/calibration/calibration_utils.py: vis_calibration_apply", "PyFHD/pyfhd_tools/pyfhd_utils.py: weight_invert"]}
{"id": "C35", "title": "Calibration works for four polarisations", "statement": "vis_calibration_apply succeeds for n_pol=4 observations and applies the fitted cross-polarisation phase to the XY and YX products.", "quantifier": "all four-polarisation observations", "why_tests_cant": "Needs a four-polarisation data set, absent from the unit tests; concerns all values of the phase.", "anchors": ["PyFHD/calibration/calibration_utils.py: vis_calibration_apply"]}
{"id": "C36", "title": "Auto-correlation ratio division is undone by remultiplication", "statement": "cal_auto_ratio_remultiply after cal_auto_ratio_divide restores the gains of every tile with an auto-correlation whose ratio is non-zero, and leaves gains of other tiles as divided.", "quantifier": "all gains and auto-correlations", "why_tests_cant": "Identity for all values incl. zero autos.", "anchors": ["PyFHD/calibration/calibration_utils.py: cal_auto_ratio_divide, cal_auto_ratio_remultiply"]}
{"id": "C37", "title": "Bandpass and residual gain factorise the gains", "statement": "vis_cal_bandpass returns a bandpass and a remainder whose product equals the input gain at every used frequency and tile where the bandpass is nonzero.", "quantifier": "all gains, tile and frequency use flags", "why_tests_cant": "All gain arrays; zero bandpass special case.", "anchors": ["PyFHD/calibration/calibration_utils.py: vis_cal_bandpass"]}
{"id": "C38", "title": "The calibration solver terminates within max_cal_iter iterations", "statement": "For each frequency the gain iteration of vis_calibrate_subroutine performs at most max_cal_iter iterations, reports an iteration number below max_cal_iter, and stops early only when a convergence or divergence test holds or all the new gains vanish.", "quantifier": "all data and all values of max_cal_iter", "why_tests_cant": "Termination over all inputs.", "anchors": ["PyFHD/calibration/vis_calibrate_subroutine.py: vis_calibrate_subroutine"]}
{"id": "C39", "title": "A perfect calibration solution is a fixed point", "statement": "If the data are exactly gain_a*conj(gain_b)*model for the starting gains, vis_calibrate_subroutine returns every tile's gain unchanged, up to the one common phase that makes the gain of the reference tile real and positive (tiles with some nonzero model baseline), after one iteration and after any number of iterations. (Arrays in which all tiles have equally many baselines at a channel are the subject of C278.)", "quantifier": "all gains, models, baseline layouts and damping factors", "why_tests_cant": "Algebraic least-squares identity over all arrays.", "anchors": ["PyFHD/calibration/vis_calibrate_subroutine.py: vis_calibrate_subroutine"]}
{"id": "C40", "title": "The adaptive damping factor is bounded", "statement": "calculate_adaptive_gain returns the base gain for the first iterations and otherwise a value between base/2 and (1+last gain)/2 or base/2, records it in the gain list at the given iteration, and leaves the other entries alone.", "quantifier": "all gain and convergence histories and iteration numbers", "why_tests_cant": "Real-valued histories of any length.", "anchors": ["PyFHD/calibration/calibration_utils.py: calculate_adaptive_gain"]}
{"id": "C41", "title": "Baseline codes decode into the two antenna numbers", "statement": "create_params recovers antenna numbers a1 and a2 from codes 256*a1+a2 for every baseline of the observation.", "quantifier": "all non-empty sets of antenna pairs with 1<=a1<=a2<256", "why_tests_cant": "The decoding radix is guessed from the smallest code; which antennas are present is data dependent.", "anchors": ["PyFHD/data_setup/uvfits.py: create_params"]}
{"id": "C42", "title": "Antenna numbers map to tile indices", "statement": "create_obs maps every baseline's antenna numbers to 1 + the index of that number in the antenna table.", "quantifier": "all antenna tables without duplicates and baselines over them", "why_tests_cant": "In-place renumbering depends on the order of the antenna table.", "anchors": ["PyFHD/data_setup/obs.py: create_obs"]}
{"id": "C43", "title": "Time blocks partition the visibilities by integration", "statement": "For time-sorted data create_obs yields one block per distinct time: block t starts at bin_offset[t], all samples of a block have equal time, blocks are consecutive and cover all samples; n_time is the number of blocks.", "quantifier": "all sorted time lists", "why_tests_cant": "All block sizes and numbers of integrations, including one.", "anchors": ["PyFHD/data_setup/obs.py: create_obs", "PyFHD/pyfhd_tools/pyfhd_utils.py: idl_argunique"]}
{"id": "C44", "title": "Imported visibilities are the file's values with axes (pol, frequency, baseline)", "statement": "extract_visibilities returns at [pol,f,b] the complex number data[b,f,pol,0]+i*data[b,f,pol,1] and the weight data[b,f,pol,2] for the first n_pol polarisations.", "quantifier": "all data cubes, numbers of polarisations, channels and baselines", "why_tests_cant": "Axis permutations and the removal of length-one axes depend on sizes.", "anchors": ["PyFHD/data_setup/uvfits.py: extract_visibilities"]}
{"id": "C45", "title": "The frequency axis follows the FITS header", "statement": "Channel k of the frequency array of extract_header is crval + (k+1-crpix)*cdelt, so channels are equally spaced and the reference pixel has the reference value.", "quantifier": "all headers and channels", "why_tests_cant": "All header values.", "anchors": ["PyFHD/data_setup/uvfits.py: extract_header"]}
{"id": "C46", "title": "Model visibilities are matched to data baselines", "statement": "flag_model_visibilities returns for each data sample the model visibility of the same antenna pair at the nearest model time.", "quantifier": "all model and data baseline lists with the model a superset of the data", "why_tests_cant": "Alignment over arbitrary flagging patterns.", "anchors": ["PyFHD/source_modeling/vis_model_transfer.py: flag_model_visibilities"]}
{"id": "C47", "title": "Saved dictionaries load back unchanged", "statement": "load(save(d)) equals d for every (possibly nested) dictionary of arrays, scalars, strings, None and sub-dictionaries.", "quantifier": "all nested dictionaries of any depth and width", "why_tests_cant": "Structural induction over unboundedly nested values.", "anchors": ["PyFHD/io/pyfhd_io.py: save, save_dataset, dict_to_group, load, load_dataset, group_to_dict, format_array"]}
{"id": "C48", "title": "Object arrays are stored without losing entries", "statement": "format_array returns an array of the same length; None becomes NaN in numeric arrays and the empty string in string arrays, every other entry keeps its value.", "quantifier": "all object arrays", "why_tests_cant": "All mixtures of types.", "anchors": ["PyFHD/io/pyfhd_io.py: format_array"]}
{"id": "C49", "title": "Resuming from the observation checkpoint gives the same results", "statement": "A run that starts from the observation checkpoint saved by an earlier run with the same configuration ends with the same outcome and products as the uninterrupted run.", "quantifier": "all behaviours of the numerical stages, all configurations, crashes at any point after the checkpoint was written", "why_tests_cant": "Crash points times configurations times stage behaviours.", "anchors": ["PyFHD/pyfhd.py: main"]}
{"id": "C50", "title": "Resuming from the calibration checkpoint gives the same results", "statement": "A run started with calibrate_checkpoint set to the checkpoint of an earlier run ends with the same products as the uninterrupted run.", "quantifier": "all behaviours of the numerical stages, all configurations", "why_tests_cant": "Whole pipeline property.", "anchors": ["PyFHD/pyfhd.py: main"]}
{"id": "C51", "title": "Resuming from the gridding checkpoint gives the same results", "statement": "A run started from calibration and gridding checkpoints passes the same observation metadata and planes to imaging and export as the uninterrupted run.", "quantifier": "all behaviours of the numerical stages, all configurations", "why_tests_cant": "Whole pipeline property.", "anchors": ["PyFHD/pyfhd.py: main"]}
{"id": "C52", "title": "Invalid configurations stop the program before any processing", "statement": "pyfhd_setup terminates the program exactly when at least one configuration error was found; in particular for every missing input file that is required, and never for a configuration in which all conditions hold.", "quantifier": "all configurations and file system states", "why_tests_cant": "Combinations of options are exponentially many.", "anchors": ["PyFHD/pyfhd_tools/pyfhd_setup.py: pyfhd_setup, _check_file_exists"]}
{"id": "C53", "title": "Conflicting options are resolved", "statement": "After pyfhd_setup with success: beam_per_baseline implies interpolate_kernel is off; snapshot export implies visibilities are saved; recalculate_all implies all recalculate options are on; a negative beam_offset_time is replaced by 0; at most one of the mutually exclusive cable-reflection modes is on.", "quantifier": "all configurations", "why_tests_cant": "Exponentially many option combinations.", "anchors": ["PyFHD/pyfhd_tools/pyfhd_setup.py: pyfhd_setup"]}
{"id": "C54", "title": "The written configuration file reproduces the configuration", "statement": "Parsing the YAML file written by write_collated_yaml_config gives back every option with its value.", "quantifier": "all configurations", "why_tests_cant": "All option values including lists, None, empty lists.", "anchors": ["PyFHD/pyfhd_tools/pyfhd_setup.py: write_collated_yaml_config"]}
{"id": "C55", "title": "HEALPix interpolation weights of a pixel sum to one", "statement": "In the regridding map of healpix_cnv_generate each HEALPix pixel inside the image receives contributions with total weight 1, so a constant image is mapped to the constant by healpix_cnv_apply, and the map is linear in the image.", "quantifier": "all pixel coordinates inside the image", "why_tests_cant": "Coordinates that are exact integers make floor and ceiling coincide.", "anchors": ["PyFHD/healpix/healpix_utils.py: healpix_cnv_generate, healpix_cnv_apply"]}
{"id": "C56", "title": "Frequency averaging for export uses each channel once", "statement": "healpix_snapshot_cube_generate / vis_model_freq_split assign each channel to exactly one averaged channel and nf_vis of an averaged channel is the sum over its channels.", "quantifier": "all n_freq and n_avg", "why_tests_cant": "n_avg that does not divide n_freq.", "anchors": ["PyFHD/healpix/export.py: healpix_snapshot_cube_generate", "PyFHD/healpix/healpix_utils.py: vis_model_freq_split"]}
{"id": "C57", "title": "Re-deriving observation metadata keeps the frequency-to-beam map", "statement": "update_obs assigns to every frequency channel the index of its beam frequency bin, as create_obs does.", "quantifier": "all frequency lists and bin widths", "why_tests_cant": "The last histogram bin is a boundary.", "anchors": ["PyFHD/data_setup/obs.py: update_obs, create_obs"]}
{"id": "C58", "title": "Calibration plots cover every tile", "statement": "plot_cals draws each tile of the observation exactly once and labels it with its own name.", "quantifier": "all numbers of tiles", "why_tests_cant": "All tile counts; the MWA's 128 hides page arithmetic.", "anchors": ["PyFHD/plotting/calibration.py: plot_cals"]}
{"id": "C59", "title": "Region growing returns exactly the connected region of the seed", "statement": "region_grow(image, seeds, low, high) returns the flat indices, without duplicates, of the interior pixels whose connected blob (4-neighbour, values in [low,high]) contains an interior seed; None when there are none.", "quantifier": "all 2-D images, seed sets and thresholds", "why_tests_cant": "Reachability over arbitrary images.", "anchors": ["PyFHD/pyfhd_tools/pyfhd_utils.py: region_grow"]}
{"id": "C60", "title": "Time averaging with weights sums over time steps only", "statement": "reshape_and_average_in_time returns at (f,b) the sum over t of vis[f, t*n_baselines+b]*weight[f,t,b], and terminates the program when the weights have another shape.", "quantifier": "all arrays and sizes", "why_tests_cant": "All shapes.", "anchors": ["PyFHD/pyfhd_tools/pyfhd_utils.py: reshape_and_average_in_time"]}
{"id": "C61", "title": "The auto ratio of the reference tile is 1", "statement": "cal_auto_ratio_divide normalises the auto-correlations by those of the reference tile: the ratio of the reference tile is 1 at every frequency with a nonzero auto-correlation, also when some tiles have no auto-correlation.", "quantifier": "all sets of tiles with auto-correlations, all auto-correlations", "why_tests_cant": "Row number and tile number agree in the usual data, where every tile has an auto-correlation.", "anchors": ["PyFHD/calibration/calibration_utils.py: cal_auto_ratio_divide, vis_extract_autocorr"]}
{"id": "C62", "title": "An impossible number of calibration iterations is rejected", "statement": "vis_calibrate_subroutine called with max_cal_iter below 1 raises a ValueError that names the option; values of 1 and more are accepted (for arrays not excluded by C278).", "quantifier": "all values of max_cal_iter and all data", "why_tests_cant": "Holds for every input; the raising branch is easy to leave unreachable and no test enters it.", "anchors": ["PyFHD/calibration/vis_calibrate_subroutine.py: vis_calibrate_subroutine"]}
{"id": "C63", "title": "Backing up to the previous calibration solution", "statement": "When the calibration iteration stops because the mean change of the gains no longer decreases, and the previous solution met the threshold but the current one did not, the previous solution is returned; a solution that met the threshold itself is kept. The reported convergence is the relative change of the gains that are returned.", "quantifier": "all data, thresholds and stopping iterations", "why_tests_cant": "Needs runs that stop in each of the rare ways; a test has one data set.", "anchors": ["PyFHD/calibration/vis_calibrate_subroutine.py: vis_calibrate_subroutine"]}
{"id": "C64", "title": "A reference tile with too few baselines does not spoil the calibration", "statement": "At a frequency where the reference tile has too few usable baselines to be solved for, vis_calibrate_subroutine still returns numbers (not NaN) for the gains of the other tiles.", "quantifier": "all data, flags and reference tiles", "why_tests_cant": "Depends on the combination of flags and reference tile.", "anchors": ["PyFHD/calibration/vis_calibrate_subroutine.py: vis_calibrate_subroutine"]}
{"id": "C65", "title": "Calibration weights belong to their baselines", "statement": "With calibration_weights the equation of each baseline in the gain solution is weighted with the taper weight of that baseline.", "quantifier": "all baselines, weights and tiles", "why_tests_cant": "The result stays plausible with the weights of other baselines; only a statement about every baseline's influence settles it.", "anchors": ["PyFHD/calibration/vis_calibrate_subroutine.py: vis_calibrate_subroutine"]}
{"id": "C66", "title": "Baselines of flagged tiles do not enter the calibration of other tiles", "statement": "A baseline with a tile flagged in tile_use enters no equation of another tile's gain, and every baseline of unflagged tiles enters the equations of its own two tiles.", "quantifier": "all flags, tile numbers and baseline lists", "why_tests_cant": "Needs flags inconsistent with the weights, for all layouts.", "anchors": ["PyFHD/calibration/vis_calibrate_subroutine.py: vis_calibrate_subroutine"]}
{"id": "C67", "title": "The imaging grid follows the options FoV, kbinsize, dimension and elements", "statement": "create_obs makes a uv grid of dimension x elements pixels (a missing one of the two defaulting to the other, both missing to the longest baseline) with pixel size (180/pi)/FoV when a non-zero FoV is given and kbinsize otherwise (0.5 by default), and degpix times dimension times kpix is 180/pi.", "quantifier": "all combinations of the four options", "why_tests_cant": "Needs all combinations of optional settings; the defaults hide the faults.", "anchors": ["PyFHD/data_setup/obs.py: create_obs"]}
{"id": "C68", "title": "The option time_cut removes the first or last seconds", "statement": "A positive entry t of time_cut flags the first ceil(t/time_res) integrations, a negative one the last; the other integrations stay in use.", "quantifier": "all lists of cuts, time resolutions and numbers of integrations", "why_tests_cant": "Needs all lists of cuts; the default is none.", "anchors": ["PyFHD/data_setup/obs.py: create_obs"]}
{"id": "C69", "title": "Files that lack needed group parameters are refused, others accepted", "statement": "extract_header accepts a file exactly when its group parameters include UU, VV, WW, DATE and either both antenna columns or BASELINE, in any order; otherwise it raises a KeyError.", "quantifier": "all lists of group parameters", "why_tests_cant": "Needs every order and subset of names.", "anchors": ["PyFHD/data_setup/uvfits.py: extract_header"]}
{"id": "C70", "title": "A constant time offset of the model does not disturb the matching", "statement": "When every model time differs from the corresponding data time by the same amount, at most half an integration either way, flag_model_visibilities uses for every data time step the corresponding model time step.", "quantifier": "all numbers of steps, resolutions and offsets", "why_tests_cant": "Tests use one offset and sign; the failure depends on the sign and size.", "anchors": ["PyFHD/source_modeling/vis_model_transfer.py: flag_model_visibilities"]}
{"id": "C71", "title": "Saving does not change the data in memory", "statement": "save and format_array leave the arrays passed to them unchanged: after the call the caller's array holds the same entries as before.", "quantifier": "all arrays, of any type and length", "why_tests_cant": "Tests compare the returned array or the loaded file, not the argument after the call, and for a few arrays only.", "anchors": ["PyFHD/io/pyfhd_io.py: format_array", "PyFHD/io/pyfhd_io.py: save_dataset"]}
{"id": "C72", "title": "The weights can be saved without the visibilities", "statement": "With save_weights the weights are saved, whether or not save_visibilities is set.", "quantifier": "all configurations that start from the data, all behaviours of the stages", "why_tests_cant": "No test runs main with each combination of the saving options.", "anchors": ["PyFHD/pyfhd.py: main"]}
{"id": "C73", "title": "cal_stop stops after calibration and saves what was asked for", "statement": "A run with cal_stop never grids, images or exports; when it ends normally, every product whose save option is on has been saved.", "quantifier": "all configurations, all behaviours of the stages", "why_tests_cant": "No test runs main to its end for any configuration.", "anchors": ["PyFHD/pyfhd.py: main"]}
{"id": "C74", "title": "Images and cubes are exported from the values computed before", "statement": "With export_images or snapshot_healpix_export (and no cal_stop) a run in which all stages succeed ends normally and passes the calibrated data and the gridded planes to the exporting functions, also when calibration or gridding are switched off.", "quantifier": "all configurations, all behaviours of the stages", "why_tests_cant": "No test runs main; the failures depend on the combination of options.", "anchors": ["PyFHD/pyfhd.py: main"]}
{"id": "C75", "title": "A set-up that finds errors reports failure to the calling shell", "statement": "When pyfhd_setup finds configuration errors and stops the program, the exit status of the process is not zero.", "quantifier": "all configurations and file system states", "why_tests_cant": "The status has to be right for every combination of errors; no test runs the program with an invalid configuration.", "anchors": ["PyFHD/pyfhd_tools/pyfhd_setup.py: pyfhd_setup"]}
{"id": "C76", "title": "HEALPix pixels outside the image get nothing", "statement": "A HEALPix pixel whose position is outside the image receives the value 0 from healpix_cnv_apply.", "quantifier": "all pixel positions and image sizes", "why_tests_cant": "The pixels are looked up by a flat pixel number, so that a position beyond one side may alias a pixel of the other side.", "anchors": ["PyFHD/healpix/healpix_utils.py: healpix_cnv_generate, healpix_cnv_apply"]}
{"id": "C77", "title": "The list of HEALPix pixels is that of the nearest field", "statement": "When restrict_healpix_inds is set and no file is given, the list of pixels used belongs to the field nearest to the phase centre of the observation (up to one degree), and to the frequency nearest to its central frequency among the lists of that field.", "quantifier": "all pointings and frequencies", "why_tests_cant": "All pointings on the sphere; degrees are mixed with radians in the comparison.", "anchors": ["PyFHD/healpix/healpix_utils.py: healpix_cnv_generate", "PyFHD/pyfhd_tools/pyfhd_utils.py: angle_difference"]}
{"id": "C78", "title": "The size of the exported images follows the options", "statement": "The size of the exported images is given by ps_kspan, else by ps_dimension, else by ps_degpix, else by the observation, and the images cover the field of view given by ps_kbinsize, else by ps_fov, else by the observation; options that are left at their default have no effect.", "quantifier": "all combinations of options", "why_tests_cant": "Depends on which options are present, and on their default values.", "anchors": ["PyFHD/healpix/export.py: healpix_snapshot_cube_generate", "PyFHD/pyfhd_tools/pyfhd_setup.py: pyfhd_parser"]}
{"id": "C79", "title": "The export writes one cube for each half and polarization", "statement": "healpix_snapshot_cube_generate writes one file for each polarization, and with split_ps_export one for each of the interleaved halves, each from the visibilities of its half and polarization, and no file twice.", "quantifier": "all numbers of polarizations, with and without split_ps_export", "why_tests_cant": "Whole-run effect of a loop over data of a real observation.", "anchors": ["PyFHD/healpix/export.py: healpix_snapshot_cube_generate"]}
{"id": "C80", "title": "The resistant mean exists and is robust", "statement": "resistant_mean of a non-empty real array returns a number between the smallest and the largest datum; it does not depend on the order of the data, follows a change of unit and zero point, and is the common value when more than half of the data are equal, however far away the others are.", "quantifier": "all real arrays of any length, all numbers of deviations", "why_tests_cant": "Whether any number is left after two rounds of outlier rejection depends on the exact mixture of values; a test fixes one.", "anchors": ["PyFHD/pyfhd_tools/pyfhd_utils.py: resistant_mean"]}
{"id": "C81", "title": "The noise estimate comes from the unflagged even-odd pairs only", "statement": "vis_noise_calc returns for every polarization and frequency the standard deviation of the even-odd differences of the imaginary parts over the pairs with two unflagged samples, divided by sqrt(2), zero when there is none or only one time step; a signal common to both samples of the pairs and the values of flagged samples do not matter, and it makes no difference whether the function splits the samples itself or gets the split.", "quantifier": "all visibilities, weights and index arrays of any size", "why_tests_cant": "Independence of all flagged values and of all common signals is a statement about pairs of inputs.", "anchors": ["PyFHD/pyfhd_tools/pyfhd_utils.py: vis_noise_calc"]}
{"id": "C82", "title": "Calibration residuals are reported by baseline length", "statement": "vis_baseline_hist reports for every 5 wavelength bin from min_baseline to max_baseline the mean amplitude of calibrated minus model visibilities over the mean amplitude of the model (and the spread of the former over the latter), using exactly the samples of that length whose model is not zero.", "quantifier": "all baseline coordinates, frequencies, visibilities and models", "why_tests_cant": "The bins with a mixture of zero and nonzero models are rare in small test data.", "anchors": ["PyFHD/calibration/calibration_utils.py: vis_baseline_hist"]}
{"id": "C83", "title": "Sampling rebin picks the pixel at the proportional position", "statement": "rebin with sample=True to a shape whose sizes are multiples or divisors of the old ones returns an array of that shape in which pixel (r, c) is the old pixel at (floor(r*old_rows/rows), floor(c*old_cols/cols)).", "quantifier": "all arrays of one or two dimensions and all shapes", "why_tests_cant": "Needs all combinations of enlarging and reducing either axis.", "anchors": ["PyFHD/pyfhd_tools/pyfhd_utils.py: rebin"]}
{"id": "C84", "title": "Extracted auto-correlations are the samples of a tile with itself, averaged over the used times on request", "statement": "Without time averaging the auto-correlations have one column per sample of a tile with itself, in the order of the samples, labelled by the tile. With averaging there is one column per tile, in increasing order, equal to the mean over the used time steps of the tile's samples. An observation without such samples gives none.", "quantifier": "all observations (any numbers of tiles, baselines, time steps, any tile order) and all visibilities", "why_tests_cant": "Depends on the order of the samples and on which time steps are used; a single used time step takes a different path.", "anchors": ["PyFHD/calibration/calibration_utils.py: vis_extract_autocorr"]}
{"id": "C85", "title": "Initial gains from auto-correlations are positive and proportional to the square root of data over model", "statement": "The initial gains are positive numbers for any data. If all auto-correlations and the scale are positive they are one common factor times the square root of the ratio of the data to the model (the factor itself for tiles without auto-correlation) and their mean is the scale. A bad auto-correlation affects its own tile and frequency only.", "quantifier": "all sets of tiles, auto-correlations and models, including missing numbers", "why_tests_cant": "Test data have no missing or negative auto-correlations; the effect of one bad entry on the others is not visible in samples.", "anchors": ["PyFHD/calibration/calibration_utils.py: vis_cal_auto_init"]}
{"id": "C86", "title": "The fit to auto-correlations keeps phases and is the least-squares line over unflagged neighbourhoods", "statement": "vis_cal_auto_fit replaces the amplitude of the gains of a tile with auto-correlations by the least-squares linear function of the square root of data over model auto-correlation, fitted over the frequencies that are used and whose neighbours are used; it keeps the phase of the gains, leaves exact linear relations and other tiles unchanged, and reports slope and offset per tile and their mean slope, for any number of polarisations.", "quantifier": "all gains, auto-correlations, flags and sets of tiles", "why_tests_cant": "Least squares is a statement about all lines; uninitialised memory and single polarisations are not in the test data.", "anchors": ["PyFHD/calibration/calibration_utils.py: vis_cal_auto_fit"]}
{"id": "C87", "title": "Calibration flagging removes exactly the tiles and frequencies that fail a documented test", "statement": "vis_calibration_flag never puts a tile or frequency back into use, changes the frequencies only if asked to, and removes a tile exactly if its median amplitude is below half or above twice that of the array, or its amplitude residual, phase slope or phase residual exceeds the median by five standard deviations; tiles whose calibration shows no variation at all are removed.", "quantifier": "all gains, flags, numbers of polarisations, tiles and frequencies", "why_tests_cant": "The iteration over polarisations and passes and the interaction of the tests need all inputs; the bound on the size of arrays for which the tests can act needs a proof.", "anchors": ["PyFHD/calibration/calibration_utils.py: vis_calibration_flag"]}
{"id": "C88", "title": "Polynomial and reflection fits of the gains", "statement": "When the calibration solutions are smoothed over frequency, each tile's amplitude and phase are replaced by the least squares polynomial of the degrees asked for (2 and 1 by default), evaluated at every channel, so that gains that already are such polynomials come back unchanged; with the option for the digital gain jump the channels below and above it get separate fits and data that do not straddle the jump a common one; a cable reflection fitted afterwards is applied with the amplitude and phase it has in the data, whichever option supplies its delay.", "quantifier": "for all numbers of tiles and channels, all flaggings of channels, all degrees, all gains, all reflection amplitudes and modes", "why_tests_cant": "A smooth test gain has small highest order coefficients and a test compares with stored output; that the last coefficient is dropped, that one option shifts channels by one and that the reflection is scaled by the number of channels only shows against the mathematical definition over all gains.", "anchors": ["PyFHD/calibration/calibration_utils.py:vis_cal_polyfit"]}
{"id": "C89", "title": "Calibration run: gains, residuals and statistics belong together", "statement": "Whatever combination of options is chosen, calibrate returns visibilities divided by exactly the gains it returns, a residual that is the per-frequency solution minus these gains, and statistics of amplitude and residual that are averages over the tiles and channels still in use; options for bandpass, polynomial fit, auto-correlation ratio and auto-correlation fit can be combined freely, and fits that lose nothing leave the solution unchanged.", "quantifier": "for all combinations of options, all data, all flaggings", "why_tests_cant": "There are many combinations of options and each run is long; a test fixes one or two combinations and cannot cover the data dependent flagging between the steps.", "anchors": ["PyFHD/calibration/calibrate.py:calibrate"]}
{"id": "C90", "title": "Mixing angle of Stokes Q and U", "statement": "calibrate_qu_mixing returns the phase by which pseudo Q and pseudo U are mixed in the model minus that in the calibrated data, each being the phase of the slope of the straight line fitted to Q against U over all frequencies and baselines with any unflagged sample; flagged samples have no influence, so that flagging part of the data leaves the answer of consistent data unchanged.", "quantifier": "for all numbers of frequencies, times and baselines, all weights, all visibilities and models", "why_tests_cant": "A test compares with the number the IDL code gave for one data set; the dependence on which samples are flagged needs all flag patterns and all offsets.", "anchors": ["PyFHD/calibration/calibrate.py:calibrate_qu_mixing", "PyFHD/pyfhd_tools/pyfhd_utils.py:reshape_and_average_in_time"]}
{"id": "C91", "title": "Direction cosines are those of the pixels about the phase centre", "statement": "l_m_n returns for every pixel the components of its direction towards east and north of the phase centre and, minus one, towards the phase centre: their squares (with n + 1) add to one, n is between -2 and 0 and zero only at the phase centre, and within the hemisphere of the phase centre l and m identify the direction. A pixel without coordinates gets zeros. Coordinates given as arguments replace those of the dictionaries.", "quantifier": "every phase centre, every pixel, every combination of optional arguments", "why_tests_cant": "A test compares one stored image; swapped axes or a sign are invisible near the poles or at zero hour angle, and the identities hold over a continuum of directions.", "anchors": ["PyFHD/pyfhd_tools/pyfhd_utils.py:297-374"]}
{"id": "C92", "title": "The angular distance is a distance", "statement": "angle_difference returns the angle between two directions: between 0 and 180 degrees, zero exactly for equal directions, independent of the order, and the same for coordinates in degrees and in radians; with the option for the nearest angle it returns the smaller of the angle and its complement to a full turn.", "quantifier": "every pair of directions, both units, both settings of the option", "why_tests_cant": "Over all pairs of directions; a test with one pair cannot distinguish degrees from radians in the comparison with a full turn.", "anchors": ["PyFHD/pyfhd_tools/pyfhd_utils.py:905-948"]}
{"id": "C93", "title": "The slant orthographic parameters describe the tilt of the array", "statement": "The two parameters of the slant orthographic projection are the components of the zenith towards east and north of the phase centre, over the component towards the phase centre, for every phase centre and zenith: they vanish when the phase centre is the zenith and change sign when the zenith passes from north to south of the phase centre.", "quantifier": "every phase centre and every zenith not at a pole", "why_tests_cant": "The quadrant of the parallactic angle matters only on half of the sky; observations used in tests lie on one side.", "anchors": ["PyFHD/data_setup/obs.py:415-470", "PyFHD/pyfhd_tools/pyfhd_utils.py:951-974"]}
{"id": "C94", "title": "Each stage of a run works on the results of the stage before", "statement": "In a run, everything after calibration works on the calibrated visibilities and the updated weights; the mixing angle of Q and U is determined exactly for observations with four or more polarizations; each polarization is gridded from its own visibilities, weights and model, in order, the filter being that of the first; image, weights and model planes are reformatted for cross polarizations exactly when there are four.", "quantifier": "every implementation of the stages, every configuration, every number of polarizations", "why_tests_cant": "A test run uses one configuration and number of polarizations; a stale variable passed on gives plausible images.", "anchors": ["PyFHD/pyfhd.py:269-312", "PyFHD/pyfhd.py:406-463"]}
{"id": "C95", "title": "Each calibration iteration is a damped least-squares step", "statement": "In each iteration of the calibration without baseline weights, every tile with at least five baselines with positive weight has its gain moved towards the gain that minimises the sum of the squared residuals of its baselines, the other gains being those before the iteration; tiles with fewer are moved towards zero. During the phase-only iterations the fitted gain first gets the absolute value of the old one. The step is the fraction factor/(base + factor), or one third if the result would be too small; the factor is the base factor in the first three iterations or without adaptive damping, afterwards follows the ratio of the last two convergences and is never below half the base factor. The common phase of the reference tile is then removed from all gains. The calibration stops with zero gains only if all the fitted gains are zero.", "quantifier": "every number of tiles, every list of baselines with any data, models and weights, all gains, iteration numbers and histories of factors and convergences", "why_tests_cant": "A test compares the gains of a stored observation; it cannot establish that the fitted gain is the minimum over all gains, nor that no baseline without weight enters, for all data.", "anchors": ["PyFHD/calibration/vis_calibrate_subroutine.py:254-374", "PyFHD/calibration/calibration_utils.py:1630-1722"]}
{"id": "C96", "title": "The baseline threshold of an image only removes weight", "statement": "The threshold of an image multiplies the uv plane by a mask between 0 and 1 that is 1 where all cells within half the smoothing width are kept by the threshold (at least as far from the centre as the threshold, or not beyond the negative threshold) and 0 where none is; the default threshold of zero keeps every cell.", "quantifier": "every size of plane, threshold and smoothing width", "why_tests_cant": "A test uses one size, threshold and width; the mask must stay between 0 and 1 for all of them.", "anchors": ["PyFHD/gridding/gridding_utils.py:367-406"]}
{"id": "C97", "title": "A dirty image is the Fourier transform of its uv plane", "statement": "With default options the image made of a uv plane is the discrete Fourier sum with the zero baseline at the centre of the plane and the phase centre at the centre of the image, divided by the number of cells: a point source comes out at its own pixel with its own flux and nowhere else, the central pixel is the mean of the plane, images of sums are sums of images, planes that are conjugate symmetric give real images, and different planes give different (complex) images.", "quantifier": "every size of plane and every plane", "why_tests_cant": "A test compares the image of one stored plane; it cannot establish position, flux and linearity for all sources, sizes and planes.", "anchors": ["PyFHD/gridding/gridding_utils.py:297-495"]}
{"id": "C98", "title": "Padding the uv plane refines the image and keeps its values", "statement": "Padding the uv plane by a factor multiplies the number of pixels of the image by the factor and keeps the brightness: every pixel of the image without padding appears in the padded image with the same value.", "quantifier": "every square plane, every padding factor, all thresholds, masks, filters and units", "why_tests_cant": "A test pads one plane by one factor; the normalisation must hold for all planes and factors.", "anchors": ["PyFHD/gridding/gridding_utils.py:441-461"]}
{"id": "C99", "title": "Making an image leaves the uv plane alone", "statement": "Making an image of a uv plane does not change the plane, so that further images of the same plane, and the files written of it, hold what was gridded.", "quantifier": "every plane and all options", "why_tests_cant": "A test looks at the returned image of one call; the array passed in is changed for some combinations of options only.", "anchors": ["PyFHD/gridding/gridding_utils.py:386-495", "PyFHD/io/pyfhd_quickview.py:252-330"]}
{"id": "C100", "title": "The exported images are brightnesses, and the residual is data minus model", "statement": "Each exported polarisation has a dirty, a model and a residual image of the same name; the residual is the dirty image minus the model image at every pixel. Without padding the dirty and model images are the Fourier transform of the filtered gridded plane over the mean of the filtered gridded weights and the area of a pixel, times the square of the beam at the centre over the beam at the pixel, and zero where the beam is below 0.001; a source at the centre whose visibilities all are its flux gets this flux times the beam over the area of a pixel.", "quantifier": "all planes of even size, numbers of polarisations, beams, weights and filters", "why_tests_cant": "There is no unit test of the export; a comparison with one stored observation would not establish the units for all weights and beams.", "anchors": ["PyFHD/io/pyfhd_quickview.py:21-71", "PyFHD/io/pyfhd_quickview.py:244-420"]}
{"id": "C101", "title": "The exported uv weights are those of the polarisation as gridded", "statement": "The file of uv weights of a polarisation holds the absolute values of the gridded weights of this polarisation times the number of visibilities.", "quantifier": "all gridded weights, filters and numbers of polarisations", "why_tests_cant": "Nothing reads the file back; the content depends on array shapes and on side effects of earlier steps.", "anchors": ["PyFHD/io/pyfhd_quickview.py:412-420"]}
{"id": "C102", "title": "Images can be exported with padding", "statement": "The export of images works for every padding factor of at least one and gives images larger by this factor.", "quantifier": "every padding factor and plane", "why_tests_cant": "The default factor is one; other factors are untested.", "anchors": ["PyFHD/io/pyfhd_quickview.py:193-270"]}
{"id": "C103", "title": "Exporting images does not change what is exported afterwards", "statement": "The export of images changes neither the gridded planes nor the names of the polarisations, so that cubes exported afterwards do not depend on whether images have been exported.", "quantifier": "all planes, filters and numbers of polarisations", "why_tests_cant": "A side effect on arguments that only later steps see.", "anchors": ["PyFHD/io/pyfhd_quickview.py:248-299", "PyFHD/pyfhd_tools/pyfhd_utils.py:1542-1571"]}
{"id": "C104", "title": "The real and imaginary parts of the cross-polarised image are exported", "statement": "With four polarisations the images named after the real and the imaginary part hold the real and the imaginary part of the image of XY.", "quantifier": "all four-polarisation observations", "why_tests_cant": "Needs four-polarisation data, absent from the tests.", "anchors": ["PyFHD/io/pyfhd_quickview.py:244-299", "PyFHD/pyfhd_tools/pyfhd_utils.py:1542-1571"]}
{"id": "C105", "title": "The exported uv planes hold every visibility of the channels of a range, once", "statement": "vis_model_freq_split grids one plane per range of n_avg channels. Each plane (before the FFT, as saved) is the sum over the unflagged visibilities of the channels in use in that range and of the baselines given, of the visibility times the conjugate of the kernel of its channel; the sum over all ranges does not depend on n_avg; the images are the Fourier sums of these planes in units of the pixel area.", "quantifier": "all weights, visibilities, kernels, channel flags, averaging lengths, baseline selections, cells", "why_tests_cant": "The loop over channel ranges, the histogram of cells and the combination of equal kernels have to be composed for every flagging pattern.", "anchors": ["PyFHD/healpix/healpix_utils.py: vis_model_freq_split", "PyFHD/gridding/visibility_grid.py: visibility_grid"]}
{"id": "C106", "title": "The visibility counts exported with a cube are those of that cube", "statement": "After vis_model_freq_split, obs['n_vis'] is the number of gridded visibilities and obs['nf_vis'][c] is the number of visibilities of channel c that were gridded for this polarization and this half of the data.", "quantifier": "all weights, channel flags, sequences of polarizations and halves", "why_tests_cant": "The counts live in a dictionary shared by all calls; an error shows only when a whole range is flagged in one of them.", "anchors": ["PyFHD/healpix/healpix_utils.py: vis_model_freq_split", "PyFHD/healpix/export.py: healpix_snapshot_cube_generate"]}
{"id": "C107", "title": "Without a selection the baselines with unflagged data are used", "statement": "When bi_use is not given, the baselines used are exactly those with a positive weight in some channel.", "quantifier": "all weights, numbers of channels and baselines", "why_tests_cant": "Summing over the wrong axis is invisible if the arrays are square and fully unflagged.", "anchors": ["PyFHD/healpix/healpix_utils.py: vis_model_freq_split", "PyFHD/gridding/gridding_utils.py: baseline_grid_locations"]}
{"id": "C108", "title": "Each saved uvf file holds the array it is named after", "statement": "The four uvf files of a polarization hold the dirty, weights, variance and model arrays respectively.", "quantifier": "all planes", "why_tests_cant": "What a file of this name should contain is not checked by reading one file.", "anchors": ["PyFHD/healpix/healpix_utils.py: vis_model_freq_split"]}
{"id": "C109", "title": "Rephasing weights displaces their image to the original phase centre", "statement": "Multiplying a uv plane by phase_shift_uv_image displaces its image so that the centre of the image comes to the pixel of the original phase centre, and changes nothing if the phase centres agree.", "quantifier": "all planes, sizes, positions", "why_tests_cant": "A theorem about the Fourier transform for all planes and real displacements.", "anchors": ["PyFHD/healpix/healpix_utils.py: phase_shift_uv_image"]}
{"id": "C110", "title": "Flagging of the calibrated visibilities only removes data, and accounts for what it removes", "statement": "When vis_flag returns, every weight is the one given or zero, tile_use and freq_use entries are the ones given or zero. A weight that changed belongs to a baseline whose distance at the median frequency is out of range, to a channel with freq_use zero, or to a tile with tile_use zero; a tile or channel newly marked unused has no weight left in any of the n_pol polarizations.", "quantifier": "all observations, weights, data, standard deviation functions, contents of uninitialised memory, for which the call returns", "why_tests_cant": "Tests compare one saved result; the claim excludes any other change for every input.", "anchors": ["PyFHD/flagging/flagging.py:210-359"]}
{"id": "C111", "title": "Flagging removes baselines out of range and channels without data, and counts what is left", "statement": "When vis_flag returns, baselines out of [min_baseline, max_baseline] at the median frequency have weight zero in all n_pol polarizations; a channel with at most ten usable samples (baseline in range, positive weight, positive modulus) in each of the first two polarizations has freq_use zero and no weights; obs['n_vis'] is the number of samples of the first polarization with a positive weight.", "quantifier": "all inputs for which the call returns", "why_tests_cant": "The boundary (ten samples, closed range) must hold for every number of baselines and channels.", "anchors": ["PyFHD/flagging/flagging.py:252-259", "PyFHD/flagging/flagging.py:281-287", "PyFHD/flagging/flagging.py:314-329", "PyFHD/flagging/flagging.py:357"]}
{"id": "C112", "title": "Which tiles are flagged depends on the data alone", "statement": "vis_flag flags tiles without usable data, and its decision about a tile is a function of the visibilities, weights and obs.", "quantifier": "all inputs and all contents of the memory allocated for the figures of merit", "why_tests_cant": "Fresh memory is often zero in a test run, so an uninitialised array goes unnoticed.", "anchors": ["PyFHD/flagging/flagging.py:261-279"]}
{"id": "C113", "title": "Flagging returns for every observation", "statement": "vis_flag returns weights and obs for every observation with data, flagging bad time steps where there are some.", "quantifier": "all observations, including those with one time step or with a time step without data", "why_tests_cant": "A sample observation without a bad time step never reaches the failing line.", "anchors": ["PyFHD/flagging/flagging.py:331-357", "PyFHD/pyfhd_tools/pyfhd_utils.py:1381-1385"]}
{"id": "C114", "title": "A tile far from the others is found however few or many there are", "statement": "In the second estimate of the mean and deviation of the tiles, outliers of the first are left out, so that a tile with data far from the others is flagged.", "quantifier": "all numbers of tiles and all data", "why_tests_cant": "Whether an outlier hides itself depends on the number of tiles and outliers.", "anchors": ["PyFHD/flagging/flagging.py:300-316"]}
{"id": "C115", "title": "A run can flag the calibrated visibilities", "statement": "With flag_visibilities a run that calibrates flags the calibrated visibilities and goes on.", "quantifier": "all stages and all configurations with flag_visibilities and calibration", "why_tests_cant": "The call in the main program is not covered by tests of the function itself.", "anchors": ["PyFHD/pyfhd.py:305-309", "PyFHD/flagging/flagging.py:210-216"]}
{"id": "C116", "title": "The counts of visibilities are counts", "statement": "visibility_count returns a plane whose entry at a pixel is the number of visibilities to be gridded (not flagged, within the limits of baseline and plane) whose kernel footprint covers the pixel; unless no_conjugate is given it is the mean of that and the entry at the point-mirrored pixel; with nothing to grid the plane is zero.", "quantifier": "all baselines, frequencies, flags, kernel sizes and square plane sizes", "why_tests_cant": "The count goes through a histogram of flat pixel indices, its reverse indices and slices of the plane; tests compare with one stored plane.", "anchors": ["PyFHD/gridding/gridding_utils.py:visibility_count", "PyFHD/gridding/gridding_utils.py:baseline_grid_locations"]}
{"id": "C117", "title": "Uniform weighting without given counts computes them", "statement": "filter_uv_uniform called with obs, psf, params and vis_weights in place of vis_count applies the filter made of the counts that visibility_count gives for them.", "quantifier": "all images, observations and parameters", "why_tests_cant": "The branch is taken only without vis_count, which the tests always give.", "anchors": ["PyFHD/gridding/filters.py:filter_uv_uniform"]}
{"id": "C118", "title": "Gridding a model beside the data", "statement": "visibility_grid with a model returns the same planes of the data as without, and as model plane the image plane that gridding the model in place of the data gives. (grid_uniform is C119, grid_spectral C120.)", "quantifier": "all visibilities, models, kernels, baselines and options", "why_tests_cant": "The model goes through its own copy of the conjugation, combination of equal places and accumulation; a difference between the copies shows only for some inputs.", "anchors": ["PyFHD/gridding/visibility_grid.py:visibility_grid"]}
{"id": "C119", "title": "grid_uniform divides by the counts", "statement": "With grid_uniform the gridded planes (data, weights, variance, model) are those without it divided at each pixel by the number of samples that reach it, up to one common factor.", "quantifier": "all inputs of visibility_grid", "why_tests_cant": "A plane of numbers does not show which of n and 1/n it was multiplied with; tests compare with stored planes.", "anchors": ["PyFHD/gridding/visibility_grid.py:visibility_grid"]}
{"id": "C120", "title": "The spectral plane weighs every visibility alike", "statement": "With grid_spectral the fit of the slope over frequency uses each visibility once in each of its sums, and works with and without a model.", "quantifier": "all inputs of visibility_grid", "why_tests_cant": "Needs repeated places within one bin, or a model together with the option; neither is in the tests.", "anchors": ["PyFHD/gridding/visibility_grid.py:visibility_grid"]}
{"id": "C121", "title": "Turning the phase of a tile turns its gain", "statement": "If the signal of every tile except the reference tile is multiplied with a phase, in the data and in the starting gains, vis_calibrate_subroutine returns the gains multiplied with these phases; convergence, iterations and the number of converged channels are the same. This holds for any data, also noisy ones, and for any options.", "quantifier": "all data, models, weights, flags that agree between tiles and baselines, options, phases per channel and tile", "why_tests_cant": "A symmetry of the whole iteration; a test compares with one stored result.", "anchors": ["PyFHD/calibration/vis_calibrate_subroutine.py:vis_calibrate_subroutine"]}
{"id": "C122", "title": "The order of the samples does not matter to calibration", "statement": "Without averaging over time, listing the samples (data, model, weights, tiles and coordinates together) in another order gives the same gains, convergence, iterations and counts from vis_calibrate_subroutine.", "quantifier": "all inputs, all permutations of the samples", "why_tests_cant": "There are factorially many orders; the routine goes through reverse indices and repeated tile lookups.", "anchors": ["PyFHD/calibration/vis_calibrate_subroutine.py:vis_calibrate_subroutine"]}
{"id": "C123", "title": "Calibration does not depend on the units of flux", "statement": "Multiplying data and model with the same nonzero number, which may depend on polarisation and channel, leaves everything vis_calibrate_subroutine returns unchanged.", "quantifier": "all inputs, all factors", "why_tests_cant": "A symmetry over a continuous range of factors, composed over all iterations.", "anchors": ["PyFHD/calibration/vis_calibrate_subroutine.py:vis_calibrate_subroutine"]}
{"id": "C124", "title": "Gains scale with the data", "statement": "Data r^2 times as large, from starting gains r times as large, give gains r times as large.", "quantifier": "all inputs, all positive r", "why_tests_cant": "The test data have gains near one, where the absolute threshold of the divergence test is not noticed.", "anchors": ["PyFHD/calibration/vis_calibrate_subroutine.py:350-362"]}
{"id": "C125", "title": "Exact gains are returned by the calibration routine", "statement": "If the starting gains account exactly for all unflagged data within the limits, vis_calibrate_subroutine returns them, up to a phase per channel that makes the gain of the reference tile positive. (Arrays in which all tiles have equally many baselines at a channel are the subject of C278.)", "quantifier": "all gains, models, weights, flags that agree, options, with and without averaging over time", "why_tests_cant": "Relates selection, averaging, indexing of tiles and iteration for every pattern of flags.", "anchors": ["PyFHD/calibration/vis_calibrate_subroutine.py:vis_calibrate_subroutine"]}
{"id": "C126", "title": "Calibration ignores what it is told to ignore", "statement": "Data and model of flagged samples, of samples shorter or longer than the limits, and of channels not used for calibration, and weights of samples out of the limits, have no influence on any result of vis_calibrate_subroutine. The limits are lengths in wavelengths, never wider than those of the observation.", "quantifier": "all inputs and all changes to the samples concerned", "why_tests_cant": "Noninterference: a statement on pairs of runs.", "anchors": ["PyFHD/calibration/vis_calibrate_subroutine.py:vis_calibrate_subroutine"]}
{"id": "C127", "title": "Calibration changes the gains of solved tiles only, and marks flagged tiles", "statement": "Gains change only at channels in use for unflagged tiles with baselines in use; the gains of flagged tiles become NaN, and no others.", "quantifier": "all inputs for which the routine returns", "why_tests_cant": "Needs tiles flagged independently of the weights.", "anchors": ["PyFHD/calibration/vis_calibrate_subroutine.py:217-222", "PyFHD/calibration/vis_calibrate_subroutine.py:428-447"]}
{"id": "C128", "title": "The number of visibilities used in calibration", "statement": "n_vis_cal is the number of unflagged visibilities within the limits, over all polarisations.", "quantifier": "all inputs", "why_tests_cant": "Tests use polarisations with equal flags.", "anchors": ["PyFHD/calibration/vis_calibrate_subroutine.py:449"]}
{"id": "C129", "title": "The first iterations fit phases only", "statement": "During the first phase_fit_iter iterations of the calibration (a quarter of the iterations, at most 4, by default) the amplitudes of the gains do not change.", "quantifier": "all data and starting gains", "why_tests_cant": "Intermediate gains are not visible to tests.", "anchors": ["PyFHD/calibration/vis_calibrate_subroutine.py:337-362"]}
{"id": "C130", "title": "Kernels per baseline keep all of the fine kernel", "statement": "With beam_per_baseline each pixel of a kernel is the sum of the resolution by resolution pixels of the finer transform in its place, and the sum of the kernel is the sum of the window.", "quantifier": "all kernel sizes, resolutions and planes", "why_tests_cant": "Three reshapes and two transposes with sizes that coincide in the test data.", "anchors": ["PyFHD/gridding/gridding_utils.py:grid_beam_per_baseline"]}
{"id": "C131", "title": "The kernel of a baseline is the transform of the beam at its distance", "statement": "With beam_per_baseline the kernel of a visibility is the Fourier transform of the power beam, taken at the distances between the pixels of the uv plane and the position of the visibility.", "quantifier": "all beams, baselines, frequencies, positions, even image sizes", "why_tests_cant": "A test has one beam and compares with a stored kernel; the claim is about all positions between the pixels.", "anchors": ["PyFHD/gridding/gridding_utils.py:grid_beam_per_baseline"]}
{"id": "C132", "title": "Clipping the kernels keeps their sums", "statement": "With beam_clip_floor the small values of a kernel become zero, the others keep their phase up to a factor common to the kernel, and the sum of every kernel is kept.", "quantifier": "all groups of kernels", "why_tests_cant": "Needs a group with a kernel much fainter than the strongest.", "anchors": ["PyFHD/gridding/gridding_utils.py:659-672"]}
{"id": "C133", "title": "The beam integrals of degridding are integrals over the beam", "statement": "For degridding, grid_beam_per_baseline adds to the integral of the channel of each visibility the sum of its kernel over the pixels (and of the square), and counts the visibilities, for any number of visibilities.", "quantifier": "all groups of visibilities", "why_tests_cant": "Degridding is not tested.", "anchors": ["PyFHD/gridding/gridding_utils.py:674-686"]}
{"id": "C134", "title": "The window of the beam is centred", "statement": "With beam_per_baseline the part of the transform that is used has the size of the kernel and the centre of the transform lies on the central pixel of the kernel.", "quantifier": "all kernel sizes, resolutions and image sizes (even)", "why_tests_cant": "Tests have one resolution.", "anchors": ["PyFHD/gridding/visibility_grid.py:182-193"]}
{"id": "C135", "title": "Kernels per baseline use the coordinates of the visibility", "statement": "With beam_per_baseline the kernel of a visibility is made with the coordinates of its own baseline and the frequency of its own channel.", "quantifier": "all numbers of channels and baselines, all samples", "why_tests_cant": "An index error that stays within bounds; visible only for kernels that depend on the baseline.", "anchors": ["PyFHD/gridding/visibility_grid.py:258", "PyFHD/gridding/visibility_grid.py:370"]}
{"id": "C136", "title": "A Gaussian beam keeps its shape on another grid", "statement": "A beam given by Gaussian lobes fitted on a grid of one size and resolution and evaluated on a square grid of another size and resolution has, at the pixel that shows the same direction, the value of the lobes on the first grid.", "quantifier": "all lobes, grid sizes, resolutions", "why_tests_cant": "Tests compare with stored arrays for one grid; the relation holds for all pairs of grids.", "anchors": ["PyFHD/beam_setup/beam_utils.py:7-79"]}
{"id": "C137", "title": "The image of the beam shows the same beam at every resolution", "statement": "The image of the beam made for an observation with other uv cells or another number of pixels shows, at the pixel of a direction, the same value of the beam.", "quantifier": "all image sizes, all sizes of uv cells, all lobes", "why_tests_cant": "Tests have one observation; the error is in how the value scales.", "anchors": ["PyFHD/beam_setup/beam_utils.py:81-232"]}
{"id": "C138", "title": "Evaluating a Gaussian beam leaves its parameters alone", "statement": "Evaluating a beam given by Gaussian parameters does not change the parameters of the caller, so that a second evaluation gives the same image.", "quantifier": "all lobes, grids, options", "why_tests_cant": "Tests evaluate once and do not look at the arguments afterwards.", "anchors": ["PyFHD/beam_setup/beam_utils.py:16-46", "PyFHD/beam_setup/beam_utils.py:60-64"]}
{"id": "C139", "title": "The transformed beam is the Fourier transform of the beam", "statement": "With ftransform the result is, up to a factor, the Fourier transform of an image of the beam, for any number of lobes.", "quantifier": "all lobes, all grids", "why_tests_cant": "An identity between two functions of real numbers.", "anchors": ["PyFHD/beam_setup/beam_utils.py:54-79"]}
{"id": "C140", "title": "The beam of an observation averages over its channels", "statement": "The image of the beam of an observation is at every pixel the sum of the beams of the channels in use divided by the sum of their norms; channels not in use do not matter.", "quantifier": "all numbers of channels, bins, flags, beams, pixels", "why_tests_cant": "Tests have few channels with one choice of flags.", "anchors": ["PyFHD/beam_setup/beam_utils.py:186-232"]}
{"id": "C141", "title": "The squared beam of an observation averages the squares", "statement": "With square the image is at every pixel the sum of the squared beams of the channels in use divided by the sum of their norms, for any number of frequency bins.", "quantifier": "all numbers of channels, bins, flags, beams, pixels", "why_tests_cant": "The value left over from one bin is added to the next; tests with one bin do not show it.", "anchors": ["PyFHD/beam_setup/beam_utils.py:144-185"]}
{"id": "C142", "title": "The beam at one frequency is that of its bin", "statement": "Given a channel, the image of the beam is that of the frequency bin of the channel divided by its norm, squared or not as asked for, whatever channels are flagged.", "quantifier": "all channels, bins, beams, flags", "why_tests_cant": "All combinations of channel, flags and option.", "anchors": ["PyFHD/beam_setup/beam_utils.py:144-232"]}
{"id": "C143", "title": "Images of the beam can be made from gridding kernels", "statement": "For a beam without Gaussian parameters the image is made from the gridding kernels.", "quantifier": "all beams without Gaussian parameters, all frequencies and options", "why_tests_cant": "Tests for this branch need large beam files and are not run.", "anchors": ["PyFHD/beam_setup/beam_utils.py:144-232"]}
{"id": "C144", "title": "The image of the beam weighs groups of baselines by their size", "statement": "Where baselines have different beams, the image is the average over the groups of equal beams weighed with the number of baselines in the group.", "quantifier": "all groups of baselines", "why_tests_cant": "Tests have one group.", "anchors": ["PyFHD/beam_setup/beam_utils.py:119-143"]}
{"id": "C145", "title": "Each frequency of the beam cube gets the beam of its channel", "statement": "Entry (polarisation, frequency) of the cube of beam images is the image of the beam at that frequency, for any list of frequencies.", "quantifier": "all numbers of frequencies, any order, any bins", "why_tests_cant": "Images are copied to ranges of frequencies; tests have frequencies in ascending order.", "anchors": ["PyFHD/healpix/healpix_utils.py:340-386", "PyFHD/data_setup/obs.py:525-544"]}
{"id": "C146", "title": "The beam mask is the region above the threshold around the pointing centre", "statement": "The mask is one at the pixels joined with the pointing centre through pixels at which the beam is above the threshold, for every polarisation and frequency, and zero elsewhere.", "quantifier": "all beams, thresholds, image sizes", "why_tests_cant": "Connectedness of regions of any shape and image size.", "anchors": ["PyFHD/healpix/healpix_utils.py:369-386"]}
{"id": "C147", "title": "Options of the beam cube", "statement": "pol_i_arr selects the polarisations, frequencies may be given as channels or in Hz, square=False gives the beam that is not squared, n_freq_bin frequencies are spread over the band.", "quantifier": "all values of the options, all observations", "why_tests_cant": "Combinations of options.", "anchors": ["PyFHD/healpix/healpix_utils.py:300-386"]}
{"id": "C148", "title": "The reflection fitted to a cable leaves the smallest residual", "statement": "When cable reflections are fitted with a nominal mode and hyper-resolution, without auto-correlations, then of all reflections with a mode on the grid of modes around the nominal one (2.5 either side in steps of 0.05), any amplitude and any phase, the one applied leaves the smallest sum of squares over the channels in use.", "quantifier": "all gains, all sets of channels in use, all nominal modes", "why_tests_cant": "An optimum over a continuum of amplitudes and phases.", "anchors": ["PyFHD/calibration/calibration_utils.py:1177-1200", "PyFHD/calibration/calibration_utils.py:1241-1247"]}
{"id": "C149", "title": "A cable reflection in the gains is recovered", "statement": "If the gains of a tile, divided by the fitted polynomials, are a constant plus one reflection, the fit returns the mode, amplitude and phase of that reflection.", "quantifier": "all amplitudes, phases and modes on the grid, all sets of flagged channels", "why_tests_cant": "All amplitudes, phases and sets of flagged channels.", "anchors": ["PyFHD/calibration/calibration_utils.py:1177-1200"]}
{"id": "C150", "title": "The nominal mode of a cable is its round-trip delay", "statement": "The nominal reflection of a cable varies over the band as a wave delayed by twice the length of the cable divided by the speed of light in the cable.", "quantifier": "all cables, all bands of equally spaced channels", "why_tests_cant": "Real-valued identity for all lengths, velocities and bands.", "anchors": ["PyFHD/calibration/calibration_utils.py:1079-1099"]}
{"id": "C151", "title": "Only the selected cables are fitted", "statement": "Gains of tiles that are flagged, marked as not to be fitted in the table of cables, or whose cable length is not selected by cal_reflection_mode_theory are not changed by the fit of reflections; all other tiles get the fitted reflection.", "quantifier": "all tables of cables, all values of the option, with and without auto-correlations", "why_tests_cant": "Combinations of options, flags and cables.", "anchors": ["PyFHD/calibration/calibration_utils.py:1058-1099", "PyFHD/calibration/calibration_utils.py:1134-1256"]}
{"id": "C152", "title": "A tile is compared only with tiles on other cables", "statement": "When auto-correlations are used, the spectrum and the phases of a tile are compared with those of tiles whose cable has another delay, so that its own reflection is not subtracted.", "quantifier": "all sets of tiles, cables and data", "why_tests_cant": "Which tiles are compared depends on the mode found in the data.", "anchors": ["PyFHD/calibration/calibration_utils.py:1156-1176", "PyFHD/calibration/calibration_utils.py:1203-1215"]}
{"id": "C153", "title": "With auto-correlations the reflection fit keeps gain amplitudes", "statement": "When auto-correlations are used the fit of reflections changes the phases of the gains only.", "quantifier": "all gains and data", "why_tests_cant": "All gains and data.", "anchors": ["PyFHD/calibration/calibration_utils.py:1203-1256"]}
{"id": "C154", "title": "Missing auto-correlations affect one tile only", "statement": "If the auto-correlations of a tile are missing, the reflections fitted to tiles with auto-correlations do not depend on it.", "quantifier": "all data, all tiles", "why_tests_cant": "NaNs spread through helper functions for particular positions of tiles.", "anchors": ["PyFHD/calibration/calibration_utils.py:1156-1200", "PyFHD/pyfhd_tools/pyfhd_utils.py:410-421"]}
{"id": "C155", "title": "Phases of a reflection are recovered", "statement": "If the phases of a tile minus those of the tiles it is compared with are those of a reflection at the mode found, of a whole number of turns, and no channel is flagged, the gains are turned by exactly these phases.", "quantifier": "all amplitudes, phases and whole modes below half the number of channels", "why_tests_cant": "All amplitudes, phases, modes and numbers of channels.", "anchors": ["PyFHD/calibration/calibration_utils.py:1203-1256"]}
{"id": "C156", "title": "A bandpass file becomes the bandpass gains", "statement": "With a calfits file that fits the observation, the bandpass gain of a polarisation, tile and channel is the complex value the file has for it.", "quantifier": "all files, numbers of polarisations, tiles and channels", "why_tests_cant": "Depends on how the axes of arrays of arbitrary sizes line up, and on the type of a value of the configuration.", "anchors": ["PyFHD/calibration/calibration_utils.py:322-689"]}
{"id": "C157", "title": "Files with x towards north have their polarisations exchanged", "statement": "For a calfits file whose x orientation is north or south, the first polarisation of the observation gets the values of the second of the file and vice versa.", "quantifier": "all files", "why_tests_cant": "All values; the exchange goes through views of one array.", "anchors": ["PyFHD/calibration/calibration_utils.py:440-450"]}
{"id": "C158", "title": "Bandpass files with other channels are adapted", "statement": "A file whose channels are a whole multiple or fraction of those of the observation is averaged or interpolated to them; a file whose channels start at another frequency is not used.", "quantifier": "all files and observations", "why_tests_cant": "All widths, starts and numbers of channels.", "anchors": ["PyFHD/calibration/calibration_utils.py:452-527"]}
{"id": "C159", "title": "Bandpass files with several times give the time of the observation", "statement": "From a file with several times, or with one time per pointing, the bandpass of the time or pointing of the observation is used.", "quantifier": "all files and observations", "why_tests_cant": "All times and pointings.", "anchors": ["PyFHD/calibration/calibration_utils.py:529-657", "PyFHD/data_setup/obs.py:333"]}
{"id": "C160", "title": "Bandpass files with a spectral window axis are used", "statement": "A file in the convention with an axis for one spectral window gives the same bandpass as the same file without this axis.", "quantifier": "all files", "why_tests_cant": "All values and sizes.", "anchors": ["PyFHD/calibration/calibration_utils.py:386-412"]}
{"id": "C161", "title": "Unsuitable bandpass files are skipped", "statement": "If the file is missing, holds delays, follows no known convention, or has too few polarisations or another number of antennas, the run goes on with the bandpass it computes without the option.", "quantifier": "all files and observations", "why_tests_cant": "All files.", "anchors": ["PyFHD/calibration/calibration_utils.py:322-689", "PyFHD/calibration/calibration_utils.py:724-733"]}
{"id": "C162", "title": "Bandpass and remainder multiply to the gains", "statement": "The bandpass read from a file times the remaining gains is the gains, for every polarisation, tile and channel.", "quantifier": "all gains and files", "why_tests_cant": "All values; zero values and the order of axes matter.", "anchors": ["PyFHD/calibration/calibration_utils.py:683-689"]}
{"id": "C163", "title": "Metadata without a metafits file", "statement": "An observation without a metafits file can be processed: its metadata come from the uvfits file; with a metafits file they are those of that file, and the target phase centre is the one given by the options if they are set.", "quantifier": "all observations, files and options", "why_tests_cant": "All observations; the tests always supply a metafits file.", "anchors": ["PyFHD/data_setup/obs.py:300-412"]}
{"id": "C164", "title": "A run stops when all tiles are flagged", "statement": "If the metafits file flags all tiles the run stops with an error (a simulation only warns); otherwise it goes on.", "quantifier": "all metafits files", "why_tests_cant": "All numbers and patterns of flags.", "anchors": ["PyFHD/data_setup/obs.py:321-327"]}
{"id": "C165", "title": "Each tile gets its own flag", "statement": "The name, height and flag of tile i are those of antenna i in the metafits file in whatever order its rows are, and a tile flagged for any polarisation is not used.", "quantifier": "all metafits files and orders of rows", "why_tests_cant": "All orders of rows and patterns of flags.", "anchors": ["PyFHD/data_setup/obs.py:315-321", "PyFHD/data_setup/obs.py:230-232"]}
{"id": "C166", "title": "Antenna numbers of the file are accepted", "statement": "The antenna numbers of the visibilities are those of the file, whether they start at zero or one; antennas found from baseline codes are the two ends of the baseline.", "quantifier": "all antenna numbers and codes", "why_tests_cant": "All sets of baselines.", "anchors": ["PyFHD/data_setup/obs.py:96-124"]}
{"id": "C167", "title": "Baseline limits are those of the data", "statement": "The largest baseline length is that of the longest visibility on the uv grid and the smallest that of the shortest not at the origin, or the option if it is larger.", "quantifier": "all baselines, frequencies, grids and options", "why_tests_cant": "All coordinates and grids.", "anchors": ["PyFHD/data_setup/obs.py:158-203"]}
{"id": "C168", "title": "Default baseline limits exclude nothing", "statement": "With default options no visibility that falls on the uv grid away from the origin is excluded by its length.", "quantifier": "all baselines, frequencies and grids", "why_tests_cant": "All coordinates and grids.", "anchors": ["PyFHD/data_setup/obs.py:158-203"]}
{"id": "C169", "title": "Changing the grid keeps field of view and baselines consistent", "statement": "After a change of the grid the width of the image in degrees is that given by the cell of the uv plane or the field of view, the reference pixel is its centre, no visibility on the grid is excluded by the new length limit, and changing to the present grid changes nothing.", "quantifier": "all grids, sizes and fields of view", "why_tests_cant": "All sizes, including odd ones, and all real cell sizes.", "anchors": ["PyFHD/data_setup/obs.py:532-543", "PyFHD/data_setup/obs.py:306-307", "PyFHD/data_setup/obs.py:456-459"]}
{"id": "C170", "title": "Missing entries of the antenna header get defaults", "statement": "Every entry of the layout exists: it is the value of the header of the antenna table or the default announced in the log.", "quantifier": "all headers", "why_tests_cant": "All subsets of missing entries.", "anchors": ["PyFHD/data_setup/uvfits.py:408-521"]}
{"id": "C171", "title": "Missing columns of the antenna table get defaults", "statement": "Names, numbers, coordinates and feeds of the antennas are those of the antenna table, or the defaults announced in the log for columns it lacks.", "quantifier": "all tables", "why_tests_cant": "All subsets of missing columns.", "anchors": ["PyFHD/data_setup/uvfits.py:523-639", "PyFHD/data_setup/uvfits.py:343-372"]}
{"id": "C172", "title": "Colours are proportional to values on the linear scale", "statement": "Without logarithmic scale, an image is drawn so that the lower end of the data range has the first colour, the upper end the last, and colours between are proportional to the value.", "quantifier": "all images and all data ranges", "why_tests_cant": "Holds or fails depending on the range of the data; any test has one range, and an image between 0 and 255 hides the fault.", "anchors": ["PyFHD/plotting/image.py:182-216", "PyFHD/plotting/image.py:548-575"]}
{"id": "C173", "title": "Missing pixels have a colour of their own", "statement": "If a value for missing pixels is given, missing pixels have the colour 0 and no other pixel has it, on any scale; giving the value for an image without missing pixels changes nothing.", "quantifier": "all images, values and scales", "why_tests_cant": "All images with and without missing pixels, for four scales.", "anchors": ["PyFHD/plotting/image.py:157-181", "PyFHD/plotting/image.py:361-371", "PyFHD/plotting/image.py:420-454", "PyFHD/plotting/image.py:523-525"]}
{"id": "C174", "title": "Drawing leaves the image as it was", "statement": "The array that is drawn is not changed for the caller.", "quantifier": "all images", "why_tests_cant": "Effect on an argument after the call, for all contents.", "anchors": ["PyFHD/plotting/image.py:157-163"]}
{"id": "C175", "title": "The logarithmic scale with cut is ordered", "statement": "With the profile log_cut, negative pixels have colour 0, zeros colour 1 and positive ones colours up to 255 that never fall and strictly rise between the ends of the scale; everything up to the lower end shares its colour, everything from the upper end has the last.", "quantifier": "all images and ranges, any logarithm", "why_tests_cant": "Order of all pairs of pixels of all images.", "anchors": ["PyFHD/plotting/image.py:299-457"]}
{"id": "C176", "title": "The numbers at the colour bar are the values that have the colour", "statement": "The number written at a tick of the colour bar is the value that is drawn in the colour of the tick.", "quantifier": "all images, ranges and scales", "why_tests_cant": "Relation of two outputs over all ranges.", "anchors": ["PyFHD/plotting/image.py:211-216", "PyFHD/plotting/image.py:530-545"]}
{"id": "C177", "title": "The symmetric logarithmic scale tells signs apart", "statement": "With the profile sym_log, negative and positive values have different colours, ordered by the value.", "quantifier": "all images", "why_tests_cant": "All pairs of values of all images.", "anchors": ["PyFHD/plotting/image.py:456-507"]}
{"id": "C178", "title": "The scale of absolute values covers the absolute values", "statement": "With the profile abs, colours are proportional to the absolute value, up to the largest one in the image.", "quantifier": "all images", "why_tests_cant": "All signs and ranges.", "anchors": ["PyFHD/plotting/image.py:508-521"]}
{"id": "C179", "title": "The figure is written to the file that was named", "statement": "A figure is written to the name given, with the extension of the format asked for; several formats give PNG; no name and no format write nothing.", "quantifier": "all names and formats", "why_tests_cant": "All names, with and without extension.", "anchors": ["PyFHD/plotting/image.py:101-140"]}
{"id": "C180", "title": "Logarithmic colours can be computed without missing pixels", "statement": "log_color_calc works if the options about missing pixels are left at their defaults.", "quantifier": "all images and options", "why_tests_cant": "All inputs fail, but the only caller gives the option.", "anchors": ["PyFHD/plotting/image.py:299-312", "PyFHD/plotting/image.py:548-575"]}
{"id": "C181", "title": "The number of converged channels", "statement": "n_converged of a polarisation is the number of channels in use with unflagged data within the limits whose last iteration converged: largest change of a gain within the threshold, or mean change no longer smaller than before and it or the one before within the threshold.", "quantifier": "all data and options for which the gains are numbers", "why_tests_cant": "Depends on the course of an iteration at every channel.", "anchors": ["PyFHD/calibration/vis_calibrate_subroutine.py:253", "PyFHD/calibration/vis_calibrate_subroutine.py:375-416", "PyFHD/calibration/vis_calibrate_subroutine.py:446"]}
{"id": "C182", "title": "Model visibilities of IDL files keep their place", "statement": "vis_model_transfer with model_file_type 'sav' returns an array of shape (n_pol, n_freq, n_baselines times times) whose entry [p, f, b] is the entry [b, f] of the array in the file of the p-th of obs['pol_names'], and the parameters of the params file; if one of the files is missing the run ends.", "quantifier": "all files, numbers of polarizations, channels and baselines, including one", "why_tests_cant": "The place of every entry has to be right for all shapes; one baseline with one channel is a different path of the code.", "anchors": ["PyFHD/source_modeling/vis_model_transfer.py:76-121"]}
{"id": "C183", "title": "A model that does not fit is refused", "statement": "vis_model_transfer ends the run or raises if the model has another number of channels than the observation, or if the files of the polarizations have different shapes; an unknown type of file ends the run.", "quantifier": "all pairs of observation and model", "why_tests_cant": "Tests use models made for the observation; which mismatches pass silently is a question about all shapes.", "anchors": ["PyFHD/source_modeling/vis_model_transfer.py:41-46", "PyFHD/source_modeling/vis_model_transfer.py:90-112", "PyFHD/source_modeling/vis_model_transfer.py:151-160"]}
{"id": "C184", "title": "IDL structures become dictionaries, to any depth", "statement": "recarray_to_dict of the record array that readsav gives for an IDL structure is a dictionary with the names in lower case in which structures are dictionaries again, numbers numbers, strings strings, arrays the same arrays and arrays of pointers to arrays of one shape and type one array with one more axis.", "quantifier": "all structures of any depth", "why_tests_cant": "Structures nest to any depth.", "anchors": ["PyFHD/io/pyfhd_io.py:575-640"]}
{"id": "C185", "title": "Arrays of structures keep all records", "statement": "recarray_to_dict keeps the values of all records of an array of structures.", "quantifier": "all arrays of structures of any length", "why_tests_cant": "readsav gives arrays of one record for single structures, so that tests see one record only.", "anchors": ["PyFHD/io/pyfhd_io.py:582-583"]}
{"id": "C186", "title": "Strings lose their padding", "statement": "recarray_to_dict removes the white space around strings, single ones and those in arrays.", "quantifier": "all strings", "why_tests_cant": "All strings.", "anchors": ["PyFHD/io/pyfhd_io.py:594-599"]}
{"id": "C187", "title": "Pointers to arrays become an array or a list, with the same numbers", "statement": "recarray_to_dict turns an array of pointers to arrays into an array with one more axis if all have the same shape and into a list of the arrays otherwise; the numbers stay the same.", "quantifier": "all arrays of pointers", "why_tests_cant": "All combinations of shapes and types.", "anchors": ["PyFHD/io/pyfhd_io.py:605-640"]}
{"id": "C188", "title": "create_psf returns the beam of the first baseline or fails", "statement": "For a .sav file create_psf returns the kernels of the first baseline with axes (polarization, frequency) and the groups with axes (polarization, frequency, baseline) and writes a copy <stem>.h5 beside the file; HDF5 files are loaded; any other file ends the run.", "quantifier": "all paths and all beams", "why_tests_cant": "All suffixes and all shapes of beams.", "anchors": ["PyFHD/beam_setup/beam.py:119-168"]}
{"id": "C189", "title": "Arrays of arrays of arrays are stacked only if they fit", "statement": "Where recarray_to_dict turns an object array of arrays into one array, row i of the result is the i-th array; arrays that differ in shape are not joined.", "quantifier": "all object arrays", "why_tests_cant": "The total number of rows may fit by accident.", "anchors": ["PyFHD/io/pyfhd_io.py:627-638"]}
{"id": "C190", "title": "Gridding is linear in the visibilities", "statement": "If the visibilities handed to visibility_grid are a combination with real coefficients of two others, everything else being equal, the returned uv image plane is the same combination of the two uv image planes, also after the mirror half has been filled in. (Subtracting a model before or after gridding is the same.)", "quantifier": "All visibilities, real coefficients, grids, kernels, interpolated or not, and any way the visibilities share bins and kernels.", "why_tests_cant": "The path taken depends on how many visibilities share a kernel; tests compare a few stored runs and never three runs with one another.", "anchors": ["PyFHD/gridding/visibility_grid.py:96-553"]}
{"id": "C191", "title": "Weights do not depend on the visibilities", "statement": "The weights plane, the variance plane, the uniform filter, n_vis and the counts per frequency returned by visibility_grid, as well as whether anything is gridded at all and which error is raised, do not change when the visibilities are replaced.", "quantifier": "All pairs of visibility arrays and all other inputs.", "why_tests_cant": "Needs two runs on all inputs; the code sums the weights in the same loop as the visibilities.", "anchors": ["PyFHD/gridding/visibility_grid.py:96-553"]}
{"id": "C192", "title": "Flagged visibilities have no influence on the gridded planes", "statement": "Two runs of visibility_grid whose visibilities agree wherever the weight is positive return the same, whatever the values of the flagged visibilities are (unless the model is asked to be filled).", "quantifier": "All weights, all visibilities that agree on unflagged samples, all grids.", "why_tests_cant": "The values of flagged data are arbitrary; tests fix one set.", "anchors": ["PyFHD/gridding/visibility_grid.py:96-491", "PyFHD/gridding/gridding_utils.py:228-284"]}
{"id": "C193", "title": "Updating the weights again changes nothing", "statement": "vis_weights_update applied to weights that it returned, with the same observation, returns the same weights, n_vis and flag counts.", "quantifier": "All observations, coordinates and weights for which the first update returns.", "why_tests_cant": "A statement about the composition of two runs on all inputs.", "anchors": ["PyFHD/pyfhd_tools/pyfhd_utils.py:1106-1211"]}
{"id": "C194", "title": "Gains applied one after the other multiply", "statement": "Calibrated visibilities that are calibrated again with a second set of gains are those calibrated once with the products of the gains, zero gains included; gains of one change nothing; and applying gains is linear in the visibilities.", "quantifier": "All gains, visibilities, tile numberings and up to four polarisations, without a cross-phase fit.", "why_tests_cant": "Relates several runs on all inputs; the handling of zero gains makes it non-obvious.", "anchors": ["PyFHD/calibration/calibration_utils.py:1354-1481"]}
{"id": "C195", "title": "The direction of a baseline does not matter to gridding", "statement": "Listing any of the baselines in the other direction, that is with u and v negated and the visibilities conjugated, changes nothing in what visibility_grid returns, for baselines with nonzero v and without mask_mirror_indices.", "quantifier": "All choices of reversed baselines, all grids with a positive pixel size, kernels, weights and visibilities; v nonzero for the used baselines.", "why_tests_cant": "There are exponentially many choices of directions; a wrong sign shows only for some of them.", "anchors": ["PyFHD/gridding/gridding_utils.py:182-264", "PyFHD/gridding/visibility_grid.py:207-213"]}
{"id": "C196", "title": "Shrinking an array in steps is shrinking it at once", "statement": "rebin of a float array to a shape that divides its own, and then again to a shape that divides that, equals rebin to the last shape at once.", "quantifier": "All float arrays and all factors of two such steps.", "why_tests_cant": "Relates three calls for all shapes.", "anchors": ["PyFHD/pyfhd_tools/pyfhd_utils.py:476-637"]}
{"id": "C197", "title": "The histogram of joined data is the sum of the histograms", "statement": "With given minimum and maximum, the counts of histogram for two arrays joined are the sums of the counts for each, over the same bins, and the order of the data does not matter to the counts.", "quantifier": "All arrays, positive bin sizes and limits.", "why_tests_cant": "Relates several calls for all data.", "anchors": ["PyFHD/pyfhd_tools/pyfhd_utils.py:224-376"]}
{"id": "C198", "title": "An option has the value given last, on the command line before the file, else its default", "statement": "After reading the command line and the configuration file, every option that holds a text, a number or a list of texts has the value of its last mention on the command line; if it is not mentioned there, the value of its last setting in the file; otherwise its default.", "quantifier": "All command lines, all configuration files, all options of the program of these kinds.", "why_tests_cant": "There are over a hundred options and unboundedly many command lines and files.", "anchors": ["PyFHD/pyfhd_tools/pyfhd_setup.py:15-1010", "PyFHD/pyfhd.py:92-94"]}
{"id": "C199", "title": "A switch is on exactly when it is asked for", "statement": "Every on/off option is on exactly when it is named on the command line or the configuration file sets it to true; every such option can be off.", "quantifier": "All command lines, files and on/off options.", "why_tests_cant": "A default cannot be seen from the runs that set the option; all files and command lines are meant.", "anchors": ["PyFHD/pyfhd_tools/pyfhd_setup.py:124-965", "PyFHD/pyfhd_tools/pyfhd_setup.py:729-734"]}
{"id": "C200", "title": "The command line overrides the configuration file", "statement": "What the file says about an option has no effect when the option is named on the command line, and every value of an option set in the file can be replaced on the command line.", "quantifier": "All files, command lines and options.", "why_tests_cant": "That no command line at all turns something off cannot be tested.", "anchors": ["PyFHD/pyfhd_tools/pyfhd_setup.py:27-38", "PyFHD/pyfhd_tools/pyfhd_setup.py:124-965"]}
{"id": "C201", "title": "Lists given as options arrive as they were given", "statement": "The tile names given with flag-tiles and ps-tile-flag-list, the times of time-cut and the tiles of tile-flag-list arrive in the configuration as a list of these names or numbers.", "quantifier": "All names and numbers, on the command line and in the file.", "why_tests_cant": "Tests set the configuration directly and do not go through the parser; all names are meant.", "anchors": ["PyFHD/pyfhd_tools/pyfhd_setup.py:482-489", "PyFHD/pyfhd_tools/pyfhd_setup.py:515-520", "PyFHD/pyfhd_tools/pyfhd_setup.py:868-872", "PyFHD/pyfhd_tools/pyfhd_setup.py:929-935"]}
{"id": "C202", "title": "Wrong options end the program and right ones do not", "statement": "The program goes on exactly when every argument names an option and has a value the option accepts, and every setting of the file that counts does too; otherwise it ends before doing anything.", "quantifier": "All command lines and files.", "why_tests_cant": "Unboundedly many wrong inputs.", "anchors": ["PyFHD/pyfhd_tools/pyfhd_setup.py:15-1010"]}
{"id": "C203", "title": "Every key of the configuration file that comes with the program can be set", "statement": "Each key listed in pyfhd.yaml is the name of an option, so that a user can give it a value.", "quantifier": "All keys of the file, all values, all other settings and command lines.", "why_tests_cant": "The keys in question have no value in the file, so that reading it works.", "anchors": ["pyfhd.yaml:1-155", "PyFHD/pyfhd_tools/pyfhd_setup.py:175-180", "PyFHD/pyfhd_tools/pyfhd_setup.py:220-225", "PyFHD/pyfhd_tools/pyfhd_setup.py:265-270"]}
{"id": "C204", "title": "Each run has a directory in the output path", "statement": "For descriptions without slashes, with the output path or its parent in place, the run gets a directory in the output path named after its description, or its time without description; the directory exists afterwards, the log file is in it if asked for, nothing else on disk changes, and a warning is given exactly when the directory was there before.", "quantifier": "All states of the disk, output paths, descriptions and times.", "why_tests_cant": "All states of the disk are meant, and that nothing else changes.", "anchors": ["PyFHD/pyfhd_tools/pyfhd_setup.py:1113-1269"]}
{"id": "C205", "title": "Different runs have different directories", "statement": "Runs with different descriptions, or without description at different times, have different directories, and a run that uses the directory of an earlier one is warned of it.", "quantifier": "All pairs of runs, with any runs between them.", "why_tests_cant": "Relates two runs and all pairs of descriptions.", "anchors": ["PyFHD/pyfhd_tools/pyfhd_setup.py:1215-1229", "PyFHD/pyfhd_tools/pyfhd_setup.py:1257-1261"]}
{"id": "C206", "title": "Log and configuration files of different runs have different names", "statement": "Two runs have the same name of log and configuration files only if they started in the same second and have the same description up to blanks and underscores, also when one has no description.", "quantifier": "All descriptions and all times of equal length.", "why_tests_cant": "All pairs of descriptions, one of which may contain a time.", "anchors": ["PyFHD/pyfhd_tools/pyfhd_setup.py:1151-1159", "PyFHD/pyfhd_tools/pyfhd_setup.py:1068-1070"]}
{"id": "C207", "title": "An output path that does not exist is created", "statement": "When the output path does not exist, it is created and the run goes on, with any description.", "quantifier": "All output paths, descriptions and states of the disk.", "why_tests_cant": "Depends on which parents exist.", "anchors": ["PyFHD/pyfhd_tools/pyfhd_setup.py:1207-1229"]}
{"id": "C208", "title": "Each message appears once where it was asked for", "statement": "Each message of a run appears once on the screen unless the run is silent, once in its own log file if it has one, and nowhere else; a silent run shows nothing.", "quantifier": "All settings, all numbers of runs in one process.", "why_tests_cant": "The effect of earlier runs in the process, any number of them.", "anchors": ["PyFHD/pyfhd_tools/pyfhd_setup.py:1195-1203", "PyFHD/pyfhd_tools/pyfhd_setup.py:1231-1261", "PyFHD/pyfhd.py:65-89"]}
{"id": "C209", "title": "The first message of the log names the inputs", "statement": "The first message of the log gives the observation, the configuration file and the commit as they are.", "quantifier": "All names.", "why_tests_cant": "All names are meant; the usual observation number is not affected.", "anchors": ["PyFHD/pyfhd_tools/pyfhd_setup.py:1160-1193"]}
{"id": "C210", "title": "The recorded commit is that of the program", "statement": "The commit written to the log and to the configuration file is that of the program, or it is said that it could not be found.", "quantifier": "All working directories and installations.", "why_tests_cant": "Tests run in the repository of the program.", "anchors": ["PyFHD/pyfhd_tools/pyfhd_setup.py:1137-1157", "PyFHD/pyfhd_tools/git_helper.py:6-34"]}
{"id": "C211", "title": "Reported durations are the durations", "statement": "The time reported for a step differs from the time taken by at most half a unit of the last digit; below a second it is in milliseconds, up to a minute in seconds, above in days, hours, minutes and seconds each in its range.", "quantifier": "All pairs of times.", "why_tests_cant": "All durations, in particular at the changes of unit and at carries.", "anchors": ["PyFHD/pyfhd.py:40-89"]}
{"id": "C212", "title": "The HEALPix resolution matches the image", "statement": "When no nside is given, the power of two is chosen that is the smallest for which the HEALPix pixels are at most as large as the pixels of the image.", "quantifier": "All sizes of image pixels.", "why_tests_cant": "A test has a few pixel sizes; the claim holds for all, in particular where the ratio is a power of two.", "anchors": ["PyFHD/healpix/healpix_utils.py:160-165", "PyFHD/healpix/export.py:92-95"]}
{"id": "C213", "title": "A list of HEALPix pixels is used with its positions", "statement": "With a list of pixels the maps contain exactly the pixels of the list that are above the horizon, in the order of the list, at the nside of the list, and the value of each pixel is the image interpolated at the position of that pixel.", "quantifier": "All lists, positions and altitudes.", "why_tests_cant": "A misalignment of numbers and positions after the cut gives plausible maps.", "anchors": ["PyFHD/healpix/healpix_utils.py:155-219", "PyFHD/healpix/healpix_utils.py:286-297"]}
{"id": "C214", "title": "Maps without a list of HEALPix pixels", "statement": "When no list of pixels is asked for, the pixels in the field of view that are not masked are used.", "quantifier": "All observations, masks and images.", "why_tests_cant": "All calls are meant; the shipped configuration asks for a list.", "anchors": ["PyFHD/healpix/healpix_utils.py:174-199"]}
{"id": "C215", "title": "The list of HEALPix pixels belongs to the observation", "statement": "When no list is named, the list used is the one nearest to the observation, whatever observations were processed before with the same options.", "quantifier": "All sequences of calls.", "why_tests_cant": "Tests make one call with each set of options.", "anchors": ["PyFHD/healpix/healpix_utils.py:98-159"]}
{"id": "C216", "title": "Recorded numbers of HEALPix pixels", "statement": "The observation records the number of pixels in the maps and how many of them lie where the image is masked.", "quantifier": "All lists, positions and masks.", "why_tests_cant": "The count depends on the positions of all pixels.", "anchors": ["PyFHD/healpix/healpix_utils.py:286-297"]}
{"id": "C217", "title": "Coordinates and times of the visibilities are those of the file", "statement": "uu, vv, ww, time and antennas of every visibility are the values of the group parameters of the file, where parameters with the same name are added as the uvfits format says.", "quantifier": "All files.", "why_tests_cant": "Test files have each name once.", "anchors": ["PyFHD/data_setup/uvfits.py:249-283"]}
{"id": "C218", "title": "The place of the telescope comes from the file or from the instrument", "statement": "Longitude, latitude and height are those of the header, or where it lacks them those of the instrument; an instrument that is not known is no obstacle if the header has them.", "quantifier": "All headers and instruments.", "why_tests_cant": "Tests use the known instrument.", "anchors": ["PyFHD/data_setup/uvfits.py:102-133"]}
{"id": "C219", "title": "Pointing and reference date of the file", "statement": "The pointing is OBSRA and OBSDEC, or RA and DEC if the former are missing; a header without them or without a date is refused. The recorded date is the reference date of the date parameter.", "quantifier": "All headers.", "why_tests_cant": "All combinations of missing cards are meant.", "anchors": ["PyFHD/data_setup/uvfits.py:79-101", "PyFHD/data_setup/uvfits.py:190-213"]}
{"id": "C220", "title": "Histograms of integers are exact in floating point", "statement": "For integer data and bins of width one, the histogram computed with floating point arithmetic is the one computed exactly: edges, counts and reverse indices are the same, as long as the limits and the square of the number of bins fit in the significand.", "quantifier": "All integer data, all limits within the bound, every rounding that keeps order and integers.", "why_tests_cant": "Rounding depends on every pair of limit and datum.", "anchors": ["PyFHD/pyfhd_tools/pyfhd_utils.py:15-294"]}
{"id": "C221", "title": "Histograms of floating point data stay in their arrays", "statement": "For floating point data and any positive bin width the histogram returns, every datum of the range is in exactly one bin, and the bins are in the order of the data and lie between their edges.", "quantifier": "All data, widths and limits representable in floating point.", "why_tests_cant": "The failures occur for particular pairs of width and range, and the compiled loops do not check indices.", "anchors": ["PyFHD/pyfhd_tools/pyfhd_utils.py:15-109", "PyFHD/pyfhd_tools/pyfhd_utils.py:186-221", "PyFHD/pyfhd_tools/pyfhd_utils.py:262-294"]}
{"id": "C222", "title": "The results asked for are saved", "statement": "After a run to the end each result that was asked for (observation, parameters, calibration, visibilities with gridded planes and model, weights) is in its own file named after the observation.", "quantifier": "All combinations of options and all behaviours of the stages.", "why_tests_cant": "The combinations of options and of resumed stages are too many.", "anchors": ["PyFHD/io/pyfhd_quickview.py:121-191", "PyFHD/pyfhd.py:353-404", "PyFHD/pyfhd.py:500-517", "PyFHD/pyfhd_tools/pyfhd_setup.py:760-788"]}
{"id": "C223", "title": "No exported image replaces another", "statement": "The images of different polarisations, products and filters are written to different files.", "quantifier": "All names of observations and polarisations, all pairs of filters.", "why_tests_cant": "Names can coincide only for particular pairs.", "anchors": ["PyFHD/io/pyfhd_quickview.py:383-420", "PyFHD/pyfhd_tools/pyfhd_setup.py:611-624"]}
{"id": "C224", "title": "The header of an image gives the positions the program uses", "statement": "Every pixel of an exported image has, by the matrix and the reference pixel of the header, the position in the plane of projection that the program itself assigns to it, each time images are exported.", "quantifier": "All sizes, pixel sizes, pixels and numbers of exports.", "why_tests_cant": "It relates two independent computations for every pixel.", "anchors": ["PyFHD/io/pyfhd_quickview.py:299-345", "PyFHD/data_setup/obs.py:456-460", "PyFHD/data_setup/obs.py:536-544", "PyFHD/pyfhd_tools/unit_conv.py:157-203"]}
{"id": "C225", "title": "The files of uv weights give the coordinates of the cells", "statement": "In the files of uv weights the header gives every cell its distance from the middle in wavelengths.", "quantifier": "All even sizes, cell sizes and cells.", "why_tests_cant": "It holds for every cell.", "anchors": ["PyFHD/io/pyfhd_quickview.py:355-377"]}
{"id": "C226", "title": "A model of visibilities belongs to the channels of the data", "statement": "Model visibilities read from a uvfits file are those of the file with their coordinates, times and antennas, and are used only if the channels of the file are those of the data.", "quantifier": "for all uvfits files, observations and numbers of polarisations", "why_tests_cant": "a test reads one file that matches; whether every file with other channels is refused depends on all headers", "anchors": ["PyFHD/source_modeling/vis_model_transfer.py:123-166", "PyFHD/data_setup/uvfits.py:50-90"]}
{"id": "C227", "title": "IDL gets directory, observation and number of polarisations", "statement": "When model visibilities are written for IDL, the converter is run with the directory, the observation and the number of polarisations as its three arguments, and the directory it is given is the one with the file.", "quantifier": "for all directories, observations and numbers of polarisations", "why_tests_cant": "needs IDL, and every form of path", "anchors": ["PyFHD/source_modeling/vis_model_transfer.py:505-522", "PyFHD/pyfhd_tools/pyfhd_utils.py:1086-1103"]}
{"id": "C228", "title": "Every polarisation is written for IDL under its own name", "statement": "Of up to four polarisations each is written under the name of the observation and of the polarisation, with baselines along the first and channels along the second axis, and no name twice; if the array has fewer than asked for, IDL is not run.", "quantifier": "for all arrays of visibilities and up to four polarisations", "why_tests_cant": "holds for arrays of any size", "anchors": ["PyFHD/source_modeling/vis_model_transfer.py:484-500"]}
{"id": "C229", "title": "Reading an IDL file leaves files as they are", "statement": "convert_sav_to_dict returns the content of the file, ends the program if there is none, and changes no file but a decompressed copy directly in the directory for temporary files.", "quantifier": "for all files, paths and directories", "why_tests_cant": "a test uses one path; the effect depends on where the file is", "anchors": ["PyFHD/io/pyfhd_io.py:641-693"]}
{"id": "C230", "title": "Degridding returns visibilities", "statement": "visibility_degrid returns the visibilities of a uv plane for observations, beams and parameters as gridding takes them.", "quantifier": "for all arguments", "why_tests_cant": "the tests of this function are not run; that no arguments work is a statement about all of them", "anchors": ["PyFHD/gridding/visibility_degrid.py:19-106", "PyFHD/gridding/gridding_utils.py:84-95"]}
{"id": "C231", "title": "A holographic map is converted to a sparse one", "statement": "holo_mapfn_convert returns the values of the map above the threshold in sparse form, and 0 if there are none.", "quantifier": "for all maps, sizes and thresholds", "why_tests_cant": "the test of this function is not run; that no map works is a statement about all of them", "anchors": ["PyFHD/gridding/gridding_utils.py:783-865"]}
{"id": "C232", "title": "A region does not depend on which of its pixels it is grown from", "statement": "region_grow called with any pixel of a region as the seed gives the same pixels as with the first seed. The region of several seeds consists of the regions of the single seeds. Widening the range of thresholds never removes a pixel.", "quantifier": "for all images, seeds, thresholds and connected-component labellings", "why_tests_cant": "relates two runs on every pair of seeds and on every pair of nested ranges; tests compare single results", "anchors": ["PyFHD/pyfhd_tools/pyfhd_utils.py:1432-1539"]}
{"id": "C233", "title": "The order of the visibilities does not matter to gridding", "statement": "Listing the samples of an observation in another order, or naming the channels and samples to be gridded in another order, changes none of the planes that visibility_grid returns, nor the number of visibilities.", "quantifier": "for all observations and all permutations of samples and channels", "why_tests_cant": "there are factorially many orders, and the existing comparisons use the order of one file", "anchors": ["PyFHD/gridding/visibility_grid.py:96-491", "PyFHD/gridding/gridding_utils.py:84-294"]}
{"id": "C234", "title": "Gridding is the adjoint of sampling the uv plane with the kernels", "statement": "The product of the gridded plane with an arbitrary uv plane equals the product of the visibilities with what the samples see of that plane through their kernels, divided by the number of visibilities.", "quantifier": "for all observations, kernels, visibilities and planes", "why_tests_cant": "an identity between two bilinear forms for every plane; tests compare the gridded plane of one file", "anchors": ["PyFHD/gridding/visibility_grid.py:96-491"]}
{"id": "C235", "title": "The dirty image compares the visibilities with those of a source at the pixel", "statement": "The value of the dirty image at a pixel is the product of the visibilities with those that a source of unit flux at that pixel has, divided by the numbers of visibilities and pixels; with the mirrored half filled in it is the real part of that. A source of flux S therefore appears at its pixel with S times a number that is not negative, and positive as soon as a sample sees it.", "quantifier": "for all observations, kernels, visibilities, pixels and fluxes", "why_tests_cant": "joins gridding and transform for all visibilities; tests cover the two with one data set each", "anchors": ["PyFHD/gridding/visibility_grid.py:14-573", "PyFHD/gridding/gridding_utils.py:373-526"]}
{"id": "C236", "title": "Gridding positions are accurate in floating point arithmetic", "statement": "With rounding after every operation, the pixel, the offset in the kernel table and the remainder computed for a visibility give its coordinate in the uv plane up to a few rounding errors, the offset is a valid index, and the first pixel of the footprint is exact.", "quantifier": "for all coordinates, frequencies, pixel sizes, resolutions and roundings", "why_tests_cant": "errors depend on single bits of single coordinates, of which no sample is representative", "anchors": ["PyFHD/gridding/gridding_utils.py:182-231"]}
{"id": "C237", "title": "Interpolation weights in floating point arithmetic", "statement": "With rounding after every operation, the four weights of the kernel interpolation are between 0 and 1 and their sum differs from 1 by at most about three rounding errors.", "quantifier": "for all remainders and roundings", "why_tests_cant": "the bound is about all floating point numbers between 0 and 1", "anchors": ["PyFHD/gridding/gridding_utils.py:216-227"]}
{"id": "C238", "title": "Calibration does not depend on how tiles are numbered", "statement": "If the tiles of an observation are given other numbers, in the baselines, the flags and the starting gains alike, the calibration of a polarization finds for every tile the same gains, convergences and numbers of iterations as before, and the same number of converged solutions, provided that the tile to which phases are referred stays the same.", "quantifier": "for all renumberings, observations whose flags of tiles and baselines agree, visibilities, models, starting gains and settings of the solver", "why_tests_cant": "a relation between two runs for every permutation of the tiles; tests run one numbering", "anchors": ["PyFHD/calibration/vis_calibrate_subroutine.py:9-451"]}
{"id": "C239", "title": "A channel is calibrated on its own", "statement": "The gains, convergences and numbers of iterations that calibration finds at a frequency channel depend only on the visibilities, the model and the starting gains of this channel and polarization: those of other channels can be anything.", "quantifier": "for all channels, polarizations, and all pairs of data sets that agree at the channel", "why_tests_cant": "compares two runs for arbitrary data at the other channels", "anchors": ["PyFHD/calibration/vis_calibrate_subroutine.py:9-451"]}
{"id": "C240", "title": "Rounding in gridded planes is bounded by the number of operations", "statement": "However the contributions to a pixel of the uv plane are added up in floating point numbers (in any order, with fused or separate multiplications, with visibilities of equal kernels combined first or not), the real and the imaginary part differ from the exact sum by at most (1 + 2^-53)^k - 1 times the sum of the sizes of the contributions, where k is the largest number of roundings any contribution goes through. A pixel that no visibility reaches is exactly zero.", "quantifier": "for all observations, kernels, visibilities, pixels and orders of summation", "why_tests_cant": "a bound over all inputs and all orders of summation; tests compare with a tolerance found by trial", "anchors": ["PyFHD/gridding/visibility_grid.py:352-464", "PyFHD/gridding/visibility_grid.py:545-553"]}
{"id": "C241", "title": "The symmetrised plane is exactly Hermitian in floating point numbers too", "statement": "After the mirrored half has been filled in, the value at the mirrored pixel is the exact conjugate of the value at a pixel, without any rounding error; where a plane is its own conjugate mirror image already, nothing changes.", "quantifier": "for all sizes, planes and pixels", "why_tests_cant": "exact equality for all floating point planes; tests use tolerances on one plane", "anchors": ["PyFHD/gridding/visibility_grid.py:545-553", "PyFHD/gridding/gridding_utils.py:57-81"]}
{"id": "C242", "title": "Positions and pixels belong to each other", "statement": "The pixel that radec_to_pixel gives to a position is given this position, with right ascension from 0 to below 360 and declination from -90 to 90 degrees, by pixel_to_radec, and the other way round; two positions with the same pixel are the same direction, and the phase centre is at the reference pixel.", "quantifier": "for all astrometry dictionaries of the program with slant parameters and pixel sizes (not zero) of any value, all positions and all pixels", "why_tests_cant": "over a continuum of positions, parameters and pixels; the projection has two directions for most pixels", "anchors": ["PyFHD/pyfhd_tools/unit_conv.py:101-203", "PyFHD/data_setup/obs.py:415-487"]}
{"id": "C243", "title": "The mask of the horizon is that of the array", "statement": "Exactly the positions below the horizon of the array have no pixel, and the mask of the horizon keeps exactly the pixels of an image at which a position above the horizon is seen.", "quantifier": "for all phase centres above the horizon, all zeniths, pixel sizes, positions and pixels", "why_tests_cant": "over all phase centres and zeniths; the observations used in tests lie on one side of the zenith", "anchors": ["PyFHD/io/pyfhd_quickview.py:193-206", "PyFHD/pyfhd_tools/unit_conv.py:101-203", "PyFHD/data_setup/obs.py:415-487"]}
{"id": "C244", "title": "Sources have the phases of their pixels", "statement": "For a baseline of a flat array, the phase of a source, w term included, is the product of the position of the baseline in pixels of the uv plane with the offset of the source's pixel from the centre of the image, in units of the size of the image: images of a flat array need no correction for w.", "quantifier": "for all phase centres above the horizon, zeniths, sizes and resolutions of the grid, baselines and positions", "why_tests_cant": "joins astrometry, grid and geometry of the array for all directions; no test compares them", "anchors": ["PyFHD/data_setup/obs.py:188-197", "PyFHD/data_setup/obs.py:415-487", "PyFHD/pyfhd_tools/unit_conv.py:101-153"]}
{"id": "C245", "title": "The direction of baselines does not matter to calibration", "statement": "vis_calibrate_subroutine returns the same gains, convergence, iterations and counts if baselines are taken in the other direction: tiles exchanged, uv coordinates negated, data and model conjugated (for all integrations of a baseline alike if they are averaged).", "quantifier": "all observations, gains, flags, options and sets of baselines taken in the other direction", "why_tests_cant": "data sets fix one convention for the direction of baselines", "anchors": ["PyFHD/calibration/vis_calibrate_subroutine.py:9-451"]}
{"id": "C246", "title": "Griddings of parts add up to the gridding of the whole", "statement": "Gridding a selection of channels and samples in two parts and adding what was gridded (the number of visibilities, and image, weights, variance each times the number of visibilities, and the uniform counts) gives the gridding of the whole selection.", "quantifier": "all observations, kernels and selections of channels and samples", "why_tests_cant": "the grouping of visibilities into boxes depends on all visibilities at a pixel, so that parts are grouped differently from the whole", "anchors": ["PyFHD/gridding/visibility_grid.py:1-460", "PyFHD/gridding/gridding_utils.py"]}
{"id": "C247", "title": "Calibrated data are the data without gains", "statement": "If the data are true visibilities with gains and the gains account for the data used in calibration exactly, then vis_calibration_apply with the gains returned by vis_calibrate_subroutine (started with them) returns the true visibilities, for all products of polarisations. (Arrays in which all tiles have equally many baselines at a channel are the subject of C278.)", "quantifier": "all observations, gains, true visibilities, reference tiles, channels and baselines between tiles in use", "why_tests_cant": "joins two routines whose phases refer to tiles in different ways; tests compare each with stored outputs", "anchors": ["PyFHD/calibration/vis_calibrate_subroutine.py:124-447", "PyFHD/calibration/calibration_utils.py:1354-1481"]}
{"id": "C248", "title": "HEALPix maps show the image they are made from", "statement": "At a position inside the image the HEALPix map has a value within the range of the image; an image that varies linearly with position is reproduced exactly, and if the brightness stays within e of a linear function around the position, the map is within 2 e of the brightness there.", "quantifier": "all image sizes, lists of positions, brightness distributions and positions inside the image", "why_tests_cant": "concerns all brightness distributions and positions, including positions on rows and columns of pixels", "anchors": ["PyFHD/healpix/healpix_utils.py:25-54", "PyFHD/healpix/healpix_utils.py:221-284"]}
{"id": "C249", "title": "Filtering a uv plane convolves the image with the image of the filter", "statement": "dirty_image_generate with a filter of the size of the plane that is the same for opposite baselines returns the image without the filter convolved with the image of the filter (the point-spread function), which is centred at the centre pixel.", "quantifier": "all square planes of even size, all such filters, with and without units of area, real or complex images", "why_tests_cant": "an identity between three runs for all planes and filters", "anchors": ["PyFHD/gridding/gridding_utils.py:297-495"]}
{"id": "C250", "title": "Images conserve flux and power", "statement": "The sum of all pixels of the image of a uv plane is the value of the plane at the zero baseline, the sum of the squared pixels is the mean of the squared cells, and no pixel of the images of two planes differs by more than the mean difference of the planes.", "quantifier": "all planes of all sizes", "why_tests_cant": "identities over all planes", "anchors": ["PyFHD/gridding/gridding_utils.py:473-476"]}
{"id": "C251", "title": "Splitting weights into even and odd time steps a second time changes nothing", "statement": "Applying split_vis_weights to the weights it returned gives the same weights and the same even and odd samples.", "quantifier": "all observations, weights (also negative or above one) and use flags of time steps", "why_tests_cant": "Quantifies over all weights and patterns of time steps; the noise estimate and the export split weights independently of each other.", "anchors": ["PyFHD/pyfhd_tools/pyfhd_utils.py: split_vis_weights"]}
{"id": "C252", "title": "The range of frequencies asked for is what is kept", "statement": "After vis_flag_basic the channels below flag_freq_start or above flag_freq_end have weight zero in all samples.", "quantifier": "all weights, visibilities, frequencies and configurations without named tiles", "why_tests_cant": "Depends on how two options interact for every pattern of weights and data.", "anchors": ["PyFHD/flagging/flagging.py: vis_flag_basic"]}
{"id": "C253", "title": "Basic flagging of already flagged weights changes nothing", "statement": "Applying vis_flag_basic to the weights it returned, with the same configuration and visibilities, returns the same weights, and uses no tile or channel that the first call did not.", "quantifier": "all weights, visibilities and configurations without named tiles", "why_tests_cant": "Quantifies over all weights; the rule that puts channels back depends on all samples of a channel.", "anchors": ["PyFHD/flagging/flagging.py: vis_flag_basic"]}
{"id": "C254", "title": "Altitude and azimuth and positions on the sky convert into each other", "statement": "radec_to_altaz followed by altaz_to_radec for the same place and time gives the direction it started from, and the other way round; angles are in [0, 360) and [-90, 90]. A source on the meridian has the altitude 90 degrees minus the difference of latitude and declination.", "quantifier": "all positions, places and times", "why_tests_cant": "All directions, including the poles and the zenith where angles are not unique.", "anchors": ["PyFHD/pyfhd_tools/unit_conv.py: altaz_to_radec, radec_to_altaz"]}
{"id": "C255", "title": "The zenith and the altitude in the metadata agree with each other", "statement": "The zenith that the metadata name is the direction at the local sidereal time and the latitude, and the altitude of the observation is 90 degrees minus angle_difference between the observation and that zenith.", "quantifier": "all places, times and pointings", "why_tests_cant": "Relates three functions over all positions.", "anchors": ["PyFHD/data_setup/obs.py: read_metafits", "PyFHD/pyfhd_tools/unit_conv.py: altaz_to_radec, radec_to_altaz", "PyFHD/pyfhd_tools/pyfhd_utils.py: angle_difference"]}
{"id": "C256", "title": "The horizon of the image is the horizon of the place", "statement": "With the astrometry of the metadata a position has no pixel exactly if radec_to_altaz finds it below the horizon of the same place at the time of the observation.", "quantifier": "all places, times, phase centres within 90 degrees of the zenith and positions", "why_tests_cant": "Relates the slant projection and the rotation of the sky for all positions.", "anchors": ["PyFHD/data_setup/obs.py: project_slant_orthographic", "PyFHD/pyfhd_tools/unit_conv.py: radec_to_altaz, radec_to_pixel"]}
{"id": "C257", "title": "The residual phases in the calibration plots are angles between raw and fitted gains", "statement": "The residual curve drawn for a tile has at each channel in use the difference of the amplitudes and an angle that turns the fitted gain into the direction of the raw gain, the smallest such angle; where the fit is exact it is zero.", "quantifier": "all complex gains and residuals, all selections of channels", "why_tests_cant": "All phases, including those next to plus or minus half a turn; plots are not compared in tests.", "anchors": ["PyFHD/plotting/calibration.py: plot_cals"]}
{"id": "C258", "title": "The axes of the calibration plots fit the tiles that are drawn", "statement": "Every point drawn is inside the limits of its axes; the limits come from tiles in use only; figures are made for every calibration.", "quantifier": "all gains, including some that are not numbers, and all use flags", "why_tests_cant": "Quantifies over all gains.", "anchors": ["PyFHD/plotting/calibration.py: plot_cals"]}
{"id": "C259", "title": "A channel without gain is left out of the calibration plots alone", "statement": "If the gain of a tile in a channel is not a number, the curves of this tile lack the point of this channel and no other.", "quantifier": "all gains and channels", "why_tests_cant": "Quantifies over all patterns of missing gains.", "anchors": ["PyFHD/plotting/calibration.py: plot_cals"]}
{"id": "C260", "title": "Panels of a figure", "statement": "If images are drawn as panels of one figure with `quick_image(start_multi_params={'nrow': r, 'ncol': c, 'index': k})`, panel k is in row (k-1)//c from the top and column (k-1)%c from the left of r times c equal panels that fill the figure without overlap, and the figure that is saved has all panels that were drawn.", "quantifier": "for all numbers of rows and columns, all points of the figure and all sequences of calls", "why_tests_cant": "The images are compared by eye, if at all; that each call makes and closes its own figure shows only in a sequence of calls, and a call that fails changes what the next one draws.", "anchors": ["PyFHD/plotting/image.py:219", "PyFHD/plotting/image.py:265-296"]}
{"id": "C261", "title": "Pixels at their coordinates", "statement": "If `quick_image` gets coordinates for the columns and the rows of an image, each pixel is drawn over its coordinates.", "quantifier": "for all images and all coordinates with equal steps", "why_tests_cant": "The output is a picture: a picture that is upside down passes every test that looks at shapes, files or colours.", "anchors": ["PyFHD/plotting/image.py:222-237"]}
{"id": "C262", "title": "Comparison with a tolerance", "statement": "`try_assert_all_close` reports that a test passed exactly if the arrays have the same shape, NaN at the same places and numbers that differ by at most the tolerance, which is absolute; it never stops the program.", "quantifier": "for all arrays and tolerances", "why_tests_cant": "It is the tool of the tests: what it lets through is not seen by them.", "anchors": ["PyFHD/pyfhd_tools/test_utils.py:156-192"]}
{"id": "C263", "title": "Conversion of files for tests", "statement": "`convert_to_h5` saves each variable of each of the files it is given, the last one where names are shared, and reports files it cannot convert.", "quantifier": "for all lists of files", "why_tests_cant": "The data of the tests were made with it; a file passed over gives a smaller file and no error.", "anchors": ["PyFHD/pyfhd_tools/test_utils.py:195-225"]}
{"id": "C264", "title": "Axes of visibilities from IDL", "statement": "`sav_file_vis_arr_swap_axes` returns at (polarisation, channel, baseline) the number at (baseline, channel) of the array of the polarisation, or raises if the arrays do not fit together.", "quantifier": "for all numbers of polarisations, channels and baselines", "why_tests_cant": "Arrays of a few shapes are tried; with broadcasting a wrong shape is filled up without a word.", "anchors": ["PyFHD/pyfhd_tools/test_utils.py:228-255"]}
{"id": "C265", "title": "Errors of amplitude do not grow in calibration", "statement": "If the data are those of some gains, and the starting gains of `vis_calibrate_subroutine` have their phases (up to a common phase of a channel) and amplitudes within a factor L of theirs, the gains returned are numbers, have these phases up to a common one, and amplitudes within the factor L. (Arrays in which all tiles have equally many baselines at a channel are the subject of C278.)", "quantifier": "for all true gains, models, numbers of tiles, baselines and channels, factors L, and every number of iterations, adaptive or not, whatever ends them", "why_tests_cant": "The iteration is an alternating fit with averages that depend on the history; a test sees the outcome for one set of data, not that no data and no number of iterations lead away.", "anchors": ["PyFHD/calibration/vis_calibrate_subroutine.py:254-432", "PyFHD/calibration/calibration_utils.py"]}
{"id": "C266", "title": "A common error of amplitude is removed", "statement": "If the data are those of some gains, and the starting gains of `vis_calibrate_subroutine` are these times a common factor at each channel, the gains returned are the true ones times a common factor, whose distance from 1 (as a ratio) is halved in each iteration after those that fit phases only; no channel is found to diverge, and all channels count as converged within a number of iterations that depends on the threshold only. (Arrays in which all tiles have equally many baselines at a channel are the subject of C278.)", "quantifier": "for all true gains, models, numbers of tiles, baselines, channels and iterations, and factors", "why_tests_cant": "Convergence is a statement about all iterations; the stopping rules compare several measures of earlier iterations.", "anchors": ["PyFHD/calibration/vis_calibrate_subroutine.py:254-432"]}
{"id": "C267", "title": "The observation has the tiles of the file", "statement": "The number of tiles of the observation that `create_obs` returns is the number of antennas in the antenna table of the file, and the tile numbers of all samples are places in this table.", "quantifier": "for all antenna tables and samples for which an observation is returned", "why_tests_cant": "The test observations have 128 tiles, the number written into the header reader as a constant; no test has another number.", "anchors": ["PyFHD/data_setup/uvfits.py:74", "PyFHD/data_setup/obs.py:96-154"]}
{"id": "C268", "title": "The parts of an observation fit together", "statement": "In every observation that `create_obs` returns, arrays with an entry per integration, channel, tile or sample have as many entries as the recorded numbers of these say, the recorded numbers of flagged integrations, tiles and channels are the numbers of zeros in the arrays of flags, the number of visibilities is that of samples times channels, and the shortest baseline used is not longer than the longest.", "quantifier": "for all headers, samples, options and metafits files for which an observation is returned", "why_tests_cant": "The arrays come from three files and five functions; a test compares one observation with a stored one.", "anchors": ["PyFHD/data_setup/obs.py:17-266", "PyFHD/data_setup/obs.py:300-412"]}
{"id": "C269", "title": "Samples are flagged with the integration they were taken in", "statement": "A sample belongs to the integration of the observation that has its time, and if that integration is out of use because of `time_cut`, the weights of the sample are zero in every polarisation and channel after the weights have been updated.", "quantifier": "for all lists of times, cuts, weights, and numbers of samples per integration", "why_tests_cant": "The offsets are computed from the times in one function and used for ranges of samples in another; tests have equal numbers of samples in each integration.", "anchors": ["PyFHD/data_setup/obs.py:61-78", "PyFHD/data_setup/obs.py:205-228", "PyFHD/pyfhd_tools/pyfhd_utils.py"]}
{"id": "C270", "title": "A tile flagged in the metafits file is flagged in the data", "statement": "The samples that the update of the weights flags because of their tiles are exactly those one of whose antennas is, in the antenna table of the file, at the place of an antenna flagged in the metafits file.", "quantifier": "for all antenna tables, metafits files, samples and weights", "why_tests_cant": "Two numberings of antennas meet, that of the UVFITS file and that of the metafits file; a test on one observation cannot tell whether they agree in others.", "anchors": ["PyFHD/data_setup/obs.py:139-154", "PyFHD/data_setup/obs.py:230-232", "PyFHD/data_setup/obs.py:300-330", "PyFHD/pyfhd_tools/pyfhd_utils.py"]}
{"id": "C271", "title": "Smooth gains with a common bandpass pass through the fits", "statement": "If the solution of a tile is a factor times a bandpass that most of the tiles averaged with it (all tiles in use, or those on cables of the same length) share times a phase that is a polynomial in the channel of the fitted degree, with steps of less than half a turn between channels in use, times the auto-correlation ratio if that is used, then bandpass and polynomial fits of `calibrate` return this solution at the channels in use, whatever the solutions of the other tiles are; data made with these gains from some visibilities are calibrated to these visibilities.", "quantifier": "for all bandpasses with a resistant mean, factors, polynomials, degrees, channels in use, and all minorities of other tiles", "why_tests_cant": "Tests compare fits with stored numbers; that two fits in sequence (robust means, unwrapping, least squares) lose nothing for a whole class of gains is a statement about all of them.", "anchors": ["PyFHD/calibration/calibrate.py:102-128", "PyFHD/calibration/calibration_utils.py:690-850", "PyFHD/calibration/calibration_utils.py:914-1026"]}
{"id": "C272", "title": "The bandpass alone keeps the gains of the tiles", "statement": "With `bandpass_calibrate` and without `calibration_polyfit`, the gains with which `calibrate` calibrates the data have the amplitudes and phases that were found for the tiles, up to the averaging of the bandpass.", "quantifier": "for all solutions", "why_tests_cant": "The tests of the bandpass look at bandpass and remainder, not at which of them is applied.", "anchors": ["PyFHD/calibration/calibrate.py:104-123", "PyFHD/calibration/calibration_utils.py:819-850"]}
{"id": "C273", "title": "Gains that account for the data survive the whole calibration", "statement": "If the starting gains account exactly for the data of the tiles in use, and are of the form that bandpass and polynomial fits can represent, then `calibrate` returns these gains, residual gains and statistics that are zero, and calibrated data that are the values from which the data were made at the channels in use. In particular, data that agree with the model up to `cal_gain_init` are calibrated to the model. (Arrays in which all tiles have equally many baselines at a channel are the subject of C278.)", "quantifier": "for all observations with one or two polarisations, with and without flagging, cable groups and a reference tile; without gain jump, reflections and auto-correlation starts", "why_tests_cant": "Exactness concerns the iteration, the flagging, two fits and the application one after another, for every shape and every such gain.", "anchors": ["PyFHD/calibration/calibrate.py:62-187", "PyFHD/calibration/vis_calibrate_subroutine.py:15-490", "PyFHD/calibration/calibration_utils.py:690-850", "PyFHD/calibration/calibration_utils.py:914-1026", "PyFHD/calibration/calibration_utils.py:1354-1481"]}
{"id": "C274", "title": "Data not used for calibration have no influence on the result of calibrate", "statement": "Changing data or model values that have no positive weight, that lie on baselines outside the calibration cut, or at channels not used, changes neither the gains, residual gains, channels and tiles in use nor the statistics that `calibrate` returns, nor the calibrated values of the data that were not changed.", "quantifier": "for all observations, options and changes of unused values", "why_tests_cant": "It relates pairs of whole runs of `calibrate` for every change of the unused values.", "anchors": ["PyFHD/calibration/calibrate.py:62-187", "PyFHD/calibration/vis_calibrate_subroutine.py:15-490"]}
{"id": "C275", "title": "The order of the samples has no influence on the result of calibrate", "statement": "Without time averaging, giving baselines and times in another order (data, model, weights, tiles and coordinates reordered together) changes nothing in the gains, residual gains, flags and statistics of `calibrate`, and reorders the calibrated data in the same way.", "quantifier": "for all observations, options and permutations of the samples", "why_tests_cant": "It relates pairs of whole runs for every permutation.", "anchors": ["PyFHD/calibration/calibrate.py:62-187", "PyFHD/calibration/vis_calibrate_subroutine.py:15-490"]}
{"id": "C276", "title": "Units of data and model have no influence on the gains of calibrate", "statement": "Multiplying data and model by a common non-zero factor (that may depend on polarisation and channel) changes nothing in the gains, residual gains, flags and statistics that `calibrate` returns, and multiplies the calibrated data by this factor.", "quantifier": "for all observations, options and non-zero factors", "why_tests_cant": "It relates pairs of whole runs for all factors.", "anchors": ["PyFHD/calibration/calibrate.py:62-187", "PyFHD/calibration/vis_calibrate_subroutine.py:15-490"]}
{"id": "C277", "title": "The direction of baselines has no influence on the gains of calibrate", "statement": "Taking baselines in the other direction (tiles exchanged, coordinates negated, data and model conjugated) changes nothing in the gains, residual gains, flags and statistics of `calibrate`, and conjugates the calibrated data of these baselines.", "quantifier": "for all observations with one or two polarisations, options and sets of samples that are turned round (with time averaging: of baselines)", "why_tests_cant": "It relates pairs of whole runs for every set of baselines.", "anchors": ["PyFHD/calibration/calibrate.py:62-187", "PyFHD/calibration/vis_calibrate_subroutine.py:15-490"]}
{"id": "C278", "title": "Arrays in which all tiles have equally many baselines can be calibrated", "statement": "vis_calibrate_subroutine calibrates observations whatever the numbers of usable baselines of the tiles; in particular when at some channel every tile has the same number of them (nothing flagged and no baseline cut).", "quantifier": "all arrays, flags, numbers of baselines and channels", "why_tests_cant": "The failure depends on the numbers of all tiles together at one channel, for every size of the array; the test data have a few flagged baselines.", "anchors": ["PyFHD/calibration/vis_calibrate_subroutine.py:281-330"]}
{"id": "C279", "title": "A tile for which no gain can be found does not stop the calibration", "statement": "The solver sets the gain of a tile to zero at channels where fewer than five baselines with data end at the tile. Such a tile should end up without a usable gain, and the other tiles should be calibrated. In fact, if the gain of a tile is zero at every channel in use, the polynomial fits (default degree of the amplitudes, or a higher one) end with an IndexError, and so does the calibration as a whole, even if the flagging removes the tile before. Fits whose leading coefficients are not zero raise nothing and agree with the fits described in C88.", "quantifier": "for all observations, gains and fit options with amplitude degree other than one, every tile with fewer than five baselines with data at all channels in use", "why_tests_cant": "Needs data in which one tile has almost no unflagged baselines; then a library routine drops leading zero coefficients, which no test of the fits with ordinary gains reaches.", "anchors": ["PyFHD/calibration/calibration_utils.py:943-1026", "PyFHD/calibration/calibrate.py:88-130"]}
{"id": "C280", "title": "A tile with too few baselines at a channel gets gain zero and has no influence on the others", "statement": "At a channel where fewer than five baselines with data end at a tile, its gain after the solver is zero. The data and model values of its baselines at such channels influence no gain of any tile, nor the convergence and iteration numbers. If the starting gains of the other tiles account exactly for the data between them, these gains are returned for them, up to the common phase that makes the gain of the reference tile positive.", "quantifier": "for all visibilities, models, weights, tile pairs, numbers of channels, tiles, times and iterations", "why_tests_cant": "That no value of certain baselines has any influence is a statement about all values on them and all iterations.", "anchors": ["PyFHD/calibration/vis_calibrate_subroutine.py:281-336"]}
{"id": "C281", "title": "With exact gains nothing is left in the residual images", "statement": "If the data are the model multiplied by gains that the calibration can represent, and the calibration starts from them, then from the calibrated data to the exported images nothing of the difference between data and model survives: after the weights are updated, the gridded plane of the calibrated data is the gridded plane of the model, for every polarisation and whatever values flagged samples hold, and every pixel of every residual image is zero.", "quantifier": "for all observations, models, gains, tile pairs, weights, kernels, baseline positions, image sizes, image filters and beams", "why_tests_cant": "Needs the whole way from calibration through flagging, gridding and imaging for all data and gains; flagged samples may hold anything, and must not reach the images.", "anchors": ["PyFHD/pyfhd.py:182-420", "PyFHD/calibration/calibrate.py:25-371", "PyFHD/flagging/flagging.py:13-250", "PyFHD/gridding/visibility_grid.py:14-573", "PyFHD/io/pyfhd_quickview.py:14-427"]}
{"id": "C282", "title": "Exported HEALPix cubes show the images of their channels", "statement": "In the file that the HEALPix export writes for a polarisation, map i of the weights, variance, model and data cubes is the corresponding image of the i-th group of n_avg channels, interpolated at the HEALPix pixels, and map i of the beam cube is the interpolated squared beam times the number of visibilities gridded in those channels.", "quantifier": "for all images, beams, visibility counts, numbers of channels and averages, and all HEALPix pixels at any position", "why_tests_cant": "Relates every value of five cubes to the images for all sizes and positions.", "anchors": ["PyFHD/healpix/export.py:140-220", "PyFHD/healpix/healpix_utils.py:23-54"]}
{"id": "C283", "title": "The export writes the residual", "statement": "The HEALPix export is documented to save model, dirty, residual, weights and variance cubes. The residual cube, or what it would hold, can be found in the files. In fact no file holds a residual cube, because the mark for residual data is never set; but the difference of the dirty and the model cube is the cube of the difference of the images.", "quantifier": "for all observations and options of the export", "why_tests_cant": "That no run writes a cube of this name, and that subtraction commutes with interpolation for all images, is not a matter of samples.", "anchors": ["PyFHD/healpix/export.py:140-215", "PyFHD/data_setup/obs.py:243", "PyFHD/pyfhd_tools/pyfhd_setup.py:740-748"]}
{"id": "C284", "title": "The numbers of the tiles have no influence on the calibration", "statement": "If the tiles of an observation are given other numbers, consistently in baselines, flags, starting gains, cables and auto-correlations, `calibrate` returns the same calibrated data and the same statistics; each tile gets, under its new number, the gain and the gain residual it had before, and the same tiles are left in use. This holds as long as the tile the phases refer to is the same one.", "quantifier": "for all data, options of the solver and of the fits, and permutations of the tile numbers", "why_tests_cant": "There are as many renumberings as permutations of the tiles, and the claim is about all data and options.", "anchors": ["PyFHD/calibration/calibrate.py:22-187", "PyFHD/calibration/vis_calibrate_subroutine.py:9-451", "PyFHD/calibration/calibration_utils.py:738-1026"]}
{"id": "C285", "title": "Calibration flagging, starting gains and fits from auto-correlations treat tiles alike", "statement": "Which tiles and channels are flagged by their gains does not depend on how the tiles are numbered: under other numbers the same tiles and channels are flagged. The same holds for the starting gains taken from auto-correlations and for the gains fitted to them, and so for the whole of `calibrate` with these options.", "quantifier": "for all gains, flags, options and permutations of the tile numbers", "why_tests_cant": "A test flags tiles of a few arrays; that the loop of tests has no preference for places in the arrays is about all of them.", "anchors": ["PyFHD/calibration/calibration_utils.py:99-319", "PyFHD/calibration/calibration_utils.py:1259-1351", "PyFHD/calibration/calibrate.py:70-142"]}
{"id": "C286", "title": "Lists in a saved dictionary load back as arrays with the same entries", "statement": "A list saved in a dictionary loads back as an array with the same entries in the same order: numbers as the same numbers, None as NaN, strings as the same strings, arrays of one length as the rows of an array with two axes, arrays of different lengths as the same arrays.", "quantifier": "for all lists of numbers, strings and arrays, of any length", "why_tests_cant": "Types are mixed and lengths differ in unboundedly many ways; the errors appear only for combinations that the test data does not have.", "anchors": ["PyFHD/io/pyfhd_io.py:251-280", "PyFHD/io/pyfhd_io.py:444-455"]}
{"id": "C287", "title": "The fit of cable reflections does not depend on the numbers of the tiles", "statement": "Under other numbers of the tiles, the fit of cable reflections gives every tile the same gains.", "quantifier": "for all gains, cables, auto-correlations and permutations of the tiles", "why_tests_cant": "A test has one order of tiles; the dependence on the neighbour appears only where a tile has no auto-correlations.", "anchors": ["PyFHD/calibration/calibration_utils.py:1132-1256", "PyFHD/pyfhd_tools/pyfhd_utils.py:410-421"]}
{"id": "C288", "title": "The fit of cable reflections changes only the gains of the fitted tiles", "statement": "`calibrate` with the fit of cable reflections uses the same tiles and channels as without it. The gains of tiles that are flagged in the file of cables, have another cable than the one asked for or are not in use are the same as without the fit, and so are the calibrated data of their baselines. The gain of a fitted tile is the gain without the fit times one plus the reflection that, of all reflections near the nominal mode, describes the ratio of solved to fitted gains best. If the fit without reflections leaves no residual, reflections change nothing. With ratios of auto-correlations, only phases change.", "quantifier": "for all data, options, tables of cables and tiles", "why_tests_cant": "A test compares one set of gains; the claim compares two whole calibrations for all data and quantifies over all reflections that could have been fitted.", "anchors": ["PyFHD/calibration/calibrate.py:22-187", "PyFHD/calibration/calibration_utils.py:1027-1256"]}
{"id": "C289", "title": "Exact gains and tile numbers in a calibration with cable reflections", "statement": "If the data are exactly the model multiplied by gains that the fits can represent, `calibrate` with the fit of cable reflections returns these gains without residual and recovers the true visibilities, whatever the table of cables says. Giving the tiles other numbers, also in the table of cables, changes neither the calibrated data nor the statistics, and each tile keeps its gain under its new number.", "quantifier": "for all data, gains, options, tables of cables and permutations of the tiles", "why_tests_cant": "Exactness for all tables of cables and invariance under all permutations cannot be sampled.", "anchors": ["PyFHD/calibration/calibrate.py:22-187", "PyFHD/calibration/calibration_utils.py:893-1256"]}
{"id": "C290", "title": "With the fit of cable reflections, calibrate still depends only on the data used, not on order, units or direction", "statement": "With the fit of cable reflections, `calibrate` returns the same gains, residuals, flags and statistics if data not used for calibration change, if the samples come in another order (without averaging over time), if data and model are given in other units, and if baselines are taken in the other direction; the calibrated data change only as the data do.", "quantifier": "for all data, options and tables of cables, all changes of unused data, orders, units and directions", "why_tests_cant": "Each relation is between two calls for all data and all such changes.", "anchors": ["PyFHD/calibration/calibrate.py:22-187", "PyFHD/calibration/calibration_utils.py:893-1256", "PyFHD/calibration/vis_calibrate_subroutine.py:9-451"]}
{"id": "C291", "title": "Flagged samples have no weight in exported cubes", "statement": "In the HEALPix export, samples of channels, tiles and time steps that are not in use, of the tiles listed in ps_tile_flag_list, longer than the observation or the grid of the export allows, or with a footprint not inside the grid of the export, have no weight in either half; neither have their partners in the other half. A pair of unflagged samples is weighted equally, by the smaller of its weights (at most 1). Neither the exported planes nor the exported noise depend on the visibilities of flagged samples.", "quantifier": "all observations, uv coordinates, weights, visibilities and sizes of the export", "why_tests_cant": "The flags act through three functions in a row and the partner of a sample is found by counting; a test sees one pattern of flags.", "anchors": ["PyFHD/healpix/export.py: healpix_snapshot_cube_generate", "PyFHD/pyfhd_tools/pyfhd_utils.py: vis_weights_update, split_vis_weights, vis_noise_calc", "PyFHD/flagging/flagging.py: vis_flag_tiles", "PyFHD/data_setup/obs.py: update_obs"]}
{"id": "C292", "title": "The even and odd cubes hold equally many visibilities", "statement": "In every channel and polarisation the HEALPix export grids as many visibilities for the even half as for the odd half.", "quantifier": "all observations, uv coordinates, weights and sizes of the export", "why_tests_cant": "Flagging for the export and gridding test the length of a baseline and its place on the grid separately; they differ only at boundaries.", "anchors": ["PyFHD/healpix/export.py: healpix_snapshot_cube_generate", "PyFHD/gridding/gridding_utils.py: baseline_grid_locations", "PyFHD/pyfhd_tools/pyfhd_utils.py: vis_weights_update"]}
{"id": "C293", "title": "Loading the beam lazily gives the same results as loading it into memory", "statement": "Running with lazy_load_beam gives the same results as running with the whole beam in memory: every number and every array that is read from the beam file has the same value either way, so the option changes only the use of memory. What holds: arrays of numbers are the same, and so are the weights if the size of the kernel is stored as an array with one entry. What does not hold: in every beam file that PyFHD itself writes (when it converts an IDL save file) the numbers are stored without axes, lazily they are read as the first entry along an axis, and vis_weights_update, the first function to use the beam, raises ValueError whatever the data are.", "quantifier": "for all dictionaries that were saved as a beam file, all keys, all observations, coordinates and weights", "why_tests_cant": "The tests load the beam fixtures from files in which the numbers have an axis, or into memory; the claim is about all files, and about the composition of writing a beam with one function and reading it with others.", "anchors": ["PyFHD/beam_setup/beam.py:150-162", "PyFHD/pyfhd_tools/pyfhd_utils.py:1141-1143", "PyFHD/beam_setup/beam_utils.py:116-126", "PyFHD/gridding/gridding_utils.py:144-148", "PyFHD/gridding/visibility_grid.py:145-151", "PyFHD/io/pyfhd_io.py:165-298", "PyFHD/io/pyfhd_io.py:516-540"]}
{"id": "C294", "title": "Flagged samples change nothing in a whole run", "statement": "For a run from the visibilities to the exported images (one or two polarisations, with or without the fit of cable reflections, without the options that flag on the data), the values of data and model at samples that are flagged in the input weights, or that must be flagged (channel, tile or integration not in use, baseline out of range or off the grid), have no influence on any result: gains, flags, statistics, weights, uv planes and images are the same.", "quantifier": "all observations, data, models, weights, options and all changes of flagged samples", "why_tests_cant": "the claim holds for every value at every flagged sample and goes through every stage of the pipeline", "anchors": ["PyFHD/pyfhd.py:238-513", "PyFHD/calibration/calibrate.py", "PyFHD/gridding/visibility_grid.py", "PyFHD/io/pyfhd_quickview.py"]}
{"id": "C295", "title": "Units of flux go through a whole run", "statement": "If data and model are multiplied by the same real factor that is not zero, a run finds the same gains, flags, statistics and weights; the uv planes of data and model and every pixel of the dirty, model and residual images are multiplied by the factor; the images of the beam and the weights are the same.", "quantifier": "all observations, data, models, options and all real factors other than zero", "why_tests_cant": "ranges over all factors and inputs, and relates two runs of the whole pipeline", "anchors": ["PyFHD/pyfhd.py:238-513", "PyFHD/calibration/calibrate.py", "PyFHD/gridding/visibility_grid.py", "PyFHD/io/pyfhd_quickview.py"]}
{"id": "C296", "title": "A perfectly calibratable observation gives empty residual images", "statement": "If gains exist that explain the data exactly and that the fits of bandpass and polynomials can represent, and the data at the samples in use are the model with these gains applied, then a run returns these gains, with or without the fit of cable reflections and whatever the flagged samples hold, the uv plane of the data equals that of the model, and every pixel of every exported residual image is zero.", "quantifier": "all observations, models, gains, options and contents of flagged samples", "why_tests_cant": "ranges over all models and gains and composes every stage of the pipeline", "anchors": ["PyFHD/pyfhd.py:238-513", "PyFHD/calibration/calibrate.py", "PyFHD/gridding/visibility_grid.py", "PyFHD/io/pyfhd_quickview.py"]}
{"id": "C297", "title": "The numbers of the tiles do not change the images of a run", "statement": "If the tiles get other numbers everywhere (baselines, flags, starting gains, cables, auto-correlations), a run gives every tile the gain it had before, and the statistics, weights, uv planes and exported images are the same, provided that the tile the phases refer to stays the same.", "quantifier": "all observations, data, models, options and all permutations of the tile numbers", "why_tests_cant": "ranges over all permutations and inputs, and relates two runs of the whole pipeline", "anchors": ["PyFHD/pyfhd.py:238-513", "PyFHD/calibration/calibrate.py", "PyFHD/pyfhd_tools/pyfhd_utils.py:1106-1211"]}
{"id": "C298", "title": "The order in which baselines are listed has no influence on a run", "statement": "If the samples of an integration are listed in another order (data, model, weights, tiles and positions alike), a run gives the same gains, residual statistics, flags, planes and exported images; the calibrated data and the updated weights are those of before in the other order.", "quantifier": "for every observation that fits together, every permutation of the samples within integrations, with or without the fit of cable reflections, without averaging over time, one kernel for all channels, and every tile in some baseline", "why_tests_cant": "A test compares one or two orders of one observation. The claim is about all orders and passes through two updates of the weights, the calibration, the gridding and the images.", "anchors": ["PyFHD/pyfhd.py:238-513", "PyFHD/pyfhd_tools/pyfhd_utils.py:1106-1211", "PyFHD/calibration/calibrate.py", "PyFHD/gridding/visibility_grid.py"]}
{"id": "C299", "title": "Test data come in the order they are asked for", "statement": "get_data, get_data_items, get_data_sav and get_savs return the contents of the named files in the order of the names, a single file without a list; each file is read by the reader of its extension from the given directory or, for an absolute name, from there. For .sav files get_savs and get_data agree, and get_data_sav and get_data_items return the value of the first key whatever the other keys are. get_data_items also works for .sav files.", "quantifier": "all directories, names, readers and contents", "why_tests_cant": "these functions feed the tests themselves, and the claim ranges over all lists of names", "anchors": ["PyFHD/pyfhd_tools/test_utils.py:12-153"]}
{"id": "C300", "title": "The printed types show the whole dictionary", "statement": "print_types prints a line for every entry at every depth, in order, for every dictionary, and the lines tell which dictionary an entry is in.", "quantifier": "all dictionaries of any depth", "why_tests_cant": "ranges over all nested dictionaries", "anchors": ["PyFHD/pyfhd_tools/test_utils.py:258-295"]}
{"id": "C301", "title": "A perfectly calibratable observation exports data cubes that equal the model cubes", "statement": "If gains exist that explain the data exactly and that the fits of bandpass and polynomials can represent, and the data at the samples in use are the model with these gains applied, then in the HEALPix export after a run, for the even and the odd samples, every polarisation and every range of channels, the uv plane of the data equals that of the model, and cubes made from equal images are equal in the exported file. With a beam that is the same within every range of channels the export succeeds and makes one set of planes for each half, polarisation and range.", "quantifier": "all observations with at least two time steps, models, gains, options, grids of the export and contents of flagged samples", "why_tests_cant": "ranges over all models and gains and composes the flagging, the calibration, the pairing of even and odd samples and the gridding of the export on a grid of its own", "anchors": ["PyFHD/pyfhd.py:238-531", "PyFHD/healpix/export.py:98-220", "PyFHD/healpix/healpix_utils.py:433-645"]}
{"id": "C302", "title": "Flagged samples change nothing in the exported HEALPix cubes of a run", "statement": "The values of data and model at samples that are flagged in the input weights, or that must be flagged, have no influence on the uv planes, the numbers of visibilities and the counts per channel of the HEALPix export after a run, for both halves and all polarisations.", "quantifier": "all observations with at least two time steps, data, models, weights, options, grids of the export and all changes of flagged samples", "why_tests_cant": "the claim holds for every value at every flagged sample and goes through every stage up to the exported cubes", "anchors": ["PyFHD/pyfhd.py:238-531", "PyFHD/healpix/export.py:98-169", "PyFHD/healpix/healpix_utils.py:433-606"]}
{"id": "C303", "title": "The exported HEALPix planes are proportional to the unit of flux", "statement": "If data and model are given in other units of flux (multiplied by a real factor that is not zero), then in the HEALPix export after a run, for both halves, all polarisations and all ranges of channels, the uv planes of data and model are multiplied by this factor; the planes of weights and variances and the numbers of visibilities are the same.", "quantifier": "all observations with at least two time steps, data, models, options, grids of the export and factors", "why_tests_cant": "ranges over all factors and inputs and composes the flagging, the calibration and the export", "anchors": ["PyFHD/pyfhd.py:238-531", "PyFHD/healpix/export.py:98-169", "PyFHD/healpix/healpix_utils.py:433-606"]}
{"id": "C304", "title": "The numbers of the tiles have no influence on the exported HEALPix planes", "statement": "If the tiles are numbered in another way (in the baselines, the flags, the calibration and the table of cables alike), and the tile the phases refer to stays the same, then the HEALPix export after a run gives the same planes and counts for both halves, all polarisations and all ranges of channels.", "quantifier": "all observations with at least two time steps and all permutations of the tiles that keep the tile of reference", "why_tests_cant": "a test compares one or two numberings; the claim is about all and composes the flagging, the calibration and the export", "anchors": ["PyFHD/pyfhd.py:238-531", "PyFHD/healpix/export.py:98-169"]}
{"id": "C305", "title": "Every exported set of planes holds the calibrated data of its own half and polarisation", "statement": "The HEALPix export after a run makes one set of planes for every polarisation from the even samples and then one for every polarisation from the odd samples. The halves have equally many samples and none in common. In each range of channels the plane of the data is the sum of the calibrated data of the samples of the half that can be gridded (each with its kernel), the plane of the model the sum of the model, and the number of visibilities is the number of these samples over all channels still in use after the calibration.", "quantifier": "all observations with at least two time steps, data, models, options and grids of the export with a beam that is constant within the ranges of channels", "why_tests_cant": "a test compares the numbers of one observation, whose halves and polarisations are nearly alike; the claim is about which samples enter which set for all observations", "anchors": ["PyFHD/pyfhd.py:519-531", "PyFHD/healpix/export.py:98-169", "PyFHD/healpix/healpix_utils.py:433-606"]}
{"id": "C306", "title": "The direction in which baselines are listed does not change the images of a run", "statement": "If some samples are taken in the other direction (the two tiles exchanged, u, v, w negated, data and model conjugated), a run from the flagging over the calibration to the images gives the same gains, weights and images; the calibrated visibilities are the same, conjugated for the turned samples.", "quantifier": "all observations with one or two polarisations and all choices of turned samples whose v coordinate is not zero (whole baselines if calibration averages over time), mask_mirror_indices off", "why_tests_cant": "a test compares one or two choices; the claim is about all and composes flagging, calibration, gridding and imaging", "anchors": ["PyFHD/pyfhd.py:238-531", "PyFHD/calibration/vis_calibrate_subroutine.py:vis_calibrate_subroutine", "PyFHD/gridding/visibility_grid.py:visibility_grid"]}
{"id": "C307", "title": "The direction in which baselines are listed does not change the exported HEALPix planes", "statement": "If some samples are taken in the other direction (the two tiles exchanged, u, v, w negated, data and model conjugated), the HEALPix export after the run gives the same planes and counts for both halves, all polarisations and all ranges of channels.", "quantifier": "all observations with at least two time steps and one or two polarisations, all choices of turned samples whose v coordinate is not zero (whole baselines if calibration averages over time), mask_mirror_indices off", "why_tests_cant": "a test compares one or two choices; the claim is about all and composes flagging, calibration and the export", "anchors": ["PyFHD/pyfhd.py:238-531", "PyFHD/healpix/export.py:98-169"]}
{"id": "C308", "title": "A run writes one HEALPix file per half and polarisation, with the maps of its own planes", "statement": "After a run, the export writes one file for every half of the samples (even first) and every polarisation. Each holds, for every averaged channel, the HEALPix maps of the real images of the weights, variances, model and data of its own half and polarisation, and the map of the squared beam times the number of visibilities. If gains exist that explain the data exactly, the cube of the data equals the cube of the model in every file.", "quantifier": "all observations with at least two time steps, all maps that fit the images, even sizes of images; for exact gains: all gains the fits can represent", "why_tests_cant": "a test compares a few stored cubes; the claim composes flagging, calibration, gridding, imaging and the maps for all inputs", "anchors": ["PyFHD/pyfhd.py:238-531", "PyFHD/healpix/export.py:98-220", "PyFHD/healpix/healpix_utils.py:healpix_cnv_apply"]}
{"id": "C309", "title": "Flagged samples, tile numbers and directions of baselines have no influence on the HEALPix files", "statement": "The HEALPix files that are written after a run are the same if data and model are changed at samples that are not in use, if the tiles are numbered in another way with the tile of reference kept, or if some samples are taken in the other direction (tiles exchanged, coordinates negated, data and model conjugated).", "quantifier": "all observations with at least two time steps, all changes of unused samples, all permutations of the tiles that keep the tile of reference, all choices of turned samples as in C306", "why_tests_cant": "the files have to be compared for every change; a test makes a few", "anchors": ["PyFHD/pyfhd.py:238-531", "PyFHD/healpix/export.py:98-220"]}
{"id": "C310", "title": "The HEALPix files are in the unit of the data", "statement": "If data and model are multiplied by a real factor that is not zero, the HEALPix files written after the run hold cubes of data and model multiplied by the factor and the same cubes of weights, variances and squared beams.", "quantifier": "all observations with at least two time steps and all real factors except zero", "why_tests_cant": "the claim is about all factors and composes calibration, gridding, imaging and the maps", "anchors": ["PyFHD/pyfhd.py:238-531", "PyFHD/healpix/export.py:98-220"]}
{"id": "C311", "title": "Samples removed by basic flagging have no influence on the results of a run", "statement": "In a run with `flag_basic`, data and model of samples that were flagged before, that have to be flagged, or whose channel is cut (outside the limits of frequency, or near an edge of a coarse channel with `flag_frequencies`) have no influence on gains, flags, weights, uv planes, images and HEALPix files, and none of these samples has weight afterwards. Without `flag_frequencies` a channel that lost all its weight is taken into use again where its data are not zero; its samples then count as used, and changed data have to keep their zeros.", "quantifier": "for all runs with one or two polarisations, all limits of frequency, all data and models", "why_tests_cant": "The influence of excluded samples has to vanish for every value they can take and through all stages of the run; a test changes a few samples.", "anchors": ["PyFHD/pyfhd.py", "PyFHD/flagging/flagging.py"]}
{"id": "C312", "title": "A run with basic flagging does not depend on the unit of flux", "statement": "If data and model are given in another unit of flux (multiplied by the same factor, not zero), a run with `flag_basic` gives the same gains, flags and weights, and its uv planes, images and HEALPix files are multiplied by this factor, with the same numbers of samples and the same beams.", "quantifier": "for all runs with one or two polarisations and all factors other than zero", "why_tests_cant": "The relation concerns pairs of complete runs and all factors; a threshold on the data in any stage would break it only for some of them.", "anchors": ["PyFHD/pyfhd.py", "PyFHD/flagging/flagging.py"]}
{"id": "C313", "title": "Numbers of tiles, directions of baselines and exact gains in runs with basic flagging", "statement": "A run with `flag_basic` gives the same weights, planes and images if tiles are numbered in another way (with the same tile of reference), or if some baselines are listed in the other direction with conjugate data, and then writes the same HEALPix files. If the samples it may use are the model seen through gains that the calibration can represent, the files hold the model as data.", "quantifier": "for all runs with one or two polarisations, all permutations of tiles, all sets of turned samples, all smooth gains", "why_tests_cant": "The conventions of the input can be changed in as many ways as there are permutations and sets of samples; tests use one convention.", "anchors": ["PyFHD/pyfhd.py", "PyFHD/flagging/flagging.py"]}
{"id": "C314", "title": "Limits of frequency, and flagging again", "statement": "For a run with `flag_basic`, the limits `flag_freq_start` and `flag_freq_end` have the same effect on images and HEALPix files as flags of all samples of the channels outside them in the input. With `flag_frequencies` and all time steps in use, running on what the basic flagging returned, flagged again in the same way, gives what the run on the input gives.", "quantifier": "for all runs, all limits of frequency, all flags and data of the input", "why_tests_cant": "The equality of complete runs for all limits, channels and flags cannot be sampled; rounding to groups of channels or an order of steps would break it only for some of them.", "anchors": ["PyFHD/flagging/flagging.py", "PyFHD/pyfhd.py"]}
{"id": "C315", "title": "Skies add up", "statement": "If the data of three runs are made from their models by the same gains, which the calibration can represent and starts from, and calibration does not flag, and the third model is a real combination of the first two at the samples in use, then the three runs find the same weights, and the uv planes, dirty images and model images of the third run are this combination of those of the first two.", "quantifier": "for all triples of skies, all real factors, all smooth gains, any numbers of samples, channels, tiles and baselines, one or two polarisations", "why_tests_cant": "The relation ties three complete runs for all skies and factors; a stage that normalises by the data would break it only for some of them.", "anchors": ["PyFHD/pyfhd.py", "PyFHD/calibration/calibrate.py", "PyFHD/gridding/visibility_grid.py", "PyFHD/io/pyfhd_quickview.py"]}
{"id": "C316", "title": "Skies add up in the HEALPix files", "statement": "If the data of three runs are made from their models by the same gains, which the calibration can represent and starts from, and calibration does not flag, and the third model is a real combination of the first two at the samples in use, then the cubes of data and model in every HEALPix file of the third run are this combination of those in the same file of the first two, and the cubes of weights, variances and squared beams are the same.", "quantifier": "for all triples of skies, all real factors, all smooth gains, both halves, all polarisations, all widths of averaged channels and all HEALPix maps that fit the images", "why_tests_cant": "It is a relation between the files of three complete runs for all skies and factors; no set of samples settles it.", "anchors": ["PyFHD/healpix/export.py", "PyFHD/healpix/healpix_utils.py", "PyFHD/pyfhd.py"]}
{"id": "C317", "title": "Skies add up in runs with basic flagging", "statement": "With `flag_basic`: if the data of three runs are made from their models by the same gains, which the calibration can represent and starts from, and calibration does not flag, the data are zero at the same samples (where the flagging looks at the data), and the third model is a real combination of the first two at the samples that the flagging keeps, then weights agree, and uv planes, dirty and model images, and the cubes of data and model in every HEALPix file of the third run are this combination of those of the first two.", "quantifier": "for all triples of skies, all real factors, all smooth gains, all limits of frequency and flags of the input", "why_tests_cant": "It relates three complete runs for all skies, factors and flags.", "anchors": ["PyFHD/pyfhd.py", "PyFHD/flagging/flagging.py", "PyFHD/healpix/export.py"]}
{"id": "C318", "title": "The instrument has no influence on the results of a calibrated run", "statement": "If the data of two runs are the same model seen through different gains, each of which the calibration of its run can represent and starts from (with options, starting gains and reflection table of its own), and calibration does not flag, then the second run succeeds like the first and gives the same weights, uv planes and images, and its export gives the same planes and the same HEALPix files, whatever the random draws of the noise estimate.", "quantifier": "for all models, all pairs of smooth gains, all options of the calibration, all inputs and flags", "why_tests_cant": "It relates two complete runs for all pairs of instruments and settings.", "anchors": ["PyFHD/pyfhd.py", "PyFHD/calibration/calibrate.py", "PyFHD/gridding/visibility_grid.py", "PyFHD/healpix/export.py"]}
{"id": "C319", "title": "The instrument has no influence on the results of a run with basic flagging", "statement": "With `flag_basic`: if the data of two runs are the same model seen through different gains at the samples that the flagging keeps, each of which the calibration of its run can represent and starts from (with options, starting gains and reflection table of its own), the data are zero at the same samples where the flagging looks at them, and calibration does not flag, then the second run succeeds like the first, with the same weights, uv planes, images and HEALPix files.", "quantifier": "for all models, all pairs of smooth gains, all options of the calibration, all limits of frequency and flags of the input", "why_tests_cant": "It relates two complete runs for all pairs of instruments, settings and flags.", "anchors": ["PyFHD/pyfhd.py", "PyFHD/flagging/flagging.py", "PyFHD/calibration/calibrate.py", "PyFHD/healpix/export.py"]}
{"id": "C320", "title": "Calibrating calibrated data changes nothing", "statement": "If the data of a run are the model seen through gains that its calibration can represent and starts from, and calibration does not flag, then a run on its calibrated data with starting gains of one succeeds, gives gains of one at all channels and tiles in use, returns the calibrated data unchanged at the samples in use, and gives the same weights, uv planes, images and HEALPix files.", "quantifier": "for all models, all smooth gains, all inputs and flags", "why_tests_cant": "It relates a run to a second run on its output, for all inputs.", "anchors": ["PyFHD/pyfhd.py", "PyFHD/calibration/calibrate.py", "PyFHD/calibration/calibration_utils.py", "PyFHD/healpix/export.py"]}
{"id": "C321", "title": "What the exported images of a run show", "statement": "After a run with one or two polarisations, the dirty and the model image of a polarisation are the images of the gridded uv planes of data and model of the same polarisation, filtered by the weights of this polarisation and the counts of the first one, normalised by the image of its weights at the centre and corrected for its beam; the residual image is their difference; the exported uv weights are the filtered ones of every polarisation times the number of samples of the first polarisation that have positive weight after the run. The uv planes are those of `visibility_grid` for the calibrated data and for the model, with the weights after the run, the channels in use after the calibration and the samples with a positive weight at some channel.", "quantifier": "for all inputs, flags, gains and options, all pixels", "why_tests_cant": "It describes every pixel of every image for all inputs.", "anchors": ["PyFHD/pyfhd.py", "PyFHD/io/pyfhd_quickview.py", "PyFHD/gridding/visibility_grid.py"]}
