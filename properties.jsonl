{"id": "C01", "title": "1D padding always fits", "statement": "For every signal length N >= 1 and every requested support, building a Scattering1D object picks a padded length that is a power of two, is at least N, and splits the padding so that both sides are smaller than N, differ by at most one and add up exactly; the padding step never raises.", "quantifier": "all N >= 1 and all values of the minimum padding derived from T", "why_tests_cant": "The padded length mixes floor and ceil of logarithms; off-by-one failures occur only at isolated N, and tests sample a handful of lengths.", "anchors": ["kymatio/scattering1d/frontend/base_frontend.py:ScatteringBase1D.build", "kymatio/scattering1d/utils.py:compute_padding"]}
{"id": "C02", "title": "compute_padding contract", "statement": "compute_padding(N, N_input) returns (left, right) with left + right = N - N_input and left <= right <= left + 1 exactly when N >= N_input and neither side reaches N_input; in every other case it raises ValueError.", "quantifier": "all pairs of natural numbers N, N_input", "why_tests_cant": "The set of rejected pairs is infinite; tests check two or three.", "anchors": ["kymatio/scattering1d/utils.py:compute_padding"]}
{"id": "C03", "title": "Border indices keep exactly the samples of the original signal", "statement": "At every dyadic resolution 2**j for which indices are computed, index m is kept by unpadding if and only if the original-rate position m * 2**j lies inside the unpadded signal [i0, i1).", "quantifier": "all i0, i1, log2_T, J and all j <= max(log2_T, J)", "why_tests_cant": "The indices are produced by repeated halving; equality with the one-shot ceiling needs induction over j.", "anchors": ["kymatio/scattering1d/utils.py:compute_border_indices", "kymatio/scattering1d/frontend/base_frontend.py:ScatteringBase1D.scattering"]}
{"id": "C04", "title": "Reflection padding is undone by unpadding", "statement": "For every signal and all pad amounts smaller than its length, padding succeeds, the result has length left + N + right, position i holds the mirror-reflected sample, and slicing [left, left+N) gives back the signal unchanged; a pad amount >= N is rejected with ValueError.", "quantifier": "all signals, all pad amounts", "why_tests_cant": "Needs every length and pad amount, including pads equal to N-1.", "anchors": ["kymatio/scattering1d/backend/numpy_backend.py:NumpyBackend1D.pad", "kymatio/scattering1d/backend/numpy_backend.py:NumpyBackend1D.unpad"]}
{"id": "C05", "title": "Output length of averaged 1D scattering", "statement": "With local averaging, every coefficient has the same length, namely the number of multiples of the stride that fall in the unpadded range; the unpadding slice always lies inside the subsampled padded signal; the length is N/stride when the stride divides N and never differs from N/stride by 1 or more otherwise.", "quantifier": "all N, all paddings, all strides 2**r dividing the padded length", "why_tests_cant": "Shape tests only use one or two (N, J) pairs where everything divides.", "anchors": ["kymatio/scattering1d/frontend/base_frontend.py:ScatteringBase1D.scattering", "kymatio/scattering1d/utils.py:compute_border_indices", "kymatio/scattering1d/core/scattering1d.py:scattering1d"]}
{"id": "C06", "title": "Interpretation of T", "statement": "T=None gives (2**J, local averaging), 'global' gives (2**J, global), 0 gives (2**J, no averaging), a number in [1, N] gives itself with local averaging, and every other number (above N, in (0,1) or negative) raises ValueError.", "quantifier": "all J, N and all rational values of T", "why_tests_cant": "Decision table over a continuum of values with precedence between overlapping conditions.", "anchors": ["kymatio/scattering1d/utils.py:parse_T"]}
{"id": "C07", "title": "Stride validation", "statement": "Reading the stride of a built object either returns a power of two equal to the one requested (or 2**floor(log2 T) when none was requested) or raises; it raises exactly when the requested stride is not an integer, is not a positive power of two, or when averaging is disabled or global.", "quantifier": "all stride requests and all T settings", "why_tests_cant": "Infinite set of integers must be rejected; a test can reject only samples.", "anchors": ["kymatio/scattering1d/frontend/base_frontend.py:ScatteringBase1D.log2_stride", "kymatio/scattering1d/frontend/base_frontend.py:ScatteringBase1D.stride"]}
{"id": "C08", "title": "oversampling is equivalent to the documented stride", "statement": "Passing oversampling=o gives the same object as passing stride=2**(log2(T)-o), and passing both values together is accepted exactly when they agree.", "quantifier": "all o >= 1 and all strides", "why_tests_cant": "The compatibility check compares with an expression that is never exercised jointly with a correct stride in tests. (The code violates this: see the negative theorem.)", "anchors": ["kymatio/scattering1d/frontend/base_frontend.py:ScatteringBase1D.build"]}
{"id": "C09", "title": "Normalisation of Q", "statement": "An integer Q >= 1 or a 1-tuple is completed with second-order quality factor 1, a 2-tuple is kept, any value below 1 raises ValueError, tuples longer than two raise NotImplementedError, other types raise ValueError; the empty tuple is not silently accepted.", "quantifier": "all integers and tuples", "why_tests_cant": "Decision table over unbounded inputs.", "anchors": ["kymatio/scattering1d/frontend/base_frontend.py:ScatteringBase1D.Q"]}
{"id": "C10", "title": "Fourier subsampling is time decimation", "statement": "The inverse transform of the Fourier-subsampled array equals every k-th sample of the inverse transform of the original array; subsampling by k then l equals subsampling by k*l; a factor that does not divide the length is rejected.", "quantifier": "all lengths N = k*m, all complex arrays", "why_tests_cant": "An identity over complex arrays of every length; a numeric test checks one array up to rounding.", "anchors": ["kymatio/scattering1d/backend/numpy_backend.py:NumpyBackend1D.subsample_fourier"]}
{"id": "C11", "title": "Fourier multiplication is circular convolution", "statement": "ifft(cdgmm(rfft(x), h)) equals the circular convolution of x with ifft(h); cdgmm raises RuntimeError exactly when the trailing shapes differ; ifft inverts fft.", "quantifier": "all lengths >= 1 and all arrays", "why_tests_cant": "Same: identity over all arrays.", "anchors": ["kymatio/backend/numpy_backend.py:NumpyBackend.cdgmm", "kymatio/scattering1d/backend/numpy_backend.py:NumpyBackend1D.rfft"]}
{"id": "C12", "title": "Precomputed filter resolutions are consistent with filtering at full rate", "statement": "The l-th stored resolution of a filter (length N/2**l) is the transfer function of 2**l times the decimated impulse response of the full-rate filter; so low-pass filtering an already subsampled signal computes the corresponding Riemann sum of the full-rate convolution, and the zero-frequency gain of the stored resolutions is the alias sum. With the pre-0.4 'mean' reduction the same quantity is too small by exactly 2**l.", "quantifier": "all filters, all resolutions", "why_tests_cant": "This was a released bug (#984); a numeric test of one signal cannot separate scale factors from filter error.", "anchors": ["kymatio/scattering1d/filter_bank.py:scattering_filter_factory", "kymatio/scattering1d/frontend/base_frontend.py:ScatteringBase1D.__init__"]}
{"id": "C13", "title": "Closed form of every 1D scattering coefficient", "statement": "For averaged scattering, the array returned at key (), (n1,), (n1,n2) equals sample by sample the cascade: circular convolution with the wavelet, modulus, decimation, convolution with the (periodised) next wavelet, modulus, and convolution with the low-pass evaluated at multiples of the stride and restricted to the unpadded range.", "quantifier": "all signals, filter banks, strides and paths for which no shape error occurs", "why_tests_cant": "The implementation interleaves Fourier-domain subsampling at several rates; equality with the time-domain definition is an identity over all inputs.", "anchors": ["kymatio/scattering1d/core/scattering1d.py:scattering1d"]}
{"id": "C14", "title": "Path enumeration", "statement": "Scattering1D yields exactly one coefficient for the empty path, one for each first-order filter, and one for each pair (n1, n2) with j1 < j2, no path twice, none missing; with max_order=1 the pairs are absent and the remaining output is unchanged.", "quantifier": "all filter banks", "why_tests_cant": "Quantifies over all filter banks and the absence of duplicates.", "anchors": ["kymatio/scattering1d/core/scattering1d.py:scattering1d", "kymatio/scattering1d/frontend/base_frontend.py:ScatteringBase1D.scattering"]}
{"id": "C15", "title": "meta() describes the rows of the output", "statement": "meta()['key'][i] is the path of row i of the array output and of item i of the list output, 'order' is its length, and the scale, centre frequency and bandwidth columns hold those of the filters on that path; output_size() equals the number of rows.", "quantifier": "all filter banks, all averaging modes, max_order 1 and 2", "why_tests_cant": "meta runs the recursion with another backend and other flags; alignment must hold for every filter bank.", "anchors": ["kymatio/scattering1d/frontend/base_frontend.py:ScatteringBase1D.meta", "kymatio/scattering1d/frontend/base_frontend.py:ScatteringBase1D.output_size"]}
{"id": "C16", "title": "Output types agree", "statement": "The array output is the stack, in lexicographic (order, n) order, of the coefficients of the list output, and the dict output holds the same coefficients under the paths of the list output; only the container differs.", "quantifier": "all inputs and filter banks", "why_tests_cant": "Agreement over all filter banks; dict insertion order and sorting are different code paths.", "anchors": ["kymatio/scattering1d/frontend/base_frontend.py:ScatteringBase1D.scattering"]}
{"id": "C17", "title": "1D scattering never indexes outside its filter tables", "statement": "For every J, every quality factors Q1 >= Q2 >= 1, every T and every stride not exceeding T, each filter resolution requested by the transform exists and has the length of the signal it multiplies, each unpadding index exists, and the transform returns without error.", "quantifier": "all J, N, Q1 >= Q2, T, stride <= T with 2**J <= padded length", "why_tests_cant": "Depends on real-valued filter design for every Q and J; tests cover a few Q. (For Q1 < Q2 the code does fail: see negative theorems.)", "anchors": ["kymatio/scattering1d/core/scattering1d.py:scattering1d", "kymatio/scattering1d/filter_bank.py:scattering_filter_factory", "kymatio/scattering1d/frontend/base_frontend.py:ScatteringBase1D.create_filters"]}
{"id": "C18", "title": "Translation covariance", "statement": "Rolling the padded signal by a multiple s*stride of the stride rolls every averaged coefficient by s samples; without averaging each coefficient rolls by shift/2**j; with global averaging coefficients do not change under rolls by multiples of the largest decimation.", "quantifier": "all signals, filters, shifts", "why_tests_cant": "Equivariance over all signals and shifts.", "anchors": ["kymatio/scattering1d/core/scattering1d.py:scattering1d", "kymatio/scattering1d/backend/numpy_backend.py:NumpyBackend1D.average_global"]}
{"id": "C19", "title": "Amplitude homogeneity and sign invariance", "statement": "Multiplying the input by a real number a multiplies the zeroth-order coefficient by a and all coefficients of order one and two by |a|; in particular the sign of the input does not matter for orders one and two, and zero input gives zero output.", "quantifier": "all signals, all real a, all filter banks", "why_tests_cant": "Law over all inputs.", "anchors": ["kymatio/scattering1d/core/scattering1d.py:scattering1d", "kymatio/scattering1d/frontend/base_frontend.py:ScatteringBase1D.scattering"]}
{"id": "C20", "title": "Constant signals are invisible to wavelets", "statement": "If the signal is constant then all coefficients of order one and two are zero.", "quantifier": "all constants, all lengths, all J, Q, T", "why_tests_cant": "Relies on exact cancellation in the filter design; numerically only approximately testable.", "anchors": ["kymatio/scattering1d/filter_bank.py:morlet_1d", "kymatio/scattering1d/core/scattering1d.py:scattering1d"]}
{"id": "C21", "title": "Bounded and non-expansive first-order response", "statement": "Without averaging, first-order coefficients are non-negative, bounded by the largest absolute value of the signal, and move by at most the largest pointwise change of the signal.", "quantifier": "all pairs of signals", "why_tests_cant": "Stability inequality over all signals.", "anchors": ["kymatio/scattering1d/filter_bank.py:morlet_1d", "kymatio/scattering1d/core/scattering1d.py:scattering1d"]}
{"id": "C22", "title": "Batch independence", "statement": "Scattering a batch equals scattering each signal on its own: the output for one signal does not depend on the other signals, and leading batch dimensions are restored in the same order.", "quantifier": "all batch shapes, all batches", "why_tests_cant": "All batch shapes and contents.", "anchors": ["kymatio/backend/numpy_backend.py:NumpyBackend.reshape_input", "kymatio/backend/numpy_backend.py:NumpyBackend.reshape_output", "kymatio/scattering1d/frontend/base_frontend.py:ScatteringBase1D.scattering"]}
{"id": "C23", "title": "Real-pair backend computes the same transform as the complex backend", "statement": "The backend that stores complex numbers as pairs of reals (torch) returns the same coefficients as the backend using complex numbers (numpy), for every input, and raises on the same inputs.", "quantifier": "all inputs and filter banks", "why_tests_cant": "Cross-backend tests compare a few arrays up to tolerance.", "anchors": ["kymatio/backend/torch_backend.py:TorchBackend.cdgmm", "kymatio/scattering1d/backend/torch_backend.py:TorchBackend1D"]}
{"id": "C24", "title": "Filter generation terminates with well-ordered filters", "statement": "For every J and Q the first- or second-order filter list is finite; centre frequencies are positive, strictly decreasing and below one half; bandwidths are at least sigma0/2**J and non-increasing; after the geometric part there are exactly Q-1 filters in arithmetic progression ending at one Q-th of the last geometric frequency.", "quantifier": "all J >= 0, Q >= 1", "why_tests_cant": "The loop exit is a real comparison; termination and monotonicity are for all J, Q.", "anchors": ["kymatio/scattering1d/filter_bank.py:anden_generator"]}
{"id": "C25", "title": "Number of filters", "statement": "The number of wavelets for quality factor Q and maximum scale J is at most (J+1)*Q, so the frequency axis of joint time-frequency scattering, dimensioned from that product, always has room for all first-order wavelets.", "quantifier": "all J, Q", "why_tests_cant": "A bound over all parameters that involves transcendental constants.", "anchors": ["kymatio/scattering1d/filter_bank.py:anden_generator", "kymatio/scattering1d/frontend/base_frontend.py:TimeFrequencyScatteringBase.build"]}
{"id": "C26", "title": "Subsampling factor of a wavelet is the largest alias-free one", "statement": "The scale j stored with a filter satisfies xi + alpha*sigma <= 2**-(j+1) whenever that sum is at most one half, j = 0 otherwise, no larger j satisfies it, and j <= max(J-1, 0).", "quantifier": "all xi >= 0, sigma > 0; for the last bound all J, Q", "why_tests_cant": "Floor of a real logarithm for all real parameters.", "anchors": ["kymatio/scattering1d/filter_bank.py:get_max_dyadic_subsampling"]}
{"id": "C27", "title": "Filter-bank consistency check", "statement": "The assertions made on the filter banks at construction (every wavelet is below the Nyquist frequency of its subsampled rate; j1 < j2 implies xi1 > xi2) hold for every J and every Q1 >= Q2.", "quantifier": "all J, Q1 >= Q2 >= 1", "why_tests_cant": "Real inequalities for all parameters. (For Q1 < Q2 construction can fail: negative theorem.)", "anchors": ["kymatio/frontend/base_frontend.py:ScatteringBase._check_filterbanks", "kymatio/scattering1d/filter_bank.py:anden_generator"]}
{"id": "C28", "title": "Wavelets have zero mean and unit L1 norm", "statement": "Every Morlet filter has a transfer function that vanishes exactly at frequency zero and, unless identically zero, an impulse response with L1 norm one, so that the magnitude of its transfer function never exceeds one; the low-pass has unit L1 norm.", "quantifier": "all lengths, centre frequencies and bandwidths", "why_tests_cant": "Exact identity over real parameters.", "anchors": ["kymatio/scattering1d/filter_bank.py:morlet_1d", "kymatio/scattering1d/filter_bank.py:gauss_1d"]}
{"id": "C29", "title": "Periodisation depth is sufficient", "statement": "The number of periods chosen for a bandwidth is at least two and makes the neglected Gaussian tail at most eps at distance P-1.", "quantifier": "all sigma > 0, 0 < eps < 1", "why_tests_cant": "Real inequality for all parameters.", "anchors": ["kymatio/scattering1d/filter_bank.py:adaptive_choice_P"]}
{"id": "C30", "title": "Temporal support bounds the truncation error", "statement": "The support returned for a filter guarantees that truncating the filter outside it changes any filtered signal by at most twice the criterion times the largest absolute value of the signal; if the criterion cannot be met half the length is returned.", "quantifier": "all symmetric impulse responses, all bounded signals", "why_tests_cant": "Operator-norm bound over all signals. (The documented constant one is not guaranteed: negative theorem.)", "anchors": ["kymatio/scattering1d/filter_bank.py:compute_temporal_support"]}
{"id": "C31", "title": "Adjacent wavelets meet at the prescribed level", "statement": "The bandwidth computed for quality factor Q makes two neighbouring Gaussian profiles of the geometric progression intersect at height r; largest centre frequency lies in [0.35, 0.5).", "quantifier": "all xi > 0, Q >= 1, 0 < r < 1", "why_tests_cant": "Equality of real expressions for all parameters.", "anchors": ["kymatio/scattering1d/filter_bank.py:compute_sigma_psi", "kymatio/scattering1d/filter_bank.py:compute_xi_max"]}
{"id": "C32", "title": "JTFS paths are unique and complete", "statement": "Joint time-frequency scattering yields each path once: zeroth order, one per non-negative-spin frequency filter at first order, one per (second-order filter having an admissible first-order filter, frequency filter) at second order; frequency-filter indices refer to the same filter at first and second order.", "quantifier": "all filter banks", "why_tests_cant": "Enumeration over all filter banks.", "anchors": ["kymatio/scattering1d/core/timefrequency_scattering.py:joint_timefrequency_scattering", "kymatio/scattering1d/core/timefrequency_scattering.py:frequency_scattering"]}
{"id": "C33", "title": "JTFS meta() describes the output rows", "statement": "In JTFS, meta()['key'][i] is the path of row i of the array output in every format.", "quantifier": "all filter banks and formats", "why_tests_cant": "Only sizes are compared in tests. (The code violates this for format='time' and, by one row, for format='joint' arrays: negative theorems; joint list alignment and equality of key sets are proved.)", "anchors": ["kymatio/scattering1d/frontend/base_frontend.py:TimeFrequencyScatteringBase.meta", "kymatio/scattering1d/frontend/base_frontend.py:TimeFrequencyScatteringBase.scattering"]}
{"id": "C34", "title": "JTFS accepts every valid stride", "statement": "For every power-of-two stride not larger than T, joint time-frequency scattering returns coefficients whose time axis has been decimated by exactly that stride.", "quantifier": "all filter banks, all strides", "why_tests_cant": "Only the default stride is tested. (The code violates this when the stride is smaller than the largest second-order decimation: negative theorem; proved when log2(stride) >= every j2.)", "anchors": ["kymatio/scattering1d/core/timefrequency_scattering.py:time_scattering_widthfirst", "kymatio/scattering1d/core/timefrequency_scattering.py:time_averaging"]}
{"id": "C35", "title": "Width-first first order equals depth-first first order", "statement": "The first-order time scattering stack used by JTFS contains, row by row, the first-order coefficients of Scattering1D with the same parameters.", "quantifier": "all signals, filter banks, strides", "why_tests_cant": "Equality over all inputs of two separately written loops.", "anchors": ["kymatio/scattering1d/core/timefrequency_scattering.py:time_scattering_widthfirst", "kymatio/scattering1d/core/scattering1d.py:scattering1d"]}
{"id": "C36", "title": "JTFS frequency bookkeeping", "statement": "The reported frequency stride equals the decimation really applied along the frequency axis, and all rows of a joint array have equally many frequency samples.", "quantifier": "all F, stride_fr, J_fr, Q_fr", "why_tests_cant": "Needs all combinations of four parameters. (Violated for F < 2**J_fr and for F='global': negative theorems.)", "anchors": ["kymatio/scattering1d/core/timefrequency_scattering.py:frequency_scattering", "kymatio/scattering1d/core/timefrequency_scattering.py:frequency_averaging"]}
{"id": "C37", "title": "JTFS formatted paths index existing frequencies", "statement": "Splitting along frequency yields indices n1 that are multiples of the frequency stride below the number of first-order wavelets, each once, and the coefficient attached to n1 is the one computed at that frequency.", "quantifier": "all n1_max, n1_stride", "why_tests_cant": "All sizes and strides.", "anchors": ["kymatio/scattering1d/core/timefrequency_scattering.py:time_formatting"]}
{"id": "C38", "title": "2D padding and output size", "statement": "For every image with both sides at least 2**J the padded sides are multiples of 2**J, the padding on each side is at most 2**J and at most the image side, and the output has floor(M/2**J) by floor(N/2**J) pixels, each centred on a pixel of the original image; images with a side smaller than 2**J are rejected.", "quantifier": "all M, N, J", "why_tests_cant": "All sizes, in particular sizes not divisible by 2**J.", "anchors": ["kymatio/scattering2d/utils.py:compute_padding", "kymatio/scattering2d/frontend/base_frontend.py:ScatteringBase2D.build", "kymatio/scattering2d/backend/numpy_backend.py"]}
{"id": "C39", "title": "2D channels", "statement": "Scattering2D returns 1 + L*J + L**2*J*(J-1)/2 channels (1 + L*J with max_order=1), ordered by order, then (j1, theta1), then (j2, theta2) with j2 > j1, each exactly once, with the metadata of the filters applied; the array output stacks the list output in this order.", "quantifier": "all J >= 1, L >= 1", "why_tests_cant": "A count for all J and L; tests check one.", "anchors": ["kymatio/scattering2d/core/scattering2d.py:scattering2d", "kymatio/scattering2d/filter_bank.py:filter_bank"]}
{"id": "C40", "title": "2D transform never indexes outside its filter tables", "statement": "For all J >= 1, L and image sizes, every filter resolution requested exists and matches the size of the array it multiplies.", "quantifier": "all J >= 1, L, sizes", "why_tests_cant": "All J and sizes. (J = 0 fails: negative theorem.)", "anchors": ["kymatio/scattering2d/core/scattering2d.py:scattering2d", "kymatio/scattering2d/filter_bank.py:filter_bank"]}
{"id": "C41", "title": "2D filter periodisation keeps one low-frequency copy", "statement": "The resolution-res version of a 2D filter keeps, for each output frequency, exactly the one input frequency closest to zero, and drops everything else.", "quantifier": "all filters, res and sizes divisible by 2**res", "why_tests_cant": "All sizes and filters.", "anchors": ["kymatio/scattering2d/filter_bank.py:periodize_filter_fft"]}
{"id": "C42", "title": "2D Fourier subsampling is decimation in both directions", "statement": "The inverse transform of a Fourier-subsampled image equals the image taken at every k-th row and column.", "quantifier": "all images, all k", "why_tests_cant": "Identity over all images.", "anchors": ["kymatio/scattering2d/backend/numpy_backend.py:NumpyBackend2D.subsample_fourier"]}
{"id": "C43", "title": "2D reflection padding is the same in all backends", "statement": "Backends that special-case padding equal to the image side produce the same padded image as mirror reflection with period 2M-2.", "quantifier": "all images with sides >= 2", "why_tests_cant": "Only images whose side is exactly 2**J reach the special case, in one axis or both.", "anchors": ["kymatio/scattering2d/backend/torch_backend.py:Pad", "kymatio/scattering2d/backend/numpy_backend.py:Pad"]}
{"id": "C44", "title": "2D scattering laws", "statement": "Scaling the image by a scales order zero by a and higher orders by |a|; rolling the padded image by multiples of 2**J rolls the output; constant images give zero beyond order zero; images in a batch do not influence each other.", "quantifier": "all images, scalars, shifts, batches", "why_tests_cant": "Laws over all inputs.", "anchors": ["kymatio/scattering2d/core/scattering2d.py:scattering2d"]}
{"id": "C45", "title": "3D output layout", "statement": "HarmonicScattering3D returns, per sample, (J+1) first-order rows followed by J*(J+1)/2 second-order rows ordered by (j1, j2), with the angular order l on the next axis and the integral powers last; max_order=1 keeps just the first part.", "quantifier": "all J, L, powers", "why_tests_cant": "All J and L.", "anchors": ["kymatio/scattering3d/core/scattering3d.py:scattering3d", "kymatio/scattering3d/backend/numpy_backend.py"]}
{"id": "C46", "title": "3D translation invariance", "statement": "Integral 3D scattering coefficients do not change when the volume is rolled by any integer vector.", "quantifier": "all volumes, shifts, filters", "why_tests_cant": "Invariance over all inputs.", "anchors": ["kymatio/scattering3d/core/scattering3d.py:scattering3d"]}
{"id": "C47", "title": "3D rotation modulus", "statement": "The running modulus over the 2l+1 harmonic components equals the square root of the sum of their squared magnitudes, independent of the order of the components, and is unchanged when the components are mixed by a unitary matrix.", "quantifier": "all component lists", "why_tests_cant": "Law over all inputs.", "anchors": ["kymatio/scattering3d/backend/numpy_backend.py:NumpyBackend3D.modulus_rotation"]}
{"id": "C48", "title": "3D power homogeneity", "statement": "Scaling the volume by a multiplies the coefficient of integral power q by |a|**q.", "quantifier": "all volumes, real a, q > 0", "why_tests_cant": "Law over all inputs.", "anchors": ["kymatio/scattering3d/core/scattering3d.py:scattering3d", "kymatio/scattering3d/backend/numpy_backend.py:compute_integrals"]}
{"id": "C49", "title": "3D filters are centred at the origin of the grid", "statement": "The grid on which 3D Gaussian and solid-harmonic filters are sampled has coordinate zero at index zero along every axis and covers each residue once.", "quantifier": "all grid sizes", "why_tests_cant": "Tests only use even sizes. (Violated for odd sizes: negative theorem.)", "anchors": ["kymatio/scattering3d/filter_bank.py:gaussian_3d", "kymatio/scattering3d/filter_bank.py:solid_harmonic_3d"]}
{"id": "C50", "title": "Moving or reloading a torch module keeps filters in step", "statement": "After any sequence of operations that replace registered buffers position-wise (device moves, dtype casts, loading a state), the filters used by the next call are exactly the current buffers, each in the place of the filter it was registered for.", "quantifier": "all filter banks, all sequences of buffer replacements", "why_tests_cant": "History property over arbitrary sequences and filter banks.", "anchors": ["kymatio/scattering1d/frontend/torch_frontend.py:ScatteringTorch1D.load_filters", "kymatio/scattering2d/frontend/torch_frontend.py", "kymatio/scattering3d/frontend/torch_frontend.py"]}
{"id": "C51", "title": "Frontend and backend selection", "statement": "The generic entry point builds exactly the frontend named (case-insensitively), defaults to numpy, rejects unknown names with RuntimeError, and a backend given by name is accepted only if its name starts with the frontend's name.", "quantifier": "all strings", "why_tests_cant": "All strings.", "anchors": ["kymatio/frontend/entry.py", "kymatio/frontend/base_frontend.py:ScatteringBase._instantiate_backend"]}
{"id": "C52", "title": "Flattened (scikit-learn) interface", "statement": "Transforming a matrix of flattened samples equals scattering each sample and flattening its output, row by row.", "quantifier": "all batches", "why_tests_cant": "All batches and shapes.", "anchors": ["kymatio/frontend/sklearn_frontend.py"]}
{"id": "C53", "title": "Keras static output shape", "statement": "The static output shape announced by the Keras layers equals the shape actually produced.", "quantifier": "all parameters", "why_tests_cant": "Keras tests use defaults. (Violated for max_order=1 and for T other than 2**J: negative theorems.)", "anchors": ["kymatio/scattering1d/frontend/keras_frontend.py", "kymatio/scattering2d/frontend/keras_frontend.py"]}
{"id": "C54", "title": "Cache directory precedence", "statement": "The cache directory is the explicitly given base directory if any, else the KYMATIO_CACHE setting if present (even if empty), else kymatio_cache in the home directory, with the requested name appended; it exists afterwards whenever a path is returned, and ValueError is raised exactly when it did not exist and creation was not allowed.", "quantifier": "all environments", "why_tests_cant": "All environments.", "anchors": ["kymatio/caching.py"]}
{"id": "C55", "title": "Stable modulus gradient", "statement": "The modulus used for training has the true gradient wherever the modulus is non-zero and propagates zero where it vanishes, so gradients are never undefined.", "quantifier": "all inputs and upstream gradients", "why_tests_cant": "Derivative identity at every point.", "anchors": ["kymatio/backend/torch_backend.py:ModulusStable"]}
{"id": "C56", "title": "GPU kernels write every output cell once", "statement": "The launch grids of the CUDA kernels cover every output element exactly once and each thread averages exactly the alias terms of its output element.", "quantifier": "all tensor sizes", "why_tests_cant": "CUDA tests run on square power-of-two sizes. (Violated for wide non-square images in 2D: negative theorem.)", "anchors": ["kymatio/scattering1d/backend/torch_skcuda_backend.py", "kymatio/scattering2d/backend/torch_skcuda_backend.py"]}
{"id": "C57", "title": "Signals of the wrong length are never transformed silently", "statement": "For every constructed 1D scattering object, a signal whose length differs from the declared shape makes the transform raise; no output is ever produced for it, in any output format or averaging mode.", "quantifier": "all constructor arguments and all signals", "why_tests_cant": "The length is not checked explicitly anywhere: rejection follows from the interplay of padding, filter lengths and cdgmm, for every combination of parameters.", "anchors": ["kymatio/scattering1d/frontend/base_frontend.py:_check_input", "kymatio/scattering1d/backend/numpy_backend.py:pad", "kymatio/backend/numpy_backend.py:cdgmm"]}
{"id": "C58", "title": "Closed form of 2D scattering", "statement": "Every coefficient of 2D scattering is exactly the cropped, decimated low-pass of iterated wavelet moduli of the reflected image: the implementation's Fourier-domain products, periodised levels and alias averages equal circular convolutions and decimations in the pixel domain.", "quantifier": "all images, all J, L, shapes, orders, paths", "why_tests_cant": "Regression files fix a few images; they were produced by the code itself and cannot show that the multi-resolution shortcuts equal the definition for every image.", "anchors": ["kymatio/scattering2d/core/scattering2d.py", "kymatio/scattering2d/backend/numpy_backend.py"]}
{"id": "C59", "title": "Torch and numpy 2D scattering agree", "statement": "The torch 2D object returns on an image exactly when the numpy object does, and returns the same channels in the same order with the same exact values, in both output formats.", "quantifier": "all images with sides at least two, all parameters", "why_tests_cant": "Tests compare the backends up to a tolerance on one random image per configuration.", "anchors": ["kymatio/scattering2d/backend/torch_backend.py", "kymatio/scattering2d/frontend/torch_frontend.py"]}
{"id": "C60", "title": "Padding margin of 1D scattering", "statement": "The 1D constructor pads by at least three temporal supports of the low-pass filter on each side, up to rounding of the split, unless the pad is capped by the longest reflection that the signal allows; the padded length never exceeds that cap.", "quantifier": "all J, Q, T, shapes", "why_tests_cant": "Tests check particular padded lengths; nothing relates the margin to the filter support for all parameters.", "anchors": ["kymatio/scattering1d/frontend/base_frontend.py:build"]}
{"id": "C61", "title": "Unaveraged coefficients are cropped at their own resolution", "statement": "With average=False every returned coefficient is the core's output restricted to exactly the grid points of step 2^j inside the original signal, whatever the oversampling; combinations for which the crop would be wrong never return.", "quantifier": "all signals, parameters, oversampling", "why_tests_cant": "Tests use oversampling only with averaging. (With oversampling>0 the crop index would be wrong, but every call raises before: see theorem.)", "anchors": ["kymatio/scattering1d/frontend/base_frontend.py:scattering", "kymatio/scattering1d/core/scattering1d.py"]}
{"id": "C62", "title": "Spinned banks", "statement": "A spinned filter bank is the positive bank followed by the same filters with negated centre frequency and the same bandwidth, in the same order, hence it has twice the size and is closed under frequency reversal.", "quantifier": "all J, Q and generator parameters", "why_tests_cant": "Tests compare a few lists produced by the code.", "anchors": ["kymatio/scattering1d/filter_bank.py:spin"]}
{"id": "C63", "title": "Closed form of 3D scattering", "statement": "Every coefficient of 3D scattering is exactly the integral, to its power, of the iterated moduli over the 2l+1 solid-harmonic components of circular convolutions of the volume, with one angular order along the whole path.", "quantifier": "all volumes, shapes, J, L, orders, powers", "why_tests_cant": "Regression files fix a few volumes and were produced by the code itself.", "anchors": ["kymatio/scattering3d/core/scattering3d.py", "kymatio/scattering3d/backend/numpy_backend.py", "kymatio/scattering3d/frontend/numpy_frontend.py"]}
{"id": "C64", "title": "Constant volumes in 3D", "statement": "With even sides, a constant volume c has zero coefficients for every angular order l>=1 and M*N*O*|c|**q for l=0, at both orders.", "quantifier": "all even shapes, J, L, c, powers q>0", "why_tests_cant": "Law over all parameters.", "anchors": ["kymatio/scattering3d/filter_bank.py:solid_harmonic_3d", "kymatio/scattering3d/core/scattering3d.py"]}
{"id": "C65", "title": "Torch and numpy 3D scattering agree", "statement": "The torch 3D frontend returns exactly the values of the numpy frontend on every volume and raises when it raises.", "quantifier": "all volumes and parameters with method='integral'", "why_tests_cant": "Tests compare the backends up to a tolerance on a few volumes.", "anchors": ["kymatio/scattering3d/backend/torch_backend.py", "kymatio/scattering3d/frontend/torch_frontend.py"]}
{"id": "C66", "title": "3D batch independence", "statement": "The coefficients of a volume in a batch are those of the volume alone.", "quantifier": "all batches", "why_tests_cant": "All batch sizes and positions.", "anchors": ["kymatio/scattering3d/frontend/numpy_frontend.py", "kymatio/scattering3d/backend/numpy_backend.py"]}
{"id": "C67", "title": "3D wavelets are dilations of one mother wavelet", "statement": "There is one function Psi(l, m, .) such that the wavelet of width sigma on any grid equals Psi(l, m, sigma*w) at grid frequency w; the bank holds 2l+1 wavelets for each l<=L, j<=J at widths sigma_0*2**j.", "quantifier": "all shapes, sigma>0, l, m, j", "why_tests_cant": "Relation between all widths and grids.", "anchors": ["kymatio/scattering3d/filter_bank.py:solid_harmonic_3d", "kymatio/scattering3d/filter_bank.py:solid_harmonic_filter_bank", "kymatio/scattering3d/utils.py:get_3d_angles"]}
{"id": "C68", "title": "Sum of Gaussians", "statement": "generate_weighted_sum_of_gaussians returns the normalised sum of the Gaussians before the first zero weight, and thus the full sum when zero weights are at the end.", "quantifier": "all point lists, widths, grid points", "why_tests_cant": "All lists of weights.", "anchors": ["kymatio/scattering3d/utils.py:generate_weighted_sum_of_gaussians"]}
{"id": "C69", "title": "Double factorial", "statement": "double_factorial(n) is the double factorial of n.", "quantifier": "all n", "why_tests_cant": "All n.", "anchors": ["kymatio/scattering3d/utils.py:double_factorial"]}
{"id": "C70", "title": "3D invariance under symmetries of the cube", "statement": "On cubic volumes, rotation-covariant coefficients do not change when the axes are permuted cyclically (rotation by 120 degrees about the diagonal) or two axes are exchanged, given that the spherical harmonics are mixed unitarily by the symmetry.", "quantifier": "all volumes, sides, J, L, powers", "why_tests_cant": "Tests rotate one volume by one angle up to a tolerance.", "anchors": ["kymatio/scattering3d/core/scattering3d.py", "kymatio/scattering3d/filter_bank.py:solid_harmonic_3d"]}
{"id": "C71", "title": "Spherical angles", "statement": "get_3d_angles returns the polar and azimuthal angles of each grid point: z=r cos(polar), y=r sin(azimuthal) sin(polar), x=r cos(azimuthal) sin(polar).", "quantifier": "all nonzero points", "why_tests_cant": "Tests only see the angles through the modulus over m, which hides reflections. (Violated: the polar angle is measured from the negative z axis.)", "anchors": ["kymatio/scattering3d/utils.py:get_3d_angles"]}
{"id": "C75", "title": "JTFS order entries", "statement": "The 'order' entry of every JTFS coefficient returned with out_type='list', and of every row of meta(), is the scattering order of its path: 0, 1 or 2.", "quantifier": "all parameters, formats and rows", "why_tests_cant": "Tests read the order entry on single configurations in joint format. (Violated in format='time': first- and second-order coefficients of the list carry orders 0 and 1.)", "anchors": ["kymatio/scattering1d/core/timefrequency_scattering.py:time_formatting", "kymatio/scattering1d/frontend/base_frontend.py:TimeFrequencyScatteringBase.meta"]}
{"id": "C72", "title": "Closed form of joint time-frequency scattering", "statement": "Every coefficient of JTFS is the modulus of the convolution, along log-frequency, of the stack of first-order coefficients (or of second-order wavelet coefficients) with a frequential wavelet, averaged in time and frequency with the low-pass filters and read at the reported positions, for every choice of averaging, format and output type.", "quantifier": "all signals, filters, averaging modes, formats, strides", "why_tests_cant": "The regression test compares a handful of configurations with norms or shapes; nothing ties values to a definition.", "anchors": ["kymatio/scattering1d/core/timefrequency_scattering.py", "kymatio/scattering1d/frontend/base_frontend.py:TimeFrequencyScatteringBase"]}
{"id": "C73", "title": "JTFS crops first-order paths at their own resolution", "statement": "With T=0 a first-order path is cropped in time at the resolution at which the core produced it (log2_stride), in both formats.", "quantifier": "all parameters, signals, formats", "why_tests_cant": "Tests with T=0 use format='joint' or check only the number of paths. (Violated in format='time'.)", "anchors": ["kymatio/scattering1d/frontend/base_frontend.py:TimeFrequencyScatteringBase.scattering"]}
{"id": "C74", "title": "Frequential padding leaves room", "statement": "_N_padded_fr is at least the number of first-order wavelets (so that pad_frequency never receives a negative width), and leaves a margin of several times the support of the widest filter.", "quantifier": "all J, J_fr, Q, F", "why_tests_cant": "Tests use one value of F per J_fr. (Violated for small F: the padded size is rounded down, possibly to zero.)", "anchors": ["kymatio/scattering1d/frontend/base_frontend.py:TimeFrequencyScatteringBase.build"]}
{"id": "C76", "title": "JTFS never fails on admissible arguments", "statement": "With Q1>=Q2, a length for which J is admissible, T=None, 'global' or 0 (or local with stride at least 2**(J-1)), F=None, 'global' or 0 and no stride_fr, the JTFS constructor succeeds and the transform of every signal of the declared length returns in list and dict form; array form also returns whenever all averaging is local.", "quantifier": "all J, J_fr, Q, Q_fr, shapes, signals", "why_tests_cant": "Every combination of arguments; index and shape errors depend on the relation between scales, strides and padded lengths.", "anchors": ["kymatio/scattering1d/frontend/base_frontend.py:TimeFrequencyScatteringBase", "kymatio/scattering1d/core/timefrequency_scattering.py"]}
{"id": "C77", "title": "TensorFlow and numpy frontends agree", "statement": "On real arrays the TensorFlow frontends (1D, 2D, 3D) return exactly when the numpy frontends with the same arguments do, and then the same coefficients in the same order, for every output type.", "quantifier": "all real inputs and all arguments", "why_tests_cant": "Tests run both backends on a few arrays and compare up to a tolerance; the TensorFlow tests never use pre_pad. (Violated: 2D with pre_pad=True always raises TypeError; 3D refuses a method that numpy ignores.)", "anchors": ["kymatio/scattering1d/backend/tensorflow_backend.py", "kymatio/scattering2d/backend/tensorflow_backend.py", "kymatio/scattering2d/frontend/tensorflow_frontend.py", "kymatio/scattering3d/backend/tensorflow_backend.py", "kymatio/scattering3d/frontend/tensorflow_frontend.py"]}
{"id": "C78", "title": "Dtype checks", "statement": "The run-time dtype checks (real_check, complex_check, cdgmm) never fire inside a transform of a real array with the numpy frontends; a complex or integer array is never transformed, and raises TypeError whenever a real array of the same shape would be accepted. Each checked operation by itself (rfft, ifft, irfft, cdgmm, subsample_fourier) refuses the wrong dtype with TypeError.", "quantifier": "all inputs of every dtype, all arguments", "why_tests_cant": "Tests call single backend operations with a wrong dtype; whether an intermediate tensor of a transform can trip a check depends on the whole composition.", "anchors": ["kymatio/backend/numpy_backend.py:real_check", "kymatio/backend/numpy_backend.py:complex_check", "kymatio/backend/numpy_backend.py:cdgmm"]}
{"id": "C79", "title": "Keras layers honour and report their arguments", "statement": "get_config of a Keras layer returns the arguments the layer was constructed with, and every argument has the effect it has on the TensorFlow frontend.", "quantifier": "all constructor arguments", "why_tests_cant": "No test calls get_config, and the Keras tests construct layers with default max_order and oversampling. (Violated in 1D: get_config always raises AttributeError; max_order and oversampling are overwritten by 2 and 0.)", "anchors": ["kymatio/scattering1d/frontend/keras_frontend.py:ScatteringKeras1D.__init__", "kymatio/scattering1d/frontend/keras_frontend.py:ScatteringKeras1D.get_config", "kymatio/scattering2d/frontend/keras_frontend.py:ScatteringKeras2D.get_config"]}
{"id": "C80", "title": "JTFS with torch agrees with numpy", "statement": "TimeFrequencyScattering with the torch backend returns exactly when it does with numpy, and then the same paths, coefficients and keys, for both formats and every output type.", "quantifier": "all constructor arguments, all real signals", "why_tests_cant": "The torch tests compare a few signals with stored values or with a tolerance, and never use T='global' together with format='joint'. (Violated: with T='global', format='joint' the torch coefficients keep their trailing dimension and reshape_output raises RuntimeError.)", "anchors": ["kymatio/scattering1d/backend/torch_backend.py", "kymatio/scattering1d/frontend/torch_frontend.py:TimeFrequencyScatteringTorch", "kymatio/backend/torch_backend.py:reshape_output", "kymatio/scattering1d/frontend/base_frontend.py:TimeFrequencyScatteringBase.scattering"]}
{"id": "C81", "title": "JTFS is homogeneous", "statement": "If TimeFrequencyScattering of x returns, the scattering of c*x returns for every real c: the zeroth order is multiplied by c and every other coefficient by |c|, for every format, output type and averaging mode. In particular the sign of the signal does not matter above order zero, and the zero signal has zero coefficients.", "quantifier": "all constructor arguments, all signals, all real c", "why_tests_cant": "Tests never scatter a multiple of a signal, and floating point would hide an additive error in one path.", "anchors": ["kymatio/scattering1d/core/timefrequency_scattering.py:joint_timefrequency_scattering", "kymatio/scattering1d/core/timefrequency_scattering.py:jtfs_average_and_format", "kymatio/scattering1d/frontend/base_frontend.py:TimeFrequencyScatteringBase.scattering"]}
{"id": "C82", "title": "JTFS is covariant with time shifts", "statement": "If the padded signal is shifted circularly by s samples, joint time-frequency scattering returns the same paths and every coefficient is shifted along time by s counted in samples of its own grid (s/2^log2_stride with local averaging, s/2^j2 at order two without averaging); with T='global' the coefficients do not change; nothing moves along frequency.", "quantifier": "all objects, all signals, all shifts, both formats", "why_tests_cant": "Tests never compare a signal with its translate; a mistake in a swap of the axes or in the resolution of a filter changes coefficients only by aliasing terms that a tolerance accepts.", "anchors": ["kymatio/scattering1d/core/timefrequency_scattering.py:joint_timefrequency_scattering", "kymatio/scattering1d/core/timefrequency_scattering.py:frequency_scattering", "kymatio/scattering1d/core/timefrequency_scattering.py:time_averaging"]}
{"id": "C83", "title": "2D scattering of the transposed image", "statement": "With an even number L of angles, scattering the transposed image with the transposed shape returns the transposed coefficients, the angle index t of every path being replaced by the index of the mirrored angle, (L/2 - 1 + L - 1 - t) mod L in the ordering of the code.", "quantifier": "all images, shapes, J, even L, both orders, all paths", "why_tests_cant": "Tests never transpose an image; a wrong axis in one of meshgrid, rotation or periodisation only permutes or perturbs channels. (Not exact in the code at second order for pairs whose mirrored second angle wraps around and j1>=1: the aliasing mask keeps the frequency -M/4 but not +M/4.)", "anchors": ["kymatio/scattering2d/filter_bank.py:filter_bank", "kymatio/scattering2d/filter_bank.py:gabor_2d", "kymatio/scattering2d/filter_bank.py:periodize_filter_fft", "kymatio/scattering2d/core/scattering2d.py"]}
{"id": "C84", "title": "1D scattering of the reversed signal", "statement": "Scattering a circularly reversed padded signal gives the circularly reversed coefficients, at every stride, with and without averaging; and for an object with local averaging and stride 1 built for an even number of samples, scattering x[::-1] returns exactly the reversed rows S[:, ::-1].", "quantifier": "all signals, filters, strides; all constructor arguments with stride=1", "why_tests_cant": "Tests do not reverse signals, and an asymmetry of one sample in padding, unpadding or subsampling stays below the tolerances used.", "anchors": ["kymatio/scattering1d/core/scattering1d.py", "kymatio/scattering1d/frontend/base_frontend.py", "kymatio/backend/numpy_backend.py", "kymatio/scattering1d/backend/numpy_backend.py"]}
{"id": "C85", "title": "max_order only adds coefficients", "statement": "Raising max_order from 1 to 2 leaves the coefficients of order zero and one exactly as they are and only appends the second order: in one dimension for every averaging mode and output type, in two dimensions the first 1+J*L channels, in three dimensions the first J+1 slices of every integral power.", "quantifier": "all arguments and inputs, all three dimensions", "why_tests_cant": "Tests compute order 1 and order 2 in different test cases and on different sizes; nothing checks that filters, padding or ordering do not depend on max_order.", "anchors": ["kymatio/scattering1d/core/scattering1d.py", "kymatio/scattering1d/frontend/base_frontend.py:ScatteringBase1D", "kymatio/scattering2d/core/scattering2d.py", "kymatio/scattering3d/core/scattering3d.py"]}
{"id": "C86", "title": "2D wavelets are rotations and dilations of one Gabor function", "statement": "Every filter of the 2-D filter bank is the real part of the discrete Fourier transform of a periodised (five periods in each direction) Gabor function obtained from one mother function by rotation by theta, dilation by 2**j and the slant 4/L, made zero-mean with its own Gaussian envelope; the low-pass is the isotropic Gaussian at scale 2**(J-1).", "quantifier": "all shapes, J, L, all indices (j, theta) and all pixels", "why_tests_cant": "Tests compare a filter with a stored one for a single size; a wrong rotation sense or a missing cross term changes only the slanted angles.", "anchors": ["kymatio/scattering2d/filter_bank.py:gabor_2d", "kymatio/scattering2d/filter_bank.py:morlet_2d", "kymatio/scattering2d/filter_bank.py:filter_bank"]}
{"id": "C87", "title": "1D filters in closed form", "statement": "The n-th wavelet of each order of a Scattering1D object is, up to the positive constant that makes the L1 norm of its impulse response one, the Morlet profile with the n-th centre frequency and bandwidth of the filter bank, periodised over 2P-1 unit intervals: a geometric progression of ratio 2**(-1/Q) from xi_max down to the first bandwidth not above 2**(1/Q)*0.1/2**J, then Q-1 equally spaced centre frequencies of bandwidth 0.1/2**J. The low-pass is the Gaussian of bandwidth 0.1/T, periodised in the same way.", "quantifier": "all accepted constructor arguments with at least two samples, all filters, all frequencies", "why_tests_cant": "Tests check single filters for a handful of parameters against tolerances; an off-by-one in the number of wavelets or periods is invisible there.", "anchors": ["kymatio/scattering1d/filter_bank.py:morlet_1d", "kymatio/scattering1d/filter_bank.py:anden_generator", "kymatio/scattering1d/filter_bank.py:compute_xi_max", "kymatio/scattering1d/filter_bank.py:compute_sigma_psi", "kymatio/scattering1d/filter_bank.py:scattering_filter_factory"]}
{"id": "C88", "title": "JTFS of arrays of any shape", "statement": "TimeFrequencyScattering of an array of shape bs + (N,) returns exactly what it returns on each signal of the batch: same paths, shapes preceded by bs, and at every index b of the leading axes the coefficients of the lone signal x[b], for both formats and every output type; it returns for every batch shape, also empty, as soon as it returns for one signal. The scikit-learn class returns for every sample the flattened coefficients of that sample.", "quantifier": "all constructor arguments, all batch shapes, all arrays", "why_tests_cant": "The tests use one or two batch shapes and look at shapes only; the core swaps, stacks and splits axes counted from the front (batch, 1, n1, time), so an axis mistake can mix signals without changing any shape. (The scikit-learn class raises on empty batches.)", "anchors": ["kymatio/scattering1d/frontend/base_frontend.py:TimeFrequencyScatteringBase.scattering", "kymatio/scattering1d/core/timefrequency_scattering.py", "kymatio/scattering1d/backend/numpy_backend.py", "kymatio/backend/numpy_backend.py:reshape_input", "kymatio/frontend/sklearn_frontend.py:ScatteringTransformerMixin.predict"]}
{"id": "C89", "title": "JTFS meta() describes the paths", "statement": "Whenever joint time-frequency coefficients are computed, meta() returns, and its rows correspond one by one to the paths in increasing order of their keys (the order of the coefficients in joint format; the zeroth order has no row in joint arrays): n_fr, spin, j_fr, xi_fr, sigma_fr are those of the frequential filter of the path, n and xi, sigma, j those of its first- and second-order filters, order is its order, and in joint format the range in column n lists the first-order index of every frequency row of the stack.", "quantifier": "all constructor arguments, formats, output types, signals", "why_tests_cant": "Tests read single rows of meta() for one configuration; n_fr of a first-order path indexes a filtered bank and the row n1 of a second-order stack an initial segment of the first-order bank, so consistency depends on orderings of the banks that no test checks. (Violated: the range is one entry too short when the stride divides the number of first-order filters.)", "anchors": ["kymatio/scattering1d/frontend/base_frontend.py:TimeFrequencyScatteringBase.meta", "kymatio/scattering1d/core/timefrequency_scattering.py"]}
{"id": "C90", "title": "JTFS: dtype checks and TensorFlow", "statement": "On real signals no dtype check inside joint time-frequency scattering fires, with numpy or with TensorFlow, and TensorFlow returns exactly when numpy does, then the same paths and coefficients, for both formats and every output type; a complex or integer signal is never transformed and raises TypeError whenever a real signal of the same length would be accepted. Each checked operation by itself refuses the wrong dtype.", "quantifier": "all constructor arguments, all signals of every dtype", "why_tests_cant": "The TensorFlow tests compare one or two signals up to a tolerance; the core alternates real and complex stacks (first order real, second order complex), so whether a check can fire depends on the whole composition.", "anchors": ["kymatio/scattering1d/backend/tensorflow_backend.py", "kymatio/scattering1d/frontend/tensorflow_frontend.py:TimeFrequencyScatteringTensorFlow", "kymatio/scattering1d/backend/numpy_backend.py", "kymatio/scattering1d/core/timefrequency_scattering.py", "kymatio/backend/numpy_backend.py:real_check"]}
{"id": "C91", "title": "2-D: half a turn", "statement": "If the padded image is turned by half a turn around a grid pixel (y[i,j] = x[-i mod h, -j mod w]), every 2-D scattering coefficient of every path and order is turned in the same way on its own subsampled grid, with the same scales and angles.", "quantifier": "all images, all padded sizes, J, L, max_order, all filter banks with real Fourier transforms; the returned coefficients for pre_pad=True", "why_tests_cant": "it relates two whole runs through three nested loops for every image and size; tests compare against stored outputs only", "anchors": ["kymatio/scattering2d/core/scattering2d.py:1-91", "kymatio/scattering2d/backend/numpy_backend.py:31-100"]}
{"id": "C92", "title": "3-D: central inversion", "statement": "With rotation_covariant=True the 3-D coefficients of a volume and of its inverse through a cell (y[u] = x[-u], indices modulo the shape) are equal, for sides of any parity.", "quantifier": "all volumes, shapes, J, L, sigma_0, integral powers, max_order; any angular functions with conj Y(m,l) = (-1)^m Y(-m,l)", "why_tests_cant": "an exact identity between two runs over all real volumes and shapes; a numerical comparison on samples cannot separate it from an approximate one (sign flips of a single axis are only approximate for even sides)", "anchors": ["kymatio/scattering3d/core/scattering3d.py:1-75", "kymatio/scattering3d/filter_bank.py:111-184"]}
{"id": "C93", "title": "1-D: stability of every order in the uniform norm", "statement": "If two signals differ by at most D at every sample, a scattering coefficient with local averaging differs by at most 2**(sum of min(j, log2_stride) over its path) times D: by at most D at order zero, and at every order if the stride is one. With T=0 the constant is 2**j1 at order two and one below; with T='global' it is this times the number of summed samples. The coefficients of a signal bounded by M are bounded by the same constant times M.", "quantifier": "all accepted constructor arguments, all pairs of signals of the declared length, all paths, all samples", "why_tests_cant": "it bounds a nonlinear map over all pairs of real signals; tests only look at a few outputs. The constants follow from the L1 normalisation of every filter and from what subsampling does to it", "anchors": ["kymatio/scattering1d/core/scattering1d.py:1-109", "kymatio/scattering1d/filter_bank.py:adaptive_choice_P", "kymatio/scattering1d/filter_bank.py:morlet_1d", "kymatio/scattering1d/frontend/base_frontend.py:ScatteringBase1D.scattering"]}
{"id": "C94", "title": "Exactly when a transform returns", "statement": "1-D: with a valid shape, T, Q (Q1 >= Q2) and J and a stride not above T, Scattering1D(...)(x) returns iff x has N samples, max_order is >= 1 (or -2, see C100), out_type is list, dict, or (unless T=0) array, and: oversampling is None with local averaging, or 0, the stride being None or (local averaging only) a power of two; or oversampling is n with 0 < n <= log2 T, averaging is local and the stride is None or 2**(log2_T - n - 1). 2-D: iff J >= 1, 2**J is at most both sides, out_type is known and the image has the declared (padded, with pre_pad) shape. 3-D: iff the volume has the declared shape and integral_powers is not empty.", "quantifier": "all constructor arguments and all inputs of any length or shape", "why_tests_cant": "tests check a few accepted and a few rejected arguments; that nothing else is accepted, and that nothing accepted fails deep inside the loops, is a statement over all of them", "anchors": ["kymatio/scattering1d/frontend/base_frontend.py:37-155", "kymatio/scattering2d/frontend/numpy_frontend.py", "kymatio/scattering3d/frontend/numpy_frontend.py"]}
{"id": "C95", "title": "Which code runs", "statement": "Every class of the library gets a method resolution order with the class first, each ancestor once, every class before its bases and bases in declared order. obj.scattering(x) ends in the code of the right family for all 22 frontend classes, through the forwarding functions that _document adds; the torch 1-D classes load their filters from the buffers on the way. A JAX backend differs from the numpy backend in _np, _fft, name and input_checks only, a JAX frontend from the numpy frontend in __init__ (and build in 3-D) only, a transformer from the numpy frontend in what the mixin and scikit-learn define only; every operation called on a backend exists in all five backends of the dimension; super().__init__ reaches the intended initialiser from every class.", "quantifier": "all class hierarchies for the first sentence; all attribute names and all contents of the classes of other libraries for the others", "why_tests_cant": "the classes of optional libraries are not even importable in most test environments, and dispatch through several base classes is only seen by a test if the wrong method happens to differ on the sample", "anchors": ["kymatio/frontend/base_frontend.py", "kymatio/frontend/jax_frontend.py", "kymatio/scattering1d/frontend/base_frontend.py:491-522", "kymatio/scattering1d/frontend/torch_frontend.py", "kymatio/scattering1d/backend/jax_backend.py", "kymatio/backend/torch_skcuda_backend.py"]}
{"id": "C96", "title": "Arguments of the constructors", "statement": "Each argument of a constructor, given by position or keyword or left to its default, is stored in the attribute of its name, in every frontend and family, and a call is refused exactly when Python's rules refuse it. The same call can be made on numpy, JAX, TensorFlow and torch with the same stored values; through kymatio.Scattering1D(..., frontend=...) it stores the same values.", "quantifier": "all positional and keyword arguments of all calls, all values", "why_tests_cant": "positional order across sixteen constructors is only checked by tests for the first two or three arguments", "anchors": ["kymatio/scattering1d/frontend/numpy_frontend.py", "kymatio/scattering1d/frontend/tensorflow_frontend.py:34-67", "kymatio/scattering2d/frontend/tensorflow_frontend.py:6-14", "kymatio/scattering2d/frontend/torch_frontend.py:8-15", "kymatio/frontend/entry.py", "kymatio/scattering2d/frontend/keras_frontend.py:9-13"]}
{"id": "C97", "title": "2-D: stability of every order in the Euclidean norm", "statement": "For two images of the declared shape, the Euclidean distance between corresponding scattering coefficients of order m is at most 1.001 * G**m * P times the distance of the images, with G = 2.001 for at least four angles and 15 below, and P = 1 with pre_pad and 4 without (reflection repeats pixels). The constant depends neither on the shape of the image nor on J nor on the path. In particular the norm of a coefficient is bounded by the same constant times the norm of the image.", "quantifier": "all J, shapes, L, max_order and pre_pad for which the transform returns, all pairs of images, all paths", "why_tests_cant": "it bounds a nonlinear map on a space of every dimension by one constant; tests compare finitely many images", "anchors": ["kymatio/scattering2d/core/scattering2d.py:scattering2d", "kymatio/scattering2d/filter_bank.py:filter_bank", "kymatio/scattering2d/backend/numpy_backend.py:Pad"]}
{"id": "C98", "title": "Joint scattering: stability of every path in the uniform norm", "statement": "Two signals of the declared length that differ by at most D at every sample give the same paths in the same order, coefficients of the same kind and shape, and values that differ everywhere by at most D times A times B. With local temporal averaging A = 4**log2_stride, without averaging A = 2**(J-1), and with a global average A = 2**(J-1) * N_padded. With local frequential averaging B = 2**log2_stride_fr, without B = 1, and with a global average B is the padded number of frequencies. With default averages and strides both transforms return and the bound is 2**J_fr * 4**J * D.", "quantifier": "all parameters for which the transform returns with a list output and Q1 >= Q2, both formats, all pairs of signals, all paths and samples", "why_tests_cant": "it bounds a nonlinear map for all pairs of signals; tests compare finitely many signals", "anchors": ["kymatio/scattering1d/core/timefrequency_scattering.py:jtfs_average_and_format", "kymatio/scattering1d/core/timefrequency_scattering.py:frequency_scattering", "kymatio/scattering1d/frontend/base_frontend.py:TimeFrequencyScatteringBase.scattering", "kymatio/scattering1d/filter_bank.py:scattering_filter_factory"]}
{"id": "C99", "title": "Solid harmonic scattering: stability of every coefficient in the Euclidean norm", "statement": "For two volumes of shape (M, N, O) at Euclidean distance D: the q-th roots of corresponding coefficients to an integral power q >= 1 differ by at most (M*N*O)**max(1/q - 1/2, 0) * D; coefficients to a power 0 < q <= 1 differ by at most (M*N*O)**(1 - q/2) * D**q. A coefficient to the power 2 is at most the energy of the volume. This holds at every order, scale path and angular order, with and without rotation covariance.", "quantifier": "all J, L, shapes, sigma_0 > 0, max_order, lists of powers, pairs of volumes, coefficients", "why_tests_cant": "it bounds a nonlinear map for all pairs of volumes and all angular orders; tests compare finitely many volumes", "anchors": ["kymatio/scattering3d/filter_bank.py:solid_harmonic_3d", "kymatio/scattering3d/core/scattering3d.py:scattering3d", "kymatio/scattering3d/backend/numpy_backend.py:modulus_rotation", "kymatio/scattering3d/backend/numpy_backend.py:compute_integrals"]}
{"id": "C100", "title": "Any integer as max_order", "statement": "An integer max_order above 2 gives the output of max_order=2, and one below 1 is refused, in one, two and three dimensions.", "quantifier": "all integers, all other arguments and all inputs", "why_tests_cant": "tests use 1 and 2 only, and the three families test the argument in three ways (a slice, < 2, and > 1 together with == 2)", "anchors": ["kymatio/scattering1d/frontend/base_frontend.py:116", "kymatio/scattering1d/frontend/base_frontend.py:meta", "kymatio/scattering2d/core/scattering2d.py", "kymatio/scattering3d/core/scattering3d.py"]}
{"id": "C101", "title": "Which exception a refused input raises", "statement": "With numpy, an object that accepts signals of N samples (1-D or joint time-frequency) raises ValueError on an array without axes or whose last axis is not longer than the right padding, and RuntimeError on one of any other length but N; an unknown out_type or format, and an array output without averaging, raise ValueError whatever the input. The 2-D and 3-D objects raise RuntimeError on every array with too few axes or other sides than announced, and (2-D) on an unknown out_type.", "quantifier": "all objects, all arrays of all shapes", "why_tests_cant": "tests try one or two wrong shapes; the 1-D length is never checked explicitly, the exception comes from whichever backend call fails first", "anchors": ["kymatio/scattering1d/frontend/base_frontend.py:106-236", "kymatio/scattering1d/backend/numpy_backend.py:pad", "kymatio/backend/numpy_backend.py:cdgmm", "kymatio/scattering2d/frontend/numpy_frontend.py:16-52", "kymatio/scattering3d/frontend/numpy_frontend.py:22-52"]}
{"id": "C102", "title": "Memory layout of torch inputs", "statement": "The torch backends refuse tensors that are not contiguous (`contiguous_check`) and use `view`, but whether a caller can see that depends on the transform and on the entry point. For every object, signal, volume and every memory layout of the input tensor, the method `scattering` of the 1-D, 3-D and joint time-frequency objects does exactly what it does on a contiguous tensor: no contiguity check and no `view` inside fails, although intermediate results such as `irfft(...).real` are strided views. `scattering` of a 2-D object refuses every non-contiguous image with RuntimeError before looking at its size, and no check inside fails for a contiguous image. Calling the object (`forward`, documented as an alias of `scattering`) refuses every non-contiguous tensor with RuntimeError, so it is an alias on contiguous tensors only.", "quantifier": "all constructor arguments, inputs and layouts (contiguous or not)", "why_tests_cant": "Tests pass contiguous random tensors; whether a view reaches a checked operation depends on the path taken through averaging, format, out_type and order, and on every combination of these.", "anchors": ["kymatio/backend/torch_backend.py", "kymatio/scattering1d/backend/torch_backend.py", "kymatio/scattering2d/backend/torch_backend.py", "kymatio/scattering3d/backend/torch_backend.py", "kymatio/scattering1d/frontend/torch_frontend.py", "kymatio/scattering2d/frontend/torch_frontend.py", "kymatio/scattering3d/frontend/torch_frontend.py", "kymatio/frontend/torch_frontend.py"]}
{"id": "C103", "title": "Dtype and device of torch inputs", "statement": "For every torch object whose filters have one dtype (float32 or float64) and one device, after construction or after S.to(...), S.double(), S.cuda(): on an input of that dtype and device the transform does what it does when dtypes and devices are ignored, and every coefficient has that dtype and device; on an input of another dtype or device it raises TypeError whenever it would return on one of the same kind and multiplies by at least one filter. The 3-D result violates the first part: it is float32 on the device of the input whatever the dtype, and its documented DoubleTensor is refused by an object as constructed.", "quantifier": "all objects, inputs, dtypes float32/float64, devices", "why_tests_cant": "tests use float32 on one device and check single mismatches in cdgmm only", "anchors": ["kymatio/backend/torch_backend.py:191-204", "kymatio/scattering3d/backend/torch_backend.py:146-151", "kymatio/scattering3d/frontend/torch_frontend.py:24-42", "kymatio/scattering1d/frontend/torch_frontend.py:register_filters"]}
{"id": "C104", "title": "Attributes assigned after construction", "statement": "Assigning max_order or out_type (1-D, 2-D), max_order, rotation_covariant, integral_powers, method (3-D), out_type or format (joint time-frequency), any number of times and in any order, gives an object whose calls return or raise exactly what an object constructed with the last assigned values returns or raises. In 3-D the same holds for J and L as long as they do not exceed the constructor's, and with a larger J or L no call returns.", "quantifier": "all objects, all lists of assignments, all inputs; numpy and torch in 2-D and 3-D", "why_tests_cant": "the tests assign a few values on a few objects; the claim is about every sequence of assignments and every input", "anchors": ["kymatio/scattering1d/frontend/base_frontend.py:106-158", "kymatio/scattering2d/frontend/numpy_frontend.py", "kymatio/scattering3d/frontend/numpy_frontend.py", "tests/scattering3d/test_torch_scattering3d.py"]}
{"id": "C105", "title": "Properties of the objects", "statement": "The computed attributes (Q, T, F, stride, stride_fr, average, average_fr, filterbank, filterbank_fr, log2_T, log2_F, log2_stride, log2_stride_fr, oversampling, M, N) are read-only in every frontend, and the deprecated ones still have the value they stand for: oversampling is the constructor argument, M and N are the sides of the image.", "quantifier": "all frontends and objects", "why_tests_cant": "the tests read none of the deprecated attributes of 2-D objects; attribute lookup depends on the linearisation of each class", "anchors": ["kymatio/scattering1d/frontend/base_frontend.py:239-299", "kymatio/scattering1d/frontend/base_frontend.py:721-759", "kymatio/scattering2d/frontend/base_frontend.py:42-52"]}
{"id": "C106", "title": "Rebuilding an object from its parameters", "statement": "The object constructed from the parameters of an object S (the attributes named like the constructor parameters, as BaseEstimator.get_params and sklearn.base.clone read them) computes the same as S on every input.", "quantifier": "all 1-D and joint time-frequency objects, all inputs", "why_tests_cant": "no test clones an object; whether the parsed attributes are accepted again depends on every combination of T, F, J, stride, oversampling and shape", "anchors": ["kymatio/scattering1d/frontend/base_frontend.py:51-80", "kymatio/scattering1d/frontend/base_frontend.py:239-299", "kymatio/frontend/sklearn_frontend.py", "kymatio/scattering1d/frontend/sklearn_frontend.py"]}
{"id": "C107", "title": "Parameters that only add coefficients", "statement": "In HarmonicScattering3D the coefficient of a path, an angular order l and an integral power has the same value whatever J, L, max_order and the list of powers of the object, as long as the path, l and the power occur. In Scattering1D the zeroth and first orders have the same values whatever the second quality factor Q2.", "quantifier": "all 3-D objects with the same shape, sigma_0 and rotation_covariant; all 1-D objects that differ in Q2 only; all inputs", "why_tests_cant": "tests use one or two settings of J, L and Q and compare each with stored coefficients; none compares two settings with one another, and the low-pass levels computed at construction depend on all filters", "anchors": ["kymatio/scattering3d/core/scattering3d.py", "kymatio/scattering1d/filter_bank.py:scattering_filter_factory", "kymatio/scattering1d/core/scattering1d.py"]}
{"id": "C108", "title": "Which exception a constructor raises", "statement": "Scattering1D raises IndexError for shape=() and ValueError for any other shape that is not an int or a 1-tuple; with a valid shape it raises ValueError when T is not None, 'global', 0 or a number between 1 and N, or when oversampling is not None or a nonnegative integer compatible with the stride; then ValueError when Q is not an int >= 1 or a tuple of such, NotImplementedError when that tuple has another length than 1 or 2; otherwise, with Q1 >= Q2 and 2**J at most the padded length, it returns, whatever stride was passed. The joint time-frequency constructor refuses whatever the 1-D one refuses with the same exception, then ValueError or NotImplementedError for Q_fr, ValueError for F. Scattering2D raises RuntimeError exactly when a side is below 2**J.", "quantifier": "all constructor arguments", "why_tests_cant": "tests try one or two invalid values per argument and never two at once", "anchors": ["kymatio/scattering1d/frontend/base_frontend.py:37-104", "kymatio/scattering1d/frontend/base_frontend.py:272-300", "kymatio/scattering1d/frontend/base_frontend.py:539-579", "kymatio/scattering1d/utils.py:parse_T", "kymatio/scattering2d/frontend/base_frontend.py:19-36"]}
{"id": "C109", "title": "Global averaging", "statement": "With T='global' the coefficient of every path is the average over time of what T=0 computes for the same path; in particular the zeroth coefficient of a constant signal is the constant.", "quantifier": "all 1-D objects, all signals", "why_tests_cant": "the tests of T='global' only look at the shape of the output on a zero signal", "anchors": ["kymatio/scattering1d/frontend/base_frontend.py:125-140", "kymatio/scattering1d/backend/numpy_backend.py:average_global", "kymatio/scattering1d/backend/torch_backend.py:average_global", "kymatio/scattering1d/backend/tensorflow_backend.py:average_global"]}
{"id": "C110", "title": "Order zero is linear, the moduli are non-negative and subadditive", "statement": "The zeroth-order coefficient is a linear function of the input, in 1-D and in joint scattering for every kind of averaging, and in 2-D. Without local averaging (T=0 or T='global') every 1-D coefficient of order one and two is non-negative, and a first-order coefficient of x+y is at most the sum of those of x and of y. Joint scattering is non-negative without local averaging along frequency at order one, and without any local averaging at order two. Every 3-D coefficient is non-negative, and the q-th root of a first-order 3-D coefficient to a power q >= 1 is subadditive.", "quantifier": "all accepted constructor arguments (joint scattering: Q1 >= Q2), list output, all inputs of the declared shape, all real factors, all samples", "why_tests_cant": "Tests compare a few fixed signals with stored values; linearity, sign and subadditivity are statements about all inputs and all pairs of inputs.", "anchors": ["kymatio/scattering1d/core/scattering1d.py:40-109", "kymatio/scattering1d/core/timefrequency_scattering.py:380-430", "kymatio/scattering2d/core/scattering2d.py:4-70", "kymatio/scattering3d/core/scattering3d.py:1-75"]}
{"id": "C111", "title": "Coefficients averaged over T are nearly invariant to translations shorter than T", "statement": "When the padded signal is rolled by c samples, c a multiple of the step of the last modulus of a path and that step at most T, the locally averaged coefficients of the path move, in Euclidean norm, by at most 0.77 |c| / T times the norm of that modulus (the signal itself at order zero). The norm of the modulus is at most that of the signal at order one, and at most 2^min(j1, log2_stride) times it at order two.", "quantifier": "all accepted constructor arguments with local averaging, all padded signals, all shifts c divisible by the step of the last modulus, all paths of all orders, every output stride", "why_tests_cant": "Tests check that a few coefficients of one shifted signal are close. The bound for every signal and every shift rests on a bound of the aliased Gaussian over all of its frequencies, for every length and every support.", "anchors": ["kymatio/scattering1d/core/scattering1d.py:40-109", "kymatio/scattering1d/filter_bank.py:51-103", "kymatio/scattering1d/filter_bank.py:322-404"]}
{"id": "C112", "title": "1-D scattering is Lipschitz in the Euclidean norm", "statement": "For two signals of the declared length, the coefficients of a path with local averaging differ in Euclidean norm by at most 1.001 sqrt(3) times the norm of the difference of the signals at orders zero and one, and 2^min(j1, log2_stride) times this at order two, as long as the step of the last modulus is at most T. With T=0 the constants are sqrt(3) and 2^j1 sqrt(3); with T='global' each sum moves by at most this times the square root of the number of samples summed. When the padded length is at least 2^(J+4), Q2 <= 2^J and the stride is at most T, the constant is 1.77 for all paths of all orders.", "quantifier": "all accepted constructor arguments, list output, all pairs of signals of the declared length, all paths", "why_tests_cant": "Stability is an inequality over all pairs of signals; a test evaluates single pairs.", "anchors": ["kymatio/scattering1d/core/scattering1d.py:40-109", "kymatio/scattering1d/frontend/base_frontend.py:88-150", "kymatio/scattering1d/backend/numpy_backend.py:35-115", "kymatio/scattering1d/filter_bank.py:51-103"]}
{"id": "C113", "title": "The whole 1-D scattering network is contractive", "statement": "For two signals of the declared length, the Euclidean distance between their outputs, all coefficients of all paths taken together, is at most the distance between the signals (user guide: the wavelet transform is contractive, and so is the complex modulus, so the whole network is contractive).", "quantifier": "all accepted constructor arguments, list or array output, all pairs of signals of the declared length", "why_tests_cant": "Contractivity is an inequality over all pairs of signals and sums over all paths; a test evaluates single pairs and single objects.", "anchors": ["doc/source/userguide.rst:20-26", "kymatio/scattering1d/core/scattering1d.py:2-109", "kymatio/scattering1d/frontend/base_frontend.py:88-150", "kymatio/scattering1d/filter_bank.py:64-151", "kymatio/scattering1d/filter_bank.py:306-400"]}
{"id": "C114", "title": "The wavelets cover the frequency axis between pi/2^J and pi", "statement": "Every frequency between 1/2^(J+1) and 1/2 cycles per sample (pi/2^J and pi) is covered by the filter bank: the Gaussian profile of some wavelet is at least r_psi = sqrt(0.5) there, the level at which adjacent wavelets are meant to meet (docstrings of compute_sigma_psi and anden_generator: 'to ensure a correct coverage of the whole frequency axis', 'full coverage of the Fourier domain between pi/2**J and pi').", "quantifier": "all J >= 0, all Q >= 1, all real frequencies in the interval", "why_tests_cant": "Coverage is a statement about a continuum of frequencies and all pairs (J, Q); a test samples a grid of frequencies for a few filter banks.", "anchors": ["kymatio/scattering1d/filter_bank.py:104-139", "kymatio/scattering1d/filter_bank.py:233-311"]}
{"id": "C115", "title": "An input that is not an array is refused with TypeError", "statement": "Calling a scattering object on something that is not an array of its framework (None, a list, a number, an array of another framework) raises TypeError, the exception that the input checks name ('The input should be not empty.', 'The input should be a numpy array', 'The input should be a PyTorch Tensor.', 'The input should be convertible to a TensorFlow Tensor.'); an array of the framework passes the checks unchanged.", "quantifier": "all objects of the kinds None, array of numpy, tensor of torch, anything else; all frontends; 1-D, 2-D, 3-D and time-frequency", "why_tests_cant": "The tests only call the 2-D objects with None; the claim is about every kind of input to every frontend.", "anchors": ["kymatio/backend/numpy_backend.py:11-20", "kymatio/backend/jax_backend.py:13-16", "kymatio/backend/torch_backend.py:101-107", "kymatio/frontend/torch_frontend.py:13-18", "kymatio/scattering2d/frontend/numpy_frontend.py:16-18", "kymatio/scattering3d/frontend/numpy_frontend.py:22-24", "kymatio/scattering1d/frontend/base_frontend.py:232-237"]}
{"id": "C116", "title": "Local averages keep signs and order", "statement": "With local averaging in 1-D (1 <= T, or T=None) the coefficients of order one and two are non-negative, the coefficients of order zero of a non-negative signal are non-negative, the coefficients of order zero of a larger signal are larger, and the coefficients of order one of a sum of two signals are at most the sum of their coefficients: each up to 1e-21 per sample of the padded signal, times the size of the signals.  (The tolerance is there because the filter in frequency is a truncated sum of Gaussians, so its impulse response is a positive function plus the transform of the discarded terms.)", "quantifier": "all constructed objects with local averaging, all signals of their length, all paths, all output samples", "why_tests_cant": "A test sees a few signals, and one that finds -1e-19 cannot tell rounding from a filter whose impulse response changes sign; the claim is about every T and every signal.", "anchors": ["kymatio/scattering1d/filter_bank.py:6-48", "kymatio/scattering1d/filter_bank.py:51-103", "kymatio/scattering1d/core/scattering1d.py:47-51", "kymatio/scattering1d/core/scattering1d.py:71-78"]}
{"id": "C117", "title": "Small translations of an image change its coefficients by little", "statement": "When the padded image is rolled by s rows and t columns, both multiples of the step 2^j of the last modulus of a path (of nothing, for order zero), the coefficients of the path move in the Euclidean norm by at most 2(|s|+|t|)/2^J times the norm of the image and one gain of a wavelet (2.001 with four or more angles, 15 with fewer) per modulus.  So the scale J is the range over which Scattering2D is invariant: doubling 2^J halves the change.", "quantifier": "all accepted 2-D objects with pre_pad, all padded images, all shifts (of either sign and of any size) that are multiples of 2^j, all paths", "why_tests_cant": "A test compares a few shifts of a few images to a threshold picked by looking; the bound holds for every J and L and every image, and a wrong width of the low-pass filter or a level of the wrong resolution breaks it.", "anchors": ["kymatio/scattering2d/filter_bank.py:45-51", "kymatio/scattering2d/filter_bank.py:56-90", "kymatio/scattering2d/filter_bank.py:132-175", "kymatio/scattering2d/core/scattering2d.py:14-78"]}
{"id": "C118", "title": "Local averages of images keep signs and order", "statement": "The order-zero coefficients of a non-negative image are non-negative, a brighter image has larger ones, and those of an image between -B and B are between -1.001 B and 1.001 B.  The first-order coefficients of the finest wavelets (j = 0) are non-negative, and those of a sum of two images are at most the sum of theirs.  All of this is exact, with no tolerance: the filter of full resolution is the transform of a sum of Gaussians, so its impulse response is non-negative.", "quantifier": "all accepted 2-D objects, with or without pre_pad, all images, all paths of order zero and of order one with j = 0, all output pixels", "why_tests_cant": "A negative coefficient in a test may be rounding; the claim is that the exact value is never negative, for every size, J and image.", "anchors": ["kymatio/scattering2d/filter_bank.py:45-51", "kymatio/scattering2d/filter_bank.py:132-175", "kymatio/scattering2d/core/scattering2d.py:14-51"]}
{"id": "C119", "title": "F may be a float like T", "statement": "parse_T documents both T and F as None, a string, 0 or a float >= 1.  A TimeFrequencyScattering object built with a float F can be called, and returns what the integer of the same value gives.", "quantifier": "all accepted joint objects, all F, numpy and torch, all signals", "why_tests_cant": "The tests pass F as an integer, None, 0 or 'global'; that no call ever returns after a float F between 1 and 2**J_fr is a statement about all objects and signals.", "anchors": ["kymatio/scattering1d/utils.py:71-114", "kymatio/scattering1d/frontend/base_frontend.py:557-579", "kymatio/scattering1d/core/timefrequency_scattering.py:246-248", "kymatio/scattering1d/backend/numpy_backend.py:116-118", "kymatio/scattering1d/backend/torch_backend.py:150-169"]}
{"id": "C120", "title": "Integers computed through floating-point numbers are exact", "statement": "The constructors compute integers with floating-point numbers: log2_T, log2_stride and J_pad with a floating-point logarithm, the j of a filter, the mask, crop and middle angle of the 2-D filters with products and quotients.  Rounding does not change any of them: they are the integers of exact arithmetic.", "quantifier": "all platforms whose double-precision operations leave doubles unchanged and whose log2 has a relative error of at most 2^-50 and is exact at powers of two (in particular correctly rounded operations); all sizes below 2^44/3, all integer T, all strides below 2^44, all image sizes with side times 2^res below 2^53", "why_tests_cant": "One wrong rounding at one size changes a padded length or a resolution by a factor of two; tests see a few sizes on one platform.", "anchors": ["kymatio/scattering1d/frontend/base_frontend.py:63-98", "kymatio/scattering1d/frontend/base_frontend.py:256-274", "kymatio/scattering1d/frontend/base_frontend.py:738-755", "kymatio/scattering1d/filter_bank.py:230-232", "kymatio/scattering2d/filter_bank.py:35", "kymatio/scattering2d/filter_bank.py:77-89"]}
{"id": "C121", "title": "Coefficients of joint time-frequency scattering are non-negative", "statement": "Every coefficient of joint time-frequency scattering beyond order zero is an average of moduli, so it is non-negative; order zero is non-negative when the signal is.  Without local averaging (T and F each 0 or 'global') this is exact.  With local averaging in time or frequency a coefficient of a signal bounded by B is at least -(1e-21 (N_fr (1 + 1e-21 N) + G_fr N)) G B, where N and N_fr are the padded lengths, and G, G_fr the gains of the temporal and frequential stages of C98.", "quantifier": "all accepted arguments with Q[0] >= Q[1] and list output, in both formats, all signals of the input length, all paths beyond order zero (all paths for a non-negative signal), all positions", "why_tests_cant": "A negative coefficient in a test may be rounding; the claim bounds the exact value from below for every size, J, J_fr, Q, T, F, stride and signal.", "anchors": ["kymatio/scattering1d/core/timefrequency_scattering.py:192-373", "kymatio/scattering1d/core/timefrequency_scattering.py:395-444", "kymatio/scattering1d/filter_bank.py:51-103"]}
{"id": "C122", "title": "Rounding errors of 1-D scattering stay bounded", "statement": "When every array operation of the backend (FFT, product with a filter, block mean, inverse FFT, modulus, sum) is computed with a relative error of at most delta in Euclidean norm, the call returns exactly when the exact computation returns, with the same labels and lengths, and the coefficients of order m are within sqrt(3) 1.001 ((1+delta)^(5m+4) - 1) times the norm of the signal of the exact ones (2^min(j1, log2_stride) times this at order two).  With T = 0 the bound is sqrt(3) ((1+delta)^(5m) - 1) (2^j1 times this at order two), and with T = 'global' the exponent is 5m+1 and there is a factor of the square root of the number of samples summed.  When the padded length is at least 2^(J+4), Q2 <= 2^J and the stride is at most T, the constant is 1.77 for all paths.  The bounds do not depend on the length of the signal.", "quantifier": "all accepted arguments with list output (all output types for which calls return), all signals, all deltas >= 0, all rounded operations with this accuracy on arrays up to the padded length, all paths whose last modulus has a step of at most T when averaging locally", "why_tests_cant": "Tests compare with stored coefficients on a few signals in one precision; the claim bounds the error for every signal, length, J, Q, T, stride and every way of rounding.", "anchors": ["kymatio/scattering1d/core/scattering1d.py:2-107", "kymatio/scattering1d/backend/numpy_backend.py:5-114", "kymatio/backend/numpy_backend.py:44-95"]}
{"id": "C123", "title": "Rounding errors of 2-D scattering stay bounded", "statement": "When every array operation of the 2-D numpy backend (FFT, product with a filter, block mean, inverse FFT, modulus) is computed with a relative error of at most delta in Euclidean norm, the call returns exactly when the exact computation returns, with the same labels and shapes, and a coefficient of order m is within 1.001 G^m ((1+delta)^(5m+4) - 1) P times the norm of the image of the exact one, with G = 2.001 for at least four angles and 15 otherwise, and P = 1 with pre_pad and 4 without.  The bound does not depend on the size of the image, on J or on the path.", "quantifier": "all accepted arguments (both output types, with and without pre_pad), all images of the declared shape, all deltas >= 0, all rounded operations with this accuracy on images up to the padded size, all paths", "why_tests_cant": "Tests compare with stored coefficients of one image in one precision; the claim bounds the error for every image, size, J, L and every way of rounding.", "anchors": ["kymatio/scattering2d/core/scattering2d.py:1-91", "kymatio/scattering2d/backend/numpy_backend.py:48-99", "kymatio/backend/numpy_backend.py:44-95"]}
{"id": "C124", "title": "Rounding errors of 3-D scattering stay bounded", "statement": "When every array operation of the 3-D numpy backend (FFT, product with a filter, inverse FFT, modulus, accumulation of moduli over the components) is computed with a relative error of at most delta in Euclidean norm, and every integral with a relative error of at most eta, the call raises exactly the errors of the exact computation and otherwise returns the same number of coefficients in the same arrangement.  For an integral power q >= 1, the q-th root of a computed coefficient is within V^max(1/q - 1/2, 0) ((1+eta)(1+delta)^n - 1) times the Euclidean norm of the volume of that of the exact one, where V is the number of cells and n, the number of rounded operations, is 2l+4 per modulus with rotation covariance and 4 without; for 0 < q <= 1 the coefficient itself is within V^(1-q/2) (eta + (1+eta)((1+delta)^n - 1)^q) times the q-th power of the norm.", "quantifier": "all arguments with sigma_0 > 0, all volumes of the declared shape, all orders and paths, all integral powers q > 0, all deltas and etas >= 0 (eta <= 1 for q >= 1), all rounded operations with this accuracy, all functions in place of sph_harm whose squared moduli over the orders add up to at most (2l+1)/(4 pi)", "why_tests_cant": "Tests compare with stored coefficients of one volume in one precision; the claim bounds the error for every volume, shape, J, L, power and every way of rounding.", "anchors": ["kymatio/scattering3d/core/scattering3d.py:1-75", "kymatio/scattering3d/backend/numpy_backend.py:6-69", "kymatio/backend/numpy_backend.py:44-95"]}
{"id": "C125", "title": "Calling build and create_filters again", "statement": "On a constructed 1-D or time-frequency object, assigning attributes (J, shape, max_order, out_type, _Q, _T, _stride; for time-frequency scattering also J_fr, Q_fr, _F, _stride_fr, format) and then calling build() and create_filters() leads to the object that the constructor makes of the new values, or to the error it raises.  In particular calling the two methods again without an assignment changes nothing.", "quantifier": "all constructor arguments, all sequences of assignments, all signals", "why_tests_cant": "No test calls build or create_filters on a constructed object; the methods are public and replace attributes that they read (shape, _stride, Q_fr), so whether a second call sees the same values depends on every branch of the parsing.", "anchors": ["kymatio/scattering1d/frontend/base_frontend.py:37-104", "kymatio/scattering1d/frontend/base_frontend.py:539-579", "kymatio/scattering1d/frontend/numpy_frontend.py:7-36"]}
{"id": "C126", "title": "Rounding errors of joint time-frequency scattering stay bounded", "statement": "When every array operation of the numpy backend used by time-frequency scattering (FFT, product with a filter, block mean, inverse FFT, modulus, sum, on signals and on stacks of signals) is computed with a relative error of at most delta in Euclidean norm, the call returns exactly when the exact computation returns, with the same kind of output, labels and shapes.  A coefficient of positive order is off, in Euclidean norm, by at most sqrt(3) sqrt(n1) 2^log2_stride A A_fr ((1+delta)^(14+a+a_fr) - 1) times the norm of the signal, n1 being the number of first-order wavelets.  For a local average a = 4 and A = 2^log2_stride, for a global one a = 1 and A = sqrt(padded length), without averaging a = 0 and A = 1; likewise along frequency.  The zeroth order is off by at most sqrt(3) A ((1+delta)^a - 1) times the norm, with A = 1 for a local average.", "quantifier": "all accepted arguments, all output types and formats, all averaging modes along time and frequency, all signals, all deltas >= 0, all rounded operations with this accuracy on arrays up to the padded lengths, all paths", "why_tests_cant": "The tests of time-frequency scattering check shapes and labels and a few values in double precision; the claim bounds the error for every signal, every constructor argument and every way of rounding.", "anchors": ["kymatio/scattering1d/core/timefrequency_scattering.py:4-444", "kymatio/scattering1d/backend/numpy_backend.py:5-132", "kymatio/scattering1d/frontend/base_frontend.py:581-648"]}
{"id": "C127", "title": "A negative J is rejected when the object is constructed", "statement": "Constructing a 1-D, 2-D or 3-D scattering object with a negative J raises an exception, so that no object exists whose calls fail or whose filterbank is not the documented one.", "quantifier": "all negative integers J, all shapes, all other accepted constructor arguments, all signals and volumes", "why_tests_cant": "No test passes a negative J; the claim is about every negative integer, every shape and every combination of T, stride and out_type.", "anchors": ["kymatio/scattering1d/frontend/base_frontend.py:16-104", "kymatio/scattering1d/filter_bank.py:254-404", "kymatio/scattering1d/utils.py:71-108", "kymatio/scattering1d/core/scattering1d.py:38-49", "kymatio/scattering2d/frontend/base_frontend.py:19-36", "kymatio/scattering2d/utils.py:21-22", "kymatio/scattering3d/frontend/base_frontend.py:22-30", "kymatio/scattering3d/filter_bank.py:32-70"]}
{"id": "C128", "title": "Joint time-frequency scattering is Lipschitz in the Euclidean norm", "statement": "For two signals of the same length the call of TimeFrequencyScattering returns for both or for neither, with the same labels and shapes, and every coefficient moves in Euclidean norm by at most a constant times the distance of the signals. At order zero the constant is sqrt(3) with local averaging or none, and sqrt(3 N) with a global average over N padded samples. Beyond, it is sqrt(3 n1) 2^log2_stride A A_fr, where n1 is the number of first-order wavelets, A is 2^log2_stride, sqrt(N) or 1 with local, global or no temporal averaging, and A_fr likewise 2^log2_stride_fr, sqrt(N_fr) or 1. So the norm of every coefficient is at most the same constant times the norm of the signal.", "quantifier": "all accepted arguments of the constructor with numpy, all pairs of signals of the same length, all types and formats of output, all paths", "why_tests_cant": "Tests run single signals; the bound is for all pairs of signals and all parameters, and a constant that holds for random signals may fail for the worst pair.", "anchors": ["kymatio/scattering1d/core/timefrequency_scattering.py:7-413", "kymatio/scattering1d/frontend/base_frontend.py:572-642", "kymatio/scattering1d/backend/numpy_backend.py:5-132"]}
{"id": "C129", "title": "Short translations move joint time-frequency scattering little", "statement": "When the padded signal is translated circularly by c samples, where c is a multiple of the steps by which the wavelets subsample, and the average over time is local with scale T, the coefficients keep their labels and shapes and move in Euclidean norm by at most 0.77 |c|/T ||x|| at order zero and at most 0.79 |c|/T sqrt(n1) A_fr ||x|| beyond, where n1 is the number of first-order wavelets and A_fr is 1.001, sqrt(N_fr) or 1 with local, global or no average over log-frequency. Every multiple of 2^(J-1) is such a c when Q2 <= Q1.", "quantifier": "all accepted arguments of the constructor with numpy and local average over time with Q2 <= 2^J and padded length at least 2^(J+4), all padded signals, all translations by multiples of the steps, all paths, all formats", "why_tests_cant": "Tests compare the output for a translated signal with a tolerance at one scale; the bound is linear in |c|/T for all signals and all scales.", "anchors": ["kymatio/scattering1d/core/timefrequency_scattering.py:7-413", "kymatio/scattering1d/frontend/base_frontend.py:572-642", "kymatio/scattering1d/filter_bank.py:51-102"]}
{"id": "C130", "title": "A negative J_fr is rejected when the object is constructed", "statement": "Constructing a TimeFrequencyScattering object with a negative J_fr raises an exception, so that no object exists none of whose calls returns.", "quantifier": "all negative integers J_fr, all other accepted constructor arguments, all signals, numpy and torch", "why_tests_cant": "No test passes a negative J_fr; the claim is about every negative integer and every combination of the other arguments.", "anchors": ["kymatio/scattering1d/frontend/base_frontend.py:525-579", "kymatio/scattering1d/core/timefrequency_scattering.py:240-250", "kymatio/scattering1d/backend/numpy_backend.py:116-118", "kymatio/scattering1d/backend/torch_backend.py:146-169", "kymatio/scattering1d/filter_bank.py:254-404"]}
{"id": "C131", "title": "A length that is not positive is rejected when the object is constructed", "statement": "Scattering1D and TimeFrequencyScattering raise ValueError when shape is an integer N <= 0 or the tuple (N,), whatever the other arguments are. A positive integer as shape gives the object built for this number of samples.", "quantifier": "all integers as shape or as the only entry of shape, all other constructor arguments", "why_tests_cant": "No test passes a shape that is not positive. Nothing checks the sign: the exception comes from an inverse transform of an empty array inside the computation of the padding, so the claim depends on the order of all the steps before.", "anchors": ["kymatio/scattering1d/frontend/base_frontend.py:37-104", "kymatio/scattering1d/frontend/base_frontend.py:539-541", "kymatio/scattering1d/filter_bank.py:6-102", "kymatio/scattering1d/utils.py:71-108"]}
{"id": "C132", "title": "Stability of scattering computed with torch", "statement": "For the torch objects: corresponding 2-D coefficients of order m of two images differ in Euclidean norm by at most 1.001 * G**m * P times the distance of the images, with G = 2.001 for at least four angles and 15 below, and P = 1 with pre_pad and 4 without; with pre_pad a translation by (s, t) along strides dividing s and t moves a coefficient by at most 2 (|s| + |t|) / 2**J * G**m times the norm of the image; coefficients of the finest wavelets are not negative, nor is order zero of a non-negative image; order zero is at most 1.001 times the largest absolute pixel. TimeFrequencyScattering has the Lipschitz constants stated in C128 whenever the first-order paths fit in the padded frequency axis and T='global' is not combined with format='joint'.", "quantifier": "all arguments for which the torch transform returns (with the stated conditions for the joint transform), all pairs of images with out_type list and of signals of the same length, all paths", "why_tests_cant": "Tests run the torch objects on single random inputs; the bounds are for all pairs of inputs and all parameters.", "anchors": ["kymatio/scattering2d/core/scattering2d.py:scattering2d", "kymatio/scattering2d/backend/torch_backend.py", "kymatio/scattering2d/frontend/torch_frontend.py", "kymatio/scattering1d/core/timefrequency_scattering.py:7-413", "kymatio/scattering1d/backend/torch_backend.py"]}
