# Design

Formal model (Lean 4 + Mathlib) of kymatio at the pinned commit, and proofs of the
properties listed in `properties.jsonl`.  The code in `/repo` is read as text only.

## Approach

* **Model** (`lean/Verif/Model/*`): function-by-function transcription of the Python
  code.  Every definition cites file and lines.  Python exceptions are values of
  `Except PyErr`.  Integers are unbounded (`Nat`/`Int`), floats are exact reals
  (`Real`) or rationals, arrays are lists (or, for images, extensional 2-D arrays).
* The scattering cores (`scattering1d`, `timefrequency_scattering`, `scattering2d`,
  `scattering3d`) take the backend as a parameter, exactly as the Python code does.
  The model keeps that: a `Backend` record of operations.  Instances: the numpy
  backend on complex arrays, the torch backend on pairs of reals, the dry backend
  used by `meta()`, a shape backend (only sizes), and a time-domain *specification*
  backend in which filtering is circular convolution and subsampling is decimation.
* One **simulation theorem** per core: if two backends are related operation by
  operation, the two runs of the core yield the same paths with related
  coefficients.  Most laws (closed form, covariance, homogeneity, batch
  independence, cross-backend equality, shapes) are instances.
* **Specifications** are stated directly with sums, moduli, set membership and
  arithmetic, not with the helpers of the model.
* **Props** (`lean/Verif/Props/*`): one theorem (or few) per property, each with an
  `example` showing that its hypotheses can be met.  Helper lemmas live in
  `lean/Verif/Lemmas/*`.

## Plan per property

| id | modelled | how proved |
|----|----------|-----------|
| C01 | `build` padding arithmetic (`Nat.log`, `Nat.clog`) | arithmetic on logs, no bounds |
| C02 | `compute_padding` | case analysis |
| C03 | `compute_border_indices` loop building two dictionaries | induction on j, equality with ceiling division |
| C04 | numpy `pad`/`unpad` on lists | list extensionality with reflect index map |
| C05 | unpadding indices + core shapes | C03 + counting multiples in an interval |
| C06 | `parse_T`, T rational | case analysis |
| C07 | `log2_stride`, `log2_T` | power-of-two characterisation |
| C08 | oversampling branch of `build` | negation by witness; partial: no stride given |
| C09 | `Q` property over an inductive type of Python values | case analysis |
| C10 | `subsample_fourier` (reshape + mean) and DFT over C | geometric sums of roots of unity |
| C11 | `rfft`, `ifft`, `cdgmm` | DFT inversion and convolution theorem |
| C12 | `scattering_filter_factory` levels (reshape + sum) | same identity |
| C13 | whole `scattering1d` | simulation with time-domain backend |
| C14 | `scattering1d` path stream; at the level of constructed objects with the banks in closed form (`C14_object`) | induction over filter lists |
| C15 | `meta`, `output_size` | simulation with dry backend + sortedness |
| C16 | `scattering` of the frontend, three output types | sorting lemma, dict = association list |
| C17 | factory level counts + core lookups + real filter design | shape backend + real analysis; negation for Q1<Q2 |
| C18 | core + circular shift | simulation indexed by resolution |
| C19 | core + scaling | simulation |
| C20 | morlet design + core | zero DC gain |
| C21 | morlet design + core | L1 norm bound |
| C22 | batched backend, reshape | simulation "component i" |
| C23 | torch cdgmm / modulus / subsample on pairs | simulation |
| C24 | `anden_generator` loops | while-loop semantics with fuel, termination proved |
| C25 | same | bound on exit step |
| C26 | `get_max_dyadic_subsampling` | floor/log |
| C27 | `_check_filterbanks` | real inequalities; negation with witness |
| C28 | `morlet_1d`, `gauss_1d` | algebra on DFT |
| C29 | `adaptive_choice_P` | exp/log inequality |
| C30 | `compute_temporal_support` | sums |
| C31 | `compute_sigma_psi`, `compute_xi_max` | exp/log identities |
| C32-C37 | `timefrequency_scattering.py`, JTFS frontend; the keys of constructed objects (`C32_object`) | path streams by induction; shape backend; negations by witness |
| C38-C44 | 2-D frontend, core, filter bank, pads | arithmetic, 2-D DFT, simulation |
| C45-C49 | 3-D core, backend, grid | list algebra, DFT on finite abelian groups |
| C63-C70 | whole 3-D transform, torch, batches, filters, `utils.py` | evaluation of the core to an explicit list; 3-D convolution theorem |
| C58 | whole 2-D transform | simulation with pixel-domain backend |
| C59 | torch 2-D operations on pairs | simulation both ways |
| C60, C61, C62 | `build`, crop in `scattering`, `spin` | arithmetic, case analysis |
| C50 | torch `register_filters`/`load_filters` | counter-threading induction over filter tree |
| C51 | entry / backend selection | decision logic on strings |
| C52 | sklearn mixin | list chunking |
| C53, C79 | Keras layers: `compute_output_shape`, `call`, `get_config` | composition of the array, length and count theorems; negations for whole classes of arguments |
| C54 | caching | decision logic |
| C55 | `ModulusStable` forward/backward | Frechet/partial derivatives |
| C80 | JTFS with torch | simulation between backends for the joint transform, both ways; negation for a class of arguments |
| C81 | JTFS of a multiple of a signal | simulation of the numpy backend with itself, index = number of moduli |
| C82 | JTFS of a translated signal | simulation of the numpy backend with itself; the relation records whether time is the last axis and whether it is in the Fourier domain |
| C83 | 2-D transform of the transposed image | closed form of C58 on both objects; Morlet at `theta + pi` is the conjugate |
| C84 | 1-D transform of the reversed signal | simulation of the numpy backend with itself, conjugate spectra; composed with C18 for the shift by one sample |
| C85 | `max_order` only adds coefficients, in 1-D, 2-D and 3-D | the first-order loop does not read `max_order`; stable sort splits by order |
| C86 | 2-D filters are rotations and dilations of one Gabor function | independent definition of the mother function and of periodisation in `Spec/Image.lean` |
| C87 | 1-D filters and their parameters in closed form, including the frequential filters of JTFS (`C87_jtfs`) | independent definitions in `Spec/Filters1D.lean`, shown to determine the filters |
| C88 | joint time-frequency scattering on arrays of any batch shape, scikit-learn class | simulation of the numpy operations on one signal by the array operations, in both directions (`Lemmas/NdJTFS`) |
| C89 | rows and columns of `meta()` of joint time-frequency scattering | dry run and real run carry the same path data; sortedness of the first-order scales makes stacks initial segments of the bank |
| C90 | dtype checks and the TensorFlow frontend of joint time-frequency scattering | simulation between tagged and typed arrays in both directions; assembly commutes with wrapping |
| C91 | half a turn of a 2-D image | simulation of the numpy backend with itself: conjugate spectra, real filters |
| C92 | central inversion of a 3-D volume | closed form of C63; the conjugates of the wavelets of one angular order are the same wavelets up to order and sign |
| C93 | Lipschitz constants of the 1-D coefficients in the uniform norm | closed form of C13, L1 norms of C21, samples of a response at step `2^k` sum to at most its L1 norm |
| C94 | exactly when the 1-D, 2-D and 3-D transforms return | sufficiency from C17, C40, C63; necessity by inverting the run |
| C95 | linearisation of classes, dispatch of `scattering`, JAX, scikit-cuda and scikit-learn classes, `super` | invariant of the class table by induction over the class statements; merge of lists by induction |
| C96 | binding of arguments, constructors of all frontends, entry classes | binding characterised for all calls; constructors by computation on the bound variables; negation by witness |
| C97 | Lipschitz constants of the 2-D coefficients in the Euclidean norm, free of the image size | closed form of C58; Parseval (`Lemmas/Energy2D`); bounds of the transfer functions from Gaussian sums by Poisson summation (`Lemmas/GaussSum`); how often reflection repeats a pixel (`Lemmas/MirrorSum`) |
| C98 | uniform stability of joint time-frequency scattering, labels independent of the signal | closed form of C72 for both signals; filters of L1 norm at most one (C29); rows of the first order fit into the padded frequency axis because the run returned (C74) |
| C99 | Euclidean stability of solid harmonic scattering, coefficients to all powers | Parseval on the 3-D grid; at each frequency the squared moduli of the filters of one scale and degree add up to at most one (closed form of the radial integrals, Unsold's bound on the parameter `Y`); Minkowski and power means |
| C100 | what every integer `max_order` does in each of the three families | the slice `[:(1+max_order)]` is modelled for negative stops; the conditions of the 2-D and 3-D cores are the only places that read the argument |
| C101 | the exact exception for every refused input of the numpy frontends | the length of a 1-D signal is checked only by `pad` and by the first product with a filter; both are in the model |
| C102 | memory layout of torch tensors: 1-D, 3-D and time-frequency transforms accept every layout, 2-D refuses | tensors carry a contiguity flag; each function commutes with forgetting the flag |
| C103 | dtype and device of torch tensors: outputs have those of the input, a difference from the filters is a TypeError; the 3-D result is float32 | tensors of one kind are a homomorphic copy of each backend; the first product raises otherwise; negations by witness |
| C104 | attributes assigned on constructed objects mean the same as constructor arguments | induction over the list of assignments; 3-D filters of a smaller object are among those of a larger one |
| C105 | computed attributes are read-only; deprecated attributes keep their value (`M`, `N` do not) | attribute lookup along the linearisation of every class; names of the module; negation for all objects |
| C106 | an object rebuilt from its parameters (scikit-learn `clone`) computes the same | parsed values are accepted again and parsed to themselves; negations for all objects with the four kinds of arguments |
| C107 | J, L, order and powers of 3-D objects and `Q2` of 1-D objects only add coefficients | closed form of each 3-D coefficient; relation `Compat` (equal when both return) carried through the 1-D core for two low-pass filters with different numbers of levels |
| C108 | which exception each constructor raises for which invalid arguments, also for several invalid ones | case analysis of the argument checks in the order of the code, with a specification of the valid values of each argument; acceptance from the construction theorems of C17 and C76 |
| C109 | `T='global'` averages over time what `T=0` returns | the two objects run the same core; same sequence per path, cropped by one and summed by the other; negation for every object on constant signals |
| C110 | Order zero is linear, moduli non-negative and subadditive | closed forms, triangle inequality, Minkowski |
| C111 | Translation by c moves averaged coefficients by at most 0.77|c|/T | Parseval, aliasing of the periodised Gaussian, |e^{ix}-1| <= |x| |
| C112 | Lipschitz bound in the Euclidean norm | Parseval for every stage, gain of the stored filter levels, mirror counting |
| C113 | The network as a whole is contractive (user guide) | energy of decimated filter banks: folding of the stored levels, sums of Gaussians along the filter bank, Parseval; violated by the alternating signal when T=0 |
| C114 | Coverage of the frequency axis by the wavelets | closed form of the generator, nearest centre on a geometric and an arithmetic grid; violated at pi and for large Q |
| C115 | Inputs that are not arrays | case analysis over kinds of objects; violated for numpy in 2-D and 3-D |
| C116 | Signs and order of local averages | Poisson summation for the Gaussian, then sums of weighted moduli |
| C117 | Small translations of an image | Summation by parts on the unimodal Gaussian, then the energy of the moduli |
| C118 | Signs and order of averages of images | Orthogonality of characters: the real part of the transform of a non-negative image |
| C119 | A float for F | The type of the number is a separate argument; a float width makes pad_frequency raise |
| C120 | Floating-point integers | Bernoulli bounds on log2 away from powers of two; exactness of dyadic products |
| C121 | Signs of the coefficients of joint scattering | Closed form (C72), then lower bounds of the two averages |
| C122 | Rounding errors | Relative errors carried through the operations with their Euclidean gains (Parseval, Cauchy-Schwarz) |
| C123 | Rounding errors of 2-D scattering | Relative errors carried through the operations with their Euclidean gains (Parseval, Cauchy-Schwarz, gains of the filters from C97) |
| C124 | Rounding errors of 3-D scattering | Induction over the accumulation of moduli: the error after m components is ((1+delta)^(m+2) - 1) times the norm of the components so far; then C99 |
| C125 | Calling build and create_filters again | The replaced attributes parse to the same values, and assignments keep that relation |
| C126 | Rounding errors of joint time-frequency scattering | Simulation between the exact and the rounded run with an operation count and a norm bound for each intermediate array |
| C127 | Negative `J` | Closed form of the bank for negative `J`; success of construction and of the core from the sizes |
| C128 | Euclidean stability of joint time-frequency scattering | Rounding bounds of C126 for exact operations and an input off by `K` small errors, as `K` grows |
| C129 | Euclidean stability of joint time-frequency scattering under translation | Covariance before the average over time (C82), Lipschitz bound of the low-pass filter at each level, then the bounds of C128 on the frequency axis |
| C130 | Negative `J_fr` | Closed form of the bank for negative `J_fr`; the padded width is a float, as in C119 |
| C131 | Any integer as length | Errors of the steps before the first filter, number of entries of the arrays in `morlet_1d` |
| C132 | Stability with torch | Transport of the numpy bounds along C59 and C80 |
| C77, C78 | TensorFlow backends, dtype checks | simulation between tagged and typed tensors, both ways |
| C56 | CUDA kernels' index arithmetic | division/modulo bijection; negation by witness |

## Trusted base

* Lean's kernel.  Axioms: at most `propext`, `Classical.choice`, `Quot.sound`
  (listed per theorem in `AXIOMS.md`); none of our own.
* The reading of the Python code recorded in the comments of the model.
* Not modelled: floating-point rounding of signals and filters (reals are exact, except in C122, C123, C124 and C126, which let every array
  operation of the 1-D, 2-D and 3-D transforms have a relative error bounded by the hypotheses `Rounded.Accurate`,
  `Rounded2.Accurate` and `Rounded3.Accurate`; overflow, underflow and nan
  are outside it; the integers that the constructors compute through
  floating-point numbers are the subject of C120, with the assumption `FloatOps.Sound` on the platform), dtypes other than the tags of `Model/Dtype` and `Model/Kind`, strides of
  tensors beyond the contiguity flag of `Model/Layout` (which torch operations return contiguous tensors is stated in its
  header and trusted), warnings, the FFT libraries themselves (replaced by the
  DFT sum they are documented to compute), device placement beyond the tags of `Model/Kind` (which torch operations keep
  dtype and device is stated there and trusted), TensorFlow/JAX tracing.

## What is modelled, file by file

| code | model |
|------|-------|
| `scattering1d/utils.py`: `compute_padding`, `compute_border_indices`, `parse_T` | `Model/Utils1D` |
| `scattering1d/frontend/base_frontend.py`: `build`, `Q`, `log2_T`, `log2_stride`, oversampling branch | `Model/Utils1D` |
| same file: `scattering`, `meta`, `output_size`, output types | `Model/Frontend1D` |
| same file: constructor as a whole (`build` + `create_filters`) | `Model/Object1D` |
| `scattering1d/core/scattering1d.py` | `Model/Core1D` (generators become lists; the order of yields is kept) |
| `scattering1d/backend/numpy_backend.py`, `backend/numpy_backend.py` | `Model/Backend1D` |
| `scattering1d/backend/torch_backend.py`, `backend/torch_backend.py` | `Model/Torch1D` |
| same files and the 2-D, 3-D ones: `contiguous_check`, `is_contiguous`, `.contiguous()`, `view` | `Model/Layout` |
| dtype and device comparisons of `cdgmm` (`backend/torch_backend.py` L191-204), dtype of `compute_integrals` (`scattering3d/backend/torch_backend.py` L146-151) | `Model/Kind` (`float32`/`float64`, CPU or a numbered GPU; values stay exact reals) |
| assignment of attributes on constructed objects (`tests/scattering*/`) | `Model/Attributes` (the attributes that a call reads) |
| `input_checks` of the numpy, jax and torch backends, first checks of every `scattering`, `forward`, `__call__` | `Model/InputChecks` (kinds of objects; jax and tensorflow arrays as inputs are not modelled) |
| properties of the base classes, names used by the deprecated ones | `Model/Deprecated` (the warning itself is not modelled) |
| `get_params` of the scikit-learn transformers | `Model/Params` (values; identity of Python objects is not modelled) |
| `scattering1d/filter_bank.py` | `Model/FilterBank1D` |
| `scattering2d/core/scattering2d.py` | `Model/Core2D` |
| `scattering2d/backend/numpy_backend.py` | `Model/Backend2D` (one image; batches in `Object2D.runBatch`) |
| `scattering2d/backend/torch_backend.py`, `frontend/torch_frontend.py` | `Model/Torch2D`, torch `Pad` in `Model/Backend2D` |
| `scattering2d/filter_bank.py`, `utils.py` | `Model/FilterBank2D` |
| `scattering2d/frontend/base_frontend.py`, `numpy_frontend.py` | `Model/Object2D` |
| `scattering3d/core/scattering3d.py` | `Model/Core3D` |
| `scattering3d/backend/numpy_backend.py`, `torch_backend.py` | `Model/Backend3D` |
| `scattering3d/filter_bank.py`, `utils.py` | `Model/FilterBank3D` (`scipy.special.sph_harm` is a parameter) |
| `scattering3d/frontend/*_frontend.py` (numpy, torch) | `Model/Object3D` |
| `scattering1d/core/timefrequency_scattering.py` | `Model/CoreJTFS` |
| JTFS backend operations (numpy) | `Model/BackendJTFS` (a frequency-by-time stack is an image) |
| `scattering1d/frontend/base_frontend.py`: `TimeFrequencyScatteringBase` | `Model/ObjectJTFS` |
| JTFS with torch: stack operations, `pad_frequency`, `reshape_output`, `TimeFrequencyScatteringTorch` | `Model/TorchJTFS` |
| `kymatio/frontend/entry.py`, `*/frontend/entry.py`, `ScatteringBase._instantiate_backend`, `caching.py` | `Model/Select` (strings are lists of characters; `str.lower` is a parameter) |
| `register_filters`, `load_filters` of the torch frontends | `Model/Buffers` |
| columns of `meta()` of `TimeFrequencyScatteringBase` (`base_frontend.py` L650-698) | `Model/MetaJTFS` (the object array `meta()['n']` is a list of pairs; NaN is `none`) |
| joint time-frequency scattering with dtypes, and with TensorFlow (`scattering1d/backend/tensorflow_backend.py`, `scattering1d/frontend/tensorflow_frontend.py` L35-71) | `Model/DtypeJTFS` (float32 is exact; the operations of the two backends are the same functions of the entries, except `stack`) |
| `reshape`, arrays of any shape, `frontend/sklearn_frontend.py` | `Model/NdArray` (row-major data, 1-D transform), `Model/NdArray2D` (arrays of images, 2-D transform), `Model/NdArray3D` (arrays of volumes, 3-D transform), `Model/NdJTFS` (joint time-frequency transform) |
| `real_check`, `complex_check`, dtype tests of `cdgmm`; TensorFlow backends and frontends (1-D, 2-D, 3-D) | `Model/Dtype` (dtypes as tags; `complex64` exact; graph mode is not modelled). The JAX backends inherit the numpy ones with another array module and are not modelled apart. |
| `frontend/keras_frontend.py`, 1-D and 2-D Keras frontends | `Model/Keras` (static shapes as lists of optional sizes; the TensorFlow transform is the numpy one by C77) |
| class statements of `backend`, `frontend`, `scattering*/backend`, `scattering*/frontend`; `_document` | `Model/Classes` (classes of other libraries are opaque) |
| constructors of the frontends up to the stored attributes, `ScatteringEntry.__init__` | `Model/Calls` |
| CUDA kernels of `scattering1d`, `scattering2d` `torch_skcuda_backend.py`; `ModulusStable` | `Model/Kernels` (integer indices unbounded; `cublas` products and `normf` are not modelled beyond their documented value) |
| float `F` in `TimeFrequencyScattering` (`base_frontend.py` L557-579) | `Model/FloatF` |
| floating-point computation of integers (`base_frontend.py` L63-98, L256-274, `scattering1d/filter_bank.py` L230-232, `scattering2d/filter_bank.py` L35, L77-89) | `Model/FloatInt` (53-bit significands, unbounded exponents; the library logarithm is a parameter) |
| array operations of the 1-D numpy backend with rounding errors (`scattering1d/backend/numpy_backend.py` L5-114) | `Model/Rounded1D` (the operations are parameters with the shapes of the exact ones) |
| array operations of the 2-D numpy backend with rounding errors (`scattering2d/backend/numpy_backend.py` L48-99) | `Model/Rounded2D` (the same) |
| array operations of the 3-D numpy backend with rounding errors (`scattering3d/backend/numpy_backend.py` L6-69) | `Model/Rounded3D` (the same) |
| `build` and `create_filters` called again after assignments (`scattering1d/frontend/base_frontend.py` L37-104, L539-579), numpy | `Model/Rebuild` |
| array operations used by time-frequency scattering with rounding errors (`scattering1d/backend/numpy_backend.py` L5-132), numpy | `Model/RoundedJTFS` (each operation an arbitrary function with a relative error) |
| constructors and calls with any integer `J` (1-D, 2-D, 3-D), numpy | `Model/NegativeJ` (only the steps that read `J`; time-frequency scattering excluded) |
| constructor and calls of `TimeFrequencyScattering` with any integer `J_fr`, numpy and torch | `Model/NegativeJfr` (only the steps that read `J_fr`; the type of the padded width as in `Model/FloatF`) |
| `shape` as any integer (`scattering1d/frontend/base_frontend.py` L37-104, L539-541, `filter_bank.py` L51-102) | `Model/AnyShape` (the steps up to the first filter) |

Simplifications: one signal per run in the 1-D model (arrays of signals are the subject of C22, `Model/NdArray`); a signal is a
list of reals; `J` is a natural number (any integer in `Model/NegativeJ`), `max_order` any integer; `shape` is a
natural number or a tuple of natural numbers (integers in `Model/AnyShape`; at 0 the other models do not describe the code, which raises `ValueError`); the warnings of `build` are dropped.

## Disagreements between code and properties

Each is a theorem about the model with a concrete witness; the corresponding property keeps a
`_partial` theorem.

* **C08**: with `stride` and `oversampling` both given, the consistency check compares with
  `2**(log2_T - oversampling - 1)` because of operator placement; consistent pairs are rejected.
* **C15**: `meta()` runs the core without averaging and so reads level `j1` of second-order filters,
  which the factory does not store when `log2_T < j1`.  `Scattering1D(J=4, shape=1000, Q=1, T=1)` is
  built and transforms every signal, but `meta()` (hence `output_size()`) raises IndexError.
* **C25**: the number of wavelets is bounded as stated, but `_N_padded_fr` can be smaller than it (`C25_room_violated`, see C74).
* **C27**: for `Q1 < Q2` the assertion of `_check_filterbanks` can fail.
* **C28**: with a padded length of one (`shape=1`), Morlet filters are identically zero and the
  normalisation is `0/0`; NaN in the code, 0 in the model.  Theorems that use unit norms assume at
  least two samples.
* **C20**, **C21**: hence false for `shape=1` (`C20_one_sample`, e.g. `Scattering1D(J=0, shape=1, Q=8)`).
* **C30**: `compute_temporal_support` does not count index `half` of the impulse response, so the
  documented bound fails for a filter concentrated there; also the bound is `2 * criterion`.
* **C40**: `Scattering2D(J=0, ...)` is constructed but the transform raises IndexError.
* **C41**: `periodize_filter_fft` drops more than one frequency copy when a side is not divisible by
  the period; the levels of the 2-D bank never have such sides.
* **C43**: images with a side of one pixel: numpy pads, torch `Pad` raises.
* **C45**: `max_order >= 3` computes the second order and drops it.
* **C100**: the three families disagree about `max_order`.  In 1-D it is the stop of a slice, so `-2` works like 1 (and
  `meta()` then raises ValueError because its rows differ in length), 0, -1 and everything below -2 raise, and 3 and more
  work like 2.  In 2-D everything below 1 works like 1.  In 3-D every integer but 2 works like 1.  `C94` lists `-2` among
  the accepted arguments for this reason.
* **C15**: `output_size(detail=True)` is documented as the numbers at zeroth, first and second order; orders without a coefficient are left out of the tuple instead of counting zero (`C15_detail`).
* **C49**: `np.mgrid[-M//2 : ...]` starts at `-(M+1)/2` for odd `M`, so after `ifftshift` the origin of
  the grid is at index 1, not 0: all 3-D filters are off by one frequency along odd sides, and the
  Gaussian does not preserve the mean.
* **C65**: the numpy 3-D frontend ignores `method`; torch rejects unknown methods.
* **C45**, **C65**: with `integral_powers=[]` the numpy frontend raises `ValueError` (`np.stack([])`), the torch frontend returns rows of empty entries (`C45_no_powers_violated`, `C65_no_powers_violated`).
* **C33**: with `format='joint'`, `out_type='array'` the array has no zeroth-order row but `meta()['key']`
  has one; with `format='time'` the coefficients are ordered by frequency filter, the rows of `meta()`
  by `n1` first.
* **C67**, **C71**: the wavelets are the Gaussian-windowed solid harmonics with the normalisation of the
  code, made explicit; the polar angle of `get_3d_angles` is measured from the negative z axis.
* **C75**: with `format='time'` the `order` entry of a coefficient is one less than its order.
* **C34**: with local averaging and a stride below `2**j2` for some admissible second-order wavelet,
  `time_averaging` asks `subsample_fourier` for a factor `2**negative`, a float: every call raises TypeError.
  `TimeFrequencyScattering(J=5, J_fr=2, Q=8, shape=1000, stride=2)`.
* **C36**: with `2**log2_stride_fr < 2**J_fr` (for instance `F < 2**J_fr`) the path of the frequential
  low-pass carries `n1_stride = 2**J_fr` but its rows are decimated by `2**log2_stride_fr`.  With
  `F='global'` a joint array is never returned: the rows have different numbers of frequency samples.
* **C73**: with `T=0`, `format='time'`, first-order paths have two indices and are taken for second-order
  ones: they are cropped with the borders of resolution 0 although their resolution is `log2_stride`.
* **C74**: `_N_padded_fr` rounds down.  `TimeFrequencyScattering(J=16, J_fr=4, Q=1, shape=2**16, F=1)` has 16
  padded rows for 17 first-order wavelets; `np.pad` raises ValueError on every call (torch's `pad` would crop).
* **C80**: with `T='global'` nothing is unpadded, so torch coefficients keep their trailing dimension of size one; with
  `format='joint'`, `reshape_output(..., n_kept_dims=2)` then keeps `(time, 1)` instead of `(frequency, time)` and raises
  RuntimeError.  Numpy returns.  Without room for the first-order wavelets (C74) `F.pad` crops where `np.pad` raises.
* **C87** (docstring only): `anden_generator` documents `xi_elbow = compute_xi_max(Q) * sigma_min / compute_sigma_psi(xi, Q)`;
  the code's elbow is the last centre frequency of the geometric part, which is that value times a factor in
  `(1, 2**(1/Q)]` (`Spec.IsBank`).  When even the first bandwidth is not above `sigma_min` the code starts the arithmetic
  part from the *bandwidth* (`xi = sigma`), not from a centre frequency.
* **C109**: `average_global` is a sum, not an average, and runs over the padded signal at the resolution of the path: with
  `T='global'` a constant signal `c` has zeroth coefficient `Npadded * c`, and a path of last scale `j` is the mean over the padded
  range times `Npadded / 2**j`, so coefficients of paths of different scales are not on the same footing (`C109_average_violated`,
  `C109_sum_partial`).
* **C113**: the user guide says that the whole network is contractive.  With averaging off (`T=0`) order zero is the signal itself and
  the moduli are returned beside it, so the output of the alternating signal is longer than the signal for every object
  (`C113_violated`).  With the default averaging and `J >= 9` the claim is proved (`C113_partial`, `C113_default_partial`, for the default array output `C113_array_partial` and `C113_default_array_partial`).
* **C114**: the docstring of `anden_generator` promises full coverage between `pi/2^J` and `pi`.  No bank covers the Nyquist frequency at the
  level `r_psi` (`C114_violated`), and for `Q >= 2^(J+2)` the line `xi = sigma` of the code leaves the whole interval uncovered (`C114_empty_violated`).
* **C82**: with `T='global'` the coefficients are sums over a subsampled grid, and change under shifts that are not multiples of its step (`C82_global_violated`).
* **C83**: the mask of `periodize_filter_fft` keeps the frequency `-M/4` and zeroes `+M/4`, so the level of the
  wavelet at `theta + pi` is not the conjugate of the level of the wavelet at `theta` at the band edge.  Transposing the
  image therefore permutes second-order channels only up to that edge term when the mirrored second angle wraps
  around and `j1 >= 1`; all other channels are permuted exactly.  `C83_violated`: `Scattering2D(J=3, shape=(8, 8), L=2,
  pre_pad=True)` on the image `cos(pi u / 4)`: the pair of scales `(1, 2)` and angles `(0, 0)` sees the transfer function
  at `-pi/2`, its mirror image the one at `+pi/2`, which is larger (`psi2_values`).
* **C88**: `TimeFrequencyScatteringTransformer.predict` raises ValueError on an empty batch, like the 1-D class (C52), although `scattering` returns (`C88_predict_empty_violated`).
* **C96**: the constructors do not have the same positional order: in `TimeFrequencyScatteringTensorFlow` `backend` comes before `format`, in `ScatteringTensorFlow2D` `name` comes before `out_type`, so that a call with eleven (seven) positional arguments means something else there. `kymatio.Scattering1D(..., frontend='tensorflow', name=...)` raises TypeError because the entry classes pass a `name` of their own. `ScatteringKeras2D` passes `'array'` to the parameter `backend` of the base class.
* **C89**: in joint format `meta()['n']` gives `range(0, n1_max, n1_stride)`, which has `ceil(n1_max / n1_stride)` entries,
  whereas `unpad_frequency` keeps `1 + n1_max // n1_stride` rows: one more when the stride divides `n1_max`.  With
  `TimeFrequencyScattering(J=3, J_fr=2, Q=1, shape=N)` the path `n = (0,)` has two rows and a range of one entry
  (`C89_extra_row_violated`).  (Joint arrays are not cropped along frequency at all, C36.)
* **C52**: `predict` on an empty batch raises ValueError (`reshape(batch_shape + (-1,))` of an array of size
  0), although `scattering` returns an empty array.
* **C52**, 2-D class with `pre_pad=True`: `predict` reshapes to `(-1, M, N)` and `scattering` then demands the padded size, so every call raises RuntimeError (`C52_2d_prepad_violated`).
* **C66**: an array without volumes raises ValueError in 3-D (`reshape((0, -1))` in `compute_integrals`), while the
  1-D and 2-D transforms return an empty array.
* **C54**: `os.path.join(base, name)` drops `base` when `name` is absolute.
* **C56**: the 2-D kernel is launched with the numbers of blocks for height and width exchanged: a wide
  output is not completely written, a tall one is written with idle threads.  The 1-D kernel takes
  `x.shape[2]` as the time length, which is the frequency axis for the stacks of the joint time-frequency
  transform.
* **C77**: `ScatteringTensorFlow2D(..., pre_pad=True)`: `pad` casts the image to complex64 and `rfft` then refuses it
  (`real_check`), so every call raises TypeError.  In 3-D another `method` raises ValueError as in torch, numpy ignores it.
* **C53**: the 1-D layer announces `ind_end[J]-ind_start[J]` samples whatever `T` is (`J=3, T=6, N=1024`: 128
  announced, 256 returned; `T='global'`: 1 returned) and both layers announce exactly one leading axis.  The 2-D layer
  announces the order-2 channels for `max_order=1`; with `pre_pad=True` it never returns, because it is built for the
  shape of its own input.
* **C79**: `ScatteringKeras1D` never sets `max_order`, so `get_config` raises AttributeError; `__init__` replaces
  `max_order` and `oversampling` by 2 and 0.
* **C105**: `M` and `N` of a 2-D object are deprecated names of the sides; reading them raises `NameError` because
  `scattering2d/frontend/base_frontend.py` calls `warn` without importing it (`C105_sides_violated`).
* **C106**: `ScatteringTransformer1D` and `TimeFrequencyScatteringTransformer` are scikit-learn estimators, but their
  parameters cannot be read back: `T=0` and `T='global'` (`F=0`, `F='global'`) come back as `2**J`, hence as local averaging;
  with `T=None` and `2**J > N`, or with `oversampling > 0`, the constructor refuses the values that come back.
* **C103**: the torch 3-D frontend says that it takes a `torch.DoubleTensor`; an object as constructed raises `TypeError` on
  one, because its filters are `float32` (`C103_double_violated`).  After `S.double()` it accepts one, but
  `compute_integrals` allocates a `float32` result, so double precision is lost (`C103_3d_dtype_violated`).
* **C102**: `forward` of the torch classes is documented as an alias of `scattering`, but it runs `input_checks` first and so
  refuses non-contiguous tensors, which `scattering` of the 1-D, 3-D and time-frequency classes accepts.
* **C115**: `NumpyBackend.input_checks` names `_np`, which is an attribute of the class and not a global, so a list or a tensor
  of torch given to a numpy object in 2-D or 3-D raises `NameError` in place of the intended `TypeError` (`C115_violated`).
  The 1-D frontends of numpy, jax and tensorflow check nothing and raise `AttributeError` (`C115_one_violated`).  `forward` of
  torch asks an array of numpy for `is_contiguous` before the check of its type (`C115_forward_violated`).
* **C116** (no disagreement, but a limit): the low-pass filter is the truncated sum that `adaptive_choice_P` asks for, so
  its impulse response is a non-negative function minus the transform of the discarded Gaussians.  The theorems bound the
  discarded part by `1e-21` per sample; they do not say on which side of zero the exact value lies.  `C93_sharp` uses the
  same fact to bring the constant of C93 down from `2^min(j, log2_stride)` to 1.001 for the last wavelet of a path.
* **C118** (no disagreement, but a limit): only the filter of full resolution has a non-negative impulse response.  The lower
  levels of `phi` are cut at their Nyquist frequency by `periodize_filter_fft`, so nothing is claimed for wavelets with `j >= 1`.
* **C119**: a float `F` between 1 and `2**J_fr` is accepted by the constructor of `TimeFrequencyScattering`, but it makes the
  padded number of frequencies a float, and `pad_frequency` raises TypeError in every call (`C119_float_violated`); the
  documentation of `parse_T` allows floats for both `T` and `F`, and a float `T` works.
* **C120**: in floating point, `T = 8 - 2^-50` gives `log2_T = 3` (`C120_T_violated`), so that the first part of C06 (`2**log2_T <= T`)
  fails for such a `T`; and `stride = 2**60 + 1` passes for a power of two (`C120_stride_violated`).
* **C125**: with `oversampling > 0`, `build` stores `2**(log2_T-oversampling)` in `_stride` (base_frontend.py L80); a second
  `build` compares this value with `2**(log2_T-oversampling-1)` (L77) and raises a `ValueError`, although nothing has changed.
* **C127**: no constructor checks the sign of `J`. In 1-D every negative `J` is accepted. The bank then has no constant-`Q`
  wavelet, only `Q - 1` of bandwidth `0.1 * 2**-J` and scale 0. With the default `T` and `stride` every call raises a
  `TypeError` from a `reshape` with a float; with `T='global'`, `T=0`, a numeric `T` or `stride=1` calls return `Q1`
  coefficients, none of order 2. In 3-D `J=-1` is accepted and no call returns. In 2-D, and in 3-D below -1, construction
  raises, with the exception numpy happens to raise.
* **C130**: the constructor of `TimeFrequencyScattering` does not check the sign of `J_fr`. For negative `J_fr` the number
  `2 ** J_fr` is a float, so the padded number of rows is a float. Every call then raises `TypeError` when the frequency
  axis is padded, although the object was built.
* **C61**: the crop index uses `j - oversampling` although the core ignores `oversampling`; the wrong
  crop is unreachable because `log2_stride` raises on such objects (constructed, but every call fails).

## Testing the theorems against wrong programs

`seeded/LOG.jsonl` has one line per edited copy of the model (made outside `/verif`), with the
theorems that fail.  Survivors led to C60, C61 and C62.

Entries whose `what` begins with "automatic edit" come from a script that changes one token of a definition.
Their `claim_broken` field is weaker evidence than that of the other entries. When it reads "claims about X" nobody
worked out by hand which English claim the edit falsifies; it only says that theorems about X stopped proving.
Some of these edits may be harmless ones that merely disturb a proof. Only the survivors were each looked at.
Edits that left the model itself ill-typed were not logged.

What a failing build shows is limited.  Of the 768 logged edits that some proof rejected at once, 491 stopped at a lemma
(for example one that unfolds a definition), before any theorem named after a claim was checked; `modules_blocked` lists
the modules behind it.  For these the log shows that the proof as written does not survive the edit.  It does not show
that the statement of the claim is false of the edited model, since another proof might exist; the `claim_broken` field
then rests on reading the edit against the English claim, not on the build.
