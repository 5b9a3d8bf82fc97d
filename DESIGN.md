# Formal model of ESA-VirES/MagneticModel (eoxmagmod)

Source modelled: `/repo` (read as text, never built or run). Paths below are
relative to `/repo/eoxmagmod/eoxmagmod` unless they start with `qdipole/`.

## Layout

* `properties.jsonl` - the properties in English.
* `lean/Verif/Model/*` - the model: one definition per function of the code, each
  with the cited file and lines and the simplifications made.
* `lean/Verif/Spec/*` - small specifications which do not use the model.
* `lean/Verif/Lemmas/*` - helper lemmas.
* `lean/Verif/Props/*` - the property theorems, one file per topic, with an
  `example` beside each theorem showing that its hypotheses can be met.
* `MANIFEST.json` - property -> theorem names and status.
* `seeded/LOG.jsonl` - log of the deliberate model bugs the theorems were tested with.
  `outcome` says what was observed.  `property_proof_failed`: the proof of a property
  theorem no longer compiles.  `helper_proof_failed`: only helper lemmas failed and the
  property files were not reached.  Both mean that the build fails, which alone does
  not show that the property statement is unprovable for the edited model; where
  `property_false_witness` is true that was shown by a concrete counterexample
  (controlled: the negation of the counterexample is proved for the unedited model).
  `not_a_bug`: the edit does not change results and only proof scripts broke.
  `undetermined`: not known whether results change.  `invalid_edit`: the edited model
  did not compile, nothing was tested.

## Trusted base

* Lean 4.33.0 kernel; the axioms `propext`, `Classical.choice`, `Quot.sound`
  (checked with `#print axioms`); no other axiom, no `sorry`, no `native_decide`.
* Mathlib definitions used in statements (`Real.sin`, `Real.sqrt`, `Complex.arg`,
  `HasDerivAt`, `Polynomial.derivative`, ...).
* The reading of the source: nothing connects the Lean text to the C, Python and
  Fortran text apart from the citations.
* Real numbers for doubles: rounding, overflow and underflow of floating point
  arithmetic are outside the model. NaN and the infinities are modelled where
  the control flow depends on them (search, interpolation, caches, validity).
  Comparisons, min/max, copying are exact in IEEE arithmetic, so statements which
  only involve these hold for the doubles too (search, intervals, masks, caches,
  index arithmetic).
* C `int` is modelled by unbounded integers with C division (truncation); where
  a range is needed to exclude overflow this is proved separately.
* CPython, NumPy, libm, libc are trusted to follow their documentation
  (`atan2`, `asin`, `pow`, `floor`, boolean mask indexing, `argsort`, ...).

## Plan per property

| id | model | proof |
|----|-------|-------|
| C01 | `bisect_left/right` loops over a node array, x possibly NaN | loop invariant, well-founded recursion |
| C02-C05 | `get_interp*_basis`, `interp*_eval`, `interp` guards and NaN fill | from C01 by case analysis; derivative with `HasDerivAt` |
| C06-C09 | integer calendar arithmetic with C division, real day fraction | linear integer arithmetic with division, floor lemmas |
| C10-C12 | sparse/dense tables, sub-setting, argsort + interpolation | index injectivity, permutation lemmas |
| C13-C15 | constructors and calls of composed/combined coefficients | fold invariants over the item list |
| C16, C17 | interval algorithms of `magnetic_model/util.py` | invariant of the sorted triple list; two-pointer induction |
| C18 | `SphericalHarmomicGeomagneticModel.eval` | false for overlapping intervals: witness; partial theorem for non-overlapping interiors |
| C19, C20 | `shc_legendre_low`, `shc_legendre_high` as array programs | both against Rodrigues' formula (polynomial derivatives) |
| C21, C22 | `fs_cos_sin`, `shc_relradpow_*` | induction over the loop |
| C23-C26 | `shc_eval_*` loops | sums; `HasDerivAt`; limits |
| C27, C28 | cached evaluation as a state machine | refinement: cache invariant, cached = fresh |
| C29 | `fs_*`, `_fourier2d_*` | sums; index bounds |
| C30-C34 | `geo_conversion.h`, `pymm_cconv.h`, rotations | real trigonometry, Ferrari quartic algebra |
| C35-C38 | `dipole_coords.py`, `magnetic_time.py`, `util.py` | matrix algebra, real mod |
| C39, C40 | composed model | folds |
| C41 | line tracing loop | induction over steps |
| C42, C43 | MIO model | mask algebra; power identities |
| C44-C46 | parsers on lists of lines/tokens, merge | round trip with a writer; induction |
| C47 | angle normalisation of the ephemeris | real mod |
| C48 | epoch cache of the Fortran wrapper | invariant over the batch |
| C49, C50 | shapes, strides, degree from size | induction over dimensions, integer square root |
| C51 | `reshape_times_and_coordinates`, parameters as strided views | induction over dimensions |
| C52, C53 | MIO scaling and validity, MIO parser | masks point by point; writer/parser round trip |
| C54, C55 | ephemeris formulas of `sun_ephemeris.h` | real trigonometry; calendar arithmetic |
| C56-C59 | Fortran module state, `loadapxsh`, `alfbasis`, `shcalc`, `apxg2q` | refinement to a function without state; recurrences against derivatives; chain rule |
| C60-C62 | `MAGLOCTM`, `SUBSOL`, `TMJD`, `TJUDA`, `COFRM`, `DYPOL` | calendar arithmetic, angles modulo 360, frames |
| C63, C64 | the array functions around the scalar ones | walk over the dimensions as a fold over the indices |
| C65 | `datetime_to_decimal_year` | ordinal of a date against the day count of the C code |
| C66, C67 | time dependent models on arrays | invariant of the cached coefficients; nested walks as one walk over the longer dimensions with an array of coefficients |
| C68 | evaluation in the dipole frame | the spherical evaluation at the converted position is the Cartesian evaluation at the rotated position; gradients through orthogonality |
| C69 | field without sources | the potential as a function of the Cartesian position (solid harmonics), its Hessian, the Legendre equation |
| C70 | Swarm MMA products | reading of each file to its content, merge of the contents (C46), interpolation of the merged series; closed form of the days of the Gregorian calendar |
| C71 | time conversions in double precision | rounding to nearest is monotone and fixes the numbers of the format, whatever the rule for ties; half spacing bounds of the errors |
| C72 | interpolation in double precision | the same; differences of doubles have a relative error only |
| C73 | references and memory of the extension functions | triples over all outcomes of the calls (invariant: what is owned is what the variables point to, each once); `sheval2dfs` by comparison with the function that releases all |
| C74 | evaluation of models on arrays of times and locations | composition of C66, C24, C11 and C51; induction over the components with the points picked and put back |
| C75 | field of nested composed and combined models | refinement of the decomposition to the active sets (C18) composed with C74; mutual induction over the tree; at the ends of the validity intervals soundness and completeness of the closed components (Lemmas/ClosedEnds.lean) |
| C76 | from the text of coefficient files to the field | contents of the files as specification (values at any time), relation of loaded objects to contents, transfer of C75 along it; parsers of C44, C45 |
| C77 | models in the frame of the dipole on arrays | the induction of C74 for any evaluation of components, with the path through the rotated frame (C35, C69) as evaluation |
| C78 | Swarm MMA products from the variables to the field | objects loaded hold the contents of the files (C70), transfer of C75 and C77 to contents as in C76 |
| C79 | MIO models on arrays | masks as lists of indices, C67 and C77 on the arrays picked, items of the result put back |
| C80 | composed models on arrays | values as a mutual inductive predicate over the tree of models; mutual induction, with C75, C77 and C79 for the members |
| C81 | MIO models from the text of the files to the field | the objects loaded (C53, C43) hold the rows of the file, C79 with sums over the wave numbers; radial derivative along the ray for the continuity |
| C82 | coefficients of MIO models at given times | the array of the coefficients as matrices for C64, tables by C10, the loaders as in C81 |
| C83 | quasi-dipole functions on arrays | the contiguous copies as lists by index, then C48, C56, C58 to C61 |
| C84 | radial powers, cosines and sines in double precision | products up to `n` roundings, complex numbers for the recurrence |
| C85 | sums of the spherical harmonics in double precision | `Rounded n M x y` (Spec/RoundingError) propagated through the loops |
| C86 | vector utilities on arrays | broadcasting by trailing dimensions (Spec/Broadcast); `inSpace`: the vector in the space from its components |
| C87 | constructors of the sparse coefficients with arrays | arrays read by index (`ItemsOf`), `IsGreatest`/`IsLeast` of the degrees, a permutation of the nodes in the order of time |
| C88 | dipole frame and magnetic universal time of arrays | arrays read by index, the broadcasting relation (`Broadcast`), the longitude of the Sun in the frame of the dipole, `C35`/`C68` for one item |
| C89 | composed models as objects changed by push | states reached by the operations (inductive), reachability in the graph of objects, trees of models (`Unfolds`) |
| C90 | accuracy of the 2D Fourier series | `fourierSum` with errors by `Spec/RoundingError` |
| C91 | accuracy of the Legendre functions and of the potential and gradient computed from them | `schmidtP`, `Spec.potential` and its derivatives with errors by `Spec/RoundingError` |
| C92 | accuracy of `sheval` in spherical coordinates, equality of its modes | `Spec.potential` and its derivatives with errors by `Spec/RoundingError` |

## What is modelled

| source | model | how far |
|--------|-------|---------|
| `include/bisect.h`, `pymm_bisect.h` | `Model/Bisect`, `Model/ElemApi` | all; array arguments included |
| `include/interpolation.h`, `pymm_interp.h` | `Model/Interp`, `Model/ElemApi` | all; reads behind the arrays are explicit |
| `include/fourier_series.h`, `pymm_fourier2d.h` | `Model/Fourier`, `Model/ElemApi` | all; overflow of the temporary buffer explicit |
| `include/time_conversion.h`, `pytimeconv_*.h`, `time_util.py` | `Model/Time`, `Model/ElemApi`, `Model/DateTime` | all; `datetime` objects by their calendar fields |
| `include/time_conversion.h`, `include/interpolation.h`, `time_util.py`, `parser_mma.py` with rounding | `Model/FloatTime` | the arithmetic of the conversions and of the linear interpolation with the rounding of each operation |
| `include/spherical_harmonics.h` | `Model/Legendre`, `Model/RadPow`, `Model/ShEvalPoint` | all evaluation kernels with their buffers |
| `include/geo_conversion.h`, `include/math_aux.h` | `Model/Geo` | all but `geodetic2geocentric` (two outputs at once, not called) |
| `include/sun_ephemeris.h`, `pysunpos*.h` | `Model/Sun`, `Model/ElemApi` | all formulas and the array loop |
| `pymm_sheval.h` | `Model/FullEval`, `Model/ArrayApi` | all: parsing of arguments after conversion to arrays, walk, caches, buffers |
| `pymm_spharpot.h`, `pymm_sphargrd.h`, `pymm_sphar_common.h` | `Model/Arrays`, `Model/ArrayApi` | all |
| `pymm_legendre.h`, `pymm_loncossin.h`, `pymm_relradpow.h` | `Model/SeriesApi` | all |
| `pymm_shevaltemp.h`, `pymm_sheval2dfs.h` | `Model/ShEval`, `Model/TimedApi` | sets of coefficients, times, caches with the numerical kernels as parameters (`ShEval`); the Python functions on strided arrays (`TimedApi`, coefficient sets as lists, finite times) |
| all `py*.h` functions: references, memory, labels | `Model/Resources` | which variable owns what, which call may fail, what is done at the labels; not what is computed; `do_mktuple` of CPython by its effect on the references |
| `dipole.py` (`sheval_dipole`) | `Model/DipoleEval` | flat lists of points with their coefficients |
| `pymm_cconv.h`, `pymm_vrot_*.h`, `pymm_aux.h` | `Model/Geo`, `Model/Arrays`, `Model/ArrayApi` | all |
| `dipole.py`, `dipole_coords.py`, `magnetic_time.py`, `util.py` | `Model/Geo` | formulas |
| `magnetic_model/coefficients*.py` | `Model/Coefficients`, `Model/Mio` | all classes in use; attributes by value |
| `magnetic_model/util.py` | `Model/Intervals`, `Model/Shapes`, `Model/Parsers` | all |
| `magnetic_model/model*.py` | `Model/ModelEval`, `Model/FieldModel`, `Model/FieldTree`, `Model/Files` (loaders from texts to objects), `Model/DipoleModel`, `Model/MmaField`, `Model/ComposedModel`, `Model/ComposedField`, `Model/Mio`, `Model/MioField`, `Model/MioFiles` (loaders), `Model/MioCall` (call of the coefficients) | evaluation, in `FieldModel` from arrays to arrays by `shevaltemp` with the sparse coefficients, in `MioField` by `sheval2dfs` with the Fourier coefficients (broadcasting of arrays of the same dimensions or with a scalar only); the properties only reporting attributes are left out |
| `magnetic_model/field_lines.py` | `Model/FieldLines` | all |
| `magnetic_model/parser_*.py`, `loader_*.py` | `Model/Parsers`, `Model/Mio`, `Model/Mma` | text parsers and loaders; `float()`, `int()` of a token are parameters; CDF files are modelled as dictionaries of variables |
| `qdipole/eval_qdlatlon.f90`, `qdipole/apexsh.f90`, `pyqd_eval_qdlatlon.h` | `Model/Qd`, `Model/ApexSh` | loop, caches, `loadapxsh` (after reading), `allocatearrays`, `alfbasis`, `shcalc`, `apxg2q`, `convrt4` |
| `qdipole/eval_mlt.f90`, `qdipole/eval_subsol.f90`, parts of `qdipole/apex.f90` | `Model/Mlt` | `COFRM` (dipole), `DYPOL`, `SUBSOL`, `MAGLOCTM`, `SOLGMLON`, `TMJD`, `TJUDA` |
| `quasi_dipole_coordinates.py`, `pyqd_eval_qdlatlon.h`, `pyqd_eval_mlt.h`, `pyqd_eval_subsol.h`, `qdipole/cqdipole.c` | `Model/QdApi` | the functions on arrays: checks, number of points as `int`, new arrays |
| `spherical_harmonics.h` (radial powers), `fourier_series.h` (`fs_cos_sin`, `fs_cos_sin_ref`), `pymm_relradpow.h`, `pymm_loncossin.h` | `Model/FloatSeries` | with a rounding of each operation |
| `spherical_harmonics.h` (`shc_eval_v`, `shc_eval_dv`, `shc_eval_dvaz_pole`) | `Model/FloatSums` | with a rounding of each operation |
| `util.py` (`vrotate`, `vnorm`, `vincdecnorm`) | `Model/VectorUtil` | on arrays, with the broadcasting of NumPy |
| `coefficients.py`, `coefficients_mio.py` (constructors of the sparse classes) | `Model/CoefInit` | with arrays and keyword arguments |
| `magnetic_time.py`, `dipole.py` (array arguments) | `Model/DipoleArrays` | with the broadcasting of NumPy and the product computed in place |
| `model_composed.py` (`__init__`, `push`, references between objects) | `Model/Objects` | objects in a list, references as positions; depth of the calls of `eval` limited |
| `fourier_series.h` (`fs_cos_sin_2d`, `fs_eval_2d`), `pymm_fourier2d.h` | `Model/FloatFourier` | with a rounding of each operation |
| `spherical_harmonics.h` (`shc_legendre_low`, `shc_prersqrt`, cosine in `shc_legendre`), `pymm_legendre.h` | `Model/FloatLegendre` | with a rounding of each operation; `shc_legendre_high` not |
| `spherical_harmonics.h` (`shc_eval_v_dv`, `shc_eval`), `pymm_sheval.h` (`_model_eval`, spherical to spherical) | `Model/FloatEval` | with a rounding of each operation; degree up to 16, fresh `MODEL` |

Not modelled: `qdipole/makeapexsh.f90` and the parts of `apex.f90` which only it uses, `apxq2g` and
`apxg2all`, reading of files and CDF variables, the module tables (`pymm.c`, `pyqd.c`, ...),
concurrent use, conversion of Python objects to arrays of doubles.

## Conventions of the model

* Out-of-bounds reads and writes are values (`none`, `Err.memory`), not totalised: a theorem giving a
  result also says that no access is outside.
* New arrays are `junk`, an arbitrary list of the right length, so that a result never depends on it.
* An array is a memory (`Int -> Option`), a position, dimensions and strides; any strides, also zero and
  negative ones.  The specifications `ItemsOf`, `PairsOf`, ... say which item is at which index.
* Functions of the C library are fields of `Libm`; the theorems are about `Spec.libm`, the exact real functions.
* Rounding is modelled in `Model/FloatTime`, `Model/FloatSeries`, `Model/FloatSums`, `Model/FloatFourier`, `Model/FloatLegendre` and `Model/FloatEval` only: `rnd` is any function to a nearest number of the binary64
  format (`Spec/Binary64`, which also proves that there is one); elsewhere the arithmetic is exact.
* In the models of what is computed allocation succeeds; its failures are in `Model/Resources` only, where
  the outcome of every call is arbitrary (`Env`).
* Doubles which may be NaN or infinite are `X K`, or `Option` where only NaN matters.

## Disagreements between code and claims

Each is proved by the theorem named; the claim is kept in `properties.jsonl`, and what remains of it
is the theorem with the suffix `_partial`, or a property stated with the code's behaviour.

| theorem | what the code does |
|---------|--------------------|
| `C05_shevaltemp_oob`, `C05_shevaltemp_index_oob` | `shevaltemp` does not check the number of nodes or the coefficient indices |
| `C08_not_monotone` | 1582 has 355 days but is converted with 365: decimal years of its end overlap 1583 |
| `C13_nested_rejected` | composed coefficients refuse a gap-free collection with a nested interval |
| `C18_boundary`, `C18_overlap`, `C18_unordered_nan`, `C18_instant_nan` | scalar and array times select different components |
| `C19_degree_zero_overflow`, `C23_degree_zero_overflow` | degree 0 writes behind the Legendre buffers |
| `C20_beyond_pole`, `C19_beyond_pole` | latitudes beyond 90 degrees: wrong signs |
| `C22_documentation_wrong` | exponent in the documentation of `relradpow` |
| `C24_near_pole` | for cos(latitude) below 1e-10 the orders above 1 are left out of the gradient |
| `C28_overlap`, `C28_history` | a coefficient present in two sets is replaced, or depends on the previous time |
| `C29_overflow` | `_fourier2d_init` takes `min_degree1` twice and ignores `min_degree2`: overflow |
| `C30_pole` | longitude lost at the poles |
| `C41_start_unchecked` | the start of a field line is not checked against the limits |
| `C79_f107_refused`, `C79_primary_refused` | MIO models: arrays of F10.7 with a single time, and times of the leading dimensions (primary model), raise IndexError |
| `C80_any_output`, `C80_empty_times` | composed models: an unknown output coordinate system is taken as spherical; without components, times of more dimensions than the points are refused for geodetic and Cartesian output only |
| `C42_leading_times` | MIO model: times of the leading dimensions raise IndexError |
| `C44_spline_order_ignored`, `C44_blank_line`, `C44_six_fields` | SHC files: misspelt key `spline_oder`, blank lines, six header fields |
| `C45_emm_not_rejected` | `ValueError` is built but not raised |
| `C48_batch_differs`, `C48_nan_stale`, `C48_nan_undefined` | quasi-dipole coordinates of a batch differ from those point by point; NaN times |
| `C49_convert_alias` | `convert` between equal systems returns its argument |
| `C49_short_points_overrun`, `C49_last_stride_ignored` | `sheval` does not check the last dimension of the points and ignores its stride |
| `C51_more_times` | `coords.ndim[-1]`: TypeError |
| `C52_scalar_time` | scalar time with an array of F10.7: exception |
| `C55_before`, `C55_after` | `sunpos_original` outside of 2000-03-01 .. 2400-02-29 is days off |
| `C56_altitude_stale`, `C56_file_cached` | altitude -999 km and a changed file of the same name give old results |
| `C57_nan` | NaN epoch reads out of bounds |
| `C60_out_of_day`, `C60_stop` | magnetic local time 24 or more; process stopped |
| `C83_long_arrays`, `C83_long_times` | the number of points is passed as `int`: for 2^31 points nothing is evaluated and uninitialised arrays are returned |
| `C87_indices_not_checked` | the check `indices.ndim != 2 and indices.shape[1] != 2` uses `and`: indices of shape (n, 3) or (n, 2, 2) are accepted, one-dimensional ones raise `IndexError` |
| `C88_in_place` | `tmp_y *= sin(...)` is computed in place: one sub-solar latitude in an array of one item with several longitudes raises `ValueError`, although NumPy can combine them |
| `C88_coefficients_refused` | `sheval_dipole` with a gradient refuses several sets of coefficients of each position of an array, which `sheval` accepts |
| `C89_not_updated` | validity and parameters of a composed model are those at the time of `push`: a model added to a component later is evaluated with the whole but missing in both |
| `C89_self`, `C89_cycle` | a composed model may be added to itself or to its components; then `eval` ends with `RecursionError` |
| `C91_pole_loss` | `shc_legendre` computes the cosine of the latitude from the rounded sine: at 5 cm from the pole the functions of the order one are zero instead of proportional to the distance |
| `C67_bad_set_crashes` | `sheval2dfs` ignores the return code of the parser of the coefficient set: a set with a number of matrices other than that of the degrees and orders is used as null pointers instead of being refused |
| `C68_potential_any_output` | `sheval_dipole` with POTENTIAL accepts any output coordinate type (`sheval` refuses unknown ones) |
| `C71_rounds_up`, `C71_datetime_rounds_up` | in double precision the last instants of a year have the decimal year of the next one, and a date can have 24.0 hours |
| `C73_tuple_double_release` | `Py_BuildValue("NN", ...)` takes the references also if it fails, the label releases them again |
| `C73_flag_without_truth_value` | result of `PyObject_IsTrue` not checked for -1: a result with an exception set |
| `C73_sheval2dfs_loses_memory`, `C73_sheval2dfs_ignores_error` | `_f2d_coefset_destroy` never frees `offset`; the refusal of the coefficients is ignored |
| `C74_mixed_scales` | `time_scales` of the decimal-year class is that of its parent, so that sets in decimal years and in days combined are all interpolated at the decimal year |
| `C65_julian` | `datetime_to_decimal_year` uses the Gregorian calendar before 1583, the C conversions the Julian one |
| `C61_equinox`, `C61_mean_longitude`, `C61_stop` | sub-solar point a day off before 2000, literal -79.549 for -79.539, process stopped |

Seen while reading, not proved: comments in `include/bisect.h` on NaN (n-1, the code gives -1);
`keywords[9]` of `sheval`; recursion of the composed
constructors with one argument; `time_scale` misspelt in two converters; `character*256` for names of up
to 1023 characters in `eval_qdlatlonvb`; `indices.ndim != 2 and indices.shape[1] != 2` in the constructors of
the coefficients refuses only what is wrong in both.
