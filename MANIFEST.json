{
 "claims": [
  {
   "property": "C01",
   "status": "proved",
   "theorems": [
    "Verif.Props.C01_bisect_right",
    "Verif.Props.C01_bisect_left",
    "Verif.Props.C01_bracket_right",
    "Verif.Props.C01_bracket_left",
    "Verif.Props.C01_outside_right",
    "Verif.Props.C01_outside_left",
    "Verif.Props.C01_nan",
    "Verif.Props.C01_safe",
    "Verif.Props.C01_bisect_searchsorted"
   ],
   "note": "All claims for both sides; numbers modelled as any linear order plus NaN, so infinities are included. The code comment about NaN (n-1) disagrees with the code (-1); the property states the code's value."
  },
  {
   "property": "C02",
   "status": "proved",
   "theorems": [
    "Verif.Props.C02_linear_between",
    "Verif.Props.C02_nodes",
    "Verif.Props.C02_between_values",
    "Verif.Props.C02_extrapolated",
    "Verif.Props.C02_nan_outside",
    "Verif.Props.C02_nan_time",
    "Verif.Props.C02_array"
   ],
   "note": "Exact arithmetic over any ordered field instead of floating point."
  },
  {
   "property": "C03",
   "status": "proved",
   "theorems": [
    "Verif.Props.C03_value_of_last_node",
    "Verif.Props.C03_after_last",
    "Verif.Props.C03_before_first",
    "Verif.Props.C03_single_ninf"
   ],
   "note": "Nodes and values may be infinite; exact arithmetic not needed (values are copied)."
  },
  {
   "property": "C04",
   "status": "proved",
   "theorems": [
    "Verif.Props.C04_derivative",
    "Verif.Props.C04_interior"
   ],
   "note": "Over the reals with Mathlib's HasDerivAt."
  },
  {
   "property": "C05",
   "status": "partial",
   "theorems": [
    "Verif.Props.C05_value_error",
    "Verif.Props.C05_interp_in_bounds",
    "Verif.Props.C05_parse",
    "Verif.Props.C05_shevaltemp_in_bounds_partial",
    "Verif.Props.C05_shevaltemp_oob",
    "Verif.Props.C05_shevaltemp_index_oob"
   ],
   "note": "interp fully proved. For shevaltemp the guard is missing in the code (C05_shevaltemp_oob, C05_shevaltemp_index_oob); in-bounds proved for sets satisfying it."
  },
  {
   "property": "C06",
   "status": "proved",
   "theorems": [
    "Verif.Props.C06_round_trip",
    "Verif.Props.C06_non_finite",
    "Verif.Props.C06_round_trip_any",
    "Verif.Props.C06_year_fraction",
    "Verif.Props.C06_simple"
   ],
   "note": "Exact arithmetic over any floor field; days from -4716-03-01 on. Undefined C float-to-int conversion of NaN/inf is modelled by an arbitrary integer."
  },
  {
   "property": "C07",
   "status": "proved",
   "theorems": [
    "Verif.Props.C07_year_length",
    "Verif.Props.C07_epoch",
    "Verif.Props.C07_year_bracket",
    "Verif.Props.C07_year_start_mono",
    "Verif.Props.C07_year_unique",
    "Verif.Props.C07_no_overflow",
    "Verif.Props.C07_decimal_year_strict_mono"
   ],
   "note": "Including uniqueness of the year and absence of 32-bit overflow up to 5e8 days."
  },
  {
   "property": "C08",
   "status": "partial",
   "theorems": [
    "Verif.Props.C08_not_monotone",
    "Verif.Props.C08_monotone_partial",
    "Verif.Props.C08_inverse_partial"
   ],
   "note": "False of the code: 1582 has 355 days but is given 365 (C08_not_monotone). Proved outside that exception."
  },
  {
   "property": "C09",
   "status": "proved",
   "theorems": [
    "Verif.Props.C09_epoch",
    "Verif.Props.C09_next_day",
    "Verif.Props.C09_valid",
    "Verif.Props.C09_iterate",
    "Verif.Props.C09_hours",
    "Verif.Props.C09_date_advances"
   ],
   "note": "Against an independent specification of the civil calendar (Spec/Calendar.lean)."
  },
  {
   "property": "C10",
   "status": "proved",
   "theorems": [
    "Verif.Props.C10_size",
    "Verif.Props.C10_no_collision",
    "Verif.Props.C10_dense"
   ],
   "note": "Any value type with a zero; the shape of the assignment loop, IndexError explicit."
  },
  {
   "property": "C11",
   "status": "proved",
   "theorems": [
    "Verif.Props.C11_kept",
    "Verif.Props.C11_degree",
    "Verif.Props.C11_evaluated"
   ],
   "note": "Including the evaluated table at any time and any degree limits."
  },
  {
   "property": "C12",
   "status": "proved",
   "theorems": [
    "Verif.Props.C12_multi",
    "Verif.Props.C12_node_order",
    "Verif.Props.C12_series",
    "Verif.Props.C12_value",
    "Verif.Props.C12_series_constant",
    "Verif.Props.C12_constant"
   ],
   "note": "Exact arithmetic over any ordered field; distinct finite node times in any order."
  },
  {
   "property": "C13",
   "status": "partial",
   "theorems": [
    "Verif.Props.C13_no_hole",
    "Verif.Props.C13_gap_rejected",
    "Verif.Props.C13_accepted_partial",
    "Verif.Props.C13_nested_rejected"
   ],
   "note": "No hole, hull and rejection of every gap are proved; acceptance of every gap-free collection is false of the code (C13_nested_rejected), proved for collections without nesting."
  },
  {
   "property": "C14",
   "status": "proved",
   "theorems": [
    "Verif.Props.C14_first_match",
    "Verif.Props.C14_no_match",
    "Verif.Props.C14_multi",
    "Verif.Props.C14_nested",
    "Verif.Props.C14_sparse_coherent",
    "Verif.Props.C14_model"
   ],
   "note": "For members of any kind and any depth of nesting; equality up to zero padding."
  },
  {
   "property": "C15",
   "status": "proved",
   "theorems": [
    "Verif.Props.C15_sum",
    "Verif.Props.C15_multi",
    "Verif.Props.C15_validity",
    "Verif.Props.C15_accepted"
   ],
   "note": "Left-to-right sum in any additive structure with zero, so also with NaN and infinities."
  },
  {
   "property": "C16",
   "status": "proved",
   "theorems": [
    "Verif.Props.C16_nonoverlapping",
    "Verif.Props.C16_terminates",
    "Verif.Props.C16_at_times"
   ],
   "note": "Times in any linear order (NaN excluded); Python's bisect_right used by its contract. Zero-length input intervals are dropped by the code and hold no cut."
  },
  {
   "property": "C17",
   "status": "proved",
   "theorems": [
    "Verif.Props.C17_coverage",
    "Verif.Props.C17_times",
    "Verif.Props.C17_sorted",
    "Verif.Props.C17_none"
   ],
   "note": "Coverage for all cuts; additionally emitted degenerate (zero length) touching points hold no cut."
  },
  {
   "property": "C18",
   "status": "partial",
   "theorems": [
    "Verif.Props.C18_scalar",
    "Verif.Props.C18_array",
    "Verif.Props.C18_nan",
    "Verif.Props.C18_agree_partial",
    "Verif.Props.C18_boundary",
    "Verif.Props.C18_active",
    "Verif.Props.C18_active_array_partial",
    "Verif.Props.C18_overlap",
    "Verif.Props.C18_unordered_nan",
    "Verif.Props.C18_composed_validity",
    "Verif.Props.C18_instant_nan"
   ],
   "note": "False of the code at component boundaries and where members overlap (C18_boundary, C18_overlap), for unordered composed members and for zero-length validities (C18_unordered_nan, C18_instant_nan). Agreement proved away from these."
  },
  {
   "property": "C19",
   "status": "partial",
   "theorems": [
    "Verif.Props.C19_legendre_partial",
    "Verif.Props.C19_negative",
    "Verif.Props.C19_algorithms_agree",
    "Verif.Props.C19_degree_zero_overflow",
    "Verif.Props.C19_beyond_pole"
   ],
   "note": "Both algorithms proved equal to the Schmidt semi-normalised functions defined by Rodrigues' formula for every degree from 1 and every latitude from -90 to 90, over the reals with exact sin, sqrt. Degree 0 is proved to write outside of the output arrays (C19_degree_zero_overflow). Rounding is not modelled."
  },
  {
   "property": "C20",
   "status": "partial",
   "theorems": [
    "Verif.Props.C20_derivative_partial",
    "Verif.Props.C20_outputs_partial",
    "Verif.Props.C20_beyond_pole"
   ],
   "note": "Second output proved to be the derivative (per radian) for every degree from 1 and every latitude from -90 to 90. Beyond the poles the sign is proved wrong (C20_beyond_pole); degree 0 overflows."
  },
  {
   "property": "C21",
   "status": "proved",
   "theorems": [
    "Verif.Props.C21_loncossin",
    "Verif.Props.C21_negative",
    "Verif.Props.C21_neg"
   ],
   "note": "Over the reals with exact cos/sin; both algorithms, any previous content of the output array, index bounds included."
  },
  {
   "property": "C22",
   "status": "proved",
   "theorems": [
    "Verif.Props.C22_relradpow",
    "Verif.Props.C22_rejected",
    "Verif.Props.C22_documentation_wrong"
   ],
   "note": "Over the reals. The documentation string of relradpow states the exponent i+1 for the external field, the code (and the comment in spherical_harmonics.h) i-1: C22_documentation_wrong."
  },
  {
   "property": "C23",
   "status": "partial",
   "theorems": [
    "Verif.Props.C23_sheval_partial",
    "Verif.Props.C23_potential_partial",
    "Verif.Props.C23_degree_zero_overflow"
   ],
   "note": "Proved for every degree from 1, both source kinds, latitudes from -90 to 90, any previous content of the buffers, over the reals with exact sin, cos, sqrt. Degree 0 overruns the Legendre buffers (C23_degree_zero_overflow). Input coordinates are spherical here; conversion is the subject of C30-C32. Whole sheval (any input/output coordinates, scales, caches, buffers): C23_sheval_partial."
  },
  {
   "property": "C24",
   "status": "partial",
   "theorems": [
    "Verif.Props.C24_sheval_partial",
    "Verif.Props.C24_gradient_partial",
    "Verif.Props.C24_north_radial",
    "Verif.Props.C24_modes",
    "Verif.Props.C24_near_pole",
    "Verif.Props.C24_position_partial",
    "Verif.Props.C24_near_pole_bound"
   ],
   "note": "Proved for |cos(lat)| >= 1e-10; false of the code for 0 < |cos(lat)| < 1e-10, where the orders above 1 are left out (C24_near_pole). C24_modes: combined mode equals the separate modes everywhere. Whole sheval: C24_sheval_partial states that the output, rotated to the Cartesian frame, is the gradient of the potential. C24_position_partial: one function of the Cartesian position, the same for all coordinate systems, is the potential and has the output as its gradient, the poles included; C24_near_pole_bound: next to the poles the difference is an eastward vector of at most |cos(lat)| times the terms of the orders above 1."
  },
  {
   "property": "C25",
   "status": "proved",
   "theorems": [
    "Verif.Props.C25_pole_limit"
   ],
   "note": "Both poles, every degree from 1, limit of the derivative of the specified potential along the meridian."
  },
  {
   "property": "C26",
   "status": "partial",
   "theorems": [
    "Verif.Props.C26_scale_partial",
    "Verif.Props.C26_sheval_partial",
    "Verif.Props.C26_linear"
   ],
   "note": "Linearity in the coefficients proved in every mode and position, and for the whole sheval with its scale factors in every coordinate system (C26_scale_partial, C26_sheval_partial), for degree >= 1."
  },
  {
   "property": "C27",
   "status": "partial",
   "theorems": [
    "Verif.Props.C27_sheval_partial",
    "Verif.Props.C27_split_partial",
    "Verif.Props.C27_sheval",
    "Verif.Props.C27_split",
    "Verif.Props.C27_shevaltemp_partial",
    "Verif.Props.C27_sheval2dfs"
   ],
   "note": "sheval and sheval2dfs fully (arbitrary buffer content at start, NaN coordinates). shevaltemp for sets without a common coefficient; otherwise false of the code (C28_history). Assumes that the numerical kernels overwrite their whole buffer. For sheval also with the concrete kernels and projections (C27_sheval_partial, C27_split_partial; from degree 1)."
  },
  {
   "property": "C28",
   "status": "partial",
   "theorems": [
    "Verif.Props.C28_tables_partial",
    "Verif.Props.C28_default_partial",
    "Verif.Props.C28_overlap",
    "Verif.Props.C28_history"
   ],
   "note": "Proved when no coefficient occurs twice; false of the code otherwise (C28_overlap: the last set replaces instead of adding, C28_history: depends on the previous time)."
  },
  {
   "property": "C29",
   "status": "partial",
   "theorems": [
    "Verif.Props.C29_fourier2d_partial",
    "Verif.Props.C29_usual_partial",
    "Verif.Props.C29_overflow"
   ],
   "note": "Holds unless |min_degree2| exceeds 1, |min_degree1|, |max_degree1| and |max_degree2|; in that case the temporary buffer is written outside of its end (C29_overflow). Over the reals; degrees below 2^31."
  },
  {
   "property": "C30",
   "status": "partial",
   "theorems": [
    "Verif.Props.C30_sph_cart_sph_partial",
    "Verif.Props.C30_pole",
    "Verif.Props.C30_cart_sph_cart"
   ],
   "note": "Holds for latitudes inside (-90,90); at the poles latitude and radius are recovered and the longitude becomes 0 (C30_pole), so the claim as stated is false there. Cartesian to spherical and back for every non-zero position. Real arithmetic; signed zeros and rounding not modelled."
  },
  {
   "property": "C31",
   "status": "proved",
   "theorems": [
    "Verif.Props.C31_geodetic",
    "Verif.Props.C31_geodetic_sph",
    "Verif.Props.C31_cart"
   ],
   "note": "Heights from -6313 km, exact real arithmetic. Through Cartesian coordinates latitudes inside (-90,90); through spherical ones also the poles and any longitude. Radii from 43 km in the other direction."
  },
  {
   "property": "C32",
   "status": "proved",
   "theorems": [
    "Verif.Props.C32_coherent",
    "Verif.Props.C32_identity",
    "Verif.Props.C32_codes"
   ],
   "note": "Positions: heights >= -6313 km, radii >= 43 km, longitudes in (-180,180] and 0 at the poles. Exact real arithmetic."
  },
  {
   "property": "C33",
   "status": "proved",
   "theorems": [
    "Verif.Props.C33_length",
    "Verif.Props.C33_inverse",
    "Verif.Props.C33_geod",
    "Verif.Props.C33_vrotate",
    "Verif.Props.C33_coherent",
    "Verif.Props.C33_codes"
   ],
   "note": "Exact real arithmetic."
  },
  {
   "property": "C34",
   "status": "partial",
   "theorems": [
    "Verif.Props.C34_frames_partial",
    "Verif.Props.C34_components",
    "Verif.Props.C34_spherical",
    "Verif.Props.C34_geodetic"
   ],
   "note": "Rotations against derivatives of positions, spherical and geodetic, and the output systems of sheval (C34_frames_partial, C24_sheval_partial), for degree >= 1."
  },
  {
   "property": "C35",
   "status": "proved",
   "theorems": [
    "Verif.Props.C35_rotation",
    "Verif.Props.C35_meridian",
    "Verif.Props.C35_convert",
    "Verif.Props.C35_pole"
   ],
   "note": "Exact real arithmetic; positions other than the origin."
  },
  {
   "property": "C36",
   "status": "proved",
   "theorems": [
    "Verif.Props.C36_position",
    "Verif.Props.C36_cartesian",
    "Verif.Props.C36_components",
    "Verif.Props.C36_rotate"
   ],
   "note": "Exact real arithmetic."
  },
  {
   "property": "C37",
   "status": "proved",
   "theorems": [
    "Verif.Props.C37_mut",
    "Verif.Props.C37_time"
   ],
   "note": "Exact real arithmetic: with rounding the value 24.0 cannot be excluded. The solar position is a parameter."
  },
  {
   "property": "C38",
   "status": "partial",
   "theorems": [
    "Verif.Props.C38_vincdecnorm_partial"
   ],
   "note": "Every non-zero vector; for the zero vector the code computes asin(0/0) = NaN."
  },
  {
   "property": "C39",
   "status": "proved",
   "theorems": [
    "Verif.Props.C39_empty",
    "Verif.Props.C39_options",
    "Verif.Props.C39_nan",
    "Verif.Props.C39_sum",
    "Verif.Props.C39_models",
    "Verif.Props.C39_two"
   ],
   "note": "Exact arithmetic, one time and one location, nested composed models with spherical harmonic and dipole members; member scales are scalars; dipole members need valid positions; array shapes are covered by C49."
  },
  {
   "property": "C40",
   "status": "proved",
   "theorems": [
    "Verif.Props.C40_intersection",
    "Verif.Props.C40_bounds",
    "Verif.Props.C40_empty",
    "Verif.Props.C40_order",
    "Verif.Props.C40_mio"
   ],
   "note": "Times are modelled as extended reals with NaN; interval endpoints as written by the members."
  },
  {
   "property": "C41",
   "status": "proved",
   "theorems": [
    "Verif.Props.C41_cartesian",
    "Verif.Props.C41_trace",
    "Verif.Props.C41_length",
    "Verif.Props.C41_finite",
    "Verif.Props.C41_codes",
    "Verif.Props.C41_start_unchecked"
   ],
   "note": "Exact arithmetic; the field is an arbitrary function with NaN as none. The start point itself is not checked against the radius limits (C41_start_unchecked)."
  },
  {
   "property": "C42",
   "status": "proved",
   "theorems": [
    "Verif.Props.C42_primary",
    "Verif.Props.C42_once",
    "Verif.Props.C42_leading_times"
   ],
   "note": "Arguments which are scalars or of the shape of the locations, finite locations. Times of only the leading dimensions of the locations are rejected by the code (C42_leading_times) although other models accept them; recorded as a disagreement."
  },
  {
   "property": "C43",
   "status": "proved",
   "theorems": [
    "Verif.Props.C43_potential",
    "Verif.Props.C43_point",
    "Verif.Props.C43_rows",
    "Verif.Props.C43_reject",
    "Verif.Props.C43_mio"
   ],
   "note": "Over the reals, for every degree and height above -6371.2 km; including the rows of the 2D Fourier series and IndexError for degrees beyond the table."
  },
  {
   "property": "C44",
   "status": "partial",
   "theorems": [
    "Verif.Props.C44_load_partial",
    "Verif.Props.C44_load_years_partial",
    "Verif.Props.C44_spline_order_ignored",
    "Verif.Props.C44_load_constant",
    "Verif.Props.C44_six_fields",
    "Verif.Props.C44_parse",
    "Verif.Props.C44_blank_line"
   ],
   "note": "Parsing of every well-formed text to exactly its contents (C44_parse), constant files, and evaluation of the loaded coefficients on the lines through the nodes. False of the code: the spline order of the file is ignored (misspelt key, C44_spline_order_ignored), a blank line after the header breaks the parsing (C44_blank_line), six header fields fail (C44_six_fields). float() is a parameter."
  },
  {
   "property": "C45",
   "status": "partial",
   "theorems": [
    "Verif.Props.C45_wmm",
    "Verif.Props.C45_igrf",
    "Verif.Props.C45_igrf_forecast",
    "Verif.Props.C45_emm_parse",
    "Verif.Props.C45_emm_partial",
    "Verif.Props.C45_emm_not_rejected"
   ],
   "note": "WMM from the text to the evaluated coefficients (C45_wmm), IGRF (C45_igrf, C45_igrf_forecast), EMM (C45_emm_parse, C45_emm_partial). False of the code: inconsistent EMM sets are not rejected, the ValueError is constructed but not raised (C45_emm_not_rejected). float() is a parameter."
  },
  {
   "property": "C46",
   "status": "proved",
   "theorems": [
    "Verif.Props.C46_accepts",
    "Verif.Props.C46_merge"
   ],
   "note": "Any number of sets; accepted exactly if the consecutive sets fit (C46_accepts), values stay with their times (C46_merge). CDF reading is not modelled."
  },
  {
   "property": "C47",
   "status": "proved",
   "theorems": [
    "Verif.Props.C47_ranges",
    "Verif.Props.C47_zenith"
   ],
   "note": "Exact real arithmetic: the wrap by fmod/floor is exact, rounding of values just below the upper limit is not covered."
  },
  {
   "property": "C48",
   "status": "partial",
   "theorems": [
    "Verif.Props.C48_epochs",
    "Verif.Props.C48_pointwise_partial",
    "Verif.Props.C48_batch_differs",
    "Verif.Props.C48_nan_stale",
    "Verif.Props.C48_nan_undefined"
   ],
   "note": "Proved: each point uses the coefficients of its own or an earlier epoch of the batch within one day. False in the code: batch equal to point-wise (C48_batch_differs); shown for epochs equal or more than a day apart. NaN times are evaluated with stale coefficients (C48_nan_stale) or give undefined outputs (C48_nan_undefined). Hypotheses: finite times, altitude not exactly -999 km, first epoch not within a day of -9999.9."
  },
  {
   "property": "C49",
   "status": "partial",
   "theorems": [
    "Verif.Props.C49_convert",
    "Verif.Props.C49_convert_rejects",
    "Verif.Props.C49_convert_alias",
    "Verif.Props.C49_vrot_sph2geod",
    "Verif.Props.C49_vrot",
    "Verif.Props.C49_sheval_partial",
    "Verif.Props.C49_sheval_rejects",
    "Verif.Props.C49_short_points_overrun",
    "Verif.Props.C49_last_stride_ignored",
    "Verif.Props.C49_spharpot",
    "Verif.Props.C49_sphargrd",
    "Verif.Props.C49_spharpot_rejects",
    "Verif.Props.C49_sphargrd_rejects",
    "Verif.Props.C49_sheval_rejects_arguments"
   ],
   "note": "sheval, spharpot, sphargrd, convert, vrot_*: every shape and stride. sheval: degree >= 1, last dimension 3 and last stride one item (both not checked by the code; counterexamples proved). Item-by-item functions: C64."
  },
  {
   "property": "C50",
   "status": "proved",
   "theorems": [
    "Verif.Props.C50_largest",
    "Verif.Props.C50_degree"
   ],
   "note": "The double square root is a parameter with relative rounding error at most 2^-50; sizes below 2^45."
  },
  {
   "property": "C51",
   "status": "partial",
   "theorems": [
    "Verif.Props.C51_times_partial",
    "Verif.Props.C51_incompatible",
    "Verif.Props.C51_more_times",
    "Verif.Props.C51_array"
   ],
   "note": "Pairing proved for times with at most as many dimensions as the locations. False of the code for times with more dimensions: TypeError instead of ValueError (C51_more_times)."
  },
  {
   "property": "C52",
   "status": "proved",
   "theorems": [
    "Verif.Props.C52_dipole",
    "Verif.Props.C52_scalar_time",
    "Verif.Props.C52_leading_times",
    "Verif.Props.C52_primary"
   ],
   "note": "Exact arithmetic, NaN F10.7 as none; arguments which are scalars, of the shape of the locations, or of its leading dimensions (C52_leading_times). A scalar time with an array of F10.7 values raises an exception (C52_scalar_time)."
  },
  {
   "property": "C53",
   "status": "proved",
   "theorems": [
    "Verif.Props.C53_parse",
    "Verif.Props.C53_reject"
   ],
   "note": "Even numbers of rows; three rows with the same index pair are accepted by broadcasting (modelled, not claimed). float() is a parameter."
  },
  {
   "property": "C54",
   "status": "proved",
   "theorems": [
    "Verif.Props.C54_equatorial",
    "Verif.Props.C54_hour_angle",
    "Verif.Props.C54_horizontal"
   ],
   "note": "Exact real arithmetic; the ecliptic longitude series is the specification of the position on the ecliptic (its astronomical accuracy is not claimed)."
  },
  {
   "property": "C55",
   "status": "proved",
   "theorems": [
    "Verif.Props.C55_days",
    "Verif.Props.C55_date",
    "Verif.Props.C55_original",
    "Verif.Props.C55_before",
    "Verif.Props.C55_after"
   ],
   "note": "Pressure 0 and dtt 0 (the two differ in the refraction and in the rounded constant of dtt). Outside of the range the original differs by days (C55_before, C55_after)."
  },
  {
   "property": "C56",
   "status": "partial",
   "theorems": [
    "Verif.Props.C56_no_history",
    "Verif.Props.C56_file_cached",
    "Verif.Props.C56_altitude_stale"
   ],
   "note": "Proved for unchanged files, finite times, altitudes other than exactly -999 km and first epochs not near -9999.9. False in the code otherwise: C56_altitude_stale, C56_file_cached, C48_nan_stale. Exact arithmetic apart from an arbitrary conversion to single precision of the inputs."
  },
  {
   "property": "C57",
   "status": "proved",
   "theorems": [
    "Verif.Props.C57_interpolated",
    "Verif.Props.C57_average",
    "Verif.Props.C57_nan"
   ],
   "note": "Exact arithmetic. A NaN epoch would read out of the array (C57_nan) but the wrapper never loads one."
  },
  {
   "property": "C58",
   "status": "proved",
   "theorems": [
    "Verif.Props.C58_coordinates"
   ],
   "note": "Exact arithmetic; the literal P00 of alfbasis is taken as sqrt(1/2). Orders 1..mmax with mmax <= nmax. The vector of the origin has latitude and longitude 0."
  },
  {
   "property": "C59",
   "status": "proved",
   "theorems": [
    "Verif.Props.C59_base_vectors"
   ],
   "note": "Exact arithmetic. The gradients carry the factor |(X,Y,Z)| of the vector of the series, which is 1 only up to the accuracy of the coefficient file."
  },
  {
   "property": "C60",
   "status": "partial",
   "theorems": [
    "Verif.Props.C60_dipole_longitude",
    "Verif.Props.C60_local_time",
    "Verif.Props.C60_out_of_day",
    "Verif.Props.C60_batch",
    "Verif.Props.C60_pointwise_partial",
    "Verif.Props.C60_stop"
   ],
   "note": "Proved for longitudes in [-180, 180]: local time, pole of its own or an earlier epoch of the batch within one day, frame of the pole. False in the code: longitudes up to 720 can give 24 (C60_out_of_day); the batch keeps the pole of an earlier point (point-wise only for epochs equal or more than a day apart). Times before the first epoch of the field or outside of 1601-2100 stop the process (C60_stop)."
  },
  {
   "property": "C61",
   "status": "partial",
   "theorems": [
    "Verif.Props.C61_direction",
    "Verif.Props.C61_before_2000_partial",
    "Verif.Props.C61_equinox",
    "Verif.Props.C61_mean_longitude",
    "Verif.Props.C61_stop",
    "Verif.Props.C61_pointwise"
   ],
   "note": "Proved from 2000 on and at integer times, with the mean longitude of the code (280.451 instead of 280.461 of the cited formula). False in the code: non-integer times before 2000 are one day off (C61_equinox, C61_before_2000_partial); mean longitude (C61_mean_longitude). Times from 1583 on outside of 1601-2100 stop the process (C61_stop)."
  },
  {
   "property": "C62",
   "status": "proved",
   "theorems": [
    "Verif.Props.C62_coefficients",
    "Verif.Props.C62_pole"
   ],
   "note": "Exact arithmetic; arc cosine of the libm as Real.arccos; the dates before the first epoch stop the process (part of C62_coefficients)."
  },
  {
   "property": "C63",
   "status": "partial",
   "theorems": [
    "Verif.Props.C63_relradpow",
    "Verif.Props.C63_loncossin",
    "Verif.Props.C63_legendre_partial",
    "Verif.Props.C63_rejected",
    "Verif.Props.C63_potential_partial",
    "Verif.Props.C63_gradient_partial"
   ],
   "note": "Every shape and stride. legendre: from degree 1 (degree 0 overruns the arrays, see C19/C20). Combined: latitudes from -90 to 90 degrees, radius > 0; the east component of the gradient is shown to be the derivative when |cos(latitude)| >= 1e-10."
  },
  {
   "property": "C64",
   "status": "partial",
   "theorems": [
    "Verif.Props.C64_time",
    "Verif.Props.C64_time_round_trip",
    "Verif.Props.C64_bisect",
    "Verif.Props.C64_bisect_rejects",
    "Verif.Props.C64_interp",
    "Verif.Props.C64_interp_rejects",
    "Verif.Props.C64_fourier2d_partial",
    "Verif.Props.C64_fourier2d_rejects",
    "Verif.Props.C64_sunpos",
    "Verif.Props.C64_sunpos_original",
    "Verif.Props.C64_sunpos_rejects"
   ],
   "note": "Proved for the time conversions, bisect, interp, sunpos and sunpos_original; fourier2d under the condition on the minimal degrees of C29 (the buffer overflows otherwise). Trusted: NumPy delivers an aligned array of doubles (the strided layout itself is covered)."
  },
  {
   "property": "C65",
   "status": "proved",
   "theorems": [
    "Verif.Props.C65_same_instant",
    "Verif.Props.C65_instant",
    "Verif.Props.C65_range",
    "Verif.Props.C65_any_year",
    "Verif.Props.C65_rejects",
    "Verif.Props.C65_julian"
   ],
   "note": "Exact arithmetic in place of doubles; datetime objects by their fields. Before 1583 the two calendars differ (C65_julian)."
  },
  {
   "property": "C66",
   "status": "partial",
   "theorems": [
    "Verif.Props.C66_is_sheval",
    "Verif.Props.C66_table_exists",
    "Verif.Props.C66_shevaltemp_partial",
    "Verif.Props.C66_rejects"
   ],
   "note": "C66_is_sheval: equality with sheval for every shape, stride, mode and any item evaluation, errors included. C66_shevaltemp_partial adds the values by C49 (from degree 1, coordinates of a point next to each other in memory). Sets: increasing nodes, at least as many as the order, |m| <= n, no coefficient twice; the code checks none of these (C05_shevaltemp_oob, C28_overlap). Finite times and nodes (NaN: C28)."
  },
  {
   "property": "C67",
   "status": "partial",
   "theorems": [
    "Verif.Props.C67_is_sheval_partial",
    "Verif.Props.C67_table_exists",
    "Verif.Props.C67_sheval2dfs_partial",
    "Verif.Props.C67_rejects",
    "Verif.Props.C67_bad_set_crashes"
   ],
   "note": "Equality with sheval for every shape and stride under the condition on the minimal degrees of C29. False in the code: a coefficient set which does not fit is not refused (C67_bad_set_crashes)."
  },
  {
   "property": "C68",
   "status": "partial",
   "theorems": [
    "Verif.Props.C68_rotated_partial",
    "Verif.Props.C68_gradient_partial",
    "Verif.Props.C68_rejects",
    "Verif.Props.C68_potential_any_output"
   ],
   "note": "Over the reals, from degree 1. C68_rotated_partial: equality with sheval at the rotated position for all lists of points and modes; C68_gradient_partial excludes 0 < |cos(dipole latitude)| < 1e-10 as C24 does. With POTENTIAL the output coordinate type is not checked (C68_potential_any_output)."
  },
  {
   "property": "C69",
   "status": "partial",
   "theorems": [
    "Verif.Props.C69_laplace_partial"
   ],
   "note": "Over the reals, from degree 1, positions with x^2 + y^2 > 1e-20 r^2 (C24_near_pole is the reason). All Hessian entries are those of the solid harmonics in Lemmas/Solid."
  },
  {
   "property": "C70",
   "status": "partial",
   "theorems": [
    "Verif.Props.C70_2f_partial",
    "Verif.Props.C70_2c_partial",
    "Verif.Props.C70_rejects",
    "Verif.Props.C70_rejects_type",
    "Verif.Props.C70_epoch"
   ],
   "note": "Partial: exact arithmetic, the CDF library (reading of the variables) is not modelled, distinct epochs assumed (numpy does not promise the order of equal ones). The sm models are evaluated in the geographic frame (FIXME of the code), as stated by C70_2f_partial for both frames. C70_epoch shows that the epoch conversion agrees with the decimal year conversion from 1583 on."
  },
  {
   "property": "C71",
   "status": "proved",
   "theorems": [
    "Verif.Props.C71_datetime_exact",
    "Verif.Props.C71_epoch_exact",
    "Verif.Props.C71_datetime",
    "Verif.Props.C71_datetime_rounds_up",
    "Verif.Props.C71_epochs",
    "Verif.Props.C71_exact",
    "Verif.Props.C71_within_year",
    "Verif.Props.C71_monotone",
    "Verif.Props.C71_year_start",
    "Verif.Props.C71_accuracy",
    "Verif.Props.C71_round_trip",
    "Verif.Props.C71_rounds_up",
    "Verif.Props.C71_hours"
   ],
   "note": "Rounding to nearest of every operation (Spec/Binary64: 53 bits, subnormal numbers, any ties); overflow, fused operations and other rounding modes are outside of the specification. The half-open intervals of the exact conversions become closed ones: C71_rounds_up, C71_datetime_rounds_up."
  },
  {
   "property": "C72",
   "status": "proved",
   "theorems": [
    "Verif.Props.C72_exact",
    "Verif.Props.C72_nodes",
    "Verif.Props.C72_error",
    "Verif.Props.C72_total"
   ],
   "note": "Finite nodes, values and times; rounding as in C71. C72_exact links the rounded model to the exact one of C02."
  },
  {
   "property": "C73",
   "status": "partial",
   "theorems": [
    "Verif.Props.C73_released_partial",
    "Verif.Props.C73_result_or_exception_partial",
    "Verif.Props.C73_tuple_double_release",
    "Verif.Props.C73_flag_without_truth_value",
    "Verif.Props.C73_sheval2dfs_partial",
    "Verif.Props.C73_sheval2dfs_loses_memory",
    "Verif.Props.C73_sheval2dfs_ignores_error"
   ],
   "note": "Every acquired reference is counted by itself; the calls of NumPy and of the C library either succeed or fail with an exception, in any combination. Missing for the full claim (it is false there): the tuple of the results without memory (C73_tuple_double_release), flags without truth value (C73_flag_without_truth_value), sheval2dfs (C73_sheval2dfs_loses_memory, C73_sheval2dfs_ignores_error; C73_sheval2dfs_partial bounds the loss by one block)."
  },
  {
   "property": "C74",
   "status": "partial",
   "theorems": [
    "Verif.Props.C74_method",
    "Verif.Props.C74_valid",
    "Verif.Props.C74_eval_partial",
    "Verif.Props.C74_mixed_scales"
   ],
   "note": "C74_eval_partial: whole path from the arrays to the gradient of the potential. Sets of one unit of time per component apart from constant ones (otherwise false: C74_mixed_scales), no coefficient twice in a component, at most 16 sets, degree 1 at least, finite times where a component is valid, exact arithmetic, positions off the poles; for a single time the coordinates of a location next to each other in memory."
  },
  {
   "property": "C75",
   "status": "partial",
   "theorems": [
    "Verif.Props.C75_components",
    "Verif.Props.C75_eval_partial"
   ],
   "note": "C75_eval_partial: whole path from the tree of coefficient objects and the arrays to the gradient. Conditions of C74 on the selections of sets; members of composed objects in the order of time where they are combined or the times are an array (C18_overlap, C18_unordered_nan otherwise), times finite or NaN. At the ends of validity intervals the sets taken are shown to be valid there, and NaN only where none are, but not which of the valid sets are taken (C18_boundary). C75_components holds for all trees."
  },
  {
   "property": "C76",
   "status": "partial",
   "theorems": [
    "Verif.Props.C76_shc_partial",
    "Verif.Props.C76_combined_partial",
    "Verif.Props.C76_composed_partial",
    "Verif.Props.C76_wmm_partial",
    "Verif.Props.C76_igrf_partial",
    "Verif.Props.C76_emm_partial"
   ],
   "note": "C76_shc_partial, C76_composed_partial, C76_combined_partial, C76_wmm_partial, C76_igrf_partial, C76_emm_partial: from the lines of the files to the gradient. The evaluation has the conditions of C75 (at the ends of validity intervals the taken values are valid there, not said which; not within 1e-10 of the poles, exact arithmetic). float() of a token is a parameter. SHC times not before 1583 if interpolated in days; values are interpolated linearly whatever the spline order of the file (C44_spline_order_ignored); EMM files whose variation does not belong to the static file are not rejected (C45_emm_not_rejected); opening and decoding of files not modelled."
  },
  {
   "property": "C77",
   "status": "partial",
   "theorems": [
    "Verif.Props.C77_scale_refused",
    "Verif.Props.C77_eval_partial"
   ],
   "note": "C77_eval_partial: whole path from the tree of coefficient objects and the arrays to the gradient in the rotated frame. Conditions of C75 on the tree and the times; up to 15 leading dimensions for a single time; degree 1 at least; not within 1e-10 of the poles of the dipole (but at the poles); exact arithmetic. C77_scale_refused: scales of another number of items than one and three."
  },
  {
   "property": "C78",
   "status": "partial",
   "theorems": [
    "Verif.Props.C78_2f_partial",
    "Verif.Props.C78_2c_partial"
   ],
   "note": "C78_2f_partial, C78_2c_partial: from the variables of the files to the gradient. Conditions of C76 and C77 on the evaluation; no coefficient in both sets of a 2C product; reading of the CDF format not modelled; exact arithmetic."
  },
  {
   "property": "C79",
   "status": "partial",
   "theorems": [
    "Verif.Props.C79_eval_partial",
    "Verif.Props.C79_f107_refused",
    "Verif.Props.C79_primary_partial",
    "Verif.Props.C79_primary_refused"
   ],
   "note": "On strided arrays from the arguments to the items, by sheval2dfs and the dipole frame (C67, C77). Finite or NaN times; F10.7 and sub-solar coordinates are scalars or of all leading dimensions; an array of F10.7 with a single time and, for the primary model, times of fewer dimensions raise IndexError (C79_f107_refused, C79_primary_refused). Degree 1 and more; not next to the poles of the dipole; exact arithmetic."
  },
  {
   "property": "C80",
   "status": "partial",
   "theorems": [
    "Verif.Props.C80_eval_partial",
    "Verif.Props.C80_any_output",
    "Verif.Props.C80_empty_times"
   ],
   "note": "Mutual induction over the tree of models, by C75, C77 and C79 for the members. Finite or NaN times; one unit of time and one kind of source per selection of sets; F10.7 of a single time is a scalar; scales are numbers or vectors; up to 14 leading dimensions; parameters None are not told from missing ones; exact arithmetic. An unknown output system is not refused (C80_any_output); a model without components takes more times than points only for spherical output (C80_empty_times)."
  },
  {
   "property": "C81",
   "status": "partial",
   "theorems": [
    "Verif.Props.C81_internal_partial",
    "Verif.Props.C81_layer_partial",
    "Verif.Props.C81_primary_partial",
    "Verif.Props.C81_degrees",
    "Verif.Props.C81_continuous"
   ],
   "note": "By C53 (parser), C43 (conversion) and C79 (evaluation). The conditions of C79; the index pairs of a file are distinct, with orders up to the degrees, as are those of the products; no NaN or infinite numbers in the texts; the first diurnal wave number as in C29; exact arithmetic. The radial component at the ionosphere (C81_continuous) and the degrees (C81_degrees) are complete."
  },
  {
   "property": "C82",
   "status": "partial",
   "theorems": [
    "Verif.Props.C82_table_partial",
    "Verif.Props.C82_rejects",
    "Verif.Props.C82_internal_partial",
    "Verif.Props.C82_external_partial"
   ],
   "note": "By C10, C11, C53 and C64. Times are finite; the first diurnal wave number as in C29; index pairs distinct with orders up to the degrees; exact arithmetic. C82_rejects is complete."
  },
  {
   "property": "C83",
   "status": "partial",
   "theorems": [
    "Verif.Props.C83_coordinates_partial",
    "Verif.Props.C83_base_vectors_partial",
    "Verif.Props.C83_pointwise_partial",
    "Verif.Props.C83_refused",
    "Verif.Props.C83_long_arrays",
    "Verif.Props.C83_subsolar_partial",
    "Verif.Props.C83_subsolar_stop",
    "Verif.Props.C83_local_time_partial",
    "Verif.Props.C83_refused_times",
    "Verif.Props.C83_long_times"
   ],
   "note": "By C48, C56, C58, C59, C60 and C61. Proved for arrays of less than 2^31 items: the number of the points is passed as a C int, and for 2^31 points the returned arrays are uninitialised memory (C83_long_arrays, C83_long_times). Finite times; epochs as in C48 and C60; geodetic position by the code's own series; exact arithmetic. C83_refused, C83_refused_times are complete."
  },
  {
   "property": "C84",
   "status": "proved",
   "theorems": [
    "Verif.Props.C84_exact",
    "Verif.Props.C84_radial",
    "Verif.Props.C84_underflow",
    "Verif.Props.C84_loncossin"
   ],
   "note": "binary64 with subnormal numbers; overflow is not modelled, C84_radial also bounds the values by twice the exact ones. C84_underflow: for a power at the limit of the format the relative error is 100 percent. C84_exact ties the rounded functions to the models of C21 and C22. The library's cosine and sine are assumed within 2^-53."
  },
  {
   "property": "C85",
   "status": "proved",
   "theorems": [
    "Verif.Props.C85_potential",
    "Verif.Props.C85_gradient",
    "Verif.Props.C85_exact",
    "Verif.Props.C85_tables",
    "Verif.Props.C85_computed"
   ],
   "note": "binary64 with subnormal numbers (the bounds of the sizes are taken at least 2^-300, which covers vanishing coefficients); overflow is not modelled. The accuracy nP, nD of the functions of the latitude is a parameter: the rounding of their recurrence is not analysed. Near the poles C85_gradient proves that the evaluation is defined and the accuracy of the other two components."
  },
  {
   "property": "C86",
   "status": "partial",
   "theorems": [
    "Verif.Props.C86_latitude",
    "Verif.Props.C86_to_cartesian",
    "Verif.Props.C86_from_cartesian",
    "Verif.Props.C86_same",
    "Verif.Props.C86_types",
    "Verif.Props.C86_missing",
    "Verif.Props.C86_few",
    "Verif.Props.C86_roundtrip",
    "Verif.Props.C86_vnorm",
    "Verif.Props.C86_vnorm_number",
    "Verif.Props.C86_vnorm_vectors",
    "Verif.Props.C86_norm",
    "Verif.Props.C86_vincdecnorm_partial"
   ],
   "note": "Items are finite real numbers. The inclination of a zero vector is NaN in the code (0/0), C86_vincdecnorm_partial states only its norm and declination. Conversion of other objects to arrays is not modelled."
  },
  {
   "property": "C87",
   "status": "partial",
   "theorems": [
    "Verif.Props.C87_errors",
    "Verif.Props.C87_accepted_partial",
    "Verif.Props.C87_object",
    "Verif.Props.C87_evaluated",
    "Verif.Props.C87_constant",
    "Verif.Props.C87_decimal_year",
    "Verif.Props.C87_constant_errors",
    "Verif.Props.C87_mio",
    "Verif.Props.C87_indices_not_checked",
    "Verif.Props.C87_none"
   ],
   "note": "The claim about indices of other shapes is false of the code (C87_indices_not_checked); C87_accepted_partial states exactly which shapes are accepted. Times are distinct finite numbers in C87_object. Conversion of other objects to arrays is not modelled."
  },
  {
   "property": "C88",
   "status": "partial",
   "theorems": [
    "Verif.Props.C88_time_partial",
    "Verif.Props.C88_sun_partial",
    "Verif.Props.C88_in_place",
    "Verif.Props.C88_positions",
    "Verif.Props.C88_positions_refused",
    "Verif.Props.C88_vectors_cartesian",
    "Verif.Props.C88_vectors",
    "Verif.Props.C88_eval_partial",
    "Verif.Props.C88_coefficients_refused"
   ],
   "note": "Two claims are false of the code: C88_in_place (one sub-solar latitude in an array with several longitudes) and C88_coefficients_refused (gradients for several sets of coefficients of each position). The theorems marked partial state exactly which dimensions are accepted. Real numbers in place of floating point."
  },
  {
   "property": "C89",
   "status": "partial",
   "theorems": [
    "Verif.Props.C89_validity_partial",
    "Verif.Props.C89_validity_all",
    "Verif.Props.C89_parameters_partial",
    "Verif.Props.C89_parameters_all",
    "Verif.Props.C89_push",
    "Verif.Props.C89_create",
    "Verif.Props.C89_eval",
    "Verif.Props.C89_cycle",
    "Verif.Props.C89_self",
    "Verif.Props.C89_finished",
    "Verif.Props.C89_not_updated",
    "Verif.Props.C89_independent"
   ],
   "note": "False of the code for components changed after they were added (C89_not_updated) and for cycles (C89_self, C89_cycle); the theorems marked partial hold when push is only called for objects which are not components, one direction holds in all states (C89_validity_all, C89_parameters_all). The evaluation of the tree is C80."
  },
  {
   "property": "C90",
   "status": "partial",
   "theorems": [
    "Verif.Props.C90_exact",
    "Verif.Props.C90_fourier2d_partial",
    "Verif.Props.C90_overflow",
    "Verif.Props.C90_constant"
   ],
   "note": "Partial for the same reason as C29: the temporary buffer is too small if the second minimal degree has the largest absolute value (C90_overflow). Overflow of doubles is not modelled; no fused operations."
  },
  {
   "property": "C91",
   "status": "partial",
   "theorems": [
    "Verif.Props.C91_gradient_partial",
    "Verif.Props.C91_exact",
    "Verif.Props.C91_cosine",
    "Verif.Props.C91_degree_one_partial",
    "Verif.Props.C91_pole_loss",
    "Verif.Props.C91_low_partial",
    "Verif.Props.C91_error_partial",
    "Verif.Props.C91_potential_partial"
   ],
   "note": "For degrees up to 16, where shc_legendre_low is used; the algorithm of the degrees above 16 is not modelled with rounding. Next to the poles accuracy is lost (C91_pole_loss): the number of roundings k in the bounds is 2^30 there, 32/cos(latitude) elsewhere. Overflow of doubles is not modelled; no fused operations."
  },
  {
   "property": "C92",
   "status": "partial",
   "theorems": [
    "Verif.Props.C92_modes",
    "Verif.Props.C92_exact",
    "Verif.Props.C92_sheval_partial",
    "Verif.Props.C92_memory",
    "Verif.Props.C92_sign"
   ],
   "note": "Equality of the modes and exactness of the change of the sign proved for any rounding to nearest. Error bounds for the degrees 1 to 16, the spherical coordinates on input and output and a single point of a fresh model; the eastward component not next to the poles. Overflow of doubles is not modelled; no fused operations."
  }
 ]
}