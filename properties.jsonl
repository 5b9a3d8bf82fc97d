{"id": "C01", "title": "Interval search brackets every point", "statement": "bisect(nodes, x, side) returns an index i with nodes[i] <= x < nodes[i+1] (right side) resp. nodes[i] < x <= nodes[i+1] (left side); it returns -1 when x lies before the first node, when x is NaN or when there are no nodes, and len(nodes)-1 when x lies past the last node. The search always terminates and only ever reads existing nodes.", "quantifier": "every ascending node list of any length (repeated nodes allowed), every x including NaN and infinities, both sides", "why_tests_cant": "An off-by-one in the midpoint or in the boundary comparison shows only for particular lengths/positions; termination and in-bounds access are claims about all lengths.", "anchors": ["eoxmagmod/eoxmagmod/include/bisect.h: bisect_left, bisect_right", "eoxmagmod/eoxmagmod/pymm_bisect.h: bisect"]}
{"id": "C02", "title": "Piecewise linear interpolation", "statement": "interp(t, t0, v, INTERP_C1) reproduces v[k] at each node, is the straight line between adjacent nodes (hence between the two nodal values), is NaN outside [t0[0], t0[-1]] unless extrapolate=True, in which case it continues the line of the first/last segment; NaN time gives NaN.", "quantifier": "every strictly ascending node list with at least two nodes, every value list of the same length, every time incl. NaN", "why_tests_cant": "Continuity, node reproduction and boundary behaviour have to hold at a continuum of times and for any number of nodes.", "anchors": ["eoxmagmod/eoxmagmod/include/interpolation.h: get_interp1_basis, interp1_eval", "eoxmagmod/eoxmagmod/pymm_interp.h: interp, _interp"]}
{"id": "C03", "title": "Piecewise constant interpolation", "statement": "interp(t, t0, v, INTERP_C0) returns the value of the last node not after t; before the first node it is NaN, or the first value when extrapolate=True; at and after the last node it is the last value.", "quantifier": "every ascending non-empty node list, every value list, every time", "why_tests_cant": "The result depends on the position of t relative to arbitrarily many nodes.", "anchors": ["eoxmagmod/eoxmagmod/include/interpolation.h: get_interp0_basis, interp0_eval", "eoxmagmod/eoxmagmod/pymm_interp.h: _interp"]}
{"id": "C04", "title": "Derivative interpolation is the derivative of linear interpolation", "statement": "At every time which is not a node, interp(t, ..., INTERP_C1D1, extrapolate=True) is the time derivative of interp(t, ..., INTERP_C1, extrapolate=True); without extrapolation this holds at all interior non-node times.", "quantifier": "every strictly ascending node list with at least two nodes and every non-node time", "why_tests_cant": "A derivative is a limit; tests can only take finite differences at samples.", "anchors": ["eoxmagmod/eoxmagmod/include/interpolation.h: get_interp1d1_basis", "eoxmagmod/eoxmagmod/pymm_interp.h: _interp"]}
{"id": "C05", "title": "Interpolation input guards", "statement": "interp raises ValueError instead of computing when there are fewer nodes than the spline order (1 for C0, 2 for C1 and C1D1) or when the number of nodes differs from the last dimension of the values; whenever it computes, every node and value index read exists. The same must hold for shevaltemp's coefficient time series.", "quantifier": "every node count, value count, interpolation kind and time", "why_tests_cant": "Out-of-bounds reads are silent for most inputs.", "anchors": ["eoxmagmod/eoxmagmod/pymm_interp.h: interp", "eoxmagmod/eoxmagmod/include/interpolation.h", "eoxmagmod/eoxmagmod/pymm_shevaltemp.h: parse_coefset, _coeff_set_interp0, _coeff_set_interp1"]}
{"id": "C06", "title": "Decimal year round trip", "statement": "decimal_year_to_mjd2000(mjd2000_to_decimal_year(t)) = t, and NaN/infinities are passed through unchanged.", "quantifier": "every real MJD2000 time from the year -4712 on (below that C integer division changes meaning)", "why_tests_cant": "Must hold across every year length, leap rule and the calendar switch.", "anchors": ["eoxmagmod/eoxmagmod/include/time_conversion.h: mjd2k_to_decimal_year, decimal_year_to_mjd2k, mjd2k_to_year, mjd2k_year_start"]}
{"id": "C07", "title": "Year boundaries are exact", "statement": "The year computed for a day is the unique year y with start(y) <= day < start(y+1); consecutive year starts differ by 365 or 366 days by the Julian rule before 1582 and the Gregorian rule after 1582, and by 355 days in 1582; mjd2000_to_decimal_year is strictly increasing.", "quantifier": "every integer day / year in the supported range", "why_tests_cant": "Long-run calendar claims over unboundedly many years.", "anchors": ["eoxmagmod/eoxmagmod/include/time_conversion.h: mjd2k_to_year, mjd2k_year_start, is_leap_year, days_per_year"]}
{"id": "C08", "title": "Decimal year to MJD2000 is monotone", "statement": "y1 < y2 implies decimal_year_to_mjd2000(y1) < decimal_year_to_mjd2000(y2), and mjd2000_to_decimal_year(decimal_year_to_mjd2000(y)) = y.", "quantifier": "every pair of decimal years in the supported range", "why_tests_cant": "Only special years break it (1582 does).", "anchors": ["eoxmagmod/eoxmagmod/include/time_conversion.h: decimal_year_to_mjd2k"]}
{"id": "C09", "title": "Calendar dates advance day by day", "statement": "The calendar date computed from MJD2000 is 2000-01-01 on day 0, and advancing by one day always yields the next civil calendar date (month lengths, leap years, 1582-10-04 followed by 1582-10-15); the hour of day is 24 times the day fraction and lies in [0,24).", "quantifier": "every integer day in the supported range", "why_tests_cant": "Month/leap handling must be right on infinitely many days.", "anchors": ["eoxmagmod/eoxmagmod/include/time_conversion.h: mjd2k_to_date"]}
{"id": "C10", "title": "Dense coefficient table contains exactly the sparse coefficients", "statement": "Filling the dense table from sparse (n,m)->value pairs puts each value to row n(n+1)/2+|m|, column m<0, different (n,m) never collide, all other entries are zero and all rows fit in the table of the stated degree.", "quantifier": "every set of valid (n,m) indices of any degree", "why_tests_cant": "Index arithmetic injectivity for all degrees.", "anchors": ["eoxmagmod/eoxmagmod/magnetic_model/coefficients.py: SparseSHCoefficients, SparseSHCoefficientsTimeDependent.__call__, magnetic_model/util.py: coeff_size", "eoxmagmod/eoxmagmod/pymm_shevaltemp.h: _coefset_init"]}
{"id": "C11", "title": "Degree sub-setting", "statement": "Evaluating coefficients with min_degree/max_degree keeps exactly the coefficients with min_degree <= n <= max_degree, leaves their values unchanged, zeroes the others, and the returned degree is the largest degree left, or 0 when nothing is left; negative limits mean no limit.", "quantifier": "every coefficient set and every pair of limits", "why_tests_cant": "Case analysis over limits vs. content.", "anchors": ["eoxmagmod/eoxmagmod/magnetic_model/coefficients.py: SparseSHCoefficients.subset_degree, SparseSHCoefficientsTimeDependent.__call__"]}
{"id": "C12", "title": "Time-dependent coefficients", "statement": "SparseSHCoefficientsTimeDependent(t) gives each coefficient interpolated at t, extrapolated linearly outside the node times; the order in which the node times are supplied does not matter; a multi-time call equals the stack of single-time calls.", "quantifier": "every node set, permutation and time array", "why_tests_cant": "Permutation invariance and array/scalar agreement range over unboundedly many inputs.", "anchors": ["eoxmagmod/eoxmagmod/magnetic_model/coefficients.py: SparseSHCoefficientsTimeDependent"]}
{"id": "C13", "title": "Composed coefficients have no hole in the validity", "statement": "Whenever ComposedSHCoefficients is constructed, every time between its validity start and end lies in the validity interval of at least one of its members and the reported validity is the hull of the members; every gap-free collection is accepted and every collection with a gap is rejected.", "quantifier": "every non-empty collection of validity intervals in any order", "why_tests_cant": "Needs all orderings and nestings of any number of intervals.", "anchors": ["eoxmagmod/eoxmagmod/magnetic_model/coefficients.py: ComposedSHCoefficients.__init__, validity"]}
{"id": "C14", "title": "Composed coefficients select the first matching member", "statement": "ComposedSHCoefficients evaluated at a valid time equals the first member valid at that time (padded with zeros to the common size); the multi-time evaluation equals the stack of the single-time evaluations.", "quantifier": "every list of members and every array of times", "why_tests_cant": "Masks over arbitrary arrays and overlapping validity.", "anchors": ["eoxmagmod/eoxmagmod/magnetic_model/coefficients.py: ComposedSHCoefficients.__call__"]}
{"id": "C15", "title": "Combined coefficients are the sum of members", "statement": "CombinedSHCoefficients(t) is the entry-wise sum of the member tables (each zero-padded), its validity is the intersection of the member validities, its degree the maximum and min_degree the minimum.", "quantifier": "every non-empty list of members, every time", "why_tests_cant": "Padding and summation for arbitrary sizes and counts.", "anchors": ["eoxmagmod/eoxmagmod/magnetic_model/coefficients.py: CombinedSHCoefficients"]}
{"id": "C16", "title": "Non-overlapping decomposition of intervals", "statement": "get_nonoverlapping_intervals returns intervals sorted by time which do not overlap, are non-empty, and at every time (apart from interval ends) the covering object is that of the first input interval containing the time; no time is lost or added. The procedure terminates.", "quantifier": "every list of closed intervals of positive length", "why_tests_cant": "Arbitrary nestings/overlaps of arbitrarily many intervals.", "anchors": ["eoxmagmod/eoxmagmod/magnetic_model/util.py: get_nonoverlapping_intervals"]}
{"id": "C17", "title": "Intersection aggregation of intervals", "statement": "aggregate_intersected_intervals of two sorted non-overlapping interval lists yields exactly the pairwise intersections: a time is in the result with combined object list if and only if it is in an interval of each list with the corresponding objects; the procedure terminates.", "quantifier": "every pair of sorted non-overlapping interval lists", "why_tests_cant": "Two-pointer merge correctness for all interleavings.", "anchors": ["eoxmagmod/eoxmagmod/magnetic_model/util.py: aggregate_intersected_intervals"]}
{"id": "C18", "title": "Scalar and array times agree in model evaluation", "statement": "Model evaluation at an array of times equals the stack of the evaluations at each time on its own, and is NaN exactly where the time is outside the validity.", "quantifier": "every decomposition of a model's validity and every time array", "why_tests_cant": "Agreement on overlaps and shared boundaries requires all interval configurations.", "anchors": ["eoxmagmod/eoxmagmod/magnetic_model/model.py: SphericalHarmomicGeomagneticModel.eval"]}
{"id": "C19", "title": "Associated Legendre functions", "statement": "legendre(latitude, degree) returns the Schmidt semi-normalised associated Legendre functions sqrt((2-d_m0)(n-m)!/(n+m)!) cos(lat)^m (d/dx)^m P_n at x=sin(lat), for both the low-degree and the high-degree algorithm.", "quantifier": "every degree n, order m <= n and latitude in [-90,90]", "why_tests_cant": "Recurrences at every degree and continuum of latitudes.", "anchors": ["eoxmagmod/eoxmagmod/include/spherical_harmonics.h: shc_legendre, shc_legendre_low, shc_legendre_high"]}
{"id": "C20", "title": "Legendre derivatives", "statement": "The second output of legendre is the derivative of the first with respect to the latitude.", "quantifier": "every degree, order and latitude", "why_tests_cant": "Derivative is a limit over a continuum.", "anchors": ["eoxmagmod/eoxmagmod/include/spherical_harmonics.h: shc_legendre_low, shc_legendre_high"]}
{"id": "C21", "title": "Longitude series", "statement": "loncossin(lon, degree) returns cos(k lon), sin(k lon) for all k <= degree; the recurrent algorithm equals the direct one.", "quantifier": "every longitude and degree", "why_tests_cant": "Recurrence for all degrees.", "anchors": ["eoxmagmod/eoxmagmod/include/fourier_series.h: fs_cos_sin, fs_cos_sin_ref, fs_cos_sin_neg", "eoxmagmod/eoxmagmod/pymm_loncossin.h"]}
{"id": "C22", "title": "Relative radius powers", "statement": "relradpow(r, degree) is (a/r)^(k+2) for internal and (r/a)^(k-1) for external sources for all k <= degree.", "quantifier": "every radius r > 0, reference radius a > 0 and degree", "why_tests_cant": "Recurrence for all degrees.", "anchors": ["eoxmagmod/eoxmagmod/include/spherical_harmonics.h: shc_relradpow_internal, shc_relradpow_external"]}
{"id": "C23", "title": "Potential equals the spherical harmonic expansion", "statement": "sheval(..., mode=POTENTIAL) and spharpot return a Sum_n (a/r)^(n+1) Sum_m (g cos m lon + h sin m lon) P_n^m (internal) resp. with (r/a)^n (external).", "quantifier": "every coefficient table, degree and position", "why_tests_cant": "Sum over arbitrary degree.", "anchors": ["eoxmagmod/eoxmagmod/include/spherical_harmonics.h: shc_eval, shc_eval_v", "eoxmagmod/eoxmagmod/pymm_sheval.h: sheval", "eoxmagmod/eoxmagmod/pymm_spharpot.h"]}
{"id": "C24", "title": "Gradient is the gradient of the potential", "statement": "The returned vector components are (1/r) dV/dlat, 1/(r cos lat) dV/dlon and dV/dr of the potential V returned by the same function; combined mode returns the same values as the separate modes.", "quantifier": "every coefficient table, degree and non-polar position", "why_tests_cant": "Three derivatives at a continuum of points for every degree.", "anchors": ["eoxmagmod/eoxmagmod/include/spherical_harmonics.h: shc_eval_v, shc_eval_dv, shc_eval_v_dv"]}
{"id": "C25", "title": "Azimuthal gradient at the poles", "statement": "At the poles the azimuthal component equals the limit of the off-pole azimuthal component along the meridian.", "quantifier": "every coefficient table, degree, longitude, both poles", "why_tests_cant": "It is a limit.", "anchors": ["eoxmagmod/eoxmagmod/include/spherical_harmonics.h: shc_eval_dvaz_pole"]}
{"id": "C26", "title": "Linearity in coefficients", "statement": "The potential and gradient are linear in the coefficients, and scale_potential/scale_gradient multiply the result.", "quantifier": "every pair of coefficient tables and scalars", "why_tests_cant": "Algebraic law over all inputs.", "anchors": ["eoxmagmod/eoxmagmod/include/spherical_harmonics.h: shc_eval", "eoxmagmod/eoxmagmod/pymm_sheval.h: _sheval_pot, _sheval_grd, _sheval_pot_and_grd"]}
{"id": "C27", "title": "Batch evaluation does not depend on history", "statement": "Evaluating an array of points gives at each point the value which evaluating that point alone gives, independently of the order and of repeated coordinates (internal caches of powers, sines and Legendre functions are transparent).", "quantifier": "every sequence of points, incl. NaN coordinates", "why_tests_cant": "Cache bugs need particular coordinate coincidences in particular orders.", "anchors": ["eoxmagmod/eoxmagmod/pymm_sheval.h: _model_eval", "eoxmagmod/eoxmagmod/pymm_shevaltemp.h: _shevaltemp_grd", "eoxmagmod/eoxmagmod/pymm_sheval2dfs.h"]}
{"id": "C28", "title": "Time-dependent evaluation equals evaluation of interpolated coefficients", "statement": "shevaltemp at (t, x) equals sheval at x with the coefficient table interpolated at t and summed over the coefficient sets, for each point of the batch and independently of the previously evaluated points.", "quantifier": "every sequence of (time, point) pairs and list of coefficient sets", "why_tests_cant": "Caches of the last time and last interpolation segment depend on the evaluation history.", "anchors": ["eoxmagmod/eoxmagmod/pymm_shevaltemp.h: shevaltemp, _coeff_set_interp0, _coeff_set_interp1"]}
{"id": "C29", "title": "2D Fourier series", "statement": "fourier2d(x, y, ab, ...) equals Sum_ij A_ij cos(i s_x x + j s_y y) + B_ij sin(...) over the degree ranges starting at min_degree1, min_degree2, and the temporary buffer is large enough.", "quantifier": "every coefficient array, minimal degree offsets (incl. negative) and arguments", "why_tests_cant": "Index offsets for all ranges; overflow depends on sign combinations.", "anchors": ["eoxmagmod/eoxmagmod/include/fourier_series.h", "eoxmagmod/eoxmagmod/pymm_fourier2d.h"]}
{"id": "C30", "title": "Spherical/Cartesian round trip", "statement": "convert to geocentric Cartesian and back reproduces latitude, longitude and radius; and vice versa for all non-zero positions.", "quantifier": "every radius > 0, latitude in [-90,90], longitude in (-180,180]", "why_tests_cant": "Branches of arctan2 over continuum.", "anchors": ["eoxmagmod/eoxmagmod/include/geo_conversion.h: sph2cart, cart2sph", "eoxmagmod/eoxmagmod/pymm_cconv.h"]}
{"id": "C31", "title": "Geodetic/geocentric round trip", "statement": "Converting WGS84 geodetic coordinates to geocentric and back reproduces latitude, longitude and height.", "quantifier": "every latitude, longitude and height above -6314 km or so (outside the evolute of the ellipse)", "why_tests_cant": "A closed form quartic root over a continuum.", "anchors": ["eoxmagmod/eoxmagmod/include/geo_conversion.h: geodetic2geocentric_cart, geocentric_cart2geodetic"]}
{"id": "C32", "title": "Coordinate conversion table is coherent", "statement": "convert between any two of the three coordinate systems equals conversion through a third one, converting to the same system returns the input, unknown system codes are rejected.", "quantifier": "all pairs of coordinate system codes and all positions", "why_tests_cant": "Composition of conversions over a continuum.", "anchors": ["eoxmagmod/eoxmagmod/pymm_cconv.h: convert"]}
{"id": "C33", "title": "Vector rotations preserve length and invert", "statement": "vrot_sph2geod, vrot_sph2cart, vrot_cart2sph preserve the vector length, vrot_sph2cart and vrot_cart2sph are mutually inverse, and rotating by -dlat undoes rotating by dlat; vrotate between any two supported systems and back is the identity.", "quantifier": "every vector and every angle", "why_tests_cant": "Algebraic identities over a continuum.", "anchors": ["eoxmagmod/eoxmagmod/include/math_aux.h", "eoxmagmod/eoxmagmod/pymm_vrot_sph2geod.h", "eoxmagmod/eoxmagmod/pymm_vrot_sph2cart.h", "eoxmagmod/eoxmagmod/pymm_vrot_cart2sph.h", "eoxmagmod/eoxmagmod/util.py: vrotate"]}
{"id": "C34", "title": "Rotations agree with coordinates", "statement": "vrot_sph2cart maps the unit vectors north/east/up at (lat, lon) to the derivatives of the Cartesian position with respect to latitude, longitude and radius (normalised); evaluation in Cartesian, spherical and geodetic output systems give the same physical vector.", "quantifier": "every position and vector", "why_tests_cant": "Geometric meaning over a continuum.", "anchors": ["eoxmagmod/eoxmagmod/pymm_vrot_sph2cart.h", "eoxmagmod/eoxmagmod/pymm_sheval.h: _model_eval"]}
{"id": "C35", "title": "Dipole frame", "statement": "get_dipole_rotation_matrix is a proper rotation under which the dipole pole becomes the z axis; conversion to dipole coordinates preserves the radius; the pole has dipole latitude 90 degrees.", "quantifier": "every pole latitude and longitude, every position", "why_tests_cant": "Identities over a continuum.", "anchors": ["eoxmagmod/eoxmagmod/dipole_coords.py: get_dipole_rotation_matrix, convert_to_dipole"]}
{"id": "C36", "title": "Dipole vector rotation", "statement": "vrot_from_dipole gives the components of the same vector in the geographic frame; its norm is preserved and the rotation is inverse of the rotation to the dipole frame.", "quantifier": "every vector, position and pole", "why_tests_cant": "Identities over a continuum.", "anchors": ["eoxmagmod/eoxmagmod/dipole_coords.py: vrot_from_dipole", "eoxmagmod/eoxmagmod/dipole.py: rotate_vectors_from_dipole"]}
{"id": "C37", "title": "Magnetic universal time", "statement": "mjd2000_to_magnetic_universal_time returns a value in [0,24) congruent to (180 - dipole longitude of the sub-solar point)/15 modulo 24.", "quantifier": "every time and pole position", "why_tests_cant": "Wrap-around at all longitudes.", "anchors": ["eoxmagmod/eoxmagmod/magnetic_time.py"]}
{"id": "C38", "title": "Inclination, declination, intensity", "statement": "vincdecnorm returns (I, D, F) with F >= 0, and the vector is recovered as F cos I cos D, F cos I sin D, -F sin I.", "quantifier": "every vector", "why_tests_cant": "Branches over a continuum.", "anchors": ["eoxmagmod/eoxmagmod/util.py: vincdecnorm"]}
{"id": "C39", "title": "Composed model is the weighted sum", "statement": "ComposedGeomagneticModel.eval is the sum of member evaluations each multiplied by its scale, times the overall scale; member parameters override the call options; an empty model gives zero; a NaN member gives NaN.", "quantifier": "every list of members, scales and options", "why_tests_cant": "Any number of members and option overlaps.", "anchors": ["eoxmagmod/eoxmagmod/magnetic_model/model_composed.py: ComposedGeomagneticModel"]}
{"id": "C40", "title": "Composed model validity", "statement": "The validity of a composed model is the intersection of the member validities; an empty intersection yields an interval which contains no finite time regardless of the order in which members were added.", "quantifier": "every list of validity intervals in every order", "why_tests_cant": "Order independence over all lists.", "anchors": ["eoxmagmod/eoxmagmod/magnetic_model/model_composed.py: _validity_overlap, push"]}
{"id": "C41", "title": "Field line tracing", "statement": "trace_field_line returns as many vectors as points, every vector is the field at its point, the start point is included exactly at the junction, at most 2*max_steps+1 points are returned, every inner point other than the start point has radius within the limits and the tracing terminates.", "quantifier": "every field function, start point, step limits", "why_tests_cant": "Unbounded loops over arbitrary fields.", "anchors": ["eoxmagmod/eoxmagmod/magnetic_model/field_lines.py: trace_field_line"]}
{"id": "C42", "title": "MIO primary field split by height", "statement": "MIOPrimary evaluates each point exactly once: points with radius up to the ionosphere radius by the below-ionosphere (external) model and the others by the above-ionosphere (internal) model; result order equals the input order.", "quantifier": "every array of points", "why_tests_cant": "Mask/scatter over arbitrary arrays.", "anchors": ["eoxmagmod/eoxmagmod/magnetic_model/model_mio.py: MIOPrimaryGeomagneticModel.eval"]}
{"id": "C43", "title": "MIO internal/external conversion", "statement": "The coefficients converted by convert_external_mio_coeff make the radial component of the internal (above) field equal to the radial component of the external (below) field at the ionosphere radius, degree by degree.", "quantifier": "every degree, height and reference radius", "why_tests_cant": "Power law for all degrees.", "anchors": ["eoxmagmod/eoxmagmod/magnetic_model/loader_mio.py: convert_external_mio_coeff"]}
{"id": "C44", "title": "SHC file parsing", "statement": "parse_shc_file applied to a well-formed SHC text returns exactly its degrees, spline order, times, index pairs and coefficient values; leading comments and blank lines are ignored; loaders use the file's spline order.", "quantifier": "every well-formed file of any size", "why_tests_cant": "Unbounded texts.", "anchors": ["eoxmagmod/eoxmagmod/magnetic_model/parser_shc.py", "eoxmagmod/eoxmagmod/magnetic_model/loader_shc.py"]}
{"id": "C45", "title": "WMM/IGRF/EMM parsing", "statement": "Parsers of the WMM, IGRF and EMM formats return each coefficient under its (n,m) index, secular variation is turned into the second node five years later, and inconsistent EMM static/secular variation files are rejected.", "quantifier": "every well-formed file", "why_tests_cant": "Unbounded texts; rejection of every inconsistent pair.", "anchors": ["eoxmagmod/eoxmagmod/magnetic_model/parser_wmm.py", "eoxmagmod/eoxmagmod/magnetic_model/parser_igrf.py", "eoxmagmod/eoxmagmod/magnetic_model/parser_emm.py"]}
{"id": "C46", "title": "MMA merge", "statement": "Merging consecutive MMA coefficient files concatenates the time series in time order, rejects files with different index lists, and keeps values aligned with their times.", "quantifier": "every sequence of files", "why_tests_cant": "Any number of files.", "anchors": ["eoxmagmod/eoxmagmod/magnetic_model/loader_mma.py: _merge_coefficients"]}
{"id": "C47", "title": "Sun position angles are normalised", "statement": "sunpos returns right ascension in [0,360), hour angle in [-180,180), azimuth in [-180,180), declination in [-90,90].", "quantifier": "every time and location", "why_tests_cant": "Wrap-around over a continuum.", "anchors": ["eoxmagmod/eoxmagmod/include/sun_ephemeris.h"]}
{"id": "C48", "title": "Quasi-dipole epoch cache", "statement": "In a batch, the epoch used for each point differs from the requested epoch by no more than the reload limit (1/365.25 year), and the batch result equals the point-wise result.", "quantifier": "every sequence of epochs", "why_tests_cant": "History-dependent.", "anchors": ["qdipole/eval_qdlatlon.f90", "qdipole/cqdipole.c"]}
{"id": "C49", "title": "Array shapes, broadcasting and strides", "statement": "For array inputs of any shape and memory layout each output item is computed from the corresponding input items, and inputs of incompatible shape are rejected.", "quantifier": "every shape, stride and nesting depth", "why_tests_cant": "Unbounded dimensions and layouts.", "anchors": ["eoxmagmod/eoxmagmod/pymm_aux.h: _get_arrd_item, _get_arrd_vector_item", "eoxmagmod/eoxmagmod/pymm_sphar_common.h", "eoxmagmod/eoxmagmod/magnetic_model/util.py: reshape_times_and_coordinates, reshape_array, mask_array"]}
{"id": "C50", "title": "Degree deduced from the size of the coefficient array", "statement": "The evaluated degree never exceeds the number of available coefficient rows: all rows read exist, and the largest possible degree is used by default.", "quantifier": "every coefficient array size and requested degree", "why_tests_cant": "Integer square root for all sizes.", "anchors": ["eoxmagmod/eoxmagmod/pymm_sphar_common.h: _size_to_degree, _get_max_degree", "eoxmagmod/eoxmagmod/pymm_sheval.h"]}
{"id": "C51", "title": "Times, locations and parameters of different dimensions", "statement": "Model evaluation with an array of times of the leading dimensions of the locations pairs each location with the time of its leading indices; parameters of the leading dimensions are repeated likewise; times which do not match the leading dimensions are rejected with ValueError.", "quantifier": "every shape of the times and locations", "why_tests_cant": "Unbounded dimensions.", "anchors": ["eoxmagmod/eoxmagmod/magnetic_model/util.py: reshape_times_and_coordinates, reshape_array"]}
{"id": "C52", "title": "MIO scaling by F10.7 and validity", "statement": "The dipole MIO model multiplies the field by 1 + wolf_ratio*F10.7 of the same point; the result is NaN exactly at the points with a time out of the validity interval or a NaN F10.7 value, and no other point is affected.", "quantifier": "every array of points, times, F10.7 values and sub-solar points", "why_tests_cant": "Mask, scatter and broadcasting over arbitrary arrays.", "anchors": ["eoxmagmod/eoxmagmod/magnetic_model/model_mio.py: DipoleMIOGeomagneticModel.eval"]}
{"id": "C53", "title": "MIO file parsing", "statement": "parse_swarm_mio_file returns the header values, the index pairs and the external (first half) and internal (second half) coefficients of a well-formed file; the longitude of the pole is brought to (-180,180]; files whose halves have different index pairs, or whose rows do not have the size of the Fourier series, are rejected.", "quantifier": "every file of any number of rows", "why_tests_cant": "Unbounded texts and a longitude continuum.", "anchors": ["eoxmagmod/eoxmagmod/magnetic_model/parser_mio.py"]}
{"id": "C54", "title": "Sun direction", "statement": "The right ascension and declination returned by sunpos are those of the unit vector of the ecliptic longitude rotated by the obliquity; the hour angle is the sidereal time plus the longitude minus the right ascension, modulo 360 degrees; azimuth and zenith angle are those of the same direction in the horizontal frame of the location, up to the parallax correction of the zenith angle.", "quantifier": "every time and location (|lat| <= 90, times for which the linear obliquity is acute)", "why_tests_cant": "Trigonometric identities over a continuum.", "anchors": ["eoxmagmod/eoxmagmod/include/sun_ephemeris.h", "eoxmagmod/eoxmagmod/pysunpos.h"]}
{"id": "C55", "title": "sunpos_original agrees with sunpos", "statement": "sunpos_original, which decomposes the time to a calendar date and recomposes it, gives the same coordinates as sunpos for all times from 2000-03-01 to 2400-02-29.", "quantifier": "every time in the range, every location", "why_tests_cant": "A calendar round trip over four centuries of real-valued times.", "anchors": ["eoxmagmod/eoxmagmod/include/sun_ephemeris.h", "eoxmagmod/eoxmagmod/pysunpos_original.h"]}
{"id": "C56", "title": "Quasi-dipole results do not depend on the history", "statement": "The quasi-dipole coordinates of a batch are a function of the contents of the coefficient file and of the points: from any state which earlier calls (other files, epochs, points, with or without base vectors) can leave, the call gives the same result.", "quantifier": "every sequence of earlier calls and every batch", "why_tests_cant": "Module variables shared by all calls: epoch, file name, altitude and work arrays.", "anchors": ["qdipole/apexsh.f90: loadapxsh, allocatearrays, apxg2q", "qdipole/eval_qdlatlon.f90"]}
{"id": "C57", "title": "Quasi-dipole coefficients interpolated to the epoch", "statement": "The quasi-dipole coefficients used for an epoch are the piecewise linear interpolation of the coefficients of the file, exact at the epochs of the file and constant outside of their range; all array accesses are inside of the arrays.", "quantifier": "every file with increasing epochs, every epoch", "why_tests_cant": "Any number of epochs, real-valued times.", "anchors": ["qdipole/apexsh.f90: loadapxsh"]}
{"id": "C58", "title": "Quasi-dipole latitude and longitude are those of the series", "statement": "The quasi-dipole latitude (in [-90, 90]) and longitude (in (-180, 180]) are the spherical coordinates of the vector whose components are series of fully normalised spherical harmonics of the geodetic latitude and longitude with coefficients polynomial in Re/(Re+altitude).", "quantifier": "every table, epoch, altitude, latitude and longitude", "why_tests_cant": "Recurrences of any degree and order compared with the defining functions.", "anchors": ["qdipole/apexsh.f90: alfbasis, shcalc, apxg2q"]}
{"id": "C59", "title": "Quasi-dipole base vectors are gradients of the coordinates", "statement": "The components f11, f12, f21, f22 returned with eval_base are the derivatives of the quasi-dipole latitude and longitude along the meridian and the parallel of the ellipsoid at the altitude, with the sign, cosine and scale factors of the definition; f is f11*f22 - f12*f21.", "quantifier": "every table, epoch, altitude above -6000 km and position off the geographic poles and the cut of the longitude", "why_tests_cant": "Derivatives of a composition of series and arctangents at all points.", "anchors": ["qdipole/apexsh.f90: shcalc, apxg2q"]}
{"id": "C60", "title": "Magnetic local time", "statement": "eval_mlt gives for a longitude from -180 to 180 degrees an hour in [0, 24) congruent to 12 h plus (longitude - dipole longitude of the Sun)/15, where the dipole longitude of the sub-solar point is taken in the frame of the dipole pole of the epoch; the result has the length of the input and the value of a point does not depend on the other points.", "quantifier": "every batch of longitudes and times, every main field table", "why_tests_cant": "The batch keeps the pole of an earlier point; continuum of times and longitudes.", "anchors": ["qdipole/eval_mlt.f90", "qdipole/apex.f90: MAGLOCTM, SOLGMLON, DYPOL, COFRM", "eoxmagmod/eoxmagmod/quasi_dipole_coordinates.py: eval_mlt"]}
{"id": "C61", "title": "Sub-solar point", "statement": "eval_subsol gives the latitude and longitude of the point of the Earth below the position of the Sun of the low precision formula of the Astronomical Almanac at the time, for any time of the years 1601 to 2100.", "quantifier": "every time", "why_tests_cant": "Calendar arithmetic, reduction of angles and trigonometry over real-valued times.", "anchors": ["qdipole/eval_subsol.f90", "qdipole/apex.f90: SUBSOL, TMJD, TJUDA", "eoxmagmod/eoxmagmod/quasi_dipole_coordinates.py: eval_subsol"]}
{"id": "C62", "title": "Dipole pole of the magnetic local time", "statement": "The pole used by eval_mlt is the direction opposite to the dipole whose coefficients are interpolated linearly between the five-year epochs of the table and extrapolated with the secular variation after the last one.", "quantifier": "every table with five-year epochs, every date", "why_tests_cant": "Any number of epochs, real-valued dates, a direction on the sphere.", "anchors": ["qdipole/apex.f90: COFRM, DYPOL"]}
{"id": "C63", "title": "Series functions on arrays and their combination", "statement": "legendre, relradpow and loncossin return new arrays whose rows are the Schmidt semi-normalised Legendre functions and their derivatives, the powers of the relative radius and the cosines and sines of the multiples of the longitude for each item of the input array; spharpot and sphargrd of these arrays return the potential and the gradient of the spherical harmonic expansion at each position, the same as sheval. No access leaves the arrays.", "quantifier": "every shape and stride of the arrays, every degree, every combination of leading dimensions which match", "why_tests_cant": "Any number of dimensions, any degrees which need not agree, a continuum of positions.", "anchors": ["eoxmagmod/eoxmagmod/pymm_legendre.h", "eoxmagmod/eoxmagmod/pymm_loncossin.h", "eoxmagmod/eoxmagmod/pymm_relradpow.h", "eoxmagmod/eoxmagmod/pymm_spharpot.h", "eoxmagmod/eoxmagmod/pymm_sphargrd.h"]}
{"id": "C64", "title": "Functions applied item by item on arrays", "statement": "The conversions of times, bisect, interp, fourier2d, sunpos and sunpos_original applied to arrays of any shape and strides return an array of the documented shape whose item at each index is the scalar function of the items at that index (of the time index and the series index for interp and fourier2d); arrays of decimal years survive the round trip; arguments of shapes, kinds or numbers of dimensions which the functions do not accept are refused with an exception.", "quantifier": "arrays of any dimensions, strides and items", "why_tests_cant": "All shapes and memory layouts.", "anchors": ["eoxmagmod/eoxmagmod/pytimeconv_decimal_year_to_mjd2000.h", "eoxmagmod/eoxmagmod/pytimeconv_mjd2000_to_decimal_year.h", "eoxmagmod/eoxmagmod/pytimeconv_mjd2000_to_year_fraction.h", "eoxmagmod/eoxmagmod/pymm_bisect.h", "eoxmagmod/eoxmagmod/pymm_interp.h", "eoxmagmod/eoxmagmod/pymm_fourier2d.h", "eoxmagmod/eoxmagmod/pysunpos.h", "eoxmagmod/eoxmagmod/pysunpos_original.h"]}
{"id": "C65", "title": "datetime objects to decimal years", "statement": "datetime_to_decimal_year of a naive datetime of the years 1583 to 9998 is the decimal year which mjd2000_to_decimal_year gives for the same instant; for any year 1 to 9998 it lies in [year, year + 1); objects which are not datetime or carry a time zone raise TypeError, dates of the year 9999 ValueError.", "quantifier": "every datetime value down to microseconds", "why_tests_cant": "All dates of all years; two independent implementations of the calendar.", "anchors": ["eoxmagmod/eoxmagmod/time_util.py: datetime_to_decimal_year", "eoxmagmod/include/time_conversion.h: mjd2k_to_decimal_year"]}
{"id": "C66", "title": "Time dependent evaluation on arrays", "statement": "shevaltemp of arrays of times and points with matching leading dimensions equals sheval of the points with an array of the coefficients of the sets at the times (piecewise linear or piecewise constant between the nodes, extrapolated outside, zero where no set has a coefficient): the outputs have the longer leading dimensions and the item at each index is that of the single evaluation at this point and time; nothing depends on the order of the times. Wrong coordinate types, modes, scales, points, numbers or shapes of the sets and mismatching dimensions raise ValueError.", "quantifier": "every shape and stride of the arrays, every set of coefficients with increasing nodes and distinct coefficients, every time", "why_tests_cant": "The coefficients are cached between the items of arrays of any shape; continuum of times.", "anchors": ["eoxmagmod/eoxmagmod/pymm_shevaltemp.h"]}
{"id": "C67", "title": "Evaluation of 2D Fourier series models on arrays", "statement": "sheval2dfs of two arrays of times and an array of points with matching leading dimensions equals sheval of the points with an array of the coefficients given by the 2D Fourier series at the pairs of times; the outputs have the longest leading dimensions and the item at each index is that of the single evaluation at this point and these times. Wrong coordinate types, modes, scales, points, coefficient sets and mismatching dimensions raise ValueError.", "quantifier": "every shape and stride of the arrays, every set of coefficients, every pair of times", "why_tests_cant": "The coefficients are cached between the items of arrays of any shape; continuum of times.", "anchors": ["eoxmagmod/eoxmagmod/pymm_sheval2dfs.h", "eoxmagmod/eoxmagmod/pymm_fourier2d.h"]}
{"id": "C68", "title": "Evaluation in the frame of a magnetic dipole", "statement": "sheval_dipole with a North Geomagnetic Pole gives at each point the potential which sheval gives at the point rotated so that the pole is on the z axis, and the gradient of sheval rotated back to the requested frame: the gradient output is the gradient of the potential output as a function of the position, for every combination of input and output coordinates. Unknown modes and coordinate types are refused.", "quantifier": "every pole position, every point, every coefficient array, every number of points", "why_tests_cant": "A continuum of poles and points; frames of the vectors differ by position dependent rotations.", "anchors": ["eoxmagmod/eoxmagmod/dipole.py: sheval_dipole", "eoxmagmod/eoxmagmod/dipole_coords.py"]}
{"id": "C69", "title": "The field has no sources", "statement": "The Cartesian gradient output of sheval as a function of the position is free of divergence and of rotation: the matrix of its derivatives is symmetric and has the trace zero (Laplace equation of the potential), for internal and external fields.", "quantifier": "every degree, every coefficient array, every position off the axis", "why_tests_cant": "Second derivatives at all positions for all degrees.", "anchors": ["eoxmagmod/eoxmagmod/pymm_sheval.h", "eoxmagmod/include/spherical_harmonics.h: shc_eval"]}
{"id": "C70", "title": "Swarm MMA products from the variables to the coefficients", "statement": "load_model_swarm_mma_2f_* and load_model_swarm_mma_2c_* of any number of product files in the order of time give models whose coefficients at every time lie on the lines through the values stored in the files at the neighbouring epochs (converted from milliseconds since the year 0 to days since 2000) and are zero where the files have no coefficient; internal and external sets are read from their own variables, the validity is from the first to the last epoch of all files, the 2C models have two sets and the pole 80.08 N, 72.22 W. Files out of order, files of different coefficients and epochs of another CDF type are refused.", "quantifier": "every number of files, every content of the variables, every time", "why_tests_cant": "Any number of files with any number of epochs and coefficients; a continuum of times.", "anchors": ["eoxmagmod/eoxmagmod/magnetic_model/parser_mma.py", "eoxmagmod/eoxmagmod/magnetic_model/loader_mma.py"]}
{"id": "C71", "title": "Time conversions in double precision", "statement": "Computed in double precision (each operation rounded to a nearest binary64 number, any rule for ties), mjd2000_to_decimal_year never decreases with the time, stays within the closed year of its argument, maps the beginning of a year to the whole year exactly (and decimal_year_to_mjd2000 back exactly), and is within 2.4e-13 of the exact value; the conversion to the decimal year and back recovers the time up to 20 microseconds in the years 0 to 4094. The decimal year of a datetime object stays within its closed year. The closed end is reached: the last microsecond of 1999 has the decimal year 2000.0. Epochs of MMA products one millisecond apart stay apart and in order.", "quantifier": "every double in the range of the calendar, every rounding to nearest", "why_tests_cant": "Rounding differs for every one of the 2^64 arguments.", "anchors": ["eoxmagmod/include/time_conversion.h", "eoxmagmod/eoxmagmod/time_util.py: datetime_to_decimal_year", "eoxmagmod/eoxmagmod/magnetic_model/parser_mma.py: _cdf_rawtime_to_mjd2000"]}
{"id": "C72", "title": "Linear interpolation in double precision", "statement": "Computed in double precision, the linear interpolation (interp, and the coefficients of the time dependent models) gives exactly the stored value at each node including the last one, differs between the nodes from the exact piecewise linear function by at most 16 * 2^-53 times the larger of the two neighbouring values, and does not become negative between values which are not negative.", "quantifier": "every strictly increasing list of doubles as nodes, all values, every time, every rounding to nearest", "why_tests_cant": "Rounding differs for each combination of nodes, values and times.", "anchors": ["eoxmagmod/include/interpolation.h: get_interp1_basis, interp1_eval"]}
{"id": "C73", "title": "Calls release what they acquire", "statement": "A call of any function of the extension modules comes to its end without undefined behaviour whatever fails in it (conversion of an argument, a check, any allocation of memory), releases every reference and every block of memory acquired in it except one reference to the returned object, and either returns an object or returns null with an exception set. Exceptions, stated and proved: without memory for the tuple of two or more results the output arrays are released twice; a flag without truth value gives a result with an exception set; sheval2dfs loses a block of memory in every call which ends without exception and goes on after its coefficients were refused.", "quantifier": "every function of the modules, every sequence of successes and failures of the calls made in it, any number of coefficient sets", "why_tests_cant": "Failures of allocations cannot be provoked at every place by tests, and leaks have no visible effect.", "anchors": ["eoxmagmod/eoxmagmod/pymm_*.h", "eoxmagmod/eoxmagmod/pyqd_*.h", "eoxmagmod/eoxmagmod/pysunpos*.h", "eoxmagmod/eoxmagmod/pytimeconv_*.h"]}
{"id": "C74", "title": "Evaluation of models on arrays of times and locations", "statement": "eval of a spherical harmonic model (single, combined or composed of several periods) with arrays of times and locations returns an array of the shape of the locations; items of points at whose time no component is valid are NaN; at any other point the vector is minus the gradient of the potential, in the output coordinates and multiplied by the scale, with the coefficients within the degree limits at the values of their own time series at that time, each set in its own unit of time (decimal years or MJD2000). One component is used per point: the last valid one for arrays of times, the first valid one for a single time.", "quantifier": "every shape and stride of the arrays, every list of components, every set of coefficients, every time and position", "why_tests_cant": "All shapes and layouts; a continuum of times and positions; any number of components and sets.", "anchors": ["eoxmagmod/eoxmagmod/magnetic_model/model.py: SphericalHarmomicGeomagneticModel.eval, _eval_interpolated", "eoxmagmod/eoxmagmod/magnetic_model/coefficients.py: get_coefficient_sets, convert_time", "eoxmagmod/eoxmagmod/pymm_shevaltemp.h"]}
{"id": "C75", "title": "Field of nested composed and combined models", "statement": "eval of the model of any nesting of composed and combined coefficients, with arrays of times and locations, gives at each point the field of exactly the sparse sets active at its time: of the first member having active sets for composed coefficients, of all members for combined ones (none if one of them has none); the items are NaN where no set is active or the time is NaN. No component of such a model is evaluated by the slow default method.", "quantifier": "every tree of coefficients, every shape and stride of the arrays, every time and position", "why_tests_cant": "Trees of any depth and width; a continuum of times and positions.", "anchors": ["eoxmagmod/eoxmagmod/magnetic_model/model.py: SphericalHarmomicGeomagneticModel", "eoxmagmod/eoxmagmod/magnetic_model/coefficients.py: CombinedSHCoefficients, ComposedSHCoefficients, decompose, get_coefficient_sets"]}
{"id": "C76", "title": "From the text of coefficient files to the field", "statement": "The model loaded from SHC files (one, several composed, several combined), a WMM file, an IGRF file or a pair of EMM files evaluates, with arrays of times and locations, to the field of the numbers written in the files: at each point minus the gradient of the potential whose coefficients are the values of the file (interpolated between its times in decimal years or in days, or following the change per year from the epoch, or constant), of the file valid at that time for compositions, of all files for combinations; NaN where no file is valid. Files whose validities leave no gap are accepted for composition, any files for combination.", "quantifier": "every text of the formats, any number of files, rows and times in any order, every shape and stride of the arrays, every time and position", "why_tests_cant": "Texts and arrays of any size; a continuum of times and positions.", "anchors": ["eoxmagmod/eoxmagmod/magnetic_model/loader_shc.py", "eoxmagmod/eoxmagmod/magnetic_model/loader_wmm.py", "eoxmagmod/eoxmagmod/magnetic_model/loader_igrf.py", "eoxmagmod/eoxmagmod/magnetic_model/loader_emm.py", "eoxmagmod/eoxmagmod/magnetic_model/parser_*.py", "eoxmagmod/eoxmagmod/magnetic_model/coefficients.py", "eoxmagmod/eoxmagmod/magnetic_model/model.py"]}
{"id": "C77", "title": "Models in the frame of the magnetic dipole on arrays", "statement": "eval of the model of any nesting of coefficients given in the frame of a dipole (DipoleSphericalHarmomicGeomagneticModel), with arrays of times and locations, gives at each point minus the gradient of the potential of the active sets at the position rotated by one rotation, which takes the given pole to the z axis and the Earth's axis to the zero meridian of the dipole, in the output coordinates and multiplied by the scale; NaN where no set is active or the time is NaN.", "quantifier": "every pole, every tree of coefficients, every shape and stride of the arrays, every time and position", "why_tests_cant": "Trees and arrays of any size; a continuum of poles, times and positions.", "anchors": ["eoxmagmod/eoxmagmod/magnetic_model/model.py: DipoleSphericalHarmomicGeomagneticModel", "eoxmagmod/eoxmagmod/dipole.py", "eoxmagmod/eoxmagmod/dipole_coords.py"]}
{"id": "C78", "title": "Swarm MMA products from the variables to the field", "statement": "The models load_model_swarm_mma_2f_* and load_model_swarm_mma_2c_* of any number of product files in the order of time evaluate, with arrays of times and locations, to the field of the values stored in the files: at each point minus the gradient of the potential whose coefficients lie, at the time of the point, on the lines through the values at the neighbouring epochs; for the 2C models of both sets together, at the position in the frame of the dipole with the pole 80.08 N, 72.22 W or the given one; NaN outside the epochs of the files (of one of the sets).", "quantifier": "any number of files, epochs and coefficients, every shape and stride of the arrays, every time, position and pole", "why_tests_cant": "Files and arrays of any size; a continuum of times and positions.", "anchors": ["eoxmagmod/eoxmagmod/magnetic_model/loader_mma.py", "eoxmagmod/eoxmagmod/magnetic_model/parser_mma.py", "eoxmagmod/eoxmagmod/magnetic_model/coefficients.py: SparseSHCoefficientsTimeDependent, CombinedSHCoefficients", "eoxmagmod/eoxmagmod/magnetic_model/model.py"]}
{"id": "C79", "title": "MIO models on arrays", "statement": "DipoleMIOGeomagneticModel.eval with arrays of times, locations, F10.7 and sub-solar coordinates of any matching shape gives, at each index, NaN where the time is out of the validity of the model or F10.7 is NaN, and otherwise (1 + wolf_ratio * f107) times minus the gradient of the potential, in the frame of the dipole, whose coefficients are the Fourier sums at the fraction of the year and the magnetic universal time of the point; the magnetic universal time is the one for which the dipole longitude of the sub-solar point (passed, or of sunpos at the time) is 180 - 15 MUT degrees.  MIOPrimaryGeomagneticModel.eval gives the values of the model below up to the radius of the ionosphere and of the model above it elsewhere, and leaves no item unset.", "quantifier": "every model, every shape and stride of the arrays, every time, position, F10.7 and sub-solar point", "why_tests_cant": "Arrays of any shape; a continuum of times and positions; the masks depend on the values of the items.", "anchors": ["eoxmagmod/eoxmagmod/magnetic_model/model_mio.py", "eoxmagmod/eoxmagmod/magnetic_model/coefficients_mio.py", "eoxmagmod/eoxmagmod/magnetic_time.py", "eoxmagmod/eoxmagmod/solar_position.py", "eoxmagmod/eoxmagmod/magnetic_model/util.py: mask_array, reshape_array"]}
{"id": "C80", "title": "Composed models on arrays", "statement": "ComposedGeomagneticModel.eval, with components of any kind (spherical harmonic models, models in the dipole frame, MIO models, composed models), each with its scale and parameters, gives at each index of arrays of any shape the vector sum of the values of the components at that time and position, turned into the output coordinate system and multiplied by the scale of the call; parameters of a component override the keyword arguments of the call; the result is NaN where a component is NaN; a model without components gives zeros, and NaN where the time is NaN.", "quantifier": "every tree of models, every shape and stride of the arrays, every time and position, every coordinate system of input and output, every scale and parameters", "why_tests_cant": "Models nest without bound; arrays of any shape; a continuum of times and positions.", "anchors": ["eoxmagmod/eoxmagmod/magnetic_model/model_composed.py", "eoxmagmod/eoxmagmod/magnetic_model/model.py", "eoxmagmod/eoxmagmod/magnetic_model/model_mio.py", "eoxmagmod/eoxmagmod/_pymm: vrot_sph2geod, vrot_sph2cart, convert"]}
{"id": "C81", "title": "From the text of MIO files to the field", "statement": "The models loaded from a Swarm MIO_SHA file (load_model_swarm_mio_internal, load_model_swarm_mio_external with and without above_ionosphere) evaluate, with arrays of times, locations, F10.7 and sub-solar coordinates, to the field of the numbers written in the file: in the frame of the dipole with the pole of the header, minus the gradient of the potential whose coefficients are the sums of the cosines and sines of the seasonal and diurnal waves of each row (the second half of the rows for the internal model, the first half for the external ones, converted to internal sources for the layer above the ionosphere), times one plus the Wolf ratio of the header times F10.7. The primary model switches between the layers at the height of the header, where the radial component has no jump; its degrees are those of the file.", "quantifier": "every text of the format with any number of rows and waves, every shape and stride of the arrays, every time, position, F10.7 and sub-solar point", "why_tests_cant": "Texts and arrays of any size; a continuum of times, positions and heights of the ionosphere.", "anchors": ["eoxmagmod/eoxmagmod/magnetic_model/loader_mio.py", "eoxmagmod/eoxmagmod/magnetic_model/parser_mio.py", "eoxmagmod/eoxmagmod/magnetic_model/coefficients_mio.py", "eoxmagmod/eoxmagmod/magnetic_model/model_mio.py"]}
{"id": "C82", "title": "Coefficients of MIO models at given times", "statement": "Calling the coefficients loaded by load_coeff_swarm_mio_internal or load_coeff_swarm_mio_external with times and magnetic universal times (arrays of one shape) returns the largest degree asked for and an array with, at each index, the dense table of the values of the seasonal and diurnal series of the rows of the file at that time (converted for the layer above the ionosphere), at the rows and columns of their degree and order, and zeros elsewhere. Arrays of different shapes are refused with ValueError.", "quantifier": "every file, every shape and stride of the arrays, every time and magnetic time, every range of degrees", "why_tests_cant": "Arrays and files of any size; a continuum of times.", "anchors": ["eoxmagmod/eoxmagmod/magnetic_model/coefficients_mio.py", "eoxmagmod/eoxmagmod/magnetic_model/loader_mio.py"]}
{"id": "C83", "title": "Quasi-dipole functions on arrays", "statement": "eval_qdlatlon, eval_qdlatlon_with_base_vectors, eval_mlt and eval_subsol take scalars or one-dimensional arrays of one common shape and return new arrays of that shape with, at each index, the coordinates (and base vectors) of the point, the magnetic local time, the sub-solar point at that index; what earlier calls left does not matter. A missing file is refused with IOError, a name of more than 1023 bytes with RuntimeError, arrays of more dimensions or of different shapes with ValueError.", "quantifier": "every length and stride of the arrays, every point and time, every coefficient file, every history of calls", "why_tests_cant": "Arrays of any size, a continuum of points; lengths of 2^31 points are out of reach of tests.", "anchors": ["eoxmagmod/eoxmagmod/quasi_dipole_coordinates.py", "eoxmagmod/eoxmagmod/pyqd_eval_qdlatlon.h", "eoxmagmod/eoxmagmod/pyqd_eval_mlt.h", "eoxmagmod/eoxmagmod/pyqd_eval_subsol.h", "qdipole/cqdipole.c"]}
{"id": "C84", "title": "Radial powers, cosines and sines in double precision", "statement": "In double precision the k-th value of relradpow has a relative error of at most (2k+3) 2^-52 as long as the power does not underflow; the k-th pair of loncossin, with the recurrence as well as with the direct algorithm, has an absolute error of at most (k (10 + 6|x|) + 1) 2^-53, x being the longitude in radians: the error grows at most linearly with the degree. Without rounding the functions are the exact ones.", "quantifier": "every radius, longitude and degree below 2^31, every rounding to nearest whatever the rule for ties, every cosine and sine within 2^-53 of the exact ones", "why_tests_cant": "The accumulation of rounding errors over a recurrence of any length cannot be settled by samples.", "anchors": ["eoxmagmod/eoxmagmod/include/spherical_harmonics.h", "eoxmagmod/eoxmagmod/include/fourier_series.h", "eoxmagmod/eoxmagmod/pymm_relradpow.h", "eoxmagmod/eoxmagmod/pymm_loncossin.h", "eoxmagmod/eoxmagmod/include/geo_conversion.h"]}
{"id": "C85", "title": "Sums of the spherical harmonics in double precision", "statement": "spharpot and sphargrd add the terms of the series stably: from tables accurate up to nL, nP (nD) and nR roundings the potential and the components of the gradient differ from the exact sums by at most the relative effect of nL + nP + nR + 2N + 6 roundings on the sum of the sizes of the terms; the eastward component outside of the neighbourhood of the poles. With the tables of loncossin and relradpow the error of the potential is at most (nL + nP + 6N + 11) 2^-52 of that sum. Without rounding the sums are the exact ones.", "quantifier": "every degree, every table of coefficients, every rounding to nearest, every accuracy of the tables", "why_tests_cant": "Errors of sums with any number of terms and any coefficients; samples show only some cases.", "anchors": ["eoxmagmod/eoxmagmod/include/spherical_harmonics.h", "eoxmagmod/eoxmagmod/pymm_spharpot.h", "eoxmagmod/eoxmagmod/pymm_sphargrd.h"]}
{"id": "C86", "title": "Vector utilities on arrays", "statement": "vrotate keeps every vector of an array where it is in the space: between geodetic and spherical coordinates the latitudes of the input and of the output are combined by the rules of NumPy, with Cartesian coordinates one point or a point for each vector is accepted, other shapes raise ValueError, missing coordinates TypeError, points without longitude IndexError, unknown types ValueError; equal types return the array itself. A rotation and the opposite one restore the array. vnorm returns the norms of vectors of any number of components (the absolute value of a number) and is not changed by vrotate. vincdecnorm returns inclination, declination and norm from which the vectors are recovered.", "quantifier": "all arrays of up to 16 dimensions with any strides, all coordinates and types", "why_tests_cant": "Shapes, strides and broadcasting combine without limit; tests use a few shapes.", "anchors": ["eoxmagmod/eoxmagmod/util.py"]}
{"id": "C87", "title": "Constructors of the sparse coefficients with arrays", "statement": "SparseSHCoefficientsTimeDependent, its decimal year variant, SparseSHCoefficientsConstant and SparseSHCoefficientsMIO accept arrays of coefficients, indices and times of matching dimensions and refuse other ones with an exception of a known type (an unknown spline order and an extent in the wrong order too). The object has the greatest and least degree of the indices, the position of each coefficient, the nodes in the order of time each with its own coefficients, and a validity from the first to the last node if none is given, converted to MJD2000 when a conversion is given; None means no limit. Indices of a shape other than (n, 2) are refused: this does not hold, indices with more columns or three dimensions are accepted.", "quantifier": "all arrays with any strides, all times in any order, all keyword arguments", "why_tests_cant": "The order of the nodes, the shapes and strides of three arrays and the keyword arguments combine without limit.", "anchors": ["eoxmagmod/eoxmagmod/magnetic_model/coefficients.py", "eoxmagmod/eoxmagmod/magnetic_model/coefficients_mio.py"]}
{"id": "C88", "title": "Dipole frame and magnetic universal time of arrays", "statement": "mjd2000_to_magnetic_universal_time, convert_to_dipole, vrot_from_dipole and sheval_dipole of arrays give for each item what they give for that item by itself: the time since the passage of the Sun over the meridian opposite to the pole (of the Sun at the given times when a sub-solar coordinate is missing), the position and the vector components in the rotated frame, the potential and gradient of the field; the results have the combined dimensions and arrays which do not match raise ValueError. The arguments of the magnetic time follow the broadcasting of NumPy, and sheval_dipole accepts the arrays which sheval accepts: these two do not hold, a product in place refuses one sub-solar latitude in an array with several longitudes, and gradients for several sets of coefficients of each position are refused.", "quantifier": "all arrays of all dimensions with any strides, all poles, all coordinate types, all modes and degrees", "why_tests_cant": "Four arrays with any combination of dimensions, each item of which depends on real numbers.", "anchors": ["eoxmagmod/eoxmagmod/magnetic_time.py", "eoxmagmod/eoxmagmod/dipole.py", "eoxmagmod/eoxmagmod/dipole_coords.py"]}
{"id": "C89", "title": "Composed models as objects changed by push", "statement": "After any sequence of constructions and calls of push, a ComposedGeomagneticModel evaluates to the sum over the tree of the models which it contains at the moment of the evaluation, at any depth; its validity is the intersection of the validities of these models, and its parameters are those of these models: a model without the parameter f107 does not depend on F10.7 or the sub-solar point. Two parts do not hold: a model added to a component after this component was added to the whole is evaluated but not seen by the validity and the parameters of the whole, and a composed model may be added to itself, after which eval ends with RecursionError.", "quantifier": "all sequences of constructions and calls of push, any sharing of models, any depth, all arguments of eval", "why_tests_cant": "The objects refer to one another and are changed in any order; each sequence of operations gives another graph of objects.", "anchors": ["eoxmagmod/eoxmagmod/magnetic_model/model_composed.py", "eoxmagmod/eoxmagmod/magnetic_model/model.py", "eoxmagmod/eoxmagmod/magnetic_model/model_mio.py"]}
{"id": "C90", "title": "Accuracy of the 2D Fourier series", "statement": "In double precision, with a library whose cosine and sine are within 2^-53, each value returned by fourier2d differs from the exact sum of A_ij cos(i s_x x + j s_y y) + B_ij sin(i s_x x + j s_y y) by at most a bound proportional to the largest wave numbers, to the phases and to the number of the terms, times 2^-52 and four times the sum of the absolute values of the coefficients; the value depends only on the pair of times and the coefficients, not on the other items of the call or on the memory; a series of the constant term alone gives the stored coefficient exactly. As in C29 this does not hold if the second minimal degree has the largest absolute value.", "quantifier": "all rounding rules to nearest, all sizes, minimal degrees, scales, times and coefficients", "why_tests_cant": "The errors of a recurrence and of sums of any length; tests compare a few values with a tolerance.", "anchors": ["eoxmagmod/eoxmagmod/include/fourier_series.h", "eoxmagmod/eoxmagmod/pymm_fourier2d.h"]}
{"id": "C91", "title": "Accuracy of the Legendre functions", "statement": "In double precision, with a sine within 2^-53 and a correctly rounded square root, the values and derivatives returned by legendre for latitudes between the poles differ from the Schmidt semi-normalised functions and their derivatives by a number of roundings proportional to the degree and to the inverse of the cosine of the latitude, times 2^-52 and a bound which depends on the degree only; hence the potential summed by spharpot and the gradient summed by sphargrd from the computed tables have errors, relative to the exact potential and its derivatives, bounded by the sum of the sizes of their terms. Of the functions of the degree one the sine is accurate to 2^-50, the cosine to 2^-23, and to 2^-48 divided by the cosine. It does not hold next to the poles: the cosine is computed from the rounded sine, and 5 cm from the pole it is zero.", "quantifier": "all rounding rules to nearest, all latitudes, all degrees", "why_tests_cant": "The errors of a recurrence for any latitude; tests compare a few latitudes with a tolerance and do not reach the last centimetres before the pole.", "anchors": ["eoxmagmod/eoxmagmod/include/spherical_harmonics.h", "eoxmagmod/eoxmagmod/pymm_legendre.h"]}
{"id": "C92", "title": "Accuracy of sheval and consistency of its modes", "statement": "In double precision sheval at a point given in the geocentric spherical coordinates returns the potential and the northward and upward components of the gradient which differ from the exact potential of the model and its derivatives by a number of roundings, proportional to the degree, to the longitude and to the inverse of the cosine of the latitude, times 2^-52 and the sum of the sizes of the terms, and then multiplied once by the given scale; the same holds for the eastward component away from the poles. The potential and the gradient do not depend on the requested mode: sheval of both returns the very same doubles as the sheval of the potential alone and of the gradient alone. The scales 1 and -1 introduce no rounding: the field, the gradient with the scale -1, has the very same digits as the gradient. The values do not depend on what the work arrays of the model contained before.", "quantifier": "all rounding rules to nearest, all points, degrees, coefficients, scales and modes", "why_tests_cant": "The bound and the equality of the doubles concern all points and coefficients; tests compare the modes and a few values with a tolerance.", "anchors": ["eoxmagmod/eoxmagmod/pymm_sheval.h", "eoxmagmod/eoxmagmod/include/spherical_harmonics.h"]}
