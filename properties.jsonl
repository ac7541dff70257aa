{"id": "C01", "title": "Data stays rectangular", "statement": "Starting from an empty Data object, after any sequence of successful update (compressing or not), row-wise Data update, rename, column deletion and boolean row masking, every column has exactly n_rows entries, so iterating over the rows never fails.", "quantifier": "all finite sequences of these operations with arbitrary keys, values and argument lengths", "why_tests_cant": "The state space of interleaved operations with columns appearing at different times and with different lengths is unbounded; a test exercises a handful of interleavings.", "anchors": ["hrosailing/core/data.py:Data.update", "hrosailing/core/data.py:Data.fill", "hrosailing/core/data.py:Data.rename", "hrosailing/core/data.py:Data.delete", "hrosailing/core/data.py:Data._mask_rows", "hrosailing/core/data.py:Data.rows"]}
{"id": "C02", "title": "Compressing update loses and invents nothing", "statement": "Data.update(d, compress=True) never drops, reorders or duplicates a measured value: for every column, the sequence of its non-None entries afterwards is the sequence before followed by the non-None values of d for that column.", "quantifier": "all rectangular Data objects, all dictionaries (scalar or list values), all columns", "why_tests_cant": "Whether the last entry is overwritten depends on the None pattern of all columns named in d; tests only cover a few patterns.", "anchors": ["hrosailing/core/data.py:Data.update", "hrosailing/core/data.py:Data._unsafe_update", "hrosailing/core/data.py:Data.fill"]}
{"id": "C03", "title": "Plain update appends rows", "statement": "Data.update(d) leaves all existing rows unchanged and appends rows: in the appended part each column of d holds the values of d in order and every other entry is None; n_rows grows by the length of the longest value in d.", "quantifier": "all rectangular Data objects and all dictionaries of lists or scalars accepted by update", "why_tests_cant": "Needs to hold for every combination of existing and new columns of differing lengths.", "anchors": ["hrosailing/core/data.py:Data.update", "hrosailing/core/data.py:Data._unsafe_update", "hrosailing/core/data.py:Data.fill", "hrosailing/core/data.py:Data.extend"]}
{"id": "C04", "title": "Concatenation stacks the tables", "statement": "Data.concatenate([d1,...,dk]) has n_rows(d1)+...+n_rows(dk) rows, and its column for a key is the concatenation of the columns of the di under this key, where a Data without this key contributes n_rows(di) times None; a Data without any column counts as having no rows.", "quantifier": "all lists of rectangular Data objects for which no exception is raised", "why_tests_cant": "Arbitrarily many tables with arbitrary overlapping key sets.", "anchors": ["hrosailing/core/data.py:Data.concatenate", "hrosailing/core/data.py:Data.update"]}
{"id": "C05", "title": "Row masks and column selection", "statement": "data[mask] contains exactly the rows of data whose mask entry is true, in the original order, in every column; data[keys] for a list of column names contains exactly the named columns, unchanged.", "quantifier": "all rectangular Data, all boolean masks, all lists of keys", "why_tests_cant": "All 2^n masks and all key lists; includes the degenerate empty list.", "anchors": ["hrosailing/core/data.py:Data.__getitem__", "hrosailing/core/data.py:Data._mask_rows", "hrosailing/core/data.py:Data.get_slice"]}
{"id": "C06", "title": "Row deletion", "statement": "data.delete(list of row indices) removes exactly the listed rows, keeps the order of the others, and n_rows afterwards is the number of remaining rows.", "quantifier": "all rectangular Data and all lists of row indices", "why_tests_cant": "All lists of indices, including lists with repeated or non-existing indices.", "anchors": ["hrosailing/core/data.py:Data.delete"]}
{"id": "C07", "title": "strip removes empty margins", "statement": "data.strip() returns for every Data object; afterwards no column is entirely None, neither the first nor the last row is entirely None, the rows in between are unchanged and n_rows is the number of rows left.", "quantifier": "all rectangular Data objects", "why_tests_cant": "Requires termination for all objects, including objects without columns or with only None entries.", "anchors": ["hrosailing/core/data.py:Data.strip"]}
{"id": "C08", "title": "Renaming and standard format keep every column", "statement": "rename never overwrites another column and hrosailing_standard_format never loses a column while standardising the keys: the multiset of column contents is preserved, whatever synonyms clash, and standardising the keys a second time changes nothing.", "quantifier": "all Data objects with arbitrary column names", "why_tests_cant": "Arbitrary sets of clashing synonyms and already existing '(Control value i)' columns.", "anchors": ["hrosailing/core/data.py:Data.rename", "hrosailing/core/data.py:Data.hrosailing_standard_format", "hrosailing/core/constants.py:KEYSYNONYMS"]}
{"id": "C09", "title": "Columns are homogeneous", "statement": "In every Data object reachable by update/extend/append from an empty one, all non-None entries of a column have the recorded type of the column; an extend with a value of a different type raises ValueError and leaves the column contents unchanged.", "quantifier": "all sequences of extend/append/update calls with arbitrary values, including failing calls", "why_tests_cant": "Invariant over all histories including partially failed ones.", "anchors": ["hrosailing/core/data.py:Data.extend", "hrosailing/core/data.py:Data._get_type", "hrosailing/core/data.py:Data.fill"]}
{"id": "C10", "title": "Weights stay attached to their points", "statement": "Masking and extending WeightedPoints keeps the weight of each point: the list of (point, weight) pairs of wp[mask] is the masked list of pairs of wp, and after a.extend(b) it is the pairs of a followed by the pairs of b.", "quantifier": "all weighted points with as many weights as points and all boolean masks", "why_tests_cant": "All masks and all chains of mask/extend operations.", "anchors": ["hrosailing/core/data.py:WeightedPoints.__getitem__", "hrosailing/core/data.py:WeightedPoints.extend"]}
{"id": "C11", "title": "QuantileFilter keeps the heaviest points", "statement": "QuantileFilter(percent).filter(w) is upward closed (a point at least as heavy as a kept point is kept), always keeps a point of maximal weight, and discards fewer points than the given percentage of all points.", "quantifier": "all non-empty weight vectors (with ties) and all percentages in [0,100]", "why_tests_cant": "Depends on interpolated order statistics of vectors of every length and tie pattern.", "anchors": ["hrosailing/processing/filter.py:QuantileFilter.filter", "hrosailing/processing/filter.py:Filter.set_statistics"]}
{"id": "C12", "title": "BoundFilter and filter statistics", "statement": "BoundFilter keeps exactly the points with lower_bound <= weight <= upper_bound, and the recorded statistics always satisfy n_filtered_rows + n_rows = number of points.", "quantifier": "all weight vectors and all bounds", "why_tests_cant": "Exact characterisation over all vectors.", "anchors": ["hrosailing/processing/filter.py:BoundFilter.filter", "hrosailing/processing/filter.py:Filter.set_statistics"]}
{"id": "C13", "title": "Cylindric weighers produce weights in [0,1]", "statement": "CylindricMeanWeigher and CylindricMemberWeigher return one weight per point, every weight lies in [0,1], and some point gets the extreme value; for the member weigher a point contained in at least as many cylinders has at least the weight.", "quantifier": "all finite non-empty point sets, all norms, all positive radii and lengths", "why_tests_cant": "All point clouds; includes the degenerate case where all raw weights vanish.", "anchors": ["hrosailing/processing/weigher.py:CylindricMeanWeigher.weigh", "hrosailing/processing/weigher.py:CylindricMemberWeigher.weigh"]}
{"id": "C14", "title": "Weigher arithmetic is pointwise", "statement": "For weighers v, w the combined weighers v+w, v-w, v*w, v/w and c+w, c*w give each point the corresponding combination of the weights given by v and w.", "quantifier": "all weighers returning one weight per point and all point sets", "why_tests_cant": "Quantifies over all weighers and nesting depths; the shipped tests only check the TypeErrors.", "anchors": ["hrosailing/processing/weigher.py:Weigher", "hrosailing/processing/weigher.py:_UnaryMapWeigher", "hrosailing/processing/weigher.py:_BinaryMapWeigher"]}
{"id": "C15", "title": "Weighing does not depend on earlier calls", "statement": "Calling weigh on a CylindricMeanWeigher twice with the same Data gives the same result twice: the weigher does not change its own configuration.", "quantifier": "all dimension lists and all Data objects", "why_tests_cant": "A history property: the second and later calls for any configuration.", "anchors": ["hrosailing/processing/weigher.py:_set_points_from_data", "hrosailing/processing/weigher.py:CylindricMeanWeigher.weigh"]}
{"id": "C16", "title": "Fuzzy truth values form a de Morgan lattice", "statement": "FuzzyBool expressions always evaluate to values in [0,1]; & and | are commutative, associative, idempotent, absorptive and distribute over each other, ~ is an involution satisfying de Morgan's laws, and ~(x<a) agrees with x>a.", "quantifier": "all fuzzy expressions, all inputs, all centres and sharpness values", "why_tests_cant": "Algebraic laws over the reals and over expressions of any depth.", "anchors": ["hrosailing/processing/weigher.py:FuzzyBool", "hrosailing/processing/weigher.py:FuzzyVariable"]}
{"id": "C17", "title": "One-shot sharpness", "statement": "x(s) applies sharpness s to exactly the next comparison built from x and every later comparison uses the default sharpness again; in particular x(s) == a is the conjunction of x < a and x > a, both with sharpness s.", "quantifier": "all sequences of sharpness settings and comparisons", "why_tests_cant": "State machine over call histories.", "anchors": ["hrosailing/processing/weigher.py:FuzzyVariable.__call__", "hrosailing/processing/weigher.py:FuzzyVariable.sharpness", "hrosailing/processing/weigher.py:FuzzyVariable.__eq__"]}
{"id": "C18", "title": "ScalingBall holds the requested number of points", "statement": "ScalingBall(min_pts).is_contained_in(pts) marks at least min_pts points, they are the closest ones (no unmarked point is closer than a marked one), and fewer than min_pts points are strictly closer than the farthest marked point.", "quantifier": "all finite point sets with at least min_pts points, all norms", "why_tests_cant": "All point sets with ties.", "anchors": ["hrosailing/processing/neighbourhood.py:ScalingBall.is_contained_in"]}
{"id": "C19", "title": "Neighbourhood shapes agree with their definition", "statement": "Ball, Ellipsoid, Cuboid and Polytope mark exactly the points satisfying the defining inequalities; the default Polytope marks the same points as the default Cuboid, an Ellipsoid with identity transformation the same points as the Ball, and all marked sets are symmetric under x -> -x for symmetric norms.", "quantifier": "all point sets, radii, norms, invertible matrices and bound vectors", "why_tests_cant": "Real-valued inequalities for all points.", "anchors": ["hrosailing/processing/neighbourhood.py:Ball", "hrosailing/processing/neighbourhood.py:Ellipsoid", "hrosailing/processing/neighbourhood.py:Cuboid", "hrosailing/processing/neighbourhood.py:Polytope"]}
{"id": "C20", "title": "IDW interpolation stays within the data and is exact on it", "statement": "IDWInterpolator returns the stored value at a data point, and otherwise a value between the smallest and the largest stored value (in particular it reproduces constants); without points it raises ValueError.", "quantifier": "all non-empty point sets, all p, all norms, all query points", "why_tests_cant": "Convexity argument over all data sets.", "anchors": ["hrosailing/processing/interpolator.py:IDWInterpolator.interpolate"]}
{"id": "C21", "title": "Arithmetic mean interpolation", "statement": "ArithmeticMeanInterpolator returns the stored value at a data point and otherwise s times a convex combination of the stored values; with s = 1 the result lies between the smallest and largest stored value, and s has no other effect than scaling; the interpolated speeds of a default point cloud lie in the range of its stored speeds.", "quantifier": "all non-empty weighted point sets, query points, positive distributions", "why_tests_cant": "Convexity argument over all data sets and default configuration of PolarDiagramPointcloud.", "anchors": ["hrosailing/processing/interpolator.py:ArithmeticMeanInterpolator.interpolate", "hrosailing/polardiagram/_polardiagrampointcloud.py:PolarDiagramPointcloud.__call__"]}
{"id": "C22", "title": "Improved IDW is defined and bounded for every data set", "statement": "ImprovedIDWInterpolator returns, for every non-empty point set, a number between the smallest and the largest stored value.", "quantifier": "all non-empty point sets, norms and query points", "why_tests_cant": "Needs the sum of weights to be non-zero for all configurations, including one point or equidistant points.", "anchors": ["hrosailing/processing/interpolator.py:ImprovedIDWInterpolator.interpolate", "hrosailing/processing/interpolator.py:_set_weights"]}
{"id": "C23", "title": "Bilinear interpolation on grids", "statement": "BilinearGridInterpolator returns the stored value at grid points, the bilinear interpolant (between min and max of the four corners) inside a cell, and raises if the query lies outside of the grid or corners are missing.", "quantifier": "all complete grids, all query points", "why_tests_cant": "All grids and all positions.", "anchors": ["hrosailing/processing/interpolator.py:BilinearGridInterpolator.interpolate"]}
{"id": "C24", "title": "FillLocalImputator leaves no gaps and alters no measurement", "statement": "The imputed data contains no None; every row of the result stems from one input row in the original order, and each value which was present in that row is unchanged.", "quantifier": "all rectangular data with a chronologically ordered datetime column and all fill functions", "why_tests_cant": "All None patterns and all fill functions.", "anchors": ["hrosailing/processing/imputator.py:FillLocalImputator.impute", "hrosailing/processing/imputator.py:FillLocalImputator._apply_fill_functions"]}
{"id": "C25", "title": "Missing time stamps between close stamps are interpolated", "statement": "In FillLocalImputator every missing datetime lying between two consecutive present datetimes at most max_time_diff apart is filled affinely (hence in between), independently of what precedes; no other datetime is changed.", "quantifier": "all chronologically ordered datetime columns and all thresholds", "why_tests_cant": "Depends on the whole history of gaps before the pair.", "anchors": ["hrosailing/processing/imputator.py:FillLocalImputator._interpolate_datetime"]}
{"id": "C26", "title": "RemoveOnlyImputator keeps exactly the complete rows", "statement": "RemoveOnlyImputator.impute returns exactly the rows without None, in order, and its statistics report the number of removed rows.", "quantifier": "all rectangular data", "why_tests_cant": "All None patterns.", "anchors": ["hrosailing/processing/imputator.py:RemoveOnlyImputator.impute"]}
{"id": "C27", "title": "AffineSmoother stays within the measured range", "statement": "For chronologically sorted data with at least two rows AffineSmoother returns as many values as given, each between the smallest and largest value of its column; constant columns are unchanged.", "quantifier": "all sorted time stamps (with repetitions), all value sequences of length at least two", "why_tests_cant": "All plateau patterns.", "anchors": ["hrosailing/processing/smoother.py:AffineSmoother"]}
{"id": "C28", "title": "ZeroInjector adds the documented zeros", "statement": "ZeroInjector(n).inject(points) leaves the given points and weights in place and adds exactly 2n points with boat speed 0, weight 1, wind angle 0 or 360 (n each) and wind speeds evenly spread between the smallest and largest given wind speed.", "quantifier": "all non-empty weighted point sets and all n", "why_tests_cant": "All point sets and n.", "anchors": ["hrosailing/processing/injector.py:ZeroInjector.inject"]}
{"id": "C29", "title": "UniformRandomSampler", "statement": "Whenever UniformRandomSampler(n).sample(pts) returns, it returns exactly n points and each satisfies all facet inequalities of the convex hull of the given points, whatever the random numbers are.", "quantifier": "all random streams, all n, all hulls", "why_tests_cant": "Quantifies over all random streams.", "anchors": ["hrosailing/processing/sampler.py:UniformRandomSampler.sample"]}
{"id": "C30", "title": "The enclosing circle encloses", "statement": "Whenever the smallest-circle search used by the Fibonacci and Archimedean samplers returns, every given point lies in the returned disc (up to the tolerance eps), and whenever the rescaling search returns it returns exactly n_samples points.", "quantifier": "all finite point sets, all tolerances, all generators", "why_tests_cant": "Loop invariant over an unbounded restart loop.", "anchors": ["hrosailing/processing/sampler.py:_make_circle", "hrosailing/processing/sampler.py:_binary_rescale"]}
{"id": "C31", "title": "Table construction and lookup agree", "statement": "For PolarDiagramTable(ws, wa, bsps) with arbitrary orders of ws and wa (distinct after reduction mod 360), pd[ws_j, wa_i] is bsps[i][j] for all i, j, the stored wind speeds and angles are sorted, and looking up a wind not in the resolution raises ValueError.", "quantifier": "all resolutions in any order, all tables of matching shape", "why_tests_cant": "All permutations of rows and columns.", "anchors": ["hrosailing/polardiagram/_polardiagramtable.py:PolarDiagramTable.__init__", "hrosailing/polardiagram/_polardiagramtable.py:PolarDiagramTable.__getitem__", "hrosailing/polardiagram/_polardiagramtable.py:_sort_table"]}
{"id": "C32", "title": "change_entries writes what it says and nothing else", "statement": "After change_entries(new, ws, wa) the selected entries read back as the given values (row-major over ascending selected angles/speeds), all other entries are unchanged; a call which raises leaves the table unchanged.", "quantifier": "all tables, all selections and all replacement arrays", "why_tests_cant": "All selections and shapes.", "anchors": ["hrosailing/polardiagram/_polardiagramtable.py:PolarDiagramTable.change_entries", "hrosailing/polardiagram/_polardiagramtable.py:PolarDiagramTable._get_indices"]}
{"id": "C33", "title": "Symmetrised tables are symmetric", "statement": "For a table with wind angles in [0,180], symmetrize() gives a table which contains with each angle a also (360-a) mod 360, with equal boat speeds at both angles, and agrees with the original table on its angles.", "quantifier": "all tables with distinct sorted wind angles in [0,180]", "why_tests_cant": "All resolutions, with and without 0 and 180.", "anchors": ["hrosailing/polardiagram/_polardiagramtable.py:PolarDiagramTable.symmetrize"]}
{"id": "C34", "title": "CSV round trip of tables", "statement": "For each of the formats hro, array, orc and opencpn, writing a PolarDiagramTable with to_csv and reading the file with from_csv gives the same wind speeds, wind angles and boat speeds.", "quantifier": "all non-empty tables", "why_tests_cant": "All sizes and entries, four writers and readers.", "anchors": ["hrosailing/polardiagram/_polardiagramtable.py:PolarDiagramTable.to_csv", "hrosailing/polardiagram/_reading.py:from_csv", "hrosailing/polardiagram/_polardiagramtable.py:PolarDiagramTable.__from_csv__"]}
{"id": "C35", "title": "Printed tables show the right speeds", "statement": "In str(pd) of a PolarDiagramTable the number printed in the row of wind angle a under the header of wind speed w is pd[w, a].", "quantifier": "all tables of any width", "why_tests_cant": "Wide tables are abbreviated; the property quantifies over all widths.", "anchors": ["hrosailing/polardiagram/_polardiagramtable.py:PolarDiagramTable.__str__", "hrosailing/polardiagram/_polardiagramtable.py:PolarDiagramTable._create_long_table"]}
{"id": "C36", "title": "Wind conversion is invertible", "statement": "convert_true_wind_to_apparent and convert_apparent_wind_to_true are mutually inverse: converting a wind with positive speed and angle in [0,360) to the other frame and back gives the same wind, boat speed unchanged, provided the intermediate wind speed is positive; wind angles stay in [0,360].", "quantifier": "all real wind speeds > 0, wind angles, boat speeds", "why_tests_cant": "Trigonometric identity over the reals with case distinctions at 180 degrees.", "anchors": ["hrosailing/core/computing.py:_Wind.convert_wind", "hrosailing/core/computing.py:convert_apparent_wind_to_true", "hrosailing/core/computing.py:convert_true_wind_to_apparent"]}
{"id": "C37", "title": "Point clouds: lookup and symmetrisation", "statement": "pd(ws, wa) of a point cloud returns the stored speed if (ws, wa mod 360) is a stored wind and is periodic in wa with period 360; the symmetrised cloud contains all old points and with each point (ws, wa, bsp) the mirrored point (ws, (360-wa) mod 360, bsp).", "quantifier": "all point clouds, interpolators, neighbourhoods and winds", "why_tests_cant": "All clouds including repeated winds.", "anchors": ["hrosailing/polardiagram/_polardiagrampointcloud.py:PolarDiagramPointcloud"]}
{"id": "C38", "title": "Multi-sail diagrams", "statement": "pd(ws, wa) of PolarDiagramMultiSails is the largest of the speeds of the sails and is attained by one of them; in get_slices with full_info each column of a slice is labelled with the sail it stems from.", "quantifier": "all lists of diagrams and sail names (too few, too many, duplicates)", "why_tests_cant": "All numbers of sails and slice lengths.", "anchors": ["hrosailing/polardiagram/_polardiagrammultisails.py:PolarDiagramMultiSails"]}
{"id": "C39", "title": "Slice wind speeds", "statement": "get_slices(ws, n_steps=n) for k given wind speeds yields (k-1)(n+1)+1 slices; their wind speeds contain the given ones in order, and between consecutive given ones n evenly spaced ones.", "quantifier": "all sequences of wind speeds and all n", "why_tests_cant": "All lengths and step numbers.", "anchors": ["hrosailing/polardiagram/_basepolardiagram.py:PolarDiagram._get_windspeeds", "hrosailing/polardiagram/_basepolardiagram.py:PolarDiagram.get_slices"]}
{"id": "C40", "title": "Test data does not influence the polar diagram", "statement": "PolarPipeline.__call__(training, test) returns the same polar diagram as PolarPipeline.__call__(training) for every choice of components, even stateful ones, and regardless of what the components do to the test data.", "quantifier": "all components (arbitrary state transformers), all training and test data", "why_tests_cant": "Non-interference property over all components and data.", "anchors": ["hrosailing/pipeline/pipeline.py:PolarPipeline.__call__", "hrosailing/pipeline/pipeline.py:PolarPipeline._preprocess"]}
{"id": "C41", "title": "Pipeline statistics name the right component", "statement": "Each field of the returned training and test statistics contains the statistics collected from the component and stage it is named after.", "quantifier": "all components and data", "why_tests_cant": "Tests check single pipelines with statistics that coincide.", "anchors": ["hrosailing/pipeline/pipeline.py:PolarPipeline.__call__"]}
{"id": "C42", "title": "Weather expansion attaches weather to its own row", "statement": "WeatherExpander.expand keeps one row per remaining measurement, and row i carries the weather of the time and place of row i.", "quantifier": "all Data objects and weather models", "why_tests_cant": "All row counts.", "anchors": ["hrosailing/pipeline/expander.py:WeatherExpander", "hrosailing/core/data.py:Data.update"]}
{"id": "C43", "title": "Gridded weather is interpolated correctly", "statement": "GriddedWeatherModel.get_weather returns the stored weather at grid points and the multilinear interpolation of the surrounding grid points elsewhere in the grid; outside of the grid it raises.", "quantifier": "all strictly increasing grids, all data, all points", "why_tests_cant": "All positions including grid planes.", "anchors": ["hrosailing/models/weather_model.py:GriddedWeatherModel.get_weather", "hrosailing/models/weather_model.py:_recursive_affine_interpolation"]}
{"id": "C44", "title": "Slower boats never arrive earlier", "statement": "The time per distance used by cost_cruise and isochrone is non-increasing in the boat speed of the polar diagram: a diagram with lower boat speed everywhere never gives a smaller time per distance.", "quantifier": "all non-negative boat speeds", "why_tests_cant": "Monotonicity over all diagrams, including dead calm.", "anchors": ["hrosailing/cruising/basics.py:_get_inverse_bsp", "hrosailing/cruising/basics.py:cost_cruise", "hrosailing/cruising/basics.py:isochrone"]}
{"id": "C45", "title": "isochrone terminates and exhausts the time budget", "statement": "isochrone returns for every total_time >= 0 and the returned distance is reached exactly at total_time according to the step-wise time accounting, using at least min_nodes steps.", "quantifier": "all positive budgets, step numbers and bounded positive time-per-distance functions", "why_tests_cant": "Termination of an unbounded restart loop.", "anchors": ["hrosailing/cruising/basics.py:isochrone"]}
{"id": "C46", "title": "Mercator projection can be undone", "statement": "_inverse_mercator_proj(_mercator_proj(p)) = p for every point p (lat, long) and reference latitude.", "quantifier": "all points of the globe except poles", "why_tests_cant": "Real-analytic identity.", "anchors": ["hrosailing/cruising/basics.py:_mercator_proj", "hrosailing/cruising/basics.py:_inverse_mercator_proj"]}
{"id": "C47", "title": "Spherical globe model", "statement": "SphericalGlobe.lat_lon inverts SphericalGlobe.project; distance is symmetric, non-negative and at most half the circumference; all points of shortest_projected_path between two non-antipodal different points lie on the sphere, start at start and end at end.", "quantifier": "all points of the sphere (except poles for the inversion), all radii > 0, all resolutions", "why_tests_cant": "Real-analytic identities.", "anchors": ["hrosailing/models/globe_model.py:SphericalGlobe"]}
{"id": "C48", "title": "Wind angle correction is undone", "statement": "WindAngleCorrectingInfluenceModel.add_influence evaluates the diagram at the corrected angle (wa + shift) mod 360, for lists and for single values, so adding undoes removing the influence.", "quantifier": "all shifts, winds and diagrams", "why_tests_cant": "All shifts and angles, both call forms.", "anchors": ["hrosailing/models/influencemodel.py:WindAngleCorrectingInfluenceModel"]}
{"id": "C49", "title": "Plotted segments belong to their sail", "statement": "When a slice with sail information is plotted, the segments drawn for a sail contain exactly the points of this sail.", "quantifier": "all slices and all sail labels", "why_tests_cant": "All orders of angles and labels.", "anchors": ["hrosailing/plotting/projections.py:_plot", "hrosailing/plotting/projections.py:_alter_with_info", "hrosailing/plotting/projections.py:_get_info_intervals", "hrosailing/plotting/projections.py:_merge"]}
{"id": "C50", "title": "NMEA values are decoded exactly", "statement": "The NMEA handler decodes a position given as degrees and minutes to degrees + minutes/60 with the sign given by its hemisphere, and a time hhmmss.f.. to this time of day including the fraction of a second.", "quantifier": "all valid NMEA positions and times", "why_tests_cant": "All digit strings.", "anchors": ["hrosailing/processing/datahandler.py:NMEAFileHandler._from_nmea_format", "hrosailing/processing/datahandler.py:NMEAFileHandler._time_from_nmea_format"]}
{"id": "C51", "title": "Standard format merges date and time and keeps numbers", "statement": "Data.hrosailing_standard_format turns a date column and a time column into a datetime column whose entry in each row is the combination of date and time of this row, and casts number columns to float without changing the number they hold.", "quantifier": "all data with date and time columns, with and without a datetime column, all number columns", "why_tests_cant": "All combinations of columns and all entries including None.", "anchors": ["hrosailing/core/data.py:Data.hrosailing_standard_format"]}
{"id": "C52", "title": "Evaluating tables", "statement": "pd(ws, wa) of a PolarDiagramTable is the stored entry if the wind is in the table, for every representation of wa modulo 360; at other winds it is interpolated from the table points in the neighbourhood and, with the default arguments, lies between their smallest and largest boat speed; pd(ws, wa) is periodic in wa with period 360.", "quantifier": "all tables and winds, all interpolators and neighbourhoods", "why_tests_cant": "All tables and all real winds.", "anchors": ["hrosailing/polardiagram/_polardiagramtable.py:PolarDiagramTable.__call__"]}
{"id": "C53", "title": "Point cloud CSV round trip", "statement": "from_csv(path) after pd.to_csv(path) gives back the points of a PolarDiagramPointcloud in order, for every cloud.", "quantifier": "all point clouds, including the empty one", "why_tests_cant": "All numbers of points; character level layout of the file.", "anchors": ["hrosailing/polardiagram/_polardiagrampointcloud.py:PolarDiagramPointcloud.to_csv", "hrosailing/polardiagram/_polardiagrampointcloud.py:PolarDiagramPointcloud.__from_csv__"]}
{"id": "C54", "title": "Adding points", "statement": "pd.add_points(new) appends the new points (wind angles reduced modulo 360) after the old ones and raises ValueError, leaving the cloud unchanged, for negative wind speeds; afterwards pd(ws, wa) at a new wind that was not stored before is the new speed.", "quantifier": "all clouds and all lists of new points", "why_tests_cant": "All sizes and orders.", "anchors": ["hrosailing/polardiagram/_polardiagrampointcloud.py:PolarDiagramPointcloud.add_points"]}
{"id": "C55", "title": "Slices and winds of a point cloud", "statement": "Without an interpolator the slice of a point cloud at ws consists of exactly the stored points whose wind speed lies within the range around ws; wind_speeds and wind_angles are the sorted lists of the different stored values.", "quantifier": "all clouds, wind speeds and ranges", "why_tests_cant": "All sizes and orders.", "anchors": ["hrosailing/polardiagram/_polardiagrampointcloud.py:PolarDiagramPointcloud.ws_to_slices", "hrosailing/polardiagram/_polardiagrampointcloud.py:PolarDiagramPointcloud.wind_speeds", "hrosailing/polardiagram/_polardiagrampointcloud.py:PolarDiagramPointcloud.wind_angles"]}
{"id": "C56", "title": "CSV files of several sails", "statement": "from_csv(path) after pd.to_csv(path) gives back the sail names and the diagrams of a PolarDiagramMultiSails; writing a diagram of several sails to another path does not change what is read from the first path.", "quantifier": "all diagrams, all sail names, all paths", "why_tests_cant": "Interference between the names of the files of the sails for all paths.", "anchors": ["hrosailing/polardiagram/_polardiagrammultisails.py:PolarDiagramMultiSails.to_csv", "hrosailing/polardiagram/_polardiagrammultisails.py:PolarDiagramMultiSails._get_sub_csv_path", "hrosailing/polardiagram/_polardiagrammultisails.py:PolarDiagramMultiSails.__from_csv__"]}
{"id": "C57", "title": "get_points evaluates the diagram at the given winds", "statement": "pd.get_points(wind) returns for each given wind, in order, a row of wind speed, wind angle and pd(ws, wa); a pair of lists stands for all combinations; other shapes raise ValueError.", "quantifier": "all diagrams and all wind arguments", "why_tests_cant": "All shapes and sizes of the wind argument.", "anchors": ["hrosailing/polardiagram/_basepolardiagram.py:PolarDiagram.get_points", "hrosailing/polardiagram/_basepolardiagram.py:PolarDiagram._get_wind"]}
{"id": "C58", "title": "Slices of a table", "statement": "Each slice of a PolarDiagramTable lists the wind angles of the table in order together with pd(ws, wa); slices at wind speeds of the table always exist.", "quantifier": "all tables, including those made without boat speeds, and all wind speeds", "why_tests_cant": "All tables and wind speeds.", "anchors": ["hrosailing/polardiagram/_polardiagramtable.py:PolarDiagramTable.ws_to_slices"]}
{"id": "C59", "title": "Evaluating, symmetrising and slicing curves", "statement": "pd(ws, wa) of a PolarDiagramCurve is the function at ws and wa reduced modulo 360 degrees (2 pi for functions of radians) and raises ValueError for negative ws; pd.symmetrize() has the same value at wa and 360 - wa; a slice lists evenly spread angles in degrees and the value of the curve at these angles.", "quantifier": "all functions, winds and both angle units", "why_tests_cant": "All functions and real angles.", "anchors": ["hrosailing/polardiagram/_polardiagramcurve.py:PolarDiagramCurve.__call__", "hrosailing/polardiagram/_polardiagramcurve.py:PolarDiagramCurve.symmetrize", "hrosailing/polardiagram/_polardiagramcurve.py:PolarDiagramCurve.ws_to_slices"]}
{"id": "C60", "title": "Curve CSV round trip", "statement": "from_csv(path) after pd.to_csv(path) gives back function, parameters and angle unit of a PolarDiagramCurve.", "quantifier": "all curves", "why_tests_cant": "All functions and parameter lists; character level layout of the file.", "anchors": ["hrosailing/polardiagram/_polardiagramcurve.py:PolarDiagramCurve.to_csv", "hrosailing/polardiagram/_polardiagramcurve.py:PolarDiagramCurve.__from_csv__"]}
{"id": "C61", "title": "Model functions follow their documented formulas", "statement": "The model functions for the regression of curves compute the formulas given in their documentation from the documented number of parameters.", "quantifier": "all parameters, wind speeds and wind angles", "why_tests_cant": "Real-analytic identity for all parameters.", "anchors": ["hrosailing/core/modelfunctions/_models2d.py", "hrosailing/core/modelfunctions/__init__.py"]}
{"id": "C62", "title": "Wind conversion leaves its argument alone", "statement": "convert_apparent_wind_to_true and convert_true_wind_to_apparent do not change the array passed by the caller.", "quantifier": "all arrays of winds", "why_tests_cant": "Aliasing; all arrays including those with angles outside of [0,360).", "anchors": ["hrosailing/core/computing.py:_Wind.convert_wind"]}
{"id": "C63", "title": "Every input of the pipeline is handled", "statement": "PolarPipeline handles all training inputs in order with its data handler, or with the handlers of the list one after another; it raises ValueError without inputs and RuntimeError if no data is left after preprocessing.", "quantifier": "all components, all lists of inputs", "why_tests_cant": "All components and all lists.", "anchors": ["hrosailing/pipeline/pipeline.py:PolarPipeline._handle_data", "hrosailing/pipeline/pipeline.py:PolarPipeline._list_statistics", "hrosailing/pipeline/pipeline.py:PolarPipeline.execute"]}
{"id": "C64", "title": "Combined weather models", "statement": "MultiWeatherModel.get_weather returns, for each key, the value of the last submodel that answers and has this key. Submodels raising ValueError, TypeError, KeyError or NotImplementedError are ignored, unless exception_sensitive is set; then the first exception is raised.", "quantifier": "all lists of submodels, all points, all exceptions", "why_tests_cant": "Every combination of answers and exceptions.", "anchors": ["hrosailing/models/weather_model.py:MultiWeatherModel.get_weather"]}
{"id": "C65", "title": "NetCDF weather is read at the right coordinates", "statement": "The weather of a grid point of a NetCDFWeatherModel is the entry of each variable at the coordinates of this grid point, no matter whether the file stores latitudes and longitudes in ascending or descending order and in which order the dimensions of a variable are; the grid is ascending.", "quantifier": "all files with strictly monotone coordinates, all variables, all grid points", "why_tests_cant": "All orders and shapes of files.", "anchors": ["hrosailing/models/weather_model.py:NetCDFWeatherModel.__init__", "hrosailing/models/weather_model.py:NetCDFWeatherModel._get_data"]}
{"id": "C66", "title": "Weather models survive to_file and from_file", "statement": "GriddedWeatherModel.from_file applied to a file written by to_file gives a model with the same data, times, latitudes, longitudes and attributes.", "quantifier": "all gridded weather models", "why_tests_cant": "All times, including those with fractions of a second.", "anchors": ["hrosailing/models/weather_model.py:GriddedWeatherModel.to_file", "hrosailing/models/weather_model.py:GriddedWeatherModel.from_file"]}
{"id": "C67", "title": "Flat mercator globe", "statement": "FlatMercatorProjection.lat_lon inverts project for every virtual north pole and virtual zero point, for every place which is not mapped to infinity; its distance is symmetric, non-negative and satisfies the triangle inequality.", "quantifier": "all places, virtual north poles, virtual zero points and radii", "why_tests_cant": "Real-analytic identities for arbitrary rotations.", "anchors": ["hrosailing/models/globe_model.py:FlatMercatorProjection"]}
{"id": "C68", "title": "Fitting the wind angle correction", "statement": "WindAngleCorrectingInfluenceModel.fit chooses, among the sampled angles, an angle with the lowest density of measured wind angles, where the distance between two angles is the distance on the circle.", "quantifier": "all training data and interval sizes", "why_tests_cant": "All data sets; the angle 0/360 is a boundary of the representation.", "anchors": ["hrosailing/models/influencemodel.py:WindAngleCorrectingInfluenceModel.fit"]}
{"id": "C69", "title": "Colour gradients", "statement": "The coefficients of a colour gradient are between 0 and 1, 0 for the smallest and 1 for the largest value, ordered as the values, and the colours of a gradient lie between the two given colours.", "quantifier": "all lists of values and pairs of colours", "why_tests_cant": "All lists, including lists of equal values.", "anchors": ["hrosailing/plotting/projections.py:_get_gradient_coefficients", "hrosailing/plotting/projections.py:_determine_colors_from_coefficients"]}
{"id": "C70", "title": "Apparent wind of NMEA sentences is not stored as true wind", "statement": "Wind of an NMEA sentence with reference R is stored as apparent wind and wind with reference T as true wind, also if only some attributes are wanted; other entries of the sentence are not changed.", "quantifier": "all sentences and all sets of wanted attributes", "why_tests_cant": "All combinations of fields.", "anchors": ["hrosailing/processing/datahandler.py:NMEAFileHandler._postprocess", "hrosailing/core/constants.py:HROSAILING_TO_NMEA"]}
{"id": "C71", "title": "Convex direction is the fastest mix", "statement": "convex_direction returns for every direction reachable with the polar diagram one or two directions with proportions between 0 and 1 such that sailing these directions in these proportions moves the boat in the requested direction, and no mix of courses of the slice moves it faster in this direction.", "quantifier": "all polar diagrams (slices), all directions", "why_tests_cant": "A quantification over all convex combinations of all courses.", "anchors": ["hrosailing/cruising/basics.py:convex_direction"]}
{"id": "C72", "title": "Cruise reaches the destination", "statement": "The directions and durations returned by cruise add up, with the boat speeds of the polar diagram, to the way from start to end.", "quantifier": "all polar diagrams, starts, ends and winds", "why_tests_cant": "Holds for all geometries; tests compare a few stored numbers.", "anchors": ["hrosailing/cruising/basics.py:cruise"]}
{"id": "C73", "title": "Wind relative to north", "statement": "_wind_relative_to_north (and uvgrid_to_tw for weather data) return the wind speed and the direction of the wind relative to north in degrees from 0 to 360 for all supported formats; headings do not depend on the choice of representative of an angle.", "quantifier": "all wind speeds, angles and components", "why_tests_cant": "Real trigonometry for all angles.", "anchors": ["hrosailing/cruising/basics.py:_wind_relative_to_north", "hrosailing/cruising/basics.py:_uvgrid_to_tw", "hrosailing/cruising/basics.py:cruise"]}
{"id": "C74", "title": "Distance and course on the globe", "statement": "cruise uses the distance between two places (0 for the same place, symmetric, on the equator proportional to the difference of longitudes with the circumference as a full circle) and the initial course of the great circle, clockwise from north.", "quantifier": "all pairs of places", "why_tests_cant": "Real trigonometry for all places.", "anchors": ["hrosailing/cruising/basics.py:_right_handing_course", "hrosailing/cruising/basics.py:_great_earth_ellipsoid_distance"]}
{"id": "C75", "title": "Isochrone travels in the requested direction", "statement": "The end returned by isochrone lies in the given direction (0 is north, 90 is east) at the returned distance from the start, measured in the mercator projection.", "quantifier": "all starts, directions and distances", "why_tests_cant": "Real trigonometry for all places.", "anchors": ["hrosailing/cruising/basics.py:isochrone"]}
{"id": "C76", "title": "Cost of a cruise", "statement": "cost_cruise without a density is the absolute cost of time and distance; a constant density adds density times distance; larger densities never give lower costs; the positions at which the density is evaluated lie on the straight line of the projection from start to end with the travelled distance.", "quantifier": "all densities, solutions of the initial value problem, starts and ends", "why_tests_cant": "All densities and numbers of nodes.", "anchors": ["hrosailing/cruising/basics.py:cost_cruise"]}
{"id": "C77", "title": "Data flow of the pipeline", "statement": "The polar diagram of a pipeline run is what the extension makes of the points left after reading, imputing, smoothing, weighing and filtering, expanding, removing the fitted influences, weighing and filtering again and injecting, in this order; components that are switched off have no effect; test data is treated by the same steps with the fitted influence model.", "quantifier": "all components and all choices of flags", "why_tests_cant": "All combinations of flags and components.", "anchors": ["hrosailing/pipeline/pipeline.py:PolarPipeline.__call__"]}
{"id": "C78", "title": "Statistics of weighers", "statement": "The statistics of a weigher contain the average, minimum and maximum of the weights and for each tenth of the span from minimum to maximum the percentage of the weights in it (rounded to two decimals), so that the percentages add up to 100; without weights there are no statistics and no exception.", "quantifier": "all lists of weights", "why_tests_cant": "All lengths and values of weights, including ties.", "anchors": ["hrosailing/processing/weigher.py:Weigher.set_statistics"]}
{"id": "C79", "title": "CylindricMemberWeigher on data", "statement": "CylindricMemberWeigher.weigh applied to Data weighs the rows of the named dimensions (or of all floating point attributes) as it weighs the rows of an array, independently of data seen before.", "quantifier": "all data, dimensions and norms", "why_tests_cant": "All numbers of attributes and histories of calls.", "anchors": ["hrosailing/processing/weigher.py:CylindricMemberWeigher.weigh", "hrosailing/processing/weigher.py:CylindricMemberWeigher._count_points_in_cylinder"]}
{"id": "C80", "title": "FluctuationWeigher", "statement": "The weight of a row is the product over the attributes of max(0, (bound - deviation)/bound), where deviation is the standard deviation of the values of the attribute measured in the given time span around the time of the row; each attribute is judged by its own bound; weights lie between 0 and 1.", "quantifier": "all times, values, bounds and time spans", "why_tests_cant": "All series of measurements.", "anchors": ["hrosailing/processing/weigher.py:FluctuationWeigher.weigh"]}
{"id": "C81", "title": "Resolutions derived from data", "statement": "TableExtension with \"min_max\" uses the wind speeds from the rounded minimum to the rounded maximum of the data in steps of two, and wind angles in steps of five; with \"auto\" it uses the rounded minimum and maximum and the multiples of 2 (of 5) that are supported by enough data. Minimum and maximum are part of the resolution and no value is repeated.", "quantifier": "all nonempty data", "why_tests_cant": "All data, including ties in rounding and all parities.", "anchors": ["hrosailing/pipeline/extensions.py:_min_max_resolution", "hrosailing/pipeline/extensions.py:_extract_wind"]}
{"id": "C82", "title": "Extensions interpolate the data", "statement": "The table made by TableExtension has at each wind of its resolution the value the interpolator gives for the data in the neighbourhood of this wind, and 0 if there is none; likewise for the points of the cloud made by PointcloudExtension; CurveExtension fits the curve to the data (in radians if requested), every time it is used.", "quantifier": "all data, neighbourhoods, interpolators, samplers and regressors", "why_tests_cant": "All grids and data; involves the order of the flattened grid.", "anchors": ["hrosailing/pipeline/extensions.py:TableExtension.process", "hrosailing/pipeline/extensions.py:PointcloudExtension.process", "hrosailing/pipeline/extensions.py:CurveExtension.process"]}
{"id": "C83", "title": "Quality assurance", "statement": "check reports the largest, smallest, average and average quadratic error of the test data, with min <= average <= max and average^2 <= average quadratic error, which vanish exactly for diagrams fitting the test data; the comforming quality assurance also reports the values at angle zero, the number of different rounded test winds and the largest local difference of boat speeds, for every diagram.", "quantifier": "all diagrams and test data", "why_tests_cant": "All test data and diagrams.", "anchors": ["hrosailing/pipeline/quality_assurance.py:MinimalQualityAssurance.check", "hrosailing/pipeline/quality_assurance.py:ComformingQualityAssurance.check"]}
{"id": "C84", "title": "Arrays of the caller are not changed", "statement": "Creating tables and point clouds, looking up table entries and adding points to a cloud do not change the arrays passed by the caller.", "quantifier": "all arrays", "why_tests_cant": "Concerns all arrays of angles.", "anchors": ["hrosailing/polardiagram/_polardiagramtable.py:_Resolution_helper._custom_iterable_resolution", "hrosailing/polardiagram/_polardiagramtable.py:_Resolution_helper.normalize_wind", "hrosailing/polardiagram/_polardiagrampointcloud.py:PolarDiagramPointcloud.add_points"]}
{"id": "C85", "title": "Resolutions given by a step size", "statement": "A number as resolution of a table gives its positive multiples below 40 knots resp. 360 degrees, in increasing order, at least one of them; other numbers raise ValueError; the steps of the default resolutions give the default resolutions.", "quantifier": "all numbers", "why_tests_cant": "All positive step sizes, including those not dividing the range.", "anchors": ["hrosailing/polardiagram/_polardiagramtable.py:_Resolution_helper._custom_stepsize_resolution"]}
{"id": "C86", "title": "Shepard interpolation", "statement": "ShepardInterpolator returns the stored boat speed at a data point and the mean of the boat speeds of the data points closer than the tolerance; constant boat speeds are reproduced; adding a constant to all boat speeds adds it to the result, and scaling them scales it; moving data and point by the same wind, or exchanging the roles of the coordinates, changes nothing; every neighbourhood of the library can be used.", "quantifier": "all data points, points, neighbourhoods and norms", "why_tests_cant": "Concerns all data; the formula is symmetric on paper, and tests compare few values.", "anchors": ["hrosailing/processing/interpolator.py:ShepardInterpolator.interpolate", "hrosailing/processing/interpolator.py:_include_direction", "hrosailing/processing/interpolator.py:_determine_slope"]}
{"id": "C87", "title": "Spiral samplers", "statement": "FibonacciSampler and ArchimedeanSampler return exactly n different points, all of them in the convex hull of the given points, for all points that are not on a line; fewer than three points raise ValueError; they can be used in PointcloudExtension. The bounds of UniformRandomSampler contain the hull and are attained.", "quantifier": "all point sets and numbers of samples", "why_tests_cant": "The search for a suitable number of points is a loop without a bound; tests use a few sets of points.", "anchors": ["hrosailing/processing/sampler.py:FibonacciSampler.sample", "hrosailing/processing/sampler.py:ArchimedeanSampler.sample", "hrosailing/processing/sampler.py:_create_bounds", "hrosailing/processing/sampler.py:_binary_rescale"]}
{"id": "C88", "title": "Arrays and csv files are read completely", "statement": "ArrayHandler turns the columns of an array into columns of the data with the given names, one row per row of the array; a wrong number of names raises ValueError. CsvFileHandler does the same for the columns of a csv file, where a missing entry is None, entries are dates or python literals, and entries that cannot be parsed raise RuntimeError; every column is kept.", "quantifier": "all arrays, names and files", "why_tests_cant": "Concerns all files, with rows of all lengths and all names; tests read well-formed files.", "anchors": ["hrosailing/processing/datahandler.py:ArrayHandler.handle", "hrosailing/processing/datahandler.py:CsvFileHandler.handle", "hrosailing/processing/datahandler.py:CsvFileHandler._save_eval"]}
{"id": "C89", "title": "NMEA files: filters and completeness", "statement": "NMEAFileHandler reads exactly the sentences of the wanted types (resp. not of the unwanted types), given by any iterable, and of these the wanted attributes; the measured values of each column are the values of these sentences in their order, and there are at most as many rows as sentences.", "quantifier": "all files, filters and iterables", "why_tests_cant": "Concerns all streams of sentences.", "anchors": ["hrosailing/processing/datahandler.py:NMEAFileHandler.__init__", "hrosailing/processing/datahandler.py:NMEAFileHandler.handle"]}
{"id": "C90", "title": "Arguments and defaults of slices and points", "statement": "get_slices accepts None, a number, or any iterable of numbers as ws and returns the wind speeds together with one slice of three rows for each of them. The default slices of point clouds and of diagrams with several sails are twenty wind speeds spread evenly over all wind speeds, and every point of a cloud belongs to a default slice. get_points without argument returns points of the diagram: the entries of a table, a grid of values of a curve, values of a diagram with several sails.", "quantifier": "all diagrams, all arguments ws and n_steps, all numbers of wind angles", "why_tests_cant": "Concerns every kind of iterable and clouds with any range of wind speeds; tests use lists and small tables.", "anchors": ["hrosailing/polardiagram/_basepolardiagram.py:PolarDiagram.get_slices", "hrosailing/polardiagram/_basepolardiagram.py:PolarDiagram._get_windspeeds", "hrosailing/polardiagram/_polardiagrampointcloud.py:PolarDiagramPointcloud.ws_to_slices", "hrosailing/polardiagram/_polardiagrammultisails.py:PolarDiagramMultiSails.default_points", "hrosailing/polardiagram/_polardiagramtable.py:PolarDiagramTable.default_points"]}
{"id": "C91", "title": "Colours of slices", "statement": "If colors is a colour then all slices are drawn in it; if it consists of two colours then the colour of a slice is the mixture given by its wind speed; otherwise the slices are drawn in turn in the given colours, in the order of the wind speeds, and in blue if there are too few; for pairs of a wind speed and a colour the named slices are drawn in these colours and the others in blue.", "quantifier": "all numbers of slices, wind speeds and colours", "why_tests_cant": "Concerns all combinations of forms of the argument with numbers of slices; plots are hard to inspect in tests.", "anchors": ["hrosailing/plotting/projections.py:HROPolar.plot", "hrosailing/plotting/projections.py:_configure_colors", "hrosailing/plotting/projections.py:_only_one_color", "hrosailing/plotting/projections.py:_configure_color_cycle"]}
{"id": "C92", "title": "Legends show the colours of all slices", "statement": "With show_legend the legend is a colour bar from the smallest to the greatest wind speed if a gradient is drawn, and otherwise contains every slice with the colour in which it is drawn.", "quantifier": "all numbers of slices, wind speeds and colours", "why_tests_cant": "Concerns all combinations of forms of the argument with numbers of slices; plots are hard to inspect in tests.", "anchors": ["hrosailing/plotting/projections.py:_configure_legend", "hrosailing/plotting/projections.py:_set_legend_with_wind_speeds", "hrosailing/plotting/projections.py:_set_legend_without_wind_speeds", "hrosailing/plotting/projections.py:_plot_with_color_gradient"]}
{"id": "C93", "title": "Surfaces leave out the right triangles", "statement": "In a three-dimensional plot each point of the diagram is drawn at its boat speed, angle and wind speed. A triangle is left out exactly if the wind speeds of its vertices are nearly equal or it crosses the direction 0 degrees in the north; this does not depend on the order of its vertices.", "quantifier": "all triangles", "why_tests_cant": "Concerns all triangles and orders of their vertices, which the triangulation chooses.", "anchors": ["hrosailing/plotting/projections.py:Axes3D.plot_surface", "hrosailing/plotting/projections.py:Axes3D._prepare_points"]}
{"id": "C94", "title": "Convex hull of a slice", "statement": "With use_convex_hull the boundary of the convex hull of the slice is drawn: all vertices with their values, in the order along the boundary, and a closed curve if the slice extends over at least 180 degrees, where the points added at 0 and 360 degrees lie on the edge between the first and the last vertex.", "quantifier": "all slices with angles between 0 and 360 degrees", "why_tests_cant": "Concerns all slices; the added points are plausible for symmetric slices, the ones usually plotted.", "anchors": ["hrosailing/plotting/projections.py:_get_convex_hull", "hrosailing/plotting/projections.py:_plot"]}
{"id": "C95", "title": "Tables do not share their columns", "statement": "Two tables (Data objects), and a table and the lists given to it, are independent of each other: after any program made of creating, filling, slicing, masking, renaming, deleting, appending and updating, a statement for one table changes only this table, and all results are the same as if tables and lists were values.", "quantifier": "all programs (finite sequences of statements over any number of tables and lists)", "why_tests_cant": "Sharing of lists between objects shows up only in particular orders of statements; a test looks at a single object after a single statement.", "anchors": ["hrosailing/core/data.py:118-180", "hrosailing/core/data.py:491-535"]}
{"id": "C96", "title": "Rows of a table", "statement": "data.rows(keys, return_type) yields one row for each row of the table, which contains the entries of the columns in keys, in the order of keys; this holds for each return type, for each iterable of keys and however the rows are used by the caller.", "quantifier": "all reachable tables, all keys, all orders in which rows are asked for and read", "why_tests_cant": "The rows are generators which look up the row number when they are read; a loop that reads each row at once works, collecting them does not.", "anchors": ["hrosailing/core/data.py:81-115"]}
{"id": "C97", "title": "Subscripts of a table", "statement": "data[key] is the column for a string, the row for an integer (negative integers count from the end, others raise IndexError), the table with the chosen columns for an array like of strings, and the table with the chosen rows for an array like of booleans.", "quantifier": "all reachable tables, all subscripts", "why_tests_cant": "Arrays of strings, integers of numpy and iterators take other branches than lists, integers and strings; tests use only the latter.", "anchors": ["hrosailing/core/data.py:538-554", "hrosailing/core/data.py:491-535"]}
{"id": "C98", "title": "Number of fitted parameters", "statement": "LeastSquareRegressor without initial values fits exactly the parameters of its model function f(ws, wa, *params) or f(ws, wa, a, b, ...), and reports functions which cannot be called; the fitted function can be called with the optimal parameters.", "quantifier": "all signatures and bodies of model functions, all data", "why_tests_cant": "Depends on the signature of an arbitrary function; the tests use only functions with *params and given initial values.", "anchors": ["hrosailing/processing/regressor.py:166-192", "hrosailing/processing/regressor.py:243-252", "hrosailing/processing/regressor.py:211-240"]}
{"id": "C99", "title": "Data and state of regressors", "statement": "fit takes array likes of shape (n, 3) with wind speeds, wind angles and boat speeds and raises an exception for all others; after an exception the optimal parameters are as before, after a success they depend only on the last data.", "quantifier": "all data, all histories of fits", "why_tests_cant": "Concerns all shapes of data and all sequences of successful and failing calls.", "anchors": ["hrosailing/processing/regressor.py:108-136", "hrosailing/processing/regressor.py:211-240"]}
{"id": "C100", "title": "Representations of fuzzy statements are unambiguous", "statement": "str(statement) tells how a fuzzy statement was built: two statements with the same representation have the same truth function.", "quantifier": "all statements built from comparisons and sigmoids with &, |, ~ and subscripts", "why_tests_cant": "Concerns infinitely many nested statements; brackets are left out under some conditions.", "anchors": ["hrosailing/processing/weigher.py:619-643", "hrosailing/processing/weigher.py:736-750", "hrosailing/processing/weigher.py:818-857"]}
{"id": "C101", "title": "Fuzzy statements for arrays and points", "statement": "A fuzzy statement evaluated for an array gives the truth values of the entries; the weights of a FuzzyWeigher are the truth values of the points in their order, between 0 and 1.", "quantifier": "all statements, arrays and tables", "why_tests_cant": "The result for arrays depends on the way the statement was built; tests evaluate statements for numbers.", "anchors": ["hrosailing/processing/weigher.py:644-734", "hrosailing/processing/weigher.py:879-896"]}
{"id": "C102", "title": "True wind data from measurements", "statement": "remove_influence of the influence models returns an (n, 3)-array whose rows are true wind speed, true wind angle and boat speed of the n given measurements: the true wind if it is given, otherwise the converted apparent wind; the boat speed through water if it is given, otherwise over ground. Without a complete wind a ValueError is raised.", "quantifier": "all dictionaries of measurements, given as lists, arrays or single values", "why_tests_cant": "All combinations of columns and lengths; tests use lists of a few entries.", "anchors": ["hrosailing/models/influencemodel.py:_get_true_wind_data", "hrosailing/core/computing.py:data_dict_to_numpy"]}
{"id": "C103", "title": "Cruise with an influence model", "statement": "cruise with an influence model recommends directions for, and computes their durations with, the boat speeds under the influence of the given data at the recommended angles; the given data is optional and is not changed.", "quantifier": "all polar diagrams, influence models and influence data", "why_tests_cant": "Tests never combine cruise with an influence model; the claim is about all boat speeds.", "anchors": ["hrosailing/cruising/basics.py:cruise", "hrosailing/cruising/basics.py:convex_direction"]}
{"id": "C104", "title": "Shortest paths on the Mercator map", "statement": "shortest_path of FlatMercatorProjection returns res places from start to end on the straight line of the map with equal distances; no way over the map is shorter; the virtual north pole and the virtual zero point are north pole and origin of the map.", "quantifier": "all places and numbers of points", "why_tests_cant": "Real analysis for all places; tests compare few points.", "anchors": ["hrosailing/models/globe_model.py:FlatMercatorProjection", "hrosailing/models/globe_model.py:GlobeModel.shortest_path"]}
{"id": "C105", "title": "Names of components and of flags", "statement": "Each component of a PolarPipeline is the one given by its name or alias, otherwise the default one; each flag of a call is the one given by its name or alias, otherwise True, independent of earlier calls; a call changes no component; unknown names raise an error.", "quantifier": "all dictionaries of components and flags, all earlier calls", "why_tests_cant": "Names, aliases and defaults interact for arbitrary dictionaries; tests use few names.", "anchors": ["hrosailing/pipeline/pipeline.py:PolarPipeline.__init__", "hrosailing/pipeline/pipeline.py:PolarPipeline.__call__", "hrosailing/pipeline/pipeline.py:PolarPipeline._set_with_default"]}
{"id": "C106", "title": "Curves from measurements", "statement": "The diagram made by CurveExtension has at each measurement the value of the function the regressor has fitted, in degrees as well as in radians; the measurements are not changed, and quality assurance with the measurements reports no error if the function fits exactly.", "quantifier": "all regressors, model functions and measurements", "why_tests_cant": "Holds for all functions and data; tests use the default function.", "anchors": ["hrosailing/pipeline/extensions.py:CurveExtension.process", "hrosailing/polardiagram/_polardiagramcurve.py:PolarDiagramCurve.__call__"]}
{"id": "C107", "title": "Scaled norms", "statement": "euclidean_norm is a norm of the rows of an array; scaled_norm of a norm is a norm; scaled_euclidean_norm divides wind speeds by 40, wind angles by 360 and boat speeds by 20; the norms of weighers and interpolators are the same.", "quantifier": "all numbers of columns, scaling factors and arrays", "why_tests_cant": "Triangle inequality and definiteness quantify over all vectors.", "anchors": ["hrosailing/core/computing.py:scaled_norm", "hrosailing/core/computing.py:scaled_euclidean_norm", "hrosailing/processing/weigher.py:hrosailing_standard_scaled_euclidean_norm"]}
{"id": "C108", "title": "Times and attributes of NetCDF files", "statement": "The times of a NetCDFWeatherModel are the numbers in the file, in its unit, after the start time of the file; different times stay different; files with descending times are supported as those with descending latitudes are; the attributes are the variables of the file other than time, latitude and longitude.", "quantifier": "all units, start times and lists of times", "why_tests_cant": "Files are arbitrary; no test has fractional or descending times.", "anchors": ["hrosailing/models/weather_model.py:NetCDFWeatherModel.__init__"]}
{"id": "C109", "title": "Weather of meteostat", "statement": "The model made by GriddedWeatherModel.from_meteostat has at each time, latitude and longitude the weather which was fetched for them.", "quantifier": "all grids and all fetched data", "why_tests_cant": "Needs a network; fetched data is arbitrary.", "anchors": ["hrosailing/models/weather_model.py:GriddedWeatherModel.from_meteostat"]}
{"id": "C110", "title": "Printed point clouds", "statement": "str(pc) has one line for each point, in the order of the points, showing wind speed, wind angle and boat speed rounded to two digits in aligned columns; different numbers with two digits are shown differently.", "quantifier": "all point clouds", "why_tests_cant": "All numbers and texts; tests compare one cloud.", "anchors": ["hrosailing/polardiagram/_polardiagrampointcloud.py:PolarDiagramPointcloud.__str__"]}
{"id": "C111", "title": "Reliable measurements count more", "statement": "A point with a greater weight influences the values interpolated by ArithmeticMeanInterpolator more than a point with a smaller weight at the same distance; in particular outliers, which get small weights, have little influence on the diagrams made by the default pipeline; of points with the same weight the nearer one counts more.", "quantifier": "all points, weights and parameters of the default distribution", "why_tests_cant": "Orders of weights and values for all data; tests only check that weights are passed.", "anchors": ["hrosailing/processing/interpolator.py:_gauss_potential", "hrosailing/processing/interpolator.py:ArithmeticMeanInterpolator.interpolate", "hrosailing/processing/weigher.py:CylindricMeanWeigher.weigh"]}
{"id": "C112", "title": "Tables made by the default pipeline", "statement": "With the default components a table is made from any nonempty data with nonnegative wind speeds: its wind angles are 5, 10, ..., 355, its wind speeds are those of the data up to rounding, and its boat speeds lie between the smallest and the greatest measured boat speed or zero; no step divides by zero.", "quantifier": "all data and settings of the components", "why_tests_cant": "Composition of five components over arbitrary data; tests run single components on small data.", "anchors": ["hrosailing/pipeline/pipeline.py:PolarPipeline.__call__", "hrosailing/pipeline/extensions.py:TableExtension.process", "hrosailing/processing/filter.py:QuantileFilter.filter", "hrosailing/processing/injector.py:ZeroInjector.inject"]}
{"id": "C113", "title": "Order of measurements", "statement": "The table made by the default pipeline does not depend on the order of the measurements.", "quantifier": "all permutations of all data", "why_tests_cant": "Quantifies over permutations.", "anchors": ["hrosailing/pipeline/pipeline.py:PolarPipeline.__call__", "hrosailing/processing/interpolator.py:ArithmeticMeanInterpolator.interpolate"]}
{"id": "C114", "title": "Unit of the boat speed", "statement": "If all boat speeds are multiplied by a positive number, the default pipeline makes the table with all boat speeds multiplied by this number; weights do not depend on the unit of the boat speeds.", "quantifier": "all data and positive factors", "why_tests_cant": "A relation between two runs for arbitrary data.", "anchors": ["hrosailing/processing/weigher.py:CylindricMeanWeigher.weigh", "hrosailing/processing/weigher.py:CylindricMemberWeigher.weigh", "hrosailing/pipeline/extensions.py:TableExtension.process"]}
{"id": "C115", "title": "Port and starboard", "statement": "Mirrored measurements (wind angle a replaced by 360 - a) give the mirrored table.", "quantifier": "all data without contradictions and all norms which do not distinguish the sides", "why_tests_cant": "A relation between two runs for arbitrary data.", "anchors": ["hrosailing/processing/injector.py:ZeroInjector.inject", "hrosailing/pipeline/extensions.py:TableExtension.process"]}
{"id": "C116", "title": "Circular wind angles", "statement": "Distances between winds respect that 0 and 360 degrees are the same direction: winds of 359 and 1 degrees are near to each other, and measurements at 2 degrees influence values at 355 degrees more than measurements at 180 degrees do.", "quantifier": "all wind speeds, boat speeds and positive weights", "why_tests_cant": "Refuted for all speeds.", "anchors": ["hrosailing/core/computing.py:scaled_euclidean_norm", "hrosailing/processing/weigher.py:hrosailing_standard_scaled_euclidean_norm"]}
{"id": "C117", "title": "Every run has its own statistics", "statement": "The statistics collected for a run of the pipeline are dictionaries of their own: they are the statistics of this run, preprocessing further (test) data never changes dictionaries reported before, and the statistics reported for training data, test data and different components are different objects.", "quantifier": "all components, all numbers of runs, all statistics", "why_tests_cant": "Aliasing of mutable objects over arbitrary sequences of calls; tests look at the statistics of a single run.", "anchors": ["hrosailing/core/statistics.py:ComponentWithStatistics", "hrosailing/pipeline/pipeline.py:_collect", "hrosailing/pipeline/pipeline.py:PolarPipeline._preprocess", "hrosailing/processing/filter.py:QuantileFilter.filter"]}
{"id": "C118", "title": "Shapes of the model functions of one variable", "statement": "The model functions have the shapes their names promise: polynomial_function is the polynomial with the given coefficients, concave_function is concave and tends to its limit, s_shaped lies between 0 and its limit, increases and is symmetric about its inflection point, gaussian_model is largest at its centre and symmetric, gmm_model is a sum of two gaussians, gompertz_model lies between 0 and its limit and increases.", "quantifier": "all parameters and arguments", "why_tests_cant": "Monotonicity, limits and concavity of real functions for all parameters.", "anchors": ["hrosailing/core/modelfunctions/_models2d.py"]}
{"id": "C119", "title": "Filters depend only on the order of the weights", "statement": "QuantileFilter and BoundFilter depend only on how the weights (and bounds) compare: strictly increasing transformations of the weights keep the same points, greater percentages and narrower bounds keep fewer points, and the order of the points does not matter.", "quantifier": "all weights, percentages, bounds, transformations and permutations", "why_tests_cant": "Relations between runs for arbitrary weights and arbitrary monotone functions.", "anchors": ["hrosailing/processing/filter.py:QuantileFilter.filter", "hrosailing/processing/filter.py:BoundFilter.filter"]}
{"id": "C120", "title": "Interpolators respect units, origin and order", "statement": "Interpolated boat speeds change with the unit and the zero of the boat speeds, do not depend on the order of the points, nor on the origin of the wind coordinates, nor (IDWInterpolator) on the scale of the norm, nor (BilinearGridInterpolator) on the unit of the winds.", "quantifier": "all points, winds, norms, affine changes and permutations", "why_tests_cant": "Relations between runs for arbitrary points.", "anchors": ["hrosailing/processing/interpolator.py:IDWInterpolator.interpolate", "hrosailing/processing/interpolator.py:ImprovedIDWInterpolator.interpolate", "hrosailing/processing/interpolator.py:ArithmeticMeanInterpolator.interpolate", "hrosailing/processing/interpolator.py:BilinearGridInterpolator.interpolate"]}
{"id": "C121", "title": "Weighers respect units and order", "statement": "Reordering the points reorders the weights; boat speeds (and heights of cylinders) in other units or with another zero, and movements of the winds which keep distances, do not change the weights.", "quantifier": "all points, permutations and affine changes", "why_tests_cant": "Relations between runs for arbitrary points.", "anchors": ["hrosailing/processing/weigher.py:CylindricMeanWeigher.weigh", "hrosailing/processing/weigher.py:CylindricMemberWeigher.weigh"]}
{"id": "C122", "title": "Cruises respect units and sides", "statement": "Convex combinations of headings, cruise times and isochrones do not depend on the unit of boat speeds, distances and times, as long as they agree; the fastest combination of a mirrored course is the mirrored combination.", "quantifier": "all boats, courses, distances, times and scale factors", "why_tests_cant": "Relations between runs for arbitrary polar diagrams and courses.", "anchors": ["hrosailing/cruising/basics.py:convex_direction", "hrosailing/cruising/basics.py:cruise", "hrosailing/cruising/basics.py:isochrone", "hrosailing/cruising/basics.py:_get_inverse_bsp"]}
{"id": "C123", "title": "Polar diagrams are independent objects", "statement": "The arrays returned by properties, the arrays given to constructors, and the diagrams returned by symmetrize are independent of the diagram: in any program a diagram changes only by change_entries or add_points called on it, and the results are those of a program in which every variable holds a value of its own.", "quantifier": "all programs of constructors, properties, symmetrisations, and changes of arrays and diagrams, of any length", "why_tests_cant": "Aliasing over arbitrary sequences of operations; tests look at single operations.", "anchors": ["hrosailing/polardiagram/_polardiagramtable.py:PolarDiagramTable", "hrosailing/polardiagram/_polardiagrampointcloud.py:PolarDiagramPointcloud", "hrosailing/polardiagram/_polardiagrammultisails.py:PolarDiagramMultiSails"]}
{"id": "C124", "title": "Plots show the points of the slices", "statement": "Plotting a polar diagram calls matplotlib exactly once per slice, in the order of the slices, and the points handed over are exactly the points (wind angle, boat speed) of the slice, with all repetitions and ordered by wind angle; with sail information only gaps are added, one less than the number of sails. plot and scatter, and the polar and the flat projection, show the same points, the latter two differing only in degrees and radians. The colour gradient plot shows every point at its wind speed and wind angle with the mixture of the two colours given by its boat speed; the three-dimensional plot shows it above the place of the polar plot at the height of its wind speed.", "quantifier": "all lists of slices of any length with any wind speeds, angles and boat speeds, any sail information, any behaviour of the external convex hull", "why_tests_cant": "Tests of plots compare a few recorded pictures or merely check that no exception is raised; a lost, duplicated or wrongly converted point in some slice goes unnoticed.", "anchors": ["hrosailing/plotting/projections.py:127-162", "hrosailing/plotting/projections.py:198-236", "hrosailing/plotting/projections.py:298-343", "hrosailing/plotting/projections.py:413-496"]}
{"id": "C125", "title": "The wind triangle", "statement": "convert_true_wind_to_apparent and convert_apparent_wind_to_true obey the geometry of the wind triangle: the converted wind speed lies between the difference and the sum of wind speed and boat speed; a boat at rest feels the true wind; speeds may be in any unit; full turns do not matter; a mirrored wind is converted to the mirrored result; the apparent wind never comes from further aft than the true wind, and the faster the boat, the further ahead it comes from.", "quantifier": "all real wind speeds >= 0, all real wind angles, all real boat speeds (non-negative where the boat is said to move ahead), both directions of conversion, all positive units", "why_tests_cant": "Tests convert a handful of winds and compare rounded numbers; a sign error in one quadrant, or a conversion that depends on the unit or the representation of the angle, can agree with all of them.", "anchors": ["hrosailing/core/computing.py:10-98"]}
{"id": "C126", "title": "Interpolated speeds vary continuously with the wind", "statement": "IDWInterpolator with a positive exponent, ImprovedIDWInterpolator and BilinearGridInterpolator return values that depend continuously on the wind: there is no jump at a data point, where a different branch of the code is taken, nor where the formula of the weights changes, nor at the border of two cells of a grid. ArithmeticMeanInterpolator is continuous except at the data points, where it returns the boat speed of the data instead of the scaled mean.", "quantifier": "all finite sets of data with pairwise different winds, all continuous norms vanishing only at zero, all positive integer exponents, all positive continuous distributions, all complete grids; for the improved version all winds that are not at the same distance from all data", "why_tests_cant": "Continuity is a statement about all winds near all winds; tests look at finitely many.", "anchors": ["hrosailing/processing/interpolator.py:100-133", "hrosailing/processing/interpolator.py:222-250", "hrosailing/processing/interpolator.py:287-317", "hrosailing/processing/interpolator.py:431-442", "hrosailing/processing/interpolator.py:505-624"]}
{"id": "C127", "title": "Preparing prepared data changes nothing", "statement": "Steps that bring data into a normal form leave data in this form as it is: hrosailing_standard_format, RemoveOnlyImputator and FillLocalImputator applied to their own results (for FillLocalImputator with present time stamps and at least one remaining row), the normalisation of weights, BoundFilter on the points it has kept. Symmetrising a symmetric point cloud adds no new point.", "quantifier": "all data objects reachable by the methods of Data, all string-to-number conversions, all fill functions and time differences, all lists of non-negative weights, all bounds, all point clouds", "why_tests_cant": "The second application is the identity only if the first reaches the normal form for every input; tests try a few inputs and usually apply a step once.", "anchors": ["hrosailing/core/data.py:370-427", "hrosailing/core/data.py:580-590", "hrosailing/processing/imputator.py:39-66", "hrosailing/processing/imputator.py:141-305", "hrosailing/processing/weigher.py:333-339", "hrosailing/processing/filter.py:106-165", "hrosailing/polardiagram/_polardiagrampointcloud.py:272-300"]}
{"id": "C128", "title": "Changing the sails of a diagram", "statement": "The boat speed of a diagram with several sails is the best one of its sails whatever their order; adding sails never makes it smaller and leaving out a sail that is not faster than another one changes nothing; with a single sail it is the diagram of this sail. There are as many names as diagrams. symmetrize keeps the sails, their names and their order and symmetrises the diagram of each sail; the result is symmetric if the symmetrised diagrams of the sails are; it fails exactly if it fails for one of the sails. Printing shows the name and the diagram of each sail in order.", "quantifier": "all lists of sails and names, all diagrams of the sails, all winds", "why_tests_cant": "The claims quantify over all lists of sails of any length and any diagrams in them; tests use two or three fixed sails.", "anchors": ["hrosailing/polardiagram/_polardiagrammultisails.py:50-91", "hrosailing/polardiagram/_polardiagrammultisails.py:99-100", "hrosailing/polardiagram/_polardiagrammultisails.py:206-219"]}
{"id": "C129", "title": "Looking at data", "statement": "A name is in a Data object iff it is one of its keys, iff its column and its type can be asked for; asking for the column or the type of any other name raises KeyError. n_cols is the number of names and the number of entries of every row. Printing never fails and gives one block for each column in the order of the keys; the printed text of a table with less than ten rows determines the names, types and all entries, and of longer columns it shows exactly the first five and the last five entries.", "quantifier": "all Data objects reachable by the public operations, all names, all texts of entries which can be told apart where the list goes on", "why_tests_cant": "The claim that the text determines the table compares all pairs of tables, for all values; tests print single tables.", "anchors": ["hrosailing/core/data.py:67-72", "hrosailing/core/data.py:137-148", "hrosailing/core/data.py:538-540", "hrosailing/core/data.py:556-577"]}
{"id": "C130", "title": "Errors of measurement are not magnified", "statement": "If every measured boat speed is replaced by one at least as high, no interpolated speed gets lower; if every measured boat speed is changed by at most d, then every interpolated speed changes by at most d. This holds for IDWInterpolator, ImprovedIDWInterpolator, BilinearGridInterpolator and ArithmeticMeanInterpolator (the second part for factors s of at most one), and for all entries of tables made from the two data sets with the same winds and weights.", "quantifier": "all pairs of data sets with the same winds, all winds, norms, exponents, distributions, neighbourhoods and resolutions", "why_tests_cant": "The claims compare all pairs of data sets with arbitrary errors in all measurements at once.", "anchors": ["hrosailing/processing/interpolator.py:100-133", "hrosailing/processing/interpolator.py:222-250", "hrosailing/processing/interpolator.py:287-317", "hrosailing/processing/interpolator.py:505-624", "hrosailing/pipeline/extensions.py:90-120", "hrosailing/pipeline/extensions.py:330-359"]}
{"id": "C131", "title": "Interpolated speeds are local", "statement": "The value an extension assigns to a wind depends only on the measurements in its neighbourhood: adding, removing or changing measurements outside of it changes nothing, wherever they are in the data. For Ball these are the measurements with a distance of more than the radius; for ScalingBall a measurement further away than min_pts others has no effect. Entries of tables with given winds agree wherever the measurements nearby agree.", "quantifier": "all data sets, winds, norms, radii, interpolators", "why_tests_cant": "The claim is about all pairs of data sets agreeing in a neighbourhood; a ScalingBall selects its radius from all data, so an inserted point could influence which others are used.", "anchors": ["hrosailing/pipeline/extensions.py:341-363", "hrosailing/processing/neighbourhood.py:81-102", "hrosailing/processing/neighbourhood.py:149-177", "hrosailing/core/data.py:629-638"]}
{"id": "C132", "title": "Detours do not pay", "statement": "Whenever the courses recommended by convex_direction add up to the requested direction, they make good at least the speed of the diagram in this direction; sailing from A to B and from B to C on the recommended courses never takes less time than sailing from A to C on the recommended courses; and for a boat which is nowhere slower the recommended courses make good at least the same speed.", "quantifier": "all diagrams with increasing angles whose velocities surround the origin, all directions and lengths of legs", "why_tests_cant": "The claims compare recommendations for all triples of directions and all pairs of diagrams; tests check single recommendations.", "anchors": ["hrosailing/cruising/basics.py:95-160"]}
{"id": "C133", "title": "isochrone approximates the way really sailed", "statement": "If the speed of the boat stays between two positive bounds and changes steadily with distance and time, then isochrone returns, and the distance returned differs from the one sailed in total_time by at most a bound proportional to 1 / (min_nodes - 1): with sufficiently many nodes the result is as exact as desired.", "quantifier": "all speeds depending on place and time, all time budgets, all numbers of nodes of at least two", "why_tests_cant": "An error bound for all speeds cannot be observed: tests would need the exact way for each weather, and the step size is chosen anew in each restart.", "anchors": ["hrosailing/cruising/basics.py:441-479", "hrosailing/cruising/basics.py:502-522"]}
{"id": "C134", "title": "More speed and more time lead further", "statement": "The distance returned by isochrone is not smaller for a boat which is nowhere and never slower, and not smaller for a longer total_time.", "quantifier": "all pairs of boats, all pairs of time budgets, all numbers of nodes", "why_tests_cant": "The claim compares all pairs of runs, whose step sizes differ from each other.", "anchors": ["hrosailing/cruising/basics.py:441-479", "hrosailing/cruising/basics.py:502-522"]}
{"id": "C135", "title": "The enclosing circle of the spiral samplers is the smallest one", "statement": "The circle around the data which FibonacciSampler and ArchimedeanSampler use is found after finitely many steps, contains all data, is not larger than any other circle which does, and does not depend on the order into which the data are shuffled, provided that the tolerance is smaller than the gaps between the data and the circles through one, two or three of them; for each set of data all sufficiently small tolerances are.", "quantifier": "all finite sets of points in the plane, all shuffles, all sufficiently small tolerances", "why_tests_cant": "Neither termination nor minimality for all sets of points can be tested: the loop goes back to the beginning whenever the circle grows, and no oracle for the smallest circle exists in the tests.", "anchors": ["hrosailing/processing/sampler.py:278-307", "hrosailing/processing/sampler.py:310-344"]}
{"id": "C136", "title": "The spiral samplers return the requested number of points", "statement": "The midpoint of the smallest enclosing circle lies in the convex hull of the data. If it is not on the boundary of the hull, and no two points of the spiral leave the hull at the same scale, then FibonacciSampler and ArchimedeanSampler return, after finitely many steps of the search for the scale, exactly the requested number of points, whichever way the data are shuffled. For squares these hypotheses hold for all but finitely many slopes of the sides, if the square is large enough compared with the tolerance of the enclosing circle.", "quantifier": "all finite sets of points with a hull of positive area and gaps larger than the tolerance, all positive numbers of samples, all shuffles", "why_tests_cant": "The search for the scale has no bound on its number of rounds; tests can only show that it ended for the data tried, and for data with ties it does not end (C30).", "anchors": ["hrosailing/processing/sampler.py:125-166", "hrosailing/processing/sampler.py:195-237", "hrosailing/processing/sampler.py:240-275"]}
{"id": "C137", "title": "cost_cruise approximates the documented integral", "statement": "The cost returned by cost_cruise differs from the documented value - the absolute cost at the arrival plus the integral of the cost density along the way, with the time at which the boat is at each place - by at most a bound proportional to the largest gap between the distances the solver returns and to the largest error of its times. It converges to the documented value for all continuous densities when gaps and errors go to zero.", "quantifier": "all continuous densities, all solver outputs with gaps at most h and time errors at most delta", "why_tests_cant": "Convergence for all densities is an analytic statement; tests compare single numbers with a tolerance.", "anchors": ["hrosailing/cruising/basics.py:266-387"]}
{"id": "C138", "title": "UniformRandomSampler returns independent, uniformly distributed points", "statement": "If the numbers of the random generator are independent and uniformly distributed in [0, 1), and the convex hull of the given points has positive area, then UniformRandomSampler returns with probability one, and the n points it returns are independent and uniformly distributed in the convex hull: for all sets B1, ..., Bn the probability that the i-th point is in Bi for all i is the product of their shares in the area of the hull.", "quantifier": "all finite sets of points whose hull has positive area, all numbers of samples, all measurable sets", "why_tests_cant": "A statement on a probability distribution: tests can only draw samples. In each round only as many winds are drawn as are still missing, so that later draws depend on earlier ones; that this does not distort the distribution needs a proof.", "anchors": ["hrosailing/processing/sampler.py:57-90", "hrosailing/processing/sampler.py:93-96"]}
{"id": "C139", "title": "Fuzzy statements are ordinary statements with blurred borders", "statement": "Read a fuzzy statement built from <, <=, >, >=, &, |, ~, subscripts and sigmoids as the ordinary statement with the same text. For values at distance at least d > 0 from the borders of all its comparisons, and sharpness at least s > 0, its truth value differs from 1 (if the ordinary statement holds) or from 0 (if it does not) by at most 1/(1 + exp(s * d)); in particular it is more than half true iff the ordinary statement holds, and it converges to the truth value as the sharpness grows. At the border of a comparison it is exactly half true.", "quantifier": "all fuzzy statements of any depth, all values away from the borders, all sharpnesses", "why_tests_cant": "The statements are built recursively by users without bound, and values and sharpness are real numbers; how errors in parts add up in the whole is the question, and tests can only try some formulas.", "anchors": ["hrosailing/processing/weigher.py:583-857"]}
{"id": "C140", "title": "With dense measurements the extensions find the true speeds", "statement": "Let the measurements be values of a function of the wind with errors of at most del, and let this function change by at most L times the distance. With ArithmeticMeanInterpolator (factor 1), IDWInterpolator or ImprovedIDWInterpolator, the speed which the extensions assign to a wind with measurements in its neighbourhood differs from the true one by at most L * r + del, where r is the radius of the Ball, or any distance within which there are at least as many measurements as a ScalingBall holds. So with ScalingBall the errors go down to those of the measurements as these get dense. All entries of a table with measurements in their neighbourhood have this accuracy.", "quantifier": "all true speed functions, data sets of any size with bounded errors, winds, radii, all norms and positive distributions", "why_tests_cant": "Speaks about all data sets of any size and about a limit; no finite number of runs shows that the computed diagram converges to the true one.", "anchors": ["hrosailing/pipeline/extensions.py:90-120", "hrosailing/pipeline/extensions.py:330-359", "hrosailing/processing/interpolator.py:53-319", "hrosailing/processing/neighbourhood.py:43-177"]}
{"id": "C141", "title": "FibonacciSampler fills the convex hull evenly", "statement": "Let the given points span a convex hull of positive area, and let them be spread more than the tolerance of the search for the enclosing circle. For every region whose boundary has area zero (for instance every convex region), the share of the n samples of FibonacciSampler that lie in the region converges to the share of the region in the area of the convex hull as n grows: for every eps > 0 the difference is at most eps for all sufficiently large n, for every sample that is returned, however the points are shuffled.", "quantifier": "all point sets with the stated spread, all regions with negligible boundary, all shuffles, all sufficiently large numbers of samples", "why_tests_cant": "A statement about a limit, about all regions and about a scale found by a search; a test can look at single samples and single regions only, and for no single n is any deviation impossible.", "anchors": ["hrosailing/processing/sampler.py:99-166", "hrosailing/processing/sampler.py:240-307"]}
{"id": "C142", "title": "ArchimedeanSampler fills the convex hull evenly", "statement": "The same is true of ArchimedeanSampler: although its samples follow a spiral with steps 8/(beta + 2) of the angle, the share of the n samples in any region with negligible boundary converges to the share of the region in the area of the convex hull.", "quantifier": "all point sets with the stated spread, all regions with negligible boundary, all shuffles, all sufficiently large numbers of samples", "why_tests_cant": "A statement about a limit and about all regions; the angles are given by a recursion without closed form, so that no finite number of samples shows that no direction is preferred in the long run.", "anchors": ["hrosailing/processing/sampler.py:169-237", "hrosailing/processing/sampler.py:240-307"]}
{"id": "C143", "title": "Reading a table between its entries approximates the tabulated speeds", "statement": "Let the entries of a PolarDiagramTable be boat speeds up to errors of at most delta, where the boat speed changes by at most L per unit of distance. Then calling the table with a wind gives the boat speed up to an error of at most delta at the winds of the table, and at other winds up to an error which goes down to delta as the table gets finer.", "quantifier": "all tables, all boat speeds with bounded slope, all winds", "why_tests_cant": "A bound for all tables and all functions and a limit for finer and finer tables; a test compares single values with single numbers and would have to guess the function.", "anchors": ["hrosailing/polardiagram/_polardiagramtable.py:247-301", "hrosailing/processing/interpolator.py:223-252"]}
{"id": "C144", "title": "The interpolated weather approximates the weather", "statement": "If the values stored in a GriddedWeatherModel are those of a weather that changes by at most Lt, Lla, Llo per unit of time, latitude and longitude, up to errors of at most delta, and neighbouring grid values differ by at most Dt, Dla, Dlo, then get_weather differs from the weather by at most Lt Dt + Lla Dla + Llo Dlo + delta at all points in the range of the grid; weather which is affine in time and position is reproduced exactly.", "quantifier": "all grids, all stored data, all weathers with bounded slopes, all points", "why_tests_cant": "A bound for all weathers and all grids, hence for the limit of finer grids; a test compares single points.", "anchors": ["hrosailing/models/weather_model.py:118-136", "hrosailing/models/weather_model.py:249-313"]}
{"id": "C145", "title": "The wind speeds and angles of a table with a step size, in double precision", "statement": "A PolarDiagramTable created with a step size s for the wind speeds (wind angles) has exactly the multiples of s below 40 (360) as wind speeds (wind angles), in ascending order, also in double precision arithmetic; so its entries can be looked up by these numbers. Step sizes that are not positive or too large are rejected with ValueError.", "quantifier": "all step sizes that are doubles", "why_tests_cant": "Rounding depends on the step size in an irregular way: some step sizes work, some fail at one multiple only, and tests try a few step sizes.", "anchors": ["hrosailing/polardiagram/_polardiagramtable.py:757-770", "hrosailing/polardiagram/_polardiagramtable.py:311-330"]}
{"id": "C146", "title": "Wind angles are normalised to the range from 0 to 360, in double precision", "statement": "Normalising a wind angle gives a wind angle from 0 (included) to 360 (excluded) which differs from the given one by a multiple of 360 up to rounding; whole degrees are normalised exactly.", "quantifier": "all wind angles that are doubles", "why_tests_cant": "The only exceptions are tiny negative angles which a test would have to know; for all others the claim is about all doubles.", "anchors": ["hrosailing/polardiagram/_polardiagramtable.py:753", "hrosailing/polardiagram/_polardiagramtable.py:781", "hrosailing/polardiagram/_polardiagrampointcloud.py:139"]}
{"id": "C147", "title": "Rounding hardly changes interpolated boat speeds", "statement": "Let the weights calculated by ArithmeticMeanInterpolator have relative errors of at most eta <= 1/8. Then for any n < 2^50 points with boat speeds of absolute value at most B and any order in which the sums are calculated, the interpolated value in double precision arithmetic differs from the exact weighted mean by at most 12 ((n + 1) 2^-53 + eta) B; so it leaves the range of the boat speeds by at most that.", "quantifier": "all point sets, all winds that are not stored, all orders of summation, all rounding errors of the weights", "why_tests_cant": "Rounding errors depend on all bits of all inputs and on the order of summation chosen by numpy; a test sees only single combinations.", "anchors": ["hrosailing/processing/interpolator.py:223-252"]}
{"id": "C148", "title": "isochrone also returns when it calculates with doubles", "statement": "Calculating in double precision, isochrone returns for every positive total_time if the time per distance stays between positive bounds a <= b with 32*min_nodes*b <= 2^53*a and 3*min_nodes <= 2^53*a (for example all speeds between 1/1000 and 1000 knots and up to a million nodes): rounding cannot make the time stand still or the restarts go on forever. The distance returned uses up total_time according to the step-wise accounting, up to 6*2^-53 times the quantities of the last formula, with at least min_nodes steps.", "quantifier": "all positive budgets, step numbers and bounded time-per-distance functions, all rounding errors", "why_tests_cant": "Whether a loop over rounded numbers ends depends on every intermediate rounding.", "anchors": ["hrosailing/cruising/basics.py:isochrone"]}
{"id": "C149", "title": "The text of a printed table can be read", "statement": "The characters of str(pd) of a PolarDiagramTable with boat speeds between 0 and 999 form lines of equal length: a header, a line of plus signs and one line for each wind angle. The words of a line are exactly the numbers (and dots) to be shown, wind speeds and angles rounded to one digit, boat speeds to two digits, and the columns are aligned with their headers, also in abbreviated tables. Two tables with at most 15 wind speeds and numbers with so many digits that are printed in the same way are equal.", "quantifier": "all tables of any size with boat speeds between 0 and 999", "why_tests_cant": "All texts and column widths; tests compare a few printed tables.", "anchors": ["hrosailing/polardiagram/_polardiagramtable.py:PolarDiagramTable.__str__", "hrosailing/polardiagram/_polardiagramtable.py:PolarDiagramTable._create_short_table", "hrosailing/polardiagram/_polardiagramtable.py:PolarDiagramTable._create_long_table"]}
{"id": "C150", "title": "Symmetrised tables when angles are rounded", "statement": "Calculated with double precision numbers, symmetrize() of a table with wind angles between 0 and 180 gives a table in which the boat speed at each wind angle is unchanged and is also stored under the mirrored angle: reading the table at 360 - a, calculated by the user or written as a decimal number, gives the boat speed at a.", "quantifier": "all tables with sorted wind angles between 0 and 180 given as doubles", "why_tests_cant": "Depends on the rounding of every single angle; tests use whole degrees, where it is exact.", "anchors": ["hrosailing/polardiagram/_polardiagramtable.py:PolarDiagramTable.symmetrize", "hrosailing/polardiagram/_polardiagramtable.py:PolarDiagramTable.__getitem__"]}
{"id": "C151", "title": "Numbers in csv files are restored exactly", "statement": "Every double precision number written to a csv file by to_csv (with the digits that python prints) is read by from_csv as exactly the same number. So tables (in all four formats), point clouds with at least one point and curves of model functions are restored number by number, different tables have different files, and no number is written with more digits than needed.", "quantifier": "all tables, point clouds and parameters of doubles (of any size)", "why_tests_cant": "Round trips of a few numbers with two digits say nothing about the 2^64 doubles; the claim depends on 17 digits being enough and on every layout of the text.", "anchors": ["hrosailing/polardiagram/_polardiagramtable.py:PolarDiagramTable.to_csv", "hrosailing/polardiagram/_polardiagramtable.py:PolarDiagramTable.__from_csv__", "hrosailing/polardiagram/_polardiagrampointcloud.py:PolarDiagramPointcloud.to_csv", "hrosailing/polardiagram/_polardiagramcurve.py:PolarDiagramCurve.to_csv", "hrosailing/polardiagram/_reading.py:from_csv"]}
{"id": "C152", "title": "Interpolated weather in double precision", "statement": "Calculated in double precision, the weather which a gridded weather model returns differs from exact linear interpolation of the stored values by at most 40 * 2^-53 times the largest stored value, wherever the grid values lie (however close to each other or far from the origin), and exceptions are raised for exactly the same points. So between the grid values the calculated weather differs from the actual weather by at most the variation over one cell plus the error of the stored values plus this bound.", "quantifier": "all grids, all stored values, all points (inside or outside of the grid)", "why_tests_cant": "Rounding errors depend on the bits of all numbers involved; quotients of small differences could lose all digits, and tests only see the numbers they use and compare up to tolerances chosen by experience.", "anchors": ["hrosailing/models/weather_model.py:GriddedWeatherModel.get_weather", "hrosailing/models/weather_model.py:_recursive_affine_interpolation"]}
{"id": "C153", "title": "The table of the default pipeline approximates the boat", "statement": "If the boat speeds measured at the winds near a wind of the table are correct up to an error, the boat speed which the default pipeline (CylindricMeanWeigher, QuantileFilter, ZeroInjector, TableExtension) enters there differs from the true speed by at most that error plus the variation of the true speed over the neighbourhood used for interpolation.", "quantifier": "all measurements, all true speeds which vanish at the wind angles 0 and 360, all settings of the components", "why_tests_cant": "It relates the final table to an arbitrary unknown boat through weighing, filtering, injecting and interpolating; tests of the pipeline only compare with recorded outputs.", "anchors": ["hrosailing/pipeline/pipeline.py:PolarPipeline.execute", "hrosailing/pipeline/pipeline.py:_weigh_and_filter", "hrosailing/pipeline/extensions.py:TableExtension.process", "hrosailing/processing/filter.py:QuantileFilter.filter", "hrosailing/processing/weigher.py:CylindricMeanWeigher.weigh", "hrosailing/processing/injector.py:ZeroInjector.inject"]}
{"id": "C154", "title": "Weights of CylindricMeanWeigher in double precision", "statement": "With rounded arithmetic, CylindricMeanWeigher.weigh returns one weight between 0 and 1 for each point, smaller deviations from the mean give weights that are not smaller, and a measurement that agrees with all other measurements in its cylinder has weight 1.", "quantifier": "all points, norms and radii, all orders in which numpy may add, rounding after every operation", "why_tests_cant": "The mean of equal doubles can be another double, and then the standard deviation used as divisor is as small as the deviation itself; the tests use numbers for which everything is exact.", "anchors": ["hrosailing/processing/weigher.py:CylindricMeanWeigher.weigh", "hrosailing/processing/weigher.py:CylindricMeanWeigher._calculate_weight", "hrosailing/processing/weigher.py:_standard_deviation_of", "hrosailing/processing/weigher.py:_mean_of", "hrosailing/processing/weigher.py:_normalize"]}
{"id": "C155", "title": "QuantileFilter in double precision", "statement": "With rounded arithmetic, QuantileFilter(percent).filter(wts) keeps the same points as with exact numbers; in particular points of maximal weight are kept and the number of discarded points is the same.", "quantifier": "all percentages, all arrays of doubles", "why_tests_cant": "The position of the percentile and the interpolated threshold are rounded, and a single unit in the last place decides about points; tests use few weights and percentages for which this does not happen.", "anchors": ["hrosailing/processing/filter.py:QuantileFilter.filter", "hrosailing/processing/filter.py:QuantileFilter._calculate_quantile"]}
{"id": "C156", "title": "Inverse distance weighting in double precision", "statement": "With rounded arithmetic, IDWInterpolator().interpolate returns exactly the stored speed at a stored wind, and elsewhere a speed which differs from the exact weighted mean by at most a few units in the last place per measurement, so it leaves the range of the measured speeds by at most that.", "quantifier": "all measurements (up to 2^49), all winds, all orders of additions and fused operations", "why_tests_cant": "Distances, powers, sums and products are rounded, and the result depends on the order in which numpy adds; tests compare a few values with a tolerance chosen by hand.", "anchors": ["hrosailing/processing/interpolator.py:IDWInterpolator.interpolate", "hrosailing/core/computing.py:scaled_euclidean_norm", "hrosailing/core/computing.py:euclidean_norm", "hrosailing/core/computing.py:scaled_norm"]}
{"id": "C157", "title": "Bilinear interpolation keeps its promises in double precision", "statement": "With every arithmetic operation rounded to the nearest double, `BilinearGridInterpolator.interpolate` raises exactly the exceptions which exact arithmetic would raise, returns the stored speeds at the winds of the grid without any error, and elsewhere differs from the exact bilinear interpolant by at most 25 * 2^-53 times the largest speed. Faster speeds never make the result slower, speeds which are not negative never give a negative result, and the range of the speeds is left by at most the error bound (which does happen: 3 knots at all corners give 3.0000000000000004).", "quantifier": "for all data (grids or not, with repeated entries) and all winds", "why_tests_cant": "rounding errors depend on all bits of the winds and speeds; monotonicity and the sign of the result are statements about all pairs of data sets, of which tests see finitely many", "anchors": ["hrosailing/processing/interpolator.py:505-624"]}
{"id": "C158", "title": "Wind conversion in double precision", "statement": "Calculated with doubles, convert_apparent_wind_to_true and convert_true_wind_to_apparent return numbers for every wind whose exact converted speed is not zero. The converted wind speed has an error of at most (eps + 10 * 2^-53) (ws + |bsp|)^2 / w, where w is the exact converted speed and eps the accuracy of the cosine, the converted wind angle an error of at most 180 sqrt(2 (eps + 11 * 2^-53)) (ws + |bsp|) / w degrees plus the error of the arc cosine; the wind speed of a boat at rest and the boat speed in a calm are reproduced exactly.", "quantifier": "for all wind speeds, reduced wind angles and boat speeds and every mathematical library with the given accuracy", "why_tests_cant": "a negative argument of the square root caused by rounding appears only for nearly cancelling winds; sampled winds never show it, and the loss of accuracy near it is a statement about all winds", "anchors": ["hrosailing/core/computing.py:10-60"]}
{"id": "C159", "title": "Distances on the globe in double precision", "statement": "SphericalGlobe.distance, calculated with doubles, is a number for all pairs of places, differs from the exact distance by a small bound only (less than 5.1 metres for the default radius and accurate functions), does not depend on the order of the places, and is 0 (up to this bound) for equal places. SphericalGlobe.lat_lon of a projected place is never nan.", "quantifier": "all places with coordinates from -360 to 360 degrees, all radii > 0, all mathematical libraries of a given accuracy", "why_tests_cant": "Whether the argument of arccos exceeds 1 depends on the last bit of the rounded scalar product, which differs from place to place.", "anchors": ["hrosailing/models/globe_model.py:SphericalGlobe.distance", "hrosailing/models/globe_model.py:_angle", "hrosailing/models/globe_model.py:_on_ball"]}
{"id": "C160", "title": "Recommended courses are found in the slice", "statement": "cruise, calculated with doubles, finds the courses recommended by convex_direction among the wind angles of the slice and returns durations whose legs add up to the distance up to rounding; convex_direction supports every direction between the wind angles of the slice.", "quantifier": "all slices of polar diagrams, all headings and distances", "why_tests_cant": "convex_direction converts angles to radians and back, which changes the last bit of some angles (e.g. 15, 30, 60, 120 degrees) and not of others; tests use the others.", "anchors": ["hrosailing/cruising/basics.py:convex_direction", "hrosailing/cruising/basics.py:cruise"]}
{"id": "C161", "title": "Positions of NMEA sentences in double precision", "statement": "Reading a position of D degrees (at most 180) and m minutes (0 to 60) written as the number 100 D + m, the converted position, as calculated in double precision, differs from D + m / 60 by at most (3 D + 5) * 2^-53 (less than 10^-13 degrees, about ten nanometres): the degrees are split off exactly even next to a whole number of degrees. Positions stay between D and D + 1 degrees (so latitudes do not pass 90 and longitudes do not pass 180 degrees), the order of positions is kept and whole degrees are exact.", "quantifier": "all numbers of degrees up to 180 and all minutes between 0 and 60", "why_tests_cant": "Splitting off the degrees by rounding a rounded quotient goes wrong, if at all, only for isolated numbers next to whole degrees which tests with a few positions do not meet.", "anchors": ["hrosailing/processing/datahandler.py:360-364", "_from_nmea_format"]}
{"id": "C162", "title": "The affine smoother with rounding", "statement": "AffineSmoother, calculated with doubles, returns as many values as it got for time stamps in chronological order, keeps names, order and types of columns and the sign of values that are not negative; values stay between the least and the largest measured value and constant columns are unchanged. For time stamps and time spans in whole seconds the values are those of exact arithmetic up to 14 * 2^-53 of the largest absolute value.", "quantifier": "all tables with at least two rows, chronological time stamps and any time span", "why_tests_cant": "Whether mu * y + (1 - mu) * y is y depends on the last bits of mu and y; a test with one constant column usually shows no change.", "anchors": ["hrosailing/processing/smoother.py:AffineSmoother.smooth", "hrosailing/processing/smoother.py:194-198"]}
{"id": "C163", "title": "Wind speeds of slices with rounding", "statement": "get_slices with n_steps, calculated with doubles, gives slices for exactly the requested wind speeds with n_steps evenly spaced ones in between (up to 10 * 2^-53 of the larger speed), in ascending order and never outside the requested wind speeds; default slices include the least and the largest wind speed of a point cloud exactly, those of curves are exactly 5, 6, ..., 20, and the wind angles of slices start with 0 and end with 360 exactly. Wind speeds further apart than 20 * 2^-53 of the larger one per step give different slices.", "quantifier": "all lists of wind speeds, all numbers of steps below 2^50, all ranges of wind speeds", "why_tests_cant": "The order of the last two numbers and whether a number leaves the range depend on rounding for each pair of ends and each number of steps.", "anchors": ["hrosailing/polardiagram/_basepolardiagram.py:_get_windspeeds", "hrosailing/polardiagram/_polardiagrampointcloud.py:default_slices", "hrosailing/polardiagram/_polardiagramcurve.py:default_slices"]}
{"id": "C164", "title": "The heading of cruise with rounding", "statement": "The heading relative to the wind that cruise calculates with doubles from the course to the destination and the direction of the wind is a number from 0 to 180 degrees, less than a hundred thousandth of a degree from the exact one. If it is a number, cruise gives the result for this heading.", "quantifier": "all courses and wind directions, all functions sin, cos and arccos with the accuracy of common libraries", "why_tests_cant": "A course exactly with the wind gives an argument of arccos next to 1; whether it is above 1, so that the heading is nan, depends on the rounding of the sine and the cosine of that very course.", "anchors": ["hrosailing/cruising/basics.py:cruise", "hrosailing/cruising/basics.py:convex_direction"]}
{"id": "C165", "title": "The dimensions of variables of NetCDF files", "statement": "The dimensions NetCDFWeatherModel finds for a variable are those of the variable, in their order, so that the weather at a grid point is read from the entry for the time, latitude and longitude of this point.", "quantifier": "all variable descriptions of the form printed by netCDF4, all names and numbers of dimensions, all files", "why_tests_cant": "The dimensions are found by cutting up the printed description of the variable; which names and which numbers of dimensions survive this cannot be seen from files with the usual names.", "anchors": ["hrosailing/models/weather_model.py:NetCDFWeatherModel._get_dimensions", "hrosailing/models/weather_model.py:NetCDFWeatherModel._get_data"]}
{"id": "C166", "title": "Times written as text are read back", "statement": "A time written with a format containing year, month and day is read with the same format as the same time, with parts missing in the format set to zero. Hence a weather model with whole seconds is restored from its file, csv files with times in the default format are understood, and the start time of NetCDF files is read with minutes or with seconds. Whatever is read is a valid date.", "quantifier": "all dates from year 1000 to 9999, all formats made of the directives %d %m %Y %H %M %S %f and other characters, all weather models, all texts", "why_tests_cant": "The regular expression behind a format has several ways to match digits; that the first one is the written time for all times and formats, and which texts are rejected, is a question about all texts.", "anchors": ["hrosailing/models/weather_model.py:GriddedWeatherModel.from_file", "hrosailing/models/weather_model.py:GriddedWeatherModel.to_file", "hrosailing/models/weather_model.py:NetCDFWeatherModel.times", "hrosailing/processing/datahandler.py:CsvFileHandler._save_eval"]}
{"id": "C167", "title": "Representations of components", "statement": "repr works for every interpolator, weigher, neighbourhood, filter and polar diagram, shows the arguments the object was made with, and evaluating it gives an equal object.", "quantifier": "all components with all their parameters, all norms and sets of known names", "why_tests_cant": "Each class has its own text; whether the keywords are those of the constructor, whether the printed values are expressions and whether all parameters are shown has to be checked for all combinations of arguments.", "anchors": ["hrosailing/processing/interpolator.py:ShepardInterpolator.__repr__", "hrosailing/processing/weigher.py:CylindricMeanWeigher.__repr__", "hrosailing/processing/neighbourhood.py:Cuboid.__repr__", "hrosailing/processing/neighbourhood.py:Ellipsoid.__repr__", "hrosailing/processing/filter.py:BoundFilter.__repr__", "hrosailing/polardiagram/_polardiagramcurve.py:PolarDiagramCurve.__repr__"]}
{"id": "C168", "title": "Wind angle correction in double precision", "statement": "The wind angle correcting influence model calculates wind angles from 0 (included) to 360 (excluded) which are the exact ones up to rounding, and adding the correction to data it was removed from gives back the measured wind angles; whole degrees are handled exactly.", "quantifier": "all wind angles from 0 to 360, all corrections up to 360 degrees in absolute value, all lists of measurements, doubles with rounding to nearest", "why_tests_cant": "Whether two roundings and the wrap around at 360 keep the angle, and when exactly the excluded value 360 is returned, depends on the angles bit by bit; no sample of angles covers this.", "anchors": ["hrosailing/models/influencemodel.py:WindAngleCorrectingInfluenceModel.remove_influence", "hrosailing/models/influencemodel.py:WindAngleCorrectingInfluenceModel.add_influence"]}
{"id": "C169", "title": "Keyword arguments of plots", "statement": "Keyword arguments of plot and scatter that are not parameters of the projection reach matplotlib unchanged for every slice, the keywords in legend_kw reach the colorbar or legend, and the parameters documented for one projection work for those documented as identical; plot_polar, scatter_3d and the other functions use the projection and method of their name.", "quantifier": "all dictionaries of keyword arguments with any values, all numbers of slices, all sets of keywords known by matplotlib", "why_tests_cant": "Names of keywords may coincide with parameters of any function on the way to matplotlib; a test uses a few keywords.", "anchors": ["hrosailing/plotting/projections.py:_configure_axes", "hrosailing/plotting/projections.py:_check_plot_kw", "hrosailing/plotting/projections.py:_configure_legend", "hrosailing/plotting/projections.py:_plot", "hrosailing/plotting/projections.py:Axes3D.scatter", "hrosailing/plotting/projections.py:HROColorGradient.scatter"]}
{"id": "C170", "title": "Tables remember what was written last", "statement": "After any sequence of calls of change_entries, successful or not, a table returns for each of its winds the value written last, or the original one; changes of different entries commute, writing back a value changes nothing, changing several entries at once is the same as changing them one after the other, and the winds of the table never change.", "quantifier": "all tables with distinct winds, all finite sequences of changes with any winds, shapes and values", "why_tests_cant": "The effect of a sequence of calls depends on all of them; tests look at single calls.", "anchors": ["hrosailing/polardiagram/_polardiagramtable.py:PolarDiagramTable.change_entries", "hrosailing/polardiagram/_polardiagramtable.py:PolarDiagramTable.__getitem__", "hrosailing/polardiagram/_polardiagramtable.py:PolarDiagramTable._get_indices"]}
{"id": "C171", "title": "Point clouds are bags of points", "statement": "After any sequence of calls of add_points and symmetrize, successful or not, a point cloud still contains its old points in front and in order, followed by exactly the points of the successful calls; pd(ws, wa) at a stored wind is the speed that was added first and never changes; the order of the calls influences neither the winds nor the slices, nor the speeds at stored winds if the same wind always comes with the same speed; adding and symmetrising commute if the mirrored points are added as well; symmetrising twice doubles every point but changes no winds.", "quantifier": "all point clouds, interpolators and neighbourhoods, all finite sequences of calls with any points", "why_tests_cant": "The effect of a sequence of calls depends on all of them; tests look at single calls.", "anchors": ["hrosailing/polardiagram/_polardiagrampointcloud.py:PolarDiagramPointcloud.add_points", "hrosailing/polardiagram/_polardiagrampointcloud.py:PolarDiagramPointcloud.symmetrize", "hrosailing/polardiagram/_polardiagrampointcloud.py:PolarDiagramPointcloud.__call__"]}
{"id": "C172", "title": "Neighbourhoods in double precision", "statement": "Rounding of the differences to the grid point, of products, sums and roots does not change which measurements are in a neighbourhood: a cuboid around a grid point holds exactly the measurements whose winds differ from it by at most the given sides, e.g. the wind speeds from 7.95 to 8.05 around 8 for Cuboid(), the default polytope holds the same ones, measurements on opposite sides of the grid point are treated in the same way, and balls hold the measurements up to a relative error of 7 * 2^-53 in the radius.", "quantifier": "all grid points and measurements that are doubles, all sides and radii; all measurements written in decimal digits", "why_tests_cant": "Membership at the border depends on the last bit; tests use points well inside or outside.", "anchors": ["hrosailing/processing/neighbourhood.py:Cuboid.is_contained_in", "hrosailing/processing/neighbourhood.py:Polytope.is_contained_in", "hrosailing/processing/neighbourhood.py:Ball.is_contained_in", "hrosailing/pipeline/extensions.py:_interpolate_point"]}
{"id": "C173", "title": "isochrone and cost_cruise agree", "statement": "If isochrone says that the boat gets from the start to a place in total_time hours, then cost_cruise says that sailing from the start to this place takes total_time hours, up to an error that vanishes with more nodes: both use the same distance, pass the same places in the same order and calculate with the same heading and the same time per distance.", "quantifier": "all starts, directions, distances, budgets and numbers of nodes; all boats with speeds bounded away from zero and infinity and Lipschitz in place and time", "why_tests_cant": "The two functions are tested separately, with single weathers and boats; their agreement is a statement about the exact solution of a differential equation.", "anchors": ["hrosailing/cruising/basics.py:isochrone", "hrosailing/cruising/basics.py:cost_cruise", "hrosailing/cruising/basics.py:_right_handing_course", "hrosailing/cruising/basics.py:_get_inverse_bsp"]}
{"id": "C174", "title": "Parameters of the given model functions", "statement": "LeastSquareRegressor without initial values fits exactly as many parameters as a given model function (ws_concave_dt_wa, ws_wa_s_dt, ws_s_dt_wa_gauss, ws_s_s_dt_wa_gauss_comb, ws_s_wa_gauss, ws_s_wa_gauss_and_square) reads; each of them influences the function; different parameters describe different functions, so that fitted parameters can be compared.", "quantifier": "all six functions, all lists of parameters of any length, all winds", "why_tests_cant": "A test evaluates the functions for single parameters and winds; whether a parameter can be left out, or whether two lists of parameters describe the same function, is a statement about all winds.", "anchors": ["hrosailing/core/modelfunctions/__init__.py:ws_s_wa_gauss", "hrosailing/core/modelfunctions/__init__.py:ws_concave_dt_wa", "hrosailing/core/modelfunctions/_models2d.py:gaussian_model", "hrosailing/processing/regressor.py:_determine_params"]}
{"id": "C175", "title": "Distances on the map", "statement": "The distance cost_cruise measures between two places is symmetric, obeys the triangle inequality, is zero for the same place only, does not change when the globe is turned about its axis, and a degree of the equator counts as much as a degree of the meridian through it.", "quantifier": "all pairs of places", "why_tests_cant": "The places of tests are few and near each other; the distance is a function of two real pairs, and its errors depend on the longitude of the places.", "anchors": ["hrosailing/cruising/basics.py:346-349", "hrosailing/cruising/basics.py:482-497"]}
{"id": "C176", "title": "A Data object behaves as a sheet of records under every history of operations", "statement": "Take a list of records with named fields and the obvious operations on it: appending the records written in a dictionary (update), the same but writing the first of them into the last present record if that has nothing in the given fields (update with compress=True), renaming a field, removing a field, removing listed records, keeping the records marked by a mask, keeping listed fields. Every sequence of update, rename, delete and subscript calls on Data objects does the same as the sequence of these operations: each call succeeds exactly if the operation on the records does (update: all values of each given column have one type; rename: equal names, or the old one is present and the new one is not; delete: the column is present), the names of the columns in order, n_rows, every column and rows() are those of the records, and otherwise the same exception (ValueError or KeyError) is raised. update with another Data object with columns appends its records.", "quantifier": "All sequences of operations of any length starting with an empty object, all dictionaries with distinct keys, all masks, all lists of distinct present row numbers, all non-empty lists of names.", "why_tests_cant": "Unit tests look at single calls on small tables; the claim is a simulation between the columns with padding, recorded types and a stored length, and a list of records, over all interleavings of calls.", "anchors": ["hrosailing/core/data.py:150-327", "hrosailing/core/data.py:429-443", "hrosailing/core/data.py:493-561"]}
{"id": "C177", "title": "Measurements which are not numbers", "statement": "A measurement (a row of an array) containing nan is ignored by weighers, filters, neighbourhoods and interpolators, and the weights and results of the other measurements are what they are without it: in particular the default pipeline yields a table from data with missing values as long as some measurement is complete.", "quantifier": "for all lists of points with arbitrary missing values, weights, norms, radii and percentages", "why_tests_cant": "A single nan spreads through maxima, percentiles, sums and sorting, depending on the component and on its position; tests with complete data never show it.", "anchors": ["hrosailing/processing/weigher.py:288-339", "hrosailing/processing/weigher.py:425-451", "hrosailing/processing/weigher.py:515-546", "hrosailing/processing/filter.py:86-157", "hrosailing/processing/neighbourhood.py:98-175", "hrosailing/processing/interpolator.py:100-134", "hrosailing/pipeline/pipeline.py:319-327", "hrosailing/pipeline/pipeline.py:542-568"]}
{"id": "C178", "title": "Distances on the map and on the globe", "statement": "The distance FlatMercatorProjection gives for two places is never shorter than the distance SphericalGlobe gives for them with the same radius, whatever the virtual north pole is (with the virtual zero point on the virtual equator); both agree exactly for the same place and for places on the virtual equator at most half a turn apart; along a meridian the map enlarges by the secant of a latitude between the places.", "quantifier": "all pairs of places that are not virtual poles", "why_tests_cant": "An inequality between real functions of four variables; tests compare few distances, and the two globes are never compared.", "anchors": ["hrosailing/models/globe_model.py:FlatMercatorProjection.distance", "hrosailing/models/globe_model.py:SphericalGlobe.distance"]}
{"id": "C179", "title": "Small errors of the polar diagram give small errors of plans", "statement": "If two polar diagrams differ by at most delta, the speed made good on the courses recommended by convex_direction differs by the factor 1 + delta / r at most, where r is a speed the boats make good in every direction; the distances of isochrone differ by at most delta T exp(L T) beside the error of its steps; the default cost of cost_cruise differs by at most delta / (lo lo') s exp(L s / lo^2) beside the error of the solver; and the times returned by cruise are close, too.", "quantifier": "all slices and diagrams, speeds, directions, distances and times", "why_tests_cant": "Sensitivity is a statement about all pairs of nearby inputs; tests compare single results for single diagrams.", "anchors": ["hrosailing/cruising/basics.py:45-160", "hrosailing/cruising/basics.py:163-265", "hrosailing/cruising/basics.py:268-387", "hrosailing/cruising/basics.py:390-487"]}
{"id": "C180", "title": "Filled time stamps are whole microseconds in order", "statement": "FillLocalImputator, with time stamps and time spans in whole microseconds and quotients in double precision, fills exactly the time stamps that exact arithmetic would fill, keeps the given ones, and fills in stamps which lie between the given neighbours, keep the chronological order, differ from the affine interpolation by at most half a microsecond plus 2^-53 of max_time_diff, and are equal to it if it is a whole number of microseconds. The relative positions given to the fill functions are numbers from 0 to 1. The result has complete rows in chronological order, with all given stamps and values of the rows that are kept.", "quantifier": "for all columns of time stamps in chronological order (with missing ones), all time spans, tables and fill functions", "why_tests_cant": "the products of doubles and time spans round in both steps; examples show no order violations, but whether any sequence of stamps leads to one is a statement about all quotients and spans", "anchors": ["hrosailing/processing/imputator.py:144-206", "hrosailing/processing/imputator.py:245-305"]}
{"id": "C181", "title": "Weights of CylindricMemberWeigher in double precision", "statement": "In double precision, CylindricMemberWeigher counts every point of the cylinder (a point is counted only if its value differs by at most length times 1 + 2^-52; exactly the points of the cylinder are counted for values within a factor of two), membership is symmetric if the norm is, and the weights are numbers from 0 to 1, one per point, ordered exactly like the numbers of points in the cylinders (different numbers give different weights), with weight 1 for the points with most neighbours unless all points are alone (all weights are 0 then), and within 2^-53 of the exactly computed weights.", "quantifier": "for all non-empty lists of up to 2^51 points, all norms (as functions of the difference), radii, and lengths that are nonnegative doubles", "why_tests_cant": "that rounded quotients of different counts are always different is a statement about all pairs of integers; tests see only the counts of their data", "anchors": ["hrosailing/processing/weigher.py:425-451"]}
{"id": "C182", "title": "ZeroInjector in double precision", "statement": "In double precision, ZeroInjector(n).inject returns 2n points: n wind speeds with wind angle 0 and the same with wind angle 360, all with boat speed 0 and weight 1. The wind speeds are in ascending order, begin exactly with the smallest and end exactly with the largest wind speed of the given points, all lie between both, and differ from equidistant ones by at most 10 * 2^-53 times the largest one. It raises the same exceptions for the same inputs as in exact arithmetic.", "quantifier": "for all arrays of points with wind speeds that are doubles, and all numbers n up to 2^50", "why_tests_cant": "the bounds of linspace in double precision (last value exact, no value beyond the end) depend on the rounding of all products and sums", "anchors": ["hrosailing/processing/injector.py:61-110"]}
{"id": "C183", "title": "Standard deviations and fluctuation weights in double precision", "statement": "np.std of n values, computed in double precision in any order of summation, differs from the exact standard deviation by at most 2(n+5) roundings of it plus 4(n+1) roundings of the largest absolute value. The weights of FluctuationWeigher are numbers from 0 to 1, one per row; each differs from the exact weight by at most the sum over the attributes of 8(n+2) roundings of the largest absolute value divided by the upper bound, plus 4 roundings. The weight is 0 exactly if a computed deviation reaches its bound, larger deviations never give a larger weight, and equal values with few bits have deviation 0 and do not reduce the weight. (A rounding is the factor 2^-53.)", "quantifier": "for all tables with fewer than 2^50 rows, all time spans, attributes that are columns, positive bounds that are doubles, and all orders of summation", "why_tests_cant": "numpy's summation order depends on the number of values and the processor; tests see particular roundings, not a bound for all of them", "anchors": ["hrosailing/processing/weigher.py:515-546"]}
{"id": "C184", "title": "Search for the scale of a spiral in double precision", "statement": "Calculated in double precision, the search of FibonacciSampler and ArchimedeanSampler for the scale of the spiral returns exactly n_samples points exactly if some double is a scale for which that many points are found in the hull, provided that the number of points does not increase with the scale, as is the case for data whose hull is a rectangle with sides parallel to the axes; otherwise it never returns. There are spirals for which the search with exact numbers returns but the search in double precision does not.", "quantifier": "all numbers of samples, all spirals, all positive doubles as start of the search", "why_tests_cant": "whether a bisection of doubles hits a scale depends on all doubles between two bounds; tests that hang are not informative", "anchors": ["hrosailing/processing/sampler.py:240-275"]}
{"id": "C185", "title": "Fuzzy statements on arrays", "statement": "Calling a FuzzyBool with an array returns the truth value of every entry, as calling it with the entries one by one does, whatever comparisons, `&`, `|`, `~` and `==` it is built of; a FuzzyWeigher on points with several components takes all of them into account.", "quantifier": "all statements, all arrays of dimension one", "why_tests_cant": "Statements can be nested arbitrarily; whether an error is raised or entries are ignored depends on where the operators occur in the statement and on the length of the array.", "anchors": ["hrosailing/processing/weigher.py:FuzzyBool", "hrosailing/processing/weigher.py:FuzzyWeigher.weigh"]}
{"id": "C186", "title": "The cost of a cruise in double precision", "statement": "cost_cruise evaluates the cost density at places which move from the start towards the end in the order of the distances, begin exactly at the start, reach the end up to the rounding of two operations and lie on the way up to rounding; the integral of costs which are not negative is not negative and has a relative error of at most 2 (n + 3) 2^-53 for n nodes compared with the trapezoidal rule, whatever the order in which numpy adds; the result is the rounded sum with the absolute cost.", "quantifier": "all starts, ends, solutions of the initial value problem, cost functions and orders of summation", "why_tests_cant": "The errors depend on all the intermediate roundings and on the order of the additions, which numpy chooses according to the processor; tests compare few values with a tolerance.", "anchors": ["hrosailing/cruising/basics.py:cost_cruise"]}
{"id": "C187", "title": "The times during a cruise", "statement": "cost_cruise and the solver of the cruise look up the weather at start_time + timedelta(hours=t), a whole number of microseconds. Later points of the way never have earlier times, the times begin at the start, points more than a microsecond apart have different times, the error is at most half a microsecond (apart from 2^-21 microseconds of rounding), numbers of hours which are whole microseconds are converted exactly, and the double nearest to a number of microseconds is converted to this number for about 35 years. A time is refused exactly if it leaves the range of datetime or timedelta.", "quantifier": "for all starts and all numbers of hours given as doubles, of any sign and size", "why_tests_cant": "The order of the times and the bound of the error concern all doubles; tests use a few round numbers, for which there is no rounding at all.", "anchors": ["hrosailing/cruising/basics.py:380", "hrosailing/cruising/basics.py:505"]}
{"id": "C188", "title": "Weighted points are lists of pairs under every history", "statement": "After any sequence of masks and extensions, with or without exceptions in between, a WeightedPoints object made of an array or a dictionary holds exactly the pairs of a point and its weight that one gets by doing the same with a list of pairs. Exactly the masks of a wrong length are refused, with IndexError; a statement that raises changes nothing; pairs are never invented, reordered or combined with other weights.", "quantifier": "for all weighted points, all sequences of masks and extensions of any length, all weights", "why_tests_cant": "The pairing of points and weights is an invariant of arbitrarily long histories, including statements that fail half way; unit tests check single calls.", "anchors": ["hrosailing/core/data.py:629-638", "hrosailing/core/data.py:640-665"]}
{"id": "C189", "title": "Files may be used at any time of a session", "statement": "Writing a table to a csv file in any of the four formats and reading it again can be done as often and at whatever times one likes during a session of calls of `change_entries` and `symmetrize` (successful, refused or repeated): reading never raises and the final table is the one of the session without files. The same holds for point clouds with at least one point, and for the decimal notation of doubles.", "quantifier": "all tables made from given winds and speeds, all sequences of steps, all formats; all point clouds with at least one point", "why_tests_cant": "Tests write one table after its construction; they can not try files at all positions of all sequences of changes, in particular on tables symmetrised twice, which contain angles several times.", "anchors": ["hrosailing/polardiagram/_polardiagramtable.py:430-661", "hrosailing/polardiagram/_polardiagrampointcloud.py:244-326", "hrosailing/polardiagram/_reading.py:70-143"]}
{"id": "C190", "title": "Symmetrising tables with angles on both sides", "statement": "PolarDiagramTable.symmetrize never raises and neither loses nor invents boat speeds: the new table consists of the points of the table and of the mirror images of the points off the 0-180 axis. Every angle occurs once in it, so that each boat speed can be looked up at its angle and at the mirrored angle, exactly if no angle off the axis is in the table together with its mirror image (all angles on the right, all on the left, or mixed). Otherwise, in particular after symmetrising twice, looking up such an angle raises TypeError.", "quantifier": "all tables with distinct angles in [0,360), at least one wind speed and angle", "why_tests_cant": "The known tests symmetrise tables with angles up to 180; angles on the left side, mixed sides and repeated symmetrisation can occur in every combination with 0 and 180.", "anchors": ["hrosailing/polardiagram/_polardiagramtable.py:PolarDiagramTable.symmetrize", "hrosailing/polardiagram/_polardiagramtable.py:808-817"]}
{"id": "C191", "title": "Symmetrised curves are means of both sides", "statement": "PolarDiagramCurve.symmetrize() (functions of degrees) replaces the boat speed by the mean of both sides: its values lie between those of the two sides, also when calculated with doubles; symmetrising twice is the same as symmetrising once; exactly the symmetric curves stay as they are; a curve which is nowhere slower than another one is so after symmetrising. With doubles the values at an angle and at its mirror image are the same number if the angle has at most 44 binary digits after the point.", "quantifier": "all functions of wind speed and angle, all winds", "why_tests_cant": "Functions are arbitrary, and rounding of the mirrored angle depends on its binary digits.", "anchors": ["hrosailing/polardiagram/_polardiagramcurve.py:PolarDiagramCurve.symmetrize"]}
{"id": "C192", "title": "Improved inverse distance weighting in double precision", "statement": "With every operation rounded and sums calculated in any order, ImprovedIDWInterpolator().interpolate returns exactly the measured speed at a measured wind. Elsewhere the result is nan exactly if all calculated distances are the same number (in particular for a single measurement); otherwise it is a number that leaves the range of the n measured speeds by at most 14 n 2^-53 times the largest of them. Without measurements ValueError is raised.", "quantifier": "all measurements (up to 2^49), all winds, all orders of additions and fused operations", "why_tests_cant": "The weights are quotients, differences close to zero and squares of rounded numbers; whether their sum can become zero by rounding is a question about all pairs of doubles.", "anchors": ["hrosailing/processing/interpolator.py:ImprovedIDWInterpolator.interpolate", "hrosailing/processing/interpolator.py:_set_weights"]}
{"id": "C193", "title": "Directories of diagrams", "statement": "After any sequence of calls of to_csv for diagrams with one or several sails, from_csv(path) gives what was saved last at path, and a path where nothing was saved gives what it gave before; the order of calls for different paths does not matter.", "quantifier": "all sequences of diagrams and paths", "why_tests_cant": "The diagrams of the sails are saved in further files whose names are derived from the path; interference depends on all names used in a directory, tests write a single diagram.", "anchors": ["hrosailing/polardiagram/_polardiagrammultisails.py:PolarDiagramMultiSails.to_csv", "hrosailing/polardiagram/_polardiagrammultisails.py:PolarDiagramMultiSails._get_sub_csv_path", "hrosailing/polardiagram/_reading.py:from_csv"]}
{"id": "C194", "title": "Tables made from data in double precision", "statement": "In double precision TableExtension with an ArithmeticMeanInterpolator makes a table from any data with nonnegative wind speeds; its winds are those of exact arithmetic; an entry is 0 without data nearby, the measured speed at a measured wind, and otherwise leaves the range of the speeds nearby by at most 12 (n + 1) / 2^53 of the largest, however exactly the weights are calculated and in whatever order numpy adds; no entry is negative if no speed is; if the same points are near and the weights have relative errors of at most eta, entries differ from those of exact arithmetic by at most 12 ((n + 1) / 2^53 + eta) of the largest speed.", "quantifier": "all data of fewer than 2^50 points, norms, radii and positive distributions, all orders of addition", "why_tests_cant": "Depends on the rounding of thousands of sums whose order numpy chooses; a test sees one order on one machine.", "anchors": ["hrosailing/pipeline/extensions.py:TableExtension.process", "hrosailing/processing/interpolator.py:ArithmeticMeanInterpolator.interpolate", "hrosailing/processing/neighbourhood.py:Ball.is_contained_in"]}
{"id": "C195", "title": "The default pipeline in double precision", "statement": "With all operations rounded to doubles and all sums in any order, the default components (CylindricMeanWeigher, QuantileFilter, ZeroInjector, TableExtension with Ball and ArithmeticMeanInterpolator) make a table from any nonempty data with nonnegative wind speeds: rounding never discards all points and no step divides by zero; the wind angles are 5, 10, ..., 355, the wind speeds those of the data up to rounding to integers; boat speeds leave the range of the measured ones and zero by at most 12 (n + 1) / 2^53 of the largest and are not negative if no measured one is.", "quantifier": "all data, settings, orders of addition and calculated exponentials", "why_tests_cant": "Composition of five rounded components; a test sees one order of additions on one machine and small data.", "anchors": ["hrosailing/pipeline/pipeline.py:PolarPipeline.__call__", "hrosailing/pipeline/extensions.py:TableExtension.process", "hrosailing/processing/filter.py:QuantileFilter.filter", "hrosailing/processing/injector.py:ZeroInjector.inject", "hrosailing/processing/weigher.py:CylindricMeanWeigher.weigh"]}
{"id": "C196", "title": "Tables made from data survive files", "statement": "Every table which TableExtension makes, for any wind resolution (also with repeated winds), neighbourhood and interpolator, is read from a csv file of any of the four formats exactly as it was written, and files can be used at any time between later changes and symmetrisations. In double precision with the decimal notation of doubles this holds for tables made with the ArithmeticMeanInterpolator and for those of the default pipeline.", "quantifier": "all data, resolutions, neighbourhoods, interpolators, formats, histories", "why_tests_cant": "Tests write the example tables only; a table made from data has entries from long calculations whose decimal texts must denote exactly the calculated doubles.", "anchors": ["hrosailing/pipeline/extensions.py:TableExtension.process", "hrosailing/pipeline/pipeline.py:PolarPipeline.__call__", "hrosailing/polardiagram/_polardiagramtable.py:PolarDiagramTable.to_csv", "hrosailing/polardiagram/_polardiagramtable.py:PolarDiagramTable.__from_csv__"]}
{"id": "C197", "title": "Point clouds in double precision", "statement": "A PolarDiagramPointcloud made from doubles consists of doubles with nonnegative wind speeds and wind angles from 0 to 360, and is read from a csv file exactly as it was written. PointcloudExtension with a Ball and an ArithmeticMeanInterpolator makes for any sampled winds a cloud of these winds in their order; boat speeds leave the range of the speeds nearby by at most 12 (n + 1) / 2^53 of the largest, and the cloud is read from a file as it was written.", "quantifier": "all points, sampled winds, data, orders of addition", "why_tests_cant": "The remainder modulo 360 of a tiny negative wind angle is rounded to 360 and read back as 0; such angles do not appear in tests.", "anchors": ["hrosailing/polardiagram/_polardiagrampointcloud.py:PolarDiagramPointcloud.__init__", "hrosailing/polardiagram/_polardiagrampointcloud.py:PolarDiagramPointcloud.to_csv", "hrosailing/polardiagram/_polardiagrampointcloud.py:PolarDiagramPointcloud.__from_csv__", "hrosailing/pipeline/extensions.py:PointcloudExtension.process"]}
{"id": "C198", "title": "UniformRandomSampler in double precision", "statement": "With every operation rounded to doubles, whenever UniformRandomSampler(n).sample returns it returns exactly n winds that are doubles; their wind speeds and wind angles are drawn from the ranges between the smallest and largest ones of the data and never leave them, although the width of the range, the product with the random number and the sum are rounded; and they violate the given inequalities of the convex hull by at most 4 / 2^53 of the terms. The loop ends if every round has a draw inside and runs forever if no draw is. A PointcloudExtension with this sampler makes from nonnegative doubles a cloud of n points whose winds are in the range of the data, and files restore it exactly.", "quantifier": "all data, numbers of samples, random streams of doubles in [0, 1)", "why_tests_cant": "Leaving the range by one unit in the last place needs a random number next to 1 and special bounds; no test draws it.", "anchors": ["hrosailing/processing/sampler.py:UniformRandomSampler.sample", "hrosailing/pipeline/extensions.py:PointcloudExtension.process"]}
{"id": "C199", "title": "Sessions with point clouds in double precision", "statement": "With every operation rounded to doubles, symmetrising a point cloud of n points gives the n points followed by n mirrored ones whose angles are doubles in [0, 360) that differ from 360 - a by at most 2^-45 degrees (0 for angles of at most 2^-45 degrees); in a session of add_points, symmetrize and writing and reading files in any order the files change nothing, and points that were there stay in front unchanged; and if all angles have at most 44 binary digits after the point, negative ones included, every history gives exactly the points of exact arithmetic.", "quantifier": "all nonempty clouds of doubles, sequences of steps, added points", "why_tests_cant": "The exceptions are tiny negative angles, and the sequences of calls are unbounded.", "anchors": ["hrosailing/polardiagram/_polardiagrampointcloud.py:PolarDiagramPointcloud.symmetrize", "hrosailing/polardiagram/_polardiagrampointcloud.py:PolarDiagramPointcloud.add_points", "hrosailing/polardiagram/_polardiagrampointcloud.py:PolarDiagramPointcloud.to_csv"]}
{"id": "C200", "title": "Evaluating point clouds in double precision", "statement": "With the wind angles rounded to doubles, a point cloud made from any points returns at each wind as it was given (any angle, positive wind speed) the boat speed of the first point with that wind; a stored point is found at its shown wind angle, after full turns in both directions and after any session of add_points, symmetrize and files; a symmetrised cloud of one side returns the same boat speed on both sides; elsewhere the interpolator gets exactly the points of the neighbourhood with weights 1; wind speeds that are not positive raise a ValueError.", "quantifier": "all clouds, winds, interpolators, neighbourhoods, sessions", "why_tests_cant": "Lookups compare doubles for equality, so a single rounding of an angle turns a stored value into an interpolated one; tests use whole degrees.", "anchors": ["hrosailing/polardiagram/_polardiagrampointcloud.py:PolarDiagramPointcloud.__call__", "hrosailing/polardiagram/_polardiagrampointcloud.py:PolarDiagramPointcloud.__init__"]}
{"id": "C201", "title": "Slices of point clouds show the points", "statement": "Calculated with doubles, the slice of a point cloud at a wind speed consists of exactly the points whose wind speed differs by at most range_ from it; no point in the range is ever left out; and get_slices without arguments, which slices at twenty wind speeds from the least to the largest one, shows every point of the cloud.", "quantifier": "all clouds, wind speeds and ranges", "why_tests_cant": "Membership at the border depends on the last bit of a difference, and missing points show up only for special spans of wind speeds.", "anchors": ["hrosailing/polardiagram/_polardiagrampointcloud.py:PolarDiagramPointcloud.ws_to_slices", "hrosailing/polardiagram/_polardiagrampointcloud.py:PolarDiagramPointcloud.default_slices"]}
{"id": "C202", "title": "Entries of tables in double precision", "statement": "With the wind angles rounded to doubles, a table made from winds in any order returns the given boat speed at each wind as it was given and at the wind it shows, also after full turns in both directions; after any number of calls of change_entries with single winds, with any wind angles, it returns at each of its winds the value written last, keeps the other entries, and raises a ValueError at other winds; empty resolutions, negative wind speeds and boat speeds of the wrong shape raise a ValueError.", "quantifier": "all winds, boat speeds, sequences of writes", "why_tests_cant": "Lookups compare doubles for equality, so a single rounding of an angle makes an entry unreachable; tests use whole degrees.", "anchors": ["hrosailing/polardiagram/_polardiagramtable.py:PolarDiagramTable.__init__", "hrosailing/polardiagram/_polardiagramtable.py:PolarDiagramTable.__getitem__", "hrosailing/polardiagram/_polardiagramtable.py:PolarDiagramTable.change_entries"]}
{"id": "C203", "title": "Evaluating tables in double precision", "statement": "With rounding to doubles, pd(ws, wa) of a table is the given boat speed at each wind as it was given and at the wind the table shows, also after full turns in both directions; after any number of writes it is the value written last at the winds of the table; at all other winds the interpolator gets exactly the points of the table in the neighbourhood of the given wind; evaluating is the same after adding 360 to the angle.", "quantifier": "all tables, winds, sequences of writes, interpolators, neighbourhoods", "why_tests_cant": "Whether a wind is looked up or interpolated depends on the equality of doubles after a rounded remainder; tests use whole degrees.", "anchors": ["hrosailing/polardiagram/_polardiagramtable.py:PolarDiagramTable.__call__"]}
{"id": "C204", "title": "Sessions with tables in double precision", "statement": "With rounding to doubles, a table may be written to a csv file and read again, in any format, at any time: whatever changes and symmetrisations are made before, in between and afterwards, with any wind angles, nothing raises and the table at the end is the one without files; for wind angles with at most 44 binary digits after the point it is the one of exact arithmetic.", "quantifier": "all tables of doubles, sequences of changes, symmetrisations and files in all formats", "why_tests_cant": "All sequences of calls; whether files keep a table depends on every intermediate angle being a double from 0 to less than 360.", "anchors": ["hrosailing/polardiagram/_polardiagramtable.py:PolarDiagramTable.to_csv", "hrosailing/polardiagram/_polardiagramtable.py:PolarDiagramTable.symmetrize", "hrosailing/polardiagram/_polardiagramtable.py:PolarDiagramTable.change_entries", "hrosailing/polardiagram/_reading.py:from_csv"]}
{"id": "C205", "title": "Slices of tables in double precision", "statement": "With rounding to doubles, get_slices of a table returns one slice for each wind speed, consisting of the wind angles of the table in order together with the boat speeds that evaluating the table at these winds returns; the default slices are the columns of the table; with n_steps there are n_steps slices between each two wind speeds of the table, in ascending order, and the slices at the wind speeds of the table are exactly its columns; with the arithmetic mean no boat speed is negative if those of the table are not.", "quantifier": "all tables of doubles, wind speeds, numbers of steps, interpolators, neighbourhoods", "why_tests_cant": "Whether a slice is a column or interpolated depends on the equality of calculated wind speeds with those of the table; tests use a few whole numbers.", "anchors": ["hrosailing/polardiagram/_polardiagramtable.py:PolarDiagramTable.get_slices", "hrosailing/polardiagram/_polardiagramtable.py:PolarDiagramTable.ws_to_slices", "hrosailing/polardiagram/_basepolardiagram.py:PolarDiagram.get_slices"]}
