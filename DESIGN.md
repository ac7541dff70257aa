# Design of the formal model of hrosailing

## Layout

* `lean/Verif/Model/*.lean`  – the model: Lean functions mirroring the python functions, each with a
  comment citing file and lines in `/repo`.
* `lean/Verif/Lemmas/*.lean` – auxiliary lemmas (no property statements).
* `lean/Verif/Props/*.lean`  – the property theorems (named `Cnn_...`), each followed by an `example`
  that instantiates its hypotheses, and the refutations (`Cnn_..._false`) for properties that the code
  violates.
* `MANIFEST.json` – property id -> theorem names.

## Trusted base

* The Lean 4.33.0 kernel and the three standard axioms `propext`, `Classical.choice`, `Quot.sound`
  (every property theorem depends on a subset of these; checked with `#print axioms`).
  No own axioms, no `sorry`, no `native_decide`, no `bv_decide`.
* The hand translation python -> Lean. Each definition cites the lines it mirrors.
* **How `/repo` was used.** The code is read as text. One deviation: the first version of the tables in
  `Model/StdFormat.lean` was produced by a script that executed `core/constants.py` (a file of literals).
  The tables were then rederived by parsing the text of the file without executing it; both versions
  are identical. Nothing else of `/repo` has been run and `/repo` is unchanged.
* **Numbers.** python/numpy floats are modelled by exact numbers: `ℚ` (or an arbitrary ordered field)
  where the code only uses field operations and comparisons, `ℝ` where it uses `sqrt`, `exp` or
  trigonometry. Rounding, overflow, `nan` and signed zero are outside of the model, except that a
  division by an exact zero is modelled explicitly (`none`/error), because Lean's `x / 0 = 0` would hide it.
  For some functions (step sizes and lookups of tables, normalised angles, weighted means, `isochrone`, `symmetrize`)
  `Model/Float64.lean` has a second model in which every operation is rounded to double precision (53 bits, ties to
  even, unbounded exponents, so still without overflow and subnormal numbers); C145–C148, C150, C152, C154–C164, C168, C172, C181–C184, C186, C191, C192 and C194–C202 are about this model.
* **Library code** (`numpy`, `scipy`, `matplotlib`, `csv`, `pynmea2`) is not modelled beyond the
  documented meaning of the calls used; where the result of a call is not determined by simple
  arithmetic (ConvexHull, random numbers, weather models, `solve_ivp`, user supplied norms and fill
  functions) it is a universally quantified parameter of the model, with the needed part of its
  contract as an explicit hypothesis.
* python `dict` is modelled by an association list with insertion order (`Verif.Model.Dict`).
* Exceptions are values of `Except`; where the state after a failing call is observable the model
  returns it.
* Aliasing of mutable lists/arrays is modelled only where a property speaks about it.

## Per-property plan

| id | modelled | method |
|----|----------|--------|
| C01 | `Data` as a state machine (`_data`, `_types`, `_max_len`), operations of `core/data.py` | invariant by induction over operation sequences |
| C02 | `Data.update(compress=True)` incl. `fill`, `extend` | per column: the list of non-None entries, refinement |
| C03 | `Data.update` | column-wise characterisation |
| C04 | `Data.concatenate` | induction over the list |
| C05 | `__getitem__` dispatch, `_mask_rows`, `get_slice` | direct; the empty key list is a witness against the second half |
| C06 | `delete` | filter on indices; false for repeated/non-existing indices (witness), partial for distinct valid ones |
| C07 | `strip` with fuel-free loop semantics (inductive big-step relation) | false (divergence, stale n_rows); partial for cols and for data that has a non-None entry |
| C08 | `rename`, key standardisation with the real `KEYSYNONYMS` table | permutation invariant; idempotence via table check lifted to all strings |
| C09 | `extend`, `append`, `fill`, `_get_type`, including failing calls | invariant |
| C10 | `WeightedPoints.__getitem__`, `extend` | list lemmas |
| C11 | `np.percentile` (linear) and `QuantileFilter` | sorted-list argument; documented bound false (witness), partial with the true bound |
| C12 | `BoundFilter`, statistics | direct |
| C13 | the two cylindric weighers, norm as parameter | order argument over `ℝ` |
| C14 | `_UnaryMapWeigher`, `_BinaryMapWeigher`, python tuple unpacking | false for the shipped weighers (proved for every length ≠ 2); partial for weighers returning a pair |
| C15 | `_set_points_from_data` mutating its argument, weigher state | false (witness); partial for configurations that are not mutated |
| C16 | fuzzy expressions as a deep embedding with evaluation over `ℝ` | structural induction, lattice laws, exp |
| C17 | `FuzzyVariable` as state machine | partial; `==` is refuted |
| C18 | `ScalingBall` | order statistics |
| C19 | the membership predicates | direct |
| C20–C22 | interpolators with the norm as parameter | convex combination lemma; C22 false for equidistant points |
| C23 | `BilinearGridInterpolator` | case analysis |
| C24–C26 | imputators on rectangular tables | list induction; C25, C26 refuted in part |
| C27 | `AffineSmoother` | interval lemma |
| C28 | `ZeroInjector` | direct |
| C29 | rejection sampling with an oracle stream | big-step relation, induction over the run |
| C30 | `_make_circle`, `_binary_rescale` as step relations | loop invariants (partial correctness) |
| C31–C33 | `PolarDiagramTable` | permutation/sorting argument |
| C34 | the four csv writers and readers on rows of fields | number formatting is a parameter with `parse (show x) = x` |
| C35 | `_create_long_table` | refuted for > 15 wind speeds, partial for at most 15 |
| C36 | `convert_wind` over `ℝ` | law of cosines |
| C37 | point cloud | direct |
| C38 | multi sails | list induction |
| C39 | `_get_windspeeds` | list induction |
| C40–C41 | pipeline with components as state transformers | equational; C41 refuted in one field |
| C42 | `WeatherExpander` on top of the `Data` model | refuted; theorem describing what happens instead |
| C43 | recursive affine interpolation | induction over dimensions; refuted on grid planes |
| C44 | `_get_inverse_bsp` | refuted at 0; partial for positive speeds |
| C45 | `isochrone` loop as step relation | termination measure; refuted for `total_time = 0` |
| C46 | mercator maps over `ℝ` | `arsinh`/`tan` identities; refuted for longitudes beyond 90 |
| C47 | spherical globe over `ℝ` | `Complex.arg`, `arccos` |
| C48 | influence model | refuted for scalars, partial for lists |
| C49 | `_plot` sorting, `_alter_with_info` | refuted; partial for sorted slices |
| C50 | NMEA decoding | refuted (hemisphere, fraction); partial |
| C51 | `Data.hrosailing_standard_format`: date and time joined, casts | table check; refuted if a column `datetime` exists already |
| C52 | `PolarDiagramTable.__call__` | lookup on the grid, interpolation off it; periodicity refuted |
| C53 | csv files of point clouds | row round trip; refuted for empty clouds |
| C54 | `PolarDiagramPointcloud.add_points` | list lemmas |
| C55 | slices and wind angles of point clouds | list lemmas |
| C56 | csv files of multi sail diagrams, file system as a map from names to contents | induction over the sails; refuted for colliding names |
| C57 | `PolarDiagramTable` printing | list lemmas |
| C58 | slices of tables | interval lemma; refuted for tables without speeds |
| C59 | curves in degrees and radians, symmetrizing, slices | refuted for radians |
| C60 | csv files of curves | refuted for functions unknown to the reader |
| C61 | the model functions | refuted for `ws_s_wa_gauss` |
| C62 | mutation of the array passed to `convert_wind` | array as state |
| C63 | lists of data handlers | refuted for lists (TypeError) |
| C64 | `MultiWeatherModel` | induction over the submodels |
| C65 | `NetCDFWeatherModel` indexing | permutation of dimensions, reversed coordinates |
| C66 | weather files | `strftime`/`strptime` as parameters |
| C67 | flat mercator globe | matrix identities over `ℝ` |
| C68 | fitting the wind angle correction | `argmin` over a list |
| C69 | colour gradients | ordered field |
| C70 | NMEA attribute handling | case analysis |
| C71 | `convex_direction`; the hull is a parameter with the contract `IsHull` (`Lemmas/Hull.lean`) | separating functional of an edge (gauge) |
| C72 | `cruise` durations | direct computation |
| C73 | wind relative to north, headings | `Complex.arg` |
| C74 | distance and course | trigonometry over `ℝ` |
| C75 | direction of isochrones | trigonometry over `ℝ` |
| C76 | `cost_cruise` after the initial value problem; trapezoid rule | list induction |
| C77 | data flow of the pipeline; components compute functions | equational reasoning in the state monad |
| C78 | `Weigher.set_statistics` | counting argument over the ten tenths |
| C79 | `CylindricMemberWeigher.weigh` for `Data`; broadcasting of the default norm | reduction to the array case (C13) |
| C80 | `FluctuationWeigher.weigh`, growing window | window invariant by induction, standard deviation over `ℝ` |
| C81 | `_min_max_resolution`, `_extract_wind`; python `round` (ties to even, `Model/Round.lean`) | integer arithmetic, membership characterisation of `range` |
| C82 | `TableExtension`, `PointcloudExtension`, `CurveExtension`; components are parameters | `reshape` of the flattened grid by induction, then C31's table specification |
| C83 | both quality assurances; diagrams are functions that may raise | Cauchy–Schwarz for lists, dictionary invariant |
| C84 | in-place operations, functions returning also the array of the caller | direct computation |
| C85 | step sizes, `np.arange` over an ordered field | membership characterisation |
| C86 | `ShepardInterpolator`; neighbourhood, norms and square root are parameters, `none` is `nan` | direct computation, list inductions for the shift, evaluated counterexamples over `ℚ` |
| C87 | `FibonacciSampler`, `ArchimedeanSampler`, `_create_bounds` over `ℝ`; `ConvexHull` is a parameter with a contract | invariant of the rescaling loop, C30 for the circle, injectivity of the spirals, growth bound by induction |
| C88 | `ArrayHandler`, `CsvFileHandler` without pandas, `_save_eval`; `strptime` and `literal_eval` are parameters | columns as a function of the index, invariant of the loops over entries and rows; then C03 and C09 |
| C89 | filters and loop of `NMEAFileHandler`; `pynmea2.parse` is a parameter | induction over the sentences with C02, substring test against the infix relation |
| C90 | forms of `ws` in `get_slices`, `default_slices`, `default_points` of all diagrams, slices of clouds with interpolator | composition with C39 and C38; discrete intermediate value argument for the covering; zip of flattened lists |
| C91 | `_configure_colors` and everything below it; `is_color_like` is a parameter | list inductions for the cycles, C69 for the gradient |
| C92 | `_configure_legend` and everything below it | same cycles as for C91 |
| C93 | `_prepare_points` over `ℝ`, the mask of `plot_surface` | direct; evaluated counterexamples |
| C94 | `_get_convex_hull` over `ℝ`; `ConvexHull` is a parameter | sorted lists; signs of sine; crossing of a segment with the axis; explicit counterexamples with `√3` |
| C95 | `Data` objects as dictionaries of references into a store of lists; all methods which change or create tables | simulation (forward refinement) of the store by values with the invariant that no list is referred to twice |
| C96 | `rows` for the three return types; the generator for tuples as a state machine | inductions over the rows |
| C97 | `__getitem__` for all kinds of subscripts | case distinction; C01/C05 for tables |
| C98 | signatures and bodies of model functions, `LeastSquareRegressor.__init__`, `_determine_params` (with fuel), `fit` | induction over the number of parameters; divergence for all fuel |
| C99 | `fit` of both regressors; `curve_fit` and `ODR` are parameters | case distinction |
| C100 | `FuzzyBool` expressions with `__str__` as lists of characters | unique readability by induction, counting brackets |
| C101 | truth functions for arrays, `FuzzyWeigher.weigh` | induction over expressions |
| C102 | `_get_true_wind_data`, `data_dict_to_numpy`; lists, arrays and single values as different kinds of columns | case distinction, induction over rows |
| C103 | preparation of the data in `cruise`, `add_influence` of the identity model, broadcasting of curves, use of `convex_direction` | positions in the flattened matrix; C72 for the durations |
| C104 | `shortest_projected_path`, `shortest_path` of `FlatMercatorProjection` (extends the model of C67) | `project` inverts `lat_lon`; triangle inequality by induction |
| C105 | `_set_with_default`, `__init__`, flags of `__call__`; attributes as a dictionary | lookup after the two loops, by induction over the keys |
| C106 | `CurveExtension.process`, `PolarDiagramCurve.__init__` and `__call__`; the regressor is a parameter | reduction of angles; bounds of pi for the witness |
| C107 | `scaled_norm`, `euclidean_norm`, `scaled_euclidean_norm`, standard norm of the weighers | Minkowski's inequality by induction over the columns |
| C108 | times and attributes in `NetCDFWeatherModel.__init__`; `strptime` is a parameter | truncation of whole numbers; check of the grid of C43 |
| C109 | `from_meteostat`; fetching is a parameter, comparisons of arrays as in numpy 1.22 | transposition entry by entry |
| C110 | `__str__` of point clouds character by character, with the format `.2f` | splitting the text into lines and words, reading the numbers back |
| C111 | `_gauss_potential` in `ArithmeticMeanInterpolator`, weights of `CylindricMeanWeigher` | monotonicity of the exponential function |
| C112 | the steps of the pipeline after the influence model with the default components (`Model/DefaultTable.lean`) | closed forms of each step, `makeTable_spec` |
| C113 | as C112 | permutation lemmas for each step; the first point at distance zero does not depend on the order for consistent data |
| C114 | as C112, `CylindricMemberWeigher` | transformation lemmas for each step: weights are invariant, interpolated values scale |
| C115 | as C112 | transformation lemmas for mirrored winds; the zeros at 0 and 360 degrees are exchanged |
| C116 | `scaled_euclidean_norm`, standard norm of the weighers | evaluation of the norms for all wind speeds |
| C117 | heap of dictionaries, `_latest_statistics` of components, `_collect`, `_preprocess` | invariants: the heap only grows or changes above its old length; references are counted |
| C118 | all functions of `_models2d.py` | real analysis: derivatives avoided by exact inequalities, limits with filters |
| C119 | `QuantileFilter`, `BoundFilter`, `np.percentile` | a point is kept iff its weight reaches the order statistic at the ceiling of the position |
| C120 | the four distance and grid interpolators | transformation lemmas for distances, weights and sums; permutation invariance of sums and minima |
| C121 | `CylindricMeanWeigher`, `CylindricMemberWeigher` | transformation lemmas for counts, means and standard deviations |
| C122 | `convex_direction`, `cruise` times, `isochrone`, `_get_inverse_bsp` | scaling lemmas for hulls, times and sums; concrete witnesses for the negations |
| C123 | heap of arrays and diagrams, statements of programs | refinement: a simulation between heap states and value states with disjoint footprints, by induction on programs |
| C124 | `Model/PlotCalls.lean`: the calls of `ax.plot`/`ax.scatter` made by `_plot`, the colour gradient and three-dimensional scatter plots | `Props/PlotCalls.lean`: induction over the loop of `_plot`; the grouped points of a slice are a permutation of its points (induction over the labels); polar and flat, plot and scatter related by maps commuting with `_merge` and the hull |
| C125 | `convertRow` of `Model/Wind.lean` (law of cosines, arccos with clipping) over ℝ | `Props/WindTriangle.lean`: the cosine of the converted angle is computed from the triangle and compared using monotonicity of cos on [0, π] |
| C126 | `idw`, `improved`, `arith`, `bilinear` of `Model/Interpolator.lean` over ℝ | `Props/Continuity.lean`: at a data point numerator and denominator are multiplied by the power of the distance; the two formulas of the improved weights agree where they meet; the cells of a grid are a finite closed cover |
| C127 | `standardFormat`, `removeOnly`, `impute`, `normalize`, `boundFilter`, `symmetrize` | `Props/Idempotent.lean`: the casting loop leaves every column settled (induction over the keys); after aggregation `date` and `time` are not both present; complete tables pass through all phases of the imputation unchanged |
| C128 | `MultiSails` (`Model/MultiSails.lean`) with constructor, `symmetrize`, `__str__`; `multiCall` | `Props/MultiSails.lean`: `multiCall_iff` characterises the value as the greatest member; inductions over the list of sails |
| C129 | `contains`, `nCols`, `typeOfKey`, `getCol`, `text` (`Model/DataText.lean`) | `Props/DataText.lean`: reading the text back from the left (`split_at`, `listText_inj`), induction over the columns |
| C130 | interpolators, `tableProcess` | `Props/MeasurementErrors.lean`: one relational proof for all relations passed on by weighted means with nonnegative weights (`Meanable`), instantiated with `≤` and `abs (a - b) ≤ δ` |
| C131 | `interpolatePointMask` (`Model/ExtensionMask.lean`), `ball`, `scalingBall`, `tableProcess` | `Props/Locality.lean`: the selected points determine the value; the `m`-th smallest distance does not change if a greater one is inserted (`getElem?_orderedInsert`) |
| C132 | `convexDirection` | `Props/Detours.lean`: the speed made good is the greatest one in the convex hull of the velocities (`MakesGood.best`); convexity gives the triangle inequality for times |
| C133 | `isochrone`, `invSpeed` | `Props/IsochroneLimit.lean`: Euler's method with steps of equal length is one with unequal steps in time; error of one step by the mean value theorem, Gronwall's argument by induction over the steps |
| C134 | `isochrone`, `invSpeed` | `Props/IsochroneLimit.lean`: comparison of solutions of differential inequalities and C133; witnesses with a calm for three nodes |
| C135 | `circleLoop`, `smallCircle`, `circle2`, `solveCircle` | `Props/SmallestCircle.lean`: Welzl's argument for the loop with backtracking, by induction over the number of points: a disc through the points on the boundary that misses a point is improved by the pencil of circles; uniqueness of the smallest disc |
| C136 | `binaryRescale`, `sampleGenerator`, `spiralSample`, `upperBound` | `Props/SpiralReturns.lean`, `Props/SpiralSquare.lean`: doubling and bisection reach every interval on which the number of points is the requested one; a ray leaves a convex set once; without ties the number drops by one; area of discs from Mathlib; scaling of the circle search; squares of almost all slopes |
| C137 | `costCruise`, `trapezoid` | `Props/CostIntegral.lean`: error of the trapezoidal rule by induction over the nodes; uniform continuity on the way for the limit |
| C138 | `uniformSample`, `uniformDraws`, `uniformWinds`, `createBounds` | `Props/UniformSample.lean`: product measure on the sequences of numbers; a round and the numbers left over are independent; sum over the patterns of kept winds; a linear equation for the probability, by strong induction over the number of samples |
| C139 | `Expr.eval`, `sigmoid` | `Props/FuzzyCrisp.lean`: structural induction over the statement with an error bound which is the same for all parts |
| C140 | `interpolatePointMask`, `ball`, `scalingBall`, `arith`, `idw`, `improved`, `tableProcess` | `Props/Consistency.lean`: means stay in the range of their data; a `ScalingBall` is a ball whose radius is bounded by the density of the data |
| C141 | `fibonacci`, `spiralSample`, `fibonacciBase`, `upperBound`, `binaryRescale`, `sampleGenerator`, `makeCircle` | `Lemmas/Equidistribution.lean`, `Lemmas/SpiralCount.lean`, `Props/SpiralEven.lean`: Weyl's criterion for the angles (the golden ratio is irrational), Abel summation and Stone-Weierstrass for averages of continuous functions over the spiral, portmanteau theorem for counts in regions; the scale that is found converges to the radius of the circle since the hull takes up a strictly larger part of smaller discs |
| C142 | `archimedean`, `archimedeanBeta`, `archimedeanBase` | `Props/SpiralEven.lean`: as C141; the exponential sums of the angles are bounded by comparing increments and summation by parts, the radii by Cesàro means |
| C143 | `Table.call`, `defaultInterpolate`, `defaultNbh`, `arith`, `gauss` | `Props/TableError.lean`: values between the entries in the neighbourhood; for the negation entries one knot apart are paired, as their weights differ by a factor of at most 4 |
| C144 | `getWeather`, `interpolate`, `recursion`, `mkDim` | `Props/WeatherError.lean`: piecewise affine interpolation stays between bounds of the neighbouring values (induction on the grid), nested three times |
| C145 | `F64.fl`, `F64.arange`, `F64.stepsize`, `Table.get` | `Lemmas/Float64.lean`, `Props/Float64.lean`: error, monotonicity and exactness of rounding; the rounded quotient has the same ceiling as the exact one since it is at least 1/m away from integers |
| C146 | `F64.fmod`, `F64.mod` | `Props/Float64.lean`: monotonicity of rounding, and 360 - 2^-44 is a double |
| C147 | `F64.fl`, `F64.Summed`, `F64.Averaged`, `arith`, `average` | `Props/FloatMean.lean`: error analysis by induction on the way the sum is bracketed |
| C148 | `isochrone` with every operation rounded to double precision (`Model/Float64`) | invariant of the loop: step size at least `minStep`, so each step gains time despite rounding and each restart shrinks the step size by a fixed factor; `C148_budget` compares the result with the rounded Euler method |
| C149 | `__str__` of tables with all characters (`Model/TableChars`) | refinement: the words of the lines are those of the pieces of `Table.str`; equal widths of the pieces of a column; numbers are recovered from their digits |
| C150 | `symmetrize` with rounded mirrored angles (`F64.symmetrize`) | `Props/FloatSymmetry.lean`: rounding keeps the order of angles that are `2^-43` apart, so the list stays sorted; the 1801 angles with one decimal are compared with their mirror images completely |
| C151 | `str` and reading of doubles (`Model/FloatText`): shortest digits, layout with and without exponent, parser | decimal numbers with 17 digits next to a double are rounded to it (two cases at powers of two); the parser recovers the value of every layout; the round trips of C34, C53, C60 restricted to numbers that can be written and read |
| C152 | `_recursive_affine_interpolation` with all operations rounded (`Model/FloatWeather`) | the weight stays in `[0, 1]` and within `4u` of the exact one; one step turns an error `E` into at most `E (1 + 4u) + 12 u M`; induction over the dimensions; the same exceptions since rounding keeps differences nonzero |
| C153 | `Default.makeTable` (weigher, filter, injector, extension of the default pipeline) | `Props/PipelineAccuracy.lean`: the points given to the extension measure the true speeds (injected zeros are true), then C140; for the counterexample weights and percentile are calculated for any number of measurements |
| C154 | `CylindricMeanWeigher.weigh` with all operations rounded and sums in any order (`Model/FloatWeigher`) | rounding is monotone and keeps 0 and 1; sums of equal numbers with few bits are exact by induction over the order of summation; the counterexample is evaluated on rational numbers, since rounding commutes with the embedding of ℚ (`Lemmas/FloatCast`) |
| C155 | `QuantileFilter.filter` with the interpolation of `np.percentile` rounded (`Model/FloatWeigher`) | rounded interpolation stays between the two sorted weights, and above the smaller one if they are not too close |
| C156 | `IDWInterpolator.interpolate` and `scaled_euclidean_norm` with all operations rounded (`Model/FloatIdw`) | `Props/FloatIdw.lean`: induction over the order of additions, products may be fused; relative errors of the weights are propagated through the normalisation |
| C157 | `BilinearGridInterpolator.interpolate` with all operations rounded (`Model/FloatBilinear`) | `Props/FloatBilinear.lean`: the exact and the rounded program are run side by side (relation between results, exceptions included); the interpolation step of C152 gives the error, monotone rounding the order; 3 knots at all corners give 3.0000000000000004 (`C157_outside`) |
| C158 | `_Wind.convert_wind` with all operations rounded (`Model/FloatWind`); cosine and arc cosine of the library are parameters with error bounds | `Props/FloatWind.lean`: error of the radicand, `|√r - w| w ≤ |r - w²|`, arc cosine is Hölder continuous with exponent 1/2; the square root undoes the square of every double (`sqrt_square`); radicand can be negative, so that `nan` is returned (`C158_nan_false`) |
| C159 | `SphericalGlobe.distance`, `_on_ball`, `_angle`, `project` and `lat_lon` with every operation rounded; sine, cosine and arc cosine are parameters with given accuracy | propagation of absolute errors, `arccos` is Hölder continuous of order 1/2, Taylor polynomials from `Complex.exp_bound` and 20 digits of `π` for the concrete place |
| C160 | `convex_direction` and the end of `cruise` with the conversion of angles to radians and back in double precision (`Model/FloatCruise`); hull and proportion are parameters | `π` to 20 digits gives the factors of `deg2rad` and `rad2deg` as doubles; evaluation in the kernel for whole angles, scaling by powers of 2, error propagation for the durations |
| C161 | `_from_nmea_format` with every operation rounded (`Model/FloatNmea`) | monotonicity of rounding and exactness of small integers fix the degrees; error propagation |
| C162 | `AffineSmoother` with every operation on doubles rounded (`Model/FloatSmoother`) | the invariant of linked intervals keeps weights between 0 and 1; for whole seconds a simulation relation to the exact model (same ends, close values) |
| C163 | `np.linspace` with every operation rounded, `_get_windspeeds` and default slices with it (`Model/FloatSlices`) | the last multiple of the rounded step does not exceed the difference for fewer than 2^50 numbers; monotonicity of rounding; induction over the requested wind speeds |
| C164 | the heading of `cruise` with every operation rounded, `convex_direction` and `cruise` for a heading that is `nan` (`Model/FloatCourse`) | errors of products and sums through the Hölder bound of the arc cosine; Taylor polynomials with error bounds determine the rounded sine and cosine of the counterexample |
| C165 | `_get_dimensions` on the text of a variable, with `split` and `strip` as list functions (`Model/NetDims`) | splitting and stripping of concatenations, induction over the dimensions |
| C166 | `strptime` as ordered list of all matches of the regular expression, `strftime`, the formats of the library (`Model/Stamps`) | the first match of printed text is the printed value, directive by directive; induction over the format |
| C167 | `__repr__` of the components as calls with positional and keyword arguments, python's binding of arguments, the constructors (`Model/Repr`) | evaluation of each representation, case distinction over the classes |
| C168 | `WindAngleCorrectingInfluenceModel` with rounded differences, sums and `% 360` (`Model/FloatInfluence`) | half unit in the last place below 512 and 1024 degrees, exact remainders of non-negative doubles |
| C169 | binding of keyword arguments along the calls of the projections (`Model/PlotKeywords`) | case distinction over clashing names, induction over the slices |
| C170 | sequences of calls of `change_entries`, failing ones included (`Model/TableHistory`) | refinement of a function of the wind, induction over the history; tables are determined by their lookups |
| C171 | sequences of calls of `add_points` and `symmetrize`, failing ones included (`Model/CloudHistory`) | induction over the history; the old cloud is a prefix; permutations of calls permute the points |
| C172 | neighbourhoods of rounded differences: cuboid, polytope (fused or separate products), ball of the default norm (`Model/FloatNeighbourhood`) | Sterbenz: close doubles are subtracted exactly; monotony of rounding; error of the norm from C156 |
| C173 | times per distance of `isochrone` and `cost_cruise` along the way (`Model/AgreeCruise`) | projections differ by a translation; the exact time of arrival is the inverse of the way (inverse function theorem), then C133 |
| C174 | the six given model functions as arguments of `LeastSquareRegressor` (`Model/GivenFunctions`) | case analysis on the number of parameters; C98_exactly; injectivity of exp; comparison of coefficients |
| C175 | `totalS` of Model/Course.lean | the projection as a map to the complex plane; derivative of arsinh after tan |
| C176 | `Op`, `step` (existing `update`, `rename`, `deleteCol`, `deleteRows`, `getItem`), independent `Sheet.apply` on lists of records | simulation relation `Shows` preserved by every operation with exact error conditions, induction over sequences |
| C177 | `Model/Nan.lean`: numbers or `nan`, the weighers, filters, neighbourhoods and the inverse distance interpolator on them | `Props/Nan.lean`: which of them ignore incomplete measurements; one `nan` makes all weights of `CylindricMeanWeigher` `nan`, and the default pipeline fails |
| C178 | existing `Flat` and `distance` of Model/Globe.lean | `Lemmas/Mercator.lean`: convexity of the cosine of the root, `cos b * cosh b <= 1`, gap formula for the cosines; mean value theorem on a meridian |
| C179 | existing models of `convex_direction`, `cruise`, `isochrone`, `cost_cruise` | scaling of convex hulls; Grönwall's inequality for `Voyage` and `Arrival`; a slice with a course entering the hull as a witness for the jump of `cruise` |
| C180 | `Clock.stamp`, `Clock.interpolateStamps`, `Clock.impute` (whole microseconds, `mu` rounded to a double, products rounded to microseconds) | `Props/ClockImputator.lean`: the invariant of the loop (C25) holds for any function in place of the affine one; rounding is monotone; filling a filled column changes nothing, so the exact theorems (C24) carry over |
| C181 | `F64.inCylinder`, `F64.memberCount`, `F64.memberWeigh` (differences and quotients rounded) | `Props/FloatMember.lean`: quotients of different integers up to 2^51 have different roundings; Sterbenz for values within a factor of two |
| C182 | `F64.zeroInject` (rounded `linspace`) | `Props/FloatMember.lean`: the theorems on `linspace` (C163) at the extreme wind speeds |
| C183 | `F64.Std`, `F64.fluctuationStep`, `F64.fluctuationFold`, `F64.Fluctuation`, `F64.FluctuationWeighed` (rounded operations, sums in any order; windows exact) | `Props/FloatFluctuation.lean`: mean of squares about any number, relative error of the variance about the computed mean, error of products of factors in [0,1] |
| C184 | `Model/FloatRescale.lean` (search for the scale, rounded after every operation) | `Props/FloatRescale.lean`: rounding is to the nearest double, so the rounded mean of two doubles is strictly between them if any double is; doubles above a power of two are multiples of a fixed number, so the bisection ends. Rounded coordinates are monotone in the scale for facets parallel to an axis |
| C185 | `FuzzyArray.Stmt`, `eval`: comparisons, and, or, not, called with a number or an array; `row_stack` and `min(…, axis=0)[0]` mirrored | induction over statements; exact conditions for results and errors |
| C186 | `Model/FloatCost.lean`: places on the way and the trapezoidal rule of `cost_cruise` with every operation rounded; the sum of the panels in any order; solver, cost functions and projections are parameters | accumulated relative errors (`Rel`) of products and roundings, then the error of sums in any order; order of the places from monotony of rounding; a place where the end is not reached exactly |
| C187 | `Model/Hours.lean`: `timedelta(hours=t)` as integral part and rounded fractional part, rounded to microseconds; `datetime` as microseconds since year 1 with its range | order by cases on the integral part, oddness for negative numbers; errors from the rounding of one product and one rounding to integers |
| C188 | `Model/PointsHistory.lean`: statements `points = points[mask]` and `points.extend(other)` in `try`, in any sequence | refinement of lists of pairs: a simulation relation for arrays and for columns of dictionaries, induction over the statements |
| C189 | `Model/Session.lean`: sequences of `change_entries`, `symmetrize` and writing/reading a file; a file that can not be read ends the session | invariant "storable" (sorted winds, angles in range, right shape, possibly repeated angles) kept by every step; erasing the file steps by induction |
| C190 | `symmetrize`, `sortTable`, `get` as before, for tables with angles anywhere in [0, 360) | splitting the rows at 0 and 180, permutations of rows and points, counting the rows of an angle |
| C191 | `Curve.symFunc` over the reals; `Model/FloatCurve.lean`: the same with every operation rounded | algebra; monotonicity of rounding and exact halving; exactness on a grid of angles |
| C192 | `Model/FloatImproved.lean`: `_set_weights` and `ImprovedIDWInterpolator.interpolate` with every operation rounded, sums in any order, `none` = nan | spacing of doubles (quotients of different doubles stay below one), zero sums by induction over the order of additions, the error bound of C156 with weights that may vanish |
| C193 | `Model/Directory.lean`: sequences of `to_csv` to paths, `from_csv` dispatching on the first line | a directory refines a map from paths to diagrams: induction over the calls, unique splitting of the names of files at their last underscore |
| C194 | `Model/FloatTable.lean`: `ArithmeticMeanInterpolator.interpolate`, `Ball` and `TableExtension.process` with every operation rounded, sums in any order | composition of the table theorem C82 with the error bound C147 (weights compared with themselves for the range), case analysis on stored winds |
| C195 | `Model/FloatDefault.lean`: the default components chained with every operation rounded | composition of C154, C155, C182 and C194; the kept points are a sublist containing a point of maximal weight |
| C196 | `Model/Extension.lean`, `Model/FloatDefault.lean`, `Model/TableText.lean`, `Model/Session.lean` composed | what a table is made of (process_parts), init_storable, C34/C151 round trip and C189 sessions |
| C197 | `Model/FloatCloud.lean`: constructor and reader of point clouds and `PointcloudExtension.process` with rounded remainders | remainders of doubles are doubles (pmod_double), C146_doubles_exactly, C151 number text, entry_double of C194 |
| C198 | `Model/FloatSampler.lean`: `UniformRandomSampler.sample` with every operation rounded | a double times a number of at most 1 - 2^-53 is rounded below the double (fl_mul_lt), monotonicity of rounding, loop invariant by induction on fuel, composition with C197 |
| C199 | `Model/FloatCloudHistory.lean`: `symmetrize`, `add_points`, files of point clouds with rounded angles | induction on the steps with the invariant normal and doubles (step_keeps), fl_below_360, exactness on the 2^-44 grid (grid_mod), composition with C171 and C197 |
| C200 | `Model/FloatCloudCall.lean`: `PolarDiagramPointcloud.__call__` with rounded remainder and differences | the first match of a search in a list (find), full turns are removed exactly (mod_turns), prefixes kept by sessions (C199) |
| C201 | `Model/FloatCloudSlices.lean`: `ws_to_slices` of point clouds with rounded differences; `default_slices` of C90 and C163 | exact differences of near doubles (Sterbenz), half of a double is a double, monotonicity of rounding, nearest of twenty evenly spaced numbers |
| C202 | `Model/FloatTableEntries.lean`: constructor, `__getitem__` and `change_entries` of tables with rounded remainders | reduction to C31 and C170 by idempotence of the remainder (pmod_mod), filtering of the writes without effect (tableHistory_eq) |
| C203 | `Model/FloatTableCall.lean`: `PolarDiagramTable.__call__` with rounded remainder and differences | reduction to C202, and to C52 where the differences are doubles |
| C204 | `Model/FloatTableSession.lean`: steps of a session with tables, with rounded remainders and mirror images | invariant over the steps (angles from 0 to less than 360, all numbers doubles), round trip of files (C151), refinement to C189 on a grid of angles |
| C205 | `Model/FloatTableSlices.lean`: `get_slices` and `ws_to_slices` of tables with rounded wind speeds, remainders and differences | composition of C163 (wind speeds of slices), C202, C203 and C58 |

## Behaviour that contradicts a property

Each of these theorems has been proved of the model. The comment is the one of the theorem in
`lean/Verif/Props`; the lines of the code are cited at the model definitions it uses.

* `C05_empty_keys_false` (Data.lean): fails for the empty list of keys: instead of an object without columns, `data[[]]` has all columns of `data` (but no rows).
* `C05_no_columns_false` (Sharp.lean): for tables without columns: a table with rows, all of whose columns have been deleted, has no rows after masking, whatever the mask.
* `C06_delete_false` (Data.lean): is false in general: with a repeated index a row that was not listed is lost from the iteration, because `n_rows` is decreased once per list element.
* `C06_delete_missing_index_false` (Data.lean): also fails for an index that does not exist: the last row silently disappears from the iteration although no row was removed.
* `C07_strip_diverges` (DataStrip.lean): fails: on every object whose entries are all `None` (in particular on `Data()`), `strip()` never returns.
* `C07_n_rows_false` (DataStrip.lean): fails: `strip()` does not adapt `n_rows`, so iterating over the rows of the stripped object raises `IndexError`.
* `C07_again_false` (Idempotent.lean): fails for data stripped before: `n_rows` being wrong, stripping once more raises `IndexError`.
* `C10_scalar_data_false` (WeightedPoints.lean): for the documented combination of a scalar weight with a `Data` object: the constructor raises `TypeError`.
* `C11_percentage_false` (Filter.lean): as far as the documented percentage is concerned: with ten points and 15 percent, two points (20 percent) are discarded.
* `C14_weights_false` (ExactData.lean): for all weighers and all points: one weight per point is never given.
* `C14_unary_false` (Weigher.lean): A weigher derived from another one by arithmetic with a number raises `ValueError` for every set of points that does not consist of exactly two points.
* `C14_binary_false` (Weigher.lean): A combination of two weighers raises `ValueError` for every set of points that does not consist of exactly two points.
* `C14_nested_false` (Weigher.lean): Arithmetic can never be nested: a combination whose first operand is itself a combination never gives weights.
* `C14_nested_error_false` (Weigher.lean): The nested combinations raise a `TypeError` also where the inner one gives a number.
* `C14_number_false` (Weigher.lean): for the documented operations `weigher - a` and `a / weigher` with a number `a`: `TypeError`.
* `C15_second_call_false` (Weigher.lean): A mean weigher whose dimensions name the boat speed once and not the speed over ground works for the first call, and every later call raises `ValueError`: the first call removes the boat speed from the configuration.
* `C15_norm_false` (Weigher.lean): also without dimensions: the norm is chosen at the first call, so the weights of a second set of points depend on the columns of the first one.
* `C17_eq_false` (Fuzzy.lean): for `==`: `x(s) == a` is not the conjunction of `x(s) < a` and `x(s) > a` whenever the sharpness `s` differs from the default.
* `C21_pointcloud_false` (Interpolator.lean): refuted for the defaults of a point cloud: `PolarDiagramPointcloud.__call__` uses `ArithmeticMeanInterpolator(50)`, i.e. the scaling factor 50, so a cloud whose only boat speed is 5 yields 250.
* `C22_equidistant_false` (Interpolator.lean): refuted: if all points have the same distance to the query point (for instance if there is only one point), all weights vanish and the result is `nan`.
* `C22_single_false` (Interpolator.lean): refuted: one stored point and any other query point give `nan`.
* `C25_after_gap_false` (Imputator.lean): refuted: after one pair of consecutive time stamps that are more than `maxDiff` apart no later missing time stamp is filled, however close its neighbours are.
* `C26_statistics_false` (Imputator.lean): refuted for the statistics: the reported number of removed rows is the number of rows that have been kept.
* `C26_statistics_witness_false` (Imputator.lean): Three rows, one of them with a missing value: one row is removed, but two are reported.
* `C27_unsorted_accepted` (Smoother.lean): Outside of the hypotheses of C27: time stamps which are not in chronological order are only rejected if one of them lies before the first one. Otherwise the values can leave the range of the measured values.
* `C30_rescale_diverges` (Sampler.lean): The rescaling search never returns if no scale gives the requested number of points (for example if two points enter the hull at the same time).
* `C35_long_false` (TableText.lean): is false for more than 15 wind speeds: whenever the boat speeds of the wind speed number `5 + k` and of the wind speed number `n - 5 + k` differ for some angle, a wrong number is shown.
* `C37_calm_false` (Pointcloud.lean): is false for stored points with wind speed 0: they are accepted but evaluating there raises.
* `C41_pre_expanding_filter_false` (Pipeline.lean): is false for the field `pre_expanding_filter` of the training statistics: it contains the statistics of another component (line 368 of `pipeline.py`).
* `C42_rows_false` (Expander.lean): is false: there is not one row per remaining measurement.
* `C42_row_weather_false` (Expander.lean): is false: row `i` does not carry the weather of the time and place of row `i`.
* `C42_ignore_all_false` (Expander.lean): In the mode `"ignore"`, where records without weather should be filled with `None`, the expansion of non-empty data raises a `TypeError` if the weather model has no answer at all.
* `C43_grid_point_false` (Weather.lean): is false at grid points: at the last grid point the weather of the first one is returned.
* `C43_grid_points_false` (Weather.lean): The weather at every grid point is that of the first grid point.
* `C44_calm_false` (Cruising.lean): is false: a boat that does not move at all needs less time per distance than any moving boat.
* `C45_zero_budget_diverges` (Cruising.lean): is false for a budget of zero hours: `isochrone` does not return.
* `C45_calm_diverges` (Cruising.lean): is false if the boat does not move: with the time per distance 0 used for boat speed 0, `isochrone` does not return.
* `C45_into_calm_diverges` (SharpCruise.lean): where the boat gets into a calm: if it stands still from the distance `S` on, and gets there before the end of the budget, then the loop does not end.
* `C48_single_false` (Influence.lean): is false for a single wind: the shift is ignored.
* `C48_single_differs_false` (Influence.lean): is false for a single wind: list and single value give different speeds.
* `C48_remove_single_false` (Influence.lean): is false for a single measurement: the influence cannot be removed.
* `C49_mixed_false` (ExactFiles.lean): is false for slices with unsorted angles also if segments may be exchanged between sails: here both segments connect points of different sails.
* `C50_hemisphere_false` (Nmea.lean): is false for the hemisphere: the position is the same for both hemispheres, e.g. for north and south.
* `C50_fraction_false` (Nmea.lean): is false for fractions of a second with one to five digits: they are taken for a number of microseconds.
* `C50_no_fraction_false` (Nmea.lean): is false for times without a fraction: they cannot be decoded.
* `C51_existing_datetime_false` (StdFormat.lean): if a column `"datetime"` exists besides `"date"` and `"time"`: the new moments are appended below the old ones, the object is no longer rectangular and iterating over its rows raises.
* `C52_periodic_false` (TableCall.lean): is false for other winds: the table with the only entry 5 at wind speed 10 and wind angle 0 gives 5 at wind speed 11 and wind angle 350, and raises `ZeroDivisionError` at wind angle 710.
* `C53_empty_false` (Pointcloud.lean): The file of an empty cloud cannot be read.
* `C56_overwritten_false` (MultiCsv.lean): is false for two different paths which agree up to their first dot: after the second diagram is written, reading the first path gives the diagrams of the second one (with the names of the first one).
* `C58_zero_table_false` (TableSlices.lean): is false for tables made without boat speeds: slices at their own wind speeds, given as python numbers, raise `IndexError`.
* `C59_symmetric_radians_false` (Curve.lean): is false for functions of radians: the symmetrised version of the function `(wa - π)²`, which is itself symmetric, is not symmetric.
* `C59_slice_radians_false` (Curve.lean): is false for slices of curves of radians: the angles 0, 180, 360 (degrees) of the slice are used as radians. For the function `wa` the boat speed at 180 degrees is not `π`.
* `C60_unknown_false` (Curve.lean): is false for other functions, for example for every symmetrised curve (whose function is called `sym_func`): the file cannot be read.
* `C61_gauss_false` (Curve.lean): is false for `ws_s_wa_gauss`: with the nine parameters of the documented formula it raises `IndexError`.
* `C62_changed_false` (Wind.lean): is false in general: negative wind angles in the array of the caller are overwritten.
* `C63_list_false` (Pipeline.lean): is false for a list of data handlers: the pipeline raises `TypeError`.
* `C64_not_implemented_false` (WeatherMulti.lean): is false for `NotImplementedError`, which the documentation lists among the ignored exceptions.
* `C66_fraction_false` (WeatherMulti.lean): Whatever a format with whole seconds does, it cannot restore two different times that it formats equally: for one of them the model read back differs.
* `C67_nan_false` (GlobeNan.lean): if only the virtual zero point is moved, e.g. to 60 degrees north: the place 60N 0E is not mapped to infinity, but its distance to itself is `nan`.
* `C68_circle_false` (Influence.lean): is false for the distance on the circle: if the only measurement is at 359 degrees, the fitted shift is 0 degrees though there are sampled angles of lower density.
* `C69_equal_false` (Plot.lean): is false if all values are equal: then there are no coefficients.
* `C70_wanted_false` (Nmea.lean): is false if only one of wind angle and wind speed is wanted: with `wanted_attributes=["AWS"]` the apparent wind speed of the sentence keeps its name, for which the standard format has the key of the true wind speed.
* `C71_single_false` (Convex.lean): for single recommendations: a boat that is equally fast on four courses is told to sail to 0 degrees when asked for 90 degrees, although 90 degrees is one of its courses.
* `C71_opposite_false` (Convex.lean): if the courses of the diagram do not go around: a direction outside of the diagram is answered by a mix of courses that goes into the opposite direction, instead of by an exception.
* `C72_repeated_false` (Convex.lean): if the recommended angle occurs twice in the slice, as it may for point clouds: `TypeError`.
* `C72_short_false` (Convex.lean): whenever two different courses are mixed, the boat is still before its destination at the end of the recommended legs.
* `C73_range_false` (Course.lean): for components: the angle may be negative, although it is documented to lie between 0 and 360.
* `C73_north_false` (Course.lean): for components: the angles of wind towards north and wind towards east are interchanged (90 and 0), so the angle is not relative to north, whichever orientation is used for wind directions (towards or from).
* `C73_degrees_false` (Course.lean): for `cruise`: the wind direction in degrees is used as radians, so that wind directions differing by a full circle give different headings.
* `C74_same_place_false` (Course.lean): the distance of a place to itself is `nan`.
* `C74_equator_false` (Course.lean): along the equator: the distance is too short by the factor `π / 180`, because an angle in radians is converted from degrees to radians.
* `C74_meridian_false` (Course.lean): along meridians: the same factor is missing, and the most of the correction for the flattening of the earth is too large by the factor `180 / π`.
* `C74_course_false` (Course.lean): off the equator: the course from 45 degrees south to the equator is 45 degrees instead of north.
* `C74_west_false` (Course.lean): courses to the west are confused with courses to the east.
* `C74_near_nan_false` (CourseNear.lean): between the equator and 45 degrees north: the course to all destinations nearby is nan.
* `C74_near_east_false` (CourseNear.lean): on the southern hemisphere and north of 45 degrees: the course to destinations nearby is near to east, in whatever direction they are.
* `C75_north_false` (Course.lean): travelling north (direction 0) does not change the latitude, the first coordinate.
* `C75_east_false` (Course.lean): travelling east (direction 90) changes the latitude and not the longitude.
* `C76_same_place_false` (Course.lean): if the start is the destination: the way is not defined (`nan`).
* `C78_sum_false` (WeigherStats.lean): weights between two tenths are counted twice, so the percentages may add up to more than 100.
* `C78_equal_false` (WeigherStats.lean): for equal weights, e.g. of `AllOneWeigher`: each of the ten tenths contains 100 percent.
* `C79_dimensions_false` (WeigherData.lean): with the default norm: naming three or more dimensions makes every call raise `ValueError`, because the norm is made for all dimensions but used on all but the last one.
* `C79_columns_false` (WeigherData.lean): with the default norm and without dimensions, unless the data has exactly two or three columns of type float.
* `C79_two_dimensions_false` (WeigherData.lean): with the default norm and two dimensions: the only component that is compared is scaled by both factors. So two wind speeds whose scaled distance equals the radius do not count as close, though they do with the same norm given by the user. Here `euclid` may be any function with the values of the euclidean norm at three points.
* `C79_history_false` (WeigherData.lean): the weigher remembers the columns of the first data it has seen, and ignores all other columns of later data.
* `C80_order_false` (WeigherData.lean): if the attributes are named in another order than in the data: the bounds are mixed up. For the attributes `B`, `A` with the bounds 4, 2 the documented weight of the second row is 1/4, since both deviations are half of their bounds.
* `C80_unsorted_false` (WeigherData.lean): for times that are not sorted: with a time span of zero, the third row is judged by the second one, which has been measured at another time.
* `C80_zero_bound_false` (WeigherData.lean): for the bound 0: no fluctuation at all gives `nan` instead of 1.
* `C81_max_false` (Extension.lean): for the maximum: it is missing in the `"min_max"` resolution whenever the rounded minimum and maximum have different parity.
* `C81_equal_false` (Extension.lean): for `"auto"`: if all wind speeds are rounded to the same number, it occurs twice in the resolution.
* `C81_multiple_false` (Extension.lean): for `"auto"`: if the rounded maximum is a multiple with enough data, it occurs twice.
* `C82_auto_false` (Extension.lean): for `"auto"`: with data of a single wind, the table has the wind four times, and looking it up raises `TypeError`.
* `C82_radians_false` (Extension.lean): for a second processing of the same data with `radians`: the data of the caller is converted in place, so that the curve is fitted to angles converted twice.
* `C83_zero_false` (Quality.lean): for the largest value at angle 0 and wind speeds between 0 and 20: values between the sampled wind speeds are missed.
* `C83_cloud_false` (Quality.lean): for point clouds: `ComformingQualityAssurance` evaluates the diagram at wind speed 0, which raises for every point cloud.
* `C83_local_false` (Quality.lean): for the local difference: it is documented as the largest difference, but an average is reported.
* `C84_table_false` (InPlace.lean): for tables: an array of wind angles is changed if an angle is not from 0 to 360, both by creating a table and by looking up.
* `C84_add_points_false` (InPlace.lean): for adding points to a point cloud: the array of new points is changed if an angle is not from 0 to 360. The wind speeds and boat speeds are kept.
* `C85_default_false` (InPlace.lean): the step sizes 2 and 5 of the default resolutions do not give the default resolutions; 40 knots and 0 degrees are missing.
* `C85_empty_false` (InPlace.lean): for the largest allowed step sizes: they are accepted, but the table has no wind speeds resp. no wind angles.
* `C86_constant_false` (Shepard.lean): Constant data is not reproduced: if all boat speeds are equal, then the result is not a number for every point which is neither a data point nor closer than the tolerance to one.
* `C86_isolated_false` (Shepard.lean): One data point without any other data in its neighbourhood spoils the interpolation everywhere: the result is not a number for every point which is neither a data point nor closer than the tolerance to one.
* `C86_planar_false` (Shepard.lean): Ellipsoids and polytopes cannot be used as neighbourhoods: for at least two data points a `ValueError` is raised for every point that is not a data point.
* `C86_swap_false` (Shepard.lean): Exchanging the roles of wind speed and wind angle, in the data and in the point, should change nothing for a symmetric norm. It does, since the second coordinate is compared with the wind speeds of the other data points.
* `C86_translate_false` (Shepard.lean): Moving all data points and the point by the same wind should change nothing. It does.
* `C86_scale_false` (Shepard.lean): Doubling all boat speeds, as a change of the unit does, does not double the result, since the distances between the data points include their boat speeds.
* `C87_columns_false` (Spiral.lean): for points that are given together with their boat speeds: both samplers raise `ValueError` for every array with three columns (and at least two rows).
* `C87_pointcloud_false` (Spiral.lean): for `PointcloudExtension`, which hands all three columns of the data to its sampler: with a Fibonacci or Archimedean sampler it raises `ValueError` for all data.
* `C87_close_diverges` (Spiral.lean): for points that are very close together: if all points have a distance less than `1/10000` to the first point of the shuffled array, then the radius of the circle is zero, and neither sampler ever returns (unless exactly 9, respectively 11, samples are requested).
* `C87_two_points_false` (Spiral.lean): for two points: the check that there are at least three points lets two points pass, so that the exception is the one raised by the convex hull instead of a `ValueError`.
* `C88_array_repeated_false` (DataHandler.lean): if a name occurs twice: without any message only the last column of this name is kept.
* `C88_csv_short_false` (DataHandler.lean): for files with a row that is shorter than the first line: the missing entry is not `None`, but the entry of the following row takes its place, so that the data point consists of values of different rows.
* `C88_csv_repeated_false` (DataHandler.lean): for files with a repeated name in the first line: the entries of both columns are put into the same column, which has twice as many rows as the file.
* `C88_csv_empty_false` (DataHandler.lean): for files with an empty entry: without pandas they cannot be read at all, given that `strptime` and `literal_eval` reject the empty string.
* `C88_word_false` (DataHandler.lean): for entries that are python expressions but no literals, e.g. `nan` or other words: not the documented `RuntimeError` is raised, but the exception of `literal_eval` (a `ValueError`).
* `C88_mixed_false` (DataHandler.lean): for files read by pandas with a missing entry in a column of dates: the missing entry is a number (`nan`), so the data is rejected. In general columns with entries of two types are rejected.
* `C89_wanted_false` (DataHandler.lean): a sentence of another type is read, if the wanted name occurs anywhere in it, e.g. as the name of a waypoint.
* `C89_unwanted_false` (DataHandler.lean): a sentence of another type is ignored, if an unwanted name occurs anywhere in it.
* `C89_iterator_false` (DataHandler.lean): for wanted sentences given by an iterator, e.g. a generator or an open file, though any iterable is documented: at most as many sentences of the file are read as there are names, since the iterator is exhausted then.
* `C90_iterable_false` (Slices.lean): `ws` may be an iterable of numbers, but iterators and sets of numbers always raise.
* `C90_numpy_false` (Slices.lean): A number of a numpy type which is not a `float` raises, although a sequence containing only this number is accepted.
* `C90_cover_false` (Slices.lean): For a cloud with a wider range of wind speeds points may belong to none of the default slices.
* `C90_sails_points_false` (Slices.lean): Default points of a diagram with several sails need not lie on the diagram: with two sails the point of the slower sail is returned, too.
* `C90_interpolator_false` (Slices.lean): A slice of a point cloud with an interpolator does not have the documented three rows: it has a row for every wind angle, which contains nothing but the boat speed.
* `C91_rgb_false` (PlotColors.lean): A colour given by a tuple of values whose first is a `float` raises `ValueError`, although it is a colour.
* `C91_order_false` (PlotColors.lean): The order of the colours is not determined by the wind speeds: of two slices given in decreasing order that with the greater wind speed is drawn in the first colour, although a third slice reverses this.
* `C92_few_false` (PlotColors.lean): If there are fewer colours than slices (and not two of them) then the legend contains only as many entries as colours, although the other slices are drawn, too.
* `C92_pairs_false` (PlotColors.lean): For pairs of wind speeds and colours the legend shows these pairs only: slices drawn in `"blue"` have no entry.
* `C92_name_false` (PlotColors.lean): If `colors` is the name of a colour then all slices are drawn in this colour, but the legend takes the characters of the name for colours: `"red"` raises `ValueError` if there are at least two slices (since `"e"` is not a colour), and for `"r"` only the first slice has an entry.
* `C92_rgb_false` (PlotColors.lean): A colour given by its red, green and blue values raises `ValueError` if a legend is shown.
* `C93_narrow_false` (PlotHull.lean): Whether a triangle is drawn depends on the order of its vertices: the difference of the wind speeds of the second and the third vertex is not considered. Here it is 0.8, the other ones are 0.4.
* `C93_north_false` (PlotHull.lean): Whether a triangle is drawn depends on the order of its vertices: whether the third vertex is in the north is not considered.
* `C94_outside_false` (PlotHull.lean): The point added at 0° may be far outside the hull: there are a slice and a half plane which contains all points of the slice, but not the point drawn at 0°.
* `C94_order_false` (PlotHull.lean): If the vertices extend over less than 180° then connecting them by angle does not give the boundary of the hull: here each of four points is a vertex (it is the only one in which some linear function is largest), but of two consecutive drawn points the line through them separates two other vertices.
* `C95_slice_false` (DataHeap.lean): for `get_slice` and `data[keys]`: appending to the reduced table `data[["a"]]` lengthens the column of the table `data`, which then has a column with three entries, though its number of rows is two.
* `C95_extend_false` (DataHeap.lean): for `extend` with a new key: the table takes the list of the caller as its column, which changes with the list...
* `C95_caller_false` (DataHeap.lean): … and the list of the caller is changed by later statements for the table: **C95 is false** in this direction, too.
* `C95_self_false` (DataHeap.lean): for `data.update(data)`: the columns are lengthened with `None` before they are read, so that a table with a column shorter than its number of rows ends up with other rows than the same table updated with a copy of itself.
* `C96_iterator_false` (DataRows.lean): for an iterator of column names, though any iterable is documented: only the first row contains the columns, all other rows are empty.
* `C96_tuples_false` (DataRows.lean): for tuples: if the rows are collected first, as in `list(data.rows(return_type=tuple))`, then every single one of them has the entries of the last row.
* `C96_reread_false` (DataRows.lean): for tuples: a row can be read only once, afterwards it is empty.
* `C97_numpy_strings_false` (DataRows.lean): for arrays of strings, though "an array like of strings" is documented: the elements of a numpy array have another type than `str`, so that a `TypeError` is raised, even if all columns exist.
* `C97_numpy_integer_false` (DataRows.lean): for integers of numpy (and for slices): a `TypeError` is raised.
* `C97_iterator_false` (DataRows.lean): for iterators, though the error message names "iterables": the first element is lost, e.g. the mask is moved by one row, and if the first column of the table was selected it is missing; each test consumes elements, so also other columns are lost and the types of the columns are.
* `C98_named_false` (Regressor.lean): for model functions with named parameters, e.g. `f(ws, wa, a, b)`: without initial values there are two of them too many (the arguments for wind speeds and wind angles are counted, too), so that fitting any data raises a `TypeError`.
* `C98_error_diverges` (Regressor.lean): for functions which always raise an `IndexError` or a `TypeError`: `LeastSquareRegressor(f)` never returns, it does not raise the exception.
* `C98_signature_diverges` (Regressor.lean): E.g. functions with one argument, and functions with a required keyword-only argument.
* `C99_columns_false` (Regressor.lean): for `LeastSquareRegressor`: data with further columns is accepted, all columns but the first three are ignored.
* `C99_lists_false` (Regressor.lean): for lists of points, though array likes are documented: both regressors raise an exception for them.
* `C100_item_false` (FuzzyRepr.lean): with subscripts: `(S & S)["a"]` and `S & S["a"]` for a sigmoid `S` have the same representation, but other truth values.
* `C100_sharpness_false` (FuzzyRepr.lean): for different sharpness: it is missing in the representation of comparisons.
* `C101_and_false` (FuzzyRepr.lean): for `&`, `|` and `==`: the result for an array is only the truth value of its first entry.
* `C101_nested_false` (FuzzyRepr.lean): for nested statements: `(e & f) & g` raises a `ValueError` for arrays with more than one entry.
* `C102_array_false` (InfluenceData.lean): for arrays: the result has three rows with all wind speeds, all wind angles and all boat speeds, not one row for each measurement.
* `C102_single_false` (InfluenceData.lean): for single numbers: the result has one dimension, while apparent winds give an array with one row.
* `C103_identity_false` (InfluenceData.lean): for curves with the `IdentityInfluenceModel`: for each direction, the boat speed at the first angle of the slice (0 degrees) is used, since the model gets the array of all wind speeds of the slice for each angle and returns a matrix.
* `C103_changed_false` (InfluenceData.lean): the dictionary of the caller is changed. Used for another call, all of its values are lists of lists of the value which was given.
* `C103_none_false` (InfluenceData.lean): without influence data, though it is optional: an `AttributeError` is raised.
* `C103_directions_false` (InfluenceData.lean): the directions and the proportion of their durations do not depend on the influence model.
* `C104_date_line_false` (GlobePath.lean): across the 180th meridian: the path between two places on the equator, 20 degrees apart, passes the meridian of Greenwich, and its length is 17 times the distance on the globe.
* `C104_pole_false` (GlobePath.lean): for other virtual north poles: with the virtual north pole at 0N 0E and the virtual zero point at 0N 90E, the virtual north pole is a finite point on the equator of the map; what is at the (infinite) north pole of the map is the virtual zero point.
* `C105_unknown_false` (PipelineNames.lean): for misspelt names: nothing is raised, the argument is ignored.
* `C105_both_false` (PipelineNames.lean): if a name and its alias are both given: nothing is raised and the value of the name is ignored.
* `C106_full_false` (CurveExtension.lean): for measurements at 360 degrees: the function is fitted to its value there, but the diagram uses the value at 0 degrees.
* `C106_points_false` (CurveExtension.lean): for the weighted points of the caller: with radians, their wind angles are changed unless they are all 0.
* `C106_quality_false` (CurveExtension.lean): for the quality of curves in radians: `check` gets the wind angles in degrees, so a curve through all measurements, tested with these measurements, is reported to have errors.
* `C107_width_false` (Norms.lean): for other numbers of columns: they raise `NotImplementedError`.
* `C107_zero_false` (Norms.lean): if a factor is 0: a vector other than 0 has norm 0.
* `C107_periodic_false` (Norms.lean): for the angles: the norm does not know that wind angles are periodic. Winds of the angles 1 and 359 are further apart than winds of the angles 1 and 180.
* `C107_standard_false` (Norms.lean): in that there is one standard norm: for wind speed and wind angle the weighers scale wind speeds by 1/20, the interpolators and neighbourhoods by 1/40.
* `C108_fraction_false` (WeatherSources.lean): for fractions: they are cut off, so all times within the same hour become the same time.
* `C108_before_false` (WeatherSources.lean): for times before the given date: half an hour before it becomes the date itself.
* `C108_units_false` (WeatherSources.lean): for other units and other date formats: they raise `NotImplementedError`.
* `C108_descending_false` (WeatherSources.lean): for files with descending times: in contrast to latitudes and longitudes they are not reversed, and then every point is outside of the grid.
* `C109_missing_false` (WeatherSources.lean): for places without data: there the weather is 0, if other places of the latitude have data.
* `C109_times_false` (WeatherSources.lean): if stations have data for different hours: the times are those of the last station.
* `C109_length_false` (WeatherSources.lean): if two stations of a latitude have data for different numbers of hours: `ValueError`.
* `C110_aligned_false` (CloudText.lean): for other speeds: then the columns are shifted.
* `C110_rounded_false` (CloudText.lean): in that the text determines the points: different point clouds may be printed in the same way.
* `C111_gauss_false` (DefaultTable.lean): for the default distribution of `ArithmeticMeanInterpolator`: of two points at the same distance the one with the greater weight counts less.
* `C111_between_false` (DefaultTable.lean): for the interpolated values: halfway between two measurements the value is nearer to the one with the smaller weight.
* `C111_interpolate_false` (DefaultTable.lean): for the interpolation in the default pipeline: halfway between two measurements the value is nearer to the one with the smaller weight.
* `C111_outlier_false` (DefaultTable.lean): for the default pipeline: of two measurements at the same distance of a wind of the table, the one that deviates more from its surroundings, which thus has the smaller weight, counts more.
* `C113_first_false` (DefaultTable.lean): for contradicting measurements: of two measurements of a wind of the table the first one is taken.
* `C114_member_false` (DefaultTable.lean): for `CylindricMemberWeigher`, whose cylinders have a fixed height: twice the speeds have other weights.
* `C116_norm_false` (DefaultTable.lean): for the norms: winds of 359 and 1 degrees are as far from each other as possible.
* `C116_value_false` (DefaultTable.lean): for interpolated values: at the wind angle 355 a measurement at 180 degrees counts more than one with the same weight at 2 degrees.
* `C117_same_false` (StatsObjects.lean): for influence models which set statistics only in `fit`, as `WindAngleCorrectingInfluenceModel` does: the statistics reported for the test data are the very dictionary reported for the training data.
* `C117_stale_false` (StatsObjects.lean): for methods which return early, as `QuantileFilter.filter` does for no weights: the latest statistics are then those of an earlier run.
* `C118_concave_false` (Models2d.lean): for negative coefficients: with the default options `concave_function` is concave only if the third parameter is not negative.
* `C118_gaussian_false` (Models2d.lean): for a negative third parameter: the values grow beyond all bounds.
* `C118_gompertz_false` (Models2d.lean): for `gompertz_model` with `neg=True` and a positive second parameter: the power of a negative number is not a number unless the argument is an integer.
* `C120_units_false` (InterpSym.lean): for `ArithmeticMeanInterpolator` with another `s`, e.g. the default 50 of point clouds: adding a constant to all boat speeds does not add it to the value.
* `C120_order_false` (InterpSym.lean): for points with the same wind and different boat speeds: at this wind the value depends on the order.
* `C122_mirror_false` (CruiseSym.lean): for port and starboard: a boat which is equally fast on the courses 0, 90, 180 and 270 degrees is told to sail to 0 degrees only if asked for 45 degrees, but is given a mixture of 0 and 270 degrees if asked for the mirrored direction of 315 degrees.
* `C122_weather_false` (CruiseSym.lean): for places without weather data: the time per distance is 1000 whatever the units are.
* `C122_isochrone_false` (CruiseSym.lean): for `isochrone` if only the unit of the times is changed: the first step is chosen for a boat of 5 distances per time. Here times are given in tenths of the former unit.
* `C123_empty_false` (DiagramHeap.lean): The claim fails for empty point clouds: `symmetrize` returns the point cloud itself, so that points added to the result are added to the original as well.
* `C123_sails_false` (DiagramHeap.lean): The claim fails for the property `sails`, documented as read only: it is the list of the diagram itself, and removing a name from it removes it from the diagram.
* `C123_member_false` (DiagramHeap.lean): The claim fails for the members of a diagram of several sails: changing the entries of a table changes the diagram made of it before.
* `C123_same_array_false` (DiagramHeap.lean): The claim fails if one array is given as wind speeds and wind angles: the wind speed 370 becomes 10, whereas two equal arrays give the wind speed 370.
* `C134_speed_false` (IsochroneLimit.lean): is false without a tolerance: the faster boat runs into a calm which the slower one jumps over, since the step size depends on the speeds.
* `C134_time_false` (IsochroneLimit.lean): is false without a tolerance: with more time, the steps are longer and lead into the calm.
* `C143_default_false` (TableError.lean): is false with the default neighbourhood, however fine the table is: for a boat going as fast as the wind and a table of its exact speeds at the wind speeds `0, 1/n, 2/n, …, m` (where `m ≥ 2`) and any wind angles, at most 180°, the speed read at the wind speed `1/(2n)` is more than a fifth of a knot, while the boat goes at `1/(2n)` knots.
* `C143_limit_false` (TableError.lean): In particular the errors do not go to zero as the tables get finer, although the tables are exact and the boat speed changes by at most 40 per unit of distance (one knot per knot).
* `C144_grid_false` (WeatherError.lean): is false at grid values, however fine the grid is: the data are exact and change by at most 1 per unit of time, but at time 1 the model returns 0 instead of 1.
* `C145_lookup_false` (Float64.lean): is false for other step sizes: a table with step size 0.1 for the wind speeds has no entries for the wind speed 0.3 (the nearest wind speed of the table is `0.30000000000000004`), so that looking up the entry raises `ValueError`.
* `C145_max_false` (Float64.lean): is false for other step sizes: with step size 0.16 the maximum 40, which is to be excluded, is one of the wind speeds.
* `C146_tiny_false` (Float64.lean): is false for negative wind angles near 0: `-1e-20` is normalised to 360, which is outside of the range, and normalising again gives 0.
* `C146_lookup_false` (Float64.lean): So in a table made for the wind angle `-1e-20` the entry is not found at the wind angle 360 (or 0), although it is the wind angle shown by the table.
* `C150_decimal_false` (FloatSymmetry.lean): for wind angles with two decimals: the wind angle 32.09 has a mirror image in the symmetrised table, but it is not the double 327.91, and reading the table there raises `ValueError`.
* `C150_close_false` (FloatSymmetry.lean): for angles that are extremely close to 0: `360 - a` is rounded to 360, and the boat speeds at the angle 0 and at the mirrored angle are mixed up.
* `C153_dropped_false` (PipelineAccuracy.lean): for the default settings: however many measurements there are at a wind of the table, and however small their errors are, the filter may drop all of them, if they are not as uniform as the measurements at other winds. Here `2 m` measurements at (20, 180) differ by `δ` from 7 knots, but the table has a boat speed of at most 5 knots there.
* `C154_uniform_false` (FloatWeigher.lean): without a restriction of the bits: if 5.4 knots have been measured three times at similar winds then the mean of the three speeds is another double, and all three weights are zero instead of one (whatever the order of summation).
* `C155_number_false` (FloatFilter.lean): for some percentages: 28 percent of the 25 gaps between 26 points are 7 gaps, but the position is rounded to a larger double, and 8 points are discarded (more than 30 percent) instead of 7.
* `C155_close_false` (FloatFilter.lean): for neighbouring doubles: the median of two of them is rounded to the smaller one, and no point is discarded.
* `C158_nan_false` (FloatWind.lean): if wind and boat nearly cancel: an apparent wind of 13.4 knots from ahead and a boat speed of 13.4000001 knots give `nan` for the true wind speed and the true wind angle, because the calculated argument of the square root is negative. In exact arithmetic the true wind has a speed.
* `C159_same_place_false` (FloatGlobe.lean): for places close to each other: if sine and cosine of 3 degrees are correctly rounded, then the distance of the place at 3 degrees north and 0 degrees east to itself is `nan`.
* `C160_cruise_false` (FloatCruise.lean): for slices with an angle of 30 degrees: `cruise` looks for the course 29.999999999999996 recommended by `convex_direction` in the slice and raises `TypeError`, e.g. for the heading 60 and the angles 30, 90, 180 and 270 degrees, whatever the boat speeds are. In exact arithmetic the course is found.
* `C160_border_false` (FloatCruise.lean): at the border of diagrams: a diagram for the angles 45, 90 and 120 degrees is said not to support the direction of 120 degrees.
* `C162_constant_false` (FloatSmoother.lean): (negation): a column with the constant value 3 is changed, and the range of the values is left: with rows at 0, 3 and 5 seconds the second value becomes `3 + 2^-51`.
* `C164_same_false` (FloatCourse.lean): for courses exactly along the direction of the wind: if sine and cosine of 0.025 are correctly rounded, then the calculated cosine of the angle between the course 0.025 and the wind direction 0.025 is more than 1 and the heading is `nan`. In exact arithmetic it is 180 degrees.
* `C164_unsupported_false` (FloatCourse.lean): for diagrams with angles from less than 180 degrees: `cruise` raises `ValueError` for a boat going exactly with the wind, as if this direction were not supported.
* `C165_scalar_false` (NetDims.lean): for variables without dimensions (e.g. the description `crs` of the coordinate system in many files): they are said to have one dimension with an empty name.
* `C165_names_false` (NetDims.lean): for names with blanks and with brackets.
* `C165_scalar_file_false` (NetDims.lean): for files with a variable without dimensions: no weather can be read from them, `NotImplementedError` is raised at all grid points, unless an index for the dimension with the empty name is given.
* `C166_csv_false` (Stamps.lean): for the default format of `CsvFileHandler`: entries such as `2024-02-29 07:05:09`, which is `str` of a time without fraction of a second, are no dates. As they are no python literals either, the file raises `RuntimeError`.
* `C166_start_false` (Stamps.lean): for start times as they are common in NetCDF files: `1900-01-01 00:00:00.0`, `1970-01-01` and `1970-01-01T00:00:00Z` are rejected, so `times` raises `NotImplementedError`.
* `C166_point_false` (Stamps.lean): No time written with a fraction of a second is a start time.
* `C167_default_false` (Repr.lean): for `CylindricMeanWeigher()`: with the default norm, `repr` raises `AttributeError`.
* `C167_keywords_false` (Repr.lean): for `ShepardInterpolator` and `Cuboid`: the names of parameters are wrong (`slope_scal`, `attributes`), so that `TypeError` is raised.
* `C167_syntax_false` (Repr.lean): for `ArithmeticMeanInterpolator`, `Ellipsoid`, curves, point clouds and tables: their representations are no python expressions.
* `C167_ambiguous_false` (Repr.lean): for the dimensions of weighers, which are not shown at all, and for norms with the same name, such as all norms made by `scaled_norm`.
* `C167_ellipsoid_false` (Repr.lean): for ellipsoids: the one with matrix diag(2, 2) is shown with diag(1/2, 1/2).
* `C168_restored_false` (FloatInfluence.lean): as equality: the wind angle 0.7 corrected by 0.8 is not restored.
* `C168_range_false` (FloatInfluence.lean): for the range: corrected by a slightly larger angle, a wind angle becomes 360, whereas equal angles give 0.
* `C169_label_false` (PlotKeywords.lean): for `legend_kw={"label": …}`: although it is a keyword of `Colorbar`, `TypeError` is raised and nothing is drawn.
* `C169_empty_false` (PlotKeywords.lean): for `scatter` without slices: `plot` of matplotlib is called with the keywords for `scatter`.
* `C169_legend3d_false` (PlotKeywords.lean): for three-dimensional plots: `show_legend` and `legend_kw`, parameters of `HROColorGradient.scatter`, are forwarded to matplotlib, which does not know them.
* `C172_decimal_false` (FloatNeighbourhood.lean): Measurements written with decimal digits are rounded before: of the wind speeds 7.95 and 8.05, both at the border of the default cuboid around the grid point (8, 90), only the first one is marked.
* `C173_heading_false` (AgreeCruise.lean): for all directions of more than π degrees: `cost_cruise` uses another heading than `isochrone`.
* `C173_boat_false` (AgreeCruise.lean): for a boat with 5 knots in the direction 90 and 10 knots in the directions up to 4 degrees, the isochrone from the place (0, 0) in the direction 90 reaches 5 miles in an hour, and `cost_cruise` calculates the pace of 10 knots for this way.
* `C174_unused_false` (GivenFunctions.lean): for `ws_s_wa_gauss`: its eighth parameter is fitted, too, but has no influence at all.
* `C174_mirror_false` (GivenFunctions.lean): in that different parameters describe different functions: if the two parts of the other functions which depend on the wind angle are exchanged, with mirrored parameters, then the functions remain the same.
* `C175_opposite_false` (MapDistance.lean): is false: opposite places of the equator are at distance zero.
* `C175_degrees_false` (MapDistance.lean): is false: near the second coordinate 0 a degree of it counts less than 2, a degree of the first coordinate counts 69.
* `C175_turn_false` (MapDistance.lean): is false: turning the globe changes distances. Places 60 degrees apart with the second coordinates 0 and 60 are further apart than those with -30 and 30.
* `C177_quantile_false` (Nan.lean): A weight which is `nan` makes `QuantileFilter` remove everything, whatever the percentage is.
* `C177_member_all_false` (Nan.lean): If every point has a missing value, all of them are given the largest weight.
* `C177_scaling_false` (Nan.lean): A missing value behind the `min_pts - 1` nearest points makes the radius of a `ScalingBall` `nan`, and it contains no point.
* `C177_idw_false` (Nan.lean): If no considered point is the grid point, the interpolated speed is `nan` if the speed of one of them is missing, or the wind of one of them and the exponent is not zero.
* `C177_mean_false` (Nan.lean): A missing value in one of the points makes the weights of all points `nan`.
* `C177_default_false` (Nan.lean): With a missing value in the data no point is kept, and the default pipeline fails.
* `C179_cruise_false` (Stability.lean): for the times returned by `cruise`: however small `d` is, there are diagrams which differ by `3 d` at most but whose times for the same way differ by more than a quarter.
* `C185_first_false` (FuzzyArray.lean): for statements with `&`, `|` or `==`: if they return something for an array, then it is the truth value of the first entry, whatever the others are.
* `C185_weights_false` (FuzzyArray.lean): for weighers: if a statement with `&`, `|` or `==` on a variable without key weighs points of several components, then the weights only depend on the first components.
* `C193_relative_false` (Directory.lean): is false for paths that begin with a dot, like `./old.csv` and `../new.csv`: after a second diagram with several sails is saved at another path, the first path gives the diagrams of the second one under the names of the first one.
* `C193_sail_file_false` (Directory.lean): is false for names like those of the files of the sails: saving a diagram at the path of the first sail of another one changes that one.
* `C197_files_false` (FloatCloud.lean): for tiny negative wind angles: the cloud has the wind angle 360, the cloud read from its file the wind angle 0.
* `C199_session_false` (FloatCloudHistory.lean): for tiny negative wind angles: the file changes the added point.
* `C200_files_false` (FloatCloudCall.lean): after a file for a tiny negative angle: before, the boat speed is found at the given wind; afterwards the point has another angle and the boat speed is interpolated.
* `C200_shown_false` (FloatCloudCall.lean): at stored angles: a point with a tiny negative angle is shown with the angle 360, and is not found there.
* `C200_turn_false` (FloatCloudCall.lean): for full turns that the user adds in double precision: `pd(8, 0.1 + 360)` does not find the point at `0.1`.
* `C201_range_false` (FloatCloudSlices.lean): for smaller wind speeds: the slice at 2 with the range 1 has a point with a wind speed below 1.
* `C201_default_false` (FloatCloudSlices.lean): for every larger span: there is a point in no default slice.
* `C202_shown_false` (FloatTableEntries.lean): for tiny negative angles: the table shows the wind angle 360, at which nothing is found.
* `C202_turn_false` (FloatTableEntries.lean): for full turns that the user adds in double precision: `pd[8, 0.1 + 360]` does not find the entry at `0.1`.
* `C203_turn_false` (FloatTableCall.lean): for full turns that the user adds in double precision: `pd(8, 0.1)` is the entry, but at `0.1 + 360` the interpolator gets no points of the unit disc, as the wind angle is not normalised.
* `C203_shown_false` (FloatTableCall.lean): for tiny negative angles: the table shows the angle 360, but evaluating it there is not the entry.
* `C204_session_false` (FloatTableSession.lean): for tiny negative angles: the new table has the angle 360, after a file it has the angle 0, and the entry is then found at 0 but no longer at the angle that was given.
* `C205_shown_false` (FloatTableSlices.lean): for tables made with tiny negative angles: the slice shows the boat speed 5 at the angle 360, but evaluating the table there is not a lookup.

## Simplifications

* Numbers are exact (see above), except in the double precision models of C145–C148, C150, C152, C154–C164, C168, C172, C181–C184, C186, C191, C192, C194–C205 (modules `Model/Float*.lean`); these have unbounded exponents, so overflow and underflow are left out. Comparisons such as `wa == angle` in `convex_direction` are exact.
* The execution time in the statistics of the pipeline is left out.
* Warnings and log messages are left out.
* `scipy.spatial.ConvexHull` is a parameter whose contract is `IsHull`: no vertex twice, every course lies
  in the hull of the vertices, no vertex lies in the hull of the others.
* `scipy.integrate.solve_ivp` is a parameter: the nodes of its solution are universally quantified.
* `strftime`, `strptime`, number formatting and `literal_eval` are parameters with explicit hypotheses. For doubles, `Model/FloatText`
  defines number formatting and reading, and C151 proves the hypotheses.
* The order of the iteration over a python `set` is not assumed.
* The private functions `_add_zeros` (`pipeline.py`) and `_get_points` (`_polardiagrampointcloud.py`) are never called and are not
  modelled.

## Mutation testing

`seeded/LOG.jsonl` lists edits of model definitions that resemble realistic bugs. For every edit the whole
project is rebuilt in a scratch copy and the property theorems whose proof (or a proof they depend on) fails
are recorded. Edits that broke a claim without breaking its theorem led to stronger theorems; these are in
the field `theorems_tightened`.
