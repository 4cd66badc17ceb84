{"id": "C01", "title": "Equal-width axis construction tiles its range", "statement": "Constructing an axis from (name, min, max, n) succeeds exactly when min < max and n > 0 (otherwise it throws a LogicError). When it succeeds the axis has n bins; the first low edge is min, the last high edge is max, the high edge of each bin is the low edge of the next, every bin has the same positive width (max-min)/n, and every bin centre is the midpoint of its edges.", "quantifier": "every min, max and bin count", "why_tests_cant": "the bin count and the limits are unbounded; a test fixes a handful of them", "anchors": ["src/histogram/BinAxis.cpp: BinAxis::BinAxis(name,min,max,n)", "src/histogram/BinAxis.h"]}
{"id": "C02", "title": "Variable-width axis construction accepts only legal bins", "statement": "Constructing an axis from explicit low and high edges succeeds only if the lists are non-empty and of equal length, the low edges do not decrease and no bin has its low edge above its high edge; every bin returned by a successful construction has exactly the supplied edges, non-negative width equal to high-low and its centre midway. A user would also expect overlapping or gapped bins to be rejected so that every value in range lies in exactly one bin.", "quantifier": "every pair of edge lists", "why_tests_cant": "the edge lists are of arbitrary length and content", "anchors": ["src/histogram/BinAxis.cpp: BinAxis::BinAxis(name,low,high)"]}
{"id": "C03", "title": "One-dimensional bin lookup is the unique half-open bin, with under/overflow clamped", "statement": "For an axis whose bins are contiguous, FindBin(x) always returns a valid bin index; if x lies in [min,max) it is the only bin with low <= x < high; anything below min goes to the first bin and anything at or above max to the last bin; the returned index is monotone in x; and the centre (and the low edge) of a non-empty bin is found in that bin.", "quantifier": "every contiguous axis (equal or variable width, any number of bins) and every value", "why_tests_cant": "binary search correctness depends on every position and every axis length", "anchors": ["src/histogram/BinAxis.cpp: BinAxis::FindBin"]}
{"id": "C04", "title": "Flat index and per-axis indices are in bijection", "statement": "For any collection of axes with at least one axis, flattening in-range per-axis indices gives a flat index below the total number of bins, unflattening any flat index below that total gives in-range per-axis indices, and the two operations are mutually inverse; the last added axis varies fastest; the total bin count is the product of the per-axis bin counts.", "quantifier": "every number of axes, every bin count per axis, every index", "why_tests_cant": "dimension count and sizes are unbounded", "anchors": ["src/histogram/AxisCollection.cpp: FlattenIndices, UnflattenIndex, UnpackIndices, CountBins"]}
{"id": "C05", "title": "Multi-dimensional bin lookup agrees with the per-axis lookups and the reported bin box", "statement": "Finding the bin of a point in an axis collection returns a valid flat bin whose per-axis indices are the per-axis lookups; if the point is inside all axis ranges, it lies inside the box given by GetBinLowEdges / GetBinHighEdges for that bin; the bin's centre is the tuple of axis centres.", "quantifier": "every axis collection with contiguous axes, every point of matching dimension", "why_tests_cant": "dimension count and points are unbounded", "anchors": ["src/histogram/AxisCollection.cpp: FindBin, GetBinLowEdges, GetBinHighEdges, GetBinCentres, GetBinLowEdge, GetBinHighEdge, GetBinCentre"]}
{"id": "C06", "title": "Out-of-range bin access is rejected", "statement": "Reading, setting or adding to a histogram bin outside 0..GetNBins()-1 throws NotFoundError and leaves the histogram unchanged.", "quantifier": "every histogram and every bin number", "why_tests_cant": "the offending bin number is one particular value per histogram size", "anchors": ["src/histogram/Histogram.cpp: GetBinContent, AddBinContent, SetBinContent", "src/histogram/AxisCollection.cpp: GetBinLowEdge, GetBinLowEdges"]}
{"id": "C07", "title": "Filling puts each weight in exactly the containing bin and conserves the total", "statement": "Filling a histogram with (point, weight) adds the weight to the one bin that FindBin reports and leaves every other bin alone; after any sequence of fills each bin holds the sum of the weights of the points it contains and the integral equals the sum of all weights, under/overflow included; a point of the wrong dimension throws DimensionError and changes nothing; filling through an observable-name map picks the observables by axis name and throws NotFoundError when one is missing.", "quantifier": "every histogram, every sequence of fills", "why_tests_cant": "sequence length, dimension and weights are unbounded", "anchors": ["src/histogram/Histogram.cpp: Fill, Integral, FindBin", "src/histogram/AxisCollection.cpp: FindBin"]}
{"id": "C08", "title": "Scale and Normalise", "statement": "Scale(s) multiplies each bin and the integral by s; Normalise makes the integral exactly one while preserving all ratios of bin contents, provided the integral is non-zero; normalising twice is the same as normalising once.", "quantifier": "every histogram with non-zero integral, every factor", "why_tests_cant": "content vectors are arbitrary", "anchors": ["src/histogram/Histogram.cpp: Scale, Normalise, Integral"]}
{"id": "C09", "title": "Marginalisation sums over the dropped axes", "statement": "Marginalising onto a non-empty list of distinct existing axis names gives a histogram over exactly those axes (in the requested order) in which each bin is the sum of all original bins having those indices on the kept axes; the integral is conserved; asking for an unknown axis throws NotFoundError and a repeated one throws ValueError.", "quantifier": "every histogram, every list of axis names", "why_tests_cant": "number of axes, sizes and requested subsets/orders are unbounded", "anchors": ["src/histogram/Histogram.cpp: Marginalise"]}
{"id": "C10", "title": "Slices contain the right cells", "statement": "GetSlice with some axes fixed at given bins returns a histogram over the remaining axes, in their original order, whose bin at any index tuple equals the original bin with those indices on the remaining axes and the fixed indices on the fixed ones; unknown axis names and fixing all (or more) axes throw.", "quantifier": "every histogram, every proper non-empty set of fixed axes and fixed bins", "why_tests_cant": "dimension count and sizes are unbounded; one-dimensional slices cannot reveal an ordering fault", "anchors": ["src/histogram/Histogram.cpp: GetSlice, Recurse"]}
{"id": "C11", "title": "Bin-by-bin arithmetic between histograms", "statement": "Add(other,w), Multiply(other) and Divide(other) act on each bin independently, throw ValueError and change nothing when the axes differ, and Add makes the integral equal to I1 + w*I2. Adding with weight w then -w restores the contents.", "quantifier": "every pair of histograms, every weight", "why_tests_cant": "content vectors are arbitrary", "anchors": ["src/histogram/Histogram.cpp: Add, Multiply, Divide", "src/histogram/AxisCollection.cpp: operator==", "src/histogram/BinAxis.cpp: operator=="]}
{"id": "C12", "title": "Lattice point values around a point", "statement": "GetLatticePointValues(p) returns the contents of the 2^d bins whose centres surround p, for every p inside the histogram's range; points for which there is no neighbouring centre (outermost half bins) are rejected or clamped to the edge.", "quantifier": "every histogram and every point inside its range", "why_tests_cant": "the failing points are thin edge regions whose position depends on the axes", "anchors": ["src/histogram/Histogram.cpp: GetLatticePointValues"]}
{"id": "C13", "title": "One-dimensional range integral", "statement": "Integral(lo,hi) of a one-dimensional histogram is the sum of the contents of the bins from the one holding lo to the one holding hi inclusive; it is 0 when hi <= lo, additive over adjacent bin-aligned ranges after removing the shared bin, equal to the full integral for ranges covering the axis, and throws DimensionError for other dimensions.", "quantifier": "every 1D histogram and range", "why_tests_cant": "all pairs of range limits", "anchors": ["src/histogram/Histogram.cpp: Integral(double,double)"]}
{"id": "C14", "title": "Means and variances of a normalised histogram", "statement": "For a non-negative histogram with unit integral the mean on each axis lies between the lowest and highest bin centres of that axis and the variance is non-negative and equal to the expected squared deviation of the bin centres from the mean.", "quantifier": "every normalised non-negative histogram of any dimension", "why_tests_cant": "content vectors are arbitrary", "anchors": ["src/histogram/Histogram.cpp: Means, Variances"]}
{"id": "C15", "title": "Parameter registry set/get", "statement": "After registering parameters and calling SetParameters with a dictionary that contains every registered name, GetParameters returns exactly the dictionary restricted to the registered names, extra names being ignored; if any registered name is missing ParameterError is thrown. Single-parameter set/get reads back the value and touches no other parameter. An all-or-nothing update would be expected on failure.", "quantifier": "every set of registered names and every dictionary", "why_tests_cant": "names and dictionaries are unbounded", "anchors": ["src/core/ParameterManager.cpp", "src/core/ContainerTools.hpp: HasSameKeys, SetValues"]}
{"id": "C16", "title": "Renaming a parameter preserves its value and every other parameter", "statement": "RenameParameter(old,new) on the registry moves the value from old to new, leaves all others and the count unchanged, throws when old is absent or new already exists, leaving the registry unchanged. The same is expected of every fit component that offers RenameParameter (shape, renormalisation and scale-function systematics).", "quantifier": "every registry and every pair of names, including old = new", "why_tests_cant": "the failing pairs (old=new, new already present) are corner values of an unbounded domain", "anchors": ["src/core/ParameterManager.cpp: RenameParameter", "src/systematic/Shape.cpp: RenameParameter", "src/systematic/Renorm.cpp: RenameParameter", "src/systematic/ScaleFunction.cpp: RenameParameter"]}
{"id": "C17", "title": "Component registry is the union of its components' parameters", "statement": "The component manager's parameter names are the union of the names of its components, its parameter count is the size of this union, SetParameters hands every component the dictionary so that a name shared between components is set in all of them, and GetParameters afterwards returns the set values.", "quantifier": "every list of components with arbitrary overlapping names", "why_tests_cant": "number and overlap of components is unbounded", "anchors": ["src/core/ComponentManager.cpp"]}
{"id": "C18", "title": "Matrix application and composition", "statement": "Applying a response matrix to a bin vector is matrix-vector multiplication; applying the product A*B equals applying B then A; setting a component then reading it returns it and changes no other; indices out of range throw NotFoundError; vectors of the wrong length throw DimensionError; SetToIdentity makes application the identity.", "quantifier": "every matrix size and content", "why_tests_cant": "sizes and contents are unbounded", "anchors": ["src/core/SparseMatrix.cpp", "src/core/DenseMatrix.cpp"]}
{"id": "C19", "title": "Symmetric matrix construction", "statement": "SetSymmetricMatrix accepts exactly the vectors of length n(n+1)/2 for an n-column matrix and the resulting matrix is symmetric with its lower triangle, row by row, equal to the vector.", "quantifier": "every n and every vector", "why_tests_cant": "n is unbounded", "anchors": ["src/core/DenseMatrix.cpp: SetSymmetricMatrix"]}
{"id": "C20", "title": "Scale and shift responses are sub-stochastic and conserve what stays in range", "statement": "For a systematic that scales or shifts one observable, after Construct each response entry lies in [0,1], each column sums to at most 1, a column sums to exactly 1 iff the image of the bin on the transformed axis lies within the axis range, entries between bins that differ on another axis are zero, and scale 1 / shift 0 gives the identity. Each entry is the fraction of the transformed source bin overlapping the destination bin.", "quantifier": "every axis collection with contiguous positive-width bins, every positive scale factor / every shift", "why_tests_cant": "factors and binning are continuous and unbounded", "anchors": ["src/systematic/Scale.cpp: Construct, GetBinContribution", "src/systematic/Shift.cpp", "src/systematic/ScaleFunction.cpp", "src/systematic/Systematic.cpp: BinsCompatible"]}
{"id": "C21", "title": "Applying a systematic conserves the normalisation bookkeeping", "statement": "Applying a systematic to a distribution returns the response matrix applied to its contents; when no norm pointer is given, the result is renormalised to unit integral; when it is, the integral before normalisation is reported through it; applying before construction or to a distribution of the wrong size throws.", "quantifier": "every distribution and response", "why_tests_cant": "contents are arbitrary", "anchors": ["src/systematic/Systematic.cpp: operator()"]}
{"id": "C22", "title": "Re-targeting a systematic to new axes", "statement": "After SetAxes is called with different axes, the next Construct yields the response for the new axes, exactly as for a freshly made systematic.", "quantifier": "every history of SetAxes / parameter changes / Construct calls", "why_tests_cant": "it is a property of call histories, a stale cache is only visible after a particular one", "anchors": ["src/systematic/Scale.cpp: SetAxes, Construct, fCachedBinMapping", "src/systematic/Shift.cpp", "src/systematic/ScaleFunction.cpp"]}
{"id": "C23", "title": "Shape systematic multiplies bin by bin", "statement": "The shape systematic's response is diagonal with entries the shape function at the bin centres; a negative value is rejected with ValueError; applying it multiplies each bin by its value.", "quantifier": "every shape function, axis collection and parameter setting", "why_tests_cant": "functions and contents are arbitrary", "anchors": ["src/systematic/Shape.cpp"]}
{"id": "C24", "title": "Convolution response acts only on the transformed observables", "statement": "The convolution systematic's response between two bins is the kernel integral between their transformed-observable coordinates when all other coordinates agree and zero otherwise.", "quantifier": "every axis collection, every choice (and order) of transformed observables, every kernel", "why_tests_cant": "the number and order of observables is unbounded", "anchors": ["src/systematic/Convolution.cpp: Construct, CacheCompatibleBins"]}
{"id": "C25", "title": "Group response is the ordered product of its systematics, the global group first", "statement": "For every registered distribution, the systematics applied are exactly those of the global group followed by its own groups in the order registered, and within a group in the order added; distributions registered with no group of their own see only the global group; distributions never registered are left as they were.", "quantifier": "every registration history of systematics, groups and distributions", "why_tests_cant": "it ranges over histories of registrations", "anchors": ["src/fitutil/SystematicManager.cpp: Construct, DistortEDs, Add, AddDist"]}
{"id": "C26", "title": "A systematic is never applied twice to a distribution", "statement": "Registering the same systematic in the global group and any other group, or assigning a distribution to groups that share a systematic, is rejected with an exception; legal registrations are accepted regardless of order.", "quantifier": "every registration history", "why_tests_cant": "it ranges over histories of registrations", "anchors": ["src/fitutil/SystematicManager.cpp: Add, AddDist, UniqueSystematics, checkAllOtherGroups"]}
{"id": "C27", "title": "Expected bin rate is the sum over distributions of normalisation times shape", "statement": "The expected content of a bin reported by the binned distribution manager equals the sum over distributions of current normalisation times (working) bin content, for any mix of normalisation fitting modes; it is independent of the order in which distributions were added.", "quantifier": "every list of distributions, normalisation modes and values", "why_tests_cant": "lists and modes are unbounded", "anchors": ["src/fitutil/BinnedEDManager.cpp: BinProbability, SetNormalisations, AddPdf"]}
{"id": "C28", "title": "Each fitted normalisation reaches its own distribution", "statement": "After SetParameters, each fittable normalisation parameter named after a distribution is the normalisation used for that distribution, for any mix of fitting statuses; setting parameters and re-asserting normalisations never moves a value to another distribution.", "quantifier": "every list of distributions with arbitrary fitting statuses", "why_tests_cant": "only particular interleavings of statuses reveal a misassignment", "anchors": ["src/fitutil/BinnedEDManager.cpp: ReassertNorms, RegisterParameters, SetParameters, AddPdf"]}
{"id": "C29", "title": "Repeated evaluation with unchanged parameters is idempotent", "statement": "Evaluating the binned likelihood twice without changing parameters or data gives the same value, with or without systematics, buffers or fitting modes.", "quantifier": "every configuration (dimensions, buffers, norm status, systematics)", "why_tests_cant": "it ranges over configurations and call histories", "anchors": ["src/teststat/BinnedNLLH.cpp: Evaluate", "src/fitutil/BinnedEDManager.cpp: ApplyShrink, ApplySystematics"]}
{"id": "C30", "title": "Shrinking keeps exactly the fit region", "statement": "With buffers set and overflow off, shrinking a distribution keeps precisely the bins inside the buffers on every axis with unchanged contents and drops the rest; with overflow on, buffer contents are added to the nearest retained bin and the integral is conserved; with no buffers the distribution is returned unchanged; buffers that leave no bin are rejected.", "quantifier": "every distribution, every buffer setting", "why_tests_cant": "dimension count, sizes and buffers are unbounded", "anchors": ["src/fitutil/BinnedEDShrinker.cpp: ShrinkAxis, SetBinMap, ShrinkDist"]}
{"id": "C31", "title": "Binned likelihood value", "statement": "BinnedNLLH evaluates to sum over bins of (mu_b - n_b log mu_b) plus the constraint terms; it is unchanged under permutation of distributions; with no constraints it is minimised per bin at mu_b = n_b; a bin with zero expected rate raises an error rather than returning a value.", "quantifier": "every data histogram and expected rates", "why_tests_cant": "real-valued contents of unbounded length", "anchors": ["src/teststat/BinnedNLLH.cpp: Evaluate"]}
{"id": "C32", "title": "Barlow-Beeston likelihood", "statement": "The per-bin Barlow-Beeston scale factor used in the likelihood is the unique positive solution of beta^2 + (mu*sigma^2 - 1)*beta - n*sigma^2 = 0, hence equals 1 when n = mu. With Barlow-Beeston switched on, the value of the likelihood is the sum over bins of the smallest, over all factors on the bin's rate mu, of the Poisson term plus the penalty (beta - 1)^2/(2 sigma^2), plus the constraint terms, where sigma^2 is the sum over the distributions of normalisation over number of generated events, divided by mu^2.", "quantifier": "every n >= 0, mu > 0, sigma^2 > 0; every configuration of distributions, numbers generated, systematics, constraints, parameters and data, after any history of calls", "why_tests_cant": "real-valued inputs", "anchors": ["src/teststat/BinnedNLLH.cpp: Evaluate", "src/teststat/BinnedNLLH.cpp: AddPdf", "src/teststat/BinnedNLLH.cpp: SetBarlowBeeston"]}
{"id": "C33", "title": "Data set replaced after an evaluation is treated like the first", "statement": "Setting a new data distribution (or data set) and evaluating gives the same value as a freshly configured likelihood with that data.", "quantifier": "every call history of setters and evaluations", "why_tests_cant": "only histories that change the data after evaluating reveal it", "anchors": ["src/teststat/BinnedNLLH.cpp: Evaluate, SetDataDist, SetDataSet, fAlreadyShrunk"]}
{"id": "C34", "title": "Sum of test statistics", "statement": "The sum statistic evaluates to the sum of its parts plus its own constraints, its parameter names are the union of the parts' names, and setting a parameter sets it in every part that has it.", "quantifier": "every list of statistics", "why_tests_cant": "list length and overlaps are unbounded", "anchors": ["src/teststat/StatisticSum.cpp"]}
{"id": "C35", "title": "Quadratic constraints", "statement": "A quadratic penalty is non-negative, zero exactly at the mean, equal to (x-mean)^2/(2 sigma^2) with the upper width used for x >= mean and the lower width otherwise, and non-decreasing as x moves away from the mean on either side.", "quantifier": "every mean, positive widths and value", "why_tests_cant": "real-valued inputs", "anchors": ["src/constraint/QuadraticConstraint.h"]}
{"id": "C36", "title": "Bivariate constraints", "statement": "A correlated pair penalty is non-negative and zero exactly at both means for every accepted correlation; with zero correlation it is the sum of the two quadratic penalties; it is symmetric under exchanging the parameters. Correlations outside (-1,1) are rejected.", "quantifier": "every mean pair, positive width pair and correlation", "why_tests_cant": "real-valued inputs; the failing region |rho|>1 is outside of usual tests", "anchors": ["src/constraint/BivariateQuadraticConstraint.h"]}
{"id": "C37", "title": "Constraint manager", "statement": "Total penalty is the sum of the penalties of the registered constraints and depends only on constrained parameters; a parameter never ends up with both an individual and a pair constraint, nor a pair in both orders; re-registering a single-parameter constraint replaces it; an unset parameter raises an exception. With correlations between -1 and 1, and no negative interpolated table, a finite total is never negative.", "quantifier": "every history of SetConstraint calls and every parameter dictionary", "why_tests_cant": "it ranges over registration histories", "anchors": ["src/constraint/ConstraintManager.cpp"]}
{"id": "C38", "title": "Ratio and fractional constraints", "statement": "Ratio and fractional penalties are finite, non-negative and zero exactly when the ratio (fraction) equals its central value, also when the denominator is (near) zero.", "quantifier": "every pair of parameter values", "why_tests_cant": "the zero-denominator point is one point of a continuum", "anchors": ["src/constraint/RatioConstraint.h", "src/constraint/FractionalConstraint.h"]}
{"id": "C39", "title": "Interpolated shape constraint", "statement": "The interpolated penalty equals the grid value at every interior grid bin centre, is bounded by the smallest and largest of the surrounding grid values, and is linear in each coordinate within a cell.", "quantifier": "every grid and every point", "why_tests_cant": "continuum of points, any dimension", "anchors": ["src/constraint/ShapeInterpConstraint.cpp", "src/constraint/ShapeConstraint.h", "src/histogram/Histogram.cpp: GetLatticePointValues"]}
{"id": "C40", "title": "Cut semantics", "statement": "A box cut passes exactly values strictly between its limits, a line cut exactly values strictly on its declared side, a bool cut exactly values equal to its value; an unknown sidedness is rejected; a cut on an observable the event lacks throws NotFoundError.", "quantifier": "every limit and every event", "why_tests_cant": "continuum of values", "anchors": ["src/cut/BoxCut.cpp", "src/cut/LineCut.cpp", "src/cut/BoolCut.cpp"]}
{"id": "C41", "title": "Cut collection and cut-flow accounting", "statement": "An event passes a cut collection iff it passes every cut; the log attributes each rejected event to the first cut it fails in order; after any number of events, events seen = passes + sum of cut counts, and the reported remainders decrease cut by cut from events seen to passes. Logged and unlogged variants agree.", "quantifier": "every list of cuts and every sequence of events", "why_tests_cant": "sequence length unbounded", "anchors": ["src/cut/CutCollection.cpp", "src/cut/CutLog.cpp"]}
{"id": "C42", "title": "Event and observable-set lookups", "statement": "Observables are extracted from an event belonging to a data set by name in the order of the requested observable set; the indices of one observable set within another are the positions of equal names; requests for names that are absent throw.", "quantifier": "every name list (including duplicates) and event", "why_tests_cant": "names are unbounded", "anchors": ["src/data/Event.cpp: ToObsSet, GetDatum", "src/data/ObsSet.cpp: GetIndex, GetRelativeIndices"]}
{"id": "C43", "title": "In-memory data set", "statement": "AddEntry appends one event, rejects wrong-sized ones, GetEntry(i) returns the i-th added event and rejects out-of-range i; a+b returns the concatenation without modifying a.", "quantifier": "every history of additions", "why_tests_cant": "histories unbounded; aliasing of the operand is not visible in the returned value", "anchors": ["src/data/OXSXDataSet.cpp"]}
{"id": "C44", "title": "Random sampling without replacement draws distinct events", "statement": "Fake data drawn without replacement from a data set contains no event twice, and when the requested number equals the number of events it is a permutation of the data set; asking for more events than remain is rejected; over several calls no event is repeated until Reset.", "quantifier": "every data set size, every number requested, every random stream, every call history", "why_tests_cant": "random streams and histories are unbounded", "anchors": ["src/data/DataSetGenerator.cpp: RandomDrawsNoReplacement"]}
{"id": "C45", "title": "Sequential sampling without replacement visits every event once", "statement": "Drawing all events sequentially without replacement yields each event of the data set exactly once, in order.", "quantifier": "every data set size and number requested", "why_tests_cant": "size unbounded", "anchors": ["src/data/DataSetGenerator.cpp: SequentialDrawsNoReplacement"]}
{"id": "C46", "title": "Remaining events complement the drawn ones", "statement": "After drawing without replacement, AllRemainingEvents returns exactly the events not drawn, each once; before any draw it returns all of them.", "quantifier": "every data set size and draw history", "why_tests_cant": "histories unbounded", "anchors": ["src/data/DataSetGenerator.cpp: AllRemainingEvents, AddDataSet, Reset"]}
{"id": "C47", "title": "Sampling with replacement can reach every event", "statement": "With replacement, every drawn event is an element of the data set and every event of the data set can be drawn by some random value.", "quantifier": "every data set size and random value", "why_tests_cant": "a probability-zero event cannot be distinguished from an unlucky one by a test", "anchors": ["src/data/DataSetGenerator.cpp: RandomDrawsWithReplacement", "src/rand/Rand.cpp: Shoot"]}
{"id": "C48", "title": "Observable-name serialisation round-trips", "statement": "Packing a non-empty list of observable names into one delimited string and unpacking it returns the same list when no name contains the delimiter.", "quantifier": "every list of names", "why_tests_cant": "names and lengths unbounded", "anchors": ["src/data/IO.cpp: FlattenStringVector, UnpackString"]}
{"id": "C49", "title": "Data set written in slabs is complete and in order", "statement": "Saving a data set writes, for every number of events and observables, exactly the values of each event in order, with no gap or overlap between consecutive writes, and loading reads the same values back.", "quantifier": "every number of events and observables", "why_tests_cant": "faults appear only at sizes relative to the slab length and at zero", "anchors": ["src/data/IO.cpp: SaveDataSet, LoadDataSet"]}
{"id": "C50", "title": "At most one lazily loaded data set is in memory", "statement": "At any time at most one of the registered lazy data sets holds its data in memory, and reading an entry returns the file's entry no matter how accesses are interleaved.", "quantifier": "every interleaving of accesses to any number of lazy data sets", "why_tests_cant": "interleavings unbounded", "anchors": ["src/data/LazyOXSXDataSet.cpp"]}
{"id": "C51", "title": "Counting experiment arithmetic", "statement": "The counting result's expected counts are rate times efficiency per background, their total is the sum, the observed count is the number of data events passing the cuts and estimates are consistent with them.", "quantifier": "every list of backgrounds, cuts and data", "why_tests_cant": "lists unbounded", "anchors": ["src/count/CountingExperiment.cpp", "src/count/CountingResult.cpp"]}
{"id": "C52", "title": "Grid search visits the whole grid and returns its minimum", "statement": "Grid search evaluates the statistic at every grid point between the minima and maxima with the given steps and returns the parameters with the smallest (largest when maximising) value.", "quantifier": "every number of parameters, ranges, steps and objective functions", "why_tests_cant": "the parameter count and objectives are unbounded", "anchors": ["src/optimise/GridSearch.cpp: Optimise, Increment"]}
{"id": "C53", "title": "MCMC stays within bounds and reports the best visited point", "statement": "Every point of the chain lies within the declared minima and maxima, rejected proposals leave the chain where it was, and the reported best fit is the visited point with the best statistic.", "quantifier": "every proposal stream, objective and bounds", "why_tests_cant": "random streams unbounded", "anchors": ["src/optimise/MCMC.cpp: Optimise, StepAccepted"]}
{"id": "C54", "title": "Chain storage: burn-in, thinning and acceptance rate", "statement": "Samples recorded are exactly those after the burn-in at multiples of the thinning factor; the reported acceptance rate is accepted/total over every recorded history.", "quantifier": "every history of Fill calls", "why_tests_cant": "histories unbounded", "anchors": ["src/optimise/MCMCSamples.cpp: Fill"]}
{"id": "C55", "title": "Leapfrog integration is reversible", "statement": "Integrating Hamilton's equations n leapfrog steps, flipping the momentum and integrating n steps again returns to the starting point with flipped momentum; with reflective bounds positions stay within bounds.", "quantifier": "every potential gradient, step size, number of steps and starting point", "why_tests_cant": "continuum of inputs and unbounded step count", "anchors": ["src/optimise/LeapFrog.hpp", "src/optimise/LeapFrog.cpp"]}
{"id": "C56", "title": "Minimiser name/value mapping", "statement": "The wrapper given to the minimiser maps the k-th numerical value to the k-th fit parameter name on every call and evaluates the statistic there, negated when maximising; the reported best-fit associates each value with its own name.", "quantifier": "every set of parameter names and values", "why_tests_cant": "names unbounded", "anchors": ["src/optimise/MinuitFCN.cpp", "src/optimise/Minuit.cpp"]}
{"id": "C57", "title": "Bayesian upper bound", "statement": "The upper bound at credibility c of a one-dimensional normalised posterior histogram is a value below which at least a fraction c and, up to one bin's content, no more than c of the posterior lies.", "quantifier": "every posterior histogram and credibility in (0,1)", "why_tests_cant": "contents arbitrary", "anchors": ["src/interval/BayesIntervalCalc.cpp: UpperBound"]}
{"id": "C58", "title": "Random bin generation follows the cumulative distribution", "statement": "The binned generator maps a uniform random number r in (0,1] to the bin b with CDF(b-1) < r <= CDF(b), so that bin b's probability is its share of the content and empty bins are never generated; a fake distribution holds in each bin the number of draws that gave it and in total the rounded rates.", "quantifier": "every distribution and every random number", "why_tests_cant": "continuum of random numbers", "anchors": ["src/dist/BinnedEDGenerator.cpp"]}
{"id": "C59", "title": "Composite distribution is the product of its parts", "statement": "Multiplying distributions gives one whose dimension is the sum, whose probability is the product of the parts' probabilities on their own observables and whose integral is the product of the integrals; multiplication is associative up to probability.", "quantifier": "every list of distributions and every event", "why_tests_cant": "lists unbounded", "anchors": ["src/dist/CompositeED.cpp"]}
{"id": "C60", "title": "Bins as fit parameters", "statement": "A spectral fit distribution exposes one parameter per bin; setting the parameter of a bin changes that bin's content to the given value and nothing else; getting it returns the bin's content.", "quantifier": "every distribution, bin and value", "why_tests_cant": "sizes unbounded", "anchors": ["src/dist/SpectralFitDist.cpp"]}
{"id": "C61", "title": "Gaussian fitter parameter access", "statement": "Each named mean/width parameter of a Gaussian can be read and written by name; SetParameter then GetParameter returns the value; renaming keeps values.", "quantifier": "every dimension and parameter name", "why_tests_cant": "only the first parameter works in a one-dimensional test", "anchors": ["src/function/GaussianFitter.cpp"]}
{"id": "C62", "title": "Combination enumeration", "statement": "The combinations helper lists every combination of one element per input list exactly once.", "quantifier": "every list of lists", "why_tests_cant": "sizes unbounded", "anchors": ["src/core/Combinations.hpp"]}
{"id": "C63", "title": "String splitting and list parsing", "statement": "Splitting a string at a delimiter returns the non-empty pieces in order; joining non-empty delimiter-free pieces and splitting returns the pieces.", "quantifier": "every string and piece list", "why_tests_cant": "strings unbounded", "anchors": ["src/core/ContainerTools.hpp: SplitString"]}
{"id": "C64", "title": "Event systematics change only their own observable", "statement": "Scaling or shifting an event's observable changes only that observable, by the stated law; a manager applies its systematics in the order added; a non-positive scale is rejected.", "quantifier": "every event, factor and sequence", "why_tests_cant": "sequences unbounded", "anchors": ["src/eventSystematic/EventScale.cpp", "src/eventSystematic/EventShift.cpp", "src/fitutil/EventSystematicManager.cpp"]}
{"id": "C65", "title": "Autocorrelation window", "statement": "The autocorrelation calculator keeps at most the configured number of the most recent values and computes every lag's estimate from exactly the pairs of values that many steps apart.", "quantifier": "every sequence of values", "why_tests_cant": "sequences unbounded", "anchors": ["src/optimise/AutoCorrelationCalc.cpp"]}
{"id": "C66", "title": "Fit result copying", "statement": "Copying or assigning a fit result yields an equal independent result, including its stored statistic space, whatever the target previously held.", "quantifier": "every pair of fit results", "why_tests_cant": "the failing case depends on the target's prior state", "anchors": ["src/optimise/FitResult.cpp: operator="]}
{"id": "C67", "title": "Distribution filling from data", "statement": "Filling a distribution from a data set adds exactly one count per event passing the cuts (after the event systematics), up to the number of events requested; the integral increases by that number.", "quantifier": "every data set, cut collection and event limit", "why_tests_cant": "data sets unbounded", "anchors": ["src/dist/DistFiller.cpp"]}
{"id": "C68", "title": "Histogram export/import round trip", "statement": "Converting a binned distribution to an external one/two/three-dimensional histogram and back preserves bin contents and edges.", "quantifier": "every binning and contents", "why_tests_cant": "contents unbounded; equal-width tests cannot reveal lost edges", "anchors": ["src/dist/DistTools.cpp"]}
{"id": "C69", "title": "Unbinned density evaluation", "statement": "The probability of an event under several normalised distributions is the sum of normalisation times each distribution's probability; normalisation vectors of the wrong length are rejected.", "quantifier": "every list of distributions and events", "why_tests_cant": "lists unbounded", "anchors": ["src/fitutil/EDManager.cpp"]}
{"id": "C70", "title": "Configuration file parsing", "statement": "A key=value line in a section is retrievable exactly under that section and key, with surrounding blanks removed; duplicate keys or sections are rejected; missing ones raise an error naming them.", "quantifier": "every configuration text", "why_tests_cant": "texts unbounded", "anchors": ["src/config/ini.hpp", "src/config/ConfigLoader.cpp"]}
{"id": "C71", "title": "The response follows the fitted parameters", "statement": "After SetParameters with a dictionary containing a systematic's parameters, Construct yields exactly the response for those values, whatever was set before; a dictionary missing the parameter of a scale or shift is rejected with ParameterError.", "quantifier": "every systematic of each kind, every previous state, every parameter dictionary", "why_tests_cant": "must hold for every previous state and every parameter value; a stale value shows only for particular histories", "anchors": ["src/systematic/Scale.cpp: Scale::SetParameters, Scale::Construct", "src/systematic/Shift.cpp", "src/systematic/Shape.cpp", "src/systematic/Renorm.cpp: Renorm::SetParameters, Renorm::Construct"]}
{"id": "C72", "title": "One projection histogram per parameter and per pair", "statement": "Without a full histogram, the chain store creates exactly one empty histogram per parameter and one per unordered pair of distinct parameters, each over the axes of those parameters, filed under the parameter name or the two names joined by an underscore.", "quantifier": "all sets of parameters and axes", "why_tests_cant": "the number of pairs grows with the set; only samples can be tried", "anchors": ["src/optimise/MCMCSamples.cpp:88-101", "src/histogram/HistTools.cpp:5-23", "src/histogram/HistTools.hpp:5-20", "src/core/Combinations.hpp"]}
{"id": "C73", "title": "Visualisable projections and one-dimensional slices", "statement": "The visualisable projections of a histogram are its one-dimensional marginals in axis order followed, for more than two dimensions, by one two-dimensional marginal per pair of axes, all with the same integral; the one-dimensional slices along an axis are exactly one per combination of bins of the other axes, holding the histogram's contents at those bins.", "quantifier": "all histograms of any dimension", "why_tests_cant": "any dimension and content", "anchors": ["src/histogram/HistTools.hpp:22-106"]}
{"id": "C74", "title": "Metropolis acceptance satisfies detailed balance", "statement": "A proposal is accepted with probability min(1, ratio of the densities times the sampler's correction); density times acceptance probability is symmetric in the two points.", "quantifier": "all pairs of values, corrections and uniform deviates", "why_tests_cant": "a probability statement over a continuum of deviates", "anchors": ["src/optimise/MCMC.cpp:236-254"]}
{"id": "C75", "title": "The contour edge set on the Minuit optimiser", "statement": "The value given to SetUpperContourEdge is the error definition the minimiser works with and is still reported after the fit. (False: every fit resets it to 0.5.)", "quantifier": "all optimisers, statistics, minimiser behaviours and edge values", "why_tests_cant": "must hold for every setting and every behaviour of the external minimiser", "anchors": ["src/optimise/Minuit.cpp:50-59", "src/optimise/Minuit.cpp:106-115", "src/optimise/MinuitFCN.cpp:17-30"]}
{"id": "C76", "title": "Uniform numbers and rejection sampling", "statement": "UniformRange returns a number of the range, Shoot(n) one of 0..n-1 with equal probabilities; VonNeumannSample returns a number of the range distributed like the function. (The last is false: it always returns 0.)", "quantifier": "all ranges, functions and random deviates", "why_tests_cant": "a statement over a continuum of deviates and all functions", "anchors": ["src/rand/Rand.cpp:16-25", "src/rand/Rand.cpp:48-73"]}
{"id": "C77", "title": "Gaussian values and integrals", "statement": "A Gaussian PDF's value at a point is the product of one-dimensional normal densities; the integral it returns for a box inside the cut-off is the integral of those values over the box; boxes add up when cut in two; every integral of an ordered box lies in [0,1] and grows with the box; beyond the cut-off the cumulative function is wrong by at most the tail beyond the cut-off; wrong dimensions are refused.", "quantifier": "every dimension, means, positive widths, points and boxes", "why_tests_cant": "points and boxes are a continuum; a test compares a few values against another implementation", "anchors": ["src/function/Gaussian.cpp:Gaussian::operator()", "src/function/Gaussian.cpp:Gaussian::Cdf", "src/function/Gaussian.cpp:Gaussian::Integral"]}
{"id": "C78", "title": "Conditional kernels", "statement": "A jump kernel depends only on the difference of the two points; a kernel with varying parameters evaluated from a point uses, for each governed parameter, the value of its function at that point, whatever points it was used at before; the functions' parameters can be set and read by name.", "quantifier": "every point, box, dependence and history of uses", "why_tests_cant": "histories and points are unbounded", "anchors": ["src/function/JumpPDF.cpp", "src/function/VaryingCDF.cpp", "src/function/SquareRootScale.cpp"]}
{"id": "C79", "title": "Saving a histogram and loading it back", "statement": "IO::SaveHistogram followed by IO::LoadHistogram of the HDF5 file gives back the same histogram: the same axes (names, display names, edges, centres, widths) in the same order, and the same bin contents. The extension of the file name decides the format, .h5 takes any number of dimensions, .root one or two, anything else is refused with an IOError. A file whose names cannot be recovered is refused, never loaded with the contents in other bins.", "quantifier": "for every histogram over axes built by either BinAxis constructor (renamed or not), of any number of dimensions and bins, all contents, all axis names and display names, all file names", "why_tests_cant": "A test round-trips one histogram with short plain names; it cannot settle arbitrary numbers of axes, uneven bins, names holding the packing delimiter, or total name length over the 64 characters of the attribute.", "anchors": ["src/data/IO.cpp:IO::SaveHistogram", "src/data/IO.cpp:IO::SaveHistogramH5", "src/data/IO.cpp:IO::LoadHistogram", "src/data/IO.cpp:IO::FlattenStringVector", "src/data/IO.cpp:IO::UnpackString", "src/dist/BinAxis.cpp:BinAxis::BinAxis"]}
{"id": "C80", "title": "Generated data sets over whole generator histories", "statement": "A generating call (ExpectedRatesDataSet, PoissonFluctuatedDataSet) returns exactly the events drawn from each data set in turn that pass the cuts, looks at as many events of each set as the rounded rate (or the Poisson number) says, reports these numbers, uses for each set the drawing mode its flags give (with replacement, sequential, random), and over any number of calls never takes the same event of a set drawn without replacement twice until Reset. Every observable of a generated event keeps its name. A generator whose data sets were all added with AddDataSet is usable. AllValidEvents returns the events passing the cuts. Inconsistent set-ups are refused with an exception.", "quantifier": "all numbers and contents of data sets, all rates, cuts, flags, random numbers, and any sequence of generating calls", "why_tests_cant": "the histories, set sizes and random sequences are unbounded and the repetition property relates all calls together", "anchors": ["src/data/DataSetGenerator.cpp:DataSetGenerator::ExpectedRatesDataSet", "src/data/DataSetGenerator.cpp:DataSetGenerator::PoissonFluctuatedDataSet", "src/data/DataSetGenerator.cpp:DataSetGenerator::AllValidEvents", "src/data/DataSetGenerator.cpp:DataSetGenerator::AddDataSet", "src/data/DataSetGenerator.cpp:DataSetGenerator::Reset", "src/data/OXSXDataSet.cpp:OXSXDataSet::AddEntry"]}
{"id": "C81", "title": "Soft boundaries around a statistic", "statement": "A statistic wrapped in a SigmoidBoundary evaluates, after any sequence of SetParameters (accepted or refused) and Evaluate calls, to what the statistic alone would give after the same calls plus a penalty for each bound at the last accepted parameters. The penalty is never negative, exceeds mu times the distance for a parameter outside a bound, is at most exp(-mu d) per bound for a point d inside all bounds, is log 2 on a bound, and falls strictly as the parameter moves inwards. An exception of the statistic is passed on.", "quantifier": "every statistic, every set of bounds on its parameters, every steepness, every history of calls and every point", "why_tests_cant": "points, bounds and histories (including refused parameters between evaluations) are unbounded", "anchors": ["src/optimise/SigmoidBoundary.hpp:SigmoidBoundary::SetParameters", "src/optimise/SigmoidBoundary.hpp:SigmoidBoundary::Evaluate", "src/optimise/SigmoidBoundary.h"]}
{"id": "C82", "title": "Data sets saved as ROOT ntuples and read back", "statement": "A data set saved with IO::SaveDataSetROOT and opened with ROOTNtuple or ROOTTree under the same tree name has the same observable names in the same order, the same number of events, and event i holds the values of event i to float precision; saving what was read gives the same file again; an entry past the end is refused with NotFoundError, a missing file or tree with IOError.", "quantifier": "every data set with one name per observable, every rounding to float, every index, every previous content of the file", "why_tests_cant": "sizes, names (delimiters, repetitions) and contents are unbounded", "anchors": ["src/data/IO.cpp:IO::SaveDataSetROOT", "src/data/ROOTNtuple.cpp:ROOTNtuple::Assemble", "src/data/ROOTNtuple.cpp:ROOTNtuple::GatherObservableNames", "src/data/ROOTTree.cpp:ROOTTree::Assemble", "src/data/ROOTTree.cpp:ROOTTree::GatherObservableNames"]}
{"id": "C83", "title": "A fit to the expectation finds the truth", "statement": "For a binned likelihood without systematics, buffers or template-statistics corrections, with distinct fitted names and directly fitted distributions added before indirectly fitted ones: if every bin of the data holds exactly the rate expected at some parameters, the value of the likelihood less its constraint term is nowhere lower than at these parameters, and as low elsewhere only at points that predict the same rate in every bin.", "quantifier": "every list of distributions, every number of bins, every data set equal to an expectation, every other point with positive rates, every constraint", "why_tests_cant": "points, distributions and bins are unbounded; a test samples a few points", "anchors": ["src/teststat/BinnedNLLH.cpp:BinnedNLLH::Evaluate", "src/dist/BinnedEDManager.cpp:BinnedEDManager::BinProbability", "src/constraint/ConstraintManager.cpp:ConstraintManager::Evaluate"]}
{"id": "C84", "title": "The binned likelihood has no false minima in the normalisations", "statement": "For a binned likelihood as in C83 on data without negative bins, the likelihood term is convex along the segment between any two points with positive rates; so is the whole value when the constraints are individual (symmetric or asymmetric) or correlated pair constraints with correlation below one in size. Hence if some point on the way from one point to another is no better than the first, neither is the second.", "quantifier": "every list of distributions, every data set, every pair of points and every point between them, every set of such constraints", "why_tests_cant": "convexity is a statement about a continuum of points", "anchors": ["src/teststat/BinnedNLLH.cpp:BinnedNLLH::Evaluate", "src/constraint/QuadraticConstraint.h:QuadraticConstraint::Evaluate", "src/constraint/BivariateQuadraticConstraint.h:BivariateQuadraticConstraint::Evaluate"]}
{"id": "C85", "title": "The fitted total is the number of events", "statement": "For a binned likelihood as in C83 with every normalisation fitted, multiplying all normalisations by (events in the data)/(events expected) makes the expected total equal the number of events, never raises the likelihood term, and lowers it strictly unless the two totals agreed already. So at the best fit without constraints the expected total is the number of events.", "quantifier": "every list of distributions, every data set with a positive number of events, every point with positive rates", "why_tests_cant": "a statement about every point of a continuum and every data set", "anchors": ["src/teststat/BinnedNLLH.cpp:BinnedNLLH::Evaluate", "src/dist/BinnedEDManager.cpp:BinnedEDManager::BinProbability"]}
{"id": "C86", "title": "Smearing events", "statement": "EventConvolution applied to a sequence of events moves, in each event, only its (first) output observable, from x to x plus one draw of the Gaussian whose mean and width are those of the kernel at x (for varying kernels as given by the governing functions at x, whatever events came before); event i uses the i-th random number and each event uses exactly one. Parameters set through the systematic are those of the smearing that follows. Copies and assignments are the same systematic under the same name. Without a kernel every use is refused with NULLPointerAccessError; kernels of more than one dimension are refused.", "quantifier": "every kernel, every sequence of events, every stream of random numbers, every set of parameters", "why_tests_cant": "event sequences, random streams and kernel histories are unbounded", "anchors": ["src/eventSystematic/EventConvolution.cpp:EventConvolution::operator()", "src/eventSystematic/EventConvolution.cpp:EventConvolution::SetPDF", "src/function/JumpPDF.cpp:JumpPDF::Sample", "src/function/VaryingCDF.cpp:VaryingCDF::Sample", "src/function/Gaussian.cpp:Gaussian::Sample"]}
{"id": "C87", "title": "Binned likelihood with systematics", "statement": "With systematics added, BinnedNLLH::Evaluate is the sum over the data's bins of mu - n log mu plus the constraint term at the current parameters, where mu sums, over the distributions added, the normalisation parameter times the distribution's ORIGINAL contents distorted by the responses, at the CURRENT parameter values, of the systematics acting on that distribution (default group, then its own groups); nothing left behind by earlier evaluations or parameter settings enters. It throws exactly when some bin has expectation zero.", "quantifier": "every history of adding systematics, distributions, constraints, setting parameters and evaluating; every data histogram; every systematic", "why_tests_cant": "histories and the set of systematics and distributions are unbounded; stale responses show up only after particular sequences", "anchors": ["src/teststat/BinnedNLLH.cpp:BinnedNLLH::Evaluate", "src/fitutil/SystematicManager.cpp:SystematicManager::Construct", "src/fitutil/BinnedEDManager.cpp:BinnedEDManager::ApplySystematics"]}
{"id": "C88", "title": "Normalisations left by an evaluation with systematics", "statement": "After BinnedNLLH::Evaluate with systematics the normalisation of each distribution is its parameter if it is fitted directly; its parameter times the integral of its distorted contents if it is fitted indirectly; the integral of its distorted contents if it is not fitted.", "quantifier": "every history of adding and evaluating, every mix of fitting statuses, every systematic", "why_tests_cant": "the mixes of statuses and the histories are unbounded", "anchors": ["src/fitutil/BinnedEDManager.cpp:BinnedEDManager::ApplySystematics", "src/fitutil/BinnedEDManager.cpp:BinnedEDManager::ReassertNorms", "src/teststat/BinnedNLLH.cpp:BinnedNLLH::Evaluate"]}
{"id": "C89", "title": "Setting the fit parameters reaches everything", "statement": "After RegisterFitComponents, BinnedNLLH::SetParameters(d), with a value in d for every normalisation and every parameter of every added systematic, sets the normalisation of each fitted distribution and the parameters of every systematic added to any group to d's values and touches nothing else; GetParameters then reads d's values back. A missing normalisation makes it throw.", "quantifier": "every set of distributions (with any fitting statuses), every grouping of systematics, every parameter dictionary", "why_tests_cant": "the number of distributions, groups and systematics is unbounded; a component missed by registration shows only for particular groupings", "anchors": ["src/teststat/BinnedNLLH.cpp:BinnedNLLH::RegisterFitComponents", "src/teststat/BinnedNLLH.cpp:BinnedNLLH::SetParameters", "src/teststat/BinnedNLLH.cpp:BinnedNLLH::GetParameters", "src/core/ComponentManager.cpp:ComponentManager::SetParameters"]}
{"id": "C90", "title": "Likelihood over the fit region", "statement": "With buffers set (SetBuffer, SetBufferAsOverflow), BinnedNLLH::Evaluate is the Poisson sum mu - n log mu over the bins inside the buffers only, plus the constraint term at the current parameters: data and expected rates are those inside the region or, with the buffers used as overflows, with the contents of every outside bin added to the nearest bin of the region; distributions are distorted by the systematics at the current parameters before being cut down, and directly fitted ones are normalised to one within the region. It throws exactly when a bin of the region has expectation zero; this holds at every evaluation, not only the first.", "quantifier": "every set of buffers leaving a bin on every axis, any number of axes and bins, all distributions and fitting statuses, all systematics, every history of parameter settings and evaluations", "why_tests_cant": "numbers of axes, bins, distributions and evaluations are unbounded; stale shrunk contents or norms show only after particular sequences", "anchors": ["src/teststat/BinnedNLLH.cpp:BinnedNLLH::Evaluate", "src/teststat/BinnedNLLH.cpp:BinnedNLLH::SetBuffer", "src/teststat/BinnedNLLH.cpp:BinnedNLLH::SetBufferAsOverflow", "src/fitutil/BinnedEDManager.cpp:BinnedEDManager::ApplyShrink", "src/fitutil/BinnedEDShrinker.cpp:BinnedEDShrinker::ShrinkDist"]}
{"id": "C91", "title": "Objects that own their parts behave as values", "statement": "A program may construct, fill, copy, assign, change and destroy cut collections, analytic and composite distributions, distribution managers, convolutions, Metropolis kernels, event convolutions and conditional kernels in any order: a copy or an assigned object holds the same parts, changing one object never changes another, nothing is used or deleted after it was deleted, and when every object is gone all memory has been given back.", "quantifier": "every program: any number of objects, any sequence of constructions, additions, replacements, modifications, readings, copies, assignments (also to oneself) and destructions", "why_tests_cant": "a double delete or a leak shows only in particular sequences of copies, assignments and destructions, of unbounded length, and often not even then", "anchors": ["src/cut/CutCollection.cpp:CutCollection::operator=", "src/dist/AnalyticED.cpp:AnalyticED::AnalyticED", "src/dist/CompositeED.cpp:CompositeED::~CompositeED", "src/fitutil/EDManager.cpp:EDManager::~EDManager", "src/systematic/Convolution.cpp:Convolution::SetConditionalPDF", "src/function/JumpPDF.cpp:JumpPDF::operator=", "src/eventSystematic/EventConvolution.cpp:EventConvolution::SetPDF", "src/function/VaryingCDF.cpp:VaryingCDF::operator="]}
{"id": "C92", "title": "A failed evaluation does not spoil the likelihood", "statement": "When BinnedNLLH::Evaluate throws (a bin of expectation zero, a systematic whose parameters are not allowed, a dimension or observable error, data that cannot be binned, ...), the exception may be caught and the object used further: after any sequence of SetDataDist, SetDataSet, SetParameters and evaluations, however many of the evaluations threw and at whatever point, the next evaluation gives the value or the error, and GetParameters the values, that the same calls without any evaluation between them give; correcting the cause of the failure is enough to go on.", "quantifier": "every likelihood reachable by public calls, every sequence of calls, every point inside an evaluation at which an exception may arise, all systematics", "why_tests_cant": "an evaluation writes to many members on its way, and an exception may stop it after any of them; what the next evaluation makes of the half-written state depends on the point of failure and on the whole history", "anchors": ["src/teststat/BinnedNLLH.cpp:BinnedNLLH::Evaluate", "src/teststat/BinnedNLLH.cpp:BinnedNLLH::BinData", "src/fitutil/BinnedEDManager.cpp:BinnedEDManager::ApplySystematics", "src/fitutil/BinnedEDManager.cpp:BinnedEDManager::ApplyShrink", "src/fitutil/SystematicManager.cpp:SystematicManager::Construct", "src/fitutil/BinnedEDShrinker.cpp:BinnedEDShrinker::SetBinMap", "src/systematic/Shape.cpp:Shape::Construct", "src/systematic/Scale.cpp:Scale::Construct"]}
{"id": "C93", "title": "A refused configuration call changes nothing", "statement": "When a call that adds to or changes an object throws (AddAxis/AddAxes with a name already used; Histogram Add/Multiply/Divide with another binning; OXSXDataSet::AddEntry and operator+ with an event of another length; DistFiller::FillDist at an event it cannot use; EDManager::AddDist/AddDists with another dimension; BinnedNLLH::AddPdf without a generated rate in Barlow-Beeston mode or with unknown or overlapping groups of systematics), the object is the one it was before the call, and everything accepted before is still accepted.", "quantifier": "all objects reachable by public calls, all arguments, every point inside the call at which it may throw", "why_tests_cant": "each of these calls writes to several members or loops over many items; whether the throw comes before the first write depends on the whole of the arguments and the object, and a test observes one refusal of one object", "anchors": ["src/histogram/AxisCollection.cpp AddAxis AddAxes", "src/histogram/Histogram.cpp Add Multiply Divide", "src/data/OXSXDataSet.cpp AddEntry operator+", "src/dist/DistFiller.cpp FillDist", "src/fitutil/EDManager.cpp AddDist AddDists", "src/teststat/BinnedNLLH.cpp AddPdf"]}
{"id": "C94", "title": "Adding many at once is adding one by one", "statement": "BinnedNLLH::AddPdfs (all four overloads), TestStatistic::AddSystematics and BinnedEDManager::AddPdfs do exactly what the corresponding single calls do in the order of the lists, each item with the groups, generated rate and status at its own place and INDIRECT when no status is given; if an item is refused both leave the same object; lists of different lengths are refused and nothing is added.", "quantifier": "all likelihoods and managers reachable by public calls, all lists of distributions, groups, rates, statuses and systematics of any length, including mismatched ones", "why_tests_cant": "the four overloads index up to four lists in parallel and the checks differ between them; tests use short lists of matching lengths", "anchors": ["src/teststat/BinnedNLLH.cpp AddPdfs", "src/teststat/TestStatistic.cpp AddSystematics", "src/fitutil/BinnedEDManager.cpp AddPdfs"]}
{"id": "C95", "title": "Only the expectation counts", "statement": "BinnedNLLH::Evaluate depends on the distributions only through the rates they predict: its value, less the constraint term, is unchanged when the distributions are added in another order, when one whose fitted normalisation is 0 is left out, when two with the same bin contents are replaced by one whose normalisation is the sum, when a distribution is scaled by k and its normalisation divided by k, when a fitted normalisation is fixed by scaling the distribution by its value and adding it with norm status FALSE, and when two distributions whose normalisations are in a fixed ratio are first added up with BinnedED::Add.", "quantifier": "all lists of distributions of any length that can be fitted together, all data, all points with a positive rate in every bin, all scales and weights, all constraints", "why_tests_cant": "equality of the value of two differently configured likelihoods for all contents, normalisations and data is a statement about real functions; a test compares a few points with a tolerance", "anchors": ["src/teststat/BinnedNLLH.cpp Evaluate", "src/fitutil/BinnedEDManager.cpp BinProbability", "src/dist/BinnedED.cpp Add/Scale"]}
{"id": "C96", "title": "Filling commutes with projecting and slicing", "statement": "Filling a BinnedED from events (or with DistFiller from a data set with cuts and systematics) and then calling Marginalise gives exactly the distribution that Marginalise first and then filling the projection from the same events gives; filling and then GetSlice gives the slice filled with the event if the event lies in the fixed bins and the unchanged slice otherwise. FindBin of an event is the bin Fill adds it to and Probability the share of that bin; events with another number of observables are refused with a RepresentationError.", "quantifier": "all distributions over any number of axes, all subsets and orders of axes kept, all fixed bins, all events, weights and data sets", "why_tests_cant": "the projection goes through per-axis indices of every bin while filling goes through the values of the event under names; the two agree for all shapes and orders only by an argument about the bin numbering", "anchors": ["src/dist/BinnedED.cpp Fill/FindBin/Probability/Marginalise/GetSlice", "src/dist/DistFiller.cpp FillDist", "src/histogram/Histogram.cpp Marginalise/GetSlice"]}
{"id": "C97", "title": "The fit statistic is minus the logarithm of the probability of the data", "statement": "For binned data with whole numbers of events, exp(-(value - constraint term)) returned by BinnedNLLH::Evaluate at a point is the probability of exactly those numbers under independent Poisson counts with the rates expected at the point, times a factor that does not depend on the parameters; so the difference of the values at two points is the logarithm of the ratio of the two probabilities and the smaller value is the more probable point. With Gaussian constraints set through SetConstraint, exp(-value) is that probability times the product of the Gaussian densities of the constrained parameters, again up to a constant: a Markov chain run on the statistic with the sign flipped is in detailed balance with this posterior.", "quantifier": "all sets of distributions, all data with whole counts, all points with positive rates, all sets of Gaussian constraints", "why_tests_cant": "that the number minimised is a likelihood is a statement about every data set and every point at once; a test compares a few values", "anchors": ["src/teststat/BinnedNLLH.cpp Evaluate", "src/constraint/ConstraintManager.cpp Evaluate", "src/constraint/QuadraticConstraint.h Evaluate", "src/optimise/MCMC.cpp StepAccepted"]}
{"id": "C98", "title": "On average the true rates fit best", "statement": "For data drawn as independent Poisson counts with the rates expected at one point, BinnedNLLH::Evaluate has a finite average at every point with positive rates, and without the constraint term that average is smallest at the point the data come from, and as small only at points predicting the same rate in every bin.", "quantifier": "all sets of distributions, all pairs of points with positive rates, all numbers of bins; average over all data sets", "why_tests_cant": "the average ranges over infinitely many data sets; a simulated average only approximates it", "anchors": ["src/teststat/BinnedNLLH.cpp Evaluate"]}
{"id": "C99", "title": "Reports show what was counted", "statement": "After any history of LogPass, LogCut, CalculateMeta and AsString calls, CutLog::AsString shows one line per cut in order: the name, the number of events logged as cut there, the number left after it (on the last line the events that passed) and both as percentages of all events logged; with no cuts it is empty and it never throws; GetCutPercentages gives the percentages of the same report. CountingResult::AsString shows the table of every log, and one summary line per background in order of decreasing rate with its own error, the total being the sum of the rates shown and its error the root of the sum of the squared errors.", "quantifier": "all histories of calls, all numbers of cuts and backgrounds, all behaviours of the sort on equal rates", "why_tests_cant": "the percentages are cached and the errors are found again by name, so that they are right depends on the history of calls and on all names", "anchors": ["src/cut/CutLog.cpp AsString/CalculateMeta/LogCut/LogPass/GetCutPercentages", "src/count/CountingResult.cpp AsString/AddBackground/SetSignal/SetDataLog", "src/core/Comparison.hpp PairSortBySecond"]}
{"id": "C100", "title": "The chi-squared statistic is the chi-squared of what it was given", "statement": "Once a ChiSquare object has been configured with distributions, systematics and data through its public interface, Evaluate returns the sum over bins of (observed - expected)^2 / expected, GetParameters names the normalisations and the parameters of the added systematics, and SetParameters reaches them.", "quantifier": "all histories of calls of the public members of ChiSquare and TestStatistic on the object, all data sets, systematics and dictionaries", "why_tests_cant": "whether some sequence of calls makes the object usable is a statement about all sequences of calls", "anchors": ["src/teststat/ChiSquare.cpp Evaluate/BinData/RegisterFitComponents/SetParameters/GetParameters/SetDataSet", "src/teststat/ChiSquare.h ChiSquare", "src/teststat/TestStatistic.cpp"]}
{"id": "C101", "title": "Constraining a fit adds exactly the penalties", "statement": "For every likelihood, in whatever state, Evaluate with constraints is Evaluate of the same likelihood without constraints plus the total penalty of the constraints in force at the parameters of the fit, and leaves the same likelihood behind. Any history of SetConstraint calls on it, some of them refused, changes nothing else and leaves in force what C37 says; after SetConstraint(name, mean, sigma_lo, sigma_hi) the penalty below the mean uses sigma_lo and above it sigma_hi.", "quantifier": "all likelihood objects (any distributions, systematics, cuts, data, buffers), all histories of SetConstraint calls, all parameter values", "why_tests_cant": "independence of the likelihood value from the constraints is a statement about all states and all sets of constraints", "anchors": ["src/teststat/TestStatistic.cpp SetConstraint (six overloads)", "src/teststat/BinnedNLLH.cpp Evaluate", "src/constraint/ConstraintManager.cpp SetConstraint/Evaluate"]}
{"id": "C102", "title": "Rounding neither misplaces nor loses events", "statement": "With every floating-point operation rounded (any monotone, idempotent rounding that is exact on natural numbers up to B; for IEEE doubles B = 2^53; fused multiply-adds or not), an equal-width BinAxis has non-decreasing edges, the high edge of each bin being bit for bit the low edge of the next, and FindBin puts every value into one bin, the one whose stored edges contain it when the value lies between the first and the last edge. Filling a histogram with any sequence of at most B unit-weight events leaves in every bin exactly the number of events looked up to it, and Integral and Marginalise of such counts are exact. (The last high edge need not equal the stored maximum, and a bin saturates at 2^53: both are shown.)", "quantifier": "all roundings as described, all axis limits and bin counts, all numbers of axes, all event sequences no longer than B", "why_tests_cant": "rounding errors depend on every single pair of limits and bin counts; a test samples a few axes", "anchors": ["src/histogram/BinAxis.cpp", "BinAxis::BinAxis", "BinAxis::FindBin", "src/histogram/Histogram.cpp", "Histogram::Fill", "Histogram::Integral", "Histogram::Marginalise"]}
{"id": "C103", "title": "Rounding errors stay bounded", "statement": "With every floating-point operation rounded with a relative error of at most u (2^-53 for IEEE doubles), fused or not, and contents, weights and normalisations that are not negative: filling with any sequence of weighted events, Integral, Normalise, Marginalise, Scale, Add, the expected number of events BinProbability and the value of BinnedNLLH::Evaluate (without Barlow-Beeston) differ from the exact result by at most 1/(1-u)^k - 1 times the exact result (for the likelihood and the means: times the sum of the absolute values of the terms), where k is a small multiple of the number of operations: events for a fill, bins for an integral, 2 bins + 1 for the integral of a normalised histogram, distributions + 1 for an expectation, distributions + 2 bins + 4 for the likelihood. ConstraintManager::Evaluate is exact up to 12 relative errors plus one per constraint of the size of its terms (for interpolated constraints in n dimensions 5 n + 2^n), for positive widths and correlations of size at most 1/sqrt 2. No call fails in machine arithmetic that succeeds exactly. The exception is Variances, whose error is bounded only relative to the second moment: on doubles a normalised histogram can have a negative variance.", "quantifier": "all roundings with relative error at most u < 1, all histograms, event sequences, histories of the pdf manager, configured fits and machine logarithms with relative error at most u", "why_tests_cant": "the bound must hold for every sequence of operations and every size of histogram; a test sees the rounding of the samples it computes", "anchors": ["src/histogram/Histogram.cpp", "Histogram::Fill", "Histogram::Normalise", "Histogram::Integral", "Histogram::Marginalise", "Histogram::Means", "Histogram::Variances", "src/fitutil/BinnedEDManager.cpp", "BinnedEDManager::BinProbability", "src/teststat/BinnedNLLH.cpp", "BinnedNLLH::Evaluate", "Histogram::Scale", "Histogram::Add", "src/constraint/ConstraintManager.cpp", "ConstraintManager::Evaluate"]}
{"id": "C104", "title": "A fit to a data set is the extended likelihood of its events", "statement": "A BinnedNLLH given distributions in one binning, constraints, parameters, cuts and a data set (SetDataSet) evaluates to the total number of events expected minus the sum, over the entries that pass every cut, of the logarithm of the number expected in the entry's bin, plus the constraint term: cut entries, the order of the entries and how they are split over data sets that are added do not matter. When every distribution is normalised the numbers are the sum of the normalisations and BinnedEDManager::Probability of the entry. GetSignalCutLog afterwards counts every entry once, rejected ones at the first cut they fail, and further evaluations leave it alone. Further parameters, cuts and data sets set on the same object give the value a new object would give, and a cut added at any time counts from the next evaluation on.", "quantifier": "all distributions in one binning with distinct names, all constraint sets, parameter points with positive expectations, lists of cuts on observables the data has, and data sets of any size below 2^31", "why_tests_cant": "The value depends on every entry, every cut and every bin at once; a test checks one data set, and the stale binning after a late cut shows only in one order of calls.", "anchors": ["src/teststat/BinnedNLLH.cpp:BinnedNLLH::BinData", "src/teststat/BinnedNLLH.cpp:BinnedNLLH::Evaluate", "src/teststat/TestStatistic.cpp:TestStatistic::AddCut", "src/teststat/TestStatistic.cpp:TestStatistic::SetDataSet", "src/dist/DistFiller.cpp:DistFiller::FillDist"]}
{"id": "C105", "title": "The Markov chain keeps the distribution it samples", "statement": "Let the chain's current point be distributed with the density that MCMC samples (the exponential of the statistic, or the statistic, with its sign as set) between the limits. One step \u2014 MetropolisSampler or HamiltonianSampler (without walls) draws a proposal, proposals outside the limits are refused, MCMC::StepAccepted decides with a uniform number \u2014 leaves that distribution as it is, and so does any number of steps: for every measurable function the mean over the point after N steps is the mean over the first. For a chain on BinnedNLLH (logged, sign flipped) that distribution is the posterior: the Poisson probability of the data times the Gaussian densities of the constrained parameters, within the limits.", "quantifier": "all statistics defined and measurable within the limits, all limits, any number of parameters, widths, masses, step sizes and numbers of leapfrog steps, all measurable functions of the point, any number of chain steps, all real values of the random numbers", "why_tests_cant": "a statement about a continuous distribution over points and random numbers; sampled chains only estimate it, and a small bias (wrong sign of the kinetic energy, limits tested on the wrong point, a repeated point not counted) is invisible within statistical errors", "anchors": ["src/optimise/MCMC.cpp (MCMC::Optimise, MCMC::StepAccepted)", "src/optimise/MetropolisSampler.cpp (MetropolisSampler::Draw)", "src/optimise/HamiltonianSampler.hpp (HamiltonianSampler::Draw, CorrectAccParam)", "src/optimise/LeapFrog.hpp (LeapFrog::Hamiltonian)", "src/optimise/Gradient.hpp (Gradient)", "src/teststat/BinnedNLLH.cpp (BinnedNLLH::Evaluate)"]}
{"id": "C106", "title": "Random sampling gives every event the same chance", "statement": "Fake data drawn at random and without replacement (DataSetGenerator, RandomDrawsNoReplacement) is a fair sample: at every draw each event not yet drawn is the next with the same probability 1/(number left), so that all sequences of k different events of the N are equally likely. (False: the random position is drawn from one too few, so that at every draw exactly one of the events left \u2014 at the first draw the last event of the data set \u2014 cannot be chosen; the others are equally likely.)", "quantifier": "all data sets of distinct events, all numbers of draws, all earlier draws, uniform random numbers as a continuum", "why_tests_cant": "a statement about probabilities over a continuum of random numbers; that one event is a little too rare is invisible in samples of large data sets", "anchors": ["src/data/DataSetGenerator.cpp:179-229 (RandomDrawsNoReplacement)", "src/rand/Rand.cpp:22-25 (Rand::Shoot)"]}
{"id": "C107", "title": "Fake data have the law of the model that the likelihood assumes", "statement": "Fake distributions generated with Poisson fluctuations (BinnedEDGenerator::PoissonFluctuatedED) from usable distributions over the same bins, with rates that are not negative: almost surely one is generated, and its bin contents are independent Poisson numbers whose means are the sums over the distributions of rate times the share of the distribution's content in the bin - although the number of events is first drawn for each distribution and then each event is put in a bin of its own. So fake data made from the distributions of a fit with the numbers of events they contribute at a point have exactly the law for which the statistic is minus the logarithm of the probability; and if the fake distributions are then given to the fit as data, the average value over the fake data is smallest at the point they were made for. Generated from rounded rates (ExpectedRatesED), the average content of each bin is the sum of events times share.", "quantifier": "all numbers of distributions and bins, all contents that are not negative and not all zero, all rates that are not negative, a Poisson number per distribution and a sequence of independent uniform numbers as Mathlib's product measures", "why_tests_cant": "an equality of probability distributions over infinitely many histograms and a continuum of random numbers; a sample can only be compared within its fluctuations", "anchors": ["src/dist/BinnedEDGenerator.cpp:BinnedEDGenerator::PoissonFluctuatedED", "src/dist/BinnedEDGenerator.cpp:BinnedEDGenerator::ExpectedRatesED", "src/dist/BinnedEDGenerator.cpp:BinnedEDGenerator::RandomBin", "src/rand/Rand.cpp:Rand::Poisson", "src/teststat/BinnedNLLH.cpp:BinnedNLLH::Evaluate"]}
{"id": "C108", "title": "The Markov chain converges to the distribution it samples, and the histogram it saves to the posterior", "statement": "Run the Metropolis sampler within limits, with a non-zero step width for every parameter and none fixed, on a statistic whose density is bounded between the limits, from above and away from zero. From every starting point within the limits the distribution of the chain's point after N steps differs from the sampled density, normalised, by at most (1 - e)^N for some e > 0 - for the probability of any set, and the mean of any function between 0 and 1. If the run saves the full histogram, it succeeds, and in each bin the mean square of the difference between the fraction of the recorded steps and the probability of the bin is at most a constant over the number of recorded steps, with a constant that does not depend on the start, the number of steps, burn-in, thinning or bin; so the probability that a bin is off by more than any given amount goes to zero. In the default mode the same holds of the histogram of each parameter and of each pair of parameters, with equal bins between the limits, and the marginal probabilities. For a binned fit with Gaussian constraints the conditions on the density hold whenever all expected rates are positive within the limits, and the limit is the posterior: the probability of the counts times the densities of the constrained parameters, normalised.", "quantifier": "all statistics with bounded densities, all boxes, widths, starting points within the box, numbers of steps, burn-ins, thinnings and axes; all fits of counts with positive rates; the random numbers of the chain as product measures", "why_tests_cant": "a statement about the limit of probability distributions; a run is one sample of one finite length, and cannot tell slow convergence from convergence to a wrong distribution", "anchors": ["src/optimise/MCMC.cpp:MCMC::Optimise", "src/optimise/MCMC.cpp:MCMC::StepAccepted", "src/optimise/MetropolisSampler.cpp:MetropolisSampler::Draw", "src/optimise/MCMCSamples.cpp:MCMCSamples::Fill", "src/teststat/BinnedNLLH.cpp:BinnedNLLH::Evaluate"]}
{"id": "C109", "title": "Joint fits", "statement": "Adding the likelihoods of several channels that share parameters gives a joint fit: whatever points an optimiser has tried before, setting the sum's parameters and evaluating it gives the sum over all channels and bins of mu - n log mu at exactly those parameters plus every constraint term once; with Gaussian constraints the exponential of minus that value is, up to a constant, the product of the Poisson probabilities of all channels' data and of all prior densities; averaged over data drawn at some true parameters, the value without the constraint terms is least at the truth, and equal elsewhere only where every bin of every channel has the same expected rate; and a Metropolis chain run on the sum converges to the joint posterior, its saved histograms to the marginals of the joint posterior.", "quantifier": "every number of channels, every set of distributions, data, constraints (in the channels and in the sum) and shared parameter names, every sequence of points tried, every data set drawn, every starting point, number of steps, burn-in and thinning of a chain", "why_tests_cant": "the value must not depend on any history of points tried, and the average and the convergence are statements about all data sets and all random numbers", "anchors": ["src/teststat/StatisticSum.cpp: StatisticSum::Evaluate, StatisticSum::SetParameters, StatisticSum::GetParameters, Sum", "src/teststat/BinnedNLLH.cpp: BinnedNLLH::Evaluate, BinnedNLLH::SetParameters", "src/constraint/ConstraintManager.cpp: ConstraintManager::Evaluate", "src/optimise/MCMC.cpp: MCMC::Optimise"]}
{"id": "C110", "title": "Fits recover the parameters the data were drawn from", "statement": "When the counts of the data are drawn from the rates at some true normalisations, every point that fits the data as well as the truth does (in particular whatever a minimiser that beats the truth returns), or worse by at most s, has expected rates close to the true ones: the sum over the bins of the squared differences of the square roots of the rates is at most four times Pearson's sum of the data plus twice the constraint term at the truth and s; so the probability of an error of t or more is at most (4 bins + 2(c0 + s))/t, the relative error of the rate in each bin falls with the expected number of events, and with linearly independent shapes so does that of every fitted normalisation. The same holds of joint fits of several channels, and a grid search that contains the truth returns such a point. For experiments whose true rates grow without limit in every bin, with bounded constraint terms at the truth, the probability that any point fitting as well as the truth has a rate (or, with independent shapes, a normalisation) wrong by a given fraction goes to zero, whatever constraints with correlations between -1 and 1 are set.", "quantifier": "every set of distributions, true parameters with positive rates, constraint set with nonnegative terms, slack s, threshold, number of bins and channels; all data a Poisson law can produce, and all points fitting them as well as the truth", "why_tests_cant": "it is a statement about the probability over all data sets, and about every point an optimiser could return; a test fits a few toy data sets with one optimiser", "anchors": ["src/teststat/BinnedNLLH.cpp:BinnedNLLH::Evaluate", "src/teststat/StatisticSum.cpp:StatisticSum::Evaluate", "src/fitutil/BinnedEDManager.cpp:BinnedEDManager::BinProbability", "src/optimise/GridSearch.cpp:GridSearch::Optimise"]}
{"id": "C111", "title": "Statistical meaning of fits with systematics", "statement": "A fit of a likelihood with systematics tries parameter dictionaries one after the other. Whatever was tried before, the value at a dictionary that sets all systematic parameters and normalisations is the sum over the bins of mu - n log(mu) plus the constraint term, mu being the rates distorted by the systematics at that dictionary; exp(-value) is, up to a factor that only depends on the data, the probability of the data under these rates times exp(-constraint). When the data are drawn from the rates at some true values, the average value without constraint term is least at the truth and equal only where the rates agree, and the probability that a point fits as well as the truth (or worse by at most s) although its rates are off by t or more (sum of squared differences of square roots) is at most (4 bins + 2(c0+s))/t. As the true rates grow without limit, the probability that such a point has a rate wrong by a given fraction goes to zero.", "quantifier": "every history of calls that builds the likelihood, all numbers of bins, distributions, groups and systematics, all sequences of dictionaries tried, all data and true values with positive rates", "why_tests_cant": "it quantifies over all sequences of points tried, all contents and counts, and is a statement about the law of all data sets, not one value", "anchors": ["src/teststat/BinnedNLLH.cpp: Evaluate, SetParameters, RegisterFitComponents", "src/fitutil/SystematicManager.cpp: Construct, DistortEDs", "src/fitutil/ComponentManager.cpp: SetParameters", "src/fitutil/BinnedEDManager.cpp: BinProbability, ApplySystematics", "src/systematic/Scale.cpp", "src/systematic/Shift.cpp"]}
{"id": "C112", "title": "Optimisers on test statistic objects", "statement": "The optimisers call SetParameters and Evaluate of one test statistic object again and again, which changes it each time. If the object answers every sequence of dictionaries with the values of some function of the dictionary, then a grid search, a Markov chain (also one with the Hamiltonian sampler, which takes its gradients from the same object) and Minuit (whatever it asks for) return on the object exactly what they return on that function. Binned likelihoods with systematics and sums of likelihoods are such objects; so a grid search on a likelihood object with systematics returns a grid point that fits at least as well as any other, and the histograms a Metropolis chain keeps on such an object, or on a sum of likelihood objects, converge to the posterior probabilities of systematic parameters and normalisations.", "quantifier": "all objects and functions, all optimiser settings, all random numbers and all runs of Minuit2; for likelihoods all histories that build them, all data, limits with positive rates, numbers of steps, burn-in and thinning", "why_tests_cant": "the object's answers must not depend on what was asked before, for every sequence of points an optimiser may choose; the convergence is about the law of all random numbers", "anchors": ["src/optimise/GridSearch.cpp: Optimise", "src/optimise/MCMC.cpp: Optimise, StepAccepted", "src/optimise/Minuit.cpp: Optimise", "src/optimise/MinuitFCN.cpp: operator()", "src/teststat/BinnedNLLH.cpp: SetParameters, Evaluate, RegisterFitComponents", "src/teststat/StatisticSum.cpp", "src/optimise/HamiltonianSampler.hpp: Draw", "src/optimise/Gradient.hpp: operator()", "src/optimise/HMCEnergy.hpp: Evaluate"]}
{"id": "C113", "title": "Closure of toy studies", "statement": "Fake data are generated with Poisson fluctuations from a set of distributions at known normalisations (BinnedEDGenerator), given as data to a binned likelihood of the same distributions, with constraints, and fitted. The probability, over the random numbers of the generator, that any point whatever fits the fake data as well as the true normalisations (or worse by at most s), although the number of events it expects in some bin is wrong by a fraction delta or more, is at most 9 (4 bins + 2 (c0 + s)) / (delta^2 r), with c0 the constraint term at the truth and r the smallest number of events expected in a bin. If the numbers of events grow and the shapes are linearly independent, the probability that a normalisation of a point that fits as well is wrong by more than a fraction delta goes to zero. A grid search with the truth on its grid ends with the right numbers of events with the same probability, apart from fake data for which the value at some grid point is exactly zero.", "quantifier": "all sets of usable distributions over the same bins, all non-negative true normalisations, all constraints with non-negative penalties, all delta and s, all sequences of growing truths, all grids of two normalisations; over the law of all random numbers", "why_tests_cant": "it is a bound on a probability over all random numbers and over all points a fit might end at", "anchors": ["src/dist/BinnedEDGenerator.cpp: PoissonFluctuatedED, ExpectedRatesED", "src/teststat/BinnedNLLH.cpp: Evaluate, SetDataDist", "src/constraint/ConstraintManager.cpp: Evaluate", "src/optimise/GridSearch.cpp: Optimise"]}
{"id": "C114", "title": "Coverage of credible regions", "statement": "Draw true normalisations between the limits of a Markov chain with the densities that the Gaussian constraints stand for, and data from the model at them. Regions of the parameters with posterior probability of at least (at most) q contain the truth in at least (at most) a fraction q of such experiments. The same holds for the regions that users read off a run: with a Metropolis chain on the binned likelihood of the data that keeps its full histogram, and bins chosen by any rule from the data and the run, the fraction of the experiments in which the truth lies in the chosen bins, or the chain has put less than a fraction q of its recorded steps into them, is at least q - epsilon with a probability, over the random numbers of the chain, that goes to one with the number of steps.", "quantifier": "all sets of distributions, Gaussian constraints on fitted normalisations, limits with positive expected numbers of events, rules that give regions, fractions q and epsilon, starting points, burn-ins and thinnings; over the laws of truths, data and random numbers", "why_tests_cant": "it is about the joint law of truths, data and all random numbers, in the limit of long chains", "anchors": ["src/optimise/MCMC.cpp: Optimise, StepAccepted", "src/optimise/MCMCSamples.cpp: Fill", "src/teststat/BinnedNLLH.cpp: Evaluate", "src/constraint/ConstraintManager.cpp: Evaluate", "src/constraint/QuadraticConstraint.h: Evaluate"]}
{"id": "C115", "title": "The best fit of a chain", "statement": "The best fit that a Markov chain reports is a point within the limits with its own value of the statistic. For a statistic that is continuous within the limits, whatever the starting point, the probability, over the random numbers of the run, that somewhere within the limits there is a value better than the reported one by epsilon or more is at most a constant over the number of steps, although the last point of the chain is never considered (C53). So the best fit of a chain on a binned likelihood with Gaussian constraints fits as well as every point within the limits, up to epsilon; and when data are drawn from the model at true normalisations within the limits, then except for data of probability at most 9 (4 bins + 2 (c0 + epsilon)) / (delta^2 r) the probability that the number of events expected in some bin at the best fit is wrong by a fraction delta or more is at most a constant over the number of steps.", "quantifier": "all statistics continuous and, as a density, bounded within the limits, all limits, starting points, step widths, numbers of steps and sample settings; over the law of all random numbers; for fits all sets of distributions, Gaussian constraints and data", "why_tests_cant": "it bounds a probability over all random numbers for every number of steps, against all points within the limits", "anchors": ["src/optimise/MCMC.cpp: Optimise, StepAccepted", "src/optimise/MetropolisSampler.cpp: Draw", "src/teststat/BinnedNLLH.cpp: Evaluate"]}
{"id": "C116", "title": "Chains with fixed parameters", "statement": "When some parameters of a Metropolis sampler are fixed (Fix) and the others have non-zero widths, a run never changes a fixed parameter, and it samples the free ones given the fixed ones: from every starting point within the limits with the same fixed values the distribution of the chain's point converges geometrically to the sampled density as a function of the free parameters, normalised; the fraction of the recorded steps in every bin of the full histogram and of the histograms kept by default converges to the probability of the bin under it; for a binned likelihood with Gaussian constraints this is the posterior of the free normalisations given the fixed ones. The best fit that the run reports has the fixed parameters where the run started, and the probability that with them there is a value better by epsilon or more is at most a constant over the number of steps.", "quantifier": "all sets of fixed parameters, values of them and starting points within the limits, all statistics (measurable, density bounded on the points with the fixed values), limits, widths of the free parameters, burn-ins, thinnings, axes, numbers of steps, sets and bins; all laws of the random numbers as in C108", "why_tests_cant": "It is about the limit of runs of any length and the law of their random numbers, for every statistic and every choice of fixed parameters.", "anchors": ["src/optimise/MetropolisSampler.cpp: Fix, Release, Draw", "src/optimise/MCMC.cpp: Optimise, StepAccepted", "src/optimise/MCMCSamples.cpp: Fill"]}
{"id": "C117", "title": "Coverage of credible regions with systematics and in joint fits", "statement": "C114 also holds when the likelihood has systematics, and for sums of likelihoods. Draw true parameters (normalisations and parameters of systematics) between the limits of a Markov chain with the densities that the constraints stand for, and the counts of every bin (of every channel) from the rates that the systematics give there. Regions with posterior probability of at least (at most) q contain the truth in at least (at most) a fraction q of such experiments. A Metropolis chain run on the likelihood object itself, or on the sum of the objects of the channels, that keeps its full histogram always ends; and with bins chosen by any rule from the data and the run, the fraction of the experiments in which the truth lies in the chosen bins, or the chain has put less than a fraction q of its recorded steps into them, is at least q - epsilon with a probability, over the random numbers of the chain, that goes to one with the number of steps.", "quantifier": "all likelihoods with systematics whose objects follow their parameters and whose rates are continuous and positive between the limits; all joint fits of any number of channels with Gaussian constraints on the channels and on the sum; all rules that give regions, fractions q and epsilon, starting points, burn-ins and thinnings; over the laws of truths, data and random numbers", "why_tests_cant": "it is about the joint law of truths, data of all channels and all random numbers, in the limit of long chains, for any configuration of systematics", "anchors": ["src/optimise/MCMC.cpp: Optimise, StepAccepted", "src/optimise/MCMCSamples.cpp: Fill", "src/teststat/BinnedNLLH.cpp: Evaluate", "src/teststat/StatisticSum.cpp: Evaluate", "src/fitutil/SystematicManager.cpp: Construct, DistortEDs", "src/constraint/ConstraintManager.cpp: Evaluate"]}
{"id": "C118", "title": "Random draws follow the densities", "statement": "Drawing from a Gaussian of any number of dimensions, from a jump distribution at any starting point and from a kernel whose parameters vary with the starting point never fails, uses one normal deviate per dimension, and returns points that have exactly the density that evaluating the same object gives. Smearing any number of events with such a kernel gives independent values, each normal about its old value with the mean and width the kernel has there, and leaves everything else about the events alone. So smearing events agrees on average with smearing distributions: the mean number of events that end between two values is the sum over the events of the kernel's integral over that interval.", "quantifier": "all dimensions, means and positive widths, all starting points, all lists of events, all intervals within the cut-off of the kernel, and all positions in the generator's sequence; over the law of an endless sequence of independent normal deviates", "why_tests_cant": "a test draws finitely many numbers; the claim is an equality of probability laws and holds for every set of parameters and events", "anchors": ["src/function/Gaussian.cpp: Sample, operator()", "src/function/JumpPDF.cpp: Sample, ConditionalProbability, Integral", "src/function/VaryingCDF.cpp: Sample, ConditionalProbability, Integral", "src/eventSystematic/EventConvolution.cpp: operator()", "src/rand/Rand.cpp: Gaus"]}
{"id": "C119", "title": "Smearing events and convolving their histogram agree on average", "statement": "Take events that sit at the centres of the bins of an axis. Either smear the events with a kernel and fill a histogram with them, or fill the histogram first and apply the convolution with the same kernel. Both always succeed, and in every bin but the first and the last the average of the first over the random numbers is the content given by the second, up to the tails that the kernel's cut-off removes (exactly, when no edge lies beyond the cut-off). The first and last bins differ by exactly the events that leave the axis: filling counts them there, the convolution loses them. The same holds when the mean and the width of the kernel vary with the value.", "quantifier": "all axes of bins of positive width, all lists of events at bin centres, all means and positive widths (also varying with the value), all cut-offs and positions in the generator's sequence; over the law of an endless sequence of independent normal deviates", "why_tests_cant": "it is an equality between an expectation over all random sequences and the result of a different part of the code, for every binning, kernel and set of events", "anchors": ["src/eventSystematic/EventConvolution.cpp: operator()", "src/systematic/Convolution.cpp: Construct, ConstructSubmatrix, MakeFullMatrix", "src/systematic/Systematic.cpp: operator()", "src/histogram/Histogram.cpp: Fill, FindBin", "src/function/JumpPDF.cpp: Sample, Integral", "src/function/VaryingCDF.cpp: Sample, Integral", "src/function/Gaussian.cpp: Cdf, Integral"]}
{"id": "C120", "title": "Scaling or shifting events and their histogram agree for events spread evenly over the bins", "statement": "Take events each spread evenly over some bin of an axis. Either scale every event by a positive factor (or shift it) and fill a histogram with the results, or fill the histogram first and apply the scale (or shift) systematic with the same parameter. Both always succeed, the second result does not depend on where in their bins the events are, and the average of the first over the positions equals the second in every bin, except that the first and the last bin also receive, in the first order, exactly the shares of the moved bins that lie beyond the axis, which the systematic loses.", "quantifier": "all axes of contiguous bins of positive width (also unequal), all numbers of events and choices of their bins, all positive scale factors and all shifts; over independent uniform positions of the events in their bins", "why_tests_cant": "it equates an average over a continuum of event positions with the result of a different part of the code, for every binning, parameter and set of events", "anchors": ["src/eventSystematic/EventScale.cpp: operator()", "src/eventSystematic/EventShift.cpp: operator()", "src/systematic/Scale.cpp: Construct", "src/systematic/Shift.cpp: Construct", "src/systematic/Systematic.cpp: operator()", "src/histogram/Histogram.cpp: Fill, FindBin"]}
