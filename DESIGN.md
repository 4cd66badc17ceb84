# DESIGN

Formal model, in Lean 4, of the snoplus/oxsx C++ library in /repo and machine-checked proofs of the properties in `properties.jsonl`.

## Modelling conventions

* Outcome type `Res a = ok a | throw exc | ub`. A thrown C++ exception and undefined behaviour (out-of-bounds `operator[]`, `.back()` of an empty vector, dereferencing `end()` ...) are distinct outcomes. Where a throwing method leaves its object partly modified, the model returns the new state together with the outcome.
* `double` is modelled as an exact element of an arbitrary linearly ordered field (`Real` where log/sqrt/exp occur). Rounding, NaN and infinities are **not** modelled.
* `size_t` is `Nat` except where wrap-around matters (`Histogram::GetLatticePointValues`, `DataSetGenerator`'s counter, 32-bit sums of the shrinker and of the IO code), where arithmetic is modulo 2^64 / 2^32.
* `std::vector` is `List`, `std::map`/`std::set` are key-sorted association lists (iteration order = key order), `std::lower_bound` is the actual binary search.
* Random number streams, user functions (pdfs, shape functions, gradients, test statistics) are parameters over which theorems quantify.

Layout: `lean/Verif/Basic.lean` (outcomes, containers), `lean/Verif/Model/*.lean` (the model, each definition citing the source), `lean/Verif/Props/*.lean` (property theorems and non-vacuity examples; helper lemmas in `lean/Verif/Lemmas/*.lean`).

## Plan per property

* **C01** Equal-width axis construction tiles its range: Model `BinAxis` equal-width constructor over any linearly ordered field; closed forms for edges by indexing lemmas.
* **C02** Variable-width axis construction accepts only legal bins: Model the checks of the variable-width constructor; exact acceptance characterisation; negation witness for overlapping/gapped bins.
* **C03** One-dimensional bin lookup is the unique half-open bin, with under/overflow clamped: Model `std::lower_bound` with `less_equal` as real binary search, prove partition-point lemma, then uniqueness from monotone edges.
* **C04** Flat index and per-axis indices are in bijection: Row-major flatten/unflatten; strong induction on the number of axes via a `foldl` normal form (mixed radix).
* **C05** Multi-dimensional bin lookup agrees with the per-axis lookups and the reported bin box: Compose C03 and C04.
* **C06** Out-of-range bin access is rejected: `Res` type with a distinct `ub` outcome; prove rejection for bin > nBins, negation witness at bin = nBins.
* **C07** Filling puts each weight in exactly the containing bin and conserves the total: State machine over fills; induction over the fill list.
* **C08** Scale and Normalise: List-sum algebra.
* **C09** Marginalisation sums over the dropped axes: Model the accumulate loop; sum-over-fibres by induction on the bin loop.
* **C10** Slices contain the right cells: Model `Recurse` + sequential fill; negation witness for two free axes; positive theorem for one.
* **C11** Bin-by-bin arithmetic between histograms: zipWith algebra.
* **C12** Lattice point values around a point: Model with 64-bit wrap-around; negation witnesses on the edges; interior theorem.
* **C13** One-dimensional range integral: Model the two lookups and loop.
* **C14** Means and variances of a normalised histogram: Weighted sums over the bins.
* **C15** Parameter registry set/get: Registry as name/value list in key order; model non-atomic loop, state returned with the outcome.
* **C16** Renaming a parameter preserves its value and every other parameter: Same model; per-class rename models for the systematics with negation witnesses.
* **C17** Component registry is the union of its components' parameters: List of registries; first-wins union.
* **C18** Matrix application and composition: Dense function model of matrices with dimension checks.
* **C19** Symmetric matrix construction: Model the filling loop, induction on the loop.
* **C20** Scale and shift responses are sub-stochastic and conserve what stays in range: Overlap fraction over an ordered field; telescoping sum over contiguous bins.
* **C21** Applying a systematic conserves the normalisation bookkeeping: Model `operator()` with the matrix model.
* **C22** Re-targeting a systematic to new axes: State machine with cache; negation witness for stale cache.
* **C23** Shape systematic multiplies bin by bin: Diagonal matrix model.
* **C24** Convolution response acts only on the transformed observables: Block/permutation model; positive for increasing order; negation for unordered.
* **C25** Group response is the ordered product of its systematics, the global group first: Registration state machine; denotational composition of responses.
* **C26** A systematic is never applied twice to a distribution: Same state machine; invariant over histories.
* **C27** Expected bin rate is the sum over distributions of normalisation times shape: Model of manager; sums.
* **C28** Each fitted normalisation reaches its own distribution: Model of `ReassertNorms`; negation witness for mixed status; positive for homogeneous.
* **C29** Repeated evaluation with unchanged parameters is idempotent: Evaluate state machine; negation witnesses for the two known histories; positive otherwise.
* **C30** Shrinking keeps exactly the fit region: Bin map model; sums over fibres.
* **C31** Binned likelihood value: Over the reals with `Real.log`.
* **C32** Barlow-Beeston: Real quadratic for the factor; the whole likelihood with it on, from configuration or after any history with systematics (`Props/BarlowBeestonFit`): the value is the sum of per-bin minima over the factor (`IsLeast`), when `mu·sigma² < 1` in every bin; not finite otherwise.
* **C33** Data set replaced after an evaluation is treated like the first: Evaluate state machine.
* **C34** Sum of test statistics: List of registries plus evaluation functions.
* **C35** Quadratic constraints: Ordered-field algebra.
* **C36** Bivariate constraints: Sum-of-squares algebra.
* **C37** Constraint manager: Registration state machine, invariant by induction; sign of the total by the sign of each kind of term (`Props/ConstraintSign.lean`).
* **C38** Ratio and fractional constraints: Ordered-field algebra.
* **C39** Interpolated shape constraint: Multilinear interpolation recursion, induction on dimension.
* **C40** Cut semantics: Decision logic.
* **C41** Cut collection and cut-flow accounting: Fold over events, invariant by induction.
* **C42** Event and observable-set lookups: Association list lookups.
* **C43** In-memory data set: State machine.
* **C44** Random sampling without replacement draws distinct events: Random stream as a parameter; permutation invariant by induction.
* **C45** Sequential sampling without replacement visits every event once: Same model.
* **C46** Remaining events complement the drawn ones: Same model.
* **C47** Sampling with replacement can reach every event: Arithmetic on floor.
* **C48** Observable-name serialisation round-trips: Characters lists; induction.
* **C49** Data set written in slabs is complete and in order: Slab writes into a flat array; tiling lemma.
* **C50** At most one lazily loaded data set is in memory: Registry state machine invariant.
* **C51** Counting experiment arithmetic: List sums.
* **C52** Grid search visits the whole grid and returns its minimum: Iteration model with fuel.
* **C53** MCMC stays within bounds and reports the best visited point: Chain with proposal stream parameter; invariant by induction.
* **C54** Chain storage: burn-in, thinning and acceptance rate: State machine.
* **C55** Leapfrog integration is reversible: Algebra over a field, induction on step count; with walls, an invariant relating each parameter to the mirror image of the free motion (Spec/Reflect.lean), from which the end point and reversibility follow.
* **C56** Minimiser name/value mapping: Zip/unzip lemmas.
* **C57** Bayesian upper bound: Loop model.
* **C58** Random bin generation follows the cumulative distribution: Partition point of cumulative sums.
* **C59** Composite distribution is the product of its parts: Recursive product.
* **C60** Bins as fit parameters: State model.
* **C61** Gaussian fitter parameter access: State model.
* **C62** Combination enumeration: Induction over lists.
* **C63** String splitting and list parsing: Induction over characters.
* **C64** Event systematics change only their own observable: Functional update model.
* **C65** Autocorrelation window: Queue state machine.
* **C66** Fit result copying: State model with ownership.
* **C67** Distribution filling from data: Fold over events.
* **C68** Histogram export/import round trip: Index algebra.
* **C69** Unbinned density evaluation: List sums.
* **C70** Configuration file parsing: Line-by-line parser model.
* **C71** The response follows the fitted parameters: each systematic as a state with registered parameter references; history lemma "construct after any settings = construct with the last values"; counterexample for the renormalisation.
* **C72** Projection histograms: model of the nested loops over parameter pairs; joined names as string concatenation; injectivity under a hypothesis on underscores.
* **C73** Visualisable projections: combine C09/C10 over the model of the projection loops.
* **C74** Detailed balance: acceptance step with a uniform deviate; Lebesgue measure of accepting deviates; algebra of `min(1, r)`.
* **C75** Contour edge: Minuit wrapper model with an abstract minimiser; negation for every input.
* **C76** Uniform numbers, rejection sampling: loop with fuel over a deviate stream; characterisation of the value.
* **C77** Gaussian values and integrals: product formulas over dimensions; standard normal cdf abstract, with its limits and monotonicity.
* **C78** Conditional kernels: JumpPDF and VaryingCDF state models over the Gaussian model.
* **C79** Histogram files: file as the stored record, characters for packed names; exact outcome of load after save.
* **C80** Generator histories: state machine over pools; invariant by induction on the call list.
* **C81** Soft boundaries: fold over the bounds, real log/exp inequalities.
* **C82** ROOT ntuples: ROOT file as a record, splitting at colons by induction over characters.
* **C83** Fit to the expectation: Gibbs inequality per bin on top of C31's end-to-end value.
* **C84** Convexity: convexity of the Poisson term composed with linear rates; local minimum is global.
* **C85** Fitted total: derivative along the ray of a common scaling factor vanishes at an interior minimum.
* **C86** Smearing: random stream as a parameter, induction over the events.
* **C87** Likelihood with systematics: recorded histories, responses rebuilt at each evaluation ("refreshing" systematics), composition with C25/C31.
* **C88** Normalisations after an evaluation with systematics: loop invariants of the norm steps.
* **C89** Parameters reach everything: registration fold and setting loop over an object store.
* **C90** Fit region: C30's bin map combined with the manager's shrinking and C31/C87; invariant "not shrunk or shrunk to the region" over histories.
* **C91** Ownership: a free store with fresh addresses, objects as lists of pointers, one policy per class; forward simulation of programs on values (invariant: every object alone owns live, distinct parts), plus no-leak invariant; the classes that share pointers or forget them are refuted for every program that gets that far.
* **C92** Failed evaluations: every call an evaluation makes is modelled a second time as a pair of the object left behind and the outcome (`Model/FailedCalls.lean`, `Model/FailedConstruct.lean`), proved to agree with the models used elsewhere; a relation that no later evaluation can tell apart is kept by every write on the way, so it holds wherever the exception arises; buffers that fail are refuted by two witnesses.
* **C93** Refused calls: the adding and changing calls are modelled as pairs of the object left behind and the outcome, each write made where the code makes it (`Model/Refused.lean`). One-item calls that check first are proved to leave the object as it was (for histogram arithmetic by showing that the bin loop cannot throw); calls over many items are proved to stop with exactly the items before the refused one done (`_partial`), with a witness that the object did change (`_wrong`); `AddPdf` with an unknown group is proved to leave the distribution in every likelihood (`C93_addPdf_wrong`).
* **C94** Adding many: `AddPdfs` in its four overloads, `AddSystematics` and `BinnedEDManager::AddPdfs` are proved equal, as pairs of object and outcome, to the loop of single calls over the zipped arguments; the unchecked lengths of the rates and, in one overload, of the statuses are the `_wrong` cases.
* **C95** Only the expectation counts: two configurations that predict the same rate in every bin give the same value less their constraint terms (`fitValue`, the value of the configured likelihood); permutation, omission at 0, merging, scaling, fixing and adding up (`Model/BinnedEDOps`, on the model of `Histogram::Add`) are instances. The order of directly and indirectly fitted ones matters (`C27_order_wrong`), hence `_partial`.
* **C96** Filling and projecting: on the histogram, the bin of the values along the kept axes is the projection of the bin of the values (mixed radix), then by induction over the events of the loop of `FillDist`. Fails when the observables are not called like the axes (`C96_names_wrong`) and, as in C10, for slices with more than one axis left (`C96_slice_wrong`).
* **C97** From `fitValue_eq` (the value of the configured likelihood, C31) to Mathlib's `poissonMeasure` and `gaussianPDFReal`: exponential of the sum is the product over bins; the posterior for any list of `SetConstraint` calls, and detailed balance through C74.
* **C98** The integral of the value over `Measure.pi` of Poisson measures: the value is affine in the counts, the mean of a Poisson count is its rate (proved from the series), then Gibbs' inequality bin by bin as in C83.
* **C99** `Model/Reports.lean`: the cut log with its cached members and the text by what each line shows. Invariant over histories of calls for the counters, closed form of the loop of `CalculateMeta`; `std::sort` is any function returning a sorted permutation. Fails for percentages read after more events (`C99_percentages_wrong`) and for equal background names (`C99_names_wrong`).
* **C100** `Model/ChiSquare.lean`: the object with its own members and the inherited ones they hide. Refuted: invariant over all histories of calls — the distribution manager stays empty — hence `Evaluate` always throws (`C100_evaluate_wrong`), there are never parameters (`C100_parameters_wrong`), any dictionary is accepted (`C100_set_parameters_wrong`); and even with distributions the bin centres are events without names (`C100_unnamed_wrong`).
* **C101** `Model/ConstrainedFit.lean` on top of the likelihood and the constraint manager: every step of `Evaluate` before the constraint term commutes with replacing the constraints (`C101_separate`, an equation of outcomes, exceptions included); the overloads refine C37's calls; `C101_value` puts the two together.
* **C102** `Model/Rounded.lean`: the equal-width constructor, fill, integral and marginalisation with a rounding after every arithmetic operation; the rounding is any monotone idempotent function exact on naturals up to B, and IEEE round-to-nearest-even with a 53-bit significand (without exponent limits) is shown to be one (`Ieee.double`). Edge monotonicity gives the lookup; induction over the events with the invariant 'all contents are naturals with bounded sum' gives the counts. Known limits as `_wrong` witnesses on doubles.
* **C103** `Model/RoundedFit.lean`: weighted fills, normalising, moments, expected numbers and the sum over bins of the likelihood, rounded after every operation by any rounding with a bounded relative error (`Arith`; IEEE doubles shown to be one, `Ieee.doubleArith`). Two error calculi (`Near`: positive quantities up to k relative errors; `Close`: signed sums relative to the size of their terms), induction over events, bins and distributions, composed with the exact theorems for C27 and C31. `Model/RoundedConstraint.lean`: every kind of constraint and their sum, rounded, by the same calculus (`Lemmas/RoundedConstraint.lean`, `Props/RoundedArith.lean`). Variance: bound relative to the second moment, and a witness on doubles that nothing better holds.
* **C104** `Model/FitData.lean` (cuts of a likelihood, the cut log an evaluation stores) on top of `Model/BinnedNLLH.lean` and `Model/EventSystematic.lean`; specification `extendedNLL`, `DataSet.passing`, `BinnedED.binOf` in `Spec/FitData.lean`. The filling theorem (C67) gives the counts, C31 the value, and a sum over bins weighted by counts is a sum over events; histories are followed with an invariant on likelihoods whose data is not yet binned. A cut added after an evaluation has no effect: `C104_late_cut_wrong`.
* **C105** No new code is modelled apart from `HamiltonianSampler.input` (the two virtual functions of the sampler as the chain calls them). Specification in `Spec/Stationary.lean`: points as vectors (`pointDict`), the box of limits, the target distribution (`targetLaw`, a Mathlib measure with density), and the mean over the next point (`afterStep`, an integral over the proposal's random numbers and the uniform number). Proof: the proposal together with its random numbers is a measure-preserving involution (a walk with reversed deviates; leapfrog with reversed momenta, C55), the acceptance probability is C74's, so the joint weight is balanced and its integral does not change; induction on the number of steps. The Gaussian numbers are Mathlib's `gaussianReal`, scaled by the width; the Hamiltonian sampler is treated without walls (with walls it is not reversible, C55).
* **C106** `Model/DataSet.lean` as for C44; probability is Lebesgue measure of the set of random numbers in the unit cube. The sequence of positions determines the sequence of events and conversely (the index array never repeats an index), so the numbers giving one sequence form a box whose sides are one over the number of positions. Fairness is refuted for every data set with two or more events (`C106_last_wrong`); what holds is proved exactly (`C106_next_partial`, `C106_equal_partial`).
* **C107** `Model/BinnedEDGenerator.lean` as for C58. The random numbers are a point of a product measure: Mathlib's `poissonMeasure` for each distribution and `Measure.infinitePi` of the uniform law on (0, 1]. For given numbers of draws the numbers giving one sequence of bins form a box (C58_bin), so the probability of the counts is a coefficient of a product of linear generating polynomials (`MvPolynomial`); summed over the numbers of draws with Poisson weights, the multinomial theorem gives the product of Poisson weights. The law of the fit's model is then that of C97, and the average over fake data follows from C98 by change of variables. That TRandom3 delivers such numbers is assumed.
* **C108** `Model/MCMC.lean`, `Model/MCMCSamples.lean` as for C53/C54/C74/C105. `Lemmas/Ergodic.lean` proves, independently of the code, that a step which keeps a law, stays in a set and from every point of it puts at least a share ε of its probability as that law does (Doeblin's condition) contracts the range of every function by 1 - ε, and bounds the mean square of weighted averages along the path. `Lemmas/MetropolisMinor.lean` shows the condition for the modelled Metropolis step: the Gaussian proposal density is bounded below on the box, and so is the acceptance. The full histogram is a weighted count along the path (C54_recorded), and the posterior's density is continuous, so bounded, on the box (C97). In the default mode the projections are such counts too (C54_projections_total). Not covered: the Hamiltonian sampler, fixed parameters, and exact reals stand for doubles as everywhere.
* **C109** Joint fits: a heap of likelihoods added with `Sum`; induction over the points tried keeps every likelihood in a configured state (`joint_step`), so the value at a point does not depend on the history (`C109_value`); constraints as densities (`gaussian_constraints`) give the joint posterior (`C109_posterior`); the average over product Poisson laws, channel by channel (`C109_average`); the chain by the convergence theorems of C108 on the sum as the optimiser sees it (`C109_chain`, `C109_chain_marginals`).
* **C110** Consistency: the Poisson sum bounds the squared distance of the square roots of the rates bin by bin (`near_of_le`, from `log x ≤ x - 1`), Pearson's sum has the number of bins as its mean (`pearson_mean`, Poisson variances), Markov's inequality gives the probability bounds; parameters are read off the rates by a left inverse of the independent shapes (`exists_readout`); joint fits by summing over the channels; the grid search by C52; limits for growing rates (`Props/Asymptotic.lean`), with the sign of the constraint terms from C37.
* **C111** Fits with systematics: the values seen along a sequence of dictionaries (`NLLH.scan`) by an invariant over the sequence (`SysTrace`: the systematic objects are always the added ones after the dictionaries so far, everything else unchanged), the value at each point from C87/C89; probability, average and consistency then as in C97, C98, C110 for the distorted rates. Points are those where the dictionary decides the systematics' parameters (`SysPoint`; proved for `Scale` and `Shift`).
* **C112** Optimisers on objects: the optimisers modelled a second time with the object's state passed from call to call (`FitObject`, `Model/OptimiserRuns.lean`); an object that answers sequences of dictionaries like a function (`AnswersLike`) is simulated by it, by induction over the run. Likelihoods with systematics (C111) and sums (C109) answer like functions; C52, C108 and C110 then transfer to runs on the objects. The Hamiltonian sampler's gradients on the object that the chain moves on (also through the negative energy wrapper) are modelled in `Model/HamiltonianRuns.lean`, with a second simulation proof in `Props/HamiltonianRuns.lean`.
* **C113** Closure of toy studies: the law of generated histograms (C107) is the law of data of the fit (C110), because a fit only sees the bin contents of its data (`toy_fit`); so the bounds of C110 on wrong points that fit as well hold for fake data, over the random numbers of the generator. With C52 a grid search that has the truth on its grid finds it within the bound.
* **C114** Coverage: `coverage` is the integral over the prior of the probability, under the model, of the data whose region contains the truth; by exchanging sum and integral it is the average of posterior probabilities (`coverage_eq`). With C108 the histogram of a chain is close to the posterior for each of finitely many data sets that make up nearly all experiments, except for unlikely random numbers.
* **C115** The best fit of a chain: by induction over the run every point of the path is noted except perhaps the one where the chain ends (`MCMC.run_best`). Around the best point within the limits there are two separate regions of positive probability with values within epsilon; a chain that visits both has noted one of them. By the mean square bound behind C108 the probability to miss a region is at most a constant over the number of steps. The closure follows with C110.
* **C116** Chains with fixed parameters: the step on the points with given fixed values is the step of a chain in the free parameters, with the law of their deviates (`metroStep_held`, `freePart_gauss`), so the ergodic chain of C108 is carried over (`Ergodic.Chain.carry`); its law is the density over lengths in the free parameters and point masses at the fixed ones (`Spec/HeldChain.lean`, `heldLaw`; with nothing fixed the law of C108, with everything fixed the point itself). The storage and best-fit arguments of C108 and C115 then apply.
* **C117** Coverage with systematics and in joint fits: `coverageOf` (`Spec/SysCoverage.lean`) is C114's fraction for any prior and any law of the data; the exchange of sum and integral and the finitely-many-data-sets argument are done once for these (`coverageOf_eq_on`, `cover_of_histograms`), and used with the rates of C111 (`C117_chain`) and the joint law of C109 (`C117_joint_chain`), with the chains of C112 on the objects (`C112_joint_histogram`).
* **C118** Random draws follow the densities: the deviates are an endless sequence of independent standard normal ones (`gaussNoise`, `Spec/SampleLaw.lean`); `DrawsDensity` says that a draw never fails and that the law of its result is Lebesgue measure with the density the object itself evaluates to. The image of the product measure under the affine map that `Sample` applies is computed (`scaled_law`, `scaled_density`); for events C86 gives the values, and the mean number in an interval is the sum of Gaussian probabilities, which are the integrals of the kernel (C78).
* **C119** Smearing events and convolving their histogram agree: `histOfEvents` (`Spec/SmearAgree.lean`) is a user's loop that fills a histogram with events. `mean_contents` computes the average contents after smearing from the law of C118 and the lookup of C03 (`bin_values`: the first and last bin also get what lies outside); `convolved_contents` computes the contents after the convolution from C24 and C21; the two are compared event by event, the cut-off costing at most twice the mass of a tail (`clipped_error`, from the symmetry of the density).
* **C120** Moving events and moving histograms agree: `evenly`, `shareBelow` and `shareAbove` (`Spec/MoveAgree.lean`) are the uniform law on a bin and the parts of a moved bin below and above the axis. `moved_mass` computes the probability that a moved event lands in a bin (the overlap of intervals over the width), `moved_contents` averages the contents over the product law using the lookup of C03, and `move_agree` compares them with the matrices of C20 and C21 applied to the filled histogram; the event side is C64. Only positive scale factors are covered, as in C20. `C120_scale_inside` and `C120_shift_inside` state the case in which nothing leaves the axis.

## How wrong programs are used

`seeded/LOG.jsonl` holds one line per edited model (made and built in a scratch copy): the definition, the edit, the claim broken, the theorems whose proofs failed (directly, or because a lemma they rest on failed) and, when nothing failed, the theorem added or tightened; survivors were re-run after tightening. Every manifest theorem `..._wrong` is a proved counterexample: the code itself violates the English property there.

## Trusted base

* Lean 4.33.0's kernel, and Mathlib as installed.
* Axioms: only Lean's standard `propext`, `Quot.sound`, `Classical.choice` (a few theorems use none or only some of them). None of our own; no compiled evaluation is trusted (`decide +kernel` runs in the kernel).
* That the model says what the C++ says. Each definition cites the lines it models and states its simplifications; the model was written by reading, not extracted, and never run against the compiled library.

Assumptions built into the model:

* `double` arithmetic is exact (ordered field, or `Real` with Mathlib's log, exp, sqrt). Rounding, overflow, NaN and infinities are not modelled, except that division by zero and the logarithm of a non-positive number give a "not finite" value (`Fl`) where the code lets it through.
* Rounding of double arithmetic is modelled only for axis edges, bin lookup, filling, integrals, normalising, projections, moments, expected numbers of events, constraint terms and the sum over the bins of the likelihood (C102, C103); overflow, subnormals, infinities and NaN produced by rounding are not. The logarithm of the machine is any function with a relative error of at most u. Everywhere else (systematics, Barlow-Beeston, samplers) arithmetic is exact.
* Conversions `double -> float` (ROOT files) are an arbitrary function. `unsigned`/`int`/`size_t` wrap-around is modelled where a theorem needs it and otherwise excluded by a hypothesis stated in the theorem (sizes below 2^31 or 2^32).
* The standard library does what the standard says: `std::map`/`std::set` iterate in key order, `std::lower_bound` is the binary search, `vector::at` throws.
* Libraries: Armadillo matrix products and inverses of the shapes used; HDF5 stores and returns what is written; ROOT's `TNtuple`, `TTree`, `TH1/TH2`, `TAxis` as documented in the comments of `Model/RootIO.lean` and `Model/DistTools.lean`; `TRandom::Gaus(m, s)` is `m + s z` with `z` standard normal; Minuit is an arbitrary minimiser (theorems hold for whatever it returns).
* Random numbers, user-supplied functions, gradients, statistics are universally quantified parameters.
* Objects reached through pointers are values unless the property is about sharing: `Model/StatisticSum.lean`, `Model/SystematicManager.lean` and `Model/BinnedNLLH.lean` keep a store of shared objects, `Model/FitResult.lean` and `Model/Ownership.lean` model ownership.

## What is modelled

All of `src/` under axis, histogram, distribution, event and data-set classes, cuts, constraints, systematics and their managers, event systematics, functions (Gaussian, JumpPDF, VaryingCDF, GaussianFitter, SquareRootScale), test statistics (BinnedNLLH, StatisticSum, CountingExperiment), optimisers (GridSearch, MetropolisHastings, Metropolis/Hamiltonian samplers, LeapFrog, MCMC and its storage, Minuit wrapper, SigmoidBoundary), FitResult, AutoCorrelationCalc, ConfigLoader with ini.hpp, string and container helpers, IO for HDF5 and ROOT, histogram export to ROOT.

## What is not modelled

* Printing and logging (`Print`, `AsString`, `SaveAs` of text: for CutLog and CountingResult what each line of `AsString` shows is modelled, C99; not padding, digits or files), progress output, plotting (`plot/ROOTMultiPlot`), `core/Formatter`, `core/TypeTraits`; interface-only classes (`Optimiser.h`, `ConditionalPDF.h`, `Heaviside`, which is abstract).
* Timing, memory exhaustion, threads (the library has none), partially written files.
* Python bindings, examples, tests and build scripts.
