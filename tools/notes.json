{
 "C02": [
  "partial",
  "Exact acceptance and returned bins proved; the expected rejection of overlapping/gapped bins is false of the code (C02_overlap_accepted, C02_gap_accepted)."
 ],
 "C06": [
  "partial",
  "False at bin == GetNBins() for every histogram (C06_boundary_ub); proved for every other bin number."
 ],
 "C10": [
  "partial",
  "What the code computes is proved for every slice (C10_slice_layout); right for exactly one kept axis; false for two or more (C10_slice_wrong_2d: contents transposed); fixed bins unchecked."
 ],
 "C100": [
  "partial",
  "The code violates it: no public call gives the object a distribution, so Evaluate throws std::out_of_range after every history of calls; the theorems prove that, and that no parameters ever appear."
 ],
 "C102": [
  "proved",
  "Model with a rounding after every operation; IEEE double rounding (unbounded exponents) is shown to satisfy the assumptions. C102_last_edge_wrong and C102_saturates_wrong show the limits named in the statement."
 ],
 "C103": [
  "partial",
  "Filling, integrals, normalising, projections, scaling, adding and expected numbers proved for every rounding with bounded relative error; constraints (C103_constraints_partial) for correlations up to 1/sqrt 2; the whole fit in C103_fit_partial. In the likelihood the preparation with systematics is exact in the model, and Barlow-Beeston is left out. The variance is bounded only relative to the second moment, and C103_variance_wrong shows a negative variance on doubles."
 ],
 "C104": [
  "partial",
  "Proved for distributions in one binning with distinct names, directly fitted ones first (C27, C28), positive expectations and fewer than 2^31 entries (C67); with systematics, C104_systematics_partial and C104_systematics_outcome_partial; for every order of addition, C104_any_order. For any configuration (systematics, buffers, Barlow-Beeston, constraints, earlier evaluations) C104_equivalent says that a data set not yet binned counts exactly as the histogram of its passing events in the first distribution's binning, and C104_missing_observable what happens when it lacks an observable. The clause about cuts added later is false of the code: after an evaluation the data stays binned with the old cuts (C104_late_cut_wrong), although the likelihood lists the new cut; they count once the data set is set again (C104_again_partial)."
 ],
 "C105": [
  "proved",
  "For all measurable statistics, limits, widths, masses, step sizes and numbers of steps. The random numbers are modelled as ideal (independent normal and uniform reals); the Hamiltonian sampler without walls (with walls steps can leave the box and are then not reversible: C55_reflect_wrong, C55_reflect_reversible_wrong). The limits and the current point must list the same parameters."
 ],
 "C106": [
  "partial",
  "The code violates the property: Shoot(max) is given the last index, not the number of events left, so one event left can never be the next (C106_last_wrong, for every data set with at least two events). Proved: at every draw exactly one event left is impossible and the others are equally likely (C106_next_partial), all sequences that can be drawn at all are equally likely (C106_equal_partial), the first draw (C106_first_partial). Random numbers are ideal uniform reals; without cuts."
 ],
 "C107": [
  "proved",
  "Random numbers: one Poisson number per distribution with its rate as mean (Rand::Poisson) and independent uniform numbers (Rand::Uniform), as Mathlib measures; that ROOT's generator delivers them is assumed. The fit theorem is for fits without systematics and without Barlow-Beeston, as C98."
 ],
 "C108": [
  "proved",
  "Metropolis sampler, no fixed parameters, non-zero widths, density bounded between the limits (automatic for a fit with positive rates, by continuity); exact reals. C108_converges for the chain; C108_histogram for the full-histogram mode and C108_marginals for the default mode (pairs: where no two joined names agree), for any statistic; C108_posterior, C108_posterior_histogram, C108_posterior_likely and C108_posterior_marginals for a fit of counts with Gaussian constraints."
 ],
 "C109": [
  "proved",
  "Channels without systematics, buffers or Barlow-Beeston (as in C31_configured_partial); Metropolis sampling."
 ],
 "C110": [
  "proved",
  "Likelihoods without systematics, buffers or Barlow-Beeston; C110_constrained and C110_consistent* are for any history of constraints with correlations between -1 and 1 and no interpolated tables, the other theorems for points whose constraint term is not negative; C110_grid has the limits of C52 (first point not tried, value zero, two parameters)."
 ],
 "C111": [
  "proved",
  "Likelihoods without buffers and Barlow-Beeston, different names of systematics and of distributions, directly fitted distributions before indirectly fitted ones (otherwise the code's normalisation counters are wrong, C88). Points: dictionaries over the same names that decide the parameters of every systematic (AnySys.scale_decided, shift_decided: for Scale and Shift every dictionary with a value for the parameter) and where all rates are positive. Exact reals."
 ],
 "C112": [
  "proved",
  "Runs that succeed on the function (an exception of the function is not followed). Infinite values are outside. Likelihoods as in C111 (systematics) and C109 (sums): no buffers, no Barlow-Beeston; rates and constraint term continuous and rates positive between the limits; the grid theorem is for two parameters and values other than zero (C52). The convergence theorems are for the Metropolis sampler. Exact reals."
 ],
 "C113": [
  "proved",
  "Histograms without systematics, buffers or Barlow-Beeston errors, distributions usable over the same bins; constraints of the proper kinds without tables. The random numbers are those of the law in C107 (Poisson counts per bin). The grid search has two parameters, the truth on the grid but not at its first point (never tried: C52), and fake data for which a value at a grid point is exactly zero are excepted. Probabilities of events are outer measures."
 ],
 "C114": [
  "proved",
  "Normalisations without systematics, buffers or Barlow-Beeston errors; independent Gaussian constraints; Metropolis sampler with Gaussian steps, logged and sign-flipped chain, full histogram saved. The prior is the one the chain's limits and the constraints imply (flat where unconstrained). The same random numbers of the chain are used for all experiments in the statement about runs. Probabilities of sets of random numbers are outer measures."
 ],
 "C115": [
  "proved",
  "Metropolis sampler with Gaussian steps of non-zero width in all parameters (none fixed); real numbers. About runs that return (those of C108 with a full histogram do: C108_posterior_histogram). For fits: no systematics, buffers or Barlow-Beeston errors, Gaussian constraints. The constant may depend on epsilon and the data. Probabilities of sets of random numbers are outer measures. That the very last point is never considered is the defect in C53_best_wrong."
 ],
 "C116": [
  "proved",
  "Metropolis sampler; random numbers and real arithmetic as in C108. The density is bounded, from above and away from zero, on the points with the given fixed values; C116_marginals (default axes) needs the fixed values below the upper limits; C116_best needs a free parameter and continuity. The constants may depend on the fixed values."
 ],
 "C12": [
  "partial",
  "Proved for every point between first and last centres on each axis; false in the outermost half bins (UB / aliasing witnesses)."
 ],
 "C15": [
  "partial",
  "Set/get round trip proved; a failed SetParameters is not atomic (witness theorem)."
 ],
 "C16": [
  "partial",
  "Proved for the registry and for scale/shift; for shape, renorm and scale-function proved when the new name is unused, false otherwise (C16_own_rename_wrong: rename onto itself deletes, onto another overwrites)."
 ],
 "C21": [
  "partial",
  "Proved for every response and distribution; false between SetAxes and Construct, where operator() silently returns zeros (C21_unconstructed_silent_wrong)."
 ],
 "C22": [
  "partial",
  "Proved for any history over axes with the same numbers of bins; false otherwise (C22_other_shape_wrong: exception or silently wrong response)."
 ],
 "C24": [
  "partial",
  "Proved for observables listed in the distribution's order, any kernel, any number of earlier Constructs; false for other orders (C24_order_wrong, C24_silent_wrong)."
 ],
 "C26": [
  "partial",
  "Rejections and exact acceptance proved; an Add after AddDist can make a systematic apply twice (C26_late_add_wrong); legal registrations are refused depending on order (C26_order_wrong); std::out_of_range instead of NotFoundError (C26_wrong_exception)."
 ],
 "C27": [
  "partial",
  "Proved after every history of calls for distinct names with direct before indirect, also for events and independent of order. C27_any_order gives the exact value for every order, C27_order_exact shows that each distribution is scaled by its own parameter if and only if no INDIRECT distribution precedes a DIRECT one, and C27_no_effect_wrong that otherwise the parameter of the last DIRECT one has no effect at all (ReassertNorms counts only the directly fitted ones)."
 ],
 "C28": [
  "partial",
  "Parameters read back for every history with distinct names; used by the rate (direct before indirect) and by re-asserting (that kind first); C28_reassert_any_order gives the exact result for every order; false for the other order (C28_reassert_wrong, C27_order_wrong, C27_no_effect_wrong) and for duplicate names (C28_duplicate_wrong)."
 ],
 "C29": [
  "partial",
  "Proved for every reachable likelihood whenever buffers are empty or systematics exist (any systematic that recomputes its response from its parameters, shown for scale, shift, scale function, shape and renormalisation); witnesses show the property fails for buffers without systematics in more than one dimension and for Barlow-Beeston with indirect normalisations and buffers."
 ],
 "C30": [
  "proved",
  "For grids of at most 2^31 bins and buffer sums below 2^32 (int arithmetic in the bin map); when the sum wraps, the rejection is std::length_error instead of ValueError (C30_wrap_wrong)."
 ],
 "C31": [
  "partial",
  "Proved end to end from configuration to value, for distinct fitted names with directly fitted distributions added before indirectly fitted ones. For every order of addition C31_any_order and C31_configured_any_order give the exact value, with the parameter the manager really takes for each distribution; where a direct distribution follows an indirect one the claim is false of the code (C31_no_effect_wrong: its normalisation changes nothing in the likelihood). Doubles are reals."
 ],
 "C32": [
  "partial",
  "The factor is proved to be the unique positive root (and minimiser), and the likelihood the sum of the per-bin minima, only when rate x sigma^2 < 1 in every bin; for rate x sigma^2 >= 1 the code is wrong: BinnedNLLH.cpp:91 takes x2 = +n*sigma2/q instead of -n*sigma2/q, so the chosen beta is not a root (C32_sign_wrong) and the value not finite (C32_likelihood_partial, C32_outcome_partial). Also not finite when sigma^2 = 0. Without systematics the statistics of distributions that are not fitted are left out (C32_fixed_wrong)."
 ],
 "C33": [
  "partial",
  "Proved when no buffers are set and data keeps its observables; witnesses show the property fails with buffers (the shrunk flag is never reset) and with data in other observables."
 ],
 "C34": [
  "proved",
  "Statistics are objects in an arbitrary world; a part may occur several times and may be a sum itself. The instance for a joint fit of binned likelihoods carries the restrictions of C31 (C34_joint_fit_partial)."
 ],
 "C36": [
  "partial",
  "Proved for |rho|<1; correlations -1 and beyond are accepted by the code (C36_not_rejected_wrong)."
 ],
 "C38": [
  "partial",
  "Proved for denominators of at least 1e-8 and non-cancelling values; false otherwise (C38_small_denominator_wrong, C38_fractional_not_finite_wrong)."
 ],
 "C39": [
  "partial",
  "Proved for points between the first and last bin centre on every axis; false in the outermost half bins (C39_edge_wrong)."
 ],
 "C43": [
  "partial",
  "Adding, reading and concatenated value proved; operator+ modifies its left operand (C43_concat_modifies_left_wrong) and a+a never ends (C43_self_concat_diverges_wrong)."
 ],
 "C44": [
  "partial",
  "No repetition over any sequence of calls proved up to the size of the set; asking for more than remain is undefined behaviour instead of an error (C44_overdraw_not_rejected_wrong)."
 ],
 "C45": [
  "partial",
  "Exact order drawn proved (C45_order); drawing all events gives event 1 twice and event 0 never, in reverse order (C45_drawing_all_wrong)."
 ],
 "C46": [
  "partial",
  "Proved after random draws; false before any draw (throws) and after sequential draws (returns a drawn event, loses event 0)."
 ],
 "C47": [
  "partial",
  "Draws proved to be events of the set, one per random number; the last event can never be drawn (C47_last_event_never_wrong, C47_replacement_misses_last_wrong)."
 ],
 "C49": [
  "partial",
  "Round trip proved (C49_round_trip_partial) for non-empty sets with fewer than 10000 observables, at most 2^32 values, and packed names of at most 64 characters without ':'. Outside these the claim is false of the code: C49_save_fails_wrong (empty set), C49_long_names_wrong (names truncated at 64 characters), C49_large_file_wrong (slab count computed from a 32-bit product)."
 ],
 "C50": [
  "proved",
  "Registered objects only, as stated. Copies are never registered, so any number of them can hold data (C50_copies_wrong)."
 ],
 "C51": [
  "proved",
  "Non-empty samples are needed for the division to mean anything (0/0 is NaN in C++). A second CountBackgrounds call counts every background again (C51_repeated_wrong)."
 ],
 "C52": [
  "partial",
  "For an even number of parameters the exact set of points evaluated and the minimum among them are proved (all grid points but the start for two parameters), when no value is zero. False in general: odd numbers of parameters always end in undefined behaviour (C52_odd_wrong), the starting point is never evaluated, more than two parameters are searched in part, zero values and the sign when maximising are wrong (C52_search_wrong)."
 ],
 "C53": [
  "partial",
  "In-bounds, staying and the walk itself are proved for every run whose start is in bounds. The best fit is proved best among all visited points except the last one; the last accepted point is never compared (C53_best_wrong). User-given initial values are not checked against the bounds (C53_initial_wrong)."
 ],
 "C54": [
  "proved",
  "Steps recorded are those numbered (from 0) strictly above the burn-in, so burnIn+1 steps are dropped. Two pairs of parameters whose joined names agree share a histogram slot (C54_joined_name_wrong)."
 ],
 "C55": [
  "partial",
  "Proved: n leapfrog steps (n>=1) are n single steps, every number of steps is undone by flipping the momenta, the energy correction, kinetic energy and gradient; which integration the sampler uses; reflections always end; walls that are not reached make no difference; a reflective drift that starts strictly inside and meets no two walls at once ends at the mirror image of where the free particle would be, so within the walls, and is undone by flipping the momenta, for any number of steps. False in general: a particle exactly on a wall at the end of a step leaves the box, and so does one that runs into a corner; after leaving, the way back need not be the way there (witness theorems). Missing: nothing about floating point."
 ],
 "C56": [
  "partial",
  "The wrapper, the whole fit, fixed parameters, limits, refused settings and the covariance are proved for an arbitrary minimiser. The fit theorem needs that nothing is left in the wrapper from an earlier fit with other parameters; C56_stale_wrong shows the statement is false otherwise."
 ],
 "C57": [
  "partial",
  "The value returned is characterised exactly for every posterior. The property is false: the bin used is two after the right one, so that for every flat posterior the bound is two bin widths too high or cannot be computed (C57_flat_wrong), and arbitrary for falling ones (C57_falling_wrong). Proved: refusals, that for non-falling posteriors at least the fraction lies below, and the counting-experiment search."
 ],
 "C58": [
  "proved",
  "The per-bin statement, the contents and total of a generated distribution, rounding and refusals. C58_unchecked_wrong records that empty distributions and differing binnings are not refused."
 ],
 "C59": [
  "proved",
  "Probability, integral, dims and normalisation of composite (product) distributions as trees over leaf distributions. The implicit copies of CompositeED and EventDistributionManager, which share pointers, are not modelled."
 ],
 "C60": [
  "partial",
  "Everything but SetParameter: the code assigns the value to the bin's name (C60_set_one_wrong)."
 ],
 "C61": [
  "partial",
  "Reading by name works only for the parameter in the first place (C61_get_partial); every other one is reported as not found although listed and settable (C61_get_wrong, GaussianFitter.cpp takes std::distance the wrong way round). Renaming to the same name never returns (C61_rename_same_wrong); widths set by name are not checked (C61_width_unchecked_wrong). Writing, dictionaries, renaming, copying and construction are proved in full."
 ],
 "C64": [
  "partial",
  "Laws, order, locality, setters proved; the rejection of non-positive scales does not hold of SetParameter/SetParameters (C64_unchecked_parameter_wrong). The random EventConvolution is covered by C86."
 ],
 "C65": [
  "proved",
  "For every window length >= 1. Side findings: a window of length 0 is undefined behaviour on the first fill (C65_zero_length_wrong); Var truncates to an integer absolute value (C65_var_wrong)."
 ],
 "C66": [
  "partial",
  "False as stated: operator= tests its own pointer, so assigning a result that holds a space to one that holds none loses it (C66_assign_loses_wrong) and the reverse dereferences null (C66_assign_ub_wrong); copies leave the print precision uninitialised. Copy and assignment are proved on the cases that work; no space is deleted twice."
 ],
 "C67": [
  "partial",
  "Proved for data sets below 2^31 entries; from 2^31 to 2^32 the default limit fills nothing (C67_large_set_wrong)."
 ],
 "C68": [
  "partial",
  "Contents always survive the round trip (any number of dimensions). Edges survive exactly when the bins of each axis have equal width (iff, C68_round_trip); C68_round_trip_wrong exhibits the loss for [0,1),[1,4). Axis names are replaced by their titles, equal titles make the conversion back throw. ROOT's TAxis/TH classes are modelled by their documented behaviour."
 ],
 "C69": [
  "proved",
  "Also proved beyond the statement: setting the normalisations by parameter name, for distributions with distinct names (with equal names C69_duplicate_wrong shows that only the last one is set)."
 ],
 "C70": [
  "partial",
  "Proved for reading (C70_reads, C70_accepts, C70_load, C70_unique, C70_listSections, C70_open, C70_lines): only the numeric conversion by iostreams and the printing function are outside the model. C70_failed_open_wrong: after a failed second Open the static pointer dangles, and Load without an open file dereferences null."
 ],
 "C71": [
  "partial",
  "Proved for scale, shift and shape; false for renorm, whose fit parameters are never used (C71_renorm_ignores_parameters_wrong)."
 ],
 "C72": [
  "partial",
  "Proved whenever no two pairs have the same joined name (in particular for names without underscores, C72_joined_names); otherwise a projection is lost (C54_joined_name_wrong)."
 ],
 "C73": [
  "proved",
  "For every valid histogram with at least one bin per axis."
 ],
 "C74": [
  "proved",
  "Real arithmetic; a probability is the Lebesgue measure of the accepting deviates in [0,1)."
 ],
 "C75": [
  "partial",
  "The property is false of the code: C75_contour_edge_wrong proves that for every optimiser, statistic, minimiser and value the edge has no effect and reads 1/2 after a fit."
 ],
 "C76": [
  "partial",
  "UniformRange and Shoot proved; VonNeumannSample is proved to return 0 always (C76_vonNeumann_wrong)."
 ],
 "C78": [
  "partial",
  "A governed name unknown to the kernel is silently ignored (C78_unknown_wrong); with two functions whose parameters have different names none can be set and only the first can be read (C78_parameter_wrong); a kernel never set is undefined behaviour, not an error (C78_unset_wrong). Functions are modelled as SquareRootScale only, the kernel as a Gaussian in a JumpPDF."
 ],
 "C79": [
  "partial",
  "C79_load: the outcome for every histogram and all names (loading keeps bins and contents whenever it succeeds, and throws out_of_range or ValueError otherwise). C79_round_trip_partial: identity under the hypotheses that no name holds ':' and the packed names fit in 64 characters. Without them the property is false of the code: C79_names_wrong. C79_extension: the file name. Not modelled: the HDF5 library and writing of the ROOT file."
 ],
 "C80": [
  "partial",
  "C80_history_partial: every history of generating calls over any mixture of drawing modes within the sizes of the sets. Missing, because false of the code: events of later sets are relabelled with the names of the first set (C80_names_wrong), a generator filled by AddDataSet alone throws (C80_add_only_wrong), AllValidEvents ignores the cuts (C80_cuts_ignored_wrong), a sequential set drawn completely repeats event 1 and never gives event 0 (in the statement), asking for more than is left is undefined behaviour (C44_overdraw_not_rejected_wrong)."
 ],
 "C81": [
  "proved",
  "Over the reals: the overflow of exp for mu*distance > 709 is not modelled. C81_unknown_name_wrong: a bound on a name that is not among the parameters acts on the value 0."
 ],
 "C82": [
  "partial",
  "Proved for names that are non-empty, without colons (and distinct for ROOTTree), one per observable. False in general, with witnesses: a colon in a name reads past the end of the event (C82_colon_wrong), values without a name are dropped silently (C82_dropped_wrong), ROOTTree gives the first of two observables of the same name twice (C82_repeated_name_wrong), a leaf named unlike its branch is a null pointer (C82_leaf_name_wrong). The float conversion is an arbitrary function."
 ],
 "C83": [
  "proved",
  "Follows the whole path from configuration to value (C31_configured_partial). Rates must be positive; over the reals."
 ],
 "C84": [
  "proved",
  "C84_convex: likelihood term, any constraints. C84_constrained, C84_local_is_global: whole value. Ratio and shape constraints are not convex and are excluded in the statement."
 ],
 "C85": [
  "proved",
  "Over the reals; every normalisation fitted."
 ],
 "C86": [
  "partial",
  "Smearing, sequences, parameters and refusals proved. False of the code: a copy loses its name (C86_copy_name_wrong), conditional kernels of more than one dimension are accepted and read past the end (C86_wide_kernel_wrong). Rand::Gaus(m,s) is m + s times a standard normal value (ROOT). Double deletion of the functions shared by copies of VaryingCDF is not visible in this model."
 ],
 "C87": [
  "partial",
  "Proved for every history without buffers and Barlow-Beeston, distinct names, direct before indirect; C87_any_order gives the exact value for every order. Beyond that the code itself violates the claim (C28, C29, C30, C32 witnesses)."
 ],
 "C88": [
  "partial",
  "Proved when direct and indirect fitting are not mixed; false when mixed (C88_mixed_wrong: the indirect normalisation uses the direct parameter)."
 ],
 "C89": [
  "partial",
  "Proved for systematics with pairwise different names. The full statement is false: two different systematics of equal name in different groups share one registration, the second never receives its parameters (C89_equal_names_wrong)."
 ],
 "C90": [
  "partial",
  "Proved: without systematics, the first evaluation with any number of axes and every evaluation with one axis; with systematics, every evaluation with any number of axes, with throw exactly when a region bin has rate zero. Missing because the code does otherwise: without systematics a second evaluation with more than one axis throws DimensionError (C29_buffers_wrong), all-zero buffers do not renormalise; not covered: equal names or an indirectly fitted distribution before a directly fitted one (wrong norms, see C28/C31), Barlow-Beeston."
 ],
 "C91": [
  "partial",
  "Proved for every program in which the class clones what it copies (JumpPDF and EventConvolution: every program; CutCollection: every program without self-assignment, also leak-free; the others: programs without copies or assignments). The full property is false of the code: CompositeED, EDManager, Convolution and VaryingCDF share pointers when copied, those and AnalyticED when assigned (C91_shallow_copy_wrong, C91_shallow_assign_wrong: undefined behaviour after every program that copies such an object and destroys both); a CutCollection assigned to itself loses its cuts; JumpPDF and EventConvolution leak."
 ],
 "C92": [
  "partial",
  "Proved for every history without buffers (and with buffers once a first evaluation succeeded and there are systematics), with failures anywhere. The code violates the property with buffers: C92_buffer_wrong (a too large buffer cannot be corrected, BinnedEDShrinker keeps the axes added before the exception), C92_retry_wrong (the retried evaluation returns a number where the first threw). Data of other observables without systematics: C33_observables_wrong."
 ],
 "C93": [
  "partial",
  "One-item calls are atomic (proved); calls over several items keep what preceded the refused one, and AddPdf with unknown groups keeps the distribution it refused: C93_axes_wrong, C93_sum_wrong, C93_fill_wrong, C93_dists_wrong, C93_addPdf_wrong."
 ],
 "C94": [
  "partial",
  "Equal to the single calls whenever the lists have equal lengths, and mismatched checked lists are refused with nothing added; the number of generated rates, and of statuses in the overload with groups and rates, is not checked: C94_rates_wrong, C94_status_wrong."
 ],
 "C95": [
  "partial",
  "Proved for distributions added with the directly fitted ones before the indirectly fitted ones; for the other order the code itself takes wrong normalisations (C27_order_wrong)."
 ],
 "C96": [
  "partial",
  "Proved for distributions whose observables are called like their axes and for slices with one axis left; otherwise false of the code (C96_names_wrong, C96_slice_wrong)."
 ],
 "C97": [
  "proved",
  "For likelihoods without systematics and Barlow-Beeston, with the distributions in the order that C27/C28 need (directly before indirectly fitted)."
 ],
 "C98": [
  "proved",
  "Same configurations as C97."
 ],
 "C99": [
  "partial",
  "Holds after every history of calls, except that GetCutPercentages keeps the percentages of the last CalculateMeta/AsString (C99_percentages_partial gives them exactly, C99_percentages_wrong shows the difference), and that equal background names show one error for both (C99_names_wrong); C99_summary_partial: own errors for distinct names."
 ]
}