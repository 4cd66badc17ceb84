{
 "claims": [
  {
   "property": "C01",
   "status": "proved",
   "theorems": [
    "Oxsx.C01_equalAxis_accepts",
    "Oxsx.C01_equalAxis_tiles"
   ],
   "note": ""
  },
  {
   "property": "C02",
   "status": "partial",
   "theorems": [
    "Oxsx.C02_edgesAxis",
    "Oxsx.C02_overlap_accepted",
    "Oxsx.C02_gap_accepted",
    "Oxsx.C02_edgesAxis_contiguous"
   ],
   "note": "Exact acceptance and returned bins proved; the expected rejection of overlapping/gapped bins is false of the code (C02_overlap_accepted, C02_gap_accepted)."
  },
  {
   "property": "C03",
   "status": "proved",
   "theorems": [
    "Oxsx.C03_findBin",
    "Oxsx.C03_findBin_mono",
    "Oxsx.C03_findBin_centre",
    "Oxsx.C03_renamed"
   ],
   "note": ""
  },
  {
   "property": "C04",
   "status": "proved",
   "theorems": [
    "Oxsx.C04_build",
    "Oxsx.C04_flatten_bijection",
    "Oxsx.C04_layout",
    "Oxsx.C04_flatten_dim",
    "Oxsx.C04_unflatten_range",
    "Oxsx.C04_flatten_noAxes_ub"
   ],
   "note": ""
  },
  {
   "property": "C05",
   "status": "proved",
   "theorems": [
    "Oxsx.C05_findBin",
    "Oxsx.C05_extent",
    "Oxsx.C05_accessor_errors",
    "Oxsx.C05_list_errors"
   ],
   "note": ""
  },
  {
   "property": "C06",
   "status": "partial",
   "theorems": [
    "Oxsx.C06_reachable_valid",
    "Oxsx.C06_access_partial",
    "Oxsx.C06_boundary_ub",
    "Oxsx.C06_setBinContents"
   ],
   "note": "False at bin == GetNBins() for every histogram (C06_boundary_ub); proved for every other bin number."
  },
  {
   "property": "C07",
   "status": "proved",
   "theorems": [
    "Oxsx.C07_retarget",
    "Oxsx.C07_single",
    "Oxsx.C07_distribution",
    "Oxsx.C07_fill_one",
    "Oxsx.C07_fill_sequence",
    "Oxsx.C07_fill_map"
   ],
   "note": ""
  },
  {
   "property": "C08",
   "status": "proved",
   "theorems": [
    "Oxsx.C08_distribution",
    "Oxsx.C08_scale",
    "Oxsx.C08_normalise"
   ],
   "note": ""
  },
  {
   "property": "C09",
   "status": "proved",
   "theorems": [
    "Oxsx.C09_marginalise_errors",
    "Oxsx.C09_marginalise",
    "Oxsx.C09_marginalise_empty_ub"
   ],
   "note": ""
  },
  {
   "property": "C10",
   "status": "partial",
   "theorems": [
    "Oxsx.C10_distribution",
    "Oxsx.C10_slice_errors",
    "Oxsx.C10_slice_layout",
    "Oxsx.C10_slice_1d_partial",
    "Oxsx.C10_slice_wrong_2d",
    "Oxsx.C10_fixed_bin_unchecked"
   ],
   "note": "What the code computes is proved for every slice (C10_slice_layout); right for exactly one kept axis; false for two or more (C10_slice_wrong_2d: contents transposed); fixed bins unchecked."
  },
  {
   "property": "C11",
   "status": "proved",
   "theorems": [
    "Oxsx.C11_distribution",
    "Oxsx.C11_arith_rejects",
    "Oxsx.C11_arith",
    "Oxsx.C11_padding"
   ],
   "note": ""
  },
  {
   "property": "C12",
   "status": "partial",
   "theorems": [
    "Oxsx.C12_lattice_interior_partial",
    "Oxsx.C12_lattice_edge_ub",
    "Oxsx.C12_lattice_edge_alias"
   ],
   "note": "Proved for every point between first and last centres on each axis; false in the outermost half bins (UB / aliasing witnesses)."
  },
  {
   "property": "C13",
   "status": "proved",
   "theorems": [
    "Oxsx.C13_range_integral",
    "Oxsx.C13_range_integral_dim",
    "Oxsx.C13_additive"
   ],
   "note": ""
  },
  {
   "property": "C14",
   "status": "proved",
   "theorems": [
    "Oxsx.C14_means_variances"
   ],
   "note": ""
  },
  {
   "property": "C15",
   "status": "partial",
   "theorems": [
    "Oxsx.C15_register",
    "Oxsx.C15_set_get",
    "Oxsx.C15_missing_partial",
    "Oxsx.C15_set_one",
    "Oxsx.C15_not_atomic"
   ],
   "note": "Set/get round trip proved; a failed SetParameters is not atomic (witness theorem)."
  },
  {
   "property": "C16",
   "status": "partial",
   "theorems": [
    "Oxsx.C16_registry_rename_partial",
    "Oxsx.C16_own_rename_partial",
    "Oxsx.C16_own_rename_wrong",
    "Oxsx.C16_one_rename"
   ],
   "note": "Proved for the registry and for scale/shift; for shape, renorm and scale-function proved when the new name is unused, false otherwise (C16_own_rename_wrong: rename onto itself deletes, onto another overwrites)."
  },
  {
   "property": "C17",
   "status": "proved",
   "theorems": [
    "Oxsx.C17_register",
    "Oxsx.C17_names",
    "Oxsx.C17_set_get",
    "Oxsx.C17_empty_dict",
    "Oxsx.C17_missing"
   ],
   "note": ""
  },
  {
   "property": "C18",
   "status": "proved",
   "theorems": [
    "Oxsx.C18_scale",
    "Oxsx.C18_sized",
    "Oxsx.C18_apply",
    "Oxsx.C18_compose",
    "Oxsx.C18_components",
    "Oxsx.C18_identity",
    "Oxsx.C18_dense_identity",
    "Oxsx.C18_setComponents",
    "Oxsx.C18_product_mutates_left"
   ],
   "note": ""
  },
  {
   "property": "C19",
   "status": "proved",
   "theorems": [
    "Oxsx.C19_symmetric"
   ],
   "note": ""
  },
  {
   "property": "C20",
   "status": "proved",
   "theorems": [
    "Oxsx.C20_scale_function",
    "Oxsx.C20_decreasing_loses",
    "Oxsx.C20_response",
    "Oxsx.C20_columns",
    "Oxsx.C20_conserved",
    "Oxsx.C20_scale_shift",
    "Oxsx.C20_identity"
   ],
   "note": ""
  },
  {
   "property": "C21",
   "status": "partial",
   "theorems": [
    "Oxsx.C21_apply_partial",
    "Oxsx.C21_unconstructed_silent_wrong",
    "Oxsx.C21_no_axes"
   ],
   "note": "Proved for every response and distribution; false between SetAxes and Construct, where operator() silently returns zeros (C21_unconstructed_silent_wrong)."
  },
  {
   "property": "C22",
   "status": "partial",
   "theorems": [
    "Oxsx.C22_retarget_partial",
    "Oxsx.C22_other_shape_wrong"
   ],
   "note": "Proved for any history over axes with the same numbers of bins; false otherwise (C22_other_shape_wrong: exception or silently wrong response)."
  },
  {
   "property": "C23",
   "status": "proved",
   "theorems": [
    "Oxsx.C23_function_parameters",
    "Oxsx.C23_shape",
    "Oxsx.C23_unset"
   ],
   "note": ""
  },
  {
   "property": "C24",
   "status": "partial",
   "theorems": [
    "Oxsx.C24_response_partial",
    "Oxsx.C24_unset",
    "Oxsx.C24_order_wrong",
    "Oxsx.C24_silent_wrong",
    "Oxsx.C24_axes_wrong",
    "Oxsx.C24_jump_kernel"
   ],
   "note": "Proved for observables listed in the distribution's order, any kernel, any number of earlier Constructs; false for other orders (C24_order_wrong, C24_silent_wrong)."
  },
  {
   "property": "C25",
   "status": "proved",
   "theorems": [
    "Oxsx.C25_applied",
    "Oxsx.C25_succeeds"
   ],
   "note": ""
  },
  {
   "property": "C26",
   "status": "partial",
   "theorems": [
    "Oxsx.C26_accepts",
    "Oxsx.C26_rejects",
    "Oxsx.C26_never_twice_partial",
    "Oxsx.C26_late_add_wrong",
    "Oxsx.C26_order_wrong",
    "Oxsx.C26_wrong_exception",
    "Oxsx.C26_queries_partial",
    "Oxsx.C26_queries_wrong"
   ],
   "note": "Rejections and exact acceptance proved; an Add after AddDist can make a systematic apply twice (C26_late_add_wrong); legal registrations are refused depending on order (C26_order_wrong); std::out_of_range instead of NotFoundError (C26_wrong_exception)."
  },
  {
   "property": "C27",
   "status": "partial",
   "theorems": [
    "Oxsx.C27_any_order",
    "Oxsx.C27_order_exact",
    "Oxsx.C27_no_effect_wrong",
    "Oxsx.C27_bin_rate_partial",
    "Oxsx.C27_event_rate_partial",
    "Oxsx.C27_order_partial",
    "Oxsx.C27_order_wrong"
   ],
   "note": "Proved after every history of calls for distinct names with direct before indirect, also for events and independent of order. C27_any_order gives the exact value for every order, C27_order_exact shows that each distribution is scaled by its own parameter if and only if no INDIRECT distribution precedes a DIRECT one, and C27_no_effect_wrong that otherwise the parameter of the last DIRECT one has no effect at all (ReassertNorms counts only the directly fitted ones)."
  },
  {
   "property": "C28",
   "status": "partial",
   "theorems": [
    "Oxsx.C28_reassert_any_order",
    "Oxsx.C28_set_get_partial",
    "Oxsx.C28_rate_uses_own_partial",
    "Oxsx.C28_reassert_partial",
    "Oxsx.C28_reassert_wrong",
    "Oxsx.C28_duplicate_wrong"
   ],
   "note": "Parameters read back for every history with distinct names; used by the rate (direct before indirect) and by re-asserting (that kind first); C28_reassert_any_order gives the exact result for every order; false for the other order (C28_reassert_wrong, C27_order_wrong, C27_no_effect_wrong) and for duplicate names (C28_duplicate_wrong)."
  },
  {
   "property": "C29",
   "status": "partial",
   "theorems": [
    "Oxsx.C29_idempotent_partial",
    "Oxsx.C29_buffers_wrong",
    "Oxsx.C29_indirect_wrong"
   ],
   "note": "Proved for every reachable likelihood whenever buffers are empty or systematics exist (any systematic that recomputes its response from its parameters, shown for scale, shift, scale function, shape and renormalisation); witnesses show the property fails for buffers without systematics in more than one dimension and for Barlow-Beeston with indirect normalisations and buffers."
  },
  {
   "property": "C30",
   "status": "proved",
   "theorems": [
    "Oxsx.C30_buffer",
    "Oxsx.C30_manager",
    "Oxsx.C30_no_bin_left",
    "Oxsx.C30_wrap_wrong",
    "Oxsx.C30_overflow_off",
    "Oxsx.C30_overflow_on",
    "Oxsx.C30_rejected",
    "Oxsx.C30_no_buffers"
   ],
   "note": "For grids of at most 2^31 bins and buffer sums below 2^32 (int arithmetic in the bin map); when the sum wraps, the rejection is std::length_error instead of ValueError (C30_wrap_wrong)."
  },
  {
   "property": "C31",
   "status": "partial",
   "theorems": [
    "Oxsx.C31_bin_minimum",
    "Oxsx.C31_bin_empty",
    "Oxsx.C31_value_partial",
    "Oxsx.C31_configured_partial",
    "Oxsx.C31_order_partial",
    "Oxsx.C31_any_order",
    "Oxsx.C31_configured_any_order",
    "Oxsx.C31_no_effect_wrong"
   ],
   "note": "Proved end to end from configuration to value, for distinct fitted names with directly fitted distributions added before indirectly fitted ones. For every order of addition C31_any_order and C31_configured_any_order give the exact value, with the parameter the manager really takes for each distribution; where a direct distribution follows an indirect one the claim is false of the code (C31_no_effect_wrong: its normalisation changes nothing in the likelihood). Doubles are reals."
  },
  {
   "property": "C32",
   "status": "partial",
   "theorems": [
    "Oxsx.C32_root_partial",
    "Oxsx.C32_one_partial",
    "Oxsx.C32_minimises_partial",
    "Oxsx.C32_no_data",
    "Oxsx.C32_sign_wrong",
    "Oxsx.C32_not_finite_wrong",
    "Oxsx.C32_likelihood_partial",
    "Oxsx.C32_outcome_partial",
    "Oxsx.C32_configured_partial",
    "Oxsx.C32_fixed_wrong"
   ],
   "note": "The factor is proved to be the unique positive root (and minimiser), and the likelihood the sum of the per-bin minima, only when rate x sigma^2 < 1 in every bin; for rate x sigma^2 >= 1 the code is wrong: BinnedNLLH.cpp:91 takes x2 = +n*sigma2/q instead of -n*sigma2/q, so the chosen beta is not a root (C32_sign_wrong) and the value not finite (C32_likelihood_partial, C32_outcome_partial). Also not finite when sigma^2 = 0. Without systematics the statistics of distributions that are not fitted are left out (C32_fixed_wrong)."
  },
  {
   "property": "C33",
   "status": "partial",
   "theorems": [
    "Oxsx.C33_history_partial",
    "Oxsx.C33_replaced_partial",
    "Oxsx.C33_buffers_wrong",
    "Oxsx.C33_observables_wrong"
   ],
   "note": "Proved when no buffers are set and data keeps its observables; witnesses show the property fails with buffers (the shrunk flag is never reset) and with data in other observables."
  },
  {
   "property": "C34",
   "status": "proved",
   "theorems": [
    "Oxsx.C34_nested_set",
    "Oxsx.C34_nested_names",
    "Oxsx.C34_value",
    "Oxsx.C34_names",
    "Oxsx.C34_sum_parts",
    "Oxsx.C34_set",
    "Oxsx.C34_set_throws",
    "Oxsx.C34_nested",
    "Oxsx.C34_plus",
    "Oxsx.C34_joint_fit_partial"
   ],
   "note": "Statistics are objects in an arbitrary world; a part may occur several times and may be a sum itself. The instance for a joint fit of binned likelihoods carries the restrictions of C31 (C34_joint_fit_partial)."
  },
  {
   "property": "C35",
   "status": "proved",
   "theorems": [
    "Oxsx.C35_quadratic"
   ],
   "note": ""
  },
  {
   "property": "C36",
   "status": "partial",
   "theorems": [
    "Oxsx.C36_bivariate_partial",
    "Oxsx.C36_not_rejected_wrong"
   ],
   "note": "Proved for |rho|<1; correlations -1 and beyond are accepted by the code (C36_not_rejected_wrong)."
  },
  {
   "property": "C37",
   "status": "proved",
   "theorems": [
    "Oxsx.C37_calls",
    "Oxsx.C37_exclusive",
    "Oxsx.C37_total",
    "Oxsx.C37_missing",
    "Oxsx.C37_depends",
    "Oxsx.C37_nonnegative"
   ],
   "note": ""
  },
  {
   "property": "C38",
   "status": "partial",
   "theorems": [
    "Oxsx.C38_ratio_partial",
    "Oxsx.C38_small_denominator_wrong",
    "Oxsx.C38_fractional_partial",
    "Oxsx.C38_fractional_not_finite_wrong"
   ],
   "note": "Proved for denominators of at least 1e-8 and non-cancelling values; false otherwise (C38_small_denominator_wrong, C38_fractional_not_finite_wrong)."
  },
  {
   "property": "C39",
   "status": "partial",
   "theorems": [
    "Oxsx.C39_interp_partial",
    "Oxsx.C39_linear_partial",
    "Oxsx.C39_missing",
    "Oxsx.C39_edge_wrong"
   ],
   "note": "Proved for points between the first and last bin centre on every axis; false in the outermost half bins (C39_edge_wrong)."
  },
  {
   "property": "C40",
   "status": "proved",
   "theorems": [
    "Oxsx.C40_semantics",
    "Oxsx.C40_sidedness",
    "Oxsx.C40_missing"
   ],
   "note": ""
  },
  {
   "property": "C41",
   "status": "proved",
   "theorems": [
    "Oxsx.C41_all_cuts",
    "Oxsx.C41_logged",
    "Oxsx.C41_short_log",
    "Oxsx.C41_cut_flow",
    "Oxsx.C41_percentages",
    "Oxsx.C41_added"
   ],
   "note": ""
  },
  {
   "property": "C42",
   "status": "proved",
   "theorems": [
    "Oxsx.C42_index",
    "Oxsx.C42_relative",
    "Oxsx.C42_extract",
    "Oxsx.C42_set",
    "Oxsx.C42_unset_names_ub",
    "Oxsx.C42_data_map"
   ],
   "note": ""
  },
  {
   "property": "C43",
   "status": "partial",
   "theorems": [
    "Oxsx.C43_add",
    "Oxsx.C43_entries",
    "Oxsx.C43_concat_partial",
    "Oxsx.C43_concat_modifies_left_wrong",
    "Oxsx.C43_self_concat_diverges_wrong",
    "Oxsx.C43_self_concat_empty"
   ],
   "note": "Adding, reading and concatenated value proved; operator+ modifies its left operand (C43_concat_modifies_left_wrong) and a+a never ends (C43_self_concat_diverges_wrong)."
  },
  {
   "property": "C44",
   "status": "partial",
   "theorems": [
    "Oxsx.C44_sizes",
    "Oxsx.C44_no_repetition",
    "Oxsx.C44_too_many_rejected",
    "Oxsx.C44_overdraw_not_rejected_wrong"
   ],
   "note": "No repetition over any sequence of calls proved up to the size of the set; asking for more than remain is undefined behaviour instead of an error (C44_overdraw_not_rejected_wrong)."
  },
  {
   "property": "C45",
   "status": "partial",
   "theorems": [
    "Oxsx.C45_order",
    "Oxsx.C45_distinct_partial",
    "Oxsx.C45_drawing_all_wrong"
   ],
   "note": "Exact order drawn proved (C45_order); drawing all events gives event 1 twice and event 0 never, in reverse order (C45_drawing_all_wrong)."
  },
  {
   "property": "C46",
   "status": "partial",
   "theorems": [
    "Oxsx.C46_remaining_partial",
    "Oxsx.C46_before_draw_wrong",
    "Oxsx.C46_after_sequential_wrong"
   ],
   "note": "Proved after random draws; false before any draw (throws) and after sequential draws (returns a drawn event, loses event 0)."
  },
  {
   "property": "C47",
   "status": "partial",
   "theorems": [
    "Oxsx.C47_draws_partial",
    "Oxsx.C47_last_event_never_wrong",
    "Oxsx.C47_replacement_misses_last_wrong"
   ],
   "note": "Draws proved to be events of the set, one per random number; the last event can never be drawn (C47_last_event_never_wrong, C47_replacement_misses_last_wrong)."
  },
  {
   "property": "C48",
   "status": "proved",
   "theorems": [
    "Oxsx.C48_round_trip",
    "Oxsx.C48_unpack_all",
    "Oxsx.C48_injective",
    "Oxsx.C48_limits"
   ],
   "note": ""
  },
  {
   "property": "C49",
   "status": "partial",
   "theorems": [
    "Oxsx.C49_slabs_tile",
    "Oxsx.C49_save",
    "Oxsx.C49_save_fails_wrong",
    "Oxsx.C49_load",
    "Oxsx.C49_round_trip_partial",
    "Oxsx.C49_long_names_wrong",
    "Oxsx.C49_large_file_wrong",
    "Oxsx.C49_extension"
   ],
   "note": "Round trip proved (C49_round_trip_partial) for non-empty sets with fewer than 10000 observables, at most 2^32 values, and packed names of at most 64 characters without ':'. Outside these the claim is false of the code: C49_save_fails_wrong (empty set), C49_long_names_wrong (names truncated at 64 characters), C49_large_file_wrong (slab count computed from a 32-bit product)."
  },
  {
   "property": "C50",
   "status": "proved",
   "theorems": [
    "Oxsx.C50_copied",
    "Oxsx.C50_at_most_one",
    "Oxsx.C50_content",
    "Oxsx.C50_eviction",
    "Oxsx.C50_copies_wrong"
   ],
   "note": "Registered objects only, as stated. Copies are never registered, so any number of them can hold data (C50_copies_wrong)."
  },
  {
   "property": "C51",
   "status": "proved",
   "theorems": [
    "Oxsx.C51_data",
    "Oxsx.C51_backgrounds",
    "Oxsx.C51_totals",
    "Oxsx.C51_error",
    "Oxsx.C51_bounds",
    "Oxsx.C51_signal",
    "Oxsx.C51_repeated_wrong",
    "Oxsx.C51_experiment"
   ],
   "note": "Non-empty samples are needed for the division to mean anything (0/0 is NaN in C++). A second CountBackgrounds call counts every background again (C51_repeated_wrong)."
  },
  {
   "property": "C52",
   "status": "partial",
   "theorems": [
    "Oxsx.C52_default",
    "Oxsx.C52_partial",
    "Oxsx.C52_two_partial",
    "Oxsx.C52_odd_wrong",
    "Oxsx.C52_mismatch",
    "Oxsx.C52_search_wrong"
   ],
   "note": "For an even number of parameters the exact set of points evaluated and the minimum among them are proved (all grid points but the start for two parameters), when no value is zero. False in general: odd numbers of parameters always end in undefined behaviour (C52_odd_wrong), the starting point is never evaluated, more than two parameters are searched in part, zero values and the sign when maximising are wrong (C52_search_wrong)."
  },
  {
   "property": "C53",
   "status": "partial",
   "theorems": [
    "Oxsx.C53_metropolis_input",
    "Oxsx.C53_chain",
    "Oxsx.C53_in_bounds",
    "Oxsx.C53_rejected_stays",
    "Oxsx.C53_best_partial",
    "Oxsx.C53_random_start",
    "Oxsx.C53_setup_error",
    "Oxsx.C53_samples_accumulate",
    "Oxsx.C53_metropolis_draw",
    "Oxsx.C53_metropolis_no_width",
    "Oxsx.C53_fix_release",
    "Oxsx.C53_best_wrong",
    "Oxsx.C53_initial_wrong"
   ],
   "note": "In-bounds, staying and the walk itself are proved for every run whose start is in bounds. The best fit is proved best among all visited points except the last one; the last accepted point is never compared (C53_best_wrong). User-given initial values are not checked against the bounds (C53_initial_wrong)."
  },
  {
   "property": "C54",
   "status": "proved",
   "theorems": [
    "Oxsx.C54_defaults",
    "Oxsx.C54_clear_all",
    "Oxsx.C54_guessed_axes",
    "Oxsx.C54_rate",
    "Oxsx.C54_recorded",
    "Oxsx.C54_chain",
    "Oxsx.C54_clear",
    "Oxsx.C54_init",
    "Oxsx.C54_no_thinning",
    "Oxsx.C54_full_total",
    "Oxsx.C54_joined_name_wrong",
    "Oxsx.C54_branch_names",
    "Oxsx.C54_projections_total"
   ],
   "note": "Steps recorded are those numbered (from 0) strictly above the burn-in, so burnIn+1 steps are dropped. Two pairs of parameters whose joined names agree share a histogram slot (C54_joined_name_wrong)."
  },
  {
   "property": "C55",
   "status": "partial",
   "theorems": [
    "Oxsx.C55_new",
    "Oxsx.C55_energy",
    "Oxsx.C55_n_steps",
    "Oxsx.C55_reversible",
    "Oxsx.C55_one_step_reversible",
    "Oxsx.C55_zero_steps",
    "Oxsx.C55_energy_correction",
    "Oxsx.C55_kinetic",
    "Oxsx.C55_gradient",
    "Oxsx.C55_gradient_quadratic",
    "Oxsx.C55_reflect_in_box_partial",
    "Oxsx.C55_reflect_one_parameter_partial",
    "Oxsx.C55_reflect_terminates",
    "Oxsx.C55_reflect_wrong",
    "Oxsx.C55_reflect_corner_wrong",
    "Oxsx.C55_reflect_inside_step",
    "Oxsx.C55_reflect_inside",
    "Oxsx.C55_evolve",
    "Oxsx.C55_reflect_exact",
    "Oxsx.C55_reflect_drift_reversible",
    "Oxsx.C55_reflect_reversible_partial",
    "Oxsx.C55_reflect_reversible_wrong"
   ],
   "note": "Proved: n leapfrog steps (n>=1) are n single steps, every number of steps is undone by flipping the momenta, the energy correction, kinetic energy and gradient; which integration the sampler uses; reflections always end; walls that are not reached make no difference; a reflective drift that starts strictly inside and meets no two walls at once ends at the mirror image of where the free particle would be, so within the walls, and is undone by flipping the momenta, for any number of steps. False in general: a particle exactly on a wall at the end of a step leaves the box, and so does one that runs into a corner; after leaving, the way back need not be the way there (witness theorems). Missing: nothing about floating point."
  },
  {
   "property": "C56",
   "status": "partial",
   "theorems": [
    "Oxsx.C56_default",
    "Oxsx.C56_call",
    "Oxsx.C56_fit_partial",
    "Oxsx.C56_fixed",
    "Oxsx.C56_fix_release",
    "Oxsx.C56_limits",
    "Oxsx.C56_refused",
    "Oxsx.C56_covariance",
    "Oxsx.C56_stale_wrong"
   ],
   "note": "The wrapper, the whole fit, fixed parameters, limits, refused settings and the covariance are proved for an arbitrary minimiser. The fit theorem needs that nothing is left in the wrapper from an earlier fit with other parameters; C56_stale_wrong shows the statement is false otherwise."
  },
  {
   "property": "C57",
   "status": "partial",
   "theorems": [
    "Oxsx.C57_refused",
    "Oxsx.C57_value",
    "Oxsx.C57_enough_partial",
    "Oxsx.C57_flat_wrong",
    "Oxsx.C57_counts_returned",
    "Oxsx.C57_counts_terminates",
    "Oxsx.C57_falling_wrong"
   ],
   "note": "The value returned is characterised exactly for every posterior. The property is false: the bin used is two after the right one, so that for every flat posterior the bound is two bin widths too high or cannot be computed (C57_flat_wrong), and arbitrary for falling ones (C57_falling_wrong). Proved: refusals, that for non-falling posteriors at least the fraction lies below, and the counting-experiment search."
  },
  {
   "property": "C58",
   "status": "proved",
   "theorems": [
    "Oxsx.C58_bin",
    "Oxsx.C58_generate",
    "Oxsx.C58_rounding",
    "Oxsx.C58_refused",
    "Oxsx.C58_both",
    "Oxsx.C58_unchecked_wrong"
   ],
   "note": "The per-bin statement, the contents and total of a generated distribution, rounding and refusals. C58_unchecked_wrong records that empty distributions and differing binnings are not refused."
  },
  {
   "property": "C59",
   "status": "proved",
   "theorems": [
    "Oxsx.C59_dims_integral",
    "Oxsx.C59_probability",
    "Oxsx.C59_throws",
    "Oxsx.C59_analytic",
    "Oxsx.C59_assoc",
    "Oxsx.C59_mul",
    "Oxsx.C59_names",
    "Oxsx.C59_own_observables",
    "Oxsx.C59_normalise",
    "Oxsx.C59_list"
   ],
   "note": "Probability, integral, dims and normalisation of composite (product) distributions as trees over leaf distributions. The implicit copies of CompositeED and EventDistributionManager, which share pointers, are not modelled."
  },
  {
   "property": "C60",
   "status": "partial",
   "theorems": [
    "Oxsx.C60_one_per_bin",
    "Oxsx.C60_get",
    "Oxsx.C60_set_all_partial",
    "Oxsx.C60_missing",
    "Oxsx.C60_get_all",
    "Oxsx.C60_set_one_wrong",
    "Oxsx.C60_set_one_range_wrong",
    "Oxsx.C60_set_one_example_wrong"
   ],
   "note": "Everything but SetParameter: the code assigns the value to the bin's name (C60_set_one_wrong)."
  },
  {
   "property": "C61",
   "status": "partial",
   "theorems": [
    "Oxsx.C61_set",
    "Oxsx.C61_set_unknown",
    "Oxsx.C61_get_partial",
    "Oxsx.C61_get_wrong",
    "Oxsx.C61_get_unknown",
    "Oxsx.C61_rename",
    "Oxsx.C61_rename_unknown",
    "Oxsx.C61_rename_same_wrong",
    "Oxsx.C61_make",
    "Oxsx.C61_width_unchecked_wrong",
    "Oxsx.C61_setParameters",
    "Oxsx.C61_copy"
   ],
   "note": "Reading by name works only for the parameter in the first place (C61_get_partial); every other one is reported as not found although listed and settable (C61_get_wrong, GaussianFitter.cpp takes std::distance the wrong way round). Renaming to the same name never returns (C61_rename_same_wrong); widths set by name are not checked (C61_width_unchecked_wrong). Writing, dictionaries, renaming, copying and construction are proved in full."
  },
  {
   "property": "C62",
   "status": "proved",
   "theorems": [
    "Oxsx.C62_all_once",
    "Oxsx.C62_short_maxes",
    "Oxsx.C62_pairs"
   ],
   "note": ""
  },
  {
   "property": "C63",
   "status": "proved",
   "theorems": [
    "Oxsx.C63_append",
    "Oxsx.C63_word",
    "Oxsx.C63_round_trip",
    "Oxsx.C63_pieces"
   ],
   "note": ""
  },
  {
   "property": "C64",
   "status": "partial",
   "theorems": [
    "Oxsx.C64_laws",
    "Oxsx.C64_missing",
    "Oxsx.C64_order",
    "Oxsx.C64_locality",
    "Oxsx.C64_setters",
    "Oxsx.C64_unchecked_parameter_wrong",
    "Oxsx.C64_parameter",
    "Oxsx.C64_default"
   ],
   "note": "Laws, order, locality, setters proved; the rejection of non-positive scales does not hold of SetParameter/SetParameters (C64_unchecked_parameter_wrong). The random EventConvolution is covered by C86."
  },
  {
   "property": "C65",
   "status": "proved",
   "theorems": [
    "Oxsx.C65_window",
    "Oxsx.C65_lags",
    "Oxsx.C65_lag_zero",
    "Oxsx.C65_clear",
    "Oxsx.C65_zero_length_wrong",
    "Oxsx.C65_var_wrong",
    "Oxsx.C65_var_partial"
   ],
   "note": "For every window length >= 1. Side findings: a window of length 0 is undefined behaviour on the first fill (C65_zero_length_wrong); Var truncates to an integer absolute value (C65_var_wrong)."
  },
  {
   "property": "C66",
   "status": "partial",
   "theorems": [
    "Oxsx.C66_no_double_delete",
    "Oxsx.C66_copy_partial",
    "Oxsx.C66_assign_partial",
    "Oxsx.C66_assign_loses_wrong",
    "Oxsx.C66_assign_ub_wrong",
    "Oxsx.C66_copy_precision_wrong",
    "Oxsx.C66_new"
   ],
   "note": "False as stated: operator= tests its own pointer, so assigning a result that holds a space to one that holds none loses it (C66_assign_loses_wrong) and the reverse dereferences null (C66_assign_ub_wrong); copies leave the print precision uninitialised. Copy and assignment are proved on the cases that work; no space is deleted twice."
  },
  {
   "property": "C67",
   "status": "partial",
   "theorems": [
    "Oxsx.C67_fill",
    "Oxsx.C67_beyond",
    "Oxsx.C67_fill_log",
    "Oxsx.C67_large_set_wrong",
    "Oxsx.C67_new",
    "Oxsx.C67_missing_observable",
    "Oxsx.C67_unset"
   ],
   "note": "Proved for data sets below 2^31 entries; from 2^31 to 2^32 the default limit fills nothing (C67_large_set_wrong)."
  },
  {
   "property": "C68",
   "status": "partial",
   "theorems": [
    "Oxsx.C68_export",
    "Oxsx.C68_export1",
    "Oxsx.C68_import",
    "Oxsx.C68_round_trip",
    "Oxsx.C68_round_trip1",
    "Oxsx.C68_pdf",
    "Oxsx.C68_same_titles",
    "Oxsx.C68_round_trip_wrong"
   ],
   "note": "Contents always survive the round trip (any number of dimensions). Edges survive exactly when the bins of each axis have equal width (iff, C68_round_trip); C68_round_trip_wrong exhibits the loss for [0,1),[1,4). Axis names are replaced by their titles, equal titles make the conversion back throw. ROOT's TAxis/TH classes are modelled by their documented behaviour."
  },
  {
   "property": "C69",
   "status": "proved",
   "theorems": [
    "Oxsx.C69_probability",
    "Oxsx.C69_rejects",
    "Oxsx.C69_set_parameters",
    "Oxsx.C69_duplicate_wrong",
    "Oxsx.C69_add_dists",
    "Oxsx.C69_rename",
    "Oxsx.C69_dims"
   ],
   "note": "Also proved beyond the statement: setting the normalisations by parameter name, for distributions with distinct names (with equal names C69_duplicate_wrong shows that only the last one is set)."
  },
  {
   "property": "C70",
   "status": "partial",
   "theorems": [
    "Oxsx.C70_reads",
    "Oxsx.C70_accepts",
    "Oxsx.C70_load",
    "Oxsx.C70_unique",
    "Oxsx.C70_listSections",
    "Oxsx.C70_open",
    "Oxsx.C70_failed_open_wrong",
    "Oxsx.C70_lines",
    "Oxsx.C70_close"
   ],
   "note": "Proved for reading (C70_reads, C70_accepts, C70_load, C70_unique, C70_listSections, C70_open, C70_lines): only the numeric conversion by iostreams and the printing function are outside the model. C70_failed_open_wrong: after a failed second Open the static pointer dangles, and Load without an open file dereferences null."
  },
  {
   "property": "C71",
   "status": "partial",
   "theorems": [
    "Oxsx.C71_scale_shift",
    "Oxsx.C71_shape",
    "Oxsx.C71_renorm_ignores_parameters_wrong",
    "Oxsx.C71_renorm_partial",
    "Oxsx.C71_one_parameter",
    "Oxsx.C71_scale_history",
    "Oxsx.C71_shift_history",
    "Oxsx.C71_function_history",
    "Oxsx.C71_shape_history"
   ],
   "note": "Proved for scale, shift and shape; false for renorm, whose fit parameters are never used (C71_renorm_ignores_parameters_wrong)."
  },
  {
   "property": "C72",
   "status": "partial",
   "theorems": [
    "Oxsx.C72_fill",
    "Oxsx.C72_single",
    "Oxsx.C72_pairs_partial",
    "Oxsx.C72_joined_names"
   ],
   "note": "Proved whenever no two pairs have the same joined name (in particular for names without underscores, C72_joined_names); otherwise a projection is lost (C54_joined_name_wrong)."
  },
  {
   "property": "C73",
   "status": "proved",
   "theorems": [
    "Oxsx.C73_projections",
    "Oxsx.C73_slices",
    "Oxsx.C73_unknown_axis",
    "Oxsx.C73_slices_sum"
   ],
   "note": "For every valid histogram with at least one bin per axis."
  },
  {
   "property": "C74",
   "status": "proved",
   "theorems": [
    "Oxsx.C74_acceptance_probability",
    "Oxsx.C74_detailed_balance",
    "Oxsx.C74_unlogged_ignores_correction"
   ],
   "note": "Real arithmetic; a probability is the Lebesgue measure of the accepting deviates in [0,1)."
  },
  {
   "property": "C75",
   "status": "partial",
   "theorems": [
    "Oxsx.C75_contour_edge_wrong"
   ],
   "note": "The property is false of the code: C75_contour_edge_wrong proves that for every optimiser, statistic, minimiser and value the edge has no effect and reads 1/2 after a fit."
  },
  {
   "property": "C76",
   "status": "partial",
   "theorems": [
    "Oxsx.C76_uniform",
    "Oxsx.C76_vonNeumann_wrong",
    "Oxsx.C76_vonNeumann_refused"
   ],
   "note": "UniformRange and Shoot proved; VonNeumannSample is proved to return 0 always (C76_vonNeumann_wrong)."
  },
  {
   "property": "C77",
   "status": "proved",
   "theorems": [
    "Oxsx.C77_integral",
    "Oxsx.C77_additive",
    "Oxsx.C77_range",
    "Oxsx.C77_value",
    "Oxsx.C77_integral_of_values",
    "Oxsx.C77_total",
    "Oxsx.C77_cutoff",
    "Oxsx.C77_setters",
    "Oxsx.C77_setMeans_wrong"
   ],
   "note": ""
  },
  {
   "property": "C78",
   "status": "partial",
   "theorems": [
    "Oxsx.C78_varying_probability",
    "Oxsx.C78_varying_setters",
    "Oxsx.C78_varying_parameters",
    "Oxsx.C78_jump_shift",
    "Oxsx.C78_jump_origin",
    "Oxsx.C78_jump_null",
    "Oxsx.C78_varying",
    "Oxsx.C78_varying_history",
    "Oxsx.C78_unknown_wrong",
    "Oxsx.C78_parameter_partial",
    "Oxsx.C78_parameter_wrong",
    "Oxsx.C78_unset_wrong",
    "Oxsx.C78_scale"
   ],
   "note": "A governed name unknown to the kernel is silently ignored (C78_unknown_wrong); with two functions whose parameters have different names none can be set and only the first can be read (C78_parameter_wrong); a kernel never set is undefined behaviour, not an error (C78_unset_wrong). Functions are modelled as SquareRootScale only, the kernel as a Gaussian in a JumpPDF."
  },
  {
   "property": "C79",
   "status": "partial",
   "theorems": [
    "Oxsx.C79_load",
    "Oxsx.C79_round_trip_partial",
    "Oxsx.C79_extension",
    "Oxsx.C79_names_wrong"
   ],
   "note": "C79_load: the outcome for every histogram and all names (loading keeps bins and contents whenever it succeeds, and throws out_of_range or ValueError otherwise). C79_round_trip_partial: identity under the hypotheses that no name holds ':' and the packed names fit in 64 characters. Without them the property is false of the code: C79_names_wrong. C79_extension: the file name. Not modelled: the HDF5 library and writing of the ROOT file."
  },
  {
   "property": "C80",
   "status": "partial",
   "theorems": [
    "Oxsx.C80_setters",
    "Oxsx.C80_history_partial",
    "Oxsx.C80_requests",
    "Oxsx.C80_refused",
    "Oxsx.C80_fresh",
    "Oxsx.C80_all_events",
    "Oxsx.C80_names_wrong",
    "Oxsx.C80_add_only_wrong",
    "Oxsx.C80_cuts_ignored_wrong"
   ],
   "note": "C80_history_partial: every history of generating calls over any mixture of drawing modes within the sizes of the sets. Missing, because false of the code: events of later sets are relabelled with the names of the first set (C80_names_wrong), a generator filled by AddDataSet alone throws (C80_add_only_wrong), AllValidEvents ignores the cuts (C80_cuts_ignored_wrong), a sequential set drawn completely repeats event 1 and never gives event 0 (in the statement), asking for more than is left is undefined behaviour (C44_overdraw_not_rejected_wrong)."
  },
  {
   "property": "C81",
   "status": "proved",
   "theorems": [
    "Oxsx.C81_value",
    "Oxsx.C81_never_lower",
    "Oxsx.C81_outside",
    "Oxsx.C81_inside",
    "Oxsx.C81_monotone",
    "Oxsx.C81_unknown_name_wrong"
   ],
   "note": "Over the reals: the overflow of exp for mu*distance > 709 is not modelled. C81_unknown_name_wrong: a bound on a name that is not among the parameters acts on the value 0."
  },
  {
   "property": "C82",
   "status": "partial",
   "theorems": [
    "Oxsx.C82_round_trip",
    "Oxsx.C82_tree_partial",
    "Oxsx.C82_stable",
    "Oxsx.C82_refused",
    "Oxsx.C82_colon_wrong",
    "Oxsx.C82_dropped_wrong",
    "Oxsx.C82_repeated_name_wrong",
    "Oxsx.C82_leaf_name_wrong"
   ],
   "note": "Proved for names that are non-empty, without colons (and distinct for ROOTTree), one per observable. False in general, with witnesses: a colon in a name reads past the end of the event (C82_colon_wrong), values without a name are dropped silently (C82_dropped_wrong), ROOTTree gives the first of two observables of the same name twice (C82_repeated_name_wrong), a leaf named unlike its branch is a null pointer (C82_leaf_name_wrong). The float conversion is an arbitrary function."
  },
  {
   "property": "C83",
   "status": "proved",
   "theorems": [
    "Oxsx.C83_expectation"
   ],
   "note": "Follows the whole path from configuration to value (C31_configured_partial). Rates must be positive; over the reals."
  },
  {
   "property": "C84",
   "status": "proved",
   "theorems": [
    "Oxsx.C84_convex",
    "Oxsx.C84_constrained",
    "Oxsx.C84_local_is_global"
   ],
   "note": "C84_convex: likelihood term, any constraints. C84_constrained, C84_local_is_global: whole value. Ratio and shape constraints are not convex and are excluded in the statement."
  },
  {
   "property": "C85",
   "status": "proved",
   "theorems": [
    "Oxsx.C85_total"
   ],
   "note": "Over the reals; every normalisation fitted."
  },
  {
   "property": "C86",
   "status": "partial",
   "theorems": [
    "Oxsx.C86_event",
    "Oxsx.C86_sequence",
    "Oxsx.C86_setPDF",
    "Oxsx.C86_copies",
    "Oxsx.C86_parameters",
    "Oxsx.C86_set_one",
    "Oxsx.C86_configured",
    "Oxsx.C86_refused",
    "Oxsx.C86_copy_name_wrong",
    "Oxsx.C86_wide_kernel_wrong",
    "Oxsx.C86_varying_parameters"
   ],
   "note": "Smearing, sequences, parameters and refusals proved. False of the code: a copy loses its name (C86_copy_name_wrong), conditional kernels of more than one dimension are accepted and read past the end (C86_wide_kernel_wrong). Rand::Gaus(m,s) is m + s times a standard normal value (ROOT). Double deletion of the functions shared by copies of VaryingCDF is not visible in this model."
  },
  {
   "property": "C87",
   "status": "partial",
   "theorems": [
    "Oxsx.C87_any_order",
    "Oxsx.C87_value_partial",
    "Oxsx.C87_outcome_partial"
   ],
   "note": "Proved for every history without buffers and Barlow-Beeston, distinct names, direct before indirect; C87_any_order gives the exact value for every order. Beyond that the code itself violates the claim (C28, C29, C30, C32 witnesses)."
  },
  {
   "property": "C88",
   "status": "partial",
   "theorems": [
    "Oxsx.C88_normalisations_partial",
    "Oxsx.C88_mixed_wrong"
   ],
   "note": "Proved when direct and indirect fitting are not mixed; false when mixed (C88_mixed_wrong: the indirect normalisation uses the direct parameter)."
  },
  {
   "property": "C89",
   "status": "partial",
   "theorems": [
    "Oxsx.C89_reaches_partial",
    "Oxsx.C89_read_back_partial",
    "Oxsx.C89_missing",
    "Oxsx.C89_equal_names_wrong",
    "Oxsx.C89_new",
    "Oxsx.C89_setPdfManager_wrong",
    "Oxsx.C89_own",
    "Oxsx.C89_unregistered"
   ],
   "note": "Proved for systematics with pairwise different names. The full statement is false: two different systematics of equal name in different groups share one registration, the second never receives its parameters (C89_equal_names_wrong)."
  },
  {
   "property": "C90",
   "status": "partial",
   "theorems": [
    "Oxsx.C90_first_partial",
    "Oxsx.C90_scan_partial",
    "Oxsx.C90_systematics_partial",
    "Oxsx.C90_systematics_outcome_partial"
   ],
   "note": "Proved: without systematics, the first evaluation with any number of axes and every evaluation with one axis; with systematics, every evaluation with any number of axes, with throw exactly when a region bin has rate zero. Missing because the code does otherwise: without systematics a second evaluation with more than one axis throws DimensionError (C29_buffers_wrong), all-zero buffers do not renormalise; not covered: equal names or an indirectly fitted distribution before a directly fitted one (wrong norms, see C28/C31), Barlow-Beeston."
  },
  {
   "property": "C91",
   "status": "partial",
   "theorems": [
    "Oxsx.C91_analytic_partial",
    "Oxsx.C91_value_semantics_partial",
    "Oxsx.C91_kernels",
    "Oxsx.C91_cut_collection_partial",
    "Oxsx.C91_all_freed_partial",
    "Oxsx.C91_shallow_copy_wrong",
    "Oxsx.C91_shallow_assign_wrong",
    "Oxsx.C91_self_assign_wrong",
    "Oxsx.C91_assign_leaks_wrong",
    "Oxsx.C91_set_leaks_wrong"
   ],
   "note": "Proved for every program in which the class clones what it copies (JumpPDF and EventConvolution: every program; CutCollection: every program without self-assignment, also leak-free; the others: programs without copies or assignments). The full property is false of the code: CompositeED, EDManager, Convolution and VaryingCDF share pointers when copied, those and AnalyticED when assigned (C91_shallow_copy_wrong, C91_shallow_assign_wrong: undefined behaviour after every program that copies such an object and destroys both); a CutCollection assigned to itself loses its cuts; JumpPDF and EventConvolution leak."
  },
  {
   "property": "C92",
   "status": "partial",
   "theorems": [
    "Oxsx.C92_same_outcome",
    "Oxsx.C92_history_partial",
    "Oxsx.C92_buffers_partial",
    "Oxsx.C92_after_failure_partial",
    "Oxsx.C92_systematics",
    "Oxsx.C92_construct_outcome",
    "Oxsx.C92_buffer_wrong",
    "Oxsx.C92_retry_wrong"
   ],
   "note": "Proved for every history without buffers (and with buffers once a first evaluation succeeded and there are systematics), with failures anywhere. The code violates the property with buffers: C92_buffer_wrong (a too large buffer cannot be corrected, BinnedEDShrinker keeps the axes added before the exception), C92_retry_wrong (the retried evaluation returns a number where the first threw). Data of other observables without systematics: C33_observables_wrong."
  },
  {
   "property": "C93",
   "status": "partial",
   "theorems": [
    "Oxsx.C93_axis",
    "Oxsx.C93_axes_partial",
    "Oxsx.C93_axes_wrong",
    "Oxsx.C93_arith",
    "Oxsx.C93_entry",
    "Oxsx.C93_sum_partial",
    "Oxsx.C93_sum_wrong",
    "Oxsx.C93_fill_partial",
    "Oxsx.C93_fill_wrong",
    "Oxsx.C93_fill_done",
    "Oxsx.C93_dist",
    "Oxsx.C93_dists_partial",
    "Oxsx.C93_dists_wrong",
    "Oxsx.C93_addPdf_partial",
    "Oxsx.C93_addPdf_wrong"
   ],
   "note": "One-item calls are atomic (proved); calls over several items keep what preceded the refused one, and AddPdf with unknown groups keeps the distribution it refused: C93_axes_wrong, C93_sum_wrong, C93_fill_wrong, C93_dists_wrong, C93_addPdf_wrong."
  },
  {
   "property": "C94",
   "status": "partial",
   "theorems": [
    "Oxsx.C94_addPdfs",
    "Oxsx.C94_refused",
    "Oxsx.C94_rates_wrong",
    "Oxsx.C94_status_wrong",
    "Oxsx.C94_accepted",
    "Oxsx.C94_append",
    "Oxsx.C94_systematics",
    "Oxsx.C94_manager"
   ],
   "note": "Equal to the single calls whenever the lists have equal lengths, and mismatched checked lists are refused with nothing added; the number of generated rates, and of statuses in the overload with groups and rates, is not checked: C94_rates_wrong, C94_status_wrong."
  },
  {
   "property": "C95",
   "status": "partial",
   "theorems": [
    "Oxsx.C95_expectation",
    "Oxsx.C95_order_partial",
    "Oxsx.C95_absent",
    "Oxsx.C95_merged",
    "Oxsx.C95_scaled",
    "Oxsx.C95_fixed",
    "Oxsx.C95_added"
   ],
   "note": "Proved for distributions added with the directly fitted ones before the indirectly fitted ones; for the other order the code itself takes wrong normalisations (C27_order_wrong)."
  },
  {
   "property": "C96",
   "status": "partial",
   "theorems": [
    "Oxsx.C96_event_partial",
    "Oxsx.C96_data_partial",
    "Oxsx.C96_bin",
    "Oxsx.C96_slice_partial",
    "Oxsx.C96_names_wrong",
    "Oxsx.C96_slice_wrong"
   ],
   "note": "Proved for distributions whose observables are called like their axes and for slices with one axis left; otherwise false of the code (C96_names_wrong, C96_slice_wrong)."
  },
  {
   "property": "C97",
   "status": "proved",
   "theorems": [
    "Oxsx.C97_probability",
    "Oxsx.C97_ratio",
    "Oxsx.C97_posterior",
    "Oxsx.C97_sampled"
   ],
   "note": "For likelihoods without systematics and Barlow-Beeston, with the distributions in the order that C27/C28 need (directly before indirectly fitted)."
  },
  {
   "property": "C98",
   "status": "proved",
   "theorems": [
    "Oxsx.C98_average"
   ],
   "note": "Same configurations as C97."
  },
  {
   "property": "C99",
   "status": "partial",
   "theorems": [
    "Oxsx.C99_counts",
    "Oxsx.C99_cut_table",
    "Oxsx.C99_percentages_partial",
    "Oxsx.C99_percentages_wrong",
    "Oxsx.C99_summary_partial",
    "Oxsx.C99_report",
    "Oxsx.C99_names_wrong"
   ],
   "note": "Holds after every history of calls, except that GetCutPercentages keeps the percentages of the last CalculateMeta/AsString (C99_percentages_partial gives them exactly, C99_percentages_wrong shows the difference), and that equal background names show one error for both (C99_names_wrong); C99_summary_partial: own errors for distinct names."
  },
  {
   "property": "C100",
   "status": "partial",
   "theorems": [
    "Oxsx.C100_evaluate_wrong",
    "Oxsx.C100_parameters_wrong",
    "Oxsx.C100_set_parameters_wrong",
    "Oxsx.C100_unnamed_wrong"
   ],
   "note": "The code violates it: no public call gives the object a distribution, so Evaluate throws std::out_of_range after every history of calls; the theorems prove that, and that no parameters ever appear."
  },
  {
   "property": "C101",
   "status": "proved",
   "theorems": [
    "Oxsx.C101_separate",
    "Oxsx.C101_history",
    "Oxsx.C101_refused",
    "Oxsx.C101_value",
    "Oxsx.C101_asymmetric"
   ],
   "note": ""
  },
  {
   "property": "C102",
   "status": "proved",
   "theorems": [
    "Oxsx.C102_axis",
    "Oxsx.C102_lookup",
    "Oxsx.C102_fill",
    "Oxsx.C102_integral",
    "Oxsx.C102_marginalise",
    "Oxsx.C102_counts",
    "Oxsx.C102_last_edge_wrong",
    "Oxsx.C102_saturates_wrong",
    "Oxsx.C102_exact"
   ],
   "note": "Model with a rounding after every operation; IEEE double rounding (unbounded exponents) is shown to satisfy the assumptions. C102_last_edge_wrong and C102_saturates_wrong show the limits named in the statement."
  },
  {
   "property": "C103",
   "status": "partial",
   "theorems": [
    "Oxsx.C103_scale",
    "Oxsx.C103_add",
    "Oxsx.C103_degenerate",
    "Oxsx.C103_constraints_partial",
    "Oxsx.C103_fit_partial",
    "Oxsx.C103_axis",
    "Oxsx.C103_double",
    "Oxsx.C103_fill",
    "Oxsx.C103_normalise",
    "Oxsx.C103_marginalise",
    "Oxsx.C103_distribution",
    "Oxsx.C103_moments_partial",
    "Oxsx.C103_variance_wrong",
    "Oxsx.C103_expected",
    "Oxsx.C103_evaluate",
    "Oxsx.C103_likelihood_partial",
    "Oxsx.C103_exact_constraints",
    "Oxsx.C103_exact_histograms",
    "Oxsx.C103_exact_evaluate"
   ],
   "note": "Filling, integrals, normalising, projections, scaling, adding and expected numbers proved for every rounding with bounded relative error; constraints (C103_constraints_partial) for correlations up to 1/sqrt 2; the whole fit in C103_fit_partial. In the likelihood the preparation with systematics is exact in the model, and Barlow-Beeston is left out. The variance is bounded only relative to the second moment, and C103_variance_wrong shows a negative variance on doubles."
  },
  {
   "property": "C104",
   "status": "partial",
   "theorems": [
    "Oxsx.C104_events_partial",
    "Oxsx.C104_cut_log",
    "Oxsx.C104_again_partial",
    "Oxsx.C104_unbinned_partial",
    "Oxsx.C104_order_partial",
    "Oxsx.C104_concat_partial",
    "Oxsx.C104_late_cut_wrong",
    "Oxsx.C104_equivalent",
    "Oxsx.C104_systematics_partial",
    "Oxsx.C104_systematics_outcome_partial",
    "Oxsx.C104_missing_observable",
    "Oxsx.C104_any_order",
    "Oxsx.C104_set_cuts_partial"
   ],
   "note": "Proved for distributions in one binning with distinct names, directly fitted ones first (C27, C28), positive expectations and fewer than 2^31 entries (C67); with systematics, C104_systematics_partial and C104_systematics_outcome_partial; for every order of addition, C104_any_order. For any configuration (systematics, buffers, Barlow-Beeston, constraints, earlier evaluations) C104_equivalent says that a data set not yet binned counts exactly as the histogram of its passing events in the first distribution's binning, and C104_missing_observable what happens when it lacks an observable. The clause about cuts added later is false of the code: after an evaluation the data stays binned with the old cuts (C104_late_cut_wrong), although the likelihood lists the new cut; they count once the data set is set again (C104_again_partial)."
  },
  {
   "property": "C105",
   "status": "proved",
   "theorems": [
    "Oxsx.C105_metropolis",
    "Oxsx.C105_hamiltonian",
    "Oxsx.C105_posterior"
   ],
   "note": "For all measurable statistics, limits, widths, masses, step sizes and numbers of steps. The random numbers are modelled as ideal (independent normal and uniform reals); the Hamiltonian sampler without walls (with walls steps can leave the box and are then not reversible: C55_reflect_wrong, C55_reflect_reversible_wrong). The limits and the current point must list the same parameters."
  },
  {
   "property": "C106",
   "status": "partial",
   "theorems": [
    "Oxsx.C106_equal_partial",
    "Oxsx.C106_first_partial",
    "Oxsx.C106_next_partial",
    "Oxsx.C106_last_wrong"
   ],
   "note": "The code violates the property: Shoot(max) is given the last index, not the number of events left, so one event left can never be the next (C106_last_wrong, for every data set with at least two events). Proved: at every draw exactly one event left is impossible and the others are equally likely (C106_next_partial), all sequences that can be drawn at all are equally likely (C106_equal_partial), the first draw (C106_first_partial). Random numbers are ideal uniform reals; without cuts."
  },
  {
   "property": "C107",
   "status": "proved",
   "theorems": [
    "Oxsx.C107_law",
    "Oxsx.C107_expected_rates",
    "Oxsx.C107_model",
    "Oxsx.C107_fits"
   ],
   "note": "Random numbers: one Poisson number per distribution with its rate as mean (Rand::Poisson) and independent uniform numbers (Rand::Uniform), as Mathlib measures; that ROOT's generator delivers them is assumed. The fit theorem is for fits without systematics and without Barlow-Beeston, as C98."
  },
  {
   "property": "C108",
   "status": "proved",
   "theorems": [
    "Oxsx.C108_converges",
    "Oxsx.C108_histogram",
    "Oxsx.C108_posterior",
    "Oxsx.C108_posterior_histogram",
    "Oxsx.C108_posterior_likely",
    "Oxsx.C108_marginals",
    "Oxsx.C108_posterior_marginals"
   ],
   "note": "Metropolis sampler, no fixed parameters, non-zero widths, density bounded between the limits (automatic for a fit with positive rates, by continuity); exact reals. C108_converges for the chain; C108_histogram for the full-histogram mode and C108_marginals for the default mode (pairs: where no two joined names agree), for any statistic; C108_posterior, C108_posterior_histogram, C108_posterior_likely and C108_posterior_marginals for a fit of counts with Gaussian constraints."
  },
  {
   "property": "C109",
   "status": "proved",
   "theorems": [
    "Oxsx.C109_value",
    "Oxsx.C109_posterior",
    "Oxsx.C109_average",
    "Oxsx.C109_chain",
    "Oxsx.C109_chain_marginals"
   ],
   "note": "Channels without systematics, buffers or Barlow-Beeston (as in C31_configured_partial); Metropolis sampling."
  },
  {
   "property": "C110",
   "status": "proved",
   "theorems": [
    "Oxsx.C110_constrained",
    "Oxsx.C110_consistent",
    "Oxsx.C110_consistent_parameters",
    "Oxsx.C110_error",
    "Oxsx.C110_likely",
    "Oxsx.C110_relative",
    "Oxsx.C110_relative_all",
    "Oxsx.C110_parameters",
    "Oxsx.C110_joint",
    "Oxsx.C110_grid"
   ],
   "note": "Likelihoods without systematics, buffers or Barlow-Beeston; C110_constrained and C110_consistent* are for any history of constraints with correlations between -1 and 1 and no interpolated tables, the other theorems for points whose constraint term is not negative; C110_grid has the limits of C52 (first point not tried, value zero, two parameters)."
  },
  {
   "property": "C111",
   "status": "proved",
   "theorems": [
    "Oxsx.C111_relative",
    "Oxsx.C111_consistent",
    "Oxsx.C111_value",
    "Oxsx.C111_probability",
    "Oxsx.C111_average",
    "Oxsx.C111_likely"
   ],
   "note": "Likelihoods without buffers and Barlow-Beeston, different names of systematics and of distributions, directly fitted distributions before indirectly fitted ones (otherwise the code's normalisation counters are wrong, C88). Points: dictionaries over the same names that decide the parameters of every systematic (AnySys.scale_decided, shift_decided: for Scale and Shift every dictionary with a value for the parameter) and where all rates are positive. Exact reals."
  },
  {
   "property": "C112",
   "status": "proved",
   "theorems": [
    "Oxsx.C112_hamiltonian",
    "Oxsx.C112_joint_histogram",
    "Oxsx.C112_histogram",
    "Oxsx.C112_marginals",
    "Oxsx.C112_systematics_histogram",
    "Oxsx.C112_systematics_marginals",
    "Oxsx.C112_systematics_grid",
    "Oxsx.C112_joint_marginals",
    "Oxsx.C112_grid",
    "Oxsx.C112_chain",
    "Oxsx.C112_minuit"
   ],
   "note": "Runs that succeed on the function (an exception of the function is not followed). Infinite values are outside. Likelihoods as in C111 (systematics) and C109 (sums): no buffers, no Barlow-Beeston; rates and constraint term continuous and rates positive between the limits; the grid theorem is for two parameters and values other than zero (C52). The convergence theorems are for the Metropolis sampler. Exact reals."
  },
  {
   "property": "C113",
   "status": "proved",
   "theorems": [
    "Oxsx.C113_closure",
    "Oxsx.C113_consistent",
    "Oxsx.C113_grid"
   ],
   "note": "Histograms without systematics, buffers or Barlow-Beeston errors, distributions usable over the same bins; constraints of the proper kinds without tables. The random numbers are those of the law in C107 (Poisson counts per bin). The grid search has two parameters, the truth on the grid but not at its first point (never tried: C52), and fake data for which a value at a grid point is exactly zero are excepted. Probabilities of events are outer measures."
  },
  {
   "property": "C114",
   "status": "proved",
   "theorems": [
    "Oxsx.C114_credible",
    "Oxsx.C114_chain"
   ],
   "note": "Normalisations without systematics, buffers or Barlow-Beeston errors; independent Gaussian constraints; Metropolis sampler with Gaussian steps, logged and sign-flipped chain, full histogram saved. The prior is the one the chain's limits and the constraints imply (flat where unconstrained). The same random numbers of the chain are used for all experiments in the statement about runs. Probabilities of sets of random numbers are outer measures."
  },
  {
   "property": "C115",
   "status": "proved",
   "theorems": [
    "Oxsx.C115_best",
    "Oxsx.C115_fit",
    "Oxsx.C115_closure"
   ],
   "note": "Metropolis sampler with Gaussian steps of non-zero width in all parameters (none fixed); real numbers. About runs that return (those of C108 with a full histogram do: C108_posterior_histogram). For fits: no systematics, buffers or Barlow-Beeston errors, Gaussian constraints. The constant may depend on epsilon and the data. Probabilities of sets of random numbers are outer measures. That the very last point is never considered is the defect in C53_best_wrong."
  },
  {
   "property": "C116",
   "status": "proved",
   "theorems": [
    "Oxsx.C116_posterior_histogram",
    "Oxsx.C116_best",
    "Oxsx.C116_converges",
    "Oxsx.C116_histogram",
    "Oxsx.C116_marginals"
   ],
   "note": "Metropolis sampler; random numbers and real arithmetic as in C108. The density is bounded, from above and away from zero, on the points with the given fixed values; C116_marginals (default axes) needs the fixed values below the upper limits; C116_best needs a free parameter and continuity. The constants may depend on the fixed values."
  },
  {
   "property": "C117",
   "status": "proved",
   "theorems": [
    "Oxsx.C117_joint_chain",
    "Oxsx.C117_credible",
    "Oxsx.C117_chain",
    "Oxsx.C117_joint_credible"
   ],
   "note": ""
  },
  {
   "property": "C118",
   "status": "proved",
   "theorems": [
    "Oxsx.C118_gaussian",
    "Oxsx.C118_jump",
    "Oxsx.C118_varying",
    "Oxsx.C118_events",
    "Oxsx.C118_expected",
    "Oxsx.C118_expected_varying"
   ],
   "note": ""
  },
  {
   "property": "C119",
   "status": "proved",
   "theorems": [
    "Oxsx.C119_jump",
    "Oxsx.C119_exact",
    "Oxsx.C119_varying"
   ],
   "note": ""
  },
  {
   "property": "C120",
   "status": "proved",
   "theorems": [
    "Oxsx.C120_scale",
    "Oxsx.C120_shift",
    "Oxsx.C120_scale_inside",
    "Oxsx.C120_shift_inside"
   ],
   "note": ""
  }
 ]
}