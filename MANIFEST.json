{
 "claims": [
  {
   "property": "C01",
   "status": "proved",
   "theorems": [
    "Menpofit.C01_check_scales_result",
    "Menpofit.C01_check_scales_accepts"
   ],
   "note": "Complete on the modelled universe of Python values."
  },
  {
   "property": "C02",
   "status": "proved",
   "theorems": [
    "Menpofit.C02_check_callable",
    "Menpofit.C02_check_multi_scale_param",
    "Menpofit.C02_check_max_components",
    "Menpofit.C02_check_graph",
    "Menpofit.C02_check_algorithm_cls"
   ],
   "note": "The five broadcasting checks."
  },
  {
   "property": "C03",
   "status": "partial",
   "theorems": [
    "Menpofit.C03_patch_shape_violated",
    "Menpofit.C03_patch_shape_violated_all",
    "Menpofit.C03_patch_shape_partial",
    "Menpofit.C03_number_refused"
   ],
   "note": "Violated: a one-element list of patch shapes yields a single entry instead of one per scale. Partial: single pair and full-length lists."
  },
  {
   "property": "C04",
   "status": "partial",
   "theorems": [
    "Menpofit.C04_max_iters_violated",
    "Menpofit.C04_max_iters_partial",
    "Menpofit.C04_fractions_cut"
   ],
   "note": "Violated: 3 iterations over 2 scales give 4. Partial: nearest-even rounding per scale, total off by at most n/2, exact when divisible, lists kept."
  },
  {
   "property": "C05",
   "status": "partial",
   "theorems": [
    "Menpofit.C05_sampling_violated",
    "Menpofit.C05_sampling_partial"
   ],
   "note": "Violated for plain int and lists with None. Partial: arrays / NumPy ints and lists of them."
  },
  {
   "property": "C06",
   "status": "proved",
   "theorems": [
    "Menpofit.C06_check_diagonal",
    "Menpofit.C06_set_models_components"
   ],
   "note": "Complete."
  },
  {
   "property": "C07",
   "status": "proved",
   "theorems": [
    "Menpofit.C07_batch_partition",
    "Menpofit.C07_batch_streaming",
    "Menpofit.C07_batch_boundary"
   ],
   "note": "Complete (partition, streaming, batch boundaries)."
  },
  {
   "property": "C08",
   "status": "proved",
   "theorems": [
    "Menpofit.C08_build_grid_entries",
    "Menpofit.C08_build_grid_lattice"
   ],
   "note": "Complete (entries, lattice)."
  },
  {
   "property": "C09",
   "status": "partial",
   "theorems": [
    "Menpofit.C09_max_components_violated",
    "Menpofit.C09_max_components_partial"
   ],
   "note": "Violated: out-of-range limits are accepted. Partial: wrong types are rejected, valid limits kept."
  },
  {
   "property": "C10",
   "status": "partial",
   "theorems": [
    "Menpofit.C10_landmarks_violated_on_error",
    "Menpofit.C10_landmarks_violated_reserved",
    "Menpofit.C10_landmarks_partial"
   ],
   "note": "Violated on exceptional exit and for reserved groups. Partial: successful preparation, no reserved groups."
  },
  {
   "property": "C11",
   "status": "partial",
   "theorems": [
    "Menpofit.C11_no_jump_partial",
    "Menpofit.C11_no_jump_violated"
   ],
   "note": "Violated when the features change and translate. Partial: only the first feature repeated, commuting transforms at feature changes."
  },
  {
   "property": "C12",
   "status": "partial",
   "theorems": [
    "Menpofit.C12_transforms_undo_partial",
    "Menpofit.C12_transforms_undo_violated",
    "Menpofit.C12_plane_partial"
   ],
   "note": "Violated for [f,g,g]. Partial: only the first feature repeated consecutively."
  },
  {
   "property": "C13",
   "status": "proved",
   "theorems": [
    "Menpofit.C13_every_scale_runs",
    "Menpofit.C13_errors_come_from_algorithms"
   ],
   "note": "Complete."
  },
  {
   "property": "C14",
   "status": "proved",
   "theorems": [
    "Menpofit.C14_loop_contract",
    "Menpofit.C14_loop_errors"
   ],
   "note": "Complete for the generic loop of the AAM/ATM/APS/LK optimisers; the per-algorithm step is a parameter."
  },
  {
   "property": "C15",
   "status": "partial",
   "theorems": [
    "Menpofit.C15_costs_partial",
    "Menpofit.C15_costs_lk_violated"
   ],
   "note": "Violated by the Lucas-Kanade loop (the cost of the last shape is missing, costs lag by one). Partial: the other loops."
  },
  {
   "property": "C16",
   "status": "partial",
   "theorems": [
    "Menpofit.C16_repeatable_partial",
    "Menpofit.C16_repeatable_violated",
    "Menpofit.C16_lucas_kanade_runs"
   ],
   "note": "Violated: the regularised inverse AAM/ATM algorithm changes its cached Hessian. Partial: every other combination of algorithm and history."
  },
  {
   "property": "C17",
   "status": "proved",
   "theorems": [
    "Menpofit.C17_wiberg_map",
    "Menpofit.C17_modified_alternating_map",
    "Menpofit.C17_forward_map",
    "Menpofit.C17_forward_update",
    "Menpofit.C17_simultaneous_map",
    "Menpofit.C17_aps_forward",
    "Menpofit.C17_clm_map"
   ],
   "note": "AAM/ATM forward, AAM simultaneous, APS forward, CLM. Exact arithmetic over any ordered field."
  },
  {
   "property": "C18",
   "status": "partial",
   "theorems": [
    "Menpofit.C18_prior_forward_partial",
    "Menpofit.C18_prior_clm_partial",
    "Menpofit.C18_prior_aps_forward_partial",
    "Menpofit.C18_prior_aps_inverse_partial",
    "Menpofit.C18_prior_inverse_violated"
   ],
   "note": "Violated by every regularised inverse AAM/ATM step with non-zero parameters. Partial: forward, APS and CLM steps."
  },
  {
   "property": "C19",
   "status": "partial",
   "theorems": [
    "Menpofit.C19_map_violated",
    "Menpofit.C19_map_simultaneous_violated",
    "Menpofit.C19_map_partial",
    "Menpofit.C19_map_simultaneous_partial"
   ],
   "note": "Violated for more than 256 parameters (identity comparison of integers). Partial: up to 256 parameters."
  },
  {
   "property": "C20",
   "status": "proved",
   "theorems": [
    "Menpofit.C20_final_single",
    "Menpofit.C20_final_multi",
    "Menpofit.C20_to_result"
   ],
   "note": "Complete: single-scale, multi-scale and Lucas-Kanade results, plain results."
  },
  {
   "property": "C21",
   "status": "partial",
   "theorems": [
    "Menpofit.C21_optimiser_partial",
    "Menpofit.C21_sdm_nonparametric_partial",
    "Menpofit.C21_sdm_aam_partial",
    "Menpofit.C21_sdm_parametric_violated",
    "Menpofit.C21_multi_partial",
    "Menpofit.C21_multi_nonparametric_partial",
    "Menpofit.C21_lk_violated",
    "Menpofit.C21_sdm_parameters"
   ],
   "note": "Violated by supervised descent with a parametric shape (one short) and by every multi-scale Lucas-Kanade result (short by the number of scales). Partial: all other optimisers and result classes."
  },
  {
   "property": "C22",
   "status": "partial",
   "theorems": [
    "Menpofit.C22_reconstruction_partial",
    "Menpofit.C22_reconstruction_sdm_violated"
   ],
   "note": "Violated for supervised descent with a parametric shape (points at the first update). Partial: all results whose scales record the reconstruction."
  },
  {
   "property": "C23",
   "status": "proved",
   "theorems": [
    "Menpofit.C23_concatenation",
    "Menpofit.C23_costs_and_parameters",
    "Menpofit.C23_length_mismatch",
    "Menpofit.C23_missing_transform"
   ],
   "note": "Complete."
  },
  {
   "property": "C24",
   "status": "partial",
   "theorems": [
    "Menpofit.C24_labels_nonparametric_partial",
    "Menpofit.C24_labels_subset_partial",
    "Menpofit.C24_labels_multi_partial",
    "Menpofit.C24_labels_parametric_partial",
    "Menpofit.C24_labels_parametric_violated",
    "Menpofit.C24_labels_multi_violated",
    "Menpofit.C24_labels_overwritten_violated"
   ],
   "note": "Violated: parametric with initial shape (first update labelled 3), multi-scale parametric without initial shape (first update labelled -1), several reconstructions share a label. Partial: the remaining cases."
  },
  {
   "property": "C25",
   "status": "proved",
   "theorems": [
    "Menpofit.C25_errors",
    "Menpofit.C25_errors_missing",
    "Menpofit.C25_displacements",
    "Menpofit.C25_displacement_stats"
   ],
   "note": "Complete."
  },
  {
   "property": "C26",
   "status": "proved",
   "theorems": [
    "Menpofit.C26_metric",
    "Menpofit.C26_invariance",
    "Menpofit.C26_one_point"
   ],
   "note": "Complete, exact real arithmetic, any number of points and dimensions."
  },
  {
   "property": "C27",
   "status": "proved",
   "theorems": [
    "Menpofit.C27_metric",
    "Menpofit.C27_scaling",
    "Menpofit.C27_bound"
   ],
   "note": "Complete, exact real arithmetic."
  },
  {
   "property": "C28",
   "status": "proved",
   "theorems": [
    "Menpofit.C28_bounding_box",
    "Menpofit.C28_landmark_distance",
    "Menpofit.C28_landmark_indices",
    "Menpofit.C28_distance_function",
    "Menpofit.C28_names"
   ],
   "note": "Complete; also for any user-supplied distance measured in the unit of the shapes."
  },
  {
   "property": "C29",
   "status": "proved",
   "theorems": [
    "Menpofit.C29_extent",
    "Menpofit.C29_inequalities",
    "Menpofit.C29_defined"
   ],
   "note": "Complete."
  },
  {
   "property": "C30",
   "status": "proved",
   "theorems": [
    "Menpofit.C30_fraction",
    "Menpofit.C30_monotone",
    "Menpofit.C30_order",
    "Menpofit.C30_one"
   ],
   "note": "Complete."
  },
  {
   "property": "C31",
   "status": "partial",
   "theorems": [
    "Menpofit.C31_failure_partial",
    "Menpofit.C31_threshold_partial",
    "Menpofit.C31_failure_violated"
   ],
   "note": "Violated when the step does not divide the range (threshold is the last bin). Partial: dividing steps exactly; any step up to one bin."
  },
  {
   "property": "C32",
   "status": "partial",
   "theorems": [
    "Menpofit.C32_panel_exact",
    "Menpofit.C32_unit_partial",
    "Menpofit.C32_bound_partial",
    "Menpofit.C32_monotone",
    "Menpofit.C32_unit_violated"
   ],
   "note": "Violated when the step does not divide the range (area 1.2). Partial: dividing steps; general bound 1 + step/max. Monotonicity complete. SciPy's simps is modelled with its default even='avg'."
  },
  {
   "property": "C33",
   "status": "proved",
   "theorems": [
    "Menpofit.C33_median",
    "Menpofit.C33_bounds",
    "Menpofit.C33_translation",
    "Menpofit.C33_scaling",
    "Menpofit.C33_order"
   ],
   "note": "Complete."
  },
  {
   "property": "C34",
   "status": "proved",
   "theorems": [
    "Menpofit.C34_landmarks",
    "Menpofit.C34_commute",
    "Menpofit.C34_to49_markup",
    "Menpofit.C34_markup_independent",
    "Menpofit.C34_outer_eyes",
    "Menpofit.C34_pupils",
    "Menpofit.C34_pupil_error",
    "Menpofit.C34_bounding_box",
    "Menpofit.C34_bounding_box_full",
    "Menpofit.C34_counts",
    "Menpofit.C34_no_failure"
   ],
   "note": "Complete; the eye indices come from menpo and are parameters."
  },
  {
   "property": "C35",
   "status": "proved",
   "theorems": [
    "Menpofit.C35_train_minimises",
    "Menpofit.C35_train_succeeds",
    "Menpofit.C35_train_singular",
    "Menpofit.C35_predict_rows"
   ],
   "note": "Complete, exact arithmetic over any ordered field."
  },
  {
   "property": "C36",
   "status": "partial",
   "theorems": [
    "Menpofit.C36_increment_eq_batch_partial",
    "Menpofit.C36_increment_eq_batch_violated",
    "Menpofit.C36_not_incrementable"
   ],
   "note": "Violated for every regulariser other than 1 (the incremental update uses alpha where the identity belongs). Partial: regulariser 1, any sequence of increments. Refusal complete."
  },
  {
   "property": "C37",
   "status": "partial",
   "theorems": [
    "Menpofit.C37_other_classes_refuse",
    "Menpofit.C37_failed_increment_unchanged_partial",
    "Menpofit.C37_increment_updates_partial",
    "Menpofit.C37_half_update_violated"
   ],
   "note": "Violated: mismatched rows leave V changed and W not; see also C36. Partial: matching rows."
  },
  {
   "property": "C38",
   "status": "proved",
   "theorems": [
    "Menpofit.C38_mosse_minimises",
    "Menpofit.C38_mccf_minimises",
    "Menpofit.C38_order_irrelevant"
   ],
   "note": "Complete for positive regularisers, both single- and multi-channel filters; the Fourier transform is a parameter."
  },
  {
   "property": "C39",
   "status": "partial",
   "theorems": [
    "Menpofit.C39_ensemble_history",
    "Menpofit.C39_one_by_one_partial",
    "Menpofit.C39_increment_eq_batch_violated",
    "Menpofit.C39_ensemble_violated"
   ],
   "note": "Violated for every positive regulariser (weights multiply sums instead of averages; the ensemble also counts the new images as old). Partial: single-image increments give the batch filter for a scaled regulariser."
  },
  {
   "property": "C40",
   "status": "partial",
   "theorems": [
    "Menpofit.C40_pad_extent",
    "Menpofit.C40_pad_smaller_refused",
    "Menpofit.C40_crop_extent_partial",
    "Menpofit.C40_crop_extent_violated",
    "Menpofit.C40_crop_pad_partial",
    "Menpofit.C40_crop_pad_violated",
    "Menpofit.C40_pad_reflects",
    "Menpofit.C40_pad_zeros"
   ],
   "note": "Violated when zero or one pixel is cropped along an axis (empty result). Partial: at least two pixels. Padding complete."
  },
  {
   "property": "C41",
   "status": "proved",
   "theorems": [
    "Menpofit.C41_similarity_instances",
    "Menpofit.C41_zero_weights"
   ],
   "note": "Exact characterisation over the reals (scale, rotation angle, translation), both directions; weights of any length up to four."
  },
  {
   "property": "C42",
   "status": "proved",
   "theorems": [
    "Menpofit.C42_pdm",
    "Menpofit.C42_global_pdm",
    "Menpofit.C42_global_similarity",
    "Menpofit.C42_ortho_pdm",
    "Menpofit.C42_global_source",
    "Menpofit.C42_increment_target"
   ],
   "note": "Invariant over arbitrary operation lists (including refused operations) for PDM, GlobalPDM over any lawful transform, GlobalSimilarityModel and OrthoPDM. PCAModel statistics are arbitrary; aliasing of weight arrays is not modelled."
  },
  {
   "property": "C43",
   "status": "proved",
   "theorems": [
    "Menpofit.C43_closest_instance",
    "Menpofit.C43_global_closest",
    "Menpofit.C43_active_components",
    "Menpofit.C43_wrong_shape"
   ],
   "note": "Least-squares optimality, idempotence and refusal of wrong shapes, for orthonormal active components."
  },
  {
   "property": "C44",
   "status": "partial",
   "theorems": [
    "Menpofit.C44_round_trip_partial",
    "Menpofit.C44_idempotent_partial",
    "Menpofit.C44_after_increment_violated"
   ],
   "note": "Proved for every state reached without increments (partial); after an increment the alignment keeps the old mean as source and the property is violated (witness)."
  },
  {
   "property": "C45",
   "status": "proved",
   "theorems": [
    "Menpofit.C45_affine_d_dp",
    "Menpofit.C45_affine_d_dx",
    "Menpofit.C45_similarity_d_dp",
    "Menpofit.C45_similarity_d_dx",
    "Menpofit.C45_wrong_dimension"
   ],
   "note": "Affine in any dimension, similarity in 2D, at every parameter vector and point. d_dx makes no check of the dimension, so only d_dp is claimed to refuse."
  },
  {
   "property": "C46",
   "status": "partial",
   "theorems": [
    "Menpofit.C46_pdm",
    "Menpofit.C46_global_similarity",
    "Menpofit.C46_global_pdm_partial",
    "Menpofit.C46_rotation_violated",
    "Menpofit.C46_away_from_mean_violated",
    "Menpofit.C46_ortho_pdm_partial",
    "Menpofit.C46_fitter_jacobian_partial"
   ],
   "note": "Exact for plain PDMs. Globally aligned PDMs: proved at zero non-rigid weights without rotation; violated with rotation (wrong axis) and away from the mean (scale derivative taken at the mean shape)."
  },
  {
   "property": "C47",
   "status": "proved",
   "theorems": [
    "Menpofit.C47_r2logr",
    "Menpofit.C47_r2logr2"
   ],
   "note": "Gradient in the sense of Mathlib, at all points including the centres."
  },
  {
   "property": "C48",
   "status": "proved",
   "theorems": [
    "Menpofit.C48_barycentric",
    "Menpofit.C48_landmark_derivative",
    "Menpofit.C48_weights",
    "Menpofit.C48_translation"
   ],
   "note": "From menpo: point location returns three different vertices and the barycentric coordinates (LocatedIn)."
  },
  {
   "property": "C49",
   "status": "partial",
   "theorems": [
    "Menpofit.C49_pwa_identity_partial",
    "Menpofit.C49_pwa_violated",
    "Menpofit.C49_tps_affine_partial",
    "Menpofit.C49_tps_axes_violated",
    "Menpofit.C49_tps_shape_violated",
    "Menpofit.C49_tps_violated"
   ],
   "note": "Violated for every piecewise affine warp that is not locally the identity (identity is always returned) and for thin plate splines: ValueError unless sampled at as many points as centres, last two axes exchanged, wrong sign of the non-linear part. Proved in the remaining trivial cases."
  },
  {
   "property": "C50",
   "status": "proved",
   "theorems": [
    "Menpofit.C50_mean",
    "Menpofit.C50_diagonal",
    "Menpofit.C50_order"
   ],
   "note": "Proved in exact arithmetic."
  },
  {
   "property": "C51",
   "status": "partial",
   "theorems": [
    "Menpofit.C51_boxes",
    "Menpofit.C51_inside",
    "Menpofit.C51_no_box",
    "Menpofit.C51_group",
    "Menpofit.C51_listed",
    "Menpofit.C51_later_image_violated",
    "Menpofit.C51_stale_boxes_violated"
   ],
   "note": "Count, numbering, content, inside the image, other groups and the error are proved. Two violations: only the first image is checked for matching boxes, and boxes left by an earlier call are listed again."
  },
  {
   "property": "C52",
   "status": "partial",
   "theorems": [
    "Menpofit.C52_invariant",
    "Menpofit.C52_sum",
    "Menpofit.C52_regressors",
    "Menpofit.C52_unequal_violated"
   ],
   "note": "Proved for training and incrementing with equally many shapes per image (parametric: when parameters of a generated shape are those parameters, see C44). Violated with unequal numbers of shapes: IndexError, or uninitialised target rows."
  },
  {
   "property": "C53",
   "status": "partial",
   "theorems": [
    "Menpofit.C53_sdm_partial",
    "Menpofit.C53_ert_partial",
    "Menpofit.C53_provided_boxes_violated"
   ],
   "note": "Proved without provided boxes, for supervised descent and dlib fitters, assuming algorithms keep counts (proved in C52) and menpo's landmark handling. Violated whenever boxes are provided: nPert+1 shapes per box at the lowest scale, only nPert per image later."
  },
  {
   "property": "C54",
   "status": "proved",
   "theorems": [
    "Menpofit.C54_target",
    "Menpofit.C54_bounded",
    "Menpofit.C54_point_mass",
    "Menpofit.C54_update"
   ],
   "note": "Targets, bounds, point masses and the whole update proved for exact arithmetic and a Gaussian kernel; experts are a parameter."
  },
  {
   "property": "C55",
   "status": "partial",
   "theorems": [
    "Menpofit.C55_probability_partial",
    "Menpofit.C55_flat_violated"
   ],
   "note": "Partial: a stack containing a flat map raises IndexError, and a one-pixel map becomes 1/2 (C55_flat_violated). All stacks without flat maps proved."
  },
  {
   "property": "C56",
   "status": "partial",
   "theorems": [
    "Menpofit.C56_peak_partial",
    "Menpofit.C56_odd_window_violated",
    "Menpofit.C56_even_window_violated"
   ],
   "note": "Partial: holds (with the sign of every displacement) for window sizes 1 mod 4; fails for sizes 3 mod 4 (C56_odd_window_violated) and even sizes (C56_even_window_violated)."
  },
  {
   "property": "C57",
   "status": "partial",
   "theorems": [
    "Menpofit.C57_alternating",
    "Menpofit.C57_alternating_ends",
    "Menpofit.C57_project_out_partial",
    "Menpofit.C57_project_out_prior_partial",
    "Menpofit.C57_project_out_violated",
    "Menpofit.C57_cost_violated"
   ],
   "note": "Partial: alternating fitting proved for every weight; project-out fitting ignores the weight without prior and uses the unweighted Hessian with it (C57_project_out_violated); the reported cost does not weigh the part-based term with 1 - a (C57_cost_violated)."
  },
  {
   "property": "C58",
   "status": "partial",
   "theorems": [
    "Menpofit.C58_two_scales_partial",
    "Menpofit.C58_count",
    "Menpofit.C58_three_scales_violated"
   ],
   "note": "Count proved for any number of scales; content proved for one and two scales; for three scales the third block is proved wrong for all distinct parameters because the offset is overwritten instead of accumulated."
  },
  {
   "property": "C59",
   "status": "proved",
   "theorems": [
    "Menpofit.C59_project_out",
    "Menpofit.C59_orthonormal"
   ],
   "note": "Full; pinv is specified by the Moore-Penrose conditions, met by every orthonormal basis."
  },
  {
   "property": "C60",
   "status": "proved",
   "theorems": [
    "Menpofit.C60_same_update",
    "Menpofit.C60_same_update_kernel"
   ],
   "note": "Proved for all three algorithms with an explicit discrete Fourier transform (Parseval), and also for kernels that map real images to real images."
  },
  {
   "property": "C61",
   "status": "partial",
   "theorems": [
    "Menpofit.C61_inverse_gradient_images_partial",
    "Menpofit.C61_inverse_gradient_correlation_partial",
    "Menpofit.C61_opposite_orientation_violated",
    "Menpofit.C61_forward_compositional_violated",
    "Menpofit.C61_forward_compositional_run_violated"
   ],
   "note": "Inverse compositional: zero cost iff the gradients agree up to one gain; gradient correlation: zero residual iff gradients are parallel. Violated: opposite orientations give a zero residual; in forward compositional fitting the stored template gradient is overwritten by that of the warped image, so every increment is zero and a run stops at the initial shape."
  },
  {
   "property": "C62",
   "status": "partial",
   "theorems": [
    "Menpofit.C62_rectangle_partial",
    "Menpofit.C62_empty_rectangle_violated",
    "Menpofit.C62_box",
    "Menpofit.C62_shape_rectangle",
    "Menpofit.C62_parts"
   ],
   "note": "Partial: an empty dlib rectangle (right < left or bottom < top) comes back with swapped edges (C62_empty_rectangle_violated). Boxes, shapes and parts are proved in full."
  },
  {
   "property": "C63",
   "status": "partial",
   "theorems": [
    "Menpofit.C63_coordinates",
    "Menpofit.C63_no_preprocessing",
    "Menpofit.C63_history",
    "Menpofit.C63_no_initial_shape_violated"
   ],
   "note": "Partial: with preprocessing, a wrapped fitter whose results have no initial shape (dlib) raises after a successful fit (C63_no_initial_shape_violated). Coordinates, options and call histories proved in full."
  },
  {
   "property": "C64",
   "status": "proved",
   "theorems": [
    "Menpofit.C64_copy"
   ],
   "note": "Proved for every read pattern of the source."
  },
  {
   "property": "C65",
   "status": "partial",
   "theorems": [
    "Menpofit.C65_purged",
    "Menpofit.C65_recovery_partial",
    "Menpofit.C65_first_call_violated",
    "Menpofit.C65_no_download",
    "Menpofit.C65_passing_failure_violated"
   ],
   "note": "Partial: the call right after a crashed download raises (C65_first_call_violated); a passing loading failure deletes an intact file (C65_passing_failure_violated). Recovery one call later is proved."
  },
  {
   "property": "C66",
   "status": "proved",
   "theorems": [
    "Menpofit.C66_selected",
    "Menpofit.C66_invalid",
    "Menpofit.C66_features"
   ],
   "note": "Full: selected pixels, refusals and the feature index list."
  },
  {
   "property": "C67",
   "status": "partial",
   "theorems": [
    "Menpofit.C67_every_image_once",
    "Menpofit.C67_construct",
    "Menpofit.C67_increment",
    "Menpofit.C67_batch_invariant",
    "Menpofit.C67_no_batch_violated",
    "Menpofit.C67_atm_shape_models_partial",
    "Menpofit.C67_atm_templates_violated",
    "Menpofit.C67_aps_construct",
    "Menpofit.C67_aps_increment"
   ],
   "note": "Proved for AAM, CLM and APS for every batch size with at least one batch. Violations: no images (or batch_size=0) gives a model without any scale; an ATM keeps one warped template per scale and batch instead of one per scale."
  },
  {
   "property": "C68",
   "status": "partial",
   "theorems": [
    "Menpofit.C68_value",
    "Menpofit.C68_list",
    "Menpofit.C68_errors",
    "Menpofit.C68_all",
    "Menpofit.C68_caller_partial",
    "Menpofit.C68_caller_list_violated"
   ],
   "note": "Partial: a list with exactly one value is extended in place, so the caller's list changes (C68_caller_list_violated). Expansion and errors proved in full."
  },
  {
   "property": "C69",
   "status": "partial",
   "theorems": [
    "Menpofit.C69_zero_noise",
    "Menpofit.C69_alignment",
    "Menpofit.C69_alignment_rotation",
    "Menpofit.C69_invalid",
    "Menpofit.C69_uniform_partial",
    "Menpofit.C69_gaussian",
    "Menpofit.C69_scale_violated",
    "Menpofit.C69_translation_violated",
    "Menpofit.C69_argument_partial",
    "Menpofit.C69_argument_modified_violated",
    "Menpofit.C69_zero_noise_box"
   ],
   "note": "Zero noise, the alignment itself (with optimality of the rotation), Gaussian noise, errors and bounds on angle and move are proved; uniform scale noise is unbounded, the move is applied before the alignment, and a one-element list of the caller is extended in place (violated)."
  },
  {
   "property": "C70",
   "status": "partial",
   "theorems": [
    "Menpofit.C70_parameters",
    "Menpofit.C70_plain_violated",
    "Menpofit.C70_global_partial",
    "Menpofit.C70_identity",
    "Menpofit.C70_spatial_jacobian_violated",
    "Menpofit.C70_jp",
    "Menpofit.C70_jp_plain_violated",
    "Menpofit.C70_ortho_partial",
    "Menpofit.C70_ortho_identity"
   ],
   "note": "Plain model-driven transforms always raise ValueError (invalid einsum output). Global ones over a piecewise affine warp: unique least-squares solution proved, equal to the increment itself over an identity similarity. Violated for other spatial Jacobians (sums rows instead of multiplying)."
  },
  {
   "property": "C71",
   "status": "proved",
   "theorems": [
    "Menpofit.C71_per_method",
    "Menpofit.C71_measures",
    "Menpofit.C71_failure"
   ],
   "note": "Complete."
  },
  {
   "property": "C72",
   "status": "proved",
   "theorems": [
    "Menpofit.C72_inverse_regression",
    "Menpofit.C72_training_succeeds"
   ],
   "note": "Complete; training succeeds for positive regularisers."
  },
  {
   "property": "C73",
   "status": "partial",
   "theorems": [
    "Menpofit.C73_full_extent",
    "Menpofit.C73_same_extent_partial",
    "Menpofit.C73_same_extent_violated",
    "Menpofit.C73_valid_extent_partial",
    "Menpofit.C73_valid_extent_violated",
    "Menpofit.C73_fourier_filter_violated",
    "Menpofit.C73_sum_fourier_same_partial",
    "Menpofit.C73_sum_fourier_valid_partial"
   ],
   "note": "Violated: filters of height 2 to 5 give an empty result in mode 'same'; fft_convolve2d with a Fourier-domain filter raises in modes 'same' and 'valid'. Partial: filters of at least 6 x 6; fft_convolve2d_sum."
  },
  {
   "property": "C75",
   "status": "partial",
   "theorems": [
    "Menpofit.C75_refused_update_partial",
    "Menpofit.C75_inplace_violated"
   ],
   "note": "set_target and n_active_components proved atomic; the in-place vector update assigns the weights before it raises, proved violated by a witness."
  },
  {
   "property": "C74",
   "status": "partial",
   "theorems": [
    "Menpofit.C74_jacobian_history_partial",
    "Menpofit.C74_overwritten_array_violated"
   ],
   "note": "Proved for all histories that do not overwrite an array after passing it; violated otherwise (the cache keeps a reference to the array)."
  },
  {
   "property": "C76",
   "status": "proved",
   "theorems": [
    "Menpofit.C76_warp_follows_model",
    "Menpofit.C76_from_vector"
   ],
   "note": "Plain, global and orthonormal shape models."
  },
  {
   "property": "C77",
   "status": "proved",
   "theorems": [
    "Menpofit.C77_forward",
    "Menpofit.C77_inverse",
    "Menpofit.C77_simultaneous",
    "Menpofit.C77_alternating",
    "Menpofit.C77_modified_alternating",
    "Menpofit.C77_wiberg",
    "Menpofit.C77_clm"
   ],
   "note": "All listed optimisers; pinv specified by the Moore-Penrose conditions."
  },
  {
   "property": "C78",
   "status": "proved",
   "theorems": [
    "Menpofit.C78_costs_are_residuals",
    "Menpofit.C78_costs_wiberg",
    "Menpofit.C78_costs_project_out"
   ],
   "note": "Full for the five AAM families."
  },
  {
   "property": "C79",
   "status": "proved",
   "theorems": [
    "Menpofit.C79_simultaneous_is_project_out",
    "Menpofit.C79_wiberg_is_project_out"
   ],
   "note": "Equality of outcomes (shapes, shape parameters or exception) by simulation of the two loops."
  },
  {
   "property": "C80",
   "status": "partial",
   "theorems": [
    "Menpofit.C80_alternating_map_violated",
    "Menpofit.C80_map_returns_partial"
   ],
   "note": "Violated by the alternating algorithms (lk.py:1209 multiplies by A_m instead of its transpose, ValueError); proved for simultaneous, modified alternating, Wiberg and forward project-out with at most 256 shape parameters (`is not` comparison of integers)."
  },
  {
   "property": "C82",
   "status": "proved",
   "theorems": [
    "Menpofit.C82_rows",
    "Menpofit.C82_patch_rows"
   ],
   "note": "Full for the holistic and patch interfaces."
  },
  {
   "property": "C83",
   "status": "partial",
   "theorems": [
    "Menpofit.C83_construct_interfaces",
    "Menpofit.C83_increment_ignores_template_violated"
   ],
   "note": "Proved after construction in any number of batches; violated after every increment: the new warped templates are appended and the interfaces zip the first ones with the shape models, so the new template is never used."
  },
  {
   "property": "C84",
   "status": "partial",
   "theorems": [
    "Menpofit.C84_construct_limit",
    "Menpofit.C84_increment_limit",
    "Menpofit.C84_aps_limit_violated"
   ],
   "note": "Proved for AAM and CLM, construction and increments, given that trimming respects its argument; violated for an APS, whose shape models are incremented without the maximum."
  },
  {
   "property": "C81",
   "status": "partial",
   "theorems": [
    "Menpofit.C81_instance",
    "Menpofit.C81_random_instance_partial",
    "Menpofit.C81_random_instance_violated"
   ],
   "note": "instance proved; random_instance draws as many appearance weights as there are shape components, so it raises ValueError whenever the appearance model has fewer components (violated) and leaves the remaining appearance modes at zero otherwise (partial)."
  },
  {
   "property": "C85",
   "status": "proved",
   "theorems": [
    "Menpofit.C85_scale_images",
    "Menpofit.C85_warp_images",
    "Menpofit.C85_extract_patches",
    "Menpofit.C85_densify_shapes"
   ],
   "note": "Proved with the image operations of menpo as parameters that may raise."
  },
  {
   "property": "C86",
   "status": "partial",
   "theorems": [
    "Menpofit.C86_noisy_target_partial",
    "Menpofit.C86_per_point_violated"
   ],
   "note": "A float is proved; a list with one value per point raises ValueError for three or more points and is applied per axis for two (violated)."
  },
  {
   "property": "C87",
   "status": "proved",
   "theorems": [
    "Menpofit.C87_align_with_box"
   ],
   "note": "Proved for menpo's similarity alignment of the two boxes; excludes boxes whose sides are degenerate in complementary directions."
  },
  {
   "property": "C88",
   "status": "partial",
   "theorems": [
    "Menpofit.C88_non_parametric",
    "Menpofit.C88_parametric_partial",
    "Menpofit.C88_parametric_violated"
   ],
   "note": "Proved for the non-parametric algorithms. For the parametric ones proved when the training shape is an instance of the shape model; violated otherwise: training computes the first features on the raw shape, fitting on its projection."
  },
  {
   "property": "C89",
   "status": "partial",
   "theorems": [
    "Menpofit.C89_images_restored_partial",
    "Menpofit.C89_sdm_shapes_partial",
    "Menpofit.C89_reference",
    "Menpofit.C89_error_violated",
    "Menpofit.C89_own_group_violated"
   ],
   "note": "Proved for successful calls on images without a group called __gt_bb. Violated when an exception is raised after the temporary group was set, and for images that have such a group (it is lost)."
  },
  {
   "property": "C90",
   "status": "proved",
   "theorems": [
    "Menpofit.C90_options"
   ],
   "note": "Options are a map from names to values, copied by value; sharing of the dlib objects themselves is not modelled."
  },
  {
   "property": "C91",
   "status": "proved",
   "theorems": [
    "Menpofit.C91_ecc",
    "Menpofit.C91_gradient"
   ],
   "note": "ECC for forward and inverse compositional fitting; the gradient residuals for inverse compositional fitting (their forward compositional increments are always zero, C61), for gradients that are proportional to contrast and ignore brightness."
  },
  {
   "property": "C92",
   "status": "partial",
   "theorems": [
    "Menpofit.C92_gradient_images_partial",
    "Menpofit.C92_gradient_correlation_partial",
    "Menpofit.C92_gradient_images_violated",
    "Menpofit.C92_gradient_correlation_violated"
   ],
   "note": "Holds when the crossed derivatives of the normalised gradients agree. Violated otherwise: the code overwrites one crossed derivative by the other, which is right for gradients but not for normalised gradients."
  },
  {
   "property": "C93",
   "status": "partial",
   "theorems": [
    "Menpofit.C93_inverse_compositional",
    "Menpofit.C93_forward_compositional",
    "Menpofit.C93_forward_additive_partial",
    "Menpofit.C93_forward_additive_violated"
   ],
   "note": "Proved for inverse and forward compositional fitting with all residuals, and for forward additive fitting with SSD, FourierSSD and ECC. Violated for forward additive fitting with gradient images: the gradient of the warped image is compared with the warped gradient."
  },
  {
   "property": "C94",
   "status": "partial",
   "theorems": [
    "Menpofit.C94_inverse_partial",
    "Menpofit.C94_inverse_violated",
    "Menpofit.C94_forward_violated",
    "Menpofit.C94_no_optimum_partial",
    "Menpofit.C94_no_optimum_violated"
   ],
   "note": "Inverse compositional: holds when image and template have equally large remainders outside the span of the steepest descent images. Violated otherwise (the numerator of the step size uses the image instead of the template), and in forward compositional fitting (the step size multiplies the image instead of the template)."
  },
  {
   "property": "C95",
   "status": "partial",
   "theorems": [
    "Menpofit.C95_same_partial",
    "Menpofit.C95_impulse",
    "Menpofit.C95_even_filter_violated",
    "Menpofit.C95_border_violated",
    "Menpofit.C95_response_partial"
   ],
   "note": "Proved for filters of at least 6 by 6 not larger than the image, odd or with an even extended shape, away from the first and last row and column (everywhere if the filter is zero along its border). The code violates the rest: even filters are placed one pixel off when the extended shape is odd (C95_even_filter_violated), and the extension by half a filter lets the last row wrap into the first (C95_border_violated)."
  },
  {
   "property": "C96",
   "status": "partial",
   "theorems": [
    "Menpofit.C96_template_ignored_violated",
    "Menpofit.C96_forward_violated",
    "Menpofit.C96_ssd_forward_additive",
    "Menpofit.C96_ssd_forward_compositional",
    "Menpofit.C96_ssd_inverse",
    "Menpofit.C96_gradient_images_partial",
    "Menpofit.C96_gradient_correlation_partial"
   ],
   "note": "SSD and FourierSSD without kernel fully. Partial for the gradient residuals: inverse compositional, linearised with the steepest descent images the code computes (whose rows are not always the derivatives, C92). Violated by forward fitting with gradient residuals: the template plays no part in the increments and fits (C96_template_ignored_violated), and the forward compositional increment is not the least squares solution (C96_forward_violated)."
  },
  {
   "property": "C97",
   "status": "partial",
   "theorems": [
    "Menpofit.C97_least_squares",
    "Menpofit.C97_trains_iff_full_rank",
    "Menpofit.C97_variance_partial",
    "Menpofit.C97_variance_violated",
    "Menpofit.C97_all_variance_violated",
    "Menpofit.C97_failed_training_violated"
   ],
   "note": "Proved without variance. With a variance the least squares part is proved, but the directions kept never reach the requested share (the comparison is strict and the count is not increased by one): with variance=1 and one feature every prediction is zero. Training assigns V before it can raise, so failed training changes predictions."
  },
  {
   "property": "C98",
   "status": "partial",
   "theorems": [
    "Menpofit.C98_cascade",
    "Menpofit.C98_largest_correlation",
    "Menpofit.C98_length_preserving_partial",
    "Menpofit.C98_more_features_violated",
    "Menpofit.C98_whitened_partial"
   ],
   "note": "For every shape the trained map lengthens nothing and has the largest inner product of predictions and targets among such maps. Least error is proved if there are at most as many features as outputs; with more features it is false (C98_more_features_violated). The whitened case is proved if there are at most as many outputs as features."
  },
  {
   "property": "C99",
   "status": "partial",
   "theorems": [
    "Menpofit.C99_trains",
    "Menpofit.C99_least_squares",
    "Menpofit.C99_variance_partial",
    "Menpofit.C99_all_variance_violated",
    "Menpofit.C99_agree"
   ],
   "note": "Proved without variance for any lawful pca and pinv (which exist). With a variance the components kept stay below the requested share; with variance=1 and one feature every prediction is zero."
  },
  {
   "property": "C100",
   "status": "partial",
   "theorems": [
    "Menpofit.C100_cascade",
    "Menpofit.C100_verbose",
    "Menpofit.C100_retrain_partial",
    "Menpofit.C100_nonparametric",
    "Menpofit.C100_ready",
    "Menpofit.C100_failed_partial",
    "Menpofit.C100_retrain_violated",
    "Menpofit.C100_failed_violated"
   ],
   "note": "Verbosity never matters; retraining is independent of the history as long as the object holds no models from an earlier training. Violated for classes with a shape or appearance model (kept from the first training) and for trainings that raise midway (regressors trained so far stay and are used)."
  },
  {
   "property": "C101",
   "status": "proved",
   "theorems": [
    "Menpofit.C101_max_components",
    "Menpofit.C101_parametric",
    "Menpofit.C101_aam",
    "Menpofit.C101_repeatable",
    "Menpofit.C101_orthopdm"
   ],
   "note": "Proved for every shape model without memory, and the default OrthoPDM is proved to be one."
  },
  {
   "property": "C102",
   "status": "proved",
   "theorems": [
    "Menpofit.C102_project_out",
    "Menpofit.C102_weights",
    "Menpofit.C102_weights_exact",
    "Menpofit.C102_split"
   ],
   "note": "The pseudo-inverse is assumed to satisfy the Moore-Penrose equations."
  },
  {
   "property": "C103",
   "status": "partial",
   "theorems": [
    "Menpofit.C103_closest",
    "Menpofit.C103_landmarks_suffice",
    "Menpofit.C103_reproduces_partial",
    "Menpofit.C103_result_shapes",
    "Menpofit.C103_refuses",
    "Menpofit.C103_jacobian_partial",
    "Menpofit.C103_rotation_violated",
    "Menpofit.C103_activation_violated"
   ],
   "note": "Violated for rotated shapes (C103_rotation_violated) and when components are activated after construction (C103_activation_violated); proved for unrotated shapes with the components active at construction."
  },
  {
   "property": "C104",
   "status": "partial",
   "theorems": [
    "Menpofit.C104_forward",
    "Menpofit.C104_inverse",
    "Menpofit.C104_costs_partial",
    "Menpofit.C104_costs_violated",
    "Menpofit.C104_sampling"
   ],
   "note": "Proved for both algorithms over the shape model's Jacobian. Costs are right when all pixels are sampled (C104_costs_partial); with a sampling mask a run with return_costs=True always raises ValueError because the masked error meets the unmasked precision (C104_costs_violated). C104_sampling: the masked precision is the restriction of the full one."
  },
  {
   "property": "C105",
   "status": "partial",
   "theorems": [
    "Menpofit.C105_fits_independent",
    "Menpofit.C105_clm_steps",
    "Menpofit.C105_build_partial",
    "Menpofit.C105_build_violated",
    "Menpofit.C105_components_violated",
    "Menpofit.C105_components_partial"
   ],
   "note": "Fits are independent of all histories that do not ask for a number of components (C105_fits_independent). Violated for constructors: the Jacobian is computed at whatever shape the last fit left behind (C105_build_violated; the same when that shape was the mean: C105_build_partial). Violated for components: a second fitter with another n_shape makes every later fit of the first raise (C105_components_violated). Without such a request in between, a fitter made after any history always fits (C105_components_partial)."
  },
  {
   "property": "C106",
   "status": "partial",
   "theorems": [
    "Menpofit.C106_weights",
    "Menpofit.C106_accepts",
    "Menpofit.C106_refuses",
    "Menpofit.C106_moved",
    "Menpofit.C106_tree_partial",
    "Menpofit.C106_tree_violated"
   ],
   "note": "Weights in closed form (C106_weights), acceptance and refusal (C106_accepts, C106_refuses), invariance of weights up to a common constant (C106_moved). Invariance of the minimum trees holds when no weight happens to be zero (C106_tree_partial); menpo reads a zero weight as no edge, so shapes at one particular scale have no tree (C106_tree_violated). menpo's search for the tree is described, not modelled."
  },
  {
   "property": "C107",
   "status": "partial",
   "theorems": [
    "Menpofit.C107_target_partial",
    "Menpofit.C107_weights_partial",
    "Menpofit.C107_landmark",
    "Menpofit.C107_source_violated",
    "Menpofit.C107_small_violated"
   ],
   "note": "Exact for sources that determine the affine part and singular values that are zero or above the threshold, with inverse or pseudo-inverse. Violated: the docstring promises the derivative with respect to the source landmarks, which has the opposite sign; for landmarks closer than 1e-4 menpo discards a singular value of the spline that d_dl keeps."
  },
  {
   "property": "C108",
   "status": "partial",
   "theorems": [
    "Menpofit.C108_mask",
    "Menpofit.C108_masked",
    "Menpofit.C108_mask_empty",
    "Menpofit.C108_response",
    "Menpofit.C108_peak",
    "Menpofit.C108_filters_partial",
    "Menpofit.C108_filters_violated",
    "Menpofit.C108_offsets_partial",
    "Menpofit.C108_offsets_violated"
   ],
   "note": "Masks and responses proved for all sizes; with a side of two pixels the mask is zero everywhere. Filter images proved from six pixels; violated below (empty images). n_sample_offsets raises ValueError for every list of offsets."
  },
  {
   "property": "C109",
   "status": "partial",
   "theorems": [
    "Menpofit.C109_training",
    "Menpofit.C109_training_relit",
    "Menpofit.C109_fitting_partial",
    "Menpofit.C109_fitting_relit_partial",
    "Menpofit.C109_channels_violated",
    "Menpofit.C109_relit_violated"
   ],
   "note": "Proved for training and for patches with one channel. Violated with several channels: the array of all patches has the landmarks on its first axis, so in fitting the channels of a landmark are normalised together."
  },
  {
   "property": "C110",
   "status": "partial",
   "theorems": [
    "Menpofit.C110_construct",
    "Menpofit.C110_one_scale_partial",
    "Menpofit.C110_increment_partial",
    "Menpofit.C110_increment_violated",
    "Menpofit.C110_batches_violated",
    "Menpofit.C110_atm_violated"
   ],
   "note": "Proved for construction in one batch with any number of scales, and for batches and increments with one scale. Violated with several scales: only the frame of the highest scale is kept, so every second batch and every increment raises an error as soon as two scales differ in their number of dense points."
  },
  {
   "property": "C111",
   "status": "partial",
   "theorems": [
    "Menpofit.C111_aam",
    "Menpofit.C111_masked_aam",
    "Menpofit.C111_patch_aam",
    "Menpofit.C111_unified",
    "Menpofit.C111_aps",
    "Menpofit.C111_lucas_kanade",
    "Menpofit.C111_one_value_per_scale",
    "Menpofit.C111_atm_partial",
    "Menpofit.C111_patch_atm_partial",
    "Menpofit.C111_clm_partial",
    "Menpofit.C111_one_scale_violated",
    "Menpofit.C111_sdm_partial",
    "Menpofit.C111_sdm_violated",
    "Menpofit.C111_dlib_partial",
    "Menpofit.C111_dlib_violated",
    "Menpofit.C111_aps_no_graph_violated"
   ],
   "note": "Proved as equivalences (accepted iff documented, with the stored values) for AAMs, the unified model, APS and Lucas-Kanade. ATMs and CLM: only for scales given as list or tuple; a bare number always raises TypeError (violated). SupervisedDescentFitter: its default sd_algorithm_cls and any batch_size are always refused (violated). DlibERT: documented float feature_padding and None for n_dlib_perturbations are refused (violated). An APS without appearance graph, the default, is always refused after its other models have been built (violated). A one-element list of patch shapes is excluded here because of C03."
  },
  {
   "property": "C112",
   "status": "partial",
   "theorems": [
    "Menpofit.C112_train_partial",
    "Menpofit.C112_interfaces",
    "Menpofit.C112_options_violated"
   ],
   "note": "Which data trains which model at every scale, and the interfaces, are proved. Violated: reference_shape, boundary and response_covariance never change what is trained (C112_options_violated)."
  },
  {
   "property": "C113",
   "status": "partial",
   "theorems": [
    "Menpofit.C113_images_partial",
    "Menpofit.C113_atm_partial",
    "Menpofit.C113_aps_partial",
    "Menpofit.C113_unified",
    "Menpofit.C113_given_violated"
   ],
   "note": "Proved when no reference shape is given (and for the unified model always). Violated: a given reference shape is stored unscaled whatever the diagonal (C113_given_violated)."
  },
  {
   "property": "C114",
   "status": "partial",
   "theorems": [
    "Menpofit.C114_same_image_partial",
    "Menpofit.C114_seen",
    "Menpofit.C114_tolerance_violated",
    "Menpofit.C114_sigma_violated"
   ],
   "note": "Proved for factors that are 1 or outside NumPy's tolerance of 1. Violated: a factor close to but not equal to 1 rescales only when fitting (C114_tolerance_violated); the sigma smoothing of a unified AAM-CLM is applied only when training (C114_sigma_violated)."
  },
  {
   "property": "C115",
   "status": "partial",
   "theorems": [
    "Menpofit.C115_alignment",
    "Menpofit.C115_position",
    "Menpofit.C115_orientation",
    "Menpofit.C115_settled",
    "Menpofit.C115_copies_partial",
    "Menpofit.C115_increment_violated"
   ],
   "note": "Alignment, position and orientation proved; copies proved for a model built at once. Violated: an increment is aligned on its own, so a turned copy of the mean adds variance (C115_increment_violated)."
  },
  {
   "property": "C116",
   "status": "proved",
   "theorems": [
    "Menpofit.C116_resolution",
    "Menpofit.C116_coordinates"
   ],
   "note": "Both fits are runs of the modelled fitter; that the two pictures agree after they were brought to the size of the reference shape is the hypothesis."
  },
  {
   "property": "C117",
   "status": "partial",
   "theorems": [
    "Menpofit.C117_atm_partial",
    "Menpofit.C117_masked_atm_violated",
    "Menpofit.C117_linear_violated",
    "Menpofit.C117_aam_partial",
    "Menpofit.C117_shape_instance",
    "Menpofit.C117_aps"
   ],
   "note": "Violated: instances of MaskedATM always raise TypeError (the list of all patch shapes is used as one patch shape), linear models raise NotImplementedError. random_instance of appearance models is C81."
  },
  {
   "property": "C118",
   "status": "partial",
   "theorems": [
    "Menpofit.C118_table_partial",
    "Menpofit.C118_single",
    "Menpofit.C118_refused",
    "Menpofit.C118_names_violated"
   ],
   "note": "Partial: column names must be distinct; with repeated names columns are lost and sorting uses the wrong statistic (C118_names_violated). pandas' sort is any function that sorts."
  },
  {
   "property": "C119",
   "status": "proved",
   "theorems": [
    "Menpofit.C119_algorithm",
    "Menpofit.C119_scales"
   ],
   "note": "With provided boxes only the first n_perturbations boxes of each image reach the higher scales (C53); the theorem is about those."
  },
  {
   "property": "C120",
   "status": "partial",
   "theorems": [
    "Menpofit.C120_printed_partial",
    "Menpofit.C120_depth_violated"
   ],
   "note": "Violated: the cascade depth printed is dlib's default, whatever n_iterations is, because it is read from a template the algorithms only copy."
  },
  {
   "property": "C121",
   "status": "partial",
   "theorems": [
    "Menpofit.C121_offsets_partial",
    "Menpofit.C121_regularised_violated",
    "Menpofit.C121_inverse_violated"
   ],
   "note": "Proved for least squares (no regulariser), including that training succeeds again. With a positive regulariser the bias is regularised too and the claim is false for every alpha > 0 and every non-zero offset (C121_regularised_violated, one-sample witness); inverse regression ignores its bias argument and is false for every data set (C121_inverse_violated)."
  },
  {
   "property": "C122",
   "status": "partial",
   "theorems": [
    "Menpofit.C122_options_partial",
    "Menpofit.C122_bias_violated",
    "Menpofit.C122_increment_violated"
   ],
   "note": "Options: proved for all classes except the bias of the nine Gauss-Newton classes, which is dropped (C122_bias_violated). Increments: no class exposes `incrementable`, so increment raises for every class, option, history and data (C122_increment_violated), with the regressors left unchanged."
  },
  {
   "property": "C123",
   "status": "proved",
   "theorems": [
    "Menpofit.C123_perfect_aam",
    "Menpofit.C123_perfect_project_out",
    "Menpofit.C123_perfect_atm",
    "Menpofit.C123_prior_moves",
    "Menpofit.C123_rest_is_stationary"
   ],
   "note": "All AAM and ATM algorithms, forward and inverse, over all histories; the MAP case is characterised (kept at zero parameters, left otherwise). Assumes exact arithmetic."
  },
  {
   "property": "C124",
   "status": "partial",
   "theorems": [
    "Menpofit.C124_shape_model",
    "Menpofit.C124_warps",
    "Menpofit.C124_digital",
    "Menpofit.C124_aam_partial",
    "Menpofit.C124_project_out_partial",
    "Menpofit.C124_clm",
    "Menpofit.C124_unified",
    "Menpofit.C124_sdm",
    "Menpofit.C124_prior_violated"
   ],
   "note": "Proved for CLM, unified and supervised descent algorithms (with and without prior) and for AAM and ATM algorithms without map_inference. Violated with map_inference by the project-out AAM and the ATM algorithms: s2_inv_L is one, not zero, on the four similarity parameters, so the position is pulled towards that of the mean shape. Pictures without borders; patches are sampled at exact positions."
  },
  {
   "property": "C125",
   "status": "partial",
   "theorems": [
    "Menpofit.C125_every_iteration",
    "Menpofit.C125_rest_is_stationary",
    "Menpofit.C125_symmetric_rest",
    "Menpofit.C125_peak_rest_partial",
    "Menpofit.C125_jacobian_translates",
    "Menpofit.C125_peak_rest_violated",
    "Menpofit.C125_unified_rest"
   ],
   "note": "Active shape model: holds for windows whose sides are 1 modulo 4 and is violated for every other window height (half_search_shape rounds half to even and even windows are not centred): every run on perfectly centred peaks leaves its parameters."
  },
  {
   "property": "C126",
   "status": "partial",
   "theorems": [
    "Menpofit.C126_view",
    "Menpofit.C126_errors_curve",
    "Menpofit.C126_costs_curve",
    "Menpofit.C126_displacements_curve",
    "Menpofit.C126_same_abscissa_partial",
    "Menpofit.C126_same_abscissa_violated",
    "Menpofit.C126_summary_unknown",
    "Menpofit.C126_summary_single",
    "Menpofit.C126_summary_multi",
    "Menpofit.C126_text",
    "Menpofit.C126_appearance_parameters",
    "Menpofit.C126_aps_costs"
   ],
   "note": "Partial because the code violates the last sentence: with a known initial shape (all results of the algorithms) the cost drawn at k belongs to the shape whose error is drawn at k + 1 (C126_same_abscissa_violated). Everything else is proved. The menpo renderers are not modelled; the theorems speak of their arguments."
  },
  {
   "property": "C127",
   "status": "partial",
   "theorems": [
    "Menpofit.C127_energy",
    "Menpofit.C127_reported",
    "Menpofit.C127_precision",
    "Menpofit.C127_undeformed",
    "Menpofit.C127_singular",
    "Menpofit.C127_too_few",
    "Menpofit.C127_drawn",
    "Menpofit.C127_position",
    "Menpofit.C127_similarity_violated"
   ],
   "note": "C127_similarity_violated: with use_procrustes the steps take the similarity parameters for zero, but the reported deformation cost of c times the mean shape is positive for every c other than 1, so the cost is not what the steps minimise. Everything else is proved as stated; C127_precision discharges the hypothesis on the deformation precision in C104."
  },
  {
   "property": "C128",
   "status": "partial",
   "theorems": [
    "Menpofit.C128_fit_partial",
    "Menpofit.C128_fit_from_bb_partial",
    "Menpofit.C128_features",
    "Menpofit.C128_repeated_violated",
    "Menpofit.C128_clm",
    "Menpofit.C128_aam_partial",
    "Menpofit.C128_sdm",
    "Menpofit.C128_project_out_partial",
    "Menpofit.C128_unified",
    "Menpofit.C128_sdm_parametric"
   ],
   "note": "C128_fit_partial and C128_fit_from_bb_partial assume that a feature is used at two consecutive scales only if it is that of the first scale; C128_repeated_violated shows that the claim fails otherwise (the fitter maps shapes to the image with the affine transform of the first scale). C128_clm, C128_unified (both with and without prior), C128_aam_partial, C128_project_out_partial (project-out AAM and ATM), C128_sdm and C128_sdm_parametric (also AAM supervised descent) show that the algorithms follow the face; Lucas-Kanade style AAM and ATM algorithms only without prior (see C124_prior_violated). C128_features gives features that follow the picture."
  },
  {
   "property": "C129",
   "status": "partial",
   "theorems": [
    "Menpofit.C129_training",
    "Menpofit.C129_starting_shapes",
    "Menpofit.C129_training_from_gt",
    "Menpofit.C129_reference_partial",
    "Menpofit.C129_reference_violated"
   ],
   "note": "Training: proved, parametric and not, with and without increments, and from ground truths with the generated perturbations. Violated for noisy shapes of a fixed reference shape: the noise turns and scales about the centre of the target but is applied before the alignment, so the noise grows with the distance of the face from the reference; the exact displacement is proved. Pictures have no borders."
  },
  {
   "property": "C130",
   "status": "partial",
   "theorems": [
    "Menpofit.C130_forward_additive",
    "Menpofit.C130_forward_compositional",
    "Menpofit.C130_inverse",
    "Menpofit.C130_costs_partial",
    "Menpofit.C130_costs_violated",
    "Menpofit.C130_wrong_cost_violated",
    "Menpofit.C130_uniform_costs_partial"
   ],
   "note": "Increments proved for SSD and FourierSSD in all three algorithms. The costs are right without a kernel. With a kernel they are not: the new axis of the kernel is put behind its columns instead of in front of its rows, so for pictures with more rows than channels every cost raises ValueError (and no run with return_costs returns), and for square pictures with as many channels as rows the reported cost can be 0 although the filtered error is not."
  },
  {
   "property": "C131",
   "status": "partial",
   "theorems": [
    "Menpofit.C131_longer_aam",
    "Menpofit.C131_longer_project_out",
    "Menpofit.C131_longer_clm_aps",
    "Menpofit.C131_longer_unified",
    "Menpofit.C131_longer_lk",
    "Menpofit.C131_resume_clm",
    "Menpofit.C131_resume_aps",
    "Menpofit.C131_resume_unified",
    "Menpofit.C131_resume_project_out",
    "Menpofit.C131_resume_modified",
    "Menpofit.C131_resume_forward",
    "Menpofit.C131_resume_lk",
    "Menpofit.C131_resume_violated"
   ],
   "note": "Longer fits: proved for all algorithms. Resuming: proved for CLM, APS, unified, project-out (with the same algorithm object), modified alternating, forward simultaneous and forward Wiberg, forward compositional Lucas-Kanade with memoryless residuals; violated by the alternating algorithms and by inverse simultaneous and inverse Wiberg, which carry appearance parameters or increments that the final shape does not determine."
  },
  {
   "property": "C132",
   "status": "partial",
   "theorems": [
    "Menpofit.C132_project_out_partial",
    "Menpofit.C132_project_out_linear",
    "Menpofit.C132_project_out_finds",
    "Menpofit.C132_simultaneous_partial",
    "Menpofit.C132_wiberg_partial",
    "Menpofit.C132_alternating_partial",
    "Menpofit.C132_modified_alternating_partial",
    "Menpofit.C132_costs_rise_violated",
    "Menpofit.C132_inverse_violated"
   ],
   "note": "Partial because the claim is false of the code in two ways, both proved. The code takes the full Gauss-Newton step and never checks the cost, so the reported costs can rise (C132_costs_rise_violated: one parameter, one pixel, cost 25/16 then 625/256). The inverse algorithms use the derivative at the match instead of the one at the current shape, and can go uphill all along the step (C132_inverse_violated). Proved for every differentiable image, every model and every pair of consecutive iterations of a forward fit: project-out and simultaneous steps, with and without priors, start downhill for the objective of the whole problem, and stay only at stationary points; Wiberg steps start downhill for the error left by the best appearance; alternating steps (without priors: with priors the code raises, see C80) start downhill for the shape with the appearance they have just chosen, modified alternating ones with the old appearance, and then the appearance update does not raise the error. For images linear in the shape parameters every iterate after the first is the unique minimiser of the project-out objective, and if an instance of the model explains the image the fit finds its shape parameters. Differentiability of the warped pixels and correctness of the Jacobian that the code evaluates are hypotheses (SeesSmoothly); the latter is what menpo's warp and image gradient are documented to give."
  },
  {
   "property": "C133",
   "status": "partial",
   "theorems": [
    "Menpofit.C133_train_partial",
    "Menpofit.C133_construct",
    "Menpofit.C133_atm",
    "Menpofit.C133_aps",
    "Menpofit.C133_reference_shape",
    "Menpofit.C133_aligned",
    "Menpofit.C133_shape_model",
    "Menpofit.C133_moments",
    "Menpofit.C133_tree",
    "Menpofit.C133_deformation",
    "Menpofit.C133_filters",
    "Menpofit.C133_experts_partial",
    "Menpofit.C133_regression",
    "Menpofit.C133_procrustes",
    "Menpofit.C133_batches_violated",
    "Menpofit.C133_experts_violated",
    "Menpofit.C133_supervised_descent_violated",
    "Menpofit.C133_supervised_descent_partial",
    "Menpofit.C133_supervised_descent_irl"
   ],
   "note": "Violated with a batch size (the first batch fixes the reference shape), when shapes have different numbers of points (CLM experts: the first shape decides) and when images have different numbers of initial shapes (supervised descent: the first image decides the room). Partial: the principal component analysis and the minimum spanning tree algorithm are parameters assumed to ignore the order of their rows; PCR, Optimal and whitened Procrustes regressors are not covered; random perturbations of a supervised descent fitter are drawn in the order of the images, so the fitter as a whole is covered only given the initial shapes."
  },
  {
   "property": "C134",
   "status": "partial",
   "theorems": [
    "Menpofit.C134_better_partial",
    "Menpofit.C134_spread_violated",
    "Menpofit.C134_order",
    "Menpofit.C134_units",
    "Menpofit.C134_consistent"
   ],
   "note": "Proved for mean, median, maximum, area and failure rate (C134_better_partial). False for standard deviation and median absolute deviation: improving on one of two images increases both (C134_spread_violated). Order, units and consistency are proved in full."
  },
  {
   "property": "C135",
   "status": "partial",
   "theorems": [
    "Menpofit.C135_any_regressor",
    "Menpofit.C135_newton_partial",
    "Menpofit.C135_no_drift",
    "Menpofit.C135_pcr",
    "Menpofit.C135_single_shape_violated",
    "Menpofit.C135_gauss_newton_violated",
    "Menpofit.C135_procrustes_violated",
    "Menpofit.C135_printed",
    "Menpofit.C135_printed_parametric_partial",
    "Menpofit.C135_printed_parametric_violated"
   ],
   "note": "Holds for any regressor that predicts its training data at least as well as zero does, hence for IRLRegression (Newton, any alpha >= 0) and PCRRegression. Proved to fail for IIRLRegression (Gauss-Newton) and OPPRegression, and for single shapes. The printed errors are right for the non-parametric algorithms and for shape models without global transform; with the default OrthoPDM they are taken at the scale of the model and not of the face, which is proved as a violation."
  },
  {
   "property": "C136",
   "status": "partial",
   "theorems": [
    "Menpofit.C136_errors",
    "Menpofit.C136_indexed_errors_partial",
    "Menpofit.C136_indexed_errors_violated",
    "Menpofit.C136_alignment",
    "Menpofit.C136_shape_model",
    "Menpofit.C136_shape_model_raises",
    "Menpofit.C136_alternating_violated",
    "Menpofit.C136_clm",
    "Menpofit.C136_warps",
    "Menpofit.C136_aam_partial",
    "Menpofit.C136_project_out",
    "Menpofit.C136_unified",
    "Menpofit.C136_supervised_descent",
    "Menpofit.C136_parametric_descent"
   ],
   "note": "Proved for errors without landmark indices, alignment, the shape model (given an orthonormalisation that does not look at the numbering), CLM, warps, project-out, simultaneous, modified alternating and Wiberg AAMs, unified models, and supervised descent with linear regression, on shapes and on parameters. False for inter-ocular errors, whose eye corners are fixed numbers (C136_indexed_errors_violated), and for the alternating AAM algorithms with priors when there are as many components as features, because of the confused transposes (C136_alternating_violated). That a Delaunay triangulation of renumbered points is the renumbered triangulation is assumed, not proved."
  },
  {
   "property": "C137",
   "status": "partial",
   "theorems": [
    "Menpofit.C137_outcome",
    "Menpofit.C137_left_whole",
    "Menpofit.C137_left_batches",
    "Menpofit.C137_usable",
    "Menpofit.C137_unreadable_whole_partial",
    "Menpofit.C137_iterator_raises",
    "Menpofit.C137_unreadable_batch_partial",
    "Menpofit.C137_resume",
    "Menpofit.C137_second_refused_violated",
    "Menpofit.C137_retry_violated",
    "Menpofit.C137_aps_refused",
    "Menpofit.C137_aps_refused_violated"
   ],
   "note": "The model stays usable, complete batches count exactly, later ones not at all, and an exact description of the batch that failed is proved: at scales before some scale j both models have been incremented with it, at j at most the shape model. Images that cannot be read or prepared leave no trace, and training in batches can be resumed. Violated: whenever the appearance model or ensemble refuses after the shape model has learned, the shape model keeps the new data (universal); a retry then counts images twice; an APS made without can_be_incremented refuses increments only after its first shape model has been changed."
  },
  {
   "property": "C138",
   "status": "partial",
   "theorems": [
    "Menpofit.C138_forward_compositional",
    "Menpofit.C138_inverse_compositional",
    "Menpofit.C138_forward_additive",
    "Menpofit.C138_ssd_violated",
    "Menpofit.C138_clm",
    "Menpofit.C138_brightness_partial",
    "Menpofit.C138_brightness_project_out",
    "Menpofit.C138_contrast_partial",
    "Menpofit.C138_map_violated",
    "Menpofit.C138_inverse_contrast_violated",
    "Menpofit.C138_fitter"
   ],
   "note": "Proved for the residuals that normalise (fc, ic, fa runs), for CLM with normalised patches, for brightness in every AAM algorithm without an appearance prior, for contrast in forward project-out, and for the fitter. Partial because the claim fails, with concrete pictures, for the SSD residual (C138_ssd_violated), for MAP inference of the simultaneous algorithm (C138_map_violated) and for inverse project-out under contrast (C138_inverse_contrast_violated)."
  },
  {
   "property": "C139",
   "status": "partial",
   "theorems": [
    "Menpofit.C139_shape_model",
    "Menpofit.C139_shape_model_operations",
    "Menpofit.C139_shape_model_history",
    "Menpofit.C139_weights_violated",
    "Menpofit.C139_clm",
    "Menpofit.C139_aam_partial",
    "Menpofit.C139_project_out",
    "Menpofit.C139_unified",
    "Menpofit.C139_jacobian",
    "Menpofit.C139_parametric_descent",
    "Menpofit.C139_supervised_descent",
    "Menpofit.C139_alternating_violated"
   ],
   "note": "Partial: user-chosen weights and alternating AAM algorithms with prior and square appearance basis depend on the signs (proved). SignBlind says of numpy's QR only that flipping its input columns flips some of its output columns."
  },
  {
   "property": "C140",
   "status": "partial",
   "theorems": [
    "Menpofit.C140_errors",
    "Menpofit.C140_alignment",
    "Menpofit.C140_shape_model",
    "Menpofit.C140_shape_model_operations",
    "Menpofit.C140_shape_model_history",
    "Menpofit.C140_clm_partial",
    "Menpofit.C140_mean_shift",
    "Menpofit.C140_warps",
    "Menpofit.C140_jacobian",
    "Menpofit.C140_aam_partial",
    "Menpofit.C140_project_out",
    "Menpofit.C140_unified",
    "Menpofit.C140_active_shape_violated",
    "Menpofit.C140_supervised_descent",
    "Menpofit.C140_parametric_descent"
   ],
   "note": "Partial because the active shape model takes the first of several equal peaks (C140_active_shape_violated); the alternating AAM algorithms with prior keep the exception of C139. Everything else is proved."
  },
  {
   "property": "C141",
   "status": "partial",
   "theorems": [
    "Menpofit.C141_aam_partial",
    "Menpofit.C141_project_out",
    "Menpofit.C141_template",
    "Menpofit.C141_unified",
    "Menpofit.C141_steepest_descent",
    "Menpofit.C141_principal_components",
    "Menpofit.C141_lucas_kanade",
    "Menpofit.C141_correlation_coefficient",
    "Menpofit.C141_gradient_correlation",
    "Menpofit.C141_reorderings",
    "Menpofit.C141_filters",
    "Menpofit.C141_ensemble",
    "Menpofit.C141_single_channel",
    "Menpofit.C141_single_channel_violated",
    "Menpofit.C141_patches",
    "Menpofit.C141_patches_violated",
    "Menpofit.C141_supervised_descent",
    "Menpofit.C141_parametric_descent",
    "Menpofit.C141_sd_features"
   ],
   "note": "Not for all orthogonal mixings: ECC needs mixings that keep the mean (rows summing to 1); gradient correlation, MOSSE filters and patches normalised channel by channel are blind to reorderings only (C141_single_channel_violated, C141_patches_violated give mixings that matter). The alternating AAM algorithm with prior is covered where the number of active appearance components differs from the number of sampled values (C141_aam_partial)."
  },
  {
   "property": "C142",
   "status": "partial",
   "theorems": [
    "Menpofit.C142_errors",
    "Menpofit.C142_alignment",
    "Menpofit.C142_shape_model",
    "Menpofit.C142_shape_model_operations",
    "Menpofit.C142_shape_model_history",
    "Menpofit.C142_clm_partial",
    "Menpofit.C142_mean_shift_partial",
    "Menpofit.C142_warps",
    "Menpofit.C142_jacobian_partial",
    "Menpofit.C142_aam_partial",
    "Menpofit.C142_project_out",
    "Menpofit.C142_unified_partial",
    "Menpofit.C142_window_violated",
    "Menpofit.C142_active_shape_violated",
    "Menpofit.C142_rotation_violated",
    "Menpofit.C142_supervised_descent",
    "Menpofit.C142_parametric_descent"
   ],
   "note": "Partial: CLMs and unified models need an odd window width (C142_window_violated) and no rotation in the shape model at construction (C142_rotation_violated); the active shape model needs width 4k+1 (C142_active_shape_violated) and single peaks (C140_active_shape_violated); the alternating AAM algorithms with prior keep the exception of C139. Everything else is proved."
  },
  {
   "property": "C143",
   "status": "partial",
   "theorems": [
    "Menpofit.C143_aam_partial",
    "Menpofit.C143_aam_distinguished",
    "Menpofit.C143_atm_partial",
    "Menpofit.C143_atm_distinguished",
    "Menpofit.C143_clm_partial",
    "Menpofit.C143_clm_distinguished",
    "Menpofit.C143_unified_partial",
    "Menpofit.C143_unified_distinguished",
    "Menpofit.C143_aam_fitter",
    "Menpofit.C143_aam_fitter_partial",
    "Menpofit.C143_names_partial",
    "Menpofit.C143_names_violated",
    "Menpofit.C143_names",
    "Menpofit.C143_atm_fitter",
    "Menpofit.C143_clm_fitter",
    "Menpofit.C143_unified_fitter",
    "Menpofit.C143_fitters_partial",
    "Menpofit.C143_lucas_kanade",
    "Menpofit.C143_supervised_descent_partial",
    "Menpofit.C143_algorithms_violated",
    "Menpofit.C143_plain_shape_model_violated",
    "Menpofit.C143_aam_lines",
    "Menpofit.C143_atm_lines",
    "Menpofit.C143_clm_lines",
    "Menpofit.C143_unified_lines",
    "Menpofit.C143_lucas_kanade_lines",
    "Menpofit.C143_supervised_descent_lines",
    "Menpofit.C143_aam_fitter_lines",
    "Menpofit.C143_atm_fitter_lines",
    "Menpofit.C143_clm_fitter_lines",
    "Menpofit.C143_unified_fitter_lines"
   ],
   "note": "Violated three times: the simultaneous inverse compositional algorithm calls itself project-out, so its fitters print the same text as project-out fitters; a supervised descent fitter shows only the algorithm of its lowest scale; models with PDM shape models, which the constructors accept, raise AttributeError when printed. Everything else is proved. Printing of active pictorial structures, of Dlib fitters and of single shape models is not modelled."
  },
  {
   "property": "C144",
   "status": "partial",
   "theorems": [
    "Menpofit.C144_reference_shape",
    "Menpofit.C144_aligned",
    "Menpofit.C144_regression_partial",
    "Menpofit.C144_supervised_descent_partial",
    "Menpofit.C144_regularisation_violated",
    "Menpofit.C144_filters_partial",
    "Menpofit.C144_filters_violated"
   ],
   "note": "Violated with a fixed positive regularisation (C144_regularisation_violated, C144_filters_violated); holds without regularisation and when the regularisation is multiplied by the number of copies. The order of the features in the model of the cascade and the principal components computed by menpo are as in C133 and C09."
  },
  {
   "property": "C145",
   "status": "partial",
   "theorems": [
    "Menpofit.C145_fit",
    "Menpofit.C145_fit_from_bb",
    "Menpofit.C145_picture",
    "Menpofit.C145_loop",
    "Menpofit.C145_aam",
    "Menpofit.C145_project_out",
    "Menpofit.C145_unified",
    "Menpofit.C145_clm",
    "Menpofit.C145_supervised_descent",
    "Menpofit.C145_aps_violated",
    "Menpofit.C145_aps_partial"
   ],
   "note": "Proved for whole multi-scale fits of pictures of the plane with any features, scales and algorithms that do the same with and without ground truth and costs (C145_fit, C145_fit_from_bb, C145_picture), and shown of every algorithm: the loop of all optimisers (C145_loop), AAM, project-out and ATM, unified, CLM and supervised descent. Violated by an APS that samples only some pixels: asked for costs the run raises ValueError where it otherwise returns (C145_aps_violated); with all pixels it holds (C145_aps_partial). The warning that CLM and supervised descent print when asked for costs is not modelled."
  },
  {
   "property": "C146",
   "status": "proved",
   "theorems": [
    "Menpofit.C146_pdm",
    "Menpofit.C146_global_pdm",
    "Menpofit.C146_ortho_pdm",
    "Menpofit.C146_calls",
    "Menpofit.C146_exceptions",
    "Menpofit.C146_fitters",
    "Menpofit.C146_prior"
   ],
   "note": "For orthonormalised PDMs the orthonormalisation (menpo's, a QR) is assumed to go through the components in order and the mean shape not to be a single repeated point. trim_components and noise_variance are menpo's and modelled from their documentation."
  },
  {
   "property": "C147",
   "status": "partial",
   "theorems": [
    "Menpofit.C147_picture",
    "Menpofit.C147_filter",
    "Menpofit.C147_sum",
    "Menpofit.C147_response",
    "Menpofit.C147_images_partial",
    "Menpofit.C147_image_filter_violated"
   ],
   "note": "Exact arithmetic. Violated for an array with an image as filter: line 89 passes the image itself on instead of its pixels (C147_image_filter_violated)."
  },
  {
   "property": "C148",
   "status": "proved",
   "theorems": [
    "Menpofit.C148_fit",
    "Menpofit.C148_result",
    "Menpofit.C148_training",
    "Menpofit.C148_increment",
    "Menpofit.C148_aps_training",
    "Menpofit.C148_aps_increment",
    "Menpofit.C148_atm_training",
    "Menpofit.C148_atm_increment",
    "Menpofit.C148_ert_training",
    "Menpofit.C148_sdm_training",
    "Menpofit.C148_sdm_same"
   ],
   "note": "For numbers of iterations given per scale; a single number is divided by the number of scales (C04). C148_result is about fits that both return: a result without any iteration at the coarse scales cannot be made (C20)."
  },
  {
   "property": "C149",
   "status": "partial",
   "theorems": [
    "Menpofit.C149_inverse",
    "Menpofit.C149_forward",
    "Menpofit.C149_wiberg_partial",
    "Menpofit.C149_wiberg_inverse_violated"
   ],
   "note": "Proved for both project-out algorithms and forward compositional Wiberg; a witness shows that inverse compositional Wiberg is not invariant."
  },
  {
   "property": "C150",
   "status": "proved",
   "theorems": [
    "Menpofit.C150_project_out",
    "Menpofit.C150_alternating_wiberg",
    "Menpofit.C150_simultaneous",
    "Menpofit.C150_unified"
   ],
   "note": "Priors on the appearance parameters (MAP of the simultaneous and alternating algorithms) are tied to the components and not claimed; C139 covers signs there."
  },
  {
   "property": "C151",
   "status": "partial",
   "theorems": [
    "Menpofit.C151_project_out",
    "Menpofit.C151_appearance",
    "Menpofit.C151_clm",
    "Menpofit.C151_unified",
    "Menpofit.C151_lk_partial",
    "Menpofit.C151_lk_additive_partial",
    "Menpofit.C151_lk_inverse_partial",
    "Menpofit.C151_lk_violated"
   ],
   "note": "Proved for AAM, ATM, CLM and unified algorithms without priors (with priors the parameters carry their variances; C139 covers signs there). For Lucas-Kanade proved for orthogonal changes of the parameters (SSD with any kernel, all three algorithms); a witness shows that the unit of the parameters changes when a fit stops."
  }
 ]
}