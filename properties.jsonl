{"id": "C01", "title": "Scale specifications normalise to a non-empty flat list of numbers", "statement": "Whatever a caller passes as `scales`, the normalised value is either a non-empty flat list containing only numbers or an exception; a bare number s becomes [s]; a non-empty flat list/tuple of numbers comes back as the same numbers in the same order.", "quantifier": "every Python value built from numbers, None, strings, arrays, callables and arbitrarily nested lists and tuples", "why_tests_cant": "Nesting depth and length are unbounded; the function is recursive and only a few literals can be tried.", "anchors": ["menpofit/checks.py:check_scales"]}
{"id": "C02", "title": "Per-scale options are broadcast to exactly one value per scale", "statement": "For holistic features, graphs, maximum components, algorithm classes and generic multi-scale options: on success the normalised option has exactly n_scales entries, entry i being the i-th supplied value (or the single supplied value when one value / a one-element list is given); a list whose length is neither 1 nor n_scales, or with a wrongly typed entry, raises ValueError.", "quantifier": "every n_scales and every single value, list or tuple of any length and entry types", "why_tests_cant": "Holds for all numbers of scales and all list lengths; tests use 1 or 2 scales.", "anchors": ["menpofit/checks.py:check_callable", "menpofit/checks.py:check_multi_scale_param", "menpofit/checks.py:check_max_components", "menpofit/checks.py:check_graph", "menpofit/checks.py:check_algorithm_cls"]}
{"id": "C03", "title": "Patch shapes are normalised to one patch shape per scale", "statement": "On success the normalised patch_shape has exactly n_scales entries; a single (h, w) is repeated for every scale; a one-element list holding an (h, w) is repeated for every scale; a list of n_scales (h, w) entries is returned entry by entry.", "quantifier": "every n_scales >= 1 and every accepted patch_shape value", "why_tests_cant": "The recursion treats the head and tail of a list of unbounded length differently; the defect only shows for one-element lists with several scales.", "anchors": ["menpofit/checks.py:check_patch_shape"]}
{"id": "C04", "title": "The iteration budget is split over scales without exceeding or losing it", "statement": "Given an integer max_iters and n_scales, every scale receives the same non-negative budget and the budgets add up to max_iters (never to more); a per-scale list is used as given; a list of any other length than 1 or n_scales raises ValueError.", "quantifier": "every natural max_iters, every n_scales >= 1, every integer list", "why_tests_cant": "Rounding behaviour depends on the residue of max_iters modulo n_scales; tests sample a few pairs.", "anchors": ["menpofit/checks.py:check_max_iters", "menpofit/fitter.py:MultiScaleNonParametricFitter._fit"]}
{"id": "C05", "title": "Every documented sampling specification is accepted", "statement": "None, an integer step, an index array, or a list of those with 1 or n_scales entries is accepted and expanded to n_scales entries; any other list length raises ValueError.", "quantifier": "every n_scales and every documented sampling value", "why_tests_cant": "The accepted set is a language over nested values with an interaction between element type and list length.", "anchors": ["menpofit/checks.py:check_sampling"]}
{"id": "C06", "title": "Setting active components updates every scale model", "statement": "Passing a number (or a one-element list) sets that many active components on the model of every scale, a list of n_scales values sets the i-th on the i-th model, None leaves all models unchanged, anything else raises ValueError and leaves all models unchanged; diagonals below 20 are rejected and all others are returned unchanged.", "quantifier": "every list of models, every value and list", "why_tests_cant": "Number of scales is unbounded and untouched-on-error is a property of all inputs.", "anchors": ["menpofit/checks.py:set_models_components", "menpofit/checks.py:check_diagonal"]}
{"id": "C07", "title": "Batching partitions the training stream", "statement": "Splitting a stream into batches of size n >= 1 yields non-empty batches whose concatenation is the original stream in order, every batch but the last having exactly n elements and the last at most n; the batches depend only on the elements seen so far, so it also works on an unbounded stream.", "quantifier": "every finite stream, every stream prefix, every batch size", "why_tests_cant": "Stream lengths are unbounded, boundary cases occur for every residue.", "anchors": ["menpofit/base.py:batch"]}
{"id": "C08", "title": "Sampling grids are integer lattices of the requested shape containing the centre", "statement": "build_grid((h, w)) contains every offset (y, x) with -floor(h/2) <= y < ceil(h/2) and -floor(w/2) <= x < ceil(w/2) exactly once, in row-major order, has shape h x w and contains (0, 0) whenever h and w are positive.", "quantifier": "every pair of natural numbers", "why_tests_cant": "Parity-dependent boundary arithmetic for all sizes.", "anchors": ["menpofit/base.py:build_grid"]}
{"id": "C09", "title": "Component limits outside the documented range are rejected", "statement": "A maximum number of components that is an integer below 1 or a float outside [0, 1] (for any scale) raises ValueError; every other documented value is accepted.", "quantifier": "every number of scales and every value or list of values", "why_tests_cant": "Universally quantified over integers and floats in every position of a list of any length.", "anchors": ["menpofit/checks.py:check_max_components"]}
{"id": "C10", "title": "Fitting leaves the landmarks of the input image unchanged", "statement": "After fit_from_shape / fit_from_bb the input image carries exactly the landmark groups it had before the call, whether the call returns or raises.", "quantifier": "every image landmark manager, every initial and ground-truth shape, and every point of the preparation at which a feature, rescale or alignment raises", "why_tests_cant": "Quantifies over all exit points, including exceptions from user-supplied feature functions.", "anchors": ["menpofit/fitter.py:MultiScaleNonParametricFitter._prepare_image", "menpofit/fitter.py:MultiScaleNonParametricFitter.fit_from_shape"]}
{"id": "C11", "title": "Moving from one pyramid scale to the next keeps the shape where it was in the image", "statement": "The starting shape of scale i+1 and the final shape of scale i are the same shape when both are mapped back to the original image with the transforms reported in the result.", "quantifier": "every list of features and scales, every per-scale transform, every final shape", "why_tests_cant": "Transforms do not commute in general; the claim is about all transforms and shapes.", "anchors": ["menpofit/fitter.py:MultiScaleNonParametricFitter._fit", "menpofit/result.py:_rescale_shapes_to_reference"]}
{"id": "C12", "title": "The transform reported for a scale undoes the feature extraction of that scale", "statement": "For every scale, mapping the initial shape found on the image prepared for that scale through the reported scale and affine transforms gives back the initial shape supplied by the user.", "quantifier": "every list of holistic features (with any repetition pattern) and scales", "why_tests_cant": "Depends on the repetition pattern of the feature list, of unbounded length; fails only for patterns such as [f, g, g].", "anchors": ["menpofit/fitter.py:MultiScaleNonParametricFitter._prepare_image"]}
{"id": "C13", "title": "A multi-scale fit runs every scale exactly once, from low to high", "statement": "Fitting produces exactly n_scales per-scale results, the i-th produced by running the i-th algorithm on the i-th image with the i-th ground truth and the i-th iteration budget; the first starts at the prepared initial shape, later ones at the previous final shape carried into their own frame; without ground truth no algorithm sees one.", "quantifier": "every number of scales and every family of algorithms", "why_tests_cant": "Induction over an unbounded number of scales with arbitrary black-box algorithms.", "anchors": ["menpofit/fitter.py:MultiScaleNonParametricFitter._fit"]}
{"id": "C14", "title": "Iterative optimisers respect max_iters and stop only for a reason", "statement": "Every Lucas-Kanade style optimiser (AAM, ATM, LK, APS, CLM, unified) performs at most max_iters updates; it stops earlier only after an update that moved less than eps; conversely no update is made after one that moved at most eps; the reported shapes and parameters are the whole trajectory: one entry for the start and one per update, each obtained from the previous one by one update.", "quantifier": "every update function, starting point, eps and max_iters", "why_tests_cant": "Loop termination for arbitrary update functions and budgets.", "anchors": ["menpofit/aam/algorithm/lk.py:ProjectOut.run", "menpofit/atm/algorithm.py:Compositional.run", "menpofit/lk/algorithm.py:ForwardAdditive.run", "menpofit/aps/algorithm/gn.py:Inverse.run", "menpofit/clm/algorithm/gd.py:ActiveShapeModel.run", "menpofit/unified_aam_clm/algorithm.py:AlternatingRegularisedLandmarkMeanShift.run"]}
{"id": "C15", "title": "One cost per reported shape", "statement": "When costs are requested, the list of costs has exactly one entry per reported iteration shape (including the reconstructed start), the i-th being the cost at the i-th shape; when they are not requested, costs are None.", "quantifier": "every optimiser, trajectory length and image", "why_tests_cant": "List alignment for every trajectory length.", "anchors": ["menpofit/aam/algorithm/lk.py:ProjectOut.run", "menpofit/atm/algorithm.py:Compositional.run", "menpofit/lk/algorithm.py:ForwardAdditive.run", "menpofit/result.py:ParametricIterativeResult.costs"]}
{"id": "C16", "title": "Fitting is repeatable: a fit does not depend on earlier fits", "statement": "Running the same fitter on the same image from the same initial shape gives the same result no matter which fits were run before with it.", "quantifier": "every history of earlier fits and every input", "why_tests_cant": "Quantifies over histories; the hidden state is a cached Hessian changed in place.", "anchors": ["menpofit/aam/algorithm/lk.py:ProjectOutInverseCompositional", "menpofit/aam/algorithm/lk.py:LucasKanadeStandardInterface.solve_shape_map", "menpofit/atm/algorithm.py:InverseCompositional"]}
{"id": "C17", "title": "The regularised (MAP) step minimises the regularised cost", "statement": "For forward additive/compositional algorithms with a prior, the computed increment is the unique minimiser of the linearised residual energy plus the prior energy of the updated parameters.", "quantifier": "every Jacobian, error, parameter vector and positive prior", "why_tests_cant": "A statement about all real matrices and all competing increments.", "anchors": ["menpofit/aam/algorithm/lk.py:solve_shape_map", "menpofit/aps/algorithm/gn.py:Forward.run", "menpofit/clm/algorithm/gd.py:RegularisedLandmarkMeanShift.run"]}
{"id": "C18", "title": "A prior never pushes the parameters away from the mean", "statement": "When the image already matches the model (zero residual), one update with a prior never increases the prior energy of the parameters (their weighted squared distance from the mean).", "quantifier": "every parameter vector, Jacobian, positive prior and history of earlier runs, for forward and inverse algorithms", "why_tests_cant": "Sign conventions for all parameters; only visible for particular priors.", "anchors": ["menpofit/aam/algorithm/lk.py:ProjectOutInverseCompositional.solve", "menpofit/atm/algorithm.py:InverseCompositional.solve", "menpofit/aps/algorithm/gn.py:Inverse.run", "menpofit/clm/algorithm/gd.py"]}
{"id": "C19", "title": "The MAP solver works for any number of parameters", "statement": "Solving with a prior of matching size succeeds for every number of shape/appearance parameters.", "quantifier": "every number of parameters, small or large", "why_tests_cant": "Behaviour changes at an implementation threshold (integer object identity) that small test models never reach.", "anchors": ["menpofit/aam/algorithm/lk.py:_solve_all_map", "menpofit/aam/algorithm/lk.py:LucasKanadeBaseInterface.solve_shape_map"]}
{"id": "C20", "title": "The final shape of a result is the last shape of its trajectory", "statement": "For every iterative result, final_shape equals the last entry of shapes; when an initial shape was given shapes starts with it; result.to_result() keeps final, initial and ground-truth shapes.", "quantifier": "every trajectory and initial shape", "why_tests_cant": "Holds for trajectories of any length.", "anchors": ["menpofit/result.py:NonParametricIterativeResult", "menpofit/result.py:ParametricIterativeResult", "menpofit/result.py:MultiScaleNonParametricIterativeResult"]}
{"id": "C21", "title": "n_iters equals the number of updates actually performed", "statement": "For single-scale and multi-scale results, n_iters is the number of updates performed by the optimisers (for multi-scale results the sum over the scales).", "quantifier": "every trajectory of every scale and every number of scales", "why_tests_cant": "Off-by-n_scales accounting over an unbounded number of scales and iterations.", "anchors": ["menpofit/result.py:ParametricIterativeResult", "menpofit/result.py:MultiScaleParametricIterativeResult", "menpofit/lk/result.py:LucasKanadeResult", "menpofit/sdm/algorithm/base.py:fit_parametric_shape"]}
{"id": "C22", "title": "Reconstruction indices point at the model reconstructions", "statement": "In a multi-scale parametric result, shapes[reconstruction_indices[j]] is the model reconstruction (first shape) of scale j, mapped to the image; there is one index per scale, strictly increasing.", "quantifier": "every number of scales and trajectory lengths, with or without an initial shape", "why_tests_cant": "Prefix sums over an unbounded number of scales.", "anchors": ["menpofit/result.py:MultiScaleParametricIterativeResult._reconstruction_indices"]}
{"id": "C23", "title": "A multi-scale result is the concatenation of its scales in image coordinates", "statement": "shapes of a multi-scale result is, after the optional initial shape, the concatenation over scales of the per-scale trajectories each mapped by its own scale then affine transform; final_shape is the mapped final shape of the last scale; a number of results other than the number of scales raises ValueError, and too few transforms raise an exception instead of dropping a scale.", "quantifier": "every number of scales, trajectory and transform", "why_tests_cant": "Unbounded lengths; all mismatching length combinations.", "anchors": ["menpofit/result.py:MultiScaleNonParametricIterativeResult.__init__", "menpofit/result.py:_rescale_shapes_to_reference"]}
{"id": "C24", "title": "Iteration labels number the iterations consecutively from 1", "statement": "When iterations of a result are visualised, the j-th update is labelled \"iteration j\" counting from 1, and distinct shapes get distinct labels so that none is overwritten.", "quantifier": "every result kind, trajectory length and requested subset of iterations", "why_tests_cant": "Index arithmetic differs with the presence of an initial shape and number of scales.", "anchors": ["menpofit/result.py:NonParametricIterativeResult.view_iterations", "menpofit/result.py:ParametricIterativeResult.view_iterations", "menpofit/result.py:MultiScaleParametricIterativeResult.view_iterations"]}
{"id": "C25", "title": "Errors and displacements line up with the shapes", "statement": "errors() has one entry per shape with the last equal to final_error() and, if an initial shape was given, the first equal to initial_error(); displacements() has one entry fewer than shapes, entry i being the per-point distances between shapes i and i+1; without a ground truth the error functions raise ValueError; unknown displacement statistics raise ValueError.", "quantifier": "every result, error function and statistic name", "why_tests_cant": "All trajectory lengths.", "anchors": ["menpofit/result.py:Result", "menpofit/result.py:NonParametricIterativeResult.errors", "menpofit/result.py:NonParametricIterativeResult.displacements"]}
{"id": "C26", "title": "Point-to-point error is a metric", "statement": "euclidean_error is non-negative, zero exactly for equal shapes, symmetric, satisfies the triangle inequality, is unchanged by translating both shapes or reordering the points of both, and scales with |s| when both are scaled by s.", "quantifier": "all real shapes with any number of points and dimensions", "why_tests_cant": "Universally quantified over real coordinates.", "anchors": ["menpofit/error/base.py:euclidean_error"]}
{"id": "C27", "title": "Root mean square error is a metric bounded by the largest coordinate difference", "statement": "root_mean_square_error is non-negative, zero exactly for equal shapes, symmetric, satisfies the triangle inequality, scales with |s|, and never exceeds the largest absolute coordinate difference.", "quantifier": "all real shapes", "why_tests_cant": "Universally quantified over real coordinates.", "anchors": ["menpofit/error/base.py:root_mean_square_error"]}
{"id": "C28", "title": "Bounding-box normalised errors do not depend on the unit of length", "statement": "With any of the four bounding-box normalisers other than area, and with the inter-landmark distance normaliser, scaling both shapes by s > 0 and translating both leaves the normalised error unchanged; swapping normaliser names never silently falls back: an unknown name raises ValueError.", "quantifier": "all shapes, scale factors, translations and normaliser names", "why_tests_cant": "Universally quantified over real coordinates and strings.", "anchors": ["menpofit/error/base.py:bb_normalised_error", "menpofit/error/base.py:distance_normalised_error", "menpofit/error/base.py:bb_area", "menpofit/error/base.py:bb_perimeter", "menpofit/error/base.py:bb_avg_edge_length", "menpofit/error/base.py:bb_diagonal"]}
{"id": "C29", "title": "Bounding-box measures bound one another", "statement": "For every shape all points lie in its bounding box, its measures are non-negative, average edge length <= diagonal <= half perimeter, and area <= average edge length squared.", "quantifier": "all shapes with at least one point", "why_tests_cant": "Universally quantified over real coordinates.", "anchors": ["menpofit/error/base.py:bb_area", "menpofit/error/base.py:bb_perimeter", "menpofit/error/base.py:bb_avg_edge_length", "menpofit/error/base.py:bb_diagonal"]}
{"id": "C30", "title": "The cumulative error distribution is a cumulative distribution", "statement": "Each CED value is the fraction of errors at most the bin, hence in [0, 1]; it is non-decreasing along increasing bins, is independent of the order of the errors, has one value per bin and reaches 1 at any bin not below the largest error.", "quantifier": "every non-empty list of errors and every list of bins", "why_tests_cant": "Unbounded lists.", "anchors": ["menpofit/error/stats.py:compute_cumulative_error"]}
{"id": "C31", "title": "The failure rate is the fraction of images whose error exceeds max_error", "statement": "For a non-empty error list and positive step, the reported failure rate equals the fraction of errors greater than max_error.", "quantifier": "every list of errors, min, max and step", "why_tests_cant": "Depends on whether the step divides the range.", "anchors": ["menpofit/error/stats.py:area_under_curve_and_failure_rate"]}
{"id": "C32", "title": "The area under the CED lies in [0, 1]", "statement": "For errors, 0 <= min_error < max_error and a positive step, the reported AUC is in [0, 1] and does not decrease when an error decreases.", "quantifier": "every list of errors, min, max and step", "why_tests_cant": "Depends on the parity of the number of bins and on divisibility.", "anchors": ["menpofit/error/stats.py:area_under_curve_and_failure_rate"]}
{"id": "C33", "title": "The median absolute deviation is translation invariant and scales", "statement": "mad is non-negative, unchanged by adding a constant to all errors, multiplied by |s| when all errors are multiplied by s, independent of their order, and at most the range of the errors.", "quantifier": "every non-empty list of errors", "why_tests_cant": "All lists of any length.", "anchors": ["menpofit/error/stats.py:mad"]}
{"id": "C34", "title": "Face mark-up conversions commute and keep landmark identity", "statement": "Converting 68 points to 49 directly equals converting 68 to 51 to 49; every conversion is a fixed order-preserving selection of landmarks without repetition; the outer-eye corners keep denoting the same landmarks through all mark-ups so that the distance used for normalisation is the same; any wrong point count raises ValueError.", "quantifier": "every landmark array of any length and content", "why_tests_cant": "All contents; index bookkeeping over successive deletions.", "anchors": ["menpofit/error/human/face.py"]}
{"id": "C35", "title": "Training a regularised linear regressor gives the best linear map", "statement": "After train(X, Y) the prediction map minimises the squared prediction error plus alpha times the squared norm of the coefficients (with the bias treated as one more feature) among all linear maps, and is its only minimiser when the normal matrix is invertible; predicting a stack of rows equals predicting each row.", "quantifier": "every training set, alpha >= 0 and competing linear map", "why_tests_cant": "Optimality against all competitors.", "anchors": ["menpofit/math/regression.py:IRLRegression.train", "menpofit/math/regression.py:IRLRegression.predict"]}
{"id": "C36", "title": "Incremental regression equals batch regression", "statement": "Training on one data set and then incrementing with others gives the same regressor as training once on all the data with the same regularisation, for every sequence of increments; a regressor not created as incrementable refuses increments with ValueError and is left unchanged.", "quantifier": "every data set, every sequence of increments, every alpha", "why_tests_cant": "Quantifies over histories of increments and all matrices.", "anchors": ["menpofit/math/regression.py:IRLRegression.increment"]}
{"id": "C37", "title": "Every regressor offered for supervised descent can be incremented or says so", "statement": "increment either updates the regressor to what batch training would produce or raises; it never leaves a half-updated regressor.", "quantifier": "every regressor class, option and history", "why_tests_cant": "All histories of operations.", "anchors": ["menpofit/math/regression.py:IIRLRegression.increment", "menpofit/math/regression.py:PCRRegression.increment", "menpofit/math/regression.py:OPPRegression.increment"]}
{"id": "C38", "title": "Correlation filters minimise the regularised response error", "statement": "At every frequency the MOSSE filter is the unique minimiser of the summed squared response error plus the regulariser; the filter depends on the training images only as a multiset.", "quantifier": "every set of training spectra, desired response and l > 0", "why_tests_cant": "All complex spectra and all competing filters.", "anchors": ["menpofit/math/correlationfilter.py:mosse", "menpofit/math/correlationfilter.py:mccf"]}
{"id": "C39", "title": "Incrementally trained correlation filters equal batch trained ones", "statement": "Training on one set of images and incrementing with others (forgetting factor 1) gives the same filter as training on all of them.", "quantifier": "every sequence of increments", "why_tests_cant": "Quantifies over histories of increments.", "anchors": ["menpofit/math/correlationfilter.py:imosse", "menpofit/math/correlationfilter.py:imccf", "menpofit/clm/expert/ensemble.py:CorrelationFilterExpertEnsemble._train"]}
{"id": "C40", "title": "Cropping undoes padding", "statement": "Padding an image to any larger extent and cropping back to its size returns the image; padded images have exactly the requested extent, and cropped images exactly the requested size.", "quantifier": "every image and every pair of extents", "why_tests_cant": "Parity-dependent margins; margins of zero are special in Python slicing.", "anchors": ["menpofit/math/fft_utils.py:pad", "menpofit/math/fft_utils.py:crop"]}
{"id": "C41", "title": "Similarity model instances are exactly the similarity transforms of the shape", "statement": "The instances of similarity_2d_instance_model(shape) are exactly the images of the shape under maps x -> s R x + t (with s R including scale and in-plane rotation and any t); weights 0 give the shape itself.", "quantifier": "every 2D shape and weights", "why_tests_cant": "Exhaustiveness over all similarity transforms.", "anchors": ["menpofit/modelinstance.py:similarity_2d_instance_model"]}
{"id": "C42", "title": "A model instance always shows the shape its weights generate", "statement": "After any sequence of set_target, from_vector and (for PDMs) active-component changes or increments, target equals what the model generates from the current weights (composed with the current global transform, if any), and as_vector followed by from_vector changes nothing.", "quantifier": "every history of operations on an instance", "why_tests_cant": "Invariant over all histories.", "anchors": ["menpofit/modelinstance.py:ModelInstance", "menpofit/modelinstance.py:PDM", "menpofit/modelinstance.py:GlobalPDM", "menpofit/modelinstance.py:OrthoPDM"]}
{"id": "C43", "title": "Setting a target picks the closest shape the model can generate", "statement": "After set_target(t) on a PDM with orthonormal components, target is the closest model instance to t; setting the resulting target again changes nothing; a target with the wrong dimensionality or number of points raises ValueError and leaves the state unchanged.", "quantifier": "every target and model", "why_tests_cant": "Optimality against all instances.", "anchors": ["menpofit/modelinstance.py:ModelInstance._sync_state_from_target", "menpofit/modelinstance.py:PDM"]}
{"id": "C44", "title": "An orthogonal PDM reproduces every shape it can generate", "statement": "For an OrthoPDM, from_vector(v) followed by set_target(target) returns the parameters v, and set_target is idempotent.", "quantifier": "every parameter vector with non-degenerate similarity part", "why_tests_cant": "All real parameter vectors.", "anchors": ["menpofit/modelinstance.py:OrthoPDM"]}
{"id": "C45", "title": "Homogeneous transform Jacobians are the exact derivatives", "statement": "For affine transforms of any dimension and 2D similarities, d_dp is the derivative of the transformed points with respect to the parameters in the documented order and d_dx the derivative with respect to the points; sampling d_dp in the wrong dimension raises ValueError.", "quantifier": "every transform, point set and dimension", "why_tests_cant": "A statement about limits at all real points.", "anchors": ["menpofit/transform/homogeneous.py:affine_d_dp", "menpofit/transform/homogeneous.py:affine_d_dx", "menpofit/transform/homogeneous.py:similarity_d_dp"]}
{"id": "C46", "title": "The Jacobian of a globally aligned PDM is the derivative of its target", "statement": "GlobalPDM.d_dp is the derivative of the generated target with respect to all parameters, at every state.", "quantifier": "every state of the model", "why_tests_cant": "Fails only when the global transform is not diagonal; a statement about all transforms.", "anchors": ["menpofit/modelinstance.py:GlobalPDM.d_dp"]}
{"id": "C47", "title": "Radial basis derivatives are the exact derivatives", "statement": "d_dl of the R2LogR and R2LogR2 bases is the derivative of the basis value with respect to the sampled point at every point, including the centres.", "quantifier": "every centre and every sample point, including coincident ones", "why_tests_cant": "Limit at the singular point.", "anchors": ["menpofit/transform/rbf.py:DifferentiableR2LogRRBF.d_dl", "menpofit/transform/rbf.py:DifferentiableR2LogR2RBF.d_dl"]}
{"id": "C48", "title": "The landmark Jacobian of a piecewise affine warp is exact and a partition of unity", "statement": "For every sample point inside a triangle, d_dl has exactly the barycentric weights of the containing triangle at its vertices and zero elsewhere; the weights sum to one, are the derivative of the warped point with respect to each target vertex, and moving all target landmarks by t moves every warped point by t.", "quantifier": "every triangulation, source/target shape and sample point in a triangle", "why_tests_cant": "All real triangles and points.", "anchors": ["menpofit/transform/piecewiseaffine.py:DifferentiablePiecewiseAffine.d_dl"]}
{"id": "C49", "title": "The spatial Jacobian of warps is the exact derivative", "statement": "d_dx of piecewise affine and thin plate spline warps is the derivative of the warp at the sampled point.", "quantifier": "every warp and point", "why_tests_cant": "Limits at all real points.", "anchors": ["menpofit/transform/piecewiseaffine.py:DifferentiablePiecewiseAffine.d_dx", "menpofit/transform/thinsplatesplines.py:DifferentiableThinPlateSplines.d_dx"]}
{"id": "C50", "title": "The reference shape has the requested diagonal", "statement": "compute_reference_shape(shapes, diagonal) is the mean shape when no diagonal is given and otherwise a uniform rescaling of it whose bounding-box diagonal is exactly the requested one (for a mean shape of non-zero extent); it does not depend on the order of the shapes.", "quantifier": "every non-empty list of shapes and diagonal", "why_tests_cant": "All real shapes.", "anchors": ["menpofit/builder.py:compute_reference_shape"]}
{"id": "C51", "title": "Perturbation generation adds exactly the promised bounding boxes", "statement": "Each image receives consecutively numbered generated boxes: n_perturbations per box (plus the provided box itself when a glob is used), every generated box lies inside the image, other landmark groups are unchanged, and no matching box raises ValueError before any image is modified.", "quantifier": "every list of images, number of boxes and perturbations", "why_tests_cant": "Counting over all sizes; untouched-on-error.", "anchors": ["menpofit/fitter.py:generate_perturbations_from_gt"]}
{"id": "C52", "title": "Supervised descent keeps regression targets and estimates consistent", "statement": "During training, at every cascade stage, the regression target of each perturbed shape is exactly the ground truth minus the current estimate, the ground truth never changes, and the estimates equal the initial estimates plus the sum of the predicted steps; there is one feature row and one target row per perturbed shape in the same image-major order.", "quantifier": "every number of images, perturbations and cascade stages and every regressor", "why_tests_cant": "Invariant over an unbounded number of stages.", "anchors": ["menpofit/sdm/algorithm/base.py:compute_non_parametric_delta_x", "menpofit/sdm/algorithm/base.py:update_non_parametric_estimates", "menpofit/sdm/algorithm/base.py:features_per_image"]}
{"id": "C53", "title": "All perturbed shapes are carried to the next training scale", "statement": "When training a multi-scale cascaded regressor, every perturbed shape generated for an image at the lowest scale is also used for training at all higher scales.", "quantifier": "every number of boxes, perturbations and scales", "why_tests_cant": "Only fails with several provided boxes per image.", "anchors": ["menpofit/sdm/fitter.py:SupervisedDescentFitter._train_batch", "menpofit/dlib/fitter.py:DlibERT._train_batch"]}
{"id": "C54", "title": "Mean-shift moves landmarks only inside the search window", "statement": "In regularised landmark mean-shift, every landmark target is a convex combination of the candidate positions, hence inside the search window, and equals the candidate when all response mass sits on it.", "quantifier": "every non-negative response map with positive mass", "why_tests_cant": "All real responses.", "anchors": ["menpofit/clm/algorithm/gd.py:RegularisedLandmarkMeanShift.run"]}
{"id": "C55", "title": "Response maps become probability maps", "statement": "probability_map returns non-negative values summing to one over each response map, including flat response maps.", "quantifier": "every stack of response maps", "why_tests_cant": "Degenerate flat maps are measure-zero for random tests.", "anchors": ["menpofit/clm/expert/base.py:probability_map"]}
{"id": "C56", "title": "A response peak at the centre of the search window does not move the landmark", "statement": "In the active shape model search, a response that peaks at the pixel whose grid offset is (0, 0) yields a candidate centred on the current landmark, for every search window size.", "quantifier": "every search window size", "why_tests_cant": "Depends on the window size modulo 4.", "anchors": ["menpofit/clm/algorithm/gd.py:ActiveShapeModel.run", "menpofit/base.py:build_grid"]}
{"id": "C57", "title": "The holistic/part-based weight of the unified fitter interpolates between AAM and CLM", "statement": "With weight a = 1 the update is the pure AAM update, with a = 0 the pure CLM update, and the reported cost weighs the two terms a and 1 - a.", "quantifier": "every weight, residual and Jacobian", "why_tests_cant": "All real matrices.", "anchors": ["menpofit/unified_aam_clm/algorithm.py:ProjectOutRegularisedLandmarkMeanShift", "menpofit/unified_aam_clm/algorithm.py:AlternatingRegularisedLandmarkMeanShift"]}
{"id": "C58", "title": "Appearance reconstructions use the model of the scale that produced the parameters", "statement": "appearance_reconstructions(params, n_iters_per_scale) returns one image per parameter vector, in order, each generated by the appearance model of the scale at which that parameter vector was produced.", "quantifier": "every number of scales and iterations per scale", "why_tests_cant": "Off-by-prefix error visible only with three or more scales.", "anchors": ["menpofit/aam/base.py:AAM.appearance_reconstructions", "menpofit/aam/base.py:PatchAAM.appearance_reconstructions"]}
{"id": "C59", "title": "Project-out removes exactly the appearance subspace", "statement": "Projecting out is linear and idempotent, annihilates every combination of appearance components, leaves vectors orthogonal to all components unchanged and returns the closest point of the orthogonal complement.", "quantifier": "every orthonormal appearance basis and vector", "why_tests_cant": "All real vectors.", "anchors": ["menpofit/aam/algorithm/lk.py:ProjectOut.project_out"]}
{"id": "C60", "title": "The Fourier residual without a kernel gives the same update as SSD", "statement": "For images of the same size the FourierSSD residual without a kernel yields the same increment as the SSD residual.", "quantifier": "every image, Jacobian and size", "why_tests_cant": "All sizes and complex spectra (Parseval).", "anchors": ["menpofit/lk/residual.py:FourierSSD", "menpofit/lk/residual.py:SSD"]}
{"id": "C61", "title": "A residual is zero only when the images agree", "statement": "In Lucas-Kanade fitting with gradient residuals, the update is driven by the difference between image and template: with forward compositional fitting the residual vanishes only if the gradients (or gradient orientations) of the warped image and of the template agree.", "quantifier": "every image and template pair", "why_tests_cant": "All image pairs.", "anchors": ["menpofit/lk/residual.py:GradientImages", "menpofit/lk/residual.py:GradientCorrelation", "menpofit/lk/algorithm.py:ForwardCompositional.run"]}
{"id": "C62", "title": "Bounding boxes survive the round trip through dlib rectangles", "statement": "A dlib rectangle converted to a bounding box and back is unchanged; a bounding box converted to dlib and back moves every edge by less than one pixel and is unchanged when integral; points converted to dlib parts and back move by less than one pixel.", "quantifier": "every rectangle, box and shape", "why_tests_cant": "All coordinates, including negative and fractional ones.", "anchors": ["menpofit/dlib/conversion.py"]}
{"id": "C63", "title": "A wrapped pre-trained fitter reports shapes in the coordinates of the user image", "statement": "PickleWrappedFitter maps the final, initial and every iteration shape exactly once back through the preprocessing transform, so that the result on the cropped image, expressed in the original image, is what is returned; options given at call time override the stored ones, the others keep their stored value, and the stored options never change.", "quantifier": "every wrapped fitter, preprocessing transform, options and sequence of calls", "why_tests_cant": "All transforms, dictionaries and call histories.", "anchors": ["menpofit/io.py:PickleWrappedFitter.fit_from_bb", "menpofit/io.py:PickleWrappedFitter.fit_from_shape"]}
{"id": "C64", "title": "Downloading copies every byte in order", "statement": "For every chunk size and every way the network splits the data, the bytes written are exactly the bytes served, in order; one progress tick is made per non-empty chunk.", "quantifier": "every byte string and every fragmentation", "why_tests_cant": "Unbounded data and all fragmentations.", "anchors": ["menpofit/io.py:copy_and_yield"]}
{"id": "C65", "title": "A damaged pre-trained model file never survives", "statement": "After any history of crashes during download and calls, load_fitter either returns the fitter or leaves no file behind, so a later call without a crash succeeds; a present intact file is never downloaded again.", "quantifier": "every history of calls and crash points inside a download", "why_tests_cant": "All crash points and histories.", "anchors": ["menpofit/io.py:load_fitter", "menpofit/io.py:download_file"]}
{"id": "C66", "title": "Sampling masks select the same pixels in every channel", "statement": "The sampling mask selects, for every channel, the same set of pixels: all for None, every n-th for an integer step, the listed ones for an index array; the selected feature indices are listed in increasing order without repetition.", "quantifier": "every image size, number of channels and sampling", "why_tests_cant": "All sizes and index arrays.", "anchors": ["menpofit/aam/algorithm/lk.py:LucasKanadeBaseInterface._build_sampling_mask"]}
{"id": "C67", "title": "Batched training yields one model per scale whatever the batch size", "statement": "Training or incrementing in any number of batches leaves exactly one shape and one appearance model per scale, built from the first batch and incremented by all later batches in order; every scale sees each training image exactly once.", "quantifier": "every batch size, number of images, scales and increments", "why_tests_cant": "All batchings and histories.", "anchors": ["menpofit/aam/base.py:AAM._train", "menpofit/aam/base.py:AAM._train_batch", "menpofit/atm/base.py:ATM._train_batch"]}
{"id": "C68", "title": "Multi-valued plotting options are expanded without touching the caller", "statement": "A per-curve option is expanded to one value per curve; a wrong length or type raises ValueError; the object passed by the caller is not modified.", "quantifier": "every option value and number of curves", "why_tests_cant": "Aliasing is invisible to value-based tests.", "anchors": ["menpofit/visualize/base.py:_check_multi_argument"]}
{"id": "C69", "title": "Noise-free perturbation is exact alignment", "statement": "With zero noise the noisy alignment is exactly the similarity alignment of the source to the target; unknown noise types raise ValueError; uniform noise of percentage p changes scale, rotation and translation by at most the stated fraction; the caller's noise list is not modified.", "quantifier": "every noise percentage, shape and random draw", "why_tests_cant": "All random draws.", "anchors": ["menpofit/fitter.py:noisy_alignment_similarity_transform"]}
{"id": "C70", "title": "Composing a model-driven transform with an increment solves the first-order condition", "statement": "compose_after_from_vector_inplace(delta) changes the parameters by the least-squares solution of dW/dp * change = dW/dx * dW/dp|0 * delta (so it adds delta when composed onto an identity similarity) and moves the warp to the new target.", "quantifier": "every model-driven transform, state and increment", "why_tests_cant": "All real states and increments; one class always raises.", "anchors": ["menpofit/transform/modeldriven.py:ModelDrivenTransform.compose_after_from_vector_inplace", "menpofit/transform/modeldriven.py:GlobalMDTransform.compose_after_from_vector_inplace"]}
{"id": "C71", "title": "Dataset statistics of several methods are computed independently", "statement": "compute_statistical_measures on a list of error lists returns, for each statistic, the list of the values it returns for each error list alone, in order.", "quantifier": "every number of methods and error lists", "why_tests_cant": "Unbounded lists.", "anchors": ["menpofit/error/stats.py:compute_statistical_measures"]}
{"id": "C72", "title": "Inverse regression predicts the best explanation", "statement": "After train(X, Y) of an inverse regressor the prediction for an input x is the unique output y that minimises the squared error of explaining x through the ridge-optimal linear map from outputs to inputs, plus alpha2 times the squared size of y.", "quantifier": "all data sets, all non-negative regularisers for which training succeeds, all inputs", "why_tests_cant": "optimality is a claim about all competing outputs and all data sets", "anchors": ["menpofit/math/regression.py:IIRLRegression.train", "menpofit/math/regression.py:IIRLRegression.predict"]}
{"id": "C73", "title": "Extent of Fourier-domain convolutions", "statement": "Convolving an image with a filter that fits in it returns the image's extent in mode 'same', image + filter // 2 - 1 in mode 'full' and image - filter // 2 + 1 in mode 'valid'; giving the filter in the Fourier domain instead of the image domain works in every mode.", "quantifier": "all images and all filters that fit, all modes", "why_tests_cant": "the extents follow from integer arithmetic over all image and filter sizes", "anchors": ["menpofit/math/fft_utils.py:fft_convolve2d", "menpofit/math/fft_utils.py:fft_convolve2d_sum"]}
{"id": "C75", "title": "Refused updates leave a shape model unchanged", "statement": "When set_target, n_active_components or an update from a parameter vector is refused with an exception, the weights and the target of the shape model are what they were before.", "quantifier": "every shape model state and every refused argument", "why_tests_cant": "A test exercises a few bad arguments; the claim is about every state and every refused argument, including partial updates made before the exception.", "anchors": ["menpofit/modelinstance.py: PDM.set_target, PDM.n_active_components, ModelInstance._from_vector_inplace"]}
{"id": "C74", "title": "The Jacobian of a model-driven warp depends only on the points and the current state", "statement": "d_dp of a model-driven transform at given points is the chain rule through the landmarks for the current parameters, whatever Jacobians were asked for and whatever targets or parameters were set before.", "quantifier": "every history of calls, every array of points, including arrays overwritten by the caller between calls", "why_tests_cant": "Quantifies over all histories of calls and writes.", "anchors": ["menpofit/transform/modeldriven.py:ModelDrivenTransform.d_dp"]}
{"id": "C76", "title": "The warp of a model-driven transform follows its shape model", "statement": "After any sequence of set_target, parameter updates and Jacobian queries, including calls that raise, the target of the warp is the current target of the shape model.", "quantifier": "every history of calls, all three kinds of shape model", "why_tests_cant": "All histories including failures.", "anchors": ["menpofit/transform/modeldriven.py:ModelDrivenTransform._sync_state_from_target", "menpofit/transform/modeldriven.py:ModelDrivenTransform._from_vector_inplace"]}
{"id": "C77", "title": "Without a prior every optimisation step is the least-squares step", "statement": "Without map_inference, each step of the project-out, simultaneous, alternating, modified alternating, Wiberg (AAM), ATM and CLM optimisers computes the unique minimiser of the linearised residual energy of that algorithm, and moves the parameters by it (by its negative for the inverse algorithms).", "quantifier": "every Jacobian, residual, appearance basis and state", "why_tests_cant": "A statement about all real matrices and all competing increments.", "anchors": ["menpofit/aam/algorithm/lk.py:solve_shape_ml", "menpofit/aam/algorithm/lk.py:_solve_all_ml", "menpofit/aam/algorithm/lk.py:Alternating.run", "menpofit/clm/algorithm/gd.py:ActiveShapeModel.run"]}
{"id": "C78", "title": "AAM costs are the residual energies of the reported iterates", "statement": "With return_costs, the k-th cost of an AAM run is the squared norm of the difference between the image warped with the k-th reported shape parameters and the appearance with the k-th reported appearance parameters; for the project-out and Wiberg algorithms it is the least such value over all appearance parameters.", "quantifier": "every image, start, number of iterations and appearance basis", "why_tests_cant": "Holds for every trajectory and every real image.", "anchors": ["menpofit/aam/algorithm/lk.py:ProjectOut.run", "menpofit/aam/algorithm/lk.py:Simultaneous.run", "menpofit/aam/algorithm/lk.py:Wiberg.run"]}
{"id": "C79", "title": "Simultaneous, Wiberg and project-out forward algorithms give the same fit", "statement": "Without priors, the simultaneous, Wiberg and project-out forward compositional AAM algorithms report the same sequence of shapes and shape parameters on every image from every start (or raise the same exception), provided the appearance components are linearly independent; Wiberg and project-out also agree with priors and report the same costs.", "quantifier": "every image, starting shape, iteration budget and appearance basis", "why_tests_cant": "Equality of two programs on all inputs.", "anchors": ["menpofit/aam/algorithm/lk.py:SimultaneousForwardCompositional", "menpofit/aam/algorithm/lk.py:WibergForwardCompositional", "menpofit/aam/algorithm/lk.py:ProjectOutForwardCompositional"]}
{"id": "C80", "title": "Every AAM optimiser can be run with priors", "statement": "With map_inference=True and positive priors, every AAM optimiser returns a result on every image and start for which the warp is defined.", "quantifier": "every optimiser, image, start and Jacobian", "why_tests_cant": "Absence of exceptions for all inputs.", "anchors": ["menpofit/aam/algorithm/lk.py:Alternating.run", "menpofit/aam/algorithm/lk.py:solve_shape_map"]}
{"id": "C82", "title": "Sampled steepest descent images are the sampled rows of the full ones", "statement": "For any sampling, each row of the Jacobian the optimiser uses is the gradient-times-warp-Jacobian row of the corresponding selected feature (channel and pixel) of the full image, in the order of the sampled feature vector, for both the holistic and the patch based interfaces.", "quantifier": "every image size, number of channels, sampling, gradient and warp Jacobian", "why_tests_cant": "Index arithmetic must be right for all sizes and samplings.", "anchors": ["menpofit/aam/algorithm/lk.py:LucasKanadeBaseInterface.steepest_descent_images", "menpofit/aam/algorithm/lk.py:LucasKanadePatchBaseInterface.steepest_descent_images"]}
{"id": "C83", "title": "Incrementing an ATM with a new template makes fitting use it", "statement": "After building an ATM the fitter has one interface per scale, using the given template at that scale; after increment with a new template the fitter uses the new template.", "quantifier": "every template, number of scales, batch size and history of increments", "why_tests_cant": "Depends on the history of constructions, batches and increments.", "anchors": ["menpofit/atm/base.py:ATM._train_batch", "menpofit/atm/base.py:ATM.increment", "menpofit/atm/base.py:ATM.build_fitter_interfaces"]}
{"id": "C84", "title": "Trained models never exceed the maximum number of components", "statement": "Whatever the batch size and the history of increments, the shape model (and appearance model) of a scale has at most the number of components set for that scale.", "quantifier": "every batch size, number of images, scales and increments", "why_tests_cant": "All batchings and histories.", "anchors": ["menpofit/aam/base.py:AAM._train_batch", "menpofit/clm/base.py:CLM._train_batch", "menpofit/aps/base.py:GenerativeAPS._train_batch"]}
{"id": "C81", "title": "Instances of an AAM vary every mode of both models", "statement": "instance(shape_weights, appearance_weights) renders the mean shape and mean appearance plus the given numbers of standard deviations of each mode (the means when no weights are given, ValueError when there are too many weights), and random_instance() of any AAM renders an instance whose shape and appearance weights are drawn for every active component.", "quantifier": "every AAM, scale, weight vector and random draw", "why_tests_cant": "Depends on the relative numbers of shape and appearance components of the trained models.", "anchors": ["menpofit/aam/base.py:AAM.instance", "menpofit/aam/base.py:AAM.random_instance"]}
{"id": "C85", "title": "Training helpers treat each image on its own", "statement": "scale_images, warp_images, extract_patches and densify_shapes return one result per input in input order, and result k depends only on input k: warping with one shared, re-targeted transform object gives the same images as a fresh transform per image; a scale within tolerance of one returns the images themselves with unit transforms.", "quantifier": "every list of images and shapes and every transform that forgets its previous target", "why_tests_cant": "Independence of history for every list and every transform.", "anchors": ["menpofit/builder.py:scale_images", "menpofit/builder.py:warp_images", "menpofit/builder.py:extract_patches", "menpofit/builder.py:densify_shapes"]}
{"id": "C86", "title": "Noise on the target is scaled by the standard deviation given per point", "statement": "noisy_target_alignment_transform aligns the source with the target disturbed, coordinate by coordinate, by normal draws times noise_std times the side of the target; zero noise is plain alignment, and a list gives one standard deviation per point.", "quantifier": "every source, target, standard deviation and draw", "why_tests_cant": "All draws and numbers of points.", "anchors": ["menpofit/fitter.py:noisy_target_alignment_transform"]}
{"id": "C87", "title": "A shape aligned with a bounding box has its centre and diagonal", "statement": "align_shape_with_bounding_box moves and uniformly scales the shape, without rotating it, so that its own bounding box has the same centre and the same diagonal as the given box; if the proportions agree, its bounding box is exactly the given one.", "quantifier": "every shape and every axis-aligned box", "why_tests_cant": "All real shapes and boxes.", "anchors": ["menpofit/fitter.py:align_shape_with_bounding_box"]}
{"id": "C88", "title": "A trained cascade reproduces its training", "statement": "With a regressor that predicts each sample independently, fitting a training image from one of its perturbed training shapes with the trained cascade visits exactly the shapes that sample visited during training.", "quantifier": "every set of images, shapes, features, regressor and number of cascade stages", "why_tests_cant": "Relates two separate loops over an unbounded number of stages, for every regressor and feature.", "anchors": ["menpofit/sdm/algorithm/base.py:BaseSupervisedDescentAlgorithm._train", "menpofit/sdm/algorithm/base.py:fit_non_parametric_shape", "menpofit/sdm/algorithm/base.py:fit_parametric_shape"]}
{"id": "C89", "title": "Dlib training leaves the user's images unchanged", "statement": "Training a DlibERT fitter does not add, remove or change landmark groups of the images passed by the user, whether training succeeds or raises.", "quantifier": "every list of images, landmark groups, reference shape and point of failure", "why_tests_cant": "All points of failure and all group names.", "anchors": ["menpofit/dlib/fitter.py:DlibERT._train"]}
{"id": "C90", "title": "The number of iterations of a dlib cascade level and its options agree", "statement": "After any sequence of assignments to n_iterations, the cascade depth in the options of a dlib algorithm is its n_iterations, and every other training option is the one it was created with.", "quantifier": "every set of options and every sequence of assignments", "why_tests_cant": "All option sets and histories.", "anchors": ["menpofit/dlib/algorithm.py:DlibAlgorithm.__init__", "menpofit/dlib/algorithm.py:DlibAlgorithm.n_iterations", "menpofit/dlib/conversion.py:copy_dlib_options"]}
{"id": "C91", "title": "Illumination invariant residuals ignore contrast and brightness", "statement": "With the ECC, GradientImages and GradientCorrelation residuals, scaling the grey values of the image or the template by a positive factor and adding a constant does not change the increment of Lucas-Kanade fitting.", "quantifier": "every image, template, gain, offset and warp Jacobian", "why_tests_cant": "All images and all illumination changes.", "anchors": ["menpofit/lk/residual.py:ECC", "menpofit/lk/residual.py:GradientImages", "menpofit/lk/residual.py:GradientCorrelation"]}
{"id": "C92", "title": "Gradient residuals use the derivative of their features", "statement": "The steepest descent images of the GradientImages and GradientCorrelation residuals are the derivatives of the regularised gradients and of the gradient orientations with respect to the warp parameters.", "quantifier": "every template and warp Jacobian", "why_tests_cant": "All images.", "anchors": ["menpofit/lk/residual.py:GradientImages.steepest_descent_images", "menpofit/lk/residual.py:GradientCorrelation.steepest_descent_images"]}
{"id": "C93", "title": "A perfect alignment is kept by Lucas-Kanade fitting", "statement": "If the warped image equals the template, the increment of every Lucas-Kanade algorithm with every residual is zero.", "quantifier": "every image, template, warp Jacobian, residual and algorithm", "why_tests_cant": "All images and parameters.", "anchors": ["menpofit/lk/residual.py", "menpofit/lk/algorithm.py"]}
{"id": "C94", "title": "The ECC residual maximises the correlation coefficient", "statement": "The increment computed with the ECC residual maximises, over all increments, the correlation coefficient of one image with the linearisation of the other.", "quantifier": "every image, template and warp Jacobian", "why_tests_cant": "A maximum over all increments.", "anchors": ["menpofit/lk/residual.py:ECC.steepest_descent_update"]}
{"id": "C95", "title": "Fourier-domain convolution is convolution", "statement": "fft_convolve2d(image, filter) in mode 'same' with the constant boundary returns an array of the image's shape whose value at each pixel is the sum of the products of the zero-extended image with the filter centred (element size // 2) on that pixel; a centred unit impulse returns the image; the response map a CLM expert predicts is the sum over channels of these convolutions of the patch with the expert's filter.", "quantifier": "all real images, filters and positions, all channel counts and patch shapes", "why_tests_cant": "Tests compare a few shapes and random values; parity of the shapes and the wrap-around of the circular transform decide whether the result is shifted or polluted, so all sizes and values have to be covered.", "anchors": ["menpofit/math/fft_utils.py:fft_convolve2d", "menpofit/math/fft_utils.py:fft_convolve2d_sum", "menpofit/clm/expert/ensemble.py:ConvolutionBasedExpertEnsemble.predict_response"]}
{"id": "C96", "title": "Lucas-Kanade increments are least squares solutions", "statement": "For every template, image and transform for which a Lucas-Kanade fitter computes an increment, that increment is the only least squares solution of the linearised residual: for SSD and FourierSSD the difference of the linearised warped image (forward algorithms) or template (inverse algorithm) and its counterpart; for gradient images the difference of the regularised gradients; for gradient correlation the sines of the angles between gradients divided by the mean cosine.", "quantifier": "all images, templates, transforms, sizes, numbers of channels and parameters for which the increment exists", "why_tests_cant": "Minimality is a statement about all other increments, for all images.", "anchors": ["menpofit/lk/algorithm.py:ForwardAdditive.run", "menpofit/lk/algorithm.py:ForwardCompositional.run", "menpofit/lk/algorithm.py:InverseCompositional.run", "menpofit/lk/residual.py:SSD", "menpofit/lk/residual.py:FourierSSD", "menpofit/lk/residual.py:GradientImages", "menpofit/lk/residual.py:GradientCorrelation"]}
{"id": "C97", "title": "Principal component regression", "statement": "Trained without a variance, a PCRRegression predicts with the affine map (linear without bias) that has the least squared error over the training samples and, among those, the smallest coefficients; training succeeds exactly if the samples have full rank and otherwise raises LinAlgError. Given a variance v, it uses the fewest leading directions that explain the share v of the spread and is the least squares map on them. Training that raises leaves predictions unchanged.", "quantifier": "all sample matrices, targets, bias settings and variances", "why_tests_cant": "Minimality compares with every other map, for all samples.", "anchors": ["menpofit/math/regression.py:PCRRegression.train", "menpofit/math/regression.py:PCRRegression.predict"]}
{"id": "C98", "title": "Orthogonal Procrustes regression", "statement": "An OPPRegression trained without whitening is, among the maps that preserve lengths, the one with the least squared error over the training samples. Trained with whitening it is the map with orthonormal columns nearest to the least squares map.", "quantifier": "all sample matrices, targets and bias settings", "why_tests_cant": "Minimality compares with every other orthonormal map.", "anchors": ["menpofit/math/regression.py:OPPRegression.train", "menpofit/math/regression.py:OPPRegression.predict"]}
{"id": "C99", "title": "Optimal linear regression", "statement": "Training an OptimalLinearRegression always succeeds; without a variance it predicts with the least squares map of smallest coefficients, and so agrees with a successfully trained PCRRegression and with an IRLRegression whose alpha is zero. Given a variance v it uses the fewest leading components that explain the share v and is the least squares map on them.", "quantifier": "all sample matrices, targets, bias settings and variances", "why_tests_cant": "Minimality compares with every other map, and the equality is of three algorithms on all inputs.", "anchors": ["menpofit/math/regression.py:OptimalLinearRegression.train", "menpofit/math/regression.py:OptimalLinearRegression.predict", "menpofit/math/regression.py:IRLRegression.train"]}
{"id": "C100", "title": "Training a supervised descent algorithm is a function of its data", "statement": "Training a supervised descent algorithm object gives regressors and final shapes that depend only on the training data and the options of the class: printing progress (verbose) does not change them, earlier trainings and fits of the same object do not change them, and a training that raises leaves the object untrained.", "quantifier": "all supervised descent classes (non-parametric, parametric shape, parametric appearance, fully parametric, AAM), all object histories, images, shapes, numbers of iterations and verbosity settings", "why_tests_cant": "Needs every history of an object and every shape model; a test trains a fresh object once.", "anchors": ["menpofit/sdm/algorithm/base.py:BaseSupervisedDescentAlgorithm._train", "menpofit/sdm/algorithm/base.py:print_parametric_info", "menpofit/sdm/algorithm/parametricshape.py:ParametricShapeSDAlgorithm", "menpofit/sdm/algorithm/fullyparametric.py:FullyParametricSDAlgorithm", "menpofit/aam/algorithm/sd.py:ParametricSupervisedDescentAlgorithm"]}
{"id": "C101", "title": "Supervised descent fits are repeatable", "statement": "A fit by a trained parametric or AAM supervised descent algorithm returns shapes and parameters that depend only on the regressors, the models, the image and the initial shape, not on earlier fits or on what training left in the shape model.", "quantifier": "all trained objects, all sequences of earlier fits, all images and initial shapes", "why_tests_cant": "The shape model is mutable state shared by all fits; only a proof over all histories excludes interference.", "anchors": ["menpofit/sdm/algorithm/base.py:fit_parametric_shape", "menpofit/aam/algorithm/sd.py:ParametricSupervisedDescentAlgorithm.run", "menpofit/modelinstance.py:OrthoPDM"]}
{"id": "C102", "title": "Appearance features of supervised descent", "statement": "Project-out features ignore exactly the appearance the model can generate on the sampled pixels; appearance weights are the weights of the closest generated image and are recovered exactly for generated images; both together account for everything the mean template feature sees.", "quantifier": "all appearance models, sampling masks, images and weights", "why_tests_cant": "Equality and optimality over all images and all weights.", "anchors": ["menpofit/aam/algorithm/sd.py:MeanTemplate", "menpofit/aam/algorithm/sd.py:ProjectOut", "menpofit/aam/algorithm/sd.py:AppearanceWeights"]}
{"id": "C103", "title": "The transform of a linear AAM: landmarks and dense shape agree", "statement": "Giving the transform of a linear AAM landmarks as its target chooses, among the shapes of the linear model, one whose landmarks are closest to them, as if that whole shape had been given. The landmarks of a shape the model generates bring that shape back: the sparse target is the landmarks, the dense target and the warp are its dense points. Results list the landmarks of the shapes that were visited.", "quantifier": "all shape models, numbers of landmarks and dense points, histories of targets and parameter vectors, landmarks and parameters", "why_tests_cant": "Optimality over all shapes of a family and exact recovery for all parameters and histories; a test tries some shapes, usually unrotated ones, where the property does hold.", "anchors": ["menpofit/transform/modeldriven.py:LinearOrthoMDTransform", "menpofit/aam/algorithm/lk.py:LucasKanadeLinearInterface.algorithm_result"]}
{"id": "C104", "title": "APS steps minimise the weighted appearance and deformation cost, and APS costs are those of the reported shapes", "statement": "Every increment computed by the inverse and the forward Gauss-Newton APS algorithm is the only minimiser of the linearised appearance error (in the appearance precision) plus the deformation weight times the deformation norm of the updated parameters, where use_procrustes drops the four similarity parameters. A run asked for costs reports for each shape it returns the appearance cost, the weighted deformation cost and their sum; this fails when the pixels are sub-sampled, where such a run always raises.", "quantifier": "all APS models (numbers of parts, pixels, precisions, weights, sampling masks), images, shapes, parameters and numbers of iterations", "why_tests_cant": "Minimality compares against every other increment and must hold at every iterate of every fit; the failure of sampled costs holds for every image.", "anchors": ["menpofit/aps/algorithm/gn.py: Inverse, Forward, GaussNewtonBaseInterface", "menpofit/aps/fitter.py: GaussNewtonAPSFitter"]}
{"id": "C105", "title": "Fitters made from the same trained model are independent", "statement": "Making further fitters from the same trained CLM or APS, and fitting with them, does not change what a fitter returns, and a fitter does not depend on what was done with the model before it was made.", "quantifier": "all trained models, all fitter classes, all histories of making fitters and fitting with them, all images and initial shapes", "why_tests_cant": "Ranges over every interleaving of constructions and fits that share one model object.", "anchors": ["menpofit/clm/fitter.py: GradientDescentCLMFitter.__init__", "menpofit/clm/algorithm/gd.py: GradientDescentCLMAlgorithm.__init__, ActiveShapeModel.run, RegularisedLandmarkMeanShift.run", "menpofit/aps/fitter.py: GaussNewtonAPSFitter.__init__", "menpofit/aps/algorithm/gn.py: run"]}
{"id": "C106", "title": "The default deformation tree of an APS depends only on how relative positions vary", "statement": "When no deformation graph is given, the weight of the edge between two points is symmetric and a fixed increasing function of the determinant of the covariance of their relative position over the training shapes. Hence the minimum spanning trees do not change when the images are given in another order, when each shape is translated, or when all shapes are scaled, rotated, reflected or sheared together. The graph can be made exactly when no relative position is confined to a line; with at most two shapes it never can.", "quantifier": "all numbers of points and shapes, all shapes, orders, translations and invertible linear maps", "why_tests_cant": "Ranges over all training sets and all transformations of them, and compares with all spanning trees.", "anchors": ["menpofit/aps/base.py: _compute_minimum_spanning_tree, GenerativeAPS._train_batch"]}
{"id": "C107", "title": "The landmark derivative of a thin plate spline is exact", "statement": "For a thin plate spline, d_dl gives for every point one weight per landmark such that moving the target landmarks by any amount moves the warped point by exactly the weighted sum of the movements. The weights of a point sum to one and average the source landmarks to the point; at a landmark all the weight is on it. Coincident landmarks do no harm.", "quantifier": "all numbers and positions of source landmarks, all targets and movements, all points", "why_tests_cant": "Ranges over all landmark configurations, including singular ones, and all points; the repository's tests compare one square with stored numbers.", "anchors": ["menpofit/transform/thinsplatesplines.py: DifferentiableThinPlateSplines.d_dl", "menpofit/transform/rbf.py: DifferentiableR2LogR2RBF"]}
{"id": "C108", "title": "Masks, desired responses and filters of correlation filter experts", "statement": "The cosine mask of a patch has values in [0, 1], is symmetric, zero exactly on the border and one exactly at the middle. The desired response is positive and decreases strictly with the distance from the middle pixel, its only peak; covariances that are not positive are refused. The images of the filters are the trained filters turned by half a turn, and the number of sample offsets can be asked for.", "quantifier": "all patch shapes, covariances, patches and trained filters", "why_tests_cant": "Ranges over all patch sizes, parities and filters; the filter images go through a Fourier transform.", "anchors": ["menpofit/clm/expert/ensemble.py: generate_cosine_mask, generate_gaussian_response, ConvolutionBasedExpertEnsemble.spatial_filter_images, ConvolutionBasedExpertEnsemble.n_sample_offsets"]}
{"id": "C109", "title": "Experts see patches as they did in training", "statement": "In training every channel of a patch is normalised by itself to mean zero and unit length, so that gain and brightness of single channels do not matter. In fitting the experts are given patches normalised in the same way, for any number of landmarks, channels and sample offsets.", "quantifier": "all images, numbers of landmarks, channels, offsets and patch sizes, all changes of gain and brightness", "why_tests_cant": "Compares two code paths for all patches and all changes of lighting.", "anchors": ["menpofit/clm/expert/ensemble.py: ConvolutionBasedExpertEnsemble._extract_patch, ConvolutionBasedExpertEnsemble._extract_patches, channel_normalize_norm"]}
{"id": "C110", "title": "Linear models can be trained in batches and incremented", "statement": "A linear or linear masked AAM or ATM has, at every scale, one dense shape model and one appearance model in the reference frame of that scale. Training in batches and incrementing use, at every scale, the frame the model of that scale was built in.", "quantifier": "all numbers of scales, batch sizes, training images, features and histories of increments", "why_tests_cant": "Ranges over all scales, batch splits and image operations; the object has one frame attribute that all scales share.", "anchors": ["menpofit/aam/base.py: LinearAAM._build_shape_model, LinearAAM._increment_shape_model, LinearAAM._warp_images, LinearMaskedAAM", "menpofit/atm/base.py: LinearATM, LinearMaskedATM", "menpofit/builder.py: densify_shapes"]}
{"id": "C111", "title": "Constructors accept the documented options and store one value per scale", "statement": "Every constructor (AAMs, ATMs, CLM, unified AAM-CLM, APS, supervised descent, Lucas-Kanade, DlibERT) accepts every documented form of its options: scales as a number or a list or tuple of numbers, per-scale options as one value or as a list or tuple with one value or one per scale, the defaults of its own signature; it refuses all other callables, component limits and graphs; and afterwards every option is stored with exactly one value per scale, the value given for that scale.", "quantifier": "for all documented scales and all option values of every modelled constructor", "why_tests_cant": "the options form a product of many independent argument forms per constructor; tests only construct models with a handful of them and never with a bare number for every class", "anchors": ["menpofit/aam/base.py: AAM.__init__, MaskedAAM.__init__, LinearMaskedAAM.__init__, PatchAAM.__init__", "menpofit/atm/base.py: ATM.__init__, MaskedATM.__init__, LinearMaskedATM.__init__, PatchATM.__init__", "menpofit/clm/base.py: CLM.__init__", "menpofit/aps/base.py: GenerativeAPS.__init__", "menpofit/unified_aam_clm/base.py: UnifiedAAMCLM.__init__", "menpofit/sdm/fitter.py: SupervisedDescentFitter.__init__", "menpofit/lk/fitter.py: LucasKanadeFitter.__init__", "menpofit/dlib/fitter.py: DlibERT.__init__, _setup_dlib_options"]}
{"id": "C112", "title": "Training of the unified AAM-CLM", "statement": "Constructing a UnifiedAAMCLM yields, for every scale, one shape model, one appearance model and one expert ensemble, all trained on the same images: every training image rescaled to the reference shape, smoothed when a non-zero sigma is given, with the features and size of that scale. The options reference_shape, boundary and response_covariance take effect. The fitter interface of a scale combines the appearance model, shape model and sampling mask of that very scale.", "quantifier": "all lists of training images, all options, any number of scales with any features, sizes and component limits", "why_tests_cant": "A test fixes the images and one pyramid; the claim is about which data reaches which of the three models at every scale of every pyramid, and that an option changes the outcome.", "anchors": ["menpofit/unified_aam_clm/base.py UnifiedAAMCLM.__init__", "menpofit/unified_aam_clm/base.py UnifiedAAMCLM._train", "menpofit/unified_aam_clm/base.py UnifiedAAMCLM._warp_images", "menpofit/unified_aam_clm/base.py UnifiedAAMCLM.build_fitter_interfaces"]}
{"id": "C113", "title": "diagonal sets the size of a model", "statement": "The reference shape of a trained AAM, CLM, ATM, APS or unified model has a bounding box whose diagonal is the requested one, also when a reference shape is supplied (the documentation says that it is rescaled with respect to the diagonal).", "quantifier": "all training sets whose mean shape is not a single point, all diagonals, scales, batches, and given reference shapes", "why_tests_cant": "It is a statement about all training sets and all reference shapes; a test samples a few, and a reference shape that already has the diagonal hides the failure.", "anchors": ["menpofit/builder.py compute_reference_shape", "menpofit/aam/base.py AAM._train", "menpofit/clm/base.py CLM._train", "menpofit/atm/base.py ATM._train", "menpofit/aps/base.py GenerativeAPS._train", "menpofit/unified_aam_clm/base.py UnifiedAAMCLM._train"]}
{"id": "C114", "title": "Fitting prepares an image as training did", "statement": "If a training image is fitted starting from its own ground truth shape, then at every scale the fitter works on exactly the pixels, and starts with exactly the shape, that training used for that image at that scale.", "quantifier": "all images, landmark groups, reference shapes, per-scale features and scale factors, and any behaviour of the rescaling and feature operations", "why_tests_cant": "The two pipelines are separate code; a test compares a few images and pyramids, while the claim needs them to agree for every feature list and every scale factor, including factors near 1.", "anchors": ["menpofit/fitter.py MultiScaleNonParametricFitter._prepare_image", "menpofit/builder.py rescale_images_to_reference_shape", "menpofit/builder.py compute_features", "menpofit/builder.py scale_images", "menpofit/unified_aam_clm/base.py UnifiedAAMCLM._train"]}
{"id": "C115", "title": "The pose of the training shapes does not enter a shape model", "statement": "Training shapes are aligned before a shape model is built or incremented: every shape is only scaled, rotated and moved (never mirrored or deformed), ends centred at the origin, and all shapes of a batch get the same size. Moving training shapes does not change the model; turning them all turns the aligned shapes; copies of one shape in different poses give a model without variance, whether they are given at once or in increments.", "quantifier": "all lists of planar shapes with any number of points, all positions, orientations and sizes, all sequences of increments", "why_tests_cant": "The alignment iterates up to 100 times over arbitrary shapes; that no iteration divides by zero or mirrors a shape, and that poses cancel exactly, is a statement about all shapes and poses.", "anchors": ["menpofit/builder.py align_shapes", "menpofit/modelinstance.py PDM.__init__", "menpofit/modelinstance.py PDM.increment", "menpofit/modelinstance.py OrthoPDM.increment"]}
{"id": "C116", "title": "The resolution of the picture does not matter", "statement": "Fitting the same picture at another resolution, with the initial shape (and the ground truth) given in the coordinates of that picture, returns as well, runs the same algorithms on the same prepared images with the same results, and reports at every scale the shape of the first fit in the new coordinates. If all scales use the same features this holds for every change of coordinates under which the normalised pictures agree.", "quantifier": "all images, initial shapes, ground truths, features, scales, algorithms, iteration counts and all rescalings", "why_tests_cant": "It relates two runs of an arbitrary algorithm on arbitrary pictures; a test compares two concrete pictures.", "anchors": ["menpofit/fitter.py MultiScaleNonParametricFitter.fit_from_shape", "menpofit/fitter.py MultiScaleNonParametricFitter._prepare_image", "menpofit/fitter.py MultiScaleNonParametricFitter._fit"]}
{"id": "C117", "title": "Every kind of model renders its instances", "statement": "`instance` of a trained model shows, at the chosen scale, the mean shape (and appearance) plus the given numbers of standard deviations of each mode, drawn with the template, frame, patch shape and deformation graph of that scale; without weights it shows the mean; `random_instance` draws one weight for every component and returns; too many weights are refused.", "quantifier": "all kinds of models, all scales (also negative indices), all weights, all draws", "why_tests_cant": "Ranges over five classes of appearance models, five of template models, pictorial structures, constrained local and unified models with any number of scales and components.", "anchors": ["menpofit/atm/base.py ATM.instance", "menpofit/atm/base.py ATM.random_instance", "menpofit/atm/base.py MaskedATM._instance", "menpofit/atm/base.py PatchATM._instance", "menpofit/aam/base.py AAM._instance", "menpofit/aam/base.py MaskedAAM._instance", "menpofit/aps/base.py GenerativeAPS.instance", "menpofit/aps/base.py GenerativeAPS.random_instance", "menpofit/clm/base.py CLM.shape_instance", "menpofit/unified_aam_clm/base.py UnifiedAAMCLM.shape_instance"]}
{"id": "C118", "title": "The table of statistics shows each method's own numbers, in the requested order", "statement": "`statistics_table` returns one row per method and one column per statistic; every entry is the statistic the column stands for, computed from the errors of the method the row is labelled with. Without `sort_by` rows are in the given order, with it they are sorted by that statistic, best first (ascending, descending for the area under the curve). A single list of errors is one method. Unknown types, mismatched numbers of names or methods and a `sort_by` that is not shown raise ValueError.", "quantifier": "all numbers of methods, all non-empty error lists, all selections of statistics, all column names, all sort keys", "why_tests_cant": "Labels and columns must stay together under every permutation that sorting may produce and for every selection of statistics.", "anchors": ["menpofit/visualize/textutils.py statistics_table", "menpofit/error/stats.py compute_statistical_measures"]}
{"id": "C119", "title": "Fitting with dlib retraces its training", "statement": "Training a dlib fitter trains one predictor per scale, with the options of that scale, on the pixels of all scaled images, the rectangles of their boxes and the ground truth of each image. The boxes a scale leaves behind are the bounding boxes of what running its predictor on the same image and box returns. Fitting a training image from one of its boxes at the lowest scale therefore meets, at every scale, the rectangles the predictor of that scale was trained with, and ends with the boxes training ended with.", "quantifier": "all predictors dlib may return, all images, boxes, ground truths, numbers of scales and perturbations, all positive scalings", "why_tests_cant": "The predictor is arbitrary, and the claim relates the whole training to a later fit over any number of scales.", "anchors": ["menpofit/dlib/algorithm.py DlibAlgorithm.train", "menpofit/dlib/algorithm.py DlibAlgorithm.run", "menpofit/dlib/conversion.py bounding_box_pointcloud_to_dlib_fo_detection", "menpofit/dlib/fitter.py DlibERT._train", "menpofit/fitter.py MultiScaleNonParametricFitter._fit"]}
{"id": "C120", "title": "What is printed about a dlib fitter is what it trains with", "statement": "`str` of a dlib fitter shows, for every scale, the values the fitter was given and its predictors are trained with.", "quantifier": "all options, all iteration counts, all defaults of dlib", "why_tests_cant": "Ranges over all values of ten options; a test with the default values agrees by accident.", "anchors": ["menpofit/dlib/fitter.py DlibERT.__str__", "menpofit/dlib/fitter.py DlibERT._setup_dlib_options", "menpofit/dlib/algorithm.py DlibAlgorithm.__init__"]}
{"id": "C121", "title": "A bias absorbs constant offsets", "statement": "A linear regressor trained with a bias does not depend on the origin of features and targets: when a constant vector is added to every feature vector and another one to every target, training succeeds as before and the prediction for a moved feature vector is the former prediction moved by the constant of the targets.", "quantifier": "for all training sets, all constant vectors, all feature vectors, all numbers of samples, features and outputs, all regularisers and regressor classes with a bias option", "why_tests_cant": "It ranges over all data sets and offsets; a test compares two trainings.", "anchors": ["menpofit/math/regression.py: IRLRegression.train, IRLRegression.predict, IIRLRegression.__init__, IIRLRegression.predict"]}
{"id": "C122", "title": "Supervised descent classes use the options they are given, and can be incremented", "statement": "Each of the 27 supervised descent classes (patch based and AAM) accepts the regressor options it documents and only those, creates the kind of regressor it is named after with exactly these options, and an object that has been trained can be incremented with more data.", "quantifier": "for all classes, all combinations of keyword arguments, all histories of trainings, increments and fits, all data", "why_tests_cant": "It ranges over all classes, option combinations and call histories.", "anchors": ["menpofit/sdm/algorithm/nonparametric.py: NonParametricNewton and following classes", "menpofit/sdm/algorithm/parametricshape.py", "menpofit/sdm/algorithm/parametricappearance.py", "menpofit/sdm/algorithm/fullyparametric.py", "menpofit/aam/algorithm/sd.py", "menpofit/sdm/algorithm/base.py: BaseSupervisedDescentAlgorithm.increment", "menpofit/math/regression.py"]}
{"id": "C123", "title": "A perfect alignment is kept by appearance and template model fitting", "statement": "If the image sampled at the initial (model) shape is one the appearance model can produce exactly (for an ATM: the template), then every AAM and ATM optimisation algorithm, forward or inverse, run without a prior keeps that shape: all recorded shapes and parameters equal the initial ones, the recorded appearance parameters reproduce the image, all recorded costs are zero, and the fit stops after one iteration. With a prior this holds only at zero shape parameters: elsewhere the first iteration moves. Conversely, an iteration without prior keeps the parameters only where the error is orthogonal to the (projected) steepest descent images.", "quantifier": "all models, images, initial shapes, iteration limits, tolerances and algorithms, and all histories of earlier runs with the same algorithm object", "why_tests_cant": "The increments must vanish for every model and image the model can produce; tests compare a few final errors after convergence and never start at an exact optimum.", "anchors": ["menpofit/aam/algorithm/lk.py:ProjectOut.run", "menpofit/aam/algorithm/lk.py:Simultaneous.run", "menpofit/aam/algorithm/lk.py:Alternating.run", "menpofit/aam/algorithm/lk.py:ModifiedAlternating.run", "menpofit/aam/algorithm/lk.py:Wiberg.run", "menpofit/atm/algorithm.py:Compositional.run"]}
{"id": "C124", "title": "Where the face is in the picture does not matter", "statement": "Fitting commutes with moving the picture: if a second picture shows what the first shows, moved by a vector, then fitting it from the initial shape moved by that vector gives the same shapes moved by the vector, shape parameters that differ by one fixed vector which only concerns the similarity (so the same non-rigid weights), the same appearance parameters and the same costs, or the same exception. This holds for the AAM, ATM, CLM, unified and supervised descent algorithms, for shape models that were built, updated and incremented in any way, and for piecewise affine and patch based warps, as long as the face is away from the borders of the picture.", "quantifier": "every shape model and every history of it; every vector; every pair of pictures, one moved; every initial shape, algorithm, number of iterations, tolerance, patch shape, expert, appearance model", "why_tests_cant": "A test fits a few pictures at one position; the claim ranges over all pictures, positions, models and iteration counts, and the violation for map_inference only shows as a small drift.", "anchors": ["menpofit/modelinstance.py OrthoPDM", "menpofit/aam/algorithm/lk.py", "menpofit/atm/algorithm.py", "menpofit/clm/algorithm/gd.py ActiveShapeModel, RegularisedLandmarkMeanShift", "menpofit/unified_aam_clm/algorithm.py", "menpofit/sdm/algorithm/base.py"]}
{"id": "C125", "title": "A constrained local model goes where its experts point, and rests where they agree", "statement": "In every iteration of mean-shift CLM fitting the experts are asked about the last reported shape, and the new parameters are the only ones whose linearised shape is closest (in squared distances, plus the prior energy with map_inference) to points inside the search windows of that shape. If every response map is symmetric about the landmark (mean shift, unified models that also see what their appearance model expects) or has its peak on the landmark (active shape model), the fit stays where it is and returns; with a prior the same holds as long as the non-rigid parameters are zero. Without a prior, parameters are kept only if the landmark errors are orthogonal to every direction of the model.", "quantifier": "every shape model, expert, window, picture, initial shape, number of iterations, tolerance; every iteration of every run", "why_tests_cant": "Tests run a few fits on one image; the claim is about every iteration of every run and shows that some window sizes drift on perfect responses.", "anchors": ["menpofit/clm/algorithm/gd.py ActiveShapeModel.run, RegularisedLandmarkMeanShift.run", "menpofit/unified_aam_clm/algorithm.py", "menpofit/clm/expert/base.py probability_map"]}
{"id": "C126", "title": "Figures, plots and printed summaries of a result report its own numbers", "statement": "view draws exactly the shapes asked for that are known, each with its own title and colours. plot_errors, plot_costs and plot_displacements draw at k the error of shapes[k], the k-th cost and the statistic of the movement from shapes[k] to shapes[k+1], and raise ValueError without ground truth, without costs or for an unknown statistic. Printing a result never raises and shows the errors of the initial shape, of its reconstruction and of the final shape in image coordinates. Appearance parameters of AAM and unified results and appearance and deformation costs of APS results have one entry per computed shape, in the order of the shapes. The plots of one result use one meaning of 'Iteration'.", "quantifier": "All results of all classes, all numbers of scales and iterations, with and without image, initial shape, ground truth and costs, and all choices of what to render.", "why_tests_cant": "Alignment of several parallel lists must hold for every number of scales and iterations and every combination of missing parts.", "anchors": ["menpofit/result.py:Result.view", "menpofit/result.py:Result.__str__", "menpofit/result.py:NonParametricIterativeResult.plot_errors", "menpofit/result.py:NonParametricIterativeResult.plot_displacements", "menpofit/result.py:NonParametricIterativeResult.plot_costs", "menpofit/aam/result.py:AAMResult", "menpofit/unified_aam_clm/result.py:UnifiedAAMCLMResult", "menpofit/aps/result.py:APSResult"]}
{"id": "C127", "title": "The deformation an APS learns is that of relative positions along its graph, and APS fitting does not depend on where the face is", "statement": "The deformation model of a trained active pictorial structure measures, for every edge of its deformation graph, how far the relative position of the two points is from that of the mean training shape, by the inverse covariance of that relative position over the training shapes (aligned ones with use_procrustes, otherwise as they are); the deformation cost reported for a shape is the weight times that sum. Its precision is symmetric and positive semi-definite, and on a graph that joins all points exactly the moved copies of the mean shape cost nothing. Drawing the deformation model shows, for every edge, an ellipse around its second end in the mean shape with the covariance of the relative position. Training raises LinAlgError exactly when the covariance of some edge is singular, which it always is for two shapes or fewer. If picture and initial shape are moved together, a fit (either algorithm, with or without use_procrustes, any active components, any earlier use of the shape model) returns the same shapes moved, the same parameters but for four constants added to those of the similarity, and the same costs. With use_procrustes, scaled copies of the mean shape should cost no deformation either (violated).", "quantifier": "all training shapes, deformation graphs without loops, weights, shape models and their histories, fitters of both classes, pictures and their moved copies, initial shapes, numbers of iterations, tolerances", "why_tests_cant": "A test fits a few images with one trained model; equivariance under every translation and every history of the shared shape model, and the characterisation of all undeformed shapes, range over infinitely many shapes, pictures and training sets.", "anchors": ["menpofit/aps/base.py: _build_deformation_model, _train_batch", "menpofit/aps/algorithm/gn.py: Inverse.run, Forward.run, _precompute", "menpofit/aps/fitter.py: GaussNewtonAPSFitter", "menpofit/modelinstance.py: OrthoPDM", "menpofit/aps/base.py: GenerativeAPS.view_deformation_model"]}
{"id": "C128", "title": "A whole multi-scale fit does not depend on where the face is in the picture or how large it is", "statement": "If a picture with all its landmarks, the initial shape (or the bounding box) and the ground truth are zoomed by a positive factor and moved by a vector, then fit_from_shape and fit_from_bb of the multi-scale fitters raise the same exception as before or return, and every shape of the result (initial, final, ground truth, all iterations of all scales, in image coordinates) is the old one zoomed and moved; costs and numbers of iterations are unchanged. This holds for all holistic features that follow the picture, whatever downsampling and offset they introduce, for all scales, and for all algorithms that follow the face (CLM and unified fitters with and without prior, AAM and ATM without prior, SDM with shapes or shape parameters, AAM supervised descent).", "quantifier": "all pictures of the plane, landmarks, initial shapes, bounding boxes, ground truths, zooms and translations, reference shapes, lists of features, scales, iteration budgets and algorithms", "why_tests_cant": "the statement relates two runs for every picture, zoom and translation through normalisation to the reference size, least-squares affine alignment, hand-over between scales and the mapping of all shapes back to the image", "anchors": ["menpofit/fitter.py:MultiScaleNonParametricFitter._prepare_image", "menpofit/fitter.py:MultiScaleNonParametricFitter._fit", "menpofit/fitter.py:fit_from_shape", "menpofit/fitter.py:fit_from_bb", "menpofit/fitter.py:align_shape_with_bounding_box", "menpofit/result.py:MultiScaleNonParametricIterativeResult"]}
{"id": "C129", "title": "Where the faces are in their training pictures does not matter to supervised descent training", "statement": "If every training picture is moved by a vector of its own, together with its ground truth and the shapes training starts from, then training (and incrementing) a supervised descent method returns the same regressors: in every stage of the cascade the features, the regressed differences and the predictions are the same, and the shapes of a picture are moved by its vector. The same holds when the starting shapes are the perturbations of the ground truth's bounding box that the fitter generates with the same random numbers. Noisy versions of a shape towards the box of a face move with the face.", "quantifier": "all training sets of any size, vectors per picture, numbers of perturbations and iterations, regressors, features that follow the picture, shape models and their histories, noise types, percentages and random draws", "why_tests_cant": "a test trains on a few pictures with the faces where they are; independence of the position is a statement about all pairs of training sets and all stages", "anchors": ["menpofit/sdm/algorithm/base.py:BaseSupervisedDescentAlgorithm._train", "menpofit/sdm/fitter.py:SupervisedDescentFitter._train_batch", "menpofit/fitter.py:generate_perturbations_from_gt", "menpofit/fitter.py:noisy_shape_from_bounding_box", "menpofit/fitter.py:align_shape_with_bounding_box"]}
{"id": "C130", "title": "With a kernel, Lucas-Kanade minimises and reports the filtered error", "statement": "A kernel given to the SSD or FourierSSD residual weights the waves of the error image. For every even kernel of non-negative weights, every image, template, transform and every number of channels, the increment that a forward additive, forward compositional or inverse compositional Lucas-Kanade iteration computes is the only minimiser of the filtered energy of the linearised error (the sum over channels and frequencies of the kernel's weight times the squared amplitude of the error), and it is the same whether the work is done in space or in the Fourier domain. The costs that fitting with return_costs=True reports are the energies of the error images at the start of each iteration, filtered by the kernel if there is one.", "quantifier": "all images, templates, transforms and their derivatives, all even non-negative kernels, all picture sizes and numbers of channels, all iteration counts", "why_tests_cant": "That the increment minimises the filtered energy is a statement about all other increments and all kernels; a test compares a few fits, and the upstream tests never ask for costs with a kernel.", "anchors": ["menpofit/lk/residual.py: SSD.steepest_descent_images, SSD.hessian, SSD.steepest_descent_update, SSD.cost_closure", "menpofit/lk/residual.py: FourierSSD.steepest_descent_images, FourierSSD.hessian, FourierSSD.steepest_descent_update, FourierSSD.cost_closure", "menpofit/lk/algorithm.py: ForwardAdditive.run, ForwardCompositional.run, InverseCompositional.run"]}
{"id": "C131", "title": "A longer fit extends a shorter one, and a fit that has not converged can be resumed from its final shape", "statement": "Giving fit_from_shape a larger max_iters never changes the iterations a smaller max_iters would have produced: the shapes, shape parameters and costs of the fit limited to i iterations are the first i+1 entries of those of any longer fit. And a fit that stopped because its iterations ran out can be continued: fitting again with the same algorithm, from the final shape it returned, gives exactly the remaining iterations of one long fit, including the exception the long fit would have raised.", "quantifier": "every image, initial shape, iteration limits i and j, tolerance, cost setting, prior setting, and every algorithm (CLM, APS, unified, project-out AAM/ATM, alternating, modified alternating, simultaneous, Wiberg, Lucas-Kanade), for a shape model in any reachable state", "why_tests_cant": "A test compares two particular limits on one picture; whether the result only depends on the final shape requires that no algorithm keeps information besides the shape, for all states and pictures.", "anchors": ["menpofit/aam/algorithm/lk.py:ProjectOut.run", "menpofit/aam/algorithm/lk.py:Alternating.run", "menpofit/aam/algorithm/lk.py:ModifiedAlternating.run", "menpofit/aam/algorithm/lk.py:Simultaneous.run", "menpofit/aam/algorithm/lk.py:Wiberg.run", "menpofit/atm/algorithm.py:run", "menpofit/aps/algorithm/gn.py:run", "menpofit/clm/algorithm/gd.py:run", "menpofit/unified_aam_clm/algorithm.py:run", "menpofit/lk/algorithm.py:ForwardCompositional.run"]}
{"id": "C132", "title": "Every step of a fit goes downhill", "statement": "Each step of a Gauss-Newton fit of an active appearance model moves the parameters in a direction in which the error that the algorithm minimises falls, the fit stays where it is only at a stationary point of that error, and the errors the fit reports never rise from one iteration to the next. On an image whose warped pixels depend linearly on the shape parameters, the first iteration already reaches the best parameters and no later one leaves them; if the face in the image is an instance of the model, the fit finds exactly that instance.", "quantifier": "for every model (number of shape and appearance components, mean and components, priors), every image whose warped pixels depend differentiably on the shape parameters, every initial shape, iteration budget, tolerance and choice of maximum likelihood or maximum a posteriori, and every pair of consecutive iterations of the fit", "why_tests_cant": "A test looks at the costs of a few fits; whether a direction is one of descent is a statement about derivatives at every point of every image, and the overshooting of full steps shows only from some starting points.", "anchors": ["menpofit/aam/algorithm/lk.py: ProjectOut.run", "menpofit/aam/algorithm/lk.py: Simultaneous.run", "menpofit/aam/algorithm/lk.py: Alternating.run", "menpofit/aam/algorithm/lk.py: ModifiedAlternating.run", "menpofit/aam/algorithm/lk.py: Wiberg.run", "menpofit/math/__init__.py"]}
{"id": "C133", "title": "The order of the training images does not matter", "statement": "An AAM, ATM, CLM or APS built from the same images in another order (without a batch size) is the same model: same reference shape, same shape, deformation, appearance models and experts; aligned shapes and filters are unaffected by the order. Supervised descent training learns the same regressors and leaves each image with the same shapes whatever the order of the images, if each image starts from the same number of shapes.", "quantifier": "every list of training images and every reordering of it; every number of scales, features, iterations and images; every batch layout whose batches are reorderings of each other", "why_tests_cant": "All permutations of all data sets; a test shuffles one list once.", "anchors": ["menpofit/aam/base.py:AAM._train", "menpofit/clm/base.py:CLM._train", "menpofit/atm/base.py:ATM._train", "menpofit/aps/base.py:GenerativeAPS._train", "menpofit/builder.py:compute_reference_shape", "menpofit/builder.py:align_shapes", "menpofit/math/correlationfilter.py:mccf", "menpofit/sdm/algorithm/base.py:BaseSupervisedDescentAlgorithm._train", "menpofit/math/regression.py:IRLRegression"]}
{"id": "C134", "title": "Summary statistics rank methods fairly", "statement": "The statistics of compute_statistical_measures compare methods fairly. A method that is at least as accurate as another on every image gets values that are at least as good for all seven statistics. Listing the images in another order changes nothing. Measuring errors and error axis in another unit multiplies mean, standard deviation, median, median absolute deviation and maximum by the factor and leaves area under the curve and failure rate alone. The reported values are consistent with each other: mean and median lie between the smallest and the largest error and differ by at most one standard deviation.", "quantifier": "all non-empty lists of errors, all pairs of lists with one dominating the other image by image, all reorderings, all positive unit factors, all positive steps and error ranges", "why_tests_cant": "Comparisons between arbitrary data sets of arbitrary size; a test compares the numbers of a few fixed lists.", "anchors": ["menpofit/error/stats.py:compute_statistical_measures", "menpofit/error/stats.py:area_under_curve_and_failure_rate", "menpofit/error/stats.py:compute_cumulative_error", "menpofit/error/stats.py:mad"]}
{"id": "C135", "title": "Supervised descent training brings the training shapes closer, and prints how close", "statement": "After every stage of the training of a supervised descent fitter, the shapes of the training set are in total (sum of squared distances over all images and perturbations) at least as close to the ground truth as before the stage, and after the last stage at least as close as at the start. With a bias and no regulariser they are off by nothing on average after every stage. The errors printed by verbose training are those that the new shapes have from the ground truth.", "quantifier": "all training sets, numbers of perturbations, features, numbers of stages, regularisers, with and without bias, all regression methods on offer", "why_tests_cant": "The claim is about optimisation results for arbitrary features and targets over an arbitrary number of stages; a test sees a few data sets, on which even the methods that can diverge usually improve.", "anchors": ["menpofit/sdm/algorithm/base.py:BaseSupervisedDescentAlgorithm._train", "menpofit/sdm/algorithm/base.py:print_non_parametric_info", "menpofit/sdm/algorithm/base.py:print_parametric_info", "menpofit/math/regression.py:IRLRegression", "menpofit/math/regression.py:IIRLRegression", "menpofit/math/regression.py:PCRRegression", "menpofit/math/regression.py:OPPRegression"]}
{"id": "C136", "title": "How landmarks are numbered does not matter", "statement": "The order in which a data set lists its landmarks is a convention. If every shape, the shape model, the experts and the triangulation are renumbered in the same way, and the features come in another order accordingly, then error measures, generalised Procrustes alignment, the shape model with all its operations, training of supervised descent, and the fits of constrained local models, active appearance models, unified models and supervised descent give the same results, renumbered, with the same parameters and costs, or raise the same exceptions.", "quantifier": "all permutations of the landmarks and of the features, all shapes, models, images and initial shapes, all fitting algorithms named, any sequence of operations on the shape model, any number of training images, stages, increments and iterations", "why_tests_cant": "The claim relates two runs on arbitrary data for every one of the factorially many numberings; a test compares a few numberings of one data set.", "anchors": ["menpofit/error/base.py", "menpofit/modelinstance.py:OrthoPDM", "menpofit/builder.py:align_shapes", "menpofit/clm/algorithm/gd.py", "menpofit/aam/algorithm/lk.py", "menpofit/unified_aam_clm/algorithm.py", "menpofit/sdm/algorithm/base.py", "menpofit/math/regression.py"]}
{"id": "C137", "title": "What a failed increment leaves behind", "statement": "If increment() of a trained AAM, CLM or APS raises, whatever the reason and at whatever image, batch or scale, the object is still usable (one model of each kind per scale, the same reference shape), batches completed before count completely, batches after have left no trace, and the batch that failed has left none either, so that the call can be repeated without it or taken up from there.", "quantifier": "all trained models, image lists and iterators (also ones that raise part of the way), batch sizes, features, numbers of scales, and all points at which preparing, warping, building or incrementing can raise", "why_tests_cant": "The points at which an exception can leave the nested loops over batches and scales are not enumerable by tests; the property is about every one of them.", "anchors": ["menpofit/aam/base.py: HolisticAAM/AAM._train, _train_batch, increment", "menpofit/clm/base.py: CLM._train, _train_batch, increment", "menpofit/aps/base.py: GenerativeAPS._train, _train_batch, increment, _build_appearance_model", "menpofit/base.py: batch"]}
{"id": "C138", "title": "The light of a picture does not change a fit that normalises it", "statement": "Changing the contrast and brightness of a picture (every pixel value x becomes g*x+b with g>0) does not change where a method that claims illumination invariance puts the landmarks. Whole Lucas-Kanade fits with the ECC, gradient-image and gradient-correlation residuals, whole constrained local model fits whose experts see normalised patches, and whole active appearance fits whose appearance model contains the change return the same shapes; where costs or appearance parameters change, they change exactly as the light did. The multi-scale fitter keeps this.", "quantifier": "all images, templates, warps, transforms and motion models, initial shapes, iteration counts, contrasts and brightnesses (per patch for constrained local models), all algorithms named, forward and inverse, with and without priors and costs, any number of scales", "why_tests_cant": "Two runs on arbitrary pictures are compared at every iteration for a continuum of contrasts and brightnesses; a test compares one pair of pictures, and only up to a tolerance.", "anchors": ["menpofit/lk/algorithm.py: ForwardAdditive.run, ForwardCompositional.run, InverseCompositional.run", "menpofit/lk/residual.py: ECC, GradientImages, GradientCorrelation, SSD", "menpofit/clm/expert/ensemble.py: ExpertEnsemble, ConvolutionBasedExpertEnsemble", "menpofit/aam/algorithm/lk.py", "menpofit/fitter.py: MultiScaleParametricFitter._fit"]}
{"id": "C139", "title": "The signs of principal components do not matter", "statement": "Principal components are determined only up to sign, and different machines and library versions return different signs. Building an OrthoPDM from components of other signs, setting targets and numbers of components and incrementing it gives the same shapes, similarity weights and exceptions, and other weights that differ only in sign. CLM, AAM and unified AAM-CLM fits with shape and appearance components of other signs find the same shapes and costs. Supervised descent on shape parameters, or on features projected on principal components, trains and fits alike whatever the signs. Not so: weights a user chose by hand mean another shape, and the alternating AAM algorithms with prior depend on the signs when there are as many appearance components as features.", "quantifier": "every shape model, every choice of signs of shape and appearance components, every history of targets, component numbers and increments (each with its own signs), every picture, initial shape, algorithm, prior, regularisation, number of iterations and tolerance", "why_tests_cant": "a test sees the one choice of signs that the linear algebra library of its machine makes", "anchors": ["menpofit/modelinstance.py:OrthoPDM", "menpofit/modelinstance.py:GlobalSimilarityModel", "menpofit/clm/algorithm/gd.py:RegularisedLandmarkMeanShift", "menpofit/aam/algorithm/lk.py:Alternating", "menpofit/aam/algorithm/lk.py:ProjectOut", "menpofit/unified_aam_clm/algorithm.py:AlternatingRegularisedLandmarkMeanShift", "menpofit/sdm/algorithm/parametricshape.py:ParametricShapeSupervisedDescentAlgorithm"]}
{"id": "C140", "title": "Rows and columns are treated alike", "statement": "Menpo stores coordinates as (row, column), other tools as (column, row), and pictures are sometimes transposed. If the picture, the annotations, the shape model, the search window and the experts all have rows and columns exchanged, error measures are unchanged, and alignment of training shapes, building, using and incrementing an OrthoPDM, training and fitting by supervised descent, and fits of CLMs, AAMs and unified models give the exchanged shapes with the same costs, or raise the same exception: no algorithm prefers one axis, and a window of h by w pixels is treated like one of w by h. Not so: the active shape model when a response map has several equal peaks, because the first in reading order is taken.", "quantifier": "every picture, every shape model and history of targets, component numbers and increments, every search window, response map, patch layout and expert, every initial shape, algorithm, prior, regularisation, number of iterations and tolerance", "why_tests_cant": "tests use square windows and one orientation of a few pictures; the claim relates two fits on arbitrary data, with different orders of parameters, pixels and features", "anchors": ["menpofit/base.py:build_grid", "menpofit/error/base.py", "menpofit/builder.py:align_shapes", "menpofit/modelinstance.py:OrthoPDM", "menpofit/clm/algorithm/gd.py:ActiveShapeModel", "menpofit/clm/algorithm/gd.py:RegularisedLandmarkMeanShift", "menpofit/clm/expert/base.py:probability_map", "menpofit/aam/algorithm/lk.py", "menpofit/unified_aam_clm/algorithm.py", "menpofit/sdm/algorithm/base.py"]}
{"id": "C141", "title": "The order of the channels of the pictures does not matter", "statement": "Giving every picture, at training and at fitting time, with its channels in another order changes no fitted shape, no parameter, no cost and no exception: for the Lucas-Kanade fitters of AAMs, the patch-based and the unified AAM-CLM fitters, the template-based Lucas-Kanade fitters with every residual, supervised descent with every linear regression, and multi-channel correlation filters with the ensembles built on them. Except where the algorithm itself singles out channels, more is true: any orthogonal mixing of the channels (a rotation of a colour space, say) changes nothing either.", "quantifier": "For every number of channels, every reordering (respectively every orthogonal matrix mixing the channels), all pictures, models, numbers of components, starting parameters, iteration limits and tolerances, all training batches and increments, every regularisation.", "why_tests_cant": "A test runs one set of pictures in one order of channels; that nothing depends on the order, or on the choice of an orthonormal colour basis, is a statement about all pictures, all mixings and runs of any length.", "anchors": ["menpofit/aam/algorithm/lk.py", "menpofit/aam/algorithm/sd.py", "menpofit/lk/residual.py:SSD", "menpofit/lk/residual.py:FourierSSD", "menpofit/lk/residual.py:ECC", "menpofit/lk/residual.py:GradientImages", "menpofit/lk/residual.py:GradientCorrelation", "menpofit/math/correlationfilter.py:mccf", "menpofit/math/correlationfilter.py:imccf", "menpofit/clm/expert/ensemble.py:CorrelationFilterExpertEnsemble", "menpofit/unified_aam_clm/algorithm.py", "menpofit/sdm/algorithm/base.py", "menpofit/math/regression.py"]}
{"id": "C142", "title": "A mirrored picture is fitted to the mirrored shape", "statement": "Training sets are often doubled by mirroring pictures, and left and right should not matter. If the picture, the annotations, the shape model and the experts are all seen in a mirror, error measures are unchanged (wherever the mirror stands), and alignment of training shapes, building, using and incrementing an OrthoPDM, training and fitting by supervised descent, and fits of CLMs, AAMs and unified models give the mirrored shapes with the same costs, or raise the same exception. For CLMs and unified models this holds when the search window has an odd width and the shape model was free of rotation when the fitter was built. Not so: a window of even width reaches one pixel further to the left than to the right, so that landmarks drift to the left where nothing is to be seen; the active shape model with windows of width 3, 7, 11, ... takes the middle column for one to the left of it; a fitter built when its shape model was last given a rotated shape keeps a derivative that is not the mirrored one.", "quantifier": "every picture, every shape model and history of targets, component numbers and increments, every search window of odd width (width 4k+1 for the active shape model), response map, patch layout and expert, every initial shape, algorithm, prior, regularisation, number of iterations and tolerance; for the violations every bandwidth and landmark position, and every rotated state", "why_tests_cant": "tests never fit a mirrored picture; the claim relates two fits on arbitrary data, and the asymmetry of windows is hidden by the noise of real response maps", "anchors": ["menpofit/base.py:build_grid", "menpofit/error/base.py", "menpofit/builder.py:align_shapes", "menpofit/modelinstance.py:OrthoPDM", "menpofit/modelinstance.py:GlobalPDM.d_dp", "menpofit/clm/algorithm/gd.py:ActiveShapeModel", "menpofit/clm/algorithm/gd.py:RegularisedLandmarkMeanShift", "menpofit/aam/algorithm/lk.py", "menpofit/unified_aam_clm/algorithm.py", "menpofit/sdm/algorithm/base.py"]}
{"id": "C143", "title": "A printed model or fitter tells what it is and what it uses at each scale", "statement": "`str()` of every trained AAM, ATM, CLM, unified model, Lucas-Kanade fitter and supervised descent fitter, and of every fitter built on such a model, returns a text and never raises. It shows the diagonal that pictures are scaled to (the requested one, or else that of the reference shape), and for each scale, in a part of its own that begins with the scale, what is used at that scale: features, patch shapes, experts, templates, shape and appearance models and (fitters) active components. Two models of a class that print the same text have the same title, scales, warp, features, patch shapes, experts, and shape and appearance models of the same class and number of components at each scale; two fitters of models that print the same text, if they print the same text, use the same algorithm and residual and the same numbers of active components at each scale.", "quantifier": "all models and fitters, all numbers of scales and all settings of each scale, all ways of writing numbers that keep different numbers apart", "why_tests_cant": "a test prints one configured model; that no two configurations are confused and that no accepted configuration makes printing fail concerns every pair of configurations", "anchors": ["menpofit/aam/base.py:_aam_str", "menpofit/atm/base.py:_atm_str", "menpofit/clm/base.py:CLM.__str__", "menpofit/unified_aam_clm/base.py:UnifiedAAMCLM.__str__", "menpofit/aam/fitter.py:LucasKanadeAAMFitter.__str__", "menpofit/atm/fitter.py:LucasKanadeATMFitter.__str__", "menpofit/clm/fitter.py:GradientDescentCLMFitter.__str__", "menpofit/unified_aam_clm/fitter.py:UnifiedAAMCLMFitter.__str__", "menpofit/lk/fitter.py:LucasKanadeFitter.__str__", "menpofit/sdm/fitter.py:SupervisedDescentFitter.__str__", "menpofit/aam/algorithm/lk.py:SimultaneousInverseCompositional.__str__"]}
{"id": "C144", "title": "How often the whole training set is listed does not matter, up to regularisation", "statement": "Passing every training image m times over (the list of images repeated m times) gives the same reference shape and aligns every copy of a shape to the same aligned shape; linear regressors without regularisation have the same coefficients (or raise the same exception); regularised linear regressors and cascades of them, and MOSSE and MCCF correlation filters, are those trained on the images once when the regularisation is multiplied by m, and the cascade leaves every copy of an image with the same shapes. With a fixed positive regularisation - which is what the API offers as a parameter with a default - the coefficients and the filter do change with m, unless the data are uncorrelated with the target.", "quantifier": "every training list, every number m of repetitions, every regularisation, every number of stages, every dimension of the features and of the target, every coordinate system of the shapes and every feature function", "why_tests_cant": "A test lists one training set a given number of times; the claim is about all training sets and numbers of repetitions, and about the regularisation that compensates for the repetition exactly.", "anchors": ["menpofit/builder.py: compute_reference_shape", "menpofit/builder.py: align_shapes", "menpofit/math/regression.py: IRLRegression.train", "menpofit/math/correlationfilter.py: mosse, mccf", "menpofit/sdm/algorithm/base.py: BaseSupervisedDescentAlgorithm._train", "menpofit/sdm/algorithm/base.py: BaseSupervisedDescentAlgorithm._compute_delta_x"]}
{"id": "C145", "title": "Asking for errors or costs does not change a fit", "statement": "fit_from_shape and fit_from_bb called with a ground truth shape and without one (or with another), and with return_costs on and off, raise the same exception or return the same shapes, shape parameters and numbers of iterations; the only differences are that the result has the ground truth that was passed and, if asked for, costs. The landmarks of the passed image are afterwards the same too, apart from the group used for the ground truth.", "quantifier": "all pictures, initial shapes or bounding boxes, pairs of ground truths (given or not), values of return_costs, features, scales, numbers of iterations, and the algorithms of AAMs (explicit appearance and project-out), ATMs, CLMs, unified AAM-CLMs, supervised descent and APS", "why_tests_cant": "It compares two runs for every picture, algorithm and option; tests of fits nearly always pass the ground truth and look at a few pictures.", "anchors": ["menpofit/fitter.py: MultiScaleNonParametricFitter._prepare_image, _fit, fit_from_shape, fit_from_bb", "menpofit/result.py: NonParametricIterativeResult, MultiScaleNonParametricIterativeResult, MultiScaleParametricIterativeResult", "menpofit/aam/algorithm/lk.py: run", "menpofit/aps/algorithm/gn.py: Inverse.run, Forward.run", "menpofit/sdm/algorithm/base.py: fit_parametric_shape, fit_non_parametric_shape"]}
{"id": "C146", "title": "Components that are not in use do not matter", "statement": "A shape model cut off after k components when it was trained (max_shape_components=k) and one trained with all components of which k are active have the same state after every history of set_target and from_vector calls, raise the same exceptions, and have the same parameters and Jacobians. Hence a CLM or APS fitter of the former made with n_shape=None and one of the latter made with n_shape=k give the same results for every sequence of pictures and starts, and the priors on the parameters are the same.", "quantifier": "all shape models all of whose components are active, all k >= 1, all histories of calls, all sequences of fits, all spectra", "why_tests_cant": "It relates two objects with different contents over unbounded histories; a test compares them after a few calls.", "anchors": ["menpofit/modelinstance.py: PDM.__init__, PDM.n_active_components, GlobalPDM, OrthoPDM", "menpofit/clm/algorithm/gd.py: RegularisedLandmarkMeanShift, ActiveShapeModel", "menpofit/aps/algorithm/gn.py", "menpofit/checks.py: set_models_components"]}
{"id": "C147", "title": "Convolution is linear, and takes images as well as arrays", "statement": "fft_convolve2d is linear in the picture and in the filter, fft_convolve2d_sum with Fourier-domain filters and the responses of correlation filter experts are linear in the picture, for every mode and boundary: of two inputs of the same size and any blend of them they raise the same exception, or the result of the blend is the blend of the results. Passing a menpo image instead of an array gives the same pixels, in an image. The latter is false for an array convolved with an image as filter, which always raises.", "quantifier": "all pictures, filters, sizes, modes, boundaries, numbers of channels and blending factors; all combinations of images and arrays", "why_tests_cant": "Linearity is a statement about all pairs of pictures and all factors; sizes and channel counts are unbounded, and padding and cropping depend on parities.", "anchors": ["menpofit/math/fft_utils.py: ndconvolution, fft_convolve2d, fft_convolve2d_sum, pad, crop", "menpofit/clm/expert/ensemble.py: CorrelationFilterExpertEnsemble.predict_response"]}
{"id": "C148", "title": "Finer scales only add to a fit and to a training", "statement": "If a multi-scale fitter fits a picture with a given number of iterations for each scale, then the fitter with only its coarsest m scales (same features, algorithms and numbers of iterations for these) fits it too; it prepares the same pictures and transforms, its per-scale results are the first m ones, and the shapes, costs, shape parameters and numbers of iterations it reports are the first ones that the full fitter reports. The same for training: if an AAM, CLM, ATM, APS, supervised descent or dlib fitter is trained (or incremented) on all scales, training it on the coarsest m scales succeeds too and gives the same reference shape and the same models (cascades) at these scales.", "quantifier": "all pictures, initial shapes, ground truths, training sets, batch sizes, numbers of scales, features, transforms, learners and per-scale algorithms, and all m", "why_tests_cant": "Any number of scales and any algorithm; coarse-to-fine fitting could use later scales (their features or transforms) in earlier ones in ways that only show for some combinations.", "anchors": ["menpofit/fitter.py: MultiScaleNonParametricFitter._prepare_image, _fit, fit_from_shape", "menpofit/result.py: MultiScaleNonParametricIterativeResult, MultiScaleParametricIterativeResult", "menpofit/checks.py: check_max_iters", "menpofit/aam/base.py: AAM._train, _train_batch, increment", "menpofit/clm/base.py: CLM._train_batch", "menpofit/atm/base.py: ATM._train_batch", "menpofit/aps/base.py: GenerativeAPS._train_batch", "menpofit/sdm/fitter.py: SupervisedDescentFitter._train_batch", "menpofit/dlib/fitter.py: DlibERT._train"]}
{"id": "C149", "title": "Fits that project the appearance out do not see the expression of the face", "statement": "If two pictures, from wherever they are warped, differ by something that the appearance components of the model can express (maybe by another combination at every place), the project-out inverse compositional algorithm gives both the same fit: the same shapes, shape parameters, costs, or the same exception, with and without the prior, whatever the algorithm object fitted before. The project-out and Wiberg forward compositional algorithms do, too, if the steepest descent images also differ by what the model can express; for Wiberg only the appearance parameters differ. False for Wiberg inverse compositional, whose steepest descent images follow the current appearance.", "quantifier": "all appearance models whose stored pseudo-inverse is one, all pairs of such pictures, all initial shapes, tolerances, numbers of iterations, priors and histories of earlier fits", "why_tests_cant": "It is a statement about all pairs of pictures and all differences in the span of the model, which may change with every step of the fit; a test tries a few offsets.", "anchors": ["menpofit/aam/algorithm/lk.py: ProjectOut, ProjectOutForwardCompositional, ProjectOutInverseCompositional, Wiberg, WibergForwardCompositional, LucasKanadeBaseInterface.solve_shape_map, solve_shape_ml"]}
{"id": "C150", "title": "Only the space spanned by the appearance components matters", "statement": "Two active appearance models whose appearance components span the same space (another basis of it, or more components than needed) give the same fits: the project-out algorithms prepare the same things and have the same outcomes after every history of fits, and the alternating (without prior), modified alternating and Wiberg algorithms, forward and inverse, report the same shapes, shape parameters, costs and appearances, or the same exception. So does the simultaneous algorithm without prior when one set of components is an invertible recombination of the other, and so do the unified AAM-CLM algorithms with and without prior.", "quantifier": "all pairs of models that agree but for their appearance components and whose components span the same space, all pictures, initial shapes, tolerances, numbers of iterations and histories of earlier fits", "why_tests_cant": "It compares two different models for all bases of a space and all pictures; a test tries a few rotations and cannot bound the error they leave.", "anchors": ["menpofit/aam/algorithm/lk.py: ProjectOut, Simultaneous, Alternating, ModifiedAlternating, Wiberg", "menpofit/aam/algorithm/lk.py: LucasKanadeStandardInterface.solve_all_ml, LucasKanadeBaseInterface.solve_shape_ml, solve_shape_map", "menpofit/unified_aam_clm/algorithm.py: ProjectOutRegularisedLandmarkMeanShift, AlternatingRegularisedLandmarkMeanShift"]}
{"id": "C151", "title": "How the shapes of a model are parametrised does not matter without a prior", "statement": "If the shape parameters of one model describe the same shapes and warps as those of another up to an invertible linear change of parameters (other scale, sign or basis of the shape components), then without priors every active appearance model, active template model, constrained local model and unified AAM-CLM algorithm reports the same shapes, costs and appearance parameters for both models, and shape parameters that translate into each other, or raises the same exception, whatever the two algorithm objects fitted before. False for Lucas-Kanade fits, which stop when the norm of the parameter increment is at most eps: there it holds for rotations, reflections and permutations of the parameters only.", "quantifier": "all pairs of models related by an invertible change of the shape parameters, all pictures, initial shapes, tolerances, numbers of iterations and histories of earlier fits (with or without priors)", "why_tests_cant": "It compares runs of two different models for every change of basis; a test tries a few, in floating point, for a few iterations.", "anchors": ["menpofit/aam/algorithm/lk.py: ProjectOut, Simultaneous, Alternating, ModifiedAlternating, Wiberg", "menpofit/atm/algorithm.py: Compositional, ForwardCompositional, InverseCompositional", "menpofit/aam/algorithm/lk.py: LucasKanadeBaseInterface.solve_shape_ml", "menpofit/clm/algorithm/gd.py: ActiveShapeModel, RegularisedLandmarkMeanShift", "menpofit/unified_aam_clm/algorithm.py: ProjectOutRegularisedLandmarkMeanShift, AlternatingRegularisedLandmarkMeanShift", "menpofit/lk/algorithm.py: ForwardAdditive.run, ForwardCompositional.run, InverseCompositional.run"]}
