# Formal model of menpofit: design

The sources in `/repo` are read as text; the model is written in Lean 4 under
`/verif/lean/Verif`.  Layout:

* `Verif/Model/*.lean`  – the model, one file per group of source files.  Every
  definition cites the file and lines it models and names its simplifications.
* `Verif/Spec/*.lean`   – small, independent specifications (written from the
  English property, not from the code) used by the theorem statements.
* `Verif/Lemmas/*.lean` – helper lemmas.
* `Verif/Props/*.lean`  – the property theorems, `C01_...` to the last property,
  with an `example` near each showing that a concrete non-trivial case meets its
  hypotheses.
* `properties.jsonl` – the properties in English; `MANIFEST.json` – which theorems
  claim which property; `seeded/LOG.jsonl` – the wrong programs the theorems were
  tested against.

Conventions: Python exceptions are values (`Except PyErr α`); mutable objects are
explicit state that is passed in and returned (also on the exceptional exit, where the
property is about it); NumPy arrays are lists, functions on `Fin n`, or Mathlib
matrices over a field; floating point is exact real / rational arithmetic.  Loops are
structural recursions or folds.  Randomness, images, features, PCA, SVD and warps are
parameters of the model.

Naming: a theorem `Cxx_..._violated` proves that the code does not have the property,
with a concrete witness or for a whole class of inputs.  A theorem `Cxx_..._partial`
proves part of a property; its comment says what is missing.  A property is `proved`
only if none of its theorems has either suffix.

## Plan per property

| id | property | `Props/` file | modelled and proved by | status |
|---|---|---|---|---|
| C01 | Scale specifications normalise to a non-empty flat list of numbers | Checks | `check_scales` on a universe of Python values; induction on values | proved |
| C02 | Per-scale options are broadcast to exactly one value per scale | Checks | the five broadcasting checks, branch by branch; list lemmas | proved |
| C03 | Patch shapes are normalised to one patch shape per scale | Checks | `check_patch_shape`; induction on lists | partial; violated: `C03_patch_shape_violated`, `C03_patch_shape_violated_all` |
| C04 | The iteration budget is split over scales without exceeding or losing it | Checks | `check_max_iters`, `np.round` as half-to-even on rationals; arithmetic | partial; violated: `C04_max_iters_violated` |
| C05 | Every documented sampling specification is accepted | Checks | `check_sampling` on Python values; case analysis | partial; violated: `C05_sampling_violated` |
| C06 | Setting active components updates every scale model | Checks | `set_models_components`, `check_diagonal`; list induction | proved |
| C07 | Batching partitions the training stream | Base | `batch` as an islice recursion; strong induction on the stream | proved |
| C08 | Sampling grids are integer lattices of the requested shape containing the centre | Base | `build_grid`; membership and count of integer ranges | proved |
| C09 | Component limits outside the documented range are rejected | Checks | `check_max_components` on Python values; case analysis | partial; violated: `C09_max_components_violated` |
| C10 | Fitting leaves the landmarks of the input image unchanged | Fitter | `_prepare_image` as a state and exception program with a crash oracle; symbolic execution | partial; violated: `C10_landmarks_violated_on_error`, `C10_landmarks_violated_reserved` |
| C11 | Moving from one pyramid scale to the next keeps the shape where it was in the image | Fitter | `_fit`, transforms as invertible maps; group algebra, induction over scales | partial; violated: `C11_no_jump_violated` |
| C12 | The transform reported for a scale undoes the feature extraction of that scale | Fitter, PlaneRoundTrip | the transforms collected by `_prepare_image`; induction over scales; `C12_plane_partial` discharges the assumptions about menpo with the affine least-squares alignment and covers ground truth and all landmarks | partial; violated: `C12_transforms_undo_violated` |
| C13 | A multi-scale fit runs every scale exactly once, from low to high | Fitter | the `_fit` loop; induction on scales | proved |
| C14 | Iterative optimisers respect max_iters and stop only for a reason | Optim | the `while k < max_iters and eps > self.eps` loops over an arbitrary step; induction on fuel | proved |
| C15 | One cost per reported shape | Optim | the same loops; invariant on the lists of shapes and costs | partial; violated: `C15_costs_lk_violated` |
| C16 | Fitting is repeatable: a fit does not depend on earlier fits | GaussNewton, LkStart | algorithm objects with cached Hessians, histories of runs; induction over histories | partial; violated: `C16_repeatable_violated` |
| C17 | The regularised (MAP) step minimises the regularised cost | AamSolvers, GaussNewton | the MAP solvers over matrices; completing the square | proved |
| C18 | A prior never pushes the parameters away from the mean | GaussNewton | the same; sign of the prior gradient | partial; violated: `C18_prior_inverse_violated` |
| C19 | The MAP solver works for any number of parameters | GaussNewton | `is not` on integers with the small-integer cache; case analysis | partial; violated: `C19_map_violated`, `C19_map_simultaneous_violated` |
| C20 | The final shape of a result is the last shape of its trajectory | Result | result classes as lists of shapes; list lemmas | proved |
| C21 | n_iters equals the number of updates actually performed | Result | result classes; counting | partial; violated: `C21_sdm_parametric_violated`, `C21_lk_violated` |
| C22 | Reconstruction indices point at the model reconstructions | Result | result classes; list indices | partial; violated: `C22_reconstruction_sdm_violated` |
| C23 | A multi-scale result is the concatenation of its scales in image coordinates | Result | multi-scale results; induction on scales | proved |
| C24 | Iteration labels number the iterations consecutively from 1 | Result | label generation; list lemmas | partial; violated: `C24_labels_parametric_violated`, `C24_labels_multi_violated`, `C24_labels_overwritten_violated` |
| C25 | Errors and displacements line up with the shapes | Result | result errors; list lemmas | proved |
| C26 | Point-to-point error is a metric | Error | error metrics over ℝ; Minkowski | proved |
| C27 | Root mean square error is a metric bounded by the largest coordinate difference | Error | error metrics over ℝ; inequalities | proved |
| C28 | Bounding-box normalised errors do not depend on the unit of length | Error | normalised errors; homogeneity | proved |
| C29 | Bounding-box measures bound one another | Error | bounding-box measures; inequalities | proved |
| C30 | The cumulative error distribution is a cumulative distribution | Stats | `compute_cumulative_error`; counting | proved |
| C31 | The failure rate is the fraction of images whose error exceeds max_error | Stats | failure rate; counting | partial; violated: `C31_failure_violated` |
| C32 | The area under the CED lies in [0, 1] | Stats | Simpson quadrature (`simps`, even=avg); induction on panels | partial; violated: `C32_unit_violated` |
| C33 | The median absolute deviation is translation invariant and scales | Stats | `mad`; sorting and medians | proved |
| C34 | Face mark-up conversions commute and keep landmark identity | Face | mark-up conversions; list index algebra | proved |
| C35 | Training a regularised linear regressor gives the best linear map | Regression | linear regressors over matrices; normal equations | proved |
| C36 | Incremental regression equals batch regression | Regression | recursive least squares; Woodbury identity, induction over increments | partial; violated: `C36_increment_eq_batch_violated` |
| C37 | Every regressor offered for supervised descent can be incremented or says so | Regression | state after refused increments; symbolic execution | partial; violated: `C37_half_update_violated` |
| C38 | Correlation filters minimise the regularised response error | CorrelationFilter | per-frequency filters over ℂ; completing the square | proved |
| C39 | Incrementally trained correlation filters equal batch trained ones | CorrelationEnsemble, CorrelationFilter | running sums of the filters; algebra | partial; violated: `C39_increment_eq_batch_violated`, `C39_ensemble_violated` |
| C40 | Cropping undoes padding | FftUtils, PadContent | pad and crop on lists with Python slices; list lemmas | partial; violated: `C40_crop_extent_violated`, `C40_crop_pad_violated` |
| C41 | Similarity model instances are exactly the similarity transforms of the shape | ModelInstance | the similarity model; linear algebra over ℝ | proved |
| C42 | A model instance always shows the shape its weights generate | ModelInstance, PdmHistories | shape model objects; invariant over operation lists | proved |
| C43 | Setting a target picks the closest shape the model can generate | ModelInstance | `set_target`; orthogonal projection | proved |
| C44 | An orthogonal PDM reproduces every shape it can generate | ModelInstance | orthogonal PDM; invariant over operation lists | partial; violated: `C44_after_increment_violated` |
| C45 | Homogeneous transform Jacobians are the exact derivatives | Homogeneous | Jacobians; `HasDerivAt` | proved |
| C46 | The Jacobian of a globally aligned PDM is the derivative of its target | Homogeneous, SharedModel | Jacobians of PDMs; `HasDerivAt` | partial; violated: `C46_rotation_violated`, `C46_away_from_mean_violated` |
| C47 | Radial basis derivatives are the exact derivatives | Warps | radial bases; `HasDerivAt` | proved |
| C48 | The landmark Jacobian of a piecewise affine warp is exact and a partition of unity | Warps | barycentric coordinates; algebra | proved |
| C49 | The spatial Jacobian of warps is the exact derivative | Warps | spatial Jacobians; `HasDerivAt` | partial; violated: `C49_pwa_violated`, `C49_tps_axes_violated`, `C49_tps_shape_violated`, `C49_tps_violated` |
| C50 | The reference shape has the requested diagonal | Builder | `compute_reference_shape`; real algebra | proved |
| C51 | Perturbation generation adds exactly the promised bounding boxes | Perturb | perturbation loops over landmark managers; list induction | partial; violated: `C51_later_image_violated`, `C51_stale_boxes_violated` |
| C52 | Supervised descent keeps regression targets and estimates consistent | Sdm | SDM training data; list induction | partial; violated: `C52_unequal_violated` |
| C53 | All perturbed shapes are carried to the next training scale | ScaleTraining | shapes carried over scales; list induction | partial; violated: `C53_provided_boxes_violated` |
| C54 | Mean-shift moves landmarks only inside the search window | Clm | mean-shift with a Gaussian kernel; convexity | proved |
| C55 | Response maps become probability maps | Clm | `probability_map`; sums | partial; violated: `C55_flat_violated` |
| C56 | A response peak at the centre of the search window does not move the landmark | Clm | grids of response maps; integer arithmetic | partial; violated: `C56_odd_window_violated`, `C56_even_window_violated` |
| C57 | The holistic/part-based weight of the unified fitter interpolates between AAM and CLM | Unified | unified updates; completing the square | partial; violated: `C57_project_out_violated`, `C57_cost_violated` |
| C58 | Appearance reconstructions use the model of the scale that produced the parameters | AamBase | appearance reconstructions; induction on scales | partial; violated: `C58_three_scales_violated` |
| C59 | Project-out removes exactly the appearance subspace | AamSolvers | project-out; inner products | proved |
| C60 | The Fourier residual without a kernel gives the same update as SSD | LkResidual | DFT defined by its sum; Parseval | proved |
| C61 | A residual is zero only when the images agree | LkResidual | residuals; trigonometry, algebra | partial; violated: `C61_opposite_orientation_violated`, `C61_forward_compositional_violated`, `C61_forward_compositional_run_violated` |
| C62 | Bounding boxes survive the round trip through dlib rectangles | Dlib | dlib rectangles; integer truncation | partial; violated: `C62_empty_rectangle_violated` |
| C63 | A wrapped pre-trained fitter reports shapes in the coordinates of the user image | Io | wrapped fitters; state machine, histories | partial; violated: `C63_no_initial_shape_violated` |
| C64 | Downloading copies every byte in order | Io | download loop; induction on reads | proved |
| C65 | A damaged pre-trained model file never survives | Io | file system state machine with crashes; induction over histories | partial; violated: `C65_first_call_violated`, `C65_passing_failure_violated` |
| C66 | Sampling masks select the same pixels in every channel | Sampling | sampling masks; list index algebra | proved |
| C67 | Batched training yields one model per scale whatever the batch size | Training | batch training; induction over batches | partial; violated: `C67_no_batch_violated`, `C67_atm_templates_violated` |
| C68 | Multi-valued plotting options are expanded without touching the caller | Visualize | plotting options with a heap of lists; case analysis | partial; violated: `C68_caller_list_violated` |
| C69 | Noise-free perturbation is exact alignment | Noise | noisy alignment; Procrustes over ℝ | partial; violated: `C69_scale_violated`, `C69_translation_violated`, `C69_argument_modified_violated` |
| C70 | Composing a model-driven transform with an increment solves the first-order condition | LkStart, ModelDriven, ModelDrivenJp, OrthoDriven | `_compose_after_inplace`; einsum shape check, least squares | partial; violated: `C70_plain_violated`, `C70_spatial_jacobian_violated`, `C70_jp_plain_violated` |
| C71 | Dataset statistics of several methods are computed independently | Stats | dataset statistics; list lemmas | proved |
| C72 | Inverse regression predicts the best explanation | Regression | indirect regression; completing the square | proved |
| C73 | Extent of Fourier-domain convolutions | FftUtils, PadContent | extents of convolutions; slice arithmetic | partial; violated: `C73_same_extent_violated`, `C73_valid_extent_violated`, `C73_fourier_filter_violated` |
| C75 | Refused updates leave a shape model unchanged | ModelInstance | state after refused updates; symbolic execution | partial; violated: `C75_inplace_violated` |
| C74 | The Jacobian of a model-driven warp depends only on the points and the current state | ModelDriven | the Jacobian cache; induction over histories | partial; violated: `C74_overwritten_array_violated` |
| C76 | The warp of a model-driven transform follows its shape model | ModelDriven, OrthoDriven | model-driven warps; invariant over operations | proved |
| C77 | Without a prior every optimisation step is the least-squares step | AamSolvers | optimiser steps; least squares | proved |
| C78 | AAM costs are the residual energies of the reported iterates | AamSolvers | costs of the AAM optimisers; algebra | proved |
| C79 | Simultaneous, Wiberg and project-out forward algorithms give the same fit | AamSolvers | two optimiser loops; simulation | proved |
| C80 | Every AAM optimiser can be run with priors | AamSolvers | prior branches with array shapes; case analysis | partial; violated: `C80_alternating_map_violated` |
| C82 | Sampled steepest descent images are the sampled rows of the full ones | Sampling | sampled interfaces; list index algebra | proved |
| C83 | Incrementing an ATM with a new template makes fitting use it | Training | ATM increments; induction over batches | partial; violated: `C83_increment_ignores_template_violated` |
| C84 | Trained models never exceed the maximum number of components | Training | component trimming; induction over batches | partial; violated: `C84_aps_limit_violated` |
| C81 | Instances of an AAM vary every mode of both models | AamBase | instances; list lengths | partial; violated: `C81_random_instance_violated` |
| C85 | Training helpers treat each image on its own | Builder | builder helpers; list induction with exceptions | proved |
| C86 | Noise on the target is scaled by the standard deviation given per point | Noise | noise broadcasting; shape arithmetic | partial; violated: `C86_per_point_violated` |
| C87 | A shape aligned with a bounding box has its centre and diagonal | Noise | box alignment; real algebra | proved |
| C88 | A trained cascade reproduces its training | Sdm | training and fitting a cascade; induction over levels | partial; violated: `C88_parametric_violated` |
| C89 | Dlib training leaves the user's images unchanged | ScaleTraining | dlib training over landmark managers; list induction | partial; violated: `C89_error_violated`, `C89_own_group_violated` |
| C90 | The number of iterations of a dlib cascade level and its options agree | Dlib | dlib options; case analysis | proved |
| C91 | Illumination invariant residuals ignore contrast and brightness | LkResidual | residuals of relit images; algebra | proved |
| C92 | Gradient residuals use the derivative of their features | LkResidual | steepest descent images; algebra | partial; violated: `C92_gradient_images_violated`, `C92_gradient_correlation_violated` |
| C93 | A perfect alignment is kept by Lucas-Kanade fitting | LkResidual | increments at alignment; algebra | partial; violated: `C93_forward_additive_violated` |
| C94 | The ECC residual maximises the correlation coefficient | LkResidual, LkSteps | ECC step; Cauchy-Schwarz | partial; violated: `C94_inverse_violated`, `C94_forward_violated`, `C94_no_optimum_violated` |
| C95 | Fourier-domain convolution is convolution | Convolution | convolution by DFT; convolution theorem, index arithmetic | partial; violated: `C95_even_filter_violated`, `C95_border_violated` |
| C96 | Lucas-Kanade increments are least squares solutions | LkForward, LkSteps | LK increments; normal equations | partial; violated: `C96_template_ignored_violated`, `C96_forward_violated` |
| C97 | Principal component regression | Spectral | PCR as a state machine over a parametric SVD; normal equations, thin SVD algebra | partial; violated: `C97_variance_violated`, `C97_all_variance_violated`, `C97_failed_training_violated` |
| C98 | Orthogonal Procrustes regression | ProcrustesCascade, Spectral | OPP regression; the largest inner product with U diag(s) V | partial; violated: `C98_more_features_violated` |
| C99 | Optimal linear regression | Spectral | Optimal regression over parametric pca and pinv; normal equations, uniqueness of the smallest solution | partial; violated: `C99_all_variance_violated` |
| C100 | Training a supervised descent algorithm is a function of its data | SdmState | Stateful model of the algorithm objects (regressors, shape model, appearance model; Model/SdmState) proved to refine the pure cascade of C52/C88; corollaries for verbosity and retraining; concrete counterexamples for kept models and failed trainings. | partial; violated: `C100_retrain_violated`, `C100_failed_violated` |
| C101 | Supervised descent fits are repeatable | PdmHistories, SdmState | Stateful model of the fits; simulation with the pure cascade of C88, closed under any sequence of fits; OrthoPDM shown to satisfy the no-memory law. | proved |
| C102 | Appearance features of supervised descent | SdFeatures | Masked linear algebra with the Moore-Penrose equations: kernel of the project-out map, least squares, Pythagoras. | proved |
| C103 | The transform of a linear AAM: landmarks and dense shape agree | LinearTransform | `Model/LinearTransform` models `LinearOrthoMDTransform` on top of the `OrthoPDM` model: `W`, the pseudo-inverse of its landmark columns (any matrix with the four Moore-Penrose equations), the densification in `set_target`, the sparse and dense targets and the result shapes. The least squares property of the pseudo-inverse gives the closest landmarks, uniqueness of the landmarks in the family gives the whole shape, and the settling lemma of C44 carries it through `set_target`. The two negations use a cross of four landmarks with five dense points, for which all quantities are rational. | partial; violated: `C103_rotation_violated`, `C103_activation_violated` |
| C104 | APS steps minimise the weighted appearance and deformation cost, and APS costs are those of the reported shapes | Aps | Model `apsInverse`, `apsForward` as kinds of algorithm over the shared OrthoPDM (`Verif.Model.SharedModel`). The energy is spelled out in sums in `Spec.apsEnergy`; completing the square shows the solution of the normal equations is its only minimiser. Costs follow from the loop specification. | partial; violated: `C104_costs_violated` |
| C105 | Fitters made from the same trained model are independent | SharedModel, SharedRuns | Model the shape model as the state shared by all algorithm objects; `Spec.Use` is what users do with it. A run only depends on the parts of that state which runs and constructors (without n_shape) leave alone. The two violations are proved for a concrete CLM with exact arithmetic and, for components, in general. That a fitter goes on working otherwise is an induction over iterations: the parameter vector keeps the length the fitter was made for. | partial; violated: `C105_build_violated`, `C105_components_violated` |
| C106 | The default deformation tree of an APS depends only on how relative positions vary | DeformationTree | Model the double loop, means, covariances and Gaussian densities of `_compute_minimum_spanning_tree`. The sum of the quadratic forms collapses to a constant (a trace), which gives the closed form; a linear map multiplies the determinant by a constant, all spanning trees have the same number of edges, so minimum trees stay minimum. | partial; violated: `C106_tree_violated` |
| C107 | The landmark derivative of a thin plate spline is exact | TpsLandmarks | Model the matrix of the spline, its truncated and its exact inverse, and every tensor `d_dl` builds, including the way NumPy places separated index arrays. With the source as target the coefficients are those of the identity, so only the derivative of the affine block matters and `d_dl` is a row of the inverse; a symmetric matrix makes the truncated inverse an orthogonal projection. The violations use translations of the source and a small triangle. | partial; violated: `C107_source_violated`, `C107_small_violated` |
| C108 | Masks, desired responses and filters of correlation filter experts | Ensemble | Model the Hann window, the density on `build_grid`, the mask, `padded_size`, the discrete Fourier transform and `crop`. Windows by monotonicity of the cosine; filter images by inversion of the transform and C40. | partial; violated: `C108_filters_violated`, `C108_offsets_violated` |
| C109 | Experts see patches as they did in training | PatchNorm | Model stacking and menpo's normalisation over the first axis as list functions. Normalisation cancels positive gains and shifts; one channel makes both paths the same list function; two channels with different ranges give the witness. | partial; violated: `C109_channels_violated`, `C109_relit_violated` |
| C110 | Linear models can be trained in batches and incremented | LinearTraining | Model the shape model steps with the frame as part of the state, on top of the batched training loops. Induction over scales and batches; sizes of dense shapes give the violations for every model with two differing scales. | partial; violated: `C110_increment_violated`, `C110_batches_violated`, `C110_atm_violated` |
| C111 | Constructors accept the documented options and store one value per scale | Constructors, FailedTraining | Model/Constructors.lean mirrors every constructor up to _train. Spec/Constructors.lean says what a documented option is and which list of values it stands for; equivalences between acceptance and that description are proved for each check and put together per constructor. | partial; violated: `C111_one_scale_violated`, `C111_sdm_violated`, `C111_dlib_violated`, `C111_aps_no_graph_violated` |
| C112 | Training of the unified AAM-CLM | UnifiedBase | Constructor modelled as a loop over scales with menpo operations as parameters that may raise (Model/UnifiedBase); the specification says pointwise which image reaches a scale (Spec/UnifiedBase.uniImageAt, ScaleTrained), proved by induction over the scales; the ignored options by showing that two option records with the same sigma train the same models. | partial; violated: `C112_options_violated` |
| C113 | diagonal sets the size of a model | Diagonal | Combines the reference shape of C50 (real arithmetic) with the training loops of C67 and C112: the reference shape kept by the model is the one computed from the first batch; a given shape is kept as it is, which refutes the documented rescaling. | partial; violated: `C113_given_violated` |
| C114 | Fitting prepares an image as training did | TrainFit | The operations of menpo are split into their effect on pixels and on landmarks (Model/TrainFit) and plugged into both existing models, the training loop (C67) and the fitter (C10-C13); the loop invariant of the fitter's preparation is compared scale by scale with the training specification imageAt. | partial; violated: `C114_tolerance_violated`, `C114_sigma_violated` |
| C115 | The pose of the training shapes does not enter a shape model | Alignment | Planar shapes as complex vectors; generalised Procrustes analysis modelled with its similarity alignments, rescaled mean target, tolerance and iteration limit (Model/Alignment). An invariant of the iteration (the target is centred, has the first size and correlates with some shape) shows that it never degenerates; poses cancel by computing the phase of the correlation. | partial; violated: `C115_increment_violated` |
| C116 | The resolution of the picture does not matter | Resolution | The fitter of C10-C13 is run on both pictures; induction over the scales shows that the lists of images agree and every affine transform is followed by the change of coordinates, which cancels when a shape is handed to the next scale. | proved |
| C117 | Every kind of model renders its instances | Instances | All `_instance` methods are modelled beside each other with the shape models of C81; the rendering of each class is compared with a specification of what is warped into which frame. Violations are proved for all models of the class. | partial; violated: `C117_masked_atm_violated`, `C117_linear_violated` |
| C118 | The table of statistics shows each method's own numbers, in the requested order | StatTable | The loop over types, the ordered dict, the data frame and the sort are modelled on top of the statistics of C71; the sort is any permutation that sorts its keys. Induction over the types. | partial; violated: `C118_names_violated` |
| C119 | Fitting with dlib retraces its training | DlibTraining | `train` and `run` of the algorithm are modelled with dlib as a parameter and put into the training loop of C53 and the fitting loop of C10-C13. The invariant of the induction over the scales is that the shape being fitted has the rectangle of the box in training: positive scalings commute with taking bounds. | proved |
| C120 | What is printed about a dlib fitter is what it trains with | DlibTraining | The template of the options, the copy the algorithm makes and the printed lines are modelled; the violation holds for all iteration counts that differ from dlib's default. | partial; violated: `C120_depth_violated` |
| C121 | A bias absorbs constant offsets | Offset | uses the regression model of C35: the normal matrix of the moved samples is invertible (kernel argument), and the shifted coefficients have the same cost, so uniqueness of the minimiser identifies the two regressors; the violations compute the minimiser of the one-sample problem. | partial; violated: `C121_regularised_violated`, `C121_inverse_violated` |
| C122 | Supervised descent classes use the options they are given, and can be incremented | SdClasses | new module SdClasses: the constructors as functions from given keywords to a regressor object or TypeError, regressors as operations of the SdmState model; options by cases on the class, increments by an invariant over all histories (every regressor held was created by the class, at most n_iterations of them). | partial; violated: `C122_bias_violated`, `C122_increment_violated` |
| C123 | A perfect alignment is kept by appearance and template model fitting | FixedPoint | The optimisers of Model/AamSolvers and Model/GaussNewton; at an image mean + A c all right-hand sides vanish (A pinv(A) A = A), so the state is a fixed point of the loop; run lemmas give the recorded lists. Prior: the regularised right-hand side is prior * p. Converse: regular normal equations with zero solution. | proved |
| C124 | Where the face is in the picture does not matter | Placement | Model/ClmRuns models the runs of the CLM and unified algorithms, Model/Placement puts OrthoPDM, warps and priors together with them and with the AAM/ATM/SDM models. `C124_shape_model`: procrustes and the projection on the similarity components commute with translations, because their span contains the translations; by induction over the history of the model. `C124_warps`, `C124_digital`: piecewise affine and patch warps follow the picture, and pixels with linear interpolation give such pictures for whole numbers of pixels. The algorithm theorems are bisimulations of the two runs, by induction on the iterations. `C124_prior_violated` shows for every shape model and vector that the prior of `map_inference` breaks it. | partial; violated: `C124_prior_violated` |
| C125 | A constrained local model goes where its experts point, and rests where they agree | ClmRest | Runs of Model/ClmRuns around an OrthoPDM (Model/Placement). `C125_every_iteration` unfolds the loop with `loop_spec` and uses the least squares characterisation of one step; symmetric maps give zero mean shift because the grid of odd windows is turned into its negative; rest theorems use the common lemma on optimisers whose first step changes nothing; the violation pairs the landmark errors with the translation in the column space of the Jacobian (`C125_jacobian_translates`). | partial; violated: `C125_peak_rest_violated` |
| C126 | Figures, plots and printed summaries of a result report its own numbers | ResultShow | Model/ResultShow keeps the parallel lists that the code builds (groups, landmarks, titles, three lists of colours; abscissae and ordinates) and the spec reads them as the renderer does, entry by entry. View and curves by case analysis and list extensionality; the summaries through C22 and C23 for several scales; the extra lists by induction over the scales (zip of flattened lists). | partial; violated: `C126_same_abscissa_violated` |
| C127 | The deformation an APS learns is that of relative positions along its graph, and APS fitting does not depend on where the face is | Deformation | `Model/Deformation` builds precision and mean of menpo's Gaussian Markov random field in the mode `subtraction` (inverse covariance blocks per edge) and lets an APS look at a picture through patches; the algorithms, the shared `OrthoPDM` and the runs are those of `Model/SharedModel`. The bilinear form of the precision is computed by induction on the edges; inverse covariances are positive definite, which gives the undeformed shapes by induction on the paths of the graph. Moving is a simulation between the two runs: the added similarity parameters move the points, and the precision does not see a common movement. | partial; violated: `C127_similarity_violated` |
| C128 | A whole multi-scale fit does not depend on where the face is in the picture or how large it is | Plane, PlaneAlgorithms | Model/Plane instantiates the multi-scale fitter with menpo's operations on pictures of the plane (rescaling to the reference shape, features with downsampling and offset, AlignmentAffine by normal equations, rescaling, results). A simulation between the two runs is carried through the preparation of the images, the loop over the scales and the construction of the result; AlignmentAffine is computed exactly from the normal equations of a zoomed shape. | partial; violated: `C128_repeated_violated` |
| C129 | Where the faces are in their training pictures does not matter to supervised descent training | TrainPlacement | the cascade of `Model/Sdm.lean` started from perturbed boxes (`Model/SdmStart.lean`); coordinates in which moving adds a constant per picture, then induction over rows, pictures and stages | partial; violated: `C129_reference_violated` |
| C130 | With a kernel, Lucas-Kanade minimises and reports the filtered error | LkKernel, LkKernelCosts | Model/LkKernel models the cost closures of SSD and FourierSSD over arrays with NumPy's broadcasting; the increments are those of Model/LkResidual. Spec/LkKernel defines the amplitude of a wave, the filtered energy and even kernels without reference to the model. The filter in space is shown to be a real symmetric positive matrix whose quadratic form is the filtered energy (Parseval), so that the solution of the weighted normal equations is the unique minimiser; cost runs by the loop invariant of Optim.run. | partial; violated: `C130_costs_violated`, `C130_wrong_cost_violated` |
| C131 | A longer fit extends a shorter one, and a fit that has not converged can be resumed from its final shape | Resume, ResumeLost | Specification: `firstIterations`, `continued`, `StillMoving` on the returned lists only. The loop of `Verif.Model.Optim` is split at an iteration; for each algorithm an invariant shows that the state after an iteration is the state a new run starts with from the final shape (the warp has been renewed, the appearance is the projection, the shape model has the same parameters - by the set_target theorems of C44/C105). The negative theorem exhibits one setup in which all the non-resumable algorithms differ after two iterations. | partial; violated: `C131_resume_violated` |
| C132 | Every step of a fit goes downhill | Downhill | The runs of C17 (project-out, simultaneous, alternating, modified alternating and Wiberg, over the loop of C16). The specification (Spec/Downhill.lean) says what it is for a function to fall along a direction, for a move to start downhill, and for an environment to see a differentiable (or linear) image. A step that solves the normal equations is shown to have a negative directional derivative of the objective unless it is zero, and then the derivative is zero, by completing squares; the derivative of the objective comes from Mathlib's Fréchet calculus. Induction over the loop carries this to every pair of consecutive iterates. Two one-pixel images refute that costs never rise and that inverse steps start downhill. | partial; violated: `C132_costs_rise_violated`, `C132_inverse_violated` |
| C133 | The order of the training images does not matter | Order, OrderLimits, OrderSdm | Model: the training loops (Model/Training), reference shape, alignment, deformation trees, filters, supervised descent (Model/Sdm) and, in Model/SdmRegression, the cascade with IRLRegression. Spec/Order says what 'the order does not matter' means (same successes). Proved by permuting every mapM and sum of the loops; the cascade is rewritten as a map over the images. Violations by concrete runs. | partial; violated: `C133_batches_violated`, `C133_experts_violated`, `C133_supervised_descent_violated` |
| C134 | Summary statistics rank methods fairly | StatOrder | Model/Stats. Medians are compared by counting (a value is at most the k-th smallest iff at least that many errors are below it), areas by monotonicity of Simpson's rule, mean against median by the fact that the median minimises the sum of absolute deviations and by Cauchy-Schwarz. | partial; violated: `C134_spread_violated` |
| C135 | Supervised descent training brings the training shapes closer, and prints how close | Descent, DescentLimits, DescentReport | Model/Sdm with the regressors of Model/Regression and Model/Spectral as cascade operations (Model/SdmRegression), Model/SdmReport for the printed numbers. A stage replaces the targets by targets minus predictions (from the consistency of C48), so the total error after the stage is the residual of the regression; the minimiser of the regularised problem (C15) beats zero. Principal component regression solves a least squares problem on the kept components. Violations: explicit one-dimensional training sets; a face at scale k of a concrete OrthoPDM. | partial; violated: `C135_single_shape_violated`, `C135_gauss_newton_violated`, `C135_procrustes_violated`, `C135_printed_parametric_violated` |
| C136 | How landmarks are numbered does not matter | Renumber, RenumberAlternating, RenumberFits, RenumberSdm | Models of Error, Gpa, ModelInstance, ClmRuns, AamSolvers, GaussNewton, Unified, Sdm and Regression. For each algorithm a naturality lemma shows that one step commutes with renumbering; induction over iterations, stages or operations gives the whole run. Solving with permuted normal equations permutes the solution (det and inverse of a submatrix along an equivalence). | partial; violated: `C136_indexed_errors_violated`, `C136_alternating_violated` |
| C137 | What a failed increment leaves behind | FailedTraining | Model/FailedTraining gives the training loops of Model/Training with the attributes at the moment an exception leaves them. C137_outcome ties the two together. Induction over batches and scales yields C137_left_whole, C137_left_batches (specification Spec/FailedTraining: GivenUpAt), C137_usable, C137_unreadable_*_partial and C137_resume; the violations are universal over models (C137_second_refused_violated, C137_aps_refused_violated) or concrete (C137_retry_violated). | partial; violated: `C137_second_refused_violated`, `C137_retry_violated`, `C137_aps_refused_violated` |
| C138 | The light of a picture does not change a fit that normalises it | Lighting | Two pictures are alike when every warp of one is the other's with its own contrast and brightness (`Spec.RelitPicture`), or, for appearance models, when their features differ by a vector in the span of the model (`Spec.Brighter`, `Spec.Contrasted`). For the Lucas-Kanade residuals the normalised quantities are shown equal and the run is the same function of them. For appearance models a simulation between the two runs is carried through every iteration (`Lighting.run_lit`), with a map on parameters and costs. The three violations evaluate the model on concrete pictures. | partial; violated: `C138_ssd_violated`, `C138_map_violated`, `C138_inverse_contrast_violated` |
| C139 | The signs of principal components do not matter | Signs, SignsAlternating | Spec/Signs.lean says what it means to change signs (flipPca, flipPdm, flipTrace); Spec/Turned.lean generalises to orthogonal changes of parameters. Each operation of the OrthoPDM commutes with a change of signs (QR may choose its own signs, SignBlind), histories by induction; fits by a simulation of the optimisation loops in which parameters are multiplied by orthogonal matrices (normal equations, priors and costs are invariant), instantiated with diagonal matrices of signs; supervised descent by the equivariance of both incremental regressions. Counterexamples for user weights and for the alternating algorithm with prior. | partial; violated: `C139_weights_violated`, `C139_alternating_violated` |
| C140 | Rows and columns are treated alike | Transpose, TransposeFits | An exchange of axes acts on shapes (`transposed`), statistics, similarities, maps (`transposedMap`) and meshes; the shape model of exchanged statistics is shown to be the exchanged one up to signs, its parameters being a signed permutation, an orthogonal matrix, so that the fits follow from the lemmas on orthogonal changes of parameters (C139); response maps and search windows are rewritten as grids whose sums do not depend on the order of summation. The active shape model needs a single peak; a symmetric map with two peaks refutes the rest. | partial; violated: `C140_active_shape_violated` |
| C141 | The order of the channels of the pictures does not matter | Channels, ChannelsSdm | Spec/Channels states mixing by a real matrix (planes, feature vectors, patches, spectra, experts). An orthogonal mixing of the channels is an orthogonal matrix on the feature vectors that commutes with masks, gradients and steepest descent images, so Gram matrices, projections and inner products are the same and every step of every algorithm is (Lemmas/Channels, ChannelsLk, ChannelsRest); the loops follow by induction. Correlation filters: the normal equations are conjugated by the mixing, frequency by frequency. Supervised descent: ridge regression on orthogonally transformed rows, as in C139. Where channels are singled out (ECC's mean, gradient correlation, MOSSE, per-channel normalisation) only reorderings, with witnesses that rotations matter. | partial; violated: `C141_single_channel_violated`, `C141_patches_violated` |
| C142 | A mirrored picture is fitted to the mirrored shape | Mirror, MirrorFits | A mirror acts on shapes (`reflected`), statistics, similarities, maps (`reflectedMap`, every row reversed) and meshes; the shape model of reflected statistics is shown to be the reflected one up to signs, its parameters changing by a diagonal orthogonal matrix and its landmark errors by another, so that the fits follow from the lemmas on orthogonal changes (C139); search windows of odd width are shown to be symmetric grids. Constant response maps, maps with one peak in the middle and rotated states refute the rest. | partial; violated: `C142_window_violated`, `C142_active_shape_violated`, `C142_rotation_violated` |
| C143 | A printed model or fitter tells what it is and what it uses at each scale | Printing, PrintingLines | Model/Printing: `__str__` of the models and fitters as functions from what they read to lists of lines. Totality by list lookups; two equal texts are taken apart block by block (blocks of a kind have the same number of lines, a block with a patch shape is told from the next block by its indentation), lines by cancelling their fixed parts. | partial; violated: `C143_names_violated`, `C143_algorithms_violated`, `C143_plain_shape_model_violated` |
| C144 | How often the whole training set is listed does not matter, up to regularisation | Copies | the repetition of a list is `Spec.copies`. Sums over a repeated list are multiples of the sums over the list, so means are unchanged, and so is every round of the Procrustes analysis (`C144_reference_shape`, `C144_aligned`). The normal matrix and the cross-correlation are multiplied by m when the regularisation is, so the solution is the same (`C144_regression_partial`), and by induction over the stages so is the cascade (`C144_supervised_descent_partial`, for training sets in which every image has the same positive number of start shapes); the same argument serves the correlation filters (`C144_filters_partial`). With a fixed positive regularisation the difference of the two normal equations leaves (m-1)·alpha·W = 0, so the coefficients change unless the data are uncorrelated with the targets (`C144_regularisation_violated`, `C144_filters_violated`). | partial; violated: `C144_regularisation_violated`, `C144_filters_violated` |
| C145 | Asking for errors or costs does not change a fit | Bystander | Spec/Bystander.lean says what two images (SameUpToTruth), two results (SameJourney) and two algorithms (SameAlgorithm) have in common; the preparation of the images, the loop over the scales and the construction of the results are compared step by step (Lemmas/Bystander), for the fits of Model/Plane; the loop of the optimisers by induction on the iterations left. APS: the costs are computed before the loop and raise when the sizes differ. | partial; violated: `C145_aps_violated` |
| C146 | Components that are not in use do not matter | InUse | Relational invariants `SamePdm`, `SameGlobalPdm`, `SameOrthoPdm` (same components in use, same weights and target) shown to hold at construction and to be kept by every call; lifted through algorithm constructors, iterations and sequences of fits by induction. The prior by permutation of the unused eigenvalues. | proved |
| C147 | Convolution is linear, and takes images as well as arrays | ConvLinear | Padding, cropping and the last step are shown to commute with any map of the pixels that keeps zero (parametricity, by cases on the boundary); a pair of planes is then carried through as one plane of pairs, and the transforms are matrices, hence linear. Images by cases on the arguments. | partial; violated: `C147_image_filter_violated` |
| C148 | Finer scales only add to a fit and to a training | Coarser, CoarserTraining | The loop over the scales of `_prepare_image` and that of `_fit` are shown, by induction over the list of scales, to give on a prefix of the scales the prefix of what they give on all of them; the result objects concatenate per scale, so prefixes stay prefixes. For training, the batch loops are shown to commute with cutting the lists of models to the first m scales (for an ATM, up to the templates that batches repeat), and the loops of the cascades give prefixes. | proved |
| C149 | Fits that project the appearance out do not see the expression of the face | Expression | Two runs are related state by state (same parameters and caches, masked warps that differ by A c, steepest descent images by A B); P A = 0 for the projection P = 1 - A A⁺ makes errors, Hessians and costs agree. The inverse cache is blind to A for every history of runs, since runs keep QJ and its pseudo-inverse. Wiberg is compared after dropping the appearance parameters. The witness is a one-step run with a Jacobian that depends on the appearance. | partial; violated: `C149_wiberg_inverse_violated` |
| C150 | Only the space spanned by the appearance components matters | SameSpace | The orthogonal projection A A⁺ onto a space is unique (Penrose conditions), so the project-out environments are equal. Runs of the other algorithms are related by equal shape parameters, warps, J dp and rendered appearances A c, kept by every step; for the simultaneous one the normal equations of the other basis are Dᵀ H D with D = diag(R, 1), with the same solvability and solutions D q' = q. Unified models: the state does not contain appearance parameters, so the two machines take the same steps and differ only in what they report. | proved |
| C151 | How the shapes of a model are parametrised does not matter without a prior | Reparametrised | The normal equations in other parameters are Rᵀ H R, solvable exactly when H is, with solutions that translate by R; hence runs are related step by step (R p' = p, same warps, appearance and J dp), also for CLM and unified steps, whose pseudo-inverses translate alike. For the inverse algorithms R pinv' = pinv holds after _precompute and is kept by every run. Lucas-Kanade (SSD, any kernel, all three algorithms): the same for RᵀR = 1, since then the norms that decide on convergence agree; the witness is a ramp measured in units of 1 and of 1000. | partial; violated: `C151_lk_violated` |

## Where the code and the property disagree

* **C03** Patch shapes are normalised to one patch shape per scale: Violated: a one-element list of patch shapes yields a single entry instead of one per scale. Partial: single pair and full-length lists.
* **C04** The iteration budget is split over scales without exceeding or losing it: Violated: 3 iterations over 2 scales give 4. Partial: nearest-even rounding per scale, total off by at most n/2, exact when divisible, lists kept.
* **C05** Every documented sampling specification is accepted: Violated for plain int and lists with None. Partial: arrays / NumPy ints and lists of them.
* **C09** Component limits outside the documented range are rejected: Violated: out-of-range limits are accepted. Partial: wrong types are rejected, valid limits kept.
* **C10** Fitting leaves the landmarks of the input image unchanged: Violated on exceptional exit and for reserved groups. Partial: successful preparation, no reserved groups.
* **C11** Moving from one pyramid scale to the next keeps the shape where it was in the image: Violated when the features change and translate. Partial: only the first feature repeated, commuting transforms at feature changes.
* **C12** The transform reported for a scale undoes the feature extraction of that scale: Violated for [f,g,g]. Partial: only the first feature repeated consecutively.
* **C15** One cost per reported shape: Violated by the Lucas-Kanade loop (the cost of the last shape is missing, costs lag by one). Partial: the other loops.
* **C16** Fitting is repeatable: a fit does not depend on earlier fits: Violated: the regularised inverse AAM/ATM algorithm changes its cached Hessian. Partial: every other combination of algorithm and history.
* **C18** A prior never pushes the parameters away from the mean: Violated by every regularised inverse AAM/ATM step with non-zero parameters. Partial: forward, APS and CLM steps.
* **C19** The MAP solver works for any number of parameters: Violated for more than 256 parameters (identity comparison of integers). Partial: up to 256 parameters.
* **C21** n_iters equals the number of updates actually performed: Violated by supervised descent with a parametric shape (one short) and by every multi-scale Lucas-Kanade result (short by the number of scales). Partial: all other optimisers and result classes.
* **C22** Reconstruction indices point at the model reconstructions: Violated for supervised descent with a parametric shape (points at the first update). Partial: all results whose scales record the reconstruction.
* **C24** Iteration labels number the iterations consecutively from 1: Violated: parametric with initial shape (first update labelled 3), multi-scale parametric without initial shape (first update labelled -1), several reconstructions share a label. Partial: the remaining cases.
* **C31** The failure rate is the fraction of images whose error exceeds max_error: Violated when the step does not divide the range (threshold is the last bin). Partial: dividing steps exactly; any step up to one bin.
* **C32** The area under the CED lies in [0, 1]: Violated when the step does not divide the range (area 1.2). Partial: dividing steps; general bound 1 + step/max. Monotonicity complete. SciPy's simps is modelled with its default even='avg'.
* **C36** Incremental regression equals batch regression: Violated for every regulariser other than 1 (the incremental update uses alpha where the identity belongs). Partial: regulariser 1, any sequence of increments. Refusal complete.
* **C37** Every regressor offered for supervised descent can be incremented or says so: Violated: mismatched rows leave V changed and W not; see also C36. Partial: matching rows.
* **C39** Incrementally trained correlation filters equal batch trained ones: Violated for every positive regulariser (weights multiply sums instead of averages; the ensemble also counts the new images as old). Partial: single-image increments give the batch filter for a scaled regulariser.
* **C40** Cropping undoes padding: Violated when zero or one pixel is cropped along an axis (empty result). Partial: at least two pixels. Padding complete.
* **C44** An orthogonal PDM reproduces every shape it can generate: Proved for every state reached without increments (partial); after an increment the alignment keeps the old mean as source and the property is violated (witness).
* **C46** The Jacobian of a globally aligned PDM is the derivative of its target: Exact for plain PDMs. Globally aligned PDMs: proved at zero non-rigid weights without rotation; violated with rotation (wrong axis) and away from the mean (scale derivative taken at the mean shape).
* **C49** The spatial Jacobian of warps is the exact derivative: Violated for every piecewise affine warp that is not locally the identity (identity is always returned) and for thin plate splines: ValueError unless sampled at as many points as centres, last two axes exchanged, wrong sign of the non-linear part. Proved in the remaining trivial cases.
* **C51** Perturbation generation adds exactly the promised bounding boxes: Count, numbering, content, inside the image, other groups and the error are proved. Two violations: only the first image is checked for matching boxes, and boxes left by an earlier call are listed again.
* **C52** Supervised descent keeps regression targets and estimates consistent: Proved for training and incrementing with equally many shapes per image (parametric: when parameters of a generated shape are those parameters, see C44). Violated with unequal numbers of shapes: IndexError, or uninitialised target rows.
* **C53** All perturbed shapes are carried to the next training scale: Proved without provided boxes, for supervised descent and dlib fitters, assuming algorithms keep counts (proved in C52) and menpo's landmark handling. Violated whenever boxes are provided: nPert+1 shapes per box at the lowest scale, only nPert per image later.
* **C55** Response maps become probability maps: Partial: a stack containing a flat map raises IndexError, and a one-pixel map becomes 1/2 (C55_flat_violated). All stacks without flat maps proved.
* **C56** A response peak at the centre of the search window does not move the landmark: Partial: holds (with the sign of every displacement) for window sizes 1 mod 4; fails for sizes 3 mod 4 (C56_odd_window_violated) and even sizes (C56_even_window_violated).
* **C57** The holistic/part-based weight of the unified fitter interpolates between AAM and CLM: Partial: alternating fitting proved for every weight; project-out fitting ignores the weight without prior and uses the unweighted Hessian with it (C57_project_out_violated); the reported cost does not weigh the part-based term with 1 - a (C57_cost_violated).
* **C58** Appearance reconstructions use the model of the scale that produced the parameters: Count proved for any number of scales; content proved for one and two scales; for three scales the third block is proved wrong for all distinct parameters because the offset is overwritten instead of accumulated.
* **C61** A residual is zero only when the images agree: Inverse compositional: zero cost iff the gradients agree up to one gain; gradient correlation: zero residual iff gradients are parallel. Violated: opposite orientations give a zero residual; in forward compositional fitting the stored template gradient is overwritten by that of the warped image, so every increment is zero and a run stops at the initial shape.
* **C62** Bounding boxes survive the round trip through dlib rectangles: Partial: an empty dlib rectangle (right < left or bottom < top) comes back with swapped edges (C62_empty_rectangle_violated). Boxes, shapes and parts are proved in full.
* **C63** A wrapped pre-trained fitter reports shapes in the coordinates of the user image: Partial: with preprocessing, a wrapped fitter whose results have no initial shape (dlib) raises after a successful fit (C63_no_initial_shape_violated). Coordinates, options and call histories proved in full.
* **C65** A damaged pre-trained model file never survives: Partial: the call right after a crashed download raises (C65_first_call_violated); a passing loading failure deletes an intact file (C65_passing_failure_violated). Recovery one call later is proved.
* **C67** Batched training yields one model per scale whatever the batch size: Proved for AAM, CLM and APS for every batch size with at least one batch. Violations: no images (or batch_size=0) gives a model without any scale; an ATM keeps one warped template per scale and batch instead of one per scale.
* **C68** Multi-valued plotting options are expanded without touching the caller: Partial: a list with exactly one value is extended in place, so the caller's list changes (C68_caller_list_violated). Expansion and errors proved in full.
* **C69** Noise-free perturbation is exact alignment: Zero noise, the alignment itself (with optimality of the rotation), Gaussian noise, errors and bounds on angle and move are proved; uniform scale noise is unbounded, the move is applied before the alignment, and a one-element list of the caller is extended in place (violated).
* **C70** Composing a model-driven transform with an increment solves the first-order condition: Plain model-driven transforms always raise ValueError (invalid einsum output). Global ones over a piecewise affine warp: unique least-squares solution proved, equal to the increment itself over an identity similarity. Violated for other spatial Jacobians (sums rows instead of multiplying).
* **C73** Extent of Fourier-domain convolutions: Violated: filters of height 2 to 5 give an empty result in mode 'same'; fft_convolve2d with a Fourier-domain filter raises in modes 'same' and 'valid'. Partial: filters of at least 6 x 6; fft_convolve2d_sum.
* **C75** Refused updates leave a shape model unchanged: set_target and n_active_components proved atomic; the in-place vector update assigns the weights before it raises, proved violated by a witness.
* **C74** The Jacobian of a model-driven warp depends only on the points and the current state: Proved for all histories that do not overwrite an array after passing it; violated otherwise (the cache keeps a reference to the array).
* **C80** Every AAM optimiser can be run with priors: Violated by the alternating algorithms (lk.py:1209 multiplies by A_m instead of its transpose, ValueError); proved for simultaneous, modified alternating, Wiberg and forward project-out with at most 256 shape parameters (`is not` comparison of integers).
* **C83** Incrementing an ATM with a new template makes fitting use it: Proved after construction in any number of batches; violated after every increment: the new warped templates are appended and the interfaces zip the first ones with the shape models, so the new template is never used.
* **C84** Trained models never exceed the maximum number of components: Proved for AAM and CLM, construction and increments, given that trimming respects its argument; violated for an APS, whose shape models are incremented without the maximum.
* **C81** Instances of an AAM vary every mode of both models: instance proved; random_instance draws as many appearance weights as there are shape components, so it raises ValueError whenever the appearance model has fewer components (violated) and leaves the remaining appearance modes at zero otherwise (partial).
* **C86** Noise on the target is scaled by the standard deviation given per point: A float is proved; a list with one value per point raises ValueError for three or more points and is applied per axis for two (violated).
* **C88** A trained cascade reproduces its training: Proved for the non-parametric algorithms. For the parametric ones proved when the training shape is an instance of the shape model; violated otherwise: training computes the first features on the raw shape, fitting on its projection.
* **C89** Dlib training leaves the user's images unchanged: Proved for successful calls on images without a group called __gt_bb. Violated when an exception is raised after the temporary group was set, and for images that have such a group (it is lost).
* **C92** Gradient residuals use the derivative of their features: Holds when the crossed derivatives of the normalised gradients agree. Violated otherwise: the code overwrites one crossed derivative by the other, which is right for gradients but not for normalised gradients.
* **C93** A perfect alignment is kept by Lucas-Kanade fitting: Proved for inverse and forward compositional fitting with all residuals, and for forward additive fitting with SSD, FourierSSD and ECC. Violated for forward additive fitting with gradient images: the gradient of the warped image is compared with the warped gradient.
* **C94** The ECC residual maximises the correlation coefficient: Inverse compositional: holds when image and template have equally large remainders outside the span of the steepest descent images. Violated otherwise (the numerator of the step size uses the image instead of the template), and in forward compositional fitting (the step size multiplies the image instead of the template).
* **C95** Fourier-domain convolution is convolution: Proved for filters of at least 6 by 6 not larger than the image, odd or with an even extended shape, away from the first and last row and column (everywhere if the filter is zero along its border). The code violates the rest: even filters are placed one pixel off when the extended shape is odd (C95_even_filter_violated), and the extension by half a filter lets the last row wrap into the first (C95_border_violated).
* **C96** Lucas-Kanade increments are least squares solutions: SSD and FourierSSD without kernel fully. Partial for the gradient residuals: inverse compositional, linearised with the steepest descent images the code computes (whose rows are not always the derivatives, C92). Violated by forward fitting with gradient residuals: the template plays no part in the increments and fits (C96_template_ignored_violated), and the forward compositional increment is not the least squares solution (C96_forward_violated).
* **C97** Principal component regression: Proved without variance. With a variance the least squares part is proved, but the directions kept never reach the requested share (the comparison is strict and the count is not increased by one): with variance=1 and one feature every prediction is zero. Training assigns V before it can raise, so failed training changes predictions.
* **C98** Orthogonal Procrustes regression: For every shape the trained map lengthens nothing and has the largest inner product of predictions and targets among such maps. Least error is proved if there are at most as many features as outputs; with more features it is false (C98_more_features_violated). The whitened case is proved if there are at most as many outputs as features.
* **C99** Optimal linear regression: Proved without variance for any lawful pca and pinv (which exist). With a variance the components kept stay below the requested share; with variance=1 and one feature every prediction is zero.
* **C100** Training a supervised descent algorithm is a function of its data: Verbosity never matters; retraining is independent of the history as long as the object holds no models from an earlier training. Violated for classes with a shape or appearance model (kept from the first training) and for trainings that raise midway (regressors trained so far stay and are used).
* **C103** The transform of a linear AAM: landmarks and dense shape agree: Violated for rotated shapes (C103_rotation_violated) and when components are activated after construction (C103_activation_violated); proved for unrotated shapes with the components active at construction.
* **C104** APS steps minimise the weighted appearance and deformation cost, and APS costs are those of the reported shapes: Proved for both algorithms over the shape model's Jacobian. Costs are right when all pixels are sampled (C104_costs_partial); with a sampling mask a run with return_costs=True always raises ValueError because the masked error meets the unmasked precision (C104_costs_violated). C104_sampling: the masked precision is the restriction of the full one.
* **C105** Fitters made from the same trained model are independent: Fits are independent of all histories that do not ask for a number of components (C105_fits_independent). Violated for constructors: the Jacobian is computed at whatever shape the last fit left behind (C105_build_violated; the same when that shape was the mean: C105_build_partial). Violated for components: a second fitter with another n_shape makes every later fit of the first raise (C105_components_violated). Without such a request in between, a fitter made after any history always fits (C105_components_partial).
* **C106** The default deformation tree of an APS depends only on how relative positions vary: Weights in closed form (C106_weights), acceptance and refusal (C106_accepts, C106_refuses), invariance of weights up to a common constant (C106_moved). Invariance of the minimum trees holds when no weight happens to be zero (C106_tree_partial); menpo reads a zero weight as no edge, so shapes at one particular scale have no tree (C106_tree_violated). menpo's search for the tree is described, not modelled.
* **C107** The landmark derivative of a thin plate spline is exact: Exact for sources that determine the affine part and singular values that are zero or above the threshold, with inverse or pseudo-inverse. Violated: the docstring promises the derivative with respect to the source landmarks, which has the opposite sign; for landmarks closer than 1e-4 menpo discards a singular value of the spline that d_dl keeps.
* **C108** Masks, desired responses and filters of correlation filter experts: Masks and responses proved for all sizes; with a side of two pixels the mask is zero everywhere. Filter images proved from six pixels; violated below (empty images). n_sample_offsets raises ValueError for every list of offsets.
* **C109** Experts see patches as they did in training: Proved for training and for patches with one channel. Violated with several channels: the array of all patches has the landmarks on its first axis, so in fitting the channels of a landmark are normalised together.
* **C110** Linear models can be trained in batches and incremented: Proved for construction in one batch with any number of scales, and for batches and increments with one scale. Violated with several scales: only the frame of the highest scale is kept, so every second batch and every increment raises an error as soon as two scales differ in their number of dense points.
* **C111** Constructors accept the documented options and store one value per scale: Proved as equivalences (accepted iff documented, with the stored values) for AAMs, the unified model, APS and Lucas-Kanade. ATMs and CLM: only for scales given as list or tuple; a bare number always raises TypeError (violated). SupervisedDescentFitter: its default sd_algorithm_cls and any batch_size are always refused (violated). DlibERT: documented float feature_padding and None for n_dlib_perturbations are refused (violated). An APS without appearance graph, the default, is always refused after its other models have been built (violated). A one-element list of patch shapes is excluded here because of C03.
* **C112** Training of the unified AAM-CLM: Which data trains which model at every scale, and the interfaces, are proved. Violated: reference_shape, boundary and response_covariance never change what is trained (C112_options_violated).
* **C113** diagonal sets the size of a model: Proved when no reference shape is given (and for the unified model always). Violated: a given reference shape is stored unscaled whatever the diagonal (C113_given_violated).
* **C114** Fitting prepares an image as training did: Proved for factors that are 1 or outside NumPy's tolerance of 1. Violated: a factor close to but not equal to 1 rescales only when fitting (C114_tolerance_violated); the sigma smoothing of a unified AAM-CLM is applied only when training (C114_sigma_violated).
* **C115** The pose of the training shapes does not enter a shape model: Alignment, position and orientation proved; copies proved for a model built at once. Violated: an increment is aligned on its own, so a turned copy of the mean adds variance (C115_increment_violated).
* **C117** Every kind of model renders its instances: Violated: instances of MaskedATM always raise TypeError (the list of all patch shapes is used as one patch shape), linear models raise NotImplementedError. random_instance of appearance models is C81.
* **C118** The table of statistics shows each method's own numbers, in the requested order: Partial: column names must be distinct; with repeated names columns are lost and sorting uses the wrong statistic (C118_names_violated). pandas' sort is any function that sorts.
* **C120** What is printed about a dlib fitter is what it trains with: Violated: the cascade depth printed is dlib's default, whatever n_iterations is, because it is read from a template the algorithms only copy.
* **C121** A bias absorbs constant offsets: Proved for least squares (no regulariser), including that training succeeds again. With a positive regulariser the bias is regularised too and the claim is false for every alpha > 0 and every non-zero offset (C121_regularised_violated, one-sample witness); inverse regression ignores its bias argument and is false for every data set (C121_inverse_violated).
* **C122** Supervised descent classes use the options they are given, and can be incremented: Options: proved for all classes except the bias of the nine Gauss-Newton classes, which is dropped (C122_bias_violated). Increments: no class exposes `incrementable`, so increment raises for every class, option, history and data (C122_increment_violated), with the regressors left unchanged.
* **C124** Where the face is in the picture does not matter: Proved for CLM, unified and supervised descent algorithms (with and without prior) and for AAM and ATM algorithms without map_inference. Violated with map_inference by the project-out AAM and the ATM algorithms: s2_inv_L is one, not zero, on the four similarity parameters, so the position is pulled towards that of the mean shape. Pictures without borders; patches are sampled at exact positions.
* **C125** A constrained local model goes where its experts point, and rests where they agree: Active shape model: holds for windows whose sides are 1 modulo 4 and is violated for every other window height (half_search_shape rounds half to even and even windows are not centred): every run on perfectly centred peaks leaves its parameters.
* **C126** Figures, plots and printed summaries of a result report its own numbers: Partial because the code violates the last sentence: with a known initial shape (all results of the algorithms) the cost drawn at k belongs to the shape whose error is drawn at k + 1 (C126_same_abscissa_violated). Everything else is proved. The menpo renderers are not modelled; the theorems speak of their arguments.
* **C127** The deformation an APS learns is that of relative positions along its graph, and APS fitting does not depend on where the face is: C127_similarity_violated: with use_procrustes the steps take the similarity parameters for zero, but the reported deformation cost of c times the mean shape is positive for every c other than 1, so the cost is not what the steps minimise. Everything else is proved as stated; C127_precision discharges the hypothesis on the deformation precision in C104.
* **C128** A whole multi-scale fit does not depend on where the face is in the picture or how large it is: C128_fit_partial and C128_fit_from_bb_partial assume that a feature is used at two consecutive scales only if it is that of the first scale; C128_repeated_violated shows that the claim fails otherwise (the fitter maps shapes to the image with the affine transform of the first scale). C128_clm, C128_unified (both with and without prior), C128_aam_partial, C128_project_out_partial (project-out AAM and ATM), C128_sdm and C128_sdm_parametric (also AAM supervised descent) show that the algorithms follow the face; Lucas-Kanade style AAM and ATM algorithms only without prior (see C124_prior_violated). C128_features gives features that follow the picture.
* **C129** Where the faces are in their training pictures does not matter to supervised descent training: Training: proved, parametric and not, with and without increments, and from ground truths with the generated perturbations. Violated for noisy shapes of a fixed reference shape: the noise turns and scales about the centre of the target but is applied before the alignment, so the noise grows with the distance of the face from the reference; the exact displacement is proved. Pictures have no borders.
* **C130** With a kernel, Lucas-Kanade minimises and reports the filtered error: Increments proved for SSD and FourierSSD in all three algorithms. The costs are right without a kernel. With a kernel they are not: the new axis of the kernel is put behind its columns instead of in front of its rows, so for pictures with more rows than channels every cost raises ValueError (and no run with return_costs returns), and for square pictures with as many channels as rows the reported cost can be 0 although the filtered error is not.
* **C131** A longer fit extends a shorter one, and a fit that has not converged can be resumed from its final shape: Longer fits: proved for all algorithms. Resuming: proved for CLM, APS, unified, project-out (with the same algorithm object), modified alternating, forward simultaneous and forward Wiberg, forward compositional Lucas-Kanade with memoryless residuals; violated by the alternating algorithms and by inverse simultaneous and inverse Wiberg, which carry appearance parameters or increments that the final shape does not determine.
* **C132** Every step of a fit goes downhill: Partial because the claim is false of the code in two ways, both proved. The code takes the full Gauss-Newton step and never checks the cost, so the reported costs can rise (C132_costs_rise_violated: one parameter, one pixel, cost 25/16 then 625/256). The inverse algorithms use the derivative at the match instead of the one at the current shape, and can go uphill all along the step (C132_inverse_violated). Proved for every differentiable image, every model and every pair of consecutive iterations of a forward fit: project-out and simultaneous steps, with and without priors, start downhill for the objective of the whole problem, and stay only at stationary points; Wiberg steps start downhill for the error left by the best appearance; alternating steps (without priors: with priors the code raises, see C80) start downhill for the shape with the appearance they have just chosen, modified alternating ones with the old appearance, and then the appearance update does not raise the error. For images linear in the shape parameters every iterate after the first is the unique minimiser of the project-out objective, and if an instance of the model explains the image the fit finds its shape parameters. Differentiability of the warped pixels and correctness of the Jacobian that the code evaluates are hypotheses (SeesSmoothly); the latter is what menpo's warp and image gradient are documented to give.
* **C133** The order of the training images does not matter: Violated with a batch size (the first batch fixes the reference shape), when shapes have different numbers of points (CLM experts: the first shape decides) and when images have different numbers of initial shapes (supervised descent: the first image decides the room). Partial: the principal component analysis and the minimum spanning tree algorithm are parameters assumed to ignore the order of their rows; PCR, Optimal and whitened Procrustes regressors are not covered; random perturbations of a supervised descent fitter are drawn in the order of the images, so the fitter as a whole is covered only given the initial shapes.
* **C134** Summary statistics rank methods fairly: Proved for mean, median, maximum, area and failure rate (C134_better_partial). False for standard deviation and median absolute deviation: improving on one of two images increases both (C134_spread_violated). Order, units and consistency are proved in full.
* **C135** Supervised descent training brings the training shapes closer, and prints how close: Holds for any regressor that predicts its training data at least as well as zero does, hence for IRLRegression (Newton, any alpha >= 0) and PCRRegression. Proved to fail for IIRLRegression (Gauss-Newton) and OPPRegression, and for single shapes. The printed errors are right for the non-parametric algorithms and for shape models without global transform; with the default OrthoPDM they are taken at the scale of the model and not of the face, which is proved as a violation.
* **C136** How landmarks are numbered does not matter: Proved for errors without landmark indices, alignment, the shape model (given an orthonormalisation that does not look at the numbering), CLM, warps, project-out, simultaneous, modified alternating and Wiberg AAMs, unified models, and supervised descent with linear regression, on shapes and on parameters. False for inter-ocular errors, whose eye corners are fixed numbers (C136_indexed_errors_violated), and for the alternating AAM algorithms with priors when there are as many components as features, because of the confused transposes (C136_alternating_violated). That a Delaunay triangulation of renumbered points is the renumbered triangulation is assumed, not proved.
* **C137** What a failed increment leaves behind: The model stays usable, complete batches count exactly, later ones not at all, and an exact description of the batch that failed is proved: at scales before some scale j both models have been incremented with it, at j at most the shape model. Images that cannot be read or prepared leave no trace, and training in batches can be resumed. Violated: whenever the appearance model or ensemble refuses after the shape model has learned, the shape model keeps the new data (universal); a retry then counts images twice; an APS made without can_be_incremented refuses increments only after its first shape model has been changed.
* **C138** The light of a picture does not change a fit that normalises it: Proved for the residuals that normalise (fc, ic, fa runs), for CLM with normalised patches, for brightness in every AAM algorithm without an appearance prior, for contrast in forward project-out, and for the fitter. Partial because the claim fails, with concrete pictures, for the SSD residual (C138_ssd_violated), for MAP inference of the simultaneous algorithm (C138_map_violated) and for inverse project-out under contrast (C138_inverse_contrast_violated).
* **C139** The signs of principal components do not matter: Partial: user-chosen weights and alternating AAM algorithms with prior and square appearance basis depend on the signs (proved). SignBlind says of numpy's QR only that flipping its input columns flips some of its output columns.
* **C140** Rows and columns are treated alike: Partial because the active shape model takes the first of several equal peaks (C140_active_shape_violated); the alternating AAM algorithms with prior keep the exception of C139. Everything else is proved.
* **C141** The order of the channels of the pictures does not matter: Not for all orthogonal mixings: ECC needs mixings that keep the mean (rows summing to 1); gradient correlation, MOSSE filters and patches normalised channel by channel are blind to reorderings only (C141_single_channel_violated, C141_patches_violated give mixings that matter). The alternating AAM algorithm with prior is covered where the number of active appearance components differs from the number of sampled values (C141_aam_partial).
* **C142** A mirrored picture is fitted to the mirrored shape: Partial: CLMs and unified models need an odd window width (C142_window_violated) and no rotation in the shape model at construction (C142_rotation_violated); the active shape model needs width 4k+1 (C142_active_shape_violated) and single peaks (C140_active_shape_violated); the alternating AAM algorithms with prior keep the exception of C139. Everything else is proved.
* **C143** A printed model or fitter tells what it is and what it uses at each scale: Violated three times: the simultaneous inverse compositional algorithm calls itself project-out, so its fitters print the same text as project-out fitters; a supervised descent fitter shows only the algorithm of its lowest scale; models with PDM shape models, which the constructors accept, raise AttributeError when printed. Everything else is proved. Printing of active pictorial structures, of Dlib fitters and of single shape models is not modelled.
* **C144** How often the whole training set is listed does not matter, up to regularisation: Violated with a fixed positive regularisation (C144_regularisation_violated, C144_filters_violated); holds without regularisation and when the regularisation is multiplied by the number of copies. The order of the features in the model of the cascade and the principal components computed by menpo are as in C133 and C09.
* **C145** Asking for errors or costs does not change a fit: Proved for whole multi-scale fits of pictures of the plane with any features, scales and algorithms that do the same with and without ground truth and costs (C145_fit, C145_fit_from_bb, C145_picture), and shown of every algorithm: the loop of all optimisers (C145_loop), AAM, project-out and ATM, unified, CLM and supervised descent. Violated by an APS that samples only some pixels: asked for costs the run raises ValueError where it otherwise returns (C145_aps_violated); with all pixels it holds (C145_aps_partial). The warning that CLM and supervised descent print when asked for costs is not modelled.
* **C147** Convolution is linear, and takes images as well as arrays: Exact arithmetic. Violated for an array with an image as filter: line 89 passes the image itself on instead of its pixels (C147_image_filter_violated).
* **C149** Fits that project the appearance out do not see the expression of the face: Proved for both project-out algorithms and forward compositional Wiberg; a witness shows that inverse compositional Wiberg is not invariant.
* **C151** How the shapes of a model are parametrised does not matter without a prior: Proved for AAM, ATM, CLM and unified algorithms without priors (with priors the parameters carry their variances; C139 covers signs there). For Lucas-Kanade proved for orthogonal changes of the parameters (SSD with any kernel, all three algorithms); a witness shows that the unit of the parameters changes when a fit stops.

## Partial without a disagreement



## Trusted base

* Lean 4.33.0's kernel.  Every theorem depends on at most the axioms `propext`,
  `Classical.choice` and `Quot.sound`; there are no axioms of our own, no `sorry`, no
  `native_decide` and no `bv_decide`.
* The statements: the English in `properties.jsonl`, the small specifications in
  `Verif/Spec` and the theorem statements in `Verif/Props`.
* The reading of `/repo` recorded in the comments of `Verif/Model`.  No code was run.

### Assumptions about the runtime

* Python 3 with a NumPy and SciPy contemporary to the commit (`np.asscalar`-era: ragged
  lists become object arrays, `scipy.integrate.simps` has `even='avg'`); Python older than 3.10.
* Integers in -5..256 are shared objects (CPython); `is` on string literals is equality.
* Floating point is exact: no rounding, overflow or NaN.  Where NumPy would divide by
  zero and carry on with NaN or infinity, theorems exclude the case by a hypothesis, or
  the comment of the definition says what the model does.
* `np.linalg.solve` and `np.linalg.inv` raise `LinAlgError` exactly for singular
  matrices; `np.linalg.pinv` is the Moore-Penrose inverse; FFTs are exact; SciPy's
  multivariate normal density is the usual formula.

### Assumptions about menpo and dlib

* `LandmarkManager` is an ordered map; features and rescaling keep landmarks, rescaling
  maps them by the transform it returns.
* `PCAModel` is its mean, components and eigenvalues; `instance` adds weighted
  components; trimming and increments are parameters except where a lemma says what is
  assumed.  Procrustes alignment is the least squares similarity (with or without
  rotation).
* Point location of a piecewise affine warp returns the triangle of the point and its
  barycentric coordinates.
* `ThinPlateSplines` computes its coefficients with a truncated singular value
  decomposition, discarding values below `min_singular_val` (1e-4).
* `bounding_box` returns its corners in the order (min, min), (max, min), (max, max),
  (min, max); `constrain_to_bounds` clamps each coordinate.
* `normalize_norm` subtracts the mean, divides by the norm and raises `ValueError`
  without variation, unless told not to; given an array it takes the first axis for the
  channels; `gradient` works channel by channel.
* `constrain_mask_to_patches_around_landmarks(patch_shape)` uses the two entries of
  `patch_shape` as integers and raises `TypeError` if they are tuples.
* `GMRFModel` in the mode `subtraction` inverts, for every edge, the sample covariance
  (divisor one less than the number of samples) of the differences of its vertices; the
  inverse is added to the diagonal blocks of the two vertices and its negative is the
  block between them.
* An HTTP response's `read(amt)` returns at most `amt` bytes and an empty string at the
  end, also if the connection closes early.

### What is modelled

| source | modelled |
|---|---|
| `checks.py`, `base.py` | all checks, `batch`, `build_grid`; not the help strings |
| `fitter.py` | image preparation, the multi-scale loop, noisy alignment, perturbations, reference shape; whole fits of pictures of the plane without borders (`Model/Plane`), with the operations of menpo they call |
| `result.py`, `lk/result.py`, `aam/result.py`, `unified_aam_clm/result.py`, `aps/result.py` | shapes, counts, labels, errors, displacements, costs, appearance parameters; the arguments that `view`, `view_iterations` and the plots hand to the renderers of menpo, the text of `str`; not the renderers, fonts and axes |
| `error/*` | all measures, mark-ups and statistics |
| `math/regression.py`, `math/correlationfilter.py`, `math/fft_utils.py` | as listed in the table |
| `modelinstance.py`, `transform/*` | shape models, Jacobians, warps, model-driven transforms |
| `aam/*`, `atm/*`, `aps/*`, `clm/*`, `unified_aam_clm/*`, `lk/*` | solvers, loops, costs, interfaces, training over batches, instances of trained models, complete runs in a picture (without borders); the deformation model of an APS; parts of the builders |
| `sdm/*`, `aam/algorithm/sd.py`, `dlib/*` | training loops, cascades, training of one scale from perturbed ground truths, the state of algorithm objects, features, conversions, options of all supervised descent classes, training and running of dlib predictors |
| `io.py`, `visualize/*` | downloads, wrapped fitters, plotting options, the table of statistics |
| `builder.py` | per-image helpers, the alignment of training shapes (menpo's generalised Procrustes analysis, up to 100 rounds) |

### What is not modelled

* Everything that draws (`view_*`, widgets, `visualize/base.py` beyond its options), the
  printing of progress and the `__str__` methods, docstrings, `_version.py`.
* Pixel-level operations of menpo (feature extraction, interpolation, warping, patch
  extraction), PCA and its increments, dlib's regression trees, SciPy's special
  functions.
* Floating point rounding, memory layout and aliasing of arrays except where a theorem
  is about it (C37, C68, C69, C74, C75), threads (the code has none), speed.
