# Formal model of mapillary/OpenSfM in Lean 4

## Layout

* `lean/Verif/Base/*`   small list / association-list library (no modelling content).
* `lean/Verif/Model/*`  the model: one file per area; every definition cites the /repo file and lines it models and says where it simplifies.
* `lean/Verif/Lemmas/*` helper lemmas about the model.
* `lean/Verif/Props/*`  the property theorems (named `Cnn_...`) with their specification predicates and, beside each, an `example` showing that a concrete non-trivial case meets its hypotheses.
* `MANIFEST.json` property -> theorems. `seeded/LOG.jsonl` mutation experiments.
* `FINDINGS.md` places where the code, as modelled, does not do what one would expect, each with the theorem that shows it.

## Trusted base

* Lean 4.33.0's kernel and the three standard axioms `propext`, `Classical.choice`, `Quot.sound` (each theorem uses a subset; `vcheck` prints them). No axiom is added; no compiled evaluation is used in proofs.
* The hand translation from Python/C++ to the Lean model. The code was only read, never run.
* Conventions of the translation:
  * Python `dict` / C++ `unordered_map` are insertion-ordered association lists with unique keys; where the code iterates a C++ `unordered_map`/Python `set`, whose order is unspecified, theorems quantify over the order or speak only about membership.
  * ids are arbitrary types with decidable equality (or strings / character lists when text format matters).
  * C++/Python exceptions are values (`Except`/`Option`), and the state after the exception is part of the result.
  * floating point is NOT modelled: numeric code is modelled over an ordered field or the reals, so rounding, overflow and NaN are outside the theorems unless a definition says otherwise.
  * numerical kernels (feature detection, RANSAC minimal solvers, bundle adjustment, SVD, OpenCV, random numbers) are uninterpreted parameters ("oracles"); theorems hold for every behaviour of them.
  * threads: the feature extraction queue is a labelled transition system whose steps are the atomic queue/counter operations.

## What is not modelled

Rendering, reports, image decoding, dense stereo kernels, Ceres optimisation, file-system failures, memory/performance, GUI.

## Plan per property

| id | property | module | how |
|---|---|---|---|
| C01 | Tracks manager is a two-way last-write-wins table | TracksManager | refinement of the two nested maps to one partial function (shot,track) -> observation; induction over the op list |
| C02 | Removals and lookups of unknown ids fail without effect; registered ids never disappear | TracksManager | same refinement with outputs; invariant: registered ids = ids ever added |
| C03 | Sub tracks manager is the exact restriction | TracksManager | fold of AddObservation over tracks x shots; membership characterisation |
| C04 | Common observations of two shots are exactly the shared tracks | TracksManager | filterMap over one inner map; membership + nodup |
| C05 | Pair connectivity counts shared tracks | TracksManager | count fold; equality with a cardinality spec |
| C06 | Merging tracks managers yields connected components | TrackMerge | union-find refinement + fold; counterexample for the lossy case |
| C07 | Tracks text serialisation round-trips | TracksText | split/join on tab and newline proved inverse; number formatter is a parameter with a round-trip hypothesis |
| C08 | Legacy and malformed tracks files | TracksText | decision logic on the header line and column count |
| C09 | Python union-find represents exactly the union history | UnionFindPy | forest invariant with a rank function (distance to the root), equivalence closure as spec |
| C10 | C++ union-find represents exactly the union history | UnionFindCpp | same spec, C++ rank variant |
| C11 | Created tracks are exactly the good connected components | Tracking | union-find theorem + grouping by root |
| C12 | Tracks do not depend on the order of matches | Tracking | corollary of the equivalence-closure spec |
| C13 | Common tracks per image pair | Tracking | fold over pairs; alignment of columns |
| C14 | Map observations are symmetric | SfmMap | invariant over an op-indexed transition system of the map |
| C15 | No dangling references after removals | SfmMap | pointwise characterisation of the removal |
| C16 | Failed map calls leave the map unchanged | SfmMap | exceptions as values: state returned unchanged |
| C17 | Cleaning removes exactly the under-observed landmarks | SfmMap | fold of RemoveLandmark; pointwise characterisation |
| C18 | Each shot is in exactly one rig instance, one shot per rig camera | SfmMap | invariant over histories |
| C19 | Shot pose is rig camera pose composed with instance pose | Pose | rigid motions over an ordered field as 3x3 matrices, R R^T = 1 |
| C20 | Every camera has a bias and conversely | SfmMap | invariant over histories |
| C21 | Ordered pairs keep every candidate pair once, reference first | PairsSelection | fuelled worklist with arbitrary pop order (an oracle argument) |
| C22 | Order-based matching pairs are exactly the window | PairsSelection | index arithmetic on lists |
| C23 | Candidate selection falls back to all pairs and never loses a strategy's pairs | PairsSelection | decision logic over sets represented as lists |
| C24 | Neighbour lists are bounded and nearest first | PairsSelection | merge-sort based k-nearest; sortedness lemmas |
| C25 | Symmetric matching is one-to-one | Matching | set intersection of two partial functions |
| C26 | Word matching respects the ratio test | WordMatching | fold with best/second best; invariant |
| C27 | Matching filters only drop matches, and weak pairs give nothing | Matching | sublist relation, estimators are parameters |
| C28 | Stored matches are found again with the right orientation | Matching | lookup model; counterexample for save_matches with im1 not in the reference set |
| C29 | Masked feature indices map back to the original features | Matching | flatnonzero model |
| C30 | Parallel feature extraction processes each image exactly once | FeatureQueue | labelled transition system of producers/consumers with a bounded FIFO; invariant |
| C31 | Parallel feature extraction never deadlocks | FeatureQueue | progress theorem on the same system; counterexample for capacity 1 |
| C32 | Producer chunks partition the image list | FeatureQueue | ceil-div arithmetic |
| C33 | Partial reconstructions are disjoint and account for every image | Incremental | numerical steps are oracles; invariant over the main loop |
| C34 | Growing terminates and only adds requested images | Incremental | well-founded measure |remaining| |
| C35 | Outlier removal is exact | Outliers | pointwise characterisation over the map model |
| C36 | Shot neighbourhoods are bounded, connected and disjoint | Neighborhood | fuelled growth, invariant |
| C37 | Robust estimation returns the best model it has scored | Ransac | oracle-driven loop; running-max invariant |
| C38 | Random samples are distinct and in range | Ransac | stream-driven rejection sampler |
| C39 | Rigid pose algebra | Pose | matrices over a field, ring identities |
| C40 | Similarity alignment preserves camera geometry | Align | matrices over a field, ring identities |
| C41 | Bearing and projection are inverse | Camera | real analysis with Mathlib trig lemmas |
| C42 | Analytic derivatives are the derivatives | Camera | HasDerivAt proofs |
| C43 | Topocentric conversion round-trips through ECEF | Geo | orthogonality of the topocentric frame; sin^2+cos^2=1 |
| C44 | Image coordinate normalisation round-trips | ImageCoords | field_simp over the rationals |
| C45 | Upright rotation keeps points inside and is a bijection | ImageCoords | case split on orientation, linear arithmetic |
| C46 | Camera JSON round-trips for every projection type | CameraIO | JSON object as association list keyed by strings, case split on type |
| C47 | Camera vector round-trips | CameraIO | same camera type as C46 |
| C48 | Shot metadata JSON round-trips | MetadataIO | presence patterns; counterexample for opk |
| C49 | Reconstruction JSON round-trips | ReconstructionIO | state machine over the API calls; invariant of reachable reconstructions; stage-by-stage fold lemmas |
| C50 | Ground control point list parsing groups by position | Gcp | fold with an insertion-ordered dictionary |
| C51 | Ground control point JSON round-trips | Gcp | record round-trip |
| C52 | Capture time accounts for the time-zone offset | Exif | integer arithmetic on seconds; counterexample |
| C53 | EXIF focal and GPS decoding | Exif | rational arithmetic; the DJI entries of the XMP (`Model/Dji.lean`, exif.py 323-346, `float` a parameter) feed it |
| C54 | GPX interpolation is exact at samples and stays inside the segment | Gpx | search in a sorted list + convexity |
| C55 | Rig pattern assignment partitions images | Rig | fold over patterns |
| C56 | Rig lookups agree with assignments | Rig | lookup |
| C57 | Submodels: membership, files and crash history | Submodels | list cover; file-system machine with crash points |
| C58 | Inverting a similarity | Align | ring identities |
| C59 | Reference is computed once and stays | Reference | state machine over stages + weighted mean bounds |
| C60 | User configuration overrides exactly the given keys | Config | dictionary override |
| C61 | Union-find trees stay shallow | UnionFindCpp, UnionFindPy | rank invariant |
| C62 | Pose jacobian at tiny rotations | Camera | Fréchet derivatives; uniqueness of the derivative for the negative part |
| C63 | Derivatives used to undistort | Camera | derivative of a polynomial; equivalences for the wrong ones |
| C64 | Bearing of the centre of a dual camera | Camera | first Newton step |
| C65 | Camera distortion setter | CameraIO | counterexamples quantified over cameras |
| C66 | Camera of an image | Calibration | the table as state; induction over earlier images |
| C67 | Metadata extraction and crashes | ExtractMetadata | small-step machine with torn files; reproducibility invariant |
| C68 | Sampling a GPX track | Gpx | invariant of the inner loop; quadratic on reals |
| C69 | Rig calibration windows, counting and choice of rig camera | Rig | list windows; invariant of the countdown loop |
| C70 | Aligning submodels | SubmodelAlign | fold counting; group-by over sorted keys |
| C71 | Images and masks of a dataset folder | DatasetFiles | dictionary folds over lines and listings |
| C72 | Subset of a dataset | DatasetFiles | file-system model; unfolding of the folder opened first |
| C73 | Feature data and feature files | Features | arrays as lists of rows, element conversions arbitrary; row lists at kept positions; case split over versions and types |
| C74 | Masked features and loader caches | FeatureLoader, Features | invariant "every cache entry is what direct reading gives" over call lists; baked and unbaked masks related through one list of feature rows and permutations |
| C75 | Interrupted feature detection | DetectStage | two steps per file write; a run = number of steps per image (covers all schedules and crash points); invariants over histories |
| C76 | Views of a panorama | UndistortPano (with Camera, Pose) | real arithmetic; face rotations computed, spherical and perspective cameras of the Camera model, case split over faces |
| C77 | Undistorted reconstruction | UndistortRec (with UndistortPano) | fold invariant: the shots made so far are the expected ones, rig cameras and cameras have their expected values, instances belong to one shot or panorama |
| C78 | Image of an undistorted shot | UndistortMap (with Camera) | bearing of the undistorted camera is the scaled point, projections are invariant under positive scaling; rational rounding for the resize |
| C79 | `Model/Depthmap.lean`: views, projection, homography, plane and depth, NCC estimator, interpolation, patch score of depthmap.cc over the reals | algebra on 3×3 matrices; the estimator's sums are induction over the samples, the range is Cauchy–Schwarz for weighted covariances; the patch points are `HasDerivAt` of the homography |
| C80 | `Model/PatchMatch.lean`: `DepthmapEstimator` with random outcomes as arbitrary arguments, mask and contrast, passes, post-processing with the median of 25 | preorder "every pixel is the same or replaced by a better one" kept by each step; sorted visiting order for propagation; the median of a sorted list against counts; fold invariants for brute force |
| C81 | `Model/DepthmapMerge.lean`: `DepthmapCleaner::Clean`, `DepthmapPruner::Prune`, with the conversions of coordinates to 64 and 32 bit integers | counting fold; filter of the pixels; for the covering a pixel of greatest resolution among those reachable; floor arithmetic for the rounding |
| C82 | `Model/DenseStage.lean`: files absent, torn or whole; the tasks of the three phases with the numerical work as parameter; phases in any order; merging | a phase as a fold over one kind of file has a closed form (`finalFile`), which is invariant under permutations and restarts; from it every statement about the final files |
| C83 | `Model/DenseNeighbors.lean`: common tracks without features, the dictionary of dictionaries, angles, scores, sorting and cutting, `np.percentile` and the depth range | reuse of C13; reverse induction over the entries for the double dictionary; the angle is Mathlib's `EuclideanGeometry.angle`; counts on a sorted list for the percentiles, monotone interpolation |
| C84 | `point_cloud_to_ply`, `point_cloud_from_ply`, `ply_header`, `reconstruction_to_ply` on lists of characters; numbers of the cloud are rationals printed with `{:.kf}` (half to even) and read back; numbers of a reconstruction are printed by an arbitrary function that yields words | induction on the words and lines of a text cut at an arbitrary place; uniqueness of the decomposition of a file into header and lines |
| C85 | `Model/Triangulation.lean`: angle, test of pairs, `TriangulateBearingsMidpoint(Solve)`, `TriangulateTwoBearingsMidpointSolve/Many`, `compute_inliers_bearings`, `TriangulateBearingsDLT` with the decomposition as any least unit vector, `EpipolarAngleTwoBearingsMany`, `triangulate_gcp` and `TriangulateGCP`; exact reals | distances are Mathlib's `Metric.infDist` to the lines and angles `InnerProductGeometry.angle`; quadratic expansion around the solution of the normal equations, invertible because a null vector would be parallel to all bearings |
| C86 | `Model/TrackTriangulator.lean`: `TrackTriangulator` (robust, full, rays given to the refinement by dlt), `triangulate_shot_features`, `retriangulate`; random numbers and refinement are arguments; exact reals | Loop invariant "inliers are those of the point" over all draws; the last pair is out of reach of `int(rand * (n-1))`; fold over the tracks in any order characterised by lookups; counterexamples with rational rays |
| C87 | `Model/RealignMaps.lean`: `RealignMaps` on the parts of the maps it reads and writes; exact reals; hash maps as lists in visiting order | Invariant of the search for the nearest shot; algebra of rigid motions and similarities (poses of C39); lookups through the map and filterMap; change of topocentric frame from the model of C43 |
| C88 | `Model/Superimpose.lean`: centring, covariance, rotation of the singular bases with the sign repair, RMS scale, decomposition, the sampling loop with its random permutations as input. The SVD is a parameter with its documented contract, and the contract is shown to be satisfiable (`C88_svd`, via the spectral theorem). | Kabsch: the trace of an orthogonal matrix of determinant −1 is at most n − 2 (Householder), hence no rotation fits the covariance better (any dimension). Exact recovery: optimal cost 0, two rotations agreeing on a hyperplane are equal. Loop: invariant of the fold. |
| C89 | `Model/Align.lean`: `align_reconstruction` without GPS bias, constraints, automatic choice (eigenvalues a parameter with contract, shown satisfiable), naive method; results of triangulation and topocentric conversion are inputs; the orientation prior is a parameter here (C90) | Exactness from C88; points on a line have a rank one scatter matrix, so two eigenvalues vanish; rotation between two vectors by two reflections; counterexample for unknown altitude through the centroids |
| C90 | `Model/AlignPrior.lean`: rotation about an axis, angle, horizontalling rotation, EXIF directions, plane fit (eigenvector of the least eigenvalue a parameter, `C90_min` shows it exists), orientation prior similarity; plugged into `Align.align` of C89 | Rodrigues' formula is a rotation by `linear_combination`; the least eigenvector of exact data is in the kernel of the rows; a rotation fixing the vertical is a plane rotation, then C88 in dimension 2 |
| C91 | `Model/CommonTracks.lean`: the dict of features, the pairs per image, the sampling of C88 on their points, the constraints added between submodels, merging with Python's truth value of an array; tracks managers of C01 | Membership characterised through lookups of the last track per feature; inliers from C88_best; exactness from C88_consensus |
| C92 | `Model/BundleErrors.lean`: every residual of the bundle adjuster except the heatmap one, the choice of the rig camera blocks, the losses, the cost. The ceres functions (rotating a point, quaternions, losses) are not in /repo and are modelled after their documentation (trusted); rotations below ceres' threshold for the first order formula are excluded by `Regular` | Quaternion algebra by `ring`; the rotation vector of a product has length at most π, so it is zero only for the identity; angles by `cos`/`sin`; case analysis on which rig cameras coincide |
| C93 | `Model/BundleProblem.lean`: the calls to the bundle adjuster made by `Bundle`, `BundleLocal`, `BundleShotPoses`, the adjuster's tables with their lookups that raise, writing back. The minimisation is a parameter (any function of the problem); camera, pose, point and observation types are parameters; rolling-shutter, alignment constraints and the terms of absolute orientation are not modelled | Each call either raises or fills one table, so a run is described by the list of calls (`Built`); the frame conditions follow by lookups in the written dictionaries |
| C94 | the same model, looking at the position priors | Last prior call per instance; the running division as a fold, closed form by induction |
| C95 | `Model/GpsBias.lean`: `align_reconstruction` with `bias_override`, the reconstruction of the shots of a camera, the bias from its similarity, the residual of the position prior, the GPS error of the report, the bias handed back by the bundle adjuster; `cv2.Rodrigues` is a parameter with contract `IsLog`, shown satisfiable (`C95_log`: every rotation has a rotation vector) | Exactness of C88/C89 per camera; axis of a rotation from det(A-1)=0, orthonormal basis, Rodrigues; dictionary writes |
| C96 | `Model/BundleAlign.lean`: `TriangulateGCP`, `AlignmentConstraints` (with the rows that are never written as a parameter), `DetectAlignmentConstraints`, the up vectors, `AddGCPToBundle`, the prior of a point; midpoint triangulation and eigenvalues are parameters | Rows by counting; the choice by C89; sorted roots of a cubic are unique for the concrete maps; sums over the points for the weights |
| C97 | `Model/BundleSigma.lean`: parameters of each camera model, `GetDefaultCameraSigma`, `GetDefaultRigPoseSigma`, `DataPriorError` for cameras and rig cameras; conversion of a matrix to a rotation vector is a parameter with contract `IsLogMin` (length at most pi), shown satisfiable (`C97_log`) | Case analysis on the parameters; uniqueness of the rotation vector below pi from trace and antisymmetric part |
| C98 | `Model/RelativePose`: four candidates of an SVD (parameter), scores, the `int` of the kept score, Evaluate, cost and refinement (solver parameter) | frame of an essential matrix from the singular vectors; meeting rays; invariant of the fold |
| C99 | `Model/Essential.lean`: the epipolar rows, the polynomial products `o1`, `o2`, the ten constraints, the elimination of a 10×20 matrix, the action matrix, the candidates of eigenvectors, `SolveAX0`, the enforcement of the singular values, the two estimators. The singular value decompositions and eigenvectors are parameters with their contracts. | Values of polynomials proved equal to the matrix expressions for all x, y, z; the elimination by an invariant on triangular form and null space; completeness by rank–nullity and the spectral form of the Gram matrix; composed with C98 for the pose. |
| C100 | `Model/PlaneMotion.lean`: `motion_from_plane_homography`, with the SVD as a parameter | In the frame of the decomposition: soundness by polynomial identities; completeness from the restriction to the plane orthogonal to the normal (the middle value is the distance, the normal has no middle coordinate), then the rotation from three orthonormal vectors |
| C101 | `Model/TwoView.lean`: inliers of a pose, refinement, choice of configuration, plane, decision, on top of C85 (triangulation), C98 (refinement) and C100 (plane motions); robust estimation, `findHomography`, solver, draws are parameters with contracts (`Sound`). | `Inlier` is stated with lines, closest points and angles (Mathlib), shown equivalent to the boolean of the code; consistency by following the pose through the two inversions; exactness by C98_refine_start; table of the choice by cases; the lost plane by a concrete homography diag(16,12,9). |
| C102 | `Model/RotationPair.lean`: `RotationBetweenPoints`, `RelativeRotationNPoints`, `RelativeRotation::Evaluate`, `two_view_reconstruction_rotation_only`, `pairwise_reconstructability`, `compute_image_pairs`; SVD, robust estimation, `np.argsort` are parameters with contracts. | Trace identities of C88 give the best or worst rotation by the sign of the determinant; three centred pairs have rank at most two, so two SVDs of the same moment with opposite signs exist; angles and distances are Mathlib's; the list of pairs by permutation and `Pairwise`. |
| C103 | `Model/Quartic.lean`: `SolveQuartic`, `RefineQuarticRoots`, `NewtonRaphson<1,1>`; `pow(z,1/2)`, `pow(z,1/3)` are parameters (any square root, any cube root); a quotient by zero is `none`. | Resolvent cubic from the cube root, then the product of the two quadratic factors as a polynomial identity over the complex numbers; degenerate cases by evaluating the invariants; Newton steps against Mathlib's `deriv`. |
| C104 | `Model/ThreePoints.lean`: `AbsolutePoseThreePoints`, `RotationMatrixAroundAxis`, `ClosestRotationMatrix`, on top of C103; the SVD is a parameter; poses that are not made of numbers are `none`. | The rotation in the frames of points and bearings has a zero entry and hence the form of the program; the two coplanarity equations are the linear system solved by Cramer's rule; the quartic is its compatibility; the denominator vanishes exactly on the circle (explicit circumcentre). |
| C105 | `Model/AbsolutePose.lean`: `TranslationBetweenPoints`, `AbsolutePoseNPoints`, `AbsolutePoseNPointsKnownRotation`, errors and threshold of the robust models, pose conventions of `absolute_pose_ransac` and the decisions of `resect`; SVD and robust estimation are parameters. | The quadratic expansion of the distances to the lines around the solution of the normal equations (positive definite unless the bearings are parallel); monotonicity by the two projections of Lu et al. with C102; exactness by the moment of the centred pairs, scaled; planar case by the sign of the last singular vector. |
| C106 | `Model/Angles.lean`: Rodrigues, ptr and opk conversions, all 24 Euler axis sequences, up vector and compass, rotation from metadata | 12 matrix identities for the sequences, cofactors of a rotation for the inverses, atan2 lemmas; elementary turns as separate specification (`Spec/Angles.lean`) |
| C107 | `Model/NearImages`: the representative points (positions, orientations, best altitude by a fit), the search by distance and time, the rows of the triangulation and the preemption; the KD-tree (`Nearest`) and `polyfit` (`LeastSquares`) are parameters with a specification in `Spec/NearImages`. | A candidate left out has been pushed out by as many nearer ones (counting distinct rows of an answer), or by a row of zeros; soundness; all or none; the altitude for two images by exactness of a least squares fit to a polynomial; parallel directions have no altitude; the rows shift. Trees and fits that meet the specifications are constructed. |
| C108 | `Model/MetadataRec`: metadata of an image, the loop over the images with rig cameras, rig instances (an existing one is overwritten), shots and poses that are those of the instance for single shots. Which rig an image is in is specified in `Spec/MetadataRec`. | One image: the exact state after it. All images: induction from the end, so that the last image of an instance decides; poses by the group laws of C39 and rotations by C106. |
| C109 | `Model/MapCopy`: the map with pano shots, colours, meshes, attributes; `DeepCopy`, `UpdateShotWithRig`, `add_shot` line by line. `Spec/MapCopy`: what a well formed map is. | Invariants of the nested loops: which rig instances have been copied, which members of the current one, which observations; the orders of the hash maps are the orders of the dictionaries of an arbitrary source map. Concrete maps for what is lost, for mixed instances (exception) and for rig mates that move. |
| C110 | Same model: `ToTracksManager`, `GetValidObservations`, `ComputeReprojectionErrors`, `add_correspondences_from_tracks_manager`; projection and bearing are parameters, the three kinds of error are over the reals. | Lookups after loops that write dictionaries; invariant of the pairs visited; angle of two vectors of an inner product space. |
| C111 | `Model/Stats`: `_length_histogram`, `reconstruction_statistics`, `_projection_error`, times, area, feature counts over the map of C109 and the errors of C110; the histograms of numpy are left out. | The dictionary of counts represents a list of lengths (count, sum and length through the set of keys); loops that write dictionaries are filters of lists, so the three dictionaries walked in step list the same observations; fold invariants for the rest. Concrete reports for what is wrong. |
| C112 | `Model/StatsErrors`: `_gps_errors`, `_gps_gcp_errors_stats`, `gps_errors`, `gcp_errors`, `cameras_statistics`, `rig_statistics` over the map of C109; positions, biases and triangulation are parameters; `argsort` is any order that sorts. | Algebra of sums for mean, deviation and root mean square; loops as filters; "the first reconstruction in the order of argsort" is the first value of a key in a concatenation of sorted dictionaries. Concrete reports for two reconstructions. |
| C113 | `Model/ParallelMap`: `parallel_map` and `processes_that_fit_in_memory`; the thread pool of joblib is a transition system with any division in batches and any interleaving of the workers (joblib itself is an assumption: batches taken in order, results stored by index, an exception of a call is raised); reading the available memory is left out. | Invariant of the transition system (indices and calls as permutations), measure of the remaining work, progress; floor of a quotient. Concrete schedule where the second batch ends first. |
| C114 | `Model/ExportText`: `export_bundler`, `run_dataset` of export_bundler.py and `export` of export_visualsfm.py produce lists of lines of words; how a number is printed, the quaternion of a rotation, the centre of a shot and the size of the undistorted image are parameters. | Readers of the two formats in `Spec/ExportText`, written from the formats; loops as concatenations (`fold_append`), read back by induction; the projection of Bundler against `Camera.project` of C23. Concrete reconstruction with two shots, an image outside, a brown camera, two undistorted reconstructions, a 4 x 3 image. |
| C115 | `Model/ExportColmap`: parameters of the cameras, pair identifiers, tables of cameras, images, keypoints and geometries, points3D, images (text and binary); sqlite is a list of rows with identifiers from 1, robust matching is a parameter, numbers are exact. | COLMAP camera models written from its documentation in `Spec/ExportColmap`, compared with `Camera.project` by algebra; half-angle identities for the quaternion against Rodrigues; invariants of the loops (`foldlM_inv`, nested loops flattened by `foldlM_flat`); counting of filtered ranges for the index. Concrete cameras, a table of geometries, two shots with a feature without point, two reconstructions with a shared track. |
| C116 | `Model/Geocoords.lean`: the four blocks of `run_dataset` with the overwritten `output` variable, `_get_transformation` with the projection as a parameter, the loop over the shots with the pose setters of `Pose` (immutable when the rig is shared), the loop over the lines of the point cloud. | Case split for the names; invariant over the processed shots; algebra of invertible matrices over any field. Trusted: exact arithmetic, text of numbers; `np.dot` with a `map` object raises. |
| C117 | `Model/ExportScene.lean`: the four calls of `OpenMVSExporter` with their two maps (`operator[]` inserts 0) and the three loops of `export`; the visibility loop of `export_pmvs` on the graph of C05. The binary format of OpenMVS and the images of PMVS are not modelled. | Invariants of the three loops over the processed prefix; membership and no repetition of the neighbours from the connectivity theorem of C05. |
| C118 | `Model/Quaternions.lean`: all quaternion functions of transformations.py on exact reals; `numpy.linalg.eigh` and the memory of `numpy.empty` are parameters. | Against Mathlib's `ℍ[ℝ]`; the scaled matrix is polynomial, so products and orthogonality are ring identities; every rotation has a unit quaternion (rank one of the matrix of products, from cofactors and orthogonality); the eigenvector of the largest eigenvalue is that quaternion; Euler angles as three half-angle quaternions in all 24 cases; slerp by addition theorems. The promise of `eigh` is shown satisfiable by the spectral theorem. |
| C119 | `Model/AddShot.lean` on top of `MapCopy.FMap`: `add_shot`, `create_shot`, `add_rig_instance`, `rig_assignments_per_image`, the two first shots | loop invariant over the images of the instance; iff for success both ways; poses in an arbitrary group |
| C120 | `Model/RigCalib.lean`: `compute_relative_pose` with its dictionaries, on the poses of C39; the rotation vector of a matrix is a parameter with the contract of C95 (for the counterexample: of at most half a turn, shown to exist) | loop invariant of the sums; exactness by equality of all centred poses of a rig camera (frames transform equivariantly when one of the rotations is shared); counterexample with turns about one axis |
| C121 | `Model/Factor.lean`: the seven functions on exact reals; `qr`, `svd` and the vector of the smallest singular value are parameters with their usual promises, each shown to be satisfiable (Gram-Schmidt, spectral theorem, compactness) | uniqueness of Cholesky factors entry by entry; kernel of the 6x2 system by orthogonality; trace inequality of C88 for the nearest orthogonal matrix; Mathlib's angle |
| C122 | `Model/GrowSteps.lean`: `grow_reconstruction` with the two helper classes as a program over arbitrary steps that keeps a journal; refines the numerical step `growSettle` of C34 | invariant: what the helpers remember is what the journal shows; properties of all decompositions of the journal by induction over the rounds |
| C123 | `Model/FromPrior.lean`: `reconstruct_from_prior`, `paint_reconstruction` and the map side of `triangulate_shot_features` on the full map of C109; the triangulation of one track is any function that keeps shots with an observation of the track (C86 shows the real ones do) | loop invariants: copied rig instances (with `addShot_spec` of C109; a shot whose rig is there already changes nothing), stored tracks, painted points |
| C124 | `Model/PairOrder.lean`: both lists of pairs on the tracks manager of C04/C05, with the score of C102; `np.argsort` any sorting permutation, the robust estimator any function to rotations, `list.sort` the stable merge sort of the core library | both reduce to one list of scored pairs (loops and `mapM`), sorted permutations of it have equal values; counterexample with a tie |
| C125 | `Model/ExifOpk.lean`: `extract_opk` over the reals with the `ecef_from_lla` of C43 and the rotations of C106; XMP data as dictionaries, `float` a parameter | the unit vector `xnp` lies in the meridian plane with a horizontal part of known sign (monotonicity of the radius of the parallels); the matrix entry by entry; `C106_opk_inverse` at the pole |
| C126 | `Model/Guided.lean`: pose of a pair, epipolar mask, symmetric brute force with the mask, on `Matching.matchPair` (C25, C27), `Triangulation.epipolarAngle` (C85) and the poses of C39; the two nearest neighbours are any function with the property of `TwoNearest` (OpenCV) | the error in the world from any unit normals of the epipolar planes; invariance of the cross product under orthogonal matrices for the exchange; Lowe's test as a statement on all candidates. Two concrete poses with a feature off the line; sorting satisfies `TwoNearest`. |
| C127 | `Model/CloudFilters.lean`: both filters on the map of C14, with the angle of C85; the derivatives of the projection, the eigenvalues of a symmetric matrix and the centres of the shots are parameters, the neighbours are exact | removal of a list of landmarks by induction; eigenvalues as the extreme values of the quadratic form, positive because the form is a sum of squares; Cantelli's inequality for the shares; sums of sublists of sorted lists for the mean of the nearest. Spectral theorem of Mathlib, concrete landmark, history and cloud as examples. |
| C128 | `Model/ImageDescriptors.lean`: histograms of words and VLAD vectors over the reals, with the cases in which numpy raises or divides by zero; the assignment of words to features is given (C26), the caches are not modelled | sums of non-negative terms and their cases of equality; invariant of the search for the nearest centre over the centres done; residuals per centre by induction over the features. Concrete vocabulary, images and centres. |
| C129 | `Model/CameraIds.lean`: `camera_id_`, `sensor_string`, make, model and projection, `_extract_exif`; texts as lists of characters, `lower` on ASCII letters, `str(float)` and UTF-8 given | `replace(make, "")` equivalent to the relation of `Spec/CameraIds.lean`; the fields are read back from the end, one space at a time |
| C130 | `Model/TracksHelpers.lean`: the three helpers on the tracks manager of C01 | states as histories of calls (`run`), specification by `lastWrite`, `addedShots` and `addedTracks` of C01 and C02; induction over the list of tracks |
| C131 | `Model/Mesh.lean`: the three meshes over the reals with the pose of C39; scipy's triangulations and the projections are parameters | mean depth as a quotient of sums over the faces (`Spec/Mesh.lean`), monotone sums for the bounds; the cube of the spherical mesh as a triple convex combination |
| C132 | A rig calibration run: groups of instances, rounds, what is written | RigRun, Rig | injectivity of the joined sorted set for names without commas; grouping lemmas; sub-permutation of the round's instances; induction on the rounds left; disjointness of instances for the lone rig camera. Neighbours, components, random choices, the pipeline on a subset and relative poses are parameters (assumptions in `Sound`) |
| C133 | `Model/AlignCost.lean`: the five errors, their losses and the cost of `ReconstructionAlignment::Run`, its bounds, the inversion of its result and the soft constraints of tools.py; ceres' minimiser, the loops that add hard and point constraints, and double arithmetic are not | each error written by the centres and orientations in the world (`Verif.Superimpose` rotations, GpsBias `Log`); sums of nonnegative terms for the cost; elimination of the relative similarity for uniqueness |
| C134 | `Model/AlignSetup.lean`: the loops of tools.py that add shots and constraints, on top of the connected reconstructions of C70 and the cost of C133; loading reconstructions, matching points and the similarity between two reconstructions are parameters | explicit list of the constraints of each loop by induction, shots as a fold of dictionary writes (last write), then `C133_cost`; connection and names by `C70_connected`, `C70_names` |
| C135 | `get_error_distribution`, the AUTO case of `get_actual_threshold` and the outlier test (reconstruction.py 1229-1274), reals for doubles, errors of two coordinates (`Model/AutoThreshold.lean`) | `median` against a specification by any sorted permutation; the threshold as a formula of such medians; half-kept inequality from the median split; an explicit family of four errors for the sign dependence |
| C136 | The memory plan at the head of `run_features_processing` (features_processing.py 47-77), `average_image_size`, `average_processing_size` (112-131), reals for doubles (`Model/FeaturePlan.lean`); the numbers are inputs of the queue of C30-C32 | closed form of the octave loop by induction and of its length by the floor of log2; floor inequalities for the two bounds; when an exception is raised as an equivalence |
