{"id": "C01", "title": "Tracks manager is a two-way last-write-wins table", "statement": "After any sequence of add_observation / remove_observation calls, get_observation(shot, track) returns the observation most recently added for that pair and not removed since, and the per-shot view and the per-track view contain exactly the same (shot, track, observation) triples.", "quantifier": "every finite history of add/remove calls, all shot ids, track ids and observations", "why_tests_cant": "the two indexes are updated separately; disagreement only shows after particular interleavings of adds, overwrites and removals, of which there are infinitely many", "anchors": ["opensfm/src/map/src/tracks_manager.cc:AddObservation", "opensfm/src/map/src/tracks_manager.cc:RemoveObservation", "opensfm/src/map/src/tracks_manager.cc:GetObservation", "opensfm/src/map/src/tracks_manager.cc:GetShotObservations", "opensfm/src/map/src/tracks_manager.cc:GetTrackObservations"]}
{"id": "C02", "title": "Removals and lookups of unknown ids fail without effect; registered ids never disappear", "statement": "remove_observation raises exactly when the shot id or the track id was never added, and then the manager is unchanged; lookups raise exactly for ids/pairs that are absent; removing an observation never unregisters a shot or track id, so num_shots/num_tracks/get_shot_ids/get_track_ids count every id ever added.", "quantifier": "every history of calls, including failing ones", "why_tests_cant": "error paths multiply with histories; a test only covers a few", "anchors": ["opensfm/src/map/src/tracks_manager.cc:RemoveObservation", "opensfm/src/map/src/tracks_manager.cc:HasShotObservations", "opensfm/src/map/src/tracks_manager.cc:NumShots", "opensfm/src/map/src/tracks_manager.cc:GetShotIds"]}
{"id": "C03", "title": "Sub tracks manager is the exact restriction", "statement": "construct_sub_tracks_manager(tracks, shots) contains observation (s,t) iff t is in tracks, s is in shots and the original contains it, with the same value.", "quantifier": "every manager state, every list of tracks, every set of shots", "why_tests_cant": "set restriction over arbitrary data, including unknown ids and duplicates in the arguments", "anchors": ["opensfm/src/map/src/tracks_manager.cc:ConstructSubTracksManager"]}
{"id": "C04", "title": "Common observations of two shots are exactly the shared tracks", "statement": "get_all_common_observations(s1,s2) lists each track seen in both shots exactly once with the observation of s1 first and of s2 second, and lists nothing else; it raises iff one shot is unknown.", "quantifier": "every manager state and pair of shots", "why_tests_cant": "ordering/pairing mistakes appear only for particular overlaps", "anchors": ["opensfm/src/map/src/tracks_manager.cc:GetAllCommonObservations"]}
{"id": "C05", "title": "Pair connectivity counts shared tracks", "statement": "get_all_pairs_connectivity(shots, tracks) maps every pair (s1<s2) of the considered shots that share k>0 considered tracks to k, and contains no other pair.", "quantifier": "every manager state and every pair of (possibly empty = all) argument lists", "why_tests_cant": "counting over all pairs for all data", "anchors": ["opensfm/src/map/src/tracks_manager.cc:GetAllPairsConnectivity"]}
{"id": "C06", "title": "Merging tracks managers yields connected components", "statement": "merge_tracks_manager puts the observations of two input tracks in one output track iff the tracks are linked by a chain of tracks sharing a (shot, feature id); output ids are 0..n-1; no observation is lost unless two linked tracks observe one shot with different features.", "quantifier": "every list of tracks managers", "why_tests_cant": "transitive closure over arbitrary input", "anchors": ["opensfm/src/map/src/tracks_manager.cc:MergeTracksManager", "opensfm/src/foundation/union_find.h"]}
{"id": "C07", "title": "Tracks text serialisation round-trips", "statement": "from_string(as_string(m)) contains exactly the observations of m (with depth priors dropped) whenever ids contain no tab or newline and numbers round-trip through the number formatter.", "quantifier": "every tracks manager satisfying the id condition", "why_tests_cant": "any id/number could break the column format", "anchors": ["opensfm/src/map/src/tracks_manager.cc:AsString", "opensfm/src/map/src/tracks_manager.cc:InstanciateFromString"]}
{"id": "C08", "title": "Legacy and malformed tracks files", "statement": "A file without header is read as the 8-column format with default scale and no labels, version 1 as the 9-column format; any other version or any line with a wrong number of columns is rejected with an error, never partially accepted.", "quantifier": "every list of lines", "why_tests_cant": "malformed inputs are unbounded", "anchors": ["opensfm/src/map/src/tracks_manager.cc:InstanciateFromString", "opensfm/src/map/src/tracks_manager.cc:SeparateLineByTabs"]}
{"id": "C09", "title": "Python union-find represents exactly the union history", "statement": "After any sequence of unions and lookups, two elements have the same root iff they are connected by the unions made so far, and lookups (with path compression) never change the partition and always terminate.", "quantifier": "every history of UnionFind operations", "why_tests_cant": "path compression plus weights: correctness is an invariant over histories", "anchors": ["opensfm/unionfind.py:UnionFind"]}
{"id": "C10", "title": "C++ union-find represents exactly the union history", "statement": "Same as C09 for the header-only C++ structure, and GetUnionFindClusters returns the partition, sorted by cluster size.", "quantifier": "every history of Find/Union", "why_tests_cant": "as C09", "anchors": ["opensfm/src/foundation/union_find.h"]}
{"id": "C11", "title": "Created tracks are exactly the good connected components", "statement": "create_tracks_manager yields one track per connected component of the match graph that has at least min_length features and at most one feature per image, and each (image, feature) is in at most one track; components failing the test contribute no observation.", "quantifier": "every match dictionary and every min_length", "why_tests_cant": "graph connectivity over arbitrary input", "anchors": ["opensfm/tracking.py:create_tracks_manager", "opensfm/tracking.py:_good_track", "opensfm/unionfind.py"]}
{"id": "C12", "title": "Tracks do not depend on the order of matches", "statement": "Two match lists that are permutations of each other (pairs possibly reversed) produce the same set of feature groups.", "quantifier": "all permutations of all match lists", "why_tests_cant": "n! orders", "anchors": ["opensfm/tracking.py:create_tracks_manager"]}
{"id": "C13", "title": "Common tracks per image pair", "statement": "all_common_tracks returns, per unordered image pair, exactly the tracks seen by both images, each once, drops pairs with fewer than min_common tracks, and keeps the two point columns aligned with the track ids.", "quantifier": "every tracks manager, every min_common", "why_tests_cant": "alignment of parallel arrays for all inputs", "anchors": ["opensfm/tracking.py:all_common_tracks"]}
{"id": "C14", "title": "Map observations are symmetric", "statement": "After any history of successful map operations in which a feature index of a shot is given to at most one landmark at a time, a shot lists landmark l with observation o iff l lists the shot with o (same feature), and the feature->landmark index of the shot agrees.", "quantifier": "every operation history", "why_tests_cant": "invariant over three redundant indexes and many mutators", "anchors": ["opensfm/src/map/src/map.cc:AddObservation", "opensfm/src/map/src/map.cc:RemoveObservation", "opensfm/src/map/src/shot.cc", "opensfm/src/map/src/landmark.cc"]}
{"id": "C15", "title": "No dangling references after removals", "statement": "After remove_shot no landmark and no rig instance refers to the shot; after remove_landmark no shot refers to the landmark; nothing else changes.", "quantifier": "every map state and id", "why_tests_cant": "dangling pointers depend on history", "anchors": ["opensfm/src/map/src/map.cc:RemoveShot", "opensfm/src/map/src/map.cc:RemoveLandmark"]}
{"id": "C16", "title": "Failed map calls leave the map unchanged", "statement": "Creating an existing shot / landmark / rig camera / rig instance, or using unknown ids, raises and leaves the whole map unchanged.", "quantifier": "every map state and every call", "why_tests_cant": "all error branches in all states", "anchors": ["opensfm/src/map/src/map.cc:CreateShot", "opensfm/src/map/src/map.cc:CreateLandmark", "opensfm/src/map/src/map.cc:CreateRigInstance", "opensfm/src/map/src/map.cc:CreateRigCamera"]}
{"id": "C17", "title": "Cleaning removes exactly the under-observed landmarks", "statement": "clean_landmarks_below_min_observations(n) removes exactly the landmarks with fewer than n observations together with their observations in shots and keeps all others untouched.", "quantifier": "every map state and n", "why_tests_cant": "mutation while iterating over arbitrary maps", "anchors": ["opensfm/src/map/src/map.cc:CleanLandmarksBelowMinObservations"]}
{"id": "C18", "title": "Each shot is in exactly one rig instance, one shot per rig camera", "statement": "After any history of creations/removals, every shot is listed by exactly one rig instance (the one it names), a rig instance lists only existing shots, and no two shots of an instance share a rig camera.", "quantifier": "every operation history (without explicit removal of rig instances)", "why_tests_cant": "invariant over histories", "anchors": ["opensfm/src/map/src/rig.cc:AddShot", "opensfm/src/map/src/map.cc:CreateShot", "opensfm/src/map/src/map.cc:RemoveShot"]}
{"id": "C19", "title": "Shot pose is rig camera pose composed with instance pose", "statement": "Creating a shot with a pose and reading it back yields that pose; setting the instance pose through one shot moves every shot of the instance rigidly (relative poses unchanged).", "quantifier": "all rigid poses (exact arithmetic)", "why_tests_cant": "all rotations/translations", "anchors": ["opensfm/src/map/src/shot.cc:GetPose", "opensfm/src/map/src/rig.cc:UpdateInstancePoseWithShot", "opensfm/src/geometry/pose.h"]}
{"id": "C20", "title": "Every camera has a bias and conversely", "statement": "In every reachable map, a bias is stored for an id iff a camera with that id exists; set_bias raises exactly for unknown cameras.", "quantifier": "every operation history", "why_tests_cant": "invariant over histories", "anchors": ["opensfm/src/map/src/map.cc:CreateCamera", "opensfm/src/map/src/map.cc:SetBias"]}
{"id": "C21", "title": "Ordered pairs keep every candidate pair once, reference first", "statement": "ordered_pairs terminates and returns every unordered input pair that contains a reference image exactly once, adds none, and each returned pair starts with a reference image (pairs without a reference image are dropped).", "quantifier": "every set of pairs and list of reference images, every set-iteration order", "why_tests_cant": "set iteration order is unspecified; all graphs", "anchors": ["opensfm/pairs_selection.py:ordered_pairs"]}
{"id": "C22", "title": "Order-based matching pairs are exactly the window", "statement": "match_candidates_by_order returns pair {a,b} iff the positions of the two images differ within the documented window n=(max_neighbors+1)//2, with one image a reference, and never pairs an image with itself; 0 disables it.", "quantifier": "all image lists and window sizes", "why_tests_cant": "off-by-one at every boundary", "anchors": ["opensfm/pairs_selection.py:match_candidates_by_order"]}
{"id": "C23", "title": "Candidate selection falls back to all pairs and never loses a strategy's pairs", "statement": "match_candidates_from_metadata returns all reference x candidate pairs when every strategy is off, else exactly the union of the strategies' pairs; every returned pair is unordered-unique and has a reference image first.", "quantifier": "all configurations and image sets", "why_tests_cant": "combinatorial configuration space", "anchors": ["opensfm/pairs_selection.py:match_candidates_from_metadata"]}
{"id": "C24", "title": "Neighbour lists are bounded and nearest first", "statement": "pairs_from_neighbors never selects more than max_neighbors images of the same camera and of other cameras, and every selected image is at least as near as every unselected one of the same class; construct_pairs keeps the nearest max_neighbors.", "quantifier": "all distance tables", "why_tests_cant": "tie and boundary cases", "anchors": ["opensfm/pairs_selection.py:pairs_from_neighbors", "opensfm/pairs_selection.py:construct_pairs"]}
{"id": "C25", "title": "Symmetric matching is one-to-one", "statement": "match_*_symmetric returns pair (i,j) iff i's accepted match is j and j's accepted match is i; hence no feature appears in two pairs, and swapping the images swaps the pairs.", "quantifier": "all descriptor sets/distance functions", "why_tests_cant": "all inputs", "anchors": ["opensfm/matching.py:match_brute_force_symmetric", "opensfm/matching.py:match_words_symmetric", "opensfm/matching.py:match_flann_symmetric"]}
{"id": "C26", "title": "Word matching respects the ratio test", "statement": "MatchUsingWords returns for a query only the nearest among the examined candidates, and only if it beats the second nearest by the Lowe ratio; each query appears at most once; no more than max_checks (plus the last word's bucket) candidates are examined.", "quantifier": "all word assignments, descriptors, ratios, max_checks", "why_tests_cant": "loop with early exit over arbitrary buckets", "anchors": ["opensfm/src/features/src/matching.cc:MatchUsingWords"]}
{"id": "C27", "title": "Matching filters only drop matches, and weak pairs give nothing", "statement": "Each filter stage (semantic mask mapping, adhoc filters, robust estimation) returns a sub-list of its input matches, and the pair result is empty unless at least robust_matching_min_match matches survive both before and after robust estimation.", "quantifier": "all inputs to all filters", "why_tests_cant": "pipeline of filters for all data", "anchors": ["opensfm/matching.py:match", "opensfm/matching.py:_match_robust_impl", "opensfm/matching.py:apply_adhoc_filters"]}
{"id": "C28", "title": "Stored matches are found again with the right orientation", "statement": "find_matches(im1, im2) returns the matches as (feature of im1, feature of im2) whichever image they were stored under, and an empty result iff the pair was never matched or matched empty.", "quantifier": "all match tables and all pairs", "why_tests_cant": "orientation depends on reference sets", "anchors": ["opensfm/dataset.py:find_matches", "opensfm/matching.py:save_matches"]}
{"id": "C29", "title": "Masked feature indices map back to the original features", "statement": "unfilter_matches composed with masking returns indices of the unmasked feature arrays that denote the same features.", "quantifier": "all masks and match lists", "why_tests_cant": "index arithmetic over all masks", "anchors": ["opensfm/matching.py:unfilter_matches", "opensfm/features.py:FeaturesData.mask"]}
{"id": "C30", "title": "Parallel feature extraction processes each image exactly once", "statement": "In every interleaving of producers and consumers over the shared bounded queue, every image is processed at most once, and when all workers have returned every image was processed exactly once.", "quantifier": "all schedules, all numbers of producers/consumers, all queue capacities, all image lists", "why_tests_cant": "schedules are unbounded", "anchors": ["opensfm/features_processing.py:read_images", "opensfm/features_processing.py:run_detection", "opensfm/features_processing.py:Counter"]}
{"id": "C31", "title": "Parallel feature extraction never deadlocks", "statement": "From every reachable state some worker can make progress until all have returned, provided the queue can hold one sentinel per producer.", "quantifier": "all schedules", "why_tests_cant": "deadlock freedom needs all interleavings; the code violates it for capacity 1", "anchors": ["opensfm/features_processing.py:run_features_processing", "opensfm/features_processing.py:read_images", "opensfm/features_processing.py:run_detection"]}
{"id": "C32", "title": "Producer chunks partition the image list", "statement": "The chunks handed to the producers concatenate to the image list, no more than the configured number of producers is started, and none is empty.", "quantifier": "all image counts and process counts", "why_tests_cant": "rounding at every size", "anchors": ["opensfm/features_processing.py:run_features_processing"]}
{"id": "C33", "title": "Partial reconstructions are disjoint and account for every image", "statement": "incremental_reconstruction returns reconstructions with pairwise disjoint shots (rig instances are added whole); every input image is in exactly one reconstruction or in not_reconstructed_images; the list is sorted by decreasing number of shots.", "quantifier": "all match graphs, all outcomes of every numerical step (resection success, inliers, bootstrap success), all rig assignments that partition images", "why_tests_cant": "numerical outcomes are unbounded; the property is about all of them", "anchors": ["opensfm/reconstruction.py:incremental_reconstruction", "opensfm/reconstruction.py:grow_reconstruction", "opensfm/reconstruction.py:add_shot"]}
{"id": "C34", "title": "Growing terminates and only adds requested images", "statement": "grow_reconstruction performs at most as many successful iterations as there are remaining images, never removes a shot, and stops only when no candidate can be added.", "quantifier": "all outcomes of resection", "why_tests_cant": "unbounded loop", "anchors": ["opensfm/reconstruction.py:grow_reconstruction", "opensfm/reconstruction.py:resect", "opensfm/reconstruction.py:reconstructed_points_for_images"]}
{"id": "C35", "title": "Outlier removal is exact", "statement": "remove_outliers deletes exactly the observations whose reprojection error exceeds the threshold among the processed points, then deletes exactly the touched points left with fewer than two observations, and returns the number of deleted observations.", "quantifier": "all maps, error tables, point subsets", "why_tests_cant": "all states", "anchors": ["opensfm/reconstruction.py:remove_outliers"]}
{"id": "C36", "title": "Shot neighbourhoods are bounded, connected and disjoint", "statement": "shot_neighborhood returns an interior containing the central shot, no larger than max(1, max_interior_size), every interior shot other than the centre sharing at least min_common_points landmarks with the interior that preceded it; the boundary is disjoint from the interior and consists of exactly the shots sharing a landmark with it.", "quantifier": "all maps and parameters", "why_tests_cant": "graph growth with truncation over all maps", "anchors": ["opensfm/reconstruction.py:shot_neighborhood", "opensfm/reconstruction.py:direct_shot_neighbors", "opensfm/src/sfm/src/ba_helpers.cc:ShotNeighborhood"]}
{"id": "C37", "title": "Robust estimation returns the best model it has scored", "statement": "The returned score is the maximum over all models scored during the run (minimal and local-optimisation), the returned inlier list is exactly the samples within threshold of the returned refined model, and the number of iterations never exceeds the configured one.", "quantifier": "all samples, thresholds, random sequences, estimators", "why_tests_cant": "random draws and models unbounded", "anchors": ["opensfm/src/robust/robust_estimator.h:Estimate", "opensfm/src/robust/scorer.h", "opensfm/src/robust/random_sampler.h"]}
{"id": "C38", "title": "Random samples are distinct and in range", "statement": "The sampler returns the requested number of pairwise distinct indices in range, for every random stream on which it returns.", "quantifier": "all random streams", "why_tests_cant": "streams unbounded", "anchors": ["opensfm/src/robust/random_sampler.h:GenerateOneSample"]}
{"id": "C39", "title": "Rigid pose algebra", "statement": "compose is associative with identity, inverse is two-sided, relative_to(b) composed with b gives back the pose, transform of composition is composition of transforms, get_origin is the point mapped to 0, set_origin/get_origin round-trip.", "quantifier": "all rigid transforms over the reals", "why_tests_cant": "all rotations/translations", "anchors": ["opensfm/src/geometry/pose.h", "opensfm/src/geometry/similarity.h"]}
{"id": "C40", "title": "Similarity alignment preserves camera geometry", "statement": "apply_similarity(s,A,b) moves points and shot poses so that every point keeps its direction from every camera (camera coordinates scale by s), for single shots and rigs.", "quantifier": "all similarities with s>0 and A orthogonal, all reconstructions", "why_tests_cant": "all reals", "anchors": ["opensfm/align.py:apply_similarity", "opensfm/align.py:apply_similarity_pose"]}
{"id": "C41", "title": "Bearing and projection are inverse", "statement": "For every camera type, bearings are unit vectors, and projecting the bearing of an image point gives the point back whenever the focal length and aspect ratio are not zero, the undistortion solver found a solution and the point is in the field of view; when the solver stops on its tolerance the error is bounded.", "quantifier": "all camera types, parameters and image points (reals)", "why_tests_cant": "all reals", "anchors": ["opensfm/src/geometry/camera_projections_functions.h", "opensfm/src/geometry/camera_distortions_functions.h", "opensfm/src/geometry/transformations_functions.h", "opensfm/src/geometry/camera_instances.h", "opensfm/src/geometry/src/camera.cc:Camera::Project, Camera::Bearing"]}
{"id": "C42", "title": "Analytic derivatives are the derivatives", "statement": "The jacobians of every camera (projection, distortion, planar part), of cameras with a pose or in a rig, and the jacobian blocks given to the solver by the 2D and 3D reprojection residuals are the partial derivatives of the values computed, wherever these are differentiable; and the residual is the same with and without jacobians.", "quantifier": "all camera types, points and parameters", "why_tests_cant": "all reals; finite differences test few points", "anchors": ["opensfm/src/geometry/functions.h", "opensfm/src/geometry/camera_distortions_functions.h", "opensfm/src/geometry/camera_projections_functions.h", "opensfm/src/geometry/transformations_functions.h", "opensfm/src/bundle/error/projection_errors.h:Evaluate"]}
{"id": "C43", "title": "Geographic conversions", "statement": "Topocentric coordinates of a position, in the frame of any reference, map back to its ECEF point, the reference maps to the origin and distances are preserved; the axes of the frame head east, north and up; from ECEF coordinates the longitude is recovered exactly at any altitude, the full position exactly on the ellipsoid, and x and y exactly everywhere away from the polar axis and the centre of the Earth; gps_distance is a distance.", "quantifier": "all reference points and all points (exact arithmetic)", "why_tests_cant": "all reals", "anchors": ["opensfm/geo.py:ecef_from_lla", "opensfm/geo.py:lla_from_ecef", "opensfm/geo.py:ecef_from_topocentric_transform", "opensfm/geo.py:topocentric_from_lla", "opensfm/geo.py:lla_from_topocentric", "opensfm/geo.py:gps_distance"]}
{"id": "C44", "title": "Image coordinate systems agree", "statement": "Normalised and pixel coordinates convert into each other without loss in Python and in C++ (the same functions), every pixel centre has normalised coordinates inside (-1/2, 1/2), feature sizes scale alike; resizing for feature extraction makes the larger side exactly the requested size, never enlarges, and produces an empty side only for extremely elongated images.", "quantifier": "all sizes and points", "why_tests_cant": "all sizes", "anchors": ["opensfm/features.py:normalized_image_coordinates", "opensfm/features.py:denormalized_image_coordinates", "opensfm/features.py:resized_image", "opensfm/src/geometry/src/camera.cc"]}
{"id": "C45", "title": "Masks are looked up at the pixel that shows the feature", "statement": "For EXIF orientations 1, 3, 6 and 8 every feature strictly inside the image is looked up at the mask pixel covering its position in the upright image, without wrap-around or exception; other orientations raise; the conversion is injective; a combined mask never keeps what one mask drops.", "quantifier": "all sizes, points, orientations", "why_tests_cant": "all reals / orientations", "anchors": ["opensfm/upright.py:opensfm_to_upright", "opensfm/masking.py:load_features_mask", "opensfm/masking.py:combine_masks"]}
{"id": "C46", "title": "Camera JSON round-trips for every projection type", "statement": "camera_from_json(camera_to_json(c)) = c for every supported projection type and all parameters with focal != 0; unknown types raise.", "quantifier": "all cameras", "why_tests_cant": "10 types x all parameters", "anchors": ["opensfm/io.py:camera_from_json", "opensfm/io.py:camera_to_json"]}
{"id": "C47", "title": "Camera vector round-trips", "statement": "camera_from_vector applied to camera_to_vector of a camera gives the camera back for every projection type (focal non-zero for the affine types); vectors of the wrong length are rejected (a spherical camera ignores its vector); different cameras have different vectors.", "quantifier": "all cameras", "why_tests_cant": "as C46", "anchors": ["opensfm/io.py:camera_from_vector", "opensfm/io.py:camera_to_vector"]}
{"id": "C48", "title": "Shot metadata JSON round-trips", "statement": "json_to_pymap_metadata(pymap_metadata_to_json(m)) keeps every field that is set and invents none, except opk angles/accuracy, which the writer never writes; a null in the file reads as absent; copying one shot's metadata to another keeps the same fields", "quantifier": "all metadata records, i.e. every presence pattern and every value", "why_tests_cant": "2^n presence patterns; opk fields are lost by the code", "anchors": ["opensfm/io.py:pymap_metadata_to_json", "opensfm/io.py:json_to_pymap_metadata"]}
{"id": "C49", "title": "Reconstruction JSON round-trips", "statement": "Writing then reading a reconstruction succeeds and gives back the same cameras, biases, rig cameras, rig instances with their member shots, shots, pano shots with attributes and metadata, points and reference, for every reconstruction that API calls can build provided shots and pano shots use different names and add_rig_instance is not called with an id in use; the same for lists of reconstructions", "quantifier": "all reconstructions reachable by any history of API calls, all pose groups with a lossless vector encoding", "why_tests_cant": "arbitrary size data with cross references", "anchors": ["opensfm/io.py:reconstruction_to_json", "opensfm/io.py:reconstruction_from_json", "opensfm/types.py:Reconstruction", "opensfm/src/map/src/map.cc:Map::CreateShot"]}
{"id": "C50", "title": "Ground control point list parsing groups by position", "statement": "read_gcp_list gives one point per distinct (x, y, altitude) triple that occurs with an image of the data set, in order of first appearance and with ids unnamed-0, unnamed-1, ..., each carrying exactly the observations of its lines in file order; a position with NaN altitude is never merged (one point per line); comments and blank lines have no effect; a malformed line raises; the UTM header gives the zone and hemisphere written", "quantifier": "all files, number parsers, map projections and sets of images", "why_tests_cant": "arbitrary duplicates and unknown images", "anchors": ["opensfm/io.py:_read_gcp_list_lines"]}
{"id": "C51", "title": "Ground control point JSON round-trips", "statement": "Writing ground control points and reading the file back gives the same ids, positions (lla_vec), has_altitude flags and observations (image and projection) in the same order; writing succeeds exactly when every non-empty position has latitude, longitude and the altitude it claims; survey id, role and uid are not kept", "quantifier": "all lists of ground control points", "why_tests_cant": "all presence patterns", "anchors": ["opensfm/io.py:read_ground_control_points", "opensfm/io.py:write_ground_control_points"]}
{"id": "C52", "title": "Capture time accounts for the time-zone offset", "statement": "extract_capture_time returns the GPS time when it is valid, else the first valid one of DateTimeOriginal, DateTimeDigitized, DateTime, else 0; with a +-HH:MM offset the result is UTC exactly when the offset is negative or has no minutes (for +HH:MM it is late by 2*MM minutes)", "quantifier": "all tag dictionaries, clocks and offsets", "why_tests_cant": "the sign of the minutes only matters for fractional-hour offsets; the code is wrong for positive ones", "anchors": ["opensfm/exif.py:extract_capture_time"]}
{"id": "C53", "title": "EXIF focal and GPS decoding", "statement": "compute_focal always returns a consistent pair (35 mm equivalent = 36 * ratio), prefers a positive 35 mm equivalent, else focal/sensor width, and 0 only when information is missing; sensor width follows the resolution units; GPS tags decode to signed decimal degrees, latitude present iff longitude, altitude signed by its reference and capped at 10000; a latitude tag without longitude tag raises The position and altitude of a DJI drone's first XMP entry replace those of the tags, with the sign each coordinate is written with; finding: a coordinate written without a sign loses its first character and becomes negative.", "quantifier": "all tag dictionaries and sensor tables", "why_tests_cant": "all rationals/absent tags", "anchors": ["opensfm/exif.py:compute_focal", "opensfm/exif.py:gps_to_decimal", "opensfm/exif.py:extract_geo"]}
{"id": "C54", "title": "Positions interpolated from a GPX track", "statement": "A time before the first point or not before the last one is refused. Any other time lies between two consecutive points and the latitude, longitude and elevation are their means weighted with the times, hence between theirs, and equal to the point at the time of a point. Written to EXIF and read again, a coordinate is the same up to half a millionth of an arc second with its sign. The bearing is in [0,360), does not depend on the turn of the longitudes, and north, south and east are 0, 180 and 90.", "quantifier": "all tracks, all times, all coordinates", "why_tests_cant": "all times and tracks, real-valued trigonometry", "anchors": ["opensfm/geotag_from_gpx.py:interpolate_lat_lon", "opensfm/geotag_from_gpx.py:compute_bearing", "opensfm/geotag_from_gpx.py:to_deg", "opensfm/geotag_from_gpx.py:add_exif_using_timestamp", "opensfm/exif.py:gps_to_decimal"]}
{"id": "C55", "title": "Rig pattern assignment partitions images", "statement": "create_instances_with_patterns puts each image either in exactly one rig instance or in the single-shot list, as often as it is listed. An image goes to the rig camera of the first pattern that removes some but not all of its name, and the instance is named by what remains; the instance lists exactly the images with that remainder, in order. Images no pattern applies to are the single shots. Nothing prevents two images of an instance from having the same rig camera.", "quantifier": "all images, all patterns, all results of the regular expression substitution", "why_tests_cant": "pattern match outcomes are arbitrary", "anchors": ["opensfm/rig.py:create_instances_with_patterns"]}
{"id": "C56", "title": "Rig lookups agree with assignments", "statement": "rig_assignments_per_image finds for an image an instance that contains it with the rig camera it has there and all images of that instance; every assigned image is found; the entry is the unique one when no image is assigned twice and the last one otherwise. A rig_assignments.json in the old list format names each instance by its position. load_rig_cameras gives the rig cameras of the file, and an identity rig camera for the camera models the file does not mention.", "quantifier": "all assignments, both file formats, all rig camera files", "why_tests_cant": "all data", "anchors": ["opensfm/rig.py:rig_assignments_per_image", "opensfm/dataset.py:load_rig_assignments", "opensfm/dataset.py:load_rig_cameras"]}
{"id": "C57", "title": "Submodels: membership, files and crash history", "statement": "A submodel written by create_submodels contains exactly the images whose own cluster it is plus the images its members have as neighbours within the overlap distance, in a deterministic order, each once; every image with a position is in the submodel of its own cluster; splitting fails exactly if a cluster has no image; the image list file with coordinates reads back what was written (unless a name contains a tab); images of one group of the groups file always end in the same group and every image gets a group; get_submodel_paths returns exactly the consecutive existing submodel folders, and after any history of complete or interrupted splits with the default folder template the paths returned are those of the last split only.", "quantifier": "all image lists, clusterings, neighbour relations, group files and histories of (possibly interrupted) splits", "why_tests_cant": "the claim ranges over all clusterings and all crash points of a history of runs", "anchors": ["opensfm/large/metadataset.py:create_submodels", "opensfm/large/metadataset.py:get_submodel_paths", "opensfm/large/tools.py:add_cluster_neighbors", "opensfm/actions/create_submodels.py:run_dataset"]}
{"id": "C58", "title": "Inverting a similarity", "statement": "invert_similarity composed with the similarity is the identity.", "quantifier": "all s != 0, A orthogonal, b", "why_tests_cant": "all reals", "anchors": ["opensfm/large/tools.py:invert_similarity"]}
{"id": "C59", "title": "Reference is computed once and stays", "statement": "init_reference writes the reference only when absent, so no sequence of stages, crashes and changes of the data changes it, and it is the one invented from the data present at the first call; this is the mean of the image positions (without any, of the ground control points) weighted by the inverse of the dilution of precision, in their bounding box, whatever the order of the images. Limits, also proved: two images on either side of the 180th meridian get longitude 0; a process dying while writing the reference leaves a dataset whose reference never loads.", "quantifier": "all histories of stages and crashes; all GPS data", "why_tests_cant": "histories and all reals", "anchors": ["opensfm/dataset.py:init_reference", "opensfm/dataset.py:invent_reference_from_gps_and_gcp"]}
{"id": "C60", "title": "User configuration overrides exactly the given keys", "statement": "The configuration of a dataset is, for every key, the value given in config.yaml if the key is given there and the default otherwise; unknown keys are kept and do not change any known one; an empty or missing file gives the defaults; a file whose document is not a mapping is an error; the table of defaults has one value per key.", "quantifier": "all config documents", "why_tests_cant": "all subsets of the keys and all values", "anchors": ["opensfm/config.py:load_config_from_fileobject", "opensfm/config.py:load_config", "opensfm/config.py:OpenSfMConfig", "opensfm/dataset.py:load_config"]}
{"id": "C61", "title": "Union-find trees stay shallow", "statement": "Whatever the sequence of allocations, unions and finds, a find of the C++ union-find follows at most log2(n) parent pointers, n being the number of elements of the class; the same holds for the Python union-find when each union call has at most two arguments, and then the weight kept for a root is the number of items of its class. (A union call naming two members of one smaller class counts that class twice.)", "quantifier": "all sequences of unions and finds on any number of elements", "why_tests_cant": "ranges over all histories; a test only sees a few trees", "anchors": ["opensfm/src/foundation/union_find.h", "opensfm/unionfind.py"]}
{"id": "C62", "title": "Pose jacobian at tiny rotations", "statement": "The jacobian of a point transformed by a pose is its derivative when the squared rotation angle exceeds 2^-52; below it (in particular for the identity rotation) the columns of the rotation parameters returned by the code have the wrong sign.", "quantifier": "all poses and points", "why_tests_cant": "all reals; the existing tests use one rotation above the threshold", "anchors": ["opensfm/src/geometry/transformations_functions.h:PoseFunctor, AngleAxisToRotation"]}
{"id": "C63", "title": "Derivatives used to undistort", "statement": "The derivative that the undistortion solver of each camera uses is the derivative of the distortion: true for Fisheye OpenCV, Fisheye62 and Brown; false for perspective, fisheye, dual, radial, simple radial (wrong factors) and Fisheye624 (transposed).", "quantifier": "all coefficients and points", "why_tests_cant": "all reals; tests only see the converged result", "anchors": ["opensfm/src/geometry/camera_distortions_functions.h:DistoEval"]}
{"id": "C64", "title": "Bearing of the centre of a dual camera", "statement": "For a dual camera, the bearing of an image point whose undistorted position is within 2e-6 of the centre is computed as 0/0.", "quantifier": "all transitions and points", "why_tests_cant": "needs the exact behaviour of the iteration for all points near the centre", "anchors": ["opensfm/src/geometry/camera_projections_functions.h:DualProjection"]}
{"id": "C65", "title": "Camera parameters are accessed by name", "statement": "Camera constructors store their arguments under their own names; setting a parameter changes that one only and unknown parameters raise; the calibration matrix in pixels is the normalised one in other units. (The distortion setter does not accept what the distortion getter returns.)", "quantifier": "all projection types and parameter values", "why_tests_cant": "ten types times all values and orders of updates", "anchors": ["opensfm/src/geometry/src/camera.cc", "opensfm/src/geometry/python/pybind.cc"]}
{"id": "C66", "title": "The camera of an image depends on its own metadata", "statement": "The camera model made from an image's metadata is a function of that metadata and of the calibration table shipped with OpenSfM; it does not depend on the images processed before in the same process, unless a table calibration without projection type was used earlier by an image of another projection type. Without a table entry, every supported projection type except dual gives a camera of that type with the image's name and size, its focal length or the configured prior, aspect ratio one and no distortion.", "quantifier": "all tables, all histories of earlier images, all metadata", "why_tests_cant": "The table is process-wide state changed by each call; a test has one short history, the property ranges over every sequence of images before the one considered.", "anchors": ["opensfm/exif.py:hard_coded_calibration", "opensfm/exif.py:calibration_from_metadata", "opensfm/exif.py:camera_from_exif_metadata", "opensfm/sensors.py:camera_calibration"]}
{"id": "C67", "title": "Metadata extraction survives crashes between files", "statement": "If the metadata extraction stage is interrupted, any number of times and at any points, and no metadata file was left half written, running it again ends exactly like an uninterrupted run. If a metadata file was left half written every later run fails and the camera models are not written until the file is removed. An image whose metadata file exists is not extracted again, whatever overrides or configuration changed. A successful run leaves one metadata file per image and one camera model per camera named in the metadata, made from the first image that names it, with the overrides applied.", "quantifier": "all data sets, all disk contents, all crash points, all sequences of interrupted runs", "why_tests_cant": "It ranges over every crash point of every sequence of runs.", "anchors": ["opensfm/actions/extract_metadata.py:run_dataset", "opensfm/dataset.py:save_exif", "opensfm/dataset.py:exif_exists", "opensfm/dataset.py:save_camera_models"]}
{"id": "C68", "title": "Sampling a GPX track", "statement": "Sampling a track sorted by time every dt seconds terminates without failing its assertion or dividing by zero; samples start at the first point, are exactly dt apart, lie on segments of the track, and less than dt of the track remains after the last one. A frame geotagged at the time of a sample gets the position of the sample, except at the end of the track. The segment-sphere intersection is on both.", "quantifier": "all sorted tracks, all spacings, all segments and spheres", "why_tests_cant": "all tracks; termination of a data-dependent loop", "anchors": ["opensfm/geotag_from_gpx.py:sample_gpx", "opensfm/geotag_from_gpx.py:time_next_point", "opensfm/geotag_from_gpx.py:gpx_lerp", "opensfm/geotag_from_gpx.py:segment_sphere_intersection"]}
{"id": "C69", "title": "Rig calibration windows, counting and choice of rig camera", "statement": "A round of rig calibration uses at most rig_calibration_subset_size instances, consecutive in time, among them all within half the size of the chosen one except the last instance in time, which is never used. count_reconstructed_instances is the number of instances all of whose images are in the reconstruction. Each rig camera is taken from the first group of instances, by decreasing size, that yields it.", "quantifier": "all lists of instances, random indices, subset sizes and reconstructions", "why_tests_cant": "all lists and random choices", "anchors": ["opensfm/rig.py:propose_subset_dataset_from_instances", "opensfm/rig.py:count_reconstructed_instances", "opensfm/rig.py:create_rig_cameras_from_reconstruction"]}
{"id": "C70", "title": "Aligning submodels", "statement": "The alignment problem has one reconstruction per partial reconstruction with distinct names; two reconstructions are connected exactly if they share a shot; with soft camera constraints every reconstruction is added once, every shot once (anchored to the first reconstruction with it) and there is one motion per reconstruction and shot of it; after solving, exactly the submodels that have a reconstruction are rewritten, and every partial reconstruction, in its old position, is transformed with the inverse of its own solution and of no other.", "quantifier": "all families of submodels, numbers of partial reconstructions, shots and solver answers", "why_tests_cant": "all overlap patterns and all key orders", "anchors": ["opensfm/large/tools.py:apply_transformations", "opensfm/large/tools.py:connected_reconstructions", "opensfm/large/tools.py:add_camera_constraints_soft", "opensfm/large/tools.py:partial_reconstruction_name", "opensfm/actions/align_submodels.py:run_dataset"]}
{"id": "C71", "title": "Images and masks of a dataset folder", "statement": "Without image_list.txt the images are exactly the files of the images folder whose extension (letters in either case) is one of the known ones; with it they are exactly the base names of the lines, the last line winning for equal names; listing no image at all is an error if and only if the result is empty; a mask is found for an image exactly if <image>.png or the image name is in the masks folder, or, with mask_list.txt, as its line says.", "quantifier": "all folder contents and list files", "why_tests_cant": "all names, extensions, blank lines and duplicates", "anchors": ["opensfm/dataset.py:load_image_list", "opensfm/dataset.py:_set_image_list", "opensfm/dataset.py:_is_image_file", "opensfm/dataset.py:load_mask_list"]}
{"id": "C72", "title": "Subset of a dataset", "statement": "DataSet.subset opens the target folder before creating anything in it, so on a fresh folder it always raises, and each round of rig calibration that uses it fails; on a folder with an earlier subset, images of the earlier one stay.", "quantifier": "all datasets and image subsets", "why_tests_cant": "for all datasets, image names and earlier contents", "anchors": ["opensfm/dataset.py:subset", "opensfm/rig.py:propose_subset_dataset_from_instances", "opensfm/actions/create_rig.py:run_dataset"]}
{"id": "C73", "title": "Feature data and feature files", "statement": "Masking feature data with a Boolean array of the right length keeps exactly the rows at the true positions, in order, in every array (points, descriptors, colours, labels, instances, depths), so the rows of one feature stay together, and a mask of another length raises. Saving and loading feature data gives back the same points, descriptors, colours, labels and instances whenever the numbers fit the stored element types (labels below 256, instances 16 bit), for every feature type; depths are not stored. Old file versions load as documented, newer ones raise, and a legacy feature file hides what is saved later. With a feature type written in other letters than HAHOG, 8 bit descriptors are loaded as bytes.", "quantifier": "all feature data, masks, feature types and element types, file versions, and contents of the two file locations", "why_tests_cant": "a test masks and saves a few arrays; row alignment and round trip must hold for all arrays, types and versions", "anchors": ["opensfm/features.py:SemanticData", "opensfm/features.py:FeaturesData", "opensfm/dataset.py:load_features", "opensfm/dataset.py:save_features"]}
{"id": "C74", "title": "Masked features and the caches of the feature loader", "statement": "After clear_cache every sequence of calls of the feature loader (masks, points, bearings, all data, index, words, masked or not) returns what reading the files directly would return, and no cache exceeds its size, as long as nothing is written; a file written after it was loaded is not seen until then. With features_bake_segmentation the loader returns exactly the features whose label is not ignored and where the mask image is not zero; without it exactly those where the combined mask is not zero, and with a mask of the segmentation's size whose values are zero or odd both give the same features. Masked words belong to the masked features, and the segmentation in the descriptor is 35 times the label.", "quantifier": "all call sequences, image sets, masks and segmentations, detected features and sort orders", "why_tests_cant": "the histories of a cache and the images and masks are unbounded; a test compares a few calls", "anchors": ["opensfm/feature_loading.py:FeatureLoader", "opensfm/features_processing.py:detect", "opensfm/features_processing.py:bake_segmentation", "opensfm/masking.py:load_features_mask"]}
{"id": "C75", "title": "Interrupted runs of feature detection", "statement": "For every history of detect_features runs on a new data set, each stopped at any moment and with any schedule of its threads: words that can be read belong to the features that can be read; if runs were stopped only between the writing of files, the next complete run leaves readable features (and words, if needed) for every image and succeeds; finished images are never recomputed. A run stopped while it writes a features file (words not needed), a words file or an image report is not repaired by any later run: the file stays unreadable, and an unreadable report makes every later run fail at the end.", "quantifier": "all histories of runs, stopping points, schedules of the detection threads and results of the detector", "why_tests_cant": "crash points and histories are unbounded", "anchors": ["opensfm/features_processing.py:detect", "opensfm/actions/detect_features.py:write_report", "opensfm/dataset.py:save_features", "opensfm/dataset.py:save_words"]}
{"id": "C76", "title": "Perspective views of a panorama", "statement": "Undistorting a panorama makes six perspective views. Every observation of a track in the panorama is given to at least one view, and to only one unless its direction is exactly on an edge between views. Where a view gets an observation, it is inside the view, at the point whose ray is the ray of the original observation, the image of the view shows there exactly the point of the panorama that was observed, and a 3D point that the panorama sees without error is seen by the view without error. (Disagreement found: the view called left shows the right side of the panorama, and the one called right the left side; a user relying on the names gets them swapped.)", "quantifier": "all poses of the panorama, all observations, all 3D points, all sizes of the views", "why_tests_cant": "real-valued directions and poses; the borders between the six pyramids have measure zero and are never hit by samples", "anchors": ["opensfm/undistort.py:perspective_views_of_a_panorama", "opensfm/undistort.py:add_pano_subshot_tracks", "opensfm/undistort.py:render_perspective_view_of_a_panorama", "opensfm/transformations.py:rotation_matrix"]}
{"id": "C77", "title": "Undistorted reconstruction", "statement": "undistort_reconstruction gives every shot whose image is in the data set and whose camera type is supported its undistorted shots: one with the same pose and metadata, or six views around the pose of a panorama; no others. Each refers to a perspective camera without distortion of the original size with the original (mean) focal length, or to the common camera of the views. undistorted_shot_ids lists exactly them, and the undistorted tracks get exactly the observations of the originals (for panoramas those inside the view). It raises exactly if two undistorted ids are equal, e.g. for photos x and x.jpg. Shots of radial, simple_radial, fisheye624 and dual cameras are silently left out.", "quantifier": "all reconstructions, tracks and image lists; cameras not named like a view of a panorama or like its camera", "why_tests_cant": "interaction of identifiers of shots, rig cameras and rig instances over any number of shots", "anchors": ["opensfm/undistort.py:undistort_reconstruction", "opensfm/undistort.py:add_subshot_tracks", "opensfm/undistort.py:get_shot_with_different_camera", "opensfm/undistort.py:perspective_views_of_a_panorama", "opensfm/types.py:create_shot"]}
{"id": "C78", "title": "Image of an undistorted shot", "statement": "Where the undistorted image of a photo shows a 3D point at a pixel, that pixel was sampled in the original image at the projection of the point by the original camera (positions relative to the image centre), for perspective, Brown and fisheye cameras; a photo without distortion is left as it is. Images longer than undistorted_image_max_size get exactly this longest side and keep their shape up to half a pixel, others keep their size. (Disagreements found: the mapping and the features place pixel centres half a pixel apart, so with an aspect ratio a the sampled position is off by (a-1)/(2(a+1)) pixels; the undistorted tracks keep the distorted coordinates, off by f(k1 r^2 + k2 r^4) times the point or by the principal point; the resize fails if the short side becomes half a pixel or less.)", "quantifier": "all cameras, distortions, image sizes, pixels and points in front of the camera", "why_tests_cant": "real-valued cameras and points; a test on one calibrated camera misses principal point, aspect ratio and distortion terms", "anchors": ["opensfm/src/geometry/src/camera.cc:ComputeCameraMapping", "opensfm/undistort.py:undistort_image", "opensfm/undistort.py:scale_image", "opensfm/undistort.py:add_subshot_tracks", "opensfm/features.py:normalized_image_coordinates"]}
{"id": "C79", "title": "Geometry and scores of dense matching", "statement": "Backprojecting a pixel at a depth and projecting the point again gives the pixel and the depth, and conversely; the homography of a plane maps the pixel of every point of the plane in one view to its pixel in the other; the plane built from a pixel, a depth and a normal contains the point and has that depth there; every depth is positive and at most 1e6; the correlation of two patches is between -1 and 1, -1 without contrast, and 1 when they differ by contrast and brightness only; the points compared for a patch are the image of its pixels by the homography to first order.", "quantifier": "all cameras, rotations, points, planes, pixels, images, patch sizes and sample sequences", "why_tests_cant": "The repository tests one homography, one depth and one patch; the statements hold for all views and are equalities over the reals.", "anchors": ["opensfm/src/dense/src/depthmap.cc", "opensfm/src/dense/depthmap.h", "opensfm/src/geometry/src/camera.cc"]}
{"id": "C80", "title": "Depthmaps of the estimator", "statement": "Whatever the random draws, patch match gives depth 0 to pixels too near the border, masked out or without contrast, and a positive depth to all others, whose score and neighbor are those of their plane; rounds never make a score worse; after each pass no pixel would be better with the plane of the pixel it comes after; post-processing keeps a depth exactly if the majority of the 25 depths around it agree within 5 percent; brute force finds the best of the swept planes over all views. Saved depths are below the greatest depth.", "quantifier": "all images, views, masks, patch sizes, numbers of rounds and random outcomes", "why_tests_cant": "The algorithm is random: a test sees one outcome of the draws on one image.", "anchors": ["opensfm/src/dense/src/depthmap.cc", "opensfm/src/dense/depthmap.h", "opensfm/dense.py"]}
{"id": "C81", "title": "Cleaning, pruning and merging of depthmaps", "statement": "Cleaning keeps a depth unchanged exactly if enough views agree with its point and sets it to zero otherwise; more views or a smaller requirement never remove a depth. Pruning gives, row by row, exactly the pixels with a depth for which no other view has a better resolution, with points, normals, colours and labels in the same order; and no surface is lost: from every pixel with a depth a chain of better and better pixels ends with one that is in the cloud of its view.", "quantifier": "all depthmaps, views, thresholds, numbers of views and neighbour lists", "why_tests_cant": "The repository has no test of cleaning or pruning; that pruning all views against each other loses nothing is a statement about any number of views.", "anchors": ["opensfm/src/dense/src/depthmap.cc", "opensfm/dense.py"]}
{"id": "C82", "title": "The stage that computes depthmaps", "statement": "compute_depthmaps ends with the same files whatever the order in which the workers take the shots and also when it is interrupted between two shots and started again; it never changes a file that exists. If nothing raises, every shot with a neighbour gets its three files, each computed from its own depthmap first and those of the neighbours that have one, and merging gives one cloud for each shot that has one. What is not repaired: a torn raw depthmap leaves its shot and all its neighbours without clean depthmap for ever, a torn cloud makes every merge fail; a shot whose own depthmap failed gets the cloud of a neighbour; and if no depthmap could be computed the process is killed.", "quantifier": "all shots, neighbour lists, orders of execution, points of interruption, earlier files and outcomes of the numerical work", "why_tests_cant": "No test runs the stage with several workers, interrupts it, or starts it over files left by an earlier run.", "anchors": ["opensfm/dense.py", "opensfm/dataset.py", "opensfm/context.py", "opensfm/src/dense/src/depthmap.cc"]}
{"id": "C83", "title": "Neighbours and depth range of dense reconstruction", "statement": "The neighbours used for the depthmap of a shot are the shot itself and then at most the configured number of different other shots of the reconstruction that share at least 50 tracks with it and more than 20 points seen under an angle between 3 and 30 degrees, best first; an eligible shot is left out only for enough others that are at least as good, and eligibility is symmetric. A shot with a neighbour always has a depth range (the call, which nothing catches, never raises); if its points are in front of it the range is positive, not empty and leaves out at most a tenth of them at each end. Bounds in the configuration are used as they are, so that one of them alone can give an empty range.", "quantifier": "all histories of the tracks manager, reconstructions, shots, numbers of neighbours and configurations", "why_tests_cant": "No test covers these functions; completeness and ranking are statements about all other shots.", "anchors": ["opensfm/dense.py", "opensfm/tracking.py"]}
{"id": "C84", "title": "PLY files keep the points and agree with their header", "statement": "A point cloud written as PLY is read back as the same points in the same order: coordinates to four decimals, normals to three, colours and labels exactly, and a second round trip changes nothing. A file cut at any character is either refused or read as the first points of the cloud, right but possibly for the label of the last point (the announced number of points is not compared). The text written for a reconstruction announces the right number of vertices and gives every vertex as many values as properties declared, points first, then ten coloured positions on each axis of every camera; writing fails exactly when views are asked for and a point without observations has no track. With views asked for but no tracks manager the text is not a valid PLY file.", "quantifier": "every cloud, every character at which the file is cut, every reconstruction, tracks manager and combination of options", "why_tests_cant": "the values, the sizes and the cut position range over unbounded sets; tests only write one small reconstruction", "anchors": ["opensfm/io.py", "opensfm/dataset.py", "opensfm/actions/export_ply.py"]}
{"id": "C85", "title": "Triangulation: the right point, accepted only when every ray agrees", "statement": "For unit bearings of which two are not parallel the midpoint method returns the only point whose sum of squared distances to the lines is least, hence exactly the point when the rays meet. A point is accepted exactly when two rays form at least the least angle and the point is at least the least depth in front of every camera and within the threshold of every bearing; points seen exactly are always accepted. The closed form for two rays gives the point halfway between the closest points of the lines, agrees with the general method and refuses exactly pairs whose sine is below 1e-5; inlier pairs of bearings are in front of both cameras. The linear method is exact unless a bearing lies in the image plane, where it can miss the point. The epipolar angle is zero exactly for coplanar rays. A control point triangulated by the Python function gets the same position in bundle adjustment.", "quantifier": "every list of rays, thresholds and parameters, every pair of cameras and bearings, every vector a singular value decomposition may return", "why_tests_cant": "the rays range over a continuum and the number of views is unbounded; tests use a few fixed configurations with noise tolerance", "anchors": ["opensfm/src/geometry/triangulation.h", "opensfm/src/geometry/src/triangulation.cc", "opensfm/matching.py", "opensfm/multiview.py", "opensfm/src/sfm/src/ba_helpers.cc"]}
{"id": "C86", "title": "Triangulating the tracks of a reconstruction", "statement": "A track is triangulated from its observations in shots of the reconstruction, with bearings turned into the world frame. With triangulation_type FULL it is stored exactly when two rays form the least angle and the point of least squares agrees with all rays, with all its shots. With ROBUST, whatever the random numbers, a stored point has at least two shots, and they are exactly those whose bearing is within the threshold of the direction of the stored point (in front of the shot, for thresholds up to one); exact observations are stored exactly with all shots; unless the search ends early no drawn pair would have given more shots. The pair of the last two shots is never drawn when there are three or more, so a track whose only good pair it is gets lost; the early end is decided by the first index of the pair. triangulate_shot_features keeps existing points and does not depend on the order of the set of tracks; retriangulate keeps no earlier point; another triangulation_type raises nothing and makes retriangulate delete all points. triangulate_dlt refines with the bearings of the camera frames.", "quantifier": "all tracks managers, shots, poses and bearings, all random numbers in [0,1), all refinements, all orders of the set of tracks", "why_tests_cant": "The random draws and the order of Python sets make every run different; a test sees a few draws.", "anchors": ["opensfm/reconstruction.py:TrackTriangulator", "opensfm/reconstruction.py:triangulate_shot_features", "opensfm/reconstruction.py:retriangulate"]}
{"id": "C87", "title": "Realigning one map to another", "statement": "realign_maps leaves in the second map exactly its shots that are also in the first, with scale and component copied, and takes the others out of the rig instances and of the points; no point is removed. Where the rig is the same in both maps a shot gets the pose of the first map with its origin moved by the offset of the references. With update_points, a point seen by a shot that is in both maps moves with the nearest such shot, so that this shot sees it at the same direction (coordinates in the camera multiplied by the inverse of the scale of the shot); other points stay. A map aligned to itself does not change; a second alignment changes points again unless the scale is 0 or 1. A camera gets the parameters its shots have in the first map when they agree. Rig cameras are not aligned, and the offset of the references is exact only if their axes are parallel.", "quantifier": "all pairs of maps with any shots, rigs, points and observations, all references, all visiting orders of the hash maps", "why_tests_cant": "The result depends on geometry and on the order of hash maps; tests use one small map.", "anchors": ["opensfm/src/sfm/src/retriangulation.cc:RealignMaps"]}
{"id": "C88", "title": "Fitting a similarity to pairs of points", "statement": "Given at least as many pairs of points as dimensions, the fit of a similarity returns a rotation (never a reflection) times a scale plus a translation that sends the centroid of the first points to that of the second; with that scale no other rotation and translation have a smaller sum of squared distances; if the second points are the images of the first ones by some similarity and the first ones are not on a line (in the plane: not all the same), exactly that similarity comes back, and taking it apart gives its scale, rotation and translation. The scale is the ratio of the spreads, which is larger than that of least squares unless the fit is exact. The fit by sampling returns as inliers exactly the pairs closer than the threshold under the transform it returns, keeps the sample with the most inliers, and when a set of more than six (in space) consistent pairs is the only one of its size and one sample is drawn inside it, it returns the exact similarity and exactly that set whatever the other pairs are.", "quantifier": "all dimensions, all lists of pairs of points, all correct singular value decompositions, all random permutations, all thresholds", "why_tests_cant": "It must hold for every set of points, degenerate ones included, for every choice the decomposition routine is free to make and for every random draw; tests use a few random point sets.", "anchors": ["opensfm/transformations.py:affine_matrix_from_points", "opensfm/transformations.py:superimposition_matrix", "opensfm/multiview.py:decompose_similarity_transform", "opensfm/multiview.py:fit_similarity_transform"]}
{"id": "C89", "title": "Aligning a reconstruction with GPS and control points", "statement": "The pairs used for the alignment are the triangulated and measured positions of the control points that have both, and each rig instance with the mean of the GPS positions of its shots. If one similarity relates all these pairs, they are not on a line and the GPS positions do not all coincide, the naive method (also when chosen automatically) returns exactly this similarity and puts every rig instance with GPS at its GPS position and every point where the similarity sends it. One constraint is met by a translation, two by a similarity when the scale is free. A rig instance of two or more shots fixes the scale. The automatic choice takes the naive method only for three or more points not on a line. Points that all coincide leave the reconstruction alone. A control point without altitude breaks the exactness, as its height is zeroed before the alignment.", "quantifier": "all reconstructions, all sets of control points and GPS positions, all correct singular value and eigenvalue routines", "why_tests_cant": "The exactness must hold for every configuration of points and every similarity and the degenerate cases are infinitely many; tests align one synthetic scene.", "anchors": ["opensfm/align.py:align_reconstruction", "opensfm/align.py:compute_reconstruction_similarity", "opensfm/align.py:alignment_constraints", "opensfm/align.py:detect_alignment_constraints", "opensfm/align.py:compute_naive_similarity", "opensfm/align.py:triangulate_all_gcp"]}
{"id": "C90", "title": "Alignment with an assumed camera orientation", "statement": "When the camera orientation is assumed (align_method orientation_prior, or auto with ill-conditioned positions), align_reconstruction first turns the estimated ground plane horizontal by a proper rotation that sends its normal straight up, then fits a rotation about the vertical, a scale and a translation. Every accepted result keeps the normal up; if a similarity that sends the normal up explains the positions exactly and two measured positions differ horizontally, that similarity is returned, even for positions on one line. For level cameras (horizontal prior) and cameras looking straight down (vertical prior) at one height the estimated normal is exactly the up direction for every unmirrored EXIF orientation; mirrored orientations 2, 5 and 7 turn the vertical prior upside down. One or coinciding positions give a pure move, except that exactly two far positions shrink the reconstruction; a vertical column of cameras with free scale is refused.", "quantifier": "all sets of camera poses, EXIF orientations, positions, control points and scales", "why_tests_cant": "the fit is over arbitrary real positions and rotations; the degenerate classes (lines, columns, coinciding positions, mirrored tags) are never sampled", "anchors": ["opensfm/align.py:compute_orientation_prior_similarity", "opensfm/align.py:estimate_ground_plane", "opensfm/align.py:get_horizontal_and_vertical_directions", "opensfm/multiview.py:fit_plane", "opensfm/multiview.py:plane_horizontalling_rotation", "opensfm/transformations.py:rotation_matrix"]}
{"id": "C91", "title": "Tracks common to two reconstructions", "statement": "compute_common_tracks returns a pair of tracks, once, only if both have a point and some image present in both reconstructions shows both as the same feature; if every feature of the first tracks manager belongs to one track, it returns all such pairs and swapping the reconstructions swaps the pairs. resect_reconstruction never raises; with at most six common tracks it fails, otherwise its inliers are exactly the common tracks within the threshold under the returned similarity, an exact similarity is found with all tracks from any non collinear sample; its min_inliers argument is ignored. Submodels are tied by point constraints only with at least 20 agreeing tracks and scale between 1/1.3 and 1.3, and then by the points of common tracks; an exact overlap of 20 tracks ties all of them. merge_two_reconstructions never merges.", "quantifier": "all pairs of reconstructions and tracks managers, all sampling histories, all thresholds", "why_tests_cant": "the claims quantify over all tracks managers and random samples; degenerate managers where two tracks share a feature are not in fixtures", "anchors": ["opensfm/reconstruction.py:corresponding_tracks", "opensfm/reconstruction.py:compute_common_tracks", "opensfm/reconstruction.py:resect_reconstruction", "opensfm/reconstruction.py:align_two_reconstruction", "opensfm/reconstruction.py:merge_two_reconstructions", "opensfm/large/tools.py:add_point_constraints"]}
{"id": "C92", "title": "Residuals of the bundle adjuster vanish exactly when their constraint holds", "statement": "Minimising the bundle cost means what the user thinks: the cost is never negative and is zero exactly if every residual is zero (for each of the five loss names; other names are refused); a reprojection residual is zero exactly if the point projects to the observation, a spherical one exactly if the point lies in the observed direction, a depth residual exactly if the depth is the measured one, relative motion, relative rotation, common position, up vector, pan, tilt and linear motion residuals exactly if the pose satisfies the measurement, rig instance and rig camera included. Deviations are made explicit: roll is folded to [-pi/2, pi/2] so that upside down passes for level, linear motion fixes the distance but not the direction and reads a wrong rig camera when the last shot shares one with the middle shot only, the scale gauge is not exactly zero at the start, adjusted standard deviations are pulled to 0.4 and the transition barrier is never zero.", "quantifier": "all blocks of rig instances and rig cameras, all points, measurements, standard deviations, loss names and thresholds", "why_tests_cant": "residuals are functions of unbounded real parameters; tests evaluate them at a few poses", "anchors": ["opensfm/src/bundle/error/error_utils.h:MultRotations", "opensfm/src/bundle/error/projection_errors.h:ReprojectionError2D", "opensfm/src/bundle/error/relative_motion_errors.h:RelativeMotionError", "opensfm/src/bundle/error/absolute_motion_errors.h:RollAngleError", "opensfm/src/bundle/error/motion_prior_errors.h:LinearMotionError", "opensfm/src/bundle/error/parameters_errors.h:ParameterBarrier", "opensfm/src/bundle/src/bundle_adjuster.cc:BundleAdjuster::Run"]}
{"id": "C93", "title": "Bundle adjustment changes only what it may change", "statement": "bundle leaves the shots as they are, writes the minimised values into cameras only if camera parameters are optimised, into rig cameras only if they may move, into all instances and points, and resets every GPS bias to the identity when biases are not compensated; its problem contains exactly the observations of the map (and of located ground control points); it raises exactly in named cases, and an invalid pose found by the solver leaves the map half written. bundle_local moves only rig instances of the neighbourhood with no shot on its boundary and points seen from its interior; bundle_shot_poses moves only instances all of whose shots were given; both write values that are not finite without a test. bundle_local raises and changes nothing if a ground control point is seen in a shot of the map outside the neighbourhood.", "quantifier": "all maps, ground control points, configurations, neighbourhoods, shot lists and results of the solver", "why_tests_cant": "the frame condition (everything else unchanged) and the set of observations must hold for every map and every outcome of the solver", "anchors": ["opensfm/src/sfm/src/ba_helpers.cc:BAHelpers::Bundle", "opensfm/src/sfm/src/ba_helpers.cc:BAHelpers::BundleLocal", "opensfm/src/sfm/src/ba_helpers.cc:BAHelpers::BundleShotPoses", "opensfm/src/bundle/src/bundle_adjuster.cc:BundleAdjuster", "opensfm/reconstruction.py:bundle_local"]}
{"id": "C94", "title": "Position priors of rig instances", "statement": "In bundle the position prior of a rig instance is the mean of the measured positions of its shots with the mean of their accuracies, and there is none if nothing is measured or GPS is not used. In bundle_local the same holds for instances that may move, a missing accuracy counting with an uninitialised number. In bundle_shot_poses the mean is divided again with every shot: it is right for at most two measured shots, and n shots measured at the same place give a prior pulled to the origin by a factor of at most 2/n, with an accuracy smaller than measured by the same factor.", "quantifier": "all maps, instances, measurements and shot lists", "why_tests_cant": "the number of shots per instance and the measurements are unbounded; tests use rigs of one or two cameras, where the wrong formula gives the right value", "anchors": ["opensfm/src/sfm/src/ba_helpers.cc:BAHelpers::Bundle", "opensfm/src/sfm/src/ba_helpers.cc:BAHelpers::BundleLocal", "opensfm/src/sfm/src/ba_helpers.cc:BAHelpers::BundleShotPoses"]}
{"id": "C95", "title": "Compensating the GPS bias", "statement": "With bundle_compensate_gps_bias, aligning moves the reconstruction onto the ground control points only, and gives each camera the bias that sends GPS positions to reconstruction positions: if a similarity maps the reconstruction exactly onto the control points and one per camera maps the aligned rig instances exactly to their GPS positions, exactly these are found, each bias is the inverse, and every position prior of the bundle adjustment has residual zero whichever camera of the instance is used. Without a located control point nothing is aligned, GPS being ignored; if one camera has no GPS no camera gets a bias. The residual is zero exactly if the instance is where the bias sends the measurement, and agrees with the error in the report. The bias returned by the bundle adjuster has a wrong inverse unless the rotation did not change.", "quantifier": "all reconstructions, rigs, control points, biases and rotations", "why_tests_cant": "exact recovery and the inverse relation must hold for every similarity; tests use one scene with a bias that is a translation", "anchors": ["opensfm/align.py:set_gps_bias", "opensfm/align.py:align_reconstruction", "opensfm/src/bundle/data/bias.h:SimilarityPriorTransform", "opensfm/src/bundle/error/prior_error.h:DataPriorError", "opensfm/src/geometry/similarity.h:Similarity", "opensfm/stats.py:_gps_errors"]}
{"id": "C96", "title": "Alignment method and ground control points in the bundle adjustment", "statement": "The full bundle adjustment chooses the alignment method from the same kind of table as the alignment itself: one row per ground control point and per shot with GPS. With method auto it takes 'naive' exactly if there are three or more rows that are not close to a line, else 'orientation_prior'; with orientation_prior every shot gets one up vector term (horizontal or vertical), else none. Rows of control points without measured position or triangulation are never initialised, so then the choice depends on stale memory. Every control point is used if it can be triangulated or has a measured position, with prior standard deviations and observation scales divided by one common weight, so that all counted control point terms together weigh gcp_global_weight times the number of other terms, and never more.", "quantifier": "all maps, control points, configurations, contents of uninitialised memory, triangulation results", "why_tests_cant": "The choice depends on eigenvalues of arbitrary point sets and on uninitialised memory, which no finite test fixes; the weights must add up for any number of points, shots and observations.", "anchors": ["opensfm/src/sfm/src/ba_helpers.cc: AlignmentConstraints; DetectAlignmentConstraints; TriangulateGCP; AddGCPToBundle; Bundle", "opensfm/align.py: detect_alignment_constraints"]}
{"id": "C97", "title": "Priors of camera parameters and rig cameras", "statement": "In the bundle adjustment every camera parameter is pulled to its prior with the standard deviation configured for it (focal length and aspect ratio by their ratio, the others by their difference), and the prior term vanishes exactly at the prior. The fourth and higher radial coefficients and the thin prism coefficients have no standard deviation: they are held with weight 2^52, so that radial_distortion_k4_sd has no effect and these parameters stay within sqrt(2 cost)/2^52 of their prior. Rig cameras are pulled to their prior with rig_rotation_sd and rig_translation_sd, but only if rig_rotation_sd is below pi/sqrt(3); above, the rotation is frozen; and around half turns the rotation term is not continuous.", "quantifier": "all camera models, parameter values, priors, configured standard deviations, rotations", "why_tests_cant": "The weight must be right for every parameter of every camera model and every value of the configuration; the failure shows only as parameters that do not move.", "anchors": ["opensfm/src/bundle/src/bundle_adjuster.cc: GetDefaultCameraSigma; GetDefaultRigPoseSigma; AddCameraPriorError; SetInternalParametersPriorSD", "opensfm/src/bundle/error/prior_error.h: DataPriorError", "opensfm/src/bundle/data/pose.h: ValueToData", "opensfm/src/geometry/src/camera.cc: types of parameters"]}
{"id": "C98", "title": "The relative pose of two views", "statement": "relative_pose_from_essential tries the four poses of an essential matrix; the pose of the cameras is always among them, and for bearings that look at points in front of both cameras it is the one returned, whatever the singular value decomposition, with a translation of length one. Otherwise the score kept is cut to an integer: the pose returned has a positive score which is less than one below the best, but not always the best; when no score is positive, in particular when the views differ by a turn only, the matrix returned was never written. The error used in the robust estimation is zero exactly for rays that meet in front of both cameras and are not nearly parallel, and one for nearly parallel rays; below the threshold of an angle the pair is within this angle in one of the views. The refinement minimises the same error and stays at an exact pose.", "quantifier": "for all essential matrices, decompositions, poses, lists of bearings, thresholds and random draws", "why_tests_cant": "tests use a few synthetic scenes; the claims are about every decomposition and every pair", "anchors": ["opensfm/src/geometry/relative_pose.h: RelativePoseFromEssential; RelativePoseCost; RelativePoseRefinement", "opensfm/src/robust/relative_pose_model.h: RelativePose::Evaluate"]}
{"id": "C99", "title": "Essential matrices from pairs of bearings", "statement": "The five point solver: the ten polynomials it builds are the determinant and the entries of E E^T E - 1/2 tr(E E^T) E for every combination of the null space basis; its elimination keeps the solutions; if five pairs of an essential matrix have independent equations, the matrix has a nonzero last coordinate in the basis, the elimination succeeds and the eigenvectors of its eigenvalue form a line, a nonzero multiple of the matrix is returned, and so the true pose is among the estimates. Every matrix returned satisfies the epipolar equations of the pairs and has norm one; a matrix with zero last coordinate is never returned. The solver of many pairs returns nothing below nine pairs or when two independent matrices satisfy the equations; nine or more exact pairs that determine the matrix give exactly one result, a multiple of it, and the true pose; every result is an essential matrix of a rotation and a translation, for any pairs.", "quantifier": "every list of pairs of bearings, every essential matrix, every decomposition and set of eigenvectors that satisfies its contract", "why_tests_cant": "Tests check a few random scenes with a tolerance; the polynomial identities, the completeness of the solver and the conditions under which the solution is lost range over all matrices.", "anchors": ["opensfm/src/geometry/essential.h:EncodeEpipolarEquation; EssentialFivePoints; EssentialNPoints", "opensfm/src/geometry/src/essential.cc:o1; o2; FivePointsPolynomialConstraints; FivePointsGaussJordan", "opensfm/src/foundation/numeric.h:SolveAX0", "opensfm/src/robust/relative_pose_model.h:Estimate; EstimateNonMinimal"]}
{"id": "C100", "title": "Camera motions of a plane homography", "statement": "motion_from_plane_homography: every motion returned is a rotation, a translation and a plane with a unit normal whose homography d R - t n^T is exactly the given matrix, and points of the plane n.X + d = 0 are mapped as by the motion; no motion is missed: whatever rotation, translation and plane has the given homography is among the results when the singular values are not nearly equal; eight motions are returned or nothing, and nothing exactly when a singular value is within one ten thousandth of the next; a camera that only turns or moves along the normal gives nothing.", "quantifier": "every 3x3 matrix and every singular value decomposition of it, every rotation, translation and plane", "why_tests_cant": "The unit test tries a few random planes with a tolerance; soundness and completeness of the eight sign choices range over all real matrices.", "anchors": ["opensfm/multiview.py:motion_from_plane_homography"]}
{"id": "C101", "title": "The reconstruction of two views returns a pose together with the matches that agree with it", "statement": "two_view_reconstruction_general returns, with the rotation and translation from the first camera to the second, exactly the indices of the pairs of bearings that agree with that pose: rays not nearly parallel, and the point halfway between the rays within the threshold (as a chord) of both bearings. From a robust estimation that found the true pose, exact pairs and wrong pairs that do not agree with it by chance give back the true pose with exactly the agreeing pairs, unless the plane method has at least as many inliers; fewer than six inliers never give a five point pose. With the reversal check, the pose or its reverse with more inliers is taken, the reverse when equal, and none when the ratio of the counts is above the configured one (never with ratio 1). The plane method only ever returns the first of the motions of its homography: there are scenes where another motion agrees with all pairs and the returned one with none; it is returned even without inliers when the five point method failed, and a missing homography raises.", "quantifier": "all lists of pairs of unit bearings, all poses found by the robust estimation, all solvers, draws, decompositions and homographies within their contracts, all thresholds up to one, all reversal settings", "why_tests_cant": "tests run a few synthetic scenes with one random seed; the agreement of pose and inliers, and the decision between methods, must hold for every scene, threshold and estimator outcome", "anchors": ["opensfm/reconstruction.py: two_view_reconstruction_general; two_view_reconstruction_5pt; two_view_reconstruction_and_refinement; two_view_reconstruction_plane_based", "opensfm/multiview.py: relative_pose_ransac; relative_pose_optimize_nonlinear", "opensfm/matching.py: compute_inliers_bearings"]}
{"id": "C102", "title": "The rotation between two views and the order of the first pairs of images", "statement": "two_view_reconstruction_rotation_only and compute_image_pairs. The rotation estimated from pairs of bearings is always a proper rotation; when the moment of the centred bearings has a positive determinant no rotation fits the pairs better, but when the determinant is negative no rotation fits them worse. Exact pairs that do not all lie on a plane give exactly the rotation; three pairs, the size of a minimal sample, give the rotation or its opposite depending on a sign the decomposition is free to choose. A pair is below the threshold of the robust estimation exactly when the turned bearing is within the angle. The inliers are exactly, in order, the pairs whose turned first bearing is closer than the threshold to the second. The list of candidate image pairs consists of exactly those pairs of images with at least three tenths of their common tracks unexplained by the rotation (and at least one), more unexplained tracks first; a pair that differs by a rotation alone is not proposed; a pair without tracks raises.", "quantifier": "all lists of pairs of bearings, all rotations, all singular value decompositions, all results of the robust estimation that are rotations, all thresholds, all lists of image pairs", "why_tests_cant": "tests use one random rotation with well spread bearings; the sign of the determinant, the freedom of the decomposition and the ordering range over all inputs", "anchors": ["opensfm/src/geometry/transform.h:RotationBetweenPoints", "opensfm/src/robust/relative_rotation_model.h:RelativeRotation", "opensfm/reconstruction.py:two_view_reconstruction_rotation_only", "opensfm/reconstruction.py:compute_image_pairs", "opensfm/reconstruction.py:pairwise_reconstructability"]}
{"id": "C103", "title": "The quartic solver of the three point pose", "statement": "SolveQuartic and RefineQuarticRoots. For coefficients with a leading one above 2^-52 and any branches of the complex square and cube roots, a successful call writes either the real parts of the four complex roots of the polynomial with their multiplicities, so that no real root is missed, or no number at all; the refinement does five Newton steps and keeps every root. The solver refuses only when the polynomial is within rounding of the fourth power of a linear one. A fourfold root is always refused, a threefold root is never found, no number is written only for polynomials symmetric about the mean of their roots or with a vanishing invariant, and x^4 = m is never solved with the principal branches. A polynomial of smaller degree is replaced by one of degree four none of whose nonzero roots solves it.", "quantifier": "all real coefficients, all branches of the complex roots", "why_tests_cant": "there are no tests of the solver; the identity of the resolvent and the degenerate polynomials range over all real coefficients", "anchors": ["opensfm/src/foundation/src/numeric.cc:SolveQuartic; RefineQuarticRoots", "opensfm/src/foundation/newton_raphson.h:NewtonRaphson"]}
{"id": "C104", "title": "The pose of a camera from three points", "statement": "AbsolutePoseThreePoints. Every pose returned has a proper rotation and sees the third point in front of the camera along its bearing; when the refined value it was made from is a root of the quartic it also sees the other two points on the lines of their bearings. No pose is missed: with unit bearings not on a plane and points not on a line, a pose that sees the three points along their bearings (the third in front) is among the results whenever the quartic is solved with a leading coefficient above 2^-52 and the foot of the third point on the plane of the camera and the first two is not on the circle through the camera and those two points. Points on a line or bearings on a plane give no pose. The coefficients grow with the fourth power of the size of the scene, so every scene, made small enough, falls below the bound of the leading coefficient.", "quantifier": "all samples of three bearings and points, all poses, all singular value decompositions, all branches of the roots", "why_tests_cant": "tests run a few random poses with a tolerance; completeness, the exceptional circle and the scale range over all samples", "anchors": ["opensfm/src/geometry/absolute_pose.h:AbsolutePoseThreePoints", "opensfm/src/geometry/src/absolute_pose.cc:RotationMatrixAroundAxis", "opensfm/src/foundation/src/numeric.cc:ClosestRotationMatrix"]}
{"id": "C105", "title": "The pose of a camera from many points and the resection of an image", "statement": "For a known rotation, the translation computed from bearings and points is the only one with the smallest sum of squared distances of the points to their lines of sight (and is the true one for exact bearings), unless all bearings are parallel, when it is not determined. The pose from many points is a rotation and a translation obtained by at most 100 iterations; an iteration never increases that sum as long as the correlation matrix has a positive determinant; an exact pose is a fixed point when the points are not coplanar, and the whole function returns the exact pose when the points are equally distant from the camera; for coplanar points the rotation is decided by a free sign of the SVD. The error of a point is below the adapted threshold exactly when the angle between its bearing and its direction is below the threshold. Resecting an image adds the shot with exactly the world-to-camera pose found, and observations of exactly the tracks whose bearing agrees with that pose, when at least five tracks are shared and at least min_inliers agree; otherwise nothing is added.", "quantifier": "all lists of bearings and points, all rotations, every singular value decomposition, all thresholds and all results of the robust estimation", "why_tests_cant": "tests use a few random non-degenerate scenes; optimality, monotonicity, uniqueness and the dependence on the sign of the SVD concern all inputs and all valid decompositions", "anchors": ["opensfm/src/geometry/absolute_pose.h:TranslationBetweenPoints;AbsolutePoseNPoints;AbsolutePoseNPointsKnownRotation", "opensfm/src/robust/absolute_pose_model.h:Evaluate", "opensfm/src/robust/absolute_pose_known_rotation_model.h:Evaluate", "opensfm/multiview.py:absolute_pose_ransac;absolute_pose_known_rotation_ransac", "opensfm/reconstruction.py:resect"]}
{"id": "C106", "title": "The angles of a camera", "statement": "For every angles in range, pan/tilt/roll, omega/phi/kappa and Euler angles of any of the 24 axis sequences convert to the rotation they name and back: a camera of pan p and tilt t looks along compass angle p, t below the horizon, the roll turns it about its viewing direction; both versions of pan/tilt/roll give the same rotation for all angles; angles of a rotation give it back, exactly in gimbal lock too where the code claims it, except within the numerical guard. The first version folds the roll of a camera that is upside down onto another camera and has no roll when looking straight up or down. The rotation built from an up vector and a compass angle is a rotation with that up vector which looks along the compass angle; the rotation of a shot from its metadata uses omega/phi/kappa first, then measured gravity, then the Exif orientation (unknown tags count as 1) and the compass (missing counts as north).", "quantifier": "all angles, all rotations, all 24 axis sequences, all up vectors and compass angles, all metadata", "why_tests_cant": "The conventions must agree for every angle and axis order, including half turns, gimbal lock and vertical views; the tests use one triple of angles.", "anchors": ["opensfm/geometry.py: rotation_from_ptr; ptr_from_rotation; rotation_from_ptr_v2; ptr_from_rotation_v2; rotation_from_opk; opk_from_rotation", "opensfm/transformations.py: euler_matrix; euler_from_matrix", "opensfm/multiview.py: camera_up_vector; camera_compass_angle; rotation_matrix_from_up_vector_and_compass", "opensfm/reconstruction_helpers.py: rotation_from_shot_metadata; shot_gravity_up_in_image_axis"]}
{"id": "C107", "title": "Which images are matched because they are near", "statement": "match_candidates_by_distance pairs each image to match with every candidate that is nearer than the distance limit, unless at least the allowed number of other candidates are at most as far (or, when there are images that are not candidates, the coordinate origin is at most as far, because rows of zeros sit in the tree); it pairs nothing else; one image without position and there are no pairs, or a KeyError when some image has an orientation; with orientations all representative points are moved by one altitude along the viewing directions; match_candidates_by_time is exact in the same sense; the points given to the triangulation are those of the images in order when all have positions and are shifted by one otherwise; preemption by position keeps exactly the paired candidates.", "quantifier": "for all sets of images and candidates, positions, orientations, limits, and every nearest neighbour search and least squares fit that meet their specification", "why_tests_cant": "depends on the geometry of every set of positions, on ties and on the choice the tree makes among them", "anchors": ["opensfm/pairs_selection.py:get_representative_points;find_best_altitude;match_candidates_by_distance;match_candidates_by_graph;match_candidates_by_time;preempt_candidates"]}
{"id": "C108", "title": "The reconstruction made of metadata", "statement": "exif_to_metadata takes the position from latitude and longitude together, at altitude 2 unless altitudes are used (then at most 10000), accuracy 15 when missing or 0, omega/phi/kappa only together, orientation 1 by default. reconstruction_from_metadata has a shot exactly for each image with a position, with its camera, rig and metadata; without rigs each shot has its own position and rotation; with rigs every shot of a rig instance gets the pose of the last image of that instance, and the origin when that image has no position; an unknown camera makes it raise.", "quantifier": "for all metadata, rig assignments, lists of images and local references", "why_tests_cant": "the result depends on the order of the images of a rig instance and on which of them have positions; tests use single cameras", "anchors": ["opensfm/reconstruction_helpers.py:exif_to_metadata;reconstruction_from_metadata", "opensfm/rig.py:rig_assignments_per_image", "opensfm/src/map/src/map.cc:UpdateRigInstance", "opensfm/src/map/src/shot.cc:GetPose"]}
{"id": "C109", "title": "Copies of a map and shots of another map", "statement": "Copying a reconstruction (deep_copy, copy.deepcopy) gives a reconstruction with the same reference, cameras, biases, shots, pano shots, poses and points; observations are copied when asked for and only then; colours, meshes, observations of pano shots, empty rig instances and unused rig cameras are not copied. Adding a shot of another reconstruction brings its whole rig instance with cameras, attributes and poses and changes nothing else.", "quantifier": "all well formed maps (any number of shots, rigs, points, any order of the hash maps), all shots, both settings of copy_observations", "why_tests_cant": "The copy is made shot by shot, recursively through rig instances, in the unspecified order of hash maps; tests use a few maps only.", "anchors": ["opensfm/src/map/src/map.cc:22-63 DeepCopy", "opensfm/src/map/src/map.cc:344-405 UpdateShotWithRig UpdateShot", "opensfm/types.py:217-240 add_shot", "opensfm/types.py:331-342 __deepcopy__"]}
{"id": "C110", "title": "Observations of a map and of a tracks manager", "statement": "to_tracks_manager has exactly the observations of the shots and pano shots of the map; get_valid_observations and compute_reprojection_errors cover exactly the observations whose shot and landmark are in the map, and the error is that of this shot, landmark and observation: zero exactly when the landmark is seen where observed (pixel, normalised) or lies on the ray (angular); add_correspondences_from_tracks_manager adds exactly the missing observations between shots and points of the map, in both directions.", "quantifier": "all maps, all histories of a tracks manager, all kinds of errors and all projections", "why_tests_cant": "Holds for every pair of map and tracks manager with arbitrary overlap.", "anchors": ["opensfm/src/map/src/map.cc:503-579 ComputeReprojectionErrors GetValidObservations ToTracksManager", "opensfm/types.py:344-355 add_correspondences_from_tracks_manager"]}
{"id": "C111", "title": "The statistics of the report", "statement": "The report counts the points by the length of their track (observations in the reconstruction, or in the tracks manager for a point without any), and its number of points, observations and average length agree with that histogram; it fails exactly when a point without observations is not a known track. The reprojection errors are averages over exactly the observations, each once, of a point of a reconstruction by a shot of that reconstruction with at most four pixels of error and a defined angle, and -1 when there is none. The total time adds the steps that have a time, the area is the bounding box of the cameras extended to the origin on its upper sides, the summaries give the least, the largest, the truncated mean and a median, and reconstructed features are counted for every shot that sees a point.", "quantifier": "all lists of reconstructions, tracks managers reachable by any calls, error functions, step reports, camera positions and lists of counts", "why_tests_cant": "The report aggregates over any number of reconstructions, dictionaries in any order and three dictionaries walked in step; a test sees a few fixed reports.", "anchors": ["opensfm/stats.py:_length_histogram", "opensfm/stats.py:_projection_error", "opensfm/stats.py:reconstruction_statistics", "opensfm/stats.py:processing_statistics", "opensfm/stats.py:features_statistics"]}
{"id": "C112", "title": "Errors and calibrations of the report", "statement": "The error statistics are per axis the mean, the standard deviation and the root mean square, and the mean distance; they are absent exactly without errors, and the square of the error is the sum of those of the mean and the deviation. The GPS errors are, for exactly the shots with a position, the camera centre minus the position corrected by the bias of its camera; the errors of ground control points are those of exactly the points with coordinates that some reconstruction triangulates, in the first such reconstruction. The cameras listed are exactly those of the dataset that are in a reconstruction, with the values and bias of a reconstruction with that camera and the most shots, and it fails exactly when a reconstruction has a camera the dataset does not know; the rig cameras are the same without those named like a camera and never fail.", "quantifier": "all lists of reconstructions, all datasets, all orders argsort may give", "why_tests_cant": "Any number of reconstructions sharing cameras in any way, and any order of ties.", "anchors": ["opensfm/stats.py:40-112 _gps_errors; _gps_gcp_errors_stats; gps_errors; gcp_errors", "opensfm/stats.py:393-452 cameras_statistics; rig_statistics"]}
{"id": "C113", "title": "Parallel map", "statement": "When parallel_map returns, its results are those of the function in the order of the arguments and the function was called exactly once for each argument, whatever the number of processes, the batch size and the interleaving of the workers; it raises exactly when some call raises, with an exception of a call that was made, and then no argument has been used more often than it occurs but OpenCV is left without threads, which are otherwise restored. With one process the calls are in order and stop at the first exception. At most num_proc batches run at a time, the pool never blocks and every run ends; batches have at least one argument, at most max_batch_size, and there is one for every process. The number of processes for the available memory is at most the desired one, at least one, fits unless it is one, and is the largest.", "quantifier": "all functions, lists of arguments, numbers of processes, batch sizes, divisions in batches and interleavings of the workers", "why_tests_cant": "A test sees one interleaving.", "anchors": ["opensfm/context.py:47-67 parallel_map", "opensfm/context.py:129-136 processes_that_fit_in_memory"]}
{"id": "C114", "title": "Bundler and NVM exports can be read back", "statement": "A reader of the Bundler format finds in the exported file one camera for every image of the list, in the order of the list (zeros for images that are not in the reconstruction), whose projection of every point in front of the camera is the OpenSfM projection in pixels with y upwards, and every point with its colour and exactly its observations by shots of the reconstruction. A reader of NVM finds the chosen shots in order and the points with at least two observations by chosen shots. The exports fail exactly for brown cameras, cameras without the parameters, points without track, or (Bundler) shots outside the list; the undistorted Bundler export of several reconstructions fails for the later ones. NVM pixel positions are right exactly along the longer side of the image.", "quantifier": "all reconstructions, lists of images, tracks managers, choices of shots, image sizes and points", "why_tests_cant": "A test compares one exported file; that every file is read back as the reconstruction needs every reconstruction and list of images.", "anchors": ["opensfm/actions/export_bundler.py:export_bundler;run_dataset", "opensfm/actions/export_visualsfm.py:export"]}
{"id": "C115", "title": "COLMAP export", "statement": "Perspective, brown and fisheye cameras are exported as COLMAP cameras with the same projection in pixels; an OpenCV fisheye camera only when its principal point is in the middle; other cameras raise. Pose quaternions are unit quaternions of the same rotation for every nonzero rotation vector up to a full turn, and not a number for no rotation. Images, cameras and points get consecutive identifiers and pair identifiers give the two images back below 2^31-1. The matches of a pair are those found in either direction, with the feature of the smaller identifier first, while the fundamental matrix keeps the order of the names. With one reconstruction the tracks of the points and the features of the images refer to each other; the index of a feature in a track is its place in the image exactly when all the features before it have points; with several reconstructions a shared track refers to the last point. Keypoints are half a pixel away from the projections of the exported cameras.", "quantifier": "all cameras, points, rotation vectors, sets of images, features, matches, tracks managers and reconstructions", "why_tests_cant": "A test exports one dataset; agreement of projections, identifiers and mutual references must hold for every dataset.", "anchors": ["opensfm/actions/export_colmap.py:camera_to_colmap_params;angle_axis_to_quaternion;image_ids_to_pair_id;pair_id_to_image_ids", "opensfm/actions/export_colmap.py:export_cameras;export_features;export_matches", "opensfm/actions/export_colmap.py:export_points_reconstruction;export_images_reconstruction;export_cameras_reconstruction"]}
{"id": "C116", "title": "Exports in geographic coordinates", "statement": "export_geocoords writes everything it was asked for into one file: the name given, or the default name of the first thing asked for; when nothing fails the file holds only the last one and no other file changes. The transformation written is exact at the origin and the unit vectors, is the only affine one that is, and is right everywhere exactly when the projection is affine. The table of positions has one row per shot of every reconstruction with the transformed centre. The transformed reconstruction keeps shots, rigs and point ids, transforms every point and keeps every point's coordinates in every camera; it exists exactly when the transformation is invertible and no shot shares a rig, and its poses are inverse to themselves (to camera and back) exactly when the transformation is orthogonal. The dense export stops at the first point of the cloud.", "quantifier": "all combinations of options and names, all projections, all matrices, all reconstructions, all point cloud files", "why_tests_cant": "the projection, the reconstruction and the options range over unbounded sets; a test with one option and one projection sees neither the overwriting nor the non-rigid poses", "anchors": ["opensfm/actions/export_geocoords.py:run_dataset; _get_transformation; _transform_image_positions; _transform_reconstruction; _transform_dense_point_cloud", "opensfm/src/map/src/shot.cc:Shot::GetPose; IsSingleShotRig", "opensfm/src/geometry/pose.h:PoseImmutable"]}
{"id": "C117", "title": "OpenMVS scene and PMVS visibility", "statement": "The exported OpenMVS scene has one platform per perspective camera (pixel matrix, size, the poses of its exported shots in order), one image per kept perspective shot whose platform and pose are its own, and one vertex per point seen by a kept shot; the views of a vertex are the images of the kept shots of its track, but a shot without an image counts as a view of the first image, and a shot without mask gets the working directory. It fails exactly when a point has no track. The PMVS visibility file lists for each shot, once each, the indices of the other shots of the reconstruction sharing a track with it; it fails exactly when some shot of the reconstruction never was in a non-empty tracks manager; with an empty one no line is written although PMVS is told to use them.", "quantifier": "all reconstructions, image lists and histories of tracks managers", "why_tests_cant": "the numbering and the pairing hold over reconstructions and tracks of any size; the wrong views show only with mixed cameras or several reconstructions", "anchors": ["opensfm/actions/export_openmvs.py:export", "opensfm/src/dense/openmvs_exporter.h:OpenMVSExporter", "opensfm/actions/export_pmvs.py:export", "opensfm/tracking.py:as_weighted_graph"]}
{"id": "C118", "title": "Quaternions", "statement": "quaternion_multiply, conjugate and inverse are those of Hamilton; the matrix of a quaternion that is not tiny is the rotation v -> q v q^-1, the matrix of a product is the product of the matrices, and two quaternions have the same matrix exactly when one is a multiple of the other. quaternion_from_matrix gives, for every rotation, a unit quaternion with that matrix and a non-negative first entry, so a unit quaternion with positive first entry comes back; the variant for precise matrices does so only for a positive trace, otherwise its first entry is uninitialised memory, and half turns get the identity or an error. The quaternions of axis and angle and of Euler angles (all 24 sequences) have the matrices of rotation_matrix and euler_matrix. Interpolation is a unit quaternion at the fraction of the angle, ends at both ends, takes the shorter way whatever the sign; with an odd spin it is not a unit quaternion. Random quaternions are unit quaternions and every one can occur.", "quantifier": "all quaternions, rotations, angles, axis sequences, fractions, spins and contents of memory", "why_tests_cant": "the algebraic identities and the branch on the trace concern every rotation; the docstring samples never enter the wrong branch", "anchors": ["opensfm/transformations.py:quaternion_multiply;quaternion_conjugate;quaternion_inverse", "opensfm/transformations.py:quaternion_matrix", "opensfm/transformations.py:quaternion_from_matrix", "opensfm/transformations.py:quaternion_about_axis", "opensfm/transformations.py:quaternion_from_euler;euler_from_quaternion", "opensfm/transformations.py:quaternion_slerp", "opensfm/transformations.py:random_quaternion;random_rotation_matrix"]}
{"id": "C119", "title": "Adding an image puts it, and its rig mates, where it should be", "statement": "Adding an image with a pose to a reconstruction either raises or leaves the image in the reconstruction with exactly that pose, its EXIF camera and its metadata. If the image is assigned to a rig instance, all images of the instance are added at once, each at its rig camera's pose relative to the image asked for, and the set of added images is the instance. The call succeeds exactly when all images to be added are new, named once, with known cameras and known distinct rig cameras. Other shots, points, cameras and rig cameras do not change, and poses of other shots do not change unless they belong to a rig instance of the same name. The first two images of a reconstruction end at the origin and at the estimated relative pose (or as rig mates).", "quantifier": "every reconstruction, rig assignment table, EXIF camera naming, image and pose", "why_tests_cant": "tests add shots to small reconstructions with one rig; the claim is over all rigs, reconstruction states and name coincidences", "anchors": ["opensfm/reconstruction.py:add_shot", "opensfm/reconstruction.py:reconstruction_from_relative_pose", "opensfm/types.py:create_shot", "opensfm/types.py:add_rig_instance", "opensfm/rig.py:rig_assignments_per_image", "opensfm/src/map/src/rig.cc"]}
{"id": "C120", "title": "Rig calibration recovers the rig", "statement": "Calibrating a rig from reconstructed shots grouped into instances gives a pose to exactly the rig cameras of the shots. Each pose has for origin the mean of the origins, and for rotation vector the mean of the rotation vectors, of the shots of that rig camera seen from the mean frame of their instance. From one instance with one shot per rig camera the relative poses of the rig cameras are exactly those of the shots. When all instances are moved copies of one rig, the relative poses of that rig are recovered exactly if the instances have the same orientation or the rig cameras have the same orientation; in general they are not, because rotation vectors are averaged: there are two perfect copies of a rig from which another rig is found.", "quantifier": "every list of instances, poses, rig camera ids and every conversion of rotations to rotation vectors", "why_tests_cant": "a test compares one noisy synthetic rig within a tolerance; exactness over all rigs and the failure depend on the orientations", "anchors": ["opensfm/rig.py:compute_relative_pose", "opensfm/src/geometry/pose.h"]}
{"id": "C121", "title": "Factorisations of camera matrices and homographies", "statement": "Factorising a 3x4 camera matrix succeeds exactly when its left block is regular, and gives an upper triangular calibration matrix with positive diagonal and one in the corner, a rotation and a translation that make up the matrix up to a factor; those of the camera are found again exactly, whatever non-zero factor of either sign the matrix carries. The angle of two vectors is the Euclidean angle, nan exactly for a zero vector. The focal length of a camera turning about its centre is found exactly from its homography with any positive factor, when the line of sight moves; with a negative factor the result is nan; when the line of sight stays, the homography does not depend on the focal length. The projection to rotations gives the nearest orthogonal matrix, a rotation for positive and a reflection for negative determinant, so the rotation found from a homography is right for a positive factor and its negative for a negative one.", "quantifier": "every camera matrix, calibration, rotation, translation, focal length, scale factor, and every choice NumPy may make of QR and SVD", "why_tests_cant": "the doctests check one matrix and one angle; signs, factors and degenerate turns are continuous families", "anchors": ["opensfm/multiview.py:KRt_from_P", "opensfm/multiview.py:P_from_KRt", "opensfm/multiview.py:rq", "opensfm/multiview.py:vector_angle", "opensfm/multiview.py:focal_from_homography", "opensfm/multiview.py:R_from_homography", "opensfm/multiview.py:project_to_rotation_matrix", "opensfm/multiview.py:nullspace"]}
{"id": "C122", "title": "When growing bundles, re-triangulates and saves", "statement": "Growing a reconstruction paints, aligns, bundles everything and removes outliers first, and ends with an alignment, a bundle of everything with the ground control points, outlier removal, the optional filters and painting; no other bundle uses ground control points, and the last one compensates the GPS bias only if this is configured and the last alignment succeeded. Whenever an image is tried, fewer than bundle_interval images (at least: none) have been added since the last bundle of everything. After an image is resected, its shots' poses bundled and its features triangulated, everything is aligned, bundled, re-triangulated, bundled and cleaned exactly if re-triangulation is on and there are more points than its ratio times the points after its last run; otherwise aligned, bundled and cleaned exactly if the points reach the ratio times those at the last cleaning or the shots reach the interval; otherwise the neighbourhood of the image is bundled if it has a radius. Partial reconstructions are saved exactly when configured, once per added image and at most once more.", "quantifier": "every dataset, every outcome of every numerical step, every set of options and every length of run", "why_tests_cant": "tests run the pipeline on small synthetic scenes and look at the result; the schedule must hold for every history of point and shot counts", "anchors": ["opensfm/reconstruction.py:grow_reconstruction", "opensfm/reconstruction.py:ShouldBundle", "opensfm/reconstruction.py:ShouldRetriangulate"]}
{"id": "C123", "title": "A reconstruction from a prior one", "statement": "reconstruct_from_prior succeeds on every well formed prior reconstruction and every table of tracks. The result has the reference, the cameras and exactly the shots of the prior, each with the same camera, rig instance, rig camera, attributes and pose; rig instances and rig cameras are those that have a shot. Its points are exactly the tracks with an observation in a shot of the prior that can be triangulated with those poses, at the triangulated place, observed by exactly the inliers with the observation of the table, and coloured like the first observation of the track (even when that is in an image outside the reconstruction). Points, meshes, pano shots and camera biases of the prior are not kept. The report counts the shots of the prior and the images with tracks outside it and lists exactly the images with tracks that are not in the result. The command reads the first reconstruction of the input only and writes nothing when there is none.", "quantifier": "all prior reconstructions whose references are consistent (any cameras, rigs, shots, points), all reachable tracks managers, all triangulation outcomes that keep shots with an observation, all orders of the sets", "why_tests_cant": "Rigs of any size copied from any of their shots, any overlap of tracks with prior and other images, and every order of the hash tables cannot be enumerated; the tests run the command on one small dataset and check that it ends.", "anchors": ["opensfm/reconstruction.py:reconstruct_from_prior", "opensfm/reconstruction.py:paint_reconstruction", "opensfm/reconstruction.py:triangulate_shot_features", "opensfm/actions/reconstruct_from_prior.py:run_dataset", "opensfm/types.py:add_shot"]}
{"id": "C124", "title": "The first pairs of images do not depend on the number of processes", "statement": "incremental_reconstruction lists the pairs of images from which reconstructions start in two ways: sequentially with one process, and from a table of all common tracks with more. Both raise exactly when an image of a pair with enough common tracks has no camera, and otherwise propose the same pairs, each once, in an order with the same numbers of unexplained tracks, larger first: exactly the pairs of registered images with at least the required number of common tracks of which at least three tenths (and one) are not explained by a rotation. When no two pairs have the same number, the order is the same; when two pairs do, the order (and hence the pair from which the reconstruction starts) may depend on the number of processes, because np.argsort is not stable and list.sort is. For every such pair the points given to bootstrap_reconstruction are the same, track by track.", "quantifier": "all histories of the tracks manager, all cameras, all robust estimators that return rotations, all orders that np.argsort may return, all thresholds", "why_tests_cant": "The two code paths must agree for every tracks graph and every hash order; tests run one dataset with one number of processes.", "anchors": ["opensfm/reconstruction.py:compute_image_pairs_sequential", " opensfm/reconstruction.py:compute_image_pairs", " opensfm/reconstruction.py:_get_common_feature_arrays", " opensfm/reconstruction.py:incremental_reconstruction", " opensfm/tracking.py:all_common_tracks_with_features"]}
{"id": "C125", "title": "The orientation read from the tags of drone images", "statement": "EXIF.extract_opk gives omega, phi and kappa exactly when the image has XMP data, a latitude and a longitude, and three numeric tags of yaw, pitch and roll: those of the camera if it has all three, otherwise those of a DJI gimbal with 90 degrees added to the pitch. The documented meaning (yaw 0: top of the image to the north, pitch 0: nadir) is not what rotation_from_opk makes of the result, because the north direction is computed in ECEF and the down direction in local axes: for a nadir camera on the northern half of the earth the camera does look down but the top of its image is turned by the longitude plus 90 degrees (the longitude less 90 on the southern half), which is right exactly at longitude -90; on the equator the result is (0 or 180, 0, 0) whatever the tags; at the pole every orientation is turned about the vertical by the longitude plus 90 degrees.", "quantifier": "all tags and texts, all latitudes in [-90, 90], all longitudes, all altitudes above -6335 km, all yaws (and all pitches and rolls on the equator and at the pole)", "why_tests_cant": "The dependence on the place of the image is a statement about every latitude and longitude; no test of the repository calls extract_opk.", "anchors": ["opensfm/exif.py:EXIF.extract_opk", " opensfm/geometry.py:rotation_from_opk", " opensfm/geo.py:ecef_from_lla"]}
{"id": "C126", "title": "Guided matching keeps to the epipolar constraint", "statement": "When the poses of the images are given, every match of a pair joins two features whose bearings are within guided_matching_threshold of the epipolar constraint of the two poses (the mean of the sines of the angles between the direction of each and the plane of the other with the base line), through all filters, robust matching and masks. The error is zero for features that see the same point, does not depend on which image comes first, and is zero for any features when the shots are at the same place. The matches before the filters are exactly the mutual ones that beat, by Lowe's ratio, all other features within the constraint, of which there must be at least one: a feature with a single candidate on its epipolar line is never matched. No feature is in two matches, and exchanging the images exchanges the matches. Without poses the matching is that without guide; an image without pose is an error.", "quantifier": "all poses, bearings, descriptors, distances, thresholds, ratios up to one, masks, filters and estimators", "why_tests_cant": "The geometry must hold for every pair of poses and the selection for every table of distances and mask; tests run a few pairs of images.", "anchors": ["opensfm/matching.py:_match_descriptors_guided_impl", "opensfm/matching.py:compute_inliers_bearing_epipolar", "opensfm/matching.py:match_unwrap_args", "opensfm/matching.py:match_brute_force_symmetric", "opensfm/src/geometry/src/triangulation.cc:EpipolarAngleTwoBearingsMany"]}
{"id": "C127", "title": "Filters of the final point cloud", "statement": "filter_badly_conditioned_points removes exactly the points that no two of their shots see under more than the minimal angle (rays from opposite sides count as parallel), whose information matrix has a determinant below the bound, or whose condition (ratio of the largest to the smallest standard deviation over all directions, at most 1000) is more than one standard deviation above the mean of the points that pass the other tests; of these at most half are removed. remove_isolated_points removes exactly the points whose mean squared distance to their k nearest others is more than 1.25 standard deviations above the mean, at most 16 of 41, and none when there are at most k points; it does not depend on the frame or on the units. Nothing else in the reconstruction changes and the number of removed points is returned. The test on the determinant depends on the units: in units that are s times smaller it is the test with a bound s^6 times larger, and in small enough units all points are removed.", "quantifier": "all reconstructions reached by a disciplined history of edits, all positions, derivatives, angles, bounds and k", "why_tests_cant": "the thresholds are computed from the whole cloud, and the shares removed and the dependence on units are statements on all clouds", "anchors": ["opensfm/src/sfm/src/map_helpers.cc:FilterBadlyConditionedPoints", "opensfm/src/sfm/src/map_helpers.cc:RemoveIsolatedPoints", "opensfm/src/geometry/src/covariance.cc:ComputePointInverseCovariance"]}
{"id": "C128", "title": "Descriptors of whole images", "statement": "The bag-of-words histogram of an image is not negative, sums to one and is zero exactly for the words the image does not have, each word counting by its rarity; the distance of two images is between 0, exactly when they have the same words in the same proportions, and 2, exactly when they have no word in common, and is a metric. Images with fewer than nine features have no histogram. The VLAD vector of an image adds for every centre the differences of the features nearest to it (of equally near centres the first), does not depend on the order of the features, and is the sum for joined lists; normalised, the squares of its entries are the shares of their absolute values with the signs kept, and it is undefined exactly for the vector zero; the distance of two images is between 0, exactly when one vector is a positive multiple of the other, and 2. Both descriptors stay the same when every feature is there several times. Distances are reported exactly to the candidates other than the image that have a descriptor, in their order.", "quantifier": "all vocabularies, centres, images, features and lists of candidates", "why_tests_cant": "they are statements on all histograms and vectors: bounds with their exact cases of equality and invariances", "anchors": ["opensfm/bow.py:BagOfWords.histogram", "opensfm/bow.py:BagOfWords.bow_distance", "opensfm/pairs_selection.py:bow_distances", "opensfm/pairs_selection.py:load_histograms", "opensfm/vlad.py:signed_square_root_normalize", "opensfm/vlad.py:VladCache.vlad_histogram", "opensfm/src/features/src/matching.cc:compute_vlad_descriptor", "opensfm/src/features/src/matching.cc:compute_vlad_distances"]}
{"id": "C129", "title": "Camera identifiers are the make, model, size, projection and focal ratio", "statement": "The camera identifier of an image is its make, its model with every occurrence of the make removed from left to right, its width and height, its projection type and the first six characters of its focal ratio, separated by spaces and in lower case. Equal identifiers imply equal sizes, and equal projections and focal texts up to case, and the same text of make and model; makes and models are determined separately only when they contain no space. Focal ratios with the same six first characters are not told apart. Make and model each come from the lens tag when present, else from the image tag, else are unknown; the projection comes from the first XMP description that mentions a panorama. With unknown_camera_models_are_different, images of unknown make and model share a camera only when their names agree up to case.", "quantifier": "every make, model, projection and focal text, every size, every table of tags, every list of XMP descriptions and every image name", "why_tests_cant": "identifiers collide only for particular pairs of texts; that no other pair collides is a statement about all pairs", "anchors": ["opensfm/exif.py:camera_id_", "opensfm/exif.py:sensor_string", "opensfm/exif.py:EXIF.extract_make", "opensfm/exif.py:EXIF.extract_model", "opensfm/exif.py:get_gpano_from_xmp", "opensfm/actions/extract_metadata.py:_extract_exif"]}
{"id": "C130", "title": "Counting tracks per shot and temporary connections on the tracks manager", "statement": "count_tracks_per_shot gives for each asked shot the number of different tracks of the list that have an observation in it, however often shots or tracks are repeated, and raises when a shot was never added. add_connections is add_observation of the default observation for each track, so it replaces real observations; remove_connections removes exactly the observations of these tracks in the shot, raises at the first track never added after having removed those before it, and raises without a change for a shot never added. Connections added and removed again leave all other observations as they were but lose the real observations of the same pairs, and the shot and the tracks stay registered.", "quantifier": "every history of calls on the tracks manager, every shot, every list of shots and of tracks", "why_tests_cant": "the effect depends on the whole history of the manager and on overlaps between the lists and the real observations", "anchors": ["opensfm/src/sfm/src/tracks_helpers.cc:CountTracksPerShot", "opensfm/src/sfm/src/tracks_helpers.cc:AddConnections", "opensfm/src/sfm/src/tracks_helpers.cc:RemoveConnections"]}
{"id": "C131", "title": "Meshes of the shots", "statement": "A shot of the reconstruction that is in the tracks manager has the mesh of its camera type: planar, fisheye or spherical; any other shot has an empty one. In the planar mesh the vertices after the four corners are exactly the observed reconstructed points that project in the frame, the faces are the Delaunay triangles of the corners of the frame and their pixels, and each corner vertex lies through the camera matrix on its corner of the frame at the mean depth of the points in a triangle with it (each once per triangle), hence between the smallest and the largest, or at 50 when there is none. In the fisheye and spherical meshes every vertex lies along the bearing that is triangulated for it, the points at the camera centre are left out, the fisheye faces are those of the hull not entirely on the boundary circle, and in the spherical one the camera is inside the hull with a margin.", "quantifier": "every camera, rigid pose, list of points with their projections, triangulation and hull", "why_tests_cant": "the vertices, the mean depths and the inclusion in the hull depend on real numbers, on arbitrary lists of points and on arbitrary triangulations", "anchors": ["opensfm/mesh.py:triangle_mesh", "opensfm/mesh.py:triangle_mesh_perspective", "opensfm/mesh.py:triangle_mesh_fisheye", "opensfm/mesh.py:triangle_mesh_spherical", "opensfm/mesh.py:back_project_no_distortion"]}
{"id": "C132", "title": "A rig calibration run: groups of instances, rounds, what is written", "statement": "group_instances puts every rig instance in exactly one group, and two instances in the same group exactly when they have the same rig cameras, if no rig camera's name has a comma (with one, instances with different rig cameras can be put together). A round of create_rigs_with_pattern uses instances of the dataset, each at most once, and only instances that share their rig cameras with another instance. The run makes at most rig_calibration_max_rounds + 1 rounds and takes the first whose first reconstruction has a rig camera for exactly the rig cameras of the instances and at least the configured ratio of the round's instances complete; it then writes those rig cameras and the assignments of all images. If no round succeeds it writes nothing, and it never fails in counting. If some rig camera appears in a single instance only, or rig_calibration_subset_size is below two, nothing is ever written, whatever the reconstructions.", "quantifier": "all images and patterns, all neighbour graphs, components, random choices, reconstructions of subsets, relative poses, sizes, ratios and numbers of rounds", "why_tests_cant": "the run depends on random subsets and on the outcome of a reconstruction of each", "anchors": ["opensfm/rig.py:create_rigs_with_pattern", "opensfm/rig.py:group_instances", "opensfm/rig.py:propose_subset_dataset_from_instances"]}
{"id": "C133", "title": "The errors minimised when submodels are aligned", "statement": "Aligning submodels minimises a cost that is never negative, and is zero exactly when every constraint is met: a soft camera has in the world the orientation and the centre that its submodel gives it, a shot with a prior has its centre there, the two poses of a common camera are the same in the world, and the two copies of a common point are the same in the world. The errors are: for a prior, the difference of position over its deviation; for a common point, the difference in the world times the sum of the two scales over the deviation; for a common camera, the rotation vector between the orientations and the difference of the centres in the world, each over its deviation; for a soft camera, the rotation vector and the difference of the centres in the frame of the submodel. The transformation returned for a submodel is the inverse of the one that maps the world to it, so it takes each point of the submodel to the point of the world that is mapped to it, and it enlarges by at most ten times. Two common cameras with distinct centres fix the place of one submodel in the other: any two alignments that meet them agree on it.", "quantifier": "all submodels' poses, scales, priors, common cameras and points, deviations and weights, all lists of constraints, all worlds", "why_tests_cant": "the alignment is a nonlinear least squares over all submodels; a test sees the result of one", "anchors": ["opensfm/src/bundle/reconstruction_alignment.h:ReconstructionAlignment", "opensfm/large/tools.py:align_reconstructions", "opensfm/large/tools.py:invert_similarity"]}
{"id": "C134", "title": "The problem set up to align submodels", "statement": "With soft cameras, the cost that align_reconstructions minimises is zero exactly if every shot has in the world the pose that each of the partial reconstructions that have it gives it, and its centre is at the position that the first of them gives. With hard cameras, if no two shots of different reconstructions get the same name, it is zero exactly if the position of every shot of every reconstruction is mapped to its centre there, and every image of two reconstructions has the same pose in the world in both. With points, in both cases, it is also needed that the matching points of two connected reconstructions are the same in the world, when a similarity was found between them, its scale is within a factor of 1.3 of one and at least twenty pairs agree with it. No hard constraint is given twice. When two shots do get the same name under hard cameras, the position of the first is held against the pose of the last.", "quantifier": "all sets of partial reconstructions, images, poses, positions and accuracies, all matches of points, all alignments", "why_tests_cant": "the constraints come from nested loops over reconstructions, shots and common images, and are looked up by name when the problem runs", "anchors": ["opensfm/large/tools.py:align_reconstructions", "opensfm/large/tools.py:add_camera_constraints_soft", "opensfm/large/tools.py:add_camera_constraints_hard", "opensfm/large/tools.py:add_point_constraints", "opensfm/src/bundle/reconstruction_alignment.h:ReconstructionAlignment"]}
{"id": "C135", "title": "The automatic outlier threshold", "statement": "With the AUTO filter the threshold of remove_outliers is the ratio times the length of (mx+s, my+s), where (mx, my) are the medians of the two coordinates of the reprojection errors of all the points and s is 1.486 times the median of the distances of the errors to (mx, my). A median is the mean of the two middle elements of the list in order; at least half of the list is on each side. Without any reprojection error an exception is raised, and never otherwise. The order of points and errors does not matter, and errors scaled by c >= 0 give a threshold scaled by c. An error is an outlier exactly when it is longer than the absolute value of the threshold. If the median errors are at least 0 and the ratio at least 1, at least half of the errors are kept. Finding: the threshold depends on the sign of the errors: for every size there are four errors with threshold 0 (all removed, whatever the ratio) of which none is removed when their signs are changed.", "quantifier": "every list of points with any reprojection errors, every ratio, every scale", "why_tests_cant": "it ranges over all real error sets of any length; the sign dependence and the half-kept guarantee are inequalities over all of them", "anchors": ["opensfm/reconstruction.py: get_error_distribution", " get_actual_threshold", " remove_outliers"]}
{"id": "C136", "title": "The memory plan of feature extraction", "statement": "When no amount of memory is known, feature extraction queues 10 images and uses the configured processes. Otherwise it raises before starting exactly when no camera model has pixels or feature_process_size is below 16 (finding: the documented value -1, 'original size', always raises); and when it does not raise, at most 200 images are planned for the queue, that many average images take at most half of the memory allowed (memory times ratio), the number of processes is at least 1 and at most the configured one, and if it is more than one their processing sizes together take at most the other half; no smaller numbers are chosen without need. The average image size is the mean over the camera models of 4 bytes a pixel, and the processing size is 3 * (4p²/2^20) * (2 - 1/2^k) for 16*2^k <= p < 16*2^(k+1). Finding: the queue has no limit at all exactly when half of the memory allowed is less than one average image.", "quantifier": "every memory ceiling, ratio, available memory, number of processes, list of camera models and process size", "why_tests_cant": "the bounds hold for all real amounts of memory and all camera lists; the loop over octaves is summed in closed form by induction", "anchors": ["opensfm/features_processing.py: run_features_processing", " average_image_size", " average_processing_size"]}
