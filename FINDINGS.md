# Where the code does not do what one would expect

Each line names the theorem (or example in the module of the property) that shows it about the model.

## Data sets, files, metadata
- `DataSet.subset` into a fresh folder always raises, so every rig calibration round fails: C72_fresh_fails, C72_calibration_fails. It keeps stale images of an earlier one: C72_keeps_earlier.
- A blank line in `image_list.txt` gives an image with an empty name (C71_blank_line); a blank line in `mask_list.txt` raises (C71_mask_blank); a file named `jpg` without a dot is an image (C71_extension).
- Submodels: a group without a GPS image makes `create_submodels` fail (C57_fails_iff); a tab in an image name (C57_tab); stale submodels stay (C57_stale).
- Hard camera constraint: shot names clash (C70_hard_clash).
- Features: a lower-case feature type loads 8-bit descriptors as bytes (C73_capitals); a legacy file hides the new one (C73_legacy); stale caches (C74_stale); a grey mask makes baked and unbaked detection differ (C74); torn files are never repaired and a torn report fails every later run (C75_torn_*); words of new features with legacy features (C75_legacy_words).
- Metadata: offset minutes of the time zone (C52_offset_wrong); latitude without longitude raises (C53_missing_longitude); the hard-coded calibration table is polluted (C66_pollution); the GoPro table is unreachable (C66_focal_list_unused); the `PARROT` entry never matches (C66_capitals); a `dual` default projection raises (C66_dual); a half written metadata file blocks later runs (C67_torn); overrides are ignored once metadata exists (C67_stale).
- GPX and video: antimeridian (C54_antimeridian); missing elevation (C54_elevation); the frame at the end of the track gets no position (C68_geotag).
- Reference: antimeridian (C59_antimeridian); truncated file after a crash (C59_crash).
- JSON: opk and attributes are lost (C48_opk_lost); a pano and a shot of one name lose their rig (C49_name_clash); adding an existing rig instance empties it (C49_add_existing_instance); ground control points of unknown altitude are never merged (C50_unknown_altitude), survey id, role and uid are not saved (C51_lost); a camera with zero focal is unreadable (C46_zero_focal).
- Masks and images: `combine_masks` drops grey masks (C45_combine_grey); look-up at the exact edge raises (C45_edge); a resized image can have an empty side (C44_resize_degenerate).
- Dense files: PLY `views` column missing without tracks (C84_views_mismatch); truncated PLY read silently (C84_lines_missing, C84_cut_label); torn raw depthmaps are never repaired (C82_torn_raw) and a torn cloud makes every merge fail (C82_torn_cloud); a shot without a depthmap gets its neighbour's cloud (C82_wrong_cloud); an unknown method crashes the cleaner (C82_no_raw).

## Matching and tracks
- `save_matches` and the orientation of pairs (C28_unswapped). Queue deadlock (C31_capacity_needed, C31_sequential).
- The Python union-find counts weights too often (C61_py_overcount).
- Rows of zeros in the tree of positions hide candidates (C107_phantom); images without omega, phi, kappa are moved up where the others are moved along their view (C107_mixed); images that all look in the same direction have no altitude (C107_parallel); one image without position shifts the points of the triangulation (C107_graph_shift), or raises when orientations are known (C107_missing).
- Words find nothing where VLAD falls back to all candidates (C107_preempt_none).

## Geometry
- Pose: setting only the rotation leaves a stale origin (C39_rotation_only_stale); Jacobian sign at zero rotation (C62); distortion Newton derivative (C63); dual camera centre 0/0 (C64); the `distortion` setter (C65_distortion_setter, C65_distortion_focal).
- MSAC local optimisation samples for ever (C38_msac_loops).
- Triangulation: opposite vectors have angle 0 (C85_angle); the DLT loses bearings in the image plane (C85_dlt_sideways); the last pair is never tried (C86_last_pair, C86_last_pair_lost); a loop variable is overwritten (C86_stops); refinement with bearings of the camera frame (C86_dlt_frame); an unknown `triangulation_type` deletes all points (C86_unknown_type).
- Similarity scale is not least squares (C88_scale); altitudes unknown for ground control points count for zero (C89_altitude); orientation prior (C90_few, C90_axes, C90_down, C90_column).
- Two views: the score is truncated (C98_truncation); no pose is left uninitialised (C98_rotation_only, C98_none_iff); reading past the last pair (C98_pick); the five point solver misses solutions with a zero last coordinate (C99_output); camera moving along the normal of the plane (C100_perpendicular); the plane based pose takes always the first motion (C101_plane_first, C101_plane_lost), accepts zero inliers (C101_plane_any); ties and thresholds (C101_choice, C101_never_refused); rotation only: the worst rotation for det < 0 (C102_best_worst, C102_three).
- Quartic (C103_fourth_root, C103_triple, C103_quadruple, C103_lower_degree) and, after it, resection from three points (C104_small, the exception in C104_complete); many points of a plane (C105_flat, C105_iterations); chord instead of angle (C105_inliers).
- Angles: rolls of upside-down cameras (C106_roll_folded), vertical views (C106_roll_vertical), omega/phi/kappa at a quarter turn (C106_opk_lock).

## Reconstruction
- A rig may contain a rig camera twice (C55_camera_twice); the last instance is never used for calibration (C69_last_never).
- `realign_maps` (C87_again, C87_rig_differs, C87_offset); `resect_reconstruction` ignores `min_inliers` (C91_resect); two reconstructions are never merged (C91_never_merged).
- Bundle: linear motion (C92_blocks3, C92_linear_backwards), roll (C92_roll_folded), barriers (C92_barrier, C92_std, C92_gauge); biases (C93_full, C95_no_gcp, C95_all, C95_stale); half written results (C93_half_written, C93_local, C93_shots); ground control points outside the neighbourhood raise (C93_local_gcp); running averages (C94_running_wrong, C94_running_shrinks); uninitialised values (C94_local, C96_junk); different alignments (C96_differs, C96_count); frozen parameters (C97_frozen, C97_rig_loose, C97_rig_flip).
- Reconstruction from metadata: all shots of a rig get the pose of the last image (C108_pose), or the origin (C108_reset).

- Copies: `copy.deepcopy` of a reconstruction has no observations (C109_default) and no colours (C109_points), meshes (C109_shots), unused rig cameras (C109_rig); it raises when a rig instance has a shot and a pano shot (C109_mixed); adding a shot can move its rig mates (C109_add_moves).
- Report: the average length "over two" leaves out the shortest tracks, whatever their length (C111_over_two, C111_over_two_wrong); the area of cameras with negative coordinates reaches to the origin (C111_area, C111_area_negative); shots that see no point are left out of the least number of reconstructed features (C111_features).
- Report: the camera statistics raise `KeyError` when a reconstruction has a camera that is not in the camera models of the dataset (C112_cameras), while unknown rig cameras are ignored (C112_rig).
- Threads: an exception in `parallel_map` leaves OpenCV without threads for the rest of the process (C113_error).
- Bundler and NVM: a reconstruction with a `brown` camera cannot be exported: `camera.focal_x` does not exist and raises (C114_bundler_fails, C114_nvm_fails).
- Bundler: the undistorted export lists only the images of the first reconstruction and raises for a later one with a point seen by its own shots (C114_bundler_undistorted).
- NVM: pixel positions are scaled with the width in x and the height in y, although normalised coordinates are divided by the longer side: off-centre observations are displaced along the shorter side (C114_nvm_pixels).
- COLMAP: the principal point of an OpenCV fisheye camera is added in normalised units instead of pixels (C115_fisheye_opencv).
- COLMAP: a shot without rotation gets a quaternion of `nan` (C115_quaternion_zero).
- COLMAP: the index of a feature in `points3D` counts all the features, `images` lists only those with points: the indices disagree as soon as an earlier feature has no point (C115_index).
- COLMAP: with several reconstructions the images refer to the point of the last reconstruction with the track (C115_shared).
- COLMAP: the fundamental matrix is not transposed when the columns of the matches are swapped (C115_epipolar).
- COLMAP: keypoints have the centre of the first pixel at zero, the exported cameras at one half (C115_half_pixel).
- **C116** `export_geocoords` reuses the variable `output` (export_geocoords.py:46, 52, 60, 64): with several options everything is written to one file, named after the first option, which ends with the last product only.
- **C116** `export_geocoords --reconstruction` raises as soon as one shot shares a rig instance or has a rig camera that is not the identity (its pose is immutable), and otherwise stores `R A^-1` as a rotation: world-to-camera stays right but camera-to-world uses its transpose, which is its inverse only for orthogonal `A`; a projected coordinate system has a scale.
- **C116** `export_geocoords --dense` calls `np.dot(A, map(...))` (export_geocoords.py:163-165), which raises under Python 3 at the first point: the output holds only the header.
- **C117** OpenMVS export: the views of a point are filtered by the image list only; a shot of the track that is not in the exported reconstruction, or whose camera is not perspective, is written as a view of image 0 (`image_ids_[...]` inserts 0, openmvs_exporter.h:58). A shot without mask file gets `os.path.abspath("")`, the working directory, as mask path (export_openmvs.py:56-60).
- **C117** PMVS export: with an empty tracks manager `vis.dat` announces the shots but has no lines while `useVisData` is 1 (export_pmvs.py:105, 160); a shot of the reconstruction without tracks raises `KeyError`. `np.savetxt(header="CONTOUR")` writes `# CONTOUR`.
- **C118** `quaternion_from_matrix(isprecise=True)` for rotations of at least 120 degrees (trace <= 0): the indices are off by one (`i, j, k = 1, 2, 3` index the matrix as well), `q[0]` is never assigned and keeps uninitialised memory, `q[3]` is overwritten; the half turn about z gives the identity, the one about x a `ZeroDivisionError` (transformations.py:1403-1413).
- **C118** `quaternion_slerp` with an odd `spin` does not return unit quaternions; between opposite quaternions it stays at the first one (transformations.py:1541-1555). `quaternion_about_axis` with an axis shorter than 2^-50 ignores the angle in the imaginary part.

- **C119** `reconstruction.add_shot`: an image outside the rigs whose name equals the id of a rig instance already in the reconstruction is silently made a member of that instance (`types.create_shot` reuses an instance of that name) and its pose moves all the images of the instance (`C119_name_clash`). An image of an instance that is already there wipes the member list of the instance before the call raises.
- **C120** `rig.compute_relative_pose` averages rotation vectors, of the shots for the frame of an instance and of the centred poses for the result (rig.py:219-226, 246-254): from perfect copies of one rig with different orientations it finds a different rig (two cameras 90 degrees apart come out 90 degrees apart on the other side).
- **C121** `multiview.focal_from_homography` gives `nan` for a homography with a negative factor, and `R_from_homography` a reflection (`project_to_rotation_matrix` does not check the determinant), although a homography is only known up to a factor (multiview.py:270, 297-302).

- `reconstruct_from_prior` keeps neither the camera biases nor the pano shots of the prior, and colours a point after an observation that may be in an image outside the reconstruction (C123_lost, C123_colour).
- **C124** The pair from which a reconstruction starts may depend on `processes`: with equal scores `compute_image_pairs` (`np.argsort`, unstable) and `compute_image_pairs_sequential` (`list.sort`, stable) may order the pairs differently (C124_tie).
- **C125** `EXIF.extract_opk` computes the north direction in ECEF but the down direction in local axes (exif.py:569-596), so the matrix it decomposes is not a rotation except at the poles: the kappa of a nadir image is off by the longitude plus 90 degrees (north; less 90 in the south), over Greenwich an image whose top is north is put with its top to the west (C125_greenwich), and on the equator every orientation becomes straight down or up (C125_equator). The angles are used as rotation priors and by `get_gps_opk_point`.
- **C126** Guided matching rejects a feature that has exactly one candidate on its epipolar line, the least ambiguous case: `knnMatch` returns one neighbour and the test `len(match) == 2` fails (matching.py:749-752; `C126_alone`). With two shots at the same place the mask allows everything (`C126_no_base`).
- **C127** `filter_badly_conditioned_points` compares the determinant of the information matrix of a point with a constant
  (`min_abs_det`), but this determinant is in units of length to the power of −6: with `C127_units` a point that passes in
  metres fails in millimetres when its determinant is below `min_abs_det * 10^18`, and in small enough units all points are
  removed (`C127_small_units`). In one unit, points far away are removed however well their angle and condition are.
- **C128** An image whose features all lie on VLAD centres has the vector zero, and its normalised descriptor is `nan` (vlad.py:31-32, no test; `C128_normalize`): its distances are `nan`, which `np.argsort` puts last. `load_histograms` calls 8 the minimal number of features but requires 9 (pairs_selection.py:712-726; `C128_no_histogram`).
- **C129** Camera identifiers collide: make "A B" model "C" and make "A" model "B C" are one camera (`C129_words_move`); the focal ratios 1.2345 and 1.2345e-05 print alike in six characters (`C129_focal`). A known make is removed from `unknown_<image>` too, so with `unknown_camera_models_are_different` the images `AX.jpg` and `A.jpg` of make `X` share a camera. The make may be that of the lens while the model is that of the body, each falls back on its own (`C129_make_model`). A first XMP description with any GPano entry hides the projection named by a later one (`C129_projection`).
- **C130** `add_connections` followed by `remove_connections` does not restore the tracks manager: a real observation of the shot in one of the tracks is first replaced by an empty one and then deleted, and a new shot or track stays registered with no observation (`C130_temporary`). `remove_connections` with a track never added raises halfway (`C130_remove_raises`).
- **C131** `triangle_mesh_perspective` keeps observed points behind the camera when their projection falls in the frame, and a corner takes the mean depth of the points around it, so corners can lie behind the camera or all at its centre (`C131_pulled`, for every depth). The corners ignore the distortion while the points are projected with it, so for `brown`, `radial` and `simple_radial` cameras the corner vertices do not project to the corners of the image (`C131_corner`).
- **C132** `create_rigs_with_pattern` can never succeed when a rig camera appears in a single rig instance (C132_lone): a group of one instance has no neighbour, so it is in no subset, but its rig cameras are still required (rig.py:349-354). One incomplete instance with an otherwise unseen rig camera makes calibration of the whole rig fail in every round. The run makes `rig_calibration_max_rounds + 1` rounds (rig.py:320-322); `group_instances` joins names with a comma, which mixes groups when a name has one (C132_comma); with `rig_calibration_subset_size` below 2 every window is empty (C132_small).
- **C133** the scale parameter of a submodel is bounded below by 0.1, so a submodel is enlarged at most ten times, whatever its GPS says (C133_range). The centre error of a soft camera is measured in the frame of the submodel, so its weight grows with the square of the submodel's scale parameter (C133_soft_size). The errors of common points do not depend on the size of the aligned world, but those of the centres of common cameras shrink with it: without absolute positions the alignment favours a small world (C133_world).
- **C134** under hard cameras a shot is named by its reconstruction's name followed by its own, and the constraints look it up by that name only when the problem runs: reconstruction 1 with image `0.jpg` and reconstruction 10 with image `.jpg` share one entry, so the position of the first is held against the pose of the second (C134_clash, with an example). Under soft cameras only the first reconstruction's copy of a shot's position counts (C134_soft).
- **C135** The AUTO outlier threshold is the length of (mean + std), the std being added to the signed mean of each coordinate: four errors around (-1.486a, -1.486a) at the distance a give the threshold 0, so all are removed whatever the ratio, while the same errors with the other sign are all kept. When both medians are at least 0 at least half is kept. With no reprojection errors AUTO raises.
- **C136** `feature_process_size: -1` is documented as 'original size', but `average_processing_size` takes `math.log2` of it, so feature extraction raises ValueError whenever the memory is known (on Linux always); values 1..15 and data sets without camera models divide by zero. When half of the memory allowed is below one average image the queue size is 0, which `queue.Queue` takes as no limit.
- **C53** `extract_dji_lon_lat` takes the first character of a DJI coordinate as its sign: "12" without a sign is read as -2.

## Undistortion and dense
- Names of views swapped (C76_names); identifiers clash (C77_clash); some cameras are silently left out (C77); distorted coordinates in undistorted tracks (C78_tracks_distorted); half a pixel (C78_half_pixel); empty sides (C78_resize).
- Depthmaps: mask and contrast ignored by brute force (C80_brute_mask), contrast seen in uniform areas (C80_uniform), least depth not enforced (C80_saved), rounding of the pruner (C81_rounding), depth ranges (C83_config, C83_behind, C83_common).
