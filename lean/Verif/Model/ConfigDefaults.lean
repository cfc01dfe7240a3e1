import Verif.Model.Config

/-!
# The default configuration

Generated by tools/config_defaults.py from `OpenSfMConfig` (/repo/opensfm/config.py 11-392). Decimal constants
are exact rationals.
-/
namespace Verif.Config

/-- `default_config()` (config.py:395-397): the fields of the data class in order. -/
def defaults : Dict String Val :=
  [
    ("use_exif_size", .bool true),
    ("unknown_camera_models_are_different", .bool false),
    ("default_focal_prior", .num (17 / 20)),
    ("feature_type", .str "HAHOG"),
    ("feature_root", .bool true),
    ("feature_min_frames", .num 4000),
    ("feature_min_frames_panorama", .num 16000),
    ("feature_process_size", .num 2048),
    ("feature_process_size_panorama", .num 4096),
    ("feature_use_adaptive_suppression", .bool false),
    ("features_bake_segmentation", .bool false),
    ("mem_ceiling", .null),
    ("mem_ratio", .null),
    ("sift_peak_threshold", .num (1 / 10)),
    ("sift_edge_threshold", .num 10),
    ("sift_nfeatures", .num 0),
    ("sift_octave_layers", .num 3),
    ("sift_sigma", .num (8 / 5)),
    ("surf_hessian_threshold", .num 3000),
    ("surf_n_octaves", .num 4),
    ("surf_n_octavelayers", .num 2),
    ("surf_upright", .num 0),
    ("akaze_omax", .num 4),
    ("akaze_dthreshold", .num (1 / 1000)),
    ("akaze_descriptor", .str "MSURF"),
    ("akaze_descriptor_size", .num 0),
    ("akaze_descriptor_channels", .num 3),
    ("akaze_kcontrast_percentile", .num (7 / 10)),
    ("akaze_use_isotropic_diffusion", .bool false),
    ("hahog_peak_threshold", .num (1 / 100000)),
    ("hahog_edge_threshold", .num 10),
    ("hahog_normalize_to_uchar", .bool true),
    ("lowes_ratio", .num (4 / 5)),
    ("matcher_type", .str "FLANN"),
    ("symmetric_matching", .bool true),
    ("flann_algorithm", .str "KMEANS"),
    ("flann_branching", .num 8),
    ("flann_iterations", .num 10),
    ("flann_tree", .num 8),
    ("flann_checks", .num 20),
    ("bow_file", .str "bow_hahog_root_uchar_10000.npz"),
    ("bow_words_to_match", .num 50),
    ("bow_num_checks", .num 20),
    ("bow_matcher_type", .str "FLANN"),
    ("vlad_file", .str "bow_hahog_root_uchar_64.npz"),
    ("guided_spanning_trees", .num 5),
    ("guided_spanning_trees_random", .num (1 / 2)),
    ("guided_matching_threshold", .num (3 / 500)),
    ("guided_min_length_initial", .num 3),
    ("guided_min_length_final", .num 3),
    ("guided_extend_threshold", .num (1 / 500)),
    ("guided_extend_image_neighbors", .num 50),
    ("guided_extend_feature_neighbors", .num 10),
    ("matching_gps_distance", .num 150),
    ("matching_gps_neighbors", .num 0),
    ("matching_time_neighbors", .num 0),
    ("matching_order_neighbors", .num 0),
    ("matching_bow_neighbors", .num 0),
    ("matching_bow_gps_distance", .num 0),
    ("matching_bow_gps_neighbors", .num 0),
    ("matching_bow_other_cameras", .bool false),
    ("matching_vlad_neighbors", .num 0),
    ("matching_vlad_gps_distance", .num 0),
    ("matching_vlad_gps_neighbors", .num 0),
    ("matching_vlad_other_cameras", .bool false),
    ("matching_graph_rounds", .num 0),
    ("matching_use_filters", .bool false),
    ("matching_use_segmentation", .bool false),
    ("robust_matching_threshold", .num (1 / 250)),
    ("robust_matching_calib_threshold", .num (1 / 250)),
    ("robust_matching_min_match", .num 20),
    ("five_point_algo_threshold", .num (1 / 250)),
    ("five_point_algo_min_inliers", .num 20),
    ("five_point_refine_match_iterations", .num 10),
    ("five_point_refine_rec_iterations", .num 1000),
    ("five_point_reversal_check", .bool false),
    ("five_point_reversal_ratio", .num (19 / 20)),
    ("triangulation_threshold", .num (3 / 500)),
    ("triangulation_min_ray_angle", .num (1 / 1)),
    ("triangulation_min_depth", .num (1 / 1000)),
    ("triangulation_type", .str "FULL"),
    ("triangulation_refinement_iterations", .num 10),
    ("resection_threshold", .num (1 / 250)),
    ("resection_min_inliers", .num 10),
    ("min_track_length", .num 2),
    ("use_depth_prior", .bool false),
    ("depth_std_deviation_m_default", .num (1 / 1)),
    ("depth_is_radial", .bool false),
    ("depth_is_inverted", .bool false),
    ("loss_function", .str "SoftLOneLoss"),
    ("loss_function_threshold", .num 1),
    ("reprojection_error_sd", .num (1 / 250)),
    ("exif_focal_sd", .num (1 / 100)),
    ("aspect_ratio_sd", .num (1 / 100)),
    ("principal_point_sd", .num (1 / 100)),
    ("radial_distortion_k1_sd", .num (1 / 100)),
    ("radial_distortion_k2_sd", .num (1 / 100)),
    ("radial_distortion_k3_sd", .num (1 / 100)),
    ("radial_distortion_k4_sd", .num (1 / 100)),
    ("tangential_distortion_p1_sd", .num (1 / 100)),
    ("tangential_distortion_p2_sd", .num (1 / 100)),
    ("gcp_horizontal_sd", .num (1 / 100)),
    ("gcp_vertical_sd", .num (1 / 10)),
    ("gcp_global_weight", .num (1 / 100)),
    ("rig_translation_sd", .num (1 / 10)),
    ("rig_rotation_sd", .num (1 / 10)),
    ("bundle_outlier_filtering_type", .str "FIXED"),
    ("bundle_outlier_auto_ratio", .num (3 / 1)),
    ("bundle_outlier_fixed_threshold", .num (3 / 500)),
    ("optimize_camera_parameters", .bool true),
    ("bundle_max_iterations", .num 100),
    ("retriangulation", .bool true),
    ("retriangulation_ratio", .num (6 / 5)),
    ("bundle_analytic_derivatives", .bool true),
    ("bundle_interval", .num 999999),
    ("bundle_new_points_ratio", .num (6 / 5)),
    ("local_bundle_radius", .num 3),
    ("local_bundle_min_common_points", .num 20),
    ("local_bundle_max_shots", .num 30),
    ("filter_final_point_cloud", .bool false),
    ("save_partial_reconstructions", .bool false),
    ("use_altitude_tag", .bool true),
    ("align_method", .str "auto"),
    ("align_orientation_prior", .str "horizontal"),
    ("bundle_use_gps", .bool true),
    ("bundle_use_gcp", .bool true),
    ("bundle_compensate_gps_bias", .bool false),
    ("rig_calibration_subset_size", .num 15),
    ("rig_calibration_completeness", .num (17 / 20)),
    ("rig_calibration_max_rounds", .num 10),
    ("undistorted_image_format", .str "jpg"),
    ("undistorted_image_max_size", .num 100000),
    ("depthmap_method", .str "PATCH_MATCH_SAMPLE"),
    ("depthmap_resolution", .num 640),
    ("depthmap_num_neighbors", .num 10),
    ("depthmap_num_matching_views", .num 6),
    ("depthmap_min_depth", .num 0),
    ("depthmap_max_depth", .num 0),
    ("depthmap_patchmatch_iterations", .num 3),
    ("depthmap_patch_size", .num 7),
    ("depthmap_min_patch_sd", .num (1 / 1)),
    ("depthmap_min_correlation_score", .num (1 / 10)),
    ("depthmap_same_depth_threshold", .num (1 / 100)),
    ("depthmap_min_consistent_views", .num 3),
    ("depthmap_save_debug_files", .bool false),
    ("processes", .num 1),
    ("read_processes", .num 4),
    ("submodel_size", .num 80),
    ("submodel_overlap", .num (30 / 1)),
    ("submodels_relpath", .str "submodels"),
    ("submodel_relpath_template", .str "submodels/submodel_%04d"),
    ("submodel_images_relpath_template", .str "submodels/submodel_%04d/images")]

end Verif.Config
