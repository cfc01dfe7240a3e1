{
 "claims": [
  {
   "property": "C01",
   "status": "proved",
   "theorems": [
    "Verif.TM.C01_getObservation",
    "Verif.TM.C01_shotView",
    "Verif.TM.C01_trackView",
    "Verif.TM.C01_views_nodup"
   ],
   "note": ""
  },
  {
   "property": "C02",
   "status": "proved",
   "theorems": [
    "Verif.TM.C02_shotIds",
    "Verif.TM.C02_trackIds",
    "Verif.TM.C02_remove",
    "Verif.TM.C02_add",
    "Verif.TM.C02_lookup"
   ],
   "note": ""
  },
  {
   "property": "C03",
   "status": "proved",
   "theorems": [
    "Verif.TM.C03_sub",
    "Verif.TM.C03_sub_reachable"
   ],
   "note": ""
  },
  {
   "property": "C04",
   "status": "proved",
   "theorems": [
    "Verif.TM.C04_common"
   ],
   "note": ""
  },
  {
   "property": "C05",
   "status": "proved",
   "theorems": [
    "Verif.TM.C05_connectivity"
   ],
   "note": ""
  },
  {
   "property": "C06",
   "status": "proved",
   "theorems": [
    "Verif.TrackMerge.C06_merge",
    "Verif.TrackMerge.C06_no_loss"
   ],
   "note": ""
  },
  {
   "property": "C07",
   "status": "proved",
   "theorems": [
    "Verif.TracksText.C07_roundtrip"
   ],
   "note": ""
  },
  {
   "property": "C08",
   "status": "proved",
   "theorems": [
    "Verif.TracksText.C08_read",
    "Verif.TracksText.C08_wrong_columns",
    "Verif.TracksText.C08_unknown_version",
    "Verif.TracksText.C08_from_lines"
   ],
   "note": ""
  },
  {
   "property": "C09",
   "status": "proved",
   "theorems": [
    "Verif.UFPy.C09_terminates",
    "Verif.UFPy.C09_partition",
    "Verif.UFPy.C09_root_member",
    "Verif.UFPy.C09_root_stable",
    "Verif.UFPy.C09_items"
   ],
   "note": ""
  },
  {
   "property": "C10",
   "status": "proved",
   "theorems": [
    "Verif.UFCpp.C10_terminates",
    "Verif.UFCpp.C10_partition",
    "Verif.UFCpp.C10_clusters"
   ],
   "note": ""
  },
  {
   "property": "C11",
   "status": "proved",
   "theorems": [
    "Verif.Tracking.C11_tracks",
    "Verif.Tracking.C11_observations",
    "Verif.Tracking.C11_reachable"
   ],
   "note": ""
  },
  {
   "property": "C12",
   "status": "proved",
   "theorems": [
    "Verif.Tracking.C12_order_independent"
   ],
   "note": ""
  },
  {
   "property": "C13",
   "status": "proved",
   "theorems": [
    "Verif.Tracking.C13_all_common",
    "Verif.Tracking.C13_common_tracks"
   ],
   "note": ""
  },
  {
   "property": "C14",
   "status": "proved",
   "theorems": [
    "Verif.SMap.C14_symmetric",
    "Verif.SMap.C14_add",
    "Verif.SMap.C14_remove",
    "Verif.SMap.C14_clash"
   ],
   "note": ""
  },
  {
   "property": "C15",
   "status": "proved",
   "theorems": [
    "Verif.SMap.C15_removeShot",
    "Verif.SMap.C15_removeLandmark"
   ],
   "note": ""
  },
  {
   "property": "C16",
   "status": "proved",
   "theorems": [
    "Verif.SMap.C16_unchanged",
    "Verif.SMap.C16_create_raises"
   ],
   "note": ""
  },
  {
   "property": "C17",
   "status": "proved",
   "theorems": [
    "Verif.SMap.C17_clean",
    "Verif.SMap.C17_count",
    "Verif.SMap.C17_clear"
   ],
   "note": ""
  },
  {
   "property": "C18",
   "status": "proved",
   "theorems": [
    "Verif.SMap.C18_rigs",
    "Verif.SMap.C18_remove_used_instance"
   ],
   "note": ""
  },
  {
   "property": "C19",
   "status": "proved",
   "theorems": [
    "Verif.Pose.C19_coordinates",
    "Verif.SMap.C19_create_pose",
    "Verif.SMap.C19_pose",
    "Verif.SMap.C19_move",
    "Verif.SMap.C19_setPose"
   ],
   "note": ""
  },
  {
   "property": "C20",
   "status": "proved",
   "theorems": [
    "Verif.SMap.C20_bias",
    "Verif.SMap.C20_setBias",
    "Verif.SMap.C20_createCamera"
   ],
   "note": ""
  },
  {
   "property": "C21",
   "status": "proved",
   "theorems": [
    "Verif.PairsSelection.C21_ordered_pairs"
   ],
   "note": ""
  },
  {
   "property": "C22",
   "status": "proved",
   "theorems": [
    "Verif.PairsSelection.C22_window",
    "Verif.PairsSelection.C22_same_sequence"
   ],
   "note": ""
  },
  {
   "property": "C23",
   "status": "proved",
   "theorems": [
    "Verif.PairsSelection.C23_metadata",
    "Verif.PairsSelection.C23_configuration"
   ],
   "note": ""
  },
  {
   "property": "C24",
   "status": "proved",
   "theorems": [
    "Verif.PairsSelection.C24_neighbors",
    "Verif.PairsSelection.C24_construct"
   ],
   "note": ""
  },
  {
   "property": "C25",
   "status": "proved",
   "theorems": [
    "Verif.Matching.C25_brute_force",
    "Verif.Matching.C25_flann",
    "Verif.Matching.C25_words"
   ],
   "note": ""
  },
  {
   "property": "C26",
   "status": "proved",
   "theorems": [
    "Verif.Matching.C26_words",
    "Verif.Matching.C26_checks"
   ],
   "note": ""
  },
  {
   "property": "C27",
   "status": "proved",
   "theorems": [
    "Verif.Matching.C27_stages",
    "Verif.Matching.C27_filters_exact",
    "Verif.Matching.C27_calibrated",
    "Verif.Matching.C27_pair"
   ],
   "note": ""
  },
  {
   "property": "C28",
   "status": "proved",
   "theorems": [
    "Verif.Matching.C28_find_matches",
    "Verif.Matching.C28_unswapped"
   ],
   "note": ""
  },
  {
   "property": "C29",
   "status": "proved",
   "theorems": [
    "Verif.Matching.C29_unfilter"
   ],
   "note": ""
  },
  {
   "property": "C30",
   "status": "proved",
   "theorems": [
    "Verif.FeatureQueue.C30_exactly_once"
   ],
   "note": ""
  },
  {
   "property": "C31",
   "status": "proved",
   "theorems": [
    "Verif.FeatureQueue.C31_no_deadlock",
    "Verif.FeatureQueue.C31_completes",
    "Verif.FeatureQueue.C31_capacity_needed",
    "Verif.FeatureQueue.C31_sequential"
   ],
   "note": ""
  },
  {
   "property": "C32",
   "status": "proved",
   "theorems": [
    "Verif.FeatureQueue.C32_chunks"
   ],
   "note": ""
  },
  {
   "property": "C33",
   "status": "proved",
   "theorems": [
    "Verif.Inc.C33_bootstrap",
    "Verif.Inc.C33_partition"
   ],
   "note": ""
  },
  {
   "property": "C34",
   "status": "proved",
   "theorems": [
    "Verif.Inc.C34_grow"
   ],
   "note": ""
  },
  {
   "property": "C35",
   "status": "proved",
   "theorems": [
    "Verif.SMap.C35_exact",
    "Verif.SMap.C35_threshold"
   ],
   "note": ""
  },
  {
   "property": "C36",
   "status": "proved",
   "theorems": [
    "Verif.Nbh.C36_python",
    "Verif.Nbh.C36_cpp",
    "Verif.Nbh.C36_map"
   ],
   "note": ""
  },
  {
   "property": "C37",
   "status": "proved",
   "theorems": [
    "Verif.Robust.C37_best",
    "Verif.Robust.C37_all_scored",
    "Verif.Robust.C37_ransac",
    "Verif.Robust.C37_msac",
    "Verif.Robust.C37_lmeds",
    "Verif.Robust.C37_refinement_sample"
   ],
   "note": ""
  },
  {
   "property": "C38",
   "status": "proved",
   "theorems": [
    "Verif.Robust.C38_sample",
    "Verif.Robust.C38_data",
    "Verif.Robust.C38_termination",
    "Verif.Robust.C38_ransac_returns",
    "Verif.Robust.C38_msac_loops"
   ],
   "note": ""
  },
  {
   "property": "C39",
   "status": "proved",
   "theorems": [
    "Verif.Pose.C39_consistent",
    "Verif.Pose.C39_rotation_only_stale",
    "Verif.Pose.C39_actions",
    "Verif.Pose.C39_group",
    "Verif.Pose.C39_origin"
   ],
   "note": ""
  },
  {
   "property": "C40",
   "status": "proved",
   "theorems": [
    "Verif.Pose.C40_pose",
    "Verif.Pose.C40_reconstruction"
   ],
   "note": ""
  },
  {
   "property": "C41",
   "status": "proved",
   "theorems": [
    "Verif.Camera.C41_no_distortion",
    "Verif.Camera.C41_project_bearing",
    "Verif.Camera.C41_project_bearing_undistorted",
    "Verif.Camera.C41_radial_root",
    "Verif.Camera.C41_unit_bearing",
    "Verif.Camera.C41_undistort_error",
    "Verif.Camera.C41_radial_error",
    "Verif.Camera.C41_dual_equation"
   ],
   "note": ""
  },
  {
   "property": "C42",
   "status": "proved",
   "theorems": [
    "Verif.Camera.C42_stages",
    "Verif.Camera.C42_camera",
    "Verif.Camera.C42_posed",
    "Verif.Camera.C42_rig_posed",
    "Verif.Camera.C42_normalized",
    "Verif.Camera.C42_rig_normalized",
    "Verif.Camera.C42_residual2D_value",
    "Verif.Camera.C42_residual3D_value",
    "Verif.Camera.C42_observed_bearing",
    "Verif.Camera.C42_residual2D",
    "Verif.Camera.C42_residual3D"
   ],
   "note": ""
  },
  {
   "property": "C43",
   "status": "proved",
   "theorems": [
    "Verif.Geo.C43_roundtrip",
    "Verif.Geo.C43_origin",
    "Verif.Geo.C43_distance",
    "Verif.Geo.C43_axes",
    "Verif.Geo.C43_surface",
    "Verif.Geo.C43_ecef_xy",
    "Verif.Geo.C43_longitude",
    "Verif.Geo.C43_topocentric_surface",
    "Verif.Geo.C43_gps_distance"
   ],
   "note": ""
  },
  {
   "property": "C44",
   "status": "proved",
   "theorems": [
    "Verif.ImageCoords.C44_roundtrip",
    "Verif.ImageCoords.C44_cpp_agrees",
    "Verif.ImageCoords.C44_frame",
    "Verif.ImageCoords.C44_range",
    "Verif.ImageCoords.C44_feature",
    "Verif.ImageCoords.C44_resize",
    "Verif.ImageCoords.C44_resize_degenerate"
   ],
   "note": ""
  },
  {
   "property": "C45",
   "status": "proved",
   "theorems": [
    "Verif.ImageCoords.C45_pixel",
    "Verif.ImageCoords.C45_other",
    "Verif.ImageCoords.C45_injective",
    "Verif.ImageCoords.C45_mask",
    "Verif.ImageCoords.C45_mask_pixel",
    "Verif.ImageCoords.C45_edge",
    "Verif.ImageCoords.C45_load",
    "Verif.ImageCoords.C45_segmentation",
    "Verif.ImageCoords.C45_combine",
    "Verif.ImageCoords.C45_combine_grey"
   ],
   "note": ""
  },
  {
   "property": "C46",
   "status": "proved",
   "theorems": [
    "Verif.CameraIO.C46_roundtrip",
    "Verif.CameraIO.C46_zero_focal",
    "Verif.CameraIO.C46_unknown",
    "Verif.CameraIO.C46_read_legal",
    "Verif.CameraIO.C46_defaults",
    "Verif.CameraIO.C46_cameras"
   ],
   "note": ""
  },
  {
   "property": "C47",
   "status": "proved",
   "theorems": [
    "Verif.CameraIO.C47_roundtrip",
    "Verif.CameraIO.C47_length",
    "Verif.CameraIO.C47_injective"
   ],
   "note": ""
  },
  {
   "property": "C48",
   "status": "proved",
   "theorems": [
    "Verif.RecIO.C48_roundtrip",
    "Verif.RecIO.C48_lossless",
    "Verif.RecIO.C48_opk_lost",
    "Verif.RecIO.C48_written_keys",
    "Verif.RecIO.C48_null",
    "Verif.RecIO.C48_copy",
    "Verif.RecIO.C48_shot"
   ],
   "note": ""
  },
  {
   "property": "C49",
   "status": "proved",
   "theorems": [
    "Verif.RecIO.C49_roundtrip",
    "Verif.RecIO.C49_list",
    "Verif.RecIO.C49_consistent",
    "Verif.RecIO.C49_add_existing_instance",
    "Verif.RecIO.C49_name_clash"
   ],
   "note": ""
  },
  {
   "property": "C50",
   "status": "proved",
   "theorems": [
    "Verif.Gcp.C50_grouping",
    "Verif.Gcp.C50_malformed",
    "Verif.Gcp.C50_nothing_lost",
    "Verif.Gcp.C50_ids",
    "Verif.Gcp.C50_unknown_altitude",
    "Verif.Gcp.C50_line",
    "Verif.Gcp.C50_comments",
    "Verif.Gcp.C50_header_wgs84",
    "Verif.Gcp.C50_header_utm",
    "Verif.Gcp.C50_file"
   ],
   "note": ""
  },
  {
   "property": "C51",
   "status": "proved",
   "theorems": [
    "Verif.Gcp.C51_roundtrip",
    "Verif.Gcp.C51_refused",
    "Verif.Gcp.C51_lossless",
    "Verif.Gcp.C51_lost"
   ],
   "note": ""
  },
  {
   "property": "C52",
   "status": "proved",
   "theorems": [
    "Verif.Exif.C52_offset_right",
    "Verif.Exif.C52_offset_wrong",
    "Verif.Exif.C52_right_iff",
    "Verif.Exif.C52_no_offset",
    "Verif.Exif.C52_gps_first",
    "Verif.Exif.C52_tag_order"
   ],
   "note": ""
  },
  {
   "property": "C53",
   "status": "proved",
   "theorems": [
    "Verif.Exif.C53_dji_position",
    "Verif.Exif.C53_dji_altitude",
    "Verif.Exif.C53_dji_absent",
    "Verif.Exif.C53_dji_unsigned",
    "Verif.Exif.C53_focal_consistent",
    "Verif.Exif.C53_focal_35",
    "Verif.Exif.C53_focal_sensor",
    "Verif.Exif.C53_focal_unknown",
    "Verif.Exif.C53_sensor_width",
    "Verif.Exif.C53_position",
    "Verif.Exif.C53_both_or_none",
    "Verif.Exif.C53_missing_longitude",
    "Verif.Exif.C53_range",
    "Verif.Exif.C53_altitude",
    "Verif.Exif.C53_orientation",
    "Verif.Exif.C53_image_size"
   ],
   "note": ""
  },
  {
   "property": "C54",
   "status": "proved",
   "theorems": [
    "Verif.Gpx.C54_outside",
    "Verif.Gpx.C54_inside",
    "Verif.Gpx.C54_at_point",
    "Verif.Gpx.C54_bounds",
    "Verif.Gpx.C54_antimeridian",
    "Verif.Gpx.C54_elevation",
    "Verif.Gpx.C54_dms",
    "Verif.Gpx.C54_bearing_range",
    "Verif.Gpx.C54_bearing_turns",
    "Verif.Gpx.C54_bearing_compass"
   ],
   "note": ""
  },
  {
   "property": "C55",
   "status": "proved",
   "theorems": [
    "Verif.Rig.C55_first_pattern",
    "Verif.Rig.C55_partition",
    "Verif.Rig.C55_instance",
    "Verif.Rig.C55_single",
    "Verif.Rig.C55_camera_twice"
   ],
   "note": ""
  },
  {
   "property": "C56",
   "status": "proved",
   "theorems": [
    "Verif.Rig.C56_sound",
    "Verif.Rig.C56_complete",
    "Verif.Rig.C56_exact",
    "Verif.Rig.C56_last_wins",
    "Verif.Rig.C56_old_format",
    "Verif.Rig.C56_rig_cameras"
   ],
   "note": ""
  },
  {
   "property": "C57",
   "status": "proved",
   "theorems": [
    "Verif.Submodels.C57_members",
    "Verif.Submodels.C57_cover",
    "Verif.Submodels.C57_order",
    "Verif.Submodels.C57_fails_iff",
    "Verif.Submodels.C57_positioned",
    "Verif.Submodels.C57_count",
    "Verif.Submodels.C57_list_roundtrip",
    "Verif.Submodels.C57_tab",
    "Verif.Submodels.C57_groups",
    "Verif.Submodels.C57_groups_total",
    "Verif.Submodels.C57_paths",
    "Verif.Submodels.C57_history",
    "Verif.Submodels.C57_default_template",
    "Verif.Submodels.C57_stale"
   ],
   "note": ""
  },
  {
   "property": "C58",
   "status": "proved",
   "theorems": [
    "Verif.Pose.C58_inverse"
   ],
   "note": ""
  },
  {
   "property": "C59",
   "status": "proved",
   "theorems": [
    "Verif.Reference.C59_weighted_mean",
    "Verif.Reference.C59_no_position",
    "Verif.Reference.C59_order",
    "Verif.Reference.C59_antimeridian",
    "Verif.Reference.C59_stays",
    "Verif.Reference.C59_first",
    "Verif.Reference.C59_crash"
   ],
   "note": ""
  },
  {
   "property": "C60",
   "status": "proved",
   "theorems": [
    "Verif.Config.C60_override",
    "Verif.Config.C60_empty",
    "Verif.Config.C60_not_mapping",
    "Verif.Config.C60_defaults_wf",
    "Verif.Config.C60_known",
    "Verif.Config.C60_ignore"
   ],
   "note": ""
  },
  {
   "property": "C61",
   "status": "proved",
   "theorems": [
    "Verif.UFCpp.C61_cpp_depth",
    "Verif.UFPy.C61_py_depth",
    "Verif.UFPy.C61_py_weight",
    "Verif.UFPy.C61_py_overcount"
   ],
   "note": ""
  },
  {
   "property": "C62",
   "status": "proved",
   "theorems": [
    "Verif.Camera.C62_pose",
    "Verif.Camera.C62_tiny_rotation_sign",
    "Verif.Camera.C62_tiny_rotation_wrong"
   ],
   "note": ""
  },
  {
   "property": "C63",
   "status": "proved",
   "theorems": [
    "Verif.Camera.C63_disto2468",
    "Verif.Camera.C63_disto24",
    "Verif.Camera.C63_disto2",
    "Verif.Camera.C63_tangential",
    "Verif.Camera.C63_thin_prism",
    "Verif.Camera.C63_dual_derivative"
   ],
   "note": ""
  },
  {
   "property": "C64",
   "status": "proved",
   "theorems": [
    "Verif.Camera.C64_dual_center"
   ],
   "note": ""
  },
  {
   "property": "C65",
   "status": "proved",
   "theorems": [
    "Verif.CameraIO.C65_create",
    "Verif.CameraIO.C65_set_get",
    "Verif.CameraIO.C65_distortion_setter",
    "Verif.CameraIO.C65_distortion_focal",
    "Verif.CameraIO.C65_matrix",
    "Verif.CameraIO.C65_scaled_matrix"
   ],
   "note": ""
  },
  {
   "property": "C66",
   "status": "proved",
   "theorems": [
    "Verif.Calibration.C66_history",
    "Verif.Calibration.C66_first_wins",
    "Verif.Calibration.C66_pollution",
    "Verif.Calibration.C66_focal_list_unused",
    "Verif.Calibration.C66_capitals",
    "Verif.Calibration.C66_default",
    "Verif.Calibration.C66_dual",
    "Verif.Calibration.C66_round"
   ],
   "note": ""
  },
  {
   "property": "C67",
   "status": "proved",
   "theorems": [
    "Verif.ExtractMetadata.C67_ends",
    "Verif.ExtractMetadata.C67_resume",
    "Verif.ExtractMetadata.C67_resume_many",
    "Verif.ExtractMetadata.C67_torn",
    "Verif.ExtractMetadata.C67_torn_reached",
    "Verif.ExtractMetadata.C67_stale",
    "Verif.ExtractMetadata.C67_result",
    "Verif.ExtractMetadata.C67_override_camera",
    "Verif.ExtractMetadata.C67_override_all",
    "Verif.ExtractMetadata.C67_override_some"
   ],
   "note": ""
  },
  {
   "property": "C68",
   "status": "proved",
   "theorems": [
    "Verif.Gpx.C68_time",
    "Verif.Gpx.C68_geotag",
    "Verif.Gpx.C68_zero",
    "Verif.Gpx.C68_sphere"
   ],
   "note": ""
  },
  {
   "property": "C69",
   "status": "proved",
   "theorems": [
    "Verif.Rig.C69_window",
    "Verif.Rig.C69_last_never",
    "Verif.Rig.C69_window_has",
    "Verif.Rig.C69_count",
    "Verif.Rig.C69_biggest_group"
   ],
   "note": ""
  },
  {
   "property": "C70",
   "status": "proved",
   "theorems": [
    "Verif.SubmodelAlign.C70_names",
    "Verif.SubmodelAlign.C70_hard_clash",
    "Verif.SubmodelAlign.C70_connected",
    "Verif.SubmodelAlign.C70_soft",
    "Verif.SubmodelAlign.C70_align"
   ],
   "note": ""
  },
  {
   "property": "C71",
   "status": "proved",
   "theorems": [
    "Verif.DatasetFiles.C71_name",
    "Verif.DatasetFiles.C71_list",
    "Verif.DatasetFiles.C71_folder",
    "Verif.DatasetFiles.C71_no_images",
    "Verif.DatasetFiles.C71_blank_line",
    "Verif.DatasetFiles.C71_extension",
    "Verif.DatasetFiles.C71_mask_folder",
    "Verif.DatasetFiles.C71_mask_line",
    "Verif.DatasetFiles.C71_mask_blank"
   ],
   "note": ""
  },
  {
   "property": "C72",
   "status": "proved",
   "theorems": [
    "Verif.DatasetFiles.C72_fresh_fails",
    "Verif.DatasetFiles.C72_calibration_fails",
    "Verif.DatasetFiles.C72_keeps_earlier"
   ],
   "note": ""
  },
  {
   "property": "C73",
   "status": "proved",
   "theorems": [
    "Verif.Features.C73_mask",
    "Verif.Features.C73_mask_length",
    "Verif.Features.C73_saved",
    "Verif.Features.C73_roundtrip",
    "Verif.Features.C73_no_descriptors",
    "Verif.Features.C73_capitals",
    "Verif.Features.C73_versions",
    "Verif.Features.C73_version2",
    "Verif.Features.C73_legacy",
    "Verif.Features.C73_exist"
   ],
   "note": ""
  },
  {
   "property": "C74",
   "status": "proved",
   "theorems": [
    "Verif.FeatureLoader.C74_cache",
    "Verif.FeatureLoader.C74_stale",
    "Verif.Features.C74_baked",
    "Verif.Features.C74_unbaked",
    "Verif.Features.C74_same_condition",
    "Verif.Features.C74_bake_equiv",
    "Verif.Features.C74_words",
    "Verif.Features.C74_augment"
   ],
   "note": ""
  },
  {
   "property": "C75",
   "status": "proved",
   "theorems": [
    "Verif.DetectStage.C75_words_match",
    "Verif.DetectStage.C75_resume",
    "Verif.DetectStage.C75_history",
    "Verif.DetectStage.C75_stable",
    "Verif.DetectStage.C75_torn_features",
    "Verif.DetectStage.C75_torn_words",
    "Verif.DetectStage.C75_torn_report",
    "Verif.DetectStage.C75_legacy_words"
   ],
   "note": ""
  },
  {
   "property": "C76",
   "status": "proved",
   "theorems": [
    "Verif.Undistort.C76_kept",
    "Verif.Undistort.C76_cover",
    "Verif.Undistort.C76_render",
    "Verif.Undistort.C76_world",
    "Verif.Undistort.C76_names",
    "Verif.Undistort.C76_pixel"
   ],
   "note": ""
  },
  {
   "property": "C77",
   "status": "proved",
   "theorems": [
    "Verif.UndistortRec.C77_shots",
    "Verif.UndistortRec.C77_camera",
    "Verif.UndistortRec.C77_ids",
    "Verif.UndistortRec.C77_views",
    "Verif.UndistortRec.C77_clash"
   ],
   "note": ""
  },
  {
   "property": "C78",
   "status": "proved",
   "theorems": [
    "Verif.UndistortMap.C78_shows",
    "Verif.UndistortMap.C78_identity",
    "Verif.UndistortMap.C78_half_pixel",
    "Verif.UndistortMap.C78_tracks_distorted",
    "Verif.UndistortMap.C78_resize"
   ],
   "note": ""
  },
  {
   "property": "C79",
   "status": "proved",
   "theorems": [
    "Verif.Depthmap.C79_backproject",
    "Verif.Depthmap.C79_homography",
    "Verif.Depthmap.C79_plane",
    "Verif.Depthmap.C79_depth_range",
    "Verif.Depthmap.C79_correlation",
    "Verif.Depthmap.C79_interpolation",
    "Verif.Depthmap.C79_patch",
    "Verif.Depthmap.C79_score",
    "Verif.Depthmap.C79_camera_matrix"
   ],
   "note": ""
  },
  {
   "property": "C80",
   "status": "proved",
   "theorems": [
    "Verif.PatchMatch.C80_pixels",
    "Verif.PatchMatch.C80_monotone",
    "Verif.PatchMatch.C80_propagation",
    "C80_brute_force",
    "C80_postprocess",
    "C80_saved",
    "C80_brute_mask",
    "C80_image_score",
    "C80_uniform"
   ],
   "note": ""
  },
  {
   "property": "C81",
   "status": "proved",
   "theorems": [
    "Verif.DepthmapMerge.C81_point",
    "Verif.DepthmapMerge.C81_resolution",
    "Verif.DepthmapMerge.C81_clean",
    "Verif.DepthmapMerge.C81_clean_monotone",
    "Verif.DepthmapMerge.C81_prune",
    "Verif.DepthmapMerge.C81_covered",
    "Verif.DepthmapMerge.C81_rounding"
   ],
   "note": ""
  },
  {
   "property": "C82",
   "status": "proved",
   "theorems": [
    "Verif.DenseStage.C82_order",
    "Verif.DenseStage.C82_resume",
    "Verif.DenseStage.C82_kept",
    "Verif.DenseStage.C82_complete",
    "Verif.DenseStage.C82_torn_raw",
    "Verif.DenseStage.C82_torn_cloud",
    "Verif.DenseStage.C82_wrong_cloud",
    "Verif.DenseStage.C82_no_raw",
    "Verif.DenseStage.C82_alone"
   ],
   "note": ""
  },
  {
   "property": "C83",
   "status": "proved",
   "theorems": [
    "Verif.DenseNeighbors.C83_common",
    "Verif.DenseNeighbors.C83_angle",
    "Verif.DenseNeighbors.C83_symmetric",
    "Verif.DenseNeighbors.C83_neighbors",
    "Verif.DenseNeighbors.C83_depths",
    "Verif.DenseNeighbors.C83_range_exists",
    "Verif.DenseNeighbors.C83_percentile",
    "Verif.DenseNeighbors.C83_percentile_mono",
    "Verif.DenseNeighbors.C83_range",
    "Verif.DenseNeighbors.C83_config",
    "Verif.DenseNeighbors.C83_behind"
   ],
   "note": ""
  },
  {
   "property": "C84",
   "status": "proved",
   "theorems": [
    "Verif.Ply.C84_roundtrip",
    "Verif.Ply.C84_truncated",
    "Verif.Ply.C84_lines_missing",
    "Verif.Ply.C84_cut_label",
    "Verif.Ply.C84_reconstruction",
    "Verif.Ply.C84_reconstruction_fails",
    "Verif.Ply.C84_views_mismatch"
   ],
   "note": ""
  },
  {
   "property": "C85",
   "status": "proved",
   "theorems": [
    "Verif.Triangulation.C85_angle",
    "Verif.Triangulation.C85_least",
    "Verif.Triangulation.C85_exact",
    "Verif.Triangulation.C85_accept",
    "Verif.Triangulation.C85_complete",
    "Verif.Triangulation.C85_refuses",
    "Verif.Triangulation.C85_gcp",
    "Verif.Triangulation.C85_two",
    "Verif.Triangulation.C85_two_refuses",
    "Verif.Triangulation.C85_two_agree",
    "Verif.Triangulation.C85_many",
    "Verif.Triangulation.C85_inliers_complete",
    "Verif.Triangulation.C85_inliers_front",
    "Verif.Triangulation.C85_dlt_exact",
    "Verif.Triangulation.C85_dlt_accept",
    "Verif.Triangulation.C85_dlt_complete",
    "Verif.Triangulation.C85_dlt_sideways",
    "Verif.Triangulation.C85_epipolar"
   ],
   "note": ""
  },
  {
   "property": "C86",
   "status": "proved",
   "theorems": [
    "Verif.TrackTriangulator.C86_full",
    "Verif.TrackTriangulator.C86_robust_sound",
    "Verif.TrackTriangulator.C86_robust_front",
    "Verif.TrackTriangulator.C86_last_pair",
    "Verif.TrackTriangulator.C86_last_pair_lost",
    "Verif.TrackTriangulator.C86_robust_complete",
    "Verif.TrackTriangulator.C86_robust_best",
    "Verif.TrackTriangulator.C86_stops",
    "Verif.TrackTriangulator.C86_shot_features",
    "Verif.TrackTriangulator.C86_again",
    "Verif.TrackTriangulator.C86_retriangulate",
    "Verif.TrackTriangulator.C86_unknown_type",
    "Verif.TrackTriangulator.C86_rays",
    "Verif.TrackTriangulator.C86_dlt_frame"
   ],
   "note": ""
  },
  {
   "property": "C87",
   "status": "proved",
   "theorems": [
    "Verif.Realign.C87_points",
    "Verif.Realign.C87_points_kept",
    "Verif.Realign.C87_shots",
    "Verif.Realign.C87_shot_pose",
    "Verif.Realign.C87_projection",
    "Verif.Realign.C87_cameras",
    "Verif.Realign.C87_again",
    "Verif.Realign.C87_self",
    "Verif.Realign.C87_rig_differs",
    "Verif.Realign.C87_offset"
   ],
   "note": ""
  },
  {
   "property": "C88",
   "status": "proved",
   "theorems": [
    "Verif.Superimpose.C88_total",
    "Verif.Superimpose.C88_similarity",
    "Verif.Superimpose.C88_optimal",
    "Verif.Superimpose.C88_exact_points",
    "Verif.Superimpose.C88_exact",
    "Verif.Superimpose.C88_svd",
    "Verif.Superimpose.C88_scale",
    "Verif.Superimpose.C88_decompose",
    "Verif.Superimpose.C88_inliers",
    "Verif.Superimpose.C88_returns",
    "Verif.Superimpose.C88_best",
    "Verif.Superimpose.C88_consensus"
   ],
   "note": ""
  },
  {
   "property": "C89",
   "status": "proved",
   "theorems": [
    "Verif.Align.C89_constraints",
    "Verif.Align.C89_exact",
    "Verif.Align.C89_auto",
    "Verif.Align.C89_auto_iff",
    "Verif.Align.C89_method",
    "Verif.Align.C89_eig",
    "Verif.Align.C89_one",
    "Verif.Align.C89_two",
    "Verif.Align.C89_rigs",
    "Verif.Align.C89_degenerate",
    "Verif.Align.C89_altitude"
   ],
   "note": ""
  },
  {
   "property": "C90",
   "status": "proved",
   "theorems": [
    "Verif.AlignPrior.C90_horizontal",
    "Verif.AlignPrior.C90_up",
    "Verif.AlignPrior.C90_exact",
    "Verif.AlignPrior.C90_plane",
    "Verif.AlignPrior.C90_min",
    "Verif.AlignPrior.C90_axes",
    "Verif.AlignPrior.C90_level",
    "Verif.AlignPrior.C90_noroll",
    "Verif.AlignPrior.C90_views",
    "Verif.AlignPrior.C90_down",
    "Verif.AlignPrior.C90_few",
    "Verif.AlignPrior.C90_rigs",
    "Verif.AlignPrior.C90_column"
   ],
   "note": ""
  },
  {
   "property": "C91",
   "status": "proved",
   "theorems": [
    "Verif.CommonTracks.C91_sound",
    "Verif.CommonTracks.C91_complete",
    "Verif.CommonTracks.C91_symmetric",
    "Verif.CommonTracks.C91_resect",
    "Verif.CommonTracks.C91_exact",
    "Verif.CommonTracks.C91_constraints",
    "Verif.CommonTracks.C91_tied",
    "Verif.CommonTracks.C91_never_merged"
   ],
   "note": ""
  },
  {
   "property": "C92",
   "status": "proved",
   "theorems": [
    "Verif.BundleErrors.C92_product",
    "Verif.BundleErrors.C92_rotate",
    "Verif.BundleErrors.C92_shot",
    "Verif.BundleErrors.C92_useless_camera",
    "Verif.BundleErrors.C92_reprojection",
    "Verif.BundleErrors.C92_spherical",
    "Verif.BundleErrors.C92_depth",
    "Verif.BundleErrors.C92_relative_motion",
    "Verif.BundleErrors.C92_relative_rotation",
    "Verif.BundleErrors.C92_common_position",
    "Verif.BundleErrors.C92_up_vector",
    "Verif.BundleErrors.C92_pan",
    "Verif.BundleErrors.C92_tilt",
    "Verif.BundleErrors.C92_roll",
    "Verif.BundleErrors.C92_roll_folded",
    "Verif.BundleErrors.C92_linear_motion",
    "Verif.BundleErrors.C92_linear_backwards",
    "Verif.BundleErrors.C92_gauge",
    "Verif.BundleErrors.C92_std",
    "Verif.BundleErrors.C92_barrier",
    "Verif.BundleErrors.C92_blocks2",
    "Verif.BundleErrors.C92_blocks3",
    "Verif.BundleErrors.C92_losses",
    "Verif.BundleErrors.C92_minimum"
   ],
   "note": ""
  },
  {
   "property": "C93",
   "status": "proved",
   "theorems": [
    "Verif.BundleProblem.C93_full",
    "Verif.BundleProblem.C93_full_obs",
    "Verif.BundleProblem.C93_full_raises",
    "Verif.BundleProblem.C93_full_returns",
    "Verif.BundleProblem.C93_half_written",
    "Verif.BundleProblem.C93_local",
    "Verif.BundleProblem.C93_local_obs",
    "Verif.BundleProblem.C93_local_gcp",
    "Verif.BundleProblem.C93_local_returns",
    "Verif.BundleProblem.C93_shots",
    "Verif.BundleProblem.C93_shots_obs",
    "Verif.BundleProblem.C93_shots_returns"
   ],
   "note": ""
  },
  {
   "property": "C94",
   "status": "proved",
   "theorems": [
    "Verif.BundleProblem.C94_full",
    "Verif.BundleProblem.C94_local",
    "Verif.BundleProblem.C94_shots",
    "Verif.BundleProblem.C94_running_mean",
    "Verif.BundleProblem.C94_running_wrong",
    "Verif.BundleProblem.C94_running_shrinks"
   ],
   "note": ""
  },
  {
   "property": "C95",
   "status": "proved",
   "theorems": [
    "Verif.GpsBias.C95_log",
    "Verif.GpsBias.C95_inverse",
    "Verif.GpsBias.C95_exact",
    "Verif.GpsBias.C95_no_gcp",
    "Verif.GpsBias.C95_all",
    "Verif.GpsBias.C95_off",
    "Verif.GpsBias.C95_residual",
    "Verif.GpsBias.C95_zero_accuracy",
    "Verif.GpsBias.C95_report",
    "Verif.GpsBias.C95_stale"
   ],
   "note": ""
  },
  {
   "property": "C96",
   "status": "proved",
   "theorems": [
    "Verif.BundleAlign.C96_rows",
    "Verif.BundleAlign.C96_choice",
    "Verif.BundleAlign.C96_up",
    "Verif.BundleAlign.C96_weight",
    "Verif.BundleAlign.C96_count",
    "Verif.BundleAlign.C96_residual",
    "Verif.BundleAlign.C96_junk",
    "Verif.BundleAlign.C96_agrees",
    "Verif.BundleAlign.C96_differs"
   ],
   "note": ""
  },
  {
   "property": "C97",
   "status": "proved",
   "theorems": [
    "Verif.BundleSigma.C97_order",
    "Verif.BundleSigma.C97_camera",
    "Verif.BundleSigma.C97_zero",
    "Verif.BundleSigma.C97_frozen",
    "Verif.BundleSigma.C97_frozen_bound",
    "Verif.BundleSigma.C97_models",
    "Verif.BundleSigma.C97_log",
    "Verif.BundleSigma.C97_rig",
    "Verif.BundleSigma.C97_rig_loose",
    "Verif.BundleSigma.C97_rig_flip"
   ],
   "note": ""
  },
  {
   "property": "C98",
   "status": "proved",
   "theorems": [
    "Verif.RelativePose.C98_candidates",
    "Verif.RelativePose.C98_sound",
    "Verif.RelativePose.C98_within",
    "Verif.RelativePose.C98_none_iff",
    "Verif.RelativePose.C98_exact",
    "Verif.RelativePose.C98_rotation_only",
    "Verif.RelativePose.C98_error",
    "Verif.RelativePose.C98_error_zero",
    "Verif.RelativePose.C98_threshold",
    "Verif.RelativePose.C98_scale",
    "Verif.RelativePose.C98_adapter",
    "Verif.RelativePose.C98_residual",
    "Verif.RelativePose.C98_refine_zero",
    "Verif.RelativePose.C98_refine_start",
    "Verif.RelativePose.C98_pick",
    "Verif.RelativePose.C98_truncation"
   ],
   "note": ""
  },
  {
   "property": "C99",
   "status": "proved",
   "theorems": [
    "Verif.Essential.C99_o1",
    "Verif.Essential.C99_o2",
    "Verif.Essential.C99_constraints",
    "Verif.Essential.C99_gauss",
    "Verif.Essential.C99_eigen",
    "Verif.Essential.C99_five",
    "Verif.Essential.C99_five_pose",
    "Verif.Essential.C99_epipolar",
    "Verif.Essential.C99_output",
    "Verif.Essential.C99_n_few",
    "Verif.Essential.C99_n_exact",
    "Verif.Essential.C99_n_pose",
    "Verif.Essential.C99_n_essential",
    "Verif.Essential.C99_n_refused",
    "Verif.Essential.C99_n_ratio"
   ],
   "note": ""
  },
  {
   "property": "C100",
   "status": "proved",
   "theorems": [
    "Verif.PlaneMotion.C100_sound",
    "Verif.PlaneMotion.C100_plane",
    "Verif.PlaneMotion.C100_complete",
    "Verif.PlaneMotion.C100_count",
    "Verif.PlaneMotion.C100_none_iff",
    "Verif.PlaneMotion.C100_perpendicular"
   ],
   "note": ""
  },
  {
   "property": "C101",
   "status": "proved",
   "theorems": [
    "Verif.TwoView.C101_refined",
    "Verif.TwoView.C101_listed",
    "Verif.TwoView.C101_refined_exact",
    "Verif.TwoView.C101_unchecked",
    "Verif.TwoView.C101_choice",
    "Verif.TwoView.C101_never_refused",
    "Verif.TwoView.C101_exact",
    "Verif.TwoView.C101_plane_first",
    "Verif.TwoView.C101_plane_any",
    "Verif.TwoView.C101_reversed",
    "Verif.TwoView.C101_plane_lost"
   ],
   "note": ""
  },
  {
   "property": "C102",
   "status": "proved",
   "theorems": [
    "Verif.RotationPair.C102_rotation",
    "Verif.RotationPair.C102_best_worst",
    "Verif.RotationPair.C102_exact_or_opposite",
    "Verif.RotationPair.C102_exact",
    "Verif.RotationPair.C102_three",
    "Verif.RotationPair.C102_error",
    "Verif.RotationPair.C102_inliers",
    "Verif.RotationPair.C102_score",
    "Verif.RotationPair.C102_pairs",
    "Verif.RotationPair.C102_pure_rotation"
   ],
   "note": ""
  },
  {
   "property": "C103",
   "status": "proved",
   "theorems": [
    "Verif.Quartic.C103_solve",
    "Verif.Quartic.C103_real_roots",
    "Verif.Quartic.C103_refused",
    "Verif.Quartic.C103_quadruple",
    "Verif.Quartic.C103_triple",
    "Verif.Quartic.C103_nan",
    "Verif.Quartic.C103_fourth_root",
    "Verif.Quartic.C103_lower_degree",
    "Verif.Quartic.C103_refine",
    "Verif.Quartic.C103_refine_keeps"
   ],
   "note": ""
  },
  {
   "property": "C104",
   "status": "proved",
   "theorems": [
    "Verif.ThreePoints.C104_sound",
    "Verif.ThreePoints.C104_results",
    "Verif.ThreePoints.C104_degenerate",
    "Verif.ThreePoints.C104_complete",
    "Verif.ThreePoints.C104_size",
    "Verif.ThreePoints.C104_small",
    "Verif.ThreePoints.C104_axis"
   ],
   "note": ""
  },
  {
   "property": "C105",
   "status": "proved",
   "theorems": [
    "Verif.AbsolutePose.C105_translation",
    "Verif.AbsolutePose.C105_translation_exact",
    "Verif.AbsolutePose.C105_parallel",
    "Verif.AbsolutePose.C105_decreases",
    "Verif.AbsolutePose.C105_iterations",
    "Verif.AbsolutePose.C105_fixed",
    "Verif.AbsolutePose.C105_sphere",
    "Verif.AbsolutePose.C105_flat",
    "Verif.AbsolutePose.C105_known_rotation",
    "Verif.AbsolutePose.C105_error",
    "Verif.AbsolutePose.C105_camera_to_world",
    "Verif.AbsolutePose.C105_inliers",
    "Verif.AbsolutePose.C105_resect"
   ],
   "note": ""
  },
  {
   "property": "C106",
   "status": "proved",
   "theorems": [
    "Verif.Angles.C106_euler_names",
    "Verif.Angles.C106_euler_known",
    "Verif.Angles.C106_euler_inverse",
    "Verif.Angles.C106_euler_angles",
    "Verif.Angles.C106_ptr_meaning",
    "Verif.Angles.C106_ptr_round",
    "Verif.Angles.C106_roll_folded",
    "Verif.Angles.C106_roll_vertical",
    "Verif.Angles.C106_ptr_same",
    "Verif.Angles.C106_ptr2_round",
    "Verif.Angles.C106_ptr2_inverse",
    "Verif.Angles.C106_opk_meaning",
    "Verif.Angles.C106_opk_round",
    "Verif.Angles.C106_opk_inverse",
    "Verif.Angles.C106_opk_lock",
    "Verif.Angles.C106_up_compass",
    "Verif.Angles.C106_up_vertical",
    "Verif.Angles.C106_gravity",
    "Verif.Angles.C106_metadata",
    "Verif.Angles.C106_level"
   ],
   "note": ""
  },
  {
   "property": "C107",
   "status": "proved",
   "theorems": [
    "Verif.NearImages.C107_time",
    "Verif.NearImages.C107_time_sound",
    "Verif.NearImages.C107_points",
    "Verif.NearImages.C107_oriented",
    "Verif.NearImages.C107_distance",
    "Verif.NearImages.C107_distance_sound",
    "Verif.NearImages.C107_all_or_none",
    "Verif.NearImages.C107_phantom",
    "Verif.NearImages.C107_missing",
    "Verif.NearImages.C107_missing_pairs",
    "Verif.NearImages.C107_mixed",
    "Verif.NearImages.C107_altitude_two",
    "Verif.NearImages.C107_parallel",
    "Verif.NearImages.C107_graph",
    "Verif.NearImages.C107_graph_shift",
    "Verif.NearImages.C107_preempt",
    "Verif.NearImages.C107_preempt_all",
    "Verif.NearImages.C107_preempt_none"
   ],
   "note": ""
  },
  {
   "property": "C108",
   "status": "proved",
   "theorems": [
    "Verif.MetadataRec.C108_position",
    "Verif.MetadataRec.C108_measurements",
    "Verif.MetadataRec.C108_shots",
    "Verif.MetadataRec.C108_pose",
    "Verif.MetadataRec.C108_reset",
    "Verif.MetadataRec.C108_alone",
    "Verif.MetadataRec.C108_unknown_camera"
   ],
   "note": ""
  },
  {
   "property": "C109",
   "status": "proved",
   "theorems": [
    "Verif.MapCopy.C109_copy",
    "Verif.MapCopy.C109_shots",
    "Verif.MapCopy.C109_pano",
    "Verif.MapCopy.C109_rig",
    "Verif.MapCopy.C109_poses",
    "Verif.MapCopy.C109_points",
    "Verif.MapCopy.C109_observations",
    "Verif.MapCopy.C109_default",
    "Verif.MapCopy.C109_add",
    "Verif.MapCopy.C109_add_rest",
    "Verif.MapCopy.C109_mixed",
    "Verif.MapCopy.C109_add_moves"
   ],
   "note": ""
  },
  {
   "property": "C110",
   "status": "proved",
   "theorems": [
    "Verif.MapCopy.C110_tracks",
    "Verif.MapCopy.C110_valid",
    "Verif.MapCopy.C110_errors",
    "Verif.MapCopy.C110_correspondences",
    "Verif.MapCopy.C110_correspondences_points",
    "Verif.MapCopy.C110_pixel",
    "Verif.MapCopy.C110_angular"
   ],
   "note": ""
  },
  {
   "property": "C111",
   "status": "proved",
   "theorems": [
    "Verif.Stats.C111_counts",
    "Verif.Stats.C111_fails",
    "Verif.Stats.C111_over_two",
    "Verif.Stats.C111_simple",
    "Verif.Stats.C111_reprojection",
    "Verif.Stats.C111_time",
    "Verif.Stats.C111_area",
    "Verif.Stats.C111_area_negative",
    "Verif.Stats.C111_summary",
    "Verif.Stats.C111_features",
    "Verif.Stats.C111_over_two_wrong"
   ],
   "note": ""
  },
  {
   "property": "C112",
   "status": "proved",
   "theorems": [
    "Verif.StatsErrors.C112_values",
    "Verif.StatsErrors.C112_relations",
    "Verif.StatsErrors.C112_gps",
    "Verif.StatsErrors.C112_gcp",
    "Verif.StatsErrors.C112_cameras",
    "Verif.StatsErrors.C112_rig"
   ],
   "note": ""
  },
  {
   "property": "C113",
   "status": "proved",
   "theorems": [
    "Verif.ParallelMap.C113_ok",
    "Verif.ParallelMap.C113_error",
    "Verif.ParallelMap.C113_sequential",
    "Verif.ParallelMap.C113_progress",
    "Verif.ParallelMap.C113_ends",
    "Verif.ParallelMap.C113_batches",
    "Verif.ParallelMap.C113_total",
    "Verif.ParallelMap.C113_concurrent",
    "Verif.ParallelMap.C113_memory"
   ],
   "note": ""
  },
  {
   "property": "C114",
   "status": "proved",
   "theorems": [
    "Verif.ExportText.C114_bundler",
    "Verif.ExportText.C114_bundler_fails",
    "Verif.ExportText.C114_bundler_undistorted",
    "Verif.ExportText.C114_bundler_projection",
    "Verif.ExportText.C114_nvm",
    "Verif.ExportText.C114_nvm_fails",
    "Verif.ExportText.C114_nvm_pixels"
   ],
   "note": ""
  },
  {
   "property": "C115",
   "status": "proved",
   "theorems": [
    "Verif.ExportColmap.C115_pair_id",
    "Verif.ExportColmap.C115_perspective",
    "Verif.ExportColmap.C115_brown",
    "Verif.ExportColmap.C115_fisheye",
    "Verif.ExportColmap.C115_fisheye_opencv",
    "Verif.ExportColmap.C115_unsupported",
    "Verif.ExportColmap.C115_quaternion",
    "Verif.ExportColmap.C115_quaternion_zero",
    "Verif.ExportColmap.C115_image_table",
    "Verif.ExportColmap.C115_camera_table",
    "Verif.ExportColmap.C115_features",
    "Verif.ExportColmap.C115_match_sets",
    "Verif.ExportColmap.C115_geometry",
    "Verif.ExportColmap.C115_epipolar",
    "Verif.ExportColmap.C115_points",
    "Verif.ExportColmap.C115_images",
    "Verif.ExportColmap.C115_index",
    "Verif.ExportColmap.C115_mutual",
    "Verif.ExportColmap.C115_shared",
    "Verif.ExportColmap.C115_half_pixel",
    "Verif.ExportColmap.C115_camera_file"
   ],
   "note": ""
  },
  {
   "property": "C116",
   "status": "proved",
   "theorems": [
    "Verif.Geocoords.C116_files",
    "Verif.Geocoords.C116_one",
    "Verif.Geocoords.C116_last",
    "Verif.Geocoords.C116_failure",
    "Verif.Geocoords.C116_exact",
    "Verif.Geocoords.C116_unique",
    "Verif.Geocoords.C116_affine",
    "Verif.Geocoords.C116_positions",
    "Verif.Geocoords.C116_shot_pose",
    "Verif.Geocoords.C116_possible",
    "Verif.Geocoords.C116_points",
    "Verif.Geocoords.C116_camera_coordinates",
    "Verif.Geocoords.C116_round_trip",
    "Verif.Geocoords.C116_dense"
   ],
   "note": ""
  },
  {
   "property": "C117",
   "status": "proved",
   "theorems": [
    "Verif.ExportScene.C117_platforms",
    "Verif.ExportScene.C117_images",
    "Verif.ExportScene.C117_vertices",
    "Verif.ExportScene.C117_fails",
    "Verif.ExportScene.C117_vis",
    "Verif.ExportScene.C117_vis_fails",
    "Verif.ExportScene.C117_vis_empty"
   ],
   "note": ""
  },
  {
   "property": "C118",
   "status": "proved",
   "theorems": [
    "Verif.Quaternions.C118_algebra",
    "Verif.Quaternions.C118_matrix",
    "Verif.Quaternions.C118_tiny",
    "Verif.Quaternions.C118_product",
    "Verif.Quaternions.C118_same",
    "Verif.Quaternions.C118_from_matrix",
    "Verif.Quaternions.C118_eigh_exists",
    "Verif.Quaternions.C118_precise",
    "Verif.Quaternions.C118_precise_memory",
    "Verif.Quaternions.C118_precise_wrong",
    "Verif.Quaternions.C118_round",
    "Verif.Quaternions.C118_axis",
    "Verif.Quaternions.C118_axis_short",
    "Verif.Quaternions.C118_euler",
    "Verif.Quaternions.C118_euler_angles",
    "Verif.Quaternions.C118_slerp_ends",
    "Verif.Quaternions.C118_slerp",
    "Verif.Quaternions.C118_slerp_half_turn",
    "Verif.Quaternions.C118_slerp_parallel",
    "Verif.Quaternions.C118_slerp_sign",
    "Verif.Quaternions.C118_random",
    "Verif.Quaternions.C118_random_all"
   ],
   "note": ""
  },
  {
   "property": "C119",
   "status": "proved",
   "theorems": [
    "Verif.AddShot.C119_rig_when",
    "Verif.AddShot.C119_rig",
    "Verif.AddShot.C119_rig_rest",
    "Verif.AddShot.C119_single_when",
    "Verif.AddShot.C119_single",
    "Verif.AddShot.C119_assigned",
    "Verif.AddShot.C119_assigned_all",
    "Verif.AddShot.C119_pair",
    "Verif.AddShot.C119_name_clash"
   ],
   "note": ""
  },
  {
   "property": "C120",
   "status": "proved",
   "theorems": [
    "Verif.RigCalib.C120_average",
    "Verif.RigCalib.C120_single",
    "Verif.RigCalib.C120_exact",
    "Verif.RigCalib.C120_wrong"
   ],
   "note": ""
  },
  {
   "property": "C121",
   "status": "proved",
   "theorems": [
    "Verif.Factor.C121_rq",
    "Verif.Factor.C121_decompose",
    "Verif.Factor.C121_recover",
    "Verif.Factor.C121_matrix",
    "Verif.Factor.C121_angle",
    "Verif.Factor.C121_focal",
    "Verif.Factor.C121_focal_blind",
    "Verif.Factor.C121_project",
    "Verif.Factor.C121_rotation",
    "Verif.Factor.C121_qr_exists",
    "Verif.Factor.C121_smallest_exists"
   ],
   "note": ""
  },
  {
   "property": "C122",
   "status": "proved",
   "theorems": [
    "Verif.GrowSteps.C122_journal",
    "Verif.GrowSteps.C122_interval",
    "Verif.GrowSteps.C122_decisions",
    "Verif.GrowSteps.C122_ends",
    "Verif.GrowSteps.C122_saves"
   ],
   "note": ""
  },
  {
   "property": "C123",
   "status": "proved",
   "theorems": [
    "Verif.FromPrior.C123_succeeds",
    "Verif.FromPrior.C123_shots",
    "Verif.FromPrior.C123_rig",
    "Verif.FromPrior.C123_lost",
    "Verif.FromPrior.C123_points",
    "Verif.FromPrior.C123_colour",
    "Verif.FromPrior.C123_report",
    "Verif.FromPrior.C123_command"
   ],
   "note": ""
  },
  {
   "property": "C124",
   "status": "proved",
   "theorems": [
    "Verif.PairOrder.C124_exception",
    "Verif.PairOrder.C124_pairs",
    "Verif.PairOrder.C124_order",
    "Verif.PairOrder.C124_start",
    "Verif.PairOrder.C124_tie"
   ],
   "note": ""
  },
  {
   "property": "C125",
   "status": "proved",
   "theorems": [
    "Verif.ExifOpk.C125_present",
    "Verif.ExifOpk.C125_north",
    "Verif.ExifOpk.C125_south",
    "Verif.ExifOpk.C125_where",
    "Verif.ExifOpk.C125_equator",
    "Verif.ExifOpk.C125_pole",
    "Verif.ExifOpk.C125_greenwich"
   ],
   "note": ""
  },
  {
   "property": "C126",
   "status": "proved",
   "theorems": [
    "Verif.Guided.C126_error",
    "Verif.Guided.C126_no_base",
    "Verif.Guided.C126_seen",
    "Verif.Guided.C126_symmetric",
    "Verif.Guided.C126_matches",
    "Verif.Guided.C126_alone",
    "Verif.Guided.C126_exchange",
    "Verif.Guided.C126_descriptors",
    "Verif.Guided.C126_pair",
    "Verif.Guided.C126_poses"
   ],
   "note": ""
  },
  {
   "property": "C127",
   "status": "proved",
   "theorems": [
    "Verif.CloudFilters.C127_conditioned",
    "Verif.CloudFilters.C127_half",
    "Verif.CloudFilters.C127_isolated",
    "Verif.CloudFilters.C127_share",
    "Verif.CloudFilters.C127_units",
    "Verif.CloudFilters.C127_small_units",
    "Verif.CloudFilters.C127_frame"
   ],
   "note": ""
  },
  {
   "property": "C128",
   "status": "proved",
   "theorems": [
    "Verif.ImageDescriptors.C128_histogram",
    "Verif.ImageDescriptors.C128_no_histogram",
    "Verif.ImageDescriptors.C128_bow_distance",
    "Verif.ImageDescriptors.C128_bow_metric",
    "Verif.ImageDescriptors.C128_candidates",
    "Verif.ImageDescriptors.C128_order",
    "Verif.ImageDescriptors.C128_vlad",
    "Verif.ImageDescriptors.C128_vlad_sum",
    "Verif.ImageDescriptors.C128_normalize",
    "Verif.ImageDescriptors.C128_scale",
    "Verif.ImageDescriptors.C128_vlad_distance",
    "Verif.ImageDescriptors.C128_repeated",
    "Verif.ImageDescriptors.C128_vlad_histogram"
   ],
   "note": ""
  },
  {
   "property": "C129",
   "status": "proved",
   "theorems": [
    "Verif.CameraIds.C129_removed",
    "Verif.CameraIds.C129_shape",
    "Verif.CameraIds.C129_determines",
    "Verif.CameraIds.C129_separate",
    "Verif.CameraIds.C129_words_move",
    "Verif.CameraIds.C129_focal",
    "Verif.CameraIds.C129_lower",
    "Verif.CameraIds.C129_sensor",
    "Verif.CameraIds.C129_make_model",
    "Verif.CameraIds.C129_projection",
    "Verif.CameraIds.C129_recorded",
    "Verif.CameraIds.C129_unknown_apart"
   ],
   "note": ""
  },
  {
   "property": "C130",
   "status": "proved",
   "theorems": [
    "Verif.TM.C130_count",
    "Verif.TM.C130_count_raises",
    "Verif.TM.C130_add",
    "Verif.TM.C130_remove",
    "Verif.TM.C130_remove_raises",
    "Verif.TM.C130_temporary"
   ],
   "note": ""
  },
  {
   "property": "C131",
   "status": "proved",
   "theorems": [
    "Verif.Mesh.C131_kind",
    "Verif.Mesh.C131_dispatch",
    "Verif.Mesh.C131_perspective",
    "Verif.Mesh.C131_corner",
    "Verif.Mesh.C131_corner_bounds",
    "Verif.Mesh.C131_total",
    "Verif.Mesh.C131_pulled",
    "Verif.Mesh.C131_fisheye",
    "Verif.Mesh.C131_fisheye_faces",
    "Verif.Mesh.C131_spherical",
    "Verif.Mesh.C131_inside"
   ],
   "note": ""
  },
  {
   "property": "C132",
   "status": "proved",
   "theorems": [
    "Verif.RigRun.C132_groups_perm",
    "Verif.RigRun.C132_groups",
    "Verif.RigRun.C132_comma",
    "Verif.RigRun.C132_window",
    "Verif.RigRun.C132_pose",
    "Verif.RigRun.C132_round",
    "Verif.RigRun.C132_first",
    "Verif.RigRun.C132_nothing",
    "Verif.RigRun.C132_complete",
    "Verif.RigRun.C132_lone",
    "Verif.RigRun.C132_small"
   ],
   "note": ""
  },
  {
   "property": "C133",
   "status": "proved",
   "theorems": [
    "Verif.AlignCost.C133_applied",
    "Verif.AlignCost.C133_range",
    "Verif.AlignCost.C133_motion",
    "Verif.AlignCost.C133_soft_size",
    "Verif.AlignCost.C133_absolute",
    "Verif.AlignCost.C133_relative_absolute",
    "Verif.AlignCost.C133_point",
    "Verif.AlignCost.C133_camera",
    "Verif.AlignCost.C133_cost",
    "Verif.AlignCost.C133_unique",
    "Verif.AlignCost.C133_world",
    "Verif.AlignCost.C133_soft"
   ],
   "note": ""
  },
  {
   "property": "C134",
   "status": "proved",
   "theorems": [
    "Verif.AlignSetup.C134_soft",
    "Verif.AlignSetup.C134_hard",
    "Verif.AlignSetup.C134_clash",
    "Verif.AlignSetup.C134_once"
   ],
   "note": ""
  },
  {
   "property": "C135",
   "status": "proved",
   "theorems": [
    "Verif.AutoThreshold.C135_median",
    "Verif.AutoThreshold.C135_median_half",
    "Verif.AutoThreshold.C135_threshold",
    "Verif.AutoThreshold.C135_order",
    "Verif.AutoThreshold.C135_scale",
    "Verif.AutoThreshold.C135_half_kept",
    "Verif.AutoThreshold.C135_outliers",
    "Verif.AutoThreshold.C135_sign"
   ],
   "note": ""
  },
  {
   "property": "C136",
   "status": "proved",
   "theorems": [
    "Verif.FeaturePlan.C136_image_size",
    "Verif.FeaturePlan.C136_processing_size",
    "Verif.FeaturePlan.C136_unknown",
    "Verif.FeaturePlan.C136_raises",
    "Verif.FeaturePlan.C136_bounds",
    "Verif.FeaturePlan.C136_no_limit"
   ],
   "note": ""
  }
 ]
}