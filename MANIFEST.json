{
 "claims": [
  {
   "property": "C01",
   "status": "proved",
   "theorems": [
    "StlDice.voxops_get",
    "StlDice.new_white_get",
    "StlDice.new_color_get",
    "StlDice.voxop_panics",
    "StlDice.voxops_header"
   ],
   "note": ""
  },
  {
   "property": "C02",
   "status": "proved",
   "theorems": [
    "StlDice.dim_is_max",
    "StlDice.voxelsPerMM_eq",
    "StlDice.mbb_eq",
    "StlDice.voxel_cube_in_mbb"
   ],
   "note": "exact rational arithmetic"
  },
  {
   "property": "C03",
   "status": "proved",
   "theorems": [
    "StlDice.write_read_roundtrip",
    "StlDice.write_read_empty"
   ],
   "note": ""
  },
  {
   "property": "C04",
   "status": "proved",
   "theorems": [
    "StlDice.write_wellformed",
    "StlDice.write_count"
   ],
   "note": ""
  },
  {
   "property": "C05",
   "status": "proved",
   "theorems": [
    "StlDice.write_order_independent"
   ],
   "note": ""
  },
  {
   "property": "C06",
   "status": "proved",
   "theorems": [
    "StlDice.read_accepts_iff",
    "StlDice.read_header"
   ],
   "note": ""
  },
  {
   "property": "C07",
   "status": "proved",
   "theorems": [
    "StlDice.read_vox_iff",
    "StlDice.read_whole_vox"
   ],
   "note": ""
  },
  {
   "property": "C08",
   "status": "proved",
   "theorems": [
    "StlDice.read_subregion_ok_iff",
    "StlDice.read_subregion_closed",
    "StlDice.read_subregion_halfopen_iff",
    "StlDice.read_subregion_too_many"
   ],
   "note": "The documented half-open reading is false of the code (read_subregion_too_many); stated and proved is the exact set."
  },
  {
   "property": "C09",
   "status": "proved",
   "theorems": [
    "StlDice.write_region_read",
    "StlDice.write_region_world",
    "StlDice.write_region_world_same_pitch",
    "StlDice.write_region_pitch"
   ],
   "note": "exact rational arithmetic for world positions"
  },
  {
   "property": "C10",
   "status": "proved",
   "theorems": [
    "StlDice.read_truncated",
    "StlDice.write_truncated"
   ],
   "note": ""
  },
  {
   "property": "C11",
   "status": "proved",
   "theorems": [
    "StlDice.write_reports_iff",
    "StlDice.write_header_error_ignored",
    "StlDice.write_header_error_ignored'"
   ],
   "note": "That every failure is reported is false of the code (header errors are ignored); the exact condition is proved."
  },
  {
   "property": "C12",
   "status": "proved",
   "theorems": [
    "StlDice.encode_channel_safe",
    "StlDice.encode_channel_progress",
    "StlDice.encode_channel_terminates",
    "StlDice.encode_channel_outcome"
   ],
   "note": ""
  },
  {
   "property": "C13",
   "status": "proved",
   "theorems": [
    "StlDice.new_shell_exact",
    "StlDice.new_color_only_empty"
   ],
   "note": ""
  },
  {
   "property": "C14",
   "status": "proved",
   "theorems": [
    "StlDice.shell_neighbours_symmetric",
    "StlDice.diffKeys_spec",
    "StlDice.diffKeys_zero_iff"
   ],
   "note": ""
  },
  {
   "property": "C15",
   "status": "proved",
   "theorems": [
    "StlDice.new_order_independent",
    "StlDice.add_header_order_independent"
   ],
   "note": ""
  },
  {
   "property": "C16",
   "status": "proved",
   "theorems": [
    "StlDice.history_holds_shell",
    "StlDice.history_exact",
    "StlDice.merge_world_exact",
    "StlDice.add_shell_exact",
    "StlDice.add_shell_any_capacity",
    "StlDice.add_loses_update",
    "StlDice.enclosed_voxel_kept"
   ],
   "note": "Exactness without the capacity condition is false of the code (add_loses_update, enclosed_voxel_kept)."
  },
  {
   "property": "C17",
   "status": "proved",
   "theorems": [
    "StlDice.history_nodup",
    "StlDice.add_nodup",
    "StlDice.new_nodup",
    "StlDice.add_twice_duplicates"
   ],
   "note": "Without the condition false of the code (add_twice_duplicates)."
  },
  {
   "property": "C18",
   "status": "proved",
   "theorems": [
    "StlDice.add_relative_position",
    "StlDice.add_world_position",
    "StlDice.add_positions",
    "StlDice.add_world"
   ],
   "note": ""
  },
  {
   "property": "C19",
   "status": "proved",
   "theorems": [
    "StlDice.add_keeps_resolution",
    "StlDice.add_dims_cover",
    "StlDice.add_dims_least"
   ],
   "note": "resolution in exact arithmetic; dimensions law-free"
  },
  {
   "property": "C20",
   "status": "proved",
   "theorems": [
    "StlDice.add_error_iff",
    "StlDice.merge_nil",
    "StlDice.merge_append",
    "StlDice.merge_unreadable",
    "StlDice.merge_failed_add"
   ],
   "note": ""
  },
  {
   "property": "C21",
   "status": "proved",
   "theorems": [
    "StlDice.vsh_roundtrip_iff",
    "StlDice.vsh_roundtrip",
    "StlDice.vsh_write_region_read",
    "StlDice.vsh_roundtrip_empty",
    "StlDice.vsh_special_lost"
   ],
   "note": ""
  },
  {
   "property": "C22",
   "status": "proved",
   "theorems": [
    "StlDice.vsh_write_exact",
    "StlDice.vsh_write_faithful_iff",
    "StlDice.vsh_long_run_moves_voxel"
   ],
   "note": "That all runs survive is false of the code (16-bit counter)."
  },
  {
   "property": "C23",
   "status": "proved",
   "theorems": [
    "StlDice.vsh_read_accepts_iff",
    "StlDice.vsh_read_voxels"
   ],
   "note": ""
  },
  {
   "property": "C24",
   "status": "proved",
   "theorems": [
    "StlDice.vsh_read_truncated",
    "StlDice.vsh_truncated_rejected"
   ],
   "note": ""
  },
  {
   "property": "C25",
   "status": "proved",
   "theorems": [
    "StlDice.voxcut_exact",
    "StlDice.voxcut_white",
    "StlDice.survives_rat",
    "StlDice.voxcut_color_exact"
   ],
   "note": ""
  },
  {
   "property": "C26",
   "status": "proved",
   "theorems": [
    "StlDice.voxcut_ignores_header",
    "StlDice.voxcut_translation_iff",
    "StlDice.voxcut_translation_violated"
   ],
   "note": "That translations are accounted for is false of the code."
  },
  {
   "property": "C27",
   "status": "proved",
   "theorems": [
    "StlDice.voxcutLoop_exact",
    "StlDice.voxcut_order_independent",
    "StlDice.voxcut_union"
   ],
   "note": ""
  },
  {
   "property": "C28",
   "status": "proved",
   "theorems": [
    "StlDice.writeVOX_layout",
    "StlDice.voxMax_spec",
    "StlDice.writeVOX_reports_iff"
   ],
   "note": "That the declared sizes are consistent is false of the code."
  },
  {
   "property": "C29",
   "status": "proved",
   "theorems": [
    "StlDice.voxelize_in_region",
    "StlDice.voxelize_negative_x"
   ],
   "note": ""
  },
  {
   "property": "C30",
   "status": "proved",
   "theorems": [
    "StlDice.voxelize_union_of_slices",
    "StlDice.voxelize_defined",
    "StlDice.voxelizeZ_exact",
    "StlDice.voxelize_exact"
   ],
   "note": ""
  },
  {
   "property": "C31",
   "status": "proved",
   "theorems": [
    "StlDice.raster_line",
    "StlDice.firstOctant_eq"
   ],
   "note": ""
  },
  {
   "property": "C32",
   "status": "proved",
   "theorems": [
    "StlDice.segment_hit_iff",
    "StlDice.tri_hit_cases",
    "StlDice.tri_miss",
    "StlDice.tri_hit_general",
    "StlDice.tri_vertex_on_plane"
   ],
   "note": ""
  },
  {
   "property": "C33",
   "status": "proved",
   "theorems": [
    "StlDice.voxelize_exact",
    "StlDice.voxelize_shell",
    "StlDice.endpoints_touched",
    "StlDice.crossing_rat"
   ],
   "note": ""
  },
  {
   "property": "C34",
   "status": "proved",
   "theorems": [
    "StlDice.tiles_cover",
    "StlDice.tiles_cover_model_iff",
    "StlDice.tile_geometry",
    "StlDice.boxScale_rat"
   ],
   "note": ""
  },
  {
   "property": "C35",
   "status": "proved",
   "theorems": [
    "StlDice.voxelize_subgrid",
    "StlDice.dice_same_voxels",
    "StlDice.dice_end_to_end"
   ],
   "note": ""
  },
  {
   "property": "C36",
   "status": "proved",
   "theorems": [
    "StlDice.tileFile_injective",
    "StlDice.job_files_distinct",
    "StlDice.dice_fresh"
   ],
   "note": ""
  },
  {
   "property": "C37",
   "status": "proved",
   "theorems": [
    "StlDice.dice_rerun",
    "StlDice.dice_resume",
    "StlDice.dice_keeps_existing",
    "StlDice.dice_failed_write_left"
   ],
   "note": ""
  },
  {
   "property": "C38",
   "status": "proved",
   "theorems": [
    "StlDice.cut_tiles_partition",
    "StlDice.cut_dice_endless",
    "StlDice.cut_dice_cases",
    "StlDice.cut_names_distinct",
    "StlDice.cut_args_region",
    "StlDice.cut_dice_exact"
   ],
   "note": ""
  },
  {
   "property": "C39",
   "status": "proved",
   "theorems": [
    "StlDice.cutAt_spec",
    "StlDice.binvox_dice_boxes",
    "StlDice.binvox_dice_tiling",
    "StlDice.cutSuffix_injective",
    "StlDice.binvox_dice_tiling_space"
   ],
   "note": ""
  },
  {
   "property": "C40",
   "status": "proved",
   "theorems": [
    "StlDice.merge_bounded",
    "StlDice.merge_result",
    "StlDice.merge_progress",
    "StlDice.merge_terminates",
    "StlDice.merge_deadlock",
    "StlDice.merge_returns"
   ],
   "note": ""
  },
  {
   "property": "C41",
   "status": "proved",
   "theorems": [
    "StlDice.imager_exact",
    "StlDice.imager_defined",
    "StlDice.imager_order_independent",
    "StlDice.imager_border_black",
    "StlDice.slice_image_exact",
    "StlDice.tiles_filled",
    "StlDice.agent_files_exact"
   ],
   "note": "images in exact rational arithmetic; pixel rule law-free"
  },
  {
   "property": "C42",
   "status": "proved",
   "theorems": [
    "StlDice.agent_fatal_iff",
    "StlDice.agent_flat_ok"
   ],
   "note": "That every slice of every job can be processed is false of the code."
  },
  {
   "property": "C43",
   "status": "proved",
   "theorems": [
    "StlDice.master_one_slice_per_agent",
    "StlDice.reregister_double_books"
   ],
   "note": "False of the code without the assumption (reregister_double_books)."
  },
  {
   "property": "C44",
   "status": "proved",
   "theorems": [
    "StlDice.job_reply_exact",
    "StlDice.job_complete",
    "StlDice.failed_slice_missing"
   ],
   "note": "That every slice is there is false of the code when a call fails."
  },
  {
   "property": "C45",
   "status": "proved",
   "theorems": [
    "StlDice.sliceName_injective",
    "StlDice.sliceName_ne_manifest",
    "StlDice.job_names_distinct",
    "StlDice.manifest_matches_iff",
    "StlDice.manifest_slices_iff"
   ],
   "note": "Names match the manifest only for the prefix out."
  },
  {
   "property": "C46",
   "status": "proved",
   "theorems": [
    "StlDice.job_reply_exact",
    "StlDice.overlapping_jobs_mix",
    "StlDice.overlapping_jobs_foreign_images"
   ],
   "note": "False of the code for overlapping jobs (witnesses)."
  },
  {
   "property": "C47",
   "status": "proved",
   "theorems": [
    "StlDice.scanImage_exact",
    "StlDice.svxRead_exact",
    "StlDice.svxRead_image_first",
    "StlDice.svxRead_empty_panics",
    "StlDice.parseManifest_exact",
    "StlDice.sscanf_iff",
    "StlDice.sscanf_ignores_rest"
   ],
   "note": "zip, XML and PNG decoding are parameters"
  },
  {
   "property": "C48",
   "status": "proved",
   "theorems": [
    "StlDice.parseManifest_exact",
    "StlDice.svx_pitch"
   ],
   "note": "That the voxel size is kept is false of the code."
  },
  {
   "property": "C49",
   "status": "proved",
   "theorems": [
    "StlDice.Marching.marching_closed",
    "StlDice.Marching.marching_vertices",
    "StlDice.Marching.marching_faces_out",
    "StlDice.Marching.marching_empty_iff",
    "StlDice.Marching.marching_runs_perm",
    "StlDice.Marching.triTable_shape"
   ],
   "note": "exact rational arithmetic; order independence law-free. In float64 the two cells sharing an edge may round its midpoint differently."
  },
  {
   "property": "C50",
   "status": "proved",
   "theorems": [
    "StlDice.Manifold.manifold_closed",
    "StlDice.Manifold.manifold_closed_wellcomposed",
    "StlDice.Manifold.manifold_t_junction",
    "StlDice.Manifold.manifold_hole",
    "StlDice.Manifold.manifold_run_exists"
   ],
   "note": "The unconditional claim is false of the code: manifold_hole, manifold_t_junction. Exact rational arithmetic; normals computed by the library are not modelled."
  },
  {
   "property": "C51",
   "status": "proved",
   "theorems": [
    "StlDice.Manifold.grid_exact"
   ],
   "note": "law-free in the number type"
  },
  {
   "property": "C52",
   "status": "proved",
   "theorems": [
    "StlDice.Manifold.triangleLess_strictWeak",
    "StlDice.Manifold.rat_strictWeak",
    "StlDice.Manifold.triangleLess_lex",
    "StlDice.Manifold.triangleLess_total",
    "StlDice.Manifold.sorted_unique",
    "StlDice.Manifold.manifold_sorted_deterministic",
    "StlDice.Manifold.sorted_exists",
    "StlDice.Manifold.f64_strictWeak",
    "StlDice.Manifold.triangleLess_strictWeak_f64",
    "StlDice.Manifold.sorted_unique_f64",
    "StlDice.Manifold.manifold_sorted_deterministic_f64",
    "StlDice.Manifold.sorted_exists_f64"
   ],
   "note": "strict weak order law-free for any set of coordinates on which < is one (no NaN); uniqueness in exact arithmetic and for finite float64 numbers (the two zeros are one number in the model)"
  },
  {
   "property": "C53",
   "status": "proved",
   "theorems": [
    "StlDice.Slave.slave_starts",
    "StlDice.Slave.slave_restarts",
    "StlDice.Slave.filename_injective",
    "StlDice.Slave.slave_keeps_no_model",
    "StlDice.Slave.slave_dies_only_of_data",
    "StlDice.Slave.file_holds_one_mesh",
    "StlDice.Slave.add_overwrites",
    "StlDice.Slave.saved_file_parses",
    "StlDice.Slave.get_readable",
    "StlDice.Slave.readable_change_fatal",
    "StlDice.Slave.sub_never_succeeds",
    "StlDice.Slave.get_returns_nothing",
    "StlDice.Slave.zero_unreadable",
    "StlDice.Slave.file_holds_pieces",
    "StlDice.Slave.added_file_exact",
    "StlDice.Slave.overlapping_adds_mix",
    "StlDice.Slave.dead_only_restarts",
    "StlDice.Slave.pending_can_fail",
    "StlDice.Slave.crash_leaves_part",
    "StlDice.Slave.apart_reads_whole",
    "StlDice.Slave.overlapping_get_mixes",
    "StlDice.Slave.reader_can_fail",
    "StlDice.Slave.read_magic",
    "StlDice.Slave.torn_unreadable",
    "StlDice.Slave.get_success_readable"
   ],
   "note": "The property a user would expect (Get returns what was added) is false of the code; stated and proved is what the code does. SaveSTL is library code (its file format is a definition of the model); saving is creating the file and any number of writes at the own offset, reading is opening it and any number of reads at the own offset."
  },
  {
   "property": "C54",
   "status": "proved",
   "theorems": [
    "StlDice.StlText.stlToMesh_short",
    "StlDice.StlText.stlToMesh_binary",
    "StlDice.StlText.stlToMesh_binary_total",
    "StlDice.StlText.stlToMesh_binary_again",
    "StlDice.StlText.stlToMesh_text",
    "StlDice.StlText.stlToMesh_ascii_exact",
    "StlDice.StlText.stlToMesh_long_line",
    "StlDice.StlText.stlToMesh_panics_iff",
    "StlDice.StlText.text_not_binary",
    "StlDice.StlText.fields_iff",
    "StlDice.StlText.lines_iff"
   ],
   "note": "bufio.Scanner, strings.Fields and encoding/binary are modelled; float32 decoding and ParseFloats are parameters"
  },
  {
   "property": "C55",
   "status": "proved",
   "theorems": [
    "StlDice.parseMBB_ok",
    "StlDice.parseMBB_shape",
    "StlDice.parseMBB_unbracketed_minus",
    "StlDice.parseMBB_logged"
   ],
   "note": "The expression mbbRE is modelled by a matcher with the priorities of Go regexp. parseMBB_unbracketed_minus records that an unbracketed negative fourth number is not parsed."
  },
  {
   "property": "C56",
   "status": "proved",
   "theorems": [
    "StlDice.voxcut_tile_exact",
    "StlDice.voxcut_tile_succeeds"
   ],
   "note": ""
  },
  {
   "property": "C57",
   "status": "proved",
   "theorems": [
    "StlDice.vsh_write_reports_iff",
    "StlDice.vsh_write_reports_empty",
    "StlDice.vsh_header_error_ignored"
   ],
   "note": "That every failure is reported is false of the code (header errors are ignored); the exact condition is proved."
  },
  {
   "property": "C58",
   "status": "proved",
   "theorems": [
    "StlDice.vsh_channel_safe",
    "StlDice.vsh_write_terminates",
    "StlDice.vsh_write_progress",
    "StlDice.vsh_write_schedule"
   ],
   "note": ""
  },
  {
   "property": "C59",
   "status": "proved",
   "theorems": [
    "StlDice.writeVOX_reports_iff"
   ],
   "note": ""
  },
  {
   "property": "C60",
   "status": "proved",
   "theorems": [
    "StlDice.runTiles_stops",
    "StlDice.cut_dice_stops_at_empty_tile",
    "StlDice.runTiles_all"
   ],
   "note": "The text states what the code does: the run stops at the first empty tile."
  },
  {
   "property": "C61",
   "status": "proved",
   "theorems": [
    "StlDice.dryrun_line_iff"
   ],
   "note": ""
  },
  {
   "property": "C62",
   "status": "proved",
   "theorems": [
    "StlDice.mergeInputs_exact",
    "StlDice.mergeBinvox_never_refuses"
   ],
   "note": ""
  },
  {
   "property": "C63",
   "status": "proved",
   "theorems": [
    "StlDice.tri_vertex_on_plane"
   ],
   "note": ""
  },
  {
   "property": "C64",
   "status": "proved",
   "theorems": [
    "StlDice.mr_image_exact",
    "StlDice.mr_superimposes",
    "StlDice.mr_single_tile",
    "StlDice.mr_image_exists_iff",
    "StlDice.mr_failed_tile"
   ],
   "note": "That tiles are drawn at their own place is false of the code."
  },
  {
   "property": "C65",
   "status": "proved",
   "theorems": [
    "StlDice.agent_exits_iff",
    "StlDice.agent_flat_exits_iff",
    "StlDice.agent_slice_defined",
    "StlDice.agent_thin_cut_fatal",
    "StlDice.agent_files_exact"
   ],
   "note": "That only the base matters is false of the code."
  },
  {
   "property": "C66",
   "status": "proved",
   "theorems": [
    "StlDice.master_quiet_bounded",
    "StlDice.master_stuck_starved",
    "StlDice.master_settles",
    "StlDice.starved_not_returned",
    "StlDice.starved_job_never_returns",
    "StlDice.starved_reachable"
   ],
   "note": "That a job always finishes is false of the code."
  },
  {
   "property": "C67",
   "status": "proved",
   "theorems": [
    "StlDice.manifest_grid_iff",
    "StlDice.manifest_voxelSize",
    "StlDice.manifest_placement"
   ],
   "note": "That the manifest always describes the images is false of the code."
  },
  {
   "property": "C68",
   "status": "proved",
   "theorems": [
    "StlDice.cli_archive_iff",
    "StlDice.cli_panics_iff",
    "StlDice.cli_no_zip_panics",
    "StlDice.cli_job_archive"
   ],
   "note": "That the archive is always complete is false of the code."
  },
  {
   "property": "C69",
   "status": "proved",
   "theorems": [
    "StlDice.svx_readback",
    "StlDice.svx_readback_mirrored",
    "StlDice.sscanf_sliceName"
   ],
   "note": "That the model is read back in place is false of the code."
  },
  {
   "property": "C70",
   "status": "proved",
   "theorems": [
    "StlDice.Manifold.manifold_volume"
   ],
   "note": "exact rational arithmetic"
  },
  {
   "property": "C71",
   "status": "proved",
   "theorems": [
    "StlDice.Manifold.manifold_skin",
    "StlDice.Manifold.manifold_area"
   ],
   "note": "exact rational arithmetic"
  },
  {
   "property": "C72",
   "status": "proved",
   "theorems": [
    "StlDice.Cmd.convert_touches",
    "StlDice.Cmd.convert_done",
    "StlDice.Cmd.convert_succeeds",
    "StlDice.Cmd.convert_failure",
    "StlDice.Cmd.marching_cubes_file",
    "StlDice.Cmd.manifold_mesh_file",
    "StlDice.closed_move",
    "StlDice.Cmd.stl_parses",
    "StlDice.Cmd.input_of_write",
    "StlDice.Cmd.convert_unreadable",
    "StlDice.Cmd.convert_total",
    "StlDice.Cmd.convert_commands_total"
   ],
   "note": "The STL format of SaveSTL (library) is a definition."
  },
  {
   "property": "C73",
   "status": "proved",
   "theorems": [
    "StlDice.Cmd.place_cube",
    "StlDice.Cmd.toMesh_exact",
    "StlDice.Cmd.toMesh_vertices",
    "StlDice.volume_affine",
    "StlDice.closedAfterCuts_affine",
    "StlDice.Cmd.faceMesh_isVoxelMesh"
   ],
   "note": "NewVoxelMesh (library) is a parameter."
  },
  {
   "property": "C74",
   "status": "proved",
   "theorems": [
    "StlDice.Cmd.cutModel_exact",
    "StlDice.Cmd.voxcut_touches",
    "StlDice.Cmd.voxcut_done",
    "StlDice.Cmd.voxcut_manifold_tile",
    "StlDice.Cmd.voxcut_tiles_overlap",
    "StlDice.Cmd.voxcut_order",
    "StlDice.Cmd.voxcut_total"
   ],
   "note": "That tiles do not overlap is false of the code for STL and VOX outputs (voxcut_tiles_overlap)."
  },
  {
   "property": "C75",
   "status": "proved",
   "theorems": [
    "StlDice.Cmd.merge_stl_touches",
    "StlDice.Cmd.merge_stl_done",
    "StlDice.Cmd.merge_stl_file",
    "StlDice.Cmd.merge_stl_nothing",
    "StlDice.Cmd.merge_stl_succeeds"
   ],
   "note": "LoadSTL (library) is a parameter."
  },
  {
   "property": "C76",
   "status": "proved",
   "theorems": [
    "StlDice.Cmd.merge_binvox_touches",
    "StlDice.Cmd.merge_binvox_nothing",
    "StlDice.Cmd.merge_binvox_done",
    "StlDice.Cmd.merge_binvox_file",
    "StlDice.Cmd.special_iff_isolated",
    "StlDice.Cmd.merge_binvox_total"
   ],
   "note": "That isolated voxels survive is false of the code."
  },
  {
   "property": "C77",
   "status": "proved",
   "theorems": [
    "StlDice.Cmd.dice_script",
    "StlDice.Cmd.dice_divisions",
    "StlDice.Cmd.dice_cmd_rerun",
    "StlDice.Cmd.dice_cmd_keeps",
    "StlDice.Cmd.dice_unreadable",
    "StlDice.Cmd.dice_too_flat",
    "StlDice.Cmd.layout_flat_iff"
   ],
   "note": "LoadSTL and BoundingBox (library) are parameters."
  },
  {
   "property": "C78",
   "status": "proved",
   "theorems": [
    "StlDice.Cmd.dice_then_script",
    "StlDice.Cmd.dice_job_succeeds",
    "StlDice.Cmd.dice_script_runs"
   ],
   "note": "LoadSTL, BoundingBox and NewVoxelMesh (library) are parameters with the stated specifications (met by faceMesh and the parser of C54); bash is modelled for words without special characters."
  },
  {
   "property": "C79",
   "status": "proved",
   "theorems": [
    "StlDice.Cmd.cut_dice_outputs",
    "StlDice.Cmd.cut_dice_succeeds",
    "StlDice.Cmd.cut_dice_dry",
    "StlDice.Cmd.cut_args_parsed",
    "StlDice.Cmd.cut_dice_zero_size",
    "StlDice.Cmd.cut_dice_dash_name"
   ],
   "note": "That every tile is made is false of the code (cut_dice_outputs: it stops where nothing is left; cut_dice_dash_name)."
  },
  {
   "property": "C80",
   "status": "proved",
   "theorems": [
    "StlDice.Flag.parse_iff",
    "StlDice.Cmd.stldice_flags_iff",
    "StlDice.Cmd.voxcut_flags_iff",
    "StlDice.Cmd.cut_dice_flags_iff",
    "StlDice.Cmd.merge_stl_flags_iff",
    "StlDice.Cmd.merge_binvox_flags_iff",
    "StlDice.Cmd.options_after_file",
    "StlDice.Cmd.script_procs_iff",
    "StlDice.Cmd.stldice_then_bash",
    "StlDice.Cmd.dot_stl_base"
   ],
   "note": "The Go package flag (library) is a definition; -smooth is parsed and otherwise left out."
  },
  {
   "property": "C81",
   "status": "proved",
   "theorems": [
    "StlDice.Cmd.svxOut_iff",
    "StlDice.Cmd.svx_out_collide",
    "StlDice.Cmd.svx_line",
    "StlDice.Cmd.svx2stl_touches",
    "StlDice.Cmd.svx_done",
    "StlDice.Cmd.svx_stops",
    "StlDice.Cmd.svx_succeeds_iff",
    "StlDice.Cmd.svx2stl_files",
    "StlDice.Cmd.svx2stl_of_stl2svx"
   ],
   "note": "That the model is shown in place is false of the code (svx2stl_of_stl2svx: mirrored)."
  },
  {
   "property": "C82",
   "status": "proved",
   "theorems": [
    "StlDice.Cmd.binvox_dice_flags_iff",
    "StlDice.Cmd.binvox_dice_iff",
    "StlDice.Cmd.binvox_script",
    "StlDice.Cmd.binvox_script_percent",
    "StlDice.Cmd.binvox_runs",
    "StlDice.Cmd.binvox_good_run",
    "StlDice.Cmd.binvox_left_over",
    "StlDice.Cmd.binvox_missing",
    "StlDice.Cmd.binvox_collide",
    "StlDice.Cmd.binvox_run_exists"
   ],
   "note": "The external program binvox is a parameter; how it numbers its outputs is a definition (Model/BinvoxDiceCmd); bash is modelled for words without special characters; fmt verbs other than %[1]v and %% are left out."
  },
  {
   "property": "C83",
   "status": "proved",
   "theorems": [
    "StlDice.F64.rnd_nearestEven",
    "StlDice.F64.rnd32_nearestEven",
    "StlDice.F64.nearestEven_unique",
    "StlDice.F64.rnd_mono",
    "StlDice.F64.rnd_error",
    "StlDice.F64.add_error",
    "StlDice.F64.sterbenz",
    "StlDice.F64.decode_encode"
   ],
   "note": "Overflow, NaN, division by zero, the sign of zero and fused multiply-add are not modelled."
  },
  {
   "property": "C84",
   "status": "proved",
   "theorems": [
    "StlDice.Marching.marching_closed_f64",
    "StlDice.Marching.marching_closed_near",
    "StlDice.Marching.marching_closed_origin",
    "StlDice.Marching.marching_vertices_f64",
    "StlDice.Marching.marching_close",
    "StlDice.Marching.marching_stl_f64",
    "StlDice.Marching.marching_cracks",
    "StlDice.Marching.marching_cracks_file"
   ],
   "note": "That the surface is closed for every model is false in float64 (marching_cracks, marching_cracks_file)."
  },
  {
   "property": "C85",
   "status": "proved",
   "theorems": [
    "StlDice.Manifold.manifold_f64",
    "StlDice.Manifold.manifold_closed_f64",
    "StlDice.Manifold.manifold_strict_f64"
   ],
   "note": ""
  },
  {
   "property": "C86",
   "status": "proved",
   "theorems": [
    "StlDice.displacement_f64_exact",
    "StlDice.offset_f64_error",
    "StlDice.add_resolution_f64",
    "StlDice.merge_resolution_f64",
    "StlDice.merge_succeeds_f64",
    "StlDice.merge_fails_f64",
    "StlDice.merge_overlays_f64"
   ],
   "note": "That models of one resolution always merge, and that each voxel is put at its place, are false in float64 (merge_fails_f64, merge_overlays_f64)."
  },
  {
   "property": "C87",
   "status": "proved",
   "theorems": [
    "StlDice.voxelize_f64",
    "StlDice.near_exact",
    "StlDice.dice_f64_same_voxels",
    "StlDice.dice_f64_loses",
    "StlDice.widest_f64",
    "StlDice.widest_extra"
   ],
   "note": "That dicing never changes the voxels, and that the widest side has the requested number of voxels, are false in float64 (dice_f64_loses, widest_extra)."
  },
  {
   "property": "C88",
   "status": "proved",
   "theorems": [
    "StlDice.cuts_f64",
    "StlDice.cuts_f64_near",
    "StlDice.cuts_f64_short"
   ],
   "note": "That the boxes cover the model is false in float64 (cuts_f64_short)."
  },
  {
   "property": "C89",
   "status": "proved",
   "theorems": [
    "StlDice.F64.fmtFloat_decimal",
    "StlDice.F64.shortest_spec",
    "StlDice.F64.decimal_iff",
    "StlDice.F64.float_text_f64",
    "StlDice.binvox_roundtrip_f64",
    "StlDice.mbb_f64",
    "StlDice.whiteCancels_f64",
    "StlDice.dice_f64_end_to_end"
   ],
   "note": "fmt and strconv are library code: modelled by their documented behaviour. Infinities, NaN, hexadecimal numbers, overflow and the sign of zero: see C113."
  },
  {
   "property": "C90",
   "status": "proved",
   "theorems": [
    "StlDice.Net.split_iff",
    "StlDice.Net.client_flags_iff",
    "StlDice.Net.client_touches",
    "StlDice.Net.client_done",
    "StlDice.Net.client_can_succeed",
    "StlDice.Net.client_refused",
    "StlDice.Net.outName_injective",
    "StlDice.Net.newJob_panics_iff",
    "StlDice.Net.newJob_ok_iff",
    "StlDice.Net.answer_exact",
    "StlDice.Net.network_images",
    "StlDice.Net.network_svx2stl",
    "StlDice.Net.network_prefix_refused",
    "StlDice.Net.answer_possible",
    "StlDice.Net.network_possible",
    "StlDice.Net.faithful_exists",
    "StlDice.Net.client_can_fail"
   ],
   "note": "gRPC, zip, PNG and XML are library code: a call returns the reply or an error, and readers read what the writers wrote (Faithful; faithful_exists shows that such libraries exist). The box of a mesh is assumed to have positive width (as fauxgl computes it for a solid)."
  },
  {
   "property": "C91",
   "status": "proved",
   "theorems": [
    "StlDice.Net.getAddress_exact"
   ],
   "note": ""
  },
  {
   "property": "C92",
   "status": "proved",
   "theorems": [
    "StlDice.Local.local_flags_iff",
    "StlDice.Local.zipName_injective",
    "StlDice.Local.local_touches",
    "StlDice.Local.local_no_stl",
    "StlDice.Local.local_refused",
    "StlDice.Local.local_done",
    "StlDice.Local.local_bad_cut",
    "StlDice.Local.local_archive",
    "StlDice.Local.local_late_refused",
    "StlDice.Local.local_svx2stl",
    "StlDice.Local.local_is_network",
    "StlDice.Local.local_possible"
   ],
   "note": "Each call on the archive is one step (no data race inside a call). Cloud storage (-bucket) is not modelled beyond that nothing is written locally. Libraries as in C90."
  },
  {
   "property": "C93",
   "status": "proved",
   "theorems": [
    "StlDice.Mr.mr_flags_iff",
    "StlDice.Mr.mrName_injective",
    "StlDice.Mr.mr_touches",
    "StlDice.Mr.mr_refused",
    "StlDice.Mr.mr_done",
    "StlDice.Mr.mr_files",
    "StlDice.Mr.mr_possible",
    "StlDice.Mr.mr_single_files"
   ],
   "note": "gleam is modelled by what it promises: each job is mapped once, each group is given to the imager once, after all jobs."
  },
  {
   "property": "C94",
   "status": "proved",
   "theorems": [
    "StlDice.Cmd.toMesh_f64",
    "StlDice.Cmd.toMesh_closed_f64",
    "StlDice.Cmd.stl_closed_f32",
    "StlDice.Cmd.voxcut_cubes_f64",
    "StlDice.Cmd.faceMesh64_mesher"
   ],
   "note": "NewVoxelMesh (library) is a parameter; faceMesh64_mesher shows that the assumption made of it can be met for all voxel sets up to 2^51."
  },
  {
   "property": "C95",
   "status": "proved",
   "theorems": [
    "StlDice.Cmd.dice_then_script_any",
    "StlDice.Cmd.dice_then_script_f64",
    "StlDice.Cmd.merged_closed_f32",
    "StlDice.Cmd.dice_job_succeeds_any",
    "StlDice.Cmd.dice_script_runs_any"
   ],
   "note": "NewVoxelMesh and the STL reader (library) are parameters as in C77/C94. Without general position the claim is false (dice_f64_loses, C87)."
  },
  {
   "property": "C96",
   "status": "proved",
   "theorems": [
    "StlDice.Flag.int_flag_iff",
    "StlDice.Flag.intText_unique",
    "StlDice.Flag.parseBool_iff",
    "StlDice.Flag.valid_iff",
    "StlDice.Flag.parse_iff",
    "StlDice.decText_iff",
    "StlDice.isNumber_iff"
   ],
   "note": "strconv and flag are library code: their loops are modelled as written in Go (base prefixes, underscoreOK, range check)."
  },
  {
   "property": "C97",
   "status": "proved",
   "theorems": [
    "StlDice.voxelize_near_surface",
    "StlDice.voxelize_covers_surface",
    "StlDice.touched_near",
    "StlDice.touched_covers",
    "StlDice.rasterLine_near",
    "StlDice.rasterLine_covers"
   ],
   "note": "Exact arithmetic; Spec/Accuracy states it with points and distances in space only."
  },
  {
   "property": "C98",
   "status": "proved",
   "theorems": [
    "StlDice.voxelize_near_solid",
    "StlDice.voxelize_fills_convex",
    "StlDice.voxelize_convex_f64",
    "StlDice.deep_filled",
    "StlDice.filled_near_solid",
    "StlDice.section_ring",
    "StlDice.Polygon.covers_left"
   ],
   "note": "The solid is the convex hull of the corners (Spec/Solid)."
  },
  {
   "property": "C99",
   "status": "proved",
   "theorems": [
    "StlDice.stored_along_row",
    "StlDice.hole_in_closed_mesh",
    "StlDice.phantom_of_closed_mesh",
    "StlDice.stored_across_rows_false",
    "StlDice.filled_step"
   ],
   "note": "Positive half for all meshes; negative half with witnesses in float64."
  },
  {
   "property": "C100",
   "status": "proved",
   "theorems": [
    "StlDice.nbmString_spec",
    "StlDice.nbmString_injective",
    "StlDice.vshVoxel_string_injective",
    "StlDice.nbmExpr_forgets",
    "StlDice.binvox_string_read",
    "StlDice.vshell_string_read",
    "StlDice.summaries_f64",
    "StlDice.Manifold.cellString_spec",
    "StlDice.Manifold.cellString_injective"
   ],
   "note": "fmt is library code: %v is replaced by the text of the argument."
  },
  {
   "property": "C101",
   "status": "proved",
   "theorems": [
    "StlDice.Net.registers_once",
    "StlDice.Net.serves_agent_iff",
    "StlDice.Net.serves_master_iff",
    "StlDice.Net.waits_for_dial"
   ],
   "note": "The network is an arbitrary environment."
  },
  {
   "property": "C102",
   "status": "proved",
   "theorems": [
    "StlDice.slice_image_f64",
    "StlDice.tiles_filled_f64",
    "StlDice.job_room",
    "StlDice.agent_shows_f64",
    "StlDice.network_svx2stl_f64",
    "StlDice.local_shows_f64",
    "StlDice.local_svx2stl_f64",
    "StlDice.local_is_network_f64"
   ],
   "note": "General position is C87; where it fails float64 can lose cells (dice_f64_loses). Libraries as in C90."
  },
  {
   "property": "C103",
   "status": "proved",
   "theorems": [
    "StlDice.voxelize_near_f64",
    "StlDice.voxelize_covers_f64",
    "StlDice.stored_along_row_f64",
    "StlDice.voxelize_near_solid_f64",
    "StlDice.touched_near_f64",
    "StlDice.touched_covers_f64"
   ],
   "note": "The bound R also has to bound the height of the region; resolutions between 2^-899 and 2^899. Example: the box on the grid lines of dice_f64_loses."
  },
  {
   "property": "C104",
   "status": "proved",
   "theorems": [
    "StlDice.voxelize_fills_convex_f64",
    "StlDice.deep_filled_f64",
    "StlDice.row_touched_f64",
    "StlDice.left_of_f64",
    "StlDice.clear_near",
    "StlDice.voxelize_near_solid_f64"
   ],
   "note": "Needs R/2^43 to be less than half a voxel side and no normal within rounding of the limits of the parity rule. Example: the box on the grid lines of dice_f64_loses."
  },
  {
   "property": "C105",
   "status": "proved",
   "theorems": [
    "StlDice.parse_help_iff",
    "StlDice.parse_error_iff",
    "StlDice.help_no_line",
    "StlDice.Cmd.stldice_usage",
    "StlDice.Cmd.merge_stl_usage",
    "StlDice.Cmd.merge_binvox_usage",
    "StlDice.Cmd.voxcut_usage",
    "StlDice.Cmd.voxcut_dice_usage",
    "StlDice.Cmd.binvox_dice_usage",
    "StlDice.Cmd.svx2stl_usage",
    "StlDice.Cmd.convert_usage",
    "StlDice.Cmd.stldice_mr_usage",
    "StlDice.Cmd.stl2svx_usage",
    "StlDice.Cmd.client_usage"
   ],
   "note": "Standard error is not modelled; the package flag is a model of the Go library, validated by reading. An exit status other than 0 is a failure."
  },
  {
   "property": "C106",
   "status": "proved",
   "theorems": [
    "StlDice.dice_convex_f64",
    "StlDice.reach_part",
    "StlDice.part_slice",
    "StlDice.part_around"
   ],
   "note": "Sizes up to 2^50 voxels per axis. Example: the job of dice_f64_loses, where two tiles meet in a face of the box and a voxel layer is lost."
  },
  {
   "property": "C107",
   "status": "proved",
   "theorems": [
    "StlDice.Marching.marching_inside"
   ],
   "note": "Exact arithmetic; positive VoxelsPerMM."
  },
  {
   "property": "C108",
   "status": "proved",
   "theorems": [
    "StlDice.Manifold.manifold_inside"
   ],
   "note": "Exact arithmetic; positive VoxelsPerMM."
  },
  {
   "property": "C109",
   "status": "proved",
   "theorems": [
    "StlDice.read64_eq",
    "StlDice.read64_whole",
    "StlDice.read64_box",
    "StlDice.vsh_read64_eq",
    "StlDice.vsh_read64_whole",
    "StlDice.write64_eq",
    "StlDice.write64_lost",
    "StlDice.vsh_write64_eq",
    "StlDice.read64_loses"
   ],
   "note": "That boxes are always read correctly is false (read64_loses)."
  },
  {
   "property": "C110",
   "status": "proved",
   "theorems": [
    "StlDice.vsh_write_schedule",
    "StlDice.vsh_write_terminates",
    "StlDice.vsh_write_progress",
    "StlDice.vsh_write_ok_no_goroutine",
    "StlDice.vsh_write_goroutine_left_iff",
    "StlDice.vsh_write_leaks"
   ],
   "note": "That no goroutine is left is false of the code (vsh_write_leaks). binvox write buffers first, so its loop always reads to the end (C12)."
  },
  {
   "property": "C111",
   "status": "proved",
   "theorems": [
    "StlDice.voxelize_ieee",
    "StlDice.voxelize_ieee_exact",
    "StlDice.voxelize_convex_ieee",
    "StlDice.layout_ieee",
    "StlDice.dice_ieee",
    "StlDice.dice_ieee_same_voxels",
    "StlDice.dice_convex_ieee"
   ],
   "note": "One NaN; int(x) as on amd64; no fused multiply-add. Integers are unbounded (the bounds keep them far below 2^63)."
  },
  {
   "property": "C112",
   "status": "proved",
   "theorems": [
    "StlDice.voxelize_not_finite"
   ],
   "note": "int(x) as on amd64, dimensions up to 2^62, integers unbounded. For Scale -Inf the code takes the resolution 1 (Scale <= 0)."
  },
  {
   "property": "C113",
   "status": "proved",
   "theorems": [
    "StlDice.IeeeT.parse_float_iff",
    "StlDice.IeeeT.fmt_float_of",
    "StlDice.IeeeT.float_text_ieee",
    "StlDice.IeeeT.binvox_roundtrip_ieee",
    "StlDice.IeeeT.mbb_ieee",
    "StlDice.IeeeT.whiteCancels_ieee",
    "StlDice.IeeeT.float_flag_iff"
   ],
   "note": "fmt and strconv are library code: modelled by their documented behaviour, and the correctly rounded result of ParseFloat is assumed. Beyond 2000 bytes the reader stops counting the exponent at 10000 (modelled, but the equivalence is not stated). One NaN."
  },
  {
   "property": "C114",
   "status": "proved",
   "theorems": [
    "StlDice.Marching.marching_ieee",
    "StlDice.Marching.marching_closed_ieee",
    "StlDice.Manifold.marching_cracks_ieee",
    "StlDice.Manifold.manifold_ieee",
    "StlDice.Manifold.manifold_moved_ieee",
    "StlDice.Manifold.manifold_closed_ieee"
   ],
   "note": "For models outside the stated range nothing is claimed."
  },
  {
   "property": "C115",
   "status": "proved",
   "theorems": [
    "StlDice.add_ieee",
    "StlDice.new_ieee",
    "StlDice.merge_ieee"
   ],
   "note": "For models outside the stated range nothing is claimed. One NaN."
  },
  {
   "property": "C116",
   "status": "proved",
   "theorems": [
    "StlDice.Cmd.dice_then_script_ieee",
    "StlDice.Cmd.toMesh_ieee"
   ],
   "note": "For jobs outside the stated range nothing is claimed."
  },
  {
   "property": "C117",
   "status": "proved",
   "theorems": [
    "StlDice.Cmd.settings_of_command",
    "StlDice.Cmd.setting_iff",
    "StlDice.Cmd.unknown_flag_refused",
    "StlDice.Cmd.bad_value_refused"
   ],
   "note": "That refused arguments write nothing and how the commands end is C105."
  },
  {
   "property": "C118",
   "status": "proved",
   "theorems": [
    "StlDice.Cmd.dice_then_merge_binvox",
    "StlDice.Cmd.exMergeDice",
    "StlDice.Cmd.dice_then_merge_torn"
   ],
   "note": "exMergeDice is a job meeting the hypotheses; dice_then_merge_torn is the violation. Over the rationals: rounding in the merge is C86 and C115."
  },
  {
   "property": "C119",
   "status": "proved",
   "theorems": [
    "StlDice.add_keeps_shell",
    "StlDice.history_keeps_shell"
   ],
   "note": "For every float arithmetic."
  },
  {
   "property": "C120",
   "status": "proved",
   "theorems": [
    "StlDice.merge_near_f64",
    "StlDice.Cmd.dice_then_merge_near_f64",
    "StlDice.Cmd.dice_then_merge_overlays_f64"
   ],
   "note": "dice_then_merge_overlays_f64 is the violation, by a job that meets all hypotheses of dice_then_merge_near_f64."
  },
  {
   "property": "C121",
   "status": "proved",
   "theorems": [
    "StlDice.pipe_progress",
    "StlDice.pipe_terminates",
    "StlDice.pipe_ends",
    "StlDice.pipe_leaves_nothing",
    "StlDice.pipe_outcomes",
    "StlDice.agent_pipe_outcomes",
    "StlDice.Local.local_pipe_outcomes",
    "StlDice.agent_pipe_image"
   ],
   "note": "A fatal file is met by the generator after the jobs of the files before it; log output is not modelled."
  },
  {
   "property": "C122",
   "status": "proved",
   "theorems": [
    "StlDice.Net.master_ends_iff",
    "StlDice.Net.master_accepts_iff",
    "StlDice.Net.agent_ends_iff",
    "StlDice.Net.agent_call_defined",
    "StlDice.Net.wire_agent",
    "StlDice.Net.wire_newJob",
    "StlDice.Net.failed_calls_cost_agents",
    "StlDice.Net.bad_file_ends_agents",
    "StlDice.Net.bad_job_costs_agents",
    "StlDice.Net.bad_job_needs_agents",
    "StlDice.Net.bad_job_starves_others",
    "StlDice.Net.bad_job_reply",
    "StlDice.Net.bad_job_takes_service"
   ],
   "note": "That the service survives a bad job is false of the code. Running out of memory and limits of grpc are not modelled."
  },
  {
   "property": "C123",
   "status": "proved",
   "theorems": [
    "StlDice.Cmd.cut_tile_holds",
    "StlDice.Cmd.cut_dice_tiles_hold",
    "StlDice.Cmd.cut_dice_merge_stacks",
    "StlDice.Cmd.cut_dice_merge_file",
    "StlDice.Cmd.cut_dice_merge_displaced",
    "StlDice.Cmd.noDistance_rat",
    "StlDice.Cmd.noDistance_f64"
   ],
   "note": "A defect: binvox Write keeps the translation of the whole model for every region, so the pieces carry no place."
  },
  {
   "property": "C124",
   "status": "proved",
   "theorems": [
    "StlDice.add_empty_iff",
    "StlDice.merge_empty_later",
    "StlDice.merge_empty_first",
    "StlDice.merge_empty_first_fails",
    "StlDice.cut_tile_empty"
   ],
   "note": "A defect: the resolution of an empty model is 0, and the scale is adjusted by a quotient with it."
  },
  {
   "property": "C125",
   "status": "proved",
   "theorems": [
    "StlDice.Cmd.cut_dice_zero_size",
    "StlDice.Cmd.cut_dice_negative_size",
    "StlDice.Cmd.cut_dice_overflow",
    "StlDice.Cmd.cut_dice_negative_dry",
    "StlDice.Cmd.tile_refused"
   ],
   "note": "That a negative size is refused is false of the code in a dry run (cut_dice_negative_dry)."
  },
  {
   "property": "C126",
   "status": "proved",
   "theorems": [
    "StlDice.dice_killed",
    "StlDice.dice_after_kills",
    "StlDice.dice_killed_voxels",
    "StlDice.run_is_moment",
    "StlDice.dice_kill_possible"
   ],
   "note": "dice_killed_voxels is in exact arithmetic; the others for any arithmetic. A file receives its bytes in order (no power failure losing buffers); os.Stat fails only for missing files."
  },
  {
   "property": "C127",
   "status": "proved",
   "theorems": [
    "StlDice.Cmd.script_run_again",
    "StlDice.Cmd.script_killed_keeps",
    "StlDice.Cmd.script_torn"
   ],
   "note": "Kills end the running command: what it wrote is a prefix of the file (no power failure, no partial page write). bash is modelled for plain file names, as in C78."
  },
  {
   "property": "C128",
   "status": "proved",
   "theorems": [
    "StlDice.Cmd.script_any_directory",
    "StlDice.Cmd.script_takes_strangers",
    "StlDice.Cmd.script_runs_iff",
    "StlDice.Cmd.tiles_fit_iff",
    "StlDice.Cmd.merged_fits_iff",
    "StlDice.Cmd.nz_begins_iff"
   ],
   "note": "C78 is the case of a directory without such files; its hypothesis freshStl is what this property shows to be needed. bash and filepath.Glob are modelled for plain names."
  },
  {
   "property": "C129",
   "status": "proved",
   "theorems": [
    "StlDice.Cmd.voxcut_run_again",
    "StlDice.Cmd.voxcut_tries_others",
    "StlDice.Cmd.voxcut_torn",
    "StlDice.Cmd.voxcut_killed_in_place",
    "StlDice.Cmd.cut_dice_run_again",
    "StlDice.Cmd.cut_dice_tries_others",
    "StlDice.Cmd.convert_run_again",
    "StlDice.Cmd.convert_tries_others",
    "StlDice.Cmd.manifold_mesh_run_again",
    "StlDice.Cmd.marching_cubes_run_again"
   ],
   "note": "For voxcut-dice the job is as it is meant (CutJob, as in C79): readable files, sizes in range, no output one of the files. Kills leave a prefix of a file (no power failure); a voxcut that outlives its killed voxcut-dice has ended before the next start."
  },
  {
   "property": "C130",
   "status": "proved",
   "theorems": [
    "StlDice.Cmd.merge_stl_tries_others",
    "StlDice.Cmd.merge_stl_unforced",
    "StlDice.Cmd.merge_stl_stuck",
    "StlDice.Cmd.merge_stl_run_again",
    "StlDice.Cmd.merge_binvox_tries_others",
    "StlDice.Cmd.merge_binvox_run_again"
   ],
   "note": "The flags are those of a command line that is understood. A kill leaves a prefix of the output (no power failure). SaveSTL of the STL library writes its file from the front."
  },
  {
   "property": "C131",
   "status": "proved",
   "theorems": [
    "StlDice.Slave.server_args_ignored",
    "StlDice.Slave.server_address",
    "StlDice.Slave.one_server_per_host",
    "StlDice.Slave.second_server_fails",
    "StlDice.Slave.server_starts_iff",
    "StlDice.Slave.master_replies_empty",
    "StlDice.Slave.master_forgets"
   ],
   "note": "Addresses conflict if they are the same text; net.Listen fails for no other reason. What a slave does with requests is C53."
  },
  {
   "property": "C132",
   "status": "proved",
   "theorems": [
    "StlDice.Cmd.svx2stl_tries_others",
    "StlDice.Cmd.svx2stl_run_again",
    "StlDice.Cmd.svx2stl_killed_in_place",
    "StlDice.Local.local_tries_others",
    "StlDice.Local.stl2svx_run_again",
    "StlDice.Mr.mr_tries_others",
    "StlDice.Mr.mr_run_again"
   ],
   "note": "A kill leaves a prefix of the output of svx2stl (no power failure). stldice-mr in standalone mode: its mappers and its imager end with it."
  },
  {
   "property": "C133",
   "status": "proved",
   "theorems": [
    "StlDice.Cmd.binvox_killed",
    "StlDice.Cmd.binvox_kill_again",
    "StlDice.Cmd.binvox_run_old"
   ],
   "note": "The external program binvox is a parameter as in C82; killed while it writes it leaves a beginning of its file (no power failure)."
  },
  {
   "property": "C134",
   "status": "proved",
   "theorems": [
    "StlDice.Net.abandoned_costs_agents",
    "StlDice.Net.abandoned_needs_agents",
    "StlDice.Net.abandoned_starves_others",
    "StlDice.Net.abandoned_takes_all",
    "StlDice.Net.client_gone_takes_service"
   ],
   "note": "Assumed of gRPC: when the client of a unary call is gone the context of its handler is cancelled, and a call made with a cancelled context fails. That the service survives interrupted clients is false of the code."
  },
  {
   "property": "C135",
   "status": "proved",
   "theorems": [
    "StlDice.Net.restarted_master_waits",
    "StlDice.Net.launched_agent_registers",
    "StlDice.Net.restart_strands_agents"
   ],
   "note": "The system is the product of the master's transition system (C08 and later) and any number of agent processes, each a copy of the server program of C101 with its own environment. gRPC is the environment: a registration that succeeds is one step of both. Killing an agent is not noticed by the master, as in the code; calls outstanding when the master dies have failed. restart_strands_agents gives a concrete history with one registered agent, a restart, a job of two slices that waits for ever without a new agent, and begins when one is started."
  },
  {
   "property": "C136",
   "status": "proved",
   "theorems": [
    "StlDice.Net.dead_agent_costs_one",
    "StlDice.Net.dead_agent_slice_missing",
    "StlDice.Net.dead_agent_taken"
   ],
   "note": "The death of an agent is a restriction of the master's transition system: its address does not register and no call to it succeeds. That a call to a dead process fails, rather than hangs, is assumed of gRPC only when the call is completed; the theorem says nothing about when. The names of the images are those of the archive, so that no file of that name can stand in for the lost slice."
  },
  {
   "property": "C137",
   "status": "proved",
   "theorems": [
    "StlDice.Net.network_gaps",
    "StlDice.Net.gaps_possible",
    "StlDice.Net.every_gap_happens"
   ],
   "note": "The libraries as in C90 (Faithful; faithful_exists shows that such exist). The box of a mesh is assumed to have positive width. Which slices are lost: those of which a call failed, by C44. exGap is a run in which the lower of two layers is lost."
  }
 ]
}