{
 "claims": [
  {
   "property": "C01",
   "status": "proved",
   "theorems": [
    "Spectre.Array2D.C01_array2d_matrix",
    "Spectre.Array2D.C01_array2d_from_values",
    "Spectre.Array2D.C01_array2d_zero_out",
    "Spectre.Array2D.C01_array2d_copy"
   ],
   "note": "Exact 32-bit address arithmetic; every sequence of writes; sides 0..32768."
  },
  {
   "property": "C02",
   "status": "partial",
   "theorems": [
    "Spectre.Array2D.C02_not_all_sides",
    "Spectre.Array2D.C02_zero_out_wraps",
    "Spectre.Array2D.C02_sides_partial"
   ],
   "note": "Violated by the code: side 65536 gives a negative address; negation proved with witness, partial theorem for sides up to 32768."
  },
  {
   "property": "C03",
   "status": "proved",
   "theorems": [
    "Spectre.Well.C03_step_bijective",
    "Spectre.Well.C03_orbits_never_merge",
    "Spectre.Well.C03_no_tail"
   ],
   "note": ""
  },
  {
   "property": "C04",
   "status": "proved",
   "theorems": [
    "Spectre.Well.C04_zero_seed",
    "Spectre.Well.C04_never_dies",
    "Spectre.Well.C04_nonzero_in_32",
    "Spectre.Well.C04_sharp"
   ],
   "note": "A non-zero word at least once in 32 draws, by elimination on the 1024x1024 matrix of the first 32 draws (checked by the kernel)."
  },
  {
   "property": "C05",
   "status": "proved",
   "theorems": [
    "Spectre.Well.C05_range",
    "Spectre.Well.C05_one_iff",
    "Spectre.Well.C05_zero_iff"
   ],
   "note": "binary32 conversion modelled exactly."
  },
  {
   "property": "C06",
   "status": "proved",
   "theorems": [
    "Spectre.Tiles.C06_tiles_partition",
    "Spectre.Tiles.C06_bad_width",
    "Spectre.Tiles.C06_tiles_nonempty"
   ],
   "note": ""
  },
  {
   "property": "C07",
   "status": "proved",
   "theorems": [
    "Spectre.Sampler.C07_random",
    "Spectre.Sampler.C07_stratified",
    "Spectre.Sampler.C07_empty_window_never_stops"
   ],
   "note": "With binary32 rounding."
  },
  {
   "property": "C08",
   "status": "proved",
   "theorems": [
    "Spectre.Sampler.C08_one_sample_per_stratum",
    "Spectre.Sampler.C08_float_strata",
    "Spectre.Sampler.C08_non_square_stale"
   ],
   "note": "Exactly one sample per cell in exact arithmetic; binary32 version with rounded cell borders."
  },
  {
   "property": "C09",
   "status": "proved",
   "theorems": [
    "Spectre.Film.C09_no_loss",
    "Spectre.Film.C09_running_total",
    "Spectre.Film.C09_no_deadlock",
    "Spectre.Film.C09_terminates",
    "Spectre.Film.C09_completes"
   ],
   "note": "Transition system of n workers over job queue, film mutex and deferred stacks. When all workers have returned the film is the sum of all contributions, the stacks and the queue are empty and every tile was rendered once; no schedule is infinite and none deadlocks. Pixel additions are atomic steps (C10 says when that is not justified)."
  },
  {
   "property": "C10",
   "status": "partial",
   "theorems": [
    "Spectre.Film.C10_border_partial",
    "Spectre.Film.C10_violated",
    "Spectre.Film.C10_violated_drain"
   ],
   "note": "Violated by the code: the secure area includes the column endx and the row endy of the next tile (unlocked/unlocked race), and the drain under the mutex races with the unlocked additions of the tile owning the pixel. Both shown by reachable states. Proved for all images, filters and schedules: no two drains at once, and unlocked/unlocked collisions only on those border pixels."
  },
  {
   "property": "C11",
   "status": "partial",
   "theorems": [
    "Spectre.Film.C11_updated_iff",
    "Spectre.Film.C11_support_partial",
    "Spectre.Film.C11_violated",
    "Spectre.Film.C11_box_sample_lost",
    "Spectre.Film.C11_tent_weight_lost"
   ],
   "note": "Violated by the code: the upper limit floor(centre+range) is excluded from the loop. Exact characterisation proved: the updated pixels are those in the support except that last column and row; weights are right."
  },
  {
   "property": "C12",
   "status": "proved",
   "theorems": [
    "Spectre.KdNode.C12_internal_round_trip",
    "Spectre.KdNode.C12_leaf_round_trip",
    "Spectre.KdNode.C12_injective",
    "Spectre.KdNode.C12_bound_sharp"
   ],
   "note": ""
  },
  {
   "property": "C13",
   "status": "proved",
   "theorems": [
    "Spectre.KdTree.C13_every_asset_reachable",
    "Spectre.KdTree.C13_no_foreign_asset",
    "Spectre.KdTree.C13_child_buffers",
    "Spectre.KdTree.C13_sah_split_inside",
    "Spectre.KdTree.C13_flatten_repr",
    "Spectre.KdTree.C13_flat_asset_lost"
   ],
   "note": "Any sort, any split choice; the precondition (boxes with extent) is shown necessary by a witness."
  },
  {
   "property": "C14",
   "status": "partial",
   "theorems": [
    "Spectre.KdTree.C14_closest_hit_partial",
    "Spectre.KdTree.C14_violated_face_plane"
   ],
   "note": "Exact arithmetic. All rays except those lying in the plane of a box face, for which a missed hit is proved."
  },
  {
   "property": "C15",
   "status": "proved",
   "theorems": [
    "Spectre.KdTree.C15_stack_never_overflows",
    "Spectre.KdTree.C15_height_bound"
   ],
   "note": "All rays including degenerate ones, all asset behaviours."
  },
  {
   "property": "C16",
   "status": "partial",
   "theorems": [
    "Spectre.KdTree.C16_violated",
    "Spectre.KdTree.C16_safe_iff",
    "Spectre.KdTree.C16_within_limit_partial"
   ],
   "note": "Violated: asset number 4097 is written out of bounds; exact safety boundary proved."
  },
  {
   "property": "C17",
   "status": "partial",
   "theorems": [
    "Spectre.KdTree.C17_violated",
    "Spectre.KdTree.C17_first_build_partial"
   ],
   "note": "Violated: a second build appends its nodes after the first tree; first build proved."
  },
  {
   "property": "C18",
   "status": "proved",
   "theorems": [
    "Spectre.Morton.C18_interleave",
    "Spectre.Morton.C18_injective",
    "Spectre.Morton.C18_pdep_agrees",
    "Spectre.Morton.C18_top_bit",
    "Spectre.Morton.C18_grid_range",
    "Spectre.Morton.C18_flat_mesh_undefined"
   ],
   "note": "Includes the binary32 range of the grid coordinates; planar meshes hit an undefined float to integer conversion."
  },
  {
   "property": "C19",
   "status": "proved",
   "theorems": [
    "Spectre.Bvh.C19_build_partitions",
    "Spectre.Bvh.C19_bisect_boundary"
   ],
   "note": "Any Morton codes, any admissible box algebra (instance for the real boxes: vAlg_ok)."
  },
  {
   "property": "C20",
   "status": "proved",
   "theorems": [
    "Spectre.Bvh.C20_find_best",
    "Spectre.Bvh.C20_combine_cluster",
    "Spectre.Bvh.C20_round_merges_closest_pair"
   ],
   "note": "Includes the incremental update of the closest-pair table."
  },
  {
   "property": "C21",
   "status": "proved",
   "theorems": [
    "Spectre.Bvh.C21_flatten_repr",
    "Spectre.Bvh.C21_terminates",
    "Spectre.Bvh.C21_equals_brute_force",
    "Spectre.Bvh.C21_mesh_closest_hit"
   ],
   "note": "Whenever the traversal does not overflow its stack (C22); also end to end with the real box test."
  },
  {
   "property": "C22",
   "status": "partial",
   "theorems": [
    "Spectre.Bvh.C22_violated",
    "Spectre.Bvh.C22_height_partial",
    "Spectre.Bvh.C22_small_mesh_partial"
   ],
   "note": "Violated: for every legal sort there is a 560-triangle mesh overflowing the stack; safe for height at most 32."
  },
  {
   "property": "C23",
   "status": "partial",
   "theorems": [
    "Spectre.Bvh.C23_violated",
    "Spectre.Bvh.C23_unmoved_partial"
   ],
   "note": "Violated: triangles are reordered, their material indices are not."
  },
  {
   "property": "C24",
   "status": "proved",
   "theorems": [
    "Spectre.AABB.C24_inside_iff",
    "Spectre.AABB.C24_engulf_contains",
    "Spectre.AABB.C24_engulf_least",
    "Spectre.AABB.C24_engulf_point",
    "Spectre.AABB.C24_comm",
    "Spectre.AABB.C24_assoc",
    "Spectre.AABB.C24_idem",
    "Spectre.AABB.C24_empty_left",
    "Spectre.AABB.C24_order_independent",
    "Spectre.AABB.C24_fold_contains",
    "Spectre.AABB.C24_surface_mono",
    "Spectre.AABB.C24_longest_axis",
    "Spectre.AABB.C24_eqOp_not_equality"
   ],
   "note": "Any linear order with end points (extended numbers)."
  },
  {
   "property": "C25",
   "status": "proved",
   "theorems": [
    "Spectre.AABB.C25_interval_exact",
    "Spectre.AABB.C25_reject_sound",
    "Spectre.AABB.C25_accepts_iff",
    "Spectre.AABB.C25_overloads_agree",
    "Spectre.AABB.C25_behind_accepted",
    "Spectre.AABB.C25_general_direction",
    "Spectre.AABB.C25_models_agree",
    "Spectre.AABB.C25_face_plane_nan"
   ],
   "note": "Exact arithmetic over any ordered field; extended to zero direction components with IEEE infinities."
  },
  {
   "property": "C26",
   "status": "proved",
   "theorems": [
    "Spectre.Geom.C26_det",
    "Spectre.Geom.C26_success_iff",
    "Spectre.Geom.C26_two_sided",
    "Spectre.Geom.C26_transpose",
    "Spectre.Geom.C26_is_matrix_inverse",
    "Spectre.Geom.C26_inverse_affine",
    "Spectre.Geom.C26_round_trip",
    "Spectre.Geom.C26_normal_orthogonal",
    "Spectre.Geom.C26_small_scale_rejected"
   ],
   "note": "Exact arithmetic; against Mathlib det and inverse. Also the limit of the tolerance: scale 1/50 is rejected."
  },
  {
   "property": "C27",
   "status": "proved",
   "theorems": [
    "Spectre.Geom.C27_corners_contain",
    "Spectre.Geom.C27_sphere",
    "Spectre.Geom.C27_box",
    "Spectre.Geom.C27_triangle",
    "Spectre.Geom.C27_mesh"
   ],
   "note": "All affine transforms, exact arithmetic."
  },
  {
   "property": "C28",
   "status": "proved",
   "theorems": [
    "Spectre.Geom.C28_exact",
    "Spectre.Geom.C28_miss",
    "Spectre.Geom.C28_unique"
   ],
   "note": "If and only if, with mask and distance range, exact arithmetic."
  },
  {
   "property": "C29",
   "status": "partial",
   "theorems": [
    "Spectre.Shapes.C29_triangle",
    "Spectre.Shapes.C29_box",
    "Spectre.Shapes.C29_sphere_violated",
    "Spectre.Shapes.C29_sphere_partial",
    "Spectre.Shapes.C29_sphere_unmasked_partial",
    "Spectre.Shapes.C29_sphere_on_surface"
   ],
   "note": "Violated by spheres when the mask hides the entry point: the exit point is not compared with the current distance. Holds for triangles and boxes, and for spheres otherwise."
  },
  {
   "property": "C30",
   "status": "partial",
   "theorems": [
    "Spectre.Shapes.C30_violated",
    "Spectre.Shapes.C30_choice_partial",
    "Spectre.Shapes.C30_penultimate_lost",
    "Spectre.Shapes.C30_hang",
    "Spectre.Shapes.C30_single_out_of_bounds",
    "Spectre.Shapes.C30_point_in_triangle"
   ],
   "note": "Violated: the binary search returns the triangle before the right one; the last but one triangle is lost; the search does not end if the last triangle is degenerate and the number is one; one triangle and the number one reads out of bounds. Exact characterisation proved."
  },
  {
   "property": "C31",
   "status": "proved",
   "theorems": [
    "Spectre.Shapes.C31_densities",
    "Spectre.Shapes.C31_surface",
    "Spectre.Shapes.C31_face",
    "Spectre.Shapes.C31_covers",
    "Spectre.Shapes.C31_one"
   ],
   "note": "Exact arithmetic, positive scales."
  },
  {
   "property": "C32",
   "status": "partial",
   "theorems": [
    "Spectre.Bsdf.C32_violated",
    "Spectre.Bsdf.C32_violated_index",
    "Spectre.Bsdf.C32_same_texture_partial",
    "Spectre.Bsdf.C32_same_texture_spec_partial",
    "Spectre.Bsdf.C32_single_layer_partial",
    "Spectre.Bsdf.C32_single_brdf"
   ],
   "note": "Violated: sample_value multiplies the whole sum by the texture of the chosen layer (indexed by position among the matching layers), value() uses the texture of each layer. Holds if all layers share one texture, and for single layers."
  },
  {
   "property": "C33",
   "status": "partial",
   "theorems": [
    "Spectre.Bsdf.C33_violated_add",
    "Spectre.Bsdf.C33_violated_empty",
    "Spectre.Bsdf.C33_partial",
    "Spectre.Bsdf.C33_empty_nospec_partial"
   ],
   "note": "Violated: adding a sixth layer writes out of the arrays; sampling an empty material with specular allowed reads element -1. Safe for 1 to 5 layers and all random numbers in [0,1]."
  },
  {
   "property": "C34",
   "status": "partial",
   "theorems": [
    "Spectre.Integrator.C34_expected_value",
    "Spectre.Integrator.C34_violated",
    "Spectre.Integrator.C34_weight",
    "Spectre.Integrator.C34_short_paths_partial",
    "Spectre.Integrator.C34_factor"
   ],
   "note": "Violated: the survivors are multiplied by the termination probability instead of being divided by the survival probability. The exact expectation is computed; every weight w with (1-t)w(t)=1 is shown to be unbiased; paths of up to five vertices are not affected."
  },
  {
   "property": "C35",
   "status": "partial",
   "theorems": [
    "Spectre.Integrator.C35_in_range",
    "Spectre.Integrator.C35_uniform",
    "Spectre.Integrator.C35_expected",
    "Spectre.Integrator.C35_violated",
    "Spectre.Integrator.C35_iff_partial"
   ],
   "note": "Violated: the mean instead of the sum of the contributions is estimated; right exactly for at most one light or a zero sum."
  },
  {
   "property": "C36",
   "status": "partial",
   "theorems": [
    "Spectre.Integrator.C36_violated_always",
    "Spectre.Integrator.C36_violated",
    "Spectre.Integrator.C36_indirect_partial"
   ],
   "note": "Violated: l_rec and direct_l both add the emission. Every non-zero emission seen directly is counted twice."
  },
  {
   "property": "C37",
   "status": "proved",
   "theorems": [
    "Spectre.Integrator.C37_cache_transparent",
    "Spectre.Integrator.C37_history_independent"
   ],
   "note": "All scenes and histories of rays with fewer than DEFAULT_BOUNCES bounces (the other ones would read out of the cache)."
  },
  {
   "property": "C38",
   "status": "proved",
   "theorems": [
    "Spectre.Bmp.C38_round_trip"
   ],
   "note": "All sizes whose file size fits an int, non-zero height (see C67 for zero)."
  },
  {
   "property": "C39",
   "status": "partial",
   "theorems": [
    "Spectre.Bmp.C39_iff",
    "Spectre.Bmp.C39_rows_iff",
    "Spectre.Bmp.C39_violated",
    "Spectre.Bmp.C39_even_partial",
    "Spectre.Bmp.C39_reader_violated"
   ],
   "note": "Violated: rows are padded to a multiple of 4 only for even widths. Exact characterisation proved; the reader has the same error."
  },
  {
   "property": "C40",
   "status": "partial",
   "theorems": [
    "Spectre.Tga.C40_partial",
    "Spectre.Tga.C40_violated",
    "Spectre.Tga.C40_wide_truncated"
   ],
   "note": "Violated for images whose pixel count overflows an int and for sides above 65535. Proved for all others."
  },
  {
   "property": "C41",
   "status": "partial",
   "theorems": [
    "Spectre.Tga.C41_decodes_partial",
    "Spectre.Tga.C41_violated",
    "Spectre.Tga.C41_in_bounds_partial",
    "Spectre.Tga.C41_bounds_iff",
    "Spectre.Tga.C41_violated_bounds",
    "Spectre.Tga.C41_violated_overflow"
   ],
   "note": "Violated: raw packets of more than one pixel are misread, and overlong runs at the end of narrow images are written out of the buffer; the exact set of sizes where this is possible is proved. Files of run packets and single raw pixels are decoded right."
  },
  {
   "property": "C42",
   "status": "proved",
   "theorems": [
    "Spectre.Ppm.C42_round_trip"
   ],
   "note": "All sizes whose file size fits an int; binary32 arithmetic of the reader included."
  },
  {
   "property": "C43",
   "status": "partial",
   "theorems": [
    "Spectre.Ppm.C43_violated",
    "Spectre.Ppm.C43_binary_always_undefined",
    "Spectre.Ppm.C43_clamped_always_one",
    "Spectre.Ppm.C43_at_maximum_partial"
   ],
   "note": "Violated by every sample above the maximum: undefined conversion (one byte per sample) or the value 1 (operator precedence in CLAMP). The maximum itself is read as 255."
  },
  {
   "property": "C44",
   "status": "proved",
   "theorems": [
    "Spectre.Img.C44_rgb_round_trip",
    "Spectre.Img.C44_bgra_round_trip",
    "Spectre.Img.C44_partial_pixel",
    "Spectre.Img.C44_swap32_bytes",
    "Spectre.Img.C44_swap16_bytes",
    "Spectre.Img.C44_swap32_involutive",
    "Spectre.Img.C44_swap16_involutive",
    "Spectre.Img.C44_big32",
    "Spectre.Img.C44_big16_violated",
    "Spectre.Img.C44_big16_iff"
   ],
   "note": "Conversions and swap_endianness. The macro ENDIANNESS_BIG16 of the C readers loses a byte; shown separately."
  },
  {
   "property": "C45",
   "status": "proved",
   "theorems": [
    "Spectre.Tex.C45_levels",
    "Spectre.Tex.C45_mean",
    "Spectre.Tex.C45_block",
    "Spectre.Tex.C45_uniform",
    "Spectre.Tex.C45_arrays"
   ],
   "note": "All sides 2^k with k up to 15 (the constructor takes a 16-bit side)."
  },
  {
   "property": "C46",
   "status": "partial",
   "theorems": [
    "Spectre.Tex.C46_unfiltered",
    "Spectre.Tex.C46_bilinear",
    "Spectre.Tex.C46_trilinear_level_iff",
    "Spectre.Tex.C46_trilinear_iff",
    "Spectre.Tex.C46_violated",
    "Spectre.Tex.C46_trilinear_partial",
    "Spectre.Tex.C46_ewa_last_level",
    "Spectre.Tex.C46_ewa_one_texel",
    "Spectre.Tex.C46_ewa_indefinite",
    "Spectre.Tex.C46_ewa_negative_texel",
    "Spectre.Tex.C46_ewa_nan",
    "Spectre.Tex.C46_ewa_level",
    "Spectre.Tex.C46_ewa_partial"
   ],
   "note": "Violated: trilinear lookups leave the pyramid exactly for a footprint of one; EWA lookups leave it at the last level, read negative texels for large ellipses and convert NaN for indefinite ones. Unfiltered and bilinear lookups are always safe."
  },
  {
   "property": "C47",
   "status": "partial",
   "theorems": [
    "Spectre.Tex.C47_iff",
    "Spectre.Tex.C47_violated",
    "Spectre.Tex.C47_wrap_partial",
    "Spectre.Tex.C47_negative_lookup"
   ],
   "note": "Violated exactly by negative coordinates, which then read outside of the texture."
  },
  {
   "property": "C48",
   "status": "partial",
   "theorems": [
    "Spectre.Path.C48_absolute_partial",
    "Spectre.Path.C48_append_partial",
    "Spectre.Path.C48_violated",
    "Spectre.Path.C48_root_violated",
    "Spectre.Path.C48_relative_violated",
    "Spectre.Path.C48_short_name"
   ],
   "note": "Violated by names of one character before \"..\", by paths that resolve to the root, by bases that are the root, and by \".\" or \"..\" alone. Proved for all other paths."
  },
  {
   "property": "C49",
   "status": "partial",
   "theorems": [
    "Spectre.Path.C49_absolute",
    "Spectre.Path.C49_name_partial",
    "Spectre.Path.C49_top",
    "Spectre.Path.C49_violated",
    "Spectre.Path.mkObj_denotes"
   ],
   "note": "The string is right for every path; the name is right except on the second level, where it is stale and the next get_parent reads out of the allocation."
  },
  {
   "property": "C50",
   "status": "partial",
   "theorems": [
    "Spectre.Path.C50_children_partial",
    "Spectre.Path.C50_violated",
    "Spectre.Path.C50_objects_partial"
   ],
   "note": "Violated by every scene with two relative children, or with one relative child and a relative mesh: current_dir is changed. Proved when no relative child comes before."
  },
  {
   "property": "C51",
   "status": "partial",
   "theorems": [
    "Spectre.Config.C51_kept",
    "Spectre.Config.C51_near_partial",
    "Spectre.Config.C51_distance_partial",
    "Spectre.Config.C51_square",
    "Spectre.Config.C51_violated",
    "Spectre.Config.C51_overflow_iff",
    "Spectre.Config.toF32_eq_fl"
   ],
   "note": "Squares are kept for every int. Proved up to 2^24 with the rounding of (float), sqrtf and the addition; violated above (16781311) and overflowing exactly from 2147441729 on."
  },
  {
   "property": "C52",
   "status": "partial",
   "theorems": [
    "Spectre.Config.C52_partial",
    "Spectre.Config.C52_defined_partial",
    "Spectre.Config.C52_violated"
   ],
   "note": "Violated by width 0; undefined for the greatest widths and very high narrow images. Proved whenever the computation is defined, and defined for both sides up to 2^24 (binary32 division included)."
  },
  {
   "property": "C53",
   "status": "proved",
   "theorems": [
    "Spectre.Lib.C53_library",
    "Spectre.Lib.C53_no_dangling"
   ],
   "note": "All sequences of calls. A material added under a taken name is leaked."
  },
  {
   "property": "C54",
   "status": "partial",
   "theorems": [
    "Spectre.Lib.C54_ownership_partial",
    "Spectre.Lib.C54_violated",
    "Spectre.Lib.C54_dangling_map",
    "Spectre.Lib.C54_maps_partial"
   ],
   "note": "Violated: an object inherited under a taken name is leaked, and erasing a map leaves textures dangling. No double free and no dangling lookup for any sequence of calls; exact ownership when no name is reused."
  },
  {
   "property": "C55",
   "status": "partial",
   "theorems": [
    "Spectre.Lib.C55_lights",
    "Spectre.Lib.C55_once_partial",
    "Spectre.Lib.C55_violated",
    "Spectre.Lib.C55_dropped"
   ],
   "note": "Violated by inheriting an asset twice: it is twice in the kd-tree. The limits on lights hold for all sequences."
  },
  {
   "property": "C56",
   "status": "proved",
   "theorems": [
    "Spectre.Obj.C56_token_spec",
    "Spectre.Obj.C56_tokens",
    "Spectre.Obj.C56_file"
   ],
   "note": "For every chunk size the whole reading of a file (meshes, names, materials, faults) is the same, and a token is characterised by the remaining bytes alone. Files containing the sentinel byte 7 are outside of the statement."
  },
  {
   "property": "C57",
   "status": "partial",
   "theorems": [
    "Spectre.Obj.C57_partial",
    "Spectre.Obj.C57_no_fuel",
    "Spectre.Obj.C57_violated"
   ],
   "note": "Holds for files ending with a line end. Violated otherwise: any last line without line end makes the reader spin forever."
  },
  {
   "property": "C58",
   "status": "partial",
   "theorems": [
    "Spectre.Obj.C58_fetch",
    "Spectre.Obj.C58_in_range",
    "Spectre.Obj.C58_corner_partial",
    "Spectre.Obj.C58_violated",
    "Spectre.Obj.C58_violated_wrap"
   ],
   "note": "Indices in range designate the right element and nothing outside is read. Violated: index 0 is not reported, an index below -size ends the program by an uncaught exception, indices beyond the range of int wrap."
  },
  {
   "property": "C59",
   "status": "proved",
   "theorems": [
    "Spectre.Obj.C59_fan",
    "Spectre.Obj.C59_count",
    "Spectre.Obj.C59_boundary",
    "Spectre.Obj.C59_line",
    "Spectre.Obj.C59_violated_short"
   ],
   "note": "n-2 triangles, every corner used, signed boundary equal to the polygon boundary for every n>=3. (Outside of the statement: two corners without normals are undefined behaviour, C59_violated_short.)"
  },
  {
   "property": "C60",
   "status": "partial",
   "theorems": [
    "Spectre.Obj.C60_compact",
    "Spectre.Obj.C60_faithful",
    "Spectre.Obj.C60_reachable",
    "Spectre.Obj.C60_violated",
    "Spectre.Obj.C60_violated_reset"
   ],
   "note": "Proved for at most 255 used materials within one mesh (with 256 it fails, C60_violated). Violated across objects: the current material is reset at every object although the format keeps it."
  },
  {
   "property": "C61",
   "status": "proved",
   "theorems": [
    "Spectre.Config.C61_format"
   ],
   "note": "All unsigned durations."
  },
  {
   "property": "C62",
   "status": "partial",
   "theorems": [
    "Spectre.Config.C62_lattice",
    "Spectre.Config.C62_clamp",
    "Spectre.Config.C62_lerp",
    "Spectre.Config.C62_lerp_range",
    "Spectre.Config.C62_equation1",
    "Spectre.Config.C62_equation2_partial",
    "Spectre.Config.C62_equation2_violated"
   ],
   "note": "Exact arithmetic. Violated by equation2 exactly for discriminants in [-1e-4,0), where a root is invented."
  },
  {
   "property": "C63",
   "status": "partial",
   "theorems": [
    "Spectre.Asset.C63_world_space_partial",
    "Spectre.Asset.C63_normal",
    "Spectre.Asset.C63_violated",
    "Spectre.Asset.C63_triangle",
    "Spectre.Asset.C63_box_hit"
   ],
   "note": "Violated for invertible transforms with determinant below 1e-5 (scale 1/50): the failure of inverse is ignored and an unwritten matrix is read. Proved for all others."
  },
  {
   "property": "C64",
   "status": "partial",
   "theorems": [
    "Spectre.Shapes.C64_violated",
    "Spectre.Shapes.C64_hit_partial",
    "Spectre.Shapes.C64_miss"
   ],
   "note": "Violated for rays from inside: normal of the wrong axis. Distances right for all rays; normals right from outside."
  },
  {
   "property": "C65",
   "status": "proved",
   "theorems": [
    "Spectre.Asset.C65_tangents"
   ],
   "note": "Exact arithmetic; if and only if."
  },
  {
   "property": "C66",
   "status": "proved",
   "theorems": [
    "Spectre.Bsdf.C66_pdf"
   ],
   "note": "Components that are specular or on the other side report density zero."
  },
  {
   "property": "C67",
   "status": "partial",
   "theorems": [
    "Spectre.Bmp.C67_decodes",
    "Spectre.Bmp.C67_stride",
    "Spectre.Bmp.C67_safe_partial",
    "Spectre.Bmp.C67_zero_height"
   ],
   "note": "Violated for a zero height (division by zero). Proved for all other files without int overflow."
  },
  {
   "property": "C68",
   "status": "partial",
   "theorems": [
    "Spectre.Ppm.C68_sample8",
    "Spectre.Ppm.C68_sampleText",
    "Spectre.Ppm.C68_sampleText_wide",
    "Spectre.Ppm.C68_deep_maximum",
    "Spectre.Ppm.C68_violated_deep",
    "Spectre.Ppm.C68_binary_partial",
    "Spectre.Ppm.C68_text_partial",
    "Spectre.Ppm.C68_violated_comment"
   ],
   "note": "Violated by 16-bit binary files (low byte dropped) and by header comments (uninitialised variables). Exact with binary32 arithmetic for one byte per sample and for text files with maxima up to 32767; at most one too high above."
  },
  {
   "property": "C69",
   "status": "proved",
   "theorems": [
    "Spectre.Ppm.C69_in_bounds"
   ],
   "note": "All byte strings."
  },
  {
   "property": "C70",
   "status": "partial",
   "theorems": [
    "Spectre.Tex.C70_centre",
    "Spectre.Tex.C70_repeated_partial",
    "Spectre.Tex.C70_seam_violated"
   ],
   "note": "Violated on the first half texel; proved elsewhere."
  },
  {
   "property": "C71",
   "status": "partial",
   "theorems": [
    "Spectre.Tex.C71_bilinear",
    "Spectre.Tex.C71_trilinear_partial",
    "Spectre.Tex.C71_violated"
   ],
   "note": "Bilinear and unfiltered exact; the blend of two levels loses up to one unit, e.g. white becomes 254. EWA lookups not covered except by the bounds of C46_ewa_level."
  },
  {
   "property": "C72",
   "status": "partial",
   "theorems": [
    "Spectre.Tex.C72_iff",
    "Spectre.Tex.C72_accepted_partial",
    "Spectre.Tex.C72_violated"
   ],
   "note": "Violated exactly by empty images and sides from 65536 on."
  },
  {
   "property": "C73",
   "status": "proved",
   "theorems": [
    "Spectre.Tex.C73_mask"
   ],
   "note": "Little endian layout."
  },
  {
   "property": "C74",
   "status": "partial",
   "theorems": [
    "Spectre.Tex.C74_iff",
    "Spectre.Tex.C74_violated",
    "Spectre.Tex.C74_uniform_scale_partial"
   ],
   "note": "Violated exactly when the two scale factors differ."
  },
  {
   "property": "C75",
   "status": "proved",
   "theorems": [
    "Spectre.Path.C75_extension"
   ],
   "note": "POSIX separators."
  },
  {
   "property": "C76",
   "status": "proved",
   "theorems": [
    "Spectre.Config.C76_aspect"
   ],
   "note": "Both sides up to 2^24, whenever the result fits an int."
  },
  {
   "property": "C77",
   "status": "proved",
   "theorems": [
    "Spectre.Config.C77_nearest"
   ],
   "note": "32-bit arithmetic."
  },
  {
   "property": "C78",
   "status": "partial",
   "theorems": [
    "Spectre.Obj.C78_partial",
    "Spectre.Obj.C78_stale",
    "Spectre.Obj.C78_violated"
   ],
   "note": "Proved for v, v//n and v/t/n. Violated for v/t: the normal index is read from behind the terminator, i.e. from an earlier token; a well-formed file is rejected."
  },
  {
   "property": "C79",
   "status": "partial",
   "theorems": [
    "Spectre.Obj.C79_partial",
    "Spectre.Obj.C79_violated"
   ],
   "note": "One call answers true exactly if it read a triangle (or stopped at a wrong face). Violated: an object without faces ends the reading of the whole file."
  },
  {
   "property": "C80",
   "status": "proved",
   "theorems": [
    "Spectre.AABB.C80_surface",
    "Spectre.AABB.C80_volume",
    "Spectre.AABB.C80_volume_split",
    "Spectre.AABB.C80_center"
   ],
   "note": "Exact arithmetic."
  },
  {
   "property": "C81",
   "status": "partial",
   "theorems": [
    "Spectre.Filters.C81_box_partial",
    "Spectre.Filters.C81_tent_partial",
    "Spectre.Filters.C81_gaussian_partial",
    "Spectre.Filters.C81_mitchell_partial",
    "Spectre.Filters.C81_lanczos_partial",
    "Spectre.Filters.C81_lanczos_defined",
    "Spectre.Filters.C81_violated_mitchell",
    "Spectre.Filters.C81_violated_default",
    "Spectre.Filters.C81_violated_lanczos",
    "Spectre.Filters.C81_violated_lanczos_nan"
   ],
   "note": "Proved for box, tent, gaussian (falloff >= 0) and Mitchell with c=0, 0<=b<=1; Lanczos within [-1,1]. Violated by every Mitchell filter with c>0, b<3 (among them the default one of the program), by Lanczos (negative lobe), and by Lanczos with parameter 0 (NaN). Reals, no rounding."
  },
  {
   "property": "C82",
   "status": "proved",
   "theorems": [
    "Spectre.Filters.C82_symmetric",
    "Spectre.Filters.C82_symmetric_lanczos",
    "Spectre.Filters.C82_border",
    "Spectre.Filters.C82_border_lanczos",
    "Spectre.Filters.C82_outside_lanczos",
    "Spectre.Filters.C82_mitchell_continuous",
    "Spectre.Filters.C82_mitchell_unity",
    "Spectre.Filters.C82_tent_constant"
   ],
   "note": "Reals, no rounding."
  },
  {
   "property": "C83",
   "status": "partial",
   "theorems": [
    "Spectre.Specular.C83_conductor_partial",
    "Spectre.Specular.C83_violated_conductor",
    "Spectre.Specular.C83_dielectric",
    "Spectre.Specular.C83_reciprocal"
   ],
   "note": "Proved for the dielectric everywhere and for the conductor with cosine >= 0. Violated by the conductor for negative cosines (the reflectance exceeds 1), which reflection.cpp passes for directions below the surface."
  },
  {
   "property": "C84",
   "status": "partial",
   "theorems": [
    "Spectre.Specular.C84_conductor_partial",
    "Spectre.Specular.C84_violated_conductor",
    "Spectre.Specular.C84_dielectric_partial",
    "Spectre.Specular.C84_violated_total"
   ],
   "note": "Proved for metals seen from the front and dielectrics without total reflection. Violated: a metal seen from behind reflects more than it receives; total reflection carries only the cosine (the division of reflection.cpp:103 is missing at 90-91)."
  },
  {
   "property": "C85",
   "status": "proved",
   "theorems": [
    "Spectre.Specular.C85_refraction",
    "Spectre.Specular.C85_reversible",
    "Spectre.Specular.C85_energy"
   ],
   "note": "Reals, no rounding."
  },
  {
   "property": "C86",
   "status": "partial",
   "theorems": [
    "Spectre.Specular.C86_direction",
    "Spectre.Specular.C86_pdf_agrees_partial",
    "Spectre.Specular.C86_violated_grazing",
    "Spectre.Specular.C86_density",
    "Spectre.Specular.C86_lambertian"
   ],
   "note": "Proved for outgoing directions that are not grazing; for wo.z=0 the sample reports a positive pdf where pdf() differs (C86_violated_grazing)."
  },
  {
   "property": "C87",
   "status": "partial",
   "theorems": [
    "Spectre.Specular.C87_reflect",
    "Spectre.Specular.C87_refract_partial",
    "Spectre.Specular.C87_violated_behind"
   ],
   "note": "reflect: proved. refract: proved for normals on the side of the vector, violated for the others, which MicrofacetT::sample_value can pass."
  },
  {
   "property": "C88",
   "status": "partial",
   "theorems": [
    "Spectre.Microfacet.C88_ggx_partial",
    "Spectre.Microfacet.C88_blinn_partial",
    "Spectre.Microfacet.C88_violated_beckmann",
    "Spectre.Microfacet.C88_aniso"
   ],
   "note": "Proved for GGX, anisotropic GGX and Blinn. Violated by Beckmann: below 1/2."
  },
  {
   "property": "C89",
   "status": "partial",
   "theorems": [
    "Spectre.Microfacet.C89_ggx_partial",
    "Spectre.Microfacet.C89_violated_blinn",
    "Spectre.Microfacet.C89_violated_beckmann",
    "Spectre.Microfacet.C89_aniso_rate",
    "Spectre.Microfacet.C89_aniso"
   ],
   "note": "Proved for GGX and, for every measurable set of half vectors, for anisotropic GGX. Violated by Blinn (off by (e+2)/(e+1)) and Beckmann."
  },
  {
   "property": "C90",
   "status": "partial",
   "theorems": [
    "Spectre.Microfacet.C90_ggx_partial",
    "Spectre.Microfacet.C90_violated_ggx",
    "Spectre.Microfacet.C90_fit_partial",
    "Spectre.Microfacet.C90_violated_beckmann",
    "Spectre.Microfacet.C90_aniso_partial",
    "Spectre.Microfacet.C90_violated_aniso",
    "Spectre.Microfacet.C90_smith_aniso_partial",
    "Spectre.Microfacet.C90_blinn_beckmann",
    "Spectre.Microfacet.C90_normal"
   ],
   "note": "Range proved for GGX and, off the normal, for the anisotropic one; the rational fit is within 1/10000. Violated: GGX masks more than Smith (sine taken as sqrt(1-cos^4)), Beckmann exceeds 1 at every roughness, the anisotropic masking is 1/3 along the normal."
  },
  {
   "property": "C91",
   "status": "partial",
   "theorems": [
    "Spectre.Microfacet.C91_reciprocal",
    "Spectre.Microfacet.C91_symmetric_masking",
    "Spectre.Microfacet.C91_sample_partial",
    "Spectre.Microfacet.C91_violated_grazing"
   ],
   "note": "Proved for outgoing directions that are not grazing; for wo.z=0 a negative pdf is accepted."
  },
  {
   "property": "C92",
   "status": "partial",
   "theorems": [
    "Spectre.Microfacet.C92_pdf_agrees_partial",
    "Spectre.Microfacet.C92_violated_blinn",
    "Spectre.Microfacet.C92_violated_jacobian"
   ],
   "note": "Agreement proved for distributions with an even pdf (GGX is) and directions on opposite sides. Violated: Blinn when leaving the material; the Jacobian is too large by the squared ratio of the indices for the straight ray."
  },
  {
   "property": "C93",
   "status": "partial",
   "theorems": [
    "Spectre.Microfacet.C93_isotropic_partial",
    "Spectre.Microfacet.C93_violated_normal",
    "Spectre.Microfacet.C93_constructed_partial"
   ],
   "note": "Violated along the normal, where the density returned is 1."
  },
  {
   "property": "C94",
   "status": "partial",
   "theorems": [
    "Spectre.KdTree.C94_halves",
    "Spectre.KdTree.C94_cheapest_partial",
    "Spectre.KdTree.C94_violated_never_refused",
    "Spectre.KdTree.C94_violated_axis"
   ],
   "note": "Proved among the candidates of the chosen axis. Violated across axes (the search stops at the first axis with a candidate) and for the refusal of splits: the test at kdtree.cpp:365 can never be true in a solid area."
  },
  {
   "property": "C95",
   "status": "proved",
   "theorems": [
    "Spectre.Microfacet.C95_blinn",
    "Spectre.Microfacet.C95_beckmann",
    "Spectre.Microfacet.C95_ggx",
    "Spectre.Microfacet.C95_aniso"
   ],
   "note": "Reals, no rounding; roughness positive for the anisotropic distribution."
  },
  {
   "property": "C96",
   "status": "partial",
   "theorems": [
    "Spectre.Microfacet.C96_walter",
    "Spectre.Microfacet.C96_reciprocal",
    "Spectre.Microfacet.C96_dielectric",
    "Spectre.Microfacet.C96_nonneg",
    "Spectre.Microfacet.C96_violated_backfacing"
   ],
   "note": "Reciprocity proved when the reflectances agree, and for the Fresnel term whenever the microfacet separates the directions. Violated: the value is not 0 when both directions see the same side of the microfacet."
  },
  {
   "property": "C97",
   "status": "partial",
   "theorems": [
    "Spectre.OrenNayar.C97_coefficients",
    "Spectre.OrenNayar.C97_monotone",
    "Spectre.OrenNayar.C97_defined",
    "Spectre.OrenNayar.C97_symmetric",
    "Spectre.OrenNayar.C97_lower",
    "Spectre.OrenNayar.C97_smooth",
    "Spectre.OrenNayar.C97_model_partial",
    "Spectre.OrenNayar.C97_brighter_partial",
    "Spectre.OrenNayar.C97_violated_azimuth",
    "Spectre.OrenNayar.C97_published"
   ],
   "note": "The model is exact when the two directions are on the same side of the x axis. Violated: the sines of the azimuths are taken without sign, so that other pairs are too bright."
  },
  {
   "property": "C98",
   "status": "partial",
   "theorems": [
    "Spectre.Frame.C98_frame_partial",
    "Spectre.Frame.C98_round_trip",
    "Spectre.Frame.C98_violated_skewed",
    "Spectre.Frame.C98_violated_smooth",
    "Spectre.Frame.C98_undefined",
    "Spectre.Frame.C98_asset_partial"
   ],
   "note": "Proved when the tangent is orthogonal to the normal. Violated for interpolated normals: the frame is not orthogonalised and the conversions do not undo each other."
  },
  {
   "property": "C99",
   "status": "partial",
   "theorems": [
    "Spectre.Frame.C99_height",
    "Spectre.Frame.C99_height_handed",
    "Spectre.Frame.C99_height_tilt",
    "Spectre.Frame.C99_uniform",
    "Spectre.Frame.C99_height_flat",
    "Spectre.Frame.C99_violated_scale",
    "Spectre.Frame.C99_normal",
    "Spectre.Frame.C99_normal_tilt",
    "Spectre.Frame.C99_violated_flat",
    "Spectre.Frame.C99_violated_sides",
    "Spectre.Frame.C99_gradient",
    "Spectre.Frame.C99_texel"
   ],
   "note": "Frames orthonormal in all cases; the tilt is proved for orthonormal tangents. Violated: slopes ignore the length of the tangents, the normal map returns a normal opposite to its frame for tangents of the other orientation and has no flat texel."
  },
  {
   "property": "C100",
   "status": "partial",
   "theorems": [
    "Spectre.Frame.C100_plane",
    "Spectre.Frame.C100_coordinates_partial",
    "Spectre.Frame.C100_accepted",
    "Spectre.Frame.C100_violated_smooth",
    "Spectre.Frame.C100_violated_units"
   ],
   "note": "Exact for tangents orthogonal to the normal; never refused for orthonormal tangents. Violated for interpolated normals, and in the unit: tangents are normalised, so the differentials are lengths."
  },
  {
   "property": "C101",
   "status": "proved",
   "theorems": [
    "Spectre.Camera.C101_frame",
    "Spectre.Camera.C101_rigid",
    "Spectre.Camera.C101_undefined"
   ],
   "note": "Reals, no rounding, exact normalisation."
  },
  {
   "property": "C102",
   "status": "partial",
   "theorems": [
    "Spectre.Camera.C102_ray",
    "Spectre.Camera.C102_centre",
    "Spectre.Camera.C102_neighbours",
    "Spectre.Camera.C102_two_pixels_partial",
    "Spectre.Camera.C102_violated_offset"
   ],
   "note": "The rays are right. Violated: the neighbours are 2/min(width,height) pixels away, one pixel only for images two pixels wide or high."
  },
  {
   "property": "C103",
   "status": "partial",
   "theorems": [
    "Spectre.Camera.C103_ray",
    "Spectre.Camera.C103_neighbours",
    "Spectre.Camera.C103_angle",
    "Spectre.Camera.C103_upright_partial",
    "Spectre.Camera.C103_undefined",
    "Spectre.Camera.C103_violated_degrees"
   ],
   "note": "The camera is right for angles in radians below 176.4 degrees. Violated: the configuration passes degrees, so that the default of 55 gives an upside down image; above 176.4 degrees a matrix is left uninitialised."
  },
  {
   "property": "C104",
   "status": "partial",
   "theorems": [
    "Spectre.Camera.C104_ray",
    "Spectre.Camera.C104_covers",
    "Spectre.Camera.C104_injective",
    "Spectre.Camera.C104_poles",
    "Spectre.Camera.C104_violated_centre",
    "Spectre.Camera.C104_neighbours"
   ],
   "note": "Covering is proved. Violated: the target is at a quarter of the width and not in the middle."
  },
  {
   "property": "C105",
   "status": "partial",
   "theorems": [
    "Spectre.Light.C105_parametrisation",
    "Spectre.Light.C105_unique",
    "Spectre.Light.C105_frame",
    "Spectre.Light.C105_hit",
    "Spectre.Light.C105_violated_pole"
   ],
   "note": "Proved away from the poles. Violated at a pole, where the point moved for the azimuth is reported and lies off the sphere and the ray."
  },
  {
   "property": "C106",
   "status": "partial",
   "theorems": [
    "Spectre.Light.C106_sample",
    "Spectre.Light.C106_uniform",
    "Spectre.Light.C106_sphere_partial",
    "Spectre.Light.C106_sphere_placed",
    "Spectre.Light.C106_violated_sphere",
    "Spectre.Light.C106_triangle_partial",
    "Spectre.Light.C106_triangle_placed",
    "Spectre.Light.C106_violated_shear",
    "Spectre.Light.C106_box_placed"
   ],
   "note": "Uniformity proved for the sphere. Areas proved for boxes and triangles as placed by the program and for spheres scaled uniformly; violated for spheres scaled differently along the axes (only scale.x is read), and for sheared triangles (which the program does not build)."
  },
  {
   "property": "C107",
   "status": "partial",
   "theorems": [
    "Spectre.Light.C107_sample",
    "Spectre.Light.C107_pdf",
    "Spectre.Light.C107_rigid_partial",
    "Spectre.Light.C107_sphere_proper",
    "Spectre.Light.C107_violated_scaled",
    "Spectre.Light.C107_emitted",
    "Spectre.Light.C107_violated_emitted",
    "Spectre.Light.C107_emitted_density"
   ],
   "note": "Proved for lights of scale 1. For scale s the sample reports the density divided by s^2 and the distance divided by s, pdf() the density divided by s."
  },
  {
   "property": "C108",
   "status": "partial",
   "theorems": [
    "Spectre.Light.C108_reported",
    "Spectre.Light.C108_direction",
    "Spectre.Light.C108_actual",
    "Spectre.Light.C108_violated"
   ],
   "note": "Both sides computed exactly. Violated: points sampled on the back are projected to the front, but only the density of the front point is reported, so that the density integrates to (1-1/D)/2 at distance D radii."
  },
  {
   "property": "C109",
   "status": "partial",
   "theorems": [
    "Spectre.Light.C109_test",
    "Spectre.Light.C109_rigid_partial",
    "Spectre.Light.C109_violated_dark",
    "Spectre.Light.C109_violated_missed"
   ],
   "note": "Proved for lights of scale 1. Violated by scaled lights: a light made smaller shadows itself, something in front of a light made larger is missed."
  },
  {
   "property": "C110",
   "status": "partial",
   "theorems": [
    "Spectre.Light.C110_once_partial",
    "Spectre.Light.C110_unseen",
    "Spectre.Light.C110_violated_scaled",
    "Spectre.Light.C110_violated_sphere"
   ],
   "note": "Proved when the light reports the density it samples with. Violated with the densities of C107 (scaled lights) and C108 (spheres)."
  },
  {
   "property": "C111",
   "status": "partial",
   "theorems": [
    "Spectre.Color.C111_decode",
    "Spectre.Color.C111_round_trip_partial",
    "Spectre.Color.C111_gap",
    "Spectre.Color.C111_violated_increasing",
    "Spectre.Color.C111_increasing_partial"
   ],
   "note": "Decoding proved increasing. Coding inverts it except between 0.04044994 and 0.04045, where the error is below 1E-6. Violated: the code is not monotone at its threshold 0.0031308, where it jumps down."
  },
  {
   "property": "C112",
   "status": "partial",
   "theorems": [
    "Spectre.Color.C112_byte",
    "Spectre.Color.C112_pixel_partial",
    "Spectre.Color.C112_violated_grey"
   ],
   "note": "In exact arithmetic every channel comes back as itself or one less, decided by the sign of the error of the two 7-digit matrices; every grey comes back as (k-1,k,k-1). Float rounding, which is of the size of that error, is not modelled."
  },
  {
   "property": "C113",
   "status": "proved",
   "theorems": [
    "Spectre.Color.C113_level",
    "Spectre.Color.C113_channels",
    "Spectre.Color.C113_mean",
    "Spectre.Color.C113_empty"
   ],
   "note": "Over the reals."
  },
  {
   "property": "C114",
   "status": "partial",
   "theorems": [
    "Spectre.Color.C114_normalised",
    "Spectre.Color.C114_black",
    "Spectre.Color.C114_error_partial",
    "Spectre.Color.C114_violated",
    "Spectre.Color.C114_violated_amount"
   ],
   "note": "Normalisation proved. Violated at every temperature: exp(x)+1 is written for exp(x)-1 (spectrum.cpp:399); the exact factor is proved. At 6500 K the ratio of red to violet is more than 7% too small."
  },
  {
   "property": "C115",
   "status": "partial",
   "theorems": [
    "Spectre.Color.C115_luminance",
    "Spectre.Color.C115_linear",
    "Spectre.Color.C115_constant_partial",
    "Spectre.Color.C115_violated_red"
   ],
   "note": "Linearity and the white point within 1% proved. Violated: the build without SPECTRAL stores the means of short, middle and long wavelengths as X, Y and Z; red light becomes blue."
  },
  {
   "property": "C116",
   "status": "partial",
   "theorems": [
    "Spectre.Color.C116_orders",
    "Spectre.Color.C116_range",
    "Spectre.Color.C116_grey",
    "Spectre.Color.C116_plain",
    "Spectre.Color.C116_violated_coding"
   ],
   "note": "The mixture for all orders and the range proved. Violated: with SPECTRAL the coded components are used as amounts of light; grey 1/2 reflects 49% instead of 21%."
  },
  {
   "property": "C117",
   "status": "partial",
   "theorems": [
    "Spectre.Color.C117_cauchy",
    "Spectre.Color.C117_sellmeier_partial",
    "Spectre.Color.C117_violated_sellmeier"
   ],
   "note": "Cauchy proved. Sellmeier proved for resonances below 400 nm. Violated for a resonance at or inside of the visible range: division by zero or root of a negative number, which is not refused."
  },
  {
   "property": "C118",
   "status": "partial",
   "theorems": [
    "Spectre.Color.C118_defined_partial",
    "Spectre.Color.C118_undefined",
    "Spectre.Color.C118_violated"
   ],
   "note": "Defined exactly inside of the gamut; violated by light of 500 nm."
  },
  {
   "property": "C119",
   "status": "proved",
   "theorems": [
    "Spectre.Scene.C119_terminates",
    "Spectre.Scene.C119_accepts_iff",
    "Spectre.Scene.C119_rejects",
    "Spectre.Scene.C119_no_undefined_behaviour",
    "Spectre.Scene.C119_unambiguous"
   ],
   "note": "Proved for every list of tokens and all actions; the tables are checked against item sets by the kernel. C119_no_undefined_behaviour assumes that the actions are defined on values of the types of their symbols."
  },
  {
   "property": "C120",
   "status": "proved",
   "theorems": [
    "Spectre.Scene.C120_end",
    "Spectre.Scene.C120_token",
    "Spectre.Scene.C120_unique",
    "Spectre.Scene.C120_exactly",
    "Spectre.Scene.C120_all",
    "Spectre.Scene.C120_whole"
   ],
   "note": "Proved for every list of bytes; the tables are checked against derivatives of the rules by the kernel. The buffer is taken to hold the rest of the file, so that it is refilled only at the end."
  },
  {
   "property": "C121",
   "status": "partial",
   "theorems": [
    "Spectre.Scene.C121_separated_partial",
    "Spectre.Scene.C121_closed",
    "Spectre.Scene.C121_spaced_partial",
    "Spectre.Scene.C121_violated_backslash",
    "Spectre.Scene.C121_violated_quote",
    "Spectre.Scene.C121_violated_documented"
   ],
   "note": "Proved for tokens without backslash. Violated by strings that end with a backslash, by the documented number E10 and by the documented integrator pt."
  },
  {
   "property": "C122",
   "status": "partial",
   "theorems": [
    "Spectre.Scene.C122_meaning",
    "Spectre.Scene.C122_rejected",
    "Spectre.Scene.C122_defaults",
    "Spectre.Scene.C122_concatenation",
    "Spectre.Scene.C122_text",
    "Spectre.Scene.C122_text_defined",
    "Spectre.Scene.C122_violated_documented"
   ],
   "note": "Proved for every text. Numbers are exact rationals. The name is required to come first in world and light, and empty files and empty resolution, filter and camera objects are refused, which the README does not say: C122_violated_documented."
  },
  {
   "property": "C123",
   "status": "partial",
   "theorems": [
    "Spectre.Scene.C123_uint",
    "Spectre.Scene.C123_int",
    "Spectre.Scene.C123_float",
    "Spectre.Scene.C123_unique",
    "Spectre.Scene.C123_undefined",
    "Spectre.Scene.C123_violated"
   ],
   "note": "Proved for every text and file; the rounding of atof to double and float is not modelled. Integers beyond int are undefined, also where a float is documented: C123_violated."
  },
  {
   "property": "C124",
   "status": "partial",
   "theorems": [
    "Spectre.Scene.C124_chain",
    "Spectre.Scene.C124_objects",
    "Spectre.Scene.C124_settings_partial",
    "Spectre.Scene.C124_checked",
    "Spectre.Scene.C124_violated"
   ],
   "note": "Acceptance and objects are proved for all files. The settings are as documented only if the children have none: the renderer is made before the children are read (C124_violated)."
  },
  {
   "property": "C125",
   "status": "partial",
   "theorems": [
    "Spectre.Scene.C125_library",
    "Spectre.Scene.C125_filter_partial",
    "Spectre.Scene.C125_reference_partial",
    "Spectre.Scene.C125_violated_reference",
    "Spectre.Scene.C125_violated_filter"
   ],
   "note": "The library is proved for all statements. References are as documented for names without separators; a reference with a path gets a texture that has the name of the last component, a name with a separator is never found (C125_violated_reference). The filter of a file is the one it was loaded with first (C125_violated_filter)."
  },
  {
   "property": "C126",
   "status": "partial",
   "theorems": [
    "Spectre.Scene.C126_metal",
    "Spectre.Scene.C126_glass",
    "Spectre.Scene.C126_glossy",
    "Spectre.Scene.C126_matte",
    "Spectre.Scene.C126_blinn",
    "Spectre.Scene.C126_parameters",
    "Spectre.Scene.C126_library",
    "Spectre.Scene.C126_dual",
    "Spectre.Scene.C126_violated_blinn"
   ],
   "note": "Proved for exact numbers; the exponent of Blinn is infinite for roughness below 2^-63.5 (C126_violated_blinn). References to textures of the library by names without separators."
  },
  {
   "property": "C127",
   "status": "partial",
   "theorems": [
    "Spectre.Scene.C127_objects",
    "Spectre.Scene.C127_complete",
    "Spectre.Scene.C127_radians",
    "Spectre.Scene.C127_degrees_partial",
    "Spectre.Scene.C127_violated_degrees",
    "Spectre.Scene.C127_mask_partial",
    "Spectre.Scene.C127_violated_mask"
   ],
   "note": "Objects are proved for all statements. Rotations are taken as radians although documented in degrees (C127_violated_degrees); a missing mask is replaced by the white texture, which hides the object if inverted (C127_violated_mask)."
  },
  {
   "property": "C128",
   "status": "proved",
   "theorems": [
    "Spectre.Scene.C128_first",
    "Spectre.Scene.C128_none",
    "Spectre.Scene.C128_rejects",
    "Spectre.Scene.C128_driver",
    "Spectre.Scene.C128_token_read"
   ],
   "note": "Proved for all lists of tokens."
  },
  {
   "property": "C129",
   "status": "partial",
   "theorems": [
    "Spectre.Scene.C129_position_partial",
    "Spectre.Scene.C129_report_partial",
    "Spectre.Scene.C129_marks",
    "Spectre.Scene.C129_end_partial",
    "Spectre.Scene.C129_violated_long",
    "Spectre.Scene.C129_violated_last_line",
    "Spectre.Scene.C129_violated_second_file",
    "Spectre.Scene.C129_violated_bump",
    "Spectre.Scene.C129_violated_lines"
   ],
   "note": "Proved under the listed conditions, for the first file. Violations: tokens of 65 to 123 bytes that end after column 123, a last line without an end, files after the first one, the word bump, and strings over several lines."
  },
  {
   "property": "C130",
   "status": "partial",
   "theorems": [
    "Spectre.Msg.C130_printf",
    "Spectre.Msg.C130_fits",
    "Spectre.Msg.C130_numbers",
    "Spectre.Msg.C130_missing",
    "Spectre.Msg.C130_invalid",
    "Spectre.Msg.C130_calls_partial",
    "Spectre.Msg.C130_buffers",
    "Spectre.Msg.C130_violated_folder",
    "Spectre.Msg.C130_violated_child",
    "Spectre.Msg.C130_violated_error"
   ],
   "note": "Proved for all calls but three, and for all values of their arguments; the three others are undefined for all values (C130_violated_folder, C130_violated_child, C130_violated_error)."
  },
  {
   "property": "C131",
   "status": "partial",
   "theorems": [
    "Spectre.ImageIo.C131_dispatch",
    "Spectre.ImageIo.C131_dimensions_partial",
    "Spectre.ImageIo.C131_iff",
    "Spectre.ImageIo.C131_violated"
   ],
   "note": "Proved for all extensions; the full statement is proved to hold exactly for the builds with both or none of libtiff and libjpeg."
  },
  {
   "property": "C132",
   "status": "proved",
   "theorems": [
    "Spectre.ImageIo.C132_png_rows",
    "Spectre.ImageIo.C132_png_read",
    "Spectre.ImageIo.C132_png_round_trip",
    "Spectre.ImageIo.C132_tiff_round_trip",
    "Spectre.ImageIo.C132_tiff_alpha",
    "Spectre.ImageIo.C132_tiff_grey",
    "Spectre.ImageIo.C132_jpg_rows"
   ],
   "note": "What the libraries deliver for given rows is specified in the statement (fill, rasterOf)."
  },
  {
   "property": "C133",
   "status": "partial",
   "theorems": [
    "Spectre.ImageIo.C133_failure",
    "Spectre.ImageIo.C133_reported_partial",
    "Spectre.ImageIo.C133_violated"
   ],
   "note": "Proved for failures before the last row; violated by every picture whose last row fails."
  },
  {
   "property": "C134",
   "status": "partial",
   "theorems": [
    "Spectre.ImageIo.C134_colour_partial",
    "Spectre.ImageIo.C134_violated_grey",
    "Spectre.ImageIo.C134_violated",
    "Spectre.ImageIo.C134_violated_cmyk",
    "Spectre.ImageIo.C134_png_signature_partial",
    "Spectre.ImageIo.C134_violated_png_short"
   ],
   "note": "Proved for colour pictures and for files of at least 8 bytes; violated by every grey picture."
  },
  {
   "property": "C135",
   "status": "partial",
   "theorems": [
    "Spectre.ImageIo.C135_film",
    "Spectre.ImageIo.C135_saved_partial",
    "Spectre.ImageIo.C135_names",
    "Spectre.ImageIo.C135_names_absolute",
    "Spectre.ImageIo.C135_violated"
   ],
   "note": "Proved for every path that names a file; violated by paths with a separator at the end."
  },
  {
   "property": "C136",
   "status": "partial",
   "theorems": [
    "Spectre.Queue.C136_bar",
    "Spectre.Queue.C136_monotone",
    "Spectre.Queue.C136_full_iff",
    "Spectre.Queue.C136_percent_accurate",
    "Spectre.Queue.C136_eta_partial",
    "Spectre.Queue.C136_eta_violated"
   ],
   "note": "Bar and percentage proved; the time left is proved once a job is taken, and undefined before (the listener starts before the workers)."
  },
  {
   "property": "C137",
   "status": "partial",
   "theorems": [
    "Spectre.Queue.C137_mutual_exclusion",
    "Spectre.Queue.C137_never_pops_empty",
    "Spectre.Queue.C137_each_job_once",
    "Spectre.Queue.C137_one_worker",
    "Spectre.Queue.C137_all_done",
    "Spectre.Queue.C137_terminates",
    "Spectre.Queue.C137_listener_races_violated",
    "Spectre.Queue.C137_flag_races_violated"
   ],
   "note": "Proved for the workers and the main thread; violated by the listener, which reads the size of the queue and its flag without synchronisation."
  },
  {
   "property": "C138",
   "status": "partial",
   "theorems": [
    "Spectre.Queue.C138_debug_not_zero",
    "Spectre.Queue.C138_zero_iff",
    "Spectre.Queue.C138_first_not_zero",
    "Spectre.Queue.C138_jobs_differ",
    "Spectre.Queue.C138_release_violated",
    "Spectre.Queue.C138_workers_coincide_violated"
   ],
   "note": "Proved for the debug version up to 2^31 jobs, for the first job of a worker, and for the jobs of one worker; violated for a later job of a release worker and for different workers."
  },
  {
   "property": "C139",
   "status": "partial",
   "theorems": [
    "Spectre.Memory.C139_stored_partial",
    "Spectre.Memory.C139_finalized_partial",
    "Spectre.Memory.C139_violated",
    "Spectre.Memory.C139_violated_finalized"
   ],
   "note": "Proved for meshes made for at least one triangle (the program always asks for one); violated by Mesh(0) and by meshes finalised while empty."
  },
  {
   "property": "C140",
   "status": "partial",
   "theorems": [
    "Spectre.Memory.C140_ownership",
    "Spectre.Memory.C140_duplicates",
    "Spectre.Memory.C140_nothing_left_partial",
    "Spectre.Memory.C140_violated_sphere",
    "Spectre.Memory.C140_violated_duplicate",
    "Spectre.Memory.C140_violated_lights"
   ],
   "note": "No double free and no use after free, for all inputs; what is leaked is characterised exactly."
  },
  {
   "property": "C141",
   "status": "partial",
   "theorems": [
    "Spectre.MaskHit.C141_plain_partial",
    "Spectre.MaskHit.C141_secondary",
    "Spectre.MaskHit.C141_point",
    "Spectre.MaskHit.C141_refused",
    "Spectre.MaskHit.C141_violated_uninitialised",
    "Spectre.MaskHit.C141_violated_stale",
    "Spectre.MaskHit.C141_violated_dv"
   ],
   "note": "Proved without filtered masks and for rays with the differentials switched off; violated for all other rays at filtered masks."
  },
  {
   "property": "C142",
   "status": "proved",
   "theorems": [
    "Spectre.Fsys.C142_mkdirs",
    "Spectre.Fsys.C142_all_or_nothing",
    "Spectre.Fsys.C142_existing"
   ],
   "note": "File system without links, one user."
  },
  {
   "property": "C143",
   "status": "partial",
   "theorems": [
    "Spectre.Fsys.C143_known",
    "Spectre.Fsys.C143_append",
    "Spectre.Fsys.C143_parent_partial",
    "Spectre.Fsys.C143_violated_parent"
   ],
   "note": "Proved for new objects, copies, after mkdirs and for parents of folders; violated by get_parent of a file, which keeps what is known about the file."
  },
  {
   "property": "C144",
   "status": "partial",
   "theorems": [
    "Spectre.Fsys.C144_ls_partial",
    "Spectre.Fsys.C144_none",
    "Spectre.Fsys.C144_violated"
   ],
   "note": "Proved for names without backslash; violated for names with one."
  },
  {
   "property": "C145",
   "status": "partial",
   "theorems": [
    "Spectre.Fsys.C145_assign_partial",
    "Spectre.Fsys.C145_destroy",
    "Spectre.Fsys.C145_copy",
    "Spectre.Fsys.C145_violated_leak",
    "Spectre.Fsys.C145_violated_self"
   ],
   "note": "Copies are proved; every assignment loses the old string, and an assignment to itself reads uninitialised memory."
  },
  {
   "property": "C146",
   "status": "proved",
   "theorems": [
    "Spectre.Well.C146_period",
    "Spectre.Well.C146_one_cycle",
    "Spectre.Well.C146_state"
   ],
   "note": "The characteristic polynomial is checked by the kernel to be primitive, with certificates for the 16 prime factors of 2^1024-1."
  },
  {
   "property": "C147",
   "status": "proved",
   "theorems": [
    "Spectre.Well.C147_tuples",
    "Spectre.Well.C147_words",
    "Spectre.Well.C147_events",
    "Spectre.Well.C147_values",
    "Spectre.Well.C147_one",
    "Spectre.Well.C147_blocks"
   ],
   "note": "Counts over a whole period."
  },
  {
   "property": "C148",
   "status": "partial",
   "theorems": [
    "Spectre.Single.C148_agrees_partial",
    "Spectre.Single.C148_violated_bump",
    "Spectre.Single.C148_layered",
    "Spectre.Single.C148_specular",
    "Spectre.Single.C148_construct",
    "Spectre.Single.C148_dual",
    "Spectre.Single.C148_dual_consistent"
   ],
   "note": "Proved for diffuse layers without bump map and for directions that are not grazing; violated with every bump map that changes the normal."
  },
  {
   "property": "C149",
   "status": "proved",
   "theorems": [
    "Spectre.Direct.C149_hidden",
    "Spectre.Direct.C149_used",
    "Spectre.Direct.C149_back"
   ],
   "note": "In binary32 with signed zeros, infinities and NaN."
  },
  {
   "property": "C150",
   "status": "partial",
   "theorems": [
    "Spectre.Direct.C150_nan_iff",
    "Spectre.Direct.C150_range_partial",
    "Spectre.Direct.C150_sum_partial",
    "Spectre.Direct.C150_violated_large",
    "Spectre.Direct.C150_violated_small",
    "Spectre.Direct.C150_violated_radiance"
   ],
   "note": "Proved for densities up to 2^63 of which one is at least 2^-74 (2^-63 for the sum); violated outside: the weight is NaN for densities of 2^64 or more."
  },
  {
   "property": "C151",
   "status": "partial",
   "theorems": [
    "Spectre.FTree.C151_contains",
    "Spectre.FTree.C151_no_gap",
    "Spectre.FTree.C151_backward",
    "Spectre.FTree.C151_margin_partial",
    "Spectre.FTree.C151_violated_edge",
    "Spectre.FTree.C151_violated_face"
   ],
   "note": "Proved with a margin of 2^-22 of the distance of each face; violated without: a ray that crosses a box near an edge, inside over an interval of parameters, is rejected."
  },
  {
   "property": "C152",
   "status": "proved",
   "theorems": [
    "Spectre.FTree.C152_completes",
    "Spectre.FTree.C152_no_asset_lost",
    "Spectre.FTree.C152_closest_hit"
   ],
   "note": "Binary32 with rounding, overflow and infinite inverses; direction components up to 3/2, boxes with extent on all axes."
  },
  {
   "property": "C153",
   "status": "partial",
   "theorems": [
    "Spectre.FBvh.C153_build_partial",
    "Spectre.FBvh.C153_lost",
    "Spectre.FBvh.C153_violated_overflow"
   ],
   "note": "Proved for coordinates up to 2^61; violated when a surface overflows: a cluster is merged with itself and dropped."
  },
  {
   "property": "C154",
   "status": "proved",
   "theorems": [
    "Spectre.FBvh.C154_mesh_closest_hit"
   ],
   "note": "Unless the stack overflows (C22), which takes a tree of more than 32 levels."
  },
  {
   "property": "C155",
   "status": "partial",
   "theorems": [
    "Spectre.Metals.C155_table",
    "Spectre.Metals.C155_fraction",
    "Spectre.Metals.C155_spectral_partial",
    "Spectre.Metals.C155_violated_gold"
   ],
   "note": "The table and the fractions are proved for all metals and both builds, the hue with SPECTRAL; without SPECTRAL the hue is wrong: short wavelengths are stored as X and long ones as Z, and gold comes out blue."
  },
  {
   "property": "C156",
   "status": "partial",
   "theorems": [
    "Spectre.Normalize.C156_unit_partial",
    "Spectre.Normalize.C156_stable_partial",
    "Spectre.Normalize.C156_violated_large",
    "Spectre.Normalize.C156_violated_small",
    "Spectre.Normalize.C156_violated_subnormal"
   ],
   "note": "Proved for components up to 2^63 and a squared length of at least 2^-126; violated for larger and smaller vectors."
  },
  {
   "property": "C157",
   "status": "partial",
   "theorems": [
    "Spectre.FMat.C157_dielectric",
    "Spectre.FMat.C157_reflection_partial",
    "Spectre.FMat.C157_metal",
    "Spectre.FMat.C157_metals",
    "Spectre.FMat.C157_violated_grazing",
    "Spectre.FMat.C157_violated_behind"
   ],
   "note": "The Fresnel terms are proved for indices from 1/1024 to 1024 and every metal of the table; the mirrors divide by the cosine, which fails along the surface, and a metal mirror seen from behind gains light."
  },
  {
   "property": "C158",
   "status": "proved",
   "theorems": [
    "Spectre.FMat.C158_refraction"
   ],
   "note": ""
  },
  {
   "property": "C159",
   "status": "partial",
   "theorems": [
    "Spectre.Run.C159_picture",
    "Spectre.Run.C159_status_partial",
    "Spectre.Run.C159_refused",
    "Spectre.Run.C159_violated",
    "Spectre.Run.C159_violated_statement"
   ],
   "note": "The status is 0 or 1; with 1 there is no picture; a written picture comes from an accepted scene and all its pixels lie in exactly one tile. If the write succeeds and the output names a file, an accepted scene ends with status 0 and the picture. The full statement is violated: Renderer::render drops the result of save_image, so a failed write ends with status 0 and no picture."
  },
  {
   "property": "C160",
   "status": "partial",
   "theorems": [
    "Spectre.FTri.C160_hit_partial",
    "Spectre.FTri.C160_miss_partial",
    "Spectre.FTri.C160_numbers",
    "Spectre.FTri.C160_interpolated",
    "Spectre.FTri.C160_violated_crack",
    "Spectre.FTri.C160_violated_nan",
    "Spectre.FTri.C160_violated_statement"
   ],
   "note": "Hits and misses are proved up to a spread of 2^(p+2q-17)/|det| (relative to the sizes 2^p of the direction and 2^q of the edges), reported values are numbers when the determinant does not underflow; the interpolation of normals and texture coordinates is within 19*2^-24 of the exact one. The exact statement is violated: a ray can pass between two triangles that share an edge, and very large triangles behind the ray are hit at the distance NaN."
  },
  {
   "property": "C161",
   "status": "partial",
   "theorems": [
    "Spectre.BigSphere.C161_first_partial",
    "Spectre.BigSphere.C161_enlarged",
    "Spectre.BigSphere.C161_placed_partial",
    "Spectre.BigSphere.C161_enlarged_placed",
    "Spectre.BigSphere.C161_reported",
    "Spectre.BigSphere.C161_violated",
    "Spectre.BigSphere.C161_violated_pole",
    "Spectre.BigSphere.C161_violated_statement"
   ],
   "note": "In exact arithmetic. Proved for rays whose line crosses the sphere or keeps more than s*sqrt(1+s^2/40000) from the centre; violated between: every such ray hits the sphere, in its point next to the centre. The reported normal points from the centre to the hit; the reported point is the hit except at the poles, where it is off by SELF_INTERSECT_ERROR times the radius (2 units for radius 200)."
  },
  {
   "property": "C162",
   "status": "partial",
   "theorems": [
    "Spectre.FSphere.C162_miss_partial",
    "Spectre.FSphere.C162_numbers",
    "Spectre.FSphere.C162_surface_partial",
    "Spectre.FSphere.C162_touch_partial",
    "Spectre.FSphere.C162_hit_partial",
    "Spectre.FSphere.C162_marker",
    "Spectre.FSphere.C162_violated_far",
    "Spectre.FSphere.C162_violated_statement",
    "Spectre.FSphere.C162_violated_fastmath"
   ],
   "note": "With R a bound on the distance between origin and centre (in radii): a ray with a point more than 360*2^-24*R^2 inside (difference of squared distances) is a hit, before that point unless it starts inside; the reported point of a proper crossing is that close to the surface; lines outside by more than the tolerance are misses; reported distances are finite. The exact statement is violated: a ray through the centre from 3226 radii is a miss. With -Ofast the NaN marker for a missing second solution is not recognised. Not covered: the second solution of a grazing ray whose discriminant is below 400*2^-24*P^2*R^2 is only proved finite."
  },
  {
   "property": "C163",
   "status": "partial",
   "theorems": [
    "Spectre.FMicro.C163_roughness",
    "Spectre.FMicro.C163_visible",
    "Spectre.FMicro.C163_shadowing",
    "Spectre.FMicro.C163_density",
    "Spectre.FMicro.C163_sample_partial",
    "Spectre.FMicro.C163_sample_nan",
    "Spectre.FMicro.C163_half",
    "Spectre.FMicro.C163_beckmann_partial",
    "Spectre.FMicro.C163_diffuse",
    "Spectre.FMicro.C163_density_accuracy_partial",
    "Spectre.FMicro.C163_visible_accuracy_partial",
    "Spectre.FMicro.C163_beckmann_accuracy_partial",
    "Spectre.FMicro.C163_density_half_digits",
    "Spectre.FMicro.C163_violated_sample",
    "Spectre.FMicro.C163_violated_statement",
    "Spectre.FMicro.C163_violated_density"
   ],
   "note": "The squared roughness is in [0, 1] for every roughness but NaN; the masking term is in [0, 1] for all inputs; the density is not negative, and NaN exactly if the square of a cosine other than zero underflows; the sampled GGX half vector is made of numbers of length one exactly unless the random number is 1 and the squared roughness at most 2^-25, and then it is NaN (violation: roughness 0.0001). Beckmann sampling needs a squared roughness that does not underflow; the diffuse sampling has no exceptions. Accuracy: the density within 2^-10, the masking term and the Beckmann angle within 24*2^-24 and 8*2^-24, for cosines and roughnesses that do not underflow. Not covered: Blinn, the anisotropic distribution, the values of cosf, sinf and log."
  },
  {
   "property": "C164",
   "status": "partial",
   "theorems": [
    "Spectre.FFilm.C164_byte",
    "Spectre.FFilm.C164_defined",
    "Spectre.FFilm.C164_level",
    "Spectre.FFilm.C164_monotone",
    "Spectre.FFilm.C164_sum",
    "Spectre.FFilm.C164_count",
    "Spectre.FFilm.C164_mean_partial",
    "Spectre.FFilm.C164_violated_nan",
    "Spectre.FFilm.C164_violated_count",
    "Spectre.FFilm.C164_encode",
    "Spectre.FFilm.C164_colour",
    "Spectre.FFilm.C164_violated_order",
    "Spectre.FFilm.C164_violated_statement"
   ],
   "note": "The conversion to bytes is defined for every binary32 value, NaN and infinities included, monotone and within 2^-16 of 255 times the channel; sums of n contributions are within 2n*2^-24 in every order; the mean before the conversion is within (3n+4)*2^-24 of the weighted mean (colours and weights not negative, products without underflow, sums in the middle of the range, at most 65536 samples); the linear channels are within M*2^-19 of the exact matrix for components up to M, and the encoding is the exact one up to its roundings. Violated: five samples added in the other order give another red byte, and one NaN sample makes its pixels white; at 2^24 samples of weight one the count stalls. Not covered: filters with negative weights (Mitchell, Lanczos), where sums may cancel, and powf."
  },
  {
   "property": "C165",
   "status": "partial",
   "theorems": [
    "Spectre.FFilter.C165_centre",
    "Spectre.FFilter.C165_range",
    "Spectre.FFilter.C165_pixels",
    "Spectre.FFilter.C165_offset",
    "Spectre.FFilter.C165_offset_grid",
    "Spectre.FFilter.C165_tent",
    "Spectre.FFilter.C165_gaussian",
    "Spectre.FFilter.C165_mitchell",
    "Spectre.FFilter.C165_lanczos",
    "Spectre.FFilter.C165_weights",
    "Spectre.FFilter.C165_violated_gaussian",
    "Spectre.FFilter.C165_violated_lanczos",
    "Spectre.FFilter.C165_violated_statement"
   ],
   "note": "Positions up to 65536 pixels and integer ranges up to 8: the conversions to int are defined, only pixels in the support are updated, all but the last column and row (C11), and the offsets are numbers in the range of the filter, within (n+1/2)*2^-24 of the exact offset and zero or at least 2^-25. Tent and Gaussian weights of updated pixels are in [0, 1] (falloff not negative, any expf in [0, 1] on arguments that are not positive), Mitchell weights within 2^-10 of the polynomial (b and c in [0, 1]), Lanczos weights are in [-1, 1] for tau in [2^-20, 2^20]. Violated: a negative falloff and tau 0, which the parser accepts, give NaN weights. Not covered: the values of expf and sinf."
  },
  {
   "property": "C166",
   "status": "partial",
   "theorems": [
    "Spectre.Alias.C166_compound",
    "Spectre.Alias.C166_combine",
    "Spectre.Alias.C166_clamp",
    "Spectre.Alias.C166_extreme",
    "Spectre.Alias.C166_pointExtreme",
    "Spectre.Alias.C166_reflect",
    "Spectre.Alias.C166_mulAssign",
    "Spectre.Alias.C166_inverse",
    "Spectre.Alias.C166_cross_partial",
    "Spectre.Alias.C166_refract_partial",
    "Spectre.Alias.C166_transpose_partial",
    "Spectre.Alias.C166_mul_partial",
    "Spectre.Alias.C166_violated_cross",
    "Spectre.Alias.C166_violated_refract",
    "Spectre.Alias.C166_violated_transpose",
    "Spectre.Alias.C166_violated_mul",
    "Spectre.Alias.C166_violated_statement"
   ],
   "note": "On a memory where references may name the same object: compound assignments, sums, clamping, maximum and minimum, reflection, *= and inverse of matrices are right for all objects, also a op= a and inverse into itself, and change nothing else. Violated by cross(target, output), refract, transpose and mul when the output is an input; they are proved for different objects. The renderer calls none of them with the same object."
  },
  {
   "property": "C167",
   "status": "partial",
   "theorems": [
    "Spectre.Compare.C167_negation_partial",
    "Spectre.Compare.C167_negation",
    "Spectre.Compare.C167_normal",
    "Spectre.Compare.C167_matrix",
    "Spectre.Compare.C167_self",
    "Spectre.Compare.C167_symmetric",
    "Spectre.Compare.C167_tolerance",
    "Spectre.Compare.C167_large",
    "Spectre.Compare.C167_clamp",
    "Spectre.Compare.C167_saturate",
    "Spectre.Compare.C167_max",
    "Spectre.Compare.C167_nan",
    "Spectre.Compare.C167_violated_infinity",
    "Spectre.Compare.C167_violated_transitive",
    "Spectre.Compare.C167_violated_statement"
   ],
   "note": "For all binary32 members: != is the negation of == exactly unless a difference is undefined (NaN or equal infinities) and all others small, always for normals and matrices; a vector or point equals itself exactly if it is finite; both operators are symmetric; the tolerance is 2^-23 up to its rounding and means identity beyond two; clamp, saturate, max and min are the exact ones for finite members, and their treatment of NaN is given. Violated: equality is not transitive, and infinite points are neither equal nor unequal to themselves."
  },
  {
   "property": "C168",
   "status": "partial",
   "theorems": [
    "Spectre.FPlace.C168_affine",
    "Spectre.FPlace.C168_accuracy",
    "Spectre.FPlace.C168_sphere_partial",
    "Spectre.FPlace.C168_box",
    "Spectre.FPlace.C168_triangle",
    "Spectre.FPlace.C168_product",
    "Spectre.FPlace.C168_placement",
    "Spectre.FPlace.C168_placed_sphere_partial",
    "Spectre.FPlace.C168_inverse_partial",
    "Spectre.FPlace.C168_scaled_inverse_partial",
    "Spectre.FPlace.C168_inverse_accuracy",
    "Spectre.FPlace.C168_left_inverse",
    "Spectre.FPlace.C168_round_trip_origin",
    "Spectre.FPlace.C168_round_trip_direction",
    "Spectre.FPlace.C168_vector_accuracy",
    "Spectre.FPlace.C168_normal",
    "Spectre.FPlace.C168_placement_accuracy",
    "Spectre.FPlace.C168_placed",
    "Spectre.FPlace.C168_placed_ray",
    "Spectre.FPlace.C168_violated_inverse",
    "Spectre.FPlace.C168_violated_statement",
    "Spectre.FPlace.C168_violated_infinite"
   ],
   "note": "Matrices built from position, rotation and scale have the last row 0 0 0 1 exactly, so no finite point is divided; images are within 5*2^-24 of the sum of the absolute terms; the image of every binary32 point of the unit ball or box is inside the box of the placed shape exactly, rounding included; vertices of triangles are inside exactly, exact inner points up to 21*2^-24 of the size. The inverse has zeros in its last row and numbers elsewhere; for scaled and moved objects its entries are within 8*2^-24. Violated: the last entry of the inverse need not be one (scale 41), so origins of rays are divided by it but not directions; infinite points become NaN. The entries of a placement are within 10*2^-24 of the exact rotation times the scale and its movement is the position exactly; for any affine map with determinant D and entries up to L the inverse is one from both sides up to 160*2^-24*L^3/|D|, rays taken to the object and back return up to 1000*2^-24*L^3/|D| of their size, and normals keep their products with moved vectors up to 1800*2^-24*L^3/|D|; placed objects meet the conditions. Not covered: values of cosf and sinf."
  },
  {
   "property": "C169",
   "status": "partial",
   "theorems": [
    "Spectre.FRough.C169_oren_constants",
    "Spectre.FRough.C169_oren_partial",
    "Spectre.FRough.C169_fit",
    "Spectre.FRough.C169_fit_above_one",
    "Spectre.FRough.C169_blinn_exponent",
    "Spectre.FRough.C169_sigma_accuracy",
    "Spectre.FRough.C169_oren_accuracy",
    "Spectre.FRough.C169_oren_value_partial",
    "Spectre.FRough.C169_fit_accuracy",
    "Spectre.FRough.C169_blinn_accuracy",
    "Spectre.FRough.C169_blinn_angle_accuracy",
    "Spectre.FRough.C169_blinn_exponent_accuracy",
    "Spectre.FRough.C169_beckmann_accuracy",
    "Spectre.FRough.C169_aniso_accuracy",
    "Spectre.FRough.C169_lambda_accuracy",
    "Spectre.FRough.C169_aniso_g_accuracy",
    "Spectre.FRough.C169_aniso_angle_accuracy",
    "Spectre.FRough.C169_blinn_visible",
    "Spectre.FRough.C169_beckmann_visible",
    "Spectre.FRough.C169_blinn_density",
    "Spectre.FRough.C169_blinn_sample",
    "Spectre.FRough.C169_aniso_sample",
    "Spectre.FRough.C169_aniso_visible",
    "Spectre.FRough.C169_beckmann_density_partial",
    "Spectre.FRough.C169_violated_masking",
    "Spectre.FRough.C169_aniso_density_partial",
    "Spectre.FRough.C169_violated_oren",
    "Spectre.FRough.C169_violated_beckmann",
    "Spectre.FRough.C169_violated_aniso",
    "Spectre.FRough.C169_violated_statement"
   ],
   "note": "In binary32: the constants of Oren-Nayar are in [1/2, 1] and [0, 1/2] and its factor is a number at least A and at most 1 + 1/cosine unless both cosines are below the normal range; the exponent of Blinn is in [0, 100000] also when the squared roughness underflows; shadowing of Blinn and Beckmann is in [0, 1 + 2^-13], of the anisotropic GGX in [0, 1], for all directions; the densities are numbers for cosines of at least 2^-20 (Beckmann), 2^-26 (anisotropic), all (Blinn); sampled half vectors are of unit length up to 13*2^-24 and on the side of the viewer. Violated: Oren-Nayar is NaN for two opposite directions along the surface (0*inf), Beckmann at cosine 2^-40 (0/0), the anisotropic density at 2^-32 (inf*0), and the fit of the shadowing exceeds one. Accuracy, for cosines of at least 2^-12: constants, fit, densities, shadowing and sampled angles are within 4 to 100 times 2^-24 of the exact formulas evaluated at the computed powf and expf. powf, expf and the cosine and sine of the azimuth are any functions with the ranges of the specification."
  },
  {
   "property": "C170",
   "status": "partial",
   "theorems": [
    "Spectre.FFrame.C170_shading_frame",
    "Spectre.FFrame.C170_to_world",
    "Spectre.FFrame.C170_to_shading",
    "Spectre.FFrame.C170_world_and_back",
    "Spectre.FFrame.C170_shading_and_back",
    "Spectre.FFrame.C170_side",
    "Spectre.FFrame.C170_camera_frame",
    "Spectre.FFrame.C170_camera_origin",
    "Spectre.FFrame.C170_camera_direction",
    "Spectre.FFrame.C170_ortho_direction",
    "Spectre.FFrame.C170_panorama_direction",
    "Spectre.FFrame.C170_violated_vertical",
    "Spectre.FFrame.C170_violated_statement"
   ],
   "note": "All of the statement is proved in binary32 for every camera whose up vector has an angle to the view with a sine of at least 2^-12. A camera that looks straight along its up vector has no finite ray (C170_violated_vertical). The values of sinf and cosf of the panoramic camera are any numbers with a sum of squares of one up to 1e-6."
  },
  {
   "property": "C171",
   "status": "partial",
   "theorems": [
    "Spectre.FTex.C171_wrap",
    "Spectre.FTex.C171_bilinear",
    "Spectre.FTex.C171_bilinear_range",
    "Spectre.FTex.C171_unfiltered",
    "Spectre.FTex.C171_level",
    "Spectre.FTex.C171_trilinear_iff",
    "Spectre.FTex.C171_trilinear_range",
    "Spectre.FTex.C171_solve",
    "Spectre.FTex.C171_differentials_partial",
    "Spectre.FTex.C171_ewa_sums",
    "Spectre.FTex.C171_ewa",
    "Spectre.FTex.C171_ewa_flat",
    "Spectre.FTex.C171_ewa_weight",
    "Spectre.FTex.C171_ewa_outside",
    "Spectre.FTex.C171_violated_ewa_diagonal",
    "Spectre.FTex.C171_violated_wrap",
    "Spectre.FTex.C171_violated_bilinear",
    "Spectre.FTex.C171_violated_trilinear",
    "Spectre.FTex.C171_violated_ewa",
    "Spectre.FTex.C171_violated_horizon",
    "Spectre.FTex.C171_violated_sharp",
    "Spectre.FTex.C171_violated"
   ],
   "note": "log2f is a parameter with three assumptions (Log2Spec). Lookups of one texel and between texels are proved for all coordinates in [0,1] and sides up to 32768; lookups between levels for all differentials, also infinities and NaN. The code violates the property: a neighbouring ray parallel to the surface makes the differentials NaN while they are flagged as known, and the elliptical lookup then converts NaN to an integer; footprints near one read a level that does not exist; a white texture is read as 254. Elliptical lookups: the sums over up to 2^14 texels stay between the least and the greatest texel up to one, and the lookup is defined exactly if the total weight is positive; diagonal footprints such as (1,2),(1,0) in texels make it undefined on every level. Missing: a condition on footprints for a positive total weight in binary32 (exact arithmetic: C46)."
  },
  {
   "property": "C172",
   "status": "partial",
   "theorems": [
    "Spectre.FLight.C172_box",
    "Spectre.FLight.C172_box_densities",
    "Spectre.FLight.C172_mesh",
    "Spectre.FLight.C172_mesh_densities",
    "Spectre.FLight.C172_triangle",
    "Spectre.FLight.C172_sphere",
    "Spectre.FLight.C172_violated_box",
    "Spectre.FLight.C172_violated_hang",
    "Spectre.FLight.C172_violated_absorbed",
    "Spectre.FLight.C172_violated_single",
    "Spectre.FLight.C172_violated_outside",
    "Spectre.FLight.C172_violated_search",
    "Spectre.FLight.C172_violated"
   ],
   "note": "Points sampled on boxes, meshes, triangles and spheres with the roundings of binary32. cosf and sinf are two numbers whose squares add up to one up to a given error. Proved for every random number below one (boxes, meshes) and for all random numbers (triangles, spheres); surfaces of boxes within 12 2^-24, cumulative surfaces of meshes within one rounding per triangle. The code violates the property for the random number one if the surface of the last face is lost in the sum: the point of a box is not a number and the search of a mesh is endless; small triangles beside a large one are never chosen; points of triangles can be beside the triangle by a rounding."
  },
  {
   "property": "C173",
   "status": "partial",
   "theorems": [
    "Spectre.FBox.C173_hit",
    "Spectre.FBox.C173_outside",
    "Spectre.FBox.C173_inside",
    "Spectre.FBox.C173_frame",
    "Spectre.FBox.C173_violated_plane",
    "Spectre.FBox.C173_violated_plane_one",
    "Spectre.FBox.C173_violated"
   ],
   "note": "Box::intersect with the roundings, infinities and NaN of binary32, for an object without mask. Proved for all origins up to 2^60 and directions with components that are zero or of a size from 2^-60 to 2, unless a component is zero and the origin is in the plane of a face; the frame of the hit for all numbers. The code violates the property for rays in the plane of a face: 0 times infinity is NaN, and every ray in the plane x = 0 is reported to hit the box when it leaves the other slabs in front of the origin, wherever it passes. Hits from inside take the normal of the axis of entry (C64)."
  },
  {
   "property": "C174",
   "status": "partial",
   "theorems": [
    "Spectre.FAsset.C174_tangent",
    "Spectre.FAsset.C174_normal",
    "Spectre.FAsset.C174_angle",
    "Spectre.FAsset.C174_side",
    "Spectre.FAsset.C174_tangent_turned",
    "Spectre.FAsset.C174_normal_turned",
    "Spectre.FAsset.C174_side_turned",
    "Spectre.FAsset.C174_shape",
    "Spectre.FAsset.C174_box_partial",
    "Spectre.FAsset.C174_violated_box",
    "Spectre.FAsset.C174_violated"
   ],
   "note": "What Asset::intersect does with the hit of a shape, with the roundings of binary32. Proved for placements that scale and move, and with a bound of 2^-15 for turned ones whose rows do not cancel by more than a factor of eight. The code violates the property for boxes: Box::intersect never writes dpdv, which is the zero vector of a new HitPoint and NaN after normalize()."
  },
  {
   "property": "C175",
   "status": "partial",
   "theorems": [
    "Spectre.FArea.C175_scale",
    "Spectre.FArea.C175_sphere",
    "Spectre.FArea.C175_box",
    "Spectre.FArea.C175_sphere_density",
    "Spectre.FArea.C175_box_density",
    "Spectre.FArea.C175_density",
    "Spectre.FArea.C175_triangle",
    "Spectre.FArea.C175_triangle_placed",
    "Spectre.FArea.C175_corner",
    "Spectre.FArea.C175_violated_large",
    "Spectre.FArea.C175_violated_small",
    "Spectre.FArea.C175_violated"
   ],
   "note": "Areas of spheres and boxes and the densities in area_light.cpp with the roundings of binary32. A sphere is taken to have its first size in all directions, as in the code. The point found on the light comes from the intersection and is given by its distance (Sight); grazing angles (cosine below 2^-8) and observers far from the origin of the light are left out. Violated by lights of the size 2^64 or 2^-80.."
  },
  {
   "property": "C176",
   "status": "proved",
   "theorems": [
    "Spectre.Direct.C176_light",
    "Spectre.Direct.C176_material",
    "Spectre.Direct.C176_material_unseen",
    "Spectre.Direct.C176_material_black",
    "Spectre.Direct.C176_both",
    "Spectre.Direct.C176_visible"
   ],
   "note": "One channel of the spectra; is_black of all three channels is simplified to that channel, as in Direct.lean. The values of the material and its density are given numbers; occlusion is not part of it. Densities outside of the range overflow: C150."
  },
  {
   "property": "C177",
   "status": "proved",
   "theorems": [
    "Spectre.FPath.C177_bounded",
    "Spectre.FPath.C177_vertices",
    "Spectre.FPath.C177_near",
    "Spectre.FPath.C177_roulette"
   ],
   "note": "path_tracer.cpp with the three channels of the colour build and the roundings of binary32. A path is given by what l_rec meets at its vertices; direct light is that of C176. Nearness is stated before the roulette sets in and for bright paths through it; a path with a luminance below one half at the fifth vertex is only bounded. What the roulette does to the expected value is the matter of C34."
  },
  {
   "property": "C178",
   "status": "proved",
   "theorems": [
    "Spectre.FChoice.C178_light",
    "Spectre.FChoice.C178_part",
    "Spectre.FChoice.C178_inexact"
   ],
   "note": "The binary32 counterpart of C35. C178_inexact shows that the allowance of 2^-23 is needed: of six lights the last one is chosen for a number below 5/6."
  },
  {
   "property": "C179",
   "status": "proved",
   "theorems": [
    "Spectre.FSampler.C179_random",
    "Spectre.FSampler.C179_stratum",
    "Spectre.FSampler.C179_end"
   ],
   "note": "One coordinate; which pixels and strata are visited is the matter of C07 and C08. C179_end: the right end of the pixel, which belongs to the next one, is reached by random numbers below one, already in the pixel 1."
  }
 ]
}