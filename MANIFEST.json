{
 "claims": [
  {
   "property": "C01",
   "status": "proved",
   "theorems": [
    "Auburn.C01_inverse_vec2",
    "Auburn.C01_inverse_translate2d",
    "Auburn.C01_inverse_axis_iff",
    "Auburn.C01_inverse_axis_finding",
    "Auburn.C01_inverse_transform2d_iff",
    "Auburn.C01_inverse_transform2d_finding"
   ],
   "note": "Holds for Vec2/Translate2d; for AxisTransform2d iff position 0 or scale 1 (finding); Transform2d iff characterised (finding for non-uniform scale with rotation)."
  },
  {
   "property": "C02",
   "status": "proved",
   "theorems": [
    "Auburn.C02_compose_vec2",
    "Auburn.C02_compose_translate2d",
    "Auburn.C02_compose_axis",
    "Auburn.C02_compose_transform2d_iff",
    "Auburn.C02_compose_transform2d_finding"
   ],
   "note": "Transform2d: exact characterisation of when compose is right, with a counterexample (finding)."
  },
  {
   "property": "C03",
   "status": "proved",
   "theorems": [
    "Auburn.C03_unapply_identity",
    "Auburn.C03_unapply_vec2",
    "Auburn.C03_unapply_translate2d",
    "Auburn.C03_unapply_axis",
    "Auburn.C03_unapply_transform2d",
    "Auburn.C03_unapply_bevy"
   ],
   "note": "Exact arithmetic: any ordered field K (the f32 version of the transforms/extreme points is in C90/C91). Non-zero scales (axis: scale; bevy/Transform2d: scale and a unit rotor) are hypotheses."
  },
  {
   "property": "C04",
   "status": "proved",
   "theorems": [
    "Auburn.C04_delta_vec2",
    "Auburn.C04_delta_translate2d",
    "Auburn.C04_delta_axis_iff",
    "Auburn.C04_delta_axis_finding",
    "Auburn.C04_delta_transform2d_uniform",
    "Auburn.C04_delta_transform2d_iff",
    "Auburn.C04_delta_transform2d_finding"
   ],
   "note": "Transform2d: exact characterisation (C04_delta_transform2d_iff) with a counterexample."
  },
  {
   "property": "C05",
   "status": "proved",
   "theorems": [
    "Auburn.C05_rotor_isometry",
    "Auburn.C05_rotor_group",
    "Auburn.C05_from_angle",
    "Auburn.C05_angle"
   ],
   "note": "Exact arithmetic: any ordered field K (the f32 version of the transforms/extreme points is in C90/C91). from_angle/angle are over the reals with Mathlib's cos, sin and arg."
  },
  {
   "property": "C06",
   "status": "proved",
   "theorems": [
    "Auburn.C06_from_quaternion_z",
    "Auburn.C06_from_quaternion_iff",
    "Auburn.C06_from_quaternion_angle"
   ],
   "note": "Exact arithmetic over any ordered field K. from_quaternion_iff says exactly which quaternions give the right rotor."
  },
  {
   "property": "C07",
   "status": "proved",
   "theorems": [
    "Auburn.C07_normals_bevy",
    "Auburn.C07_normals_identity",
    "Auburn.C07_normals_vec2",
    "Auburn.C07_normals_translate2d",
    "Auburn.C07_normals_axis",
    "Auburn.C07_normals_transform2d"
   ],
   "note": "Exact arithmetic: any ordered field K (the f32 version of the transforms/extreme points is in C90/C91). All six transformation types."
  },
  {
   "property": "C08",
   "status": "proved",
   "theorems": [
    "Auburn.C08_extreme_point_point",
    "Auburn.C08_extreme_point_box",
    "Auburn.C08_extreme_point_ball",
    "Auburn.C08_extreme_point_rounded_box",
    "Auburn.C08_extreme_point_poly",
    "Auburn.C08_extreme_point_poly_far_finding",
    "Auburn.C08_extreme_point_shape2d"
   ],
   "note": "Exact arithmetic: any ordered field K (the f32 version of the transforms/extreme points is in C90/C91). Box, ball and rounded box need non-negative sizes; polygons contain the origin, as documented (finding: without it the answer can be wrong)."
  },
  {
   "property": "C09",
   "status": "proved",
   "theorems": [
    "Auburn.C09_collider_extreme_box",
    "Auburn.C09_collider_extreme_poly",
    "Auburn.C09_collider_extreme_shape2d",
    "Auburn.C09_collider_extreme_point",
    "Auburn.C09_collider_extreme_ball",
    "Auburn.C09_collider_extreme_box_nonuniform",
    "Auburn.C09_collider_extreme_poly_nonuniform_finding"
   ],
   "note": "Exact arithmetic: any ordered field K (the f32 version of the transforms/extreme points is in C90/C91). Uniform scale for rotated shapes; boxes also for non-uniform scale; the non-uniform polygon case is refuted (finding)."
  },
  {
   "property": "C10",
   "status": "proved",
   "theorems": [
    "Auburn.C10_f32_poly_extreme",
    "Auburn.C10_poly_extreme_vertex_or_zero",
    "Auburn.C10_poly_extreme_vertex"
   ],
   "note": "C10_f32_* on binary32; the other two for any ordered field."
  },
  {
   "property": "C11",
   "status": "proved",
   "theorems": [
    "Auburn.C11_minkowski_support",
    "Auburn.C11_exact_support_shapes"
   ],
   "note": "Exact arithmetic: any ordered field K (the f32 version of the transforms/extreme points is in C90/C91). Support function of the difference set for every pair of shapes with an exact extreme point."
  },
  {
   "property": "C12",
   "status": "proved",
   "theorems": [
    "Auburn.C12_f32_bounding_box_poly",
    "Auburn.C12_bounding_box_point",
    "Auburn.C12_bounding_box_box",
    "Auburn.C12_bounding_box_ball",
    "Auburn.C12_bounding_box_rounded_box",
    "Auburn.C12_bounding_box_poly"
   ],
   "note": "C12_f32_* on binary32, the others for any ordered field."
  },
  {
   "property": "C13",
   "status": "proved",
   "theorems": [
    "Auburn.C13_f32_cover",
    "Auburn.C13_cover_sequence",
    "Auburn.C13_cover",
    "Auburn.C13_cover_algebra"
   ],
   "note": "C13_f32_* on binary32; cover_sequence is by induction over any list of points."
  },
  {
   "property": "C14",
   "status": "proved",
   "theorems": [
    "Auburn.C14_strict_check_iff",
    "Auburn.C14_strict_check_sound",
    "Auburn.C14_strict_check_complete",
    "Auburn.C14_strict_check_origin_finding",
    "Auburn.C14_strict_check_convex_finding"
   ],
   "note": "C14_strict_check_iff is the exact characterisation; the documented claims (origin strictly inside, convex position) are refuted by C14_*_finding."
  },
  {
   "property": "C15",
   "status": "proved",
   "theorems": [
    "Auburn.C15_poly_from_box"
   ],
   "note": "Exact arithmetic over any ordered field K. Equality of regions as sets of points."
  },
  {
   "property": "C16",
   "status": "proved",
   "theorems": [
    "Auburn.C16_regular",
    "Auburn.C16_regular_upright",
    "Auburn.C16_regular_origin",
    "Auburn.C16_regular_edges"
   ],
   "note": "Over the reals with Mathlib's sin and cos; every number of sides >= 1 (origin inside: >= 2)."
  },
  {
   "property": "C17",
   "status": "proved",
   "theorems": [
    "Auburn.C17_ball_ball_collides",
    "Auburn.C17_ball_ball_open_discs",
    "Auburn.C17_coincident_finding",
    "Auburn.C17_scale_finding"
   ],
   "note": "Coincident centres report a collision even for radius 0 (C17_coincident_finding); the scale of the relative transform is ignored (C17_scale_finding), so the theorems are for rigid placements."
  },
  {
   "property": "C18",
   "status": "proved",
   "theorems": [
    "Auburn.C18_ball_ball_resolves"
   ],
   "note": "Exact arithmetic over any ordered field K. The relative transformation may be any of the modelled similarities of factor 1."
  },
  {
   "property": "C19",
   "status": "proved",
   "theorems": [
    "Auburn.C19_ball_ball_sdf"
   ],
   "note": "Exact arithmetic over any ordered field K. Signed distance in the sense of Spec/Sets (SignedDist)."
  },
  {
   "property": "C20",
   "status": "proved",
   "theorems": [
    "Auburn.C20_ball_point"
   ],
   "note": "Exact arithmetic over any ordered field K. Collision, vector and signed distance in one theorem."
  },
  {
   "property": "C21",
   "status": "proved",
   "theorems": [
    "Auburn.C21_f32_box_point_collides",
    "Auburn.C21_f32_nan_finding",
    "Auburn.C21_box_point_collides"
   ],
   "note": "C21_f32_* on binary32 with the NaN case as a finding; the other for any ordered field."
  },
  {
   "property": "C22",
   "status": "proved",
   "theorems": [
    "Auburn.C22_box_point_vectors"
   ],
   "note": "Exact arithmetic over any ordered field K. Least resolution inside, nearest point outside."
  },
  {
   "property": "C23",
   "status": "proved",
   "theorems": [
    "Auburn.C23_box_point_sdf"
   ],
   "note": "Exact arithmetic over any ordered field K. Exact square root needed only for the corner regions."
  },
  {
   "property": "C24",
   "status": "proved",
   "theorems": [
    "Auburn.C24_f32_point_point",
    "Auburn.C24_point_point"
   ],
   "note": "C24_f32_* on binary32."
  },
  {
   "property": "C25",
   "status": "proved",
   "theorems": [
    "Auburn.C25_box_ball_collides",
    "Auburn.C25_radius_zero_finding"
   ],
   "note": "Holds for every positive radius; with radius 0 an x-face and y-face boundary are treated the same but the flag of an interior point still reports true: see C25_radius_zero_finding."
  },
  {
   "property": "C26",
   "status": "proved",
   "theorems": [
    "Auburn.C26_box_ball_resolves",
    "Auburn.C26_box_ball_face_contact",
    "Auburn.C26_face_finding",
    "Auburn.C26_box_ball_resolves_iff"
   ],
   "note": "C26_box_ball_resolves_iff: exact; on the x-face lines the code returns a y push (C26_face_finding); what does hold there is C26_box_ball_face_contact."
  },
  {
   "property": "C27",
   "status": "proved",
   "theorems": [
    "Auburn.C27_box_ball_sdf_finding",
    "Auburn.C27_box_ball_sdf_axis",
    "Auburn.C27_separated",
    "Auburn.C27_separated_finding",
    "Auburn.C27_sign_finding"
   ],
   "note": "C27_separated is the exact characterisation for separated shapes; C27_separated_finding, C27_box_ball_sdf_finding, C27_sign_finding refute the naive claim."
  },
  {
   "property": "C28",
   "status": "proved",
   "theorems": [
    "Auburn.C28_rounded_box_sdf"
   ],
   "note": "Exact arithmetic over any ordered field K. Positive corner radius; |sdf| = |sdfv| excludes points on the face line x = half size, where the code's vector is different."
  },
  {
   "property": "C29",
   "status": "proved",
   "theorems": [
    "Auburn.C29_point_box",
    "Auburn.C29_point_ball"
   ],
   "note": "Exact arithmetic over any ordered field K. Reversible: the relative transformation and its inverse are isometries inverse to each other (all rigid types)."
  },
  {
   "property": "C30",
   "status": "proved",
   "theorems": [
    "Auburn.C30_agree_ball_ball",
    "Auburn.C30_agree_ball_point",
    "Auburn.C30_agree_point_point",
    "Auburn.C30_agree_rounded_box_point",
    "Auburn.C30_agree_box_ball",
    "Auburn.C30_agree_box_point",
    "Auburn.C30_agree_point_box",
    "Auburn.C30_agree_point_ball",
    "Auburn.C30_colliders_agree"
   ],
   "note": "Holds for any float type, f32 with rounding, infinities and NaN included. collides/penetrates/sdf/sdfv as forms of one answer, for each hand written pair and at collider level."
  },
  {
   "property": "C31",
   "status": "proved",
   "theorems": [
    "Auburn.C31_world_frame_transform2d",
    "Auburn.C31_world_frame_sdf_transform2d",
    "Auburn.C31_world_frame_sdf_translation",
    "Auburn.C31_world_frame_vec2",
    "Auburn.C31_world_frame_translate2d",
    "Auburn.C31_axis_finding"
   ],
   "note": "Vec2, Translate2d, Transform2d (uniform scale of the first collider), any shape pair. AxisTransform2d violates it (C31_axis_finding)."
  },
  {
   "property": "C32",
   "status": "proved",
   "theorems": [
    "Auburn.C32_sdfv_world",
    "Auburn.C32_sdfv_world_ball_ball",
    "Auburn.C32_sdfv_world_box_point",
    "Auburn.C32_penetrates_frame_finding",
    "Auburn.C32_self_frame_ball_ball",
    "Auburn.C32_self_frame_box_point"
   ],
   "note": "sdfv is proved to be the world-frame answer; penetrates/distance_to are not rotated back to the world (C32_penetrates_frame_finding)."
  },
  {
   "property": "C33",
   "status": "proved",
   "theorems": [
    "Auburn.C33_rel_no_panic",
    "Auburn.C33_collider_no_panic",
    "Auburn.C33_sdfv_only_explicit_panic",
    "Auburn.C33_pairs"
   ],
   "note": "Holds for any float type, f32 with rounding, infinities and NaN included. Panics are modelled as a value of the result; only the explicit panic of sdfv is left and it is characterised."
  },
  {
   "property": "C34",
   "status": "proved",
   "theorems": [
    "Auburn.C34_sdfv_no_panic",
    "Auburn.C34_small_boxes_finding",
    "Auburn.C34_overlap_no_panic",
    "Auburn.C34_sdfv_panic_finding"
   ],
   "note": "Overlapping interiors: no condition. Resolvable shapes (C34_sdfv_no_panic): overlapping, touching or apart. The unrestricted claim is refuted by two findings."
  },
  {
   "property": "C35",
   "status": "proved",
   "theorems": [
    "Auburn.C35_collides_false",
    "Auburn.C35_penetrates_none"
   ],
   "note": "Exact arithmetic over any ordered field K. The negative answer comes with a separating direction; binary32 version: C86."
  },
  {
   "property": "C36",
   "status": "proved",
   "theorems": [
    "Auburn.C36_penetrates_some",
    "Auburn.C36_penetrates_grid",
    "Auburn.C36_penetrates_disjoint_finding"
   ],
   "note": "The exact claim is refuted by C36_penetrates_disjoint_finding; tolerance version for all convex pairs, exact version on grids."
  },
  {
   "property": "C37",
   "status": "proved",
   "theorems": [
    "Auburn.C37_collides_true",
    "Auburn.C37_collides_true_length"
   ],
   "note": "Exact arithmetic over any ordered field K. Distance at most the tolerance of the too-small test; binary32 version: C86."
  },
  {
   "property": "C38",
   "status": "proved",
   "theorems": [
    "Auburn.C38_box_box_collides",
    "Auburn.C38_box_box_penetrates",
    "Auburn.C38_box_box_penetrates_grid"
   ],
   "note": "collides: exact for overlaps; penetrates: with margin, or exact on grids."
  },
  {
   "property": "C39",
   "status": "proved",
   "theorems": [
    "Auburn.C39_corners_poly_poly",
    "Auburn.C39_corners_box_poly",
    "Auburn.C39_corners_shape2d",
    "Auburn.C39_poly_poly",
    "Auburn.C39_poly_poly_penetrates",
    "Auburn.C39_box_poly"
   ],
   "note": "Exact arithmetic over any ordered field K. The extreme points of the difference are met in the order of the directions, one corner at a time, so there are at most n + m of them (Lib/Fan.lean, Props/Corners.lean). Without the limit: C92 (deep), C96 (lattice)."
  },
  {
   "property": "C40",
   "status": "proved",
   "theorems": [
    "Auburn.C40_penetrates_separates",
    "Auburn.C40_sdfv_separates"
   ],
   "note": "Vector ZERO is what the code returns at the iteration limit and is excluded."
  },
  {
   "property": "C41",
   "status": "proved",
   "theorems": [
    "Auburn.C41_penetrates_minimal",
    "Auburn.C41_penetrates_minimal_grid",
    "Auburn.C41_no_margin_finding"
   ],
   "note": "Margin and grid versions; C41_no_margin_finding shows a hypothesis is needed, C93_zero_push_finding that the zero alternative happens."
  },
  {
   "property": "C42",
   "status": "proved",
   "theorems": [
    "Auburn.C42_corners_poly_poly",
    "Auburn.C42_corners_shape2d",
    "Auburn.C42_corners_grid",
    "Auburn.C42_box_box",
    "Auburn.C42_poly_poly",
    "Auburn.C42_box_box_grid"
   ],
   "note": "penetrates and sdfv. n + m bound as in C39; Proper = contains its origin, and has an area or at most two vertices."
  },
  {
   "property": "C43",
   "status": "proved",
   "theorems": [
    "Auburn.C43_distance_to_contact",
    "Auburn.C43_sdfv_contact",
    "Auburn.C43_distance_lower_bound",
    "Auburn.C43_overlap_none",
    "Auburn.C43_hit_touch"
   ],
   "note": "distance_to and sdfv; None for overlapping shapes with a margin; None/collision only for touching shapes if resolvable."
  },
  {
   "property": "C44",
   "status": "proved",
   "theorems": [
    "Auburn.C44_box_box_shortest",
    "Auburn.C44_box_box_sdfv",
    "Auburn.C44_corners_shape2d",
    "Auburn.C44_shortest_iff",
    "Auburn.C44_not_shortest_finding",
    "Auburn.C44_distance_shortest_or_corner",
    "Auburn.C44_sdfv_shortest_or_corner",
    "Auburn.C44_far_from_shortest_finding"
   ],
   "note": "For two boxes under any rotation the vector is always shortest (C44_box_box_shortest, C44_box_box_sdfv: every path of the search is followed). For polygons that claim is false (C44_not_shortest_finding, C44_far_from_shortest_finding); the statement says exactly what is returned instead."
  },
  {
   "property": "C45",
   "status": "proved",
   "theorems": [
    "Auburn.C45_distance_to",
    "Auburn.C45_distance_to_shortest",
    "Auburn.C45_penetrates",
    "Auburn.C45_penetrates_grid",
    "Auburn.C45_distance_to_grid"
   ],
   "note": "Exact-arithmetic signum of 0 is one fixed sign, so centres sharing a coordinate are covered by C42 (1 %) rather than by the exact statement for penetrates."
  },
  {
   "property": "C46",
   "status": "proved",
   "theorems": [
    "Auburn.C46_support_evaluations",
    "Auburn.C46_api"
   ],
   "note": "Holds for any float type, f32 with rounding, infinities and NaN included. Stated as: there are at most N directions such that two inputs agreeing on them give the same answer."
  },
  {
   "property": "C47",
   "status": "proved",
   "theorems": [
    "Auburn.C47_extreme_point",
    "Auburn.C47_queries"
   ],
   "note": "Holds for any float type, f32 with rounding, infinities and NaN included. Shape2d dispatch against the wrapped shape for all shapes and queries."
  },
  {
   "property": "C48",
   "status": "proved",
   "theorems": [
    "Auburn.C48_direct_pairs_strict",
    "Auburn.C48_touching_boxes_finding"
   ],
   "note": "C48_touching_boxes_finding: two touching box pairs, one reported as colliding by all queries, the other by none."
  },
  {
   "property": "C49",
   "status": "proved",
   "theorems": [
    "Auburn.C49_tilemap_refines_map"
   ],
   "note": "Any history of calls, refinement to a finite map. Coordinates are integers; C50_no_overflow shows that i32 inputs stay in range."
  },
  {
   "property": "C50",
   "status": "proved",
   "theorems": [
    "Auburn.C50_chunk_decomposition",
    "Auburn.C50_no_overflow"
   ],
   "note": "All integer coordinates; C50_no_overflow for i32."
  },
  {
   "property": "C51",
   "status": "proved",
   "theorems": [
    "Auburn.C51_chunk_bookkeeping",
    "Auburn.C51_remove_keeps_no_empty_chunk",
    "Auburn.C51_set_zero_creates_chunk"
   ],
   "note": "Any history of calls."
  },
  {
   "property": "C52",
   "status": "proved",
   "theorems": [
    "Auburn.C52_set_tile_events",
    "Auburn.C52_remove_tile_events",
    "Auburn.C52_replay",
    "Auburn.C52_replay_run",
    "Auburn.C52_remove_silent_finding",
    "Auburn.C52_remove_phantom_finding"
   ],
   "note": "Any history; two findings about removals that are silent or report tiles that never existed."
  },
  {
   "property": "C53",
   "status": "proved",
   "theorems": [
    "Auburn.C53_save_load"
   ],
   "note": "Hash map iteration order is modelled as any permutation of the chunk list; bytes of the serde format are not modelled."
  },
  {
   "property": "C54",
   "status": "proved",
   "theorems": [
    "Auburn.C54_tilemap_point",
    "Auburn.C54_tilemap_point_vector",
    "Auburn.C54_penetrates_not_resolving_finding"
   ],
   "note": "Exact arithmetic over any ordered field K. A point on the border of a cell rounds to one of the touching cells; the vector is always (0,1), which need not resolve the collision (finding)."
  },
  {
   "property": "C55",
   "status": "proved",
   "theorems": [
    "Auburn.C55_quantize"
   ],
   "note": "Exact arithmetic over any ordered field K. floor/ceil by their laws; tile numbers are unbounded integers here (the i32 cast is treated with the Int32 model)."
  },
  {
   "property": "C56",
   "status": "proved",
   "theorems": [
    "Auburn.C56_no_panic",
    "Auburn.C56_no_solid_tile",
    "Auburn.C56_order",
    "Auburn.C56_unchanged",
    "Auburn.C56_single",
    "Auburn.C56_unchanged_apart",
    "Auburn.C56_ball_single",
    "Auburn.C56_two_tiles_finding"
   ],
   "note": "C56_two_tiles_finding: with two solid tiles the result can still overlap one of them."
  },
  {
   "property": "C57",
   "status": "proved",
   "theorems": [
    "Auburn.C57_iterate_north_east",
    "Auburn.C57_iterate_south_east",
    "Auburn.C57_iterate_south_west",
    "Auburn.C57_iterate_north_west",
    "Auburn.C57_iterate_dispatch",
    "Auburn.C57_iterate_perm"
   ],
   "note": "All integer rectangles; order and multiplicity as equality of lists."
  },
  {
   "property": "C58",
   "status": "proved",
   "theorems": [
    "Auburn.C58_pad_iff",
    "Auburn.C58_pad_finding",
    "Auburn.C58_pad_moves"
   ],
   "note": "pad subtracts the padding from max: exact characterisation and counterexample to the intended claim."
  },
  {
   "property": "C59",
   "status": "proved",
   "theorems": [
    "Auburn.C59_ledger",
    "Auburn.C59_hashset_ledger",
    "Auburn.C59_callback_publisher"
   ],
   "note": "Any sequence of attach and notify calls."
  },
  {
   "property": "C60",
   "status": "proved",
   "theorems": [
    "Auburn.C60_f32_nan",
    "Auburn.C60_f32_infinity_finding",
    "Auburn.C60_f32_refl",
    "Auburn.C60_approx_default",
    "Auburn.C60_approx_iff",
    "Auburn.C60_approx_refl",
    "Auburn.C60_approx_symmetric_finding"
   ],
   "note": "C60_f32_* on binary32, others for any ordered field; symmetry and infinities are findings. C60_approx_default: the default tolerance."
  },
  {
   "property": "C61",
   "status": "proved",
   "theorems": [
    "Auburn.C61_f32_refl",
    "Auburn.C61_f32_refl_v3",
    "Auburn.C61_f32_underflow_finding",
    "Auburn.C61_f32_nan_zero_finding",
    "Auburn.C61_f32_nan",
    "Auburn.C61_f32_nan_v3",
    "Auburn.C61_f32_infinity_finding",
    "Auburn.C61_f32_infinity_v3_finding",
    "Auburn.C61_approx_default_vec2",
    "Auburn.C61_approx_default_vec3",
    "Auburn.C61_approx_transitive_finding",
    "Auburn.C61_f32_default_refl",
    "Auburn.C61_f32_default_nan",
    "Auburn.C61_approx_vec2_iff",
    "Auburn.C61_approx_vec2_equiv",
    "Auburn.C61_approx_vec3_iff",
    "Auburn.C61_approx_vec3_equiv"
   ],
   "note": "exact characterisation; f32: reflexive on finite vectors, NaN, infinity and underflow behaviour (findings). Default tolerance: C61_approx_default_vec2/_vec3, C61_f32_default_*; not transitive: C61_approx_transitive_finding."
  },
  {
   "property": "C62",
   "status": "proved",
   "theorems": [
    "Auburn.C62_f32_lerp_finding",
    "Auburn.C62_f32_lerp_zero",
    "Auburn.C62_lerp"
   ],
   "note": "C62_f32_* on binary32 (finding: lerp at 1 is not the end point), C62_lerp exact."
  },
  {
   "property": "C63",
   "status": "proved",
   "theorems": [
    "Auburn.C63_unapply_vec3",
    "Auburn.C63_unapply_identity",
    "Auburn.C63_unapply_translate3d",
    "Auburn.C63_unapply_axis",
    "Auburn.C63_unapply_isotropic",
    "Auburn.C63_unapply_transform3d",
    "Auburn.C63_unapply_bevy",
    "Auburn.C63_inverse_vec3",
    "Auburn.C63_inverse_translate3d",
    "Auburn.C63_inverse_axis_iff",
    "Auburn.C63_inverse_axis_finding",
    "Auburn.C63_inverse_isotropic",
    "Auburn.C63_inverse_transform3d_finding",
    "Auburn.C63_compose_vec3",
    "Auburn.C63_compose_translate3d",
    "Auburn.C63_compose_axis",
    "Auburn.C63_compose_isotropic",
    "Auburn.C63_compose_transform3d_finding",
    "Auburn.C63_bevy_is_transform3d",
    "Auburn.C63_isotropic_of_bevy",
    "Auburn.C63_isotropic_of_bevy_finding",
    "Auburn.C63_delta_vec3",
    "Auburn.C63_delta_translate3d",
    "Auburn.C63_delta_isotropic",
    "Auburn.C63_inverse_transform3d_iff",
    "Auburn.C63_compose_transform3d_iff",
    "Auburn.C63_commute",
    "Auburn.C63_delta_transform3d",
    "Auburn.C63_delta_axis_iff"
   ],
   "note": "unapply holds for all types; inverse of AxisTransform3d iff no translation or no scaling (finding), inverse/compose/delta of Transform3d and bevy iff rotation and scale commute (findings)."
  },
  {
   "property": "C64",
   "status": "proved",
   "theorems": [
    "Auburn.C64_box_collides",
    "Auburn.C64_box_penetrates",
    "Auburn.C64_box_sdfv",
    "Auburn.C64_sdfv_lengthSq_outside",
    "Auburn.C64_box_sdf_iff",
    "Auburn.C64_box_sdf_finding"
   ],
   "note": "C64_box_sdf_iff: the sdf is right exactly when the point is not straight above/below the box in z; C64_box_sdf_finding: box (2,1,3), point (0,0,4) gives sqrt 2 instead of 1."
  },
  {
   "property": "C65",
   "status": "proved",
   "theorems": [
    "Auburn.C65_ball_collides",
    "Auburn.C65_ball_sdfv",
    "Auburn.C65_ball_sdf",
    "Auburn.C65_ball_penetrates",
    "Auburn.C65_ball_penetrates_finding"
   ],
   "note": "C65_ball_penetrates_finding: closer than f32::EPSILON to the centre (but not at it) the vector does not separate."
  },
  {
   "property": "C66",
   "status": "proved",
   "theorems": [
    "Auburn.C66_point_delegates",
    "Auburn.C66_swap_collides",
    "Auburn.C66_swap_penetrates",
    "Auburn.C66_rotation_finding"
   ],
   "note": "The delegation itself at Tier 0; what it means in world space: right for translations (C66_swap_*), wrong for rotated shapes (C66_rotation_finding)."
  },
  {
   "property": "C67",
   "status": "proved",
   "theorems": [
    "Auburn.C67_extreme_point_box",
    "Auburn.C67_extreme_point_point",
    "Auburn.C67_extreme_point_ball",
    "Auburn.C67_minkowski_sum"
   ],
   "note": "Exact arithmetic over any ordered field K. The 3d feature."
  },
  {
   "property": "C68",
   "status": "proved",
   "theorems": [
    "Auburn.C68_call_forms",
    "Auburn.C68_penetrates_some_iff",
    "Auburn.C68_box_world"
   ],
   "note": "Holds for any float type, f32 with rounding, infinities and NaN included. The 3d feature; the world statement C68_box_world is exact."
  },
  {
   "property": "C69",
   "status": "proved",
   "theorems": [
    "Auburn.C69_cover",
    "Auburn.C69_cover_finding"
   ],
   "note": "cover ignores z: exact characterisation and C69_cover_finding."
  },
  {
   "property": "C70",
   "status": "proved",
   "theorems": [
    "Auburn.C70_constructors",
    "Auburn.C70_builders"
   ],
   "note": "complete; includes every order of the three builders."
  },
  {
   "property": "C71",
   "status": "proved",
   "theorems": [
    "Auburn.C71_f32_box_box",
    "Auburn.C71_f32_poly_poly",
    "Auburn.C71_f32_box_poly",
    "Auburn.C71_f32_shape_shape",
    "Auburn.C71_f32_colliders"
   ],
   "note": "IEEE binary32 model (round to nearest even, signed zeros, overflow, NaN); at most 19 pairs of vertices (the iteration limit is 20)."
  },
  {
   "property": "C72",
   "status": "proved",
   "theorems": [
    "Auburn.C72_save_ok_load",
    "Auburn.C72_interrupted_save",
    "Auburn.C72_load_after_any_saves",
    "Auburn.C72_save_not_atomic_finding"
   ],
   "note": "JSON text, reader, field checks and file steps are modelled in Model/Persist; the serde representation of positions is a parameter that round-trips. C72_save_not_atomic_finding: save truncates before writing, so the previous save can be lost. Page cache / fsync not modelled."
  },
  {
   "property": "C73",
   "status": "proved",
   "theorems": [
    "Auburn.C73_f32_corners_colliders",
    "Auburn.C73_f32_corners_poly_poly",
    "Auburn.C73_f32_corners_box_poly",
    "Auburn.C73_f32_corners_poly_box",
    "Auburn.C73_f32_corners_shape2d",
    "Auburn.C73_f32_box_box",
    "Auburn.C73_f32_poly_poly",
    "Auburn.C73_f32_box_poly",
    "Auburn.C73_f32_poly_box",
    "Auburn.C73_f32_shape_shape",
    "Auburn.C73_f32_colliders",
    "Auburn.C73_f32_distance_collides_finding",
    "Auburn.C73_f32_distance_nan_finding",
    "Auburn.C73_f32_distance_wrong_finding",
    "Auburn.C73_f32_sdfv_panic_finding"
   ],
   "note": "IEEE binary32 model; at most 20 pairs of vertices, or (C73_f32_corners_*) at most 20 vertices together (a box counts as eight); C73_f32_corners_colliders: the latter in world space, colliders placed by Vec2 or Translate2d. Boxes: shortest contact vector; polygons: shortest, or shortest of the edge at which the search stopped (as in exact arithmetic, see C44_far_from_shortest_finding). Findings on binary32 beyond the grid: distance_to answers 'colliding' (None), NaN, or a wrong vector for integer triangles far apart; sdfv panics for near-contact triangles."
  },
  {
   "property": "C74",
   "status": "proved",
   "theorems": [
    "Auburn.C74_ellipse_collides",
    "Auburn.C74_ellipse_bounding_box",
    "Auburn.C74_ellipse_extreme_point",
    "Auburn.C74_ellipse_two_formulas",
    "Auburn.C74_ellipse_intercept",
    "Auburn.C74_ellipse_ball"
   ],
   "note": "ellipse2d.rs modelled as written (not compiled at this commit)."
  },
  {
   "property": "C75",
   "status": "proved",
   "theorems": [
    "Auburn.C75_minkowski_diff_extreme",
    "Auburn.C75_minkowski_diff_at_origin",
    "Auburn.C75_minkowski_diff_position_finding",
    "Auburn.C75_minkowski_diff_flag"
   ],
   "note": "minkowski_diff modelled as written (not compiled); the extreme point is shifted by the first collider's position, see C75_minkowski_diff_position_finding."
  },
  {
   "property": "C76",
   "status": "proved",
   "theorems": [
    "Auburn.C76_cylinder_new",
    "Auburn.C76_minkowski_sum_finding",
    "Auburn.C76_minkowski_sum_half",
    "Auburn.C76_cylinder_extreme_point",
    "Auburn.C76_cylinder_collides",
    "Auburn.C76_cylinder_penetrates_some",
    "Auburn.C76_penetrates_finding",
    "Auburn.C76_sdf_finding",
    "Auburn.C76_cylinder_sdf_outside",
    "Auburn.C76_cylinder_sdfv_outside",
    "Auburn.C76_sdfv_below_finding",
    "Auburn.C76_sdfv_inside_finding",
    "Auburn.C76_cylinder_sdfv_between"
   ],
   "note": "cylinder3d.rs modelled as written (not in the module tree); the findings refute minkowski_sum, the penetration vector, sdf, and sdfv inside and below the lower rim."
  },
  {
   "property": "C77",
   "status": "proved",
   "theorems": [
    "Auburn.C77_f32_ball_ball",
    "Auburn.C77_f32_ball_point",
    "Auburn.C77_f32_colliders",
    "Auburn.C77_f32_resolved",
    "Auburn.C77_f32_underflow_finding",
    "Auburn.C77_f32_overflow_finding",
    "Auburn.C77_f32_nan_finding"
   ],
   "note": "binary32 with rounding (not only exactly representable cases); findings show what happens outside the range: underflow, overflow, NaN."
  },
  {
   "property": "C78",
   "status": "proved",
   "theorems": [
    "Auburn.C78_f32_box_point",
    "Auburn.C78_f32_box_point_sdf",
    "Auburn.C78_f32_colliders"
   ],
   "note": "binary32 with rounding; flag and sdf sign exact."
  },
  {
   "property": "C79",
   "status": "proved",
   "theorems": [
    "Auburn.C79_f32_rounded_colliders",
    "Auburn.C79_f32_box_ball_colliders",
    "Auburn.C79_f32_rounded_box_point",
    "Auburn.C79_f32_box_ball",
    "Auburn.C79_f32_rounded_box_sdf"
   ],
   "note": "binary32 with rounding; the sdf of Box2d v Ball is not covered because it is wrong even exactly (C27)."
  },
  {
   "property": "C80",
   "status": "proved",
   "theorems": [
    "Auburn.C80_iterators",
    "Auburn.C80_dispatch",
    "Auburn.C80_pad_debug",
    "Auburn.C80_pad_release",
    "Auburn.C80_pad_overflow_finding"
   ],
   "note": "std iterators modelled as state machines; overflow checked."
  },
  {
   "property": "C81",
   "status": "proved",
   "theorems": [
    "Auburn.C81_default_neutral",
    "Auburn.C81_default_collapse_finding",
    "Auburn.C81_default_rotation",
    "Auburn.C81_default_box3d",
    "Auburn.C81_default_shapes",
    "Auburn.C81_f32_default_axis_finding"
   ],
   "note": "exact arithmetic; the f32 finding holds for every f32 input including NaN."
  },
  {
   "property": "C82",
   "status": "proved",
   "theorems": [
    "Auburn.C82_f32_round_trip",
    "Auburn.C82_f32_round_trip_far",
    "Auburn.C82_f32_round_trip_finding",
    "Auburn.C82_f32_world_to_tile",
    "Auburn.C82_f32_tilemap_point",
    "Auburn.C82_f32_quantize"
   ],
   "note": "binary32 model with correct rounding; round_to_i32 (external trait) is any nearest-integer function in the i32 range, shown satisfiable by Rust's round() as i32 (nearestI32_rust). Finding: tile 2^24+1."
  },
  {
   "property": "C83",
   "status": "proved",
   "theorems": [
    "Auburn.C83_f32_overlap",
    "Auburn.C83_f32_overlap_colliders"
   ],
   "note": "binary32 with rounding. The depth M/2^20 excludes near-contact inputs, where rounding may flip the flag."
  },
  {
   "property": "C84",
   "status": "proved",
   "theorems": [
    "Auburn.C84_f32_apart",
    "Auburn.C84_f32_apart_colliders",
    "Auburn.C84_f32_thin_panic_finding"
   ],
   "note": "binary32 with rounding. The thin-box condition excludes inputs where the crate answers differently (directionTooSmall is an absolute threshold). C84_f32_thin_panic_finding shows a panic there."
  },
  {
   "property": "C85",
   "status": "proved",
   "theorems": [
    "Auburn.C85_bevy_acts_as_3d",
    "Auburn.C85_bevy_inverse",
    "Auburn.C85_bevy_compose",
    "Auburn.C85_bevy_delta",
    "Auburn.C85_bevy_laws",
    "Auburn.C85_bevy_similarity",
    "Auburn.C85_bevy_colliders",
    "Auburn.C85_bevy_tilted_finding"
   ],
   "note": "all bevy transforms with a rotation about the z axis; exact arithmetic; finding for tilted rotations"
  },
  {
   "property": "C86",
   "status": "proved",
   "theorems": [
    "Auburn.C86_f32_poly_poly",
    "Auburn.C86_f32_box_poly",
    "Auburn.C86_f32_poly_box",
    "Auburn.C86_f32_box_box",
    "Auburn.C86_f32_shape_shape",
    "Auburn.C86_f32_ball_box",
    "Auburn.C86_f32_any_shape",
    "Auburn.C86_f32_poly_colliders",
    "Auburn.C86_f32_shape_colliders"
   ],
   "note": "binary32 with rounding at every step. Pushes are stated for boxes and polygons only (not balls), answers that are infinite/NaN or zero are not covered (C73 findings show that NaN occurs), and a search that uses up its 20 steps is an explicit alternative of the negative answers (excluded for deep overlaps by C97)."
  },
  {
   "property": "C87",
   "status": "proved",
   "theorems": [
    "Auburn.C87_f32_collides_false_positive_finding",
    "Auburn.C87_f32_poly_poly",
    "Auburn.C87_f32_box_poly",
    "Auburn.C87_f32_poly_box",
    "Auburn.C87_f32_box_box",
    "Auburn.C87_f32_shape_shape",
    "Auburn.C87_f32_ball_box",
    "Auburn.C87_f32_any_shape",
    "Auburn.C87_f32_poly_colliders",
    "Auburn.C87_f32_shape_colliders"
   ],
   "note": "binary32 with rounding at every step; tolerance M/64, which cannot be improved below M/2^13 for collides (finding). distance_to = None is not covered: it is unsound (C73 finding)."
  },
  {
   "property": "C88",
   "status": "proved",
   "theorems": [
    "Auburn.C88_f32_poly_poly_colliders",
    "Auburn.C88_f32_box_poly_colliders",
    "Auburn.C88_f32_poly_box_colliders",
    "Auburn.C88_f32_box_box_colliders",
    "Auburn.C88_f32_shape_shape_colliders",
    "Auburn.C88_f32_any_shape_colliders",
    "Auburn.C88_f32_poly_poly",
    "Auburn.C88_f32_box_poly",
    "Auburn.C88_f32_poly_box",
    "Auburn.C88_f32_box_box",
    "Auburn.C88_f32_shape_shape",
    "Auburn.C88_f32_poly_poly_met",
    "Auburn.C88_f32_box_poly_met",
    "Auburn.C88_f32_poly_box_met",
    "Auburn.C88_f32_box_box_met",
    "Auburn.C88_f32_shape_shape_met",
    "Auburn.C88_f32_ball_box",
    "Auburn.C88_f32_any_shape"
   ],
   "note": "binary32 with rounding at every step, scale one. Pushes are stated for boxes and polygons only, with the products of rotor and vertex coordinates multiples of 2^-60; answers that are infinite/NaN or zero are not covered; a search that uses up its 20 steps is an explicit alternative of the negative answers; distance_to = None is not covered (unsound, C73)."
  },
  {
   "property": "C89",
   "status": "proved",
   "theorems": [
    "Auburn.C89_stretch_identity",
    "Auburn.C89_stretch_vec2",
    "Auburn.C89_stretch_translate2d",
    "Auburn.C89_stretch_axis",
    "Auburn.C89_stretch_transform2d",
    "Auburn.C89_stretch_bevy",
    "Auburn.C89_ball_cover",
    "Auburn.C89_uneven_finding"
   ],
   "note": "exact arithmetic. The finding shows that both restrictions (scales not negative; disc instead of ellipse) are needed."
  },
  {
   "property": "C90",
   "status": "proved",
   "theorems": [
    "Auburn.C90_f32_round_trip_finding",
    "Auburn.C90_f32_apply",
    "Auburn.C90_f32_unapply",
    "Auburn.C90_f32_there_and_back",
    "Auburn.C90_f32_back_and_there",
    "Auburn.C90_f32_inverse",
    "Auburn.C90_f32_compose",
    "Auburn.C90_f32_rotor_drift",
    "Auburn.C90_f32_translations"
   ],
   "note": "binary32 with rounding at every step, scale one, nearly unit rotor. The exact reference is the real rigid map of the same stored rotor and position. The finding shows that the round trips are not exact."
  },
  {
   "property": "C91",
   "status": "proved",
   "theorems": [
    "Auburn.C91_f32_poly_finding",
    "Auburn.C91_f32_box",
    "Auburn.C91_f32_poly",
    "Auburn.C91_f32_ball",
    "Auburn.C91_f32_shape",
    "Auburn.C91_f32_rounded_box",
    "Auburn.C91_f32_colliders"
   ],
   "note": "binary32 with rounding at every step. Directions with |x|+|y| at least 2^-60 and at most 2^85 (2^58 with balls) except for boxes. The finding shows that the exact claim fails for polygons."
  },
  {
   "property": "C92",
   "status": "proved",
   "theorems": [
    "Auburn.C92_collides",
    "Auburn.C92_collides_false",
    "Auburn.C92_all_queries",
    "Auburn.C92_penetrates_none",
    "Auburn.C92_poly_poly",
    "Auburn.C92_box_poly",
    "Auburn.C92_shape2d",
    "Auburn.C92_iteration_limit_finding"
   ],
   "note": "Exact arithmetic. The area of the triangle between the simplex edge and the supporting lines at its ends is divided by four in every step, and is at least d^2 while the disc of radius d lies beyond the edge. C92_iteration_limit_finding: a concrete miss."
  },
  {
   "property": "C93",
   "status": "proved",
   "theorems": [
    "Auburn.C93_f32_zero_push_finding",
    "Auburn.C93_corners_shape2d",
    "Auburn.C93_push",
    "Auburn.C93_zero_push_finding"
   ],
   "note": "Exact arithmetic, margin as in C41. C93_zero_push_finding: the zero vector for a 24-gon and a box near its middle. C93_f32_zero_push_finding: the same in binary32. C93_corners_shape2d: at most 22 corners together, never zero."
  },
  {
   "property": "C94",
   "status": "proved",
   "theorems": [
    "Auburn.C94_corners",
    "Auburn.C94_collides",
    "Auburn.C94_found",
    "Auburn.C94_push",
    "Auburn.C94_contact",
    "Auburn.C94_boxes_collides",
    "Auburn.C94_boxes_distance",
    "Auburn.C94_self_scale_finding",
    "Auburn.C94_frame_finding",
    "Auburn.C94_bevy"
   ],
   "note": "Exact arithmetic. AxisTransform2d and non-uniform scales are excluded because delta_transform is wrong for them (C04). Findings: C94_self_scale_finding, C94_frame_finding."
  },
  {
   "property": "C95",
   "status": "proved",
   "theorems": [
    "Auburn.C95_f32_box_collides",
    "Auburn.C95_f32_box_vectors",
    "Auburn.C95_f32_box_sdf",
    "Auburn.C95_f32_ball_collides",
    "Auburn.C95_f32_ball_sdf",
    "Auburn.C95_f32_ball_penetrates",
    "Auburn.C95_f32_box_world",
    "Auburn.C95_f32_underflow_finding"
   ],
   "note": "Model run on binary32 with round-to-nearest-even. sdf straight above or below the box in z is excluded because the code is wrong there (C64_box_sdf_finding); penetrates closer than two f32::EPSILON to the centre is excluded because the code switches to a fixed axis there (C65_ball_penetrates_finding)."
  },
  {
   "property": "C96",
   "status": "proved",
   "theorems": [
    "Auburn.C96_f32_poly_poly",
    "Auburn.C96_f32_box_poly",
    "Auburn.C96_f32_shape_shape",
    "Auburn.C96_f32_colliders",
    "Auburn.C96_collides",
    "Auburn.C96_exact",
    "Auburn.C96_overlap",
    "Auburn.C96_poly_poly",
    "Auburn.C96_box_poly",
    "Auburn.C96_shape2d"
   ],
   "note": "Exact arithmetic: C96_collides / C96_exact / C96_overlap for any convex pair on the lattice, instances for polygons, boxes, shape enum. Proof: the area of the triangle over the current edge falls by four per step, a non-flat lattice triangle has area at least half a unit. Binary32: C96_f32_* (removes the vertex bound of C71). Length of the push is not claimed here (C93_zero_push_finding: it may be zero for many vertices)."
  },
  {
   "property": "C97",
   "status": "proved",
   "theorems": [
    "Auburn.C97_f32_poly_poly",
    "Auburn.C97_f32_box_poly",
    "Auburn.C97_f32_poly_box",
    "Auburn.C97_f32_box_box",
    "Auburn.C97_f32_shape_shape",
    "Auburn.C97_f32_ball_box",
    "Auburn.C97_f32_any_shape",
    "Auburn.C97_f32_poly_colliders",
    "Auburn.C97_f32_shape_colliders",
    "Auburn.C97_f32_any_shape_colliders",
    "Auburn.C97_f32_poly_poly_turned",
    "Auburn.C97_f32_box_box_turned",
    "Auburn.C97_f32_shape_shape_turned",
    "Auburn.C97_f32_any_shape_turned",
    "Auburn.C97_f32_poly_poly_turned_colliders",
    "Auburn.C97_f32_box_box_turned_colliders",
    "Auburn.C97_f32_shape_shape_turned_colliders",
    "Auburn.C97_f32_any_shape_turned_colliders"
   ],
   "note": "C97_f32_* for every pair of shapes, relative and as colliders, unrotated and rotated; DeepExamples.lean has an eight-vertex polygon and a triangle with one-decimal literals meeting all hypotheses. Proof: area potential of C92 carried through the rounding (16 steps suffice). The margin M/32 is needed for the rounding argument only; the length of the push is not claimed (C93_zero_push_finding). For M < 8 only collides is covered: the absolute too-small test of the other loops may fire."
  },
  {
   "property": "C98",
   "status": "proved",
   "theorems": [
    "Auburn.C98_f32_poly_poly",
    "Auburn.C98_f32_box_poly",
    "Auburn.C98_f32_poly_box",
    "Auburn.C98_f32_box_box",
    "Auburn.C98_f32_shape_shape",
    "Auburn.C98_f32_any_shape",
    "Auburn.C98_f32_ball_box",
    "Auburn.C98_f32_poly_poly_colliders",
    "Auburn.C98_f32_box_poly_colliders",
    "Auburn.C98_f32_poly_box_colliders",
    "Auburn.C98_f32_box_box_colliders",
    "Auburn.C98_f32_shape_shape_colliders",
    "Auburn.C98_f32_any_shape_colliders",
    "Auburn.C98_f32_poly_poly_turned",
    "Auburn.C98_f32_poly_poly_turned_colliders",
    "Auburn.C98_f32_box_poly_turned",
    "Auburn.C98_f32_box_poly_turned_colliders",
    "Auburn.C98_f32_poly_box_turned",
    "Auburn.C98_f32_poly_box_turned_colliders",
    "Auburn.C98_f32_box_box_turned",
    "Auburn.C98_f32_box_box_turned_colliders",
    "Auburn.C98_f32_shape_shape_turned",
    "Auburn.C98_f32_shape_shape_turned_colliders",
    "Auburn.C98_f32_any_shape_turned",
    "Auburn.C98_f32_any_shape_turned_colliders"
   ],
   "note": "C98_f32_* for every pair of balls, boxes and polygons, relative and as colliders, unrotated and rotated; LeastExamples.lean has an eight-vertex polygon, a triangle and a ball with a box meeting the hypotheses, the polygons with non-zero pushes. Proof: the polygon EPA keeps winds once around a point near the origin (Lib/Winding), so the edge with the smallest computed distance bounds the depth in every direction; because the overlap is deep, consecutive vertices of that polygon are at least M/2^13 apart (Encloses.long), so the rounded edge distance is right up to M/2^16 (Ieee/EdgeDist) with no condition on the coordinates except their size. A zero push (EPA out of steps, C93_zero_push_finding) is allowed by the statement."
  },
  {
   "property": "C99",
   "status": "proved",
   "theorems": [
    "Auburn.C99_collides",
    "Auburn.C99_world",
    "Auburn.C99_penetrates",
    "Auburn.C99_sdfv",
    "Auburn.C99_sdf",
    "Auburn.C99_sdf_finding",
    "Auburn.C99_rotation_finding"
   ],
   "note": "The pair implementations are behind cfg(minkowski) and the traits they use are not defined at this commit; the bodies are modelled as written, reading minkowski_difference as minkowski_sum for shapes marked MinkowskiNegationIsIdentity. Two findings: rotation/scale of the second box is ignored; sdf is wrong for boxes straight above each other."
  },
  {
   "property": "C100",
   "status": "proved",
   "theorems": [
    "Auburn.C100_f32_balls",
    "Auburn.C100_collides",
    "Auburn.C100_disagree",
    "Auburn.C100_push",
    "Auburn.C100_boxes_collides",
    "Auburn.C100_boxes_distance",
    "Auburn.C100_balls",
    "Auburn.C100_coincident_finding",
    "Auburn.C100_ball_box",
    "Auburn.C100_order_finding"
   ],
   "note": "Derived from C94 (exact) for convex pairs with similarity placements; balls exactly and in binary32 bit for bit. The push clause speaks about non-zero pushes. Two findings: coincident balls are pushed the same way by both orders; the tolerance depends on the first collider's scale, so the orders can disagree at contact."
  },
  {
   "property": "C101",
   "status": "proved",
   "theorems": [
    "Auburn.C101_f32_ball_unchanged",
    "Auburn.C101_f32_ball_among",
    "Auburn.C101_f32_ball_single",
    "Auburn.C101_f32_tile",
    "Auburn.C101_f32_unchanged",
    "Auburn.C101_f32_single",
    "Auburn.C101_f32_among"
   ],
   "note": "binary32 with correct rounding; boxes of any size and position in the stated range. Overlaps or gaps smaller than the margins (M/2^18 + L/2^23) are outside the statement, as are several tiles overlapping the box at once (C56 has the finding about that). Balls: a clear ball is not moved (C101_f32_ball_unchanged), a ball deep in one tile is moved off it by nearly the shortest move or not at all (C101_f32_ball_single, C101_f32_ball_among; the unmoved case is EPA out of steps, as in C93/C98)."
  },
  {
   "property": "C102",
   "status": "proved",
   "theorems": [
    "Auburn.C102_apply",
    "Auburn.C102_unapply",
    "Auburn.C102_eq_balls",
    "Auburn.C102_eq_polys",
    "Auburn.C102_inverse_finding",
    "Auburn.C102_box_extreme_finding",
    "Auburn.C102_box_point_finding",
    "Auburn.C102_symm_trans",
    "Auburn.C102_refl_transform2d",
    "Auburn.C102_refl_shapes",
    "Auburn.C102_refl_finding",
    "Auburn.C102_exact",
    "Auburn.C102_poly_poly",
    "Auburn.C102_shape2d",
    "Auburn.C102_ball_ball",
    "Auburn.C102_ball_point",
    "Auburn.C102_point_ball",
    "Auburn.C102_point_point"
   ],
   "note": "binary32 with signed zeros, infinities and NaN. C102_poly_poly/_shape2d/_ball_ball/_ball_point/_point_ball/_point_point for every 2D transform type (Point v Ball also needs the relative scale not to be zero, since that pair inverts the relative transform); C102_eq_* say the same with the derived ==. Boxes and zero scales are excluded because the claim is false there (three findings)."
  },
  {
   "property": "C103",
   "status": "proved",
   "theorems": [
    "Auburn.C103_flip_box_point",
    "Auburn.C103_flip_rounded_box_point",
    "Auburn.C103_flip_box_ball",
    "Auburn.C103_quarter_box_point",
    "Auburn.C103_box_turn_finding",
    "Auburn.C103_flip_box3d_point",
    "Auburn.C103_flip_ball_point3d",
    "Auburn.C103_flip_box3d_box3d",
    "Auburn.C103_mirror_poly_poly",
    "Auburn.C103_mirror_shape2d",
    "Auburn.C103_mirror_ball_ball",
    "Auburn.C103_mirror_colliders",
    "Auburn.C103_collides_symmetries",
    "Auburn.C103_poly_poly",
    "Auburn.C103_shape2d",
    "Auburn.C103_ball_ball",
    "Auburn.C103_colliders",
    "Auburn.C103_shape2d_turns",
    "Auburn.C103_world_poly_poly",
    "Auburn.C103_world_shape2d",
    "Auburn.C103_world_ball_ball",
    "Auburn.C103_world_ball_point",
    "Auburn.C103_world_shape2d_turns",
    "Auburn.C103_world_poly_poly_turns",
    "Auburn.C103_flip_ball_ball",
    "Auburn.C103_flip_ball_point"
   ],
   "note": "Bit for bit up to the sign of zeros, for balls and polygons, as Shape2d and as colliders placed by Vec2 or Translate2d. Boxes are covered against points and balls (mirroring, and quarter turns of collides and distance_to against a point) but not in the GJK searches: their extreme_point treats a zero component as positive on both axes, which a quarter turn does not preserve (the box answers of C102's findings). Tiny offsets (length_sq < EPSILON) are excluded: the search then starts from the fixed direction (1, 0). Mirroring is proved for collides only: penetrates and distance_to replace a vanishing direction by the old one turned counter-clockwise, which has a handedness. Turning the world under Transform2d needs a uniform scale of the first collider (its inverse scales before rotating), but no bound on the offset: the relative transform is the same up to the sign of zeros."
  }
 ]
}