# Axioms of every theorem in MANIFEST.json (from `#print axioms`)

All names are in namespace `Auburn`. Generated by tools/axioms.py.

## (none) — 8 theorems

C30_agree_ball_ball, C30_agree_ball_point, C30_agree_point_point, C30_agree_rounded_box_point, C30_agree_box_ball, C47_extreme_point, C66_point_delegates, C68_call_forms

## propext — 5 theorems

C10_poly_extreme_vertex_or_zero, C30_agree_point_ball, C47_queries, C59_ledger, C68_penetrates_some_iff

## Quot.sound, propext — 50 theorems

C01_inverse_vec2, C01_inverse_translate2d, C02_compose_vec2, C02_compose_translate2d, C02_compose_axis, C03_unapply_identity, C03_unapply_vec2, C03_unapply_translate2d, C04_delta_vec2, C04_delta_translate2d, C07_normals_identity, C07_normals_vec2, C07_normals_translate2d, C07_normals_axis, C08_extreme_point_point, C13_cover_sequence, C13_cover, C13_cover_algebra, C30_agree_box_point, C30_agree_point_box, C30_colliders_agree, C31_world_frame_sdf_translation, C31_world_frame_vec2, C31_world_frame_translate2d, C50_no_overflow, C54_tilemap_point_vector, C59_callback_publisher, C63_unapply_vec3, C63_unapply_identity, C63_unapply_translate3d, C63_inverse_vec3, C63_inverse_translate3d, C63_compose_vec3, C63_compose_translate3d, C63_compose_axis, C63_compose_isotropic, C63_bevy_is_transform3d, C63_isotropic_of_bevy, C63_delta_vec3, C63_delta_translate3d, C67_extreme_point_point, C69_cover, C70_constructors, C74_ellipse_collides, C75_minkowski_diff_flag, C76_cylinder_penetrates_some, C80_pad_debug, C81_default_rotation, C81_default_box3d, C102_exact

## Classical.choice, Quot.sound, propext — 544 theorems

C01_inverse_axis_iff, C01_inverse_axis_finding, C01_inverse_transform2d_iff, C01_inverse_transform2d_finding, C02_compose_transform2d_iff, C02_compose_transform2d_finding, C03_unapply_axis, C03_unapply_transform2d, C03_unapply_bevy, C04_delta_axis_iff, C04_delta_axis_finding, C04_delta_transform2d_uniform, C04_delta_transform2d_iff, C04_delta_transform2d_finding, C05_rotor_isometry, C05_rotor_group, C05_from_angle, C05_angle, C06_from_quaternion_z, C06_from_quaternion_iff, C06_from_quaternion_angle, C07_normals_bevy, C07_normals_transform2d, C08_extreme_point_box, C08_extreme_point_ball, C08_extreme_point_rounded_box, C08_extreme_point_poly, C08_extreme_point_poly_far_finding, C08_extreme_point_shape2d, C09_collider_extreme_box, C09_collider_extreme_poly, C09_collider_extreme_shape2d, C09_collider_extreme_point, C09_collider_extreme_ball, C09_collider_extreme_box_nonuniform, C09_collider_extreme_poly_nonuniform_finding, C10_f32_poly_extreme, C10_poly_extreme_vertex, C11_minkowski_support, C11_exact_support_shapes, C12_f32_bounding_box_poly, C12_bounding_box_point, C12_bounding_box_box, C12_bounding_box_ball, C12_bounding_box_rounded_box, C12_bounding_box_poly, C13_f32_cover, C14_strict_check_iff, C14_strict_check_sound, C14_strict_check_complete, C14_strict_check_origin_finding, C14_strict_check_convex_finding, C15_poly_from_box, C16_regular, C16_regular_upright, C16_regular_origin, C16_regular_edges, C17_ball_ball_collides, C17_ball_ball_open_discs, C17_coincident_finding, C17_scale_finding, C18_ball_ball_resolves, C19_ball_ball_sdf, C20_ball_point, C21_f32_box_point_collides, C21_f32_nan_finding, C21_box_point_collides, C22_box_point_vectors, C23_box_point_sdf, C24_f32_point_point, C24_point_point, C25_box_ball_collides, C25_radius_zero_finding, C26_box_ball_resolves, C26_box_ball_face_contact, C26_face_finding, C26_box_ball_resolves_iff, C27_box_ball_sdf_finding, C27_box_ball_sdf_axis, C27_separated, C27_separated_finding, C27_sign_finding, C28_rounded_box_sdf, C29_point_box, C29_point_ball, C31_world_frame_transform2d, C31_world_frame_sdf_transform2d, C31_axis_finding, C32_sdfv_world, C32_sdfv_world_ball_ball, C32_sdfv_world_box_point, C32_penetrates_frame_finding, C32_self_frame_ball_ball, C32_self_frame_box_point, C33_rel_no_panic, C33_collider_no_panic, C33_sdfv_only_explicit_panic, C33_pairs, C34_sdfv_no_panic, C34_small_boxes_finding, C34_overlap_no_panic, C34_sdfv_panic_finding, C35_collides_false, C35_penetrates_none, C36_penetrates_some, C36_penetrates_grid, C36_penetrates_disjoint_finding, C37_collides_true, C37_collides_true_length, C38_box_box_collides, C38_box_box_penetrates, C38_box_box_penetrates_grid, C39_corners_poly_poly, C39_corners_box_poly, C39_corners_shape2d, C39_poly_poly, C39_poly_poly_penetrates, C39_box_poly, C40_penetrates_separates, C40_sdfv_separates, C41_penetrates_minimal, C41_penetrates_minimal_grid, C41_no_margin_finding, C42_corners_poly_poly, C42_corners_shape2d, C42_corners_grid, C42_box_box, C42_poly_poly, C42_box_box_grid, C43_distance_to_contact, C43_sdfv_contact, C43_distance_lower_bound, C43_overlap_none, C43_hit_touch, C44_box_box_shortest, C44_box_box_sdfv, C44_corners_shape2d, C44_shortest_iff, C44_not_shortest_finding, C44_distance_shortest_or_corner, C44_sdfv_shortest_or_corner, C44_far_from_shortest_finding, C45_distance_to, C45_distance_to_shortest, C45_penetrates, C45_penetrates_grid, C45_distance_to_grid, C46_support_evaluations, C46_api, C48_direct_pairs_strict, C48_touching_boxes_finding, C49_tilemap_refines_map, C50_chunk_decomposition, C51_chunk_bookkeeping, C51_remove_keeps_no_empty_chunk, C51_set_zero_creates_chunk, C52_set_tile_events, C52_remove_tile_events, C52_replay, C52_replay_run, C52_remove_silent_finding, C52_remove_phantom_finding, C53_save_load, C54_tilemap_point, C54_penetrates_not_resolving_finding, C55_quantize, C56_no_panic, C56_no_solid_tile, C56_order, C56_unchanged, C56_single, C56_unchanged_apart, C56_ball_single, C56_two_tiles_finding, C57_iterate_north_east, C57_iterate_south_east, C57_iterate_south_west, C57_iterate_north_west, C57_iterate_dispatch, C57_iterate_perm, C58_pad_iff, C58_pad_finding, C58_pad_moves, C59_hashset_ledger, C60_f32_nan, C60_f32_infinity_finding, C60_f32_refl, C60_approx_default, C60_approx_iff, C60_approx_refl, C60_approx_symmetric_finding, C61_f32_refl, C61_f32_refl_v3, C61_f32_underflow_finding, C61_f32_nan_zero_finding, C61_f32_nan, C61_f32_nan_v3, C61_f32_infinity_finding, C61_f32_infinity_v3_finding, C61_approx_default_vec2, C61_approx_default_vec3, C61_approx_transitive_finding, C61_f32_default_refl, C61_f32_default_nan, C61_approx_vec2_iff, C61_approx_vec2_equiv, C61_approx_vec3_iff, C61_approx_vec3_equiv, C62_f32_lerp_finding, C62_f32_lerp_zero, C62_lerp, C63_unapply_axis, C63_unapply_isotropic, C63_unapply_transform3d, C63_unapply_bevy, C63_inverse_axis_iff, C63_inverse_axis_finding, C63_inverse_isotropic, C63_inverse_transform3d_finding, C63_compose_transform3d_finding, C63_isotropic_of_bevy_finding, C63_delta_isotropic, C63_inverse_transform3d_iff, C63_compose_transform3d_iff, C63_commute, C63_delta_transform3d, C63_delta_axis_iff, C64_box_collides, C64_box_penetrates, C64_box_sdfv, C64_sdfv_lengthSq_outside, C64_box_sdf_iff, C64_box_sdf_finding, C65_ball_collides, C65_ball_sdfv, C65_ball_sdf, C65_ball_penetrates, C65_ball_penetrates_finding, C66_swap_collides, C66_swap_penetrates, C66_rotation_finding, C67_extreme_point_box, C67_extreme_point_ball, C67_minkowski_sum, C68_box_world, C69_cover_finding, C70_builders, C71_f32_box_box, C71_f32_poly_poly, C71_f32_box_poly, C71_f32_shape_shape, C71_f32_colliders, C72_save_ok_load, C72_interrupted_save, C72_load_after_any_saves, C72_save_not_atomic_finding, C73_f32_corners_colliders, C73_f32_corners_poly_poly, C73_f32_corners_box_poly, C73_f32_corners_poly_box, C73_f32_corners_shape2d, C73_f32_box_box, C73_f32_poly_poly, C73_f32_box_poly, C73_f32_poly_box, C73_f32_shape_shape, C73_f32_colliders, C73_f32_distance_collides_finding, C73_f32_distance_nan_finding, C73_f32_distance_wrong_finding, C73_f32_sdfv_panic_finding, C74_ellipse_bounding_box, C74_ellipse_extreme_point, C74_ellipse_two_formulas, C74_ellipse_intercept, C74_ellipse_ball, C75_minkowski_diff_extreme, C75_minkowski_diff_at_origin, C75_minkowski_diff_position_finding, C76_cylinder_new, C76_minkowski_sum_finding, C76_minkowski_sum_half, C76_cylinder_extreme_point, C76_cylinder_collides, C76_penetrates_finding, C76_sdf_finding, C76_cylinder_sdf_outside, C76_cylinder_sdfv_outside, C76_sdfv_below_finding, C76_sdfv_inside_finding, C76_cylinder_sdfv_between, C77_f32_ball_ball, C77_f32_ball_point, C77_f32_colliders, C77_f32_resolved, C77_f32_underflow_finding, C77_f32_overflow_finding, C77_f32_nan_finding, C78_f32_box_point, C78_f32_box_point_sdf, C78_f32_colliders, C79_f32_rounded_colliders, C79_f32_box_ball_colliders, C79_f32_rounded_box_point, C79_f32_box_ball, C79_f32_rounded_box_sdf, C80_iterators, C80_dispatch, C80_pad_release, C80_pad_overflow_finding, C81_default_neutral, C81_default_collapse_finding, C81_default_shapes, C81_f32_default_axis_finding, C82_f32_round_trip, C82_f32_round_trip_far, C82_f32_round_trip_finding, C82_f32_world_to_tile, C82_f32_tilemap_point, C82_f32_quantize, C83_f32_overlap, C83_f32_overlap_colliders, C84_f32_apart, C84_f32_apart_colliders, C84_f32_thin_panic_finding, C85_bevy_acts_as_3d, C85_bevy_inverse, C85_bevy_compose, C85_bevy_delta, C85_bevy_laws, C85_bevy_similarity, C85_bevy_colliders, C85_bevy_tilted_finding, C86_f32_poly_poly, C86_f32_box_poly, C86_f32_poly_box, C86_f32_box_box, C86_f32_shape_shape, C86_f32_ball_box, C86_f32_any_shape, C86_f32_poly_colliders, C86_f32_shape_colliders, C87_f32_collides_false_positive_finding, C87_f32_poly_poly, C87_f32_box_poly, C87_f32_poly_box, C87_f32_box_box, C87_f32_shape_shape, C87_f32_ball_box, C87_f32_any_shape, C87_f32_poly_colliders, C87_f32_shape_colliders, C88_f32_poly_poly_colliders, C88_f32_box_poly_colliders, C88_f32_poly_box_colliders, C88_f32_box_box_colliders, C88_f32_shape_shape_colliders, C88_f32_any_shape_colliders, C88_f32_poly_poly, C88_f32_box_poly, C88_f32_poly_box, C88_f32_box_box, C88_f32_shape_shape, C88_f32_poly_poly_met, C88_f32_box_poly_met, C88_f32_poly_box_met, C88_f32_box_box_met, C88_f32_shape_shape_met, C88_f32_ball_box, C88_f32_any_shape, C89_stretch_identity, C89_stretch_vec2, C89_stretch_translate2d, C89_stretch_axis, C89_stretch_transform2d, C89_stretch_bevy, C89_ball_cover, C89_uneven_finding, C90_f32_round_trip_finding, C90_f32_apply, C90_f32_unapply, C90_f32_there_and_back, C90_f32_back_and_there, C90_f32_inverse, C90_f32_compose, C90_f32_rotor_drift, C90_f32_translations, C91_f32_poly_finding, C91_f32_box, C91_f32_poly, C91_f32_ball, C91_f32_shape, C91_f32_rounded_box, C91_f32_colliders, C92_collides, C92_collides_false, C92_all_queries, C92_penetrates_none, C92_poly_poly, C92_box_poly, C92_shape2d, C92_iteration_limit_finding, C93_f32_zero_push_finding, C93_corners_shape2d, C93_push, C93_zero_push_finding, C94_corners, C94_collides, C94_found, C94_push, C94_contact, C94_boxes_collides, C94_boxes_distance, C94_self_scale_finding, C94_frame_finding, C94_bevy, C95_f32_box_collides, C95_f32_box_vectors, C95_f32_box_sdf, C95_f32_ball_collides, C95_f32_ball_sdf, C95_f32_ball_penetrates, C95_f32_box_world, C95_f32_underflow_finding, C96_f32_poly_poly, C96_f32_box_poly, C96_f32_shape_shape, C96_f32_colliders, C96_collides, C96_exact, C96_overlap, C96_poly_poly, C96_box_poly, C96_shape2d, C97_f32_poly_poly, C97_f32_box_poly, C97_f32_poly_box, C97_f32_box_box, C97_f32_shape_shape, C97_f32_ball_box, C97_f32_any_shape, C97_f32_poly_colliders, C97_f32_shape_colliders, C97_f32_any_shape_colliders, C97_f32_poly_poly_turned, C97_f32_box_box_turned, C97_f32_shape_shape_turned, C97_f32_any_shape_turned, C97_f32_poly_poly_turned_colliders, C97_f32_box_box_turned_colliders, C97_f32_shape_shape_turned_colliders, C97_f32_any_shape_turned_colliders, C98_f32_poly_poly, C98_f32_box_poly, C98_f32_poly_box, C98_f32_box_box, C98_f32_shape_shape, C98_f32_any_shape, C98_f32_ball_box, C98_f32_poly_poly_colliders, C98_f32_box_poly_colliders, C98_f32_poly_box_colliders, C98_f32_box_box_colliders, C98_f32_shape_shape_colliders, C98_f32_any_shape_colliders, C98_f32_poly_poly_turned, C98_f32_poly_poly_turned_colliders, C98_f32_box_poly_turned, C98_f32_box_poly_turned_colliders, C98_f32_poly_box_turned, C98_f32_poly_box_turned_colliders, C98_f32_box_box_turned, C98_f32_box_box_turned_colliders, C98_f32_shape_shape_turned, C98_f32_shape_shape_turned_colliders, C98_f32_any_shape_turned, C98_f32_any_shape_turned_colliders, C99_collides, C99_world, C99_penetrates, C99_sdfv, C99_sdf, C99_sdf_finding, C99_rotation_finding, C100_f32_balls, C100_collides, C100_disagree, C100_push, C100_boxes_collides, C100_boxes_distance, C100_balls, C100_coincident_finding, C100_ball_box, C100_order_finding, C101_f32_ball_unchanged, C101_f32_ball_among, C101_f32_ball_single, C101_f32_tile, C101_f32_unchanged, C101_f32_single, C101_f32_among, C102_apply, C102_unapply, C102_eq_balls, C102_eq_polys, C102_inverse_finding, C102_box_extreme_finding, C102_box_point_finding, C102_symm_trans, C102_refl_transform2d, C102_refl_shapes, C102_refl_finding, C102_poly_poly, C102_shape2d, C102_ball_ball, C102_ball_point, C102_point_ball, C102_point_point, C103_flip_box_point, C103_flip_rounded_box_point, C103_flip_box_ball, C103_quarter_box_point, C103_box_turn_finding, C103_flip_box3d_point, C103_flip_ball_point3d, C103_flip_box3d_box3d, C103_mirror_poly_poly, C103_mirror_shape2d, C103_mirror_ball_ball, C103_mirror_colliders, C103_collides_symmetries, C103_poly_poly, C103_shape2d, C103_ball_ball, C103_colliders, C103_shape2d_turns, C103_world_poly_poly, C103_world_shape2d, C103_world_ball_ball, C103_world_ball_point, C103_world_shape2d_turns, C103_world_poly_poly_turns, C103_flip_ball_ball, C103_flip_ball_point
