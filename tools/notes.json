{"C01": {"note": "Holds for Vec2/Translate2d; for AxisTransform2d iff position 0 or scale 1 (finding); Transform2d iff characterised (finding for non-uniform scale with rotation)."}, "C02": {"note": "Transform2d: exact characterisation of when compose is right, with a counterexample (finding)."}, "C04": {"note": "Transform2d: exact characterisation (C04_delta_transform2d_iff) with a counterexample."}, "C14": {"note": "C14_strict_check_iff is the exact characterisation; the documented claims (origin strictly inside, convex position) are refuted by C14_*_finding."}, "C58": {"note": "pad subtracts the padding from max: exact characterisation and counterexample to the intended claim."}, "C17": {"note": "Coincident centres report a collision even for radius 0 (C17_coincident_finding); the scale of the relative transform is ignored (C17_scale_finding), so the theorems are for rigid placements."}, "C25": {"note": "Holds for every positive radius; with radius 0 an x-face and y-face boundary are treated the same but the flag of an interior point still reports true: see C25_radius_zero_finding."}, "C26": {"note": "C26_box_ball_resolves_iff: exact; on the x-face lines the code returns a y push (C26_face_finding); what does hold there is C26_box_ball_face_contact."}, "C27": {"note": "C27_separated is the exact characterisation for separated shapes; C27_separated_finding, C27_box_ball_sdf_finding, C27_sign_finding refute the naive claim."}, "C31": {"note": "Vec2, Translate2d, Transform2d (uniform scale of the first collider), any shape pair. AxisTransform2d violates it (C31_axis_finding)."}, "C32": {"note": "sdfv is proved to be the world-frame answer; penetrates/distance_to are not rotated back to the world (C32_penetrates_frame_finding)."}, "C34": {"note": "Overlapping interiors: no condition. Resolvable shapes (C34_sdfv_no_panic): overlapping, touching or apart. The unrestricted claim is refuted by two findings."}, "C36": {"note": "The exact claim is refuted by C36_penetrates_disjoint_finding; tolerance version for all convex pairs, exact version on grids."}, "C38": {"note": "collides: exact for overlaps; penetrates: with margin, or exact on grids."}, "C40": {"note": "Vector ZERO is what the code returns at the iteration limit and is excluded."}, "C41": {"note": "Margin and grid versions; C41_no_margin_finding shows a hypothesis is needed, C93_zero_push_finding that the zero alternative happens."}, "C42": {"note": "penetrates and sdfv. n + m bound as in C39; Proper = contains its origin, and has an area or at most two vertices."}, "C43": {"note": "distance_to and sdfv; None for overlapping shapes with a margin; None/collision only for touching shapes if resolvable."}, "C44": {"note": "For two boxes under any rotation the vector is always shortest (C44_box_box_shortest, C44_box_box_sdfv: every path of the search is followed). For polygons that claim is false (C44_not_shortest_finding, C44_far_from_shortest_finding); the statement says exactly what is returned instead."}, "C45": {"note": "Exact-arithmetic signum of 0 is one fixed sign, so centres sharing a coordinate are covered by C42 (1 %) rather than by the exact statement for penetrates."}, "C48": {"note": "C48_touching_boxes_finding: two touching box pairs, one reported as colliding by all queries, the other by none."}, "C56": {"note": "C56_two_tiles_finding: with two solid tiles the result can still overlap one of them."}, "C63": {"note": "unapply holds for all types; inverse of AxisTransform3d iff no translation or no scaling (finding), inverse/compose/delta of Transform3d and bevy iff rotation and scale commute (findings)."}, "C64": {"note": "C64_box_sdf_iff: the sdf is right exactly when the point is not straight above/below the box in z; C64_box_sdf_finding: box (2,1,3), point (0,0,4) gives sqrt 2 instead of 1."}, "C65": {"note": "C65_ball_penetrates_finding: closer than f32::EPSILON to the centre (but not at it) the vector does not separate."}, "C66": {"note": "The delegation itself at Tier 0; what it means in world space: right for translations (C66_swap_*), wrong for rotated shapes (C66_rotation_finding)."}, "C69": {"note": "cover ignores z: exact characterisation and C69_cover_finding."}, "C70": {"status": "proved", "note": "complete; includes every order of the three builders."}, "C71": {"status": "proved", "note": "IEEE binary32 model (round to nearest even, signed zeros, overflow, NaN); at most 19 pairs of vertices (the iteration limit is 20)."}, "C72": {"note": "JSON text, reader, field checks and file steps are modelled in Model/Persist; the serde representation of positions is a parameter that round-trips. C72_save_not_atomic_finding: save truncates before writing, so the previous save can be lost. Page cache / fsync not modelled."}, "C73": {"status": "proved", "note": "IEEE binary32 model; at most 20 pairs of vertices, or (C73_f32_corners_*) at most 20 vertices together (a box counts as eight); C73_f32_corners_colliders: the latter in world space, colliders placed by Vec2 or Translate2d. Boxes: shortest contact vector; polygons: shortest, or shortest of the edge at which the search stopped (as in exact arithmetic, see C44_far_from_shortest_finding). Findings on binary32 beyond the grid: distance_to answers 'colliding' (None), NaN, or a wrong vector for integer triangles far apart; sdfv panics for near-contact triangles."}, "C74": {"status": "proved", "note": "ellipse2d.rs modelled as written (not compiled at this commit)."}, "C75": {"status": "proved", "note": "minkowski_diff modelled as written (not compiled); the extreme point is shifted by the first collider's position, see C75_minkowski_diff_position_finding."}, "C76": {"status": "proved", "note": "cylinder3d.rs modelled as written (not in the module tree); the findings refute minkowski_sum, the penetration vector, sdf, and sdfv inside and below the lower rim."}, "C77": {"status": "proved", "note": "binary32 with rounding (not only exactly representable cases); findings show what happens outside the range: underflow, overflow, NaN."}, "C78": {"status": "proved", "note": "binary32 with rounding; flag and sdf sign exact."}, "C79": {"status": "proved", "note": "binary32 with rounding; the sdf of Box2d v Ball is not covered because it is wrong even exactly (C27)."}, "C80": {"status": "proved", "note": "std iterators modelled as state machines; overflow checked."}, "C81": {"status": "proved", "note": "exact arithmetic; the f32 finding holds for every f32 input including NaN."}, "C82": {"status": "proved", "note": "binary32 model with correct rounding; round_to_i32 (external trait) is any nearest-integer function in the i32 range, shown satisfiable by Rust's round() as i32 (nearestI32_rust). Finding: tile 2^24+1."}, "C83": {"status": "proved", "note": "binary32 with rounding. The depth M/2^20 excludes near-contact inputs, where rounding may flip the flag."}, "C84": {"status": "proved", "note": "binary32 with rounding. The thin-box condition excludes inputs where the crate answers differently (directionTooSmall is an absolute threshold). C84_f32_thin_panic_finding shows a panic there."}, "C85": {"status": "proved", "note": "all bevy transforms with a rotation about the z axis; exact arithmetic; finding for tilted rotations"}, "C86": {"status": "proved", "note": "binary32 with rounding at every step. Pushes are stated for boxes and polygons only (not balls), answers that are infinite/NaN or zero are not covered (C73 findings show that NaN occurs), and a search that uses up its 20 steps is an explicit alternative of the negative answers (excluded for deep overlaps by C97)."}, "C87": {"status": "proved", "note": "binary32 with rounding at every step; tolerance M/64, which cannot be improved below M/2^13 for collides (finding). distance_to = None is not covered: it is unsound (C73 finding)."}, "C88": {"status": "proved", "note": "binary32 with rounding at every step, scale one. Pushes are stated for boxes and polygons only, with the products of rotor and vertex coordinates multiples of 2^-60; answers that are infinite/NaN or zero are not covered; a search that uses up its 20 steps is an explicit alternative of the negative answers; distance_to = None is not covered (unsound, C73)."}, "C89": {"status": "proved", "note": "exact arithmetic. The finding shows that both restrictions (scales not negative; disc instead of ellipse) are needed."}, "C90": {"status": "proved", "note": "binary32 with rounding at every step, scale one, nearly unit rotor. The exact reference is the real rigid map of the same stored rotor and position. The finding shows that the round trips are not exact."}, "C91": {"status": "proved", "note": "binary32 with rounding at every step. Directions with |x|+|y| at least 2^-60 and at most 2^85 (2^58 with balls) except for boxes. The finding shows that the exact claim fails for polygons."}, "C92": {"status": "proved", "note": "Exact arithmetic. The area of the triangle between the simplex edge and the supporting lines at its ends is divided by four in every step, and is at least d^2 while the disc of radius d lies beyond the edge. C92_iteration_limit_finding: a concrete miss."}, "C93": {"status": "proved", "note": "Exact arithmetic, margin as in C41. C93_zero_push_finding: the zero vector for a 24-gon and a box near its middle. C93_f32_zero_push_finding: the same in binary32. C93_corners_shape2d: at most 22 corners together, never zero."}, "C94": {"status": "proved", "note": "Exact arithmetic. AxisTransform2d and non-uniform scales are excluded because delta_transform is wrong for them (C04). Findings: C94_self_scale_finding, C94_frame_finding."}, "C61": {"status": "proved", "note": "exact characterisation; f32: reflexive on finite vectors, NaN, infinity and underflow behaviour (findings). Default tolerance: C61_approx_default_vec2/_vec3, C61_f32_default_*; not transitive: C61_approx_transitive_finding."}, "C95": {"status": "proved", "note": "Model run on binary32 with round-to-nearest-even. sdf straight above or below the box in z is excluded because the code is wrong there (C64_box_sdf_finding); penetrates closer than two f32::EPSILON to the centre is excluded because the code switches to a fixed axis there (C65_ball_penetrates_finding)."}, "C96": {"status": "proved", "note": "Exact arithmetic: C96_collides / C96_exact / C96_overlap for any convex pair on the lattice, instances for polygons, boxes, shape enum. Proof: the area of the triangle over the current edge falls by four per step, a non-flat lattice triangle has area at least half a unit. Binary32: C96_f32_* (removes the vertex bound of C71). Length of the push is not claimed here (C93_zero_push_finding: it may be zero for many vertices)."}, "C97": {"status": "proved", "note": "C97_f32_* for every pair of shapes, relative and as colliders, unrotated and rotated; DeepExamples.lean has an eight-vertex polygon and a triangle with one-decimal literals meeting all hypotheses. Proof: area potential of C92 carried through the rounding (16 steps suffice). The margin M/32 is needed for the rounding argument only; the length of the push is not claimed (C93_zero_push_finding). For M < 8 only collides is covered: the absolute too-small test of the other loops may fire."}, "C98": {"status": "proved", "note": "C98_f32_* for every pair of balls, boxes and polygons, relative and as colliders, unrotated and rotated; LeastExamples.lean has an eight-vertex polygon, a triangle and a ball with a box meeting the hypotheses, the polygons with non-zero pushes. Proof: the polygon EPA keeps winds once around a point near the origin (Lib/Winding), so the edge with the smallest computed distance bounds the depth in every direction; because the overlap is deep, consecutive vertices of that polygon are at least M/2^13 apart (Encloses.long), so the rounded edge distance is right up to M/2^16 (Ieee/EdgeDist) with no condition on the coordinates except their size. A zero push (EPA out of steps, C93_zero_push_finding) is allowed by the statement."}, "C03": {"note": "Exact arithmetic: any ordered field K (the f32 version of the transforms/extreme points is in C90/C91). Non-zero scales (axis: scale; bevy/Transform2d: scale and a unit rotor) are hypotheses."}, "C05": {"note": "Exact arithmetic: any ordered field K (the f32 version of the transforms/extreme points is in C90/C91). from_angle/angle are over the reals with Mathlib's cos, sin and arg."}, "C06": {"note": "Exact arithmetic over any ordered field K. from_quaternion_iff says exactly which quaternions give the right rotor."}, "C07": {"note": "Exact arithmetic: any ordered field K (the f32 version of the transforms/extreme points is in C90/C91). All six transformation types."}, "C08": {"note": "Exact arithmetic: any ordered field K (the f32 version of the transforms/extreme points is in C90/C91). Box, ball and rounded box need non-negative sizes; polygons contain the origin, as documented (finding: without it the answer can be wrong)."}, "C09": {"note": "Exact arithmetic: any ordered field K (the f32 version of the transforms/extreme points is in C90/C91). Uniform scale for rotated shapes; boxes also for non-uniform scale; the non-uniform polygon case is refuted (finding)."}, "C10": {"note": "C10_f32_* on binary32; the other two for any ordered field."}, "C11": {"note": "Exact arithmetic: any ordered field K (the f32 version of the transforms/extreme points is in C90/C91). Support function of the difference set for every pair of shapes with an exact extreme point."}, "C12": {"note": "C12_f32_* on binary32, the others for any ordered field."}, "C13": {"note": "C13_f32_* on binary32; cover_sequence is by induction over any list of points."}, "C15": {"note": "Exact arithmetic over any ordered field K. Equality of regions as sets of points."}, "C16": {"note": "Over the reals with Mathlib's sin and cos; every number of sides >= 1 (origin inside: >= 2)."}, "C18": {"note": "Exact arithmetic over any ordered field K. The relative transformation may be any of the modelled similarities of factor 1."}, "C19": {"note": "Exact arithmetic over any ordered field K. Signed distance in the sense of Spec/Sets (SignedDist)."}, "C20": {"note": "Exact arithmetic over any ordered field K. Collision, vector and signed distance in one theorem."}, "C21": {"note": "C21_f32_* on binary32 with the NaN case as a finding; the other for any ordered field."}, "C22": {"note": "Exact arithmetic over any ordered field K. Least resolution inside, nearest point outside."}, "C23": {"note": "Exact arithmetic over any ordered field K. Exact square root needed only for the corner regions."}, "C24": {"note": "C24_f32_* on binary32."}, "C28": {"note": "Exact arithmetic over any ordered field K. Positive corner radius; |sdf| = |sdfv| excludes points on the face line x = half size, where the code's vector is different."}, "C29": {"note": "Exact arithmetic over any ordered field K. Reversible: the relative transformation and its inverse are isometries inverse to each other (all rigid types)."}, "C30": {"note": "Holds for any float type, f32 with rounding, infinities and NaN included. collides/penetrates/sdf/sdfv as forms of one answer, for each hand written pair and at collider level."}, "C33": {"note": "Holds for any float type, f32 with rounding, infinities and NaN included. Panics are modelled as a value of the result; only the explicit panic of sdfv is left and it is characterised."}, "C35": {"note": "Exact arithmetic over any ordered field K. The negative answer comes with a separating direction; binary32 version: C86."}, "C37": {"note": "Exact arithmetic over any ordered field K. Distance at most the tolerance of the too-small test; binary32 version: C86."}, "C39": {"note": "Exact arithmetic over any ordered field K. The extreme points of the difference are met in the order of the directions, one corner at a time, so there are at most n + m of them (Lib/Fan.lean, Props/Corners.lean). Without the limit: C92 (deep), C96 (lattice)."}, "C46": {"note": "Holds for any float type, f32 with rounding, infinities and NaN included. Stated as: there are at most N directions such that two inputs agreeing on them give the same answer."}, "C47": {"note": "Holds for any float type, f32 with rounding, infinities and NaN included. Shape2d dispatch against the wrapped shape for all shapes and queries."}, "C49": {"note": "Any history of calls, refinement to a finite map. Coordinates are integers; C50_no_overflow shows that i32 inputs stay in range."}, "C50": {"note": "All integer coordinates; C50_no_overflow for i32."}, "C51": {"note": "Any history of calls."}, "C52": {"note": "Any history; two findings about removals that are silent or report tiles that never existed."}, "C53": {"note": "Hash map iteration order is modelled as any permutation of the chunk list; bytes of the serde format are not modelled."}, "C54": {"note": "Exact arithmetic over any ordered field K. A point on the border of a cell rounds to one of the touching cells; the vector is always (0,1), which need not resolve the collision (finding)."}, "C55": {"note": "Exact arithmetic over any ordered field K. floor/ceil by their laws; tile numbers are unbounded integers here (the i32 cast is treated with the Int32 model)."}, "C57": {"note": "All integer rectangles; order and multiplicity as equality of lists."}, "C59": {"note": "Any sequence of attach and notify calls."}, "C60": {"note": "C60_f32_* on binary32, others for any ordered field; symmetry and infinities are findings. C60_approx_default: the default tolerance."}, "C62": {"note": "C62_f32_* on binary32 (finding: lerp at 1 is not the end point), C62_lerp exact."}, "C67": {"note": "Exact arithmetic over any ordered field K. The 3d feature."}, "C68": {"note": "Holds for any float type, f32 with rounding, infinities and NaN included. The 3d feature; the world statement C68_box_world is exact."}, "C99": {"note": "The pair implementations are behind cfg(minkowski) and the traits they use are not defined at this commit; the bodies are modelled as written, reading minkowski_difference as minkowski_sum for shapes marked MinkowskiNegationIsIdentity. Two findings: rotation/scale of the second box is ignored; sdf is wrong for boxes straight above each other."}, "C100": {"status": "proved", "note": "Derived from C94 (exact) for convex pairs with similarity placements; balls exactly and in binary32 bit for bit. The push clause speaks about non-zero pushes. Two findings: coincident balls are pushed the same way by both orders; the tolerance depends on the first collider's scale, so the orders can disagree at contact."}, "C101": {"status": "proved", "note": "binary32 with correct rounding; boxes of any size and position in the stated range. Overlaps or gaps smaller than the margins (M/2^18 + L/2^23) are outside the statement, as are several tiles overlapping the box at once (C56 has the finding about that). Balls: a clear ball is not moved (C101_f32_ball_unchanged), a ball deep in one tile is moved off it by nearly the shortest move or not at all (C101_f32_ball_single, C101_f32_ball_among; the unmoved case is EPA out of steps, as in C93/C98)."}, "C102": {"status": "proved", "note": "binary32 with signed zeros, infinities and NaN. C102_poly_poly/_shape2d/_ball_ball/_ball_point/_point_ball/_point_point for every 2D transform type (Point v Ball also needs the relative scale not to be zero, since that pair inverts the relative transform); C102_eq_* say the same with the derived ==. Boxes and zero scales are excluded because the claim is false there (three findings)."}, "C103": {"status": "proved", "note": "Bit for bit up to the sign of zeros, for balls and polygons, as Shape2d and as colliders placed by Vec2 or Translate2d. Boxes are covered against points and balls (mirroring, and quarter turns of collides and distance_to against a point) but not in the GJK searches: their extreme_point treats a zero component as positive on both axes, which a quarter turn does not preserve (the box answers of C102's findings). Tiny offsets (length_sq < EPSILON) are excluded: the search then starts from the fixed direction (1, 0). Mirroring is proved for collides only: penetrates and distance_to replace a vanishing direction by the old one turned counter-clockwise, which has a handedness. Turning the world under Transform2d needs a uniform scale of the first collider (its inverse scales before rotating), but no bound on the offset: the relative transform is the same up to the sign of zeros."}}