{"id": "C01", "title": "Inverse undoes a 2D transformation", "statement": "The law documented on Invertible is a.inverse().apply(a.apply(p)) == p for every transformation a and point p. It holds for all Vec2 and Translate2d; for an AxisTransform2d with non-zero scale it holds exactly if the position is 0 or the scale is 1; for a Transform2d with unit rotor and non-zero scales exactly if the scale is uniform or the rotation is a multiple of 180 degrees. So as documented, for all transformations, it is false for these two types (findings).", "quantifier": "all points, all transformations with non-zero scale and unit rotor (exact arithmetic)", "why_tests_cant": "a law over a continuum of transforms and points; the doctest checks one Translate2d", "anchors": ["src/col/transform.rs:Invertible::inverse", "src/col2d/transformation2d/translate2d.rs", "src/col2d/transformation2d/axis_transform2d.rs", "src/col2d/transformation2d/transform2d.rs"]}
{"id": "C02", "title": "Composition applies right then left", "statement": "The law documented on Composable is a.compose(&b).apply(p) == a.apply(b.apply(p)). It holds for all Vec2, Translate2d and AxisTransform2d; for Transform2d (a with unit rotor, b with unit rotor and non-zero scales) it holds exactly if a's scale is uniform or b's rotation is a multiple of 180 degrees (finding: false in general).", "quantifier": "all pairs of transformations of one type, all points", "why_tests_cant": "a law over a continuum; doctest checks two translations", "anchors": ["src/col/transform.rs:Composable::compose", "src/col2d/transformation2d/translate2d.rs", "src/col2d/transformation2d/axis_transform2d.rs", "src/col2d/transformation2d/transform2d.rs"]}
{"id": "C03", "title": "unapply is a two-sided inverse of apply", "statement": "t.unapply(t.apply(p)) == p and t.apply(t.unapply(p)) == p, and apply_origin equals apply(ZERO), for IdentityTransform, Vec2, Translate2d, for AxisTransform2d and Transform2d with non-zero scale and unit rotor, and for bevy transforms with non-zero x and y scale that rotate about z.", "quantifier": "all such transformations and all points (exact arithmetic)", "why_tests_cant": "continuum of inputs", "anchors": ["src/col2d/transformation2d/mod.rs:Transformation2d", "src/col2d/transformation2d/transform2d.rs", "src/col2d/transformation2d/axis_transform2d.rs", "src/col2d/transformation2d/translate2d.rs"]}
{"id": "C04", "title": "delta_transform is the relative placement", "statement": "For colliders placed by a and b, rel = a.delta_transform(&b) satisfies a.apply(rel.apply(p)) == b.apply(p): geometry expressed in a's space is the world geometry, for Vec2 and Translate2d always. For Transform2d it holds exactly when a's scale is uniform, or the rotations agree up to a half turn and additionally a is unrotated or b sits at the origin (otherwise refuted by a counterexample); AxisTransform2d is characterised likewise.", "quantifier": "all pairs of transformations, all points", "why_tests_cant": "continuum; a wrong inverse only shows for non-trivial scale", "anchors": ["src/col/transform.rs:DeltaTransform", "src/col2d/transformation2d/axis_transform2d.rs", "src/col2d/transformation2d/transform2d.rs"]}
{"id": "C05", "title": "Rotor2d is a rotation", "statement": "Rotor2d::from_angle gives a rotor which preserves lengths, dot products and orientation; rotor multiplication is composition (angles add), inverse() undoes it, and IDENTITY fixes every vector.", "quantifier": "all angles, all vectors", "why_tests_cant": "continuum of angles; tests check multiples of 90 degrees", "anchors": ["src/col2d/transformation2d/mod.rs:Rotor2d"]}
{"id": "C06", "title": "Rotor2d::from_quaternion keeps z rotations", "statement": "For every non-zero quaternion that rotates about z, from_quaternion gives the rotor that acts on the plane as the normalised quaternion does, and for a quaternion of angle t the same rotor as from_angle(t). For any other non-zero quaternion the result is a rotation (unit rotor) exactly if the quaternion is a rotation by 180 degrees (finding: otherwise it shrinks vectors).", "quantifier": "all quaternions", "why_tests_cant": "test samples 360 z-rotations", "anchors": ["src/col2d/transformation2d/mod.rs:Rotor2d::from_quaternion", "src/col2d/transformation2d/bevy_transform.rs"]}
{"id": "C07", "title": "Normals are transformed isometrically", "statement": "apply_normal and unapply_normal are mutually inverse and preserve lengths and dot products, for IdentityTransform, Vec2, Translate2d, AxisTransform2d, Transform2d with unit rotor and bevy transforms rotating about z.", "quantifier": "all transformations, all vectors", "why_tests_cant": "continuum", "anchors": ["src/col2d/transformation2d/mod.rs:Transformation2d::apply_normal", "src/col2d/transformation2d/transform2d.rs"]}
{"id": "C08", "title": "extreme_point lies in the shape and is farthest", "statement": "For Ball, Box2d, Poly2d (containing the origin, as documented), RoundedBox2d and Point, extreme_point(d) is a point of the shape and no point of the shape is farther along d.", "quantifier": "all shapes with non-negative sizes, all directions, all points of the shape", "why_tests_cant": "universal over directions and shape points", "anchors": ["src/col2d/detection/extreme_point.rs", "src/col2d/shape/ball2d/mod.rs", "src/col2d/shape/box2d/mod.rs", "src/col2d/shape/poly2d/mod.rs", "src/col2d/shape/rounded_box2d/mod.rs", "src/col2d/shape/point2d.rs"]}
{"id": "C09", "title": "Collider extreme_point is farthest in world space", "statement": "Collider2d::extreme_point(d) is a point of the transformed shape and none of its points is farther along d: for boxes, polygons containing their origin, balls, points and Shape2d placed by a rotation, translation and non-negative uniform scale; for boxes also under non-uniform non-negative scales. For polygons under a non-uniform scale it is false (finding); for balls see C89.", "quantifier": "all such shapes and transformations, all directions", "why_tests_cant": "continuum; non-uniform scales are never tested", "anchors": ["src/col2d/collider2d.rs", "src/col2d/detection/extreme_point.rs:ExtremePointT2d", "src/col2d/shape/ball2d/mod.rs"]}
{"id": "C10", "title": "Poly2d::extreme_point is total and returns a vertex", "statement": "Poly2d::extreme_point never panics and returns either one of the polygon's vertices or ZERO, under every behaviour of float arithmetic including NaN and overflow; on a polygon that contains the origin it is a vertex.", "quantifier": "all point lists (any length, NaN, infinities), all directions", "why_tests_cant": "all float inputs", "anchors": ["src/col2d/shape/poly2d/mod.rs:extreme_point"]}
{"id": "C11", "title": "The configuration-space difference support is correct", "statement": "The support point used by all Minkowski based queries is a difference p - rel.apply(q) of points of the two shapes, and is farthest along the given direction among all such differences, for rigid and uniformly (positively) scaled relative transforms.", "quantifier": "all pairs of shapes with correct extreme points, all relative transforms, all directions", "why_tests_cant": "universal over shape pairs and directions", "anchors": ["src/col2d/shape/local_minkowski_diff/mod.rs:LocalMinkowskiDiff2d::extreme_point"]}
{"id": "C12", "title": "symmetric_bounding_box contains the shape and is tight", "statement": "symmetric_bounding_box contains every point of the shape, and no smaller origin-centred box does (Ball, Box2d, RoundedBox2d, Poly2d, Point).", "quantifier": "all shapes and points", "why_tests_cant": "universal over points, polygons of any size", "anchors": ["src/col2d/mod.rs:SymmetricBoundingBox2d", "src/col2d/shape/poly2d/mod.rs", "src/col2d/shape/rounded_box2d/mod.rs"]}
{"id": "C13", "title": "Box2d::cover grows minimally", "statement": "After cover(p) the box contains p and all its previous points, and is the smallest such centred box; cover is idempotent. After covering a list of points one by one the box contains all of them and is the smallest such box, and neither order nor repetition of the points matters.", "quantifier": "all boxes, points and cover sequences", "why_tests_cant": "arbitrary sequences", "anchors": ["src/col2d/shape/box2d/mod.rs:cover"]}
{"id": "C14", "title": "Poly2d::strict_check certifies what its documentation says", "statement": "strict_check() passes exactly when every vertex, at its first occurrence, scores strictly more in its own direction than every vertex listed before it and at least as much as every vertex listed after it; in particular every point q of the polygon satisfies p.q <= |p|^2 for every vertex p. It certifies neither of the two documented facts (convex position; origin strictly inside): both are refuted by concrete polygons.", "quantifier": "all point lists", "why_tests_cant": "all polygons of any size", "anchors": ["src/col2d/shape/poly2d/mod.rs:strict_check"]}
{"id": "C15", "title": "Poly2d from Box2d is the same shape", "statement": "Poly2d::from(box) has exactly the box's point set, bounding box and extent in every direction.", "quantifier": "all boxes with non-negative halfsize, all directions", "why_tests_cant": "continuum", "anchors": ["src/col2d/shape/poly2d/mod.rs:From<Box2d>"]}
{"id": "C16", "title": "Regular polygons are regular", "statement": "Poly2d::regular(n, r) and regular_upright(n, r) have n vertices, all at distance |r| from the origin, invariant under rotation by 2 pi/n, first vertex (r,0) resp. (0,r), and contain the origin for n >= 2.", "quantifier": "all n, all r", "why_tests_cant": "all n", "anchors": ["src/col2d/shape/poly2d/mod.rs:regular"]}
{"id": "C17", "title": "Ball v Ball collision flag", "statement": "For balls with non-negative radii placed rigidly at different centres: collides iff the discs overlap (keep sharing a point under every small displacement; for positive radii: iff the open discs meet); exactly touching balls do not collide. Coincident centres always report collision, even for radius 0 (finding). The scale of the relative transform is ignored, so balls that overlap only through a scale are reported apart (finding).", "quantifier": "all radii, all rigid relative placements", "why_tests_cant": "continuum, boundary behaviour", "anchors": ["src/col2d/shape/ball2d/v_ball2d.rs"]}
{"id": "C18", "title": "Ball v Ball resolution vector", "statement": "Moving self by the sdfv/penetrates/distance_to vector brings the two balls to exact touching contact, and no shorter move does so.", "quantifier": "all radii, all relative positions, all candidate moves", "why_tests_cant": "minimality quantifies over all moves", "anchors": ["src/col2d/shape/ball2d/v_ball2d.rs", "src/col2d/detection/sdfv_common.rs"]}
{"id": "C19", "title": "Ball v Ball signed distance", "statement": "sdf is negative iff colliding (away from coincidence), equals the gap between the discs when separated, and |sdf| equals the length of the sdfv vector.", "quantifier": "all radii, positions", "why_tests_cant": "continuum", "anchors": ["src/col2d/shape/ball2d/v_ball2d.rs:sdf_rel"]}
{"id": "C20", "title": "Ball v Point", "statement": "collides iff the point is strictly inside the ball (or at its centre); sdfv leads from the boundary to the point: point - v is the boundary point nearest to the point; sdf is the signed distance to the circle.", "quantifier": "all radii, points", "why_tests_cant": "continuum", "anchors": ["src/col2d/shape/ball2d/v_point.rs"]}
{"id": "C21", "title": "Box2d v Point collision flag", "statement": "collides iff the point is strictly inside the box; boundary points do not collide.", "quantifier": "all boxes, all points", "why_tests_cant": "continuum, boundary", "anchors": ["src/col2d/shape/box2d/v_point.rs"]}
{"id": "C22", "title": "Box2d v Point vectors", "statement": "For an outside point, distance_to/sdfv v is such that point - v is the nearest point of the box; for an inside point, penetrates/sdfv v is such that point - v is on the boundary and no boundary point is nearer.", "quantifier": "all boxes, points, all candidate boundary points", "why_tests_cant": "minimality over all boundary points", "anchors": ["src/col2d/shape/box2d/v_point.rs"]}
{"id": "C23", "title": "Box2d v Point signed distance", "statement": "sdf equals the Euclidean distance to the box outside, minus the distance to the nearest face inside, 0 on the boundary; negative iff collides; |sdf| equals the length of sdfv.", "quantifier": "all boxes, points", "why_tests_cant": "continuum", "anchors": ["src/col2d/shape/box2d/v_point.rs:sdf_rel"]}
{"id": "C24", "title": "Point v Point", "statement": "Points collide iff they coincide; sdfv is the offset; sdf its length.", "quantifier": "all relative positions", "why_tests_cant": "continuum", "anchors": ["src/col2d/shape/point2d.rs"]}
{"id": "C25", "title": "Box2d v Ball collision flag", "statement": "For positive radius, collides iff the open disc meets the box (distance from the ball's centre to the box is below the radius).", "quantifier": "all boxes, radii, centres", "why_tests_cant": "continuum, corner regions", "anchors": ["src/col2d/shape/box2d/v_ball.rs", "src/col2d/shape/rounded_box2d/v_point.rs"]}
{"id": "C26", "title": "Box2d v Ball resolution vector", "statement": "Moving the box by the returned vector brings box and ball to touching contact, and no shorter move does, exactly unless the ball's centre lies on one of the two x-faces (|x| = half width, |y| < half height), where the vector is refuted.", "quantifier": "all boxes, balls, positions, candidate moves", "why_tests_cant": "minimality", "anchors": ["src/col2d/shape/box2d/v_ball.rs", "src/col2d/shape/rounded_box2d/v_point.rs"]}
{"id": "C27", "title": "Box2d v Ball signed distance", "statement": "For separated shapes sdf(box, ball) is the distance from the box to the point of the ball nearest to the box's centre; it is never less than the gap and equals the gap exactly when the box point nearest to the ball's centre lies on the line through the two centres. For colliding shapes it is in general neither minus the penetration depth nor even negative (counterexamples).", "quantifier": "all boxes, balls, positions", "why_tests_cant": "continuum", "anchors": ["src/col2d/shape/box2d/v_ball.rs:sdf_rel"]}
{"id": "C28", "title": "RoundedBox2d v Point signed distance", "statement": "sdf of a rounded box is the box signed distance minus the radius; negative iff the rounded box v point test collides.", "quantifier": "all rounded boxes, points", "why_tests_cant": "continuum", "anchors": ["src/col2d/shape/rounded_box2d/v_point.rs"]}
{"id": "C29", "title": "Argument order: Point v shape", "statement": "Point v Box2d and Point v Ball answer the same question as the swapped call: same flag, and v describes the same displacement negated and expressed in the first argument's space.", "quantifier": "all shapes and rigid relative transforms", "why_tests_cant": "continuum", "anchors": ["src/col2d/shape/point2d.rs:impl_reverse_sdfv_common_rel"]}
{"id": "C30", "title": "The query family agrees", "statement": "For one pair of colliders: penetrates is Some iff collides, distance_to is None iff collides, the sdfv flag equals collides, and the sdfv vector equals the penetrates/distance_to vector (directly implemented pairs: Ball/Box2d/Point combinations).", "quantifier": "all shape pairs, all transforms", "why_tests_cant": "cross-method agreement over all inputs", "anchors": ["src/col2d/detection/sdfv_common.rs", "src/col2d/detection/penetrates.rs", "src/col2d/detection/distance_to.rs", "src/col2d/detection/sdfv.rs"]}
{"id": "C31", "title": "World-frame invariance", "statement": "collides, penetrates, distance_to and sdf of two colliders do not change when both are moved by the same rigid motion; the sdfv vector rotates with the motion.", "quantifier": "all shape pairs, placements, rigid motions", "why_tests_cant": "continuum of motions", "anchors": ["src/col2d/detection/collides.rs", "src/col2d/detection/sdfv.rs", "src/col/transform.rs"]}
{"id": "C32", "title": "sdfv and penetrates/distance_to are expressed in a documented frame", "statement": "The collider-level vector returned by sdfv is the world-frame displacement of self: it resolves the world regions of the colliders. The vectors of penetrates and distance_to are in the frame of self: only after rotating them by self's rotation they resolve the configuration in the world. That penetrates' vector can be applied to the world position directly, as a user may expect, is false for rotated colliders (finding).", "quantifier": "all rigidly placed colliders of the directly implemented pairs (see C94 for the Minkowski-based ones)", "why_tests_cant": "continuum of rotations", "anchors": ["src/col2d/detection/penetrates.rs", "src/col2d/detection/distance_to.rs", "src/col2d/detection/sdfv.rs"]}
{"id": "C33", "title": "Minkowski queries never panic", "statement": "collides, penetrates and distance_to on Minkowski-based pairs (Ball-Box2d, Box2d-Box2d, Box2d-Poly2d, Poly2d-Poly2d, Shape2d-Shape2d) never reach a panic, unreachable! or failed assertion, for any float behaviour (NaN, overflow, rounding) and any shapes.", "quantifier": "all shapes, transforms, all float behaviours", "why_tests_cant": "every float input and every execution path", "anchors": ["src/col2d/shape/local_minkowski_diff/v.rs", "src/col2d/shape/local_minkowski_diff/mod.rs:Simplex2d"]}
{"id": "C34", "title": "sdfv does not panic", "statement": "sdfv on Minkowski-based pairs does not hit the explicit panic 'Simplex collided after collision was no longer possible' (nor any other) if the interiors of the shapes overlap, or if the shapes are resolvable (coordinates on a grid no finer than 1/203, or no corner difference and no triangle of corner differences so small that f32::EPSILON matters). Without either condition the claim is false, for shapes within 2^-23 of each other and for boxes of a few thousandths of a unit (findings).", "quantifier": "all convex shapes and relative transforms (exact arithmetic)", "why_tests_cant": "needs an invariant of the loop over all shapes", "anchors": ["src/col2d/shape/local_minkowski_diff/v.rs:SdfvMinkowski2d<true,true>"]}
{"id": "C35", "title": "A negative collision answer is certified", "statement": "If collides reports no collision for convex shapes, a line separates them (their interiors are disjoint), or the difference of the shapes has at least 20 different extreme points (the search met 20 of them, its iteration limit). For penetrates = None there is one more alternative: the shapes come within the tolerance (2^(-23/3), about 0.005) of each other.", "quantifier": "all convex shape pairs of the Minkowski-based queries, all similarities as relative transform, exact arithmetic", "why_tests_cant": "universal over shape points", "anchors": ["src/col2d/shape/local_minkowski_diff/v.rs:SdfvMinkowski2d<false,false>"]}
{"id": "C36", "title": "penetrates reports only collisions within the tolerance", "statement": "If penetrates is Some for convex shapes, the shapes have a common point or come within the explicit tolerance of the search direction (2^-23) of each other; on coordinates that are multiples of 1/N with N <= 203 they have a common point, and None means they are separable or the iteration limit was reached. The exact claim without tolerance is false at this commit: disjoint boxes within the tolerance get Some.", "quantifier": "all convex shape pairs with correct extreme points (exact arithmetic)", "why_tests_cant": "soundness over all shapes", "anchors": ["src/col2d/shape/local_minkowski_diff/v.rs:SdfvMinkowski2d<true,false>"]}
{"id": "C37", "title": "collides reports true only within a tolerance of contact", "statement": "If collides is true for convex shapes, they share a point or come within a small explicit distance of each other.", "quantifier": "all convex shape pairs", "why_tests_cant": "soundness over all shapes", "anchors": ["src/col2d/shape/local_minkowski_diff/v.rs:SdfvMinkowski2d<false,false>", "src/col2d/shape/local_minkowski_diff/v.rs:direction_is_too_small"]}
{"id": "C38", "title": "Box2d v Box2d collision test is complete", "statement": "For any two boxes under any rotation, uniform scale and translation: if they overlap with interior then collides is true, a false answer means they are separable and a true answer means contact within the tolerance; if they overlap with a margin d (2^-23 R <= d^4, R the largest distance between their points) then penetrates is Some, and if they are farther apart than the tolerance penetrates is None; for axis-aligned boxes on a 1/N grid (N <= 203) penetrates is Some iff they are not separable. The 20 iteration limit is never the reason for the answer.", "quantifier": "all pairs of boxes, all rigid relative transforms", "why_tests_cant": "needs a termination measure over all inputs", "anchors": ["src/col2d/shape/local_minkowski_diff/v.rs", "src/col2d/shape/box2d/mod.rs"]}
{"id": "C39", "title": "Polygon collision test is complete for small polygons", "statement": "For convex polygons, each with an area or a segment, and at most 19 vertices together (two 9-gons; a box and a 15-gon; boxes, also flat ones, and polygons mixed in the Shape2d enum): overlapping shapes are always detected by collides within the 20 iteration limit and a negative answer means that a line separates them; penetrates, sdfv and distance_to detect every overlap with a margin d (2^-23 R <= d^4). For polygons whose vertices lie on a line the same holds if the vertex counts multiply to at most 19 (box and polygon of at most four vertices).", "quantifier": "all polygons within the vertex bound, all relative transforms", "why_tests_cant": "needs a termination measure", "anchors": ["src/col2d/shape/local_minkowski_diff/v.rs", "src/col2d/shape/poly2d/mod.rs"]}
{"id": "C40", "title": "Penetration vector separates", "statement": "If penetrates returns Some(v), or sdfv (true, v), with v not zero (zero is what the code returns when it uses up its iterations), then moving self by v leaves the shapes with disjoint interiors.", "quantifier": "all convex shape pairs", "why_tests_cant": "universal over shape points", "anchors": ["src/col2d/shape/local_minkowski_diff/mod.rs:EpaPoly2d::calculate_penetration"]}
{"id": "C41", "title": "Penetration vector is minimal within 1 percent", "statement": "If penetrates returns Some(v) for shapes overlapping with a margin d (2^-23 R <= d^4), or with coordinates that are multiples of 1/N (N <= 203), then any displacement w which separates the shapes has |v| <= 1.01 |w|, unless v is exactly zero, which can only happen when the difference has at least 23 different extreme points (the 20 iteration limit of the expansion). Without margin or grid the claim is false at this commit.", "quantifier": "all convex shape pairs, all displacements", "why_tests_cant": "minimality over all displacements", "anchors": ["src/col2d/shape/local_minkowski_diff/mod.rs:EpaPoly2d::calculate_penetration"]}
{"id": "C42", "title": "Penetration of boxes and small polygons always converges", "statement": "For boxes, and for polygons (with an area, or segments) with at most 19 vertices together (or vertex counts that multiply to at most 19), overlapping with a margin, penetrates and sdfv return a separating vector minimal up to 1 percent: they never fall back to Some(ZERO) by exhausting the iteration limit; for coordinates on a 1/N grid (N <= 203) penetrates needs no margin and is None for shapes that share no point.", "quantifier": "all pairs of boxes and polygons within the vertex bound, all rigid relative transforms", "why_tests_cant": "needs bound on EPA expansion for all inputs", "anchors": ["src/col2d/shape/local_minkowski_diff/mod.rs:EpaPoly2d"]}
{"id": "C43", "title": "distance_to brings the shapes into contact", "statement": "If distance_to returns Some(v), or sdfv (false, v), moving self by v makes the shapes share a point; hence |v| is at least the true distance. Conversely None, or (true, _), is returned for shapes overlapping by a margin and, on resolvable shapes, only for shapes that share a point.", "quantifier": "all convex shape pairs", "why_tests_cant": "universal", "anchors": ["src/col2d/shape/local_minkowski_diff/v.rs:SdfvMinkowski2d<false,true>", "src/col2d/shape/local_minkowski_diff/mod.rs:Simplex2d::distance_to_origin"]}
{"id": "C44", "title": "How short the distance vector is", "statement": "Two boxes of positive size (any rotation, uniform scale, above the float resolution) that share no point: distance_to returns a shortest vector that brings them into contact, sdfv one that is shortest up to 1 %. Other resolvable convex shapes that share no point: the vector is a shortest one, or at least shortest to the facing edge where the search stopped (reached at an end of that edge), unless the difference has more than 20 extreme points (which boxes and polygons with at most 20 corners together never have). The returned vector is shortest exactly if the plane orthogonal to it separates the shapes. That it is shortest for all shapes is false (findings: off by more than a factor of ten).", "quantifier": "all convex shape pairs", "why_tests_cant": "minimality over all moves", "anchors": ["src/col2d/shape/local_minkowski_diff/v.rs:SdfvMinkowski2d<false,true>"]}
{"id": "C45", "title": "Axis-aligned boxes: exact answers", "statement": "For axis-aligned boxes (translation only) and sizes/offsets above the float resolution: distance_to is exactly the per-axis gap vector when separated; penetrates and sdfv return exactly the push along the axis of least overlap, away from the other box, when the boxes overlap and their centres differ in both coordinates.", "quantifier": "all box pairs and offsets above the resolution (eps = 2^-23); all multiples of 1/N up to N = 203 / 362 without further hypotheses", "why_tests_cant": "continuum", "anchors": ["src/col2d/shape/local_minkowski_diff/v.rs", "examples"]}
{"id": "C46", "title": "Every query does a bounded amount of work", "statement": "Each Minkowski-based query evaluates the support function at most a fixed number of times (20 for collides, 41 for sdfv...), for any input.", "quantifier": "all inputs, all float behaviours", "why_tests_cant": "worst case over all inputs", "anchors": ["src/col2d/shape/local_minkowski_diff/v.rs", "src/col2d/shape/local_minkowski_diff/mod.rs"]}
{"id": "C47", "title": "Shape2d behaves like the wrapped shape", "statement": "extreme_point of a Shape2d equals that of the wrapped Ball, Box2d or Poly2d, and the Shape2d v Shape2d queries answer like the Minkowski query on the wrapped shapes.", "quantifier": "all wrapped shapes, directions", "why_tests_cant": "all inputs", "anchors": ["src/col2d/shape/mod.rs:shape_union"]}
{"id": "C48", "title": "Touching shapes", "statement": "The directly implemented pairs (Ball-Ball, Box2d-Ball, Box2d-Point, Ball-Point) never report shapes that only touch as colliding. (For the Minkowski based pairs the answer on touching shapes is not fixed: finding.)", "quantifier": "all separable configurations, in particular all touching ones", "why_tests_cant": "measure-zero boundary cases are never hit by random tests", "anchors": ["src/col2d/shape/local_minkowski_diff/v.rs", "src/col2d/shape/box2d/v_point.rs", "src/col2d/shape/ball2d/v_ball2d.rs"]}
{"id": "C49", "title": "Tilemap is a finite map from tiles to u8", "statement": "After any sequence of set_tile/remove_tile, get_tile(p) returns the last value set at p, or 0 if never set or removed last; operations on other tiles do not interfere.", "quantifier": "all operation sequences, all positions incl. negative", "why_tests_cant": "unbounded histories", "anchors": ["src/col2d/shape/tilemap.rs:get_tile", "src/col2d/shape/tilemap.rs:set_tile", "src/col2d/shape/tilemap.rs:remove_tile"]}
{"id": "C50", "title": "Chunk decomposition is a bijection", "statement": "tile_to_chunk_and_local_pos splits every tile position into a chunk and an in-range local position, and the pair determines the tile.", "quantifier": "all integer positions", "why_tests_cant": "all integers", "anchors": ["src/col2d/shape/tilemap.rs:tile_to_chunk_and_local_pos"]}
{"id": "C51", "title": "Chunk bookkeeping", "statement": "After any history, every stored chunk is 16x16; get_chunk is Some for every chunk that contains a non-zero tile; remove_tile never leaves an all-zero chunk at the position it touched.", "quantifier": "all histories", "why_tests_cant": "unbounded histories", "anchors": ["src/col2d/shape/tilemap.rs:get_chunk", "src/col2d/shape/tilemap.rs:remove_tile"]}
{"id": "C52", "title": "Tilemap events describe the changes", "statement": "Events are append-only. set_tile appends exactly: ChunkCreated if the chunk did not exist, otherwise ChunkChanged if the tile changes its value, otherwise nothing. remove_tile appends exactly ChunkRemoved if afterwards all tiles of the chunk are zero, otherwise nothing. Replaying ChunkCreated/ChunkRemoved events of any run on the initial set of chunks yields exactly the set of existing chunks. Hence not every change is reported: removing a tile of a chunk that keeps others is silent, and removing from an empty place reports the removal of a chunk that never existed (findings).", "quantifier": "all histories", "why_tests_cant": "unbounded histories", "anchors": ["src/col2d/shape/tilemap.rs:TilemapEvent", "src/utils/publisher.rs:Ledger"]}
{"id": "C53", "title": "save/load round-trip", "statement": "load of what save wrote yields a tilemap with the same tiles and chunks, with an empty event ledger.", "quantifier": "all tilemaps, all serialisation orders of the map", "why_tests_cant": "all maps, hash orders", "anchors": ["src/col2d/shape/tilemap.rs:save", "src/col2d/shape/tilemap.rs:load"]}
{"id": "C54", "title": "Tilemap v Point", "statement": "A point collides with the tilemap iff the tile whose unit cell (centred at its integer coordinates) it rounds to is non-zero.", "quantifier": "all maps, all points", "why_tests_cant": "continuum", "anchors": ["src/col2d/shape/tilemap.rs:SdfvCommonRel2d<false,false,Point,T>", "src/col2d/shape/tilemap.rs:world_to_tile_pos"]}
{"id": "C55", "title": "quantize covers all overlapping tiles", "statement": "Every tile cell whose interior meets the box placed at world_pos is in the rectangle that quantize returns.", "quantifier": "all boxes, positions, tiles", "why_tests_cant": "continuum", "anchors": ["src/col2d/shape/tilemap.rs:quantize"]}
{"id": "C56", "title": "simple_resolve_box/_ball resolve a single tile", "statement": "simple_resolve_box and simple_resolve_ball never panic. They push the shape out of exactly the solid tiles of the quantize rectangle, one after the other, row by row, in the order given by the signs of dir. They leave the position unchanged if no solid tile cell comes within the collision tolerance (2^(-23/3)) of the shape. For a box whose half sizes and position are multiples of 1/(2N) with 2N <= 203 the position is unchanged if no solid tile cell overlaps it (touching allowed), and with a single solid tile near and overlapping the box the result no longer overlaps that tile and no non-overlapping position is nearer (up to 1%). A ball with a single solid tile near is left in place or moved clear of it. (With several solid tiles the result may still overlap one: finding.)", "quantifier": "all maps, boxes, positions, directions", "why_tests_cant": "continuum and all maps", "anchors": ["src/col2d/shape/tilemap.rs:simple_resolve_box"]}
{"id": "C57", "title": "Rect2i32 iteration visits each tile once, in the requested order", "statement": "Each iterate_* method yields every integer position of the rectangle exactly once, nothing else, row by row in the documented direction; iterate_boxed picks the order from the flip flags; reversed variants are permutations of each other.", "quantifier": "all rectangles (incl. empty), all flags", "why_tests_cant": "all sizes", "anchors": ["src/utils/rect2.rs"]}
{"id": "C58", "title": "Rect2i32::pad grows the rectangle", "statement": "pad(n) moves the rectangle by -n keeping its size, so for non-negative n and a non-empty rectangle the result contains the original exactly when n = 0 (the intended claim, that it always does, is refuted).", "quantifier": "all rectangles and paddings", "why_tests_cant": "all inputs", "anchors": ["src/utils/rect2.rs:pad"]}
{"id": "C59", "title": "Publishers deliver", "statement": "Ledger keeps all notified events in order with multiplicity; HashsetLedger holds exactly the set of notified events; CallbackPublisher calls every attached subscriber exactly once per event in attachment order, and only for events after its attachment.", "quantifier": "all interleavings of attach and notify", "why_tests_cant": "unbounded histories", "anchors": ["src/utils/publisher.rs"]}
{"id": "C60", "title": "approx_eq on f32", "statement": "approx_eq_tolerance(a, b) on exact numbers holds iff |a-b| <= tol*|a| (if one of them is zero: |a-b| < tol), so it is relative to the first argument and not symmetric (finding). In f32 every finite number is approximately equal to itself for every positive tolerance and the default one; NaN is approximately equal to nothing, and so is an infinity, even to itself (finding). approx_eq is approx_eq_tolerance with 8796093/2^43, the f32 nearest to 1e-6.", "quantifier": "all f32 pairs, tolerances", "why_tests_cant": "2^64 pairs", "anchors": ["src/utils/approx.rs"]}
{"id": "C61", "title": "approx_eq on Vec2 and Vec3", "statement": "approx_eq_tolerance on exact vectors holds iff |a-b| <= tol * max(|a|,|b|), hence it is symmetric and reflexive. In f32 it is reflexive on vectors with finite components for every tolerance, whatever overflows; a NaN component is noticed if the other vector's squared length is not zero (finding: a NaN vector is approximately equal to ZERO); a vector with an infinite component is approximately equal to nothing (finding); vectors so short that their squared length underflows are all approximately equal (finding). approx_eq on Vec2 and Vec3 is the same with the tolerance 8796093/2^43 (1e-6 up to 2^-44); it is reflexive and symmetric but not transitive (finding).", "quantifier": "all vectors", "why_tests_cant": "continuum", "anchors": ["src/utils/approx.rs"]}
{"id": "C62", "title": "Lerp", "statement": "In exact arithmetic lerp(a,b,0)=a, lerp(a,b,1)=b, values stay between the endpoints for t in [0,1], lerp is monotone and affine in t, and on Vec2 acts per component. In f32 lerp(a,b,0)=a unless b-a overflows, but lerp(a,b,1) need not be b (finding).", "quantifier": "all endpoints and t", "why_tests_cant": "continuum", "anchors": ["src/lib.rs:Lerp"]}
{"id": "C63", "title": "3D transformation laws", "statement": "unapply inverts apply for all six transformation types; the law inverse(apply(p)) = p holds for Vec3, Translate3d, Isotropic3d always, for AxisTransform3d exactly when position is 0 or scale is 1, for Transform3d/bevy exactly when rotation and scale commute; compose applies right then left except for Transform3d/bevy where it holds exactly when the left scale commutes with the right rotation; delta_transform expresses b in a's space under the same conditions.", "quantifier": "all transformations with non-zero scale and unit quaternion, all points", "why_tests_cant": "continuum", "anchors": ["src/col3d/transformation3d/translate3d.rs", "src/col3d/transformation3d/axis_transform3d.rs", "src/col3d/transformation3d/isotropic3d.rs", "src/col3d/transformation3d/transform3d.rs", "src/col/bevy_transform.rs"]}
{"id": "C64", "title": "Box3d v Point queries", "statement": "collides iff strictly inside; penetrates gives point - v on the nearest face; sdfv is the vector from the nearest surface point; sdf is the exact signed distance except for points straight above or below the box in z, where it is not.", "quantifier": "all boxes, points", "why_tests_cant": "continuum, 27 regions", "anchors": ["src/col3d/shape/box3d.rs"]}
{"id": "C65", "title": "Ball v Point queries in 3D", "statement": "collides iff strictly inside; sdf and sdfv are the exact signed distance to the sphere and its vector; so is penetrates for the centre and for points at least f32::EPSILON from it.", "quantifier": "all radii, points", "why_tests_cant": "continuum", "anchors": ["src/col3d/shape/ball3d.rs"]}
{"id": "C66", "title": "3D Point v shape delegates", "statement": "Point v Box3d/Ball gives the same answers as the swapped call with the same relative transform; for translations this is the world-space answer with the point as self; for rotated boxes it is not.", "quantifier": "all shapes, rel", "why_tests_cant": "all inputs", "anchors": ["src/col3d/default_impls.rs"]}
{"id": "C67", "title": "3D extreme points and Minkowski sums", "statement": "Box3d, Ball and Point extreme points are in the shape and farthest; the Minkowski sum of two Box3d is the set of sums.", "quantifier": "all shapes, directions", "why_tests_cant": "universal over shape points", "anchors": ["src/col3d/shape/box3d.rs", "src/col3d/shape/ball3d.rs", "src/col3d/shape/point3d.rs"]}
{"id": "C68", "title": "3D collider-level call forms agree", "statement": "collides, collides_v2 and collides_v3 give the same answer; penetrates is Some iff collides.", "quantifier": "all shapes, transforms", "why_tests_cant": "all inputs", "anchors": ["src/col3d/detection/collides.rs", "src/col3d/detection/penetrates.rs"]}
{"id": "C69", "title": "Box3d::cover covers", "statement": "After cover(p) the Box3d contains its old points, is the smallest box to do so in x and y, and contains p exactly when it was already tall enough in z.", "quantifier": "all boxes and points", "why_tests_cant": "continuum", "anchors": ["src/col3d/shape/box3d.rs:cover"]}
{"id": "C70", "title": "Transform2d constructors and builders", "statement": "from_translation/from_angle/from_rotation/from_scale give the map their name says; with_translation, with_rotation/with_angle and with_scale each replace one component, so any order of the three gives p -> rotate(scale*p) + translation, and each leaves the other components' effect unchanged.", "quantifier": "all transforms, arguments, builder orders, points", "why_tests_cant": "continuum of arguments and points", "anchors": ["src/col2d/transformation2d/transform2d.rs:from_translation,from_angle,from_rotation,from_scale,with_translation,with_angle,with_rotation,with_scale"]}
{"id": "C71", "title": "Collision answers in f32 arithmetic are exact on a dyadic grid", "statement": "With all rounding of f32 arithmetic taken into account: for Box2d/Poly2d/Shape2d pairs whose coordinates and offset are multiples of 2^k (-7<=k<=12) and together at most 32 units, collides and penetrates do not panic, answer positively only for shapes that share a point and negatively only for separable shapes.", "quantifier": "all shapes and offsets on the grid, all grids, all signs of zero", "why_tests_cant": "all f32 inputs on the grid and every rounding step of an iterative search", "anchors": ["src/col2d/shape/local_minkowski_diff/v.rs", "src/col2d/shape/local_minkowski_diff/mod.rs:add_point", "src/col2d/shape/box2d/mod.rs:extreme_point", "src/col2d/shape/poly2d/mod.rs:extreme_point"]}
{"id": "C72", "title": "Interrupted saves never yield a wrong map", "statement": "If Tilemap::save returns Ok, load gives back the saved map whatever the file held before. If save fails or the program dies at any point, afterwards load gives back the previous file's map (only if the file had not been opened yet), reports an error, or gives back exactly the map being saved - never a mixture or a partial map; hence after any sequence of completed, failed and interrupted saves load reports an error or returns one of the saved maps. (save truncates first, so it is not atomic: the previous save can be lost.)", "quantifier": "all tilemap histories, hash map orders, previous file contents, splits of the text into writes, crash points and I/O error points", "why_tests_cant": "every crash point of every save of every map", "anchors": ["src/col2d/shape/tilemap.rs:Tilemap::save,Tilemap::load"]}
{"id": "C73", "title": "Distances in f32 arithmetic are exact up to 1/65536 of the grid step", "statement": "With all rounding of f32 arithmetic taken into account: for Box2d/Poly2d/Shape2d pairs whose coordinates and offset are multiples of 2^k (-7<=k<=12) and together at most 32 units, distance_to and sdfv do not panic; distance_to answers 'colliding' only for shapes that share a point and returns a vector only for shapes separable by a line; the returned vector is finite and within 2^(k-16) per coordinate of an exact vector that brings the shapes into contact. For disjoint boxes that exact vector is a shortest one (distance_to), or at most 1/0.98 times as long (sdfv); for polygons it is shortest or the shortest to the edge at which the search stopped. Polygons (with an area, or segments, containing the origin) may have 20 vertices together, a polygon against a box twelve; polygons in general 20 pairs of vertices.", "quantifier": "all shapes and offsets on the grid, all grids, all signs of zero, all roundings", "why_tests_cant": "all f32 inputs on the grid and every rounding step of an iterative search", "anchors": ["src/col2d/shape/local_minkowski_diff/v.rs", "src/col2d/shape/local_minkowski_diff/mod.rs:distance_to_origin", "src/col2d/detection/distance_to.rs", "src/col2d/detection/sdfv.rs"]}
{"id": "C74", "title": "Ellipse queries describe the ellipse", "statement": "For an Ellipse2d with positive radii (source file present, not compiled at this commit): extreme_point in a non-zero direction is a point of the ellipse furthest in that direction, both formulas in the file agree, intercept_ray returns the boundary point on the ray, the bounding box is the smallest one, a point collides exactly if it is in the closed ellipse, and with equal radii it behaves as the ball of that radius.", "quantifier": "all radii, directions, points and transformations", "why_tests_cant": "all radii and directions; the tests only use the four axis directions of one ellipse", "anchors": ["src/col2d/shape/ellipse2d.rs:Ellipse2d::extreme_point,Ellipse2d::intercept_ray,Ellipse2d::collides_rel"]}
{"id": "C75", "title": "World-space Minkowski difference", "statement": "MinkowskiDiff2d built from two colliders (source present, not compiled): its extreme point is extreme for the Minkowski difference of the two placed shapes shifted by the first collider's position (so it is the right one only when the first collider is at the origin), and its collision flag is the one of the local difference.", "quantifier": "all shapes with exact extreme points, all rigid placements, all directions", "why_tests_cant": "all shapes and placements; every test in the file puts the first collider at the origin", "anchors": ["src/col2d/shape/minkowski_diff/mod.rs:MinkowskiDiff2d::extreme_point,MinkowskiDiff2dOwned::from_colliders", "src/col2d/shape/minkowski_diff/v.rs:sdfv_minkowski"]}
{"id": "C76", "title": "Cylinder queries describe the cylinder", "statement": "For Cylinder3d (source present, not in the module tree): new(h, r) is the cylinder of height h and radius r; extreme_point is a furthest point of it; a point collides exactly if it is inside the lateral surface and between the (closed) caps; penetrates answers Some exactly on collision; the sdf vector of an outside point leads to the nearest point, except beyond the rim of the lower cap. Minkowski sum, penetration vector and sdf are refuted in general.", "quantifier": "all heights, radii, points, transformations and directions", "why_tests_cant": "all sizes and points of space; there is no test in the file", "anchors": ["src/col3d/shape/cylinder3d.rs"]}
{"id": "C77", "title": "Ball queries in binary32 over (almost) the whole range", "statement": "For f32 balls (ball-ball and ball-point, with any transformation, and for two colliders placed by vectors or Translate2d), whatever the roundings: if the offset d between the centres is zero or has coordinates at most 2^62 in size and one of at least 2^-62, and the radii sum to R <= 2^61, then all five queries answer, the flag is true if |d| < (1-2^-21)R and false if 0 < |d| and |d| >= (1+2^-21)R, the vector is within (|d|+R)/2^19 per coordinate of one that resolves the configuration exactly and with least length, and the sdf is within (|d|+R)/2^21 of |d|-R. Moving the first ball by the returned vector leaves the balls touching within (|d|+R)/2^18. Outside that range the answers can be wrong (underflow, overflow, NaN).", "quantifier": "all f32 radii and positions in the stated range (hundreds of binades), all rounding errors", "why_tests_cant": "2^128 inputs with rounding at every step; the test suite only uses exactly representable examples", "anchors": ["src/col2d/shape/ball2d/v_ball2d.rs", "src/col2d/shape/ball2d/v_point.rs"]}
{"id": "C78", "title": "Box-point queries in binary32 over (almost) the whole range", "statement": "For an f32 Box2d and a Point with sizes and offsets up to 2^126: the collision flag is exactly |x| < hx and |y| < hy in spite of rounding, the four queries agree on it, the vector is within relative error 2^-24 per coordinate of one leading to a nearest point of the box (outside) or to a boundary point at most one part in 2^22 further than the nearest (inside); the sdf has the exact sign and relative error at most 2^-21 with respect to the true signed distance. For colliders placed at vectors or Translate2d p and q the answers are those for an offset agreeing with q - p to 24 bits; a collision is reported only if the point is strictly inside, and always if it is inside the box shrunk by one part in 2^23.", "quantifier": "all f32 half sizes and offsets up to 2^126 (for the corner distance: offset beyond the corner between 2^-62 and 2^62), all rounding errors", "why_tests_cant": "2^128 inputs with rounding at every step; the test suite only uses exactly representable examples", "anchors": ["src/col2d/shape/box2d/v_point.rs"]}
{"id": "C79", "title": "RoundedBox2d v Point and Box2d v Ball in binary32", "statement": "For an f32 RoundedBox2d and a Point, or an f32 Box2d and a Ball, with any transformation and whatever the roundings, let s be the signed distance of the centre to the box and r the radius (half sizes, offset and radius up to 2^126; beyond a corner the offset from it zero or between 2^-62 and 2^62 and r <= 2^61). All four queries answer and agree. The flag is true if s < (1-2^-21)r and false if s >= (1+2^-21)r (for r > 0, or off the face defect). Unless the centre is exactly on a face perpendicular to the x axis (the defect of C26), the vector is within (|s|+r)/2^19 per coordinate of one that brings the exact shapes into touching contact, is a least move if they are apart and, if they overlap, is longer than the least separating move by at most one part in 2^20 of the squared length. The sdf of RoundedBox2d v Point is within (|s|+r)/2^21 of s - r. For colliders placed at vectors or Translate2d p and q (coordinates multiples of 2^-62 up to 2^60) the answers are those for an offset agreeing with q - p to 24 bits.", "quantifier": "all f32 half sizes, radii and offsets in the stated range, all rounding errors", "why_tests_cant": "every combination of hundreds of binades with rounding in up to ten operations", "anchors": ["src/col2d/shape/rounded_box2d/v_point.rs", "src/col2d/shape/box2d/v_ball.rs"]}
{"id": "C80", "title": "Rectangles on i32: iteration never overflows; pad overflow is exactly characterised", "statement": "For every Rect2i32 with i32 corners (including corners at i32::MIN and i32::MAX), the iterator returned by each iteration function, advanced call by call, never panics with overflow, yields exactly the positions of the rectangle, each once, in the documented order, and then None for ever. pad panics in a debug build exactly if a coordinate of a moved corner is not an i32; in a release build the coordinates are the exact ones modulo 2^32 and equal to the exact ones if the debug build does not panic.", "quantifier": "all i32 corners and paddings, all numbers of next calls, all four orders and the dispatching functions", "why_tests_cant": "2^128 rectangles, iterations of up to 2^64 steps", "anchors": ["src/utils/rect2.rs"]}
{"id": "C81", "title": "Default values", "statement": "The Default of IdentityTransform, Vec2, Translate2d, Transform2d, Vec3 and Translate3d is the identity: apply, unapply and apply_normal return their argument for every point and apply_origin is ZERO. The Default of Ball, Box2d and RoundedBox2d is the single point at the origin. (Finding: the Default of AxisTransform2d, AxisTransform3d, Isotropic3d and Transform3d has scale 0 and sends every point to the origin; on f32 a ball with a default AxisTransform2d collides with every ball on the x axis.)", "quantifier": "all points; all f32 radii and positions for the finding", "why_tests_cant": "all points of the plane / space", "anchors": ["src/col/transform.rs", "src/col2d/transformation2d/axis_transform2d.rs", "src/col2d/transformation2d/transform2d.rs", "src/col2d/transformation2d/translate2d.rs", "src/col3d/transformation3d/isotropic3d.rs", "src/col3d/transformation3d/transform3d.rs"]}
{"id": "C82", "title": "Tile coordinates on f32", "statement": "With f32 coordinates and a round_to_i32 that returns a nearest integer for finite arguments in the i32 range (Rust's round() as i32 does): for tiles with coordinates up to 2^24 in magnitude, tile_to_world_pos is exact and world_to_tile_pos of it is the tile; for all other i32 tiles (except the last 64) the result is at most 64 tiles off (finding: 2^24+1 maps to tile 2^24). world_to_tile_pos of any position in range is a tile whose closed cell contains the position, and the tile whose open cell contains it. Tilemap v Point answers for that tile. quantize returns every tile whose cell narrowed by e meets the box and only tiles whose cell widened by e meets it, where e = (|position| + half size) / 2^24.", "quantifier": "all f32 positions and half sizes in range, all tiles, all maps, every tie rule of rounding", "why_tests_cant": "2^64 positions, rounding errors near cell borders", "anchors": ["src/col2d/shape/tilemap.rs"]}
{"id": "C83", "title": "Two boxes on f32, overlapping", "statement": "With f32 coordinates: for axis-aligned boxes of arbitrary f32 half sizes at an arbitrary f32 offset (all bounded by M, 1 <= M <= 2^28) that overlap by at least M/2^20 along both axes, no query panics or runs forever, collides returns true, distance_to returns None, penetrates and sdfv return the same finite axis-parallel vector, and it is within M/2^18 of an exact vector after which the boxes just touch; if the sum of the half sizes along one axis is at least 1, no vector that separates the boxes is shorter than that exact vector by more than M/2^15.", "quantifier": "all f32 half sizes and offsets in the range", "why_tests_cant": "2^192 inputs; rounding in GJK and EPA changes branches", "anchors": ["src/col2d/detection/sdfv_minkowski.rs", "src/col2d/shape/box2d"]}
{"id": "C84", "title": "Two boxes on f32, apart", "statement": "With f32 coordinates: for axis-aligned boxes of arbitrary f32 half sizes at an arbitrary f32 offset (all bounded by M, 1 <= M <= 2^28) that are apart by at least M/2^20 along an axis (and, unless they are also apart along the other axis, not so thin across it that the square of the sum of the half sizes times the gap is below 2^-22), with offset of length at least 2^-11: no query panics or runs forever, collides returns false, penetrates returns None, distance_to returns a finite vector whose coordinates are within M/2^16 + d/2^10 of an exact shortest vector that brings the boxes into contact (d the distance) and whose length is within M/2^16 + d/2^20 of d; sdfv returns false and a finite vector within M/2^16 + d/8 per coordinate and M/2^16 + d/64 in length. The same holds for colliders placed at f32 positions (with somewhat larger constants), where the subtraction of the positions is rounded too.", "quantifier": "all f32 half sizes, offsets and positions in the range", "why_tests_cant": "2^192 inputs; rounding changes branches of GJK and its termination test", "anchors": ["src/col2d/detection/sdfv_minkowski.rs", "src/col2d/shape/box2d"]}
{"id": "C85", "title": "A bevy Transform as a 2D transformation", "statement": "For a bevy Transform whose rotation is about the z axis: moving a point of the plane with it as a 2D transformation gives the x and y of what it does to the point in 3D; inverse, composition, relative transformation, normals and origin agree with the Transform2d it converts to; and every collider query (collides, penetrates, distance_to, sdfv) gives the same answer, panic included, as with the colliders placed by the converted Transform2d. A rotation that is not about z (a tilted sprite) does not act as its 3D image (finding).", "quantifier": "all bevy transforms rotating about z, all points, all 14 collider shape pairs", "why_tests_cant": "all transforms, points and shapes", "anchors": ["src/col2d/transformation2d/bevy_transform.rs", "src/col/bevy_transform.rs"]}
{"id": "C86", "title": "f32 answers for arbitrary boxes and polygons stay valid up to a small tolerance", "statement": "With IEEE binary32 rounding at every step, for boxes and polygons (any number of vertices) with finite coordinates of magnitude at most M: a reported push (finite, non-zero, coordinates not tiny) moves the first shape off the second up to M/2^17; a reported distance vector (finite) moves the first shape onto the second up to M/2^17; a negative answer of collides/penetrates, or any distance answer, means that a line separates the shapes up to M/2^17, unless the search used up its 20 steps. For colliders at positions of magnitude at most M/3 the same holds with M/2^16, the rounding of the offset included. With balls: the negative answers and the distance vectors, for M at most 2^17.", "quantifier": "all boxes, polygons and balls with finite f32 coordinates at most M, all offsets and positions, all M from 2^-20 to 2^26 (2^17 with balls)", "why_tests_cant": "all f32 inputs, arbitrary many vertices; every rounding of every iteration", "anchors": ["src/col2d/shape/local_minkowski_diff/mod.rs", "src/col2d/detection/sdfv_minkowski.rs", "src/col2d/shape/poly2d/mod.rs", "src/col2d/shape/box2d/mod.rs", "src/col2d/shape/ball2d/mod.rs", "src/col2d/shape/box2d"]}
{"id": "C87", "title": "f32: a positive answer is only given when the shapes are close", "statement": "With IEEE binary32 rounding at every step, for boxes and polygons (any number of vertices) with finite coordinates of magnitude at most M (1 <= M <= 2^26; with balls M <= 2^17): if collides answers true, or penetrates reports a push, or sdfv sets its collision flag, then some point of the first shape is within M/64 of some point of the second. For colliders at positions of magnitude at most M/3 the same holds with M/32. (A tolerance is unavoidable: collides answers true for two triangles 8 units apart with coordinates below 2^16.)", "quantifier": "all boxes, polygons and balls with finite f32 coordinates at most M, all offsets and positions, all M from 1 to 2^26 (2^17 with balls); every iteration of the search", "why_tests_cant": "all f32 inputs, arbitrarily many vertices; every rounding of every iteration; a false positive needs nearly parallel edges that random tests do not hit", "anchors": ["src/col2d/shape/local_minkowski_diff/mod.rs", "src/col2d/detection/sdfv_minkowski.rs", "src/col2d/shape/poly2d/mod.rs", "src/col2d/shape/box2d/mod.rs", "src/col2d/shape/ball2d/mod.rs", "src/col2d/shape/box2d"]}
{"id": "C88", "title": "f32 answers for rotated colliders stay valid up to a small tolerance", "statement": "With IEEE binary32 rounding at every step, for boxes and polygons (any number of vertices) placed by a Transform2d with scale one and a rotor that is only nearly of unit length (squared length within 2^-18 of one), coordinates at most M and positions at most M/4: a reported push (finite, non-zero, coordinates not tiny) moves the first collider off the second up to M/2^15; a reported distance vector moves the first onto the second up to M/2^15; a negative answer of collides/penetrates, or any distance answer, means that a line separates the placed shapes up to M/2^15, unless the search used up its 20 steps; a positive answer is only given when the placed shapes come within M/16 of each other. penetrates/distance_to vectors are in the frame of the first collider, sdfv vectors in the world. The rounding of the inverse, the composition, the rotated search directions and the rotated extreme points is included. With balls: everything but the pushes, for M at most 2^15.", "quantifier": "all boxes, polygons and balls with finite f32 coordinates at most M, all positions and all nearly unit rotors, all M from 2^-20 (1 for the positive answers) to 2^24 (2^15 with balls)", "why_tests_cant": "all f32 inputs and rotations, arbitrarily many vertices; every rounding of every iteration", "anchors": ["src/col2d/transformation2d/transform2d.rs", "src/col2d/transformation2d/mod.rs", "src/col2d/shape/local_minkowski_diff/mod.rs", "src/col2d/detection/sdfv_minkowski.rs", "src/col/transform.rs", "src/col2d/shape/poly2d/mod.rs", "src/col2d/shape/box2d/mod.rs", "src/col2d/shape/ball2d/mod.rs"]}
{"id": "C89", "title": "scaling_factor is the largest stretch; a ball under an uneven scale is covered", "statement": "For every 2D transformation with a unit rotation and scales that are not negative, scaling_factor is the largest factor by which any segment is stretched (attained, hence unique). A ball collider reports the extreme points of the disc around its position with radius times scaling_factor, and this disc contains the placed ball (an ellipse under an uneven scale).", "quantifier": "all transformations of every 2D type (unit rotor, scales >= 0), all pairs of points, all radii and directions", "why_tests_cant": "all transformations, all segments", "anchors": ["src/col2d/transformation2d/mod.rs", "src/col2d/transformation2d/transform2d.rs", "src/col2d/transformation2d/axis_transform2d.rs", "src/col2d/transformation2d/translate2d.rs", "src/col2d/transformation2d/bevy_transform.rs", "src/col2d/shape/ball2d/mod.rs"]}
{"id": "C90", "title": "f32 transformations are accurate: apply, unapply, inverse, compose and repeated rotation", "statement": "With IEEE binary32 rounding at every step, for a Transform2d with scale one, a nearly unit rotor (squared length within e of one, e at most 2^-16) and coordinates at most M: apply, unapply, applying the inverse and applying a composition are within 6, 11, 24 and 40 units of M/2^24 of the exact result; unapply after apply returns the point up to e*M + 40*M/2^24, apply after unapply up to 2*e*M + 44*M/2^24; pure translations return within 4*M/2^24; multiplying up to 2^14 rotors one after another differs from the exact product by at most n/2^22 relatively. The round trips are not exact (finding).", "quantifier": "all rotors within 2^-16 of unit, all positions and points with f32 coordinates at most M, all M from 2^-20 to 2^24 (2^26 for apply and unapply), all sequences of up to 2^14 rotors", "why_tests_cant": "all f32 inputs, all rotor sequences", "anchors": ["src/col2d/transformation2d/transform2d.rs", "src/col2d/transformation2d/translate2d.rs", "src/col/transform.rs", "src/col2d/transformation2d/mod.rs"]}
{"id": "C91", "title": "f32 extreme points are farthest points up to rounding", "statement": "With IEEE binary32 rounding at every step: extreme_point of a box is exactly a farthest corner for every finite direction; of a polygon it is one of the vertices and no vertex is farther by more than 9*M/2^24 times the length of the direction; of a ball and of a Shape2d it is within 9*M/2^24 of the shape and farthest up to the same amount; of a rounded box up to 12*M/2^24; of box, polygon and Shape2d colliders with a rotated Transform2d up to 32*M/2^24. The vertex a polygon answers need not be the exact farthest one (finding).", "quantifier": "all shapes with finite f32 coordinates at most M (M from 2^-20 to 2^26/2^24/2^17/2^15 depending on the shape), any number of vertices, all positions and nearly unit rotors, all directions that are not tiny or huge", "why_tests_cant": "all f32 inputs and directions, arbitrarily many vertices", "anchors": ["src/col2d/shape/box2d/mod.rs", "src/col2d/shape/poly2d/mod.rs", "src/col2d/shape/ball2d/mod.rs", "src/col2d/shape/rounded_box2d/mod.rs", "src/col2d/shape/mod.rs", "src/col2d/collider2d.rs"]}
{"id": "C92", "title": "Every overlap that is not extremely flat is found, for all convex shapes", "statement": "If two convex shapes overlap by d (they still share a point after any displacement of length at most d) and no two points of them are more than 2^15 d apart, then collides is true; if moreover 2^-23 R <= d^4 (R the largest distance between their points), penetrates is Some, distance_to is None and sdfv reports a collision. So a negative answer of collides means that the shapes overlap, if at all, by less than R/2^15. The number of vertices does not matter, and round shapes are included. Some such condition is needed: the 20 iteration limit makes collides and penetrates miss an overlap by 1 of a 22-vertex polygon with reach 2^25 (finding).", "quantifier": "all convex pairs that use the Minkowski search (box, polygon with any number of vertices, ball v box, Shape2d mixtures), all similarities as placement, exact arithmetic", "why_tests_cant": "convergence of an iterative search for every pair of convex sets, with no bound on the number of vertices", "anchors": ["src/col2d/shape/local_minkowski_diff/v.rs", "src/col2d/shape/local_minkowski_diff/mod.rs:Simplex2d::add_point"]}
{"id": "C93", "title": "A reported push is minimal or zero, for all convex shapes", "statement": "Under the conditions of C92, penetrates and sdfv report the overlap with a vector v that separates the shapes and is minimal up to 1 percent, or with exactly the zero vector, which never separates them: a caller can tell by testing v against zero. For boxes and polygons with at most 22 corners together it is never zero. The documented claim that the vector always separates is false: for a small box near the middle of a 24-gon of radius 1000 both return the zero vector while no displacement shorter than 700 separates them (finding: the polytope expansion stops at its limit of 20 iterations and returns zero). The same happens in IEEE binary32 with rounding at every step (second finding, 24-gon v square).", "quantifier": "all convex pairs that use the Minkowski search, all similarities as placement, all displacements compared with, exact arithmetic; the second finding is in binary32", "why_tests_cant": "minimality over all displacements and all convex shapes", "anchors": ["src/col2d/shape/local_minkowski_diff/mod.rs:EpaPoly2d::calculate_penetration", "src/col2d/shape/local_minkowski_diff/v.rs"]}
{"id": "C94", "title": "Placed colliders: what the answers mean in the world", "statement": "For two colliders with convex shapes, placed by Vec2, Translate2d, by Transform2d with unit rotors and uniform scales or by bevy Transforms that turn about z and scale x and y uniformly (the first one's scale s > 0), the answers of the Minkowski-based queries mean, for the regions the colliders occupy in the world: collides always answers; false means that a line separates the regions or the search met 20 extreme points; true means that they come within s*2^(-23/3) of each other. Regions that overlap by d and have no two points more than 2^15 d apart are always found by collides and, if 2^-23 R s^3 <= d^4 (R the reach), by all queries, with a push that is minimal up to 1 percent unless it is zero. A non-zero push separates; a distance vector brings into contact. The world displacement is s times the sdfv vector, and s times the rotated vector of penetrates/distance_to. For boxes and polygons with at most 19 corners together collides is complete, with at most 22 the push of a deep enough overlap is never zero. For disjoint boxes the vectors are shortest. Applying the vectors unscaled, or those of penetrates unrotated, does not separate (findings).", "quantifier": "all pairs of convex colliders using the Minkowski search, all positions, rotations and positive uniform scales, all displacements compared with (exact arithmetic)", "why_tests_cant": "ranges over all placements in the plane (continuous), all convex shapes with any number of vertices and all competing displacements", "anchors": ["src/col2d/detection/collides.rs: Collides2d", "src/col2d/detection/penetrates.rs: Penetrates2d", "src/col2d/detection/distance_to.rs: DistanceTo2d", "src/col2d/detection/sdfv.rs: Sdfv2d", "src/col/transform.rs:delta_transform"]}
{"id": "C95", "title": "3D point queries in binary32", "statement": "For an f32 Box3d and a Point with any Transformation3d: collides is exactly right for all finite inputs; for non-negative half sizes and offsets up to 2^126, penetrates is Some exactly when collides, penetrates and sdfv give the same vector, which up to relative errors of 2^-24 per coordinate leads to the point from a nearest surface point (outside) or from a surface point at most one part in 2^22 further than the nearest (inside); sdf has the exact sign and relative error at most 2^-21 when the overshoot beyond the faces is zero or between 2^-62 and 2^62, except straight above or below the box in z. For a box at p and a point at q (Vec3 or Translate3d, all three call forms) a collision is reported only if the point is strictly inside and always if it is inside the box shrunk by one part in 2^23. For an f32 Ball and a Point: if the offset is zero or has coordinates at most 2^62 and one at least 2^-62 and the radius is zero or between 2^-61 and 2^61, collides is right unless distance and radius agree to 20 bits; for 0 <= R <= 2^61 sdf is within (|d|+R)/2^21 of |d|-R, and sdfv, and penetrates when the point is the centre or at least 2^-22 away, are within (|d|+R)/2^19 per coordinate of an exact vector from a nearest point of the sphere. Outside that range the answer can be wrong: a ball of radius 2^-80 does not collide with its own centre.", "quantifier": "all finite f32 half sizes, radii and offsets in the stated ranges, all relative transformations, all roundings", "why_tests_cant": "there are 2^192 pairs of box and offset; every rounding combination must be covered", "anchors": ["src/col3d/shape/box3d.rs:Box3d", "src/col3d/shape/ball3d.rs:Ball", "src/col3d/detection/collides.rs:Collides3d"]}
{"id": "C96", "title": "Shapes on a grid: no collision is missed, whatever the number of vertices", "statement": "For boxes and convex polygons with any number of vertices whose coordinates (and relative position) are multiples of a unit, and whose points are less than 2^15 units apart: collides is true for every overlap however slight and false only if a line separates the shapes; for units of at least 1/203 penetrates is likewise exact, neither test reports shapes that share no point, and every overlap is also reported by distance_to (None) and sdfv (true). The 20 iterations of the search never decide. The same is true of the run in binary32 arithmetic when the coordinates are multiples of a power of two (1/128 to 4096) and sizes and offsets add up to at most 32 units.", "quantifier": "all polygons (every vertex count), boxes and shape enums on the grid, all grid units, all relative positions, all 20-step executions of the search; binary32 rounding in the f32 statements", "why_tests_cant": "the number of vertices and the shapes are unbounded, and the danger is an adversarial vertex sequence that makes the search use up its 20 steps, which random polygons do not produce", "anchors": ["src/col2d/shape/local_minkowski_diff/v.rs", "src/col2d/shape/local_minkowski_diff/mod.rs:Simplex2d::add_point"]}
{"id": "C97", "title": "Deep overlaps are always found in binary32", "statement": "For two f32 shapes (polygons of any number of vertices, boxes, and for coordinates up to 2^17 also balls) whose coordinates and offset are bounded by M, with 2^-16 <= M <= 2^26: if they overlap by at least M/32 in every direction (no direction allows a push shorter than M/32 to separate them), collides is true; and for M >= 8 penetrates is Some, distance_to is None and sdfv has the flag set and does not panic. No condition on the coordinates but their size, and the 20 steps of the search never run out. The same holds for colliders at positions given as Vec2 or Translate2d (overlap M/31, positions up to M/3), for a rotated Transform2d relation (overlap M/16, M up to 2^24, and M >= 4 for the last three queries) and for two colliders with rotated transforms (overlap M/15, positions up to M/4).", "quantifier": "all finite f32 shapes with any number of vertices and all offsets and rotations in the stated ranges, all roundings of all steps of the search", "why_tests_cant": "the vertex count is unbounded and the coordinates are arbitrary f32 values; the danger is a long adversarial run of nearly flat triangles in which the roundings add up", "anchors": ["src/col2d/shape/local_minkowski_diff/v.rs", "src/col2d/shape/local_minkowski_diff/mod.rs:Simplex2d::add_point", "src/col2d/detection/collides.rs"]}
{"id": "C98", "title": "The push reported for a deep overlap in binary32 is nearly the shortest", "statement": "For two f32 shapes (polygons with any number of vertices, boxes, balls) whose coordinates and offset are bounded by M, with 8 <= M <= 2^26 (2^17 if a ball is involved), that overlap by at least M/32 in every direction: penetrates and sdfv report a vector v with finite coordinates; moving the first shape by v separates the shapes up to M/2^17 (unless v is zero, which is what EPA reports when its 20 steps run out); and every vector y that separates the shapes is at least 98% as long as v, up to the tolerance: 49/50 |v| <= |y| + M/2^17. The same holds for colliders at positions given as Vec2 or Translate2d (overlap M/31, positions up to M/3, tolerance M/2^16), for a rotated Transform2d relation (overlap M/16, 4 <= M <= 2^24, or 2^15 with balls, tolerance M/2^16) and for two colliders with rotated transforms (overlap M/15, positions up to M/4, tolerance M/2^15, 96%; penetrates reports the vector in the first collider's frame, sdfv in the world).", "quantifier": "all finite f32 balls, boxes and polygons with any number of vertices and all offsets and rotations in the stated ranges (no grid: any float coordinates), all roundings of all steps of the search and of EPA, all competing pushes y", "why_tests_cant": "minimality ranges over every competing push, the vertex count is unbounded, and the roundings of GJK's triangle, of every edge distance and of every inserted vertex have to be followed through the whole run", "anchors": ["src/col2d/shape/local_minkowski_diff/v.rs", "src/col2d/shape/local_minkowski_diff/mod.rs:EpaPoly2d::calculate_penetration", "src/col2d/detection/penetrates.rs", "src/col2d/detection/sdfv.rs"]}
{"id": "C99", "title": "Two 3D boxes", "statement": "For two Box3d with positive half sizes that are not turned or scaled relative to each other: collides is true iff the interiors of the placed boxes meet; penetrates is None iff they do not, and otherwise the push v is the shortest move that takes the interiors apart and leaves the boxes touching; sdfv is the shortest move into contact; sdf is the signed length of that move unless one box is straight above or below the other in z. Rotation and scale of the second box are ignored (finding), and sdf is wrong straight above/below (finding).", "quantifier": "all pairs of boxes with positive half sizes, all relative placements that only move, all transformation types", "why_tests_cant": "universal over boxes, placements and all competing moves; the tests try ten offsets along one axis", "anchors": ["src/col3d/default_impls.rs: (CollidesRel3d, PenetratesRel3d, SdfRel3d, SdfvRel3d for MinkowskiDifference)", "src/col3d/shape/box3d.rs: (minkowski_sum)", "src/col3d/detection/collides.rs"]}
{"id": "C100", "title": "Swapping the two colliders", "statement": "a.collides(b) and b.collides(a) run different searches but agree except about contact: two convex colliders that overlap by some delta (and are not 2^15 times longer than that) collide in both orders, and two colliders farther apart than the tolerance collide in neither; for two boxes (any rotations, uniform scales) a disagreement implies that a line separates them. Non-zero pushes of the two orders have the same world length up to 1 %, the negated push of one order separates for the other; for disjoint boxes the two distance_to vectors have exactly the same length in the world. Ball v Ball: collides and sdf are independent of the order (in f32 bit for bit, for all bit patterns) and sdfv returns the opposite vector unless the centres coincide, in which case both orders push in the same direction (finding). Ball v Box (general search) agrees with Box v Ball (formula) in the same sense. The tolerance is in units of the first collider's scale, so the orders do disagree near contact (finding).", "quantifier": "all pairs of convex colliders, placements, radii and, for balls in f32, all bit patterns", "why_tests_cant": "unbounded geometry; the two orders take different paths through the search", "anchors": ["src/col2d/detection/collides.rs", "src/col2d/detection/sdfv_minkowski.rs", "src/col2d/shape/ball2d/v_ball2d.rs", "src/col2d/shape/box2d/v_ball.rs"]}
{"id": "C101", "title": "Resolving a box or a ball against tiles in binary32", "statement": "simple_resolve_box in f32, for every box (finite half sizes up to M-1, M <= 2^17, not restricted to a grid) at every finite position (coordinates up to L <= 2^22), does not panic and: returns the position bit for bit if every solid tile cell is at least M/2^18 clear of the box along some axis; with a solid tile overlapping the box by a margin of M/2^18 + L/2^23 along both axes and every other solid tile clear of the box by that margin, returns a position within M/2^15 + L/2^23 (each coordinate) of one where the box exactly touches the tile without overlapping it, and, if the box is at least as large as a tile along one axis, no non-overlapping position is nearer to the start by more than M/2^13. The latter also holds among solid tiles that are merely clear (M/2^18 before the move, M/2^16 after it), for M <= 2^15, L <= 2^21. Overlap or gap below those margins is not covered. simple_resolve_ball in f32, for every ball of radius r >= 0 with r + 2 <= M (M <= 2^17) at every finite position with |p| <= 2^22, does not panic and returns the position bit for bit if every point of every solid tile cell is farther than r + M/60 from the centre. If r > 0, 8 <= M <= 2^14, |p| <= L <= 2^20 and the ball overlaps a solid tile so deeply that any move by at most M/31 leaves them overlapping, every other solid tile being away from the ball's bounding square (or farther than M/60 from the ball before and M/10 after the move), it returns a position whose distance to every point of the tile is at least r - (M/2^16 + L/2^23), or the position unchanged (when the polytope expansion runs out of steps), and no position with the ball clear of the tile is nearer to the start than 98% of the move, up to the same tolerance. Shallower overlaps of a ball are not covered in f32.", "quantifier": "all maps, all boxes and positions in range with any bits, all directions, every rounding function round_to_i32 that is nearest-integer", "why_tests_cant": "every pair of floats and every map; rounding in the search, in the quantisation and in the final addition all matter", "anchors": ["src/col2d/shape/tilemap.rs:simple_resolve_box", "src/col2d/shape/tilemap.rs:quantize", "src/col2d/shape/box2d/mod.rs", "src/col2d/detection/penetrates.rs", "src/col2d/shape/tilemap.rs:simple_resolve_ball"]}
{"id": "C102", "title": "What == on shapes and transforms means", "statement": "The derived == of vectors, shapes, transforms and colliders compares the f32 fields: it is symmetric and transitive, a value equals itself unless it contains NaN, and over exact numbers it is equality. In f32 == values (which may differ in the sign of zeros) are interchangeable: apply, apply_normal, unapply_normal, apply_origin, scaling_factor and compose give the same results up to the sign of zeros, so do unapply, inverse and delta_transform if no scale of the inverted transform is zero; and collides, penetrates, distance_to, sdfv (and sdf where it exists) of balls, points and polygons (also as Shape2d) give the same panic, the same flag, the same presence of a vector and a vector that is the same up to the sign of zeros. Not so for boxes and zero scales (findings): a point at the centre of a box is pushed left or right depending on the sign of the zero in its position, a box answers == directions with different corners, and the inverses of == transforms with scale 0 and -0 scale by +inf and -inf.", "quantifier": "all f32 values of all fields, NaN, infinities and zeros of both signs included; all iterations of GJK and EPA", "why_tests_cant": "every pair of == inputs, through every path of the search; -0 is easily produced (by negating a position) and never by a literal in a test", "anchors": ["src/col2d/transformation2d/transform2d.rs:PartialEq", "src/col2d/collider2d.rs:Collider2d", "src/col2d/shape/local_minkowski_diff/v.rs", "src/col2d/shape/box2d/v_point.rs", "src/col2d/shape/box2d/mod.rs:extreme_point", "src/col3d/transformation3d/transform3d.rs:PartialEq"]}
{"id": "C103", "title": "Answers turn with the scene", "statement": "Turn two balls, polygons or Shape2d values of these, and their positions, by 90 degrees (any number of times): collides, penetrates, distance_to and sdfv give the same panic, the same flag and the same presence of a vector, and every vector is the turned one - exactly, in f32, up to the sign of zeros - provided the offset is not tiny (length_sq at least f32::EPSILON; for two balls: of non-zero length), where the search would start from a fixed direction. And collides also answers the same for the mirrored scene (which reverses every winding), at any offset at all - so for all eight symmetries of the square. For a box (or rounded box) against a point, a box against a ball, and a ball against a ball or a point elsewhere, mirroring the position in either axis mirrors every answer and keeps the signed distance of the point; turning box and point by 90 degrees turns collides and distance_to, but not penetrates, which prefers pushing along y at ties (finding). In space, mirroring the position in any of the three axes mirrors the answers (and keeps collides and sdf) for a box against a point or a box and for a ball against a point; for the ball and the x axis unless the centres are closer than f32::EPSILON. Turning the world - positions and rotations of both Transform2d colliders by 90 degrees, their shapes (balls, polygons; a point as the second) left alone and the first one's scale uniform - leaves collides, sdf and the local vectors of penetrates and distance_to as they are and turns the vector of sdfv.", "quantifier": "all f32 radii, vertices and offsets, NaN and infinities included, any number of quarter turns, all iterations of GJK and EPA", "why_tests_cant": "every scene, through every branch and every rounding of the search; the code branches on signs and orders of coordinates and nothing in it mentions symmetry", "anchors": ["src/col2d/shape/local_minkowski_diff/v.rs", "src/col2d/shape/local_minkowski_diff/mod.rs", "src/col2d/shape/poly2d/mod.rs:extreme_point", "src/col/ball.rs", "src/col2d/shape/box2d/v_point.rs", "src/col2d/shape/box2d/v_ball.rs", "src/col2d/shape/rounded_box2d/v_point.rs", "src/col3d/shape/box3d.rs", "src/col3d/shape/ball3d.rs", "src/col2d/transformation2d/transform2d.rs", "src/col2d/transformation2d/mod.rs:Rotor2d"]}
