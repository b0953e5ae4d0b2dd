import json
P=[]
def p(title,statement,quant,why,anchors):
    P.append(dict(id="C%02d"%(len(P)+1),title=title,statement=statement,quantifier=quant,why_tests_cant=why,anchors=anchors))
T2="src/col2d/transformation2d/"
S2="src/col2d/shape/"
D2="src/col2d/detection/"
G=S2+"local_minkowski_diff/"
# --- transforms
p("Inverse undoes a 2D transformation",
  "For every transformation a and point p, a.inverse().apply(a.apply(p)) == p (the law documented on Invertible). It must hold for Vec2, Translate2d, AxisTransform2d and Transform2d.",
  "all points, all transformations with non-zero scale and unit rotor (exact arithmetic)","a law over a continuum of transforms and points; the doctest checks one Translate2d",
  ["src/col/transform.rs:Invertible::inverse",T2+"translate2d.rs",T2+"axis_transform2d.rs",T2+"transform2d.rs"])
p("Composition applies right then left",
  "For all transformations a, b and every point p, a.compose(&b).apply(p) == a.apply(b.apply(p)) (the law documented on Composable).",
  "all pairs of transformations of one type, all points","a law over a continuum; doctest checks two translations",
  ["src/col/transform.rs:Composable::compose",T2+"translate2d.rs",T2+"axis_transform2d.rs",T2+"transform2d.rs"])
p("unapply is a two-sided inverse of apply",
  "t.unapply(t.apply(p)) == p and t.apply(t.unapply(p)) == p for every 2D transformation with non-zero scale; apply_origin equals apply(ZERO).",
  "all transformations and points","continuum of inputs",
  [T2+"mod.rs:Transformation2d",T2+"transform2d.rs",T2+"axis_transform2d.rs",T2+"translate2d.rs"])
p("delta_transform is the relative placement",
  "For colliders placed by a and b, rel = a.delta_transform(&b) satisfies a.apply(rel.apply(p)) == b.apply(p): geometry expressed in a's space is the world geometry. Needed by every collider-level query.",
  "all pairs of transformations, all points","continuum; a wrong inverse only shows for non-trivial scale",
  ["src/col/transform.rs:DeltaTransform",T2+"axis_transform2d.rs",T2+"transform2d.rs"])
p("Rotor2d is a rotation",
  "Rotor2d::from_angle gives a rotor which preserves lengths, dot products and orientation; rotor multiplication is composition (angles add), inverse() undoes it, and IDENTITY fixes every vector.",
  "all angles, all vectors","continuum of angles; tests check multiples of 90 degrees",
  [T2+"mod.rs:Rotor2d"])
p("Rotor2d::from_quaternion keeps z rotations",
  "For every non-zero quaternion that rotates about z, from_quaternion gives the same rotation as from_angle; for other quaternions the result should still be a rotation (unit rotor).",
  "all quaternions","test samples 360 z-rotations",
  [T2+"mod.rs:Rotor2d::from_quaternion",T2+"bevy_transform.rs"])
p("Normals are transformed isometrically",
  "apply_normal and unapply_normal are mutually inverse and length preserving, for all 2D transformations (unit rotor).",
  "all transformations, all vectors","continuum",
  [T2+"mod.rs:Transformation2d::apply_normal",T2+"transform2d.rs"])
# --- support
p("extreme_point lies in the shape and is farthest",
  "For Ball, Box2d, Poly2d (containing the origin, as documented), RoundedBox2d and Point, extreme_point(d) is a point of the shape and no point of the shape is farther along d.",
  "all shapes with non-negative sizes, all directions, all points of the shape","universal over directions and shape points",
  [D2+"extreme_point.rs",S2+"ball2d/mod.rs",S2+"box2d/mod.rs",S2+"poly2d/mod.rs",S2+"rounded_box2d/mod.rs",S2+"point2d.rs"])
p("Collider extreme_point is farthest in world space",
  "Collider2d::extreme_point(d) is a point of the transformed shape and none of the transformed shape's points is farther along d.",
  "all shapes, transformations, directions","continuum; non-uniform scales are never tested",
  ["src/col2d/collider2d.rs",D2+"extreme_point.rs:ExtremePointT2d",S2+"ball2d/mod.rs"])
p("Poly2d::extreme_point is total and returns a vertex",
  "Poly2d::extreme_point never panics and returns either one of the polygon's vertices or ZERO, under every behaviour of float arithmetic including NaN and overflow; on a polygon that contains the origin it is a vertex.",
  "all point lists (any length, NaN, infinities), all directions","all float inputs",
  [S2+"poly2d/mod.rs:extreme_point"])
p("The configuration-space difference support is correct",
  "The support point used by all Minkowski based queries is a difference p - rel.apply(q) of points of the two shapes, and is farthest along the given direction among all such differences, for rigid and uniformly (positively) scaled relative transforms.",
  "all pairs of shapes with correct extreme points, all relative transforms, all directions","universal over shape pairs and directions",
  [G+"mod.rs:LocalMinkowskiDiff2d::extreme_point"])
p("symmetric_bounding_box contains the shape and is tight",
  "symmetric_bounding_box contains every point of the shape, and no smaller origin-centred box does (Ball, Box2d, RoundedBox2d, Poly2d, Point).",
  "all shapes and points","universal over points, polygons of any size",
  ["src/col2d/mod.rs:SymmetricBoundingBox2d",S2+"poly2d/mod.rs",S2+"rounded_box2d/mod.rs"])
p("Box2d::cover grows minimally",
  "After cover(p) the box contains p and all its previous points, and is the smallest such centred box; cover is idempotent and order independent.",
  "all boxes, points and cover sequences","arbitrary sequences",
  [S2+"box2d/mod.rs:cover"])
p("Poly2d::strict_check certifies what its documentation says",
  "If strict_check() passes then the polygon's points are in convex position (no vertex is in the hull of others unless duplicated) and, per the documentation, the polygon strictly contains the origin.",
  "all point lists","all polygons of any size",
  [S2+"poly2d/mod.rs:strict_check"])
p("Poly2d from Box2d is the same shape",
  "Poly2d::from(box) has exactly the box's point set, bounding box and extent in every direction.",
  "all boxes with non-negative halfsize, all directions","continuum",
  [S2+"poly2d/mod.rs:From<Box2d>"])
p("Regular polygons are regular",
  "Poly2d::regular(n, r) and regular_upright(n, r) have n vertices, all at distance |r| from the origin, invariant under rotation by 2 pi/n, first vertex (r,0) resp. (0,r), and contain the origin for n >= 2.",
  "all n, all r","all n",
  [S2+"poly2d/mod.rs:regular"])
# --- direct pairs
p("Ball v Ball collision flag",
  "For balls with non-negative radii at different centres: collides iff the open discs intersect; exactly touching balls do not collide. Coincident centres always report collision.",
  "all radii, all relative positions","continuum, boundary behaviour",
  [S2+"ball2d/v_ball2d.rs"])
p("Ball v Ball resolution vector",
  "Moving self by the sdfv/penetrates/distance_to vector brings the two balls to exact touching contact, and no shorter move does so.",
  "all radii, all relative positions, all candidate moves","minimality quantifies over all moves",
  [S2+"ball2d/v_ball2d.rs",D2+"sdfv_common.rs"])
p("Ball v Ball signed distance",
  "sdf is negative iff colliding (away from coincidence), equals the gap between the discs when separated, and |sdf| equals the length of the sdfv vector.",
  "all radii, positions","continuum",
  [S2+"ball2d/v_ball2d.rs:sdf_rel"])
p("Ball v Point",
  "collides iff the point is strictly inside the ball (or at its centre); sdfv leads from the boundary to the point: point - v is the boundary point nearest to the point; sdf is the signed distance to the circle.",
  "all radii, points","continuum",
  [S2+"ball2d/v_point.rs"])
p("Box2d v Point collision flag",
  "collides iff the point is strictly inside the box; boundary points do not collide.",
  "all boxes, all points","continuum, boundary",
  [S2+"box2d/v_point.rs"])
p("Box2d v Point vectors",
  "For an outside point, distance_to/sdfv v is such that point - v is the nearest point of the box; for an inside point, penetrates/sdfv v is such that point - v is on the boundary and no boundary point is nearer.",
  "all boxes, points, all candidate boundary points","minimality over all boundary points",
  [S2+"box2d/v_point.rs"])
p("Box2d v Point signed distance",
  "sdf equals the Euclidean distance to the box outside, minus the distance to the nearest face inside, 0 on the boundary; negative iff collides; |sdf| equals the length of sdfv.",
  "all boxes, points","continuum",
  [S2+"box2d/v_point.rs:sdf_rel"])
p("Point v Point",
  "Points collide iff they coincide; sdfv is the offset; sdf its length.",
  "all relative positions","continuum",[S2+"point2d.rs"])
p("Box2d v Ball collision flag",
  "For positive radius, collides iff the open disc meets the box (distance from the ball's centre to the box is below the radius).",
  "all boxes, radii, centres","continuum, corner regions",
  [S2+"box2d/v_ball.rs",S2+"rounded_box2d/v_point.rs"])
p("Box2d v Ball resolution vector",
  "Moving the box by the returned vector brings box and ball to touching contact, and no shorter move does.",
  "all boxes, balls, positions, candidate moves","minimality",
  [S2+"box2d/v_ball.rs",S2+"rounded_box2d/v_point.rs"])
p("Box2d v Ball signed distance",
  "sdf(box, ball) is the signed distance: gap when separated, minus penetration depth when colliding, and |sdf| equals the length of sdfv.",
  "all boxes, balls, positions","continuum",
  [S2+"box2d/v_ball.rs:sdf_rel"])
p("RoundedBox2d v Point signed distance",
  "sdf of a rounded box is the box signed distance minus the radius; negative iff the rounded box v point test collides.",
  "all rounded boxes, points","continuum",
  [S2+"rounded_box2d/v_point.rs"])
p("Argument order: Point v shape",
  "Point v Box2d and Point v Ball answer the same question as the swapped call: same flag, and v describes the same displacement negated and expressed in the first argument's space.",
  "all shapes and rigid relative transforms","continuum",
  [S2+"point2d.rs:impl_reverse_sdfv_common_rel"])
p("The query family agrees",
  "For one pair of colliders: penetrates is Some iff collides, distance_to is None iff collides, the sdfv flag equals collides, and the sdfv vector equals the penetrates/distance_to vector (directly implemented pairs: Ball/Box2d/Point combinations).",
  "all shape pairs, all transforms","cross-method agreement over all inputs",
  [D2+"sdfv_common.rs",D2+"penetrates.rs",D2+"distance_to.rs",D2+"sdfv.rs"])
p("World-frame invariance",
  "collides, penetrates, distance_to and sdf of two colliders do not change when both are moved by the same rigid motion; the sdfv vector rotates with the motion.",
  "all shape pairs, placements, rigid motions","continuum of motions",
  [D2+"collides.rs",D2+"sdfv.rs","src/col/transform.rs"])
p("sdfv and penetrates/distance_to are expressed in a documented frame",
  "penetrates_rel/distance_to_rel answer in self-oriented space; the collider-level vector returned by sdfv is the world-frame displacement of self. A user applying penetrates' vector to the world position of a rotated collider relies on it being in world space too.",
  "all rotated colliders","continuum of rotations",
  [D2+"penetrates.rs",D2+"distance_to.rs",D2+"sdfv.rs"])
# --- GJK
p("Minkowski queries never panic",
  "collides, penetrates and distance_to on Minkowski-based pairs (Ball-Box2d, Box2d-Box2d, Box2d-Poly2d, Poly2d-Poly2d, Shape2d-Shape2d) never reach a panic, unreachable! or failed assertion, for any float behaviour (NaN, overflow, rounding) and any shapes.",
  "all shapes, transforms, all float behaviours","every float input and every execution path",
  [G+"v.rs",G+"mod.rs:Simplex2d"])
p("sdfv never panics",
  "sdfv on Minkowski-based pairs never hits the explicit panic 'Simplex collided after collision was no longer possible'.",
  "all shapes and relative transforms (exact arithmetic)","needs an invariant of the loop over all shapes",
  [G+"v.rs:SdfvMinkowski2d<true,true>"])
p("A negative collision answer is certified",
  "If collides (or penetrates) reports no collision by finding a separating direction then the two convex shapes can be separated by a line (their interiors are disjoint).",
  "all convex shape pairs, all relative transforms","universal over shape points",
  [G+"v.rs:SdfvMinkowski2d<false,false>"])
p("penetrates never reports a collision of disjoint shapes",
  "If penetrates is Some for convex shapes, the shapes have a common point.",
  "all convex shape pairs with correct extreme points (exact arithmetic)","soundness over all shapes",
  [G+"v.rs:SdfvMinkowski2d<true,false>"])
p("collides reports true only within a tolerance of contact",
  "If collides is true for convex shapes, they share a point or come within a small explicit distance of each other.",
  "all convex shape pairs","soundness over all shapes",
  [G+"v.rs:SdfvMinkowski2d<false,false>",G+"v.rs:direction_is_too_small"])
p("Box2d v Box2d collision test is complete",
  "For any two boxes under any rotation and translation, if they overlap with interior then collides is true and penetrates is Some; if they are disjoint then penetrates is None. The 20 iteration limit is never the reason for the answer.",
  "all pairs of boxes, all rigid relative transforms","needs a termination measure over all inputs",
  [G+"v.rs",S2+"box2d/mod.rs"])
p("Polygon collision test is complete for small polygons",
  "For convex polygons whose vertex counts multiply to at most 19, overlapping shapes are always detected within the 20 iteration limit.",
  "all polygons within the vertex bound, all relative transforms","needs a termination measure",
  [G+"v.rs",S2+"poly2d/mod.rs"])
p("Penetration vector separates",
  "If penetrates returns Some(v) from a converged computation, then moving self by v leaves the shapes with disjoint interiors.",
  "all convex shape pairs","universal over shape points",
  [G+"mod.rs:EpaPoly2d::calculate_penetration"])
p("Penetration vector is minimal within 1 percent",
  "If penetrates returns a converged vector v, then any displacement w which separates the shapes has |v| <= 1.01 |w|.",
  "all convex shape pairs, all displacements","minimality over all displacements",
  [G+"mod.rs:EpaPoly2d::calculate_penetration"])
p("Box2d v Box2d penetration always converges",
  "For overlapping boxes, penetrates returns a separating vector: it never falls back to Some(ZERO) by exhausting the iteration limit.",
  "all pairs of boxes, all rigid relative transforms","needs bound on EPA expansion for all inputs",
  [G+"mod.rs:EpaPoly2d"])
p("distance_to brings the shapes into contact",
  "If distance_to returns Some(v), moving self by v makes the shapes share a point; hence |v| is at least the true distance.",
  "all convex shape pairs","universal",
  [G+"v.rs:SdfvMinkowski2d<false,true>",G+"mod.rs:Simplex2d::distance_to_origin"])
p("distance_to is the smallest distance",
  "distance_to returns a shortest vector between the shapes.",
  "all convex shape pairs","minimality over all moves",
  [G+"v.rs:SdfvMinkowski2d<false,true>"])
p("Axis-aligned boxes: exact answers",
  "For axis-aligned boxes (translation only): distance_to is exactly the per-axis gap vector when separated; penetrates is the least per-axis overlap.",
  "all box pairs and offsets","continuum",
  [G+"v.rs","examples"])
p("Every query does a bounded amount of work",
  "Each Minkowski-based query evaluates the support function at most a fixed number of times (20 for collides, 41 for sdfv...), for any input.",
  "all inputs, all float behaviours","worst case over all inputs",
  [G+"v.rs",G+"mod.rs"])
p("Shape2d behaves like the wrapped shape",
  "extreme_point of a Shape2d equals that of the wrapped Ball, Box2d or Poly2d, and the Shape2d v Shape2d queries answer like the Minkowski query on the wrapped shapes.",
  "all wrapped shapes, directions","all inputs",
  [S2+"mod.rs:shape_union"])
p("Touching shapes",
  "Shapes which only touch are treated consistently (documented strictness of the directly implemented pairs: touching is not a collision).",
  "all touching configurations","measure-zero boundary cases are never hit by random tests",
  [G+"v.rs",S2+"box2d/v_point.rs",S2+"ball2d/v_ball2d.rs"])
# --- tilemap
TM=S2+"tilemap.rs"
p("Tilemap is a finite map from tiles to u8",
  "After any sequence of set_tile/remove_tile, get_tile(p) returns the last value set at p, or 0 if never set or removed last; operations on other tiles do not interfere.",
  "all operation sequences, all positions incl. negative","unbounded histories",
  [TM+":get_tile",TM+":set_tile",TM+":remove_tile"])
p("Chunk decomposition is a bijection",
  "tile_to_chunk_and_local_pos splits every tile position into a chunk and an in-range local position, and the pair determines the tile.",
  "all integer positions","all integers",[TM+":tile_to_chunk_and_local_pos"])
p("Chunk bookkeeping",
  "After any history, every stored chunk is 16x16; get_chunk is Some for every chunk that contains a non-zero tile; remove_tile never leaves an all-zero chunk at the position it touched.",
  "all histories","unbounded histories",[TM+":get_chunk",TM+":remove_tile"])
p("Tilemap events describe the changes",
  "Every call that changes the visible contents of an already existing chunk emits an event naming that chunk; replaying ChunkCreated/ChunkRemoved events yields exactly the set of existing chunks; events are append-only.",
  "all histories","unbounded histories",[TM+":TilemapEvent","src/utils/publisher.rs:Ledger"])
p("save/load round-trip",
  "load of what save wrote yields a tilemap with the same tiles and chunks, with an empty event ledger.",
  "all tilemaps, all serialisation orders of the map","all maps, hash orders",[TM+":save",TM+":load"])
p("Tilemap v Point",
  "A point collides with the tilemap iff the tile whose unit cell (centred at its integer coordinates) it rounds to is non-zero.",
  "all maps, all points","continuum",[TM+":SdfvCommonRel2d<false,false,Point,T>",TM+":world_to_tile_pos"])
p("quantize covers all overlapping tiles",
  "Every tile cell whose interior meets the box placed at world_pos is in the rectangle that quantize returns.",
  "all boxes, positions, tiles","continuum",[TM+":quantize"])
p("simple_resolve_box resolves",
  "simple_resolve_box leaves the position unchanged if no solid tile cell overlaps the box, and with a single solid tile overlapping the result no longer overlaps it and is the least such displacement (up to 1%).",
  "all maps, boxes, positions, directions","continuum and all maps",[TM+":simple_resolve_box"])
p("Rect2i32 iteration visits each tile once, in the requested order",
  "Each iterate_* method yields every integer position of the rectangle exactly once, nothing else, row by row in the documented direction; iterate_boxed picks the order from the flip flags; reversed variants are permutations of each other.",
  "all rectangles (incl. empty), all flags","all sizes",["src/utils/rect2.rs"])
p("Rect2i32::pad grows the rectangle",
  "pad(n) with non-negative n gives a rectangle containing the original.",
  "all rectangles and paddings","all inputs",["src/utils/rect2.rs:pad"])
p("Publishers deliver",
  "Ledger keeps all notified events in order with multiplicity; HashsetLedger holds exactly the set of notified events; CallbackPublisher calls every attached subscriber exactly once per event in attachment order, and only for events after its attachment.",
  "all interleavings of attach and notify","unbounded histories",["src/utils/publisher.rs"])
# --- approx / lerp
p("approx_eq on f32",
  "approx_eq_tolerance is reflexive on finite numbers, accepts numbers within the relative tolerance and rejects those outside, NaN is approximately equal to nothing, infinities only to themselves.",
  "all f32 pairs, tolerances","2^64 pairs",["src/utils/approx.rs"])
p("approx_eq on Vec2 and Vec3",
  "approx_eq_tolerance is reflexive on finite vectors, symmetric, holds iff |a-b| <= tol * max(|a|,|b|), and never holds when a component is NaN.",
  "all vectors","continuum",["src/utils/approx.rs"])
p("Lerp",
  "lerp(a,b,0)=a, lerp(a,b,1)=b, values stay between the endpoints for t in [0,1], lerp is affine in t and on Vec2 acts per component.",
  "all endpoints and t","continuum",["src/lib.rs:Lerp"])
# --- 3D
T3="src/col3d/transformation3d/"
p("3D transformation laws",
  "unapply inverts apply, inverse undoes apply and compose applies right then left, for Vec3, Translate3d, AxisTransform3d, Isotropic3d, Transform3d and bevy's Transform.",
  "all transformations with non-zero scale and unit quaternion, all points","continuum",
  [T3+"translate3d.rs",T3+"axis_transform3d.rs",T3+"isotropic3d.rs",T3+"transform3d.rs","src/col/bevy_transform.rs"])
S3="src/col3d/shape/"
p("Box3d v Point queries",
  "collides iff strictly inside; penetrates gives point - v on the nearest face; sdf and sdfv are the exact signed distance and its vector.",
  "all boxes, points","continuum, 27 regions",[S3+"box3d.rs"])
p("Ball v Point queries in 3D",
  "collides iff strictly inside; penetrates, sdf, sdfv exact signed distance to the sphere.",
  "all radii, points","continuum",[S3+"ball3d.rs"])
p("3D Point v shape delegates",
  "Point v Box3d/Ball gives the same answers as the swapped call with the same relative transform argument.",
  "all shapes, rel","all inputs",["src/col3d/default_impls.rs"])
p("3D extreme points and Minkowski sums",
  "Box3d, Ball and Point extreme points are in the shape and farthest; the Minkowski sum of two Box3d is the set of sums.",
  "all shapes, directions","universal over shape points",[S3+"box3d.rs",S3+"ball3d.rs",S3+"point3d.rs"])
p("3D collider-level call forms agree",
  "collides, collides_v2 and collides_v3 give the same answer; penetrates is Some iff collides.",
  "all shapes, transforms","all inputs",["src/col3d/detection/collides.rs","src/col3d/detection/penetrates.rs"])
p("Box3d::cover covers",
  "After cover(p) the Box3d contains p.",
  "all boxes and points","continuum",[S3+"box3d.rs:cover"])
with open('/verif/properties.jsonl','w') as f:
    for q in P: f.write(json.dumps(q)+"\n")
print(len(P))
