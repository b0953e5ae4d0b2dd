# Formal model of lubomirkurcak/auburn in Lean 4

## 1. What is modelled, and how

`lean/Verif/Model/*` is a function-by-function transcription of the crate's compiled code.
Every definition cites file and lines in `/repo`.  Mutation through `&mut` becomes returning
the new value, loops become structural recursion on the remaining iteration count, panics
(`unreachable!`, `panic!`, `assert_eq!`) become explicit `Except.error` values.

**Scalars.**  Everything is polymorphic in the scalar type `F` that stands for `f32`.  The model
only mentions `0 1 + - * / neg < <=` of `F` and the operations of the class `FloatExtra F`
(`abs max min signum sqrt sin cos atan2`, `is_nan`, `is_infinite`, `is_sign_negative`, `==`, the
constants `EPSILON`, `0.01`, `f32::MIN`, `NAN`, ...).  The same model text is used at three tiers:

* **Tier 0 – no laws.**  Theorems over an arbitrary `F` with arbitrary operations.  They hold for
  real IEEE `f32` with every rounding, NaN, infinity and overflow (no panic, bounded work, flag
  and Option agreement, order of iteration...).
* **Tier 2 – exact arithmetic.**  Theorems over an arbitrary linearly ordered field `K` whose
  `FloatExtra` operations satisfy the laws in `ExactFloat K` (they are what IEEE guarantees minus
  rounding/overflow).  `NAN` is an arbitrary element of `K`, `signum 0` is an arbitrary choice of
  `1`/`-1` (f32: sign of the zero): theorems hold for all choices.  Square roots are added by
  `ExactSqrt K`.  Instances are given for the reals (all laws) and the rationals (no sqrt law); the
  rational instance is used to *evaluate* the model in the kernel on concrete witnesses.
* **Tier 1 – IEEE-754 binary32** (`Verif/Ieee/*`).  A value-level model of binary32: NaN, two
  infinities, two zeros, subnormals, overflow, `+ - * / sqrt` rounded to nearest-even from the exact
  real result.  The same model functions are run at `F := F32`.  What the standard or the platform
  leaves open (sign of NaN, `sin`, `cos`, `atan2`, tie rule of `round_to_i32`) is a parameter
  (`F32Env`): theorems hold for every choice.  Theorem names contain `_f32_`.

What rounding does to the geometric theorems of Tier 2 is *not* claimed, except where a Tier 0/1
theorem says so.  Two gaps of Tier 2 to keep in mind: (a) rounding and overflow; (b) the sign of zero:
in the exact model `signum 0` is one fixed value (either choice), whereas on f32 it depends on the
zero's sign bit and may differ between two queries of one search.  The Tier 1 theorems (C71 in
particular) have neither gap.

**Point sets (specification).**  `Verif/Spec/*` defines, independently of the model's algorithms,
what shapes *are*: sets of points of the plane (disc, rectangle, `convexHull`, disc-swept
rectangle), placement of a set by a transformation, separation, contact and depth.  Property
theorems relate API functions of the model to these sets only.

## 2. Trusted base

* Lean 4.33 kernel, and the axioms `propext`, `Quot.sound`, `Classical.choice` (nothing else; no
  `native_decide`, no `bv_decide`, no added axioms).  `AXIOMS.md` lists the axioms of every theorem
  in the manifest (generated from `#print axioms` by `tools/axioms.py`).
* Fidelity of the transcription (reading), as cited definition by definition.
* For `_f32_` theorems: the definitions of `Ieee/Binary32`.  Their adequacy is proved in `Ieee/Nearest`:
  finite results of `+ - * / sqrt` are nearest representable numbers (`F32.add_nearest`, ...), ties go to
  an even significand (`rnd_tie`), overflow to infinity happens exactly from `(2^25-1)*2^103` on
  (`F32.rnd_overflow_iff`); `Ieee/Special` pins NaN, infinities and signed zeros for all operands.
  Concrete binary32 runs (the f32 findings in `Ieee/EvalFindings`) are computed by the kernel (`decide +kernel`) on
  `QF`, a copy of the arithmetic with rational magnitudes (`Ieee/Eval`), and carried over to `F32` by a
  relation proved to be preserved by every operation and by every function of the GJK/EPA code (`Ieee/EvalGjk`);
  nothing about `QF` is trusted.
* External crates, by contract: `glam` vector arithmetic (component-wise formulas as in glam 0.29:
  `length = sqrt(dot)`, `normalize_or_zero` through reciprocal length, `Quat * Vec3`, `perp`),
  `lk_math` (`modular_decompose` = floor division/Euclidean remainder per axis, `Array2d::get/set`
  bounds-checked access, `V2i32` component-wise), `round-to` (`round_to_i32` = nearest integer),
  `serde_json` (writing then reading a sequence of (key, value) pairs gives it back), std `HashMap`,
  `HashSet`, `Vec`.
* Integers: the list model of rectangles (C57, C58) uses unbounded integers; C80 relates it to `i32` arithmetic
  (C50 shows that chunk arithmetic does not overflow).
* Not modelled: logging macros, `println!`, the operating system's page cache (bytes handed to the
  OS count as written), `transformation2d/isotropic2d` (not compiled; all bodies but one are
  `todo!()`), examples.  The other source files that are not compiled at this
  commit (`shape/minkowski_diff`, `shape/ellipse2d`, `shape/cylinder3d`) are modelled as written in
  `Model/Dormant` (C74-C76).
* The `3d` feature refers to traits `MinkowskiSum`/`MinkowskiNegationIsIdentity` and a module
  `col3d/transformation3d/bevy_transform` that do not exist at this commit, so it does not
  compile; its function bodies are modelled as written.  The pair implementations under `cfg(minkowski)`
  (`col3d/default_impls.rs`) are modelled in `Model/Col3dPairs`; `minkowski_difference` (defined nowhere) is read
  as `minkowski_sum`, as the marker `MinkowskiNegationIsIdentity` of the second shape says.
* Conformance tests (tests, not proofs; no theorem depends on them; `tools/replay.sh` runs them).
  `Conformance/Replay` instantiates the model with Lean's machine type `Float32` and replays the assertions of
  `/repo/tests`, of the unit tests in `/repo/src` and of the `col2d` doc examples: 2561 assertions, none fails.
  `Conformance/Machine` compares the formal binary32 arithmetic of `Ieee/` (through its computable copy) with
  the machine's on random bit patterns and on whole queries: 263306 comparisons, no difference.
  `Conformance/Claims` compares the answers with brute force (all separating directions, depth, distance) on random
  shapes, claim by claim: 35866 checks, none fails; the same checks run on the wrong programs of `seeded/`
  (field `claims_refuted`) show which claims each of them violates.

## 3. Plan per property

| id | model | proof |
|----|-------|-------|
| C01–C04 | `Model/Transform2d`: Vec2, Translate2d, AxisTransform2d, Transform2d, Identity, inverse/compose/delta | field algebra at Tier 2; counterexamples by evaluation where the code violates the law (AxisTransform2d inverse, non-uniform Transform2d) |
| C05–C07 | Rotor2d (from_angle, mul, inverse, from_quaternion) | algebra; sin/cos over the reals |
| C08–C11 | extreme_point of each shape, collider, Minkowski difference | against point sets; Poly by induction on the vertex list |
| C12–C16 | bounding boxes, cover, strict_check, From<Box2d>, regular | induction over point lists; trigonometry over the reals |
| C17–C30 | the directly implemented pairs | case analysis + ordered-field arithmetic; minimality against all boundary points / all moves |
| C31–C32 | collider level API | from the transformation laws; frame finding by evaluation |
| C33, C46 | GJK/EPA loops | Tier 0, induction on remaining iterations |
| C34 | `sdfv` loop | guard invariant (the replaced direction is only reached on unresolvable triangles); counterexamples otherwise |
| C35–C37 | GJK loops | loop invariant (simplex on the far side, origin projects into the edge) |
| C38, C39 | GJK loops | strictly decreasing count of support points beyond the current edge; for polygons the extreme points of the difference are counted in the order of the directions around the circle (`Lib/Fan.lean`: every corner is left once, so at most n + m), `Props/Corners.lean` |
| C40–C42 | EPA | separation from support property; cone-cover invariant of the expanding polygon for minimality |
| C43–C45 | distance variants | membership in the difference set; descent invariant (nearest point of the current edge) for termination and edge-shortest; region analysis for axis-aligned boxes; for rotated boxes all paths of the search through the four generators of the difference (an octagon) are followed, so there the vector is shortest; counterexamples to shortestness for general polygons |
| C47–C48 | Shape2d union, touching | unfolding; evaluated witnesses |
| C49–C53 | Tilemap state machine | refinement to a function `Int × Int → Nat`, invariants by induction over operation lists |
| C54–C56 | Tilemap queries | rounding contract |
| C57–C59 | rectangles, publishers | list induction |
| C60–C62 | Approx (also with the default tolerance), Lerp | Tier 2 and Tier 1 |
| C63–C69 | col3d | algebra (quaternion), case analysis |
| C70 | Transform2d constructors and builders | unfolding, algebra |
| C71 | GJK loops on binary32 | the binary32 run is followed by a run on exact reals; on the grid all values up to the final dot product are representable, the length test detects exactly zero directions, and the real run satisfies the invariant of C35/C36 |
| C72 | `Model/Persist`: JSON writer/reader, derived (de)serialisation, `save` as a step relation over the file | reader after writer is the identity; reading is stable under extension, so strict prefixes are rejected; invariant over save steps; induction over sequences of saves |
| C73 | distance and sdfv loops on binary32 | a simulation of the exact run (`Ieee/GjkDist`): every decision agrees on the grid, sdfv's 1% tolerance test is bounded by 0.98, and the final projection is off by at most 2^(k-16); shortness from the exact invariants of C44, for boxes through the rectangle invariant; the number of values of the support function is bounded by the cyclic count of `Lib/Fan` (`Ieee/CornerProps`; the sign of a zero can add four corners of a box) |
| C74 | `Ellipse2d` (not compiled) | Cauchy-Schwarz on the scaled direction for the extreme point; field algebra for the two formulas |
| C75 | `MinkowskiDiff2d` (not compiled) | similarity laws of the placement on top of C11; `apply` of a difference is the difference plus the origin's image |
| C76 | `Cylinder3d` (not in the module tree) | product of disc and interval; nearest point by radial projection; findings by evaluation |
| C77 | ball kernels on binary32 with rounding | rounding lemmas (relative error 2^-24 per operation, `Ieee/Rounding`) propagated through length, difference and quotient; the exact vector is that of C01-style resolution of discs |
| C78 | box-point kernel and sdf on binary32 with rounding | rounding preserves the sign of `abs(d) - h` exactly, hence the flag; relative errors through max and length |
| C79 | rounded-box kernel on binary32 with rounding | the case distinction is decided exactly by rounded differences, except for the choice of direction inside, where the loss is bounded; corner case by propagating errors through product and quotient |
| C80 | `Model/Int32`: i32 arithmetic, std `RangeInclusive`, `Rev`, `FlatMap` as state machines | abstraction of each iterator state to the list still to come; induction over `next` calls; determinism of `next` |
| C81 | `Model/Defaults` | field algebra; evaluation of binary32 special cases (`1/0`, `∞*0`, NaN comparison) for the finding |
| C82 | binary32: `as f32` of a tile coordinate and `round_to_i32` of a position | exactness up to 2^24, correctly-rounded bounds beyond; corner errors of `quantize` bounded by M/2^24 |
| C83 | binary32: GJK and EPA on a rectangle that contains the origin, with every rounding | sign and interval analysis of the branches of `addPoint`, invariant of the expanding loop over the corners reached, error bounds of `distanceToOrigin` |
| C84 | binary32: GJK on a rectangle that misses the origin, with every rounding | one corner decides the near axis; the far axis is a corner (exact) or a side, where the rounded closest direction is bounded; termination of the loop after at most three supports; distance of two boxes per axis |
| C85 | bevy `Transform` as a 2D transformation (`bevy_transform.rs`), exact scalar | the quaternion of a rotation about z is turned into a rotor; 2D action compared with the 3D one, then all queries by congruence of the relative transforms |
| C86 | GJK/EPA on arbitrary boxes and polygons (partly balls) in binary32 | support functions, dot products, edge normals and EPA pushes are bounded against their exact values (`Noisy*.lean`); invariants of the loops: points within rounding of the difference set, directions bounded and not tiny; the stopping test then gives separation up to the tolerance. Not covered: pushes for balls, positive answers, a search that uses up its 20 steps (explicit alternative in the statement) |
| C87 | GJK on arbitrary boxes, polygons and balls in binary32, positive answers | assume the shapes are more than M/64 apart. Invariant of the search: the two kept points see the origin from the outside (feet of the perpendicular near the segment, computed direction within rounding of the exact normal, `Edge`/`Good` in `PosGeom`, `PosStep`); each rounded sign test of `addPoint` then agrees with the exact geometry far enough that it never reports an enclosing triangle and never produces a tiny direction. Not covered: `distance_to = None` (unsound, C73) |
| C88 | the same with rotations: `Transform2d` with nearly unit rotor and scale one in binary32 | the rotated support function is again a noisy support function of the rotated shape (`Turn`, `TurnPair`: rounding of `Rotor2d * Vec2`, error relative to the lengths), so the loop invariants of C86/C87 apply with a smaller tolerance budget (`TurnProps`); `inverse`, `compose` are bounded against the exact relative placement (`TurnDelta`), and the answers are carried from the frame of the first collider to the world (`TurnColliders`). Examples evaluate two turned triangles in the kernel |
| C89 | `scaling_factor` and the extreme point of a ball collider | direct algebra; the stretch of a `Transform2d` is diagonal after removing the rotation |
| C90 | `Transform2d` (scale one) and translations in binary32, against the exact rigid map of the same stored numbers | rounding lemmas of `Turn`/`TurnDelta`; induction over the list of rotors for the drift (`TransformProps`); the finding evaluates in the kernel |
| C91 | `extreme_point` of every 2D shape and of rotated colliders in binary32, against `IsExtreme` of the real set | the noisy support functions of C86/C88 restated as a public property (`ExtremeProps`); the finding evaluates in the kernel |
| C92 | the four searches on any convex pair, against `OverlapBy δ` and `WithinReach R` | `Lib/GjkRate`: area of the triangle over the simplex edge (`Narrow`) divided by four per step (`EdgeInv.quarter`), at least `δ²` by `EdgeInv.depth`; potential `Pot` through the loops; the finding evaluates in the kernel |
| C93 | `penetrates`/`sdfv` vectors of any convex pair, against `MinimalPush` | C92 for the search, `epa_spec` (minimal or zero) for the expansion; the finding evaluates in the kernel |
| C94 | World regions of two placed colliders, as images of self-space regions under the first placement (a similarity of ratio s); `Props/World.lean` | separation, contact, overlap depth, reach and minimality are transported along the similarity, so C35-C44, C92, C93 become statements about the placed colliders; `Props/WorldBevy.lean`: bevy transforms about z, by the conversion of C85 |
| C95 | Box3d and Ball against Point in binary32, rel and collider level; `Ieee/Col3dProps.lean` | comparisons are exact; per-operation rounding errors are propagated through the length, the quotient and the products; exact answers from C64/C65 at the real instance |
| C96 | GJK searches of `collides`/`penetrates` on lattice shapes with any number of vertices, exact and binary32 | `Lib/GjkLattice.lean`: potential of C92 plus the minimal area of a lattice triangle; `Props/Lattice.lean`; `Ieee/LatticeProps.lean` (ghost run on reals as in C71) |
| C97 | GJK loops of all four queries on arbitrary f32 shapes that overlap deeply, any number of vertices, with offsets and rotations | `Lib/GjkNoisy.lean`: the potential of C92 for nearly extreme points and nearly correct directions; `Ieee/NoisyRate.lean`: every computed direction is within 2^-12 of an exact edge normal, the state after k steps has potential at most 4^-k, so k < 16; `Ieee/DeepProps.lean`: loops, shapes, colliders; `Ieee/DeepExamples.lean`: concrete case |
| C98 | EPA after GJK on f32 balls, boxes and polygons that overlap deeply, any number of vertices, any float coordinates of bounded size, with offsets and rotations | `Lib/Winding.lean`: a closed polygon that winds around a point reaches as far as its nearest edge in every direction; `Lib/EpaStart.lean`, `Ieee/EpaRing.lean`: GJK's last triangle winds around, and inserting a vertex keeps it so; no two neighbouring vertices come close (`Encloses.long`), so no edge normal is lost in rounding; `Ieee/EdgeDist.lean`, `Ieee/EpaDeep.lean`: rounded edge distances and the choice of the edge; `Ieee/LeastProps.lean`: loops, shapes, colliders; `Ieee/LeastExamples.lean`: concrete cases |
| C99 | `Model/Col3dPairs.lean`: Box3d v Box3d through the Minkowski difference (`cfg(minkowski)` code of `col3d/default_impls.rs`) | `Props/Col3dPairs.lean`: a box at `c` overlaps/touches another iff `c` is in the interior/surface of the sum box; then C64 on the sum box; separating moves compared with every competing move |
| C100 | nothing new: the collider-level queries in both orders | the world-space specifications are symmetric, so C94 applied twice gives the agreement; balls by computation, in binary32 from the symmetry of rounding |
| C101 | nothing new: `simpleResolveBox` of `Model/Tilemap.lean` over the binary32 scalars | `Ieee/ResolveProps.lean`: the rectangle of tiles from C82, each tile a box pair for C83 (overlap by a margin) or C84 (gap), induction over the list of tiles, the final addition rounded once; `Ieee/ResolveBall.lean`: a clear ball stays, each tile by C87 (a reported penetration means the shapes nearly meet) and C33; `Ieee/ResolveBallPush.lean`: a ball deep in a tile by C98, with the offset and the sum rounded once more |
| C102 | `Model/PartialEq`: the derived `PartialEq` of all types, over `FloatExtra.feq` | `Ieee/SignedZero`: the relation "same or `==`" is respected by every binary32 operation except division by zero, `signum` and the sign bit; `Ieee/ZeroGjk`: so is every function of GJK and EPA (divisions there are by squared lengths, which are bit-identical for `==` vectors); `Ieee/EqProps`, `EqSwapProps`, `EqFindings` |
| C103 | the two searches with their f32 arithmetic; quarter turn `(x, y) ↦ (-y, x)` of vertices and offsets | simulation: a relation between the run on the scene and the run on the turned scene (`Tr2`: equal up to a quarter turn and the sign of zeros) is kept by every step of GJK and EPA; each cross and dot product is the same number. Any number of turns by induction. Mirror images the same way (`Mi2`), with every winding reversed. Box queries: exact sign algebra through `abs` and `signum`. World turns: the relative transform is the same up to the sign of zeros, then C102 |

Status: everything is proved as stated in `properties.jsonl`.  Where the crate does not satisfy the natural law the property states what it does
satisfy, as an exact characterisation (`_iff`) where possible, and a theorem `Cxx_…_finding` exhibits
the violation.

## 4. Findings

Behaviour of the crate that contradicts its documentation or the natural law, each machine-checked
(generated from the docstrings by `tools/findings.py`):

* `C01_inverse_axis_finding` — the documented law of `Invertible` is violated by `AxisTransform2d`.
* `C01_inverse_transform2d_finding` — the documented law of `Invertible` is violated by `Transform2d` (rotation by 90 degrees with scale (1, 2)).
* `C02_compose_transform2d_finding` — the documented law of `Composable` is violated by `Transform2d`.
* `C04_delta_axis_finding` — with `AxisTransform2d` the relative transform is not the relative placement in general (a consequence of its wrong `inverse`).
* `C04_delta_transform2d_finding` — with a non-uniformly scaled, rotated first collider the relative transform is not the relative placement.
* `C08_extreme_point_poly_far_finding` — without the documented limitation the search starts from `(f32::MIN, ZERO)`, so for a polygon far away from the origin the answer can be `ZERO`, which is not a point of the polygon.
* `C09_collider_extreme_poly_nonuniform_finding` — with a non-uniform scale a polygon collider's extreme point is not farthest.
* `C100_coincident_finding` — coincident balls are pushed in the same direction from both sides, so applying both answers (or the negated answer of the swapped call) does not separate them.
* `C100_order_finding` — the tolerance is measured in the units of the first collider. A unit box scaled by 100 and a unit box that are a millionth apart: one order reports a collision, the other does not, and they do not touch.
* `C102_box_extreme_finding` — finding: a box answers `==` directions with different corners
* `C102_box_point_finding` — finding: a point at the centre of a box is pushed out to the left or to the right depending on the sign of the zero in its (`==`) position
* `C102_inverse_finding` — finding: two `==` transforms (one scale is `0` in one and `-0` in the other) have inverses that are not `==`: one scales by `+∞`, the other by `-∞`
* `C102_refl_finding` — `a == a` fails for a transform made from a NaN angle
* `C103_box_turn_finding` — finding: a square of half size 1 and a point at (1/2, 1/2) in it: the answer is to push by (0, -1/2), and it is (0, -1/2) again when the scene is turned by 90 degrees (the point is then at (-1/2, 1/2)), not (1/2, 0)
* `C14_strict_check_convex_finding` — it does not certify convex position either: a vertex in the middle of an edge passes if it is listed before the edge's end points.
* `C14_strict_check_origin_finding` — the documentation says the origin must be strictly inside to pass; but the triangle (1,0), (0,1), (0.8,0.7), which does not contain the origin at all, passes.
* `C17_coincident_finding` — two coincident balls of radius zero (points) are reported as colliding, although nothing overlaps: Ball v Ball treats coincident centres as a collision unconditionally.
* `C17_scale_finding` — the relative transform's scale is ignored: balls that overlap through the scale of the second one are reported apart.
* `C21_f32_nan_finding` — with a NaN coordinate the answer is whatever the sign bit of the NaN is.
* `C25_radius_zero_finding` — for radius 0 (or RoundedBox2d with radius 0) the flag is inconsistent on the boundary: a point on a face perpendicular to x collides, on a face perpendicular to y it does not.
* `C26_face_finding` — with the ball's centre exactly on a face perpendicular to x, the push is along y and much longer than necessary: box (1, 10), ball of radius 1/2 at (1, 0) is pushed by 10.5 instead of 0.5.
* `C27_box_ball_sdf_finding` — Box2d v Ball `sdf` is not the signed distance: box (1,1), ball of radius 1/2 at (6/5, 0) penetrates by 3/10 (`sdfv` says so) but `sdf` is -1.
* `C27_separated_finding` — for separated shapes the returned value can exceed the gap: box half sizes (1,1), ball of radius 1 around (4,5), gap 4.
* `C27_sign_finding` — `sdf` can be positive although `collides` is true and the ball even contains the whole box: box half sizes (1,1), ball of radius 10 around (3/10,4/10), `sdf = 47/10`.
* `C31_axis_finding` — with `AxisTransform2d` colliders the answer depends on where the scene is: two points that do not collide start to collide when both are moved by the same translation (because `AxisTransform2d::inverse` is wrong).
* `C32_penetrates_frame_finding` — `penetrates` (and likewise `distance_to`) on colliders does not rotate its vector back to world space: a box turned by 90 degrees around a point is told to move by (-1/2, 0), after which it still overlaps the point robustly, whereas `sdfv` says (0, -1/2).
* `C34_sdfv_panic_finding` — `sdfv` panics ("Simplex collided after collision was no longer possible") for two polygons that are disjoint but closer than `2^-23`.
* `C34_small_boxes_finding` — two boxes of a few thousandths of a unit, more than 0.02 units apart (over four times the larger half width), rotated against each other: `sdfv` panics, and `distance_to` reports "no distance", as for overlapping shapes. (The search directions have the size of a product of three coordinates; below `f32::EPSILON` they are replaced.)
* `C36_penetrates_disjoint_finding` — within the tolerance `penetrates` and `collides` report a collision of *disjoint* boxes: unit boxes whose faces are `2^-27` apart; and the vector returned moves self towards the other box. So the exact version of C36 (and of C37 without its tolerance) is false.
* `C41_no_margin_finding` — without a margin the minimality claim fails: the disjoint boxes of `C36_penetrates_disjoint_finding` need no push at all, but get one (towards each other).
* `C44_far_from_shortest_finding` — the vector returned by `distance_to` and `sdfv` can be more than ten times too long: for a polygon with four vertices and a point they return `(-20, -1)`, but `(0, -41/21)` suffices.
* `C44_not_shortest_finding` — `distance_to` and `sdfv` do not always return a shortest vector: here they return `(-5, -3)`, but `(-4, -4)` is shorter (32 against 34, squared) and brings the polygons into contact too.
* `C48_touching_boxes_finding` — for the pairs that go through the Minkowski search the answer on touching shapes is not fixed. Both pairs of boxes below only touch (they are separable and share a point); the first is reported as a collision by all four queries, the second by none.
* `C52_remove_phantom_finding` — removing from an empty place reports the removal of a chunk that never existed.
* `C52_remove_silent_finding` — removing a tile of a chunk that keeps other tiles changes visible contents without any event.
* `C54_penetrates_not_resolving_finding` — so it need not resolve the collision: there is a map and a point for which `penetrates` returns a vector, and after moving the map by this vector the point still collides.
* `C56_two_tiles_finding` — with two solid tiles the resolver does not resolve. A box of width 6/5 between the tiles `(0, 0)` and `(2, 0)` is pushed out of the first one into the second one and back: the result still overlaps the first tile, although moving up would have cleared both.
* `C58_pad_finding` — `Rect2i32::pad` does not enlarge: it subtracts the padding from both corners, so the padded rectangle need not contain the original.
* `C60_approx_symmetric_finding` — not symmetric, because the error is relative to the first argument only.
* `C60_f32_infinity_finding` — an infinity is approximately equal to nothing — not even to itself, although the code has a branch for infinite errors which compares with `==` (`∞ - ∞` is NaN, not infinite).
* `C61_approx_transitive_finding` — `approx_eq` is not transitive: steps of less than the tolerance lead from a vector to one which is not approximately equal to it, so it cannot serve as an equality (keys, grouping).
* `C61_f32_infinity_finding` — a vector with an infinite component (and none that is NaN) is approximately equal to nothing, in particular not to itself, in either order and for every tolerance.
* `C61_f32_infinity_v3_finding` — the same for three components
* `C61_f32_nan_zero_finding` — a vector of NaNs is approximately equal to the zero vector (`f32::max` ignores NaN, so the magnitude is 0 and the early return says true).
* `C61_f32_underflow_finding` — vectors shorter than about `2^-75` are approximately equal to each other whatever their directions, for every tolerance, because their squared lengths underflow to zero: `(2^-80, 0)` and `(-2^-80, 0)`.
* `C62_f32_lerp_finding` — with rounding `lerp(a, b, 1)` need not be `b`: `lerp(-1, 2^-30, 1) = 0`.
* `C63_compose_transform3d_finding` — the documented law of `Composable` fails for `Transform3d`.
* `C63_inverse_axis_finding` — the documented law of `Invertible` fails for `AxisTransform3d`.
* `C63_inverse_transform3d_finding` — a rotation about `z` with scale (1, 2, 1) breaks the law.
* `C63_isotropic_of_bevy_finding` — a non-uniform bevy scale is silently replaced by its x component, so the converted transformation moves points elsewhere.
* `C64_box_sdf_finding` — `Box3d::sdf_rel` is wrong above the box. Box with half sizes (2, 1, 3), point (0, 0, 4): the distance is 1, the result is `√2`.
* `C65_ball_penetrates_finding` — closer to the centre than `f32::EPSILON` the vector of `penetrates` does not separate: the point `(ε/2, 0, 0)` in the unit ball is still inside after the move.
* `C66_rotation_finding` — when the shape is rotated the swapped call is wrong, because the relative transformation is not inverted. A point 2 to the right of a (3, 1, 1)-box turned by the quaternion (0, 0, 3/5, 4/5) (sine 24/25, cosine 7/25): the box does not contain the point, box v point says so, point v box answers `true`.
* `C69_cover_finding` — `Box3d::cover` does not cover a point that sticks out in `z`.
* `C72_save_not_atomic_finding` — `save` is not atomic: it truncates the existing file first, so for every map and every previous content there is a point at which a crash (or an I/O error reported as `Err`) leaves a file that `load` rejects - the previous save is lost.
* `C73_f32_distance_collides_finding` — two triangles with integer coordinates of at most two digits, more than 65 units apart, for which `distance_to` answers `None` — "colliding" — while `collides` answers `false`. (In exact arithmetic the distance is found; in binary32 a rounding error in the termination test lets GJK add a point it already has, and the degenerate triangle is taken for one that contains the origin.)
* `C73_f32_distance_nan_finding` — for these two triangles, more than 50 units apart, `distance_to` returns `Some` of a vector of NaNs.
* `C73_f32_distance_wrong_finding` — for these two triangles, less than 43 units apart, `distance_to` returns a vector longer than 75 (the iteration limit is reached).
* `C73_f32_sdfv_panic_finding` — `sdfv` panics ("collided after collision was deemed impossible") for these two triangles, written with one-decimal f32 literals; they are disjoint.
* `C75_minkowski_diff_position_finding` — elsewhere the position of the first collider is added to the difference: two points at (1, 0) have the difference {(0, 0)}, but the "extreme point" is (1, 0).
* `C76_minkowski_sum_finding` — the Minkowski sum of two cylinders has only half the height it should have, because half heights are passed to `new`, which halves again: the sum of two cylinders of half height 1 does not contain the sum of their top points.
* `C76_penetrates_finding` — closer to the mid plane than to the axis (`z² < x² + y²`) the vector of `penetrates` points along the axis and has the length of the half height instead of the missing distance: after moving the cylinder by it the point is still strictly inside, unless it was in the mid plane.
* `C76_sdf_finding` — `sdf` can be negative outside: half height 1, radius 1, point (1/2, 0, 6/5) is 1/5 above the cap, `sdf` is -1/2.
* `C76_sdfv_below_finding` — beyond the rim of the lower cap the axial part of the vector has the wrong sign: half height 1, radius 1, point (2, 0, -2): the vector is (1, 0, 1) instead of (1, 0, -1).
* `C76_sdfv_inside_finding` — inside, `sdfv` (and `sdf`) choose the direction by comparing the depth below the cap with the distance *from the axis*, so on the axis they go along it, however long the cylinder: half height 10, radius 1, centre: the vector has length 10, but length 1 suffices.
* `C77_f32_nan_finding` — Finding (NaN): a ball at a NaN position collides with every ball and every point.
* `C77_f32_overflow_finding` — Finding (overflow): for centres `2^64` apart the reported distance is a vector of NaNs, although all inputs (and the true distance) are finite and well inside the range of `f32`.
* `C77_f32_underflow_finding` — Finding (underflow): two balls of radius `2^-100` whose centres are `2^-80` apart — half a million radii — are reported as colliding: the squared offset underflows to zero and the code takes the branch for coincident centres.
* `C80_pad_overflow_finding` — near `i32::MIN` padding a rectangle by one panics in a debug build, and in a release build turns the rectangle inside out, so that it contains nothing.
* `C81_default_collapse_finding` — `AxisTransform2d::default()`, `AxisTransform3d::default()`, `Isotropic3d::default()` and `Transform3d::default()` are not the identity: the derived scale is 0, so every point is sent to the origin.
* `C81_f32_default_axis_finding` — on f32 a ball placed with `AxisTransform2d::default()` "collides" with every ball on the x axis, however small the balls and however far apart they are: the inverse scale is infinite, `∞ * 0` is NaN and the code takes a NaN distance for a zero distance.
* `C82_f32_round_trip_finding` — from `2^24` on different tiles have the same world position in f32, so the tile of a tile's world position can be another tile.
* `C84_f32_thin_panic_finding` — Finding (why C84 excludes very thin boxes): `sdfv` panics for these two disjoint boxes, a few thousandths of a unit high and hundreds of units wide.
* `C85_bevy_tilted_finding` — for a rotation that is not about z the 2D action is not the xy part of the 3D action, and `unapply` does not undo `apply`: the rotor made of the quaternion is not a rotation.
* `C87_f32_collides_false_positive_finding` — for these two triangles with integer vertices, more than 8 units apart, `collides` answers true: the cross product of two nearly parallel edges rounds to zero, and the search takes the zero direction for a contact. The coordinates are below `2^16`, so the tolerance of C87 cannot be smaller than `M / 2^13`.
* `C89_uneven_finding` — the reported point of an unevenly scaled ball can lie outside of the placed ball, and with a negative scale the factor is not the largest stretch: parts of the placed ball lie farther out than the reported point.
* `C90_f32_round_trip_finding` — the round trip is not exact in f32, neither for a rotation nor for a translation.
* `C91_f32_poly_finding` — the vertex a polygon answers need not be the farthest one: with `(2^24, 0)` and `(2^24, 1)` and the direction `(1, 1)` it answers the first although the second is farther by one unit, because both dot products round to `2^24`.
* `C92_iteration_limit_finding` — a box and a convex polygon with 22 vertices overlap by `1` but `collides` says no, `penetrates` says `None`: the search stops at its limit of 20 iterations. (By C92 the reach of such a pair is above `2^15`; here it is about `2^25`. All coordinates are integers that `f32` represents exactly.)
* `C93_f32_zero_push_finding` — Finding, in binary32 with rounding at every step: a small square near the middle of a 24-gon of radius 1000. `penetrates` and `sdfv` report the overlap with the zero vector, although no displacement shorter than 700 separates the two.
* `C93_zero_push_finding` — a small box near the middle of a 24-gon: `penetrates` and `sdfv` report the overlap, but with the zero vector, although no displacement shorter than 700 separates them. The polytope search stops at its limit of 20 iterations and then returns zero.
* `C94_frame_finding` — `penetrates` answers in the frame of the first collider. A box with half sizes `(2, 1)` turned by 90 degrees and a unit box at `(3/2, 1/4)`: `sdfv` returns the world push `(-1/2, 0)`, `penetrates` returns `(0, 1/2)`, and after moving the first collider by that the two still overlap.
* `C94_self_scale_finding` — if the first collider is scaled, the vectors are in its scaled units. A unit box scaled by two and a unit box at `(5/2, 1/4)`: `penetrates` and `sdfv` return `(-1/4, 0)`, half of what is needed: after moving the first by it the two still overlap.
* `C95_f32_underflow_finding` — Finding (underflow): a ball of radius `2^-80` does not collide with its own centre: both squares underflow to zero.
* `C99_rotation_finding` — finding: the rotation of the second box is ignored. A long box turned towards the first one reaches into it, and `collides_rel` answers `false`.
* `C99_sdf_finding` — finding: for two boxes one above the other, with a gap of 1 between them, `sdf_rel` is not 1.

Findings from reading, without a theorem: the `3d` feature does not compile at this commit;
`RoundedBox2d` is not exported; `cylinder3d.rs` is not in the module tree.
