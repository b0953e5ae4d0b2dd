import Verif.Model.Detect2d
import Verif.Model.Utils
import Verif.Model.Tilemap
import Verif.Model.Col3d
import Verif.Model.Dormant

/-!
# Replaying the crate's own tests on the model (no theorems here)

The scalar of the model is instantiated with Lean's machine type `Float32` and the assertions of
`/repo/tests/*.rs`, of the unit tests in `/repo/src` and of the doc examples in `/repo/src/col2d` are written
down one by one (loops as loops).  `tools/replay.sh` evaluates `Replay.result`: the number of assertions and
the names of those that fail.  This checks that the model was transcribed correctly.  It is a test, not a
proof: it is evaluated by the interpreter on the machine's floating point unit, and no theorem depends on
this file.
-/

namespace Auburn.Replay

instance : Zero Float32 := ⟨0.0⟩
instance : One Float32 := ⟨1.0⟩

/-- sign bit -/
def neg? (x : Float32) : Bool := x.toBits >>> 31 == 1

/-- machine `f32` operations as in Rust's `std`; `sin`, `cos`, `atan2` come from the platform's libm -/
instance : FloatExtra Float32 where
  abs := Float32.abs
  fmax a b := if a.isNaN then b else if b.isNaN then a else if a < b then b else a
  fmin a b := if a.isNaN then b else if b.isNaN then a else if b < a then b else a
  signum x := if x.isNaN then x else if neg? x then -1.0 else 1.0
  sqrt := Float32.sqrt
  sin := Float32.sin
  cos := Float32.cos
  atan2 := Float32.atan2
  ofInt i := Float32.ofInt i
  roundI32 x := (Float32.round x).toInt32.toInt
  pi := Float32.ofBits 0x40490FDB
  nan := 0.0 / 0.0
  isNan := Float32.isNaN
  isInfinite := Float32.isInf
  isFinite := Float32.isFinite
  isSignNeg := neg?
  feq a b := a == b
  ltInf x := x < 1.0 / 0.0
  epsilon := Float32.ofBits 0x34000000
  tol := 0.01
  approxTol := 1e-6
  f32Min := Float32.ofBits 0xFF7FFFFF
  half := 0.5
  two := 2.0

abbrev V := V2 Float32
abbrev F := Float32

open ExtremePoint2d Transformation2d Invertible Composable

/-- the recorded failures -/
abbrev R := StateM (Nat × List String)

/-- an assertion: counts it, and records its name if it fails -/
def check (name : String) (b : Bool) : R Unit :=
  modify fun s => (s.1 + 1, if b then s.2 else name :: s.2)

def v (x y : F) : V := ⟨x, y⟩
def eqV (a b : V) : Bool := V2.feq a b
def approxV (a b : V) : Bool := approxEqV2 a b
def approxS (a b : F) : Bool := approxEq a b
def pi2 : F := Float32.ofBits 0x3FC90FDB
def pi4 : F := Float32.ofBits 0x3F490FDB
def pi1 : F := FloatExtra.pi
def sqrt2 : F := Float32.ofBits 0x3FB504F3
def fracSqrt2 : F := Float32.ofBits 0x3F3504F3
/-- `f32::to_radians` -/
def rad (x : F) : F := x * (pi1 / 180.0)
def okB (r : Except Panic Bool) (b : Bool) : Bool := match r with | .ok c => c == b | _ => false
def okV (r : Except Panic (Option V)) (e : Option V) : Bool := match r, e with
  | .ok (some a), some b => eqV a b
  | .ok none, none => true
  | _, _ => false
def isSome (r : Except Panic (Option V)) : Bool := match r with | .ok (some _) => true | _ => false
def okS (r : Except Panic F) (e : F) : Bool := match r with | .ok a => a == e | _ => false
def okSV (r : Except Panic (Bool × V)) (c : Bool) (p : V → Bool) : Bool := match r with
  | .ok (d, w) => d == c && p w | _ => false
def box (x y : F) : Box2d F := ⟨v x y⟩
def pt : Point F := ⟨⟩
def boxPoly (x y : F) : Poly2d F := Poly2d.ofBox (box x y)
def tr (p : V) (r : Rotor2d F) : Transform2d F := ⟨p, r, v 1 1⟩
def quatZ (z w : F) : Rotor2d F := Rotor2d.fromQuaternion ⟨0, 0, z, w⟩
def col {S T : Type} (s : S) (t : T) : Collider2d S T := ⟨s, t⟩
def steps (lo hi : F) (n : Nat) : List F :=
  (List.range n).map fun (i : Nat) => lo + (Float32.ofInt (i : Int) / Float32.ofInt n) * (hi - lo)

/-! ## tests/collision_box2d.rs -/

/-- four corners of a collider -/
def corners {T : Type} [Transformation2d T F] (name : String) (c : Collider2d (Box2d F) T) (eq : V → V → Bool) (pp pn np nn : V) : R Unit := do
  check name (eq pp (extremePoint c (v 1 1)))
  check name (eq pn (extremePoint c (v 1 (-1))))
  check name (eq np (extremePoint c (v (-1) 1)))
  check name (eq nn (extremePoint c (v (-1) (-1))))

def box2d : R Unit := do
  let b := box 2 1
  corners "local_extreme_points" (col b (IdentityTransform.mk : IdentityTransform F)) eqV (v 2 1) (v 2 (-1)) (v (-2) 1) (v (-2) (-1))
  corners "extreme_points_translate2d" (col b (v 0.5 0.5)) eqV (v 2.5 1.5) (v 2.5 (-0.5)) (v (-1.5) 1.5) (v (-1.5) (-0.5))
  corners "extreme_points_transform2d_rotate" (col b (tr (v 0 0) (Rotor2d.fromAngle pi2))) approxV (v 1 2) (v 1 (-2)) (v (-1) 2) (v (-1) (-2))
  corners "extreme_points_transform2d_rotate_from_quat"
    (col b (tr (v 0 0) (quatZ (Float32.sin (pi2 * 0.5)) (Float32.cos (pi2 * 0.5))))) approxV (v 1 2) (v 1 (-2)) (v (-1) 2) (v (-1) (-2))
  corners "extreme_points_transform2d_rotate_translate" (col b (tr (v 0.5 0.5) (Rotor2d.fromAngle pi2))) approxV
    (v 1.5 2.5) (v 1.5 (-1.5)) (v (-0.5) 2.5) (v (-0.5) (-1.5))
  let y1 := v 0 0
  let y2 := v 1.5 0
  let y3 := v 0 (-0.5)
  let n := [v 3 0, v 0 2, v (-3) 0, v 0 (-2), v (-2.1) 1.1]
  for y in [y1, y2, y3] do
    check "point_v_box_collides" (okB (collidesRel b pt y) true)
    check "point_v_box_collides" (okB (collidesRel pt b y) true)
  for y in n do
    check "point_v_box_collides" (okB (collidesRel b pt y) false)
    check "point_v_box_collides" (okB (collidesRel pt b y) false)
  check "point_v_box_penetrates" (isSome (penetratesRel b pt y1))
  check "point_v_box_penetrates" (isSome (penetratesRel pt b y1))
  check "point_v_box_penetrates" (okV (penetratesRel b pt y2) (some (v (-0.5) 0)))
  check "point_v_box_penetrates" (okV (penetratesRel pt b y2) (some (v (-0.5) 0)))
  check "point_v_box_penetrates" (okV (penetratesRel b pt y3) (some (v 0 0.5)))
  check "point_v_box_penetrates" (okV (penetratesRel pt b y3) (some (v 0 0.5)))
  for y in n do
    check "point_v_box_penetrates" (okV (penetratesRel b pt y) none)
    check "point_v_box_penetrates" (okV (penetratesRel pt b y) none)
  check "point_v_box_sdf" (okS (SdfRel2d.sdfRel b pt y1) (-1))
  check "point_v_box_sdf" (okS (SdfRel2d.sdfRel b pt y2) (-0.5))
  for y in n.take 4 do
    check "point_v_box_sdf" (okS (SdfRel2d.sdfRel b pt y) 1)
  check "point_v_box_sdf" (match SdfRel2d.sdfRel b pt (v (-2.1) 1.1) with
    | .ok s => (s - 0.1414213).abs ≤ 0.1414214 * FloatExtra.epsilon | _ => false)
  let h := box 0.5 0.5
  check "box_v_box_no_collision" (okB (collidesRel h h (v 2 0)) false)
  check "box_v_box_no_collision" (okV (penetratesRel h h (v 2 0)) none)
  check "box_v_box_perfect_overlap" (okB (collidesRel h h (v 0 0)) true)
  check "box_v_box_perfect_overlap" (isSome (penetratesRel h h (v 0 0)))
  for i in [1, 2, 3, 4, 5, 6, 7, 8, 9] do
    for z in [(0.0 : F), -0.0] do
      let d := v (Float32.ofInt i / 10.0) z
      check "box_v_box_collision" (okB (collidesRel h h d) true)
      check s!"box_v_box_collision {i}" (okV (penetratesRel h h d) (some (d - v 1 0)))

/-- `box_box_transform2d_distance_bounds_check`, tests/common.rs -/
def bounds (name : String) (a b : Collider2d (Box2d F) (Transform2d F)) : R Unit := do
  match sdfv a b with
  | .error _ => check name false
  | .ok (c, w) =>
    let distance := (if c then -1.0 else 1.0) * w.length
    let between := (applyOrigin a.transform - applyOrigin b.transform).length
    let d := scalingFactor a.transform
    let lo (s : Box2d F) := d * FloatExtra.fmin s.halfsize.x s.halfsize.y
    let hi (s : Box2d F) := d * s.halfsize.length
    check name (distance ≥ between - (hi a.shape + hi b.shape))
    check name (distance ≤ between - (lo a.shape + lo b.shape))

def randomCase (name : String) (z1 w1 x y z2 w2 : F) (c : Bool) (p : F → Bool) : R Unit := do
  let a := col (box 0.5 0.5) (tr (v 0 0) (quatZ z1 w1))
  let b := col (box 0.5 0.5) (tr (v x y) (quatZ z2 w2))
  check name (okSV (sdfv a b) c fun w => p w.length)
  bounds name a b

def boxRandom : R Unit := do
  check "poly_from_box_v_poly_from_box_collision_random_case_1" <|
    okSV (sdfv (col (boxPoly 0.5 0.5) (tr (v 0 0) (quatZ (-0.49225292) 0.8704522)))
      (col (boxPoly 0.5 0.5) (tr (v 0.9166665 (-0.73611116)) (quatZ (-0.36250287) 0.93198246)))) false
      fun w => w.length < 0.1
  randomCase "random_case_1" (-0.49225292) 0.8704522 0.9166665 (-0.73611116) (-0.36250287) 0.93198246 false (· < 0.1)
  randomCase "random_case_2" (-0.97009665) (-0.24271953) (-0.2638891) (-0.4861111) (-0.8197918) (-0.5726604) true fun _ => true
  randomCase "random_case_3" (-0.27712706) 0.96083343 1.6249996 0.80555564 (-0.25829336) 0.9660661 false fun _ => true
  randomCase "random_case_4" 0.07703778 0.9970285 8.097223 0.43055537 0.052785538 0.9986058 false fun d => d > 7.0 && d < 7.1
  randomCase "random_case_5" 0.53144556 0.8470897 2.7638893 (-0.097222336) 0.62631613 0.77956754 false (· > 1)
  randomCase "random_case_6" (-0.29803792) 0.9545537 (-1.1249999) (-2.1527781) (-0.25837365) 0.96604484 false (· > 1)
  randomCase "random_case_7" (-0.045578003) 0.9989599 7.291667 0.3611112 (-0.035485897) 0.99936825 false (· > 1)
  for offset in steps 0 sqrt2 100 do
    let padding : F := 0.0125
    let b := col (box 0.5 0.5) (tr (v (offset + padding) (sqrt2 - offset + padding)) (Rotor2d.fromAngle pi4))
    check "diamond_with_offset" (okSV (sdfv (col (box 0.5 0.5) (tr (v 0 0) (Rotor2d.fromAngle pi4))) b) false
      fun w => approxEqTolV2 w (v padding padding) 10e-6)
    check "diamond_with_offset_mod1" (okSV (sdfv (col (box 0.5 0.5) (tr (v 0 0) (Rotor2d.fromAngle (pi4 + 0.002)))) b) false
      fun w => approxEqTolV2 w (v padding padding) 10e-1)
  for (x, e) in [(5.0, false), (4.5, false), (4, false), (3.5, false), (3, false), (2.5, false), (2, false), (1.5, true), (1, true),
      (0.5, true), (0, true), (-0.5, true), (-1, true), (-1.5, true), (-2, false), (-2.5, false), (-3, false), (-3.5, false),
      (-4, false), (-4.5, false), (-5, false)] do
    check "collision_x" (okB (collides (col (box 1 1) (Translate2d.mk (v 0 0))) (col (box 1 1) (Translate2d.mk (v x 0)))) e)
  check "box_v_point_case_1" (okSV (sdfv (col pt Transform2d.identity) (col (box 0.5 0.5) (tr (v 1 0) Rotor2d.identity))) false
    fun w => approxV w (v 0.5 0))
  check "box_v_point_case_2" (okSV (sdfv (col pt Transform2d.identity) (col (box 0.5 0.5) (tr (v 1 0) (Rotor2d.fromAngle pi4)))) false
    fun w => approxV w (v (1.0 - fracSqrt2) 0))

/-! ## tests/collision_poly2d_v_poly2d.rs -/

def xs : List (F × Bool) := [(5.0, false), (4.5, false), (4, false), (3.5, false), (3, false), (2.5, false), (2.001, false),
  (1.999, true), (1.5, true), (1, true), (0.5, true), (0, true), (-0.5, true), (-1, true), (-1.5, true), (-1.999, true),
  (-2.001, false), (-2.5, false), (-3, false), (-3.5, false), (-4, false), (-4.5, false), (-5, false)]

def p1 : Poly2d F := boxPoly 1 1

def polyPoly : R Unit := do
  for (x, e) in xs do
    for diag in [false, true] do
      let off := v x (if diag then x else 0)
      check s!"poly collision {diag} {x}" (okB (collides (col p1 (Translate2d.mk (v 0 0))) (col p1 (Translate2d.mk off))) e)
      for a in [(0.0 : F), 90, 180, 270] do
        for b in [(0.0 : F), 90, 180, 270] do
          check s!"poly collision rotated {diag} {x} {a} {b}" (okB (collides (col p1 (tr (v 0 0) (Rotor2d.fromAngle (rad a))))
            (col p1 (tr off (Rotor2d.fromAngle (rad b))))) e)
  for i in List.range 21 do
    let x : F := 5 - Float32.ofInt i / 2
    let apart : Bool := 2 ≤ x.abs
    let d : F := if x < 0 then x + 2 else x - 2
    let push : F := if x < 0 then x + 2 else x - 2
    let a := col p1 (Translate2d.mk (v 0 0))
    let bx := col p1 (Translate2d.mk (v x 0))
    let bd := col p1 (Translate2d.mk (v x x))
    check s!"distance_to_x {x}" (okV (distanceTo a bx) (if apart then some (v d 0) else none))
    check s!"distance_to_diag {x}" (okV (distanceTo a bd) (if apart then some (v d d) else none))
    check s!"sdfv_x {x}" (okSV (sdfv a bx) (!apart) (eqV · (if apart then v d 0 else v push 0)))
    check s!"sdfv_diag {x}" (okSV (sdfv a bd) (!apart) (eqV · (if apart then v d d else v push 0)))
  let tri : Poly2d F := Poly2d.regularUpright 3 1
  let bb := col (box 0.5 0.5) (Transform2d.identity : Transform2d F)
  check "triangle_v_box_case_1" (okSV (sdfv bb (col tri (tr (v (-0.88888913) 0.56944436) Rotor2d.identity))) true
    (approxV · (v 0 (-0.4305557))))
  check "triangle_v_box_case_2" (okSV (sdfv bb (col tri (tr (v (-0.013888678) (-0.13888897)) Rotor2d.identity))) true
    (approxV · (v 0.95396185 0.55077016)))
  check "triangle_v_box_case_3" (okSV (sdfv bb (col tri (tr (v 0 (-0.097222336)) Rotor2d.identity))) true
    (approxV · (v 0 (-1.0972223))))
  for offset in steps 2 0.5 100 do
    for x in [(0.0 : F), 0.01] do
      check s!"upright_triangle_v_box_descend {x} {offset}" (match sdfv bb (col tri (tr (v x offset) Rotor2d.identity)) with
        | .ok (_, w) => approxEqTolV2 w (v 0 (offset - 1)) 10e-5 | _ => false)

/-! ## tests/collision_box2d_v_ball2d.rs -/

def boxBall : R Unit := do
  let t1 := tr (v 0 0) (quatZ (-0.49225292) 0.8704522)
  let t2 := tr (v 0.9166665 (-0.73611116)) (quatZ (-0.36250287) 0.93198246)
  let ball : Ball F := ⟨0.5⟩
  check "box_v_ball_case_1" (okSV (sdfv (col (box 0.5 0.5) t1) (col ball t2)) false fun w => w.length < 0.15)
  check "ball_v_box_case_1" (okSV (sdfv (col ball t1) (col (box 0.5 0.5) t2)) false fun w => w.length < 0.18)
  check "ball_v_box_case_2" (okSV (sdfv (col ball Transform2d.identity) (col (box 0.5 0.5) (Transform2d.fromTranslation (v 0.7361116 1.041667)))) false
    fun w => w.length < 0.18)

/-! ## tests/transform2d.rs -/

def points : List V := [v 0 0, v 1 0, v 1 1, v 0 1, v 0.5 0.5, v 0.5 0, v 0 0.5, v 0.5 1, v 1 0.5, v 0.25 0.25, v 0.75 0.25,
  v 0.75 0.75, v 0.25 0.75, v 0.25 0.5, v 0.5 0.25, v 0.75 0.5, v 0.5 0.75]

def eqT (a b : Transform2d F) : Bool := eqV a.pos b.pos && eqV a.rot.a b.rot.a && eqV a.scale b.scale

def transforms : R Unit := do
  let i : Transform2d F := Transform2d.identity
  check "identity_compose" (eqT (compose i i) i)
  check "identity_inverse" (eqT (inverse i) i)
  for p in points do
    check "identity_apply" (eqV (applyOrigin i) 0 && eqV (apply i p) p && eqV (unapply i p) p && eqV (applyNormal i p) p &&
      eqV (unapplyNormal i p) p)
    check "translate_inverse" (eqV (applyOrigin (inverse (Transform2d.fromTranslation p))) (-p))
    check "translate_compose_1" (eqT (compose (Transform2d.fromTranslation p) (Transform2d.fromTranslation (-p))) i)
    for q in points do
      check "translate_compose_2" (eqV (applyOrigin (compose (Transform2d.fromTranslation p) (Transform2d.fromTranslation q))) (p + q))
    check "rotate_90_apply" (approxV (apply (Transform2d.fromAngle pi2) p) (v (-p.y) p.x))
    check "rotate_180_apply" (approxV (apply (Transform2d.fromAngle pi1) p) (v (-p.x) (-p.y)))
    check "rotate_270_apply" (approxV (apply (Transform2d.fromAngle (pi1 + pi2)) p) (v p.y (-p.x)))
    check "rotate_90_unapply" (approxV (unapply (Transform2d.fromAngle pi2) p) (v p.y (-p.x)))
    check "rotate_180_unapply" (approxV (unapply (Transform2d.fromAngle pi1) p) (v (-p.x) (-p.y)))
    check "rotate_270_unapply" (approxV (unapply (Transform2d.fromAngle (pi1 + pi2)) p) (v (-p.y) p.x))
  let b := (Transform2d.fromTranslation (v 0 3)).withAngle pi2
  check "delta_transform_1" (eqT (deltaTransform i b) b)

/-! ## tests/collider2d.rs -/

def colliders : R Unit := do
  let s := box 1 1
  let dirs : List (V × V) := [(v 1 0, v 1 1), (v 0 1, v 1 1), (-v 1 0, v (-1) (-1)), (-v 0 1, v (-1) (-1)), (v (-1) (-1), v (-1) (-1)),
    (v (-1) 1, v (-1) 1), (v 1 (-1), v 1 (-1)), (v 1 1, v 1 1)]
  let ts := [v 1 0, v 0 1, v (-1) 0, v 0 (-1)]
  for (d, e) in dirs do
    check "collider2d_box" (eqV (extremePoint s d) e)
    for t in ts do
      check "collider2d_box_translate" (eqV (extremePoint (col s (Translate2d.mk t)) d) (t + e))
  for a in [pi4, pi2 + pi4, pi1 + pi4, pi2 * 3 + pi4] do
    let c := col s (Transform2d.fromRotation (Rotor2d.fromAngle a))
    check "collider2d_box_rotate_45" (approxV (extremePoint c (v 1 0)) (v sqrt2 0))
    check "collider2d_box_rotate_45" (approxV (extremePoint c (v 0 1)) (v 0 sqrt2))
    check "collider2d_box_rotate_45" (approxV (extremePoint c (-v 1 0)) (v (-sqrt2) 0))
    check "collider2d_box_rotate_45" (approxV (extremePoint c (-v 0 1)) (v 0 (-sqrt2)))
  for a in [0.0, pi2, pi1, pi2 * 3] do
    for t in v 0 0 :: ts do
      let c := col s ((Transform2d.fromRotation (Rotor2d.fromAngle a)).withTranslation t)
      let n := "collider2d_box_rotate_translate"
      check n (approxS (extremePoint c (v 1 0)).x (t.x + 1))
      check n (approxS (extremePoint c (v 0 1)).y (t.y + 1))
      check n (approxS (extremePoint c (-v 1 0)).x (t.x + -1))
      check n (approxS (extremePoint c (-v 0 1)).y (t.y + -1))
      for e in [v (-1) (-1), v (-1) 1, v 1 (-1), v 1 1] do
        check n (approxV (extremePoint c e) (t + e))

/-! ## unit tests of src/col2d: transformation2d/mod.rs, bevy_transform.rs, poly2d/mod.rs, shape/mod.rs,
tilemap.rs, local_minkowski_diff/mod.rs, minkowski_diff/mod.rs, ellipse2d.rs -/

/-- `Quat::from_rotation_z` of glam -/
def rotZ (a : F) : Quat F := ⟨0, 0, Float32.sin (a * 0.5), Float32.cos (a * 0.5)⟩

def units : R Unit := do
  let rot (a : F) (w : V) : V := (Rotor2d.fromAngle a).rotate w
  let inv (a : F) (w : V) : V := (Rotor2d.fromAngle a).inverse.rotate w
  let x := v 1 0
  let y := v 0 1
  for (a, e, f) in [(0.0, x, x), (pi2, y, -y), (pi1, -x, -x), (pi1 + pi2, -y, y)] do
    check "test_rotor2d_x" (approxV (rot a x) e)
    check "test_rotor2d_x_inverse" (approxV (inv a x) f)
  check "test_rotor2d_x1_y1_90deg" (approxV (rot pi2 (v 1 1)) (v (-1) 1))
  for i in List.range 360 do
    let a : F := Float32.ofInt (i : Int) * pi1 / 180.0
    check s!"test_from_quaternion {i}" (approxV (Rotor2d.fromAngle a).a (Rotor2d.fromQuaternion (rotZ a)).a)
  let bevy (p : V3 F) : BevyTransform F := ⟨p, ⟨0, 0, 0, 1⟩, ⟨1, 1, 1⟩⟩
  check "test_bevy_transform" (eqV (Transform2d.ofBevy (bevy ⟨1, 2, 0⟩)).pos (v 1 2))
  check "bevy box_v_box_collision_random_case_1" (okSV (sdfv (col (box 0.5 0.5) (bevy ⟨0, 0, 0⟩)) (col (box 0.5 0.5) (bevy ⟨2, 0, 0⟩)))
    false fun w => w.length == 1)
  let a := v (-1) (-1)
  let b := v 1 (-1)
  let c := v (-1) 2
  let tri : Poly2d F := ⟨[a, b, c]⟩
  check "triangle strict_check" tri.strictCheck
  for (d, e) in [(x, b), (v 1 1, c), (y, c), (v (-1) 1, c), (v (-1) (-1), a), (v 1 (-1), b)] do
    check "triangle_extreme_points" (eqV e (extremePoint tri d))
  let ub : Poly2d F := ⟨[v 0 0, v 0 1, v 1 1, v 1 0]⟩
  for (d, e) in [(v (-1) (-1), v 0 0), (v 1 (-1), x), (v 1 1, v 1 1), (v (-1) 1, y)] do
    check "unit_box_extreme_points" (eqV e (extremePoint ub d))
  let s : Shape2d F := .ball ⟨1⟩
  check "test_shape_extreme_point" (eqV (extremePoint s x) x)
  check "test_collider_extreme_point" (eqV (extremePoint (col s x) x) (v 2 0))
  check "test_collider_v_collider" (okB (collides (col s x) (col s x)) true)
  let m := Tilemap.default.setTile ⟨3, 2⟩ 1
  check "serialize_tilemap" ((Tilemap.deserialize m.serialize).chunks.length == m.chunks.length)
  check "serialize_tilemap tile" ((Tilemap.deserialize m.serialize).getTile ⟨3, 2⟩ == 1)
  -- local_minkowski_diff and minkowski_diff
  for ang in [(0.0 : F), 90] do
    let ta := tr (v 0 0) (Rotor2d.fromAngle (rad 0))
    let tb := tr (v 3 0) (Rotor2d.fromAngle (rad ang))
    let rel := deltaTransform ta tb
    let lb := extremePoint (LocalMinkowskiDiff2d.mk (box 1 1) (box 1 1) rel) (unapplyNormal ta x)
    let lp := extremePoint (LocalMinkowskiDiff2d.mk p1 p1 rel) (unapplyNormal ta x)
    if ang == 0 then
      check "local case_1_box" ((applyNormal ta lb).x == -1)
      check "local case_1_poly" ((applyNormal ta lp).x == -1)
    else
      let gt := extremePoint (col (box 1 1) ta) x - extremePoint (col (box 1 1) tb) (-x)
      check "local ground_truth_check_1" (approxV gt (apply ta lb))
    let db := extremePoint (MinkowskiDiff2d.fromColliders (col (box 1 1) ta) (col (box 1 1) tb)) x
    let dp := extremePoint (MinkowskiDiff2d.fromColliders (col p1 ta) (col p1 tb)) x
    check s!"minkowski_diff case box {ang} {db.x}" (db.x == -1)
    check s!"minkowski_diff case poly {ang} {dp.x}" (dp.x == -1)
  let e : Ellipse2d F := ⟨v 2 0.5⟩
  for (d, w) in [(x, v 2 0), (y, v 0 0.5), (-x, v (-2) 0), (-y, v 0 (-0.5))] do
    check "test_ellipse_extreme_point" (eqV (extremePoint e d) w)
    check "test_extreme_point_compose" (eqV (e.extremePointByComposing d) w)
    check "test_extreme_point_expanded" (eqV (e.extremePointExpanded d) w)

/-! ## doc examples of src/col2d -/

def docs : R Unit := do
  let b := box 1 1
  let one : Ball F := ⟨1⟩
  let t (x : F) := Translate2d.mk (v x 0)
  check "sdf_rel" (okS (SdfRel2d.sdfRel one one (t 1)) (-1))
  check "sdf" (okS (sdf (col one (v 0 0)) (col one (v 1 0))) (-1))
  check "sdfv_rel" (okSV (sdfvRel b b (t 1)) true (eqV · (v (-1) 0)))
  check "sdfv" (okSV (sdfv (col b (v 0 0)) (col b (v 1 0))) true (eqV · (v (-1) 0)))
  check "distance_to_rel" (okV (distanceToRel b b (t 1)) none)
  check "distance_to_rel" (okV (distanceToRel b b (t 3)) (some (v 1 0)))
  check "distance_to" (okV (distanceTo (col b (v 0 0)) (col b (v 1 0))) none)
  check "distance_to" (okV (distanceTo (col b (v 0 0)) (col b (v 3 0))) (some (v 1 0)))
  check "extreme_point" (eqV (extremePoint (Ball.mk (2 : F)) (v 1 0)) (v 2 0))
  check "extreme_point_t" (eqV (ExtremePointT2d.extremePointT (Ball.mk (2 : F)) (t 1) (v 1 0)) (v 3 0))
  check "collides_rel" (okB (collidesRel b b (t 1)) true)
  check "collides" (okB (collides (col b (v 0 0)) (col b (v 1 0))) true)
  check "penetrates_rel" (okV (penetratesRel b b (t 1)) (some (v (-1) 0)))
  check "penetrates" (okV (penetrates (col b (v 0 0)) (col b (v 1 0))) (some (v (-1) 0)))
  check "symmetric_bounding_box" (eqV one.boundingBox.halfsize (v 1 1))

/-! ## unit tests of src/col3d: box3d.rs, transform3d.rs, isotropic3d.rs -/

def eq3 (a b : V3 F) : Bool := V3.feq a b
def okV3 (r e : Option (V3 F)) : Bool := match r, e with
  | some a, some b => eq3 a b
  | none, none => true
  | _, _ => false

def col3d : R Unit := do
  let b : Box3d F := ⟨⟨2, 1, 3⟩⟩
  let w (x y : F) : V3 F := ⟨x, y, 0⟩
  let n := [w 3 0, w 0 2, w (-3) 0, w 0 (-2), w (-2.1) 1.1]
  for y in [w 0 0, w 1.5 0, w 0 (-0.5)] do
    check "3d point_v_box_collides" (CollidesRel3d.collidesRel b pt y)
    check "3d point_v_box_collides" (CollidesRel3d.collidesRel pt b y)
  for y in n do
    check "3d point_v_box_collides" (!CollidesRel3d.collidesRel b pt y)
    check "3d point_v_box_collides" (!CollidesRel3d.collidesRel pt b y)
    check "3d point_v_box_penetrates" (okV3 (PenetratesRel3d.penetratesRel b pt y) none)
    check "3d point_v_box_penetrates" (okV3 (PenetratesRel3d.penetratesRel pt b y) none)
  check "3d point_v_box_penetrates" (PenetratesRel3d.penetratesRel b pt (w 0 0)).isSome
  check "3d point_v_box_penetrates" (PenetratesRel3d.penetratesRel pt b (w 0 0)).isSome
  for (y, e) in [(w 1.5 0, w (-0.5) 0), (w 0 (-0.5), w 0 0.5)] do
    check "3d point_v_box_penetrates" (okV3 (PenetratesRel3d.penetratesRel b pt y) (some e))
    check "3d point_v_box_penetrates" (okV3 (PenetratesRel3d.penetratesRel pt b y) (some e))
  for (y, e) in [(w 0 0, (-1 : F)), (w 1.5 0, -0.5), (w 3 0, 1), (w 0 2, 1), (w (-3) 0, 1), (w 0 (-2), 1)] do
    check "3d point_v_box_sdf" (SdfRel3d.sdfRel b pt y == e)
  check "3d point_v_box_sdf" ((SdfRel3d.sdfRel b pt (w (-2.1) 1.1) - 0.1414213).abs ≤ 0.1414214 * FloatExtra.epsilon)
  let t : Transform3d F := ⟨⟨1, 2, 3⟩, ⟨Float32.sin 0.25, 0, 0, Float32.cos 0.25⟩, ⟨1, 1, 1⟩⟩
  check "transform3d test_inverse" (approxEqV3 (Transformation3d.apply t ⟨1, 2, 3⟩) (Transformation3d.unapply (inverse t) ⟨1, 2, 3⟩))
  let t1 : Isotropic3d F := ⟨⟨1, 2, 3⟩, ⟨0, 0, 0, 1⟩, 2⟩
  let t2 : Isotropic3d F := ⟨⟨4, 5, 6⟩, ⟨0, 0, 0, 1⟩, 3⟩
  let t21 : Isotropic3d F := ⟨⟨7, 11, 15⟩, ⟨0, 0, 0, 1⟩, 6⟩
  let c := compose t2 t1
  check "isotropic3d test_compose" (eq3 c.pos t21.pos && c.scale == t21.scale && c.rot.x == 0 && c.rot.y == 0 && c.rot.z == 0 && c.rot.w == 1)
  check "t1_origin" (eq3 (Transformation3d.applyOrigin t1) ⟨1, 2, 3⟩)
  for (p, e1, e2, e21) in [((⟨1, 0, 0⟩ : V3 F), (⟨3, 2, 3⟩ : V3 F), (⟨7, 5, 6⟩ : V3 F), (⟨13, 11, 15⟩ : V3 F)),
      (⟨0, 1, 0⟩, ⟨1, 4, 3⟩, ⟨4, 8, 6⟩, ⟨7, 17, 15⟩), (⟨0, 0, 1⟩, ⟨1, 2, 5⟩, ⟨4, 5, 9⟩, ⟨7, 11, 21⟩),
      (⟨1, 1, 1⟩, ⟨3, 4, 5⟩, ⟨7, 8, 9⟩, ⟨13, 17, 21⟩)] do
    check "t1" (eq3 (Transformation3d.apply t1 p) e1)
    check "t2" (eq3 (Transformation3d.apply t2 p) e2)
    check "t2_t1" (eq3 (Transformation3d.apply t2 (Transformation3d.apply t1 p)) e21)
    check "t2_t1_compose" (eq3 (Transformation3d.apply c p) e21)
    check "t2_t1_expected" (eq3 (Transformation3d.apply t21 p) e21)
  -- `Quat::from_axis_angle` of glam: `axis * sin (angle / 2)`, `cos (angle / 2)`
  let quat (x y z a : F) : Quat F :=
    let s := Float32.sin (a * 0.5)
    ⟨x * s, y * s, z * s, Float32.cos (a * 0.5)⟩
  let l : F := Float32.sqrt 14
  let ti : Isotropic3d F := ⟨⟨1, 2, 3⟩, quat (1 / l) (2 / l) (3 / l) 2.1, 2⟩
  check "isotropic3d test_inverse_match" (approxEqV3 ⟨4, 5, 6⟩ (Transformation3d.apply (inverse ti) (Transformation3d.apply ti ⟨4, 5, 6⟩)))

def all : R Unit := do
  box2d; boxRandom; polyPoly; boxBall; transforms; colliders; units; docs; col3d

/-- number of assertions and the failed ones -/
def result : Nat × List String := (all.run (0, [])).2

end Auburn.Replay
