import Verif.Model.Transform2d

/-!
# 2D shapes, extreme points and bounding boxes
-/

namespace Auburn

/-- trait `ExtremePoint2d`, detection/extreme_point.rs:6-17 -/
class ExtremePoint2d (S : Type) (F : outParam Type) where
  extremePoint : S → V2 F → V2 F

/-- trait `ExtremePointT2d`, detection/extreme_point.rs:20-41 -/
class ExtremePointT2d (S T : Type) (F : outParam Type) where
  extremePointT : S → T → V2 F → V2 F

/-- `Ball`, col/ball.rs:3-7 -/
@[ext] structure Ball (F : Type) where
  radius : F
  deriving DecidableEq, Repr

/-- `Point`, col/point.rs:3-5 (`F` is a phantom parameter) -/
structure Point (F : Type) where
  deriving DecidableEq, Repr

/-- `Box2d`, box2d/mod.rs:6-11 -/
@[ext] structure Box2d (F : Type) where
  halfsize : V2 F
  deriving DecidableEq, Repr

/-- `RoundedBox2d`, rounded_box2d/mod.rs:5-9 -/
@[ext] structure RoundedBox2d (F : Type) where
  halfsize : V2 F
  radius : F
  deriving DecidableEq, Repr

/-- `Poly2d`, poly2d/mod.rs:7-13 -/
@[ext] structure Poly2d (F : Type) where
  points : List (V2 F)
  deriving DecidableEq, Repr

/-- `Shape2d`, shape/mod.rs:24-53: `shape_union!(Shape2d; Ball, Box2d, Poly2d)` -/
inductive Shape2d (F : Type) where
  | ball (b : Ball F)
  | box (b : Box2d F)
  | poly (p : Poly2d F)
  deriving DecidableEq, Repr

section
variable {F : Type} [Zero F] [One F] [Add F] [Sub F] [Mul F] [Div F] [Neg F]
  [LT F] [LE F] [DecidableLT F] [DecidableLE F] [FloatExtra F]

open ExtremePoint2d Transformation2d

/-- the default body of `ExtremePointT2d::extreme_point_t`, detection/extreme_point.rs:31-40 -/
def extremePointTDefault {S T : Type} [ExtremePoint2d S F] [Transformation2d T F]
    (s : S) (t : T) (direction : V2 F) : V2 F :=
  let localDirection := unapplyNormal t direction
  let localExtremePoint := extremePoint s localDirection
  apply t localExtremePoint

/-! ## Ball -/

/-- `Ball::extreme_point`, ball2d/mod.rs:15-19 -/
instance : ExtremePoint2d (Ball F) F where
  extremePoint b d := V2.scale b.radius d.normalizeOrZero

/-- `Ball::extreme_point_t`, ball2d/mod.rs:21-25 -/
instance {T : Type} [Transformation2d T F] : ExtremePointT2d (Ball F) T F where
  extremePointT b t d := applyOrigin t + V2.scale (scalingFactor t) (extremePoint b d)

/-! ## Point -/

/-- `Point::extreme_point`, point2d.rs:9-13 -/
instance : ExtremePoint2d (Point F) F where
  extremePoint _ _ := 0

/-- `Point::extreme_point_t`, point2d.rs:15-19 -/
instance {T : Type} [Transformation2d T F] : ExtremePointT2d (Point F) T F where
  extremePointT _ t _ := applyOrigin t

/-! ## Box2d -/

/-- `Box2d::cover`, box2d/mod.rs:20-25 -/
def Box2d.cover (b : Box2d F) (p : V2 F) : Box2d F :=
  ⟨⟨FloatExtra.fmax b.halfsize.x (FloatExtra.abs p.x),
    FloatExtra.fmax b.halfsize.y (FloatExtra.abs p.y)⟩⟩

/-- `Box2d::extreme_point`, box2d/mod.rs:34-41 -/
instance : ExtremePoint2d (Box2d F) F where
  extremePoint b d :=
    ⟨FloatExtra.signum d.x * b.halfsize.x, FloatExtra.signum d.y * b.halfsize.y⟩

/-- `impl ExtremePointT2d for Box2d` (default body), box2d/mod.rs:43 -/
instance {T : Type} [Transformation2d T F] : ExtremePointT2d (Box2d F) T F where
  extremePointT := extremePointTDefault

/-! ## RoundedBox2d -/

/-- `RoundedBox2d::box_part`, rounded_box2d/mod.rs:16-18 -/
def RoundedBox2d.boxPart (r : RoundedBox2d F) : Box2d F := ⟨r.halfsize⟩

/-- `RoundedBox2d::extreme_point`, rounded_box2d/mod.rs:27-33 -/
instance : ExtremePoint2d (RoundedBox2d F) F where
  extremePoint r d :=
    extremePoint (Ball.mk r.radius) d + extremePoint (Box2d.mk r.halfsize) d

/-! ## Poly2d -/

/-- one step of the fold in `Poly2d::extreme_point`, poly2d/mod.rs:92-99 -/
def Poly2d.extremeStep (direction : V2 F) (acc : F × V2 F) (p : V2 F) : F × V2 F :=
  let score := direction.dot p
  if score > acc.1 then (score, p) else acc

/-- `Poly2d::extreme_point`, poly2d/mod.rs:85-105 -/
instance : ExtremePoint2d (Poly2d F) F where
  extremePoint s d := (s.points.foldl (Poly2d.extremeStep d) (FloatExtra.f32Min, 0)).2

/-- `impl ExtremePointT2d for Poly2d` (default body), poly2d/mod.rs:107 -/
instance {T : Type} [Transformation2d T F] : ExtremePointT2d (Poly2d F) T F where
  extremePointT := extremePointTDefault

/-- the angle of vertex `i`, poly2d/mod.rs:28 -/
def Poly2d.regularAngle (sides i : Nat) : F :=
  FloatExtra.two * FloatExtra.pi * FloatExtra.ofInt i / FloatExtra.ofInt sides

/-- `Poly2d::regular`, poly2d/mod.rs:25-33 -/
def Poly2d.regular (sides : Nat) (radius : F) : Poly2d F :=
  ⟨(List.range sides).map fun i =>
    V2.scale radius ⟨FloatExtra.cos (regularAngle sides i), FloatExtra.sin (regularAngle sides i)⟩⟩

/-- `Poly2d::regular_upright`, poly2d/mod.rs:35-42 -/
def Poly2d.regularUpright (sides : Nat) (radius : F) : Poly2d F :=
  ⟨(List.range sides).map fun i =>
    V2.scale radius ⟨FloatExtra.sin (regularAngle sides i), FloatExtra.cos (regularAngle sides i)⟩⟩

/-- `Poly2d::strict_check`, poly2d/mod.rs:52-54 -/
def Poly2d.strictCheck (s : Poly2d F) : Bool :=
  s.points.all fun p => V2.feq (extremePoint s p) p

/-- `From<Box2d> for Poly2d`, poly2d/mod.rs:57-72 -/
def Poly2d.ofBox (b : Box2d F) : Poly2d F :=
  let mn := -b.halfsize
  let mx := b.halfsize
  ⟨[mn, mx, ⟨mn.x, mx.y⟩, ⟨mx.x, mn.y⟩]⟩

/-! ## Shape2d -/

/-- `Shape2d::extreme_point`, shape/mod.rs:36-44 -/
instance : ExtremePoint2d (Shape2d F) F where
  extremePoint s d := match s with
    | .ball b => extremePoint b d
    | .box b => extremePoint b d
    | .poly p => extremePoint p d

/-- `impl ExtremePointT2d for Shape2d` (default body), shape/mod.rs:46 -/
instance {T : Type} [Transformation2d T F] : ExtremePointT2d (Shape2d F) T F where
  extremePointT := extremePointTDefault

/-! ## Bounding boxes: trait `SymmetricBoundingBox2d`, col2d/mod.rs:39-54 -/

/-- ball2d/mod.rs:9-13 -/
def Ball.boundingBox (b : Ball F) : Box2d F := ⟨⟨b.radius, b.radius⟩⟩
/-- box2d/mod.rs:28-32 -/
def Box2d.boundingBox (b : Box2d F) : Box2d F := b
/-- rounded_box2d/mod.rs:21-25 -/
def RoundedBox2d.boundingBox (r : RoundedBox2d F) : Box2d F :=
  ⟨⟨r.halfsize.x + r.radius, r.halfsize.y + r.radius⟩⟩
/-- point2d.rs:3-7 -/
def Point.boundingBox (_ : Point F) : Box2d F := ⟨⟨0, 0⟩⟩
/-- poly2d/mod.rs:74-83 -/
def Poly2d.boundingBox (s : Poly2d F) : Box2d F := s.points.foldl Box2d.cover ⟨⟨0, 0⟩⟩

end

end Auburn
