import Verif.Model.Minkowski

/-!
# Pair queries: `detection/*`, `collider2d.rs`, `shape/*/v_*.rs`, `shape/point2d.rs`
-/

namespace Auburn

/-- trait `SdfvCommonRel2d<COMPUTE_PENETRATION, COMPUTE_DISTANCE, B, T>`,
detection/sdfv_common.rs:7-32.  A panic is an `Except.error`. -/
class SdfvCommonRel2d (computePenetration computeDistance : Bool) (A B T : Type)
    (F : outParam Type) where
  sdfvCommonRel : A → B → T → Except Panic (Bool × V2 F)

/-- trait `SdfRel2d`, detection/sdf.rs:7-28 (`rel: &impl Transformation2d`) -/
class SdfRel2d (A B T : Type) (F : outParam Type) where
  sdfRel : A → B → T → Except Panic F

/-- marker trait `DefaultMinkowski`, detection/sdfv_minkowski.rs:4 -/
class DefaultMinkowski (A B : Type) : Prop

section
variable {F : Type} [Zero F] [One F] [Add F] [Sub F] [Mul F] [Div F] [Neg F]
  [LT F] [LE F] [DecidableLT F] [DecidableLE F] [FloatExtra F]

open ExtremePoint2d Transformation2d SdfvCommonRel2d SdfRel2d

/-! ## relative-transform API, sdfv_common.rs:36-84 -/

/-- `CollidesRel2d::collides_rel`, sdfv_common.rs:36-44 -/
def collidesRel {A B T : Type} [SdfvCommonRel2d false false A B T F] (a : A) (b : B) (rel : T) :
    Except Panic Bool :=
  (sdfvCommonRel false false a b rel).map (·.1)

/-- `PenetratesRel2d::penetrates_rel`, sdfv_common.rs:46-59 -/
def penetratesRel {A B T : Type} [SdfvCommonRel2d true false A B T F] (a : A) (b : B) (rel : T) :
    Except Panic (Option (V2 F)) :=
  (sdfvCommonRel true false a b rel).map fun r => if r.1 then some r.2 else none

/-- `DistanceToRel2d::distance_to_rel`, sdfv_common.rs:61-74 -/
def distanceToRel {A B T : Type} [SdfvCommonRel2d false true A B T F] (a : A) (b : B) (rel : T) :
    Except Panic (Option (V2 F)) :=
  (sdfvCommonRel false true a b rel).map fun r => if r.1 then none else some r.2

/-- `SdfvRel2d::sdfv_rel`, sdfv_common.rs:76-84 -/
def sdfvRel {A B T : Type} [SdfvCommonRel2d true true A B T F] (a : A) (b : B) (rel : T) :
    Except Panic (Bool × V2 F) :=
  sdfvCommonRel true true a b rel

/-! ## directly implemented pairs -/

/-- common body of Ball v Ball and Ball v Point: `delta` and the (summed) radius -/
def ballDelta (radius : F) (delta : V2 F) : Bool × V2 F :=
  let length := delta.length
  if length > 0 then
    let collides := decide (length < radius)
    let newLength := length - radius
    (collides, V2.scale (newLength / length) delta)
  else (true, V2.scale radius V2.unitX)

/-- Ball v Ball, ball2d/v_ball2d.rs:3-18 -/
instance {p d : Bool} {T : Type} [Transformation2d T F] :
    SdfvCommonRel2d p d (Ball F) (Ball F) T F where
  sdfvCommonRel a b rel := .ok (ballDelta (a.radius + b.radius) (applyOrigin rel))

/-- Ball v Ball `sdf_rel`, ball2d/v_ball2d.rs:20-26 -/
instance {T : Type} [Transformation2d T F] : SdfRel2d (Ball F) (Ball F) T F where
  sdfRel a b rel := .ok ((applyOrigin rel).length - (a.radius + b.radius))

/-- Ball v Point, ball2d/v_point.rs:3-17 -/
instance {p d : Bool} {T : Type} [Transformation2d T F] :
    SdfvCommonRel2d p d (Ball F) (Point F) T F where
  sdfvCommonRel a _ rel := .ok (ballDelta a.radius (applyOrigin rel))

/-- Ball v Point `sdf_rel`, ball2d/v_point.rs:19-24 -/
instance {T : Type} [Transformation2d T F] : SdfRel2d (Ball F) (Point F) T F where
  sdfRel a _ rel := .ok ((applyOrigin rel).length - a.radius)

/-- Box2d v Point, box2d/v_point.rs:6-34, as a function of `p = rel.apply_origin()` -/
def boxPoint (computePenetration computeDistance : Bool) (h p : V2 F) : Bool × V2 F :=
  let px := FloatExtra.abs p.x - h.x
  let py := FloatExtra.abs p.y - h.y
  if FloatExtra.isSignNeg px ∧ FloatExtra.isSignNeg py then
    (true,
      if computePenetration then
        if px > py then ⟨px * FloatExtra.signum p.x, 0⟩ else ⟨0, py * FloatExtra.signum p.y⟩
      else V2.nan)
  else
    (false,
      if computeDistance then
        ⟨FloatExtra.fmax px 0 * FloatExtra.signum p.x, FloatExtra.fmax py 0 * FloatExtra.signum p.y⟩
      else V2.nan)

/-- Box2d v Point, box2d/v_point.rs:3-35 -/
instance {p d : Bool} {T : Type} [Transformation2d T F] :
    SdfvCommonRel2d p d (Box2d F) (Point F) T F where
  sdfvCommonRel a _ rel := .ok (boxPoint p d a.halfsize (applyOrigin rel))

/-- Box2d v Point `sdf_rel`, box2d/v_point.rs:37-55 -/
def boxPointSdf (h delta : V2 F) : F :=
  let dx := FloatExtra.abs delta.x - h.x
  let dy := FloatExtra.abs delta.y - h.y
  if (boxPoint false false h delta).1 then FloatExtra.fmax dx dy
  else if dx < 0 then dy
  else if dy < 0 then dx
  else (V2.mk dx dy).length

/-- Box2d v Point `sdf_rel`, box2d/v_point.rs:37-55 -/
instance {T : Type} [Transformation2d T F] : SdfRel2d (Box2d F) (Point F) T F where
  sdfRel a _ rel := .ok (boxPointSdf a.halfsize (applyOrigin rel))

/-- RoundedBox2d v Point, rounded_box2d/v_point.rs:6-41, as a function of
`delta = rel.apply_origin()` -/
def roundedBoxPoint (h : V2 F) (radius : F) (delta : V2 F) : Bool × V2 F :=
  let dx := FloatExtra.abs delta.x - h.x
  let dy := FloatExtra.abs delta.y - h.y
  if (boxPoint false false h delta).1 then
    if dx > dy then (true, ⟨(dx - radius) * FloatExtra.signum delta.x, 0⟩)
    else (true, ⟨0, (dy - radius) * FloatExtra.signum delta.y⟩)
  else if dx ≤ 0 then (decide (dy < radius), ⟨0, (dy - radius) * FloatExtra.signum delta.y⟩)
  else if dy ≤ 0 then (decide (dx < radius), ⟨(dx - radius) * FloatExtra.signum delta.x, 0⟩)
  else
    let corner : V2 F := ⟨dx * FloatExtra.signum delta.x, dy * FloatExtra.signum delta.y⟩
    let cornerLength := corner.length
    (decide (cornerLength < radius), (V2.scale (cornerLength - radius) corner).divS cornerLength)

/-- RoundedBox2d v Point, rounded_box2d/v_point.rs:3-42 -/
instance {p d : Bool} {T : Type} [Transformation2d T F] :
    SdfvCommonRel2d p d (RoundedBox2d F) (Point F) T F where
  sdfvCommonRel a _ rel := .ok (roundedBoxPoint a.halfsize a.radius (applyOrigin rel))

/-- RoundedBox2d v Point `sdf_rel`, rounded_box2d/v_point.rs:44-48 -/
instance {T : Type} [Transformation2d T F] : SdfRel2d (RoundedBox2d F) (Point F) T F where
  sdfRel a _ rel := .ok (boxPointSdf a.boxPart.halfsize (applyOrigin rel) - a.radius)

/-- Box2d v Ball, box2d/v_ball.rs:5-16 -/
instance {p d : Bool} {T : Type} [Transformation2d T F] :
    SdfvCommonRel2d p d (Box2d F) (Ball F) T F where
  sdfvCommonRel a b rel :=
    sdfvCommonRel p d (RoundedBox2d.mk a.halfsize b.radius) (Point.mk : Point F) rel

/-- Box2d v Ball `sdf_rel`, box2d/v_ball.rs:18-39 -/
instance {T : Type} [Transformation2d T F] : SdfRel2d (Box2d F) (Ball F) T F where
  sdfRel a b rel :=
    let bCenter := applyOrigin rel
    let towardsSelf := -bCenter
    let p := ExtremePointT2d.extremePointT b rel towardsSelf
    let px := FloatExtra.abs p.x - a.halfsize.x
    let py := FloatExtra.abs p.y - a.halfsize.y
    match collidesRel a b rel with
    | .error e => .error e
    | .ok c => .ok <|
      if c then FloatExtra.fmin px py
      else if FloatExtra.isSignNeg px then py
      else if FloatExtra.isSignNeg py then px
      else (V2.mk px py).length

/-- Point v Point, point2d.rs:28-34 -/
instance {p d : Bool} {T : Type} [Transformation2d T F] :
    SdfvCommonRel2d p d (Point F) (Point F) T F where
  sdfvCommonRel _ _ rel :=
    let a := applyOrigin rel
    .ok (FloatExtra.feq a.x 0 && FloatExtra.feq a.y 0, a)

/-- Point v Point `sdf_rel`, point2d.rs:21-26 -/
instance {T : Type} [Transformation2d T F] : SdfRel2d (Point F) (Point F) T F where
  sdfRel _ _ rel := .ok (applyOrigin rel).length

/-- body of `impl_reverse_sdfv_common_rel!`, point2d.rs:36-53 -/
def reverseSdfvCommonRel (p d : Bool) {A B T : Type} [SdfvCommonRel2d p d B A T F]
    [Transformation2d T F] [Invertible T] (a : A) (b : B) (rel : T) :
    Except Panic (Bool × V2 F) :=
  let invRel := Invertible.inverse rel
  (sdfvCommonRel p d b a invRel).map fun r => (r.1, applyNormal rel (-r.2))

/-- Point v Box2d, point2d.rs:55 -/
instance {p d : Bool} {T : Type} [Transformation2d T F] [Invertible T] :
    SdfvCommonRel2d p d (Point F) (Box2d F) T F where
  sdfvCommonRel := reverseSdfvCommonRel p d

/-- Point v Ball, point2d.rs:56 -/
instance {p d : Bool} {T : Type} [Transformation2d T F] [Invertible T] :
    SdfvCommonRel2d p d (Point F) (Ball F) T F where
  sdfvCommonRel := reverseSdfvCommonRel p d

/-! ## Minkowski based pairs -/

/-- ball2d/mod.rs:7 -/
instance : DefaultMinkowski (Ball F) (Box2d F) := ⟨⟩
/-- box2d/mod.rs:45 -/
instance : DefaultMinkowski (Box2d F) (Box2d F) := ⟨⟩
/-- box2d/mod.rs:46 -/
instance : DefaultMinkowski (Box2d F) (Poly2d F) := ⟨⟩
/-- poly2d/mod.rs:109 -/
instance : DefaultMinkowski (Poly2d F) (Box2d F) := ⟨⟩
/-- poly2d/mod.rs:110 -/
instance : DefaultMinkowski (Poly2d F) (Poly2d F) := ⟨⟩
/-- shape/mod.rs:48 -/
instance : DefaultMinkowski (Shape2d F) (Shape2d F) := ⟨⟩

/-- the four blanket impls `SdfvCommonRel2d<_, _, B, T> for A where A: DefaultMinkowski<B>`,
detection/sdfv_minkowski.rs:16-62 -/
instance {p d : Bool} {A B T : Type} [DefaultMinkowski A B] [ExtremePoint2d A F]
    [ExtremePoint2d B F] [Transformation2d T F] : SdfvCommonRel2d p d A B T F where
  sdfvCommonRel a b rel := LocalMinkowskiDiff2d.sdfvMinkowski p d ⟨a, b, rel⟩

/-! ## Colliders -/

/-- `Collider2d`, collider2d.rs:3-8 (borrowed fields become owned values) -/
structure Collider2d (S T : Type) where
  shape : S
  transform : T

/-- `Collider2d::extreme_point`, collider2d.rs:39-47 -/
instance {S T : Type} [ExtremePointT2d S T F] : ExtremePoint2d (Collider2d S T) F where
  extremePoint c d := ExtremePointT2d.extremePointT c.shape c.transform d

/-- `Collides2d::collides`, detection/collides.rs:70-85 -/
def collides {A B T : Type} [SdfvCommonRel2d false false A B T F] [Invertible T] [Composable T]
    (a : Collider2d A T) (b : Collider2d B T) : Except Panic Bool :=
  collidesRel a.shape b.shape (deltaTransform a.transform b.transform)

/-- `Penetrates2d::penetrates`, detection/penetrates.rs:63-76 -/
def penetrates {A B T : Type} [SdfvCommonRel2d true false A B T F] [Invertible T] [Composable T]
    (a : Collider2d A T) (b : Collider2d B T) : Except Panic (Option (V2 F)) :=
  penetratesRel a.shape b.shape (deltaTransform a.transform b.transform)

/-- `DistanceTo2d::distance_to`, detection/distance_to.rs:71-84 -/
def distanceTo {A B T : Type} [SdfvCommonRel2d false true A B T F] [Invertible T] [Composable T]
    (a : Collider2d A T) (b : Collider2d B T) : Except Panic (Option (V2 F)) :=
  distanceToRel a.shape b.shape (deltaTransform a.transform b.transform)

/-- `Sdf2d::sdf`, detection/sdf.rs:64-77 -/
def sdf {A B T : Type} [SdfRel2d A B T F] [Invertible T] [Composable T]
    (a : Collider2d A T) (b : Collider2d B T) : Except Panic F :=
  sdfRel a.shape b.shape (deltaTransform a.transform b.transform)

/-- `Sdfv2d::sdfv`, detection/sdfv.rs:63-78 -/
def sdfv {A B T : Type} [SdfvCommonRel2d true true A B T F] [Transformation2d T F] [Invertible T]
    [Composable T] (a : Collider2d A T) (b : Collider2d B T) : Except Panic (Bool × V2 F) :=
  (sdfvRel a.shape b.shape (deltaTransform a.transform b.transform)).map fun r =>
    (r.1, applyNormal a.transform r.2)

end

end Auburn
