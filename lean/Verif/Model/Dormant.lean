import Verif.Model.Detect2d
import Verif.Model.Col3d

/-!
# Source files that are in the repository but not compiled at this commit

`shape/ellipse2d.rs` is behind `cfg(any())`, `shape/minkowski_diff` is commented out in
`shape/mod.rs:8`, `col3d/shape/cylinder3d.rs` is not in the module tree.  The function bodies are
modelled as written.  (`transformation2d/isotropic2d.rs`, also not compiled, has no bodies: every
method but `scaling_factor` is `todo!()`.)
-/

namespace Auburn

section
variable {F : Type} [Zero F] [One F] [Add F] [Sub F] [Mul F] [Div F] [Neg F]
  [LT F] [LE F] [DecidableLT F] [DecidableLE F] [FloatExtra F]

open ExtremePoint2d Transformation2d

/-! ## Ellipse2d -/

/-- `Ellipse2d`, ellipse2d.rs:8-12 -/
@[ext] structure Ellipse2d (F : Type) where
  radii : V2 F
  deriving DecidableEq, Repr

/-- `Vec2::length_recip` (glam: `1 / length`) -/
def V2.lengthRecip (a : V2 F) : F := 1 / a.length

namespace Ellipse2d

/-- ellipse2d.rs:16-20 -/
def boundingBox (e : Ellipse2d F) : Box2d F := ⟨⟨e.radii.x, e.radii.y⟩⟩

/-- `intercept_ray`, ellipse2d.rs:24-26 -/
def interceptRay (e : Ellipse2d F) (dir : V2 F) : V2 F :=
  V2.scale (V2.divV dir e.radii).lengthRecip dir

/-- `extreme_point_direction`, ellipse2d.rs:28-32 -/
def extremePointDirection (e : Ellipse2d F) (dir : V2 F) : V2 F :=
  ⟨e.radii.x * e.radii.x * dir.x, e.radii.y * e.radii.y * dir.y⟩

/-- `extreme_point_by_composing`, ellipse2d.rs:34-36 -/
def extremePointByComposing (e : Ellipse2d F) (dir : V2 F) : V2 F :=
  e.interceptRay (e.extremePointDirection dir)

/-- `extreme_point_expanded`, ellipse2d.rs:38-45 -/
def extremePointExpanded (e : Ellipse2d F) (dir : V2 F) : V2 F :=
  let a := e.radii.x
  let b := e.radii.y
  let ap := a * dir.x
  let bq := b * dir.y
  let d := (V2.mk ap bq).lengthRecip
  ⟨a * ap * d, b * bq * d⟩

end Ellipse2d

/-- ellipse2d.rs:48-52 -/
instance : ExtremePoint2d (Ellipse2d F) F where
  extremePoint e d := e.extremePointExpanded d

/-- `CollidesRel2d<Point> for Ellipse2d`, ellipse2d.rs:65-70 -/
def Ellipse2d.collidesPoint {T : Type} [Transformation2d T F] (e : Ellipse2d F) (_ : Point F)
    (rel : T) : Bool :=
  let delta := applyOrigin rel
  decide (square (delta.x / e.radii.x) + square (delta.y / e.radii.y) ≤ 1)

/-! ## MinkowskiDiff2d -/

/-- `MinkowskiDiff2d`, minkowski_diff/mod.rs:7-17 (and `MinkowskiDiff2dOwned`, 30-40) -/
structure MinkowskiDiff2d (A B T : Type) where
  a : A
  b : B
  aT : T
  abT : T

namespace MinkowskiDiff2d
variable {A B T : Type} [ExtremePoint2d A F] [ExtremePoint2d B F] [Transformation2d T F]

/-- `to_local`, minkowski_diff/mod.rs:25-27 -/
def toLocal (m : MinkowskiDiff2d A B T) : LocalMinkowskiDiff2d A B T := ⟨m.a, m.b, m.abT⟩

/-- `from_colliders`, minkowski_diff/mod.rs:64-75 -/
def fromColliders [Invertible T] [Composable T] (a : Collider2d A T) (b : Collider2d B T) :
    MinkowskiDiff2d A B T :=
  ⟨a.shape, b.shape, a.transform, deltaTransform a.transform b.transform⟩

/-- minkowski_diff/mod.rs:78-93 -/
instance : ExtremePoint2d (MinkowskiDiff2d A B T) F where
  extremePoint m direction :=
    let localDir := unapplyNormal m.aT direction
    let localResult := extremePoint m.toLocal localDir
    apply m.aT localResult

/-- the four `sdfv_minkowski` impls, minkowski_diff/v.rs:4-57 (the variant that computes no vector
returns `Vec2::NAN`) -/
def sdfvMinkowski (p d : Bool) (m : MinkowskiDiff2d A B T) : Except Panic (Bool × V2 F) :=
  (LocalMinkowskiDiff2d.sdfvMinkowski p d m.toLocal).map fun r =>
    (r.1, if p || d then apply m.aT r.2 else V2.nan)

end MinkowskiDiff2d

end

section
variable {F : Type} [Zero F] [One F] [Add F] [Sub F] [Mul F] [Div F] [Neg F]
  [LT F] [LE F] [DecidableLT F] [DecidableLE F] [FloatExtra F]

open Transformation3d

/-! ## Cylinder3d -/

/-- `Cylinder3d`, cylinder3d.rs:4-8 -/
@[ext] structure Cylinder3d (F : Type) where
  halfheight : F
  radius : F
  deriving DecidableEq, Repr

namespace Cylinder3d

/-- `Cylinder3d::new`, cylinder3d.rs:11-16 -/
def new (height radius : F) : Cylinder3d F := ⟨height / FloatExtra.two, radius⟩

/-- `Cylinder3d::to_ball`, cylinder3d.rs:18-20 -/
def toBall (c : Cylinder3d F) : Ball F := ⟨c.radius⟩

/-- `MinkowskiSum<Cylinder3d> for Cylinder3d`, cylinder3d.rs:40-49 -/
def minkowskiSum (a b : Cylinder3d F) : Cylinder3d F :=
  Cylinder3d.new (a.halfheight + b.halfheight) (a.radius + b.radius)

/-- `Vec2::new(o.x, o.y)` as in cylinder3d.rs:60, 71, 87, 104 -/
def flat (o : V3 F) : V2 F := ⟨o.x, o.y⟩

end Cylinder3d

/-- cylinder3d.rs:23-38 -/
instance : ExtremePoint3d (Cylinder3d F) F where
  extremePoint c direction :=
    let d := ExtremePoint2d.extremePoint c.toBall (V2.mk direction.x direction.y)
    let z := if direction.z > 0 then c.halfheight else -c.halfheight
    ⟨d.x, d.y, z⟩

/-- cylinder3d.rs:53-64 (`collides_rel` of Ball v Point is `ballDelta`'s flag) -/
instance {T : Type} [Transformation3d T F] : CollidesRel3d (Cylinder3d F) (Point F) T where
  collidesRel c _ rel :=
    let o := applyOrigin rel
    if o.z < -c.halfheight ∨ o.z > c.halfheight then false
    else (ballDelta c.radius (Cylinder3d.flat o)).1

/-- cylinder3d.rs:66-82 (`penetrates_rel` of Ball v Point: `ballDelta`'s vector if colliding) -/
instance {T : Type} [Transformation3d T F] : PenetratesRel3d (Cylinder3d F) (Point F) T F where
  penetratesRel c t rel :=
    if CollidesRel3d.collidesRel c t rel then
      let delta := applyOrigin rel
      let delta2d := Cylinder3d.flat delta
      let delta2dSq := delta2d.lengthSq
      let z2 := delta.z * delta.z
      if z2 < delta2dSq then some ⟨0, 0, FloatExtra.signum delta.z * c.halfheight⟩
      else
        let r := ballDelta c.radius delta2d
        (if r.1 then some r.2 else none).map fun v => ⟨v.x, v.y, 0⟩
    else none

/-- cylinder3d.rs:84-97 -/
instance {T : Type} [Transformation3d T F] : SdfRel3d (Cylinder3d F) (Point F) T F where
  sdfRel c _ rel :=
    let o := applyOrigin rel
    let o2d := Cylinder3d.flat o
    let o2dSq := o2d.lengthSq
    let z := FloatExtra.abs o.z - c.halfheight
    let zSq := z * z
    if zSq > o2dSq then z else o2d.length - c.radius

/-- cylinder3d.rs:99-124 (`SdfRel2dVector::sdfv_rel` of an earlier version of the crate: the vector
of Ball v Point) -/
instance {T : Type} [Transformation3d T F] : SdfvRel3d (Cylinder3d F) (Point F) T F where
  sdfvRel c _ rel :=
    let o := applyOrigin rel
    let o2d := Cylinder3d.flat o
    let o2dSq := o2d.lengthSq
    let z := FloatExtra.abs o.z - c.halfheight
    let zSq := z * z
    let r := c.radius
    let rSq := r * r
    if z < 0 then
      if zSq > o2dSq then ⟨0, 0, FloatExtra.signum o.z * z⟩
      else
        let v := (ballDelta c.radius o2d).2
        ⟨v.x, v.y, 0⟩
    else
      if o2dSq ≤ rSq then ⟨0, 0, FloatExtra.signum o.z * z⟩
      else
        let v := (ballDelta c.radius o2d).2
        ⟨v.x, v.y, FloatExtra.signum z * z⟩

end

end Auburn
