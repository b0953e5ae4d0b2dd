import Verif.Model.Vec

/-!
# Transformations: `src/col/transform.rs`, `src/col2d/transformation2d/*`, `src/col/bevy_transform.rs`
-/

namespace Auburn

/-- trait `Transformation2d`, transformation2d/mod.rs:23-41 -/
class Transformation2d (T : Type) (F : outParam Type) where
  applyOrigin : T → V2 F
  apply : T → V2 F → V2 F
  unapply : T → V2 F → V2 F
  applyNormal : T → V2 F → V2 F
  unapplyNormal : T → V2 F → V2 F
  scalingFactor : T → F

/-- trait `Invertible`, col/transform.rs:7-22 -/
class Invertible (T : Type) where
  inverse : T → T

/-- trait `Composable`, col/transform.rs:24-43 -/
class Composable (T : Type) where
  compose : T → T → T

/-- blanket impl of `DeltaTransform::delta_transform`, col/transform.rs:66-70 -/
def deltaTransform {T : Type} [Invertible T] [Composable T] (a b : T) : T :=
  Composable.compose (Invertible.inverse a) b

/-- `IdentityTransform`, col/transform.rs:4-5 (`F` is a phantom parameter) -/
structure IdentityTransform (F : Type) where
  deriving DecidableEq, Repr

/-- `Translate2d`, translate2d.rs:3-6 -/
@[ext] structure Translate2d (F : Type) where
  pos : V2 F
  deriving DecidableEq, Repr

/-- `AxisTransform2d`, axis_transform2d.rs:3-7 -/
@[ext] structure AxisTransform2d (F : Type) where
  pos : V2 F
  scale : F
  deriving DecidableEq, Repr

/-- `Rotor2d`, transformation2d/mod.rs:69-73 -/
@[ext] structure Rotor2d (F : Type) where
  a : V2 F
  deriving DecidableEq, Repr

/-- `Transform2d`, transform2d.rs:3-12 -/
@[ext] structure Transform2d (F : Type) where
  pos : V2 F
  rot : Rotor2d F
  scale : V2 F
  deriving DecidableEq, Repr

/-- `bevy::prelude::Transform` -/
@[ext] structure BevyTransform (F : Type) where
  translation : V3 F
  rotation : Quat F
  scale : V3 F
  deriving DecidableEq, Repr

section
variable {F : Type} [Zero F] [One F] [Add F] [Sub F] [Mul F] [Div F] [Neg F]
  [LT F] [LE F] [DecidableLT F] [DecidableLE F] [FloatExtra F]

/-- `impl Transformation2d for IdentityTransform`, transformation2d/mod.rs:43-67 -/
instance : Transformation2d (IdentityTransform F) F where
  applyOrigin _ := 0
  apply _ p := p
  unapply _ p := p
  applyNormal _ n := n
  unapplyNormal _ n := n
  scalingFactor _ := 1

/-- `impl Transformation2d for Vec2`, translate2d.rs:14-38 -/
instance : Transformation2d (V2 F) F where
  applyOrigin t := t
  apply t p := p + t
  unapply t p := p - t
  applyNormal _ n := n
  unapplyNormal _ n := n
  scalingFactor _ := 1

/-- `impl Invertible for Vec2`, translate2d.rs:40-44 -/
instance : Invertible (V2 F) where
  inverse t := -t

/-- `impl Composable for Vec2`, translate2d.rs:46-50 -/
instance : Composable (V2 F) where
  compose a b := Transformation2d.apply a b

/-- `impl Transformation2d for Translate2d`, translate2d.rs:58-82 -/
instance : Transformation2d (Translate2d F) F where
  applyOrigin t := t.pos
  apply t p := p + t.pos
  unapply t p := p - t.pos
  applyNormal _ n := n
  unapplyNormal _ n := n
  scalingFactor _ := 1

/-- `impl Invertible for Translate2d`, translate2d.rs:84-88 -/
instance : Invertible (Translate2d F) where
  inverse t := ⟨-t.pos⟩

/-- `impl Composable for Translate2d`, translate2d.rs:90-94 -/
instance : Composable (Translate2d F) where
  compose a b := ⟨Transformation2d.apply a b.pos⟩

/-- `impl Transformation2d for AxisTransform2d`, axis_transform2d.rs:15-39 -/
instance : Transformation2d (AxisTransform2d F) F where
  applyOrigin t := t.pos
  apply t p := t.pos + V2.scale t.scale p
  unapply t p := V2.divS (p - t.pos) t.scale
  applyNormal _ n := n
  unapplyNormal _ n := n
  scalingFactor t := t.scale

/-- `impl Invertible for AxisTransform2d`, axis_transform2d.rs:41-48 -/
instance : Invertible (AxisTransform2d F) where
  inverse t := ⟨-t.pos, 1 / t.scale⟩

/-- `impl Composable for AxisTransform2d`, axis_transform2d.rs:50-57 -/
instance : Composable (AxisTransform2d F) where
  compose a b := ⟨Transformation2d.apply a b.pos, a.scale * b.scale⟩

namespace Rotor2d

/-- `Rotor2d::IDENTITY` and `Default`, transformation2d/mod.rs:75-86 -/
def identity : Rotor2d F := ⟨⟨1, 0⟩⟩
/-- `Rotor2d::from_angle`, transformation2d/mod.rs:88-94 -/
def fromAngle (angle : F) : Rotor2d F := ⟨⟨FloatExtra.cos angle, FloatExtra.sin angle⟩⟩
/-- `Rotor2d::angle`, transformation2d/mod.rs:96-99 -/
def angle (r : Rotor2d F) : F := FloatExtra.atan2 r.a.y r.a.x
/-- `Rotor2d::inverse`, transformation2d/mod.rs:101-106 -/
def inverse (r : Rotor2d F) : Rotor2d F := ⟨⟨r.a.x, -r.a.y⟩⟩
/-- `Rotor2d::from_quaternion`, transformation2d/mod.rs:108-119 -/
def fromQuaternion (q : Quat F) : Rotor2d F :=
  let norm := FloatExtra.sqrt (q.dot q)
  let w := q.w / norm
  let z := q.z / norm
  let cos := w * FloatExtra.two * w - 1
  let sin := FloatExtra.two * w * z
  ⟨⟨cos, sin⟩⟩
/-- `Rotor2d * Rotor2d`, transformation2d/mod.rs:122-135 -/
def mulR (a b : Rotor2d F) : Rotor2d F :=
  ⟨⟨a.a.x * b.a.x - a.a.y * b.a.y, a.a.x * b.a.y + a.a.y * b.a.x⟩⟩
/-- `Rotor2d * Vec2`, transformation2d/mod.rs:137-147 -/
def rotate (r : Rotor2d F) (v : V2 F) : V2 F :=
  ⟨r.a.x * v.x - r.a.y * v.y, r.a.x * v.y + r.a.y * v.x⟩

end Rotor2d

/-- `impl Transformation2d for Transform2d`, transform2d.rs:24-48 -/
instance : Transformation2d (Transform2d F) F where
  applyOrigin t := t.pos
  apply t p := t.rot.rotate (V2.mulV t.scale p) + t.pos
  unapply t p := V2.divV (t.rot.inverse.rotate (p - t.pos)) t.scale
  applyNormal t n := t.rot.rotate n
  unapplyNormal t n := t.rot.inverse.rotate n
  scalingFactor t := FloatExtra.fmax t.scale.x t.scale.y

/-- `impl Invertible for Transform2d`, transform2d.rs:50-58 -/
instance : Invertible (Transform2d F) where
  inverse t := ⟨Transformation2d.unapply t 0, t.rot.inverse, t.scale.recip⟩

/-- `impl Composable for Transform2d`, transform2d.rs:62-70 -/
instance : Composable (Transform2d F) where
  compose a b := ⟨Transformation2d.apply a b.pos, a.rot.mulR b.rot, V2.mulV a.scale b.scale⟩

namespace Transform2d

/-- `Transform2d::IDENTITY` and `Default`, transform2d.rs:14-22, 73-77 -/
def identity : Transform2d F := ⟨0, Rotor2d.identity, V2.one⟩
/-- `Transform2d::from_translation`, transform2d.rs:79-84 -/
def fromTranslation (t : V2 F) : Transform2d F := { (identity : Transform2d F) with pos := t }
/-- `Transform2d::from_angle`, transform2d.rs:86-91 -/
def fromAngle (angle : F) : Transform2d F :=
  { (identity : Transform2d F) with rot := Rotor2d.fromAngle angle }
/-- `Transform2d::from_rotation`, transform2d.rs:93-98 -/
def fromRotation (r : Rotor2d F) : Transform2d F := { (identity : Transform2d F) with rot := r }
/-- `Transform2d::from_scale`, transform2d.rs:100-105 -/
def fromScale (s : V2 F) : Transform2d F := { (identity : Transform2d F) with scale := s }
/-- `Transform2d::with_translation`, transform2d.rs:107-110 -/
def withTranslation (t : Transform2d F) (p : V2 F) : Transform2d F := { t with pos := p }
/-- `Transform2d::with_angle`, transform2d.rs:112-115 -/
def withAngle (t : Transform2d F) (a : F) : Transform2d F := { t with rot := Rotor2d.fromAngle a }
/-- `Transform2d::with_rotation`, transform2d.rs:117-120 -/
def withRotation (t : Transform2d F) (r : Rotor2d F) : Transform2d F := { t with rot := r }
/-- `Transform2d::with_scale`, transform2d.rs:122-125 -/
def withScale (t : Transform2d F) (s : V2 F) : Transform2d F := { t with scale := s }

/-- `From<bevy::prelude::Transform> for Transform2d`, bevy_transform.rs:3-15 -/
def ofBevy (t : BevyTransform F) : Transform2d F :=
  ⟨⟨t.translation.x, t.translation.y⟩, Rotor2d.fromQuaternion t.rotation, ⟨t.scale.x, t.scale.y⟩⟩

end Transform2d

/-- `impl Transformation2d for bevy Transform`, bevy_transform.rs:17-41 -/
instance : Transformation2d (BevyTransform F) F where
  applyOrigin t := Transformation2d.applyOrigin (Transform2d.ofBevy t)
  apply t p := Transformation2d.apply (Transform2d.ofBevy t) p
  unapply t p := Transformation2d.unapply (Transform2d.ofBevy t) p
  applyNormal t n := Transformation2d.applyNormal (Transform2d.ofBevy t) n
  unapplyNormal t n := Transformation2d.unapplyNormal (Transform2d.ofBevy t) n
  scalingFactor t := Transformation2d.scalingFactor (Transform2d.ofBevy t)

namespace BevyTransform

/-- `Transformation3d::apply` for bevy Transform, col/bevy_transform.rs:12-14 -/
def apply3 (t : BevyTransform F) (p : V3 F) : V3 F :=
  t.rotation.mulV3 (V3.mulV t.scale p) + t.translation
/-- `Transformation3d::unapply` for bevy Transform, col/bevy_transform.rs:16-18 -/
def unapply3 (t : BevyTransform F) (p : V3 F) : V3 F :=
  V3.divV (t.rotation.inverse.mulV3 (p - t.translation)) t.scale

end BevyTransform

/-- `impl Invertible for bevy Transform`, col/bevy_transform.rs:21-29 -/
instance : Invertible (BevyTransform F) where
  inverse t := ⟨t.unapply3 0, t.rotation.inverse, t.scale.recip⟩

/-- `impl Composable for bevy Transform`, col/bevy_transform.rs:33-41 -/
instance : Composable (BevyTransform F) where
  compose a b := ⟨a.apply3 b.translation, a.rotation.mulQ b.rotation, V3.mulV a.scale b.scale⟩

end

end Auburn
