import Verif.Model.Shapes2d

/-!
# `src/col3d`

At this commit the `3d` feature does not compile (traits `MinkowskiSum`,
`MinkowskiNegationIsIdentity` and the module `transformation3d/bevy_transform` are missing); the
function bodies are modelled as written.
-/

namespace Auburn

/-- trait `Transformation3d`, col/mod.rs:13-29 -/
class Transformation3d (T : Type) (F : outParam Type) where
  applyOrigin : T → V3 F
  apply : T → V3 F → V3 F
  unapply : T → V3 F → V3 F

/-- trait `ExtremePoint3d`, col3d/detection/extreme_point.rs:7-20 -/
class ExtremePoint3d (S : Type) (F : outParam Type) where
  extremePoint : S → V3 F → V3 F

/-- trait `CollidesRel3d`, col3d/detection/collides.rs:8-27 -/
class CollidesRel3d (A B T : Type) where
  collidesRel : A → B → T → Bool
/-- trait `PenetratesRel3d`, col3d/detection/penetrates.rs:7-26 -/
class PenetratesRel3d (A B T : Type) (F : outParam Type) where
  penetratesRel : A → B → T → Option (V3 F)
/-- trait `SdfRel3d`, col3d/detection/sdf.rs:7-26 -/
class SdfRel3d (A B T : Type) (F : outParam Type) where
  sdfRel : A → B → T → F
/-- trait `SdfvRel3d`, col3d/detection/sdfv.rs:7-26 -/
class SdfvRel3d (A B T : Type) (F : outParam Type) where
  sdfvRel : A → B → T → V3 F
/-- marker trait `DefaultCol3dImpls`, col3d/default_impls.rs:5 -/
class DefaultCol3dImpls (A : Type) : Prop

/-- `Translate3d`, translate3d.rs:3-6 -/
@[ext] structure Translate3d (F : Type) where
  pos : V3 F
  deriving DecidableEq, Repr
/-- `AxisTransform3d`, axis_transform3d.rs:3-7 -/
@[ext] structure AxisTransform3d (F : Type) where
  pos : V3 F
  scale : F
  deriving DecidableEq, Repr
/-- `Isotropic3d`, isotropic3d.rs:8-12 -/
@[ext] structure Isotropic3d (F : Type) where
  pos : V3 F
  rot : Quat F
  scale : F
  deriving DecidableEq, Repr
/-- `Transform3d`, transform3d.rs:12-16 -/
@[ext] structure Transform3d (F : Type) where
  pos : V3 F
  rot : Quat F
  scale : V3 F
  deriving DecidableEq, Repr
/-- `Box3d`, box3d.rs:3-8 -/
@[ext] structure Box3d (F : Type) where
  halfsize : V3 F
  deriving DecidableEq, Repr

section
variable {F : Type} [Zero F] [One F] [Add F] [Sub F] [Mul F] [Div F] [Neg F]
  [LT F] [LE F] [DecidableLT F] [DecidableLE F] [FloatExtra F]

/-! ## Transformations -/

/-- `impl Transformation3d for IdentityTransform`, col/mod.rs:31-43 -/
instance : Transformation3d (IdentityTransform F) F where
  applyOrigin _ := 0
  apply _ p := p
  unapply _ p := p
/-- `impl Transformation3d for Vec3`, translate3d.rs:14-26 -/
instance : Transformation3d (V3 F) F where
  applyOrigin t := t
  apply t p := p + t
  unapply t p := p - t
/-- translate3d.rs:28-32 -/
instance : Invertible (V3 F) where inverse t := -t
/-- translate3d.rs:34-38 -/
instance : Composable (V3 F) where compose a b := Transformation3d.apply a b
/-- translate3d.rs:46-58 -/
instance : Transformation3d (Translate3d F) F where
  applyOrigin t := t.pos
  apply t p := p + t.pos
  unapply t p := p - t.pos
/-- translate3d.rs:60-64 -/
instance : Invertible (Translate3d F) where inverse t := ⟨-t.pos⟩
/-- translate3d.rs:66-70 -/
instance : Composable (Translate3d F) where compose a b := ⟨Transformation3d.apply a b.pos⟩
/-- axis_transform3d.rs:15-27 -/
instance : Transformation3d (AxisTransform3d F) F where
  applyOrigin t := t.pos
  apply t p := t.pos + V3.scale t.scale p
  unapply t p := V3.divS (p - t.pos) t.scale
/-- axis_transform3d.rs:29-36 -/
instance : Invertible (AxisTransform3d F) where inverse t := ⟨-t.pos, 1 / t.scale⟩
/-- axis_transform3d.rs:38-45 -/
instance : Composable (AxisTransform3d F) where
  compose a b := ⟨Transformation3d.apply a b.pos, a.scale * b.scale⟩
/-- isotropic3d.rs:27-39 -/
instance : Transformation3d (Isotropic3d F) F where
  applyOrigin t := t.pos
  apply t p := t.rot.mulV3 (V3.scale t.scale p) + t.pos
  unapply t p := V3.divS (t.rot.inverse.mulV3 (p - t.pos)) t.scale
/-- isotropic3d.rs:41-49 -/
instance : Invertible (Isotropic3d F) where
  inverse t := ⟨Transformation3d.unapply t 0, t.rot.inverse, 1 / t.scale⟩
/-- isotropic3d.rs:51-59 -/
instance : Composable (Isotropic3d F) where
  compose a b := ⟨Transformation3d.apply a b.pos, a.rot.mulQ b.rot, a.scale * b.scale⟩
/-- transform3d.rs:40-52 -/
instance : Transformation3d (Transform3d F) F where
  applyOrigin t := t.pos
  apply t p := t.rot.mulV3 (V3.mulV t.scale p) + t.pos
  unapply t p := V3.divV (t.rot.inverse.mulV3 (p - t.pos)) t.scale
/-- transform3d.rs:54-62 -/
instance : Invertible (Transform3d F) where
  inverse t := ⟨Transformation3d.unapply t 0, t.rot.inverse, t.scale.recip⟩
/-- transform3d.rs:66-74 -/
instance : Composable (Transform3d F) where
  compose a b := ⟨Transformation3d.apply a b.pos, a.rot.mulQ b.rot, V3.mulV a.scale b.scale⟩
/-- `impl Transformation3d for bevy Transform`, col/bevy_transform.rs:7-19 -/
instance : Transformation3d (BevyTransform F) F where
  applyOrigin t := t.translation
  apply t p := t.apply3 p
  unapply t p := t.unapply3 p

/-- default method `Transformation3d::unapply_origin`, col/mod.rs:23-25 -/
def unapplyOrigin3 {T : Type} [Transformation3d T F] (t : T) : V3 F := Transformation3d.unapply t 0

/-- `From<Borrow<bevy Transform>> for Isotropic3d`, isotropic3d.rs:319-329 -/
def Isotropic3d.ofBevy (t : BevyTransform F) : Isotropic3d F :=
  ⟨t.translation, t.rotation, t.scale.x⟩
/-- `From<bevy Transform> for Transform3d`, transform3d.rs:18-27 -/
def Transform3d.ofBevy (t : BevyTransform F) : Transform3d F :=
  ⟨t.translation, t.rotation, t.scale⟩
/-- `From<Transform3d> for bevy Transform`, transform3d.rs:29-38 -/
def Transform3d.toBevy (t : Transform3d F) : BevyTransform F := ⟨t.pos, t.rot, t.scale⟩

/-! ## Shapes -/

/-- `Box3d::cover`, box3d.rs:17-22 -/
def Box3d.cover (b : Box3d F) (p : V3 F) : Box3d F :=
  ⟨⟨FloatExtra.fmax b.halfsize.x (FloatExtra.abs p.x),
    FloatExtra.fmax b.halfsize.y (FloatExtra.abs p.y), b.halfsize.z⟩⟩

/-- box3d.rs:31-51 -/
instance : ExtremePoint3d (Box3d F) F where
  extremePoint b d :=
    ⟨if d.x > 0 then b.halfsize.x else -b.halfsize.x,
     if d.y > 0 then b.halfsize.y else -b.halfsize.y,
     if d.z > 0 then b.halfsize.z else -b.halfsize.z⟩
/-- ball3d.rs:11-15 -/
instance : ExtremePoint3d (Ball F) F where
  extremePoint b d := V3.scale b.radius d.normalizeOrZero
/-- point3d.rs:3-7 -/
instance : ExtremePoint3d (Point F) F where
  extremePoint _ _ := 0

/-- `MinkowskiSum<Box3d> for Box3d`, box3d.rs:55-63 -/
def Box3d.minkowskiSum (a b : Box3d F) : Box3d F := ⟨a.halfsize + b.halfsize⟩

/-- box3d.rs:65 -/
instance : DefaultCol3dImpls (Box3d F) := ⟨⟩
/-- ball3d.rs:25 -/
instance : DefaultCol3dImpls (Ball F) := ⟨⟩

open Transformation3d

/-- Box3d v Point, box3d.rs:69-79 -/
def box3dContains (h delta : V3 F) : Bool :=
  decide (-h.x < delta.x) && decide (delta.x < h.x) && decide (-h.y < delta.y)
    && decide (delta.y < h.y) && decide (-h.z < delta.z) && decide (delta.z < h.z)

/-- box3d.rs:69-79 -/
instance {T : Type} [Transformation3d T F] : CollidesRel3d (Box3d F) (Point F) T where
  collidesRel a _ rel := box3dContains a.halfsize (applyOrigin rel)

/-- the penetration branch of Box3d v Point, box3d.rs:90-100 and 149-161 -/
def box3dPush (h delta : V3 F) : V3 F :=
  let dx := FloatExtra.abs delta.x - h.x
  let dy := FloatExtra.abs delta.y - h.y
  let dz := FloatExtra.abs delta.z - h.z
  if dx > dy then
    if dz > dx then ⟨0, 0, dz * FloatExtra.signum delta.z⟩
    else ⟨dx * FloatExtra.signum delta.x, 0, 0⟩
  else if dz > dy then ⟨0, 0, dz * FloatExtra.signum delta.z⟩
  else ⟨0, dy * FloatExtra.signum delta.y, 0⟩

/-- box3d.rs:83-104 -/
instance {T : Type} [Transformation3d T F] : PenetratesRel3d (Box3d F) (Point F) T F where
  penetratesRel a t rel :=
    if CollidesRel3d.collidesRel a t rel then some (box3dPush a.halfsize (applyOrigin rel)) else none

/-- box3d.rs:108-137 -/
instance {T : Type} [Transformation3d T F] : SdfRel3d (Box3d F) (Point F) T F where
  sdfRel a t rel :=
    let delta := applyOrigin rel
    let dx := FloatExtra.abs delta.x - a.halfsize.x
    let dy := FloatExtra.abs delta.y - a.halfsize.y
    let dz := FloatExtra.abs delta.z - a.halfsize.z
    if CollidesRel3d.collidesRel a t rel then FloatExtra.fmax (FloatExtra.fmax dx dy) dz
    else if dz < 0 then
      if dx < 0 then dy else if dy < 0 then dx else (V2.mk dx dy).length
    else
      if dx < 0 then (V2.mk dz dy).length
      else if dy < 0 then (V2.mk dz dx).length
      else (V3.mk dx dy dz).length

/-- box3d.rs:141-173 -/
instance {T : Type} [Transformation3d T F] : SdfvRel3d (Box3d F) (Point F) T F where
  sdfvRel a t rel :=
    let delta := applyOrigin rel
    let dx := FloatExtra.abs delta.x - a.halfsize.x
    let dy := FloatExtra.abs delta.y - a.halfsize.y
    let dz := FloatExtra.abs delta.z - a.halfsize.z
    if CollidesRel3d.collidesRel a t rel then box3dPush a.halfsize delta
    else
      ⟨FloatExtra.fmax dx 0 * FloatExtra.signum delta.x,
       FloatExtra.fmax dy 0 * FloatExtra.signum delta.y,
       FloatExtra.fmax dz 0 * FloatExtra.signum delta.z⟩

/-- ball3d.rs:19-23 -/
instance {T : Type} [Transformation3d T F] : CollidesRel3d (Ball F) (Point F) T where
  collidesRel a _ rel := decide ((applyOrigin rel).lengthSq < a.radius * a.radius)

/-- ball3d.rs:29-47 -/
instance {T : Type} [Transformation3d T F] : PenetratesRel3d (Ball F) (Point F) T F where
  penetratesRel a t rel :=
    if CollidesRel3d.collidesRel a t rel then
      let delta := applyOrigin rel
      let dist := delta.length
      if dist < FloatExtra.epsilon then some ⟨a.radius, 0, 0⟩
      else some (-(V3.scale ((a.radius - dist) / dist) delta))
    else none

/-- ball3d.rs:49-54 -/
instance {T : Type} [Transformation3d T F] : SdfRel3d (Ball F) (Point F) T F where
  sdfRel a _ rel := (applyOrigin rel).length - a.radius

/-- ball3d.rs:56-67 -/
instance {T : Type} [Transformation3d T F] : SdfvRel3d (Ball F) (Point F) T F where
  sdfvRel a _ rel :=
    let delta := applyOrigin rel
    let length := delta.length
    if length > 0 then V3.scale ((length - a.radius) / length) delta
    else V3.scale a.radius V3.unitX

/-! ## default_impls.rs: Point v shape -/

/-- default_impls.rs:7-15 -/
instance {A T : Type} [DefaultCol3dImpls A] [CollidesRel3d A (Point F) T] :
    CollidesRel3d (Point F) A T where
  collidesRel _ other rel := CollidesRel3d.collidesRel other (Point.mk : Point F) rel
/-- default_impls.rs:29-37 -/
instance {A T : Type} [DefaultCol3dImpls A] [PenetratesRel3d A (Point F) T F] :
    PenetratesRel3d (Point F) A T F where
  penetratesRel _ other rel := PenetratesRel3d.penetratesRel other (Point.mk : Point F) rel
/-- default_impls.rs:63-71 -/
instance {A T : Type} [DefaultCol3dImpls A] [SdfRel3d A (Point F) T F] :
    SdfRel3d (Point F) A T F where
  sdfRel _ other rel := SdfRel3d.sdfRel other (Point.mk : Point F) rel
/-- default_impls.rs:85-93 -/
instance {A T : Type} [DefaultCol3dImpls A] [SdfvRel3d A (Point F) T F] :
    SdfvRel3d (Point F) A T F where
  sdfvRel _ other rel := SdfvRel3d.sdfvRel other (Point.mk : Point F) rel

end

/-! ## collider-level, col3d/detection -/

/-- `Collides3d::collides`, collides.rs:57-66 -/
def collides3d {A B T : Type} [CollidesRel3d A B T] [Invertible T] [Composable T]
    (a : A) (ta : T) (b : B) (tb : T) : Bool :=
  CollidesRel3d.collidesRel a b (deltaTransform ta tb)
/-- `Collides3dV2::collides_v2`, collides.rs:73-83 -/
def collides3dV2 {A B T : Type} [CollidesRel3d A B T] [Invertible T] [Composable T]
    (self : A × T) (b : B) (tb : T) : Bool :=
  CollidesRel3d.collidesRel self.1 b (deltaTransform self.2 tb)
/-- `Collides3dV3::collides_v3`, collides.rs:90-101 -/
def collides3dV3 {A B T : Type} [CollidesRel3d A B T] [Invertible T] [Composable T]
    (self : A × T) (b : B × T) : Bool :=
  CollidesRel3d.collidesRel self.1 b.1 (deltaTransform self.2 b.2)
/-- `Penetrates3d::penetrates`, penetrates.rs:57-66 -/
def penetrates3d {A B T F : Type} [PenetratesRel3d A B T F] [Invertible T] [Composable T]
    (a : A) (ta : T) (b : B) (tb : T) : Option (V3 F) :=
  PenetratesRel3d.penetratesRel a b (deltaTransform ta tb)

end Auburn
