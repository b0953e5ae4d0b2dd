import Verif.Model.Col3d
import Verif.Model.Dormant

/-!
# Derived `PartialEq`

`#[derive(PartialEq)]` compares field by field.  `f32`'s `==` is `FloatExtra.feq` (false for NaN, true for the
two zeros); glam's `Vec2`, `Vec3` and `Quat` compare component by component.  `Poly2d`, `Shape2d`,
`AxisTransform2d`, `AxisTransform3d` and `Translate3d` derive no `PartialEq`; for `Poly2d` the list of vertices
(a `Vec<Vec2>`) is compared.
-/

namespace Auburn

/-- trait `PartialEq` (`a == b`) -/
class PEq (A : Type) where
  eqv : A → A → Bool

section
variable {F : Type} [FloatExtra F]

/-- glam `Vec2 == Vec2` -/
instance : PEq (V2 F) where
  eqv a b := FloatExtra.feq a.x b.x && FloatExtra.feq a.y b.y

/-- glam `Vec3 == Vec3` -/
instance : PEq (V3 F) where
  eqv a b := FloatExtra.feq a.x b.x && FloatExtra.feq a.y b.y && FloatExtra.feq a.z b.z

/-- glam `Quat == Quat` -/
instance : PEq (Quat F) where
  eqv a b := FloatExtra.feq a.x b.x && FloatExtra.feq a.y b.y && FloatExtra.feq a.z b.z && FloatExtra.feq a.w b.w

/-- `Vec<Vec2> == Vec<Vec2>`: the same length and equal elements -/
def eqvList {A : Type} [PEq A] : List A → List A → Bool
  | [], [] => true
  | a :: l, b :: m => PEq.eqv a b && eqvList l m
  | _, _ => false

/-- `IdentityTransform`, col/transform.rs:4 -/
instance : PEq (IdentityTransform F) where
  eqv _ _ := true

/-- `Point`, col/point.rs:3 -/
instance : PEq (Point F) where
  eqv _ _ := true

/-- `Ball`, col/ball.rs:3 -/
instance : PEq (Ball F) where
  eqv a b := FloatExtra.feq a.radius b.radius

/-- `Box2d`, box2d/mod.rs:7 -/
instance : PEq (Box2d F) where
  eqv a b := PEq.eqv a.halfsize b.halfsize

/-- `RoundedBox2d`, rounded_box2d/mod.rs:5 -/
instance : PEq (RoundedBox2d F) where
  eqv a b := PEq.eqv a.halfsize b.halfsize && FloatExtra.feq a.radius b.radius

/-- `Ellipse2d`, ellipse2d.rs:8 -/
instance : PEq (Ellipse2d F) where
  eqv a b := PEq.eqv a.radii b.radii

/-- `Translate2d`, translate2d.rs:3 -/
instance : PEq (Translate2d F) where
  eqv a b := PEq.eqv a.pos b.pos

/-- `Rotor2d`, transformation2d/mod.rs:69 -/
instance : PEq (Rotor2d F) where
  eqv a b := PEq.eqv a.a b.a

/-- `Transform2d`, transform2d.rs:3 -/
instance : PEq (Transform2d F) where
  eqv a b := PEq.eqv a.pos b.pos && PEq.eqv a.rot b.rot && PEq.eqv a.scale b.scale

/-- `Collider2d`, collider2d.rs:4 (the borrowed fields are compared by value) -/
instance {S T : Type} [PEq S] [PEq T] : PEq (Collider2d S T) where
  eqv a b := PEq.eqv a.shape b.shape && PEq.eqv a.transform b.transform

/-- `Box3d`, box3d.rs:4 -/
instance : PEq (Box3d F) where
  eqv a b := PEq.eqv a.halfsize b.halfsize

/-- `Isotropic3d`, isotropic3d.rs:3 -/
instance : PEq (Isotropic3d F) where
  eqv a b := PEq.eqv a.pos b.pos && PEq.eqv a.rot b.rot && FloatExtra.feq a.scale b.scale

/-- `Transform3d`, transform3d.rs:3 -/
instance : PEq (Transform3d F) where
  eqv a b := PEq.eqv a.pos b.pos && PEq.eqv a.rot b.rot && PEq.eqv a.scale b.scale

end

end Auburn
