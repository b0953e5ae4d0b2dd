import Verif.Model.Shapes2d
import Verif.Model.Col3d

/-!
# `Default` implementations

Most are derived, i.e. field-wise defaults; the default `f32` is `0`, the default `glam::Quat` is the
identity.  (`Rotor2d::default` and `Transform2d::default` are hand-written: `Rotor2d.identity` and
`Transform2d.identity` in `Model/Transform2d`.)
-/

namespace Auburn

section
variable {F : Type} [Zero F] [One F]

/-- `IdentityTransform::default` (derived), col/transform.rs:4 -/
def IdentityTransform.default : IdentityTransform F := {}
/-- `Translate2d::default` (derived), translate2d.rs:3 -/
def Translate2d.default : Translate2d F := ⟨⟨0, 0⟩⟩
/-- `AxisTransform2d::default` (derived), axis_transform2d.rs:3 -/
def AxisTransform2d.default : AxisTransform2d F := ⟨⟨0, 0⟩, 0⟩
/-- `glam::Quat::default` is `Quat::IDENTITY` -/
def Quat.default : Quat F := ⟨0, 0, 0, 1⟩
/-- `Translate3d::default` (derived), translate3d.rs:3 -/
def Translate3d.default : Translate3d F := ⟨⟨0, 0, 0⟩⟩
/-- `AxisTransform3d::default` (derived), axis_transform3d.rs:3 -/
def AxisTransform3d.default : AxisTransform3d F := ⟨⟨0, 0, 0⟩, 0⟩
/-- `Isotropic3d::default` (derived), isotropic3d.rs:3 -/
def Isotropic3d.default : Isotropic3d F := ⟨⟨0, 0, 0⟩, Quat.default, 0⟩
/-- `Transform3d::default` (derived), transform3d.rs:3 -/
def Transform3d.default : Transform3d F := ⟨⟨0, 0, 0⟩, Quat.default, ⟨0, 0, 0⟩⟩
/-- `Ball::default` (derived), col/ball.rs:3 -/
def Ball.default : Ball F := ⟨0⟩
/-- `Box2d::default` (derived), box2d/mod.rs:7 -/
def Box2d.default : Box2d F := ⟨⟨0, 0⟩⟩
/-- `RoundedBox2d::default` (derived), rounded_box2d/mod.rs:5 -/
def RoundedBox2d.default : RoundedBox2d F := ⟨⟨0, 0⟩, 0⟩
/-- `Poly2d::default` (derived), poly2d/mod.rs:7 -/
def Poly2d.default : Poly2d F := ⟨[]⟩
/-- `Box3d::default` (derived), box3d.rs:4 -/
def Box3d.default : Box3d F := ⟨⟨0, 0, 0⟩⟩

end

end Auburn
