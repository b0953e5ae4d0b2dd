import Verif.Model.Scalar

/-!
# Vectors and quaternions (the part of `glam` 0.29 the crate uses), and `src/lib.rs`
-/

namespace Auburn

/-- `glam::Vec2` -/
@[ext] structure V2 (F : Type) where
  x : F
  y : F
  deriving DecidableEq, Repr

/-- `glam::Vec3` -/
@[ext] structure V3 (F : Type) where
  x : F
  y : F
  z : F
  deriving DecidableEq, Repr

/-- `glam::Quat` -/
@[ext] structure Quat (F : Type) where
  x : F
  y : F
  z : F
  w : F
  deriving DecidableEq, Repr

section
variable {F : Type} [Zero F] [One F] [Add F] [Sub F] [Mul F] [Div F] [Neg F]
  [LT F] [LE F] [DecidableLT F] [DecidableLE F] [FloatExtra F]

namespace V2

/-- `Vec2::ZERO` -/
instance : Zero (V2 F) := ⟨⟨0, 0⟩⟩
/-- `Vec2 + Vec2` (glam, component-wise) -/
instance : Add (V2 F) := ⟨fun a b => ⟨a.x + b.x, a.y + b.y⟩⟩
/-- `Vec2 - Vec2` -/
instance : Sub (V2 F) := ⟨fun a b => ⟨a.x - b.x, a.y - b.y⟩⟩
/-- `-Vec2` -/
instance : Neg (V2 F) := ⟨fun a => ⟨-a.x, -a.y⟩⟩
/-- `Vec2::X` -/
def unitX : V2 F := ⟨1, 0⟩
/-- `Vec2::Y` -/
def unitY : V2 F := ⟨0, 1⟩
/-- `Vec2::ONE` -/
def one : V2 F := ⟨1, 1⟩
/-- `Vec2::NAN` -/
def nan : V2 F := ⟨FloatExtra.nan, FloatExtra.nan⟩
/-- `f32 * Vec2` and `Vec2 * f32` (component-wise product with a scalar) -/
def scale (s : F) (v : V2 F) : V2 F := ⟨s * v.x, s * v.y⟩
/-- `Vec2 * Vec2` (component-wise) -/
def mulV (a b : V2 F) : V2 F := ⟨a.x * b.x, a.y * b.y⟩
/-- `Vec2 / Vec2` (component-wise) -/
def divV (a b : V2 F) : V2 F := ⟨a.x / b.x, a.y / b.y⟩
/-- `Vec2 / f32` -/
def divS (a : V2 F) (s : F) : V2 F := ⟨a.x / s, a.y / s⟩
/-- `f32 / Vec2` (used as `1.0 / scale`) -/
def recip (a : V2 F) : V2 F := ⟨1 / a.x, 1 / a.y⟩
/-- `Vec2::dot` -/
def dot (a b : V2 F) : F := a.x * b.x + a.y * b.y
/-- `Vec2::length_squared` -/
def lengthSq (a : V2 F) : F := dot a a
/-- `Vec2::length` -/
def length (a : V2 F) : F := FloatExtra.sqrt (dot a a)
/-- `Vec2::perp` (glam: rotate by 90 degrees counter-clockwise) -/
def perp (a : V2 F) : V2 F := ⟨-a.y, a.x⟩
/-- `Vec2::normalize_or_zero` (glam: multiply by the reciprocal length if that is finite and
positive, else `ZERO`) -/
def normalizeOrZero (a : V2 F) : V2 F :=
  let rcp := 1 / length a
  if FloatExtra.isFinite rcp ∧ rcp > 0 then scale rcp a else 0
/-- `Vec2 == Vec2` (component-wise f32 `==`) -/
def feq (a b : V2 F) : Bool := FloatExtra.feq a.x b.x && FloatExtra.feq a.y b.y

end V2

namespace V3

/-- `Vec3::ZERO` -/
instance : Zero (V3 F) := ⟨⟨0, 0, 0⟩⟩
/-- `Vec3 + Vec3` -/
instance : Add (V3 F) := ⟨fun a b => ⟨a.x + b.x, a.y + b.y, a.z + b.z⟩⟩
/-- `Vec3 - Vec3` -/
instance : Sub (V3 F) := ⟨fun a b => ⟨a.x - b.x, a.y - b.y, a.z - b.z⟩⟩
/-- `-Vec3` -/
instance : Neg (V3 F) := ⟨fun a => ⟨-a.x, -a.y, -a.z⟩⟩
/-- `Vec3::X` -/
def unitX : V3 F := ⟨1, 0, 0⟩
/-- `f32 * Vec3`, `Vec3 * f32` -/
def scale (s : F) (v : V3 F) : V3 F := ⟨s * v.x, s * v.y, s * v.z⟩
/-- `Vec3 * Vec3` (component-wise) -/
def mulV (a b : V3 F) : V3 F := ⟨a.x * b.x, a.y * b.y, a.z * b.z⟩
/-- `Vec3 / Vec3` (component-wise) -/
def divV (a b : V3 F) : V3 F := ⟨a.x / b.x, a.y / b.y, a.z / b.z⟩
/-- `Vec3 / f32` -/
def divS (a : V3 F) (s : F) : V3 F := ⟨a.x / s, a.y / s, a.z / s⟩
/-- `f32 / Vec3` -/
def recip (a : V3 F) : V3 F := ⟨1 / a.x, 1 / a.y, 1 / a.z⟩
/-- `Vec3::dot` -/
def dot (a b : V3 F) : F := a.x * b.x + a.y * b.y + a.z * b.z
/-- `Vec3::cross` -/
def cross (a b : V3 F) : V3 F :=
  ⟨a.y * b.z - b.y * a.z, a.z * b.x - b.z * a.x, a.x * b.y - b.x * a.y⟩
/-- `Vec3::length_squared` -/
def lengthSq (a : V3 F) : F := dot a a
/-- `Vec3::length` -/
def length (a : V3 F) : F := FloatExtra.sqrt (dot a a)
/-- `Vec3::normalize_or_zero` -/
def normalizeOrZero (a : V3 F) : V3 F :=
  let rcp := 1 / length a
  if FloatExtra.isFinite rcp ∧ rcp > 0 then scale rcp a else 0
/-- `Vec3 == Vec3` -/
def feq (a b : V3 F) : Bool :=
  FloatExtra.feq a.x b.x && FloatExtra.feq a.y b.y && FloatExtra.feq a.z b.z

end V3

namespace Quat

/-- `Quat::dot` -/
def dot (a b : Quat F) : F := a.x * b.x + a.y * b.y + a.z * b.z + a.w * b.w
/-- `Quat::inverse` (glam: the conjugate; asserts, in debug builds of glam only, that the
quaternion is normalised) -/
def inverse (q : Quat F) : Quat F := ⟨-q.x, -q.y, -q.z, q.w⟩
/-- `Quat * Quat` (Hamilton product) -/
def mulQ (a b : Quat F) : Quat F :=
  ⟨a.w * b.x + a.x * b.w + a.y * b.z - a.z * b.y,
   a.w * b.y - a.x * b.z + a.y * b.w + a.z * b.x,
   a.w * b.z + a.x * b.y - a.y * b.x + a.z * b.w,
   a.w * b.w - a.x * b.x - a.y * b.y - a.z * b.z⟩
/-- `Quat * Vec3` (glam `mul_vec3`) -/
def mulV3 (q : Quat F) (v : V3 F) : V3 F :=
  let b : V3 F := ⟨q.x, q.y, q.z⟩
  let b2 := b.dot b
  V3.scale (q.w * q.w - b2) v + V3.scale (v.dot b * FloatExtra.two) b
    + V3.scale (q.w * FloatExtra.two) (b.cross v)

end Quat

/-- `Square::square` for f32, src/lib.rs:18-22 -/
def square (a : F) : F := a * a

/-- `Lerp::lerp` for f32, src/lib.rs:28-32 -/
def lerp (a b t : F) : F := a + t * (b - a)

/-- `Lerp::lerp` for Vec2, src/lib.rs:34-38 -/
def lerpV2 (a b : V2 F) (t : F) : V2 F := a + V2.scale t (b - a)

end

end Auburn
