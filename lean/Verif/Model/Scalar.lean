import Mathlib.Order.Defs.LinearOrder

/-!
# Scalars

The crate computes with `f32`.  The model is polymorphic in the scalar type `F`; besides the
arithmetic and comparison notation it only uses the operations of `FloatExtra F` below.
No laws are assumed here: laws are assumed (and instantiated) in `Verif.Spec.Exact`
(exact arithmetic) and `Verif.Ieee` (binary32).
-/

namespace Auburn

/-- The `f32` operations and constants used by the crate beyond `+ - * / neg < <=`.
Models the primitive `f32` methods called in `/repo/src` (each field names them). -/
class FloatExtra (F : Type) where
  /-- `f32::abs` -/
  abs : F → F
  /-- `f32::max` (on f32: ignores NaN) -/
  fmax : F → F → F
  /-- `f32::min` (on f32: ignores NaN) -/
  fmin : F → F → F
  /-- `f32::signum` (on f32: `±1` also for `±0`, NaN for NaN) -/
  signum : F → F
  /-- `f32::sqrt` -/
  sqrt : F → F
  /-- `f32::sin` -/
  sin : F → F
  /-- `f32::cos` -/
  cos : F → F
  /-- `f32::atan2 (y, x)` -/
  atan2 : F → F → F
  /-- `usize as f32` / `i32 as f32` -/
  ofInt : Int → F
  /-- `round_to_i32` of the `round-to` crate (nearest integer; the tie rule is not modelled) -/
  roundI32 : F → Int
  /-- `std::f32::consts::PI` -/
  pi : F
  /-- `f32::NAN` -/
  nan : F
  /-- `f32::is_nan` -/
  isNan : F → Bool
  /-- `f32::is_infinite` -/
  isInfinite : F → Bool
  /-- `f32::is_finite` -/
  isFinite : F → Bool
  /-- `f32::is_sign_negative` -/
  isSignNeg : F → Bool
  /-- `==` on f32 -/
  feq : F → F → Bool
  /-- `x < f32::INFINITY` -/
  ltInf : F → Bool
  /-- `f32::EPSILON` -/
  epsilon : F
  /-- the literal `0.01` (local_minkowski_diff/mod.rs:333) -/
  tol : F
  /-- the literal `1e-6` (utils/approx.rs:5) -/
  approxTol : F
  /-- `f32::MIN`, the most negative finite number -/
  f32Min : F
  /-- the literal `0.5` -/
  half : F
  /-- the literal `2.0` -/
  two : F

/-- Ways in which the modelled Rust code can panic. -/
inductive Panic where
  /-- an `unreachable!()` was reached -/
  | unreachable
  /-- `assert_eq!` failed -/
  | assertFailed
  /-- index out of bounds in `Vec` indexing or `Vec::insert` -/
  | outOfBounds
  /-- the explicit panic at local_minkowski_diff/v.rs:216 -/
  | collidedAfterImpossible
  deriving DecidableEq, Repr

end Auburn
