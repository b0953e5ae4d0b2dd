import Verif.Model.Vec
import Mathlib.Algebra.Order.Field.Basic
import Mathlib.Algebra.Order.Ring.Abs
import Mathlib.Data.Rat.Lemmas
import Mathlib.Analysis.Real.Sqrt
import Mathlib.Analysis.SpecialFunctions.Complex.Arg
import Mathlib.Algebra.Order.Floor.Ring
import Mathlib.Algebra.Order.Archimedean.Basic

/-!
# Exact arithmetic (Tier 2)

`ExactFloat K`: the `FloatExtra` operations of the ordered field `K` behave as the `f32` operations
do when no rounding, overflow or NaN occurs.  Left open on purpose (theorems hold for every choice):
the value `NAN`, the sign `signum 0 ∈ {1, -1}` (on `f32` it depends on the sign of the zero),
`sqrt`, `sin`, `cos`, `atan2`, `PI`, and the tie rule of rounding to integers.
-/

namespace Auburn

/-- laws of exact scalar arithmetic (no rounding) -/
class ExactFloat (K : Type) [Field K] [LinearOrder K] [FloatExtra K] : Prop where
  abs_eq : ∀ x : K, FloatExtra.abs x = |x|
  fmax_eq : ∀ x y : K, FloatExtra.fmax x y = max x y
  fmin_eq : ∀ x y : K, FloatExtra.fmin x y = min x y
  signum_pos : ∀ x : K, 0 < x → FloatExtra.signum x = 1
  signum_neg : ∀ x : K, x < 0 → FloatExtra.signum x = -1
  signum_zero : FloatExtra.signum (0 : K) = 1 ∨ FloatExtra.signum (0 : K) = -1
  isNan_eq : ∀ x : K, FloatExtra.isNan x = false
  isInfinite_eq : ∀ x : K, FloatExtra.isInfinite x = false
  isFinite_eq : ∀ x : K, FloatExtra.isFinite x = true
  /-- `is_sign_negative` is only called on differences `|a| - b`, which are never `-0.0` under
  round-to-nearest; hence zero counts as non-negative (see also the binary32 tier) -/
  isSignNeg_eq : ∀ x : K, FloatExtra.isSignNeg x = decide (x < 0)
  feq_eq : ∀ x y : K, FloatExtra.feq x y = decide (x = y)
  ltInf_eq : ∀ x : K, FloatExtra.ltInf x = true
  ofInt_eq : ∀ n : Int, (FloatExtra.ofInt n : K) = (n : K)
  /-- `f32::EPSILON = 2^-23` -/
  epsilon_eq : (FloatExtra.epsilon : K) = 1 / 2 ^ 23
  /-- `0.01f32 = 10737418 * 2^-30` -/
  tol_eq : (FloatExtra.tol : K) = 10737418 / 2 ^ 30
  /-- `1e-6f32 = 8796093 * 2^-43` -/
  approxTol_eq : (FloatExtra.approxTol : K) = 8796093 / 2 ^ 43
  /-- `f32::MIN = -(2^128 - 2^104)` -/
  f32Min_eq : (FloatExtra.f32Min : K) = -(2 ^ 128 - 2 ^ 104)
  half_eq : (FloatExtra.half : K) = 1 / 2
  two_eq : (FloatExtra.two : K) = 2
  /-- `round_to_i32` gives a nearest integer -/
  round_near : ∀ x : K, |x - (FloatExtra.roundI32 x : K)| ≤ 1 / 2

/-- exact square roots -/
class ExactSqrt (K : Type) [Field K] [LinearOrder K] [FloatExtra K] : Prop where
  sqrt_nonneg : ∀ x : K, 0 ≤ x → 0 ≤ FloatExtra.sqrt x
  sqrt_mul_self : ∀ x : K, 0 ≤ x → FloatExtra.sqrt x * FloatExtra.sqrt x = x

/-- exact trigonometry over the reals -/
class RealTrig [FloatExtra ℝ] : Prop where
  sin_eq : ∀ x : ℝ, FloatExtra.sin x = Real.sin x
  cos_eq : ∀ x : ℝ, FloatExtra.cos x = Real.cos x
  pi_eq : (FloatExtra.pi : ℝ) = Real.pi
  atan2_eq : ∀ y x : ℝ, FloatExtra.atan2 y x = Complex.arg ⟨x, y⟩

/-! ## Instances: the laws are satisfiable -/

/-- The reals with exact operations; `z` is the sign given to zero and `n` the value of `NAN`. -/
@[reducible] noncomputable def realFloat (z : Bool) (n : ℝ) : FloatExtra ℝ where
  abs x := |x|
  fmax := max
  fmin := min
  signum x := if 0 < x then 1 else if x < 0 then -1 else if z then 1 else -1
  sqrt := Real.sqrt
  sin := Real.sin
  cos := Real.cos
  atan2 y x := Complex.arg ⟨x, y⟩
  ofInt n := (n : ℝ)
  roundI32 := fun x => ⌊x + 1 / 2⌋
  pi := Real.pi
  nan := n
  isNan _ := false
  isInfinite _ := false
  isFinite _ := true
  isSignNeg x := decide (x < 0)
  feq x y := decide (x = y)
  ltInf _ := true
  epsilon := 1 / 2 ^ 23
  tol := 10737418 / 2 ^ 30
  approxTol := 8796093 / 2 ^ 43
  f32Min := -(2 ^ 128 - 2 ^ 104)
  half := 1 / 2
  two := 2

/-- The rationals with exact operations (no square root: `sqrt`, `sin`, ... are dummies).  Used to
evaluate sqrt-free parts of the model in the kernel. -/
@[reducible] def ratFloat : FloatExtra ℚ where
  abs x := |x|
  fmax := max
  fmin := min
  signum x := if 0 < x then 1 else if x < 0 then -1 else 1
  sqrt x := x
  sin x := x
  cos x := x
  atan2 y _ := y
  ofInt n := (n : ℚ)
  roundI32 := fun x => ⌊x + 1 / 2⌋
  pi := 3
  nan := 0
  isNan _ := false
  isInfinite _ := false
  isFinite _ := true
  isSignNeg x := decide (x < 0)
  feq x y := decide (x = y)
  ltInf _ := true
  epsilon := 1 / 2 ^ 23
  tol := 10737418 / 2 ^ 30
  approxTol := 8796093 / 2 ^ 43
  f32Min := -(2 ^ 128 - 2 ^ 104)
  half := 1 / 2
  two := 2

private theorem round_near_floor {K : Type} [Field K] [LinearOrder K] [IsStrictOrderedRing K]
    [FloorRing K] (x : K) : |x - ((⌊x + 1 / 2⌋ : ℤ) : K)| ≤ 1 / 2 := by
  have h1 := Int.floor_le (x + 1 / 2)
  have h2 := Int.lt_floor_add_one (x + 1 / 2)
  rw [abs_le]; constructor <;> linarith

theorem realFloat_exact (z : Bool) (n : ℝ) : @ExactFloat ℝ _ _ (realFloat z n) := by
  let _ := realFloat z n
  constructor
  all_goals first
    | (intros; rfl)
    | rfl
    | skip
  · intro x hx; exact if_pos hx
  · intro x hx; exact (if_neg (not_lt.2 hx.le)).trans (if_pos hx)
  · have h : (realFloat z n).signum 0 = if z = true then 1 else -1 :=
      (if_neg (lt_irrefl _)).trans (if_neg (lt_irrefl _))
    cases z
    · exact Or.inr h
    · exact Or.inl h
  · intro x; exact round_near_floor x

theorem realFloat_sqrt (z : Bool) (n : ℝ) : @ExactSqrt ℝ _ _ (realFloat z n) := by
  let _ := realFloat z n
  exact ⟨fun x _ => Real.sqrt_nonneg x, fun x hx => Real.mul_self_sqrt hx⟩

theorem realFloat_trig (z : Bool) (n : ℝ) : @RealTrig (realFloat z n) := by
  let _ := realFloat z n
  exact ⟨fun _ => rfl, fun _ => rfl, rfl, fun _ _ => rfl⟩

theorem ratFloat_exact : @ExactFloat ℚ _ _ ratFloat := by
  let _ := ratFloat
  constructor
  all_goals first
    | (intros; rfl)
    | rfl
    | skip
  · intro x hx; exact if_pos hx
  · intro x hx; exact (if_neg (not_lt.2 hx.le)).trans (if_pos hx)
  · exact Or.inl ((if_neg (lt_irrefl _)).trans (if_neg (lt_irrefl _)))
  · intro x; exact round_near_floor x

end Auburn
