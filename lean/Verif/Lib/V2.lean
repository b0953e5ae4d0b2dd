import Verif.Spec.Exact
import Mathlib.Algebra.Module.Basic
import Mathlib.Tactic.Ring
import Mathlib.Tactic.Linarith
import Mathlib.Tactic.FieldSimp
import Mathlib.Tactic.Positivity
import Mathlib.Tactic.LinearCombination

/-!
# `V2 K` as a vector space, and component lemmas
-/

set_option linter.unusedSectionVars false

namespace Auburn

namespace V2
section
variable {F : Type} [Zero F] [Add F] [Sub F] [Mul F] [Div F] [Neg F]
@[simp] theorem zero_x : (0 : V2 F).x = 0 := rfl
@[simp] theorem zero_y : (0 : V2 F).y = 0 := rfl
@[simp] theorem add_x (a b : V2 F) : (a + b).x = a.x + b.x := rfl
@[simp] theorem add_y (a b : V2 F) : (a + b).y = a.y + b.y := rfl
@[simp] theorem sub_x (a b : V2 F) : (a - b).x = a.x - b.x := rfl
@[simp] theorem sub_y (a b : V2 F) : (a - b).y = a.y - b.y := rfl
@[simp] theorem neg_x (a : V2 F) : (-a).x = -a.x := rfl
@[simp] theorem neg_y (a : V2 F) : (-a).y = -a.y := rfl
@[simp] theorem scale_x (s : F) (a : V2 F) : (scale s a).x = s * a.x := rfl
@[simp] theorem scale_y (s : F) (a : V2 F) : (scale s a).y = s * a.y := rfl
@[simp] theorem mulV_x (a b : V2 F) : (mulV a b).x = a.x * b.x := rfl
@[simp] theorem mulV_y (a b : V2 F) : (mulV a b).y = a.y * b.y := rfl
@[simp] theorem divV_x (a b : V2 F) : (divV a b).x = a.x / b.x := rfl
@[simp] theorem divV_y (a b : V2 F) : (divV a b).y = a.y / b.y := rfl
@[simp] theorem divS_x (a : V2 F) (s : F) : (divS a s).x = a.x / s := rfl
@[simp] theorem divS_y (a : V2 F) (s : F) : (divS a s).y = a.y / s := rfl
@[simp] theorem perp_x (a : V2 F) : (perp a).x = -a.y := rfl
@[simp] theorem perp_y (a : V2 F) : (perp a).y = a.x := rfl
theorem dot_def (a b : V2 F) : dot a b = a.x * b.x + a.y * b.y := rfl
theorem lengthSq_def (a : V2 F) : lengthSq a = a.x * a.x + a.y * a.y := rfl
end

section
variable {K : Type} [Field K]

@[simp] theorem recip_x (a : V2 K) : (recip a).x = 1 / a.x := rfl
@[simp] theorem recip_y (a : V2 K) : (recip a).y = 1 / a.y := rfl

/-- scalar multiplication of the vector space is the model's `scale` -/
instance : SMul K (V2 K) := ⟨scale⟩
theorem smul_eq_scale (s : K) (v : V2 K) : s • v = scale s v := rfl
@[simp] theorem smul_x (s : K) (v : V2 K) : (s • v).x = s * v.x := rfl
@[simp] theorem smul_y (s : K) (v : V2 K) : (s • v).y = s * v.y := rfl

/-- the additive group of the vector space uses the model's `0 + - neg` -/
instance : AddCommGroup (V2 K) where
  add_assoc a b c := by ext <;> simp [add_assoc]
  zero_add a := by ext <;> simp
  add_zero a := by ext <;> simp
  add_comm a b := by ext <;> simp [add_comm]
  neg_add_cancel a := by ext <;> simp
  sub_eq_add_neg a b := by ext <;> simp [sub_eq_add_neg]
  nsmul := nsmulRec
  zsmul := zsmulRec

instance : Module K (V2 K) where
  one_smul a := by ext <;> simp
  mul_smul r s a := by ext <;> simp [mul_assoc]
  smul_zero r := by ext <;> simp
  smul_add r a b := by ext <;> simp [mul_add]
  add_smul r s a := by ext <;> simp [add_mul]
  zero_smul a := by ext <;> simp

theorem dot_comm (a b : V2 K) : dot a b = dot b a := by simp only [dot_def]; ring
theorem dot_add (a b c : V2 K) : dot a (b + c) = dot a b + dot a c := by
  simp only [dot_def, add_x, add_y]; ring
theorem dot_sub (a b c : V2 K) : dot a (b - c) = dot a b - dot a c := by
  simp only [dot_def, sub_x, sub_y]; ring
theorem add_dot (a b c : V2 K) : dot (a + b) c = dot a c + dot b c := by
  simp only [dot_def, add_x, add_y]; ring
theorem sub_dot (a b c : V2 K) : dot (a - b) c = dot a c - dot b c := by
  simp only [dot_def, sub_x, sub_y]; ring
@[simp] theorem dot_neg (a b : V2 K) : dot a (-b) = -dot a b := by
  simp only [dot_def, neg_x, neg_y]; ring
@[simp] theorem neg_dot (a b : V2 K) : dot (-a) b = -dot a b := by
  simp only [dot_def, neg_x, neg_y]; ring
theorem dot_scale (s : K) (a b : V2 K) : dot a (scale s b) = s * dot a b := by
  simp only [dot_def, scale_x, scale_y]; ring
theorem scale_dot (s : K) (a b : V2 K) : dot (scale s a) b = s * dot a b := by
  simp only [dot_def, scale_x, scale_y]; ring
theorem dot_smul (s : K) (a b : V2 K) : dot a (s • b) = s * dot a b := dot_scale s a b
theorem smul_dot (s : K) (a b : V2 K) : dot (s • a) b = s * dot a b := scale_dot s a b
@[simp] theorem dot_zero (a : V2 K) : dot a 0 = 0 := by simp [dot_def]
@[simp] theorem zero_dot (a : V2 K) : dot 0 a = 0 := by simp [dot_def]
end

section
variable {K : Type} [Field K] [LinearOrder K] [IsStrictOrderedRing K]

theorem lengthSq_nonneg (a : V2 K) : 0 ≤ lengthSq a :=
  add_nonneg (mul_self_nonneg _) (mul_self_nonneg _)
theorem lengthSq_eq_zero {a : V2 K} : lengthSq a = 0 ↔ a = 0 := by
  constructor
  · intro h
    have hx := mul_self_nonneg a.x
    have hy := mul_self_nonneg a.y
    rw [lengthSq_def] at h
    have h1 : a.x * a.x = 0 := by linarith
    have h2 : a.y * a.y = 0 := by linarith
    ext
    · exact mul_self_eq_zero.1 h1
    · exact mul_self_eq_zero.1 h2
  · rintro rfl; simp [lengthSq_def]
theorem lengthSq_pos {a : V2 K} : 0 < lengthSq a ↔ a ≠ 0 := by
  rw [(lengthSq_nonneg a).lt_iff_ne, ne_comm, ne_eq, lengthSq_eq_zero]
theorem lengthSq_neg (a : V2 K) : lengthSq (-a) = lengthSq a := by simp [lengthSq_def]
theorem lengthSq_sub_comm (a b : V2 K) : lengthSq (a - b) = lengthSq (b - a) := by
  simp only [lengthSq_def, sub_x, sub_y]; ring
theorem dot_self (a : V2 K) : dot a a = lengthSq a := rfl
theorem lengthSq_scale (s : K) (a : V2 K) : lengthSq (scale s a) = s ^ 2 * lengthSq a := by
  simp only [lengthSq_def, scale_x, scale_y]; ring
/-- Cauchy–Schwarz, Lagrange form -/
theorem dot_sq_le (a b : V2 K) : dot a b ^ 2 ≤ lengthSq a * lengthSq b := by
  have := sq_nonneg (a.x * b.y - a.y * b.x)
  simp only [lengthSq_def, dot_def]; nlinarith
end
end V2

section
variable {K : Type} [Field K] [LinearOrder K] [IsStrictOrderedRing K] [FloatExtra K]

theorem V2.length_nonneg [ExactSqrt K] (v : V2 K) : 0 ≤ v.length :=
  ExactSqrt.sqrt_nonneg _ v.lengthSq_nonneg
theorem V2.length_mul_self [ExactSqrt K] (v : V2 K) : v.length * v.length = v.lengthSq :=
  ExactSqrt.sqrt_mul_self _ v.lengthSq_nonneg
theorem V2.length_sq [ExactSqrt K] (v : V2 K) : v.length ^ 2 = v.lengthSq := by
  rw [sq, V2.length_mul_self]
theorem V2.length_pos [ExactSqrt K] {v : V2 K} : 0 < v.length ↔ v ≠ 0 := by
  rw [← V2.lengthSq_pos, ← V2.length_sq]
  constructor
  · intro h; positivity
  · intro h
    rcases (V2.length_nonneg v).lt_or_eq with h' | h'
    · exact h'
    · rw [← h'] at h; simp at h
/-- Cauchy–Schwarz with lengths -/
theorem V2.dot_le_length [ExactSqrt K] (a b : V2 K) : a.dot b ≤ a.length * b.length := by
  have h := V2.dot_sq_le a b
  rw [← V2.length_sq, ← V2.length_sq, ← mul_pow] at h
  exact (abs_le.1 (abs_le_of_sq_le_sq h
    (mul_nonneg (V2.length_nonneg a) (V2.length_nonneg b)))).2
theorem V2.neg_length_le_dot [ExactSqrt K] (a b : V2 K) : -(a.length * b.length) ≤ a.dot b := by
  have h := V2.dot_sq_le a b
  rw [← V2.length_sq, ← V2.length_sq, ← mul_pow] at h
  exact (abs_le.1 (abs_le_of_sq_le_sq h
    (mul_nonneg (V2.length_nonneg a) (V2.length_nonneg b)))).1
end

end Auburn
