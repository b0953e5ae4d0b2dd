import Verif.Lib.V2

/-!
# Component lemmas for `V3` and quaternions
-/

set_option linter.unusedSectionVars false

namespace Auburn

namespace V3
section
variable {F : Type} [Zero F] [Add F] [Sub F] [Mul F] [Div F] [Neg F]
@[simp] theorem zero_x : (0 : V3 F).x = 0 := rfl
@[simp] theorem zero_y : (0 : V3 F).y = 0 := rfl
@[simp] theorem zero_z : (0 : V3 F).z = 0 := rfl
@[simp] theorem add_x (a b : V3 F) : (a + b).x = a.x + b.x := rfl
@[simp] theorem add_y (a b : V3 F) : (a + b).y = a.y + b.y := rfl
@[simp] theorem add_z (a b : V3 F) : (a + b).z = a.z + b.z := rfl
@[simp] theorem sub_x (a b : V3 F) : (a - b).x = a.x - b.x := rfl
@[simp] theorem sub_y (a b : V3 F) : (a - b).y = a.y - b.y := rfl
@[simp] theorem sub_z (a b : V3 F) : (a - b).z = a.z - b.z := rfl
@[simp] theorem neg_x (a : V3 F) : (-a).x = -a.x := rfl
@[simp] theorem neg_y (a : V3 F) : (-a).y = -a.y := rfl
@[simp] theorem neg_z (a : V3 F) : (-a).z = -a.z := rfl
@[simp] theorem scale_x (s : F) (a : V3 F) : (scale s a).x = s * a.x := rfl
@[simp] theorem scale_y (s : F) (a : V3 F) : (scale s a).y = s * a.y := rfl
@[simp] theorem scale_z (s : F) (a : V3 F) : (scale s a).z = s * a.z := rfl
@[simp] theorem mulV_x (a b : V3 F) : (mulV a b).x = a.x * b.x := rfl
@[simp] theorem mulV_y (a b : V3 F) : (mulV a b).y = a.y * b.y := rfl
@[simp] theorem mulV_z (a b : V3 F) : (mulV a b).z = a.z * b.z := rfl
@[simp] theorem divV_x (a b : V3 F) : (divV a b).x = a.x / b.x := rfl
@[simp] theorem divV_y (a b : V3 F) : (divV a b).y = a.y / b.y := rfl
@[simp] theorem divV_z (a b : V3 F) : (divV a b).z = a.z / b.z := rfl
@[simp] theorem divS_x (a : V3 F) (s : F) : (divS a s).x = a.x / s := rfl
@[simp] theorem divS_y (a : V3 F) (s : F) : (divS a s).y = a.y / s := rfl
@[simp] theorem divS_z (a : V3 F) (s : F) : (divS a s).z = a.z / s := rfl
theorem dot_def (a b : V3 F) : dot a b = a.x * b.x + a.y * b.y + a.z * b.z := rfl
theorem lengthSq_def (a : V3 F) : lengthSq a = a.x * a.x + a.y * a.y + a.z * a.z := rfl
@[simp] theorem cross_x (a b : V3 F) : (cross a b).x = a.y * b.z - b.y * a.z := rfl
@[simp] theorem cross_y (a b : V3 F) : (cross a b).y = a.z * b.x - b.z * a.x := rfl
@[simp] theorem cross_z (a b : V3 F) : (cross a b).z = a.x * b.y - b.x * a.y := rfl
end

section
variable {K : Type} [Field K]
@[simp] theorem recip_x (a : V3 K) : (recip a).x = 1 / a.x := rfl
@[simp] theorem recip_y (a : V3 K) : (recip a).y = 1 / a.y := rfl
@[simp] theorem recip_z (a : V3 K) : (recip a).z = 1 / a.z := rfl
theorem dot_comm (a b : V3 K) : dot a b = dot b a := by simp only [dot_def]; ring
theorem dot_add (a b c : V3 K) : dot a (b + c) = dot a b + dot a c := by
  simp only [dot_def, add_x, add_y, add_z]; ring
theorem dot_scale (s : K) (a b : V3 K) : dot a (scale s b) = s * dot a b := by
  simp only [dot_def, scale_x, scale_y, scale_z]; ring
end

section
variable {K : Type} [Field K] [LinearOrder K] [IsStrictOrderedRing K]
theorem lengthSq_nonneg (a : V3 K) : 0 ≤ lengthSq a :=
  add_nonneg (add_nonneg (mul_self_nonneg _) (mul_self_nonneg _)) (mul_self_nonneg _)
theorem lengthSq_eq_zero {a : V3 K} : lengthSq a = 0 ↔ a = 0 := by
  constructor
  · intro h
    have hx := mul_self_nonneg a.x
    have hy := mul_self_nonneg a.y
    have hz := mul_self_nonneg a.z
    rw [lengthSq_def] at h
    ext
    · exact mul_self_eq_zero.1 (by linarith)
    · exact mul_self_eq_zero.1 (by linarith)
    · exact mul_self_eq_zero.1 (by linarith)
  · rintro rfl; simp [lengthSq_def]
theorem lengthSq_pos {a : V3 K} : 0 < lengthSq a ↔ a ≠ 0 := by
  rw [(lengthSq_nonneg a).lt_iff_ne, ne_comm, ne_eq, lengthSq_eq_zero]
theorem lengthSq_scale (s : K) (a : V3 K) : lengthSq (scale s a) = s ^ 2 * lengthSq a := by
  simp only [lengthSq_def, scale_x, scale_y, scale_z]; ring
theorem dot_sq_le (a b : V3 K) : dot a b ^ 2 ≤ lengthSq a * lengthSq b := by
  have h1 := sq_nonneg (a.x * b.y - a.y * b.x)
  have h2 := sq_nonneg (a.x * b.z - a.z * b.x)
  have h3 := sq_nonneg (a.y * b.z - a.z * b.y)
  simp only [lengthSq_def, dot_def]; nlinarith

variable [FloatExtra K] [ExactSqrt K]
theorem length_nonneg (v : V3 K) : 0 ≤ v.length := ExactSqrt.sqrt_nonneg _ v.lengthSq_nonneg
theorem length_mul_self (v : V3 K) : v.length * v.length = v.lengthSq :=
  ExactSqrt.sqrt_mul_self _ v.lengthSq_nonneg
theorem length_sq (v : V3 K) : v.length ^ 2 = v.lengthSq := by rw [sq, length_mul_self]
theorem length_pos {v : V3 K} : 0 < v.length ↔ v ≠ 0 := by
  rw [← lengthSq_pos, ← length_sq]
  constructor
  · intro h; positivity
  · intro h
    rcases (length_nonneg v).lt_or_eq with h' | h'
    · exact h'
    · rw [← h'] at h; simp at h
theorem dot_le_length (a b : V3 K) : a.dot b ≤ a.length * b.length := by
  have h := dot_sq_le a b
  rw [← length_sq, ← length_sq, ← mul_pow] at h
  exact (abs_le.1 (abs_le_of_sq_le_sq h (mul_nonneg (length_nonneg a) (length_nonneg b)))).2
end
end V3

end Auburn
