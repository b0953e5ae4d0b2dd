import Verif.Props.Utils
import Verif.Ieee.ApproxProps

/-!
# C60, C61: `approx_eq` with its default tolerance

`approx_eq` calls `approx_eq_tolerance` with `DEFAULT_TOLERANCE = 1e-6`, which is stored as the
nearest binary32 number.  The statements give the number a caller can rely on.
-/

set_option linter.unusedSectionVars false

namespace Auburn

section
variable {K : Type} [Field K] [LinearOrder K] [IsStrictOrderedRing K] [FloatExtra K] [ExactFloat K]

/-- `1e-6` as `f32`: within `2^-44` of the decimal number -/
def defaultTolerance : K := 8796093 / 2 ^ 43

theorem defaultTolerance_near : |(defaultTolerance : K) - 1 / 10 ^ 6| < 1 / 2 ^ 44 := by
  rw [defaultTolerance, abs_lt]; constructor <;> norm_num

/-- `a.approx_eq(&b)` on numbers: relative error at most the default tolerance, or, if one of them
is zero, absolute error below it -/
theorem C60_approx_default (a b : K) :
    approxEq a b = true ↔
      if a = 0 ∨ b = 0 then |a - b| < defaultTolerance else |a - b| ≤ defaultTolerance * |a| := by
  rw [approxEq, C60_approx_iff, ExactFloat.approxTol_eq, defaultTolerance]

/-- `a.approx_eq(&b)` on `Vec2`: the error is at most the default tolerance times the longer of the
two vectors -/
theorem C61_approx_default_vec2 (a b : V2 K) :
    (approxEqV2 a b = true ↔
      (a - b).lengthSq ≤ defaultTolerance ^ 2 * max a.lengthSq b.lengthSq) ∧
    approxEqV2 a b = approxEqV2 b a ∧ approxEqV2 a a = true := by
  refine ⟨?_, C61_approx_vec2_equiv a b _⟩
  rw [approxEqV2, C61_approx_vec2_iff, ExactFloat.approxTol_eq, defaultTolerance]

/-- the same for `Vec3` -/
theorem C61_approx_default_vec3 (a b : V3 K) :
    (approxEqV3 a b = true ↔
      (a - b).lengthSq ≤ defaultTolerance ^ 2 * max a.lengthSq b.lengthSq) ∧
    approxEqV3 a b = approxEqV3 b a ∧ approxEqV3 a a = true := by
  refine ⟨?_, C61_approx_vec3_equiv a b _⟩
  rw [approxEqV3, C61_approx_vec3_iff, ExactFloat.approxTol_eq, defaultTolerance]

/-- Finding: `approx_eq` is not transitive: steps of less than the tolerance lead from a vector to
one which is not approximately equal to it, so it cannot serve as an equality (keys, grouping). -/
theorem C61_approx_transitive_finding :
    ¬ ∀ a b c : V2 K, approxEqV2 a b = true → approxEqV2 b c = true → approxEqV2 a c = true := by
  intro h
  have key : ∀ x y : K, 0 ≤ x → x ≤ y → (approxEqV2 (⟨x, 0⟩ : V2 K) ⟨y, 0⟩ = true ↔
      y - x ≤ defaultTolerance * y) := by
    intro x y hx hxy
    have hy : 0 ≤ y := hx.trans hxy
    rw [(C61_approx_default_vec2 _ _).1]
    have e : max (V2.lengthSq (⟨x, 0⟩ : V2 K)) (V2.lengthSq ⟨y, 0⟩) = y ^ 2 := by
      simp only [V2.lengthSq, V2.dot]
      rw [max_eq_right (by nlinarith)]; ring
    rw [e]
    have e2 : V2.lengthSq ((⟨x, 0⟩ : V2 K) - ⟨y, 0⟩) = (y - x) ^ 2 := by
      simp [V2.lengthSq, V2.dot]; ring
    rw [e2, ← mul_pow]
    have ht : (0 : K) ≤ defaultTolerance * y :=
      mul_nonneg (by rw [defaultTolerance]; positivity) hy
    exact ⟨fun h => (abs_le_of_sq_le_sq' h ht).2, fun h => pow_le_pow_left₀ (by linarith) h 2⟩
  have h1 : approxEqV2 (⟨1, 0⟩ : V2 K) ⟨1 + 1 / 10 ^ 6 - 1 / 10 ^ 11, 0⟩ = true := by
    rw [key _ _ (by norm_num) (by norm_num), defaultTolerance]; norm_num
  have h2 : approxEqV2 (⟨1 + 1 / 10 ^ 6 - 1 / 10 ^ 11, 0⟩ : V2 K) ⟨1 + 19 / 10 ^ 7, 0⟩ = true := by
    rw [key _ _ (by norm_num) (by norm_num), defaultTolerance]; norm_num
  have h3 := h _ _ _ h1 h2
  rw [key _ _ (by norm_num) (by norm_num), defaultTolerance] at h3
  norm_num at h3

end

section
attribute [local instance] ratFloat ratFloat_exact

/-- both sides occur -/
example : approxEqV2 (⟨3, 4⟩ : V2 ℚ) ⟨3, 4 + 1 / 10 ^ 6⟩ = true ∧
    approxEqV2 (⟨3, 4⟩ : V2 ℚ) ⟨3, 4 + 1 / 10 ^ 5⟩ = false ∧
    approxEqV3 (⟨3, 4, 12⟩ : V3 ℚ) ⟨3, 4, 12 + 1 / 10 ^ 5⟩ = true ∧
    approxEqV3 (⟨3, 4, 12⟩ : V3 ℚ) ⟨3, 4, 12 + 2 / 10 ^ 5⟩ = false ∧
    approxEq (100 : ℚ) (100 + 1 / 10 ^ 5) = true ∧ approxEq (0 : ℚ) (9 / 10 ^ 7) = true ∧
    approxEq (0 : ℚ) (1 / 10 ^ 5) = false := by decide +kernel

end

section
variable [env : F32Env]

/-- In `f32` a vector with finite components is approximately equal to itself under `approx_eq`,
whatever its size. -/
theorem C61_f32_default_refl (a : V2 F32) (b : V3 F32) (ha : ∃ x y, F32.Is a.x x ∧ F32.Is a.y y)
    (hb : ∃ x y z, F32.Is b.x x ∧ F32.Is b.y y ∧ F32.Is b.z z) :
    approxEqV2 a a = true ∧ approxEqV3 b b = true := by
  obtain ⟨x, y, hx, hy⟩ := ha
  obtain ⟨u, v, w, hu, hv, hw⟩ := hb
  exact ⟨C61_f32_refl a x y hx hy _, C61_f32_refl_v3 b u v w hu hv hw _⟩

/-- A vector with a NaN component is approximately equal to no vector whose squared length is not
zero. -/
theorem C61_f32_default_nan (a b : V2 F32) (ha : a.x = .nan ∨ a.y = .nan)
    (hb : FloatExtra.feq (V2.lengthSq b) 0 = false) :
    approxEqV2 a b = false ∧ approxEqV2 b a = false :=
  C61_f32_nan a b _ ha hb

end

end Auburn
