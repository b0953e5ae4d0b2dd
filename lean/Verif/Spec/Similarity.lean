import Verif.Spec.Sets
import Verif.Props.Transforms

/-!
# Similarities: rotation + translation + uniform scaling

The class of placements for which the geometric theorems are stated; every transformation type of
the crate provides them (rigid motions in particular).
-/

set_option linter.unusedSectionVars false

namespace Auburn

open V2 Transformation2d

/-- `t` is a similarity of ratio `s`: `apply t p = apply_origin + s · (rotated p)` where the rotation
is the isometry `apply_normal`. -/
structure Similarity {T K : Type} [Transformation2d T K] [Add K] [Mul K] (t : T) (s : K) : Prop where
  apply_eq : ∀ p : V2 K, apply t p = applyOrigin t + V2.scale s (applyNormal t p)
  normal : NormalLaw (K := K) t
  factor : scalingFactor t = s

section
variable {K : Type} [Field K] [LinearOrder K] [IsStrictOrderedRing K] [FloatExtra K]

theorem similarity_identity (t : IdentityTransform K) : Similarity t (1 : K) :=
  ⟨fun p => by ext <;> simp [apply, applyOrigin, applyNormal], C07_normals_identity t, rfl⟩
theorem similarity_vec2 (t : V2 K) : Similarity t (1 : K) :=
  ⟨fun p => by ext <;> simp [apply, applyOrigin, applyNormal, add_comm], C07_normals_vec2 t, rfl⟩
theorem similarity_translate2d (t : Translate2d K) : Similarity t (1 : K) :=
  ⟨fun p => by ext <;> simp [apply, applyOrigin, applyNormal, add_comm],
    C07_normals_translate2d t, rfl⟩
theorem similarity_axis (t : AxisTransform2d K) : Similarity t t.scale :=
  ⟨fun _ => rfl, C07_normals_axis t, rfl⟩
theorem similarity_transform2d [ExactFloat K] (t : Transform2d K) (s : K) (hr : t.rot.IsUnit)
    (hs : t.scale = ⟨s, s⟩) : Similarity t s := by
  refine ⟨fun p => ?_, (C07_normals_transform2d t hr).1, ?_⟩
  · ext <;> simp [apply, applyOrigin, applyNormal, Rotor2d.rotate, hs] <;> ring
  · simp [scalingFactor, hs, ExactFloat.fmax_eq]

namespace Similarity
variable {T : Type} [Transformation2d T K] {t : T} {s : K}

theorem origin (h : Similarity t s) : applyOrigin t = apply t (0 : V2 K) := by
  have h1 := h.normal.2.2 0 0
  have h2 : applyNormal t (0 : V2 K) = 0 := by
    rw [dot_zero, dot_self, lengthSq_eq_zero] at h1; exact h1
  rw [h.apply_eq, h2]; ext <;> simp

theorem dot_applyNormal (h : Similarity t s) (n p : V2 K) :
    n.dot (applyNormal t p) = (unapplyNormal t n).dot p := by
  have := h.normal.2.2 (unapplyNormal t n) p
  rwa [h.normal.2.1] at this

/-- the support identity -/
theorem dot_apply (h : Similarity t s) (n p : V2 K) :
    n.dot (apply t p) = n.dot (applyOrigin t) + s * (unapplyNormal t n).dot p := by
  rw [h.apply_eq, dot_add, dot_scale, h.dot_applyNormal]

theorem lengthSq_unapplyNormal (h : Similarity t s) (n : V2 K) :
    lengthSq (unapplyNormal t n) = lengthSq n := by
  have := h.normal.2.2 (unapplyNormal t n) (unapplyNormal t n)
  rw [h.normal.2.1] at this
  exact this.symm

theorem lengthSq_applyNormal (h : Similarity t s) (n : V2 K) :
    lengthSq (applyNormal t n) = lengthSq n := h.normal.2.2 n n

/-- a similarity multiplies all distances by its ratio -/
theorem dist (h : Similarity t s) (p q : V2 K) :
    lengthSq (apply t p - apply t q) = s ^ 2 * lengthSq (p - q) := by
  have h1 : ∀ u v : V2 K, lengthSq (u - v) = lengthSq u - 2 * u.dot v + lengthSq v := by
    intro u v; simp only [lengthSq_def, dot_def, sub_x, sub_y]; ring
  have h2 : apply t p - apply t q = V2.scale s (applyNormal t p) - V2.scale s (applyNormal t q) := by
    rw [h.apply_eq, h.apply_eq]; ext <;> simp
  rw [h2, h1, h1, lengthSq_scale, lengthSq_scale, h.lengthSq_applyNormal, h.lengthSq_applyNormal,
    dot_scale, scale_dot, h.normal.2.2]
  ring

end Similarity

end

/-- non-vacuity: a rotated, translated, scaled transform -/
example : ∃ _ : FloatExtra ℚ, Similarity (⟨⟨1, 2⟩, ⟨⟨3 / 5, 4 / 5⟩⟩, ⟨2, 2⟩⟩ : Transform2d ℚ) (2 : ℚ) := by
  let _ := ratFloat
  have : ExactFloat ℚ := ratFloat_exact
  exact ⟨ratFloat, similarity_transform2d _ 2 (by simp only [Rotor2d.IsUnit]; norm_num) rfl⟩

end Auburn
