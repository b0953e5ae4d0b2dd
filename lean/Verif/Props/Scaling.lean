import Verif.Props.Shapes
import Verif.Props.Bevy2d

/-!
# C89: `scaling_factor` is the largest stretch, and what a ball under an uneven scale means

`scaling_factor` (transformation2d/mod.rs:40) is used by the extreme point of a ball collider
(shape/ball2d/mod.rs:23).
-/

set_option linter.unusedSectionVars false
set_option synthInstance.maxSize 1000

namespace Auburn

open V2 ExtremePoint2d Transformation2d

section
variable {K : Type} [Field K] [LinearOrder K] [IsStrictOrderedRing K]

/-- `f` is the largest factor by which `t` stretches a segment: no segment is stretched more, and one is stretched
exactly so. -/
def LargestStretch {T : Type} [Transformation2d T K] (t : T) (f : K) : Prop :=
  0 ≤ f ∧ (∀ p q : V2 K, lengthSq (apply t p - apply t q : V2 K) ≤ f ^ 2 * lengthSq (p - q)) ∧
    ∃ p q : V2 K, p ≠ q ∧ lengthSq (apply t p - apply t q : V2 K) = f ^ 2 * lengthSq (p - q)

/-- there is only one such number -/
theorem LargestStretch.unique {T : Type} [Transformation2d T K] {t : T} {f g : K} (h : LargestStretch t f)
    (h' : LargestStretch t g) : f = g := by
  have key : ∀ {f g : K}, LargestStretch t f → LargestStretch t g → f ≤ g := by
    intro f g ⟨f0, _, p, q, pq, e⟩ ⟨g0, hg, _⟩
    have h1 := hg p q
    rw [e] at h1
    have h2 : 0 < lengthSq (p - q) := lengthSq_pos.2 (sub_ne_zero.2 pq)
    exact (pow_le_pow_iff_left₀ f0 g0 two_ne_zero).1 (le_of_mul_le_mul_right h1 h2)
  exact le_antisymm (key h h') (key h' h)

/-- the closed disc -/
def discAt (c : V2 K) (r : K) : Set (V2 K) := {p | lengthSq (p - c) ≤ r ^ 2}

section
variable [FloatExtra K]

theorem C89_stretch_identity (t : IdentityTransform K) : LargestStretch t (scalingFactor t : K) := by
  refine ⟨zero_le_one, fun p q => ?_, ⟨1, 0⟩, 0, fun h => one_ne_zero (congrArg V2.x h), ?_⟩ <;>
    simp [apply, scalingFactor]
theorem C89_stretch_vec2 (t : V2 K) : LargestStretch t (scalingFactor t : K) := by
  refine ⟨zero_le_one, fun p q => ?_, ⟨1, 0⟩, 0, fun h => one_ne_zero (congrArg V2.x h), ?_⟩ <;>
    simp [apply, scalingFactor]
theorem C89_stretch_translate2d (t : Translate2d K) : LargestStretch t (scalingFactor t : K) := by
  refine ⟨zero_le_one, fun p q => ?_, ⟨1, 0⟩, 0, fun h => one_ne_zero (congrArg V2.x h), ?_⟩ <;>
    simp [apply, scalingFactor]
theorem C89_stretch_axis (t : AxisTransform2d K) (h : 0 ≤ t.scale) : LargestStretch t (scalingFactor t : K) := by
  have e : ∀ p q : V2 K, lengthSq (apply t p - apply t q : V2 K) = t.scale ^ 2 * lengthSq (p - q) := fun p q => by
    simp only [apply, lengthSq_def, sub_x, sub_y, add_x, add_y, scale_x, scale_y]; ring
  exact ⟨h, fun p q => (e p q).le, ⟨1, 0⟩, 0, fun h => one_ne_zero (congrArg V2.x h), e _ _⟩

variable [ExactFloat K]

theorem transform2d_stretch (t : Transform2d K) (hr : t.rot.IsUnit) (p q : V2 K) :
    lengthSq (apply t p - apply t q : V2 K) = t.scale.x ^ 2 * (p.x - q.x) ^ 2 + t.scale.y ^ 2 * (p.y - q.y) ^ 2 := by
  have e : lengthSq (apply t p - apply t q : V2 K) = (t.rot.a.x ^ 2 + t.rot.a.y ^ 2) *
      (t.scale.x ^ 2 * (p.x - q.x) ^ 2 + t.scale.y ^ 2 * (p.y - q.y) ^ 2) := by
    simp only [apply, lengthSq_def, sub_x, sub_y, add_x, add_y, mulV_x, mulV_y, Rotor2d.rotate]; ring
  rw [e, hr, one_mul]

/-- For a `Transform2d` with scales that are not negative, even or uneven. -/
theorem C89_stretch_transform2d (t : Transform2d K) (hr : t.rot.IsUnit) (hx : 0 ≤ t.scale.x) (hy : 0 ≤ t.scale.y) :
    LargestStretch t (scalingFactor t : K) := by
  have ef : (scalingFactor t : K) = max t.scale.x t.scale.y := ExactFloat.fmax_eq _ _
  rw [ef]
  refine ⟨le_max_of_le_left hx, fun p q => ?_, ?_⟩
  · rw [transform2d_stretch t hr]
    have h1 : t.scale.x ^ 2 ≤ max t.scale.x t.scale.y ^ 2 := pow_le_pow_left₀ hx (le_max_left _ _) 2
    have h2 : t.scale.y ^ 2 ≤ max t.scale.x t.scale.y ^ 2 := pow_le_pow_left₀ hy (le_max_right _ _) 2
    have h3 := mul_le_mul_of_nonneg_right h1 (sq_nonneg (p.x - q.x))
    have h4 := mul_le_mul_of_nonneg_right h2 (sq_nonneg (p.y - q.y))
    have e : lengthSq (p - q) = (p.x - q.x) ^ 2 + (p.y - q.y) ^ 2 := by simp only [lengthSq_def, sub_x, sub_y]; ring
    rw [e, mul_add]
    exact add_le_add h3 h4
  · rcases le_total t.scale.x t.scale.y with h | h
    · refine ⟨⟨0, 1⟩, 0, fun h => one_ne_zero (congrArg V2.y h), ?_⟩
      rw [transform2d_stretch t hr, max_eq_right h]
      simp [lengthSq_def]
    · refine ⟨⟨1, 0⟩, 0, fun h => one_ne_zero (congrArg V2.x h), ?_⟩
      rw [transform2d_stretch t hr, max_eq_left h]
      simp [lengthSq_def]

/-- For a bevy transform rotated about z. -/
theorem C89_stretch_bevy [ExactSqrt K] (t : BevyTransform K) (h : t.AboutZ) (hx : 0 ≤ t.scale.x) (hy : 0 ≤ t.scale.y) :
    LargestStretch t (scalingFactor t : K) :=
  C89_stretch_transform2d (Transform2d.ofBevy t) (aboutZ_unit h) hx hy

/-- A ball collider reports the extreme points of the disc around its position with the radius times the scaling
factor, and the placed ball lies in that disc: under an uneven scale the ellipse is replaced by a disc around it, so
nothing of it is lost. -/
theorem C89_ball_cover [ExactSqrt K] {T : Type} [Transformation2d T K] (c : Collider2d (Ball K) T)
    (hr : 0 ≤ c.shape.radius) (h : LargestStretch c.transform (scalingFactor c.transform : K))
    (h0 : (applyOrigin c.transform : V2 K) = apply c.transform (0 : V2 K)) (d : V2 K) :
    IsExtreme (discAt (applyOrigin c.transform) (scalingFactor c.transform * c.shape.radius)) d (extremePoint c d) ∧
    c.region ⊆ discAt (applyOrigin c.transform) (scalingFactor c.transform * c.shape.radius) := by
  obtain ⟨f0, hf, -⟩ := h
  set f : K := scalingFactor c.transform
  set o : V2 K := applyOrigin c.transform
  have he : extremePoint c d = o + V2.scale f (extremePoint c.shape d) := rfl
  have hx := C08_extreme_point_ball c.shape hr d
  refine ⟨⟨?_, ?_⟩, ?_⟩
  · show lengthSq (extremePoint c d - o) ≤ _
    have e : extremePoint c d - o = V2.scale f (extremePoint c.shape d) := by rw [he]; ext <;> simp
    rw [e, mul_pow]
    have h1 := mul_le_mul_of_nonneg_left hx.1.2 (sq_nonneg f)
    have h2 : lengthSq (V2.scale f (extremePoint c.shape d)) = f ^ 2 * lengthSq (extremePoint c.shape d) := by
      simp only [lengthSq_def, scale_x, scale_y]; ring
    rw [h2]; exact h1
  · intro p hp
    have hp : lengthSq (p - o) ≤ (f * c.shape.radius) ^ 2 := hp
    rw [he, dot_add, dot_scale]
    have e : d.dot p = d.dot o + d.dot (p - o) := by rw [dot_sub]; ring
    rw [e]
    rcases f0.eq_or_lt with h | h
    · have h1 : lengthSq (p - o) = 0 := le_antisymm (by simpa [← h] using hp) (lengthSq_nonneg _)
      rw [lengthSq_eq_zero.1 h1, ← h]; simp [dot_zero]
    · have h1 : V2.scale f⁻¹ (p - o) ∈ Region.pts c.shape := by
        refine ⟨hr, ?_⟩
        have e2 : lengthSq (V2.scale f⁻¹ (p - o)) = (f⁻¹) ^ 2 * lengthSq (p - o) := by
          simp only [lengthSq_def, scale_x, scale_y]; ring
        rw [e2]
        have h2 := mul_le_mul_of_nonneg_left hp (sq_nonneg f⁻¹)
        rwa [← mul_pow, ← mul_assoc, inv_mul_cancel₀ h.ne', one_mul] at h2
      have h2 := hx.2 _ h1
      rw [dot_scale] at h2
      have h3 := mul_le_mul_of_nonneg_left h2 h.le
      rw [← mul_assoc, mul_inv_cancel₀ h.ne', one_mul] at h3
      exact add_le_add_right h3 _
  · rintro _ ⟨q, ⟨_, hq⟩, rfl⟩
    show lengthSq (apply c.transform q - o) ≤ _
    have h1 := hf q 0
    rw [← h0, sub_zero] at h1
    refine h1.trans ?_
    rw [mul_pow]
    exact mul_le_mul_of_nonneg_left hq (sq_nonneg f)

/-- the reported point of an unevenly scaled ball can lie outside of the placed ball, and with a negative scale the factor
is not the largest stretch: parts of the placed ball lie farther out than the reported point. -/
theorem C89_uneven_finding [ExactSqrt K] :
    (∃ (c : Collider2d (Ball K) (Transform2d K)) (d : V2 K), 0 < c.shape.radius ∧ c.transform.rot.IsUnit ∧
      0 < c.transform.scale.x ∧ 0 < c.transform.scale.y ∧ extremePoint c d ∉ c.region) ∧
    ∃ (c : Collider2d (Ball K) (Transform2d K)) (d : V2 K), 0 < c.shape.radius ∧ c.transform.rot.IsUnit ∧
      c.transform.scale.x ≠ 0 ∧ c.transform.scale.y ≠ 0 ∧ ¬ LargestStretch c.transform (scalingFactor c.transform : K) ∧
      ∃ p ∈ c.region, d.dot (extremePoint c d) < d.dot p := by
  have hl : (⟨1, 0⟩ : V2 K).length = 1 := by
    have h1 := V2.length_sq (⟨1, 0⟩ : V2 K)
    have h2 := V2.length_nonneg (⟨1, 0⟩ : V2 K)
    have h3 : lengthSq (⟨1, 0⟩ : V2 K) = 1 := by simp [lengthSq_def]
    rw [h3] at h1
    nlinarith
  have hb : extremePoint (⟨1⟩ : Ball K) (⟨1, 0⟩ : V2 K) = ⟨1, 0⟩ := by
    show V2.scale 1 (V2.normalizeOrZero (⟨1, 0⟩ : V2 K)) = _
    rw [normalizeOrZero_eq, hl]; ext <;> simp
  constructor
  · refine ⟨⟨⟨1⟩, ⟨0, ⟨⟨1, 0⟩⟩, ⟨1, 2⟩⟩⟩, ⟨1, 0⟩, one_pos, by simp [Rotor2d.IsUnit], one_pos, two_pos, ?_⟩
    rintro ⟨q, ⟨_, hq⟩, e⟩
    have e1 : extremePoint (⟨⟨1⟩, ⟨0, ⟨⟨1, 0⟩⟩, ⟨1, 2⟩⟩⟩ : Collider2d (Ball K) (Transform2d K)) (⟨1, 0⟩ : V2 K) =
        (0 : V2 K) + V2.scale (scalingFactor (⟨0, ⟨⟨1, 0⟩⟩, ⟨1, 2⟩⟩ : Transform2d K)) (extremePoint (⟨1⟩ : Ball K) (⟨1, 0⟩ : V2 K)) := rfl
    have e2 : (scalingFactor (⟨0, ⟨⟨1, 0⟩⟩, ⟨1, 2⟩⟩ : Transform2d K) : K) = 2 := by
      show FloatExtra.fmax (1 : K) 2 = 2
      rw [ExactFloat.fmax_eq]; exact max_eq_right one_le_two
    have e3 := congrArg V2.x e
    rw [e1, hb, e2] at e3
    simp only [apply, Rotor2d.rotate, add_x, scale_x, mulV_x, mulV_y, zero_x] at e3
    have e4 : q.x = 2 := by linarith
    have hq : q.x * q.x + q.y * q.y ≤ 1 ^ 2 := hq
    rw [e4] at hq
    nlinarith [mul_self_nonneg q.y]
  · have e2 : (scalingFactor (⟨0, ⟨⟨1, 0⟩⟩, ⟨-2, 1⟩⟩ : Transform2d K) : K) = 1 := by
      show FloatExtra.fmax (-2 : K) 1 = 1
      rw [ExactFloat.fmax_eq]; exact max_eq_right (by norm_num)
    refine ⟨⟨⟨1⟩, ⟨0, ⟨⟨1, 0⟩⟩, ⟨-2, 1⟩⟩⟩, ⟨1, 0⟩, one_pos, by simp [Rotor2d.IsUnit], by norm_num, by norm_num, ?_,
      apply (⟨0, ⟨⟨1, 0⟩⟩, ⟨-2, 1⟩⟩ : Transform2d K) (⟨-1, 0⟩ : V2 K), ⟨⟨-1, 0⟩, ⟨zero_le_one, by simp [lengthSq_def]⟩, rfl⟩, ?_⟩
    · rintro ⟨_, h, _⟩
      have h := h ⟨1, 0⟩ 0
      rw [transform2d_stretch _ (by simp [Rotor2d.IsUnit]), e2] at h
      simp [lengthSq_def] at h
    · have e1 : extremePoint (⟨⟨1⟩, ⟨0, ⟨⟨1, 0⟩⟩, ⟨-2, 1⟩⟩⟩ : Collider2d (Ball K) (Transform2d K)) (⟨1, 0⟩ : V2 K) =
        (0 : V2 K) + V2.scale (scalingFactor (⟨0, ⟨⟨1, 0⟩⟩, ⟨-2, 1⟩⟩ : Transform2d K)) (extremePoint (⟨1⟩ : Ball K) (⟨1, 0⟩ : V2 K)) := rfl
      rw [e1, hb, e2]
      simp [apply, Rotor2d.rotate, dot_def]

/-- the hypotheses of `C89_ball_cover` are met by an unevenly scaled, turned and moved ball -/
example [ExactSqrt K] :
    let c : Collider2d (Ball K) (Transform2d K) := ⟨⟨3⟩, ⟨⟨1, 2⟩, ⟨⟨3 / 5, 4 / 5⟩⟩, ⟨2, 7⟩⟩⟩
    0 ≤ c.shape.radius ∧ LargestStretch c.transform (scalingFactor c.transform : K) ∧
    (applyOrigin c.transform : V2 K) = apply c.transform (0 : V2 K) := by
  refine ⟨by norm_num, C89_stretch_transform2d _ (by simp only [Rotor2d.IsUnit]; norm_num) (by norm_num) (by norm_num), ?_⟩
  ext <;> simp [applyOrigin, apply, Rotor2d.rotate]

end

end

end Auburn
