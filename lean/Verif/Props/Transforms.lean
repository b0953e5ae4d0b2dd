import Verif.Spec.Sets
import Verif.Lib.V3

/-!
# C01–C07: transformations

`Law` names spell out the documented laws (`col/transform.rs:7-43`).
-/

set_option linter.unusedSectionVars false

namespace Auburn

open V2 Transformation2d Auburn.Invertible Composable

/-- the law documented on `Invertible` for one transformation -/
def InverseLaw {T K : Type} [Transformation2d T K] [Invertible T] (t : T) : Prop :=
  ∀ p : V2 K, apply (inverse t) (apply t p) = p

/-- the law documented on `Composable` for one pair of transformations -/
def ComposeLaw {T K : Type} [Transformation2d T K] [Composable T] (a b : T) : Prop :=
  ∀ p : V2 K, apply (compose a b) p = apply a (apply b p)

/-- `unapply` and `apply` are mutually inverse, `apply_origin` is `apply(ZERO)` -/
def UnapplyLaw {T K : Type} [Transformation2d T K] [Zero K] (t : T) : Prop :=
  (∀ p : V2 K, unapply t (apply t p) = p) ∧ (∀ p : V2 K, apply t (unapply t p) = p) ∧
    applyOrigin t = apply t 0

/-- geometry expressed in `a`'s space through `delta_transform` is the world geometry of `b` -/
def DeltaLaw {T K : Type} [Transformation2d T K] [Invertible T] [Composable T] (a b : T) : Prop :=
  ∀ p : V2 K, apply a (apply (deltaTransform a b) p) = apply b p

/-- normals are transformed isometrically and invertibly -/
def NormalLaw {T K : Type} [Transformation2d T K] [Add K] [Mul K] (t : T) : Prop :=
  (∀ n : V2 K, unapplyNormal t (applyNormal t n) = n) ∧
  (∀ n : V2 K, applyNormal t (unapplyNormal t n) = n) ∧
  (∀ n m : V2 K, dot (applyNormal t n) (applyNormal t m) = dot n m)

section
variable {K : Type} [Field K] [LinearOrder K] [IsStrictOrderedRing K] [FloatExtra K]

/-- a rotor that is a rotation: `cos² + sin² = 1` -/
def Rotor2d.IsUnit (r : Rotor2d K) : Prop := r.a.x ^ 2 + r.a.y ^ 2 = 1
/-- no axis is collapsed -/
def Transform2d.Nondegenerate (t : Transform2d K) : Prop := t.scale.x ≠ 0 ∧ t.scale.y ≠ 0

/-! ## C70: constructors and builders -/

/-- `from_translation`, `from_angle`, `from_rotation`, `from_scale` and the identity are the maps
their names say. -/
theorem C70_constructors (t : V2 K) (θ : K) (r : Rotor2d K) (s p : V2 K) :
    apply (Transform2d.identity : Transform2d K) p = p ∧
    apply (Transform2d.fromTranslation t) p = ⟨p.x + t.x, p.y + t.y⟩ ∧
    apply (Transform2d.fromAngle θ) p =
      ⟨FloatExtra.cos θ * p.x - FloatExtra.sin θ * p.y, FloatExtra.cos θ * p.y + FloatExtra.sin θ * p.x⟩ ∧
    apply (Transform2d.fromRotation r) p = ⟨r.a.x * p.x - r.a.y * p.y, r.a.x * p.y + r.a.y * p.x⟩ ∧
    apply (Transform2d.fromScale s) p = ⟨s.x * p.x, s.y * p.y⟩ := by
  refine ⟨?_, ?_, ?_, ?_, ?_⟩ <;> ext <;>
    simp [apply, Transform2d.identity, Transform2d.fromTranslation, Transform2d.fromAngle,
      Transform2d.fromRotation, Transform2d.fromScale, Rotor2d.identity, Rotor2d.fromAngle,
      Rotor2d.rotate, V2.one]

/-- each `with_*` builder replaces one component of the map and nothing else: whatever the previous
transform, scaling by `s`, then rotating by `r`, then translating by `t` results, in whichever order
the three builders are called; `with_angle θ` is `with_rotation` of the rotation by `θ`; a builder
called again overrides; and a builder leaves the other two components alone. -/
theorem C70_builders (x : Transform2d K) (t s : V2 K) (r : Rotor2d K) (θ : K) (p : V2 K) :
    (∀ y ∈ [((x.withTranslation t).withRotation r).withScale s,
            ((x.withTranslation t).withScale s).withRotation r,
            ((x.withRotation r).withTranslation t).withScale s,
            ((x.withRotation r).withScale s).withTranslation t,
            ((x.withScale s).withTranslation t).withRotation r,
            ((x.withScale s).withRotation r).withTranslation t],
      apply y p = ⟨r.a.x * (s.x * p.x) - r.a.y * (s.y * p.y) + t.x,
        r.a.x * (s.y * p.y) + r.a.y * (s.x * p.x) + t.y⟩) ∧
    x.withAngle θ = x.withRotation (Rotor2d.fromAngle θ) ∧
    apply (x.withTranslation t) p = apply x p - apply x 0 + t ∧
    (x.scale = V2.one → apply (x.withScale s) p = apply x ⟨s.x * p.x, s.y * p.y⟩) ∧
    (x.rot.IsUnit →
      apply (x.withRotation r) p = r.rotate (x.rot.inverse.rotate (apply x p - apply x 0)) + apply x 0) ∧
    applyOrigin (x.withScale s) = applyOrigin x ∧ applyOrigin (x.withRotation r) = applyOrigin x := by
  refine ⟨?_, rfl, ?_, ?_, ?_, rfl, rfl⟩
  · intro y hy
    simp only [List.mem_cons, List.not_mem_nil, or_false] at hy
    rcases hy with rfl | rfl | rfl | rfl | rfl | rfl <;> rfl
  · ext <;> simp [apply, Transform2d.withTranslation, Rotor2d.rotate]
  · intro h
    ext <;> simp [apply, Transform2d.withScale, Rotor2d.rotate, h, V2.one]
  · intro h
    unfold Rotor2d.IsUnit at h
    ext <;> simp only [apply, Transform2d.withRotation, Rotor2d.rotate, Rotor2d.inverse, add_x,
      add_y, sub_x, sub_y, mulV_x, mulV_y, zero_x, zero_y]
    · linear_combination (r.a.y * (x.scale.y * p.y) - r.a.x * (x.scale.x * p.x)) * h
    · linear_combination (-r.a.x * (x.scale.y * p.y) - r.a.y * (x.scale.x * p.x)) * h

section
attribute [local instance] ratFloat
/-- a quarter turn with scale (2,1), moved by (1,0) -/
example : apply (((Transform2d.fromScale (⟨2, 1⟩ : V2 ℚ)).withRotation ⟨⟨0, 1⟩⟩).withTranslation ⟨1, 0⟩)
    ⟨3, 4⟩ = ⟨-3, 6⟩ := by decide +kernel
end

/-! ## C01 -/

theorem C01_inverse_vec2 (t : V2 K) : InverseLaw (K := K) t := by
  intro p; ext <;> simp [apply, inverse]

theorem C01_inverse_translate2d (t : Translate2d K) : InverseLaw (K := K) t := by
  intro p; ext <;> simp [apply, inverse]

/-- Complete characterisation for `AxisTransform2d`: the documented law holds exactly for
transformations without translation or without scaling.  (Finding: `inverse` uses `-pos` where
`-pos / scale` is needed.) -/
theorem C01_inverse_axis_iff (t : AxisTransform2d K) (h : t.scale ≠ 0) :
    InverseLaw (K := K) t ↔ t.pos = 0 ∨ t.scale = 1 := by
  constructor
  · intro hl
    by_cases hs : t.scale = 1
    · exact Or.inr hs
    · left
      have h0 := hl 0
      simp only [apply, inverse, V2.ext_iff, add_x, add_y, neg_x, neg_y, scale_x, scale_y, zero_x,
        zero_y] at h0
      obtain ⟨hx, hy⟩ := h0
      have h1 : (1 / t.scale - 1) ≠ 0 := by
        rw [sub_ne_zero]; intro h2; apply hs; field_simp at h2; exact h2.symm
      ext
      · have : (1 / t.scale - 1) * t.pos.x = 0 := by linear_combination hx
        exact (mul_eq_zero.1 this).resolve_left h1
      · have : (1 / t.scale - 1) * t.pos.y = 0 := by linear_combination hy
        exact (mul_eq_zero.1 this).resolve_left h1
  · rintro (h0 | h1) p
    · ext <;> simp [apply, inverse, h0, h]
    · ext <;> simp [apply, inverse, h1]

/-- Finding: the documented law of `Invertible` is violated by `AxisTransform2d`. -/
theorem C01_inverse_axis_finding :
    ¬ ∀ t : AxisTransform2d K, t.scale ≠ 0 → InverseLaw (K := K) t := by
  intro hall
  have h2 : (2 : K) ≠ 0 := two_ne_zero
  rcases (C01_inverse_axis_iff ⟨⟨1, 0⟩, 2⟩ h2).1 (hall _ h2) with h | h
  · exact one_ne_zero (congrArg V2.x h)
  · norm_num at h

/-- Complete characterisation for `Transform2d`: the law holds exactly when the scale is uniform or
the rotation is a multiple of 180 degrees. -/
theorem C01_inverse_transform2d_iff (t : Transform2d K) (hr : t.rot.IsUnit)
    (hs : t.Nondegenerate) :
    InverseLaw (K := K) t ↔ t.scale.x = t.scale.y ∨ t.rot.a.y = 0 := by
  obtain ⟨hx, hy⟩ := hs
  unfold Rotor2d.IsUnit at hr
  constructor
  · intro hl
    by_cases hc : t.rot.a.y = 0
    · exact Or.inr hc
    · left
      have h0 := congrArg V2.y (hl 0)
      have h1 := congrArg V2.y (hl ⟨1, 0⟩)
      have h2 := congrArg V2.x (hl ⟨1, 0⟩)
      have h3 := congrArg V2.x (hl 0)
      simp only [apply, unapply, inverse, Rotor2d.inverse, Rotor2d.rotate, add_x, add_y, mulV_x,
        mulV_y, sub_x, sub_y, zero_x, zero_y, divV_x, divV_y, recip_x, recip_y] at h0 h1 h2 h3
      -- linear part: the second component of `R⁻¹ S⁻¹ R S e₁` vanishes
      have hk : t.rot.a.x * t.rot.a.y * (t.scale.x - t.scale.y) = 0 := by
        have : t.rot.a.x * (1 / t.scale.y * (t.rot.a.y * t.scale.x))
            - t.rot.a.y * (1 / t.scale.x * (t.rot.a.x * t.scale.x)) = 0 := by
          linear_combination h1 - h0
        field_simp at this
        linear_combination this
      have hm : t.rot.a.x ^ 2 + t.rot.a.y ^ 2 * t.scale.x / t.scale.y = 1 := by
        have : t.rot.a.x * (1 / t.scale.x * (t.rot.a.x * t.scale.x))
            + t.rot.a.y * (1 / t.scale.y * (t.rot.a.y * t.scale.x)) = 1 := by
          linear_combination h2 - h3
        field_simp at this ⊢
        linear_combination this
      have hn : t.rot.a.y ^ 2 * (t.scale.x - t.scale.y) = 0 := by
        field_simp at hm
        linear_combination hm - t.scale.y * hr
      have := (mul_eq_zero.1 hn).resolve_left (pow_ne_zero 2 hc)
      linear_combination this
  · intro h p
    rcases h with h | h
    · rw [h] at hx
      ext <;> simp only [apply, unapply, inverse, Rotor2d.inverse, Rotor2d.rotate, add_x, add_y,
        mulV_x, mulV_y, sub_x, sub_y, zero_x, zero_y, divV_x, divV_y, recip_x, recip_y, h] <;>
        field_simp
      · linear_combination t.scale.y * p.x * hr
      · linear_combination t.scale.y * p.y * hr
    · have hr' : t.rot.a.x * t.rot.a.x = 1 := by rw [h] at hr; linear_combination hr
      ext <;> simp only [apply, unapply, inverse, Rotor2d.inverse, Rotor2d.rotate, add_x, add_y,
        mulV_x, mulV_y, sub_x, sub_y, zero_x, zero_y, divV_x, divV_y, recip_x, recip_y, h] <;>
        field_simp
      · linear_combination t.scale.x * t.scale.y * p.x * hr'
      · linear_combination t.scale.x * t.scale.y * p.y * hr'

/-- Finding: the documented law of `Invertible` is violated by `Transform2d` (rotation by 90 degrees
with scale (1, 2)). -/
theorem C01_inverse_transform2d_finding :
    ¬ ∀ t : Transform2d K, t.rot.IsUnit → t.Nondegenerate → InverseLaw (K := K) t := by
  intro hall
  let t : Transform2d K := ⟨0, ⟨⟨0, 1⟩⟩, ⟨1, 2⟩⟩
  have hu : t.rot.IsUnit := by simp [t, Rotor2d.IsUnit]
  have hn : t.Nondegenerate := ⟨by simp [t], by simp [t]⟩
  rcases (C01_inverse_transform2d_iff t hu hn).1 (hall t hu hn) with h | h
  · simp [t] at h
  · simp [t] at h

/-- non-vacuity: a uniformly scaled rotated, translated transform satisfies the hypotheses -/
example : let t : Transform2d K := ⟨⟨1, 2⟩, ⟨⟨3 / 5, 4 / 5⟩⟩, ⟨2, 2⟩⟩
    t.rot.IsUnit ∧ t.Nondegenerate ∧ t.scale.x = t.scale.y ∧ InverseLaw (K := K) t := by
  intro t
  have hu : t.rot.IsUnit := by simp only [t, Rotor2d.IsUnit]; norm_num
  have hn : t.Nondegenerate := by simp [t, Transform2d.Nondegenerate]
  exact ⟨hu, hn, rfl, (C01_inverse_transform2d_iff t hu hn).2 (Or.inl rfl)⟩

/-! ## C02 -/

theorem C02_compose_vec2 (a b : V2 K) : ComposeLaw (K := K) a b := by
  intro p; ext <;> simp [apply, compose] <;> ring

theorem C02_compose_translate2d (a b : Translate2d K) : ComposeLaw (K := K) a b := by
  intro p; ext <;> simp [apply, compose] <;> ring

theorem C02_compose_axis (a b : AxisTransform2d K) : ComposeLaw (K := K) a b := by
  intro p; ext <;> simp [apply, compose] <;> ring

/-- Complete characterisation for `Transform2d`: the documented law of `Composable` holds exactly
when the outer scale is uniform or the inner rotation is a multiple of 180 degrees. -/
theorem C02_compose_transform2d_iff (a b : Transform2d K) (ha : a.rot.IsUnit)
    (hs : b.Nondegenerate) :
    ComposeLaw (K := K) a b ↔ a.scale.x = a.scale.y ∨ b.rot.a.y = 0 := by
  obtain ⟨hx, hy⟩ := hs
  unfold Rotor2d.IsUnit at ha
  constructor
  · intro hl
    by_cases hc : b.rot.a.y = 0
    · exact Or.inr hc
    · left
      have h0 := congrArg V2.y (hl 0)
      have h1 := congrArg V2.y (hl ⟨1, 0⟩)
      have h2 := congrArg V2.x (hl ⟨1, 0⟩)
      have h3 := congrArg V2.x (hl 0)
      simp only [apply, compose, Rotor2d.mulR, Rotor2d.rotate, add_x, add_y, mulV_x,
        mulV_y, zero_x, zero_y] at h0 h1 h2 h3
      -- `R_a ((R_b S_a - S_a R_b) S_b e₁) = 0`; its components
      have e1 : b.rot.a.y * b.scale.x * (a.scale.x - a.scale.y) * a.rot.a.x = 0 := by
        linear_combination h1 - h0
      have e2 : b.rot.a.y * b.scale.x * (a.scale.x - a.scale.y) * a.rot.a.y = 0 := by
        linear_combination h3 - h2
      have e3 : b.rot.a.y * b.scale.x * (a.scale.x - a.scale.y) = 0 := by
        linear_combination a.rot.a.x * e1 + a.rot.a.y * e2
          - (b.rot.a.y * b.scale.x * (a.scale.x - a.scale.y)) * ha
      have := (mul_eq_zero.1 e3).resolve_left (mul_ne_zero hc hx)
      linear_combination this
  · intro h p
    rcases h with h | h
    · ext <;> simp only [apply, compose, Rotor2d.mulR, Rotor2d.rotate, add_x, add_y, mulV_x,
        mulV_y, h] <;> ring
    · ext <;> simp only [apply, compose, Rotor2d.mulR, Rotor2d.rotate, add_x, add_y, mulV_x,
        mulV_y, h] <;> ring

/-- Finding: the documented law of `Composable` is violated by `Transform2d`. -/
theorem C02_compose_transform2d_finding :
    ¬ ∀ a b : Transform2d K, a.rot.IsUnit → b.rot.IsUnit → a.Nondegenerate → b.Nondegenerate →
      ComposeLaw (K := K) a b := by
  intro hall
  let a : Transform2d K := ⟨0, ⟨⟨1, 0⟩⟩, ⟨1, 2⟩⟩
  let b : Transform2d K := ⟨0, ⟨⟨0, 1⟩⟩, ⟨1, 1⟩⟩
  have hu : a.rot.IsUnit := by simp [a, Rotor2d.IsUnit]
  have hub : b.rot.IsUnit := by simp [b, Rotor2d.IsUnit]
  have hn : a.Nondegenerate := ⟨by simp [a], by simp [a]⟩
  have hnb : b.Nondegenerate := ⟨by simp [b], by simp [b]⟩
  rcases (C02_compose_transform2d_iff a b hu hnb).1 (hall a b hu hub hn hnb) with h | h
  · simp [a] at h
  · simp [b] at h

/-! ## C03 -/

theorem C03_unapply_identity (t : IdentityTransform K) : UnapplyLaw (K := K) t :=
  ⟨fun _ => rfl, fun _ => rfl, rfl⟩

theorem C03_unapply_vec2 (t : V2 K) : UnapplyLaw (K := K) t :=
  ⟨fun p => by ext <;> simp [apply, unapply], fun p => by ext <;> simp [apply, unapply],
    by ext <;> simp [apply, applyOrigin]⟩

theorem C03_unapply_translate2d (t : Translate2d K) : UnapplyLaw (K := K) t :=
  ⟨fun p => by ext <;> simp [apply, unapply], fun p => by ext <;> simp [apply, unapply],
    by ext <;> simp [apply, applyOrigin]⟩

theorem C03_unapply_axis (t : AxisTransform2d K) (h : t.scale ≠ 0) : UnapplyLaw (K := K) t :=
  ⟨fun p => by ext <;> simp [apply, unapply, h], fun p => by ext <;> simp [apply, unapply] <;>
    field_simp <;> ring, by ext <;> simp [apply, applyOrigin]⟩

theorem C03_unapply_transform2d (t : Transform2d K) (hr : t.rot.IsUnit) (hs : t.Nondegenerate) :
    UnapplyLaw (K := K) t := by
  obtain ⟨hx, hy⟩ := hs
  unfold Rotor2d.IsUnit at hr
  refine ⟨fun p => ?_, fun p => ?_, ?_⟩
  · ext <;> simp only [apply, unapply, Rotor2d.inverse, Rotor2d.rotate, add_x, add_y,
      mulV_x, mulV_y, sub_x, sub_y, divV_x, divV_y] <;> field_simp
    · linear_combination p.x * t.scale.x * hr
    · linear_combination p.y * t.scale.y * hr
  · ext <;> simp only [apply, unapply, Rotor2d.inverse, Rotor2d.rotate, add_x, add_y,
      mulV_x, mulV_y, sub_x, sub_y, divV_x, divV_y] <;> field_simp
    · linear_combination (p.x - t.pos.x) * hr
    · linear_combination (p.y - t.pos.y) * hr
  · ext <;> simp [apply, applyOrigin, Rotor2d.rotate]

/-- bevy's `Transform` used in 2D, for a rotation about the z axis -/
theorem C03_unapply_bevy [ExactFloat K] [ExactSqrt K] (t : BevyTransform K)
    (hq : t.rotation.x = 0 ∧ t.rotation.y = 0) (hq0 : t.rotation.z ≠ 0 ∨ t.rotation.w ≠ 0)
    (hs : t.scale.x ≠ 0 ∧ t.scale.y ≠ 0) : UnapplyLaw (K := K) t := by
  have hu : (Transform2d.ofBevy t).rot.IsUnit := by
    obtain ⟨hqx, hqy⟩ := hq
    simp only [Transform2d.ofBevy, Rotor2d.IsUnit, Rotor2d.fromQuaternion, Quat.dot, hqx, hqy,
      ExactFloat.two_eq]
    set N := 0 * 0 + 0 * 0 + t.rotation.z * t.rotation.z + t.rotation.w * t.rotation.w with hN
    have hpos : 0 < N := by
      rcases hq0 with h | h
      · have := mul_self_pos.2 h; nlinarith [mul_self_nonneg t.rotation.w]
      · have := mul_self_pos.2 h; nlinarith [mul_self_nonneg t.rotation.z]
    have hm := ExactSqrt.sqrt_mul_self N hpos.le
    set n := FloatExtra.sqrt N
    have hn : n ≠ 0 := by intro h; rw [h] at hm; simp at hm; exact hpos.ne hm
    have : n ^ 2 = t.rotation.z ^ 2 + t.rotation.w ^ 2 := by rw [sq, hm, hN]; ring
    field_simp
    linear_combination (4 * t.rotation.w ^ 2) * (-this)
  exact C03_unapply_transform2d (Transform2d.ofBevy t) hu hs

example : (⟨⟨1, 2⟩, ⟨⟨3 / 5, 4 / 5⟩⟩, ⟨2, -3⟩⟩ : Transform2d K).rot.IsUnit ∧
    (⟨⟨1, 2⟩, ⟨⟨3 / 5, 4 / 5⟩⟩, ⟨2, -3⟩⟩ : Transform2d K).Nondegenerate := by
  constructor
  · simp only [Rotor2d.IsUnit]; norm_num
  · simp [Transform2d.Nondegenerate]

/-! ## C04 -/

theorem C04_delta_vec2 (a b : V2 K) : DeltaLaw (K := K) a b := by
  intro p; ext <;> simp [apply, deltaTransform, compose, inverse] <;> ring

theorem C04_delta_translate2d (a b : Translate2d K) : DeltaLaw (K := K) a b := by
  intro p; ext <;> simp [apply, deltaTransform, compose, inverse] <;> ring

/-- Complete characterisation for `AxisTransform2d` (finding: fails as soon as the first transform
both translates and scales). -/
theorem C04_delta_axis_iff (a b : AxisTransform2d K) (h : a.scale ≠ 0) :
    DeltaLaw (K := K) a b ↔ a.pos = 0 ∨ a.scale = 1 := by
  constructor
  · intro hl
    by_cases hs : a.scale = 1
    · exact Or.inr hs
    · left
      have h0 := hl 0
      simp only [apply, deltaTransform, compose, inverse, V2.ext_iff, add_x, add_y, neg_x, neg_y,
        scale_x, scale_y, zero_x, zero_y] at h0
      obtain ⟨hx, hy⟩ := h0
      have h1 : (1 - a.scale) ≠ 0 := by
        rw [sub_ne_zero]; intro h2; exact hs h2.symm
      field_simp at hx hy
      ext
      · have : (1 - a.scale) * a.pos.x = 0 := by linear_combination hx
        exact (mul_eq_zero.1 this).resolve_left h1
      · have : (1 - a.scale) * a.pos.y = 0 := by linear_combination hy
        exact (mul_eq_zero.1 this).resolve_left h1
  · rintro (h0 | h1) p
    · ext <;> simp [apply, deltaTransform, compose, inverse, h0] <;> field_simp
    · ext <;> simp [apply, deltaTransform, compose, inverse, h1] <;> ring

/-- Finding: with `AxisTransform2d` the relative transform is not the relative placement in general
(a consequence of its wrong `inverse`). -/
theorem C04_delta_axis_finding :
    ¬ ∀ a b : AxisTransform2d K, a.scale ≠ 0 → b.scale ≠ 0 → DeltaLaw (K := K) a b := by
  intro hall
  have h2 : (2 : K) ≠ 0 := two_ne_zero
  rcases (C04_delta_axis_iff ⟨⟨1, 0⟩, 2⟩ ⟨0, 1⟩ h2).1 (hall _ _ h2 one_ne_zero) with h | h
  · exact one_ne_zero (congrArg V2.x h)
  · norm_num at h

/-- `Transform2d`: correct if the first transform's scale is uniform (the second is arbitrary). -/
theorem C04_delta_transform2d_uniform (a b : Transform2d K) (ha : a.rot.IsUnit)
    (hs : a.scale.x ≠ 0) (hu : a.scale.x = a.scale.y) : DeltaLaw (K := K) a b := by
  unfold Rotor2d.IsUnit at ha
  have hy : a.scale.y ≠ 0 := hu ▸ hs
  intro p
  ext <;> simp only [apply, unapply, deltaTransform, compose, inverse, Rotor2d.mulR,
    Rotor2d.inverse, Rotor2d.rotate, add_x, add_y, mulV_x, mulV_y, sub_x, sub_y, zero_x, zero_y,
    divV_x, divV_y, recip_x, recip_y, hu] <;> field_simp
  · linear_combination (b.rot.a.x * b.scale.x * p.x - b.rot.a.y * b.scale.y * p.y + b.pos.x
      - a.pos.x) * ha
  · linear_combination (b.rot.a.x * b.scale.y * p.y + b.rot.a.y * b.scale.x * p.x + b.pos.y
      - a.pos.y) * ha

/-- `Transform2d`, complete characterisation: geometry expressed through `delta_transform` is right
exactly when the first transform's scale is uniform, or the two rotations agree up to a half turn and
moreover the first transform is unrotated (up to a half turn) or the second sits at the origin. -/
theorem C04_delta_transform2d_iff (a b : Transform2d K) (ha : a.rot.IsUnit) (hna : a.Nondegenerate)
    (hnb : b.Nondegenerate) :
    DeltaLaw (K := K) a b ↔ a.scale.x = a.scale.y ∨
      ((a.rot.a.y = 0 ∨ b.pos = 0) ∧ a.rot.a.x * b.rot.a.y = a.rot.a.y * b.rot.a.x) := by
  have ha' := ha
  unfold Rotor2d.IsUnit at ha
  obtain ⟨hx, hy⟩ := hna
  obtain ⟨tx, ty⟩ := hnb
  obtain ⟨⟨px, py⟩, ⟨⟨c, s⟩⟩, ⟨sx, sy⟩⟩ := a
  obtain ⟨⟨qx, qy⟩, ⟨⟨e, f⟩⟩, ⟨bx, b'⟩⟩ := b
  dsimp only at *
  -- what the two sides are
  have run : ∀ p : V2 K,
      apply (⟨⟨px, py⟩, ⟨⟨c, s⟩⟩, ⟨sx, sy⟩⟩ : Transform2d K)
        (apply (deltaTransform (⟨⟨px, py⟩, ⟨⟨c, s⟩⟩, ⟨sx, sy⟩⟩ : Transform2d K)
          ⟨⟨qx, qy⟩, ⟨⟨e, f⟩⟩, ⟨bx, b'⟩⟩) p) =
      (⟨c * sx * ((c * e + s * f) * (bx * p.x / sx) - (c * f - s * e) * (b' * p.y / sy)
            + (c * (qx / sx) + s * (qy / sy)))
          - s * sy * ((c * e + s * f) * (b' * p.y / sy) + (c * f - s * e) * (bx * p.x / sx)
            + (c * (qy / sy) - s * (qx / sx))),
        c * sy * ((c * e + s * f) * (b' * p.y / sy) + (c * f - s * e) * (bx * p.x / sx)
            + (c * (qy / sy) - s * (qx / sx)))
          + s * sx * ((c * e + s * f) * (bx * p.x / sx) - (c * f - s * e) * (b' * p.y / sy)
            + (c * (qx / sx) + s * (qy / sy)))⟩ : V2 K) := by
    intro p
    ext <;> simp only [apply, unapply, deltaTransform, compose, inverse, Rotor2d.mulR,
      Rotor2d.inverse, Rotor2d.rotate, add_x, add_y, mulV_x, mulV_y, sub_x, sub_y, zero_x, zero_y,
      divV_x, divV_y, recip_x, recip_y] <;> field_simp
    · linear_combination (-px * sx * sy) * ha
    · linear_combination (-py * sx * sy) * ha
  constructor
  · intro hl
    by_cases hs : sx = sy
    · exact Or.inl hs
    right
    have hs' : sx - sy ≠ 0 := sub_ne_zero.2 hs
    have h0 := hl 0
    rw [run] at h0
    have h1 := hl ⟨1, 0⟩
    rw [run] at h1
    simp only [V2.ext_iff, apply, Rotor2d.rotate, add_x, add_y, mulV_x, mulV_y, zero_x, zero_y,
      mul_zero, mul_one, zero_div, sub_zero, add_zero, zero_add] at h0 h1
    obtain ⟨h0x, h0y⟩ := h0
    obtain ⟨h1x, h1y⟩ := h1
    constructor
    · by_cases h : s = 0
      · exact Or.inl h
      right
      obtain ⟨ux, hux⟩ : ∃ ux, qx = sx * ux := ⟨qx / sx, by field_simp⟩
      obtain ⟨uy, huy⟩ : ∃ uy, qy = sy * uy := ⟨qy / sy, by field_simp⟩
      have e1 : qx / sx = ux := by rw [hux]; field_simp
      have e2 : qy / sy = uy := by rw [huy]; field_simp
      rw [e1, e2] at h0x h0y
      have k1 : (sx - sy) * s * (c * uy - s * ux) = 0 := by
        linear_combination h0x + hux - sx * ux * ha
      have k2 : (sx - sy) * s * (c * ux + s * uy) = 0 := by
        linear_combination h0y + huy - sy * uy * ha
      have n : (sx - sy) * s ≠ 0 := mul_ne_zero hs' h
      have j1 := (mul_eq_zero.1 k1).resolve_left n
      have j2 := (mul_eq_zero.1 k2).resolve_left n
      have z1 : ux = 0 := by linear_combination c * j2 - s * j1 - ux * ha
      have z2 : uy = 0 := by linear_combination s * j2 + c * j1 - uy * ha
      ext
      · show qx = 0; rw [hux, z1, mul_zero]
      · show qy = 0; rw [huy, z2, mul_zero]
    · have d1 : bx * ((c * sx * (c * e + s * f) - s * sy * (c * f - s * e)) / sx - e) = 0 := by
        linear_combination h1x - h0x
      have d2 : bx * ((c * sy * (c * f - s * e) + s * sx * (c * e + s * f)) / sx - f) = 0 := by
        linear_combination h1y - h0y
      have g1 := (mul_eq_zero.1 d1).resolve_left tx
      have g2 := (mul_eq_zero.1 d2).resolve_left tx
      field_simp at g1 g2
      have : (sx - sy) * (c * f - s * e) = 0 := by
        linear_combination s * g1 - c * g2 + (c * f - s * e) * sy * ha
      linear_combination (mul_eq_zero.1 this).resolve_left hs'
  · rintro (hu | ⟨h1, h2⟩)
    · exact C04_delta_transform2d_uniform _ _ ha' hx hu
    · intro p
      rw [run]
      have hk : c * f - s * e = 0 := by linear_combination h2
      have he : (c * e + s * f) * c = e := by linear_combination e * ha + s * hk
      have hf : (c * e + s * f) * s = f := by linear_combination f * ha - c * hk
      have ex : c * sx * ((c * e + s * f) * (bx * p.x / sx)) = e * bx * p.x := by
        field_simp; linear_combination p.x * he
      have ey : s * sx * ((c * e + s * f) * (bx * p.x / sx)) = f * bx * p.x := by
        field_simp; linear_combination p.x * hf
      have ez : c * sy * ((c * e + s * f) * (b' * p.y / sy)) = e * b' * p.y := by
        field_simp; linear_combination p.y * he
      have ew : s * sy * ((c * e + s * f) * (b' * p.y / sy)) = f * b' * p.y := by
        field_simp; linear_combination p.y * hf
      have cpos : c * sx * (c * (qx / sx) + s * (qy / sy)) - s * sy * (c * (qy / sy) - s * (qx / sx)) = qx ∧
          c * sy * (c * (qy / sy) - s * (qx / sx)) + s * sx * (c * (qx / sx) + s * (qy / sy)) = qy := by
        rcases h1 with h1 | h1
        · subst h1
          constructor
          · field_simp; linear_combination qx * sx * sy * ha
          · field_simp; linear_combination qy * sx * sy * ha
        · have h1x : qx = 0 := congrArg V2.x h1
          have h1y : qy = 0 := congrArg V2.y h1
          subst h1x; subst h1y; simp
      obtain ⟨c1, c2⟩ := cpos
      rw [hk]
      ext
      · simp only [apply, Rotor2d.rotate, add_x, mulV_x, mulV_y]
        linear_combination ex - ew + c1
      · simp only [apply, Rotor2d.rotate, add_y, mulV_x, mulV_y]
        linear_combination ey + ez + c2

/-- the second alternative is met by a non-uniformly scaled, unrotated first transform and a second one
turned by 180 degrees -/
example : DeltaLaw (K := K) (⟨⟨1, 2⟩, ⟨⟨1, 0⟩⟩, ⟨2, 3⟩⟩ : Transform2d K) ⟨⟨5, 7⟩, ⟨⟨-1, 0⟩⟩, ⟨1, 4⟩⟩ :=
  (C04_delta_transform2d_iff _ _ (by simp [Rotor2d.IsUnit]) (by simp [Transform2d.Nondegenerate])
    (by simp [Transform2d.Nondegenerate])).2 (Or.inr ⟨Or.inl rfl, by simp⟩)

/-- Finding: with a non-uniformly scaled, rotated first collider the relative transform is not the
relative placement. -/
theorem C04_delta_transform2d_finding :
    ¬ ∀ a b : Transform2d K, a.rot.IsUnit → b.rot.IsUnit → a.Nondegenerate → b.Nondegenerate →
      DeltaLaw (K := K) a b := by
  intro hall
  let a : Transform2d K := ⟨0, ⟨⟨0, 1⟩⟩, ⟨1, 2⟩⟩
  let b : Transform2d K := ⟨⟨1, 0⟩, ⟨⟨1, 0⟩⟩, ⟨1, 1⟩⟩
  have := congrArg V2.x (hall a b (by simp [a, Rotor2d.IsUnit]) (by simp [b, Rotor2d.IsUnit])
    (by simp [a, Transform2d.Nondegenerate]) (by simp [b, Transform2d.Nondegenerate]) 0)
  simp [a, b, apply, unapply, deltaTransform, compose, inverse, Rotor2d.mulR,
    Rotor2d.inverse, Rotor2d.rotate] at this

/-! ## C05 -/

/-- a unit rotor preserves dot products, orientation (cross products) and hence lengths -/
theorem C05_rotor_isometry (r : Rotor2d K) (hr : r.IsUnit) (u v : V2 K) :
    (r.rotate u).dot (r.rotate v) = u.dot v ∧
    (r.rotate u).x * (r.rotate v).y - (r.rotate u).y * (r.rotate v).x = u.x * v.y - u.y * v.x ∧
    lengthSq (r.rotate u) = lengthSq u := by
  unfold Rotor2d.IsUnit at hr
  simp only [Rotor2d.rotate, dot_def, lengthSq_def]
  refine ⟨?_, ?_, ?_⟩
  · linear_combination (u.x * v.x + u.y * v.y) * hr
  · linear_combination (u.x * v.y - u.y * v.x) * hr
  · linear_combination (u.x * u.x + u.y * u.y) * hr

/-- rotor multiplication is composition, preserves unit rotors, and the inverse undoes it -/
theorem C05_rotor_group (a b : Rotor2d K) (v : V2 K) :
    (a.mulR b).rotate v = a.rotate (b.rotate v) ∧
    (a.IsUnit → b.IsUnit → (a.mulR b).IsUnit) ∧
    (a.IsUnit → a.inverse.IsUnit) ∧
    (a.IsUnit → a.inverse.rotate (a.rotate v) = v ∧ a.rotate (a.inverse.rotate v) = v) ∧
    (Rotor2d.identity : Rotor2d K).rotate v = v ∧ (Rotor2d.identity : Rotor2d K).IsUnit := by
  refine ⟨?_, ?_, ?_, ?_, ?_, ?_⟩
  · ext <;> simp only [Rotor2d.mulR, Rotor2d.rotate] <;> ring
  · simp only [Rotor2d.IsUnit, Rotor2d.mulR]
    intro ha hb
    linear_combination (b.a.x ^ 2 + b.a.y ^ 2) * ha + hb
  · simp only [Rotor2d.IsUnit, Rotor2d.inverse]
    intro ha; linear_combination ha
  · simp only [Rotor2d.IsUnit, Rotor2d.inverse, Rotor2d.rotate, V2.ext_iff]
    intro ha
    refine ⟨⟨?_, ?_⟩, ?_, ?_⟩
    · linear_combination v.x * ha
    · linear_combination v.y * ha
    · linear_combination v.x * ha
    · linear_combination v.y * ha
  · ext <;> simp [Rotor2d.identity, Rotor2d.rotate]
  · simp [Rotor2d.identity, Rotor2d.IsUnit]

/-! ## C07 -/

theorem C07_normals_identity (t : IdentityTransform K) : NormalLaw (K := K) t :=
  ⟨fun _ => rfl, fun _ => rfl, fun _ _ => rfl⟩
theorem C07_normals_vec2 (t : V2 K) : NormalLaw (K := K) t :=
  ⟨fun _ => rfl, fun _ => rfl, fun _ _ => rfl⟩
theorem C07_normals_translate2d (t : Translate2d K) : NormalLaw (K := K) t :=
  ⟨fun _ => rfl, fun _ => rfl, fun _ _ => rfl⟩
theorem C07_normals_axis (t : AxisTransform2d K) : NormalLaw (K := K) t :=
  ⟨fun _ => rfl, fun _ => rfl, fun _ _ => rfl⟩
/-- `Transform2d` with a unit rotor; the normal is the direction of `apply` of a segment under a
positive uniform scale -/
theorem C07_normals_transform2d (t : Transform2d K) (hr : t.rot.IsUnit) :
    NormalLaw (K := K) t ∧
    (∀ s p q, t.scale = ⟨s, s⟩ → apply t p - apply t q = V2.scale s (applyNormal t (p - q))) := by
  refine ⟨⟨fun n => ((C05_rotor_group t.rot t.rot n).2.2.2.1 hr).1,
    fun n => ((C05_rotor_group t.rot t.rot n).2.2.2.1 hr).2,
    fun n m => (C05_rotor_isometry t.rot hr n m).1⟩, ?_⟩
  intro s p q hs
  ext <;> simp [apply, applyNormal, Rotor2d.rotate, hs] <;> ring

example : (⟨⟨3 / 5, 4 / 5⟩⟩ : Rotor2d K).IsUnit := by simp only [Rotor2d.IsUnit]; norm_num

/-! ## C06, over an arbitrary field with square roots -/

/-- For a non-zero quaternion about the z axis the rotor acts on the plane exactly as the
normalised quaternion acts on the xy-plane of space. -/
theorem C06_from_quaternion_z [ExactFloat K] [ExactSqrt K] (q : Quat K) (hx : q.x = 0)
    (hy : q.y = 0) (h0 : q.z ≠ 0 ∨ q.w ≠ 0) (v : V2 K) :
    (Rotor2d.fromQuaternion q).IsUnit ∧
    ∃ n : K, 0 < n ∧ n ^ 2 = q.dot q ∧
      (⟨0, 0, q.z / n, q.w / n⟩ : Quat K).mulV3 ⟨v.x, v.y, 0⟩ =
        ⟨((Rotor2d.fromQuaternion q).rotate v).x, ((Rotor2d.fromQuaternion q).rotate v).y, 0⟩ := by
  have hpos : 0 < q.dot q := by
    simp only [Quat.dot, hx, hy]
    rcases h0 with h | h
    · have := mul_self_pos.2 h; nlinarith [mul_self_nonneg q.w]
    · have := mul_self_pos.2 h; nlinarith [mul_self_nonneg q.z]
  have hm := ExactSqrt.sqrt_mul_self _ hpos.le
  have hn0 := ExactSqrt.sqrt_nonneg _ hpos.le
  set n := FloatExtra.sqrt (q.dot q) with hn
  have hnz : n ≠ 0 := by intro h; rw [h] at hm; simp at hm; exact hpos.ne hm
  have hsq : n ^ 2 = q.z ^ 2 + q.w ^ 2 := by
    rw [sq, hm]; simp only [Quat.dot, hx, hy]; ring
  refine ⟨?_, n, lt_of_le_of_ne hn0 (Ne.symm hnz), by rw [sq, hm], ?_⟩
  · simp only [Rotor2d.IsUnit, Rotor2d.fromQuaternion, ← hn, ExactFloat.two_eq]
    field_simp
    linear_combination (4 * q.w ^ 2) * (-hsq)
  · simp only [Quat.mulV3, Rotor2d.fromQuaternion, Rotor2d.rotate, ← hn, ExactFloat.two_eq]
    ext <;> simp only [V3.scale_x, V3.scale_y, V3.scale_z, V3.dot_def, V3.cross_x, V3.cross_y,
      V3.cross_z, V3.add_x, V3.add_y, V3.add_z] <;> field_simp
    · linear_combination v.x * hsq
    · linear_combination v.y * hsq
    · ring

/-- Exactly when does `from_quaternion` give a rotation?  Only for rotations about z or by 180
degrees.  (Finding for general 3D rotations.) -/
theorem C06_from_quaternion_iff [ExactFloat K] [ExactSqrt K] (q : Quat K) (h0 : q.dot q ≠ 0) :
    (Rotor2d.fromQuaternion q).IsUnit ↔ (q.x = 0 ∧ q.y = 0) ∨ q.w = 0 := by
  have hge : 0 ≤ q.dot q := by
    simp only [Quat.dot]
    nlinarith [mul_self_nonneg q.x, mul_self_nonneg q.y, mul_self_nonneg q.z, mul_self_nonneg q.w]
  have hm := ExactSqrt.sqrt_mul_self _ hge
  set n := FloatExtra.sqrt (q.dot q) with hn
  have hnz : n ≠ 0 := by intro h; rw [h] at hm; simp at hm; exact h0 hm.symm
  have hsq : n ^ 2 = q.x ^ 2 + q.y ^ 2 + q.z ^ 2 + q.w ^ 2 := by
    rw [sq, hm]; simp only [Quat.dot]; ring
  simp only [Rotor2d.IsUnit, Rotor2d.fromQuaternion, ← hn, ExactFloat.two_eq]
  have key : (q.w / n * 2 * (q.w / n) - 1) ^ 2 + (2 * (q.w / n) * (q.z / n)) ^ 2 = 1 ↔
      q.w ^ 2 * (q.x ^ 2 + q.y ^ 2) = 0 := by
    constructor
    · intro h
      field_simp at h
      have : 4 * (q.w ^ 2 * (q.x ^ 2 + q.y ^ 2)) = 0 := by
        linear_combination -h - 4 * q.w ^ 2 * hsq
      simpa using this
    · intro h
      field_simp
      linear_combination (-4) * h + (-4 * q.w ^ 2) * hsq
  rw [key, mul_eq_zero, pow_eq_zero_iff two_ne_zero, or_comm]
  constructor
  · rintro (h | h)
    · left
      have h1 : q.x ^ 2 = 0 := by nlinarith [sq_nonneg q.x, sq_nonneg q.y]
      have h2 : q.y ^ 2 = 0 := by nlinarith [sq_nonneg q.x, sq_nonneg q.y]
      exact ⟨by simpa using h1, by simpa using h2⟩
    · exact Or.inr h
  · rintro (⟨h1, h2⟩ | h)
    · left; rw [h1, h2]; ring
    · exact Or.inr h

end

/-! ## C05, C06 with angles, over the reals -/

section
variable [FloatExtra ℝ] [RealTrig]

theorem C05_from_angle (α β : ℝ) :
    (Rotor2d.fromAngle α).IsUnit ∧
    (Rotor2d.fromAngle α).mulR (Rotor2d.fromAngle β) = Rotor2d.fromAngle (α + β) ∧
    (Rotor2d.fromAngle α).inverse = Rotor2d.fromAngle (-α) ∧
    (Rotor2d.fromAngle α).rotate ⟨1, 0⟩ = ⟨Real.cos α, Real.sin α⟩ ∧
    (Rotor2d.fromAngle (0 : ℝ)) = Rotor2d.identity := by
  simp only [Rotor2d.IsUnit, Rotor2d.fromAngle, Rotor2d.mulR, Rotor2d.inverse, Rotor2d.rotate,
    Rotor2d.identity, RealTrig.cos_eq, RealTrig.sin_eq, Real.cos_add, Real.sin_add, Real.cos_neg,
    Real.sin_neg, Real.cos_zero, Real.sin_zero]
  refine ⟨Real.cos_sq_add_sin_sq α, ?_, ?_, ?_, ?_⟩
  · congr 2; ring
  · trivial
  · simp
  · trivial

/-- `angle` reads back the angle a rotor was built from, and rebuilding gives the same rotor -/
theorem C05_angle (α : ℝ) (h1 : -Real.pi < α) (h2 : α ≤ Real.pi) (r : Rotor2d ℝ) (hr : r.IsUnit) :
    (Rotor2d.fromAngle α).angle = α ∧ Rotor2d.fromAngle r.angle = r := by
  constructor
  · simp only [Rotor2d.fromAngle, Rotor2d.angle, RealTrig.cos_eq, RealTrig.sin_eq,
      RealTrig.atan2_eq]
    have : (⟨Real.cos α, Real.sin α⟩ : ℂ) = Complex.cos α + Complex.sin α * Complex.I := by
      apply Complex.ext <;> simp [Complex.cos_ofReal_re, Complex.sin_ofReal_re]
    rw [this]
    exact Complex.arg_cos_add_sin_mul_I ⟨h1, h2⟩
  · simp only [Rotor2d.fromAngle, Rotor2d.angle, RealTrig.cos_eq, RealTrig.sin_eq,
      RealTrig.atan2_eq]
    unfold Rotor2d.IsUnit at hr
    have hn : ‖(⟨r.a.x, r.a.y⟩ : ℂ)‖ = 1 := by
      rw [Complex.norm_eq_sqrt_sq_add_sq]; simp [hr]
    have hne : (⟨r.a.x, r.a.y⟩ : ℂ) ≠ 0 := by intro h; rw [h] at hn; simp at hn
    ext
    · simp [Complex.cos_arg hne, hn]
    · simp [Complex.sin_arg, hn]

/-- a quaternion for the rotation by `θ` about z (of any positive magnitude) gives the rotor of
angle `θ` -/
theorem C06_from_quaternion_angle [ExactFloat ℝ] [ExactSqrt ℝ] (θ m : ℝ) (hm : 0 < m) :
    Rotor2d.fromQuaternion ⟨0, 0, m * Real.sin (θ / 2), m * Real.cos (θ / 2)⟩ =
      Rotor2d.fromAngle θ := by
  have hd : (⟨0, 0, m * Real.sin (θ / 2), m * Real.cos (θ / 2)⟩ : Quat ℝ).dot
      ⟨0, 0, m * Real.sin (θ / 2), m * Real.cos (θ / 2)⟩ = m * m := by
    simp only [Quat.dot]
    linear_combination m * m * Real.sin_sq_add_cos_sq (θ / 2)
  have h1 := ExactSqrt.sqrt_mul_self (m * m) (by positivity)
  have h2 := ExactSqrt.sqrt_nonneg (m * m) (by positivity)
  have hs : FloatExtra.sqrt (m * m) = m := by nlinarith
  simp only [Rotor2d.fromQuaternion, hd, hs, Rotor2d.fromAngle, RealTrig.cos_eq, RealTrig.sin_eq,
    ExactFloat.two_eq]
  have e : θ = 2 * (θ / 2) := by ring
  congr 2
  · conv_rhs => rw [e, Real.cos_two_mul]
    field_simp
  · conv_rhs => rw [e, Real.sin_two_mul]
    field_simp

end

/-- non-vacuity: the hypotheses on scalars hold for the reals -/
example : ∃ _ : FloatExtra ℝ, RealTrig ∧ ExactFloat ℝ ∧ ExactSqrt ℝ :=
  ⟨realFloat true 0, realFloat_trig _ _, realFloat_exact _ _, realFloat_sqrt _ _⟩

end Auburn
