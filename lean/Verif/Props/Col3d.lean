import Verif.Spec.Sets3d
import Verif.Lib.SignedDist
import Verif.Props.Direct
import Mathlib.Tactic

/-!
# C63–C69: the 3D module
-/

set_option linter.unusedSectionVars false
set_option synthInstance.maxSize 1000

namespace Auburn

open V3 Transformation3d Auburn.Invertible Composable

/-! ## C63: transformations -/

/-- the law documented on `Invertible` -/
def InverseLaw3 {T K : Type} [Transformation3d T K] [Invertible T] (t : T) : Prop :=
  ∀ p : V3 K, apply (inverse t) (apply t p) = p
/-- the law documented on `Composable` -/
def ComposeLaw3 {T K : Type} [Transformation3d T K] [Composable T] (a b : T) : Prop :=
  ∀ p : V3 K, apply (compose a b) p = apply a (apply b p)
/-- `unapply` and `apply` are mutually inverse, `apply_origin` is `apply(ZERO)`, `unapply_origin` is
the point sent to the origin -/
def UnapplyLaw3 {T K : Type} [Transformation3d T K] [Zero K] (t : T) : Prop :=
  (∀ p : V3 K, unapply t (apply t p) = p) ∧ (∀ p : V3 K, apply t (unapply t p) = p) ∧
    applyOrigin t = apply t 0 ∧ apply t (unapplyOrigin3 t) = 0
/-- geometry expressed in `a`'s space through `delta_transform` is the world geometry of `b` -/
def DeltaLaw3 {T K : Type} [Transformation3d T K] [Invertible T] [Composable T] (a b : T) : Prop :=
  ∀ p : V3 K, apply a (apply (deltaTransform a b) p) = apply b p

section
variable {K : Type} [Field K] [LinearOrder K] [IsStrictOrderedRing K] [FloatExtra K] [ExactFloat K]

/-- unit quaternion -/
def Quat.IsUnit (q : Quat K) : Prop := q.dot q = 1

theorem quat_mulV3_x (q : Quat K) (v : V3 K) : (q.mulV3 v).x =
    (q.w * q.w - (q.x * q.x + q.y * q.y + q.z * q.z)) * v.x +
      (v.x * q.x + v.y * q.y + v.z * q.z) * 2 * q.x + q.w * 2 * (q.y * v.z - v.y * q.z) := by
  simp only [Quat.mulV3, V3.add_x, V3.scale_x, V3.cross_x, V3.dot_def, ExactFloat.two_eq]
theorem quat_mulV3_y (q : Quat K) (v : V3 K) : (q.mulV3 v).y =
    (q.w * q.w - (q.x * q.x + q.y * q.y + q.z * q.z)) * v.y +
      (v.x * q.x + v.y * q.y + v.z * q.z) * 2 * q.y + q.w * 2 * (q.z * v.x - v.z * q.x) := by
  simp only [Quat.mulV3, V3.add_y, V3.scale_y, V3.cross_y, V3.dot_def, ExactFloat.two_eq]
theorem quat_mulV3_z (q : Quat K) (v : V3 K) : (q.mulV3 v).z =
    (q.w * q.w - (q.x * q.x + q.y * q.y + q.z * q.z)) * v.z +
      (v.x * q.x + v.y * q.y + v.z * q.z) * 2 * q.z + q.w * 2 * (q.x * v.y - v.x * q.y) := by
  simp only [Quat.mulV3, V3.add_z, V3.scale_z, V3.cross_z, V3.dot_def, ExactFloat.two_eq]

theorem quat_inv_mul (q : Quat K) (hq : q.IsUnit) (v : V3 K) :
    q.inverse.mulV3 (q.mulV3 v) = v := by
  unfold Quat.IsUnit Quat.dot at hq
  ext
  · rw [quat_mulV3_x, quat_mulV3_x, quat_mulV3_y, quat_mulV3_z]
    simp only [Quat.inverse]
    linear_combination v.x * (q.x * q.x + q.y * q.y + q.z * q.z + q.w * q.w + 1) * hq
  · rw [quat_mulV3_y, quat_mulV3_x, quat_mulV3_y, quat_mulV3_z]
    simp only [Quat.inverse]
    linear_combination v.y * (q.x * q.x + q.y * q.y + q.z * q.z + q.w * q.w + 1) * hq
  · rw [quat_mulV3_z, quat_mulV3_x, quat_mulV3_y, quat_mulV3_z]
    simp only [Quat.inverse]
    linear_combination v.z * (q.x * q.x + q.y * q.y + q.z * q.z + q.w * q.w + 1) * hq

theorem quat_unit_inverse {q : Quat K} (hq : q.IsUnit) : q.inverse.IsUnit := by
  unfold Quat.IsUnit Quat.dot Quat.inverse at *
  simp only; linear_combination hq

theorem quat_inverse_inverse (q : Quat K) : q.inverse.inverse = q := by
  ext <;> simp [Quat.inverse]

theorem quat_mul_inv (q : Quat K) (hq : q.IsUnit) (v : V3 K) :
    q.mulV3 (q.inverse.mulV3 v) = v := by
  have := quat_inv_mul q.inverse (quat_unit_inverse hq) v
  rwa [quat_inverse_inverse] at this

theorem quat_mulQ (a b : Quat K) (v : V3 K) : (a.mulQ b).mulV3 v = a.mulV3 (b.mulV3 v) := by
  ext
  · rw [quat_mulV3_x, quat_mulV3_x, quat_mulV3_x, quat_mulV3_y, quat_mulV3_z]
    simp only [Quat.mulQ]; ring
  · rw [quat_mulV3_y, quat_mulV3_y, quat_mulV3_x, quat_mulV3_y, quat_mulV3_z]
    simp only [Quat.mulQ]; ring
  · rw [quat_mulV3_z, quat_mulV3_z, quat_mulV3_x, quat_mulV3_y, quat_mulV3_z]
    simp only [Quat.mulQ]; ring

theorem quat_add (q : Quat K) (u v : V3 K) : q.mulV3 (u + v) = q.mulV3 u + q.mulV3 v := by
  ext
  · simp only [quat_mulV3_x, V3.add_x, V3.add_y, V3.add_z]; ring
  · simp only [quat_mulV3_y, V3.add_x, V3.add_y, V3.add_z]; ring
  · simp only [quat_mulV3_z, V3.add_x, V3.add_y, V3.add_z]; ring

theorem quat_scale (q : Quat K) (s : K) (v : V3 K) : q.mulV3 (V3.scale s v) = V3.scale s (q.mulV3 v) := by
  ext
  · simp only [quat_mulV3_x, V3.scale_x, V3.scale_y, V3.scale_z]; ring
  · simp only [quat_mulV3_y, V3.scale_x, V3.scale_y, V3.scale_z]; ring
  · simp only [quat_mulV3_z, V3.scale_x, V3.scale_y, V3.scale_z]; ring

theorem quat_sub (q : Quat K) (u v : V3 K) : q.mulV3 (u - v) = q.mulV3 u - q.mulV3 v := by
  ext
  · simp only [quat_mulV3_x, V3.sub_x, V3.sub_y, V3.sub_z]; ring
  · simp only [quat_mulV3_y, V3.sub_x, V3.sub_y, V3.sub_z]; ring
  · simp only [quat_mulV3_z, V3.sub_x, V3.sub_y, V3.sub_z]; ring

theorem quat_zero (q : Quat K) : q.mulV3 0 = 0 := by
  ext
  · simp [quat_mulV3_x]
  · simp [quat_mulV3_y]
  · simp [quat_mulV3_z]

/-- Isotropic3d, Transform3d, bevy: no axis is collapsed -/
def Nondeg3 (s : V3 K) : Prop := s.x ≠ 0 ∧ s.y ≠ 0 ∧ s.z ≠ 0

theorem C63_unapply_vec3 (t : V3 K) : UnapplyLaw3 (K := K) t := by
  refine ⟨fun p => ?_, fun p => ?_, ?_, ?_⟩ <;> ext <;> simp [apply, unapply, applyOrigin, unapplyOrigin3]
theorem C63_unapply_identity (t : IdentityTransform K) : UnapplyLaw3 (K := K) t := by
  exact ⟨fun p => rfl, fun p => rfl, rfl, rfl⟩
theorem C63_unapply_translate3d (t : Translate3d K) : UnapplyLaw3 (K := K) t := by
  refine ⟨fun p => ?_, fun p => ?_, ?_, ?_⟩ <;> ext <;> simp [apply, unapply, applyOrigin, unapplyOrigin3]
theorem C63_unapply_axis (t : AxisTransform3d K) (h : t.scale ≠ 0) : UnapplyLaw3 (K := K) t := by
  refine ⟨fun p => ?_, fun p => ?_, ?_, ?_⟩ <;> ext <;>
    simp [apply, unapply, applyOrigin, unapplyOrigin3] <;> field_simp <;> ring
theorem C63_unapply_isotropic (t : Isotropic3d K) (hr : t.rot.IsUnit) (h : t.scale ≠ 0) :
    UnapplyLaw3 (K := K) t := by
  have h1 : ∀ p : V3 K, unapply t (apply t p) = p := by
    intro p
    have : t.rot.mulV3 (V3.scale t.scale p) + t.pos - t.pos = t.rot.mulV3 (V3.scale t.scale p) := by
      ext <;> simp
    simp only [unapply, apply, this, quat_inv_mul _ hr]
    ext <;> simp [h]
  have h2 : ∀ p : V3 K, apply t (unapply t p) = p := by
    intro p
    have : V3.scale t.scale (V3.divS (t.rot.inverse.mulV3 (p - t.pos)) t.scale)
        = t.rot.inverse.mulV3 (p - t.pos) := by
      ext <;> simp <;> field_simp
    simp only [unapply, apply, this, quat_mul_inv _ hr]
    ext <;> simp
  refine ⟨h1, h2, ?_, h2 0⟩
  have : V3.scale t.scale (0 : V3 K) = 0 := by ext <;> simp
  simp only [applyOrigin, apply, this, quat_zero]
  ext <;> simp
theorem C63_unapply_transform3d (t : Transform3d K) (hr : t.rot.IsUnit) (h : Nondeg3 t.scale) :
    UnapplyLaw3 (K := K) t := by
  obtain ⟨hx, hy, hz⟩ := h
  have h1 : ∀ p : V3 K, unapply t (apply t p) = p := by
    intro p
    have : t.rot.mulV3 (V3.mulV t.scale p) + t.pos - t.pos = t.rot.mulV3 (V3.mulV t.scale p) := by
      ext <;> simp
    simp only [unapply, apply, this, quat_inv_mul _ hr]
    ext <;> simp [hx, hy, hz]
  have h2 : ∀ p : V3 K, apply t (unapply t p) = p := by
    intro p
    have : V3.mulV t.scale (V3.divV (t.rot.inverse.mulV3 (p - t.pos)) t.scale)
        = t.rot.inverse.mulV3 (p - t.pos) := by
      ext <;> simp <;> field_simp
    simp only [unapply, apply, this, quat_mul_inv _ hr]
    ext <;> simp
  refine ⟨h1, h2, ?_, h2 0⟩
  have : V3.mulV t.scale (0 : V3 K) = 0 := by ext <;> simp
  simp only [applyOrigin, apply, this, quat_zero]
  ext <;> simp
theorem C63_unapply_bevy (t : BevyTransform K) (hr : t.rotation.IsUnit) (h : Nondeg3 t.scale) :
    UnapplyLaw3 (K := K) t :=
  C63_unapply_transform3d ⟨t.translation, t.rotation, t.scale⟩ hr h

theorem C63_inverse_vec3 (t : V3 K) : InverseLaw3 (K := K) t := by
  intro p; ext <;> simp [apply, inverse]
theorem C63_inverse_translate3d (t : Translate3d K) : InverseLaw3 (K := K) t := by
  intro p; ext <;> simp [apply, inverse]
/-- `AxisTransform3d`: the documented law holds exactly without translation or without scaling -/
theorem C63_inverse_axis_iff (t : AxisTransform3d K) (h : t.scale ≠ 0) :
    InverseLaw3 (K := K) t ↔ t.pos = 0 ∨ t.scale = 1 := by
  constructor
  · intro hl
    by_cases hs : t.scale = 1
    · exact Or.inr hs
    · left
      have h0 := hl 0
      simp only [apply, inverse, V3.ext_iff, V3.add_x, V3.add_y, V3.add_z, V3.neg_x, V3.neg_y,
        V3.neg_z, V3.scale_x, V3.scale_y, V3.scale_z, V3.zero_x, V3.zero_y, V3.zero_z] at h0
      obtain ⟨hx, hy, hz⟩ := h0
      have h1 : (1 / t.scale - 1) ≠ 0 := by
        rw [sub_ne_zero]; intro h2; apply hs; field_simp at h2; exact h2.symm
      ext
      · exact (mul_eq_zero.1 (show (1 / t.scale - 1) * t.pos.x = 0 by linear_combination hx)).resolve_left h1
      · exact (mul_eq_zero.1 (show (1 / t.scale - 1) * t.pos.y = 0 by linear_combination hy)).resolve_left h1
      · exact (mul_eq_zero.1 (show (1 / t.scale - 1) * t.pos.z = 0 by linear_combination hz)).resolve_left h1
  · rintro (h0 | h1) p
    · ext <;> simp [apply, inverse, h0, h]
    · ext <;> simp [apply, inverse, h1]
/-- Finding: the documented law of `Invertible` fails for `AxisTransform3d`. -/
theorem C63_inverse_axis_finding :
    ¬ ∀ t : AxisTransform3d K, t.scale ≠ 0 → InverseLaw3 (K := K) t := by
  intro hall
  have h2 : (2 : K) ≠ 0 := two_ne_zero
  rcases (C63_inverse_axis_iff ⟨⟨1, 0, 0⟩, 2⟩ h2).1 (hall _ h2) with h | h
  · exact one_ne_zero (congrArg V3.x h)
  · norm_num at h
theorem C63_inverse_isotropic (t : Isotropic3d K) (hr : t.rot.IsUnit) (h : t.scale ≠ 0) :
    InverseLaw3 (K := K) t := by
  intro p
  simp only [apply, inverse, unapply]
  rw [quat_scale, quat_add, quat_inv_mul _ hr, quat_sub, quat_zero]
  ext <;> simp <;> field_simp <;> ring
/-- Finding: a rotation about `z` with scale (1, 2, 1) breaks the law. -/
theorem C63_inverse_transform3d_finding :
    ¬ ∀ t : Transform3d K, t.rot.IsUnit → Nondeg3 t.scale → InverseLaw3 (K := K) t := by
  intro hall
  -- the unit quaternion (0, 0, 3/5, 4/5)
  have h := hall ⟨0, ⟨0, 0, 3 / 5, 4 / 5⟩, ⟨1, 2, 1⟩⟩ (by norm_num [Quat.IsUnit, Quat.dot])
    (by norm_num [Nondeg3]) ⟨1, 0, 0⟩
  have hx := congrArg V3.x h
  simp only [apply, inverse, unapply, V3.add_x, quat_mulV3_x, quat_mulV3_y, quat_mulV3_z,
    V3.mulV_x, V3.mulV_y, V3.mulV_z, V3.recip_x, V3.recip_y, V3.recip_z, Quat.inverse, V3.divV_x,
    V3.sub_x, V3.sub_y, V3.sub_z, V3.zero_x, V3.zero_y, V3.zero_z, V3.add_y, V3.add_z] at hx
  norm_num at hx

theorem C63_compose_vec3 (a b : V3 K) : ComposeLaw3 (K := K) a b := by
  intro p; ext <;> simp [apply, compose] <;> ring
theorem C63_compose_translate3d (a b : Translate3d K) : ComposeLaw3 (K := K) a b := by
  intro p; ext <;> simp [apply, compose] <;> ring
theorem C63_compose_axis (a b : AxisTransform3d K) : ComposeLaw3 (K := K) a b := by
  intro p; ext <;> simp [apply, compose] <;> ring
theorem C63_compose_isotropic (a b : Isotropic3d K) : ComposeLaw3 (K := K) a b := by
  intro p
  simp only [apply, compose]
  rw [quat_mulQ]
  have : V3.scale a.scale (b.rot.mulV3 (V3.scale b.scale p) + b.pos) =
      b.rot.mulV3 (V3.scale (a.scale * b.scale) p) + V3.scale a.scale b.pos := by
    rw [quat_scale, quat_scale]; ext <;> simp <;> ring
  rw [this, quat_add]
  ext <;> simp <;> ring
/-- Finding: the documented law of `Composable` fails for `Transform3d`. -/
theorem C63_compose_transform3d_finding :
    ¬ ∀ a b : Transform3d K, a.rot.IsUnit → b.rot.IsUnit → Nondeg3 a.scale → Nondeg3 b.scale →
      ComposeLaw3 (K := K) a b := by
  intro hall
  have h := hall ⟨0, ⟨0, 0, 0, 1⟩, ⟨1, 2, 1⟩⟩ ⟨0, ⟨0, 0, 3 / 5, 4 / 5⟩, ⟨1, 1, 1⟩⟩
    (by norm_num [Quat.IsUnit, Quat.dot]) (by norm_num [Quat.IsUnit, Quat.dot])
    (by norm_num [Nondeg3]) (by norm_num [Nondeg3]) ⟨0, 1, 0⟩
  have hx := congrArg V3.x h
  simp only [apply, compose, V3.add_x, quat_mulV3_x, quat_mulV3_y, quat_mulV3_z, V3.mulV_x,
    V3.mulV_y, V3.mulV_z, Quat.mulQ, V3.zero_x, V3.zero_y, V3.zero_z, V3.add_y, V3.add_z] at hx
  norm_num at hx
theorem C63_bevy_is_transform3d (a b : BevyTransform K) (p : V3 K) :
    apply a p = apply (Transform3d.ofBevy a) p ∧ unapply a p = unapply (Transform3d.ofBevy a) p ∧
    Transform3d.ofBevy (inverse a) = inverse (Transform3d.ofBevy a) ∧
    Transform3d.ofBevy (compose a b) = compose (Transform3d.ofBevy a) (Transform3d.ofBevy b) ∧
    (Transform3d.ofBevy a).toBevy = a := ⟨rfl, rfl, rfl, rfl, rfl⟩
/-- `Isotropic3d::from(bevy Transform)` keeps the transformation when the scale is uniform. -/
theorem C63_isotropic_of_bevy (a : BevyTransform K) (hs : a.scale.y = a.scale.x) (hs' : a.scale.z = a.scale.x)
    (p : V3 K) :
    apply (Isotropic3d.ofBevy a) p = apply a p ∧ unapply (Isotropic3d.ofBevy a) p = unapply a p ∧
    applyOrigin (Isotropic3d.ofBevy a) = (applyOrigin a : V3 K) := by
  obtain ⟨t, q, s⟩ := a
  obtain ⟨sx, sy, sz⟩ := s
  simp only at hs hs'
  subst hs hs'
  exact ⟨rfl, rfl, rfl⟩
/-- Finding: a non-uniform bevy scale is silently replaced by its x component, so the converted
transformation moves points elsewhere. -/
theorem C63_isotropic_of_bevy_finding :
    (∀ (a : BevyTransform K) (p : V3 K),
      apply (Isotropic3d.ofBevy a) p =
        apply ({ a with scale := ⟨a.scale.x, a.scale.x, a.scale.x⟩ } : BevyTransform K) p) ∧
    ¬ ∀ (a : BevyTransform K) (p : V3 K), a.rotation.IsUnit → Nondeg3 a.scale →
      apply (Isotropic3d.ofBevy a) p = apply a p := by
  refine ⟨fun a p => rfl, ?_⟩
  intro h
  have := h ⟨0, ⟨0, 0, 0, 1⟩, ⟨1, 2, 1⟩⟩ ⟨0, 1, 0⟩ (by norm_num [Quat.IsUnit, Quat.dot])
    (by norm_num [Nondeg3])
  have hy := congrArg V3.y this
  simp only [apply, Isotropic3d.ofBevy, BevyTransform.apply3, V3.add_y, quat_mulV3_y, V3.scale_x, V3.scale_y, V3.scale_z,
    V3.mulV_x, V3.mulV_y, V3.mulV_z, V3.zero_y] at hy
  norm_num at hy

theorem delta_of_laws {T : Type} [Transformation3d T K] [Invertible T] [Composable T] {a b : T}
    (hc : ComposeLaw3 (K := K) (inverse a) b)
    (hi : ∀ p : V3 K, apply a (apply (inverse a) p) = p) : DeltaLaw3 (K := K) a b := by
  intro p
  show apply a (apply (compose (inverse a) b) p) = _
  rw [hc, hi]

theorem C63_delta_vec3 (a b : V3 K) : DeltaLaw3 (K := K) a b := by
  intro p; ext <;> simp [deltaTransform, apply, inverse, compose] <;> ring
theorem C63_delta_translate3d (a b : Translate3d K) : DeltaLaw3 (K := K) a b := by
  intro p; ext <;> simp [deltaTransform, apply, inverse, compose] <;> ring
theorem C63_delta_isotropic (a b : Isotropic3d K) (hr : a.rot.IsUnit) (h : a.scale ≠ 0) :
    DeltaLaw3 (K := K) a b := by
  refine delta_of_laws (C63_compose_isotropic _ _) fun p => ?_
  simp only [apply, inverse, unapply]
  have key : V3.scale a.scale (a.rot.inverse.mulV3 (V3.scale (1 / a.scale) p) +
      (a.rot.inverse.mulV3 (0 - a.pos)).divS a.scale) = a.rot.inverse.mulV3 (p - a.pos) := by
    rw [quat_scale, quat_sub, quat_zero, quat_sub]
    ext <;> simp <;> field_simp <;> ring
  rw [key, quat_mul_inv _ hr]
  ext <;> simp

/-- the rotation and the scaling commute -/
def Commute3 (q : Quat K) (s : V3 K) : Prop :=
  ∀ v : V3 K, q.mulV3 (V3.mulV s v) = V3.mulV s (q.mulV3 v)

/-- `Transform3d`, complete characterisation: the documented law of `Invertible` holds exactly when
rotation and scale commute (e.g. uniform scale). -/
theorem C63_inverse_transform3d_iff (t : Transform3d K) (hr : t.rot.IsUnit) (h : Nondeg3 t.scale) :
    InverseLaw3 (K := K) t ↔ Commute3 t.rot t.scale := by
  obtain ⟨hx, hy, hz⟩ := h
  have rs : ∀ v : V3 K, V3.mulV t.scale (V3.mulV t.scale.recip v) = v := by
    intro v; ext <;> simp [hx, hy, hz]
  have sr : ∀ v : V3 K, V3.mulV t.scale.recip (V3.mulV t.scale v) = v := by
    intro v; ext <;> simp [hx, hy, hz]
  have dv : ∀ v : V3 K, V3.divV v t.scale = V3.mulV t.scale.recip v := by
    intro v; ext <;> simp <;> ring
  have ma : ∀ u v : V3 K, V3.mulV t.scale.recip (u + v) =
      V3.mulV t.scale.recip u + V3.mulV t.scale.recip v := by
    intro u v; ext <;> simp <;> ring
  have run : ∀ p : V3 K, apply (inverse t) (apply t p) =
      t.rot.inverse.mulV3 (V3.mulV t.scale.recip (t.rot.mulV3 (V3.mulV t.scale p))) +
      (t.rot.inverse.mulV3 (V3.mulV t.scale.recip t.pos) +
        V3.mulV t.scale.recip (t.rot.inverse.mulV3 (0 - t.pos))) := by
    intro p
    simp only [apply, inverse, unapply]
    rw [dv, ma, quat_add]
    ext <;> simp <;> ring
  constructor
  · intro hl v
    have h0 := hl 0
    have z : V3.mulV t.scale (0 : V3 K) = 0 := by ext <;> simp
    have z' : V3.mulV t.scale.recip (0 : V3 K) = 0 := by ext <;> simp
    rw [run, z, quat_zero, z', quat_zero] at h0
    have hv := hl v
    rw [run] at hv
    have h1 : t.rot.inverse.mulV3 (V3.mulV t.scale.recip (t.rot.mulV3 (V3.mulV t.scale v))) = v := by
      have hx := congrArg V3.x h0; have hy := congrArg V3.y h0; have hz := congrArg V3.z h0
      have vx := congrArg V3.x hv; have vy := congrArg V3.y hv; have vz := congrArg V3.z hv
      simp only [V3.add_x, V3.add_y, V3.add_z, V3.zero_x, V3.zero_y, V3.zero_z] at hx hy hz vx vy vz
      ext
      · linear_combination vx - hx
      · linear_combination vy - hy
      · linear_combination vz - hz
    have h2 := congrArg t.rot.mulV3 h1
    rw [quat_mul_inv _ hr] at h2
    have h3 := congrArg (V3.mulV t.scale) h2
    rwa [rs] at h3
  · intro hc p
    have hc' : ∀ v : V3 K, V3.mulV t.scale.recip (t.rot.inverse.mulV3 v) =
        t.rot.inverse.mulV3 (V3.mulV t.scale.recip v) := by
      intro v
      have h1 := hc (V3.mulV t.scale.recip (t.rot.inverse.mulV3 v))
      rw [rs, quat_mul_inv _ hr] at h1
      have h2 := congrArg (V3.mulV t.scale.recip) h1
      rw [sr] at h2
      have h3 := congrArg t.rot.inverse.mulV3 h2
      rw [quat_inv_mul _ hr] at h3
      exact h3.symm
    rw [run, hc, sr, quat_inv_mul _ hr, hc', ← quat_add]
    have : V3.mulV t.scale.recip t.pos + V3.mulV t.scale.recip (0 - t.pos) = 0 := by
      ext <;> simp
    rw [this, quat_zero]
    ext <;> simp

/-- `Transform3d`, complete characterisation: the documented law of `Composable` holds exactly when
the outer scale commutes with the inner rotation. -/
theorem C63_compose_transform3d_iff (a b : Transform3d K) (ha : a.rot.IsUnit)
    (h : Nondeg3 b.scale) : ComposeLaw3 (K := K) a b ↔ Commute3 b.rot a.scale := by
  obtain ⟨hx, hy, hz⟩ := h
  have ma : ∀ u v : V3 K, V3.mulV a.scale (u + v) = V3.mulV a.scale u + V3.mulV a.scale v := by
    intro u v; ext <;> simp <;> ring
  have l : ∀ p : V3 K, apply (compose a b) p =
      a.rot.mulV3 (b.rot.mulV3 (V3.mulV a.scale (V3.mulV b.scale p))) +
        (a.rot.mulV3 (V3.mulV a.scale b.pos) + a.pos) := by
    intro p
    simp only [apply, compose]
    rw [quat_mulQ]
    congr 3
    ext <;> simp <;> ring
  have r : ∀ p : V3 K, apply a (apply b p) =
      a.rot.mulV3 (V3.mulV a.scale (b.rot.mulV3 (V3.mulV b.scale p))) +
        (a.rot.mulV3 (V3.mulV a.scale b.pos) + a.pos) := by
    intro p
    simp only [apply]
    rw [ma, quat_add]
    ext <;> simp <;> ring
  have canc : ∀ {u v w : V3 K}, u + w = v + w → u = v := by
    intro u v w h
    have hx := congrArg V3.x h; have hy := congrArg V3.y h; have hz := congrArg V3.z h
    simp only [V3.add_x, V3.add_y, V3.add_z] at hx hy hz
    ext <;> linarith
  constructor
  · intro hl v
    have hv := hl (V3.mulV b.scale.recip v)
    have e : V3.mulV b.scale (V3.mulV b.scale.recip v) = v := by ext <;> simp [hx, hy, hz]
    rw [l, r, e] at hv
    have h2 := congrArg a.rot.inverse.mulV3 (canc hv)
    rwa [quat_inv_mul _ ha, quat_inv_mul _ ha] at h2
  · intro hc p
    rw [l, r, hc]

/-- uniform scales commute with every rotation, and every scale with the identity rotation -/
theorem C63_commute (q : Quat K) (hq : q.IsUnit) (s : V3 K)
    (hu : (s.x = s.y ∧ s.y = s.z) ∨ (q.x = 0 ∧ q.y = 0 ∧ q.z = 0)) : Commute3 q s := by
  intro v
  rcases hu with ⟨h1, h2⟩ | ⟨h1, h2, h3⟩
  · have e : ∀ p : V3 K, V3.mulV s p = V3.scale s.x p := by
      intro p; ext
      · simp
      · simp [h1]
      · simp [h1, h2]
    rw [e, e, quat_scale]
  · have hw : q.w * q.w = 1 := by
      unfold Quat.IsUnit Quat.dot at hq; rw [h1, h2, h3] at hq; linear_combination hq
    have e : ∀ v : V3 K, q.mulV3 v = v := by
      intro v; ext
      · rw [quat_mulV3_x, h1, h2, h3, hw]; ring
      · rw [quat_mulV3_y, h1, h2, h3, hw]; ring
      · rw [quat_mulV3_z, h1, h2, h3, hw]; ring
    rw [e, e]

/-- `delta_transform` of `Transform3d`s is right if the first one's rotation commutes with its scale
and the scale with the second one's rotation (e.g. uniform scale) -/
theorem C63_delta_transform3d (a b : Transform3d K) (hr : a.rot.IsUnit) (h : Nondeg3 a.scale)
    (h1 : Commute3 a.rot a.scale) (h2 : Commute3 b.rot a.scale.recip) (hb : Nondeg3 b.scale) :
    DeltaLaw3 (K := K) a b := by
  refine delta_of_laws ((C63_compose_transform3d_iff _ b (quat_unit_inverse hr) hb).2 h2) fun p => ?_
  have hU := C63_unapply_transform3d a hr h
  have hI := (C63_inverse_transform3d_iff a hr h).2 h1
  have := hI (unapply a p)
  rw [hU.2.1] at this
  rw [this, hU.2.1]

theorem C63_delta_axis_iff (a b : AxisTransform3d K) (h : a.scale ≠ 0) :
    DeltaLaw3 (K := K) a b ↔ a.pos = 0 ∨ a.scale = 1 := by
  have run : ∀ p : V3 K, apply a (apply (deltaTransform a b) p) =
      apply b p + (a.pos - V3.scale a.scale a.pos) := by
    intro p
    ext <;> simp [deltaTransform, apply, inverse, compose] <;> field_simp <;> ring
  constructor
  · intro hl
    have h0 := hl 0
    rw [run] at h0
    by_cases hs : a.scale = 1
    · exact Or.inr hs
    · left
      have h1 : 1 - a.scale ≠ 0 := sub_ne_zero.2 (Ne.symm hs)
      have hx := congrArg V3.x h0; have hy := congrArg V3.y h0; have hz := congrArg V3.z h0
      simp only [V3.add_x, V3.add_y, V3.add_z, V3.sub_x, V3.sub_y, V3.sub_z, V3.scale_x, V3.scale_y,
        V3.scale_z] at hx hy hz
      ext
      · exact (mul_eq_zero.1 (show (1 - a.scale) * a.pos.x = 0 by linear_combination hx)).resolve_left h1
      · exact (mul_eq_zero.1 (show (1 - a.scale) * a.pos.y = 0 by linear_combination hy)).resolve_left h1
      · exact (mul_eq_zero.1 (show (1 - a.scale) * a.pos.z = 0 by linear_combination hz)).resolve_left h1
  · rintro (h0 | h1) p
    · rw [run, h0]; ext <;> simp
    · rw [run, h1]; ext <;> simp

/-- a concrete case: a rotated, scaled, translated isotropic transformation -/
example : let t : Isotropic3d ℚ := ⟨⟨1, 2, 3⟩, ⟨0, 0, 3 / 5, 4 / 5⟩, 2⟩
    t.rot.dot t.rot = 1 ∧ t.scale ≠ 0 := by norm_num [Quat.dot]

/-- a concrete case: rotated, with a scale that is non-uniform but commutes with the rotation -/
example : let t : Transform3d ℚ := ⟨⟨1, 2, 3⟩, ⟨0, 0, 3 / 5, 4 / 5⟩, ⟨2, 2, 5⟩⟩
    t.rot.dot t.rot = 1 ∧ t.scale.x ≠ 0 ∧ t.scale.y ≠ 0 ∧ t.scale.z ≠ 0 := by norm_num [Quat.dot]

/-! ## C64: Box3d v Point -/

section
variable {T : Type} [Transformation3d T K]

theorem box3dContains_iff (h δ : V3 K) : box3dContains h δ = true ↔ δ ∈ cuboidInterior h := by
  unfold box3dContains cuboidInterior
  simp only [Bool.and_eq_true, decide_eq_true_eq, Set.mem_ofPred_eq, abs_lt]
  tauto

/-- `collides` iff the point is strictly inside -/
theorem C64_box_collides (a : Box3d K) (pt : Point K) (rel : T) :
    CollidesRel3d.collidesRel a pt rel = true ↔ applyOrigin rel ∈ cuboidInterior a.halfsize :=
  box3dContains_iff _ _

/-- distance of an interior point from the surface, per axis -/
theorem surface_far {h δ q : V3 K} (hq : q ∈ cuboidSurface h) {m : K} (hm : 0 ≤ m)
    (hx : m ≤ h.x - |δ.x|) (hy : m ≤ h.y - |δ.y|) (hz : m ≤ h.z - |δ.z|) :
    m ^ 2 ≤ V3.lengthSq (δ - q) := by
  have key : ∀ a b k : K, |b| = k → m ≤ k - |a| → m ^ 2 ≤ (a - b) * (a - b) := by
    intro a b k hb hk
    have : m ≤ |a - b| := by
      have := abs_sub_abs_le_abs_sub b a
      rw [abs_sub_comm] at this; linarith
    rw [← sq, ← sq_abs (a - b)]
    exact pow_le_pow_left₀ hm this 2
  rw [V3.lengthSq_def]
  simp only [V3.sub_x, V3.sub_y, V3.sub_z]
  have nx := mul_self_nonneg (δ.x - q.x)
  have ny := mul_self_nonneg (δ.y - q.y)
  have nz := mul_self_nonneg (δ.z - q.z)
  rcases hq.2 with h1 | h1 | h1
  · linarith [key _ _ _ h1 hx]
  · linarith [key _ _ _ h1 hy]
  · linarith [key _ _ _ h1 hz]

theorem axis_push {a h : K} (ha : |a| < h) :
    |a - (|a| - h) * FloatExtra.signum a| = h := by
  have hs := signum_mul_signum a
  have hab := abs_mul_signum a
  have : a - (|a| - h) * FloatExtra.signum a = h * FloatExtra.signum a := by
    linear_combination -hab
  rw [this, abs_mul, signum_abs, mul_one, abs_of_nonneg ((abs_nonneg a).trans ha.le)]

theorem box3dPush_nearest {h δ : V3 K} (hin : δ ∈ cuboidInterior h) :
    IsNearest3 δ (cuboidSurface h) (δ - box3dPush h δ) ∧
    V3.lengthSq (box3dPush h δ) = (max (max (|δ.x| - h.x) (|δ.y| - h.y)) (|δ.z| - h.z)) ^ 2 := by
  obtain ⟨ix, iy, iz⟩ := hin
  have sub_sub : δ - (δ - box3dPush h δ) = box3dPush h δ := by ext <;> simp
  have fin : ∀ m : K, 0 ≤ m → m ≤ h.x - |δ.x| → m ≤ h.y - |δ.y| → m ≤ h.z - |δ.z| →
      δ - box3dPush h δ ∈ cuboidSurface h → V3.lengthSq (box3dPush h δ) = m ^ 2 →
      max (max (|δ.x| - h.x) (|δ.y| - h.y)) (|δ.z| - h.z) = -m →
      IsNearest3 δ (cuboidSurface h) (δ - box3dPush h δ) ∧
      V3.lengthSq (box3dPush h δ) = (max (max (|δ.x| - h.x) (|δ.y| - h.y)) (|δ.z| - h.z)) ^ 2 := by
    intro m hm hx hy hz hs hl hmax
    refine ⟨⟨hs, fun q hq => ?_⟩, by rw [hmax, neg_sq, hl]⟩
    rw [sub_sub, hl]
    exact surface_far hq hm hx hy hz
  have casex : box3dPush h δ = ⟨(|δ.x| - h.x) * FloatExtra.signum δ.x, 0, 0⟩ →
      |δ.y| - h.y ≤ |δ.x| - h.x → |δ.z| - h.z ≤ |δ.x| - h.x →
      IsNearest3 δ (cuboidSurface h) (δ - box3dPush h δ) ∧
      V3.lengthSq (box3dPush h δ) = (max (max (|δ.x| - h.x) (|δ.y| - h.y)) (|δ.z| - h.z)) ^ 2 := by
    intro e h1 h2
    refine fin (h.x - |δ.x|) (by linarith) le_rfl (by linarith) (by linarith) ?_ ?_ ?_
    · rw [e]
      have := axis_push ix
      refine ⟨⟨?_, ?_, ?_⟩, Or.inl ?_⟩
      · simp only [V3.sub_x]; rw [this]
      · simp only [V3.sub_y, sub_zero]; exact iy.le
      · simp only [V3.sub_z, sub_zero]; exact iz.le
      · simp only [V3.sub_x]; exact this
    · rw [e, V3.lengthSq_def]
      linear_combination (|δ.x| - h.x) ^ 2 * signum_mul_signum δ.x
    · rw [max_eq_left h1, max_eq_left h2]; ring
  have casey : box3dPush h δ = ⟨0, (|δ.y| - h.y) * FloatExtra.signum δ.y, 0⟩ →
      |δ.x| - h.x ≤ |δ.y| - h.y → |δ.z| - h.z ≤ |δ.y| - h.y →
      IsNearest3 δ (cuboidSurface h) (δ - box3dPush h δ) ∧
      V3.lengthSq (box3dPush h δ) = (max (max (|δ.x| - h.x) (|δ.y| - h.y)) (|δ.z| - h.z)) ^ 2 := by
    intro e h1 h2
    refine fin (h.y - |δ.y|) (by linarith) (by linarith) le_rfl (by linarith) ?_ ?_ ?_
    · rw [e]
      have := axis_push iy
      refine ⟨⟨?_, ?_, ?_⟩, Or.inr (Or.inl ?_)⟩
      · simp only [V3.sub_x, sub_zero]; exact ix.le
      · simp only [V3.sub_y]; rw [this]
      · simp only [V3.sub_z, sub_zero]; exact iz.le
      · simp only [V3.sub_y]; exact this
    · rw [e, V3.lengthSq_def]
      linear_combination (|δ.y| - h.y) ^ 2 * signum_mul_signum δ.y
    · rw [max_eq_right h1, max_eq_left h2]; ring
  have casez : box3dPush h δ = ⟨0, 0, (|δ.z| - h.z) * FloatExtra.signum δ.z⟩ →
      |δ.x| - h.x ≤ |δ.z| - h.z → |δ.y| - h.y ≤ |δ.z| - h.z →
      IsNearest3 δ (cuboidSurface h) (δ - box3dPush h δ) ∧
      V3.lengthSq (box3dPush h δ) = (max (max (|δ.x| - h.x) (|δ.y| - h.y)) (|δ.z| - h.z)) ^ 2 := by
    intro e h1 h2
    refine fin (h.z - |δ.z|) (by linarith) (by linarith) (by linarith) le_rfl ?_ ?_ ?_
    · rw [e]
      have := axis_push iz
      refine ⟨⟨?_, ?_, ?_⟩, Or.inr (Or.inr ?_)⟩
      · simp only [V3.sub_x, sub_zero]; exact ix.le
      · simp only [V3.sub_y, sub_zero]; exact iy.le
      · simp only [V3.sub_z]; rw [this]
      · simp only [V3.sub_z]; exact this
    · rw [e, V3.lengthSq_def]
      linear_combination (|δ.z| - h.z) ^ 2 * signum_mul_signum δ.z
    · rw [max_eq_right (max_le h1 h2)]; ring
  by_cases c1 : |δ.x| - h.x > |δ.y| - h.y
  · by_cases c2 : |δ.z| - h.z > |δ.x| - h.x
    · exact casez (by simp only [box3dPush, ExactFloat.abs_eq, if_pos c1, if_pos c2]) c2.le
        (c1.le.trans c2.le)
    · exact casex (by simp only [box3dPush, ExactFloat.abs_eq, if_pos c1, if_neg c2]) c1.le
        (not_lt.1 c2)
  · by_cases c2 : |δ.z| - h.z > |δ.y| - h.y
    · exact casez (by simp only [box3dPush, ExactFloat.abs_eq, if_neg c1, if_pos c2])
        ((not_lt.1 c1).trans c2.le) c2.le
    · exact casey (by simp only [box3dPush, ExactFloat.abs_eq, if_neg c1, if_neg c2]) (not_lt.1 c1)
        (not_lt.1 c2)

/-- `penetrates`: inside, `point - v` is a nearest point of the surface; otherwise `None`. -/
theorem C64_box_penetrates (a : Box3d K) (pt : Point K) (rel : T) :
    (applyOrigin rel ∈ cuboidInterior a.halfsize → ∃ v, PenetratesRel3d.penetratesRel a pt rel = some v ∧
      IsNearest3 (applyOrigin rel) (cuboidSurface a.halfsize) (applyOrigin rel - v)) ∧
    (applyOrigin rel ∉ cuboidInterior a.halfsize → PenetratesRel3d.penetratesRel a pt rel = none) := by
  constructor
  · intro h
    exact ⟨_, if_pos ((C64_box_collides a pt rel).2 h), (box3dPush_nearest h).1⟩
  · intro h
    exact if_neg fun hc => h ((C64_box_collides a pt rel).1 hc)

/-- one axis of the way from an outside point to its nearest point -/
theorem axis_clamp {a h : K} (hh : 0 ≤ h) :
    |a - max (|a| - h) 0 * FloatExtra.signum a| ≤ h ∧
    (h ≤ |a| → |a - max (|a| - h) 0 * FloatExtra.signum a| = h) ∧
    ∀ b : K, |b| ≤ h → (max (|a| - h) 0 * FloatExtra.signum a) * (max (|a| - h) 0 * FloatExtra.signum a)
      ≤ (a - b) * (a - b) := by
  have hs := signum_mul_signum a
  have hab := abs_mul_signum a
  by_cases c : h ≤ |a|
  · rw [max_eq_left (by linarith)]
    have e : a - (|a| - h) * FloatExtra.signum a = h * FloatExtra.signum a := by
      linear_combination -hab
    have e2 : |a - (|a| - h) * FloatExtra.signum a| = h := by
      rw [e, abs_mul, signum_abs, mul_one, abs_of_nonneg hh]
    refine ⟨e2.le, fun _ => e2, fun b hb => ?_⟩
    have h1 : |a| - h ≤ |a - b| := by
      have := abs_sub_abs_le_abs_sub a b; linarith
    calc _ = (|a| - h) ^ 2 := by linear_combination (|a| - h) ^ 2 * hs
      _ ≤ |a - b| ^ 2 := pow_le_pow_left₀ (by linarith) h1 2
      _ = _ := by rw [sq_abs, sq]
  · rw [max_eq_right (by linarith)]
    simp only [zero_mul, sub_zero]
    exact ⟨(not_le.1 c).le, fun h => absurd h c, fun b _ => mul_self_nonneg _⟩

/-- `sdfv`: `point - v` is a nearest point of the surface, inside and outside. -/
theorem C64_box_sdfv (a : Box3d K) (pt : Point K) (rel : T)
    (ha : 0 ≤ a.halfsize.x ∧ 0 ≤ a.halfsize.y ∧ 0 ≤ a.halfsize.z) :
    IsNearest3 (applyOrigin rel) (cuboidSurface a.halfsize)
      (applyOrigin rel - SdfvRel3d.sdfvRel a pt rel) := by
  set δ := applyOrigin rel with hδ
  set h := a.halfsize with hh
  by_cases hin : δ ∈ cuboidInterior h
  · have e : SdfvRel3d.sdfvRel a pt rel = box3dPush h δ := if_pos ((C64_box_collides a pt rel).2 hin)
    rw [e]
    exact (box3dPush_nearest hin).1
  · have e : SdfvRel3d.sdfvRel a pt rel = ⟨max (|δ.x| - h.x) 0 * FloatExtra.signum δ.x,
        max (|δ.y| - h.y) 0 * FloatExtra.signum δ.y, max (|δ.z| - h.z) 0 * FloatExtra.signum δ.z⟩ := by
      simp only [SdfvRel3d.sdfvRel]
      rw [if_neg fun hc => hin ((C64_box_collides a pt rel).1 hc)]
      simp only [ExactFloat.abs_eq, ExactFloat.fmax_eq, ← hδ, ← hh]
    have cx := axis_clamp (a := δ.x) ha.1
    have cy := axis_clamp (a := δ.y) ha.2.1
    have cz := axis_clamp (a := δ.z) ha.2.2
    refine ⟨⟨⟨?_, ?_, ?_⟩, ?_⟩, ?_⟩
    · rw [e]; exact cx.1
    · rw [e]; exact cy.1
    · rw [e]; exact cz.1
    · rw [e]
      by_contra hno
      push Not at hno
      obtain ⟨n1, n2, n3⟩ := hno
      exact hin ⟨not_le.1 fun hc => n1 (cx.2.1 hc), not_le.1 fun hc => n2 (cy.2.1 hc),
        not_le.1 fun hc => n3 (cz.2.1 hc)⟩
    · rintro q ⟨⟨q1, q2, q3⟩, _⟩
      rw [e, V3.lengthSq_def, V3.lengthSq_def]
      simp only [V3.sub_x, V3.sub_y, V3.sub_z, sub_sub_cancel]
      linarith [cx.2.2 _ q1, cy.2.2 _ q2, cz.2.2 _ q3]

theorem C64_sdfv_lengthSq_outside (a : Box3d K) (pt : Point K) (rel : T)
    (hin : applyOrigin rel ∉ cuboidInterior a.halfsize) :
    V3.lengthSq (SdfvRel3d.sdfvRel a pt rel) = max (|(applyOrigin rel).x| - a.halfsize.x) 0 ^ 2 +
      max (|(applyOrigin rel).y| - a.halfsize.y) 0 ^ 2 + max (|(applyOrigin rel).z| - a.halfsize.z) 0 ^ 2 := by
  simp only [SdfvRel3d.sdfvRel]
  rw [if_neg fun hc => hin ((C64_box_collides a pt rel).1 hc), V3.lengthSq_def]
  simp only [ExactFloat.abs_eq, ExactFloat.fmax_eq]
  set δ := applyOrigin rel
  linear_combination max (|δ.x| - a.halfsize.x) 0 ^ 2 * signum_mul_signum δ.x +
    max (|δ.y| - a.halfsize.y) 0 ^ 2 * signum_mul_signum δ.y +
    max (|δ.z| - a.halfsize.z) 0 ^ 2 * signum_mul_signum δ.z

/-- `sdf` is the signed distance to the surface exactly when the point is *not* straight above or
below the box in `z` (strictly within its `x` and `y` extent and outside in `z`). -/
theorem C64_box_sdf_iff [ExactSqrt K] (a : Box3d K) (pt : Point K) (rel : T)
    (ha : 0 ≤ a.halfsize.x ∧ 0 ≤ a.halfsize.y ∧ 0 ≤ a.halfsize.z) :
    IsSignedDist3 (applyOrigin rel) (cuboidInterior a.halfsize) (cuboidSurface a.halfsize)
      (SdfRel3d.sdfRel a pt rel) ↔
    ¬ (|(applyOrigin rel).x| < a.halfsize.x ∧ |(applyOrigin rel).y| < a.halfsize.y ∧
      a.halfsize.z ≤ |(applyOrigin rel).z|) := by
  have near := C64_box_sdfv a pt rel ha
  have out := C64_sdfv_lengthSq_outside a pt rel
  set δ := applyOrigin rel with hδ
  set h := a.halfsize with hh
  set v := SdfvRel3d.sdfvRel a pt rel with hv
  have subv : δ - (δ - v) = v := by ext <;> simp
  obtain ⟨near1, near2⟩ := near
  rw [subv] at near2
  have mk : ∀ s : K, (s < 0 ↔ δ ∈ cuboidInterior h) → s ^ 2 = V3.lengthSq v →
      IsSignedDist3 δ (cuboidInterior h) (cuboidSurface h) s := by
    intro s h1 h2
    exact ⟨h1, ⟨δ - v, near1, by rw [subv, h2]⟩, fun q hq => h2 ▸ near2 q hq⟩
  by_cases hin : δ ∈ cuboidInterior h
  · have es : SdfRel3d.sdfRel a pt rel = max (max (|δ.x| - h.x) (|δ.y| - h.y)) (|δ.z| - h.z) := by
      simp only [SdfRel3d.sdfRel]
      rw [if_pos ((C64_box_collides a pt rel).2 hin)]
      simp only [ExactFloat.abs_eq, ExactFloat.fmax_eq, ← hδ, ← hh]
    have ev : v = box3dPush h δ := if_pos ((C64_box_collides a pt rel).2 hin)
    refine ⟨fun _ hc => absurd hin.2.2 (not_lt.2 hc.2.2), fun _ => ?_⟩
    refine mk _ ⟨fun _ => hin, fun _ => ?_⟩ ?_
    · rw [es]
      exact max_lt (max_lt (by linarith [hin.1]) (by linarith [hin.2.1])) (by linarith [hin.2.2])
    · rw [es, ev, (box3dPush_nearest hin).2]
  · have lv := out hin
    have hneg : ∀ s : K, 0 ≤ s → (s < 0 ↔ δ ∈ cuboidInterior h) := fun s hs =>
      ⟨fun h => absurd h (not_lt.2 hs), fun h => absurd h hin⟩
    have l2 : ∀ x y : K, 0 ≤ (V2.mk x y).length ∧ (V2.mk x y).length ^ 2 = x ^ 2 + y ^ 2 := by
      intro x y
      refine ⟨V2.length_nonneg _, ?_⟩
      rw [V2.length_sq, V2.lengthSq_def, sq, sq]
    have l3 : ∀ x y z : K, 0 ≤ (V3.mk x y z).length ∧
        (V3.mk x y z).length ^ 2 = x ^ 2 + y ^ 2 + z ^ 2 := by
      intro x y z
      refine ⟨V3.length_nonneg _, ?_⟩
      rw [V3.length_sq, V3.lengthSq_def, sq, sq, sq]
    have es : SdfRel3d.sdfRel a pt rel =
        if |δ.z| - h.z < 0 then
          if |δ.x| - h.x < 0 then |δ.y| - h.y else if |δ.y| - h.y < 0 then |δ.x| - h.x
          else (V2.mk (|δ.x| - h.x) (|δ.y| - h.y)).length
        else if |δ.x| - h.x < 0 then (V2.mk (|δ.z| - h.z) (|δ.y| - h.y)).length
          else if |δ.y| - h.y < 0 then (V2.mk (|δ.z| - h.z) (|δ.x| - h.x)).length
          else (V3.mk (|δ.x| - h.x) (|δ.y| - h.y) (|δ.z| - h.z)).length := by
      simp only [SdfRel3d.sdfRel]
      rw [if_neg fun hc => hin ((C64_box_collides a pt rel).1 hc)]
      simp only [ExactFloat.abs_eq, ← hδ, ← hh]
    by_cases cz : |δ.z| - h.z < 0
    · rw [if_pos cz] at es
      refine ⟨fun _ hc => by linarith [hc.2.2], fun _ => ?_⟩
      rw [max_eq_right cz.le] at lv
      by_cases cx : |δ.x| - h.x < 0
      · rw [if_pos cx] at es
        have cy : 0 ≤ |δ.y| - h.y := by
          by_contra hc
          exact hin ⟨by linarith, by linarith, by linarith⟩
        rw [es]
        refine mk _ (hneg _ cy) ?_
        rw [lv, max_eq_right cx.le, max_eq_left cy]; ring
      · rw [if_neg cx] at es
        rw [not_lt] at cx
        by_cases cy : |δ.y| - h.y < 0
        · rw [es, if_pos cy]
          refine mk _ (hneg _ cx) ?_
          rw [lv, max_eq_left cx, max_eq_right cy.le]; ring
        · rw [es, if_neg cy]
          rw [not_lt] at cy
          refine mk _ (hneg _ (l2 _ _).1) ?_
          rw [lv, max_eq_left cx, max_eq_left cy, (l2 _ _).2]; ring
    · rw [if_neg cz] at es
      rw [not_lt] at cz
      rw [max_eq_left cz] at lv
      by_cases cx : |δ.x| - h.x < 0
      · rw [if_pos cx] at es
        rw [max_eq_right cx.le] at lv
        by_cases cy : |δ.y| - h.y < 0
        · rw [max_eq_right cy.le] at lv
          refine ⟨fun hs => ?_, fun hc => absurd ⟨by linarith, by linarith, by linarith⟩ hc⟩
          exfalso
          have hgood := mk (|δ.z| - h.z) (hneg _ cz) (by rw [lv]; ring)
          have e := hs.unique hgood
          rw [es] at e
          have := (l2 (|δ.z| - h.z) (|δ.y| - h.y)).2
          rw [e] at this
          have hy2 : 0 < (|δ.y| - h.y) ^ 2 := by rw [sq]; exact mul_pos_of_neg_of_neg cy cy
          linarith
        · rw [not_lt] at cy
          rw [max_eq_left cy] at lv
          refine ⟨fun _ hc => by linarith [hc.2.1], fun _ => ?_⟩
          rw [es]
          refine mk _ (hneg _ (l2 _ _).1) ?_
          rw [lv, (l2 _ _).2]; ring
      · rw [if_neg cx] at es
        rw [not_lt] at cx
        rw [max_eq_left cx] at lv
        refine ⟨fun _ hc => by linarith [hc.1], fun _ => ?_⟩
        by_cases cy : |δ.y| - h.y < 0
        · rw [es, if_pos cy]
          refine mk _ (hneg _ (l2 _ _).1) ?_
          rw [lv, max_eq_right cy.le, (l2 _ _).2]; ring
        · rw [es, if_neg cy]
          rw [not_lt] at cy
          refine mk _ (hneg _ (l3 _ _ _).1) ?_
          rw [lv, max_eq_left cy, (l3 _ _ _).2]

/-- Finding: `Box3d::sdf_rel` is wrong above the box.  Box with half sizes (2, 1, 3), point (0, 0, 4):
the distance is 1, the result is `√2`. -/
theorem C64_box_sdf_finding [ExactSqrt K] (pt : Point K) :
    ¬ IsSignedDist3 (⟨0, 0, 4⟩ : V3 K) (cuboidInterior ⟨2, 1, 3⟩) (cuboidSurface ⟨2, 1, 3⟩)
      (SdfRel3d.sdfRel (⟨⟨2, 1, 3⟩⟩ : Box3d K) pt (⟨0, 0, 4⟩ : V3 K)) := by
  intro h
  refine (C64_box_sdf_iff (⟨⟨2, 1, 3⟩⟩ : Box3d K) pt (⟨0, 0, 4⟩ : V3 K) (by norm_num)).1 h ?_
  norm_num [applyOrigin]

/-- concrete cases of the positive statements -/
example : (⟨1, 0, -1⟩ : V3 ℚ) ∈ cuboidInterior (⟨2, 1, 3⟩ : V3 ℚ) := by
  refine ⟨?_, ?_, ?_⟩ <;> norm_num

/-! ## C65: Ball v Point -/

theorem C65_ball_collides (a : Ball K) (ha : 0 ≤ a.radius) (pt : Point K) (rel : T) :
    CollidesRel3d.collidesRel a pt rel = true ↔ applyOrigin rel ∈ ball3Interior a.radius := by
  show decide _ = true ↔ _
  rw [decide_eq_true_eq, ball3Interior, Set.mem_ofPred_eq, ← sq]
  refine ⟨fun h => ⟨?_, h⟩, fun h => h.2⟩
  rcases ha.lt_or_eq with h1 | h1
  · exact h1
  · rw [← h1] at h
    have := V3.lengthSq_nonneg (applyOrigin rel)
    norm_num at h; linarith

variable [ExactSqrt K]

theorem sphere_nearest {δ u : V3 K} {r : K} (hr : 0 ≤ r) (hu : V3.lengthSq u = 1)
    (hδ : δ = V3.scale δ.length u) : IsNearest3 δ (sphere3 r) (V3.scale r u) := by
  refine ⟨?_, ?_⟩
  · show V3.lengthSq _ = _
    rw [V3.lengthSq_scale, hu, mul_one]
  · intro q hq
    have hq' : q.length = r := by
      have h1 := V3.length_sq q
      rw [show V3.lengthSq q = r ^ 2 from hq] at h1
      exact (sq_eq_sq₀ (V3.length_nonneg q) hr).1 h1
    have h1 := V3.dot_le_length δ q
    have e1 : V3.lengthSq (δ - q) = V3.lengthSq δ - 2 * δ.dot q + V3.lengthSq q := by
      simp only [V3.lengthSq_def, V3.dot_def, V3.sub_x, V3.sub_y, V3.sub_z]; ring
    have e2 : V3.lengthSq (δ - V3.scale r u) = (δ.length - r) ^ 2 := by
      have : δ - V3.scale r u = V3.scale (δ.length - r) u := by
        conv_lhs => rw [hδ]
        ext <;> simp <;> ring
      rw [this, V3.lengthSq_scale, hu, mul_one]
    rw [e1, e2, ← V3.length_sq, ← V3.length_sq, hq']
    rw [hq'] at h1
    nlinarith

theorem unit_dir {δ : V3 K} (h : δ ≠ 0) : V3.lengthSq (V3.scale (1 / δ.length) δ) = 1 ∧
    δ = V3.scale δ.length (V3.scale (1 / δ.length) δ) := by
  have hp := (V3.length_pos.2 h).ne'
  constructor
  · rw [V3.lengthSq_scale, ← V3.length_sq]; field_simp
  · ext <;> simp <;> field_simp

theorem length3_zero : (0 : V3 K).length = 0 := by
  have := V3.length_sq (0 : V3 K)
  rw [V3.lengthSq_eq_zero.2 rfl] at this
  exact pow_eq_zero_iff (two_ne_zero) |>.1 this

/-- `sdfv`: `point - v` is a nearest point of the sphere. -/
theorem C65_ball_sdfv (a : Ball K) (ha : 0 ≤ a.radius) (pt : Point K) (rel : T) :
    IsNearest3 (applyOrigin rel) (sphere3 a.radius) (applyOrigin rel - SdfvRel3d.sdfvRel a pt rel) := by
  set δ := applyOrigin rel with hδ
  by_cases h0 : δ = 0
  · have e : SdfvRel3d.sdfvRel a pt rel = V3.scale a.radius V3.unitX := by
      simp only [SdfvRel3d.sdfvRel, ← hδ]
      rw [if_neg (by rw [h0, length3_zero]; exact lt_irrefl _)]
    have h1 : δ - SdfvRel3d.sdfvRel a pt rel = V3.scale a.radius ⟨-1, 0, 0⟩ := by
      rw [e, h0]; ext <;> simp [V3.unitX]
    rw [h1]
    refine sphere_nearest ha (by simp [V3.lengthSq_def]) ?_
    rw [h0, length3_zero]; ext <;> simp
  · have hp := V3.length_pos.2 h0
    have e : SdfvRel3d.sdfvRel a pt rel = V3.scale ((δ.length - a.radius) / δ.length) δ := by
      simp only [SdfvRel3d.sdfvRel, ← hδ]
      rw [if_pos hp]
    have h1 : δ - SdfvRel3d.sdfvRel a pt rel = V3.scale a.radius (V3.scale (1 / δ.length) δ) := by
      rw [e]
      have := hp.ne'
      ext <;> simp <;> field_simp <;> ring
    rw [h1]
    exact sphere_nearest ha (unit_dir h0).1 (unit_dir h0).2

/-- `sdf` is the signed distance to the sphere. -/
theorem C65_ball_sdf (a : Ball K) (ha : 0 ≤ a.radius) (pt : Point K) (rel : T) :
    IsSignedDist3 (applyOrigin rel) (ball3Interior a.radius) (sphere3 a.radius)
      (SdfRel3d.sdfRel a pt rel) := by
  have hn := C65_ball_sdfv a ha pt rel
  set δ := applyOrigin rel with hδ
  have es : SdfRel3d.sdfRel a pt rel = δ.length - a.radius := rfl
  have hl : V3.lengthSq (δ - (δ - SdfvRel3d.sdfvRel a pt rel)) = (δ.length - a.radius) ^ 2 := by
    have : δ - (δ - SdfvRel3d.sdfvRel a pt rel) = SdfvRel3d.sdfvRel a pt rel := by ext <;> simp
    rw [this]
    by_cases h0 : δ = 0
    · have e : SdfvRel3d.sdfvRel a pt rel = V3.scale a.radius V3.unitX := by
        simp only [SdfvRel3d.sdfvRel, ← hδ]
        rw [if_neg (by rw [h0, length3_zero]; exact lt_irrefl _)]
      rw [e, h0, length3_zero, V3.lengthSq_scale]; simp [V3.lengthSq_def, V3.unitX]
    · have hp := V3.length_pos.2 h0
      have e : SdfvRel3d.sdfvRel a pt rel = V3.scale ((δ.length - a.radius) / δ.length) δ := by
        simp only [SdfvRel3d.sdfvRel, ← hδ]
        rw [if_pos hp]
      rw [e, V3.lengthSq_scale, ← V3.length_sq]
      field_simp
  refine ⟨?_, ⟨_, hn.1, by rw [es]; exact hl⟩, fun q hq => ?_⟩
  · rw [es, sub_neg]
    constructor
    · intro h
      refine ⟨(V3.length_nonneg δ).trans_lt h, ?_⟩
      rw [← V3.length_sq]; exact pow_lt_pow_left₀ h (V3.length_nonneg δ) two_ne_zero
    · rintro ⟨h0, h⟩
      rw [← V3.length_sq] at h
      exact lt_of_pow_lt_pow_left₀ 2 h0.le h
  · rw [es, ← hl]; exact hn.2 q hq

/-- `penetrates`: `None` outside; inside, `point - v` is a nearest point of the sphere, if the point
is the centre or at least `f32::EPSILON` away from it. -/
theorem C65_ball_penetrates (a : Ball K) (ha : 0 ≤ a.radius) (pt : Point K) (rel : T) :
    (applyOrigin rel ∈ ball3Interior a.radius →
      (applyOrigin rel = 0 ∨ (1 / 2 ^ 23 : K) ≤ (applyOrigin rel).length) →
      ∃ v, PenetratesRel3d.penetratesRel a pt rel = some v ∧
        IsNearest3 (applyOrigin rel) (sphere3 a.radius) (applyOrigin rel - v)) ∧
    (applyOrigin rel ∉ ball3Interior a.radius → PenetratesRel3d.penetratesRel a pt rel = none) := by
  set δ := applyOrigin rel with hδ
  constructor
  · intro hin hd
    have e0 : PenetratesRel3d.penetratesRel a pt rel = if δ.length < FloatExtra.epsilon
        then some ⟨a.radius, 0, 0⟩
        else some (-(V3.scale ((a.radius - δ.length) / δ.length) δ)) := by
      simp only [PenetratesRel3d.penetratesRel]
      rw [if_pos ((C65_ball_collides a ha pt rel).2 hin)]
    rw [ExactFloat.epsilon_eq] at e0
    by_cases h0 : δ = 0
    · refine ⟨⟨a.radius, 0, 0⟩, ?_, ?_⟩
      · rw [e0, if_pos]
        rw [h0, length3_zero]; positivity
      · have h1 : δ - ⟨a.radius, 0, 0⟩ = V3.scale a.radius ⟨-1, 0, 0⟩ := by
          rw [h0]; ext <;> simp
        rw [h1]
        refine sphere_nearest ha (by simp [V3.lengthSq_def]) ?_
        rw [h0, length3_zero]; ext <;> simp
    · have hp := V3.length_pos.2 h0
      refine ⟨_, by rw [e0, if_neg (not_lt.2 (hd.resolve_left h0))], ?_⟩
      have h1 : δ - -(V3.scale ((a.radius - δ.length) / δ.length) δ) =
          V3.scale a.radius (V3.scale (1 / δ.length) δ) := by
        have := hp.ne'
        ext <;> simp <;> field_simp <;> ring
      rw [h1]
      exact sphere_nearest ha (unit_dir h0).1 (unit_dir h0).2
  · intro h
    exact if_neg fun hc => h ((C65_ball_collides a ha pt rel).1 hc)

/-- Finding: closer to the centre than `f32::EPSILON` the vector of `penetrates` does not separate:
the point `(ε/2, 0, 0)` in the unit ball is still inside after the move. -/
theorem C65_ball_penetrates_finding (pt : Point K) :
    ∃ v, PenetratesRel3d.penetratesRel (⟨1⟩ : Ball K) pt (⟨1 / 2 ^ 24, 0, 0⟩ : V3 K) = some v ∧
      (⟨1 / 2 ^ 24, 0, 0⟩ : V3 K) - v ∈ ball3Interior (1 : K) := by
  have hl : (⟨1 / 2 ^ 24, 0, 0⟩ : V3 K).length = 1 / 2 ^ 24 := by
    have h1 := V3.length_sq (⟨1 / 2 ^ 24, 0, 0⟩ : V3 K)
    rw [V3.lengthSq_def] at h1
    simp only [mul_zero, add_zero] at h1
    rw [← sq] at h1
    exact (sq_eq_sq₀ (V3.length_nonneg _) (by positivity)).1 h1
  refine ⟨⟨1, 0, 0⟩, ?_, ?_⟩
  · simp only [PenetratesRel3d.penetratesRel]
    rw [if_pos, if_pos]
    · show (⟨1 / 2 ^ 24, 0, 0⟩ : V3 K).length < _
      rw [hl, ExactFloat.epsilon_eq]; norm_num
    · refine (C65_ball_collides (⟨1⟩ : Ball K) (by norm_num) pt _).2 ⟨by norm_num, ?_⟩
      norm_num [applyOrigin, V3.lengthSq_def]
  · refine ⟨by norm_num, ?_⟩
    rw [V3.lengthSq_def]
    norm_num

end

end

/-! ## C66, C68: delegation and call forms -/

section
variable {F : Type} [Zero F] [One F] [Add F] [Sub F] [Mul F] [Div F] [Neg F]
  [LT F] [LE F] [DecidableLT F] [DecidableLE F] [FloatExtra F]

/-- `Point` v shape gives the answers of shape v `Point`, for the same relative transformation (no
inversion and no negation), whatever the float operations do -/
theorem C66_point_delegates {A T : Type} [DefaultCol3dImpls A] [CollidesRel3d A (Point F) T]
    [PenetratesRel3d A (Point F) T F] [SdfRel3d A (Point F) T F] [SdfvRel3d A (Point F) T F]
    (a : A) (pt : Point F) (rel : T) :
    CollidesRel3d.collidesRel pt a rel = CollidesRel3d.collidesRel a (Point.mk : Point F) rel ∧
    PenetratesRel3d.penetratesRel pt a rel = PenetratesRel3d.penetratesRel a (Point.mk : Point F) rel ∧
    SdfRel3d.sdfRel pt a rel = SdfRel3d.sdfRel a (Point.mk : Point F) rel ∧
    SdfvRel3d.sdfvRel pt a rel = SdfvRel3d.sdfvRel a (Point.mk : Point F) rel := ⟨rfl, rfl, rfl, rfl⟩

/-- the three call forms of `collides` agree, and `penetrates` is `Some` iff `collides` (Box3d, Ball
against a point, and the swapped calls) -/
theorem C68_call_forms {A B T : Type} [CollidesRel3d A B T] [Invertible T] [Composable T]
    (a : A) (ta : T) (b : B) (tb : T) :
    collides3d a ta b tb = collides3dV2 (a, ta) b tb ∧
    collides3d a ta b tb = collides3dV3 (a, ta) (b, tb) ∧
    collides3d a ta b tb = CollidesRel3d.collidesRel a b (compose (inverse ta) tb) := ⟨rfl, rfl, rfl⟩

theorem C68_penetrates_some_iff {T : Type} [Transformation3d T F] [Invertible T] [Composable T]
    (ta tb : T) (pt : Point F) :
    (∀ a : Box3d F, (penetrates3d (F := F) a ta pt tb).isSome = collides3d a ta pt tb ∧
      (penetrates3d (F := F) pt ta a tb).isSome = collides3d pt ta a tb) ∧
    (∀ a : Ball F, (penetrates3d (F := F) a ta pt tb).isSome = collides3d a ta pt tb ∧
      (penetrates3d (F := F) pt ta a tb).isSome = collides3d pt ta a tb) := by
  have kbox : ∀ (a : Box3d F) (rel : T), (PenetratesRel3d.penetratesRel a (Point.mk : Point F) rel).isSome =
      CollidesRel3d.collidesRel a (Point.mk : Point F) rel := by
    intro a rel
    simp only [PenetratesRel3d.penetratesRel]
    cases h : CollidesRel3d.collidesRel a (Point.mk : Point F) rel <;> simp
  have kball : ∀ (a : Ball F) (rel : T), (PenetratesRel3d.penetratesRel a (Point.mk : Point F) rel).isSome =
      CollidesRel3d.collidesRel a (Point.mk : Point F) rel := by
    intro a rel
    simp only [PenetratesRel3d.penetratesRel]
    cases h : CollidesRel3d.collidesRel a (Point.mk : Point F) rel
    · simp
    · simp only [if_true]; split_ifs <;> rfl
  exact ⟨fun a => ⟨kbox a _, kbox a _⟩, fun a => ⟨kball a _, kball a _⟩⟩

end

section
variable {K : Type} [Field K] [LinearOrder K] [IsStrictOrderedRing K] [FloatExtra K] [ExactFloat K]

/-- World-space reading of the collider-level `collides` for a point against a box: the world position
of the point, seen from the box, is strictly inside (for transformations whose `delta_transform` is
right, C63). -/
theorem C68_box_world {T : Type} [Transformation3d T K] [Invertible T] [Composable T]
    (a : Box3d K) (ta tb : T) (pt : Point K) (hd : DeltaLaw3 (K := K) ta tb)
    (hu : ∀ p : V3 K, unapply ta (apply ta p) = p)
    (ho : applyOrigin (deltaTransform ta tb) = apply (deltaTransform ta tb) 0)
    (ho' : applyOrigin tb = apply tb 0) :
    collides3d a ta pt tb = true ↔ unapply ta (applyOrigin tb) ∈ cuboidInterior a.halfsize := by
  have : unapply ta (applyOrigin tb) = applyOrigin (deltaTransform ta tb) := by
    rw [ho', ← hd 0, hu, ho]
  rw [this]
  exact C64_box_collides a pt _

/-- concrete instance of the hypotheses: translations -/
example (a : Box3d K) (ta tb : V3 K) (pt : Point K) :
    collides3d a ta pt tb = true ↔ tb - ta ∈ cuboidInterior a.halfsize :=
  C68_box_world a ta tb pt (C63_delta_vec3 ta tb) (C63_unapply_vec3 ta).1
    (C63_unapply_vec3 _).2.2.1 (C63_unapply_vec3 tb).2.2.1

/-- The swapped call asks for the mirrored point; the box is symmetric, so for translations `Point` at
`ta` against `Box3d` at `tb` collides iff the box at `tb` collides with the point at `ta`. -/
theorem C66_swap_collides (a : Box3d K) (ta tb : V3 K) (pt : Point K) :
    collides3d pt ta a tb = collides3d a tb pt ta := by
  rw [Bool.eq_iff_iff]
  show box3dContains a.halfsize _ = true ↔ box3dContains a.halfsize _ = true
  rw [box3dContains_iff, box3dContains_iff]
  have : applyOrigin (deltaTransform ta tb) = -(applyOrigin (deltaTransform tb ta)) := by
    ext <;> simp [deltaTransform, inverse, compose, apply, applyOrigin]
  rw [this]
  unfold cuboidInterior
  simp only [Set.mem_ofPred_eq, V3.neg_x, V3.neg_y, V3.neg_z, abs_neg]

/-- For translations the vector of the swapped call is right for the point as `self`: moving the
*point* by it puts it on a nearest point of the surface of the box. -/
theorem C66_swap_penetrates (a : Box3d K) (ta tb : V3 K) (pt : Point K) (v : V3 K)
    (hv : penetrates3d (F := K) pt ta a tb = some v) :
    IsNearest3 (ta - tb) (cuboidSurface a.halfsize) (ta + v - tb) := by
  have hv' : PenetratesRel3d.penetratesRel a pt (deltaTransform ta tb) = some v := hv
  have hd : applyOrigin (deltaTransform ta tb) = tb - ta := by
    ext <;> simp [deltaTransform, inverse, compose, apply, applyOrigin] <;> ring
  obtain ⟨h1, h2⟩ := C64_box_penetrates a pt (deltaTransform ta tb)
  by_cases hin : applyOrigin (deltaTransform ta tb) ∈ cuboidInterior a.halfsize
  · obtain ⟨w, hw, hn⟩ := h1 hin
    have hwv : w = v := Option.some.inj (hw.symm.trans hv')
    subst hwv
    rw [hd] at hn
    have neg_surface : ∀ q : V3 K, q ∈ cuboidSurface a.halfsize → -q ∈ cuboidSurface a.halfsize := by
      intro q hq
      unfold cuboidSurface cuboid at *
      simpa only [Set.mem_ofPred_eq, V3.neg_x, V3.neg_y, V3.neg_z, abs_neg] using hq
    have neg_len : ∀ p q : V3 K, V3.lengthSq (ta - tb - p) = V3.lengthSq (tb - ta - -p) := by
      intro p q; simp only [V3.lengthSq_def, V3.sub_x, V3.sub_y, V3.sub_z, V3.neg_x, V3.neg_y, V3.neg_z]; ring
    have e : ta + w - tb = -(tb - ta - w) := by ext <;> simp <;> ring
    rw [e]
    refine ⟨neg_surface _ hn.1, fun q hq => ?_⟩
    rw [neg_len _ q, neg_len q q]
    have e2 : - -(tb - ta - w) = tb - ta - w := by ext <;> simp
    rw [e2]
    exact hn.2 _ (neg_surface q hq)
  · rw [h2 hin] at hv'
    exact absurd hv' (by simp)

/-- Finding: when the shape is rotated the swapped call is wrong, because the relative transformation
is not inverted. A point 2 to the right of a (3, 1, 1)-box turned by the quaternion (0, 0, 3/5, 4/5)
(sine 24/25, cosine 7/25): the box does not contain the point, box v point says so, point v box
answers `true`. -/
theorem C66_rotation_finding (pt : Point K) :
    ∃ (a : Box3d K) (ta tb : Isotropic3d K), ta.rot.IsUnit ∧ tb.rot.IsUnit ∧
      collides3d a tb pt ta = false ∧ collides3d pt ta a tb = true := by
  refine ⟨⟨⟨3, 1, 1⟩⟩, ⟨⟨2, 0, 0⟩, ⟨0, 0, 0, 1⟩, 1⟩, ⟨0, ⟨0, 0, 3 / 5, 4 / 5⟩, 1⟩,
    by norm_num [Quat.IsUnit, Quat.dot], by norm_num [Quat.IsUnit, Quat.dot], ?_, ?_⟩
  · rw [← Bool.not_eq_true]
    show ¬ box3dContains _ _ = true
    rw [box3dContains_iff]
    rintro ⟨-, h, -⟩
    simp only [deltaTransform, inverse, compose, apply, applyOrigin, unapply, V3.add_y, V3.divS_y,
      quat_mulV3_y, V3.scale_x, V3.scale_y, V3.scale_z, V3.sub_x, V3.sub_y, V3.sub_z,
      V3.zero_x, V3.zero_y, V3.zero_z, Quat.inverse] at h
    norm_num [abs_lt] at h
  · show box3dContains _ _ = true
    rw [box3dContains_iff]
    simp only [cuboidInterior, Set.mem_ofPred_eq, deltaTransform, inverse, compose, apply, applyOrigin,
      unapply, V3.add_x, V3.add_y, V3.add_z, V3.divS_x, V3.divS_y, V3.divS_z,
      quat_mulV3_x, quat_mulV3_y, quat_mulV3_z, V3.scale_x, V3.scale_y, V3.scale_z, V3.sub_x,
      V3.sub_y, V3.sub_z, V3.zero_x, V3.zero_y, V3.zero_z, Quat.inverse]
    norm_num [abs_lt]

/-! ## C67: extreme points, Minkowski sums -/

theorem C67_extreme_point_box (b : Box3d K)
    (hb : 0 ≤ b.halfsize.x ∧ 0 ≤ b.halfsize.y ∧ 0 ≤ b.halfsize.z) (d : V3 K) :
    IsExtreme3 (cuboid b.halfsize) d (ExtremePoint3d.extremePoint b d) := by
  have key : ∀ (h x p : K), 0 ≤ h → |p| ≤ h → |if x > 0 then h else -h| ≤ h ∧
      x * p ≤ x * (if x > 0 then h else -h) := by
    intro h x p hh hp
    obtain ⟨p1, p2⟩ := abs_le.1 hp
    split_ifs with c
    · exact ⟨(abs_of_nonneg hh).le, mul_le_mul_of_nonneg_left p2 c.le⟩
    · exact ⟨by rw [abs_neg, abs_of_nonneg hh], mul_le_mul_of_nonpos_left p1 (not_lt.1 c)⟩
  refine ⟨⟨(key _ _ 0 hb.1 (by simpa using hb.1)).1, (key _ _ 0 hb.2.1 (by simpa using hb.2.1)).1,
    (key _ _ 0 hb.2.2 (by simpa using hb.2.2)).1⟩, ?_⟩
  rintro p ⟨p1, p2, p3⟩
  rw [V3.dot_def, V3.dot_def]
  exact add_le_add (add_le_add (key _ d.x _ hb.1 p1).2 (key _ d.y _ hb.2.1 p2).2)
    (key _ d.z _ hb.2.2 p3).2

theorem C67_extreme_point_point (p : Point K) (d : V3 K) :
    IsExtreme3 {(0 : V3 K)} d (ExtremePoint3d.extremePoint p d) :=
  ⟨rfl, fun q hq => by rw [show q = 0 from hq]; exact le_refl _⟩

theorem C67_extreme_point_ball [ExactSqrt K] (b : Ball K) (hb : 0 ≤ b.radius) (d : V3 K) :
    IsExtreme3 (ball3 b.radius) d (ExtremePoint3d.extremePoint b d) := by
  show IsExtreme3 _ d (V3.scale b.radius d.normalizeOrZero)
  by_cases h0 : d = 0
  · have e : (0 : V3 K).normalizeOrZero = 0 := by
      simp only [V3.normalizeOrZero]
      split_ifs
      · ext <;> simp
      · rfl
    subst h0
    rw [e]
    refine ⟨⟨hb, ?_⟩, fun p _ => ?_⟩
    · rw [V3.lengthSq_scale, V3.lengthSq_eq_zero.2 rfl, mul_zero]; positivity
    · simp [V3.dot_def]
  · have hp := V3.length_pos.2 h0
    have e : d.normalizeOrZero = V3.scale (1 / d.length) d := by
      simp only [V3.normalizeOrZero, ExactFloat.isFinite_eq, true_and]
      rw [if_pos (by positivity)]
    rw [e]
    obtain ⟨u1, u2⟩ := unit_dir h0
    refine ⟨⟨hb, by rw [V3.lengthSq_scale, u1, mul_one]⟩, fun p hp' => ?_⟩
    have hpl : p.length ≤ b.radius := by
      have := hp'.2
      rw [← V3.length_sq] at this
      exact (pow_le_pow_iff_left₀ (V3.length_nonneg p) hb two_ne_zero).1 this
    have h1 := V3.dot_le_length d p
    have h2 : d.dot (V3.scale b.radius (V3.scale (1 / d.length) d)) = d.length * b.radius := by
      rw [V3.dot_scale, V3.dot_scale]
      have : d.dot d = d.length ^ 2 := by rw [V3.length_sq]; rfl
      rw [this]; field_simp
    rw [h2]
    exact h1.trans (mul_le_mul_of_nonneg_left hpl hp.le)

/-- the Minkowski sum of two `Box3d` is the set of sums of their points -/
theorem C67_minkowski_sum (a b : Box3d K)
    (ha : 0 ≤ a.halfsize.x ∧ 0 ≤ a.halfsize.y ∧ 0 ≤ a.halfsize.z)
    (hb : 0 ≤ b.halfsize.x ∧ 0 ≤ b.halfsize.y ∧ 0 ≤ b.halfsize.z) (p : V3 K) :
    p ∈ cuboid (a.minkowskiSum b).halfsize ↔
      ∃ u ∈ cuboid a.halfsize, ∃ v ∈ cuboid b.halfsize, p = u + v := by
  have split : ∀ (s h k : K), 0 ≤ h → 0 ≤ k → |s| ≤ h + k →
      ∃ u w : K, |u| ≤ h ∧ |w| ≤ k ∧ s = u + w := by
    intro s h k hh hk hs
    rw [abs_le] at hs
    by_cases c1 : s ≤ -h
    · exact ⟨-h, s + h, by rw [abs_neg, abs_of_nonneg hh], abs_le.2 ⟨by linarith, by linarith⟩, by ring⟩
    · by_cases c2 : h ≤ s
      · exact ⟨h, s - h, by rw [abs_of_nonneg hh], abs_le.2 ⟨by linarith, by linarith⟩, by ring⟩
      · exact ⟨s, 0, abs_le.2 ⟨by linarith, by linarith⟩, by rw [abs_zero]; exact hk, by ring⟩
  constructor
  · rintro ⟨p1, p2, p3⟩
    obtain ⟨u1, w1, a1, b1, e1⟩ := split _ _ _ ha.1 hb.1 p1
    obtain ⟨u2, w2, a2, b2, e2⟩ := split _ _ _ ha.2.1 hb.2.1 p2
    obtain ⟨u3, w3, a3, b3, e3⟩ := split _ _ _ ha.2.2 hb.2.2 p3
    exact ⟨⟨u1, u2, u3⟩, ⟨a1, a2, a3⟩, ⟨w1, w2, w3⟩, ⟨b1, b2, b3⟩, by ext <;> assumption⟩
  · rintro ⟨u, ⟨u1, u2, u3⟩, v, ⟨v1, v2, v3⟩, rfl⟩
    exact ⟨(abs_add_le _ _).trans (add_le_add u1 v1), (abs_add_le _ _).trans (add_le_add u2 v2),
      (abs_add_le _ _).trans (add_le_add u3 v3)⟩

/-! ## C69: cover -/

/-- `cover` extends the box in `x` and `y` only: the covered box contains `p` exactly when the box
was already tall enough in `z`; it always contains the old box, and is the smallest such in `x`, `y`. -/
theorem C69_cover (b : Box3d K) (p : V3 K) :
    (p ∈ cuboid (b.cover p).halfsize ↔ |p.z| ≤ b.halfsize.z) ∧
    (∀ q ∈ cuboid b.halfsize, q ∈ cuboid (b.cover p).halfsize) ∧
    (∀ c : Box3d K, b.halfsize.x ≤ c.halfsize.x → b.halfsize.y ≤ c.halfsize.y →
      b.halfsize.z ≤ c.halfsize.z → p ∈ cuboid c.halfsize →
      (b.cover p).halfsize.x ≤ c.halfsize.x ∧ (b.cover p).halfsize.y ≤ c.halfsize.y ∧
        (b.cover p).halfsize.z ≤ c.halfsize.z) := by
  have e : (b.cover p).halfsize = ⟨max b.halfsize.x |p.x|, max b.halfsize.y |p.y|, b.halfsize.z⟩ := by
    simp only [Box3d.cover, ExactFloat.abs_eq, ExactFloat.fmax_eq]
  rw [e]
  refine ⟨⟨fun h => h.2.2, fun h => ⟨le_max_right _ _, le_max_right _ _, h⟩⟩, ?_, ?_⟩
  · rintro q ⟨q1, q2, q3⟩
    exact ⟨q1.trans (le_max_left _ _), q2.trans (le_max_left _ _), q3⟩
  · rintro c h1 h2 h3 ⟨c1, c2, c3⟩
    exact ⟨max_le h1 c1, max_le h2 c2, h3⟩

/-- Finding: `Box3d::cover` does not cover a point that sticks out in `z`. -/
theorem C69_cover_finding : ¬ ∀ (b : Box3d K) (p : V3 K), p ∈ cuboid (b.cover p).halfsize := by
  intro h
  have := ((C69_cover (⟨⟨1, 1, 1⟩⟩ : Box3d K) ⟨0, 0, 2⟩).1.1 (h _ _))
  norm_num at this

end
end Auburn
