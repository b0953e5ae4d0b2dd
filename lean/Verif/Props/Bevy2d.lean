import Verif.Props.Family
import Verif.Props.Col3d

/-!
# C85: a bevy `Transform` used as a 2D transformation

`Transformation2d` is implemented for `bevy::prelude::Transform` by conversion to `Transform2d`, but
`Invertible` and `Composable` are those of the 3D transform, and colliders combine the two.  For rotations
about the z axis the 2D action is the xy part of the 3D action, and inversion and composition commute with
the conversion; all queries on colliders placed by bevy transforms are the queries on colliders placed by
the converted transforms.
-/

set_option linter.unusedSectionVars false

namespace Auburn

open V2 Transformation2d Auburn.Invertible Composable SdfvCommonRel2d

set_option linter.unusedSimpArgs false
set_option synthInstance.maxSize 1000
set_option synthInstance.maxHeartbeats 200000

/-! ## specification -/

/-- the rotation is a rotation about the z axis, given by a unit quaternion -/
structure BevyTransform.AboutZ {K : Type} [Add K] [Mul K] [Zero K] [One K] (t : BevyTransform K) : Prop where
  x : t.rotation.x = 0
  y : t.rotation.y = 0
  unit : t.rotation.z * t.rotation.z + t.rotation.w * t.rotation.w = 1

/-- a point of the plane in space -/
def V2.inSpace {K : Type} [Zero K] (p : V2 K) : V3 K := ⟨p.x, p.y, 0⟩
/-- the xy part of a point in space -/
def V3.toPlane {K : Type} (p : V3 K) : V2 K := ⟨p.x, p.y⟩

/-- the four queries answer the same for colliders placed by `t`, `u` and by `t'`, `u'` -/
def SameQueries {K A B T U : Type} [FloatExtra K] [Transformation2d T K] [Transformation2d U K]
    [Invertible T] [Composable T] [Invertible U] [Composable U]
    [SdfvCommonRel2d false false A B T K] [SdfvCommonRel2d false false A B U K]
    [SdfvCommonRel2d true false A B T K] [SdfvCommonRel2d true false A B U K]
    [SdfvCommonRel2d false true A B T K] [SdfvCommonRel2d false true A B U K]
    [SdfvCommonRel2d true true A B T K] [SdfvCommonRel2d true true A B U K]
    (a : A) (b : B) (t u : T) (t' u' : U) : Prop :=
  collides (F := K) ⟨a, t⟩ ⟨b, u⟩ = collides (F := K) ⟨a, t'⟩ ⟨b, u'⟩ ∧
  penetrates (F := K) ⟨a, t⟩ ⟨b, u⟩ = penetrates (F := K) ⟨a, t'⟩ ⟨b, u'⟩ ∧
  distanceTo (F := K) ⟨a, t⟩ ⟨b, u⟩ = distanceTo (F := K) ⟨a, t'⟩ ⟨b, u'⟩ ∧
  sdfv (F := K) ⟨a, t⟩ ⟨b, u⟩ = sdfv (F := K) ⟨a, t'⟩ ⟨b, u'⟩

section
variable {K : Type} [Field K] [LinearOrder K] [IsStrictOrderedRing K] [FloatExtra K] [ExactFloat K] [ExactSqrt K]

theorem aboutZ_norm {t : BevyTransform K} (h : t.AboutZ) : FloatExtra.sqrt (t.rotation.dot t.rotation) = 1 := by
  have e : t.rotation.dot t.rotation = 1 := by
    simp only [Quat.dot, h.x, h.y]; linear_combination h.unit
  rw [e]
  have h1 := ExactSqrt.sqrt_mul_self (1 : K) zero_le_one
  have h2 := ExactSqrt.sqrt_nonneg (1 : K) zero_le_one
  nlinarith

theorem aboutZ_rotor {t : BevyTransform K} (h : t.AboutZ) :
    Rotor2d.fromQuaternion t.rotation =
      ⟨⟨t.rotation.w * t.rotation.w - t.rotation.z * t.rotation.z, 2 * t.rotation.w * t.rotation.z⟩⟩ := by
  unfold Rotor2d.fromQuaternion
  simp only [aboutZ_norm h, div_one, ExactFloat.two_eq]
  congr 2
  linear_combination h.unit

theorem aboutZ_ofBevy {t : BevyTransform K} (h : t.AboutZ) : Transform2d.ofBevy t =
    ⟨⟨t.translation.x, t.translation.y⟩,
      ⟨⟨t.rotation.w * t.rotation.w - t.rotation.z * t.rotation.z, 2 * t.rotation.w * t.rotation.z⟩⟩,
      ⟨t.scale.x, t.scale.y⟩⟩ := by
  unfold Transform2d.ofBevy
  rw [aboutZ_rotor h]

theorem aboutZ_unit {t : BevyTransform K} (h : t.AboutZ) : (Transform2d.ofBevy t).rot.IsUnit := by
  rw [aboutZ_ofBevy h]
  unfold Rotor2d.IsUnit
  linear_combination (t.rotation.z * t.rotation.z + t.rotation.w * t.rotation.w + 1) * h.unit

theorem aboutZ_inverse {t : BevyTransform K} (h : t.AboutZ) : (Invertible.inverse t).AboutZ := by
  obtain ⟨hx, hy, hu⟩ := h
  refine ⟨?_, ?_, ?_⟩ <;> simp only [inverse, Quat.inverse, hx, hy]
  · simp
  · simp
  · linear_combination hu

theorem aboutZ_compose {a b : BevyTransform K} (ha : a.AboutZ) (hb : b.AboutZ) : (compose a b).AboutZ := by
  obtain ⟨hx, hy, hu⟩ := ha
  obtain ⟨gx, gy, gu⟩ := hb
  refine ⟨?_, ?_, ?_⟩ <;> simp only [compose, Quat.mulQ, hx, hy, gx, gy]
  · ring
  · ring
  · linear_combination (b.rotation.z * b.rotation.z + b.rotation.w * b.rotation.w) * hu + gu

theorem aboutZ_delta {a b : BevyTransform K} (ha : a.AboutZ) (hb : b.AboutZ) : (deltaTransform a b).AboutZ :=
  aboutZ_compose (aboutZ_inverse ha) hb

/-- the 2D action is the xy part of the 3D action, whatever the z coordinates -/
theorem C85_bevy_acts_as_3d (t : BevyTransform K) (h : t.AboutZ) (p : V3 K) :
    apply t p.toPlane = (Transformation3d.apply t p : V3 K).toPlane ∧
    unapply t p.toPlane = (Transformation3d.unapply t p : V3 K).toPlane ∧
    (applyOrigin t : V2 K) = (Transformation3d.applyOrigin t : V3 K).toPlane := by
  have e := aboutZ_ofBevy h
  obtain ⟨hx, hy, hu⟩ := h
  refine ⟨?_, ?_, ?_⟩
  · show apply (Transform2d.ofBevy t) p.toPlane = (t.apply3 p).toPlane
    rw [e]
    ext
    · show _ = (t.apply3 p).x
      simp only [apply, Rotor2d.rotate, V3.toPlane, BevyTransform.apply3, add_x, add_y, mulV_x, mulV_y, V3.add_x,
        quat_mulV3_x, V3.mulV, hx, hy]
      ring
    · show _ = (t.apply3 p).y
      simp only [apply, Rotor2d.rotate, V3.toPlane, BevyTransform.apply3, add_x, add_y, mulV_x, mulV_y, V3.add_y,
        quat_mulV3_y, V3.mulV, hx, hy]
      ring
  · show unapply (Transform2d.ofBevy t) p.toPlane = (t.unapply3 p).toPlane
    rw [e]
    ext
    · show _ = (t.unapply3 p).x
      simp only [unapply, Rotor2d.rotate, Rotor2d.inverse, V3.toPlane, BevyTransform.unapply3, sub_x, sub_y, divV_x, divV_y,
        V3.sub_x, V3.sub_y, V3.sub_z, quat_mulV3_x, V3.divV, Quat.inverse, hx, hy]
      congr 1
      ring
    · show _ = (t.unapply3 p).y
      simp only [unapply, Rotor2d.rotate, Rotor2d.inverse, V3.toPlane, BevyTransform.unapply3, sub_x, sub_y, divV_x, divV_y,
        V3.sub_x, V3.sub_y, V3.sub_z, quat_mulV3_y, V3.divV, Quat.inverse, hx, hy]
      congr 1
      ring
  · show applyOrigin (Transform2d.ofBevy t) = _
    rw [e]; rfl

/-- inversion commutes with the conversion -/
theorem C85_bevy_inverse (t : BevyTransform K) (h : t.AboutZ) :
    Transform2d.ofBevy (inverse t) = inverse (Transform2d.ofBevy t) := by
  have h0 := (C85_bevy_acts_as_3d t h 0).2.1
  rw [aboutZ_ofBevy (aboutZ_inverse h)]
  have e := aboutZ_ofBevy h
  have e2 : (⟨(inverse t).translation.x, (inverse t).translation.y⟩ : V2 K) = unapply (Transform2d.ofBevy t) (0 : V2 K) :=
    h0.symm
  rw [e2]
  simp only [inverse, Quat.inverse]
  rw [e]
  congr 1
  congr 2 <;> (simp only; ring)

/-- composition commutes with the conversion -/
theorem C85_bevy_compose (a b : BevyTransform K) (ha : a.AboutZ) (hb : b.AboutZ) :
    Transform2d.ofBevy (compose a b) = compose (Transform2d.ofBevy a) (Transform2d.ofBevy b) := by
  have h0 := (C85_bevy_acts_as_3d a ha b.translation).1
  have ec := aboutZ_ofBevy (aboutZ_compose ha hb)
  have ea := aboutZ_ofBevy ha
  have eb := aboutZ_ofBevy hb
  have e2 : (⟨(compose a b).translation.x, (compose a b).translation.y⟩ : V2 K) =
      apply (Transform2d.ofBevy a) (Transform2d.ofBevy b).pos := h0.symm
  rw [ec, e2]
  obtain ⟨hx, hy, hu⟩ := ha
  obtain ⟨gx, gy, gu⟩ := hb
  simp only [compose, Quat.mulQ, hx, hy, gx, gy]
  rw [ea, eb]
  congr 1
  simp only [Rotor2d.mulR]
  congr 2 <;> ring

theorem C85_bevy_delta (a b : BevyTransform K) (ha : a.AboutZ) (hb : b.AboutZ) :
    Transform2d.ofBevy (deltaTransform a b) = deltaTransform (Transform2d.ofBevy a) (Transform2d.ofBevy b) := by
  unfold deltaTransform
  rw [C85_bevy_compose _ _ (aboutZ_inverse ha) hb, C85_bevy_inverse a ha]

/-- hence the documented laws of inversion and composition hold for bevy transforms in 2D exactly when they
hold for the converted transforms (C01, C02) -/
theorem C85_bevy_laws (a b : BevyTransform K) (ha : a.AboutZ) (hb : b.AboutZ) :
    (InverseLaw (K := K) a ↔ InverseLaw (K := K) (Transform2d.ofBevy a)) ∧
    (ComposeLaw (K := K) a b ↔ ComposeLaw (K := K) (Transform2d.ofBevy a) (Transform2d.ofBevy b)) ∧
    (DeltaLaw (K := K) a b ↔ DeltaLaw (K := K) (Transform2d.ofBevy a) (Transform2d.ofBevy b)) ∧
    NormalLaw (K := K) a := by
  refine ⟨?_, ?_, ?_, (C07_normals_transform2d _ (aboutZ_unit ha)).1⟩
  · unfold InverseLaw
    rw [← C85_bevy_inverse a ha]; rfl
  · unfold ComposeLaw
    rw [← C85_bevy_compose a b ha hb]; rfl
  · unfold DeltaLaw
    rw [← C85_bevy_delta a b ha hb]; rfl

/-- the rigid (or uniformly scaled) ones are similarities, so all statements about similarities apply -/
theorem C85_bevy_similarity (t : BevyTransform K) (h : t.AboutZ) (s : K) (hx : t.scale.x = s) (hy : t.scale.y = s) :
    Similarity t s := by
  have h1 := similarity_transform2d (Transform2d.ofBevy t) s (aboutZ_unit h) (by simp [Transform2d.ofBevy, hx, hy])
  exact ⟨h1.apply_eq, h1.normal, h1.factor⟩

/-- all queries for all shapes: colliders placed by bevy transforms are answered as if they were placed by
the converted transforms -/
theorem C85_bevy_colliders (t u : BevyTransform K) (ht : t.AboutZ) (hu : u.AboutZ)
    (a b : Ball K) (c d : Box2d K) (r : RoundedBox2d K) (p q : Point K) (f g : Poly2d K) (m n : Shape2d K) :
    let t' := Transform2d.ofBevy t
    let u' := Transform2d.ofBevy u
    SameQueries a b t u t' u' ∧ SameQueries a p t u t' u' ∧ SameQueries c p t u t' u' ∧ SameQueries r p t u t' u' ∧
    SameQueries c a t u t' u' ∧ SameQueries p q t u t' u' ∧ SameQueries p c t u t' u' ∧ SameQueries p a t u t' u' ∧
    SameQueries a c t u t' u' ∧ SameQueries c d t u t' u' ∧ SameQueries c f t u t' u' ∧ SameQueries f c t u t' u' ∧
    SameQueries f g t u t' u' ∧ SameQueries m n t u t' u' := by
  intro t' u'
  have hd := C85_bevy_delta t u ht hu
  have hdz := aboutZ_delta ht hu
  have hi := C85_bevy_inverse _ hdz
  have ht' : t' = Transform2d.ofBevy t := rfl
  have hu' : u' = Transform2d.ofBevy u := rfl
  rw [← ht', ← hu'] at hd
  refine ⟨?_, ?_, ?_, ?_, ?_, ?_, ?_, ?_, ?_, ?_, ?_, ?_, ?_, ?_⟩ <;>
    unfold SameQueries collides penetrates distanceTo sdfv collidesRel penetratesRel distanceToRel sdfvRel <;>
    simp only [← hd] <;>
    first
      | exact ⟨rfl, rfl, rfl, rfl⟩
      | (simp only [sdfvCommonRel, reverseSdfvCommonRel, ← hi]; exact ⟨rfl, rfl, rfl, rfl⟩)

/-- Finding: for a rotation that is not about z the 2D action is not the xy part of the 3D action, and
`unapply` does not undo `apply`: the rotor made of the quaternion is not a rotation. -/
theorem C85_bevy_tilted_finding : ∃ (t : BevyTransform K) (p : V2 K), t.rotation.IsUnit ∧ Nondeg3 t.scale ∧
    apply t p ≠ (Transformation3d.apply t p.inSpace : V3 K).toPlane ∧ unapply t (apply t p) ≠ p := by
  have e : Transform2d.ofBevy (⟨0, ⟨3 / 5, 0, 0, 4 / 5⟩, ⟨1, 1, 1⟩⟩ : BevyTransform K) = ⟨⟨0, 0⟩, ⟨⟨7 / 25, 0⟩⟩, ⟨1, 1⟩⟩ := by
    have h1 := ExactSqrt.sqrt_mul_self (1 : K) zero_le_one
    have h2 := ExactSqrt.sqrt_nonneg (1 : K) zero_le_one
    have h3 : FloatExtra.sqrt (1 : K) = 1 := by nlinarith
    have h4 : (⟨3 / 5, 0, 0, 4 / 5⟩ : Quat K).dot ⟨3 / 5, 0, 0, 4 / 5⟩ = 1 := by simp only [Quat.dot]; norm_num
    simp only [Transform2d.ofBevy, Rotor2d.fromQuaternion, h4, h3, ExactFloat.two_eq, V3.zero_x, V3.zero_y]
    congr 3 <;> norm_num
  refine ⟨⟨0, ⟨3 / 5, 0, 0, 4 / 5⟩, ⟨1, 1, 1⟩⟩, ⟨1, 0⟩, ?_, ?_, ?_, ?_⟩
  · simp only [Quat.IsUnit, Quat.dot]; norm_num
  · simp [Nondeg3]
  · intro h
    have h := congrArg V2.x h
    simp only [e, apply, Rotor2d.rotate, mulV_x, mulV_y, add_x, V3.toPlane, V2.inSpace, Transformation3d.apply,
      BevyTransform.apply3, V3.add_x, quat_mulV3_x, V3.mulV, V3.zero_x] at h
    norm_num at h
  · intro h
    have h := congrArg V2.x h
    simp only [e, apply, unapply, Rotor2d.rotate, Rotor2d.inverse, mulV_x, mulV_y, add_x, add_y, sub_x, sub_y, divV_x] at h
    norm_num at h

/-- a quarter turn about z, moved and scaled -/
example : (⟨⟨1, 2, 5⟩, ⟨0, 0, 3 / 5, 4 / 5⟩, ⟨2, 3, 1⟩⟩ : BevyTransform K).AboutZ :=
  ⟨rfl, rfl, by norm_num⟩

end

end Auburn
