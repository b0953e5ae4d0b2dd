import Verif.Model.Defaults
import Verif.Model.Detect2d
import Verif.Lib.V3
import Verif.Spec.Sets
import Verif.Props.Shapes
import Verif.Ieee.Rep

/-!
# C81: default values
-/

set_option linter.unusedSectionVars false
set_option synthInstance.maxSize 1000

namespace Auburn

/-- a transformation that leaves everything where it is -/
def Neutral2 {T K : Type} [Transformation2d T K] [Zero K] (t : T) : Prop :=
  (∀ p : V2 K, Transformation2d.apply t p = p) ∧ (∀ p : V2 K, Transformation2d.unapply t p = p) ∧
  (∀ p : V2 K, Transformation2d.applyNormal t p = p) ∧ Transformation2d.applyOrigin t = (0 : V2 K)

/-- the same in three dimensions -/
def Neutral3 {T K : Type} [Transformation3d T K] [Zero K] (t : T) : Prop :=
  (∀ p : V3 K, Transformation3d.apply t p = p) ∧ (∀ p : V3 K, Transformation3d.unapply t p = p) ∧
  Transformation3d.applyOrigin t = (0 : V3 K)

section
variable {K : Type} [Field K] [LinearOrder K] [IsStrictOrderedRing K] [FloatExtra K] [ExactFloat K]

/-- the defaults that are the identity transformation -/
theorem C81_default_neutral :
    Neutral2 (IdentityTransform.default : IdentityTransform K) ∧ Neutral2 (0 : V2 K) ∧
    Neutral2 (Translate2d.default : Translate2d K) ∧ Neutral2 (Transform2d.identity : Transform2d K) ∧
    Neutral3 (IdentityTransform.default : IdentityTransform K) ∧ Neutral3 (0 : V3 K) ∧
    Neutral3 (Translate3d.default : Translate3d K) := by
  refine ⟨⟨?_, ?_, ?_, ?_⟩, ⟨?_, ?_, ?_, ?_⟩, ⟨?_, ?_, ?_, ?_⟩, ⟨?_, ?_, ?_, ?_⟩, ⟨?_, ?_, ?_⟩,
    ⟨?_, ?_, ?_⟩, ⟨?_, ?_, ?_⟩⟩ <;>
  first
  | rfl
  | (intro p
     first
     | rfl
     | (ext <;> simp [Transformation2d.apply, Transformation2d.unapply, Transformation2d.applyNormal,
         Transformation3d.apply, Transformation3d.unapply, Translate2d.default, Translate3d.default,
         Transform2d.identity, Rotor2d.identity, Rotor2d.rotate, Rotor2d.inverse, V2.mulV, V2.divV,
         V2.one]))

/-- Finding: `AxisTransform2d::default()`, `AxisTransform3d::default()`, `Isotropic3d::default()` and
`Transform3d::default()` are not the identity: the derived scale is 0, so every point is sent to the
origin. -/
theorem C81_default_collapse_finding :
    (∀ p : V2 K, Transformation2d.apply (AxisTransform2d.default : AxisTransform2d K) p = 0) ∧
    (∀ p : V3 K, Transformation3d.apply (AxisTransform3d.default : AxisTransform3d K) p = 0) ∧
    (∀ p : V3 K, Transformation3d.apply (Isotropic3d.default : Isotropic3d K) p = 0) ∧
    (∀ p : V3 K, Transformation3d.apply (Transform3d.default : Transform3d K) p = 0) ∧
    ¬ Neutral2 (AxisTransform2d.default : AxisTransform2d K) ∧
    ¬ Neutral3 (AxisTransform3d.default : AxisTransform3d K) ∧
    ¬ Neutral3 (Isotropic3d.default : Isotropic3d K) ∧
    ¬ Neutral3 (Transform3d.default : Transform3d K) := by
  have h1 : ∀ p : V2 K, Transformation2d.apply (AxisTransform2d.default : AxisTransform2d K) p = 0 := by
    intro p
    ext <;> simp [Transformation2d.apply, AxisTransform2d.default, V2.scale]
  have h2 : ∀ p : V3 K, Transformation3d.apply (AxisTransform3d.default : AxisTransform3d K) p = 0 := by
    intro p
    ext <;> simp [Transformation3d.apply, AxisTransform3d.default, V3.scale]
  have h3 : ∀ p : V3 K, Transformation3d.apply (Isotropic3d.default : Isotropic3d K) p = 0 := by
    intro p
    ext <;> simp [Transformation3d.apply, Isotropic3d.default, V3.scale, Quat.default, Quat.mulV3,
      V3.dot, V3.cross]
  have h4 : ∀ p : V3 K, Transformation3d.apply (Transform3d.default : Transform3d K) p = 0 := by
    intro p
    ext <;> simp [Transformation3d.apply, Transform3d.default, V3.scale, Quat.default, Quat.mulV3,
      V3.dot, V3.cross, V3.mulV]
  refine ⟨h1, h2, h3, h4, ?_, ?_, ?_, ?_⟩
  · intro h
    have := congrArg V2.x ((h.1 ⟨1, 0⟩).symm.trans (h1 _))
    exact one_ne_zero this
  · intro h
    have := congrArg V3.x ((h.1 ⟨1, 0, 0⟩).symm.trans (h2 _))
    exact one_ne_zero this
  · intro h
    have := congrArg V3.x ((h.1 ⟨1, 0, 0⟩).symm.trans (h3 _))
    exact one_ne_zero this
  · intro h
    have := congrArg V3.x ((h.1 ⟨1, 0, 0⟩).symm.trans (h4 _))
    exact one_ne_zero this

/-- the rotation of the default is no rotation: `Isotropic3d { pos, scale, ..Default::default() }` scales and moves, and so
do `Transform3d` and the corresponding inverse maps -/
theorem C81_default_rotation (pos : V3 K) (s : K) (sc : V3 K) (p : V3 K) :
    Transformation3d.apply ({ (Isotropic3d.default : Isotropic3d K) with pos := pos, scale := s }) p =
      (⟨s * p.x + pos.x, s * p.y + pos.y, s * p.z + pos.z⟩ : V3 K) ∧
    Transformation3d.apply ({ (Transform3d.default : Transform3d K) with pos := pos, scale := sc }) p =
      (⟨sc.x * p.x + pos.x, sc.y * p.y + pos.y, sc.z * p.z + pos.z⟩ : V3 K) ∧
    Transformation3d.unapply ({ (Isotropic3d.default : Isotropic3d K) with pos := pos, scale := s }) p =
      (⟨(p.x - pos.x) / s, (p.y - pos.y) / s, (p.z - pos.z) / s⟩ : V3 K) ∧
    Transformation3d.unapply ({ (Transform3d.default : Transform3d K) with pos := pos, scale := sc }) p =
      (⟨(p.x - pos.x) / sc.x, (p.y - pos.y) / sc.y, (p.z - pos.z) / sc.z⟩ : V3 K) := by
  refine ⟨?_, ?_, ?_, ?_⟩ <;>
  ext <;> simp [Transformation3d.apply, Transformation3d.unapply, Isotropic3d.default, Transform3d.default, V3.scale,
    Quat.default, Quat.mulV3, Quat.inverse, V3.dot, V3.cross, V3.mulV, V3.divV, V3.divS]

/-- the default 3D box is the single point at its position: its extreme point in every direction is the
origin, and no point is reported inside it -/
theorem C81_default_box3d :
    (∀ d : V3 K, ExtremePoint3d.extremePoint (Box3d.default : Box3d K) d = (0 : V3 K)) ∧
    ∀ {T : Type} [Transformation3d T K] (pt : Point K) (rel : T),
      CollidesRel3d.collidesRel (Box3d.default : Box3d K) pt rel = false := by
  constructor
  · intro d
    ext <;> simp [ExtremePoint3d.extremePoint, Box3d.default]
  · intro T _ pt rel
    simp only [CollidesRel3d.collidesRel, box3dContains, Box3d.default, Bool.and_eq_false_iff,
      decide_eq_false_iff_not, neg_zero]
    by_cases h : (0 : K) < (Transformation3d.applyOrigin rel : V3 K).x
    · exact Or.inl (Or.inl (Or.inl (Or.inl (Or.inr (decide_eq_false (not_lt.2 h.le))))))
    · exact Or.inl (Or.inl (Or.inl (Or.inl (Or.inl h))))

/-- the default shapes are single points -/
theorem C81_default_shapes :
    Region.pts (Ball.default : Ball K) = {0} ∧ Region.pts (Box2d.default : Box2d K) = {0} ∧
    Region.pts (RoundedBox2d.default : RoundedBox2d K) = {0} := by
  have hb : Region.pts (Box2d.default : Box2d K) = {0} := by
    ext p
    constructor
    · rintro ⟨h1, h2⟩
      have h1 : |p.x| ≤ 0 := h1
      have h2 : |p.y| ≤ 0 := h2
      exact V2.ext (abs_nonpos_iff.1 h1) (abs_nonpos_iff.1 h2)
    · rintro rfl
      exact ⟨(abs_zero (α := K)).le, (abs_zero (α := K)).le⟩
  have hz : ∀ p : V2 K, V2.lengthSq p ≤ 0 ↔ p = 0 := by
    intro p
    rw [V2.lengthSq_def]
    constructor
    · intro h
      have h1 := mul_self_nonneg p.x
      have h2 := mul_self_nonneg p.y
      exact V2.ext (mul_self_eq_zero.1 (le_antisymm (by linarith) h1))
        (mul_self_eq_zero.1 (le_antisymm (by linarith) h2))
    · rintro rfl
      simp
  refine ⟨?_, hb, ?_⟩
  · ext p
    constructor
    · rintro ⟨_, h⟩
      have h : V2.lengthSq p ≤ (0 : K) ^ 2 := h
      rw [zero_pow two_ne_zero] at h
      exact (hz p).1 h
    · rintro rfl
      refine ⟨le_refl _, ?_⟩
      show V2.lengthSq (0 : V2 K) ≤ 0 ^ 2
      rw [zero_pow two_ne_zero]; exact (hz 0).2 rfl
  · ext p
    constructor
    · rintro ⟨_, q, hq, h⟩
      have hq : q ∈ Region.pts (Box2d.default : Box2d K) := hq
      rw [hb] at hq
      rw [Set.mem_singleton_iff] at hq
      have h : V2.lengthSq (p - q) ≤ (0 : K) ^ 2 := h
      rw [zero_pow two_ne_zero, hz, hq] at h
      rw [Set.mem_singleton_iff]
      exact V2.ext (by simpa using congrArg V2.x h) (by simpa using congrArg V2.y h)
    · rintro rfl
      refine ⟨le_refl _, 0, ?_, ?_⟩
      · show (0 : V2 K) ∈ Region.pts (Box2d.default : Box2d K)
        rw [hb]; rfl
      · show V2.lengthSq ((0 : V2 K) - 0) ≤ 0 ^ 2
        rw [zero_pow two_ne_zero, hz]
        exact V2.ext (by simp) (by simp)

end

/-! ## f32 -/

section
variable [env : F32Env]
open F32

/-- Finding: on f32 a ball placed with `AxisTransform2d::default()` "collides" with every ball on the x
axis, however small the balls and however far apart they are: the inverse scale is infinite,
`∞ * 0` is NaN and the code takes a NaN distance for a zero distance. -/
theorem C81_f32_default_axis_finding (a b : Ball F32) (q s : F32) :
    collides ⟨a, (AxisTransform2d.default : AxisTransform2d F32)⟩ ⟨b, AxisTransform2d.mk ⟨q, 0⟩ s⟩ =
      .ok true := by
  have hz : (0 : F32) = fin false 0 ⟨le_refl 0, representable_zero⟩ := by
    show ofReal false 0 = _
    unfold ofReal; rw [if_pos rfl]
  have hinf : (1 : F32) / 0 = .inf false := by
    obtain ⟨s1, m1, h1, e1, e2⟩ := is_one
    have hs : s1 = false := by
      cases s1
      · rfl
      · rw [sval_true] at e2; linarith [h1.1]
    subst hs
    rw [sval_false] at e2
    rw [e1, hz]
    show F32.div _ _ = _
    unfold F32.div
    simp [e2]
  have hy : (deltaTransform (AxisTransform2d.default : AxisTransform2d F32)
      (AxisTransform2d.mk ⟨q, 0⟩ s)).pos.y = .nan := by
    show -(0 : F32) + (1 / 0) * 0 = .nan
    rw [hinf, hz]
    show F32.add (F32.neg _) (F32.mul _ _) = _
    simp [F32.mul, F32.neg, F32.add]
  have hlen : ∀ d : V2 F32, d.y = .nan → V2.length d = .nan := by
    intro d hd
    show F32.sqrt (d.x * d.x + d.y * d.y) = .nan
    rw [hd]
    have h1 : (F32.nan * F32.nan : F32) = .nan := rfl
    have h2 : ∀ u : F32, u + .nan = .nan := by intro u; cases u <;> rfl
    rw [h1, h2]; rfl
  show Except.ok (ballDelta (a.radius + b.radius) (deltaTransform (AxisTransform2d.default :
    AxisTransform2d F32) (AxisTransform2d.mk ⟨q, 0⟩ s)).pos).1 = _
  unfold ballDelta
  simp only [hlen _ hy]
  have : ¬ ((.nan : F32) > 0) := by
    show ¬ F32.lt 0 .nan
    rw [hz]; exact fun h => h
  rw [if_neg this]

/-- hypotheses met: two balls of radius 1 at distance 1000 -/
example : F32.Is (ofReal false 1000) 1000 ∧
    collides ⟨(⟨1⟩ : Ball F32), (AxisTransform2d.default : AxisTransform2d F32)⟩
      ⟨(⟨1⟩ : Ball F32), AxisTransform2d.mk ⟨ofReal false 1000, 0⟩ 1⟩ = .ok true := by
  have h : F32.Is (ofReal false 1000) 1000 := is_ofReal (by
    have := representable_int 1000 (by norm_num)
    norm_num at this ⊢; exact this)
  exact ⟨h, C81_f32_default_axis_finding _ _ _ _⟩

end

end Auburn
