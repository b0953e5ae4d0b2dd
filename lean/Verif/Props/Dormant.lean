import Verif.Model.Dormant
import Verif.Props.Direct
import Verif.Props.Shapes
import Verif.Props.Col3d
import Mathlib.Tactic

/-!
# C74–C76: source files that are not compiled at this commit

`Ellipse2d`, `MinkowskiDiff2d` and `Cylinder3d`, as written.
-/

set_option linter.unusedSectionVars false
set_option synthInstance.maxSize 1000

namespace Auburn

/-! ## C74: Ellipse2d -/

section
open V2 ExtremePoint2d Transformation2d
variable {K : Type} [Field K] [LinearOrder K] [IsStrictOrderedRing K] [FloatExtra K] [ExactFloat K]

/-- the closed ellipse with the given radii along the axes -/
instance : Region (Ellipse2d K) K where
  pts e := {p | (p.x / e.radii.x) ^ 2 + (p.y / e.radii.y) ^ 2 ≤ 1}

/-- the radii are positive -/
def Ellipse2d.Proper (e : Ellipse2d K) : Prop := 0 < e.radii.x ∧ 0 < e.radii.y

/-- Point in ellipse: the boundary counts as colliding (unlike all other shapes). -/
theorem C74_ellipse_collides {T : Type} [Transformation2d T K] (e : Ellipse2d K) (pt : Point K)
    (rel : T) : e.collidesPoint pt rel = true ↔ applyOrigin rel ∈ Region.pts e := by
  unfold Ellipse2d.collidesPoint square
  simp only [decide_eq_true_eq]
  show _ ↔ ((applyOrigin rel).x / e.radii.x) ^ 2 + ((applyOrigin rel).y / e.radii.y) ^ 2 ≤ 1
  rw [sq, sq]

/-- the bounding box is the smallest one -/
theorem C74_ellipse_bounding_box (e : Ellipse2d K) (he : e.Proper) :
    IsLeastBox (Region.pts e) e.boundingBox := by
  obtain ⟨hx, hy⟩ := he
  constructor
  · intro p hp
    have hp : (p.x / e.radii.x) ^ 2 + (p.y / e.radii.y) ^ 2 ≤ 1 := hp
    have h1 : (p.x / e.radii.x) ^ 2 ≤ 1 := by nlinarith [sq_nonneg (p.y / e.radii.y)]
    have h2 : (p.y / e.radii.y) ^ 2 ≤ 1 := by nlinarith [sq_nonneg (p.x / e.radii.x)]
    rw [sq_le_one_iff_abs_le_one, abs_div, abs_of_pos hx, div_le_one hx] at h1
    rw [sq_le_one_iff_abs_le_one, abs_div, abs_of_pos hy, div_le_one hy] at h2
    exact ⟨h1, h2⟩
  · intro b' h1 h2 hsub
    have m1 : (⟨e.radii.x, 0⟩ : V2 K) ∈ Region.pts e := by
      show (e.radii.x / e.radii.x) ^ 2 + (0 / e.radii.y) ^ 2 ≤ 1
      rw [div_self hx.ne']; simp
    have m2 : (⟨0, e.radii.y⟩ : V2 K) ∈ Region.pts e := by
      show (0 / e.radii.x) ^ 2 + (e.radii.y / e.radii.y) ^ 2 ≤ 1
      rw [div_self hy.ne']; simp
    exact ⟨(le_abs_self _).trans (hsub m1).1, (le_abs_self _).trans (hsub m2).2⟩

variable [ExactSqrt K]

theorem ellipse_scaled_ne {e : Ellipse2d K} (he : e.Proper) {d : V2 K} (hd : d ≠ 0) :
    0 < (V2.mk (e.radii.x * d.x) (e.radii.y * d.y)).length := by
  refine V2.length_pos.2 fun h => hd ?_
  have h1 := congrArg V2.x h
  have h2 := congrArg V2.y h
  simp only [zero_x, zero_y, mul_eq_zero, he.1.ne', he.2.ne', false_or] at h1 h2
  ext <;> assumption

/-- The extreme point of a proper ellipse, for every non-zero direction: a farthest point. -/
theorem C74_ellipse_extreme_point (e : Ellipse2d K) (he : e.Proper) (d : V2 K) (hd : d ≠ 0) :
    IsExtreme (Region.pts e) d (extremePoint e d) := by
  have hL := ellipse_scaled_ne he hd
  have hsq := V2.length_mul_self (V2.mk (e.radii.x * d.x) (e.radii.y * d.y))
  set L := (V2.mk (e.radii.x * d.x) (e.radii.y * d.y)).length with hLdef
  have hx := he.1.ne'
  have hy := he.2.ne'
  rw [lengthSq_def] at hsq
  simp only at hsq
  have ex : extremePoint e d =
      ⟨e.radii.x * (e.radii.x * d.x) * (1 / L), e.radii.y * (e.radii.y * d.y) * (1 / L)⟩ := rfl
  have hdot : d.dot (extremePoint e d) = L := by
    rw [ex, dot_def]
    field_simp
    nlinarith [hsq]
  constructor
  · rw [ex]
    show (e.radii.x * (e.radii.x * d.x) * (1 / L) / e.radii.x) ^ 2 +
      (e.radii.y * (e.radii.y * d.y) * (1 / L) / e.radii.y) ^ 2 ≤ 1
    have : (e.radii.x * (e.radii.x * d.x) * (1 / L) / e.radii.x) ^ 2 +
      (e.radii.y * (e.radii.y * d.y) * (1 / L) / e.radii.y) ^ 2 = 1 := by
      field_simp
      nlinarith [hsq]
    exact this.le
  · intro p hp
    have hp : (p.x / e.radii.x) ^ 2 + (p.y / e.radii.y) ^ 2 ≤ 1 := hp
    rw [hdot]
    have h1 := V2.dot_le_length (V2.mk (e.radii.x * d.x) (e.radii.y * d.y))
      (V2.mk (p.x / e.radii.x) (p.y / e.radii.y))
    have h2 : (V2.mk (p.x / e.radii.x) (p.y / e.radii.y)).length ≤ 1 := by
      have := V2.length_sq (V2.mk (p.x / e.radii.x) (p.y / e.radii.y))
      rw [lengthSq_def] at this
      have h0 := V2.length_nonneg (V2.mk (p.x / e.radii.x) (p.y / e.radii.y))
      have : (V2.mk (p.x / e.radii.x) (p.y / e.radii.y)).length ^ 2 ≤ 1 := by
        rw [this]; simp only; nlinarith [hp]
      nlinarith
    have h3 : d.dot p = (V2.mk (e.radii.x * d.x) (e.radii.y * d.y)).dot
        (V2.mk (p.x / e.radii.x) (p.y / e.radii.y)) := by
      simp only [dot_def]; field_simp
    rw [h3]
    exact h1.trans (by rw [← hLdef]; nlinarith)

/-- the two formulas for the extreme point in the source agree -/
theorem C74_ellipse_two_formulas (e : Ellipse2d K) (he : e.Proper) (d : V2 K) :
    e.extremePointByComposing d = e.extremePointExpanded d := by
  have e1 : V2.divV (e.extremePointDirection d) e.radii =
      V2.mk (e.radii.x * d.x) (e.radii.y * d.y) := by
    have hx := he.1.ne'
    have hy := he.2.ne'
    ext
    · show e.radii.x * e.radii.x * d.x / e.radii.x = _
      field_simp
    · show e.radii.y * e.radii.y * d.y / e.radii.y = _
      field_simp
  unfold Ellipse2d.extremePointByComposing Ellipse2d.interceptRay Ellipse2d.extremePointExpanded
  rw [e1]
  simp only [Ellipse2d.extremePointDirection]
  ext
  · simp only [scale_x]; ring
  · simp only [scale_y]; ring

/-- `intercept_ray`: the returned point lies on the ray and on the boundary of the ellipse -/
theorem C74_ellipse_intercept (e : Ellipse2d K) (he : e.Proper) (d : V2 K) (hd : d ≠ 0) :
    ∃ t : K, 0 < t ∧ e.interceptRay d = V2.scale t d ∧
      ((e.interceptRay d).x / e.radii.x) ^ 2 + ((e.interceptRay d).y / e.radii.y) ^ 2 = 1 := by
  have hx := he.1.ne'
  have hy := he.2.ne'
  have hL : 0 < (V2.divV d e.radii).length := by
    refine V2.length_pos.2 fun h => hd ?_
    have h1 := congrArg V2.x h
    have h2 := congrArg V2.y h
    simp only [divV_x, divV_y, zero_x, zero_y, div_eq_zero_iff, hx, hy, or_false] at h1 h2
    ext <;> assumption
  have hsq := V2.length_mul_self (V2.divV d e.radii)
  refine ⟨(V2.divV d e.radii).lengthRecip, by unfold V2.lengthRecip; positivity, rfl, ?_⟩
  show ((1 / (V2.divV d e.radii).length * d.x) / e.radii.x) ^ 2 +
    ((1 / (V2.divV d e.radii).length * d.y) / e.radii.y) ^ 2 = 1
  set L := (V2.divV d e.radii).length
  rw [lengthSq_def] at hsq
  simp only [divV_x, divV_y] at hsq
  have e1 : ((1 / L * d.x) / e.radii.x) ^ 2 + ((1 / L * d.y) / e.radii.y) ^ 2 =
      (d.x / e.radii.x * (d.x / e.radii.x) + d.y / e.radii.y * (d.y / e.radii.y)) / (L * L) := by
    field_simp
  rw [e1, hsq, div_self]
  rw [← hsq]; positivity

/-- with equal radii the ellipse behaves as the ball -/
theorem C74_ellipse_ball (r : K) (hr : 0 < r) (d : V2 K) (hd : d ≠ 0) :
    extremePoint (Ellipse2d.mk ⟨r, r⟩) d = extremePoint (Ball.mk r) d := by
  have hp := V2.length_pos.2 hd
  have e1 : (V2.mk (r * d.x) (r * d.y)).length = r * d.length := by
    have h1 := V2.length_sq (V2.mk (r * d.x) (r * d.y))
    have h2 := V2.length_sq d
    have h3 := V2.length_nonneg (V2.mk (r * d.x) (r * d.y))
    refine (pow_left_inj₀ h3 (by positivity) two_ne_zero).1 ?_
    rw [h1, mul_pow, h2, lengthSq_def, lengthSq_def]; simp only; ring
  have e2 : d.normalizeOrZero = V2.scale (1 / d.length) d := by
    simp only [V2.normalizeOrZero, ExactFloat.isFinite_eq, true_and]
    rw [if_pos (by positivity)]
  show (⟨r * (r * d.x) * (1 / (V2.mk (r * d.x) (r * d.y)).length),
    r * (r * d.y) * (1 / (V2.mk (r * d.x) (r * d.y)).length)⟩ : V2 K) = V2.scale r d.normalizeOrZero
  rw [e1, e2]
  ext
  · simp only [scale_x]; field_simp
  · simp only [scale_y]; field_simp

/-- a concrete ellipse: radii (2, 1/2), direction (0, -3) -/
example : IsExtreme (Region.pts (Ellipse2d.mk (F := K) ⟨2, 1 / 2⟩)) ⟨0, -3⟩
    (extremePoint (Ellipse2d.mk (F := K) ⟨2, 1 / 2⟩) ⟨0, -3⟩) :=
  C74_ellipse_extreme_point _ ⟨by norm_num, by norm_num⟩ _
    (fun h => by have := congrArg V2.y h; norm_num at this)

end

/-! ## C75: MinkowskiDiff2d -/

section
open V2 ExtremePoint2d Transformation2d Auburn.Invertible Composable
variable {K : Type} [Field K] [LinearOrder K] [IsStrictOrderedRing K] [FloatExtra K] [ExactFloat K]
variable {A B T : Type} [Region A K] [Region B K] [ExtremePoint2d A K] [ExtremePoint2d B K]
  [Transformation2d T K] [Invertible T] [Composable T]

/-- The extreme point of the world-space Minkowski difference built from two colliders, for shapes
with exact extreme points and rigid placements: it is an extreme point of the difference of the
placed shapes *moved by the position of the first collider*. -/
theorem C75_minkowski_diff_extreme (a : Collider2d A T) (b : Collider2d B T)
    (ha : ExactSupport (K := K) a.shape) (hb : ExactSupport (K := K) b.shape)
    (ht : Similarity a.transform (1 : K))
    (hd : Similarity (deltaTransform a.transform b.transform) (1 : K))
    (hlaw : DeltaLaw (K := K) a.transform b.transform) (d : V2 K) :
    IsExtreme (shift (applyOrigin a.transform)
        (minkDiff (placed a.transform a.shape) (placed b.transform b.shape))) d
      (extremePoint (MinkowskiDiff2d.fromColliders a b) d) := by
  have key : ∀ p q : V2 K, apply a.transform (p - q) =
      (apply a.transform p - apply a.transform q) + applyOrigin a.transform := by
    intro p q
    have hlin : applyNormal a.transform (p - q) =
        applyNormal a.transform p - applyNormal a.transform q := by
      have h : ∀ n : V2 K, n.dot (applyNormal a.transform (p - q)) =
          n.dot (applyNormal a.transform p - applyNormal a.transform q) := by
        intro n
        rw [dot_sub, ht.dot_applyNormal, ht.dot_applyNormal, ht.dot_applyNormal, dot_sub]
      ext
      · have := h ⟨1, 0⟩; simpa [dot_def] using this
      · have := h ⟨0, 1⟩; simpa [dot_def] using this
    rw [ht.apply_eq, ht.apply_eq p, ht.apply_eq q, hlin]
    ext <;> simp <;> ring
  have hloc := C11_minkowski_support (LocalMinkowskiDiff2d.mk a.shape b.shape
    (deltaTransform a.transform b.transform)) 1 zero_le_one hd ha hb (unapplyNormal a.transform d)
  have ex : extremePoint (MinkowskiDiff2d.fromColliders a b) d = apply a.transform
      (extremePoint (LocalMinkowskiDiff2d.mk a.shape b.shape
        (deltaTransform a.transform b.transform)) (unapplyNormal a.transform d)) := rfl
  rw [ex]
  obtain ⟨⟨p, hp, q, ⟨r, hr, rfl⟩, e⟩, hmax⟩ := hloc
  constructor
  · rw [e, key, hlaw]
    exact ⟨_, ⟨_, ⟨p, hp, rfl⟩, _, ⟨r, hr, rfl⟩, rfl⟩, rfl⟩
  · rintro _ ⟨_, ⟨_, ⟨p', hp', rfl⟩, _, ⟨r', hr', rfl⟩, rfl⟩, rfl⟩
    rw [← hlaw, ← key, ht.dot_apply, ht.dot_apply, one_mul, one_mul]
    have := hmax _ ⟨p', hp', _, ⟨r', hr', rfl⟩, rfl⟩
    linarith

/-- so it is right for colliders whose first one sits at the origin -/
theorem C75_minkowski_diff_at_origin (a : Collider2d A T) (b : Collider2d B T)
    (ha : ExactSupport (K := K) a.shape) (hb : ExactSupport (K := K) b.shape)
    (ht : Similarity a.transform (1 : K))
    (hd : Similarity (deltaTransform a.transform b.transform) (1 : K))
    (hlaw : DeltaLaw (K := K) a.transform b.transform) (h0 : applyOrigin a.transform = (0 : V2 K))
    (d : V2 K) :
    IsExtreme (minkDiff (placed a.transform a.shape) (placed b.transform b.shape)) d
      (extremePoint (MinkowskiDiff2d.fromColliders a b) d) := by
  have h := C75_minkowski_diff_extreme a b ha hb ht hd hlaw d
  rw [h0] at h
  have e : ∀ Z : Set (V2 K), shift 0 Z = Z := by
    intro Z
    ext x
    constructor
    · rintro ⟨y, hy, rfl⟩; rwa [add_zero]
    · exact fun h => ⟨x, h, (add_zero x).symm⟩
  rwa [e] at h

/-- Finding: elsewhere the position of the first collider is added to the difference: two points at
(1, 0) have the difference {(0, 0)}, but the "extreme point" is (1, 0). -/
theorem C75_minkowski_diff_position_finding (d : V2 K) :
    let a : Collider2d (Point K) (V2 K) := ⟨⟨⟩, ⟨1, 0⟩⟩
    extremePoint (MinkowskiDiff2d.fromColliders a a) d = (⟨1, 0⟩ : V2 K) ∧
      ¬ IsExtreme (minkDiff (placed a.transform a.shape) (placed a.transform a.shape)) d
        (extremePoint (MinkowskiDiff2d.fromColliders a a) d) := by
  intro a
  have e : extremePoint (MinkowskiDiff2d.fromColliders a a) d = (⟨1, 0⟩ : V2 K) := by
    show apply a.transform (extremePoint (LocalMinkowskiDiff2d.mk a.shape a.shape
        (deltaTransform a.transform a.transform)) (unapplyNormal a.transform d)) = _
    have : (0 : V2 K) - ((0 : V2 K) + (a.transform + -a.transform)) + a.transform = ⟨1, 0⟩ := by
      ext <;> simp [a]
    exact this
  refine ⟨e, fun h => ?_⟩
  rw [e] at h
  obtain ⟨_, ⟨p, hp, rfl⟩, _, ⟨q, hq, rfl⟩, h2⟩ := h.1
  rw [show p = 0 from hp, show q = 0 from hq, sub_self] at h2
  have := congrArg V2.x h2
  simp at this

/-- the collision flag is that of the local difference; the vector is the local one sent through
`apply` (rotated, scaled *and moved* by the first collider's placement) -/
theorem C75_minkowski_diff_flag (p d : Bool) (m : MinkowskiDiff2d A B T) :
    (∀ c v, LocalMinkowskiDiff2d.sdfvMinkowski p d (LocalMinkowskiDiff2d.mk m.a m.b m.abT) = .ok (c, v) →
      ∃ w, MinkowskiDiff2d.sdfvMinkowski p d m = .ok (c, w) ∧
        ((p || d) = true → w = apply m.aT v)) := by
  intro c v h
  unfold MinkowskiDiff2d.sdfvMinkowski MinkowskiDiff2d.toLocal
  rw [h]
  refine ⟨_, rfl, fun hpd => ?_⟩
  simp only [hpd, if_true]

end

/-! ## C76: Cylinder3d -/

section
open V3 Transformation3d
variable {K : Type} [Field K] [LinearOrder K] [IsStrictOrderedRing K] [FloatExtra K] [ExactFloat K]

/-- the closed upright cylinder -/
def cylinder (h r : K) : Set (V3 K) := {p | p.x ^ 2 + p.y ^ 2 ≤ r ^ 2 ∧ |p.z| ≤ h}
/-- its interior -/
def cylinderInterior (h r : K) : Set (V3 K) := {p | p.x ^ 2 + p.y ^ 2 < r ^ 2 ∧ |p.z| < h}
/-- its surface -/
def cylinderSurface (h r : K) : Set (V3 K) :=
  {p | p ∈ cylinder h r ∧ (p.x ^ 2 + p.y ^ 2 = r ^ 2 ∨ |p.z| = h)}

/-- `Cylinder3d::new` takes the height, not the half height -/
theorem C76_cylinder_new (height r : K) :
    (Cylinder3d.new height r).halfheight + (Cylinder3d.new height r).halfheight = height ∧
      (Cylinder3d.new height r).radius = r := by
  refine ⟨?_, rfl⟩
  show height / FloatExtra.two + height / FloatExtra.two = height
  rw [ExactFloat.two_eq]; ring

/-- Finding: the Minkowski sum of two cylinders has only half the height it should have, because
half heights are passed to `new`, which halves again: the sum of two cylinders of half height 1
does not contain the sum of their top points. -/
theorem C76_minkowski_sum_finding :
    let c : Cylinder3d K := ⟨1, 1⟩
    (c.minkowskiSum c).halfheight = 1 ∧
    ∃ p ∈ cylinder (1 : K) 1, ∃ q ∈ cylinder (1 : K) 1,
      p + q ∉ cylinder (c.minkowskiSum c).halfheight (c.minkowskiSum c).radius := by
  intro c
  have e : (c.minkowskiSum c).halfheight = 1 := by
    show ((1 : K) + 1) / FloatExtra.two = 1
    rw [ExactFloat.two_eq]; norm_num
  refine ⟨e, ⟨0, 0, 1⟩, ⟨by norm_num, by norm_num⟩, ⟨0, 0, 1⟩, ⟨by norm_num, by norm_num⟩, fun h => ?_⟩
  rw [e] at h
  have := h.2
  simp only [add_z] at this
  rw [abs_of_pos (by norm_num)] at this
  norm_num at this

/-- The exact shortfall of `minkowski_sum`: the true sum of the two cylinders has the returned radius
and twice the returned half height. -/
theorem C76_minkowski_sum_half (a b : Cylinder3d K) (ha : 0 ≤ a.halfheight) (hb : 0 ≤ b.halfheight)
    (hra : 0 ≤ a.radius) (hrb : 0 ≤ b.radius) :
    {x | ∃ p ∈ cylinder a.halfheight a.radius, ∃ q ∈ cylinder b.halfheight b.radius, x = p + q} =
      cylinder (2 * (a.minkowskiSum b).halfheight) (a.minkowskiSum b).radius := by
  have e1 : 2 * (a.minkowskiSum b).halfheight = a.halfheight + b.halfheight := by
    show 2 * ((a.halfheight + b.halfheight) / FloatExtra.two) = _
    rw [ExactFloat.two_eq]; ring
  have e2 : (a.minkowskiSum b).radius = a.radius + b.radius := rfl
  rw [e1, e2]
  have split : ∀ {s t : K}, 0 ≤ s → 0 ≤ t → ∃ l : K, 0 ≤ l ∧ l ≤ 1 ∧ l * (s + t) = s := by
    intro s t hs ht
    by_cases h : s + t = 0
    · exact ⟨0, le_rfl, zero_le_one, by have : s = 0 := by linarith
                                        rw [this]; ring⟩
    · have hp : 0 < s + t := lt_of_le_of_ne (by linarith) (Ne.symm h)
      exact ⟨s / (s + t), by positivity, by rw [div_le_one hp]; linarith, by field_simp⟩
  ext x
  constructor
  · rintro ⟨p, ⟨hp1, hp2⟩, q, ⟨hq1, hq2⟩, rfl⟩
    refine ⟨?_, ?_⟩
    · show (p.x + q.x) ^ 2 + (p.y + q.y) ^ 2 ≤ (a.radius + b.radius) ^ 2
      have h1 : (p.x * q.x + p.y * q.y) ^ 2 ≤ (a.radius * b.radius) ^ 2 := by
        have : (p.x * q.x + p.y * q.y) ^ 2 ≤ (p.x ^ 2 + p.y ^ 2) * (q.x ^ 2 + q.y ^ 2) := by
          nlinarith [sq_nonneg (p.x * q.y - p.y * q.x)]
        rw [mul_pow]
        exact this.trans (mul_le_mul hp1 hq1 (by positivity) (by positivity))
      have h2 := (le_abs_self _).trans (abs_le_of_sq_le_sq h1 (by positivity))
      nlinarith
    · show |p.z + q.z| ≤ _
      exact (abs_add_le _ _).trans (add_le_add hp2 hq2)
  · rintro ⟨h1, h2⟩
    obtain ⟨l, l0, l1, hl⟩ := split hra hrb
    obtain ⟨m, m0, m1, hm⟩ := split ha hb
    have hl' : (1 - l) * (a.radius + b.radius) = b.radius := by linarith
    have hm' : (1 - m) * (a.halfheight + b.halfheight) = b.halfheight := by linarith
    refine ⟨⟨l * x.x, l * x.y, m * x.z⟩, ⟨?_, ?_⟩, ⟨(1 - l) * x.x, (1 - l) * x.y, (1 - m) * x.z⟩,
      ⟨?_, ?_⟩, ?_⟩
    · show (l * x.x) ^ 2 + (l * x.y) ^ 2 ≤ a.radius ^ 2
      rw [← hl, mul_pow, mul_pow, mul_pow, ← mul_add]
      exact mul_le_mul_of_nonneg_left h1 (by positivity)
    · show |m * x.z| ≤ a.halfheight
      rw [abs_mul, abs_of_nonneg m0, ← hm]
      exact mul_le_mul_of_nonneg_left h2 m0
    · show ((1 - l) * x.x) ^ 2 + ((1 - l) * x.y) ^ 2 ≤ b.radius ^ 2
      rw [← hl', mul_pow, mul_pow, mul_pow, ← mul_add]
      exact mul_le_mul_of_nonneg_left h1 (by positivity)
    · show |(1 - m) * x.z| ≤ b.halfheight
      rw [abs_mul, abs_of_nonneg (sub_nonneg.2 m1), ← hm']
      exact mul_le_mul_of_nonneg_left h2 (sub_nonneg.2 m1)
    · ext <;> simp <;> ring

theorem signum_mul_abs (x : K) : FloatExtra.signum x * |x| = x := by
  rcases lt_trichotomy x 0 with h | rfl | h
  · rw [ExactFloat.signum_neg x h, abs_of_neg h]; ring
  · rw [abs_zero, mul_zero]
  · rw [ExactFloat.signum_pos x h, abs_of_pos h, one_mul]
theorem signum_sq (x : K) : FloatExtra.signum x ^ 2 = 1 := by
  rcases lt_trichotomy x 0 with h | rfl | h
  · rw [ExactFloat.signum_neg x h]; norm_num
  · rcases ExactFloat.signum_zero (K := K) with h | h <;> rw [h] <;> norm_num
  · rw [ExactFloat.signum_pos x h]; norm_num
theorem abs_signum (x : K) : |FloatExtra.signum x| = 1 := by
  have := signum_sq x
  rw [← sq_abs] at this
  nlinarith [abs_nonneg (FloatExtra.signum x)]

variable [ExactSqrt K]

/-- the extreme point is a farthest point of the cylinder -/
theorem C76_cylinder_extreme_point (c : Cylinder3d K) (hh : 0 ≤ c.halfheight) (hr : 0 ≤ c.radius)
    (d : V3 K) :
    IsExtreme3 (cylinder c.halfheight c.radius) d (ExtremePoint3d.extremePoint c d) := by
  have h2 := C08_extreme_point_ball (Ball.mk c.radius) hr ⟨d.x, d.y⟩
  set e := ExtremePoint2d.extremePoint (Ball.mk c.radius) (⟨d.x, d.y⟩ : V2 K) with he
  have ex : ExtremePoint3d.extremePoint c d =
      ⟨e.x, e.y, if d.z > 0 then c.halfheight else -c.halfheight⟩ := rfl
  rw [ex]
  constructor
  · refine ⟨?_, ?_⟩
    · have := h2.1.2
      rw [V2.lengthSq_def] at this
      show e.x ^ 2 + e.y ^ 2 ≤ c.radius ^ 2
      nlinarith [this]
    · show |if d.z > 0 then c.halfheight else -c.halfheight| ≤ c.halfheight
      split_ifs
      · rw [abs_of_nonneg hh]
      · rw [abs_neg, abs_of_nonneg hh]
  · rintro p ⟨h3, h4⟩
    have h5 := h2.2 ⟨p.x, p.y⟩ ⟨hr, by
      rw [V2.lengthSq_def]; show p.x * p.x + p.y * p.y ≤ c.radius ^ 2; nlinarith [h3]⟩
    simp only [V2.dot_def] at h5
    rw [dot_def, dot_def]
    simp only
    have h6 := abs_le.1 h4
    have h7 : d.z * p.z ≤ d.z * (if d.z > 0 then c.halfheight else -c.halfheight) := by
      split_ifs with hz
      · exact mul_le_mul_of_nonneg_left h6.2 hz.le
      · exact mul_le_mul_of_nonpos_left h6.1 (not_lt.1 hz)
    linarith

variable {T : Type} [Transformation3d T K]

theorem flat_length_lt {o : V3 K} {r : K} (hr : 0 ≤ r) :
    (Cylinder3d.flat o).length < r ↔ o.x ^ 2 + o.y ^ 2 < r ^ 2 := by
  have h1 := V2.length_sq (Cylinder3d.flat o)
  have h2 := V2.length_nonneg (Cylinder3d.flat o)
  have e : V2.lengthSq (Cylinder3d.flat o) = o.x ^ 2 + o.y ^ 2 := by
    rw [V2.lengthSq_def]; show o.x * o.x + o.y * o.y = _; ring
  rw [← e, ← h1]
  exact (pow_lt_pow_iff_left₀ h2 hr two_ne_zero).symm

/-- Point in cylinder: strictly inside radially, but the caps count as colliding. -/
theorem C76_cylinder_collides (c : Cylinder3d K) (hr : 0 < c.radius) (pt : Point K) (rel : T) :
    CollidesRel3d.collidesRel c pt rel = true ↔
      (applyOrigin rel).x ^ 2 + (applyOrigin rel).y ^ 2 < c.radius ^ 2 ∧
        |(applyOrigin rel).z| ≤ c.halfheight := by
  have e : CollidesRel3d.collidesRel c pt rel = (if (applyOrigin rel).z < -c.halfheight ∨
      (applyOrigin rel).z > c.halfheight then false
    else (ballDelta c.radius (Cylinder3d.flat (applyOrigin rel))).1) := rfl
  rw [e]
  set o := applyOrigin rel with ho
  rw [abs_le]
  by_cases hz : o.z < -c.halfheight ∨ o.z > c.halfheight
  · rw [if_pos hz]
    simp only [Bool.false_eq_true, false_iff, not_and]
    rcases hz with h | h
    · intro _ h1; linarith
    · intro _ _; exact not_le.2 h
  · rw [if_neg hz]
    push Not at hz
    have hb : (ballDelta c.radius (Cylinder3d.flat o)).1 = true ↔ o.x ^ 2 + o.y ^ 2 < c.radius ^ 2 := by
      rcases ballDelta_cases c.radius (Cylinder3d.flat o) with ⟨_, e⟩ | ⟨h, e⟩
      · rw [e]; simp only [decide_eq_true_eq]; exact flat_length_lt hr.le
      · rw [e]
        have h1 : o.x = 0 := congrArg V2.x h
        have h2 : o.y = 0 := congrArg V2.y h
        rw [h1, h2]
        simp only [true_iff]
        have := pow_pos hr 2
        nlinarith
    rw [hb]
    exact ⟨fun h => ⟨h, hz.1, hz.2⟩, fun h => h.1⟩

/-- `penetrates` reports a vector exactly when `collides` -/
theorem C76_cylinder_penetrates_some (c : Cylinder3d K) (pt : Point K) (rel : T) :
    (PenetratesRel3d.penetratesRel c pt rel : Option (V3 K)).isSome ↔
      CollidesRel3d.collidesRel c pt rel = true := by
  have e : (PenetratesRel3d.penetratesRel c pt rel : Option (V3 K)) =
      if CollidesRel3d.collidesRel c pt rel then
        if (applyOrigin rel).z * (applyOrigin rel).z < (Cylinder3d.flat (applyOrigin rel)).lengthSq
        then some ⟨0, 0, FloatExtra.signum (applyOrigin rel).z * c.halfheight⟩
        else (if (ballDelta c.radius (Cylinder3d.flat (applyOrigin rel))).1 then
          some (ballDelta c.radius (Cylinder3d.flat (applyOrigin rel))).2 else none).map
            fun v => ⟨v.x, v.y, 0⟩
      else none := rfl
  rw [e]
  by_cases hc : CollidesRel3d.collidesRel c pt rel = true
  · rw [if_pos hc]
    simp only [hc, iff_true]
    split_ifs with h1 h2
    · rfl
    · rfl
    · exfalso
      have e2 : CollidesRel3d.collidesRel c pt rel = (if (applyOrigin rel).z < -c.halfheight ∨
          (applyOrigin rel).z > c.halfheight then false
        else (ballDelta c.radius (Cylinder3d.flat (applyOrigin rel))).1) := rfl
      rw [e2] at hc
      split_ifs at hc with h3
      exact h2 hc
  · rw [if_neg hc]; simp [hc]

/-- Finding: closer to the mid plane than to the axis (`z² < x² + y²`) the vector of `penetrates`
points along the axis and has the length of the half height instead of the missing distance: after
moving the cylinder by it the point is still strictly inside, unless it was in the mid plane. -/
theorem C76_penetrates_finding (c : Cylinder3d K) (hr : 0 < c.radius) (pt : Point K) (o v : V3 K)
    (ho : o ∈ cylinderInterior c.halfheight c.radius) (hz : o.z ≠ 0)
    (hb : o.z ^ 2 < o.x ^ 2 + o.y ^ 2)
    (hv : PenetratesRel3d.penetratesRel c pt o = some v) :
    o - v ∈ cylinderInterior c.halfheight c.radius := by
  have hc : CollidesRel3d.collidesRel c pt o = true :=
    (C76_cylinder_collides c hr pt o).2 ⟨ho.1, ho.2.le⟩
  have hlt : o.z * o.z < (Cylinder3d.flat o).lengthSq := by
    rw [V2.lengthSq_def]; show o.z * o.z < o.x * o.x + o.y * o.y; nlinarith [hb]
  have e : (PenetratesRel3d.penetratesRel c pt o : Option (V3 K)) =
      some ⟨0, 0, FloatExtra.signum o.z * c.halfheight⟩ := by
    show (if CollidesRel3d.collidesRel c pt o then
        if o.z * o.z < (Cylinder3d.flat o).lengthSq
        then some (⟨0, 0, FloatExtra.signum o.z * c.halfheight⟩ : V3 K) else _ else _) = _
    rw [if_pos hc, if_pos hlt]
  rw [e] at hv
  obtain rfl := Option.some.inj hv
  refine ⟨?_, ?_⟩
  · show (o.x - 0) ^ 2 + (o.y - 0) ^ 2 < c.radius ^ 2
    rw [sub_zero, sub_zero]; exact ho.1
  · show |o.z - FloatExtra.signum o.z * c.halfheight| < c.halfheight
    have h2 := ho.2
    rcases lt_or_gt_of_ne hz with h | h
    · rw [ExactFloat.signum_neg _ h]
      rw [abs_of_neg h] at h2
      rw [abs_lt]; constructor <;> linarith
    · rw [ExactFloat.signum_pos _ h]
      rw [abs_of_pos h] at h2
      rw [abs_lt]; constructor <;> linarith

/-- Finding: `sdf` can be negative outside: half height 1, radius 1, point (1/2, 0, 6/5) is 1/5 above
the cap, `sdf` is -1/2. -/
theorem C76_sdf_finding (pt : Point K) :
    (⟨1 / 2, 0, 6 / 5⟩ : V3 K) ∉ cylinder (1 : K) 1 ∧
    SdfRel3d.sdfRel (Cylinder3d.mk (1 : K) 1) pt (⟨1 / 2, 0, 6 / 5⟩ : V3 K) = -(1 / 2) := by
  constructor
  · rintro ⟨_, h⟩
    simp only at h
    rw [abs_of_pos (by norm_num)] at h
    norm_num at h
  · have hl : (V2.mk (1 / 2 : K) 0).length = 1 / 2 := by
      rw [length_axis_x, abs_of_pos (by norm_num)]
    show (if (FloatExtra.abs (6 / 5 : K) - 1) * (FloatExtra.abs (6 / 5 : K) - 1) >
      V2.lengthSq (V2.mk (1 / 2 : K) 0) then FloatExtra.abs (6 / 5 : K) - 1 else
        (V2.mk (1 / 2 : K) 0).length - 1) = _
    rw [ExactFloat.abs_eq, abs_of_pos (by norm_num), hl, if_neg]
    · norm_num
    · rw [V2.lengthSq_def]; norm_num

theorem radial_bound {x y r qx qy : K} (hr : 0 ≤ r) {L : K} (hL : 0 ≤ L) (hLs : L ^ 2 = x ^ 2 + y ^ 2)
    (hrL : r ≤ L) (hq : qx ^ 2 + qy ^ 2 ≤ r ^ 2) : (L - r) ^ 2 ≤ (x - qx) ^ 2 + (y - qy) ^ 2 := by
  have h1 : (x * qx + y * qy) ^ 2 ≤ (L * r) ^ 2 := by
    have : (x * qx + y * qy) ^ 2 ≤ (x ^ 2 + y ^ 2) * (qx ^ 2 + qy ^ 2) := by
      nlinarith [sq_nonneg (x * qy - y * qx)]
    rw [mul_pow, hLs]
    exact this.trans (mul_le_mul_of_nonneg_left hq (by positivity))
  by_cases hq0 : x * qx + y * qy ≤ L ^ 2
  · -- use distance along the ray
    by_cases hLz : L = 0
    · have : r = 0 := le_antisymm (hLz ▸ hrL) hr
      rw [hLz, this]; simp; positivity
    · have hLp : 0 < L := lt_of_le_of_ne hL (Ne.symm hLz)
      have h2 : x * qx + y * qy ≤ L * r := by
        have := abs_le_of_sq_le_sq h1 (by positivity)
        exact (le_abs_self _).trans this
      have h3 : (L ^ 2 - (x * qx + y * qy)) ^ 2 ≤ L ^ 2 * ((x - qx) ^ 2 + (y - qy) ^ 2) := by
        rw [hLs]; nlinarith [sq_nonneg (x * (y - qy) - y * (x - qx))]
      have h4 : L * (L - r) ≤ L ^ 2 - (x * qx + y * qy) := by nlinarith
      have h5 : (L * (L - r)) ^ 2 ≤ (L ^ 2 - (x * qx + y * qy)) ^ 2 :=
        pow_le_pow_left₀ (mul_nonneg hL (by linarith)) h4 2
      have h6 : L ^ 2 * (L - r) ^ 2 ≤ L ^ 2 * ((x - qx) ^ 2 + (y - qy) ^ 2) := by
        rw [← mul_pow]; exact h5.trans h3
      exact le_of_mul_le_mul_left h6 (by positivity)
  · exfalso
    have h2 : x * qx + y * qy ≤ L * r :=
      (le_abs_self _).trans (abs_le_of_sq_le_sq h1 (by positivity))
    nlinarith

/-- Above and below the caps (well away from them compared to the distance from the axis) and beside
the lateral surface, `sdf` is the distance to the cylinder. -/
theorem C76_cylinder_sdf_outside (c : Cylinder3d K) (hh : 0 ≤ c.halfheight) (hr : 0 ≤ c.radius)
    (pt : Point K) (o : V3 K)
    (hcase : (c.halfheight ≤ |o.z| ∧ o.x ^ 2 + o.y ^ 2 ≤ c.radius ^ 2 ∧
        o.x ^ 2 + o.y ^ 2 < (|o.z| - c.halfheight) ^ 2) ∨
      (|o.z| ≤ c.halfheight ∧ c.radius ^ 2 ≤ o.x ^ 2 + o.y ^ 2 ∧
        (|o.z| - c.halfheight) ^ 2 ≤ o.x ^ 2 + o.y ^ 2)) :
    0 ≤ SdfRel3d.sdfRel c pt o ∧ ∃ q, IsNearest3 o (cylinder c.halfheight c.radius) q ∧
      (o - q).lengthSq = SdfRel3d.sdfRel c pt o ^ 2 := by
  have hL := V2.length_sq (Cylinder3d.flat o)
  have hL0 := V2.length_nonneg (Cylinder3d.flat o)
  have hls : (Cylinder3d.flat o).lengthSq = o.x ^ 2 + o.y ^ 2 := by
    rw [V2.lengthSq_def]; show o.x * o.x + o.y * o.y = _; ring
  rw [hls] at hL
  have hdef : (SdfRel3d.sdfRel c pt o : K) =
      if (FloatExtra.abs o.z - c.halfheight) * (FloatExtra.abs o.z - c.halfheight) >
        (Cylinder3d.flat o).lengthSq then FloatExtra.abs o.z - c.halfheight else
          (Cylinder3d.flat o).length - c.radius := rfl
  rw [ExactFloat.abs_eq, hls] at hdef
  set L := (Cylinder3d.flat o).length with hLdef
  rcases hcase with ⟨h1, h2, h3⟩ | ⟨h1, h2, h3⟩
  · rw [if_pos (by nlinarith)] at hdef
    rw [hdef]
    refine ⟨by linarith, ⟨o.x, o.y, FloatExtra.signum o.z * c.halfheight⟩, ⟨⟨h2, ?_⟩, fun q hq => ?_⟩, ?_⟩
    · show |FloatExtra.signum o.z * c.halfheight| ≤ _
      rw [abs_mul, abs_signum, one_mul, abs_of_nonneg hh]
    all_goals
      have ez : o.z - FloatExtra.signum o.z * c.halfheight =
          FloatExtra.signum o.z * (|o.z| - c.halfheight) := by
        have := signum_mul_abs o.z; linear_combination -this
      have es := signum_sq o.z
      have el : (o - ⟨o.x, o.y, FloatExtra.signum o.z * c.halfheight⟩ : V3 K).lengthSq =
          (|o.z| - c.halfheight) ^ 2 := by
        rw [lengthSq_def]
        simp only [sub_x, sub_y, sub_z, sub_self, mul_zero, zero_add, ez]
        linear_combination (|o.z| - c.halfheight) ^ 2 * es
    · have h4 : |o.z| - c.halfheight ≤ |o.z - q.z| := by
        have := abs_sub_abs_le_abs_sub o.z q.z
        have := hq.2
        linarith
      have h5 := pow_le_pow_left₀ (by linarith) h4 2
      rw [sq_abs] at h5
      rw [el, lengthSq_def]
      simp only [sub_x, sub_y, sub_z]
      nlinarith [sq_nonneg (o.x - q.x), sq_nonneg (o.y - q.y)]
    · exact el
  · rw [if_neg (by rw [not_lt]; nlinarith)] at hdef
    rw [hdef]
    have hrL : c.radius ≤ L := by
      refine le_of_sq_le_sq ?_ hL0
      rw [hL]; exact h2
    refine ⟨by linarith, ⟨c.radius / L * o.x, c.radius / L * o.y, o.z⟩, ⟨⟨?_, h1⟩, fun q hq => ?_⟩, ?_⟩
    all_goals
      have el : (1 - c.radius / L) ^ 2 * L ^ 2 = (L - c.radius) ^ 2 := by
        by_cases h0 : L = 0
        · have : c.radius = 0 := le_antisymm (h0 ▸ hrL) hr
          rw [h0, this]; simp
        · field_simp
      have el2 : (c.radius / L) ^ 2 * L ^ 2 = c.radius ^ 2 := by
        by_cases h0 : L = 0
        · have : c.radius = 0 := le_antisymm (h0 ▸ hrL) hr
          rw [h0, this]; simp
        · field_simp
      have ev : (o - ⟨c.radius / L * o.x, c.radius / L * o.y, o.z⟩ : V3 K).lengthSq =
          (L - c.radius) ^ 2 := by
        rw [← el, lengthSq_def]
        simp only [sub_x, sub_y, sub_z]
        linear_combination -(1 - c.radius / L) ^ 2 * hL
    · show (c.radius / L * o.x) ^ 2 + (c.radius / L * o.y) ^ 2 ≤ c.radius ^ 2
      refine le_of_eq ?_
      linear_combination el2 - (c.radius / L) ^ 2 * hL
    · rw [ev, lengthSq_def]
      have := radial_bound hr hL0 hL hrL hq.1
      simp only [sub_x, sub_y, sub_z]
      nlinarith [sq_nonneg (o.z - q.z)]
    · exact ev

/-- a concrete case: half height 1, radius 1, point (3, 0, 1/2): beside the lateral surface -/
example (pt : Point K) : 0 ≤ SdfRel3d.sdfRel (Cylinder3d.mk (1 : K) 1) pt (⟨3, 0, 1 / 2⟩ : V3 K) :=
  (C76_cylinder_sdf_outside ⟨1, 1⟩ zero_le_one zero_le_one pt ⟨3, 0, 1 / 2⟩
    (Or.inr (by
      show |(1 / 2 : K)| ≤ 1 ∧ (1 : K) ^ 2 ≤ 3 ^ 2 + 0 ^ 2 ∧ (|(1 / 2 : K)| - 1) ^ 2 ≤ 3 ^ 2 + 0 ^ 2
      rw [abs_of_pos (by norm_num)]; norm_num))).1

/-- `sdfv` outside of the cylinder: straight above or below the caps, and beyond the rim of the upper
cap, the vector leads to the nearest point of the cylinder. -/
theorem C76_cylinder_sdfv_outside (c : Cylinder3d K) (hh : 0 ≤ c.halfheight) (hr : 0 ≤ c.radius)
    (pt : Point K) (o : V3 K) (ho : c.halfheight ≤ |o.z|)
    (hcase : o.x ^ 2 + o.y ^ 2 ≤ c.radius ^ 2 ∨ 0 < o.z) :
    IsNearest3 o (cylinder c.halfheight c.radius) (o - SdfvRel3d.sdfvRel c pt o) := by
  have hz0 : ¬ FloatExtra.abs o.z - c.halfheight < 0 := by
    rw [ExactFloat.abs_eq, not_lt]; linarith
  by_cases hin : o.x ^ 2 + o.y ^ 2 ≤ c.radius ^ 2
  · have e : SdfvRel3d.sdfvRel c pt o =
        (⟨0, 0, FloatExtra.signum o.z * (|o.z| - c.halfheight)⟩ : V3 K) := by
      show (if FloatExtra.abs o.z - c.halfheight < 0 then _ else
        if (Cylinder3d.flat o).lengthSq ≤ c.radius * c.radius then
          (⟨0, 0, FloatExtra.signum o.z * (FloatExtra.abs o.z - c.halfheight)⟩ : V3 K) else _) = _
      rw [if_neg hz0, if_pos, ExactFloat.abs_eq]
      rw [V2.lengthSq_def]; show o.x * o.x + o.y * o.y ≤ _; nlinarith
    rw [e]
    have ez : o.z - FloatExtra.signum o.z * (|o.z| - c.halfheight) =
        FloatExtra.signum o.z * c.halfheight := by
      have := signum_mul_abs o.z; linear_combination -this
    refine ⟨⟨?_, ?_⟩, fun q hq => ?_⟩
    · show (o.x - 0) ^ 2 + (o.y - 0) ^ 2 ≤ _
      rw [sub_zero, sub_zero]; exact hin
    · show |o.z - _| ≤ _
      rw [ez, abs_mul, abs_signum, one_mul, abs_of_nonneg hh]
    · have h1 : |o.z| - c.halfheight ≤ |o.z - q.z| := by
        have := abs_sub_abs_le_abs_sub o.z q.z
        have := hq.2
        linarith
      have h2 := pow_le_pow_left₀ (by linarith) h1 2
      rw [sq_abs] at h2
      rw [lengthSq_def, lengthSq_def]
      simp only [sub_x, sub_y, sub_z, sub_zero, sub_self]
      have h3 : (o.z - (o.z - FloatExtra.signum o.z * (|o.z| - c.halfheight))) *
          (o.z - (o.z - FloatExtra.signum o.z * (|o.z| - c.halfheight))) =
          (|o.z| - c.halfheight) ^ 2 := by
        have := signum_sq o.z
        linear_combination (|o.z| - c.halfheight) ^ 2 * this
      rw [h3]
      nlinarith [sq_nonneg (o.x - q.x), sq_nonneg (o.y - q.y)]
  · have hz : 0 < o.z := hcase.resolve_left hin
    rw [abs_of_pos hz] at ho
    push Not at hin
    have hfl : (Cylinder3d.flat o).lengthSq = o.x ^ 2 + o.y ^ 2 := by
      rw [V2.lengthSq_def]; show o.x * o.x + o.y * o.y = _; ring
    have hne : Cylinder3d.flat o ≠ 0 := by
      intro h
      rw [h, V2.lengthSq_eq_zero.2 rfl] at hfl
      nlinarith [sq_nonneg c.radius]
    have hLp := V2.length_pos.2 hne
    have hLs := V2.length_sq (Cylinder3d.flat o)
    rw [hfl] at hLs
    set L := (Cylinder3d.flat o).length with hL
    have hrL : c.radius ≤ L := by
      by_contra hlt
      push Not at hlt
      have := pow_lt_pow_left₀ hlt hLp.le two_ne_zero
      linarith
    have eb : (ballDelta c.radius (Cylinder3d.flat o)).2 =
        V2.scale (L - c.radius) (V2.scale (1 / L) (Cylinder3d.flat o)) := by
      rcases ballDelta_cases c.radius (Cylinder3d.flat o) with ⟨_, e⟩ | ⟨h, _⟩
      · rw [e]
      · exact absurd h hne
    have e : SdfvRel3d.sdfvRel c pt o =
        (⟨(L - c.radius) * (1 / L * o.x), (L - c.radius) * (1 / L * o.y), o.z - c.halfheight⟩ : V3 K) := by
      have es : FloatExtra.signum (FloatExtra.abs o.z - c.halfheight) *
          (FloatExtra.abs o.z - c.halfheight) = o.z - c.halfheight := by
        have := signum_mul_abs (FloatExtra.abs o.z - c.halfheight)
        rw [ExactFloat.abs_eq, abs_of_pos hz] at this ⊢
        rwa [abs_of_nonneg (by linarith)] at this
      show (if FloatExtra.abs o.z - c.halfheight < 0 then _ else
        if (Cylinder3d.flat o).lengthSq ≤ c.radius * c.radius then _ else
          (⟨(ballDelta c.radius (Cylinder3d.flat o)).2.x, (ballDelta c.radius (Cylinder3d.flat o)).2.y,
            FloatExtra.signum (FloatExtra.abs o.z - c.halfheight) *
              (FloatExtra.abs o.z - c.halfheight)⟩ : V3 K)) = _
      rw [if_neg hz0, if_neg (by rw [hfl]; nlinarith), eb, es]
      rfl
    rw [e]
    have ex : o.x - (L - c.radius) * (1 / L * o.x) = c.radius * (o.x / L) := by
      field_simp; ring
    have ey : o.y - (L - c.radius) * (1 / L * o.y) = c.radius * (o.y / L) := by
      field_simp; ring
    have hunit : (o.x / L) ^ 2 + (o.y / L) ^ 2 = 1 := by
      rw [div_pow, div_pow, ← add_div, ← hLs, div_self (by positivity)]
    refine ⟨⟨?_, ?_⟩, fun q hq => ?_⟩
    · show (o.x - _) ^ 2 + (o.y - _) ^ 2 ≤ _
      rw [ex, ey, mul_pow, mul_pow, ← mul_add, hunit, mul_one]
    · show |o.z - (o.z - c.halfheight)| ≤ _
      rw [sub_sub_cancel, abs_of_nonneg hh]
    · have h1 := radial_bound hr hLp.le hLs hrL hq.1
      have h2 : (o.z - c.halfheight) ^ 2 ≤ (o.z - q.z) ^ 2 :=
        pow_le_pow_left₀ (by linarith) (by linarith [(abs_le.1 hq.2).2]) 2
      have h3 : ((L - c.radius) * (1 / L * o.x)) ^ 2 + ((L - c.radius) * (1 / L * o.y)) ^ 2 =
          (L - c.radius) ^ 2 := by
        have : ((L - c.radius) * (1 / L * o.x)) ^ 2 + ((L - c.radius) * (1 / L * o.y)) ^ 2 =
          (L - c.radius) ^ 2 * ((o.x / L) ^ 2 + (o.y / L) ^ 2) := by ring
        rw [this, hunit, mul_one]
      rw [lengthSq_def, lengthSq_def]
      simp only [sub_x, sub_y, sub_z, sub_sub_cancel]
      nlinarith

/-- Finding: beyond the rim of the lower cap the axial part of the vector has the wrong sign: half
height 1, radius 1, point (2, 0, -2): the vector is (1, 0, 1) instead of (1, 0, -1). -/
theorem C76_sdfv_below_finding (pt : Point K) :
    SdfvRel3d.sdfvRel (Cylinder3d.mk (1 : K) 1) pt (⟨2, 0, -2⟩ : V3 K) = (⟨1, 0, 1⟩ : V3 K) ∧
    (⟨2, 0, -2⟩ : V3 K) - ⟨1, 0, 1⟩ ∉ cylinder (1 : K) 1 := by
  constructor
  · have hl : (V2.mk (2 : K) 0).length = 2 := by
      rw [length_axis_x, abs_of_pos (by norm_num)]
    have hb : (ballDelta (1 : K) ⟨2, 0⟩).2 = ⟨1, 0⟩ := by
      rcases ballDelta_cases (1 : K) ⟨2, 0⟩ with ⟨_, e⟩ | ⟨h, _⟩
      · rw [e, hl]; ext <;> simp <;> norm_num
      · have := congrArg V2.x h; norm_num at this
    have ea : FloatExtra.abs (-2 : K) = 2 := by rw [ExactFloat.abs_eq, abs_neg, abs_of_pos (by norm_num)]
    show (if FloatExtra.abs (-2 : K) - 1 < 0 then _ else
        if (V2.mk (2 : K) 0).lengthSq ≤ 1 * 1 then _ else
          (⟨(ballDelta (1 : K) ⟨2, 0⟩).2.x, (ballDelta (1 : K) ⟨2, 0⟩).2.y,
            FloatExtra.signum (FloatExtra.abs (-2 : K) - 1) * (FloatExtra.abs (-2 : K) - 1)⟩ : V3 K)) = _
    rw [ea, hb, if_neg (by norm_num), if_neg (by rw [V2.lengthSq_def]; norm_num),
      ExactFloat.signum_pos _ (by norm_num)]
    ext <;> norm_num
  · rintro ⟨_, h⟩
    simp only [sub_z] at h
    rw [abs_of_neg (by norm_num)] at h
    norm_num at h

/-- Finding: inside, `sdfv` (and `sdf`) choose the direction by comparing the depth below the cap
with the distance *from the axis*, so on the axis they go along it, however long the cylinder:
half height 10, radius 1, centre: the vector has length 10, but length 1 suffices. -/
theorem C76_sdfv_inside_finding (pt : Point K) :
    ∃ v : V3 K, SdfvRel3d.sdfvRel (Cylinder3d.mk (10 : K) 1) pt (0 : V3 K) = v ∧
      lengthSq v = 100 ∧ ∃ q ∈ cylinderSurface (10 : K) 1, lengthSq (0 - q) = 1 := by
  refine ⟨_, rfl, ?_, ⟨1, 0, 0⟩, ⟨⟨by norm_num, by norm_num⟩, Or.inl (by norm_num)⟩, ?_⟩
  · have ea : FloatExtra.abs (0 : K) = 0 := by rw [ExactFloat.abs_eq, abs_zero]
    have e : SdfvRel3d.sdfvRel (Cylinder3d.mk (10 : K) 1) pt (0 : V3 K) =
        (⟨0, 0, FloatExtra.signum (0 : K) * (0 - 10)⟩ : V3 K) := by
      show (if FloatExtra.abs (0 : K) - 10 < 0 then
        if (FloatExtra.abs (0 : K) - 10) * (FloatExtra.abs (0 : K) - 10) > (V2.mk (0 : K) 0).lengthSq
        then (⟨0, 0, FloatExtra.signum (0 : K) * (FloatExtra.abs (0 : K) - 10)⟩ : V3 K) else _ else _) = _
      rw [ea, if_pos (by norm_num), if_pos (by rw [V2.lengthSq_def]; norm_num)]
    rw [e, lengthSq_def]
    have := signum_sq (0 : K)
    simp only
    nlinarith
  · rw [lengthSq_def]; simp

/-- `sdfv` strictly between the caps' planes: the vector leads from the surface to the point — either straight along the
axis, ending in the plane of a cap, or straight away from the axis, ending on the lateral surface at the same height. -/
theorem C76_cylinder_sdfv_between (c : Cylinder3d K) (pt : Point K) (o : V3 K) (ho : |o.z| < c.halfheight) :
    ((o - SdfvRel3d.sdfvRel c pt o).x = o.x ∧ (o - SdfvRel3d.sdfvRel c pt o).y = o.y ∧
      |(o - SdfvRel3d.sdfvRel c pt o).z| = c.halfheight) ∨
    ((o - SdfvRel3d.sdfvRel c pt o).z = o.z ∧
      (o - SdfvRel3d.sdfvRel c pt o).x ^ 2 + (o - SdfvRel3d.sdfvRel c pt o).y ^ 2 = c.radius ^ 2) := by
  have hz0 : FloatExtra.abs o.z - c.halfheight < 0 := by
    rw [ExactFloat.abs_eq]; linarith
  have hh : 0 ≤ c.halfheight := (abs_nonneg _).trans ho.le
  have e : SdfvRel3d.sdfvRel c pt o = (if (FloatExtra.abs o.z - c.halfheight) * (FloatExtra.abs o.z - c.halfheight) >
        (Cylinder3d.flat o).lengthSq then (⟨0, 0, FloatExtra.signum o.z * (FloatExtra.abs o.z - c.halfheight)⟩ : V3 K) else
      ⟨(ballDelta c.radius (Cylinder3d.flat o)).2.x, (ballDelta c.radius (Cylinder3d.flat o)).2.y, 0⟩) := by
    show (if FloatExtra.abs o.z - c.halfheight < 0 then _ else _) = _
    rw [if_pos hz0]; rfl
  rw [e]
  split
  · left
    refine ⟨sub_zero _, sub_zero _, ?_⟩
    show |o.z - FloatExtra.signum o.z * (FloatExtra.abs o.z - c.halfheight)| = _
    have ez : o.z - FloatExtra.signum o.z * (|o.z| - c.halfheight) = FloatExtra.signum o.z * c.halfheight := by
      have := signum_mul_abs o.z; linear_combination -this
    rw [ExactFloat.abs_eq, ez, abs_mul, abs_signum, one_mul, abs_of_nonneg hh]
  · right
    refine ⟨sub_zero _, ?_⟩
    show (o.x - (ballDelta c.radius (Cylinder3d.flat o)).2.x) ^ 2 + (o.y - (ballDelta c.radius (Cylinder3d.flat o)).2.y) ^ 2 = _
    rcases ballDelta_cases c.radius (Cylinder3d.flat o) with ⟨hne, eb⟩ | ⟨h0, eb⟩
    · rw [eb]
      have hLp := V2.length_pos.2 hne
      have hLs := V2.length_sq (Cylinder3d.flat o)
      rw [V2.lengthSq_def] at hLs
      have hLs : (Cylinder3d.flat o).length ^ 2 = o.x * o.x + o.y * o.y := hLs
      set L := (Cylinder3d.flat o).length with hL
      show (o.x - (L - c.radius) * (1 / L * o.x)) ^ 2 + (o.y - (L - c.radius) * (1 / L * o.y)) ^ 2 = _
      have ex : o.x - (L - c.radius) * (1 / L * o.x) = c.radius * (o.x / L) := by
        field_simp; ring
      have ey : o.y - (L - c.radius) * (1 / L * o.y) = c.radius * (o.y / L) := by
        field_simp; ring
      have hunit : (o.x / L) ^ 2 + (o.y / L) ^ 2 = 1 := by
        rw [div_pow, div_pow, ← add_div, show o.x ^ 2 + o.y ^ 2 = L ^ 2 by rw [hLs]; ring, div_self (by positivity)]
      rw [ex, ey, mul_pow, mul_pow, ← mul_add, hunit, mul_one]
    · rw [eb]
      have hx : o.x = 0 := congrArg V2.x h0
      have hy : o.y = 0 := congrArg V2.y h0
      rw [hx, hy]
      simp [V2.scale]

/-- a concrete case: half height 2, radius 1, point (1/2, 0, 1) -/
example (pt : Point K) := C76_cylinder_sdfv_between (Cylinder3d.mk (2 : K) 1) pt ⟨1 / 2, 0, 1⟩
  (by show |(1 : K)| < 2; rw [abs_one]; norm_num)

/-- a concrete case: the point (2, 0, 3) above the rim of the cylinder of half height 1, radius 1 -/
example (pt : Point K) : IsNearest3 (⟨2, 0, 3⟩ : V3 K) (cylinder 1 1)
    ((⟨2, 0, 3⟩ : V3 K) - SdfvRel3d.sdfvRel (Cylinder3d.mk (1 : K) 1) pt (⟨2, 0, 3⟩ : V3 K)) :=
  C76_cylinder_sdfv_outside _ zero_le_one zero_le_one pt _
    (by show (1 : K) ≤ |3|; rw [abs_of_pos] <;> norm_num) (Or.inr (by norm_num))

end
end Auburn
