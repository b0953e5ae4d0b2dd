import Verif.Props.Rate
import Verif.Props.DistanceSafe
import Verif.Props.BoxRot
import Verif.Props.Family

/-!
# C94: placed colliders, answers in world space

The collider-level queries `collides`, `penetrates`, `distance_to` and `sdfv` of the Minkowski-based pairs, for two
colliders placed anywhere (rotated, translated, uniformly scaled), stated for the regions they occupy in the world.
-/

set_option linter.unusedSectionVars false
set_option synthInstance.maxSize 1000

namespace Auburn

open V2 ExtremePoint2d Transformation2d Auburn.Invertible Composable

section
variable {K : Type} [Field K] [LinearOrder K] [IsStrictOrderedRing K] [FloatExtra K] [ExactFloat K]

/-! ## similarities of the whole scene -/

section
variable {T : Type} [Transformation2d T K] {t : T} {s : K}

/-- the displacement in the world that corresponds to the displacement `v` in the frame of a collider with placement `t`
and scale `s`: turned and scaled -/
def worldVec (s : K) (t : T) (v : V2 K) : V2 K := V2.scale s (applyNormal t v)

theorem applyNormal_add_sim (h : Similarity t s) (u v : V2 K) :
    applyNormal t (u + v) = applyNormal t u + applyNormal t v := by
  have hz : lengthSq (applyNormal t (u + v) - (applyNormal t u + applyNormal t v)) = 0 := by
    have e : ∀ x y z : V2 K, lengthSq (x - (y + z)) = lengthSq x + lengthSq y + lengthSq z
        - 2 * x.dot y - 2 * x.dot z + 2 * y.dot z := by
      intro x y z; simp only [lengthSq_def, dot_def, sub_x, sub_y, add_x, add_y]; ring
    rw [e, h.lengthSq_applyNormal, h.lengthSq_applyNormal, h.lengthSq_applyNormal,
      h.normal.2.2, h.normal.2.2, h.normal.2.2, ← e, sub_self, lengthSq_eq_zero.2 rfl]
  exact sub_eq_zero.1 (lengthSq_eq_zero.1 hz)

theorem lengthSq_worldVec (h : Similarity t s) (v : V2 K) : lengthSq (worldVec s t v) = s ^ 2 * lengthSq v := by
  rw [worldVec, ← h.lengthSq_applyNormal v]; simp only [lengthSq_def, scale_x, scale_y]; ring

theorem worldVec_surj (h : Similarity t s) (hs : 0 < s) (w : V2 K) :
    worldVec s t (unapplyNormal t (V2.scale s⁻¹ w)) = w := by
  rw [worldVec, h.normal.2.1]
  ext <;> simp [hs.ne']

theorem worldVec_eq_zero (h : Similarity t s) (hs : 0 < s) (v : V2 K) : worldVec s t v = 0 ↔ v = 0 := by
  rw [← lengthSq_eq_zero, lengthSq_worldVec h, ← lengthSq_eq_zero (a := v)]
  simp [hs.ne']

theorem image_worldVec (h : Similarity t s) (w : V2 K) (A : Set (V2 K)) :
    shift (worldVec s t w) (image t A) = image t (shift w A) := by
  have key : ∀ a, apply t a + worldVec s t w = apply t (a + w) := by
    intro a
    rw [h.apply_eq, h.apply_eq, applyNormal_add_sim h, worldVec]; ext <;> simp <;> ring
  ext p
  constructor
  · rintro ⟨x, ⟨a, ha, rfl⟩, rfl⟩
    exact ⟨a + w, ⟨a, ha, rfl⟩, key a⟩
  · rintro ⟨x, ⟨a, ha, rfl⟩, rfl⟩
    exact ⟨apply t a, ⟨a, ha, rfl⟩, (key a).symm⟩

theorem touch_sim (h : Similarity t s) (hs : 0 < s) (A B : Set (V2 K)) :
    Touch (image t A) (image t B) ↔ Touch A B := by
  constructor
  · rintro ⟨p, ⟨a, ha, rfl⟩, ⟨b, hb, e⟩⟩
    have h1 := h.dist a b
    rw [e, sub_self, lengthSq_eq_zero.2 rfl] at h1
    have h2 : lengthSq (a - b) = 0 := by
      rcases mul_eq_zero.1 h1.symm with h3 | h3
      · exact absurd h3 (by positivity)
      · exact h3
    have : a = b := sub_eq_zero.1 (lengthSq_eq_zero.1 h2)
    exact ⟨a, ha, this ▸ hb⟩
  · rintro ⟨p, ha, hb⟩; exact ⟨apply t p, ⟨p, ha, rfl⟩, ⟨p, hb, rfl⟩⟩

theorem separable_sim (h : Similarity t s) (hs : 0 < s) (A B : Set (V2 K)) :
    Separable (image t A) (image t B) ↔ Separable A B := by
  constructor
  · rintro ⟨n, hn, hsep⟩
    refine ⟨unapplyNormal t n, ?_, ?_⟩
    · intro h0
      have := h.lengthSq_unapplyNormal n
      rw [h0, lengthSq_eq_zero.2 rfl] at this
      exact hn (lengthSq_eq_zero.1 this.symm)
    · intro a ha b hb
      have := hsep _ ⟨a, ha, rfl⟩ _ ⟨b, hb, rfl⟩
      rw [h.dot_apply, h.dot_apply] at this
      exact le_of_mul_le_mul_left (by linarith) hs
  · rintro ⟨n, hn, hsep⟩
    refine ⟨applyNormal t n, ?_, ?_⟩
    · intro h0
      have := h.lengthSq_applyNormal n
      rw [h0, lengthSq_eq_zero.2 rfl] at this
      exact hn (lengthSq_eq_zero.1 this.symm)
    · rintro x ⟨a, ha, rfl⟩ y ⟨b, hb, rfl⟩
      rw [h.dot_apply, h.dot_apply, h.normal.1]
      have := mul_le_mul_of_nonneg_left (hsep a ha b hb) hs.le
      linarith

theorem touch_shift_sim (h : Similarity t s) (hs : 0 < s) (v : V2 K) (A B : Set (V2 K)) :
    Touch (shift (worldVec s t v) (image t A)) (image t B) ↔ Touch (shift v A) B := by
  rw [image_worldVec h, touch_sim h hs]

theorem separable_shift_sim (h : Similarity t s) (hs : 0 < s) (v : V2 K) (A B : Set (V2 K)) :
    Separable (shift (worldVec s t v) (image t A)) (image t B) ↔ Separable (shift v A) B := by
  rw [image_worldVec h, separable_sim h hs]

theorem overlapBy_sim (h : Similarity t s) (hs : 0 < s) {δ : K} {A B : Set (V2 K)}
    (hO : OverlapBy δ (image t A) (image t B)) : OverlapBy (δ / s) A B := by
  intro v hv
  rw [← touch_shift_sim h hs]
  apply hO
  rw [lengthSq_worldVec h]
  rw [div_pow, le_div_iff₀ (by positivity)] at hv
  linarith

theorem overlap_sim (h : Similarity t s) (hs : 0 < s) {A B : Set (V2 K)}
    (hO : Overlap (image t A) (image t B)) : Overlap A B := by
  obtain ⟨r, hr, hO⟩ := hO
  exact ⟨r / s, div_pos hr hs, overlapBy_sim h hs hO⟩

theorem withinReach_sim [ExactSqrt K] (h : Similarity t s) (hs : 0 < s) {R : K} {A B : Set (V2 K)}
    (hR : WithinReach R (image t A) (image t B)) : WithinReach (R / s) A B := by
  intro p hp q hq
  have h1 := hR _ ⟨p, hp, rfl⟩ _ ⟨q, hq, rfl⟩
  have h0 := (V2.length_nonneg _).trans h1
  rw [le_div_iff₀ hs]
  apply le_of_sq_le_sq _ h0
  have h2 := pow_le_pow_left₀ (V2.length_nonneg _) h1 2
  rw [V2.length_sq, h.dist] at h2
  rw [mul_pow, V2.length_sq]
  linarith

theorem minimalPush_sim (h : Similarity t s) (hs : 0 < s) (v : V2 K) (A B : Set (V2 K)) :
    MinimalPush (worldVec s t v) (image t A) (image t B) ↔ MinimalPush v A B := by
  have h2 : (0 : K) < s ^ 2 := by positivity
  constructor
  · rintro ⟨h3, h4⟩
    refine ⟨(separable_shift_sim h hs v A B).1 h3, fun w hw => ?_⟩
    have := h4 _ ((separable_shift_sim h hs w A B).2 hw)
    rw [lengthSq_worldVec h, lengthSq_worldVec h] at this
    exact le_of_mul_le_mul_left (by linarith) h2
  · rintro ⟨h3, h4⟩
    refine ⟨(separable_shift_sim h hs v A B).2 h3, fun w hw => ?_⟩
    rw [← worldVec_surj h hs w] at hw ⊢
    have := mul_le_mul_of_nonneg_left (h4 _ ((separable_shift_sim h hs _ A B).1 hw)) h2.le
    rw [lengthSq_worldVec h, lengthSq_worldVec h]
    linarith

end

/-! ## two placed colliders -/

/-- a convex shape with exact extreme points -/
structure ConvexShape {A : Type} [Region A K] [ExtremePoint2d A K] (a : A) : Prop where
  convex : Convex K (Region.pts a)
  support : ExactSupport (K := K) a

theorem convexShape_box (b : Box2d K) (h : 0 ≤ b.halfsize.x ∧ 0 ≤ b.halfsize.y) : ConvexShape (K := K) b :=
  ⟨convex_box b.halfsize, fun d => C08_extreme_point_box b h d⟩
theorem convexShape_poly (p : Poly2d K) (h : (0 : V2 K) ∈ Region.pts p) : ConvexShape (K := K) p :=
  ⟨convex_poly p, fun d => (C08_extreme_point_poly p h d).1⟩
theorem convexShape_ball [ExactSqrt K] (b : Ball K) (h : 0 ≤ b.radius) : ConvexShape (K := K) b :=
  ⟨convex_ball b, fun d => C08_extreme_point_ball b h d⟩
theorem convexShape_shape2d [ExactSqrt K] (c : Shape2d K) (h : c.Valid) : ConvexShape (K := K) c :=
  ⟨convex_shape2d c, fun d => C08_extreme_point_shape2d c h d⟩

variable {A B T : Type} [Region A K] [Region B K] [ExtremePoint2d A K] [ExtremePoint2d B K] [Transformation2d T K]
  [Invertible T] [Composable T]

/-- two colliders with convex shapes: the first is placed by a similarity of ratio `s`, and the relative transformation
is a similarity that puts the second where it is -/
structure WorldPair (a : Collider2d A T) (b : Collider2d B T) (s : K) : Prop where
  pos : 0 < s
  self : Similarity a.transform s
  delta : DeltaLaw (K := K) a.transform b.transform
  sim : ∃ r : K, 0 ≤ r ∧ Similarity (deltaTransform a.transform b.transform) r
  shapeA : ConvexShape (K := K) a.shape
  shapeB : ConvexShape (K := K) b.shape

/-- colliders placed by `Vec2` -/
theorem worldPair_vec2 (a : Collider2d A (V2 K)) (b : Collider2d B (V2 K)) (ha : ConvexShape (K := K) a.shape)
    (hb : ConvexShape (K := K) b.shape) : WorldPair a b 1 :=
  ⟨one_pos, similarity_vec2 _, C04_delta_vec2 _ _, ⟨1, zero_le_one, similarity_vec2 _⟩, ha, hb⟩

/-- colliders placed by `Translate2d` -/
theorem worldPair_translate2d (a : Collider2d A (Translate2d K)) (b : Collider2d B (Translate2d K))
    (ha : ConvexShape (K := K) a.shape) (hb : ConvexShape (K := K) b.shape) : WorldPair a b 1 :=
  ⟨one_pos, similarity_translate2d _, C04_delta_translate2d _ _, ⟨1, zero_le_one, similarity_translate2d _⟩, ha, hb⟩

theorem delta_unit {a b : Transform2d K} (ha : a.rot.IsUnit) (hb : b.rot.IsUnit) :
    (deltaTransform a b).rot.IsUnit := by
  unfold Rotor2d.IsUnit at *
  simp only [deltaTransform, compose, inverse, Rotor2d.mulR, Rotor2d.inverse]
  linear_combination (b.rot.a.x ^ 2 + b.rot.a.y ^ 2) * ha + hb

theorem delta_scale {a b : Transform2d K} {s r : K} (ha : a.scale = ⟨s, s⟩) (hb : b.scale = ⟨r, r⟩) :
    (deltaTransform a b).scale = ⟨r / s, r / s⟩ := by
  simp only [deltaTransform, compose, inverse, ha, hb]; ext <;> simp [div_eq_inv_mul]

/-- colliders placed by `Transform2d`: any rotations and positions, uniform scales -/
theorem worldPair_transform2d (a : Collider2d A (Transform2d K)) (b : Collider2d B (Transform2d K)) {s r : K}
    (ha : ConvexShape (K := K) a.shape) (hb : ConvexShape (K := K) b.shape)
    (har : a.transform.rot.IsUnit) (hbr : b.transform.rot.IsUnit) (hs : 0 < s) (has : a.transform.scale = ⟨s, s⟩)
    (hr : 0 ≤ r) (hbs : b.transform.scale = ⟨r, r⟩) : WorldPair a b s :=
  ⟨hs, similarity_transform2d _ s har has,
    C04_delta_transform2d_uniform _ _ har (by rw [has]; exact hs.ne') (by rw [has]),
    ⟨r / s, div_nonneg hr hs.le, similarity_transform2d _ _ (delta_unit har hbr) (delta_scale has hbs)⟩, ha, hb⟩

namespace WorldPair
variable {a : Collider2d A T} {b : Collider2d B T} {s : K}

theorem pair (h : WorldPair a b s) :
    ConvexPair (K := K) a.shape b.shape (deltaTransform a.transform b.transform) :=
  ⟨h.shapeA.convex, h.shapeB.convex, h.shapeA.support, h.shapeB.support, h.sim⟩

theorem region (h : WorldPair a b s) :
    b.region = image a.transform (placed (deltaTransform a.transform b.transform) b.shape) := by
  ext p
  constructor
  · rintro ⟨q, hq, rfl⟩; exact ⟨_, ⟨q, hq, rfl⟩, (h.delta q).symm⟩
  · rintro ⟨x, ⟨q, hq, rfl⟩, rfl⟩; exact ⟨q, hq, h.delta q⟩

end WorldPair

variable [DefaultMinkowski A B] {a : Collider2d A T} {b : Collider2d B T} {s : K}

/-- `collides`: it always answers.  A negative answer means that a line separates the two regions, or the
search met 20 different extreme points (its limit); a positive one means that they come within the tolerance (in the
units of the first collider's scale) of each other. -/
theorem C94_collides (h : WorldPair a b s) :
    ∃ c, collides a b = .ok c ∧
      (c = false → Separable a.region b.region ∨
        ManyExtremePoints (K := K) a.shape b.shape (deltaTransform a.transform b.transform) 20) ∧
      (c = true → ∃ p ∈ a.region, ∃ q ∈ b.region, lengthSq (p - q) ^ 3 < (s ^ 3 / 2 ^ 23) ^ 2) := by
  obtain ⟨c, hc⟩ := (C33_rel_no_panic a.shape b.shape (deltaTransform a.transform b.transform)).1
  refine ⟨c, hc, ?_, ?_⟩
  · rintro rfl
    refine (C35_collides_false h.pair hc).imp_left fun h1 => ?_
    rw [h.region]; exact (separable_sim h.self h.pos _ _).2 h1
  · rintro rfl
    obtain ⟨p, hp, q, hq, h1⟩ := C37_collides_true h.pair hc
    refine ⟨_, ⟨p, hp, rfl⟩, apply a.transform q, by rw [h.region]; exact ⟨q, hq, rfl⟩, ?_⟩
    rw [h.self.dist]
    have hs : (0 : K) < s ^ 6 := pow_pos h.pos 6
    calc (s ^ 2 * lengthSq (p - q)) ^ 3 = s ^ 6 * lengthSq (p - q) ^ 3 := by ring
      _ < s ^ 6 * (1 / 2 ^ 23) ^ 2 := mul_lt_mul_of_pos_left h1 hs
      _ = _ := by ring

/-- Colliders that overlap by `δ` and have no two points more than `2^15 δ` apart are always found by `collides`; if
the overlap is deep enough for the tolerances, all four queries report it, and the push (turned and scaled into the world
for `penetrates`, only scaled for `sdfv`) is minimal up to 1 %, unless it is zero. -/
theorem C94_found [ExactSqrt K] (h : WorldPair a b s) {δ R : K} (hδ : 0 < δ) (hO : OverlapBy δ a.region b.region)
    (hR : WithinReach R a.region b.region) (hflat : R ≤ 2 ^ 15 * δ) :
    collides a b = .ok true ∧ (1 / 2 ^ 23 * R * s ^ 3 ≤ δ ^ 4 →
      (∃ v, penetrates a b = .ok (some v) ∧ (MinimalPush (worldVec s a.transform v) a.region b.region ↔ v ≠ 0)) ∧
      distanceTo a b = .ok none ∧
      ∃ v, sdfv a b = .ok (true, v) ∧ (MinimalPush (V2.scale s v) a.region b.region ↔ v ≠ 0)) := by
  have hs := h.pos
  rw [h.region] at hO hR ⊢
  have hO' := overlapBy_sim h.self hs hO
  have hR' := withinReach_sim h.self hs hR
  have hδ' : 0 < δ / s := div_pos hδ hs
  have hflat' : R / s ≤ 2 ^ 15 * (δ / s) := by
    rw [← mul_div_assoc]; exact div_le_div_of_nonneg_right hflat hs.le
  refine ⟨C92_collides h.pair hδ' hO' hR' hflat', fun hε => ?_⟩
  have hε' : 1 / 2 ^ 23 * (R / s) ≤ (δ / s) ^ 4 := by
    rw [div_pow, le_div_iff₀ (by positivity)]
    calc 1 / 2 ^ 23 * (R / s) * s ^ 4 = 1 / 2 ^ 23 * R * s ^ 3 := by field_simp
      _ ≤ _ := hε
  obtain ⟨⟨v, hv, hv'⟩, ⟨w, hw, hw'⟩⟩ := C93_push h.pair hδ' hO' hR' hflat' hε'
  refine ⟨⟨v, hv, ?_⟩, (C92_all_queries h.pair hδ' hO' hR' hflat' hε').2.2.1, ⟨applyNormal a.transform w, ?_, ?_⟩⟩
  · rw [← hv']; exact minimalPush_sim h.self hs v _ _
  · unfold sdfv; rw [hw]; rfl
  · have e : applyNormal a.transform w ≠ 0 ↔ w ≠ 0 := by
      rw [not_iff_not, ← lengthSq_eq_zero, h.self.lengthSq_applyNormal, lengthSq_eq_zero]
    rw [e, ← hw']; exact minimalPush_sim h.self hs w _ _

/-- Whenever `penetrates` or `sdfv` report a collision with a vector that is not zero, moving the first collider by it
(turned and scaled into the world for `penetrates`, scaled for `sdfv`) separates the colliders. -/
theorem C94_push (h : WorldPair a b s) (v : V2 K) (hv : v ≠ 0) :
    (penetrates a b = .ok (some v) → Separable (shift (worldVec s a.transform v) a.region) b.region) ∧
    (sdfv a b = .ok (true, v) → Separable (shift (V2.scale s v) a.region) b.region) := by
  rw [h.region]
  constructor
  · intro hp
    exact (separable_shift_sim h.self h.pos v _ _).2 (C40_penetrates_separates h.pair v hp hv)
  · intro hp
    unfold sdfv at hp
    cases hr : sdfvRel a.shape b.shape (deltaTransform a.transform b.transform) with
    | error e => rw [hr] at hp; cases hp
    | ok r =>
      rw [hr] at hp
      simp only [Except.map, Except.ok.injEq, Prod.mk.injEq] at hp
      obtain ⟨h1, h2⟩ := hp
      have hw : r.2 ≠ 0 := by
        intro h0
        apply hv
        rw [← h2, h0, ← lengthSq_eq_zero, h.self.lengthSq_applyNormal, lengthSq_eq_zero]
      rw [← h2]
      exact (separable_shift_sim h.self h.pos r.2 _ _).2 (C40_sdfv_separates h.pair r.2 (by rw [hr, ← h1]) hw)

/-- The vectors of `distance_to` and of `sdfv` (no collision) bring the colliders into contact. -/
theorem C94_contact (h : WorldPair a b s) (v : V2 K) :
    (distanceTo a b = .ok (some v) → Touch (shift (worldVec s a.transform v) a.region) b.region) ∧
    (sdfv a b = .ok (false, v) → Touch (shift (V2.scale s v) a.region) b.region) := by
  rw [h.region]
  constructor
  · intro hp
    exact (touch_shift_sim h.self h.pos v _ _).2 (C43_distance_to_contact h.pair v hp)
  · intro hp
    unfold sdfv at hp
    cases hr : sdfvRel a.shape b.shape (deltaTransform a.transform b.transform) with
    | error e => rw [hr] at hp; cases hp
    | ok r =>
      rw [hr] at hp
      simp only [Except.map, Except.ok.injEq, Prod.mk.injEq] at hp
      obtain ⟨h1, h2⟩ := hp
      rw [← h2]
      exact (touch_shift_sim h.self h.pos r.2 _ _).2 (C43_sdfv_contact h.pair r.2 (by rw [hr, ← h1]))

end

/-! ## two boxes -/

section
variable {K : Type} [Field K] [LinearOrder K] [IsStrictOrderedRing K] [FloatExtra K] [ExactFloat K]

/-- Two box colliders anywhere, with any rotations and uniform scales: `collides` is right up to the tolerance, and the
iteration limit never matters. -/
theorem C94_boxes_collides (a b : Collider2d (Box2d K) (Transform2d K)) {s r : K}
    (ha : 0 ≤ a.shape.halfsize.x ∧ 0 ≤ a.shape.halfsize.y) (hb : 0 ≤ b.shape.halfsize.x ∧ 0 ≤ b.shape.halfsize.y)
    (har : a.transform.rot.IsUnit) (hbr : b.transform.rot.IsUnit) (hs : 0 < s) (has : a.transform.scale = ⟨s, s⟩)
    (hr : 0 ≤ r) (hbs : b.transform.scale = ⟨r, r⟩) :
    ∃ c, collides a b = .ok c ∧ (Overlap a.region b.region → c = true) ∧ (c = false → Separable a.region b.region) := by
  have h := worldPair_transform2d a b (convexShape_box _ ha) (convexShape_box _ hb) har hbr hs has hr hbs
  obtain ⟨c, hc, h1, h2, -⟩ := C38_box_box_collides a.shape b.shape (deltaTransform a.transform b.transform) ha hb h.sim
  refine ⟨c, hc, fun ho => ?_, fun h0 => ?_⟩
  · rw [h.region] at ho; exact h1 (overlap_sim h.self hs ho)
  · rw [h.region]; exact (separable_sim h.self hs _ _).2 (h2 h0)

/-- Two box colliders with positive sizes that share no point: the vectors of `distance_to` (turned and scaled into the
world) and of `sdfv` (scaled) bring them into contact, and no displacement that does so is shorter (up to 1 % for
`sdfv`). -/
theorem C94_boxes_distance (a b : Collider2d (Box2d K) (Transform2d K)) {s r : K}
    (ha : 0 < a.shape.halfsize.x ∧ 0 < a.shape.halfsize.y) (hb : 0 < b.shape.halfsize.x ∧ 0 < b.shape.halfsize.y)
    (har : a.transform.rot.IsUnit) (hbr : b.transform.rot.IsUnit) (hs : 0 < s) (has : a.transform.scale = ⟨s, s⟩)
    (hr : 0 < r) (hbs : b.transform.scale = ⟨r, r⟩)
    (ho : s ^ 2 / 2 ^ 23 ≤ lengthSq (b.transform.pos - a.transform.pos))
    (hres : Resolvable (K := K) a.shape b.shape (deltaTransform a.transform b.transform))
    (hn : ¬ Touch a.region b.region) :
    (∃ v, distanceTo a b = .ok (some v) ∧ Touch (shift (worldVec s a.transform v) a.region) b.region ∧
      ∀ w, Touch (shift w a.region) b.region → lengthSq (worldVec s a.transform v) ≤ lengthSq w) ∧
    ∃ v, sdfv a b = .ok (false, v) ∧ Touch (shift (V2.scale s v) a.region) b.region ∧
      ∀ w, Touch (shift w a.region) b.region → (99 / 100) ^ 2 * lengthSq (V2.scale s v) ≤ lengthSq w := by
  have h := worldPair_transform2d a b (convexShape_box _ ⟨ha.1.le, ha.2.le⟩) (convexShape_box _ ⟨hb.1.le, hb.2.le⟩)
    har hbr hs has hr.le hbs
  rw [h.region] at hn ⊢
  have hn' := fun h' => hn ((touch_sim h.self hs _ _).2 h')
  have hu := delta_unit har hbr
  have hsc := delta_scale has hbs
  have hf : 0 < r / s := div_pos hr hs
  have h2 : (0 : K) < s ^ 2 := by positivity
  have hpos : 1 / 2 ^ 23 ≤ lengthSq (deltaTransform a.transform b.transform).pos := by
    have e : apply a.transform (deltaTransform a.transform b.transform).pos = b.transform.pos := by
      have h3 := h.delta 0
      rw [← (similarity_transform2d _ _ hu hsc).origin] at h3
      have h4 : apply b.transform (0 : V2 K) = b.transform.pos := by ext <;> simp [apply, Rotor2d.rotate]
      rw [h4] at h3; exact h3
    have e0 : apply a.transform (0 : V2 K) = a.transform.pos := by ext <;> simp [apply, Rotor2d.rotate]
    have h5 := h.self.dist (deltaTransform a.transform b.transform).pos 0
    rw [e, e0, sub_zero] at h5
    rw [h5] at ho
    rw [div_le_iff₀ (by positivity)] at ho ⊢
    exact le_of_mul_le_mul_left (by linarith) h2
  constructor
  · obtain ⟨v, hv, hv1, hv2⟩ := C44_box_box_shortest a.shape b.shape _ ha hb hu hf hsc hpos hres hn'
    refine ⟨v, hv, (touch_shift_sim h.self hs v _ _).2 hv1, fun w hw => ?_⟩
    rw [← worldVec_surj h.self hs w] at hw ⊢
    have := hv2 _ ((touch_shift_sim h.self hs _ _ _).1 hw)
    rw [lengthSq_worldVec h.self, lengthSq_worldVec h.self]
    exact mul_le_mul_of_nonneg_left this h2.le
  · obtain ⟨v, hv, hv1, hv2⟩ := C44_box_box_sdfv a.shape b.shape _ ha hb hu hf hsc hpos hres hn'
    refine ⟨applyNormal a.transform v, ?_, (touch_shift_sim h.self hs v _ _).2 hv1, fun w hw => ?_⟩
    · unfold sdfv; rw [hv]; rfl
    · rw [← worldVec_surj h.self hs w] at hw ⊢
      have := hv2 _ ((touch_shift_sim h.self hs _ _ _).1 hw)
      have e : V2.scale s (applyNormal a.transform v) = worldVec s a.transform v := rfl
      rw [e, lengthSq_worldVec h.self, lengthSq_worldVec h.self]
      have h6 := mul_le_mul_of_nonneg_left this h2.le
      linarith

end

/-! ## findings -/

section
attribute [local instance] ratFloat ratFloat_exact

theorem overlap_of_inside {X Y : Set (V2 ℚ)} (c : V2 ℚ) (r : ℚ) (hr : 0 < r) (hc : c ∈ Y)
    (h : ∀ v : V2 ℚ, |v.x| ≤ r → |v.y| ≤ r → c - v ∈ X) : Overlap X Y := by
  refine ⟨r, hr, fun v hv => ⟨c, ⟨c - v, ?_, by abel⟩, hc⟩⟩
  rw [lengthSq_def] at hv
  refine h v (abs_le_of_sq_le_sq ?_ hr.le) (abs_le_of_sq_le_sq ?_ hr.le)
  · nlinarith [mul_self_nonneg v.y]
  · nlinarith [mul_self_nonneg v.x]

/-- Finding: if the first collider is scaled, the vectors are in its scaled units.  A unit box scaled by two and a unit
box at `(5/2, 1/4)`: `penetrates` and `sdfv` return `(-1/4, 0)`, half of what is needed: after moving the first by
it the two still overlap. -/
theorem C94_self_scale_finding :
    let a : Collider2d (Box2d ℚ) (Transform2d ℚ) := ⟨⟨⟨1, 1⟩⟩, ⟨0, ⟨⟨1, 0⟩⟩, ⟨2, 2⟩⟩⟩
    let b : Collider2d (Box2d ℚ) (Transform2d ℚ) := ⟨⟨⟨1, 1⟩⟩, ⟨⟨5 / 2, 1 / 4⟩, ⟨⟨1, 0⟩⟩, ⟨1, 1⟩⟩⟩
    penetrates a b = .ok (some ⟨-1 / 4, 0⟩) ∧ sdfv a b = .ok (true, ⟨-1 / 4, 0⟩) ∧
      Overlap (shift ⟨-1 / 4, 0⟩ a.region) b.region := by
  intro a b
  refine ⟨by decide +kernel, by decide +kernel, ?_⟩
  refine overlap_of_inside ⟨8 / 5, 0⟩ (1 / 10) (by norm_num) ⟨⟨-9 / 10, -1 / 4⟩, ?_, ?_⟩ fun v hx hy => ?_
  · show |(-9 / 10 : ℚ)| ≤ 1 ∧ |(-1 / 4 : ℚ)| ≤ 1
    constructor <;> rw [abs_le] <;> constructor <;> norm_num
  · ext <;> simp [apply, Rotor2d.rotate, b] <;> norm_num
  · rw [abs_le] at hx hy
    refine ⟨⟨8 / 5 - v.x + 1 / 4, -v.y⟩, ⟨⟨(8 / 5 - v.x + 1 / 4) / 2, -v.y / 2⟩, ?_, ?_⟩, ?_⟩
    · show |(8 / 5 - v.x + 1 / 4) / 2| ≤ (1 : ℚ) ∧ |-v.y / 2| ≤ (1 : ℚ)
      constructor <;> rw [abs_le] <;> constructor <;> linarith [hx.1, hx.2, hy.1, hy.2]
    · ext <;> simp [apply, Rotor2d.rotate, a] <;> ring
    · ext <;> simp <;> ring

/-- Finding: `penetrates` answers in the frame of the first collider.  A box with half sizes `(2, 1)` turned by 90
degrees and a unit box at `(3/2, 1/4)`: `sdfv` returns the world push `(-1/2, 0)`, `penetrates` returns `(0, 1/2)`, and
after moving the first collider by that the two still overlap. -/
theorem C94_frame_finding :
    let a : Collider2d (Box2d ℚ) (Transform2d ℚ) := ⟨⟨⟨2, 1⟩⟩, ⟨0, ⟨⟨0, 1⟩⟩, ⟨1, 1⟩⟩⟩
    let b : Collider2d (Box2d ℚ) (Transform2d ℚ) := ⟨⟨⟨1, 1⟩⟩, ⟨⟨3 / 2, 1 / 4⟩, ⟨⟨1, 0⟩⟩, ⟨1, 1⟩⟩⟩
    penetrates a b = .ok (some ⟨0, 1 / 2⟩) ∧ sdfv a b = .ok (true, ⟨-1 / 2, 0⟩) ∧
      Overlap (shift ⟨0, 1 / 2⟩ a.region) b.region := by
  intro a b
  refine ⟨by decide +kernel, by decide +kernel, ?_⟩
  refine overlap_of_inside ⟨3 / 4, 1 / 2⟩ (1 / 8) (by norm_num) ⟨⟨-3 / 4, 1 / 4⟩, ?_, ?_⟩ fun v hx hy => ?_
  · show |(-3 / 4 : ℚ)| ≤ 1 ∧ |(1 / 4 : ℚ)| ≤ 1
    constructor <;> rw [abs_le] <;> constructor <;> norm_num
  · ext <;> simp [apply, Rotor2d.rotate, b] <;> norm_num
  · rw [abs_le] at hx hy
    refine ⟨⟨3 / 4 - v.x, -v.y⟩, ⟨⟨-v.y, -(3 / 4 - v.x)⟩, ?_, ?_⟩, ?_⟩
    · show |-v.y| ≤ (2 : ℚ) ∧ |-(3 / 4 - v.x)| ≤ (1 : ℚ)
      constructor <;> rw [abs_le] <;> constructor <;> linarith [hx.1, hx.2, hy.1, hy.2]
    · ext <;> simp [apply, Rotor2d.rotate, a]
    · ext <;> simp <;> ring

/-- the hypotheses are met: two boxes, one of them turned and scaled, that overlap by `1/2` -/
example : let _ := realFloat true 0
    let a : Collider2d (Box2d ℝ) (Transform2d ℝ) := ⟨⟨⟨2, 1⟩⟩, ⟨⟨5, 7⟩, ⟨⟨3 / 5, 4 / 5⟩⟩, ⟨2, 2⟩⟩⟩
    let b : Collider2d (Box2d ℝ) (Transform2d ℝ) := ⟨⟨⟨1, 1⟩⟩, ⟨⟨5, 7⟩, ⟨⟨0, 1⟩⟩, ⟨1, 1⟩⟩⟩
    WorldPair a b (2 : ℝ) ∧ OverlapBy (1 / 2) a.region b.region ∧ WithinReach 16 a.region b.region ∧
      (16 : ℝ) ≤ 2 ^ 15 * (1 / 2) ∧ (1 / 2 ^ 23 * 16 * 2 ^ 3 : ℝ) ≤ (1 / 2) ^ 4 := by
  intro _ a b
  have := realFloat_exact true 0
  have := realFloat_sqrt true 0
  refine ⟨worldPair_transform2d a b (convexShape_box _ ⟨by norm_num [a], by norm_num [a]⟩)
    (convexShape_box _ ⟨by norm_num [b], by norm_num [b]⟩) (by norm_num [a, Rotor2d.IsUnit])
    (by norm_num [b, Rotor2d.IsUnit]) (by norm_num) rfl zero_le_one rfl, ?_, ?_, by norm_num, by norm_num⟩
  · intro v hv
    rw [lengthSq_def] at hv
    have hx : |v.x| ≤ 1 / 2 := abs_le_of_sq_le_sq (by nlinarith [mul_self_nonneg v.y]) (by norm_num)
    have hy : |v.y| ≤ 1 / 2 := abs_le_of_sq_le_sq (by nlinarith [mul_self_nonneg v.x]) (by norm_num)
    rw [abs_le] at hx hy
    refine ⟨⟨5, 7⟩ + v, ⟨⟨5, 7⟩, ⟨0, ?_, ?_⟩, rfl⟩, ⟨⟨v.y, -v.x⟩, ?_, ?_⟩⟩
    · show |(0 : ℝ)| ≤ 2 ∧ |(0 : ℝ)| ≤ 1
      norm_num
    · ext <;> simp [apply, Rotor2d.rotate, a]
    · show |v.y| ≤ 1 ∧ |-v.x| ≤ 1
      constructor <;> rw [abs_le] <;> constructor <;> linarith [hx.1, hx.2, hy.1, hy.2]
    · ext <;> simp [apply, Rotor2d.rotate, b] <;> ring
  · rintro _ ⟨p, ⟨hp1, hp2⟩, rfl⟩ _ ⟨q, ⟨hq1, hq2⟩, rfl⟩
    apply le_of_sq_le_sq _ (by norm_num)
    rw [V2.length_sq, lengthSq_def]
    simp only [apply, Rotor2d.rotate, sub_x, sub_y, add_x, add_y, mulV_x, mulV_y, a, b] at hp1 hp2 hq1 hq2 ⊢
    rw [abs_le] at hp1 hp2 hq1 hq2
    have k1 := abs_le.2 (show -6 ≤ (3 / 5 * (2 * p.x) - 4 / 5 * (2 * p.y) + 5 - (0 * (1 * q.x) - 1 * (1 * q.y) + 5)) ∧ _ ≤ 6 from
      ⟨by linarith [hp1.1, hp1.2, hp2.1, hp2.2, hq1.1, hq1.2, hq2.1, hq2.2], by linarith [hp1.1, hp1.2, hp2.1, hp2.2, hq1.1, hq1.2, hq2.1, hq2.2]⟩)
    have k2 := abs_le.2 (show -6 ≤ (3 / 5 * (2 * p.y) + 4 / 5 * (2 * p.x) + 7 - (0 * (1 * q.y) + 1 * (1 * q.x) + 7)) ∧ _ ≤ 6 from
      ⟨by linarith [hp1.1, hp1.2, hp2.1, hp2.2, hq1.1, hq1.2, hq2.1, hq2.2], by linarith [hp1.1, hp1.2, hp2.1, hp2.2, hq1.1, hq1.2, hq2.1, hq2.2]⟩)
    have k3 := sq_le_sq' (abs_le.1 k1).1 (abs_le.1 k1).2
    have k4 := sq_le_sq' (abs_le.1 k2).1 (abs_le.1 k2).2
    nlinarith [k3, k4]

end

end Auburn
