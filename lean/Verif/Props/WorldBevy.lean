import Verif.Props.World
import Verif.Props.Bevy2d

/-!
# C94 for colliders placed by bevy transforms
-/

set_option linter.unusedSectionVars false

namespace Auburn

open V2 Transformation2d Auburn.Invertible Composable

section
variable {K : Type} [Field K] [LinearOrder K] [IsStrictOrderedRing K] [FloatExtra K] [ExactFloat K] [ExactSqrt K]
variable {A B : Type} [ExtremePoint2d A K] [ExtremePoint2d B K] [Region A K] [Region B K] [DefaultMinkowski A B]

/-- colliders placed by bevy transforms that turn about the z axis, with uniform scales in the plane (the z translations and
z scales are arbitrary) -/
theorem worldPair_bevy (a : Collider2d A (BevyTransform K)) (b : Collider2d B (BevyTransform K)) {s r : K}
    (ha : ConvexShape (K := K) a.shape) (hb : ConvexShape (K := K) b.shape)
    (haz : a.transform.AboutZ) (hbz : b.transform.AboutZ) (hs : 0 < s)
    (has : a.transform.scale.x = s ∧ a.transform.scale.y = s) (hr : 0 ≤ r)
    (hbs : b.transform.scale.x = r ∧ b.transform.scale.y = r) : WorldPair a b s := by
  have e : ∀ {t : BevyTransform K} {q : K}, t.scale.x = q ∧ t.scale.y = q → (Transform2d.ofBevy t).scale = ⟨q, q⟩ := by
    intro t q h
    simp [Transform2d.ofBevy, h.1, h.2]
  refine ⟨hs, C85_bevy_similarity _ haz s has.1 has.2, ?_, ⟨r / s, div_nonneg hr hs.le, ?_⟩, ha, hb⟩
  · rw [(C85_bevy_laws _ _ haz hbz).2.2.1]
    exact C04_delta_transform2d_uniform _ _ (aboutZ_unit haz) (by rw [e has]; exact hs.ne') (by rw [e has])
  · have hd := delta_scale (e has) (e hbs)
    rw [← C85_bevy_delta _ _ haz hbz] at hd
    exact C85_bevy_similarity _ (aboutZ_delta haz hbz) _ (congrArg V2.x hd) (congrArg V2.y hd)

/-- What the queries mean in the world for such colliders: `collides` answers, and what it answers; what the push and the
distance vector do; and overlaps deep enough are found. -/
theorem C94_bevy (a : Collider2d A (BevyTransform K)) (b : Collider2d B (BevyTransform K)) {s r : K}
    (ha : ConvexShape (K := K) a.shape) (hb : ConvexShape (K := K) b.shape)
    (haz : a.transform.AboutZ) (hbz : b.transform.AboutZ) (hs : 0 < s)
    (has : a.transform.scale.x = s ∧ a.transform.scale.y = s) (hr : 0 ≤ r)
    (hbs : b.transform.scale.x = r ∧ b.transform.scale.y = r) :
    (∃ c, collides a b = .ok c ∧
      (c = false → Separable a.region b.region ∨
        ManyExtremePoints (K := K) a.shape b.shape (deltaTransform a.transform b.transform) 20) ∧
      (c = true → ∃ p ∈ a.region, ∃ q ∈ b.region, lengthSq (p - q) ^ 3 < (s ^ 3 / 2 ^ 23) ^ 2)) ∧
    (∀ v, v ≠ 0 →
      (penetrates a b = .ok (some v) → Separable (shift (worldVec s a.transform v) a.region) b.region) ∧
      (sdfv a b = .ok (true, v) → Separable (shift (V2.scale s v) a.region) b.region)) ∧
    (∀ v, (distanceTo a b = .ok (some v) → Touch (shift (worldVec s a.transform v) a.region) b.region) ∧
      (sdfv a b = .ok (false, v) → Touch (shift (V2.scale s v) a.region) b.region)) ∧
    ∀ δ R : K, 0 < δ → OverlapBy δ a.region b.region → WithinReach R a.region b.region → R ≤ 2 ^ 15 * δ →
      collides a b = .ok true ∧ (1 / 2 ^ 23 * R * s ^ 3 ≤ δ ^ 4 →
        (∃ v, penetrates a b = .ok (some v) ∧ (MinimalPush (worldVec s a.transform v) a.region b.region ↔ v ≠ 0)) ∧
        distanceTo a b = .ok none ∧
        ∃ v, sdfv a b = .ok (true, v) ∧ (MinimalPush (V2.scale s v) a.region b.region ↔ v ≠ 0)) := by
  have h := worldPair_bevy a b ha hb haz hbz hs has hr hbs
  exact ⟨C94_collides h, fun v hv => C94_push h v hv, fun v => C94_contact h v,
    fun δ R hδ hO hR hf => C94_found h hδ hO hR hf⟩

end

/-- a concrete pair: a 4 x 2 box turned by a quaternion about z, moved, lifted and doubled, and a unit box -/
example : let _ := realFloat true 0
    let a : Collider2d (Box2d ℝ) (BevyTransform ℝ) := ⟨⟨⟨2, 1⟩⟩, ⟨⟨1, 2, 9⟩, ⟨0, 0, 3 / 5, 4 / 5⟩, ⟨2, 2, 7⟩⟩⟩
    let b : Collider2d (Box2d ℝ) (BevyTransform ℝ) := ⟨⟨⟨1, 1⟩⟩, ⟨⟨1, 2, -5⟩, ⟨0, 0, 0, 1⟩, ⟨1, 1, 1⟩⟩⟩
    WorldPair a b (2 : ℝ) := by
  intro _ a b
  have := realFloat_exact true 0
  have := realFloat_sqrt true 0
  exact worldPair_bevy a b (convexShape_box _ ⟨by norm_num [a], by norm_num [a]⟩)
    (convexShape_box _ ⟨by norm_num [b], by norm_num [b]⟩) ⟨rfl, rfl, by norm_num [a]⟩ ⟨rfl, rfl, by norm_num [b]⟩
    (by norm_num) ⟨rfl, rfl⟩ zero_le_one ⟨rfl, rfl⟩

end Auburn
