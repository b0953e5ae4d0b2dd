import Verif.Props.Family
import Verif.Props.Bevy2d

/-!
# Additions to C07, C13 and C32
-/

set_option linter.unusedSectionVars false
set_option synthInstance.maxSize 1000

namespace Auburn

open V2 ExtremePoint2d Transformation2d Auburn.Invertible Composable

section
variable {K : Type} [Field K] [LinearOrder K] [IsStrictOrderedRing K] [FloatExtra K] [ExactFloat K]

/-! ## C13: sequences of points -/

/-- Covering a list of points one after the other: the result contains all of them and the original box, it is the
smallest such box, and neither the order nor repetitions of the points matter. -/
theorem C13_cover_sequence (b : Box2d K) (l : List (V2 K)) :
    (∀ p ∈ l, p ∈ Region.pts (l.foldl Box2d.cover b)) ∧
    Region.pts b ⊆ Region.pts (l.foldl Box2d.cover b) ∧
    (∀ b' : Box2d K, b.halfsize.x ≤ b'.halfsize.x → b.halfsize.y ≤ b'.halfsize.y → (∀ p ∈ l, p ∈ Region.pts b') →
      (l.foldl Box2d.cover b).halfsize.x ≤ b'.halfsize.x ∧ (l.foldl Box2d.cover b).halfsize.y ≤ b'.halfsize.y) ∧
    ∀ l' : List (V2 K), (∀ p, p ∈ l ↔ p ∈ l') → l.foldl Box2d.cover b = l'.foldl Box2d.cover b := by
  obtain ⟨h1, h2, h3, h4⟩ := cover_fold l b
  refine ⟨h1, fun p hp => ⟨hp.1.trans h2, hp.2.trans h3⟩, h4, fun l' hl => ?_⟩
  obtain ⟨k1, k2, k3, k4⟩ := cover_fold l' b
  have u := h4 _ k2 k3 fun p hp => k1 p ((hl p).1 hp)
  have v := k4 _ h2 h3 fun p hp => h1 p ((hl p).2 hp)
  ext
  · exact le_antisymm u.1 v.1
  · exact le_antisymm u.2 v.2

/-- a non-trivial case: covering three points (one of them twice), starting from the empty box -/
example : let l : List (V2 K) := [⟨1, 0⟩, ⟨0, -2⟩, ⟨-3, 1⟩, ⟨1, 0⟩]
    l.foldl Box2d.cover ⟨⟨0, 0⟩⟩ = ⟨⟨3, 2⟩⟩ := by
  intro l
  ext <;> norm_num [l, Box2d.cover, ExactFloat.fmax_eq, ExactFloat.abs_eq]

/-! ## C07: bevy transforms -/

/-- normals under a bevy transform rotated about z -/
theorem C07_normals_bevy [ExactSqrt K] (t : BevyTransform K) (h : t.AboutZ) : NormalLaw (K := K) t :=
  (C07_normals_transform2d (Transform2d.ofBevy t) (aboutZ_unit h)).1

/-! ## C32: the frame of `penetrates` and `distance_to` -/

/-- The vectors of `penetrates` and `distance_to` on colliders are in the frame of the first collider: the *rotated*
vector is the correct displacement in the world.  Ball v Ball, any rigid placements. -/
theorem C32_self_frame_ball_ball [ExactSqrt K]
    (a b : Collider2d (Ball K) (Transform2d K)) (ha : a.transform.rot.IsUnit)
    (has : a.transform.scale = ⟨1, 1⟩) (hb : b.transform.rot.IsUnit)
    (hbs : b.transform.scale = ⟨1, 1⟩) (hra : 0 ≤ a.shape.radius) (hrb : 0 ≤ b.shape.radius) :
    ∃ c v, penetrates a b = .ok (if c then some v else none) ∧ distanceTo a b = .ok (if c then none else some v) ∧
      ResolvesLeast c (applyNormal a.transform v) a.region b.region := by
  obtain ⟨c, v', h1, h2⟩ := C32_sdfv_world_ball_ball a b ha has hb hbs hra hrb
  obtain ⟨c', v, -, h4, h5, h6⟩ := CollidersAgree.of_rel C30_agree_ball_ball a b
  rw [h1] at h4
  simp only [Except.ok.injEq, Prod.mk.injEq] at h4
  obtain ⟨rfl, rfl⟩ := h4
  exact ⟨c, v, h5, h6, h2⟩

/-- The same for Box2d v Point. -/
theorem C32_self_frame_box_point [ExactSqrt K]
    (a : Collider2d (Box2d K) (Transform2d K)) (b : Collider2d (Point K) (Transform2d K))
    (ha : a.transform.rot.IsUnit) (has : a.transform.scale = ⟨1, 1⟩) (hb : b.transform.rot.IsUnit)
    (hbs : b.transform.scale = ⟨1, 1⟩) (hh : 0 ≤ a.shape.halfsize.x ∧ 0 ≤ a.shape.halfsize.y) :
    ∃ c v, penetrates a b = .ok (if c then some v else none) ∧ distanceTo a b = .ok (if c then none else some v) ∧
      ResolvesLeast c (applyNormal a.transform v) a.region b.region := by
  obtain ⟨c, v', h1, h2⟩ := C32_sdfv_world_box_point a b ha has hb hbs hh
  obtain ⟨c', v, -, h4, h5, h6⟩ := CollidersAgree.of_rel C30_agree_box_point a b
  rw [h1] at h4
  simp only [Except.ok.injEq, Prod.mk.injEq] at h4
  obtain ⟨rfl, rfl⟩ := h4
  exact ⟨c, v, h5, h6, h2⟩

/-- a case that meets the hypotheses: a box turned by a 3-4-5 angle around a point -/
example : (⟨⟨3 / 5, 4 / 5⟩⟩ : Rotor2d K).IsUnit := by norm_num [Rotor2d.IsUnit]

end

end Auburn
