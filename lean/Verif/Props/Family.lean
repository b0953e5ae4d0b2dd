import Verif.Props.Direct

/-!
# C29–C32: argument order, agreement of the query family, world frames
-/

set_option linter.unusedSectionVars false
set_option synthInstance.maxSize 1000

namespace Auburn

open V2 ExtremePoint2d Transformation2d Auburn.Invertible Composable

/-! ## C30: holds for every float behaviour (no arithmetic law is used) -/

section
variable {F : Type} [Zero F] [One F] [Add F] [Sub F] [Mul F] [Div F] [Neg F]
  [LT F] [LE F] [DecidableLT F] [DecidableLE F] [FloatExtra F] {T : Type} [Transformation2d T F]

/-- The four relative queries give one consistent answer: a flag `c` and a vector `v`. -/
def QueriesAgree {A B T F : Type} [SdfvCommonRel2d false false A B T F]
    [SdfvCommonRel2d true false A B T F]
    [SdfvCommonRel2d false true A B T F]
    [SdfvCommonRel2d true true A B T F] (a : A) (b : B) (rel : T) :
    Prop :=
  ∃ (c : Bool) (v : V2 F), collidesRel a b rel = .ok c ∧ sdfvRel a b rel = .ok (c, v) ∧
    penetratesRel a b rel = .ok (if c then some v else none) ∧
    distanceToRel a b rel = .ok (if c then none else some v)

/-- The four collider queries give one consistent answer; the `sdfv` vector is the
`penetrates`/`distance_to` vector rotated into world space. -/
def CollidersAgree {A B T F : Type} [SdfvCommonRel2d false false A B T F]
    [SdfvCommonRel2d true false A B T F]
    [SdfvCommonRel2d false true A B T F]
    [SdfvCommonRel2d true true A B T F] [Transformation2d T F]
    [Invertible T] [Composable T] (a : Collider2d A T) (b : Collider2d B T) : Prop :=
  ∃ (c : Bool) (v : V2 F), collides a b = .ok c ∧
    sdfv a b = .ok (c, applyNormal a.transform v) ∧
    penetrates a b = .ok (if c then some v else none) ∧
    distanceTo a b = .ok (if c then none else some v)

theorem CollidersAgree.of_rel {A B : Type} [SdfvCommonRel2d false false A B T F]
    [SdfvCommonRel2d true false A B T F]
    [SdfvCommonRel2d false true A B T F]
    [SdfvCommonRel2d true true A B T F] [Invertible T]
    [Composable T] (h : ∀ (a : A) (b : B) (rel : T), QueriesAgree a b rel)
    (a : Collider2d A T) (b : Collider2d B T) : CollidersAgree a b := by
  obtain ⟨c, v, h1, h2, h3, h4⟩ := h a.shape b.shape (deltaTransform a.transform b.transform)
  refine ⟨c, v, h1, ?_, h3, h4⟩
  unfold sdfv
  rw [h2]; rfl

theorem C30_agree_ball_ball (a b : Ball F) (rel : T) : QueriesAgree a b rel :=
  ⟨(ballDelta (a.radius + b.radius) (applyOrigin rel)).1,
    (ballDelta (a.radius + b.radius) (applyOrigin rel)).2, rfl, rfl, rfl, rfl⟩
theorem C30_agree_ball_point (a : Ball F) (b : Point F) (rel : T) : QueriesAgree a b rel :=
  ⟨(ballDelta a.radius (applyOrigin rel)).1, (ballDelta a.radius (applyOrigin rel)).2, rfl, rfl,
    rfl, rfl⟩
theorem C30_agree_point_point (a b : Point F) (rel : T) : QueriesAgree a b rel :=
  ⟨_, _, rfl, rfl, rfl, rfl⟩
theorem C30_agree_rounded_box_point (a : RoundedBox2d F) (b : Point F) (rel : T) :
    QueriesAgree a b rel :=
  ⟨(roundedBoxPoint a.halfsize a.radius (applyOrigin rel)).1,
    (roundedBoxPoint a.halfsize a.radius (applyOrigin rel)).2, rfl, rfl, rfl, rfl⟩
theorem C30_agree_box_ball (a : Box2d F) (b : Ball F) (rel : T) : QueriesAgree a b rel :=
  ⟨(roundedBoxPoint a.halfsize b.radius (applyOrigin rel)).1,
    (roundedBoxPoint a.halfsize b.radius (applyOrigin rel)).2, rfl, rfl, rfl, rfl⟩

/-- Box2d v Point computes only what is asked for; what it computes agrees. -/
theorem boxPoint_agree (h p : V2 F) :
    (∀ P D, (boxPoint P D h p).1 = (boxPoint true true h p).1) ∧
    ((boxPoint true true h p).1 = true → (boxPoint true false h p).2 = (boxPoint true true h p).2) ∧
    ((boxPoint true true h p).1 = false →
      (boxPoint false true h p).2 = (boxPoint true true h p).2) := by
  unfold boxPoint
  simp only
  split_ifs <;> simp

theorem C30_agree_box_point (a : Box2d F) (b : Point F) (rel : T) : QueriesAgree a b rel := by
  obtain ⟨h1, h2, h3⟩ := boxPoint_agree a.halfsize (applyOrigin rel)
  refine ⟨(boxPoint true true a.halfsize (applyOrigin rel)).1,
    (boxPoint true true a.halfsize (applyOrigin rel)).2, ?_, rfl, ?_, ?_⟩
  · show Except.ok (boxPoint false false a.halfsize (applyOrigin rel)).1 = _
    rw [h1]
  · show Except.ok (if (boxPoint true false a.halfsize (applyOrigin rel)).1 then
      some (boxPoint true false a.halfsize (applyOrigin rel)).2 else none) = _
    rw [h1]
    by_cases hc : (boxPoint true true a.halfsize (applyOrigin rel)).1 = true
    · rw [if_pos hc, if_pos hc, h2 hc]
    · rw [if_neg hc, if_neg hc]
  · show Except.ok (if (boxPoint false true a.halfsize (applyOrigin rel)).1 then none else
      some (boxPoint false true a.halfsize (applyOrigin rel)).2) = _
    rw [h1]
    by_cases hc : (boxPoint true true a.halfsize (applyOrigin rel)).1 = true
    · rw [if_pos hc, if_pos hc]
    · rw [if_neg hc, if_neg hc, h3 (by simpa using hc)]

/-- reversing preserves agreement -/
theorem reverse_agree {A B : Type} [Invertible T] [∀ p d, SdfvCommonRel2d p d B A T F]
    [i : ∀ p d, SdfvCommonRel2d p d A B T F]
    (hi : ∀ p d (a : A) (b : B) (rel : T), (i p d).sdfvCommonRel a b rel =
      reverseSdfvCommonRel p d a b rel)
    (a : A) (b : B) (rel : T) (h : QueriesAgree b a (inverse rel)) : QueriesAgree a b rel := by
  obtain ⟨c, v, h1, h2, h3, h4⟩ := h
  unfold collidesRel at h1
  unfold sdfvRel at h2
  unfold penetratesRel at h3
  unfold distanceToRel at h4
  refine ⟨c, applyNormal rel (-v), ?_, ?_, ?_, ?_⟩
  · unfold collidesRel
    rw [hi]; simp only [reverseSdfvCommonRel]
    cases hx : SdfvCommonRel2d.sdfvCommonRel false false b a (inverse rel) with
    | error e => rw [hx] at h1; cases h1
    | ok r => rw [hx] at h1; exact h1
  · unfold sdfvRel
    rw [hi]; simp only [reverseSdfvCommonRel]
    rw [h2]; rfl
  · unfold penetratesRel
    rw [hi]; simp only [reverseSdfvCommonRel]
    cases hx : SdfvCommonRel2d.sdfvCommonRel true false b a (inverse rel) with
    | error e => rw [hx] at h3; cases h3
    | ok r =>
      rw [hx] at h3
      have h3' : (if r.1 then some r.2 else none) = (if c then some v else none) := by injection h3
      show Except.ok (if r.1 then some (applyNormal rel (-r.2)) else none) = _
      cases hr : r.1 <;> cases hc : c <;> simp_all
  · unfold distanceToRel
    rw [hi]; simp only [reverseSdfvCommonRel]
    cases hx : SdfvCommonRel2d.sdfvCommonRel false true b a (inverse rel) with
    | error e => rw [hx] at h4; cases h4
    | ok r =>
      rw [hx] at h4
      have h4' : (if r.1 then none else some r.2) = (if c then none else some v) := by injection h4
      show Except.ok (if r.1 then none else some (applyNormal rel (-r.2))) = _
      cases hr : r.1 <;> cases hc : c <;> simp_all

theorem C30_agree_point_box [Invertible T] (a : Point F) (b : Box2d F) (rel : T) :
    QueriesAgree a b rel :=
  reverse_agree (fun _ _ _ _ _ => rfl) a b rel (C30_agree_box_point b a (inverse rel))
theorem C30_agree_point_ball [Invertible T] (a : Point F) (b : Ball F) (rel : T) :
    QueriesAgree a b rel :=
  reverse_agree (fun _ _ _ _ _ => rfl) a b rel (C30_agree_ball_point b a (inverse rel))

/-- the same for colliders -/
theorem C30_colliders_agree [Invertible T] [Composable T] :
    (∀ a b : Collider2d (Ball F) T, CollidersAgree a b) ∧
    (∀ (a : Collider2d (Ball F) T) (b : Collider2d (Point F) T), CollidersAgree a b) ∧
    (∀ (a : Collider2d (Box2d F) T) (b : Collider2d (Ball F) T), CollidersAgree a b) ∧
    (∀ (a : Collider2d (Box2d F) T) (b : Collider2d (Point F) T), CollidersAgree a b) ∧
    (∀ a b : Collider2d (Point F) T, CollidersAgree a b) ∧
    (∀ (a : Collider2d (Point F) T) (b : Collider2d (Box2d F) T), CollidersAgree a b) ∧
    (∀ (a : Collider2d (Point F) T) (b : Collider2d (Ball F) T), CollidersAgree a b) :=
  ⟨.of_rel C30_agree_ball_ball, .of_rel C30_agree_ball_point, .of_rel C30_agree_box_ball,
    .of_rel C30_agree_box_point, .of_rel C30_agree_point_point, .of_rel C30_agree_point_box,
    .of_rel C30_agree_point_ball⟩

end

section
variable {K : Type} [Field K] [LinearOrder K] [IsStrictOrderedRing K] [FloatExtra K]
  {T : Type} [Transformation2d T K]

/-! ## transporting answers -/

/-- the image of a set under a transformation -/
def image (t : T) (A : Set (V2 K)) : Set (V2 K) := {p | ∃ a ∈ A, p = apply t a}

theorem placed_eq_image {S : Type} [Region S K] (t : T) (s : S) :
    placed t s = image t (Region.pts s) := rfl

theorem image_shift (t : T) (h : Similarity t (1 : K)) (w : V2 K) (A : Set (V2 K)) :
    shift (applyNormal t w) (image t A) = image t (shift w A) := by
  have hadd : ∀ u v : V2 K, applyNormal t (u + v) = applyNormal t u + applyNormal t v := by
    intro u v
    have hz : lengthSq (applyNormal t (u + v) - (applyNormal t u + applyNormal t v)) = 0 := by
      have e : ∀ x y z : V2 K, lengthSq (x - (y + z)) = lengthSq x + lengthSq y + lengthSq z
          - 2 * x.dot y - 2 * x.dot z + 2 * y.dot z := by
        intro x y z; simp only [lengthSq_def, dot_def, sub_x, sub_y, add_x, add_y]; ring
      rw [e, h.lengthSq_applyNormal, h.lengthSq_applyNormal, h.lengthSq_applyNormal,
        h.normal.2.2, h.normal.2.2, h.normal.2.2, ← e, sub_self, lengthSq_eq_zero.2 rfl]
    exact sub_eq_zero.1 (lengthSq_eq_zero.1 hz)
  have key : ∀ a, apply t a + applyNormal t w = apply t (a + w) := by
    intro a
    rw [h.apply_eq, h.apply_eq, hadd]; ext <;> simp <;> ring
  ext p
  constructor
  · rintro ⟨x, ⟨a, ha, rfl⟩, rfl⟩
    exact ⟨a + w, ⟨a, ha, rfl⟩, key a⟩
  · rintro ⟨x, ⟨a, ha, rfl⟩, rfl⟩
    exact ⟨apply t a, ⟨a, ha, rfl⟩, (key a).symm⟩

theorem apply_injective (t : T) (h : Similarity t (1 : K)) {p q : V2 K}
    (hpq : apply t p = apply t q) : p = q := by
  have := h.dist p q
  rw [hpq, sub_self, lengthSq_eq_zero.2 rfl, one_pow, one_mul] at this
  exact sub_eq_zero.1 (lengthSq_eq_zero.1 this.symm)

theorem touch_image (t : T) (h : Similarity t (1 : K)) (A B : Set (V2 K)) :
    Touch (image t A) (image t B) ↔ Touch A B := by
  constructor
  · rintro ⟨p, ⟨a, ha, rfl⟩, ⟨b, hb, e⟩⟩
    have := apply_injective t h e
    exact ⟨a, ha, this ▸ hb⟩
  · rintro ⟨p, ha, hb⟩; exact ⟨apply t p, ⟨p, ha, rfl⟩, ⟨p, hb, rfl⟩⟩

theorem separable_image (t : T) (h : Similarity t (1 : K)) (A B : Set (V2 K)) :
    Separable (image t A) (image t B) ↔ Separable A B := by
  constructor
  · rintro ⟨n, hn, hsep⟩
    refine ⟨unapplyNormal t n, ?_, ?_⟩
    · intro h0
      have := h.lengthSq_unapplyNormal n
      rw [h0, lengthSq_eq_zero.2 rfl] at this
      exact hn (lengthSq_eq_zero.1 this.symm)
    · intro a ha b hb
      have := hsep _ ⟨a, ha, rfl⟩ _ ⟨b, hb, rfl⟩
      rw [h.dot_apply, h.dot_apply] at this
      linarith
  · rintro ⟨n, hn, hsep⟩
    refine ⟨applyNormal t n, ?_, ?_⟩
    · intro h0
      have := h.lengthSq_applyNormal n
      rw [h0, lengthSq_eq_zero.2 rfl] at this
      exact hn (lengthSq_eq_zero.1 this.symm)
    · rintro x ⟨a, ha, rfl⟩ y ⟨b, hb, rfl⟩
      rw [h.dot_apply, h.dot_apply, h.normal.1]
      have := hsep a ha b hb
      linarith

/-- a rigid motion of the whole scene rotates the answer -/
theorem ResolvesLeast.image {t : T} (h : Similarity t (1 : K)) {c : Bool} {v : V2 K}
    {A B : Set (V2 K)} (hr : ResolvesLeast c v A B) :
    ResolvesLeast c (applyNormal t v) (image t A) (Auburn.image t B) := by
  obtain ⟨⟨h1, h2⟩, h3, h4⟩ := hr
  have back : ∀ w, shift w (Auburn.image t A) = Auburn.image t (shift (unapplyNormal t w) A) := by
    intro w
    rw [← image_shift t h, h.normal.2.1]
  refine ⟨⟨?_, ?_⟩, ?_, ?_⟩
  · rw [image_shift t h]; exact (touch_image t h _ _).2 h1
  · rw [image_shift t h]; exact (separable_image t h _ _).2 h2
  · intro hc w hw
    rw [back] at hw
    have := h3 hc _ ((separable_image t h _ _).1 hw)
    rwa [h.lengthSq_applyNormal, ← h.lengthSq_unapplyNormal w]
  · intro hc w hw
    rw [back] at hw
    have := h4 hc _ ((touch_image t h _ _).1 hw)
    rwa [h.lengthSq_applyNormal, ← h.lengthSq_unapplyNormal w]

theorem touch_shift_swap {w : V2 K} {A B : Set (V2 K)} :
    Touch (shift w A) B ↔ Touch (shift (-w) B) A := by
  constructor
  · rintro ⟨p, ⟨a, ha, rfl⟩, hb⟩
    exact ⟨a, ⟨a + w, hb, by ext <;> simp⟩, ha⟩
  · rintro ⟨p, ⟨b, hb, rfl⟩, ha⟩
    exact ⟨b, ⟨b + -w, ha, by ext <;> simp⟩, hb⟩

theorem separable_shift_swap {w : V2 K} {A B : Set (V2 K)} :
    Separable (shift w A) B ↔ Separable (shift (-w) B) A := by
  constructor
  · rintro ⟨n, hn, h⟩
    refine ⟨-n, neg_ne_zero.2 hn, ?_⟩
    rintro x ⟨b, hb, rfl⟩ a ha
    have := h (a + w) ⟨a, ha, rfl⟩ b hb
    rw [dot_add] at this
    rw [neg_dot, neg_dot, dot_add, dot_neg]; linarith
  · rintro ⟨n, hn, h⟩
    refine ⟨-n, neg_ne_zero.2 hn, ?_⟩
    rintro x ⟨a, ha, rfl⟩ b hb
    have := h (b + -w) ⟨b, hb, rfl⟩ a ha
    rw [dot_add, dot_neg] at this
    rw [neg_dot, neg_dot, dot_add]; linarith

/-- moving the other shape instead: the negated vector -/
theorem ResolvesLeast.swap {c : Bool} {v : V2 K} {A B : Set (V2 K)} (hr : ResolvesLeast c v A B) :
    ResolvesLeast c (-v) B A := by
  obtain ⟨⟨h1, h2⟩, h3, h4⟩ := hr
  refine ⟨⟨touch_shift_swap.1 h1, separable_shift_swap.1 h2⟩, ?_, ?_⟩
  · intro hc w hw
    have := h3 hc (-w) (separable_shift_swap.1 hw)
    rwa [lengthSq_neg] at this ⊢
  · intro hc w hw
    have := h4 hc (-w) (touch_shift_swap.1 hw)
    rwa [lengthSq_neg] at this ⊢

/-! ## C29 -/

/-- what a transformation must satisfy for the reversal to be right -/
structure Reversible [Invertible T] (rel : T) : Prop where
  rigid : Similarity rel (1 : K)
  rigid_inv : Similarity (inverse rel) (1 : K)
  law : InverseLaw (K := K) rel

theorem reversible_vec2 (t : V2 K) : Reversible t :=
  ⟨similarity_vec2 t, similarity_vec2 _, C01_inverse_vec2 t⟩
theorem reversible_translate2d (t : Translate2d K) : Reversible t :=
  ⟨similarity_translate2d t, similarity_translate2d _, C01_inverse_translate2d t⟩
theorem reversible_transform2d [ExactFloat K] (t : Transform2d K) (hr : t.rot.IsUnit)
    (hs : t.scale = ⟨1, 1⟩) : Reversible t := by
  refine ⟨similarity_transform2d t 1 hr hs, similarity_transform2d _ 1 ?_ ?_,
    (C01_inverse_transform2d_iff t hr ?_).2 (Or.inl (by rw [hs]))⟩
  · unfold Rotor2d.IsUnit at *
    simp only [inverse, Rotor2d.inverse]; linear_combination hr
  · simp only [inverse, hs]; ext <;> simp
  · rw [Transform2d.Nondegenerate, hs]; exact ⟨one_ne_zero, one_ne_zero⟩

theorem Reversible.image_inverse [Invertible T] {rel : T} (h : Reversible (K := K) rel)
    (A : Set (V2 K)) : image rel (image (inverse rel) A) = A := by
  have law' : ∀ p : V2 K, apply rel (apply (inverse rel) p) = p := by
    intro p
    apply apply_injective (inverse rel) h.rigid_inv
    rw [h.law]
  ext p
  constructor
  · rintro ⟨x, ⟨a, ha, rfl⟩, rfl⟩; rw [law']; exact ha
  · intro hp; exact ⟨_, ⟨p, hp, rfl⟩, (law' p).symm⟩

/-- Point v Box2d is Box2d v Point with the roles exchanged: same flag, the negated vector expressed
in the first argument's space; and it is a correct answer for Point v Box2d. -/
theorem C29_point_box [ExactFloat K] [ExactSqrt K] [Invertible T] (a : Point K) (b : Box2d K)
    (hb : 0 ≤ b.halfsize.x ∧ 0 ≤ b.halfsize.y) (rel : T) (hrel : Reversible (K := K) rel) :
    ∃ c v, sdfvRel b a (inverse rel) = .ok (c, v) ∧
      sdfvRel a b rel = .ok (c, applyNormal rel (-v)) ∧ collidesRel a b rel = .ok c ∧
      ResolvesLeast c (applyNormal rel (-v)) (Region.pts a) (placed rel b) := by
  obtain ⟨_, _, c, v, h1, _, _, h4⟩ := C22_box_point_vectors b hb a (inverse rel) hrel.rigid_inv
  obtain ⟨c', v', g1, g2, _⟩ := C30_agree_point_box a b rel
  have e : sdfvRel a b rel = .ok (c, applyNormal rel (-v)) := by
    show reverseSdfvCommonRel true true a b rel = _
    simp only [reverseSdfvCommonRel]
    have h1' := h1
    unfold sdfvRel at h1'
    rw [h1']; rfl
  refine ⟨c, v, h1, e, ?_, ?_⟩
  · rw [e] at g2; cases g2
    exact g1
  · have h5 := h4.swap.image hrel.rigid
    rw [placed_eq_image, hrel.image_inverse] at h5
    exact h5

/-- Point v Ball is Ball v Point with the roles exchanged. -/
theorem C29_point_ball [ExactFloat K] [ExactSqrt K] [Invertible T] (a : Point K) (b : Ball K)
    (hb : 0 ≤ b.radius) (rel : T) (hrel : Reversible (K := K) rel) :
    ∃ c v, sdfvRel b a (inverse rel) = .ok (c, v) ∧
      sdfvRel a b rel = .ok (c, applyNormal rel (-v)) ∧ collidesRel a b rel = .ok c ∧
      ResolvesLeast c (applyNormal rel (-v)) (Region.pts a) (placed rel b) := by
  obtain ⟨c, v, s, _, h1, _, _, _, _, _, h4⟩ := C20_ball_point b hb a (inverse rel) hrel.rigid_inv
  obtain ⟨c', v', g1, g2, _⟩ := C30_agree_point_ball a b rel
  have e : sdfvRel a b rel = .ok (c, applyNormal rel (-v)) := by
    show reverseSdfvCommonRel true true a b rel = _
    simp only [reverseSdfvCommonRel]
    have h1' := h1
    unfold sdfvRel at h1'
    rw [h1']; rfl
  refine ⟨c, v, h1, e, ?_, ?_⟩
  · rw [e] at g2; cases g2
    exact g1
  · have h5 := h4.swap.image hrel.rigid
    rw [placed_eq_image, hrel.image_inverse] at h5
    exact h5

/-- non-vacuity: a rotated and translated relative transform -/
example [ExactFloat K] : Reversible (⟨⟨3, 1⟩, ⟨⟨3 / 5, 4 / 5⟩⟩, ⟨1, 1⟩⟩ : Transform2d K) :=
  reversible_transform2d _ (by simp only [Rotor2d.IsUnit]; norm_num) rfl

/-! ## C31 -/

/-- `m ∘ t` for colliders: the same shape after moving the world by `m` -/
def Collider2d.moved {S T : Type} [Composable T] (m : T) (c : Collider2d S T) : Collider2d S T :=
  ⟨c.shape, compose m c.transform⟩

/-- all queries give the same answers for a pair of colliders and the moved pair; the `sdfv` vector
turns with the motion -/
def WorldInvariant {A B T F : Type} [SdfvCommonRel2d false false A B T F]
    [SdfvCommonRel2d true false A B T F]
    [SdfvCommonRel2d false true A B T F]
    [SdfvCommonRel2d true true A B T F]
    [Transformation2d T F] [Invertible T] [Composable T] (m : T) (a : Collider2d A T)
    (b : Collider2d B T) : Prop :=
  collides (a.moved m) (b.moved m) = collides a b ∧
  penetrates (a.moved m) (b.moved m) = penetrates a b ∧
  distanceTo (a.moved m) (b.moved m) = distanceTo a b ∧
  sdfv (a.moved m) (b.moved m) = (sdfv a b).map fun r => (r.1, applyNormal m r.2)

theorem worldInvariant_of_delta {A B : Type} [SdfvCommonRel2d false false A B T K]
    [SdfvCommonRel2d true false A B T K]
    [SdfvCommonRel2d false true A B T K]
    [SdfvCommonRel2d true true A B T K]
    [Invertible T] [Composable T] (m : T) (a : Collider2d A T)
    (b : Collider2d B T)
    (hd : deltaTransform (compose m a.transform) (compose m b.transform) =
      deltaTransform a.transform b.transform)
    (hn : ∀ n : V2 K, applyNormal (compose m a.transform) n =
      applyNormal m (applyNormal a.transform n)) :
    WorldInvariant m a b := by
  unfold WorldInvariant collides penetrates distanceTo sdfv Collider2d.moved
  simp only [hd]
  refine ⟨trivial, trivial, trivial, ?_⟩
  cases sdfvRel a.shape b.shape (deltaTransform a.transform b.transform) with
  | error e => rfl
  | ok r => simp only [Except.map, hn]

/-- the relative transform does not see a rigid motion of the world -/
theorem delta_invariant_transform2d (m : Transform2d K) (hm : m.rot.IsUnit)
    (hms : m.scale = ⟨1, 1⟩) (a b : Transform2d K) (hs : a.scale.x = a.scale.y)
    (h0 : a.scale.x ≠ 0) :
    deltaTransform (compose m a) (compose m b) = deltaTransform a b := by
  unfold Rotor2d.IsUnit at hm
  have h0' : a.scale.y ≠ 0 := hs ▸ h0
  ext <;> simp only [deltaTransform, compose, inverse, apply, unapply, Rotor2d.rotate,
      Rotor2d.inverse, Rotor2d.mulR, mulV_x, mulV_y, divV_x, divV_y, add_x, add_y, sub_x, sub_y,
      zero_x, zero_y, recip_x, recip_y, hms, one_mul, ← hs]
  · field_simp
    linear_combination ((b.pos.x - a.pos.x) * a.rot.a.x + (b.pos.y - a.pos.y) * a.rot.a.y) * hm
  · field_simp
    linear_combination ((b.pos.y - a.pos.y) * a.rot.a.x - (b.pos.x - a.pos.x) * a.rot.a.y) * hm
  · linear_combination (a.rot.a.x * b.rot.a.x + a.rot.a.y * b.rot.a.y) * hm
  · linear_combination (a.rot.a.x * b.rot.a.y - a.rot.a.y * b.rot.a.x) * hm

/-- Rigid motions of the whole scene, `Transform2d` colliders of any shapes (also the
Minkowski-based pairs), with any uniform scale of the first collider. -/
theorem C31_world_frame_transform2d {A B : Type} [SdfvCommonRel2d false false A B (Transform2d K) K]
    [SdfvCommonRel2d true false A B (Transform2d K) K]
    [SdfvCommonRel2d false true A B (Transform2d K) K]
    [SdfvCommonRel2d true true A B (Transform2d K) K]
    (m : Transform2d K) (hm : m.rot.IsUnit)
    (hms : m.scale = ⟨1, 1⟩) (a : Collider2d A (Transform2d K)) (b : Collider2d B (Transform2d K))
    (hs : a.transform.scale.x = a.transform.scale.y)
    (h0 : a.transform.scale.x ≠ 0) : WorldInvariant m a b := by
  apply worldInvariant_of_delta
  · exact delta_invariant_transform2d m hm hms _ _ hs h0
  · intro n
    ext <;> simp only [applyNormal, compose, Rotor2d.rotate, Rotor2d.mulR] <;> ring

/-- the signed distance of every pair that has one -/
theorem C31_world_frame_sdf_transform2d {A B : Type} [SdfRel2d A B (Transform2d K) K]
    (m : Transform2d K) (hm : m.rot.IsUnit)
    (hms : m.scale = ⟨1, 1⟩) (a : Collider2d A (Transform2d K)) (b : Collider2d B (Transform2d K))
    (hs : a.transform.scale.x = a.transform.scale.y)
    (h0 : a.transform.scale.x ≠ 0) : sdf (a.moved m) (b.moved m) = sdf a b := by
  unfold sdf Collider2d.moved
  rw [delta_invariant_transform2d m hm hms _ _ hs h0]

theorem C31_world_frame_sdf_translation {A B : Type} [SdfRel2d A B (V2 K) K]
    [SdfRel2d A B (Translate2d K) K] :
    (∀ (m : V2 K) (a : Collider2d A (V2 K)) (b : Collider2d B (V2 K)),
      sdf (a.moved m) (b.moved m) = sdf a b) ∧
    (∀ (m : Translate2d K) (a : Collider2d A (Translate2d K)) (b : Collider2d B (Translate2d K)),
      sdf (a.moved m) (b.moved m) = sdf a b) := by
  refine ⟨fun m a b => ?_, fun m a b => ?_⟩
  · have h : deltaTransform (compose m a.transform) (compose m b.transform) =
        deltaTransform a.transform b.transform := by
      ext <;> simp [deltaTransform, compose, inverse, apply]
    unfold sdf Collider2d.moved; rw [h]
  · have h : deltaTransform (compose m a.transform) (compose m b.transform) =
        deltaTransform a.transform b.transform := by
      ext <;> simp [deltaTransform, compose, inverse, apply]
    unfold sdf Collider2d.moved; rw [h]

/-- translations -/
theorem C31_world_frame_vec2 {A B : Type} [SdfvCommonRel2d false false A B (V2 K) K]
    [SdfvCommonRel2d true false A B (V2 K) K]
    [SdfvCommonRel2d false true A B (V2 K) K]
    [SdfvCommonRel2d true true A B (V2 K) K]
    (m : V2 K) (a : Collider2d A (V2 K)) (b : Collider2d B (V2 K)) :
    WorldInvariant m a b := by
  apply worldInvariant_of_delta
  · ext <;> simp [deltaTransform, compose, inverse, apply]
  · intro n; rfl

theorem C31_world_frame_translate2d {A B : Type} [SdfvCommonRel2d false false A B (Translate2d K) K]
    [SdfvCommonRel2d true false A B (Translate2d K) K]
    [SdfvCommonRel2d false true A B (Translate2d K) K]
    [SdfvCommonRel2d true true A B (Translate2d K) K]
    (m : Translate2d K) (a : Collider2d A (Translate2d K))
    (b : Collider2d B (Translate2d K)) : WorldInvariant m a b := by
  apply worldInvariant_of_delta
  · ext <;> simp [deltaTransform, compose, inverse, apply]
  · intro n; rfl

/-- the general theorem applies to concrete pairs: Ball v Ball, Shape2d v Shape2d and Box2d v Box2d
(through the Minkowski algorithms), under a rotated and shifted world -/
example [ExactFloat K] (a b : Collider2d (Ball K) (Transform2d K))
    (h : a.transform.scale = ⟨2, 2⟩) :
    WorldInvariant (⟨⟨3, 1⟩, ⟨⟨3 / 5, 4 / 5⟩⟩, ⟨1, 1⟩⟩ : Transform2d K) a b :=
  C31_world_frame_transform2d _ (by simp only [Rotor2d.IsUnit]; norm_num) rfl a b
    (by rw [h]) (by rw [h]; exact two_ne_zero)

example [ExactFloat K] (a b : Collider2d (Shape2d K) (Transform2d K))
    (h : a.transform.scale = ⟨2, 2⟩) :
    WorldInvariant (⟨⟨3, 1⟩, ⟨⟨3 / 5, 4 / 5⟩⟩, ⟨1, 1⟩⟩ : Transform2d K) a b :=
  C31_world_frame_transform2d _ (by simp only [Rotor2d.IsUnit]; norm_num) rfl a b
    (by rw [h]) (by rw [h]; exact two_ne_zero)

example [ExactFloat K] (a b : Collider2d (Box2d K) (Transform2d K))
    (h : a.transform.scale = ⟨2, 2⟩) :
    WorldInvariant (⟨⟨3, 1⟩, ⟨⟨3 / 5, 4 / 5⟩⟩, ⟨1, 1⟩⟩ : Transform2d K) a b :=
  C31_world_frame_transform2d _ (by simp only [Rotor2d.IsUnit]; norm_num) rfl a b
    (by rw [h]) (by rw [h]; exact two_ne_zero)

/-- Finding: with `AxisTransform2d` colliders the answer depends on where the scene is: two points
that do not collide start to collide when both are moved by the same translation (because
`AxisTransform2d::inverse` is wrong). -/
theorem C31_axis_finding [ExactFloat K] :
    ∃ (m : AxisTransform2d K) (a b : Collider2d (Point K) (AxisTransform2d K)), m.scale = 1 ∧
      a.transform.scale ≠ 0 ∧
      collides a b = .ok false ∧ collides (a.moved m) (b.moved m) = .ok true := by
  refine ⟨⟨⟨1, 0⟩, 1⟩, ⟨⟨⟩, ⟨⟨0, 0⟩, 2⟩⟩, ⟨⟨⟩, ⟨⟨1, 0⟩, 2⟩⟩, rfl, two_ne_zero, ?_, ?_⟩
  · show Except.ok (FloatExtra.feq _ _ && FloatExtra.feq _ _) = _
    simp [ExactFloat.feq_eq, deltaTransform, compose, inverse, apply, applyOrigin]
  · show Except.ok (FloatExtra.feq _ _ && FloatExtra.feq _ _) = _
    simp [ExactFloat.feq_eq, deltaTransform, compose, inverse, apply, applyOrigin,
      Collider2d.moved]
    norm_num

/-! ## C32 -/

/-- The `sdfv` vector is a world-frame displacement: whenever the relative query answers correctly
in self space, `sdfv` answers correctly for the world regions of the colliders. -/
theorem C32_sdfv_world {A B : Type} [Region A K] [Region B K]
    [SdfvCommonRel2d true true A B T K] [Invertible T] [Composable T]
    (a : Collider2d A T) (b : Collider2d B T) (ha : Similarity a.transform (1 : K))
    (hd : DeltaLaw (K := K) a.transform b.transform) (c : Bool) (v : V2 K)
    (hq : sdfvRel a.shape b.shape (deltaTransform a.transform b.transform) = .ok (c, v))
    (hr : ResolvesLeast c v (Region.pts a.shape)
      (placed (deltaTransform a.transform b.transform) b.shape)) :
    ∃ v', sdfv a b = .ok (c, v') ∧ ResolvesLeast c v' a.region b.region := by
  refine ⟨applyNormal a.transform v, ?_, ?_⟩
  · unfold sdfv; rw [hq]; rfl
  · have h := hr.image ha
    have e : Auburn.image a.transform (placed (deltaTransform a.transform b.transform) b.shape) =
        b.region := by
      ext p
      constructor
      · rintro ⟨x, ⟨q, hq, rfl⟩, rfl⟩; exact ⟨q, hq, hd q⟩
      · rintro ⟨q, hq, rfl⟩; exact ⟨_, ⟨q, hq, rfl⟩, (hd q).symm⟩
    rw [e] at h
    exact h

/-- instances of it: Ball v Ball, Box2d v Point colliders under rigid `Transform2d`s -/
theorem C32_sdfv_world_ball_ball [ExactFloat K] [ExactSqrt K]
    (a b : Collider2d (Ball K) (Transform2d K)) (ha : a.transform.rot.IsUnit)
    (has : a.transform.scale = ⟨1, 1⟩) (hb : b.transform.rot.IsUnit)
    (hbs : b.transform.scale = ⟨1, 1⟩) (hra : 0 ≤ a.shape.radius) (hrb : 0 ≤ b.shape.radius) :
    ∃ c v, sdfv a b = .ok (c, v) ∧ ResolvesLeast c v a.region b.region := by
  have hsim := similarity_transform2d a.transform 1 ha has
  have hdelta : Similarity (deltaTransform a.transform b.transform) (1 : K) := by
    apply similarity_transform2d
    · unfold Rotor2d.IsUnit at *
      simp only [deltaTransform, compose, inverse, Rotor2d.mulR, Rotor2d.inverse]
      linear_combination (b.transform.rot.a.x ^ 2 + b.transform.rot.a.y ^ 2) * ha + hb
    · simp only [deltaTransform, compose, inverse, has, hbs]; ext <;> simp
  obtain ⟨c, v, h1, _, _, h4⟩ := C18_ball_ball_resolves a.shape b.shape hra hrb _ hdelta
  obtain ⟨v', h5, h6⟩ := C32_sdfv_world a b hsim
    (C04_delta_transform2d_uniform a.transform b.transform ha (by rw [has]; exact one_ne_zero)
      (by rw [has])) c v h1 h4
  exact ⟨c, v', h5, h6⟩

theorem C32_sdfv_world_box_point [ExactFloat K] [ExactSqrt K]
    (a : Collider2d (Box2d K) (Transform2d K)) (b : Collider2d (Point K) (Transform2d K))
    (ha : a.transform.rot.IsUnit) (has : a.transform.scale = ⟨1, 1⟩) (hb : b.transform.rot.IsUnit)
    (hbs : b.transform.scale = ⟨1, 1⟩) (hh : 0 ≤ a.shape.halfsize.x ∧ 0 ≤ a.shape.halfsize.y) :
    ∃ c v, sdfv a b = .ok (c, v) ∧ ResolvesLeast c v a.region b.region := by
  have hsim := similarity_transform2d a.transform 1 ha has
  have hdelta : Similarity (deltaTransform a.transform b.transform) (1 : K) := by
    apply similarity_transform2d
    · unfold Rotor2d.IsUnit at *
      simp only [deltaTransform, compose, inverse, Rotor2d.mulR, Rotor2d.inverse]
      linear_combination (b.transform.rot.a.x ^ 2 + b.transform.rot.a.y ^ 2) * ha + hb
    · simp only [deltaTransform, compose, inverse, has, hbs]; ext <;> simp
  obtain ⟨_, _, c, v, h1, _, _, h4⟩ := C22_box_point_vectors a.shape hh b.shape _ hdelta
  obtain ⟨v', h5, h6⟩ := C32_sdfv_world a b hsim
    (C04_delta_transform2d_uniform a.transform b.transform ha (by rw [has]; exact one_ne_zero)
      (by rw [has])) c v h1 h4
  exact ⟨c, v', h5, h6⟩

/-- Finding: `penetrates` (and likewise `distance_to`) on colliders does not rotate its vector back
to world space: a box turned by 90 degrees around a point is told to move by (-1/2, 0), after which
it still overlaps the point robustly, whereas `sdfv` says (0, -1/2). -/
theorem C32_penetrates_frame_finding [ExactFloat K] :
    ∃ (a : Collider2d (Box2d K) (Transform2d K)) (b : Collider2d (Point K) (Transform2d K))
      (v v' : V2 K), a.transform.rot.IsUnit ∧ a.transform.scale = ⟨1, 1⟩ ∧
      b.transform.rot.IsUnit ∧ b.transform.scale = ⟨1, 1⟩ ∧
      penetrates a b = .ok (some v) ∧ Overlap (shift v a.region) b.region ∧
      sdfv a b = .ok (true, v') ∧ v' ≠ v := by
  have hdelta : applyOrigin (deltaTransform (⟨0, ⟨⟨0, 1⟩⟩, ⟨1, 1⟩⟩ : Transform2d K)
      ⟨⟨0, 1 / 2⟩, ⟨⟨1, 0⟩⟩, ⟨1, 1⟩⟩) = ⟨1 / 2, 0⟩ := by
    ext <;> simp [applyOrigin, deltaTransform, compose, inverse, apply, unapply, Rotor2d.rotate,
      Rotor2d.inverse]
  have hval : ∀ D, boxPoint true D (⟨1, 3⟩ : V2 K) ⟨1 / 2, 0⟩ = (true, ⟨-1 / 2, 0⟩) := by
    intro D
    unfold boxPoint
    simp only [ExactFloat.abs_eq, ExactFloat.isSignNeg_eq, decide_eq_true_eq,
      ExactFloat.signum_pos (1 / 2 : K) (by norm_num)]
    rw [abs_of_pos (show (0 : K) < 1 / 2 by norm_num), abs_zero,
      if_pos ⟨by norm_num, by norm_num⟩]
    norm_num
  refine ⟨⟨⟨⟨1, 3⟩⟩, ⟨0, ⟨⟨0, 1⟩⟩, ⟨1, 1⟩⟩⟩, ⟨⟨⟩, ⟨⟨0, 1 / 2⟩, ⟨⟨1, 0⟩⟩, ⟨1, 1⟩⟩⟩, ⟨-1 / 2, 0⟩,
    ⟨0, -1 / 2⟩, by simp [Rotor2d.IsUnit], rfl, by simp [Rotor2d.IsUnit], rfl, ?_, ?_, ?_, ?_⟩
  · show (Except.ok (if (boxPoint true false (⟨1, 3⟩ : V2 K) (applyOrigin (deltaTransform
      (⟨0, ⟨⟨0, 1⟩⟩, ⟨1, 1⟩⟩ : Transform2d K) ⟨⟨0, 1 / 2⟩, ⟨⟨1, 0⟩⟩, ⟨1, 1⟩⟩))).1 then
      some (boxPoint true false (⟨1, 3⟩ : V2 K) (applyOrigin (deltaTransform
      (⟨0, ⟨⟨0, 1⟩⟩, ⟨1, 1⟩⟩ : Transform2d K) ⟨⟨0, 1 / 2⟩, ⟨⟨1, 0⟩⟩, ⟨1, 1⟩⟩))).2 else none) :
      Except Panic (Option (V2 K))) = _
    rw [hdelta, hval]; rfl
  · refine ⟨1 / 4, by norm_num, ?_⟩
    intro w hw
    rw [lengthSq_def] at hw
    have hx : |w.x| ≤ 1 / 4 :=
      abs_le_of_sq_le_sq (by nlinarith [mul_self_nonneg w.y]) (by norm_num)
    have hy : |w.y| ≤ 1 / 4 :=
      abs_le_of_sq_le_sq (by nlinarith [mul_self_nonneg w.x]) (by norm_num)
    rw [abs_le] at hx hy
    refine ⟨⟨0, 1 / 2⟩, ⟨⟨-w.x, 1 / 2 - w.y⟩, ⟨⟨1 / 2 - w.x, 1 / 2 - w.y⟩,
      ⟨⟨1 / 2 - w.y, -(1 / 2 - w.x)⟩, ⟨?_, ?_⟩, ?_⟩, ?_⟩, ?_⟩, ⟨0, rfl, ?_⟩⟩
    · show |1 / 2 - w.y| ≤ 1
      rw [abs_le]; constructor <;> linarith [hy.1, hy.2]
    · show |-(1 / 2 - w.x)| ≤ 3
      rw [abs_le]; constructor <;> linarith [hx.1, hx.2]
    · ext <;> simp [apply, Rotor2d.rotate]
    · ext <;> simp; ring
    · ext <;> simp
    · ext <;> simp [apply, Rotor2d.rotate]
  · show (Except.ok ((boxPoint true true (⟨1, 3⟩ : V2 K) (applyOrigin (deltaTransform
      (⟨0, ⟨⟨0, 1⟩⟩, ⟨1, 1⟩⟩ : Transform2d K) ⟨⟨0, 1 / 2⟩, ⟨⟨1, 0⟩⟩, ⟨1, 1⟩⟩))).1,
      applyNormal (⟨0, ⟨⟨0, 1⟩⟩, ⟨1, 1⟩⟩ : Transform2d K)
      (boxPoint true true (⟨1, 3⟩ : V2 K) (applyOrigin (deltaTransform
      (⟨0, ⟨⟨0, 1⟩⟩, ⟨1, 1⟩⟩ : Transform2d K) ⟨⟨0, 1 / 2⟩, ⟨⟨1, 0⟩⟩, ⟨1, 1⟩⟩))).2) :
      Except Panic (Bool × V2 K)) = _
    rw [hdelta, hval]
    congr 2
    ext <;> simp [applyNormal, Rotor2d.rotate]
  · intro h
    have := congrArg V2.x h
    norm_num at this

end
end Auburn
