import Verif.Props.World
import Verif.Props.Direct

/-!
# C100: swapping the two colliders

`a.collides(b)` and `b.collides(a)` run different searches (the relative transformation, the roles of the shapes and
therefore all intermediate points differ).  The theorems say how far the two answers can be apart.
-/

set_option linter.unusedSectionVars false
set_option synthInstance.maxSize 1000

namespace Auburn

open V2 ExtremePoint2d Transformation2d Auburn.Invertible Composable

section
variable {K : Type} [Field K] [LinearOrder K] [IsStrictOrderedRing K] [FloatExtra K] [ExactFloat K]

/-! ## the specifications are symmetric -/

theorem OverlapBy.swap {δ : K} {X Y : Set (V2 K)} (h : OverlapBy δ X Y) : OverlapBy δ Y X := by
  intro v hv
  rw [touch_shift_swap]
  exact h _ (by rwa [lengthSq_neg])

theorem Overlap.swap {X Y : Set (V2 K)} (h : Overlap X Y) : Overlap Y X := by
  obtain ⟨r, hr, h⟩ := h
  exact ⟨r, hr, OverlapBy.swap h⟩

theorem Touch.swap {X Y : Set (V2 K)} (h : Touch X Y) : Touch Y X := by
  obtain ⟨p, hx, hy⟩ := h; exact ⟨p, hy, hx⟩

theorem WithinReach.swap [ExactSqrt K] {R : K} {X Y : Set (V2 K)} (h : WithinReach R X Y) : WithinReach R Y X := by
  intro p hp q hq
  have := h q hq p hp
  rwa [← neg_sub, length_neg]

theorem MinimalPush.swap {v w : V2 K} {X Y : Set (V2 K)} (h : MinimalPush v X Y) (hw : Separable (shift w Y) X) :
    lengthSq v ≤ (101 / 100) ^ 2 * lengthSq w := by
  have := h.2 (-w) (by rw [separable_shift_swap, neg_neg]; exact hw)
  rwa [lengthSq_neg] at this

variable {A B T : Type} [Region A K] [Region B K] [ExtremePoint2d A K] [ExtremePoint2d B K] [Transformation2d T K]
  [Invertible T] [Composable T] [DefaultMinkowski A B] [DefaultMinkowski B A]
  {a : Collider2d A T} {b : Collider2d B T} {s r : K}

/-! ## any two shapes -/

/-- Colliders that overlap by `δ` (and reach at most `2^15 δ`) collide in both orders; colliders whose points
are farther apart than the tolerance collide in neither order. -/
theorem C100_collides [ExactSqrt K] (h : WorldPair a b s) (h' : WorldPair b a r) :
    (∀ δ R : K, 0 < δ → OverlapBy δ a.region b.region → WithinReach R a.region b.region → R ≤ 2 ^ 15 * δ →
      collides a b = .ok true ∧ collides b a = .ok true) ∧
    ((∀ p ∈ a.region, ∀ q ∈ b.region, (max s r ^ 3 / 2 ^ 23) ^ 2 ≤ lengthSq (p - q) ^ 3) →
      collides a b = .ok false ∧ collides b a = .ok false) := by
  constructor
  · intro δ R hδ hO hR hf
    exact ⟨(C94_found h hδ hO hR hf).1, (C94_found h' hδ hO.swap hR.swap hf).1⟩
  · intro hfar
    obtain ⟨c, hc, -, h1⟩ := C94_collides h
    obtain ⟨c', hc', -, h1'⟩ := C94_collides h'
    have mono : ∀ t : K, 0 < t → t ≤ max s r → (t ^ 3 / 2 ^ 23) ^ 2 ≤ (max s r ^ 3 / 2 ^ 23) ^ 2 := by
      intro t ht hm
      apply pow_le_pow_left₀ (by positivity)
      exact div_le_div_of_nonneg_right (pow_le_pow_left₀ ht.le hm 3) (by positivity)
    constructor
    · rw [hc]
      cases c with
      | false => rfl
      | true =>
        obtain ⟨p, hp, q, hq, hlt⟩ := h1 rfl
        exact absurd (hlt.trans_le ((mono s h.pos (le_max_left _ _)).trans (hfar p hp q hq))) (lt_irrefl _)
    · rw [hc']
      cases c' with
      | false => rfl
      | true =>
        obtain ⟨q, hq, p, hp, hlt⟩ := h1' rfl
        rw [lengthSq_sub_comm] at hlt
        exact absurd (hlt.trans_le ((mono r h'.pos (le_max_right _ _)).trans (hfar p hp q hq))) (lt_irrefl _)

/-- If the two orders disagree, then the colliders do not overlap by any `δ` that is not tiny compared with their
extent, and they come within the tolerance of each other: a disagreement is about contact. -/
theorem C100_disagree [ExactSqrt K] (h : WorldPair a b s) (h' : WorldPair b a r) (hne : collides a b ≠ collides b a) :
    (∀ δ R : K, 0 < δ → WithinReach R a.region b.region → R ≤ 2 ^ 15 * δ → ¬ OverlapBy δ a.region b.region) ∧
    ∃ p ∈ a.region, ∃ q ∈ b.region, lengthSq (p - q) ^ 3 < (max s r ^ 3 / 2 ^ 23) ^ 2 := by
  obtain ⟨h1, h2⟩ := C100_collides h h'
  constructor
  · intro δ R hδ hR hf hO
    obtain ⟨e1, e2⟩ := h1 δ R hδ hO hR hf
    exact hne (e1.trans e2.symm)
  · by_contra hcon
    push Not at hcon
    obtain ⟨e1, e2⟩ := h2 hcon
    exact hne (e1.trans e2.symm)

/-- Deeply overlapping colliders: the pushes of the two orders, both not zero, have the same length up to 1 % (both for
`penetrates`, in world space, and `sdfv`, scaled), and pushing the second collider by the negated push of the
first separates them as well. -/
theorem C100_push [ExactSqrt K] (h : WorldPair a b s) (h' : WorldPair b a r) {δ R : K} (hδ : 0 < δ)
    (hO : OverlapBy δ a.region b.region) (hR : WithinReach R a.region b.region) (hflat : R ≤ 2 ^ 15 * δ)
    (hε : 1 / 2 ^ 23 * R * max s r ^ 3 ≤ δ ^ 4) :
    (∃ v w, penetrates a b = .ok (some v) ∧ penetrates b a = .ok (some w) ∧ (v ≠ 0 → w ≠ 0 →
      lengthSq (worldVec s a.transform v) ≤ (101 / 100) ^ 2 * lengthSq (worldVec r b.transform w) ∧
      lengthSq (worldVec r b.transform w) ≤ (101 / 100) ^ 2 * lengthSq (worldVec s a.transform v) ∧
      Separable (shift (-worldVec s a.transform v) b.region) a.region ∧
      Separable (shift (-worldVec r b.transform w) a.region) b.region)) ∧
    ∃ v w, sdfv a b = .ok (true, v) ∧ sdfv b a = .ok (true, w) ∧ (v ≠ 0 → w ≠ 0 →
      lengthSq (V2.scale s v) ≤ (101 / 100) ^ 2 * lengthSq (V2.scale r w) ∧
      lengthSq (V2.scale r w) ≤ (101 / 100) ^ 2 * lengthSq (V2.scale s v) ∧
      Separable (shift (-V2.scale s v) b.region) a.region ∧
      Separable (shift (-V2.scale r w) a.region) b.region) := by
  have hR0 : 0 ≤ R := by
    obtain ⟨p, hp, hq⟩ := hO 0 (by rw [lengthSq_eq_zero.2 rfl]; positivity)
    obtain ⟨p', hp', rfl⟩ := hp
    exact (V2.length_nonneg _).trans (hR _ hp' _ hq)
  have hs : 1 / 2 ^ 23 * R * s ^ 3 ≤ δ ^ 4 :=
    (mul_le_mul_of_nonneg_left (pow_le_pow_left₀ h.pos.le (le_max_left s r) 3) (by positivity)).trans hε
  have hr : 1 / 2 ^ 23 * R * r ^ 3 ≤ δ ^ 4 :=
    (mul_le_mul_of_nonneg_left (pow_le_pow_left₀ h'.pos.le (le_max_right s r) 3) (by positivity)).trans hε
  obtain ⟨⟨v, hv, hv'⟩, -, x, hx, hx'⟩ := (C94_found h hδ hO hR hflat).2 hs
  obtain ⟨⟨w, hw, hw'⟩, -, y, hy, hy'⟩ := (C94_found h' hδ hO.swap hR.swap hflat).2 hr
  have key : ∀ v' w' : V2 K, MinimalPush v' a.region b.region → MinimalPush w' b.region a.region →
      lengthSq v' ≤ (101 / 100) ^ 2 * lengthSq w' ∧ lengthSq w' ≤ (101 / 100) ^ 2 * lengthSq v' ∧
      Separable (shift (-v') b.region) a.region ∧ Separable (shift (-w') a.region) b.region :=
    fun v' w' m m' => ⟨m.swap m'.1, m'.swap m.1, separable_shift_swap.1 m.1, separable_shift_swap.1 m'.1⟩
  exact ⟨⟨v, w, hv, hw, fun h1 h2 => key _ _ (hv'.2 h1) (hw'.2 h2)⟩,
    ⟨x, y, hx, hy, fun h1 h2 => key _ _ (hx'.2 h1) (hy'.2 h2)⟩⟩

end

/-! ## two boxes -/

section
variable {K : Type} [Field K] [LinearOrder K] [IsStrictOrderedRing K] [FloatExtra K] [ExactFloat K]

/-- Two box colliders, any rotations and uniform scales: if the two orders disagree, the boxes do not
overlap (a line separates them) although they come within the tolerance of each other. -/
theorem C100_boxes_collides [ExactSqrt K] (a b : Collider2d (Box2d K) (Transform2d K)) {s r : K}
    (ha : 0 ≤ a.shape.halfsize.x ∧ 0 ≤ a.shape.halfsize.y) (hb : 0 ≤ b.shape.halfsize.x ∧ 0 ≤ b.shape.halfsize.y)
    (har : a.transform.rot.IsUnit) (hbr : b.transform.rot.IsUnit) (hs : 0 < s) (has : a.transform.scale = ⟨s, s⟩)
    (hr : 0 < r) (hbs : b.transform.scale = ⟨r, r⟩) (hne : collides a b ≠ collides b a) :
    Separable a.region b.region ∧ ¬ Overlap a.region b.region ∧
    ∃ p ∈ a.region, ∃ q ∈ b.region, lengthSq (p - q) ^ 3 < (max s r ^ 3 / 2 ^ 23) ^ 2 := by
  have h := worldPair_transform2d a b (convexShape_box _ ha) (convexShape_box _ hb) har hbr hs has hr.le hbs
  have h' := worldPair_transform2d b a (convexShape_box _ hb) (convexShape_box _ ha) hbr har hr hbs hs.le has
  obtain ⟨c, hc, h1, h2⟩ := C94_boxes_collides a b ha hb har hbr hs has hr.le hbs
  obtain ⟨c', hc', h1', h2'⟩ := C94_boxes_collides b a hb ha hbr har hr hbs hs.le has
  refine ⟨?_, ?_, (C100_disagree h h' hne).2⟩
  · cases c with
    | false => exact h2 rfl
    | true =>
      cases c' with
      | true => exact absurd (hc.trans hc'.symm) hne
      | false =>
        have := h2' rfl
        have e : ∀ X : Set (V2 K), shift 0 X = X := by
          intro X; ext p
          constructor
          · rintro ⟨q, hq, rfl⟩; rwa [add_zero]
          · intro hp; exact ⟨p, hp, (add_zero _).symm⟩
        rw [← e b.region, separable_shift_swap, neg_zero, e] at this
        exact this
  · intro ho
    rw [h1 ho] at hc
    rw [h1' ho.swap] at hc'
    exact hne (hc.trans hc'.symm)

/-- Two box colliders with positive sizes that share no point: both orders return distance vectors, of exactly the same
length in the world, and the two vectors of `sdfv` have the same length up to 1 %. -/
theorem C100_boxes_distance (a b : Collider2d (Box2d K) (Transform2d K)) {s r : K}
    (ha : 0 < a.shape.halfsize.x ∧ 0 < a.shape.halfsize.y) (hb : 0 < b.shape.halfsize.x ∧ 0 < b.shape.halfsize.y)
    (har : a.transform.rot.IsUnit) (hbr : b.transform.rot.IsUnit) (hs : 0 < s) (has : a.transform.scale = ⟨s, s⟩)
    (hr : 0 < r) (hbs : b.transform.scale = ⟨r, r⟩)
    (ho : max s r ^ 2 / 2 ^ 23 ≤ lengthSq (b.transform.pos - a.transform.pos))
    (hres : Resolvable (K := K) a.shape b.shape (deltaTransform a.transform b.transform))
    (hres' : Resolvable (K := K) b.shape a.shape (deltaTransform b.transform a.transform))
    (hn : ¬ Touch a.region b.region) :
    (∃ v w, distanceTo a b = .ok (some v) ∧ distanceTo b a = .ok (some w) ∧
      lengthSq (worldVec s a.transform v) = lengthSq (worldVec r b.transform w)) ∧
    ∃ v w, sdfv a b = .ok (false, v) ∧ sdfv b a = .ok (false, w) ∧
      (99 / 100) ^ 2 * lengthSq (V2.scale s v) ≤ lengthSq (V2.scale r w) ∧
      (99 / 100) ^ 2 * lengthSq (V2.scale r w) ≤ lengthSq (V2.scale s v) := by
  have ho1 : s ^ 2 / 2 ^ 23 ≤ lengthSq (b.transform.pos - a.transform.pos) :=
    (div_le_div_of_nonneg_right (pow_le_pow_left₀ hs.le (le_max_left s r) 2) (by positivity)).trans ho
  have ho2 : r ^ 2 / 2 ^ 23 ≤ lengthSq (a.transform.pos - b.transform.pos) := by
    rw [lengthSq_sub_comm]
    exact (div_le_div_of_nonneg_right (pow_le_pow_left₀ hr.le (le_max_right s r) 2) (by positivity)).trans ho
  obtain ⟨⟨v, hv, hv1, hv2⟩, x, hx, hx1, hx2⟩ := C94_boxes_distance a b ha hb har hbr hs has hr hbs ho1 hres hn
  obtain ⟨⟨w, hw, hw1, hw2⟩, y, hy, hy1, hy2⟩ :=
    C94_boxes_distance b a hb ha hbr har hr hbs hs has ho2 hres' (fun h => hn h.swap)
  refine ⟨⟨v, w, hv, hw, le_antisymm ?_ ?_⟩, x, y, hx, hy, ?_, ?_⟩
  · have := hv2 _ (touch_shift_swap.1 hw1); rwa [lengthSq_neg] at this
  · have := hw2 _ (touch_shift_swap.1 hv1); rwa [lengthSq_neg] at this
  · have := hx2 _ (touch_shift_swap.1 hy1); rwa [lengthSq_neg] at this
  · have := hy2 _ (touch_shift_swap.1 hx1); rwa [lengthSq_neg] at this

end

/-! ## directly implemented pairs -/

section
variable {K : Type} [Field K] [LinearOrder K] [IsStrictOrderedRing K] [FloatExtra K] [ExactFloat K] [ExactSqrt K]
variable {T : Type} [Transformation2d T K] [Invertible T] [Composable T]

theorem applyNormal_scale_sim {t : T} {s : K} (h : Similarity t s) (k : K) (v : V2 K) :
    applyNormal t (V2.scale k v) = V2.scale k (applyNormal t v) := by
  have hz : lengthSq (applyNormal t (V2.scale k v) - V2.scale k (applyNormal t v)) = 0 := by
    have e : ∀ x y : V2 K, lengthSq (x - V2.scale k y) = lengthSq x + k ^ 2 * lengthSq y - 2 * k * x.dot y := by
      intro x y; simp only [lengthSq_def, dot_def, sub_x, sub_y, scale_x, scale_y]; ring
    rw [e, h.lengthSq_applyNormal, h.lengthSq_applyNormal, h.normal.2.2, ← e]
    simp [lengthSq_def]
  exact sub_eq_zero.1 (lengthSq_eq_zero.1 hz)

/-- the position of the second collider seen from the first, turned into the world -/
theorem delta_origin {A B : Type} [Region A K] [Region B K] [ExtremePoint2d A K] [ExtremePoint2d B K]
    {a : Collider2d A T} {b : Collider2d B T} (h : WorldPair a b 1) {r : K} (hb : Similarity b.transform r) :
    applyNormal a.transform (applyOrigin (deltaTransform a.transform b.transform)) =
      applyOrigin b.transform - applyOrigin a.transform := by
  obtain ⟨r', -, hd⟩ := h.sim
  have h1 := h.delta 0
  rw [← hd.origin, ← hb.origin, h.self.apply_eq] at h1
  rw [← h1]; ext <;> simp

/-- Two ball colliders (rigid placements): `collides` and `sdf` do not depend on the order at all, and `sdfv` returns
the opposite vector, unless the centres coincide. -/
theorem C100_balls (a b : Collider2d (Ball K) T) (h : WorldPair a b 1) (h' : WorldPair b a 1) :
    collides a b = collides b a ∧ sdf a b = sdf b a ∧
    (applyOrigin a.transform ≠ applyOrigin b.transform →
      ∃ c v, sdfv a b = .ok (c, v) ∧ sdfv b a = .ok (c, -v)) := by
  have e1 := delta_origin h h'.self
  have e2 := delta_origin h' h.self
  set x := applyOrigin (deltaTransform a.transform b.transform) with hx
  set y := applyOrigin (deltaTransform b.transform a.transform) with hy
  have hl : x.length = y.length := by
    have h1 : x.length ^ 2 = y.length ^ 2 := by
      rw [V2.length_sq, V2.length_sq, ← h.self.lengthSq_applyNormal x, ← h'.self.lengthSq_applyNormal y, e1, e2,
        lengthSq_sub_comm]
    exact (pow_left_inj₀ (V2.length_nonneg _) (V2.length_nonneg _) two_ne_zero).1 h1
  have hc : a.shape.radius + b.shape.radius = b.shape.radius + a.shape.radius := add_comm _ _
  have hf : ∀ R, (ballDelta R x).1 = (ballDelta R y).1 := by
    intro R; unfold ballDelta; simp only [hl]; split_ifs <;> rfl
  refine ⟨?_, ?_, fun hne => ?_⟩
  · show Except.ok (ballDelta _ x).1 = Except.ok (ballDelta _ y).1
    rw [hc, hf]
  · show Except.ok (x.length - _) = Except.ok (y.length - _)
    rw [hl, hc]
  · refine ⟨(ballDelta (a.shape.radius + b.shape.radius) x).1,
      applyNormal a.transform (ballDelta (a.shape.radius + b.shape.radius) x).2, rfl, ?_⟩
    show Except.ok ((ballDelta _ y).1, applyNormal b.transform (ballDelta _ y).2) = Except.ok ((ballDelta _ x).1, _)
    rw [hf, hc]
    have hx0 : 0 < x.length := by
      rw [V2.length_pos]
      intro h0
      apply hne
      have hz : applyNormal a.transform x = 0 := by
        rw [← lengthSq_eq_zero, h.self.lengthSq_applyNormal, lengthSq_eq_zero]; exact h0
      rw [hz] at e1
      exact (sub_eq_zero.1 e1.symm).symm
    unfold ballDelta
    simp only [← hl, if_pos hx0]
    rw [applyNormal_scale_sim h'.self, applyNormal_scale_sim h.self, e1, e2]
    congr 2
    ext <;> simp <;> ring

/-- Finding: coincident balls are pushed in the same direction from both sides, so applying both answers (or the
negated answer of the swapped call) does not separate them. -/
theorem C100_coincident_finding (a b : Ball K) (p : V2 K) :
    sdfv (Collider2d.mk a p) (Collider2d.mk b p) = .ok (true, ⟨a.radius + b.radius, 0⟩) ∧
    sdfv (Collider2d.mk b p) (Collider2d.mk a p) = .ok (true, ⟨a.radius + b.radius, 0⟩) := by
  have key : ∀ c d : Ball K, sdfv (Collider2d.mk c p) (Collider2d.mk d p) = .ok (true, ⟨c.radius + d.radius, 0⟩) := by
    intro c d
    have e : (applyOrigin (deltaTransform p p) : V2 K) = 0 := by
      ext <;> simp [applyOrigin, deltaTransform, compose, inverse, apply]
    show Except.ok ((ballDelta (c.radius + d.radius) (applyOrigin (deltaTransform p p) : V2 K)).1,
      (ballDelta (c.radius + d.radius) (applyOrigin (deltaTransform p p) : V2 K)).2) = _
    rw [e]
    rcases ballDelta_cases (c.radius + d.radius) (0 : V2 K) with ⟨h, _⟩ | ⟨_, e⟩
    · exact absurd rfl h
    · rw [e]; congr 2; ext <;> simp
  exact ⟨key a b, by rw [key b a, add_comm]⟩

/-- A ball and a box (rigid placements, positive radius).  `Ball v Box2d` runs the general search, `Box2d v Ball` a
formula, which is exact; when they overlap by `δ` (and reach at most `2^15 δ`) both say so; when they are
farther apart than the tolerance neither does. -/
theorem C100_ball_box (a : Collider2d (Ball K) T) (b : Collider2d (Box2d K) T) (h : WorldPair a b 1)
    (h' : WorldPair b a 1) (ha : 0 < a.shape.radius) (hb : 0 ≤ b.shape.halfsize.x ∧ 0 ≤ b.shape.halfsize.y)
    (hrel : Similarity (deltaTransform b.transform a.transform) (1 : K)) :
    (∀ δ R : K, 0 < δ → OverlapBy δ a.region b.region → WithinReach R a.region b.region → R ≤ 2 ^ 15 * δ →
      collides a b = .ok true ∧ collides b a = .ok true) ∧
    ((∀ p ∈ a.region, ∀ q ∈ b.region, (1 / 2 ^ 23 : K) ^ 2 ≤ lengthSq (p - q) ^ 3) →
      collides a b = .ok false ∧ collides b a = .ok false) := by
  obtain ⟨c, hc, -, hO⟩ := C25_box_ball_collides b.shape hb a.shape ha (deltaTransform b.transform a.transform) hrel
  have hc : collides b a = .ok c := hc
  constructor
  · intro δ R hδ hD hR hf
    refine ⟨(C94_found h hδ hD hR hf).1, ?_⟩
    have h1 : Overlap b.region a.region := ⟨δ, hδ, hD.swap⟩
    rw [h'.region] at h1
    rw [hc, hO.2 (overlap_sim h'.self h'.pos h1)]
  · intro hfar
    obtain ⟨c', hc', -, h1⟩ := C94_collides h
    constructor
    · rw [hc']
      cases c' with
      | false => rfl
      | true =>
        obtain ⟨p, hp, q, hq, hlt⟩ := h1 rfl
        rw [one_pow] at hlt
        exact absurd (hlt.trans_le (hfar p hp q hq)) (lt_irrefl _)
    · rw [hc]
      cases c with
      | false => rfl
      | true =>
        obtain ⟨r, hr, ho⟩ := hO.1 rfl
        have ht := ho 0 (by rw [lengthSq_eq_zero.2 rfl]; positivity)
        have hw : Touch b.region a.region := by
          rw [h'.region]
          apply (touch_sim h'.self h'.pos _ _).2
          obtain ⟨p, ⟨q, hq, rfl⟩, hp⟩ := ht
          exact ⟨q, hq, by rwa [add_zero] at hp⟩
        obtain ⟨p, hpb, hpa⟩ := hw
        have := hfar p hpa p hpb
        rw [sub_self, lengthSq_eq_zero.2 rfl] at this
        norm_num at this

end

/-! ## finding and examples -/

section
attribute [local instance] ratFloat ratFloat_exact

/-- Finding: the tolerance is measured in the units of the first collider.  A unit box scaled by 100 and a unit
box that are a millionth apart: one order reports a collision, the other does not, and they do not touch. -/
theorem C100_order_finding :
    let a : Collider2d (Box2d ℚ) (Transform2d ℚ) := ⟨⟨⟨1, 1⟩⟩, ⟨0, ⟨⟨1, 0⟩⟩, ⟨100, 100⟩⟩⟩
    let b : Collider2d (Box2d ℚ) (Transform2d ℚ) := ⟨⟨⟨1, 1⟩⟩, ⟨⟨101 + 1 / 1000000, 1 / 2⟩, ⟨⟨1, 0⟩⟩, ⟨1, 1⟩⟩⟩
    collides a b = .ok true ∧ collides b a = .ok false ∧ ¬ Touch a.region b.region := by
  intro a b
  refine ⟨by decide +kernel, by decide +kernel, ?_⟩
  rintro ⟨p, ⟨q, ⟨h1, _⟩, rfl⟩, ⟨q', ⟨h2, _⟩, e⟩⟩
  have h3 := (abs_le.1 h1).2
  have h4 := (abs_le.1 h2).1
  have h5 := congrArg V2.x e
  simp [a, b, apply, Rotor2d.rotate] at h3 h4 h5
  linarith

/-- the hypotheses of the theorem about distances are met, and the two answers are what they should be -/
example :
    let a : Collider2d (Box2d ℚ) (Transform2d ℚ) := ⟨⟨⟨7, 4⟩⟩, ⟨0, ⟨⟨1, 0⟩⟩, ⟨1, 1⟩⟩⟩
    let b : Collider2d (Box2d ℚ) (Transform2d ℚ) := ⟨⟨⟨6, 7⟩⟩, ⟨⟨30, 0⟩, ⟨⟨3 / 5, 4 / 5⟩⟩, ⟨1, 1⟩⟩⟩
    (max 1 1 ^ 2 / 2 ^ 23 : ℚ) ≤ lengthSq (b.transform.pos - a.transform.pos) ∧
    Resolvable (K := ℚ) a.shape b.shape (deltaTransform a.transform b.transform) ∧
    Resolvable (K := ℚ) b.shape a.shape (deltaTransform b.transform a.transform) ∧
    ¬ Touch a.region b.region ∧
    distanceTo a b = .ok (some ⟨69 / 5, 0⟩) ∧ distanceTo b a = .ok (some ⟨-207 / 25, 276 / 25⟩) := by
  intro a b
  refine ⟨by norm_num [a, b, lengthSq_def], ?_, ?_, ?_, by decide +kernel, by decide +kernel⟩
  · exact resolvable_box_box _ _ _ (n := 2) (q := 5) (by norm_num) (by norm_num) (by norm_num)
      ⟨14, 8, by ext <;> norm_num [a]⟩ ⟨12, 14, by ext <;> norm_num [b]⟩
      ⟨60, 0, by ext <;> norm_num [a, b, deltaTransform, compose, inverse, apply, unapply, Rotor2d.rotate, Rotor2d.inverse]⟩
      ⟨3, 4, by ext <;> norm_num [a, b, deltaTransform, compose, inverse, Rotor2d.mulR, Rotor2d.inverse]⟩ (by rw [delta_scale (s := 1) (r := 1) rfl rfl]; norm_num)
  · exact resolvable_box_box _ _ _ (n := 2) (q := 5) (by norm_num) (by norm_num) (by norm_num)
      ⟨12, 14, by ext <;> norm_num [b]⟩ ⟨14, 8, by ext <;> norm_num [a]⟩
      ⟨-36, 48, by ext <;> norm_num [a, b, deltaTransform, compose, inverse, apply, unapply, Rotor2d.rotate, Rotor2d.inverse]⟩
      ⟨3, -4, by ext <;> norm_num [a, b, deltaTransform, compose, inverse, Rotor2d.mulR, Rotor2d.inverse]⟩ (by rw [delta_scale (s := 1) (r := 1) rfl rfl]; norm_num)
  · rintro ⟨p, ⟨q, ⟨h1, _⟩, rfl⟩, ⟨q', ⟨h2, h2'⟩, e⟩⟩
    have h3 := (abs_le.1 h1).2
    have h4 := (abs_le.1 h2).1
    have h6 := (abs_le.1 h2').2
    have h5 := congrArg V2.x e
    simp [a, b, apply, Rotor2d.rotate] at h3 h4 h5 h6
    linarith

end

/-- the hypotheses of the general theorems are met by two boxes that overlap by a half -/
example : let _ := realFloat true 0
    let a : Collider2d (Box2d ℝ) (V2 ℝ) := ⟨⟨⟨1, 1⟩⟩, 0⟩
    let b : Collider2d (Box2d ℝ) (V2 ℝ) := ⟨⟨⟨1, 1⟩⟩, ⟨1, 0⟩⟩
    WorldPair a b (1 : ℝ) ∧ WorldPair b a (1 : ℝ) ∧ OverlapBy (1 / 2) a.region b.region ∧
      WithinReach 8 a.region b.region ∧ (8 : ℝ) ≤ 2 ^ 15 * (1 / 2) ∧
      (1 / 2 ^ 23 * 8 * max 1 1 ^ 3 : ℝ) ≤ (1 / 2) ^ 4 := by
  intro _ a b
  have := realFloat_exact true 0
  have := realFloat_sqrt true 0
  refine ⟨worldPair_vec2 a b (convexShape_box _ ⟨by norm_num [a], by norm_num [a]⟩)
      (convexShape_box _ ⟨by norm_num [b], by norm_num [b]⟩),
    worldPair_vec2 b a (convexShape_box _ ⟨by norm_num [b], by norm_num [b]⟩)
      (convexShape_box _ ⟨by norm_num [a], by norm_num [a]⟩), ?_, ?_, by norm_num, by norm_num⟩
  · intro v hv
    rw [lengthSq_def] at hv
    have hx : |v.x| ≤ 1 / 2 := abs_le_of_sq_le_sq (by nlinarith [mul_self_nonneg v.y]) (by norm_num)
    have hy : |v.y| ≤ 1 / 2 := abs_le_of_sq_le_sq (by nlinarith [mul_self_nonneg v.x]) (by norm_num)
    rw [abs_le] at hx hy
    refine ⟨⟨1 / 2, 0⟩ + v, ⟨⟨1 / 2, 0⟩, ⟨⟨1 / 2, 0⟩, ?_, ?_⟩, rfl⟩, ⟨⟨-1 / 2 + v.x, v.y⟩, ?_, ?_⟩⟩
    · show |(1 / 2 : ℝ)| ≤ 1 ∧ |(0 : ℝ)| ≤ 1
      norm_num [abs_le]
    · ext <;> simp [apply, a]
    · show |-1 / 2 + v.x| ≤ 1 ∧ |v.y| ≤ 1
      constructor <;> rw [abs_le] <;> constructor <;> linarith [hx.1, hx.2, hy.1, hy.2]
    · ext <;> simp [apply, b] <;> ring
  · rintro _ ⟨p, ⟨hp1, hp2⟩, rfl⟩ _ ⟨q, ⟨hq1, hq2⟩, rfl⟩
    apply le_of_sq_le_sq _ (by norm_num)
    rw [V2.length_sq, lengthSq_def]
    simp only [apply, sub_x, sub_y, add_x, add_y, a, b, zero_x, zero_y] at hp1 hp2 hq1 hq2 ⊢
    rw [abs_le] at hp1 hp2 hq1 hq2
    have k3 := sq_le_sq' (show -3 ≤ p.x + 0 - (q.x + 1) by linarith [hp1.1, hq1.2]) (by linarith [hp1.2, hq1.1])
    have k4 := sq_le_sq' (show -3 ≤ p.y + 0 - (q.y + 0) by linarith [hp2.1, hq2.2]) (by linarith [hp2.2, hq2.1])
    nlinarith [k3, k4]

end Auburn
