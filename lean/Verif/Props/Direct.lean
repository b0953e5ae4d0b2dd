import Verif.Lib.SignedDist
import Verif.Props.Shapes

/-!
# C17–C28: the directly implemented pairs (Ball, Box2d, RoundedBox2d, Point)

All statements are about the answers of the public `*_rel` methods, for every relative placement
`rel` that is a rigid motion (`Similarity rel 1`) of any transformation type.  `self` is at the
origin, the other shape at `placed rel b`.
-/

set_option linter.unusedSectionVars false

namespace Auburn

open V2 ExtremePoint2d Transformation2d

section
variable {K : Type} [Field K] [LinearOrder K] [IsStrictOrderedRing K] [FloatExtra K] [ExactFloat K]
  [ExactSqrt K] {T : Type} [Transformation2d T K]

/-! ## regions as thick sets -/

theorem ball_thick {b : Ball K} (h : 0 ≤ b.radius) : Region.pts b = thick {(0 : V2 K)} b.radius := by
  ext p
  rw [mem_thick_singleton]
  constructor
  · rintro ⟨_, hp⟩; rwa [sub_zero]
  · intro hp; rw [sub_zero] at hp; exact ⟨h, hp⟩

theorem thick_zero (C : Set (V2 K)) : thick C 0 = C := by
  ext p
  constructor
  · rintro ⟨q, hq, h⟩
    have : p - q = 0 := lengthSq_eq_zero.1 (le_antisymm (by simpa using h) (lengthSq_nonneg _))
    rw [sub_eq_zero.1 this]; exact hq
  · intro h; exact ⟨p, h, by rw [sub_self, lengthSq_eq_zero.2 rfl]; simp⟩

theorem rounded_thick {r : RoundedBox2d K} (h : 0 ≤ r.radius) :
    Region.pts r = thick (Region.pts (Box2d.mk r.halfsize)) r.radius := by
  ext p
  constructor
  · rintro ⟨_, hp⟩; exact hp
  · intro hp; exact ⟨h, hp⟩

theorem placed_point (rel : T) (hrel : Similarity rel (1 : K)) (p : Point K) :
    placed rel p = {applyOrigin rel} := by
  ext x
  constructor
  · rintro ⟨q, hq, rfl⟩
    rw [show q = 0 from hq, ← hrel.origin]; rfl
  · intro hx
    exact ⟨0, rfl, by rw [← hrel.origin]; exact hx⟩

theorem placed_ball (rel : T) (hrel : Similarity rel (1 : K)) {b : Ball K} (h : 0 ≤ b.radius) :
    placed rel b = thick {applyOrigin rel} b.radius := by
  ext x
  rw [mem_thick_singleton]
  constructor
  · rintro ⟨q, ⟨_, hq⟩, rfl⟩
    have := hrel.dist q 0
    rw [hrel.origin, this, sub_zero]; linarith
  · intro hx
    refine ⟨unapplyNormal rel (x - applyOrigin rel), ⟨h, ?_⟩, ?_⟩
    · rw [hrel.lengthSq_unapplyNormal]; exact hx
    · rw [hrel.apply_eq, hrel.normal.2.1]; ext <;> simp

/-! ## C17–C19: Ball v Ball -/

/-- the kernel of Ball v Ball and Ball v Point -/
theorem ballDelta_cases (R : K) (δ : V2 K) :
    (δ ≠ 0 ∧ ballDelta R δ =
      (decide (δ.length < R), V2.scale (δ.length - R) (V2.scale (1 / δ.length) δ))) ∨
    (δ = 0 ∧ ballDelta R δ = (true, V2.scale (0 - R) (⟨-1, 0⟩ : V2 K))) := by
  unfold ballDelta
  by_cases h : δ = 0
  · right
    refine ⟨h, ?_⟩
    subst h
    simp only
    rw [if_neg (by rw [length_zero]; exact lt_irrefl _)]
    congr 1
    ext <;> simp [unitX]
  · left
    refine ⟨h, ?_⟩
    have hl := V2.length_pos.2 h
    simp only
    rw [if_pos hl]
    congr 1
    ext <;> simp <;> field_simp

theorem ballDelta_resolves {ra rb : K} (hra : 0 ≤ ra) (hrb : 0 ≤ rb) (δ : V2 K) :
    ResolvesLeast (ballDelta (ra + rb) δ).1 (ballDelta (ra + rb) δ).2 (thick {(0 : V2 K)} ra)
      (thick {δ} rb) := by
  rcases ballDelta_cases (ra + rb) δ with ⟨h, e⟩ | ⟨h, e⟩
  · rw [e]
    refine (signedDist_point δ h).resolves hra hrb _ ?_ ?_
    · intro h; exact (of_decide_eq_true h).le
    · intro h; exact not_lt.1 (of_decide_eq_false h)
  · rw [e]
    subst h
    refine (signedDist_point_zero ⟨-1, 0⟩ (by simp [lengthSq_def])).resolves hra hrb _ ?_ ?_
    · intro _; linarith
    · intro h; exact absurd h (by simp)

/-- the collision flag: balls at different centres collide iff they overlap robustly (for positive
radii: iff the open discs meet); touching is not a collision; coincident centres always collide -/
theorem C17_ball_ball_collides (a b : Ball K) (ha : 0 ≤ a.radius) (hb : 0 ≤ b.radius) (rel : T)
    (hrel : Similarity rel (1 : K)) :
    ∃ c, collidesRel a b rel = .ok c ∧
      (applyOrigin rel ≠ 0 → (c = true ↔ Overlap (Region.pts a) (placed rel b))) ∧
      (applyOrigin rel = 0 → c = true) := by
  refine ⟨(ballDelta (a.radius + b.radius) (applyOrigin rel)).1, rfl, ?_, ?_⟩
  · intro h
    rcases ballDelta_cases (a.radius + b.radius) (applyOrigin rel) with ⟨_, e⟩ | ⟨h', _⟩
    · rw [e, ball_thick ha, placed_ball rel hrel hb, (signedDist_point _ h).overlap_iff ha hb]
      simp
    · exact absurd h' h
  · intro h
    rcases ballDelta_cases (a.radius + b.radius) (applyOrigin rel) with ⟨h', _⟩ | ⟨_, e⟩
    · exact absurd h h'
    · rw [e]

/-- the same in terms of the open discs -/
theorem C17_ball_ball_open_discs (a b : Ball K) (ha : 0 < a.radius) (hb : 0 < b.radius) (rel : T) :
    collidesRel a b rel = .ok true ↔
      ∃ p : V2 K, p ∈ openDisc 0 a.radius ∧ p ∈ openDisc (applyOrigin rel) b.radius := by
  have hR : 0 < a.radius + b.radius := by linarith
  have key : collidesRel a b rel = .ok true ↔
      lengthSq (applyOrigin rel) < (a.radius + b.radius) ^ 2 := by
    rw [← V2.length_sq, sq_lt_sq₀ (V2.length_nonneg _) hR.le]
    show Except.ok (ballDelta (a.radius + b.radius) (applyOrigin rel)).1 = _ ↔ _
    rcases ballDelta_cases (a.radius + b.radius) (applyOrigin rel) with ⟨_, e⟩ | ⟨h, e⟩
    · rw [e]; simp
    · rw [e, h, length_zero]; simp [hR]
  rw [key]
  constructor
  · intro h
    refine ⟨V2.scale (a.radius / (a.radius + b.radius)) (applyOrigin rel), ⟨ha, ?_⟩, ⟨hb, ?_⟩⟩
    · rw [sub_zero, lengthSq_scale, div_pow, div_mul_eq_mul_div, div_lt_iff₀ (by positivity)]
      exact mul_lt_mul_of_pos_left h (by positivity)
    · have e : V2.scale (a.radius / (a.radius + b.radius)) (applyOrigin rel) - applyOrigin rel =
          V2.scale (-(b.radius / (a.radius + b.radius))) (applyOrigin rel) := by
        ext <;> simp <;> field_simp <;> ring
      rw [e, lengthSq_scale, neg_sq, div_pow, div_mul_eq_mul_div, div_lt_iff₀ (by positivity)]
      exact mul_lt_mul_of_pos_left h (by positivity)
  · rintro ⟨p, ⟨_, h1⟩, ⟨_, h2⟩⟩
    rw [sub_zero] at h1
    have e : applyOrigin rel = p + -(p - applyOrigin rel) := by ext <;> simp
    have t := length_add_le p (-(p - applyOrigin rel))
    rw [← e, length_neg] at t
    rw [← V2.length_sq, sq_lt_sq₀ (V2.length_nonneg _) ha.le] at h1
    rw [← V2.length_sq, sq_lt_sq₀ (V2.length_nonneg _) hb.le] at h2
    rw [← V2.length_sq, sq_lt_sq₀ (V2.length_nonneg _) hR.le]
    linarith

/-- Finding: two coincident balls of radius zero (points) are reported as colliding, although
nothing overlaps: Ball v Ball treats coincident centres as a collision unconditionally. -/
theorem C17_coincident_finding :
    ∃ (a b : Ball K) (rel : V2 K), 0 ≤ a.radius ∧ 0 ≤ b.radius ∧
      collidesRel a b rel = .ok true ∧ ¬ Overlap (Region.pts a) (placed rel b) := by
  refine ⟨⟨0⟩, ⟨0⟩, 0, le_refl _, le_refl _, ?_, ?_⟩
  · obtain ⟨c, h1, _, h3⟩ := C17_ball_ball_collides (⟨0⟩ : Ball K) ⟨0⟩ (le_refl _) (le_refl _)
      (0 : V2 K) (similarity_vec2 _)
    rw [h1, h3 rfl]
  · rw [ball_thick (le_refl _), placed_ball (0 : V2 K) (similarity_vec2 _) (le_refl _)]
    have h := (signedDist_point_zero (K := K) ⟨1, 0⟩ (by simp [lengthSq_def])).overlap_iff
      (le_refl (0 : K)) (le_refl 0)
    intro ho
    have := h.1 ho
    simp at this

/-- Finding: the relative transform's scale is ignored: balls that overlap through the scale of the
second one are reported apart. -/
theorem C17_scale_finding :
    ∃ (a b : Ball K) (rel : AxisTransform2d K), 0 < a.radius ∧ 0 < b.radius ∧ 0 < rel.scale ∧
      collidesRel a b rel = .ok false ∧ Overlap (Region.pts a) (placed rel b) := by
  have hl : (⟨3, 0⟩ : V2 K).length = 3 := by
    have h := V2.length_sq (⟨3, 0⟩ : V2 K)
    have h2 := V2.length_nonneg (⟨3, 0⟩ : V2 K)
    rw [lengthSq_def] at h
    nlinarith
  refine ⟨⟨1⟩, ⟨1⟩, ⟨⟨3, 0⟩, 10⟩, by norm_num, by norm_num, by norm_num, ?_, ?_⟩
  · show Except.ok (ballDelta (1 + 1 : K) ⟨3, 0⟩).1 = _
    rcases ballDelta_cases (1 + 1 : K) ⟨3, 0⟩ with ⟨_, e⟩ | ⟨h, _⟩
    · rw [e, hl]; norm_num
    · have := congrArg V2.x h; norm_num at this
  · refine ⟨1, by norm_num, ?_⟩
    intro v hv
    refine ⟨v, ⟨0, ⟨by norm_num, by simp [lengthSq_def]⟩, by ext <;> simp⟩,
      V2.scale (1 / 10) (v - ⟨3, 0⟩), ⟨by norm_num, ?_⟩, ?_⟩
    · rw [lengthSq_scale]
      rw [lengthSq_def] at hv
      have hx : |v.x| ≤ 1 := abs_le_of_sq_le_sq (by nlinarith [mul_self_nonneg v.y]) (by norm_num)
      rw [abs_le] at hx
      simp only [lengthSq_def, sub_x, sub_y]
      nlinarith [hx.1, hx.2]
    · ext <;> simp [apply]

/-- the resolution vector of all four queries is the least move of self to touching contact -/
theorem C18_ball_ball_resolves (a b : Ball K) (ha : 0 ≤ a.radius) (hb : 0 ≤ b.radius) (rel : T)
    (hrel : Similarity rel (1 : K)) :
    ∃ c v, sdfvRel a b rel = .ok (c, v) ∧
      penetratesRel a b rel = .ok (if c then some v else none) ∧
      distanceToRel a b rel = .ok (if c then none else some v) ∧
      ResolvesLeast c v (Region.pts a) (placed rel b) := by
  refine ⟨(ballDelta (a.radius + b.radius) (applyOrigin rel)).1,
    (ballDelta (a.radius + b.radius) (applyOrigin rel)).2, rfl, rfl, rfl, ?_⟩
  rw [ball_thick ha, placed_ball rel hrel hb]
  exact ballDelta_resolves ha hb _

/-- signed distance: negative iff colliding (for different centres), the gap between the discs when
not negative, and its square is the squared length of the `sdfv` vector -/
theorem C19_ball_ball_sdf (a b : Ball K) (ha : 0 ≤ a.radius) (hb : 0 ≤ b.radius) (rel : T)
    (hrel : Similarity rel (1 : K)) :
    ∃ s c v, SdfRel2d.sdfRel a b rel = .ok s ∧ sdfvRel a b rel = .ok (c, v) ∧
      s ^ 2 = lengthSq v ∧ (applyOrigin rel ≠ 0 → (c = true ↔ s < 0)) ∧
      (0 ≤ s → IsSetDist (Region.pts a) (placed rel b) s) := by
  refine ⟨(applyOrigin rel).length - (a.radius + b.radius),
    (ballDelta (a.radius + b.radius) (applyOrigin rel)).1,
    (ballDelta (a.radius + b.radius) (applyOrigin rel)).2, rfl, rfl, ?_, ?_, ?_⟩
  · rcases ballDelta_cases (a.radius + b.radius) (applyOrigin rel) with ⟨h, e⟩ | ⟨h, e⟩
    · rw [e]
      simp only
      rw [lengthSq_scale, (signedDist_point _ h).unit, mul_one]
    · rw [e, h, length_zero]
      simp only [lengthSq_def, scale_x, scale_y]; ring
  · intro h
    rcases ballDelta_cases (a.radius + b.radius) (applyOrigin rel) with ⟨_, e⟩ | ⟨h', _⟩
    · rw [e]; simp [sub_neg]
    · exact absurd h' h
  · intro hs
    rw [ball_thick ha, placed_ball rel hrel hb]
    set δ := applyOrigin rel with hδ
    refine ⟨hs, ?_, ?_⟩
    · by_cases h : δ = 0
      · rw [h, length_zero] at hs ⊢
        have e1 : a.radius = 0 := by linarith
        have e2 : b.radius = 0 := by linarith
        refine ⟨0, ⟨0, rfl, by simp [lengthSq_def, sq_nonneg]⟩, 0,
          ⟨0, rfl, by simp [lengthSq_def, sq_nonneg]⟩, by simp [lengthSq_def, e1, e2]⟩
      · have hl := V2.length_pos.2 h
        have hu := (signedDist_point δ h).unit
        have hd : δ = V2.scale δ.length (V2.scale (1 / δ.length) δ) := by
          ext <;> simp <;> field_simp
        set g := V2.scale (1 / δ.length) δ
        refine ⟨V2.scale a.radius g, ⟨0, rfl, ?_⟩, V2.scale (δ.length - b.radius) g,
          ⟨δ, rfl, ?_⟩, ?_⟩
        · rw [sub_zero, lengthSq_scale, hu, mul_one]
        · have : V2.scale (δ.length - b.radius) g - δ = V2.scale (-b.radius) g := by
            ext
            · have := congrArg V2.x hd; simp at this ⊢; linear_combination -this
            · have := congrArg V2.y hd; simp at this ⊢; linear_combination -this
          rw [this, lengthSq_scale, hu]; simp
        · have : V2.scale a.radius g - V2.scale (δ.length - b.radius) g =
              V2.scale (-(δ.length - (a.radius + b.radius))) g := by ext <;> simp <;> ring
          rw [this, lengthSq_scale, hu, neg_sq, mul_one]
    · rintro p ⟨p0, hp0, hp⟩ q ⟨q0, hq0, hq⟩
      rw [show p0 = 0 from hp0] at hp
      rw [show q0 = δ from hq0] at hq
      rw [sub_zero] at hp
      have l1 := length_le_of_sq ha hp
      have l2 := length_le_of_sq hb hq
      have e : δ = p + (-(p - q) + -(q - δ)) := by ext <;> simp
      have t := length_add_le p (-(p - q) + -(q - δ))
      have t2 := length_add_le (-(p - q)) (-(q - δ))
      rw [← e] at t
      rw [length_neg, length_neg] at t2
      rw [← V2.length_sq]
      exact (sq_le_sq₀ hs (V2.length_nonneg _)).2 (by linarith)

/-! ## C20: Ball v Point -/

/-- Ball v Point: collides iff the point is strictly inside or at the centre; the vector leads from
the nearest point of the circle to the point; `sdf` is the signed distance to the circle. -/
theorem C20_ball_point (a : Ball K) (ha : 0 ≤ a.radius) (pt : Point K) (rel : T)
    (hrel : Similarity rel (1 : K)) :
    ∃ c v s, collidesRel a pt rel = .ok c ∧ sdfvRel a pt rel = .ok (c, v) ∧
      SdfRel2d.sdfRel a pt rel = .ok s ∧
      (c = true ↔ applyOrigin rel = 0 ∨ applyOrigin rel ∈ openDisc 0 a.radius) ∧
      IsNearest (applyOrigin rel) (circle a.radius) (applyOrigin rel - v) ∧
      s ^ 2 = lengthSq v ∧ (s < 0 ↔ applyOrigin rel ∈ openDisc 0 a.radius) ∧
      ResolvesLeast c v (Region.pts a) (placed rel pt) := by
  set δ := applyOrigin rel with hδ
  have hmem : δ ∈ openDisc 0 a.radius ↔ δ.length < a.radius := by
    constructor
    · rintro ⟨h0, h⟩
      rw [sub_zero, ← V2.length_sq, sq_lt_sq₀ (V2.length_nonneg _) h0.le] at h
      exact h
    · intro h
      have h0 : 0 < a.radius := lt_of_le_of_lt (V2.length_nonneg _) h
      exact ⟨h0, by rw [sub_zero, ← V2.length_sq, sq_lt_sq₀ (V2.length_nonneg _) h0.le]; exact h⟩
  have hlow : ∀ q ∈ circle a.radius, (δ.length - a.radius) ^ 2 ≤ lengthSq (δ - q) := by
    intro q hq
    have hq' : q.length = a.radius := by
      have h1 := V2.length_sq q
      rw [show lengthSq q = a.radius ^ 2 from hq] at h1
      exact (pow_left_inj₀ (V2.length_nonneg _) ha (by norm_num)).1 h1
    have h1 := length_add_le (δ - q) q
    have h2 := length_add_le (-(δ - q)) δ
    rw [show δ - q + q = δ by ext <;> simp, hq'] at h1
    rw [show -(δ - q) + δ = q by ext <;> simp, length_neg, hq'] at h2
    rw [← V2.length_sq, sq_le_sq, abs_of_nonneg (V2.length_nonneg (δ - q)), abs_le]
    constructor <;> linarith
  refine ⟨(ballDelta a.radius δ).1, (ballDelta a.radius δ).2, δ.length - a.radius, rfl, rfl, rfl,
    ?_, ?_, ?_, ?_, ?_⟩
  · rw [hmem]
    rcases ballDelta_cases a.radius δ with ⟨h, e⟩ | ⟨h, e⟩
    · rw [e]; simp [h]
    · rw [e]; simp [h]
  · rcases ballDelta_cases a.radius δ with ⟨h, e⟩ | ⟨h, e⟩
    · rw [e]
      have hu := (signedDist_point δ h).unit
      have hd := (signedDist_point δ h).eq
      set g := V2.scale (1 / δ.length) δ
      simp only
      have e1 : δ - V2.scale (δ.length - a.radius) g = V2.scale a.radius g := by
        ext
        · have := congrArg V2.x hd; simp at this ⊢; linear_combination this
        · have := congrArg V2.y hd; simp at this ⊢; linear_combination this
      refine ⟨?_, ?_⟩
      · rw [e1]; show lengthSq _ = _; rw [lengthSq_scale, hu, mul_one]
      · intro q hq
        rw [show δ - (δ - V2.scale (δ.length - a.radius) g) = V2.scale (δ.length - a.radius) g by
          ext <;> simp, lengthSq_scale, hu, mul_one]
        exact hlow q hq
    · rw [e, h]
      refine ⟨?_, ?_⟩
      · show lengthSq _ = _; simp [lengthSq_def, sq]
      · intro q hq
        have := hlow q hq
        rw [h, length_zero] at this
        refine le_trans (le_of_eq ?_) this
        simp [lengthSq_def, sq]
  · rcases ballDelta_cases a.radius δ with ⟨h, e⟩ | ⟨h, e⟩
    · rw [e]
      simp only
      rw [lengthSq_scale, (signedDist_point _ h).unit, mul_one]
    · rw [e, h, length_zero]
      simp [lengthSq_def, sq]
  · rw [hmem, sub_neg]
  · rw [ball_thick ha, placed_point rel hrel, ← thick_zero {applyOrigin rel}]
    have := ballDelta_resolves ha (le_refl (0 : K)) δ
    rw [add_zero] at this
    exact this

/-! ## C21–C23: Box2d v Point -/

/-- distance data of a box: a face perpendicular to the x axis -/
theorem signedDist_box_x (h δ : V2 K) (hx : 0 ≤ h.x) (hyδ : |δ.y| ≤ h.y)
    (hc : 0 ≤ |δ.x| - h.x ∨ |δ.y| - h.y ≤ |δ.x| - h.x) :
    SignedDist (Region.pts (Box2d.mk h)) δ (|δ.x| - h.x) ⟨FloatExtra.signum δ.x * h.x, δ.y⟩
      ⟨FloatExtra.signum δ.x, 0⟩ := by
  have hs := signum_mul_signum δ.x
  have hsa := signum_abs δ.x
  have hab := abs_mul_signum δ.x
  refine ⟨?_, ⟨?_, hyδ⟩, ?_, ?_, ?_⟩
  · simp [lengthSq_def, hs]
  · show |FloatExtra.signum δ.x * h.x| ≤ h.x
    rw [abs_mul, hsa, one_mul, abs_of_nonneg hx]
  · rintro p ⟨hp, _⟩
    simp only [dot_def]
    have : FloatExtra.signum δ.x * p.x ≤ |FloatExtra.signum δ.x * p.x| := le_abs_self _
    rw [abs_mul, hsa, one_mul] at this
    have hp' : |p.x| ≤ h.x := hp
    rw [← mul_assoc, hs]; linarith
  · ext
    · simp; linear_combination -hab
    · simp
  · intro hneg e he
    rw [lengthSq_def] at he
    have h1 : |e.x| ≤ -(|δ.x| - h.x) :=
      abs_le_of_sq_le_sq (by nlinarith [mul_self_nonneg e.y]) (by linarith)
    have h2 : |e.y| ≤ -(|δ.x| - h.x) :=
      abs_le_of_sq_le_sq (by nlinarith [mul_self_nonneg e.x]) (by linarith)
    have h3 : |δ.y| - h.y ≤ |δ.x| - h.x := by
      rcases hc with h | h
      · exact absurd hneg (not_lt.2 h)
      · exact h
    constructor
    · show |δ.x + e.x| ≤ h.x
      have := abs_add_le δ.x e.x; linarith
    · show |δ.y + e.y| ≤ h.y
      have := abs_add_le δ.y e.y; linarith

/-- a face perpendicular to the y axis -/
theorem signedDist_box_y (h δ : V2 K) (hy : 0 ≤ h.y) (hxδ : |δ.x| ≤ h.x)
    (hc : 0 ≤ |δ.y| - h.y ∨ |δ.x| - h.x ≤ |δ.y| - h.y) :
    SignedDist (Region.pts (Box2d.mk h)) δ (|δ.y| - h.y) ⟨δ.x, FloatExtra.signum δ.y * h.y⟩
      ⟨0, FloatExtra.signum δ.y⟩ := by
  have hs := signum_mul_signum δ.y
  have hsa := signum_abs δ.y
  have hab := abs_mul_signum δ.y
  refine ⟨?_, ⟨hxδ, ?_⟩, ?_, ?_, ?_⟩
  · simp [lengthSq_def, hs]
  · show |FloatExtra.signum δ.y * h.y| ≤ h.y
    rw [abs_mul, hsa, one_mul, abs_of_nonneg hy]
  · rintro p ⟨_, hp⟩
    simp only [dot_def]
    have : FloatExtra.signum δ.y * p.y ≤ |FloatExtra.signum δ.y * p.y| := le_abs_self _
    rw [abs_mul, hsa, one_mul] at this
    have hp' : |p.y| ≤ h.y := hp
    rw [← mul_assoc, hs]; linarith
  · ext
    · simp
    · simp; linear_combination -hab
  · intro hneg e he
    rw [lengthSq_def] at he
    have h1 : |e.x| ≤ -(|δ.y| - h.y) :=
      abs_le_of_sq_le_sq (by nlinarith [mul_self_nonneg e.y]) (by linarith)
    have h2 : |e.y| ≤ -(|δ.y| - h.y) :=
      abs_le_of_sq_le_sq (by nlinarith [mul_self_nonneg e.x]) (by linarith)
    have h3 : |δ.x| - h.x ≤ |δ.y| - h.y := by
      rcases hc with h | h
      · exact absurd hneg (not_lt.2 h)
      · exact h
    constructor
    · show |δ.x + e.x| ≤ h.x
      have := abs_add_le δ.x e.x; linarith
    · show |δ.y + e.y| ≤ h.y
      have := abs_add_le δ.y e.y; linarith

/-- a corner -/
theorem signedDist_box_corner (h δ : V2 K) (hx : 0 ≤ h.x) (hy : 0 ≤ h.y) (hdx : 0 ≤ |δ.x| - h.x)
    (hdy : 0 ≤ |δ.y| - h.y) (hne : (⟨|δ.x| - h.x, |δ.y| - h.y⟩ : V2 K) ≠ 0) :
    SignedDist (Region.pts (Box2d.mk h)) δ (V2.mk (|δ.x| - h.x) (|δ.y| - h.y)).length
      ⟨FloatExtra.signum δ.x * h.x, FloatExtra.signum δ.y * h.y⟩
      (V2.scale (1 / (V2.mk (|δ.x| - h.x) (|δ.y| - h.y)).length)
        ⟨(|δ.x| - h.x) * FloatExtra.signum δ.x, (|δ.y| - h.y) * FloatExtra.signum δ.y⟩) := by
  have hl := V2.length_pos.2 hne
  have hl2 := V2.length_sq (V2.mk (|δ.x| - h.x) (|δ.y| - h.y))
  rw [lengthSq_def] at hl2
  simp only at hl2
  set L := (V2.mk (|δ.x| - h.x) (|δ.y| - h.y)).length with hL
  have hsx := signum_mul_signum δ.x
  have hsy := signum_mul_signum δ.y
  have hax := abs_mul_signum δ.x
  have hay := abs_mul_signum δ.y
  refine ⟨?_, ⟨?_, ?_⟩, ?_, ?_, ?_⟩
  · rw [lengthSq_scale, lengthSq_def]
    simp only
    have : (|δ.x| - h.x) * FloatExtra.signum δ.x * ((|δ.x| - h.x) * FloatExtra.signum δ.x) +
        (|δ.y| - h.y) * FloatExtra.signum δ.y * ((|δ.y| - h.y) * FloatExtra.signum δ.y) = L ^ 2 := by
      linear_combination (|δ.x| - h.x) ^ 2 * hsx + (|δ.y| - h.y) ^ 2 * hsy - hl2
    rw [this]; field_simp
  · show |FloatExtra.signum δ.x * h.x| ≤ h.x
    rw [abs_mul, signum_abs, one_mul, abs_of_nonneg hx]
  · show |FloatExtra.signum δ.y * h.y| ≤ h.y
    rw [abs_mul, signum_abs, one_mul, abs_of_nonneg hy]
  · rintro p ⟨hp1, hp2⟩
    have hp1' : |p.x| ≤ h.x := hp1
    have hp2' : |p.y| ≤ h.y := hp2
    rw [scale_dot, scale_dot]
    refine mul_le_mul_of_nonneg_left ?_ (by positivity)
    simp only [dot_def]
    have k1 : FloatExtra.signum δ.x * p.x ≤ |FloatExtra.signum δ.x * p.x| := le_abs_self _
    have k2 : FloatExtra.signum δ.y * p.y ≤ |FloatExtra.signum δ.y * p.y| := le_abs_self _
    rw [abs_mul, signum_abs, one_mul] at k1 k2
    have e1 : (|δ.x| - h.x) * FloatExtra.signum δ.x * (FloatExtra.signum δ.x * h.x) =
        (|δ.x| - h.x) * h.x := by linear_combination (|δ.x| - h.x) * h.x * hsx
    have e2 : (|δ.y| - h.y) * FloatExtra.signum δ.y * (FloatExtra.signum δ.y * h.y) =
        (|δ.y| - h.y) * h.y := by linear_combination (|δ.y| - h.y) * h.y * hsy
    rw [e1, e2, mul_assoc, mul_assoc]
    exact add_le_add (mul_le_mul_of_nonneg_left (k1.trans hp1') hdx)
      (mul_le_mul_of_nonneg_left (k2.trans hp2') hdy)
  · ext
    · simp; field_simp; linear_combination -hax
    · simp; field_simp; linear_combination -hay
  · intro h; exact absurd h (not_lt.2 hl.le)

/-- the flag does not depend on what is computed besides -/
theorem boxPoint_flag (P D : Bool) (h p : V2 K) :
    (boxPoint P D h p).1 = decide (|p.x| < h.x ∧ |p.y| < h.y) := by
  unfold boxPoint
  simp only [ExactFloat.abs_eq, ExactFloat.isSignNeg_eq, decide_eq_true_eq, sub_neg]
  by_cases hc : |p.x| < h.x ∧ |p.y| < h.y
  · rw [if_pos hc]; simp [hc]
  · rw [if_neg hc]; simp [hc]

theorem C21_box_point_collides (a : Box2d K) (pt : Point K) (rel : T) :
    ∃ c, collidesRel a pt rel = .ok c ∧
      (c = true ↔ applyOrigin rel ∈ boxInterior a.halfsize) := by
  refine ⟨(boxPoint false false a.halfsize (applyOrigin rel)).1, rfl, ?_⟩
  rw [boxPoint_flag]
  simp [boxInterior]

/-- the vector of Box2d v Point as a function of the requested outputs -/
theorem boxPoint_resolves (h δ : V2 K) (hx : 0 ≤ h.x) (hy : 0 ≤ h.y) (P D : Bool) :
    ∃ s q g, SignedDist (Region.pts (Box2d.mk h)) δ s q g ∧ boxPointSdf h δ = s ∧
      ((boxPoint P D h δ).1 = true ↔ s < 0) ∧
      ((if (boxPoint P D h δ).1 then P else D) = true → (boxPoint P D h δ).2 = V2.scale s g) ∧
      (s < 0 → q ∈ boxBoundary h) := by
  unfold boxPointSdf
  rw [boxPoint_flag, boxPoint_flag]
  unfold boxPoint
  simp only [ExactFloat.abs_eq, ExactFloat.isSignNeg_eq, decide_eq_true_eq, sub_neg,
    ExactFloat.fmax_eq]
  by_cases hc : |δ.x| < h.x ∧ |δ.y| < h.y
  · simp only [if_pos hc]
    by_cases hgt : |δ.x| - h.x > |δ.y| - h.y
    · refine ⟨_, _, _, signedDist_box_x h δ hx hc.2.le (Or.inr hgt.le), max_eq_left hgt.le,
        by simp [hc], ?_, ?_⟩
      · intro hP
        rw [if_pos hP, if_pos hgt]; ext <;> simp
      · intro _
        refine ⟨?_, hc.2.le, Or.inl ?_⟩ <;> simp only <;>
          rw [abs_mul, signum_abs, one_mul, abs_of_nonneg hx]
    · refine ⟨_, _, _, signedDist_box_y h δ hy hc.1.le (Or.inr (not_lt.1 hgt)),
        max_eq_right (not_lt.1 hgt), by simp [hc], ?_, ?_⟩
      · intro hP
        rw [if_pos hP, if_neg hgt]; ext <;> simp
      · intro _
        refine ⟨hc.1.le, ?_, Or.inr ?_⟩ <;> simp only <;>
          rw [abs_mul, signum_abs, one_mul, abs_of_nonneg hy]
  · simp only [if_neg hc]
    by_cases hdx : |δ.x| < h.x
    · have hdy : h.y ≤ |δ.y| := by
        by_contra hcon; exact hc ⟨hdx, not_le.1 hcon⟩
      refine ⟨_, _, _, signedDist_box_y h δ hy hdx.le (Or.inl (by linarith)), ?_, ?_, ?_, ?_⟩
      · rw [if_pos hdx]
      · simp [hc, hdy]
      · intro hD
        rw [if_pos hD, max_eq_right (by linarith), max_eq_left (by linarith)]; ext <;> simp
      · intro hh; exact absurd hh (not_lt.2 (by linarith))
    · push Not at hdx
      by_cases hdy : |δ.y| < h.y
      · refine ⟨_, _, _, signedDist_box_x h δ hx hdy.le (Or.inl (by linarith)), ?_, ?_, ?_, ?_⟩
        · rw [if_neg (not_lt.2 hdx), if_pos hdy]
        · simp [hc, hdx]
        · intro hD
          rw [if_pos hD, max_eq_right (a := |δ.y| - h.y) (by linarith),
            max_eq_left (by linarith)]
          ext <;> simp
        · intro hh; exact absurd hh (not_lt.2 (by linarith))
      · push Not at hdy
        by_cases hne : (⟨|δ.x| - h.x, |δ.y| - h.y⟩ : V2 K) = 0
        · -- exactly at a corner
          have e1 : |δ.x| - h.x = 0 := congrArg V2.x hne
          have e2 : |δ.y| - h.y = 0 := congrArg V2.y hne
          refine ⟨_, _, _, signedDist_box_x h δ hx (by linarith) (Or.inl e1.ge), ?_, ?_, ?_, ?_⟩
          · rw [if_neg (not_lt.2 hdx), if_neg (not_lt.2 hdy), hne, length_zero, e1]
          · simp [hc, hdx]
          · intro hD
            rw [if_pos hD, e1, e2]; ext <;> simp
          · intro hh; rw [e1] at hh; exact absurd hh (lt_irrefl _)
        · have hl := V2.length_pos.2 hne
          refine ⟨_, _, _, signedDist_box_corner h δ hx hy (by linarith) (by linarith) hne, ?_, ?_,
            ?_, ?_⟩
          · rw [if_neg (not_lt.2 hdx), if_neg (not_lt.2 hdy)]
          · simp [hc, hl.le]
          · intro hD
            rw [if_pos hD, max_eq_left (by linarith), max_eq_left (by linarith)]
            ext <;> simp <;> field_simp
          · intro hh; exact absurd hh (not_lt.2 hl.le)

/-- inside a box, the boundary is at least `-sdf` away -/
theorem box_boundary_far (h δ q : V2 K) (hin : |δ.x| < h.x ∧ |δ.y| < h.y) (hq : q ∈ boxBoundary h) :
    (max (|δ.x| - h.x) (|δ.y| - h.y)) ^ 2 ≤ lengthSq (δ - q) := by
  obtain ⟨_, _, hq | hq⟩ := hq
  · have h1 : h.x - |δ.x| ≤ |δ.x - q.x| := by
      have := abs_sub_abs_le_abs_sub q.x δ.x
      rw [abs_sub_comm δ.x, ← hq]; exact this
    have h2 : |max (|δ.x| - h.x) (|δ.y| - h.y)| ≤ |δ.x - q.x| := by
      rw [abs_of_neg (max_lt (by linarith [hin.1]) (by linarith [hin.2]))]
      have := le_max_left (|δ.x| - h.x) (|δ.y| - h.y)
      linarith
    have := sq_le_sq.2 h2
    simp only [lengthSq_def, sub_x, sub_y]
    nlinarith [mul_self_nonneg (δ.y - q.y)]
  · have h1 : h.y - |δ.y| ≤ |δ.y - q.y| := by
      have := abs_sub_abs_le_abs_sub q.y δ.y
      rw [abs_sub_comm δ.y, ← hq]; exact this
    have h2 : |max (|δ.x| - h.x) (|δ.y| - h.y)| ≤ |δ.y - q.y| := by
      rw [abs_of_neg (max_lt (by linarith [hin.1]) (by linarith [hin.2]))]
      have := le_max_right (|δ.x| - h.x) (|δ.y| - h.y)
      linarith
    have := sq_le_sq.2 h2
    simp only [lengthSq_def, sub_x, sub_y]
    nlinarith [mul_self_nonneg (δ.x - q.x)]

theorem boxPointSdf_inside (h δ : V2 K) (hin : |δ.x| < h.x ∧ |δ.y| < h.y) :
    boxPointSdf h δ = max (|δ.x| - h.x) (|δ.y| - h.y) := by
  unfold boxPointSdf
  rw [boxPoint_flag]
  simp [hin, ExactFloat.fmax_eq, ExactFloat.abs_eq]

/-- The nearest-point property of one (flag, vector) answer. -/
def BoxPointVector (h δ : V2 K) (c : Bool) (v : V2 K) : Prop :=
  if c then IsNearest δ (boxBoundary h) (δ - v) else IsNearest δ (Region.pts (Box2d.mk h)) (δ - v)

theorem boxPoint_vector (h δ : V2 K) (hx : 0 ≤ h.x) (hy : 0 ≤ h.y) (P D : Bool)
    (hreq : (if (boxPoint P D h δ).1 then P else D) = true) :
    BoxPointVector h δ (boxPoint P D h δ).1 (boxPoint P D h δ).2 := by
  obtain ⟨s, q, g, hsd, hs, hflag, hv, hb⟩ := boxPoint_resolves h δ hx hy P D
  have e : δ - (boxPoint P D h δ).2 = q := by
    rw [hv hreq]
    conv_lhs => rw [hsd.eq]
    ext <;> simp
  have e2 : lengthSq (δ - q) = s ^ 2 := by
    have : δ - q = V2.scale s g := by
      conv_lhs => rw [hsd.eq]
      ext <;> simp
    rw [this, lengthSq_scale, hsd.unit, mul_one]
  unfold BoxPointVector
  rw [e]
  by_cases hc : (boxPoint P D h δ).1 = true
  · rw [if_pos hc]
    have hin : |δ.x| < h.x ∧ |δ.y| < h.y := by rw [boxPoint_flag] at hc; exact of_decide_eq_true hc
    refine ⟨hb (hflag.1 hc), ?_⟩
    intro q' hq'
    rw [e2, ← hs, boxPointSdf_inside h δ hin]
    exact box_boundary_far h δ q' hin hq'
  · rw [if_neg hc]
    refine ⟨hsd.mem, ?_⟩
    intro q' hq'
    have hs0 : 0 ≤ s := by
      by_contra hcon; exact hc (hflag.2 (not_le.1 hcon))
    have := hsd.le_dist hq'
    rw [e2, ← V2.length_sq]
    exact (sq_le_sq₀ hs0 (V2.length_nonneg _)).2 this

/-- Box2d v Point: for an outside point `point - v` is the nearest point of the box, for an inside
point `point - v` is a nearest point of the boundary; for all queries returning a vector.  Hence
the vector is also the least move of the box to contact. -/
theorem C22_box_point_vectors (a : Box2d K) (ha : 0 ≤ a.halfsize.x ∧ 0 ≤ a.halfsize.y)
    (pt : Point K) (rel : T) (hrel : Similarity rel (1 : K)) :
    (∀ v, penetratesRel a pt rel = .ok (some v) →
      IsNearest (applyOrigin rel) (boxBoundary a.halfsize) (applyOrigin rel - v)) ∧
    (∀ v, distanceToRel a pt rel = .ok (some v) →
      IsNearest (applyOrigin rel) (Region.pts a) (applyOrigin rel - v)) ∧
    (∃ c v, sdfvRel a pt rel = .ok (c, v) ∧
      (c = true → IsNearest (applyOrigin rel) (boxBoundary a.halfsize) (applyOrigin rel - v)) ∧
      (c = false → IsNearest (applyOrigin rel) (Region.pts a) (applyOrigin rel - v)) ∧
      ResolvesLeast c v (Region.pts a) (placed rel pt)) := by
  obtain ⟨h⟩ := a
  obtain ⟨hx, hy⟩ := ha
  refine ⟨?_, ?_, ?_⟩
  · intro v hv
    have hv' : (if (boxPoint true false h (applyOrigin rel)).1 then
      some (boxPoint true false h (applyOrigin rel)).2 else none) = some v := by
        injection hv
    by_cases hc : (boxPoint true false h (applyOrigin rel)).1 = true
    · rw [if_pos hc] at hv'
      injection hv' with hv'
      have := boxPoint_vector h (applyOrigin rel) hx hy true false (by rw [if_pos hc])
      unfold BoxPointVector at this
      rw [if_pos hc, hv'] at this
      exact this
    · rw [if_neg hc] at hv'; exact absurd hv' (by simp)
  · intro v hv
    have hv' : (if (boxPoint false true h (applyOrigin rel)).1 then none else
      some (boxPoint false true h (applyOrigin rel)).2) = some v := by
        injection hv
    by_cases hc : (boxPoint false true h (applyOrigin rel)).1 = true
    · rw [if_pos hc] at hv'; exact absurd hv' (by simp)
    · rw [if_neg hc] at hv'
      injection hv' with hv'
      have := boxPoint_vector h (applyOrigin rel) hx hy false true (by rw [if_neg hc])
      unfold BoxPointVector at this
      rw [if_neg hc, hv'] at this
      exact this
  · have hreq : (if (boxPoint true true h (applyOrigin rel)).1 then true else true) = true := by
      split_ifs <;> rfl
    have hbv := boxPoint_vector h (applyOrigin rel) hx hy true true hreq
    unfold BoxPointVector at hbv
    refine ⟨(boxPoint true true h (applyOrigin rel)).1, (boxPoint true true h (applyOrigin rel)).2,
      rfl, ?_, ?_, ?_⟩
    · intro hc; rw [if_pos hc] at hbv; exact hbv
    · intro hc
      rw [if_neg (by rw [hc]; simp)] at hbv
      exact hbv
    · obtain ⟨s, q, g, hsd, hs, hflag, hv, _⟩ := boxPoint_resolves h (applyOrigin rel) hx hy true true
      rw [hv hreq, placed_point rel hrel, ← thick_zero {applyOrigin rel},
        ← thick_zero (Region.pts (Box2d.mk h))]
      have := hsd.resolves (le_refl (0 : K)) (le_refl 0) (boxPoint true true h (applyOrigin rel)).1
        (fun hc => by rw [add_zero]; exact (hflag.1 hc).le)
        (fun hc => by
          rw [add_zero]; by_contra hcon
          rw [hflag.2 (not_le.1 hcon)] at hc; exact absurd hc (by simp))
      rw [add_zero, sub_zero] at this
      exact this

/-- Box2d v Point signed distance: the distance to the box outside, minus the distance to the
boundary inside, zero exactly on the boundary, and its absolute value is the length of `sdfv`. -/
theorem C23_box_point_sdf (a : Box2d K) (ha : 0 ≤ a.halfsize.x ∧ 0 ≤ a.halfsize.y)
    (pt : Point K) (rel : T) :
    ∃ s c v, SdfRel2d.sdfRel a pt rel = .ok s ∧ sdfvRel a pt rel = .ok (c, v) ∧
      (0 ≤ s → IsDist (applyOrigin rel) (Region.pts a) s) ∧
      (s < 0 → IsDist (applyOrigin rel) (boxBoundary a.halfsize) (-s)) ∧
      (s < 0 ↔ c = true) ∧ (s = 0 ↔ applyOrigin rel ∈ boxBoundary a.halfsize) ∧
      s ^ 2 = lengthSq v := by
  obtain ⟨h⟩ := a
  obtain ⟨hx, hy⟩ := ha
  set δ := applyOrigin rel
  have hreq : (if (boxPoint true true h δ).1 then true else true) = true := by
    split_ifs <;> rfl
  obtain ⟨s, q, g, hsd, hs, hflag, hv, hb⟩ := boxPoint_resolves h δ hx hy true true
  have e2 : lengthSq (δ - q) = s ^ 2 := by
    have : δ - q = V2.scale s g := by
      conv_lhs => rw [hsd.eq]
      ext <;> simp
    rw [this, lengthSq_scale, hsd.unit, mul_one]
  have hout : 0 ≤ s → IsDist δ (Region.pts (Box2d.mk h)) s := by
    intro h0
    refine ⟨h0, ⟨q, hsd.mem, e2⟩, ?_⟩
    intro q' hq'
    rw [← V2.length_sq]
    exact (sq_le_sq₀ h0 (V2.length_nonneg _)).2 (hsd.le_dist hq')
  have hin' : s < 0 → |δ.x| < h.x ∧ |δ.y| < h.y := by
    intro h0
    have := hflag.2 h0
    rw [boxPoint_flag] at this; exact of_decide_eq_true this
  refine ⟨s, (boxPoint true true h δ).1, (boxPoint true true h δ).2, ?_, rfl, hout, ?_,
    hflag.symm, ?_, ?_⟩
  · show Except.ok (boxPointSdf h δ) = _
    rw [hs]
  · intro h0
    refine ⟨by linarith, ⟨q, hb h0, by rw [e2, neg_sq]⟩, ?_⟩
    intro q' hq'
    rw [neg_sq, ← hs, boxPointSdf_inside h δ (hin' h0)]
    exact box_boundary_far h δ q' (hin' h0) hq'
  · constructor
    · intro h0
      obtain ⟨_, ⟨q', hq', hd⟩, _⟩ := hout h0.ge
      have : δ - q' = 0 := lengthSq_eq_zero.1 (by rw [hd, h0]; simp)
      rw [← sub_eq_zero.1 this] at hq'
      refine ⟨hq'.1, hq'.2, ?_⟩
      by_contra hcon
      push Not at hcon
      have : (boxPoint true true h δ).1 = true := by
        rw [boxPoint_flag]
        exact decide_eq_true ⟨lt_of_le_of_ne hq'.1 hcon.1, lt_of_le_of_ne hq'.2 hcon.2⟩
      have := hflag.1 this
      linarith
    · rintro ⟨h1, h2, h3⟩
      have hs0 : 0 ≤ s := by
        by_contra hcon
        have := hin' (not_le.1 hcon)
        rcases h3 with h3 | h3
        · linarith [this.1]
        · linarith [this.2]
      have := (hout hs0).2.2 δ ⟨h1, h2⟩
      rw [sub_self, lengthSq_eq_zero.2 rfl] at this
      exact pow_eq_zero_iff (two_ne_zero) |>.1 (le_antisymm this (sq_nonneg s))
  · rw [hv hreq, lengthSq_scale, hsd.unit, mul_one]

/-! ## C24: Point v Point -/

theorem C24_point_point (a b : Point K) (rel : T) (hrel : Similarity rel (1 : K)) :
    ∃ c v s, collidesRel a b rel = .ok c ∧ sdfvRel a b rel = .ok (c, v) ∧
      penetratesRel a b rel = .ok (if c then some v else none) ∧
      distanceToRel a b rel = .ok (if c then none else some v) ∧
      SdfRel2d.sdfRel a b rel = .ok s ∧
      (c = true ↔ Touch (Region.pts a) (placed rel b)) ∧ v = apply rel 0 ∧
      0 ≤ s ∧ s ^ 2 = lengthSq v ∧ ResolvesLeast c v (Region.pts a) (placed rel b) := by
  have hflag : (FloatExtra.feq (applyOrigin rel).x 0 && FloatExtra.feq (applyOrigin rel).y 0) = true
      ↔ applyOrigin rel = 0 := by
    rw [ExactFloat.feq_eq, ExactFloat.feq_eq, V2.ext_iff]; simp
  refine ⟨FloatExtra.feq (applyOrigin rel).x 0 && FloatExtra.feq (applyOrigin rel).y 0,
    applyOrigin rel, (applyOrigin rel).length, rfl, rfl, rfl, rfl, rfl, ?_, hrel.origin,
    V2.length_nonneg _, V2.length_sq _, ?_⟩
  · rw [hflag, placed_point rel hrel]
    constructor
    · intro h; exact ⟨0, rfl, h.symm⟩
    · rintro ⟨p, hp, hq⟩
      rw [← show p = applyOrigin rel from hq]; exact hp
  · rw [placed_point rel hrel]
    refine ⟨⟨⟨applyOrigin rel, ⟨0, rfl, by ext <;> simp⟩, rfl⟩, ⟨⟨1, 0⟩, ?_, ?_⟩⟩, ?_, ?_⟩
    · intro h; have := congrArg V2.x h; simp at this
    · rintro x ⟨y, hy, rfl⟩ z hz
      rw [show y = 0 from hy, show z = applyOrigin rel from hz, zero_add]
    · intro hc w _
      rw [hflag.1 hc, lengthSq_eq_zero.2 rfl]; exact lengthSq_nonneg _
    · rintro _ w ⟨x, ⟨y, hy, rfl⟩, hz⟩
      rw [show y = 0 from hy, zero_add] at hz
      rw [show w = applyOrigin rel from hz]

/-! ## C25–C28: Box2d v Ball and RoundedBox2d v Point -/

theorem length_axis_x (x : K) : (⟨x, 0⟩ : V2 K).length = |x| := by
  have h := V2.length_sq (⟨x, 0⟩ : V2 K)
  rw [lengthSq_def] at h
  have h2 : (⟨x, 0⟩ : V2 K).length ^ 2 = |x| ^ 2 := by rw [h, sq_abs]; ring
  exact (pow_left_inj₀ (V2.length_nonneg _) (abs_nonneg _) (by norm_num : (2 : ℕ) ≠ 0)).1 h2
theorem length_axis_y (y : K) : (⟨0, y⟩ : V2 K).length = |y| := by
  have h := V2.length_sq (⟨0, y⟩ : V2 K)
  rw [lengthSq_def] at h
  have h2 : (⟨0, y⟩ : V2 K).length ^ 2 = |y| ^ 2 := by rw [h, sq_abs]; ring
  exact (pow_left_inj₀ (V2.length_nonneg _) (abs_nonneg _) (by norm_num : (2 : ℕ) ≠ 0)).1 h2

/-- what the common kernel computes away from the exceptional points (exactly on a face
perpendicular to the x axis) -/
theorem roundedBoxPoint_spec (h : V2 K) (hx : 0 ≤ h.x) (hy : 0 ≤ h.y) (r : K) (hr : 0 ≤ r)
    (δ : V2 K) (hbad : ¬ (|δ.x| = h.x ∧ |δ.y| < h.y)) :
    ∃ s q g, SignedDist (Region.pts (Box2d.mk h)) δ s q g ∧ boxPointSdf h δ = s ∧
      ((roundedBoxPoint h r δ).1 = true ↔ s < r ) ∧
      (roundedBoxPoint h r δ).2 = V2.scale (s - r) g := by
  unfold boxPointSdf roundedBoxPoint
  rw [boxPoint_flag]
  simp only [ExactFloat.abs_eq, decide_eq_true_eq, ExactFloat.fmax_eq]
  by_cases hc : |δ.x| < h.x ∧ |δ.y| < h.y
  · simp only [if_pos hc]
    by_cases hgt : |δ.x| - h.x > |δ.y| - h.y
    · refine ⟨_, _, _, signedDist_box_x h δ hx hc.2.le (Or.inr hgt.le), max_eq_left hgt.le, ?_, ?_⟩
      · rw [if_pos hgt]; simp; linarith [hc.1]
      · rw [if_pos hgt]; ext <;> simp
    · refine ⟨_, _, _, signedDist_box_y h δ hy hc.1.le (Or.inr (not_lt.1 hgt)),
        max_eq_right (not_lt.1 hgt), ?_, ?_⟩
      · rw [if_neg hgt]; simp; linarith [hc.2]
      · rw [if_neg hgt]; ext <;> simp
  · simp only [if_neg hc]
    by_cases hdx : |δ.x| - h.x ≤ 0
    · have hdy : h.y ≤ |δ.y| := by
        by_contra hcon
        rcases (sub_nonpos.1 hdx).lt_or_eq with h1 | h1
        · exact hc ⟨h1, not_le.1 hcon⟩
        · exact hbad ⟨h1, not_le.1 hcon⟩
      rw [if_pos hdx]
      refine ⟨_, _, _, signedDist_box_y h δ hy (by linarith) (Or.inl (by linarith)), ?_, ?_, ?_⟩
      · by_cases h0 : |δ.x| - h.x < 0
        · rw [if_pos h0]
        · have e1 : |δ.x| - h.x = 0 := le_antisymm hdx (not_lt.1 h0)
          rw [if_neg h0, if_neg (not_lt.2 (by linarith)), e1]
          rw [length_axis_y, abs_of_nonneg (by linarith)]
      · simp
      · ext <;> simp
    · push Not at hdx
      rw [if_neg (not_le.2 hdx)]
      by_cases hdy : |δ.y| - h.y ≤ 0
      · rw [if_pos hdy]
        refine ⟨_, _, _, signedDist_box_x h δ hx (by linarith) (Or.inl hdx.le), ?_, ?_, ?_⟩
        · rw [if_neg (not_lt.2 hdx.le)]
          by_cases h0 : |δ.y| - h.y < 0
          · rw [if_pos h0]
          · have e1 : |δ.y| - h.y = 0 := le_antisymm hdy (not_lt.1 h0)
            rw [if_neg h0, e1]
            rw [length_axis_x, abs_of_pos hdx]
        · simp
        · ext <;> simp
      · push Not at hdy
        rw [if_neg (not_le.2 hdy)]
        have hne : (⟨|δ.x| - h.x, |δ.y| - h.y⟩ : V2 K) ≠ 0 := by
          intro h0; have : |δ.x| - h.x = 0 := congrArg V2.x h0; linarith
        have hlen : (⟨(|δ.x| - h.x) * FloatExtra.signum δ.x, (|δ.y| - h.y) * FloatExtra.signum δ.y⟩ :
            V2 K).length = (⟨|δ.x| - h.x, |δ.y| - h.y⟩ : V2 K).length := by
          unfold V2.length
          congr 1
          simp only [dot_def]
          linear_combination (|δ.x| - h.x) ^ 2 * signum_mul_signum δ.x +
            (|δ.y| - h.y) ^ 2 * signum_mul_signum δ.y
        have hl := V2.length_pos.2 hne
        refine ⟨_, _, _, signedDist_box_corner h δ hx hy hdx.le hdy.le hne, ?_, ?_, ?_⟩
        · rw [if_neg (not_lt.2 hdx.le), if_neg (not_lt.2 hdy.le)]
        · rw [hlen]; simp
        · rw [hlen]
          ext <;> simp <;> field_simp

/-- at the exceptional points -/
theorem roundedBoxPoint_face (h : V2 K) (r : K) (δ : V2 K) (hx : |δ.x| = h.x) (_hy : |δ.y| < h.y) :
    roundedBoxPoint h r δ =
      (decide (|δ.y| - h.y < r), ⟨0, (|δ.y| - h.y - r) * FloatExtra.signum δ.y⟩) := by
  unfold roundedBoxPoint
  rw [boxPoint_flag]
  simp only [ExactFloat.abs_eq, decide_eq_true_eq]
  rw [if_neg (by rw [hx]; simp), if_pos (by rw [hx]; simp)]

/-- the collision flag of Box2d v Ball for a positive radius: iff the open disc meets the box;
equivalently iff they overlap robustly -/
theorem C25_box_ball_collides (a : Box2d K) (ha : 0 ≤ a.halfsize.x ∧ 0 ≤ a.halfsize.y) (b : Ball K)
    (hb : 0 < b.radius) (rel : T) (hrel : Similarity rel (1 : K)) :
    ∃ c, collidesRel a b rel = .ok c ∧
      (c = true ↔ ∃ q ∈ Region.pts a, q ∈ openDisc (applyOrigin rel) b.radius) ∧
      (c = true ↔ Overlap (Region.pts a) (placed rel b)) := by
  obtain ⟨h⟩ := a
  obtain ⟨hx, hy⟩ := ha
  set δ := applyOrigin rel with hδ
  have key : ∃ s q g, SignedDist (Region.pts (Box2d.mk h)) δ s q g ∧
      ((roundedBoxPoint h b.radius δ).1 = true ↔ s < b.radius) := by
    by_cases hbad : |δ.x| = h.x ∧ |δ.y| < h.y
    · refine ⟨_, _, _, signedDist_box_x h δ hx hbad.2.le (Or.inl (by rw [hbad.1]; simp)), ?_⟩
      rw [roundedBoxPoint_face h b.radius δ hbad.1 hbad.2, hbad.1]
      simp only [decide_eq_true_eq, sub_self]
      constructor
      · intro _; exact hb
      · intro _; linarith [hbad.2]
    · obtain ⟨s, q, g, h1, _, h3, _⟩ := roundedBoxPoint_spec h hx hy b.radius hb.le δ hbad
      exact ⟨s, q, g, h1, h3⟩
  obtain ⟨s, q, g, hsd, hflag⟩ := key
  refine ⟨(roundedBoxPoint h b.radius δ).1, rfl, ?_, ?_⟩
  · rw [hflag]
    constructor
    · intro hs
      rcases lt_or_ge s 0 with h0 | h0
      · refine ⟨δ, ?_, hb, by rw [sub_self, lengthSq_eq_zero.2 rfl]; positivity⟩
        have := hsd.inner h0 0 (by rw [lengthSq_eq_zero.2 rfl]; positivity)
        rwa [add_zero] at this
      · refine ⟨q, hsd.mem, hb, ?_⟩
        have : q - δ = V2.scale (-s) g := by
          conv_lhs => rw [hsd.eq]
          ext <;> simp
        rw [this, lengthSq_scale, hsd.unit, neg_sq, mul_one]
        exact (sq_lt_sq₀ h0 hb.le).2 hs
    · rintro ⟨p, hp, _, hlt⟩
      have := hsd.le_dist hp
      rw [lengthSq_sub_comm, ← V2.length_sq, sq_lt_sq₀ (V2.length_nonneg _) hb.le] at hlt
      linarith
  · rw [hflag, placed_ball rel hrel hb.le, ← thick_zero (Region.pts (Box2d.mk h)),
      hsd.overlap_iff (le_refl (0 : K)) hb.le, zero_add]

/-- Finding: for radius 0 (or RoundedBox2d with radius 0) the flag is inconsistent on the boundary:
a point on a face perpendicular to x collides, on a face perpendicular to y it does not. -/
theorem C25_radius_zero_finding :
    ∃ (a : Box2d K) (b : Ball K) (p q : V2 K), b.radius = 0 ∧
      p ∈ boxBoundary a.halfsize ∧ q ∈ boxBoundary a.halfsize ∧
      collidesRel a b p = .ok true ∧ collidesRel a b q = .ok false := by
  refine ⟨⟨⟨1, 1⟩⟩, ⟨0⟩, ⟨1, 0⟩, ⟨0, 1⟩, rfl, ?_, ?_, ?_, ?_⟩
  · simp [boxBoundary]
  · simp [boxBoundary]
  · show Except.ok (roundedBoxPoint (⟨1, 1⟩ : V2 K) 0 ⟨1, 0⟩).1 = _
    rw [roundedBoxPoint_face _ _ _ (by simp) (by simp)]; simp
  · show Except.ok (roundedBoxPoint (⟨1, 1⟩ : V2 K) 0 ⟨0, 1⟩).1 = _
    obtain ⟨s, q, g, h1, h2, h3, h4⟩ := roundedBoxPoint_spec (⟨1, 1⟩ : V2 K) zero_le_one zero_le_one 0
      (le_refl _) ⟨0, 1⟩ (by simp)
    have : s = 0 := by rw [← h2]; simp [boxPointSdf, boxPoint_flag, ExactFloat.abs_eq]
    rw [this] at h3
    have : (roundedBoxPoint (⟨1, 1⟩ : V2 K) 0 ⟨0, 1⟩).1 = false := by
      by_contra hcon
      have := h3.1 (by simpa using hcon)
      exact lt_irrefl _ this
    rw [this]

/-- Box2d v Ball: the vector of every query is the least move of the box to touching contact,
except when the ball's centre is exactly on a face perpendicular to the x axis. -/
theorem C26_box_ball_resolves (a : Box2d K) (ha : 0 ≤ a.halfsize.x ∧ 0 ≤ a.halfsize.y)
    (b : Ball K) (hb : 0 ≤ b.radius) (rel : T) (hrel : Similarity rel (1 : K))
    (hface : ¬ (|(applyOrigin rel).x| = a.halfsize.x ∧ |(applyOrigin rel).y| < a.halfsize.y)) :
    ∃ c v, sdfvRel a b rel = .ok (c, v) ∧
      penetratesRel a b rel = .ok (if c then some v else none) ∧
      distanceToRel a b rel = .ok (if c then none else some v) ∧
      ResolvesLeast c v (Region.pts a) (placed rel b) := by
  obtain ⟨h⟩ := a
  obtain ⟨s, q, g, hsd, _, hflag, hv⟩ :=
    roundedBoxPoint_spec h ha.1 ha.2 b.radius hb (applyOrigin rel) hface
  refine ⟨(roundedBoxPoint h b.radius (applyOrigin rel)).1,
    (roundedBoxPoint h b.radius (applyOrigin rel)).2, rfl, rfl, rfl, ?_⟩
  rw [hv, placed_ball rel hrel hb, ← thick_zero (Region.pts (Box2d.mk h))]
  have := hsd.resolves (le_refl (0 : K)) hb (roundedBoxPoint h b.radius (applyOrigin rel)).1
    (fun hc => by rw [zero_add]; exact (hflag.1 hc).le)
    (fun hc => by
      rw [zero_add]; by_contra hcon
      rw [hflag.2 (not_le.1 hcon)] at hc; exact absurd hc (by simp))
  rw [zero_add] at this
  exact this

/-- On the excluded face the vector still brings the shapes to touching contact (but along y, which
is not the shortest way). -/
theorem C26_box_ball_face_contact (a : Box2d K) (ha : 0 ≤ a.halfsize.x ∧ 0 ≤ a.halfsize.y)
    (b : Ball K) (hb : 0 ≤ b.radius) (rel : T) (hrel : Similarity rel (1 : K))
    (hface : |(applyOrigin rel).x| = a.halfsize.x ∧ |(applyOrigin rel).y| < a.halfsize.y) :
    ∃ c v, sdfvRel a b rel = .ok (c, v) ∧ TouchingAfter v (Region.pts a) (placed rel b) := by
  obtain ⟨h⟩ := a
  set δ := applyOrigin rel with hδ
  refine ⟨(roundedBoxPoint h b.radius δ).1, (roundedBoxPoint h b.radius δ).2, rfl, ?_⟩
  rw [roundedBoxPoint_face h b.radius δ hface.1 hface.2, placed_ball rel hrel hb,
    ← thick_zero (Region.pts (Box2d.mk h))]
  have hs := signum_mul_signum δ.y
  have hsa := signum_abs δ.y
  have hab := abs_mul_signum δ.y
  have := touchingAfter_of_face (C := Region.pts (Box2d.mk h)) (δ := δ) (s := |δ.y| - h.y)
    (q := ⟨δ.x, FloatExtra.signum δ.y * h.y⟩) (g := ⟨0, FloatExtra.signum δ.y⟩)
    (by simp [lengthSq_def, hs])
    ⟨hface.1.le, by
      show |FloatExtra.signum δ.y * h.y| ≤ h.y
      rw [abs_mul, hsa, one_mul, abs_of_nonneg ha.2]⟩
    (by
      rintro p ⟨_, hp⟩
      simp only [dot_def]
      have h1 : FloatExtra.signum δ.y * p.y ≤ |FloatExtra.signum δ.y * p.y| := le_abs_self _
      rw [abs_mul, hsa, one_mul] at h1
      have hp' : |p.y| ≤ h.y := hp
      rw [← mul_assoc, hs]; linarith)
    (by
      ext
      · simp
      · simp; linear_combination -hab)
    (le_refl (0 : K)) hb
  rw [zero_add] at this
  convert this using 1
  ext <;> simp

/-- Finding: with the ball's centre exactly on a face perpendicular to x, the push is along y and
much longer than necessary: box (1, 10), ball of radius 1/2 at (1, 0) is pushed by 10.5 instead
of 0.5. -/
theorem C26_face_finding :
    ∃ (a : Box2d K) (b : Ball K) (rel v w : V2 K), 0 < b.radius ∧
      penetratesRel a b rel = .ok (some v) ∧ Separable (shift w (Region.pts a)) (placed rel b) ∧
      lengthSq w * 400 < lengthSq v := by
  refine ⟨⟨⟨1, 10⟩⟩, ⟨1 / 2⟩, ⟨1, 0⟩,
    ⟨0, (|0| - 10 - 1 / 2) * FloatExtra.signum 0⟩, ⟨-1 / 2, 0⟩, by norm_num, ?_, ?_, ?_⟩
  · show (Except.ok (if (roundedBoxPoint (⟨1, 10⟩ : V2 K) (1 / 2) ⟨1, 0⟩).1 then
      some (roundedBoxPoint (⟨1, 10⟩ : V2 K) (1 / 2) ⟨1, 0⟩).2 else none) :
      Except Panic (Option (V2 K))) = _
    rw [roundedBoxPoint_face _ _ _ (by simp) (by simp)]
    rw [if_pos (by simp; norm_num)]
  · refine ⟨⟨1, 0⟩, by intro h; have := congrArg V2.x h; simp at this, ?_⟩
    rintro x ⟨p, ⟨hp, _⟩, rfl⟩ y ⟨q, ⟨_, hq⟩, rfl⟩
    have hp' : |p.x| ≤ 1 := hp
    rw [lengthSq_def] at hq
    have hq' : |q.x| ≤ 1 / 2 :=
      abs_le_of_sq_le_sq (by simp only at hq; nlinarith [mul_self_nonneg q.y]) (by norm_num)
    rw [abs_le] at hp' hq'
    simp [dot_def, apply]
    linarith [hp'.2, hq'.1]
  · have := signum_mul_signum (0 : K)
    simp only [lengthSq_def]
    rw [show (0 : K) * 0 + (|0| - 10 - 1 / 2) * FloatExtra.signum 0 *
      ((|0| - 10 - 1 / 2) * FloatExtra.signum 0) = (|(0 : K)| - 10 - 1 / 2) ^ 2 by
        linear_combination (|(0 : K)| - 10 - 1 / 2) ^ 2 * this]
    simp; norm_num

/-- RoundedBox2d v Point signed distance: the distance to the rounded box when not negative; when
negative, every point nearer than its absolute value is still inside the rounded box.  Negative iff
colliding, for a positive radius. -/
theorem C28_rounded_box_sdf (a : RoundedBox2d K) (ha : 0 ≤ a.halfsize.x ∧ 0 ≤ a.halfsize.y)
    (hr : 0 < a.radius) (pt : Point K) (rel : T) :
    ∃ s c v, SdfRel2d.sdfRel a pt rel = .ok s ∧ sdfvRel a pt rel = .ok (c, v) ∧
      (0 ≤ s → IsDist (applyOrigin rel) (Region.pts a) s) ∧
      (s < 0 → ∀ e, lengthSq e ≤ s ^ 2 → applyOrigin rel + e ∈ Region.pts a) ∧
      (s < 0 ↔ c = true) ∧
      (¬ (|(applyOrigin rel).x| = a.halfsize.x ∧ |(applyOrigin rel).y| < a.halfsize.y) →
        s ^ 2 = lengthSq v) ∧
      ∃ s', SdfRel2d.sdfRel a.boxPart pt rel = .ok s' ∧ s = s' - a.radius := by
  set δ := applyOrigin rel with hδ
  have key : ∃ s q g, SignedDist (Region.pts (Box2d.mk a.halfsize)) δ s q g ∧
      boxPointSdf a.halfsize δ = s ∧
      ((roundedBoxPoint a.halfsize a.radius δ).1 = true ↔ s < a.radius) ∧
      (¬ (|δ.x| = a.halfsize.x ∧ |δ.y| < a.halfsize.y) →
        (roundedBoxPoint a.halfsize a.radius δ).2 = V2.scale (s - a.radius) g) := by
    by_cases hbad : |δ.x| = a.halfsize.x ∧ |δ.y| < a.halfsize.y
    · obtain ⟨s, q, g, h1, h2, h3, _, _⟩ := boxPoint_resolves a.halfsize δ ha.1 ha.2 true true
      refine ⟨s, q, g, h1, h2, ?_, fun h => absurd hbad h⟩
      rw [roundedBoxPoint_face a.halfsize a.radius δ hbad.1 hbad.2]
      have : s = 0 := by
        rw [← h2]; unfold boxPointSdf
        rw [boxPoint_flag]
        simp only [ExactFloat.abs_eq, decide_eq_true_eq]
        rw [if_neg (by rw [hbad.1]; simp), if_neg (by rw [hbad.1]; simp),
          if_pos (by linarith [hbad.2]), hbad.1, sub_self]
      rw [this]
      simp only [decide_eq_true_eq]
      constructor
      · intro _; exact hr
      · intro _; linarith [hbad.2]
    · obtain ⟨s, q, g, h1, h2, h3, h4⟩ :=
        roundedBoxPoint_spec a.halfsize ha.1 ha.2 a.radius hr.le δ hbad
      exact ⟨s, q, g, h1, h2, h3, fun _ => h4⟩
  obtain ⟨s, q, g, hsd, hs, hflag, hv⟩ := key
  have hq : q - δ = V2.scale (-s) g := by
    conv_lhs => rw [hsd.eq]
    ext <;> simp
  refine ⟨s - a.radius, (roundedBoxPoint a.halfsize a.radius δ).1,
    (roundedBoxPoint a.halfsize a.radius δ).2, ?_, rfl, ?_, ?_, ?_, ?_, ⟨s, ?_, rfl⟩⟩
  · show Except.ok (boxPointSdf a.halfsize δ - a.radius) = _
    rw [hs]
  · intro h0
    rw [rounded_thick hr.le]
    refine ⟨h0, ⟨q + V2.scale a.radius g, ⟨q, hsd.mem, ?_⟩, ?_⟩, ?_⟩
    · rw [show q + V2.scale a.radius g - q = V2.scale a.radius g by ext <;> simp, lengthSq_scale,
        hsd.unit, mul_one]
    · rw [show δ - (q + V2.scale a.radius g) = V2.scale (s - a.radius) g by
        conv_lhs => rw [hsd.eq]
        ext <;> simp <;> ring, lengthSq_scale, hsd.unit, mul_one]
    · rintro p ⟨p', hp', hd⟩
      have h1 := hsd.le_dist hp'
      have h2 := length_le_of_sq hr.le hd
      have h3 := length_add_le (δ - p) (p - p')
      rw [show δ - p + (p - p') = δ - p' by ext <;> simp] at h3
      rw [← V2.length_sq]
      exact (sq_le_sq₀ h0 (V2.length_nonneg _)).2 (by linarith)
  · intro h0 e he
    rw [rounded_thick hr.le]
    rcases lt_or_ge s 0 with hs0 | hs0
    · -- scale e down to stay in the box
      have hpos : 0 < a.radius - s := by linarith
      set t := -s / (a.radius - s)
      have ht0 : 0 ≤ t := div_nonneg (by linarith) hpos.le
      refine ⟨δ + V2.scale t e, hsd.inner hs0 _ ?_, ?_⟩
      · rw [lengthSq_scale]
        have : t ^ 2 * (s - a.radius) ^ 2 = s ^ 2 := by
          simp only [t]; field_simp; ring
        rw [← this]
        exact mul_le_mul_of_nonneg_left he (sq_nonneg _)
      · rw [show δ + e - (δ + V2.scale t e) = V2.scale (1 - t) e by ext <;> simp <;> ring,
          lengthSq_scale]
        have : (1 - t) ^ 2 * (s - a.radius) ^ 2 = a.radius ^ 2 := by
          simp only [t]; field_simp; ring
        rw [← this]
        exact mul_le_mul_of_nonneg_left he (sq_nonneg _)
    · refine ⟨q, hsd.mem, ?_⟩
      have l : e.length ≤ a.radius - s := length_le_of_sq (by linarith) (by nlinarith)
      have h3 := length_add_le (δ - q) e
      rw [length_sub_comm, hq, length_scale, length_eq_one hsd.unit, abs_neg, abs_of_nonneg hs0] at h3
      rw [show δ + e - q = δ - q + e by ext <;> simp <;> ring]
      exact lengthSq_le_of_length (by linarith)
  · rw [hflag, sub_neg]
  · intro hf
    rw [hv hf, lengthSq_scale, hsd.unit, mul_one]
  · show Except.ok (boxPointSdf a.halfsize δ) = _
    rw [hs]

/-- Finding: Box2d v Ball `sdf` is not the signed distance: box (1,1), ball of radius 1/2 at (6/5, 0)
penetrates by 3/10 (`sdfv` says so) but `sdf` is -1. -/
theorem C27_box_ball_sdf_finding :
    ∃ (a : Box2d K) (b : Ball K) (rel : V2 K) (s : K) (v : V2 K),
      SdfRel2d.sdfRel a b rel = .ok s ∧ sdfvRel a b rel = .ok (true, v) ∧
      ResolvesLeast true v (Region.pts a) (placed rel b) ∧ s = -1 ∧ lengthSq v = (3 / 10) ^ 2 := by
  have hb : ¬ (|(6 / 5 : K)| = 1 ∧ |(0 : K)| < 1) := by
    rw [abs_of_pos (by norm_num)]; norm_num
  obtain ⟨c, v, h1, _, _, h4⟩ := C26_box_ball_resolves (⟨⟨1, 1⟩⟩ : Box2d K)
    ⟨zero_le_one, zero_le_one⟩ (⟨1 / 2⟩ : Ball K) (by norm_num) (⟨6 / 5, 0⟩ : V2 K)
    (similarity_vec2 _) hb
  have hval : roundedBoxPoint (⟨1, 1⟩ : V2 K) (1 / 2) ⟨6 / 5, 0⟩ = (true, ⟨-3 / 10, 0⟩) := by
    unfold roundedBoxPoint
    rw [boxPoint_flag]
    simp only [ExactFloat.abs_eq, ExactFloat.signum_pos (6 / 5 : K) (by norm_num)]
    rw [abs_of_pos (show (0 : K) < 6 / 5 by norm_num), abs_zero]
    norm_num
  have h1' : sdfvRel (⟨⟨1, 1⟩⟩ : Box2d K) (⟨1 / 2⟩ : Ball K) (⟨6 / 5, 0⟩ : V2 K) =
      .ok (true, ⟨-3 / 10, 0⟩) := by
    show Except.ok (roundedBoxPoint (⟨1, 1⟩ : V2 K) (1 / 2) ⟨6 / 5, 0⟩) = _
    rw [hval]
  have e := h1.symm.trans h1'
  injection e with e
  have ec : c = true := congrArg Prod.fst e
  have ev : v = ⟨-3 / 10, 0⟩ := congrArg Prod.snd e
  subst ec ev
  refine ⟨⟨⟨1, 1⟩⟩, ⟨1 / 2⟩, ⟨6 / 5, 0⟩, -1, _, ?_, h1', h4, rfl, ?_⟩
  · have hlen : (-(⟨6 / 5, 0⟩ : V2 K)).length = 6 / 5 := by
      have h := V2.length_sq (-(⟨6 / 5, 0⟩ : V2 K))
      rw [lengthSq_def] at h
      simp only [neg_x, neg_y, neg_zero, mul_zero, add_zero] at h
      exact (pow_left_inj₀ (V2.length_nonneg _) (by norm_num) (by norm_num : (2 : ℕ) ≠ 0)).1
        (by rw [h]; ring)
    have hp : ExtremePointT2d.extremePointT (⟨1 / 2⟩ : Ball K) (⟨6 / 5, 0⟩ : V2 K)
        (-(⟨6 / 5, 0⟩ : V2 K)) = ⟨7 / 10, 0⟩ := by
      show applyOrigin (⟨6 / 5, 0⟩ : V2 K) + V2.scale (scalingFactor (⟨6 / 5, 0⟩ : V2 K))
        (V2.scale (1 / 2) (normalizeOrZero (-(⟨6 / 5, 0⟩ : V2 K)))) = _
      rw [normalizeOrZero_eq, hlen]
      ext <;> simp [applyOrigin, scalingFactor]
      norm_num
    have hc : collidesRel (⟨⟨1, 1⟩⟩ : Box2d K) (⟨1 / 2⟩ : Ball K) (⟨6 / 5, 0⟩ : V2 K) = .ok true := by
      show Except.ok (roundedBoxPoint (⟨1, 1⟩ : V2 K) (1 / 2) ⟨6 / 5, 0⟩).1 = _
      rw [hval]
    show (match collidesRel (⟨⟨1, 1⟩⟩ : Box2d K) (⟨1 / 2⟩ : Ball K) (⟨6 / 5, 0⟩ : V2 K) with
      | .error e => Except.error e
      | .ok c => .ok <|
        if c then FloatExtra.fmin
          (FloatExtra.abs (ExtremePointT2d.extremePointT (⟨1 / 2⟩ : Ball K) (⟨6 / 5, 0⟩ : V2 K)
            (-(⟨6 / 5, 0⟩ : V2 K))).x - 1)
          (FloatExtra.abs (ExtremePointT2d.extremePointT (⟨1 / 2⟩ : Ball K) (⟨6 / 5, 0⟩ : V2 K)
            (-(⟨6 / 5, 0⟩ : V2 K))).y - 1)
        else _) = _
    rw [hc, hp]
    simp only [if_true]
    rw [ExactFloat.fmin_eq, ExactFloat.abs_eq, ExactFloat.abs_eq]
    simp
  · simp [lengthSq_def]; norm_num

/-- What holds of Box2d v Ball `sdf`: with the ball's centre on the x axis of the box and the shapes
apart it is the gap.  (Missing: all other positions, where it is wrong in general.) -/
theorem C27_box_ball_sdf_axis (a : Box2d K) (ha : 0 ≤ a.halfsize.x ∧ 0 < a.halfsize.y)
    (b : Ball K) (hb : 0 < b.radius) (rel : T) (hrel : Similarity rel (1 : K))
    (hy : (applyOrigin rel).y = 0) (hx : a.halfsize.x + b.radius ≤ |(applyOrigin rel).x|) :
    ∃ s, SdfRel2d.sdfRel a b rel = .ok s ∧ IsSetDist (Region.pts a) (placed rel b) s := by
  obtain ⟨h⟩ := a
  simp only at ha hx
  set δ := applyOrigin rel with hδ
  have hδe : δ = ⟨δ.x, 0⟩ := by ext <;> simp [hy]
  have hxp : 0 < |δ.x| := by linarith [ha.1]
  have hsd := signedDist_box_x h δ ha.1 (by rw [hy, abs_zero]; exact ha.2.le) (Or.inl (by linarith))
  refine ⟨|δ.x| - h.x - b.radius, ?_, ?_⟩
  · have hlen : (-δ).length = |δ.x| := by rw [length_neg, hδe, length_axis_x]
    have hp : ExtremePointT2d.extremePointT b rel (-δ) =
        ⟨(|δ.x| - b.radius) * FloatExtra.signum δ.x, 0⟩ := by
      show applyOrigin rel + V2.scale (scalingFactor rel)
        (V2.scale b.radius (normalizeOrZero (-δ))) = _
      rw [normalizeOrZero_eq, hlen, hrel.factor, ← hδ]
      have hab := abs_mul_signum δ.x
      ext
      · simp only [add_x, scale_x, neg_x]
        field_simp
        linear_combination (b.radius - |δ.x|) * hab
      · simp [hy]
    obtain ⟨c, hc, hc2, _⟩ := C25_box_ball_collides (⟨h⟩ : Box2d K) ⟨ha.1, ha.2.le⟩ b hb rel hrel
    have hcf : c = false := by
      by_contra hcon
      obtain ⟨q, hq, _, hlt⟩ := hc2.1 (by simpa using hcon)
      have := hsd.le_dist hq
      rw [lengthSq_sub_comm, ← hδ, ← V2.length_sq, sq_lt_sq₀ (V2.length_nonneg _) hb.le] at hlt
      linarith
    rw [hcf] at hc
    show (match collidesRel (⟨h⟩ : Box2d K) b rel with
      | .error e => Except.error e
      | .ok c => .ok <|
        if c then _
        else if FloatExtra.isSignNeg
            (FloatExtra.abs (ExtremePointT2d.extremePointT b rel (-δ)).x - h.x) then
          FloatExtra.abs (ExtremePointT2d.extremePointT b rel (-δ)).y - h.y
        else if FloatExtra.isSignNeg
            (FloatExtra.abs (ExtremePointT2d.extremePointT b rel (-δ)).y - h.y) then
          FloatExtra.abs (ExtremePointT2d.extremePointT b rel (-δ)).x - h.x
        else _) = _
    rw [hc, hp]
    simp only [ExactFloat.abs_eq, ExactFloat.isSignNeg_eq, abs_mul, signum_abs, mul_one,
      decide_eq_true_eq, abs_zero, Bool.false_eq_true, if_false]
    rw [abs_of_nonneg (show 0 ≤ |δ.x| - b.radius by linarith [ha.1]),
      if_neg (by linarith), if_pos (by linarith [ha.2])]
    congr 1
    ring
  · have h0 : 0 ≤ |δ.x| - h.x - b.radius := by linarith
    rw [placed_ball rel hrel hb.le, ← hδ]
    set g : V2 K := ⟨FloatExtra.signum δ.x, 0⟩
    refine ⟨h0, ⟨_, hsd.mem, δ - V2.scale b.radius g, ⟨δ, rfl, ?_⟩, ?_⟩, ?_⟩
    · rw [show δ - V2.scale b.radius g - δ = V2.scale (-b.radius) g by ext <;> simp,
        lengthSq_scale, hsd.unit]; simp
    · set q : V2 K := ⟨FloatExtra.signum δ.x * h.x, δ.y⟩
      have : q - (δ - V2.scale b.radius g) = V2.scale (-(|δ.x| - h.x - b.radius)) g := by
        conv_lhs => rw [hsd.eq]
        ext <;> simp <;> ring
      rw [this, lengthSq_scale, hsd.unit, neg_sq, mul_one]
    · rintro p hp q ⟨δ', hδ', hq⟩
      rw [show δ' = δ from hδ'] at hq
      have h1 := hsd.le_dist hp
      have h2 := length_le_of_sq hb.le hq
      have h3 := length_add_le (-(q - δ)) (-(p - q))
      rw [show -(q - δ) + -(p - q) = δ - p by ext <;> simp, length_neg, length_neg] at h3
      rw [← V2.length_sq]
      exact (sq_le_sq₀ h0 (V2.length_nonneg _)).2 (by linarith)

end

/-! ## non-vacuity: the hypotheses are met by rotated placements -/

/-- a rigid placement with a genuine rotation -/
example : ∃ _ : FloatExtra ℝ, ∃ _ : ExactFloat ℝ, ∃ _ : ExactSqrt ℝ,
    Similarity (⟨⟨3, 1⟩, ⟨⟨3 / 5, 4 / 5⟩⟩, ⟨1, 1⟩⟩ : Transform2d ℝ) (1 : ℝ) ∧
    ¬ (|(3 : ℝ)| = 1 ∧ |(1 : ℝ)| < 1) := by
  let _ := realFloat true 0
  have h1 : ExactFloat ℝ := realFloat_exact true 0
  refine ⟨realFloat true 0, h1, realFloat_sqrt true 0, similarity_transform2d _ 1 ?_ rfl, ?_⟩
  · simp only [Rotor2d.IsUnit]; norm_num
  · norm_num

end Auburn
