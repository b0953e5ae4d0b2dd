import Verif.Props.Direct

/-!
# Exact characterisations of where the claims C14, C26, C27 hold
-/

set_option linter.unusedSectionVars false
set_option synthInstance.maxSize 1000

namespace Auburn

open V2 ExtremePoint2d Transformation2d

section
variable {K : Type} [Field K] [LinearOrder K] [IsStrictOrderedRing K] [FloatExtra K] [ExactFloat K]

/-! ## C14 -/

theorem extreme_fold (d : V2 K) (l : List (V2 K)) (acc : K × V2 K) :
    (l.foldl (Poly2d.extremeStep d) acc = acc ∨
      ((l.foldl (Poly2d.extremeStep d) acc).2 ∈ l ∧
        (l.foldl (Poly2d.extremeStep d) acc).1 = d.dot (l.foldl (Poly2d.extremeStep d) acc).2 ∧
        acc.1 < (l.foldl (Poly2d.extremeStep d) acc).1)) ∧
    acc.1 ≤ (l.foldl (Poly2d.extremeStep d) acc).1 ∧
    ∀ q ∈ l, d.dot q ≤ (l.foldl (Poly2d.extremeStep d) acc).1 := by
  induction l generalizing acc with
  | nil => simp
  | cons p l ih =>
    rw [List.foldl_cons]
    by_cases hs : d.dot p > acc.1
    · have e : Poly2d.extremeStep d acc p = (d.dot p, p) := by simp [Poly2d.extremeStep, hs]
      rw [e]
      obtain ⟨h1, h2, h3⟩ := ih (d.dot p, p)
      simp only at h2
      refine ⟨Or.inr ?_, hs.le.trans h2, ?_⟩
      · rcases h1 with h1 | ⟨h4, h5, h6⟩
        · rw [h1]; exact ⟨by simp, rfl, hs⟩
        · exact ⟨List.mem_cons_of_mem _ h4, h5, lt_of_lt_of_le hs h2⟩
      · intro q hq
        rcases List.mem_cons.1 hq with rfl | hq
        · exact h2
        · exact h3 q hq
    · have e : Poly2d.extremeStep d acc p = acc := by simp [Poly2d.extremeStep, hs]
      rw [e]
      obtain ⟨h1, h2, h3⟩ := ih acc
      refine ⟨?_, h2, ?_⟩
      · rcases h1 with h1 | ⟨h4, h5, h6⟩
        · exact Or.inl h1
        · exact Or.inr ⟨List.mem_cons_of_mem _ h4, h5, h6⟩
      · intro q hq
        rcases List.mem_cons.1 hq with rfl | hq
        · exact (not_lt.1 hs).trans h2
        · exact h3 q hq

/-- `strict_check`, complete characterisation: it passes exactly when every vertex `p`, at its first
occurrence in the list, scores strictly more in its own direction than all vertices listed before it
and at least as much as all listed after it. -/
theorem C14_strict_check_iff (s : Poly2d K) :
    s.strictCheck = true ↔ ∀ (before : List (V2 K)) (p : V2 K) (after : List (V2 K)),
      s.points = before ++ p :: after → p ∉ before →
        (∀ q ∈ before, p.dot q < p.dot p) ∧ ∀ q ∈ after, p.dot q ≤ p.dot p := by
  have hcheck : s.strictCheck = true ↔ ∀ p ∈ s.points, extremePoint s p = p := by
    unfold Poly2d.strictCheck
    rw [List.all_eq_true]
    refine forall₂_congr fun p _ => ?_
    unfold V2.feq
    rw [ExactFloat.feq_eq, ExactFloat.feq_eq, Bool.and_eq_true, decide_eq_true_eq,
      decide_eq_true_eq, V2.ext_iff]
  have hrun : ∀ p : V2 K, extremePoint s p =
      (s.points.foldl (Poly2d.extremeStep p) (FloatExtra.f32Min, 0)).2 := fun p => rfl
  have hm : ∀ p : V2 K, (FloatExtra.f32Min : K) < p.dot p := fun p =>
    lt_of_lt_of_le f32Min_neg (lengthSq_nonneg p)
  rw [hcheck]
  constructor
  · intro h l₁ p l₂ hl hp
    have hmem : p ∈ s.points := by rw [hl]; simp
    have he := h p hmem
    rw [hrun, hl, List.foldl_append] at he
    obtain ⟨a1, a2, a3⟩ := extreme_fold p l₁ ((FloatExtra.f32Min : K), (0 : V2 K))
    obtain ⟨b1, b2, b3⟩ := extreme_fold p (p :: l₂)
      (l₁.foldl (Poly2d.extremeStep p) ((FloatExtra.f32Min : K), (0 : V2 K)))
    set r1 := l₁.foldl (Poly2d.extremeStep p) ((FloatExtra.f32Min : K), (0 : V2 K)) with hr1
    set r := (p :: l₂).foldl (Poly2d.extremeStep p) r1 with hr
    have bp := b3 p (by simp)
    constructor
    · intro q hq
      by_contra hlt
      rw [not_lt] at hlt
      have hge : p.dot p ≤ r1.1 := hlt.trans (a3 q hq)
      have hin : r1.2 ∈ l₁ := by
        rcases a1 with a1 | ⟨a4, _, _⟩
        · rw [a1] at hge
          exact absurd (hm p) (not_lt.2 hge)
        · exact a4
      rcases b1 with b1 | ⟨_, b5, b6⟩
      · rw [b1] at he; rw [he] at hin; exact hp hin
      · rw [he] at b5; rw [b5] at b6; exact absurd b6 (not_lt.2 hge)
    · intro q hq
      have hrs : r.1 = p.dot p := by
        rcases b1 with b1 | ⟨_, b5, _⟩
        · rcases a1 with a1 | ⟨_, a5, _⟩
          · rw [b1, a1] at bp
            exact absurd (hm p) (not_lt.2 bp)
          · rw [b1] at he
            rw [b1, a5, he]
        · rw [b5, he]
      rw [← hrs]
      exact b3 q (List.mem_cons_of_mem _ hq)
  · intro h p hp
    obtain ⟨l₁, l₂, hl, hn⟩ := List.eq_append_cons_of_mem hp
    obtain ⟨h1, h2⟩ := h l₁ p l₂ hl hn
    rw [hrun, hl, List.foldl_append, List.foldl_cons]
    obtain ⟨a1, a2, a3⟩ := extreme_fold p l₁ ((FloatExtra.f32Min : K), (0 : V2 K))
    set r1 := l₁.foldl (Poly2d.extremeStep p) ((FloatExtra.f32Min : K), (0 : V2 K)) with hr1
    have hlt : r1.1 < p.dot p := by
      rcases a1 with a1 | ⟨a4, a5, _⟩
      · rw [a1]; exact hm p
      · rw [a5]; exact h1 _ a4
    have e : Poly2d.extremeStep p r1 p = (p.dot p, p) := by simp [Poly2d.extremeStep, hlt]
    rw [e]
    obtain ⟨b1, b2, b3⟩ := extreme_fold p l₂ (p.dot p, p)
    rcases b1 with b1 | ⟨b4, b5, b6⟩
    · rw [b1]
    · rw [b5] at b6
      exact absurd b6 (not_lt.2 (h2 _ b4))

/-- both sides of the characterisation occur -/
example : (⟨[⟨1, 1⟩, ⟨1, 0⟩]⟩ : Poly2d K).strictCheck = false := by
  rw [← Bool.not_eq_true, C14_strict_check_iff]
  intro h
  have := (h [⟨1, 1⟩] ⟨1, 0⟩ [] rfl (by simp)).1 ⟨1, 1⟩ (by simp)
  simp [dot_def] at this

variable [ExactSqrt K]
variable {T : Type} [Transformation2d T K] [Invertible T]

/-! ## C26 -/

/-- Box2d v Ball, complete characterisation: the vector is the least move to touching contact exactly
when the ball's centre is not in the relative interior of a face perpendicular to the x axis. -/
theorem C26_box_ball_resolves_iff (a : Box2d K) (ha : 0 ≤ a.halfsize.x ∧ 0 ≤ a.halfsize.y)
    (b : Ball K) (hb : 0 ≤ b.radius) (rel : T) (hrel : Similarity rel (1 : K)) :
    ∃ c v, sdfvRel a b rel = .ok (c, v) ∧
      penetratesRel a b rel = .ok (if c then some v else none) ∧
      distanceToRel a b rel = .ok (if c then none else some v) ∧
      (ResolvesLeast c v (Region.pts a) (placed rel b) ↔
        ¬ (|(applyOrigin rel).x| = a.halfsize.x ∧ |(applyOrigin rel).y| < a.halfsize.y)) := by
  by_cases hface : |(applyOrigin rel).x| = a.halfsize.x ∧ |(applyOrigin rel).y| < a.halfsize.y
  · obtain ⟨h⟩ := a
    set δ := applyOrigin rel with hδ
    refine ⟨(roundedBoxPoint h b.radius δ).1, (roundedBoxPoint h b.radius δ).2, rfl, rfl, rfl, ?_⟩
    refine ⟨fun hr => ?_, fun hn => absurd hface hn⟩
    exfalso
    rw [roundedBoxPoint_face h b.radius δ hface.1 hface.2, placed_ball rel hrel hb] at hr
    have hflag : decide (|δ.y| - h.y < b.radius) = true := decide_eq_true (by linarith [hface.2])
    have hlt : |δ.y| < h.y := hface.2
    have hsx := signum_mul_signum δ.x
    have hsy := signum_mul_signum δ.y
    have hax := abs_mul_signum δ.x
    have := hr.2.1 hflag ⟨-FloatExtra.signum δ.x * b.radius, 0⟩ ?_
    · rw [lengthSq_def, lengthSq_def] at this
      simp only [mul_zero, zero_add, add_zero] at this
      have e1 : (|δ.y| - h.y - b.radius) * FloatExtra.signum δ.y *
          ((|δ.y| - h.y - b.radius) * FloatExtra.signum δ.y) = (h.y - |δ.y| + b.radius) ^ 2 := by
        linear_combination (|δ.y| - h.y - b.radius) ^ 2 * hsy
      have e2 : -FloatExtra.signum δ.x * b.radius * (-FloatExtra.signum δ.x * b.radius) =
          b.radius ^ 2 := by linear_combination b.radius ^ 2 * hsx
      rw [e1, e2] at this
      have := (sq_le_sq₀ (by linarith) hb).1 this
      linarith
    · refine ⟨⟨FloatExtra.signum δ.x, 0⟩, ?_, ?_⟩
      · intro h0
        have h1 : FloatExtra.signum δ.x = 0 := congrArg V2.x h0
        rw [h1] at hsx; simp at hsx
      · rintro x ⟨p, ⟨hp, _⟩, rfl⟩ y hy
        rw [mem_thick_singleton] at hy
        have hp' : |p.x| ≤ h.x := hp
        simp only [dot_def, add_x, add_y, zero_mul, add_zero]
        have k1 : FloatExtra.signum δ.x * p.x ≤ |FloatExtra.signum δ.x * p.x| := le_abs_self _
        rw [abs_mul, signum_abs, one_mul] at k1
        have hyx : |y.x - δ.x| ≤ b.radius := by
          apply abs_le_of_sq_le_sq _ hb
          rw [lengthSq_def] at hy
          simp only [sub_x, sub_y] at hy
          nlinarith [mul_self_nonneg (y.y - δ.y)]
        have k2 : -(FloatExtra.signum δ.x * (y.x - δ.x)) ≤ |FloatExtra.signum δ.x * (y.x - δ.x)| :=
          neg_le_abs _
        rw [abs_mul, signum_abs, one_mul] at k2
        have hf : |δ.x| = h.x := hface.1
        have e3 : FloatExtra.signum δ.x * δ.x = |δ.x| := by
          rw [mul_comm]
          linear_combination (-FloatExtra.signum δ.x) * hax + |δ.x| * hsx
        linarith [show FloatExtra.signum δ.x * (p.x + -FloatExtra.signum δ.x * b.radius) =
          FloatExtra.signum δ.x * p.x - b.radius by linear_combination (-b.radius) * hsx,
          show FloatExtra.signum δ.x * (y.x - δ.x) = FloatExtra.signum δ.x * y.x - |δ.x| by
            rw [mul_sub, e3]]
  · obtain ⟨c, v, h1, h2, h3, h4⟩ := C26_box_ball_resolves a ha b hb rel hrel hface
    exact ⟨c, v, h1, h2, h3, ⟨fun _ => hface, fun _ => h4⟩⟩


/-! ## C27 -/

/-- Box2d v Ball signed distance of separated shapes, complete characterisation.  The returned value
is the distance from the box to the point `p` of the ball nearest to the *centre* of the box.  It is
never less than the gap, and it is the gap exactly when the point of the box nearest to the ball's
centre lies on the line through both centres. -/
theorem C27_separated (a : Box2d K) (ha : 0 ≤ a.halfsize.x ∧ 0 ≤ a.halfsize.y)
    (b : Ball K) (hb : 0 < b.radius) (rel : T) (hrel : Similarity rel (1 : K))
    (hsep : collidesRel a b rel = .ok false) :
    ∃ s p, SdfRel2d.sdfRel a b rel = .ok s ∧ p ∈ placed rel b ∧
      (∀ p' ∈ placed rel b, lengthSq p ≤ lengthSq p') ∧ IsDist p (Region.pts a) s ∧
      (∀ d, IsSetDist (Region.pts a) (placed rel b) d → d ≤ s) ∧
      (IsSetDist (Region.pts a) (placed rel b) s ↔
        ∃ t, IsNearest (applyOrigin rel) (Region.pts a) (V2.scale t (applyOrigin rel))) := by
  obtain ⟨h⟩ := a
  obtain ⟨hx, hy⟩ := ha
  obtain ⟨c, hc, hc2, _⟩ := C25_box_ball_collides (⟨h⟩ : Box2d K) ⟨hx, hy⟩ b hb rel hrel
  have hcf : c = false := by
    have := hc.symm.trans hsep
    injection this
  subst hcf
  set A := Region.pts (Box2d.mk h) with hA
  set δ := applyOrigin rel with hδ
  set r := b.radius with hr
  have hfar : ∀ q ∈ A, r ≤ (δ - q).length := by
    intro q hq
    by_contra hcon
    push Not at hcon
    have := hc2.2 ⟨q, hq, hb, by
      rw [lengthSq_sub_comm, ← V2.length_sq, sq_lt_sq₀ (V2.length_nonneg _) hb.le]; exact hcon⟩
    exact absurd this (by simp)
  have h0A : (0 : V2 K) ∈ A := by
    show |(0 : K)| ≤ h.x ∧ |(0 : K)| ≤ h.y
    rw [abs_zero]; exact ⟨hx, hy⟩
  have hrL : r ≤ δ.length := by simpa using hfar 0 h0A
  set L := δ.length with hL
  have hLpos : 0 < L := lt_of_lt_of_le hb hrL
  set u := V2.scale (1 / L) δ with hu
  have hLsq : lengthSq δ = L ^ 2 := (V2.length_sq δ).symm
  have huu : lengthSq u = 1 := by rw [hu, lengthSq_scale, hLsq]; field_simp
  have hul : u.length = 1 := length_eq_one huu
  have hδu : δ = V2.scale L u := by ext <;> simp [hu] <;> field_simp
  set p := δ - V2.scale r u with hp
  have hext : ExtremePointT2d.extremePointT b rel (-δ) = p := by
    show applyOrigin rel + V2.scale (scalingFactor rel)
      (V2.scale b.radius (normalizeOrZero (-δ))) = _
    rw [normalizeOrZero_eq, length_neg, hrel.factor, ← hδ, ← hL, hp, hu]
    ext <;> simp <;> ring
  obtain ⟨s, q, g, hsd, hs, hflag, _, _⟩ := boxPoint_resolves h p hx hy false false
  have hs0 : 0 ≤ s := by
    by_contra hcon
    push Not at hcon
    have hm0 : 0 < min (-s) r := lt_min (by linarith) hb
    have hm1 : min (-s) r ≤ -s := min_le_left _ _
    have hm2 : min (-s) r ≤ r := min_le_right _ _
    set m := min (-s) r
    have hmem := hsd.inner hcon (V2.scale m u) (by
      rw [lengthSq_scale, huu, mul_one]
      calc m ^ 2 ≤ (-s) ^ 2 := (sq_le_sq₀ hm0.le (by linarith)).2 hm1
        _ = s ^ 2 := neg_sq s)
    have := hfar _ hmem
    have e : δ - (p + V2.scale m u) = V2.scale (r - m) u := by
      rw [hp]; ext <;> simp <;> ring
    rw [e, length_scale, hul, mul_one, abs_of_nonneg (by linarith)] at this
    linarith
  have hpq : p - q = V2.scale s g := by
    conv_lhs => rw [hsd.eq]
    ext <;> simp
  have hpqs : lengthSq (p - q) = s ^ 2 := by rw [hpq, lengthSq_scale, hsd.unit, mul_one]
  have hpd : lengthSq (p - δ) = r ^ 2 := by
    rw [show p - δ = V2.scale (-r) u by rw [hp]; ext <;> simp, lengthSq_scale, huu, neg_sq, mul_one]
  rw [placed_ball rel hrel hb.le, ← hδ, ← hr]
  refine ⟨s, p, ?_, ?_, ?_, ?_, ?_, ?_⟩
  · have hff : (boxPoint false false h p).1 = false := by
      by_contra hcon
      exact absurd (hflag.1 (by simpa using hcon)) (not_lt.2 hs0)
    show (match collidesRel (⟨h⟩ : Box2d K) b rel with
      | .error e => Except.error e
      | .ok c => .ok <|
        if c then FloatExtra.fmin
            (FloatExtra.abs (ExtremePointT2d.extremePointT b rel (-δ)).x - h.x)
            (FloatExtra.abs (ExtremePointT2d.extremePointT b rel (-δ)).y - h.y)
        else if FloatExtra.isSignNeg
            (FloatExtra.abs (ExtremePointT2d.extremePointT b rel (-δ)).x - h.x) then
          FloatExtra.abs (ExtremePointT2d.extremePointT b rel (-δ)).y - h.y
        else if FloatExtra.isSignNeg
            (FloatExtra.abs (ExtremePointT2d.extremePointT b rel (-δ)).y - h.y) then
          FloatExtra.abs (ExtremePointT2d.extremePointT b rel (-δ)).x - h.x
        else _) = _
    rw [hc, hext, ← hs]
    unfold boxPointSdf
    rw [hff]
    simp only [ExactFloat.isSignNeg_eq, decide_eq_true_eq, Bool.false_eq_true, if_false]
  · rw [mem_thick_singleton, hpd]
  · intro p' hp'
    rw [mem_thick_singleton] at hp'
    have l1 := length_le_of_sq hb.le hp'
    have e : δ = p' + -(p' - δ) := by ext <;> simp
    have t := length_add_le p' (-(p' - δ))
    rw [← e, length_neg, ← hL] at t
    rw [← length_le_iff, show p = V2.scale (L - r) u by
      rw [hp]; conv_lhs => rw [hδu]
      ext <;> simp <;> ring, length_scale, hul, mul_one, abs_of_nonneg (by linarith)]
    linarith
  · refine ⟨hs0, ⟨q, hsd.mem, hpqs⟩, ?_⟩
    intro q' hq'
    rw [← V2.length_sq]
    exact (sq_le_sq₀ hs0 (V2.length_nonneg _)).2 (hsd.le_dist hq')
  · intro d hd
    have := hd.2.2 q hsd.mem p (mem_thick_singleton.2 hpd.le)
    rw [lengthSq_sub_comm, hpqs] at this
    exact (sq_le_sq₀ hd.1 hs0).1 this
  · constructor
    · rintro ⟨_, _, hmin⟩
      obtain ⟨s₀, q₀, g₀, hsd₀, _, _, _, _⟩ := boxPoint_resolves h δ hx hy false false
      have hd0 : δ - q₀ = V2.scale s₀ g₀ := by
        conv_lhs => rw [hsd₀.eq]
        ext <;> simp
      have hg0 := length_eq_one hsd₀.unit
      have hs₀ : r ≤ s₀ := by
        rcases lt_or_ge s₀ 0 with h1 | h1
        · have := hfar _ (hsd₀.inner h1 0 (by rw [lengthSq_eq_zero.2 rfl]; positivity))
          rw [add_zero, sub_self, length_zero] at this
          linarith
        · have := hfar q₀ hsd₀.mem
          rwa [hd0, length_scale, hg0, mul_one, abs_of_nonneg h1] at this
      have h1 := hmin q₀ hsd₀.mem (δ - V2.scale r g₀) (mem_thick_singleton.2 (by
        rw [show δ - V2.scale r g₀ - δ = V2.scale (-r) g₀ by ext <;> simp, lengthSq_scale,
          hsd₀.unit, neg_sq, mul_one]))
      rw [lengthSq_sub_comm, show δ - V2.scale r g₀ - q₀ = V2.scale (s₀ - r) g₀ by
        rw [sub_right_comm, hd0]; ext <;> simp <;> ring, lengthSq_scale, hsd₀.unit, mul_one] at h1
      have h2 : s ≤ s₀ - r := (sq_le_sq₀ hs0 (by linarith)).1 h1
      have hdq : δ - q = V2.scale r u + (p - q) := by rw [hp]; ext <;> simp <;> ring
      have h3 := hsd₀.le_dist hsd.mem
      have h4 := length_add_le (V2.scale r u) (p - q)
      rw [length_scale, hul, mul_one, abs_of_nonneg hb.le, ← hdq] at h4
      have h5 : (p - q).length = s := by
        rw [hpq, length_scale, length_eq_one hsd.unit, mul_one, abs_of_nonneg hs0]
      rw [h5] at h4
      have h6 : (δ - q).length = r + s := by linarith
      have h7 : lengthSq (δ - q) = (r + s) ^ 2 := by rw [← V2.length_sq, h6]
      have h8 : lengthSq (V2.scale r u + (p - q)) =
          r ^ 2 * lengthSq u + 2 * r * u.dot (p - q) + lengthSq (p - q) := by
        simp only [lengthSq_def, dot_def, add_x, add_y, scale_x, scale_y]; ring
      rw [← hdq, h7, huu, hpqs] at h8
      have h9 : u.dot (p - q) = s := by
        have : r * (u.dot (p - q) - s) = 0 := by linear_combination -h8 / 2
        rcases mul_eq_zero.1 this with h | h
        · exact absurd h hb.ne'
        · linarith
      have h10 : lengthSq (p - q - V2.scale s u) = 0 := by
        have : lengthSq (p - q - V2.scale s u) =
            lengthSq (p - q) - 2 * s * u.dot (p - q) + s ^ 2 * lengthSq u := by
          simp only [lengthSq_def, dot_def, sub_x, sub_y, scale_x, scale_y]; ring
        rw [this, hpqs, h9, huu]; ring
      rw [lengthSq_eq_zero] at h10
      have h11 : q = V2.scale ((L - r - s) / L) δ := by
        have : q = p - V2.scale s u := by
          rw [sub_eq_zero] at h10; rw [← h10]; ext <;> simp
        rw [this, hp, hu]
        ext <;> simp <;> field_simp
      refine ⟨(L - r - s) / L, ?_⟩
      rw [← h11]
      refine ⟨hsd.mem, ?_⟩
      intro q' hq'
      have h12 := hsd₀.le_dist hq'
      rw [← length_le_iff]
      linarith
    · rintro ⟨t, ht, htmin⟩
      have ht1 : t ≤ 1 := by
        by_contra hcon
        push Not at hcon
        have hmem : δ ∈ A := by
          obtain ⟨h1, h2⟩ := ht
          simp only [scale_x, scale_y, abs_mul] at h1 h2
          rw [abs_of_pos (by linarith)] at h1 h2
          refine ⟨?_, ?_⟩
          · show |δ.x| ≤ h.x
            nlinarith [abs_nonneg δ.x]
          · show |δ.y| ≤ h.y
            nlinarith [abs_nonneg δ.y]
        have := hfar δ hmem
        rw [sub_self, length_zero] at this
        linarith
      have e1 : δ - V2.scale t δ = V2.scale (1 - t) δ := by ext <;> simp <;> ring
      have hl1 : (δ - V2.scale t δ).length = (1 - t) * L := by
        rw [e1, length_scale, abs_of_nonneg (by linarith)]
      have hl2 := hfar _ ht
      rw [hl1] at hl2
      have e2 : p - V2.scale t δ = V2.scale ((1 - t) * L - r) u := by
        rw [hp]; conv_lhs => rw [hδu]
        ext <;> simp <;> ring
      have hle := hsd.le_dist ht
      rw [e2, length_scale, hul, mul_one, abs_of_nonneg (by linarith)] at hle
      refine ⟨hs0, ⟨q, hsd.mem, p, mem_thick_singleton.2 hpd.le, by
        rw [lengthSq_sub_comm, hpqs]⟩, ?_⟩
      intro a' ha' b' hb'
      rw [mem_thick_singleton] at hb'
      have l1 := length_le_of_sq hb.le hb'
      have l2 := htmin a' ha'
      rw [← length_le_iff, hl1] at l2
      have e3 : δ - a' = -(b' - δ) + (b' - a') := by ext <;> simp
      have t1 := length_add_le (-(b' - δ)) (b' - a')
      rw [← e3, length_neg, length_sub_comm b' a'] at t1
      rw [← V2.length_sq]
      exact (sq_le_sq₀ hs0 (V2.length_nonneg _)).2 (by linarith)

/-- Finding: for separated shapes the returned value can exceed the gap: box half sizes (1,1), ball of
radius 1 around (4,5), gap 4. -/
theorem C27_separated_finding :
    ∃ s, collidesRel (⟨⟨1, 1⟩⟩ : Box2d K) (⟨1⟩ : Ball K) (⟨4, 5⟩ : V2 K) = .ok false ∧
      SdfRel2d.sdfRel (⟨⟨1, 1⟩⟩ : Box2d K) (⟨1⟩ : Ball K) (⟨4, 5⟩ : V2 K) = .ok s ∧ 4 < s ∧
      IsSetDist (Region.pts (⟨⟨1, 1⟩⟩ : Box2d K)) (placed (⟨4, 5⟩ : V2 K) (⟨1⟩ : Ball K)) 4 := by
  have hfar : ∀ q ∈ Region.pts (⟨⟨1, 1⟩⟩ : Box2d K), 5 ^ 2 ≤ lengthSq ((⟨4, 5⟩ : V2 K) - q) := by
    rintro q ⟨h1, h2⟩
    have k1 := (abs_le.1 h1).2
    have k2 := (abs_le.1 h2).2
    simp only at k1 k2
    rw [lengthSq_def]; simp only [sub_x, sub_y]; nlinarith
  have horig : applyOrigin (⟨4, 5⟩ : V2 K) = ⟨4, 5⟩ := rfl
  have hcorner : (⟨1, 1⟩ : V2 K) ∈ Region.pts (⟨⟨1, 1⟩⟩ : Box2d K) := by
    show |(1 : K)| ≤ 1 ∧ |(1 : K)| ≤ 1
    simp
  obtain ⟨c, hc, hc2, _⟩ := C25_box_ball_collides (⟨⟨1, 1⟩⟩ : Box2d K) ⟨zero_le_one, zero_le_one⟩
    (⟨1⟩ : Ball K) one_pos (⟨4, 5⟩ : V2 K) (similarity_vec2 _)
  have hcf : c = false := by
    by_contra hcon
    obtain ⟨q, hq, _, hlt⟩ := hc2.1 (by simpa using hcon)
    have := hfar q hq
    rw [lengthSq_sub_comm, horig] at hlt
    norm_num at this hlt
    linarith
  subst hcf
  obtain ⟨s, p, h1, _, _, h4, h5, h6⟩ := C27_separated (⟨⟨1, 1⟩⟩ : Box2d K) ⟨zero_le_one, zero_le_one⟩
    (⟨1⟩ : Ball K) one_pos (⟨4, 5⟩ : V2 K) (similarity_vec2 _) hc
  have hd : IsSetDist (Region.pts (⟨⟨1, 1⟩⟩ : Box2d K))
      (placed (⟨4, 5⟩ : V2 K) (⟨1⟩ : Ball K)) 4 := by
    rw [placed_ball _ (similarity_vec2 _) (zero_le_one' K), horig]
    refine ⟨by norm_num, ⟨⟨1, 1⟩, hcorner, ⟨17 / 5, 21 / 5⟩, ?_, ?_⟩, ?_⟩
    · rw [mem_thick_singleton, lengthSq_def]; simp only [sub_x, sub_y]; norm_num
    · rw [lengthSq_def]; simp only [sub_x, sub_y]; norm_num
    · intro a' ha' b' hb'
      rw [mem_thick_singleton] at hb'
      have l1 := length_le_of_sq zero_le_one hb'
      have l2 := hfar a' ha'
      rw [← V2.length_sq] at l2
      have l3 := (sq_le_sq₀ (by norm_num) (V2.length_nonneg _)).1 l2
      have e3 : (⟨4, 5⟩ : V2 K) - a' = -(b' - ⟨4, 5⟩) + (b' - a') := by ext <;> simp
      have t1 := length_add_le (-(b' - (⟨4, 5⟩ : V2 K))) (b' - a')
      rw [← e3, length_neg, length_sub_comm b' a'] at t1
      rw [← V2.length_sq]
      exact (sq_le_sq₀ (by norm_num) (V2.length_nonneg _)).2 (by linarith)
  refine ⟨s, hc, h1, lt_of_le_of_ne (h5 4 hd) ?_, hd⟩
  intro he
  rw [← he] at h6
  obtain ⟨t, ht, htmin⟩ := h6.1 hd
  have := htmin _ hcorner
  obtain ⟨k1, k2⟩ := ht
  rw [horig] at this k1 k2
  have k1' := (abs_le.1 k1).2
  have k2' := (abs_le.1 k2).2
  simp only [scale_x, scale_y] at k1' k2'
  rw [lengthSq_def, lengthSq_def] at this
  simp only [sub_x, sub_y, scale_x, scale_y] at this
  nlinarith

/-- Finding: `sdf` can be positive although `collides` is true and the ball even contains the whole
box: box half sizes (1,1), ball of radius 10 around (3/10,4/10), `sdf = 47/10`. -/
theorem C27_sign_finding :
    collidesRel (⟨⟨1, 1⟩⟩ : Box2d K) (⟨10⟩ : Ball K) (⟨3 / 10, 4 / 10⟩ : V2 K) = .ok true ∧
    SdfRel2d.sdfRel (⟨⟨1, 1⟩⟩ : Box2d K) (⟨10⟩ : Ball K) (⟨3 / 10, 4 / 10⟩ : V2 K) =
      .ok (47 / 10) ∧
    Region.pts (⟨⟨1, 1⟩⟩ : Box2d K) ⊆ placed (⟨3 / 10, 4 / 10⟩ : V2 K) (⟨10⟩ : Ball K) := by
  have horig : applyOrigin (⟨3 / 10, 4 / 10⟩ : V2 K) = ⟨3 / 10, 4 / 10⟩ := rfl
  obtain ⟨c, hc, hc2, _⟩ := C25_box_ball_collides (⟨⟨1, 1⟩⟩ : Box2d K) ⟨zero_le_one, zero_le_one⟩
    (⟨10⟩ : Ball K) (by norm_num) (⟨3 / 10, 4 / 10⟩ : V2 K) (similarity_vec2 _)
  have hct : c = true := by
    refine hc2.2 ⟨0, ?_, by norm_num, ?_⟩
    · show |(0 : K)| ≤ 1 ∧ |(0 : K)| ≤ 1
      simp
    · rw [horig, lengthSq_def]; simp only [sub_x, sub_y, zero_x, zero_y]; norm_num
  subst hct
  refine ⟨hc, ?_, ?_⟩
  · have hlen : (-(⟨3 / 10, 4 / 10⟩ : V2 K)).length = 1 / 2 := by
      have h1 := V2.length_sq (-(⟨3 / 10, 4 / 10⟩ : V2 K))
      have h2 := V2.length_nonneg (-(⟨3 / 10, 4 / 10⟩ : V2 K))
      rw [lengthSq_def] at h1
      simp only [neg_x, neg_y] at h1
      refine (sq_eq_sq₀ h2 (by norm_num)).1 ?_
      rw [h1]; norm_num
    have hp : ExtremePointT2d.extremePointT (⟨10⟩ : Ball K) (⟨3 / 10, 4 / 10⟩ : V2 K)
        (-(⟨3 / 10, 4 / 10⟩ : V2 K)) = ⟨-(57 / 10), -(76 / 10)⟩ := by
      show (⟨3 / 10, 4 / 10⟩ : V2 K) + V2.scale (scalingFactor (⟨3 / 10, 4 / 10⟩ : V2 K))
        (V2.scale 10 (normalizeOrZero _)) = _
      rw [normalizeOrZero_eq, hlen, (similarity_vec2 _).factor]
      ext <;> simp <;> norm_num
    show (match collidesRel (⟨⟨1, 1⟩⟩ : Box2d K) (⟨10⟩ : Ball K) (⟨3 / 10, 4 / 10⟩ : V2 K) with
      | .error e => Except.error e
      | .ok c => .ok <|
        if c then FloatExtra.fmin
            (FloatExtra.abs (ExtremePointT2d.extremePointT (⟨10⟩ : Ball K) (⟨3 / 10, 4 / 10⟩ : V2 K)
              (-(⟨3 / 10, 4 / 10⟩ : V2 K))).x - 1)
            (FloatExtra.abs (ExtremePointT2d.extremePointT (⟨10⟩ : Ball K) (⟨3 / 10, 4 / 10⟩ : V2 K)
              (-(⟨3 / 10, 4 / 10⟩ : V2 K))).y - 1)
        else _) = _
    rw [hc, hp]
    simp only [if_true, ExactFloat.fmin_eq, ExactFloat.abs_eq, abs_neg]
    rw [abs_of_pos (by norm_num), abs_of_pos (by norm_num), min_eq_left (by norm_num)]
    norm_num
  · rintro q ⟨h1, h2⟩
    rw [placed_ball _ (similarity_vec2 _) (by norm_num), mem_thick_singleton, horig, lengthSq_def]
    have k1 := abs_le.1 h1
    have k2 := abs_le.1 h2
    simp only at k1 k2
    simp only [sub_x, sub_y]
    nlinarith

/-- The hypotheses of `C27_separated` are met with equality: box (3,4), ball of radius 1 around
(6,8): the corner (3,4) is nearest and on the centre line. -/
example : ∃ s, SdfRel2d.sdfRel (⟨⟨3, 4⟩⟩ : Box2d K) (⟨1⟩ : Ball K) (⟨6, 8⟩ : V2 K) = .ok s ∧
    IsSetDist (Region.pts (⟨⟨3, 4⟩⟩ : Box2d K)) (placed (⟨6, 8⟩ : V2 K) (⟨1⟩ : Ball K)) s := by
  have horig : applyOrigin (⟨6, 8⟩ : V2 K) = ⟨6, 8⟩ := rfl
  have hfar : ∀ q ∈ Region.pts (⟨⟨3, 4⟩⟩ : Box2d K), 5 ^ 2 ≤ lengthSq ((⟨6, 8⟩ : V2 K) - q) := by
    rintro q ⟨h1, h2⟩
    have k1 := (abs_le.1 h1).2
    have k2 := (abs_le.1 h2).2
    simp only at k1 k2
    rw [lengthSq_def]; simp only [sub_x, sub_y]; nlinarith
  obtain ⟨c, hc, hc2, _⟩ := C25_box_ball_collides (⟨⟨3, 4⟩⟩ : Box2d K) ⟨by norm_num, by norm_num⟩
    (⟨1⟩ : Ball K) one_pos (⟨6, 8⟩ : V2 K) (similarity_vec2 _)
  have hcf : c = false := by
    by_contra hcon
    obtain ⟨q, hq, _, hlt⟩ := hc2.1 (by simpa using hcon)
    have := hfar q hq
    rw [lengthSq_sub_comm, horig] at hlt
    norm_num at this hlt
    linarith
  subst hcf
  obtain ⟨s, p, h1, _, _, _, _, h6⟩ := C27_separated (⟨⟨3, 4⟩⟩ : Box2d K)
    ⟨by norm_num, by norm_num⟩ (⟨1⟩ : Ball K) one_pos (⟨6, 8⟩ : V2 K) (similarity_vec2 _) hc
  refine ⟨s, h1, h6.2 ⟨1 / 2, ?_, ?_⟩⟩
  · show |(1 / 2 : K) * 6| ≤ 3 ∧ |(1 / 2 : K) * 8| ≤ 4
    rw [abs_of_pos (by norm_num), abs_of_pos (by norm_num)]; norm_num
  · intro q hq
    refine le_trans (le_of_eq ?_) (hfar q hq)
    rw [horig, lengthSq_def]; simp only [sub_x, sub_y, scale_x, scale_y]; norm_num

end
end Auburn
