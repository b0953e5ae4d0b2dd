import Verif.Props.Distance
import Verif.Lib.GjkNear

/-!
# C34, C43, C44: `sdfv` does not panic, a reported contact is one, and what a distance is worth

Exact arithmetic, Minkowski-based pairs (`DefaultMinkowski`).
-/

set_option linter.unusedSectionVars false
set_option synthInstance.maxSize 1000

namespace Auburn

open V2 ExtremePoint2d Transformation2d Auburn.Invertible Composable

section
variable {K : Type} [Field K] [LinearOrder K] [IsStrictOrderedRing K] [FloatExtra K]
  [ExactFloat K]
variable {A B T : Type} [Region A K] [Region B K] [ExtremePoint2d A K]
    [ExtremePoint2d B K] [Transformation2d T K] {a : A} {b : B} {rel : T}

/-- the differences of an extreme point of `a` and the opposite extreme point of the placed `b` -/
def ExtremeDifference (a : A) (b : B) (rel : T) (p : V2 K) : Prop :=
  ∃ d, p = extremePoint a d - apply rel (extremePoint b (unapplyNormal rel (-d)))

/-- The shapes are not so small, thin or close that `f32::EPSILON = 2^-23` matters.  Either all
coordinates are multiples of `1/N` for some `N ≤ 203`; or no difference `u` of opposite extreme
points is shorter than `2^-23` without being zero, and any triangle of such points (or of two of
them and the origin) is flat or has edge length times twice its area at least `2^-23`. -/
def Resolvable (a : A) (b : B) (rel : T) : Prop :=
  (∃ N : Nat, 0 < N ∧ N ≤ 203 ∧ GridPair (K := K) a b rel N) ∨
  ((∀ u : V2 K, ExtremeDifference a b rel u → u ≠ 0 → (1 / 2 ^ 23 : K) ^ 2 ≤ lengthSq u) ∧
    ∀ u v w : V2 K, ExtremeDifference a b rel u → ExtremeDifference a b rel v →
      (ExtremeDifference a b rel w ∨ w = 0) → (v - u).cross (w - u) ≠ 0 →
      (1 / 2 ^ 23 : K) ^ 2 ≤ lengthSq (v - u) * (v - u).cross (w - u) ^ 2)

theorem Resolvable.resolved (h : Resolvable (K := K) a b rel) :
    ∃ G : V2 K → Prop, Resolved G ∧
      ∀ d, G (extremePoint (LocalMinkowskiDiff2d.mk a b rel) d) := by
  rcases h with ⟨N, h0, hN, hG⟩ | ⟨h1, h3⟩
  · exact ⟨OnGrid N, resolved_grid h0 hN, hG⟩
  · exact ⟨ExtremeDifference a b rel, resolved_of_triangles h1 h3, fun d => ⟨d, rfl⟩⟩

variable [DefaultMinkowski A B]

/-! ## C34 -/

/-- `sdfv` does not panic on resolvable shapes, whether they overlap, touch or are apart.
(Without the hypothesis the claim is false: `C34_sdfv_panic_finding`, `C34_small_boxes_finding`.) -/
theorem C34_sdfv_no_panic (h : ConvexPair (K := K) a b rel) (hr : Resolvable (K := K) a b rel) :
    ∃ r, sdfvRel a b rel = .ok r := by
  rcases C33_sdfv_only_explicit_panic a b rel with h1 | h1
  · exact h1
  · exfalso
    obtain ⟨G, hR, hG⟩ := hr.resolved
    refine (gjkFull_resolved hR h.convex h.support hG iterationLimit true _ _ _
      (.one _ (h.support (initialDirection (applyOrigin rel))).1) (by simp) ?_).1 h1
    intro p hp
    rw [List.mem_singleton.1 hp]; exact hG _

/-! ## C43 -/

/-- On resolvable shapes "no distance" from `distance_to` and "collision" from `sdfv` are only
reported for shapes that share a point. -/
theorem C43_hit_touch (h : ConvexPair (K := K) a b rel) (hr : Resolvable (K := K) a b rel) :
    (distanceToRel a b rel = .ok none → Touch (Region.pts a) (placed rel b)) ∧
    (∀ v, sdfvRel a b rel = .ok (true, v) → Touch (Region.pts a) (placed rel b)) := by
  obtain ⟨G, hR, hG⟩ := hr.resolved
  have hI := h.support (initialDirection (applyOrigin rel))
  have hp : ∀ p ∈ [extremePoint (LocalMinkowskiDiff2d.mk a b rel)
      (initialDirection (applyOrigin rel))], G p := by
    intro p hp
    rw [List.mem_singleton.1 hp]; exact hG _
  constructor
  · intro hc
    have hc' : Except.map (fun r => if r.1 then none else some r.2)
      (gjkDistance (extremePoint (LocalMinkowskiDiff2d.mk a b rel)) iterationLimit _ _
      [extremePoint (LocalMinkowskiDiff2d.mk a b rel) (initialDirection (applyOrigin rel))]) =
      .ok none := hc
    generalize hr : gjkDistance (extremePoint (LocalMinkowskiDiff2d.mk a b rel)) iterationLimit _ _
      [extremePoint (LocalMinkowskiDiff2d.mk a b rel) (initialDirection (applyOrigin rel))] = R
      at hc'
    cases R with
    | error e => cases hc'
    | ok r =>
      obtain ⟨r1, r2⟩ := r
      simp only [Except.map, Except.ok.injEq] at hc'
      cases r1 with
      | false => simp at hc'
      | true => exact touch_iff.2 (gjkDistance_resolved hR h.convex h.support hG iterationLimit _ _ _
          (.one _ hI.1) hp r2 hr)
  · intro v hc
    exact touch_iff.2 ((gjkFull_resolved hR h.convex h.support hG iterationLimit true _ _ _
      (.one _ hI.1) (by simp) hp).2 v hc)

/-! ## C44 -/

/-- `v` runs from an extreme point of `a` to the opposite extreme point of the placed `b` -/
def CornerToCorner (a : A) (b : B) (rel : T) (v : V2 K) : Prop :=
  ∃ d : V2 K, d ≠ 0 ∧
    v = apply rel (extremePoint b (unapplyNormal rel (-d))) - extremePoint a d

/-- `v` is the shortest vector of one facing edge (of `a` or of `b`), reached at an end of it: `v` and
some other `u` join corners of the shapes, `v` is shortest among all vectors between `v` and `u`, and
in the direction `n` orthogonal to that edge the shapes are apart by `n·v = n·u` (by at least `κ` of
it). -/
def ShortestOfEdge (a : A) (b : B) (rel : T) (κ : K) (v : V2 K) : Prop :=
  ∃ n u : V2 K, n ≠ 0 ∧ CornerToCorner a b rel v ∧ CornerToCorner a b rel u ∧ u ≠ v ∧
    n.dot u = n.dot v ∧ 0 ≤ n.dot v ∧
    (∀ p ∈ Region.pts a, ∀ q ∈ placed rel b, κ * n.dot v ≤ n.dot (q - p)) ∧
    ∀ t : K, 0 ≤ t → t ≤ 1 → lengthSq v ≤ lengthSq (v + scale t (u - v))

theorem shortestOfEdge {κ : K} {v : V2 K}
    (h : EdgeEnd (minkDiff (Region.pts a) (placed rel b))
      (extremePoint (LocalMinkowskiDiff2d.mk a b rel)) κ v) : ShortestOfEdge a b rel κ v := by
  have hcc : ∀ w : V2 K, (∃ d, d ≠ 0 ∧ w = -extremePoint (LocalMinkowskiDiff2d.mk a b rel) d) →
      CornerToCorner a b rel w := by
    rintro w ⟨d, hd, rfl⟩
    exact ⟨d, hd, neg_sub _ _⟩
  obtain ⟨n, u, hn, hv, hu, hne, h1, h2, h3, h4⟩ := h
  refine ⟨n, u, hn, hcc v hv, hcc u hu, hne, h1, h2, fun p hp q hq => ?_, fun t h0 _ => ?_⟩
  · have := h3 (p - q) ⟨p, hp, q, hq, rfl⟩
    rwa [neg_sub] at this
  · have e : lengthSq (v + scale t (u - v)) =
        lengthSq v + 2 * (t * v.dot (u - v)) + t ^ 2 * lengthSq (u - v) := by
      simp only [lengthSq_def, dot_def, add_x, add_y, scale_x, scale_y, sub_x, sub_y]; ring
    have h5 := mul_nonneg h0 h4
    have h6 := mul_nonneg (sq_nonneg t) (lengthSq_nonneg (u - v))
    rw [e]; linarith

/-- Resolvable shapes that share no point: `distance_to` returns a vector, and this is a shortest
vector that brings the shapes into contact, or only a shortest one to the edge at which the search
stopped (the search does not turn around the end of that edge), or the shapes have so many corners
that the iteration limit stops the search.  (The second case can be arbitrarily bad, see
`C44_far_from_shortest_finding`.) -/
theorem C44_distance_shortest_or_corner (h : ConvexPair (K := K) a b rel)
    (hr : Resolvable (K := K) a b rel) (hn : ¬ Touch (Region.pts a) (placed rel b)) :
    ∃ v, distanceToRel a b rel = .ok (some v) ∧
      ((∀ w, Touch (shift w (Region.pts a)) (placed rel b) → lengthSq v ≤ lengthSq w) ∨
        ShortestOfEdge a b rel 1 v ∨ ManyExtremePoints (K := K) a b rel 21) := by
  obtain ⟨o, ho⟩ := (C33_rel_no_panic a b rel).2.2
  cases o with
  | none => exact absurd ((C43_hit_touch h hr).1 ho) hn
  | some v =>
    refine ⟨v, ho, ?_⟩
    obtain ⟨G, hR, hG⟩ := hr.resolved
    set S := extremePoint (LocalMinkowskiDiff2d.mk a b rel) with hS
    set d0 := initialDirection (applyOrigin rel) with hd0
    have hd : d0 ≠ 0 := initialDirection_ne _
    have hc' : Except.map (fun r => if r.1 then none else some r.2)
      (gjkDistance S iterationLimit (-(S d0)) (S d0) [S d0]) = .ok (some v) := ho
    generalize hr : gjkDistance S iterationLimit (-(S d0)) (S d0) [S d0] = R at hc'
    cases R with
    | error e => cases hc'
    | ok r =>
      obtain ⟨r1, r2⟩ := r
      simp only [Except.map, Except.ok.injEq] at hc'
      cases r1 with
      | true => simp at hc'
      | false =>
        simp only [Bool.false_eq_true, if_false, Option.some.injEq] at hc'
        subst hc'
        have hS0 : ∀ p ∈ [S d0], ∃ d, d ≠ 0 ∧ p = S d := by
          intro p hp; rw [List.mem_singleton.1 hp]; exact ⟨d0, hd, rfl⟩
        rcases gjkDistance_near hR (fun h0 => hn (touch_iff.2 h0)) h.support hG iterationLimit
          [S d0] _ _ _ (.one _ ⟨d0, hd, (h.support d0).2⟩ (h.support d0).1)
          (List.nodup_singleton _) hS0 (by intro p hp; rw [List.mem_singleton.1 hp]; exact hG _)
          hS0 r2 hr with (h1 | h1) | h1
        · refine Or.inl fun w hw => ?_
          have := h1 _ (shift_touch_iff.1 hw)
          rwa [lengthSq_neg, one_pow, one_mul] at this
        · exact Or.inr (Or.inl (shortestOfEdge h1))
        · exact Or.inr (Or.inr h1)

/-- The same for `sdfv`, whose vector is a shortest one up to one percent. -/
theorem C44_sdfv_shortest_or_corner (h : ConvexPair (K := K) a b rel)
    (hr : Resolvable (K := K) a b rel) (hn : ¬ Touch (Region.pts a) (placed rel b)) :
    ∃ v, sdfvRel a b rel = .ok (false, v) ∧
      ((∀ w, Touch (shift w (Region.pts a)) (placed rel b) →
          (99 / 100) ^ 2 * lengthSq v ≤ lengthSq w) ∨
        ShortestOfEdge a b rel (99 / 100) v ∨ ManyExtremePoints (K := K) a b rel 21) := by
  obtain ⟨⟨c, v⟩, ho⟩ := C34_sdfv_no_panic h hr
  cases c with
  | true => exact absurd ((C43_hit_touch h hr).2 v ho) hn
  | false =>
    refine ⟨v, ho, ?_⟩
    obtain ⟨G, hR, hG⟩ := hr.resolved
    set S := extremePoint (LocalMinkowskiDiff2d.mk a b rel) with hS
    set d0 := initialDirection (applyOrigin rel) with hd0
    have hd : d0 ≠ 0 := initialDirection_ne _
    have hS0 : ∀ p ∈ [S d0], ∃ d, d ≠ 0 ∧ p = S d := by
      intro p hp; rw [List.mem_singleton.1 hp]; exact ⟨d0, hd, rfl⟩
    have ht : (99 / 100 : K) ≤ 1 - FloatExtra.tol := by rw [ExactFloat.tol_eq]; norm_num
    rcases gjkFull_near hR (fun h0 => hn (touch_iff.2 h0)) h.support hG iterationLimit true
      [S d0] _ _ _ (.one _ ⟨d0, hd, (h.support d0).2⟩ (h.support d0).1)
      (List.nodup_singleton _) hS0 (by intro p hp; rw [List.mem_singleton.1 hp]; exact hG _)
      hS0 v ho with (h1 | h1) | h1
    · refine Or.inl fun w hw => ?_
      have := h1 _ (shift_touch_iff.1 hw)
      rw [lengthSq_neg] at this
      exact (mul_le_mul_of_nonneg_right (pow_le_pow_left₀ (by norm_num) ht 2)
        (lengthSq_nonneg v)).trans this
    · obtain ⟨n, u, k0, k1, k2, k3, k4, k5, k6, k7⟩ := h1
      refine Or.inr (Or.inl (shortestOfEdge ⟨n, u, k0, k1, k2, k3, k4, k5, fun x hx => ?_, k7⟩))
      refine (mul_le_mul_of_nonneg_right ht k5).trans (k6 x hx)
    · exact Or.inr (Or.inr h1)

end

section
variable {K : Type} [Field K] [LinearOrder K] [IsStrictOrderedRing K] [FloatExtra K]
  [ExactFloat K]

/-- Boxes with sizes and position on the grid of step `1/n`, rotated by an angle whose sine and cosine
are multiples of `1/q`, with `n q ≤ 203`, are resolvable. -/
theorem resolvable_box_box (a b : Box2d K) (rel : Transform2d K) {n q : Nat} (hn : 0 < n)
    (hq : 0 < q) (hnq : n * q ≤ 203) (ga : OnGrid n a.halfsize) (gb : OnGrid n b.halfsize)
    (gt : OnGrid n rel.pos) (gr : OnGrid q rel.rot.a) (hs : rel.scale = ⟨1, 1⟩) :
    Resolvable (K := K) a b rel := by
  refine Or.inl ⟨n * q, Nat.mul_pos hn hq, hnq, fun d => ?_⟩
  have hn0 : (n : K) ≠ 0 := by exact_mod_cast hn.ne'
  have hq0 : (q : K) ≠ 0 := by exact_mod_cast hq.ne'
  have sg : ∀ x : K, ∃ z : ℤ, (FloatExtra.signum x : K) = z := by
    intro x
    rcases lt_trichotomy x 0 with h | h | h
    · exact ⟨-1, by rw [ExactFloat.signum_neg x h]; simp⟩
    · rw [h]
      rcases ExactFloat.signum_zero (K := K) with h | h
      · exact ⟨1, by rw [h]; simp⟩
      · exact ⟨-1, by rw [h]; simp⟩
    · exact ⟨1, by rw [ExactFloat.signum_pos x h]; simp⟩
  obtain ⟨a1, a2, ea⟩ := ga
  obtain ⟨b1, b2, eb⟩ := gb
  obtain ⟨t1, t2, et⟩ := gt
  obtain ⟨r1, r2, er⟩ := gr
  obtain ⟨z1, hz1⟩ := sg d.x
  obtain ⟨z2, hz2⟩ := sg d.y
  obtain ⟨z3, hz3⟩ := sg (unapplyNormal rel (-d)).x
  obtain ⟨z4, hz4⟩ := sg (unapplyNormal rel (-d)).y
  refine ⟨z1 * a1 * q - (z3 * b1 * r1 - z4 * b2 * r2 + t1 * q),
    z2 * a2 * q - (z3 * b1 * r2 + z4 * b2 * r1 + t2 * q), ?_⟩
  have e1 : extremePoint a d = (⟨z1 * (a1 / n), z2 * (a2 / n)⟩ : V2 K) := by
    show (⟨_, _⟩ : V2 K) = _
    rw [hz1, hz2, ea]
  have e2 : extremePoint b (unapplyNormal rel (-d)) = (⟨z3 * (b1 / n), z4 * (b2 / n)⟩ : V2 K) := by
    show (⟨_, _⟩ : V2 K) = _
    rw [hz3, hz4, eb]
  rw [e1, e2]
  ext
  · simp [apply, Rotor2d.rotate, hs, et, er]
    field_simp
  · simp [apply, Rotor2d.rotate, hs, et, er]
    field_simp
    ring

end

/-! ## findings and concrete cases (evaluated by the kernel over ℚ) -/

section
attribute [local instance] ratFloat
attribute [local instance] ratFloat_exact

/-- Finding: two boxes of a few thousandths of a unit, more than 0.02 units apart (over four times the
larger half width), rotated against each other: `sdfv` panics, and `distance_to` reports "no
distance", as for overlapping shapes.  (The search directions have the size of a product of three
coordinates; below `f32::EPSILON` they are replaced.) -/
theorem C34_small_boxes_finding :
    let a : Box2d ℚ := ⟨⟨5 / 1000, 7 / 1000⟩⟩
    let b : Box2d ℚ := ⟨⟨2 / 1000, 1 / 1000⟩⟩
    let rel : Transform2d ℚ := ⟨⟨-29 / 1000, 0⟩, ⟨⟨24 / 25, 7 / 25⟩⟩, ⟨1, 1⟩⟩
    sdfvRel a b rel = .error .collidedAfterImpossible ∧ distanceToRel a b rel = .ok none ∧
      ∀ p ∈ Region.pts a, ∀ q ∈ placed rel b, 109 / 5000 ≤ p.x - q.x := by
  refine ⟨by decide +kernel, by decide +kernel, ?_⟩
  rintro p ⟨hp, _⟩ _ ⟨q, ⟨hq1, hq2⟩, rfl⟩
  have h1 := (abs_le.1 hp).1
  have h2 := (abs_le.1 hq1).2
  have h3 := (abs_le.1 hq2).1
  simp [apply, Rotor2d.rotate] at h1 h2 h3 ⊢
  linarith

/-- the polygon of `C44_far_from_shortest_finding`; one of its vertices is its origin -/
def farPoly : Poly2d ℚ := ⟨[⟨22, -517⟩, ⟨1, -516⟩, ⟨12020, -529⟩, ⟨0, 0⟩]⟩

/-- Finding: the vector returned by `distance_to` and `sdfv` can be more than ten times too long: for a
polygon with four vertices and a point they return `(-20, -1)`, but `(0, -41/21)` suffices. -/
theorem C44_far_from_shortest_finding :
    let b : Poly2d ℚ := ⟨[⟨0, 0⟩]⟩
    let rel : V2 ℚ := ⟨2, -518⟩
    distanceToRel farPoly b rel = .ok (some ⟨-20, -1⟩) ∧
    sdfvRel farPoly b rel = .ok (false, ⟨-20, -1⟩) ∧
    Touch (shift ⟨0, -41 / 21⟩ (Region.pts farPoly)) (placed rel b) ∧
    10 ^ 2 * lengthSq (⟨0, -41 / 21⟩ : V2 ℚ) < lengthSq (⟨-20, -1⟩ : V2 ℚ) := by
  refine ⟨by decide +kernel, by decide +kernel, ?_, by decide +kernel⟩
  refine ⟨⟨2, -518⟩, ⟨⟨2, -10837 / 21⟩, ?_, by ext <;> simp; norm_num⟩,
    ⟨⟨0, 0⟩, subset_convexHull ℚ _ ?_, by ext <;> simp [apply]⟩⟩
  · have hc : Convex ℚ (Region.pts farPoly) := convex_convexHull ℚ _
    have h1 : (⟨22, -517⟩ : V2 ℚ) ∈ Region.pts farPoly :=
      subset_convexHull ℚ _ (show (⟨22, -517⟩ : V2 ℚ) ∈ farPoly.points from .head _)
    have h2 : (⟨1, -516⟩ : V2 ℚ) ∈ Region.pts farPoly :=
      subset_convexHull ℚ _ (show (⟨1, -516⟩ : V2 ℚ) ∈ farPoly.points from .tail _ (.head _))
    have := hc h1 h2 (show (0 : ℚ) ≤ 1 / 21 by norm_num) (show (0 : ℚ) ≤ 20 / 21 by norm_num)
      (by norm_num)
    convert this using 1
    ext <;> simp <;> norm_num
  · exact .head _

/-- a disjoint pair with a rotation by the 3-4-5 angle: the hypotheses of `C34_sdfv_no_panic`,
`C43_hit_touch` and `C44_distance_shortest_or_corner` hold -/
example :
    let a : Box2d ℚ := ⟨⟨7, 4⟩⟩
    let b : Box2d ℚ := ⟨⟨6, 7⟩⟩
    let rel : Transform2d ℚ := ⟨⟨30, 1 / 2⟩, ⟨⟨3 / 5, 4 / 5⟩⟩, ⟨1, 1⟩⟩
    ConvexPair (K := ℚ) a b rel ∧ Resolvable (K := ℚ) a b rel ∧
      ¬ Touch (Region.pts a) (placed rel b) ∧
      distanceToRel a b rel = .ok (some ⟨69 / 5, 0⟩) ∧ sdfvRel a b rel = .ok (false, ⟨69 / 5, 0⟩) := by
  refine ⟨convexPair_box_box _ _ _ (by norm_num) (by norm_num) ⟨1, zero_le_one, ?_⟩, ?_, ?_, ?_, ?_⟩
  · exact similarity_transform2d _ 1 (by norm_num [Rotor2d.IsUnit]) rfl
  · exact resolvable_box_box _ _ _ (n := 2) (q := 5) (by norm_num) (by norm_num) (by norm_num)
      ⟨14, 8, by ext <;> norm_num⟩ ⟨12, 14, by ext <;> norm_num⟩ ⟨60, 1, by ext <;> norm_num⟩
      ⟨3, 4, by ext <;> norm_num⟩ rfl
  · rintro ⟨p, ⟨hp, _⟩, q, ⟨h1, h2⟩, rfl⟩
    have h3 := (abs_le.1 hp).2
    have h4 := (abs_le.1 h1).1
    have h5 := (abs_le.1 h2).2
    simp [apply, Rotor2d.rotate] at h3 h4 h5
    linarith
  · decide +kernel
  · decide +kernel

end
end Auburn
