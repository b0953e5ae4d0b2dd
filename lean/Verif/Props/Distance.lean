import Verif.Props.Epa

/-!
# C43, C44, C48: distance queries and touching shapes

Exact arithmetic, Minkowski-based pairs (`DefaultMinkowski`).
-/

set_option linter.unusedSectionVars false
set_option synthInstance.maxSize 1000

namespace Auburn

open V2 ExtremePoint2d Transformation2d Auburn.Invertible Composable

section
variable {K : Type} [Field K] [LinearOrder K] [IsStrictOrderedRing K] [FloatExtra K]
  [ExactFloat K] {M : Set (V2 K)} {S : V2 K → V2 K}

theorem distanceToOrigin_mem (hM : Convex K M) {pts : List (V2 K)} (hp : ∀ p ∈ pts, p ∈ M)
    {v : V2 K} (h : distanceToOrigin pts = .ok v) : -v ∈ M := by
  unfold distanceToOrigin at h
  split at h
  · next a =>
    simp only [Except.ok.injEq] at h
    subst h; rw [neg_neg]; exact hp _ (by simp)
  · next a b =>
    simp only at h
    split_ifs at h with h1 h2 <;> simp only [Except.ok.injEq] at h <;> subst h
    · rw [neg_neg]; exact hp _ (by simp)
    · rw [neg_neg]; exact hp _ (by simp)
    · set t := (-a).dot (b - a) / (b - a).dot (b - a) with ht
      have := hM (hp a (by simp)) (hp b (by simp)) (show (0 : K) ≤ 1 - t by linarith)
        (show (0 : K) ≤ t by linarith) (by ring)
      convert this using 1
      ext <;> simp <;> ring
  · cases h

theorem gjkDistance_mem (hM : Convex K M) (hS : ∀ d, S d ∈ M) :
    ∀ (n : Nat) (d l : V2 K) (pts : List (V2 K)), (∀ p ∈ pts, p ∈ M) → ∀ r,
      gjkDistance S n d l pts = .ok r → r.1 = false → -r.2 ∈ M := by
  intro n
  induction n with
  | zero =>
    intro d l pts hp r hr _
    simp only [gjkDistance] at hr
    split at hr
    · cases hr
    · next v hv =>
      simp only [Except.ok.injEq] at hr
      subst hr; exact distanceToOrigin_mem hM hp hv
  | succ n ih =>
    intro d l pts hp r hr hf
    simp only [gjkDistance] at hr
    split at hr
    · split at hr
      · cases hr
      · next v hv =>
        simp only [Except.ok.injEq] at hr
        subst hr; exact distanceToOrigin_mem hM hp hv
    · split at hr
      · cases hr
      · next q hq =>
        split at hr
        · split_ifs at hr
          simp only [Except.ok.injEq] at hr
          subst hr; simp at hf
        · refine ih _ _ _ ?_ r hr hf
          intro p hpp
          rcases addPoint_pts_sub hq p hpp with rfl | h
          · exact hS _
          · exact hp p h

theorem gjkFull_mem (hM : Convex K M) (hS : ∀ d, S d ∈ M) :
    ∀ (n : Nat) (c : Bool) (d l : V2 K) (pts : List (V2 K)), (∀ p ∈ pts, p ∈ M) → ∀ r,
      gjkFull S n c d l pts = .ok r → r.1 = false → -r.2 ∈ M := by
  intro n
  induction n with
  | zero =>
    intro c d l pts hp r hr _
    simp only [gjkFull] at hr
    split at hr
    · cases hr
    · next v hv =>
      simp only [Except.ok.injEq] at hr
      subst hr; exact distanceToOrigin_mem hM hp hv
  | succ n ih =>
    intro c d l pts hp r hr hf
    simp only [gjkFull] at hr
    generalize (if (S d).dot d ≤ 0 then false else c) = c' at hr
    split at hr
    · split at hr
      · cases hr
      · next v hv =>
        simp only [Except.ok.injEq] at hr
        subst hr; exact distanceToOrigin_mem hM hp hv
    · split at hr
      · cases hr
      · next q hq =>
        split at hr
        · cases hr
        · split at hr
          · split at hr
            · cases hr
            · split at hr
              · cases hr
              · simp only [Except.ok.injEq] at hr
                subst hr; simp at hf
          · refine ih _ _ _ _ ?_ r hr hf
            intro p hpp
            rcases addPoint_pts_sub hq p hpp with rfl | h
            · exact hS _
            · exact hp p h

/-- on overlapping shapes the distance search follows the penetration search -/
theorem gjkDistance_of_penetrate (hpos : Surrounds S) :
    ∀ (n : Nat) (d l : V2 K) (pts : List (V2 K)) (v : V2 K), d ≠ 0 →
      gjkPenetrate S n d pts = .ok (true, v) → ∃ w, gjkDistance S n d l pts = .ok (true, w) := by
  intro n
  induction n with
  | zero => intro d l pts v _ h; simp [gjkPenetrate] at h
  | succ n ih =>
    intro d l pts v hd h
    have h1 : ¬ (S d).dot d ≤ 0 := not_le.2 (hpos d hd)
    simp only [gjkPenetrate, h1, if_false] at h
    simp only [gjkDistance, h1, false_and, if_false]
    split at h
    · cases h
    · next q hq =>
      split at h
      · next hc =>
        simp only [hc, if_true]
        split at h
        · cases h
        · next p' hp' =>
          have : q.pts.length = 3 := by
            unfold enforceCcw at hp'
            split at hp'
            · next e => rw [e]; rfl
            · cases hp'
          simp [this]
      · next hc =>
        simp only [hc]
        exact ih _ _ _ v (overrideDir_ne hd) h
end

section
variable {K : Type} [Field K] [LinearOrder K] [IsStrictOrderedRing K] [FloatExtra K]
  [ExactFloat K]
variable {A B T : Type} [Region A K] [Region B K] [ExtremePoint2d A K]
    [ExtremePoint2d B K] [Transformation2d T K] {a : A} {b : B} {rel : T} [DefaultMinkowski A B]

/-! ## C43 -/

/-- `distance_to_rel`: moving self by the returned vector makes the shapes share a point. -/
theorem C43_distance_to_contact (h : ConvexPair (K := K) a b rel) (v : V2 K)
    (hc : distanceToRel a b rel = .ok (some v)) :
    Touch (shift v (Region.pts a)) (placed rel b) := by
  have hc' : Except.map (fun r => if r.1 then none else some r.2)
      (gjkDistance (extremePoint (LocalMinkowskiDiff2d.mk a b rel)) iterationLimit _ _
      [extremePoint (LocalMinkowskiDiff2d.mk a b rel) (initialDirection (applyOrigin rel))]) =
      .ok (some v) := hc
  generalize hr : gjkDistance (extremePoint (LocalMinkowskiDiff2d.mk a b rel)) iterationLimit _ _
      [extremePoint (LocalMinkowskiDiff2d.mk a b rel) (initialDirection (applyOrigin rel))] = R
    at hc'
  cases R with
  | error e => cases hc'
  | ok r =>
    simp only [Except.map, Except.ok.injEq] at hc'
    cases h1 : r.1 with
    | true => rw [h1] at hc'; simp at hc'
    | false =>
      rw [h1] at hc'
      simp only [Bool.false_eq_true, if_false, Option.some.injEq] at hc'
      subst hc'
      refine shift_touch_iff.2 (gjkDistance_mem h.convex (fun d => (h.support d).1) _ _ _ _ ?_ r hr h1)
      intro p hp
      rw [List.mem_singleton.1 hp]; exact (h.support _).1

/-- `sdfv_rel`: the same for the vector returned with "no collision". -/
theorem C43_sdfv_contact (h : ConvexPair (K := K) a b rel) (v : V2 K)
    (hc : sdfvRel a b rel = .ok (false, v)) :
    Touch (shift v (Region.pts a)) (placed rel b) := by
  have hr : gjkFull (extremePoint (LocalMinkowskiDiff2d.mk a b rel)) iterationLimit true _ _
    [extremePoint (LocalMinkowskiDiff2d.mk a b rel) (initialDirection (applyOrigin rel))] =
      .ok (false, v) := hc
  refine shift_touch_iff.2 (gjkFull_mem h.convex (fun d => (h.support d).1) _ _ _ _ _ ?_ _ hr rfl)
  intro p hp
  rw [List.mem_singleton.1 hp]; exact (h.support _).1

/-- Hence the length is never below the distance of the shapes: any lower bound `r` of the distances
between their points is at most `|v|`. -/
theorem C43_distance_lower_bound (h : ConvexPair (K := K) a b rel) (v : V2 K)
    (hc : distanceToRel a b rel = .ok (some v) ∨ sdfvRel a b rel = .ok (false, v)) (r : K)
    (hr : ∀ p ∈ Region.pts a, ∀ q ∈ placed rel b, r ^ 2 ≤ lengthSq (p - q)) :
    r ^ 2 ≤ lengthSq v := by
  have ht : Touch (shift v (Region.pts a)) (placed rel b) := by
    rcases hc with hc | hc
    · exact C43_distance_to_contact h v hc
    · exact C43_sdfv_contact h v hc
  obtain ⟨_, ⟨p, hp, rfl⟩, hq⟩ := ht
  have := hr p hp _ hq
  rwa [show p - (p + v) = -v by abel, lengthSq_neg] at this

/-- Shapes with few extreme points that overlap with a margin: `distance_to` is `None`. -/
theorem C43_overlap_none [ExactSqrt K] (h : ConvexPair (K := K) a b rel) {n m : Nat}
    (hn : FewExtremePoints (K := K) a n) (hm : FewExtremePoints (K := K) b m) (hnm : n * m < 20)
    {δ R : K} (hδ : 0 < δ) (hO : OverlapBy δ (Region.pts a) (placed rel b))
    (hR : ∀ p ∈ Region.pts a, ∀ q ∈ placed rel b, (p - q).length ≤ R)
    (hε : 1 / 2 ^ 23 * R ≤ δ ^ 4) : distanceToRel a b rel = .ok none := by
  have hD := overlapBy_iff.1 hO
  have hR' : ∀ x ∈ minkDiff (Region.pts a) (placed rel b), x.length ≤ R := by
    rintro x ⟨p, hp, q, hq, rfl⟩; exact hR p hp q hq
  set S := extremePoint (LocalMinkowskiDiff2d.mk a b rel) with hS
  set d0 := initialDirection (applyOrigin rel) with hd0
  have hd : d0 ≠ 0 := initialDirection_ne _
  have hPb : PInv (minkDiff (Region.pts a) (placed rel b)) (S d0) := hD.pinv hδ hd (h.support d0)
  have hne : -(S d0) ≠ 0 := neg_ne_zero.2 hPb.ne_zero
  have hG : GInv (minkDiff (Region.pts a) (placed rel b)) [S d0] (-(S d0)) [S d0] :=
    .point _ (h.support d0).1 hPb
  have hsup : ∀ e ∈ [S d0], ∃ d, d ≠ 0 ∧ e = S d := by
    intro e he; rw [List.mem_singleton.1 he]; exact ⟨d0, hd, rfl⟩
  obtain ⟨r, hr⟩ := gjkPenetrate_ok S iterationLimit (-(S d0)) [S d0] (by simp)
  have h1 : r.1 = true := by
    rcases gjkPenetrate_margin hδ hD hR' hε h.convex h.support iterationLimit [S d0] _ _ hG
      (List.nodup_singleton _) hsup (by intro u v huv; simp at huv)
      (by right; unfold iterationLimit; simp) r hr with h2 | h2
    · exact h2
    · exact absurd h2 (not_many hn hm (by simp; unfold iterationLimit; omega))
  have hr' : gjkPenetrate S iterationLimit (-(S d0)) [S d0] = .ok (true, r.2) := by
    rw [hr, ← h1]
  obtain ⟨w, hw⟩ := gjkDistance_of_penetrate (hD.surrounds hδ h.support) iterationLimit (-(S d0))
    (S d0) [S d0] r.2 hne hr'
  show Except.map _ (gjkDistance S iterationLimit (-(S d0)) (S d0) [S d0]) = _
  rw [hw]; rfl

end

/-! ## C44 -/

section
variable {K : Type} [Field K] [LinearOrder K] [IsStrictOrderedRing K] [FloatExtra K]
  [ExactFloat K]
variable {A B T : Type} [Region A K] [Region B K] [ExtremePoint2d A K]
    [ExtremePoint2d B K] [Transformation2d T K] {a : A} {b : B} {rel : T} [DefaultMinkowski A B]

/-- The returned vector is a shortest one exactly when the strip orthogonal to it separates the
shapes: a condition on the result that a caller can check.  (That it always holds is false, see
`C44_not_shortest_finding`; it always holds for axis-aligned boxes, C45.) -/
theorem C44_shortest_iff (h : ConvexPair (K := K) a b rel) (v : V2 K)
    (hc : distanceToRel a b rel = .ok (some v) ∨ sdfvRel a b rel = .ok (false, v)) :
    (∀ w, Touch (shift w (Region.pts a)) (placed rel b) → lengthSq v ≤ lengthSq w) ↔
      ∀ p ∈ Region.pts a, ∀ q ∈ placed rel b, lengthSq v ≤ v.dot (q - p) := by
  have ht : Touch (shift v (Region.pts a)) (placed rel b) := by
    rcases hc with hc | hc
    · exact C43_distance_to_contact h v hc
    · exact C43_sdfv_contact h v hc
  have hv := shift_touch_iff.1 ht
  constructor
  · intro hmin p hp q hq
    by_contra hlt
    push Not at hlt
    set x := q - p with hx
    have hxm : -x ∈ minkDiff (Region.pts a) (placed rel b) := ⟨p, hp, q, hq, by rw [hx]; abel⟩
    -- move from `v` towards `x`
    have hg : 0 < lengthSq v - v.dot x := by linarith
    have hne : 0 < lengthSq (x - v) := by
      rw [lengthSq_pos]; intro h0
      have : x = v := sub_eq_zero.1 h0
      rw [this, dot_self] at hg; linarith
    have key : ∀ t : K, 0 ≤ t → t ≤ 1 → lengthSq v ≤ lengthSq (v + scale t (x - v)) := by
      intro t h0 h1
      refine hmin _ (shift_touch_iff.2 ?_)
      have := h.convex hv hxm (show (0 : K) ≤ 1 - t by linarith) h0 (by ring)
      convert this using 1
      ext <;> simp <;> ring
    have hexp : ∀ t : K, lengthSq (v + scale t (x - v)) =
        lengthSq v - 2 * t * (lengthSq v - v.dot x) + t ^ 2 * lengthSq (x - v) := by
      intro t; simp only [lengthSq_def, dot_def, add_x, add_y, scale_x, scale_y, sub_x, sub_y]; ring
    set g := lengthSq v - v.dot x with hgd
    set N := lengthSq (x - v) with hN
    rcases le_total g N with hle | hle
    · have h1 := key (g / N) (div_nonneg hg.le hne.le) ((div_le_one hne).2 hle)
      rw [hexp] at h1
      have e : (g / N) ^ 2 * N = g / N * g := by field_simp
      have h2 : 0 < g / N * g := mul_pos (div_pos hg hne) hg
      rw [e] at h1
      linarith
    · have h1 := key 1 zero_le_one le_rfl
      rw [hexp] at h1
      linarith
  · intro hs w hw
    obtain ⟨_, ⟨p, hp, rfl⟩, hq⟩ := hw
    have h1 := hs p hp _ hq
    rw [show p + w - p = w by abel] at h1
    have h2 : 2 * v.dot w ≤ lengthSq v + lengthSq w := by
      have := lengthSq_nonneg (v - w)
      have e2 : lengthSq (v - w) = lengthSq v + lengthSq w - 2 * v.dot w := by
        simp only [lengthSq_def, dot_def, sub_x, sub_y]; ring
      linarith
    linarith

end

/-! ## C48 -/

section
variable {K : Type} [Field K] [LinearOrder K] [IsStrictOrderedRing K] [FloatExtra K]
  [ExactFloat K] [ExactSqrt K] {T : Type} [Transformation2d T K]

/-- Directly implemented pairs: shapes that can be separated by a line, in particular shapes that
only touch, are never reported as colliding: Ball–Ball (different centres), Box2d–Ball (positive
radius), Box2d–Point on or outside the boundary, Ball–Point on or outside the circle. -/
theorem C48_direct_pairs_strict (rel : T) (hrel : Similarity rel (1 : K)) :
    (∀ a b : Ball K, 0 ≤ a.radius → 0 ≤ b.radius → applyOrigin rel ≠ 0 →
      Separable (Region.pts a) (placed rel b) → collidesRel a b rel = .ok false) ∧
    (∀ (a : Box2d K) (b : Ball K), 0 ≤ a.halfsize.x → 0 ≤ a.halfsize.y → 0 < b.radius →
      Separable (Region.pts a) (placed rel b) → collidesRel a b rel = .ok false) ∧
    (∀ (a : Box2d K) (b : Point K), 0 ≤ a.halfsize.x → 0 ≤ a.halfsize.y →
      Separable (Region.pts a) (placed rel b) → collidesRel a b rel = .ok false) ∧
    (∀ (a : Ball K) (b : Point K), 0 < a.radius →
      Separable (Region.pts a) (placed rel b) → collidesRel a b rel = .ok false) := by
  have fl : ∀ c : Bool, c ≠ true → c = false := fun c h => by cases c <;> simp_all
  have hpt : ∀ b : Point K, applyOrigin rel ∈ placed rel b := fun b =>
    ⟨0, rfl, by
      have h0 := applyNormal_smul hrel 0 (0 : V2 K)
      rw [zero_smul, zero_smul] at h0
      rw [hrel.apply_eq, h0]; ext <;> simp⟩
  refine ⟨fun a b ha hb h0 hs => ?_, fun a b hx hy hr hs => ?_, fun a b hx hy hs => ?_,
    fun a b hr hs => ?_⟩
  · obtain ⟨c, hc, h1, _⟩ := C17_ball_ball_collides a b ha hb rel hrel
    rw [hc, fl c fun h => hs.not_overlap ((h1 h0).1 h)]
  · obtain ⟨c, hc, _, h1⟩ := C25_box_ball_collides a ⟨hx, hy⟩ b hr rel hrel
    rw [hc, fl c fun h => hs.not_overlap (h1.1 h)]
  · obtain ⟨c, hc, h1⟩ := C21_box_point_collides a b rel
    rw [hc, fl c fun h => ?_]
    obtain ⟨n, hn, hsep⟩ := hs
    obtain ⟨i1, i2⟩ := h1.1 h
    set δ := applyOrigin rel with hδ
    have hab : ∀ u k : K, 0 ≤ k → ∃ x, |x| ≤ k ∧ u * x = |u| * k := by
      intro u k hk
      rcases le_total 0 u with hu | hu
      · exact ⟨k, by rw [abs_of_nonneg hk], by rw [abs_of_nonneg hu]⟩
      · exact ⟨-k, by rw [abs_neg, abs_of_nonneg hk], by rw [abs_of_nonpos hu]; ring⟩
    obtain ⟨x, hx1, hx2⟩ := hab n.x a.halfsize.x hx
    obtain ⟨y, hy1, hy2⟩ := hab n.y a.halfsize.y hy
    have h3 := hsep ⟨x, y⟩ ⟨hx1, hy1⟩ δ (hpt b)
    simp only [dot_def] at h3
    rw [hx2, hy2] at h3
    have h4 : n.x * δ.x ≤ |n.x| * |δ.x| := by rw [← abs_mul]; exact le_abs_self _
    have h5 : n.y * δ.y ≤ |n.y| * |δ.y| := by rw [← abs_mul]; exact le_abs_self _
    have h6 : |n.x| * (a.halfsize.x - |δ.x|) + |n.y| * (a.halfsize.y - |δ.y|) ≤ 0 := by linarith
    have h7 := mul_nonneg (abs_nonneg n.x) (sub_pos.2 i1).le
    have h8 := mul_nonneg (abs_nonneg n.y) (sub_pos.2 i2).le
    have h9 : |n.x| = 0 := by
      have : |n.x| * (a.halfsize.x - |δ.x|) = 0 := by linarith
      rcases mul_eq_zero.1 this with h | h
      · exact h
      · linarith
    have h10 : |n.y| = 0 := by
      have : |n.y| * (a.halfsize.y - |δ.y|) = 0 := by linarith
      rcases mul_eq_zero.1 this with h | h
      · exact h
      · linarith
    exact hn (V2.ext (abs_eq_zero.1 h9) (abs_eq_zero.1 h10))
  · obtain ⟨c, v, s, hc, _, _, h1, _⟩ := C20_ball_point a hr.le b rel hrel
    rw [hc, fl c fun h => ?_]
    obtain ⟨n, hn, hsep⟩ := hs
    set δ := applyOrigin rel with hδ
    have hN : 0 < lengthSq n := lengthSq_pos.2 hn
    have hl : 0 < n.length := by
      have h2 := V2.length_sq n
      rcases (V2.length_nonneg n).lt_or_eq with h3 | h3
      · exact h3
      · rw [← h3] at h2; simp at h2; linarith
    have hin : lengthSq δ < a.radius ^ 2 := by
      rcases h1.1 h with h2 | h2
      · rw [h2, (lengthSq_eq_zero (a := (0 : V2 K))).2 rfl]; positivity
      · have := h2.2
        rwa [sub_zero] at this
    have h3 := hsep (scale (a.radius / n.length) n) ⟨hr.le, by
      rw [lengthSq_scale, ← V2.length_sq n, div_pow, div_mul_cancel₀ _ (by positivity)]⟩ δ (hpt b)
    rw [dot_scale, dot_self, ← V2.length_sq n] at h3
    have e : a.radius / n.length * n.length ^ 2 = a.radius * n.length := by field_simp
    rw [e] at h3
    have h4 : n.dot δ ^ 2 ≤ lengthSq n * lengthSq δ := by
      simp only [dot_def, lengthSq_def]; nlinarith [sq_nonneg (n.x * δ.y - n.y * δ.x)]
    have h5 : (a.radius * n.length) ^ 2 ≤ n.dot δ ^ 2 :=
      pow_le_pow_left₀ (by positivity) h3 2
    rw [mul_pow, V2.length_sq] at h5
    have h6 := mul_lt_mul_of_pos_left hin hN
    linarith

end

/-! ## findings and concrete cases (evaluated by the kernel over ℚ) -/

section
attribute [local instance] ratFloat

/-- the shapes of `C44_not_shortest_finding`; both contain their origin -/
def nearA : Poly2d ℚ := ⟨[⟨1, 4⟩, ⟨2, -6⟩, ⟨5, 0⟩, ⟨-1, -3⟩]⟩
/-- see `nearA` -/
def nearB : Poly2d ℚ := ⟨[⟨-3, -2⟩, ⟨-6, -4⟩, ⟨1, -1⟩, ⟨-4, 4⟩, ⟨0, 3⟩]⟩

/-- Finding: `distance_to` and `sdfv` do not always return a shortest vector: here they return
`(-5, -3)`, but `(-4, -4)` is shorter (32 against 34, squared) and brings the polygons into contact
too. -/
theorem C44_not_shortest_finding :
    distanceToRel nearA nearB (⟨-3, -12⟩ : V2 ℚ) = .ok (some ⟨-5, -3⟩) ∧
    sdfvRel nearA nearB (⟨-3, -12⟩ : V2 ℚ) = .ok (false, ⟨-5, -3⟩) ∧
    Touch (shift ⟨-4, -4⟩ (Region.pts nearA)) (placed (⟨-3, -12⟩ : V2 ℚ) nearB) ∧
    lengthSq (⟨-4, -4⟩ : V2 ℚ) < lengthSq (⟨-5, -3⟩ : V2 ℚ) := by
  refine ⟨by decide +kernel, by decide +kernel, ?_, by decide +kernel⟩
  refine ⟨⟨-3, -9⟩, ⟨⟨1, -5⟩, ?_, by ext <;> simp <;> norm_num⟩, ⟨⟨0, 3⟩, subset_convexHull ℚ _ ?_,
    by ext <;> simp [apply] <;> norm_num⟩⟩
  · have hc : Convex ℚ (Region.pts nearA) := convex_convexHull ℚ _
    have h1 : (⟨2, -6⟩ : V2 ℚ) ∈ Region.pts nearA :=
      subset_convexHull ℚ _ (show (⟨2, -6⟩ : V2 ℚ) ∈ nearA.points from .tail _ (.head _))
    have h2 : (⟨-1, -3⟩ : V2 ℚ) ∈ Region.pts nearA :=
      subset_convexHull ℚ _ (show (⟨-1, -3⟩ : V2 ℚ) ∈ nearA.points from
        .tail _ (.tail _ (.tail _ (.head _))))
    have := hc h1 h2 (show (0 : ℚ) ≤ 2 / 3 by norm_num) (show (0 : ℚ) ≤ 1 / 3 by norm_num)
      (by norm_num)
    convert this using 1
    ext <;> simp <;> norm_num
  · exact .tail _ (.tail _ (.tail _ (.tail _ (.head _))))

/-- Finding: for the pairs that go through the Minkowski search the answer on touching shapes is not
fixed.  Both pairs of boxes below only touch (they are separable and share a point); the first is
reported as a collision by all four queries, the second by none. -/
theorem C48_touching_boxes_finding :
    let a : Box2d ℚ := ⟨⟨7, 4⟩⟩
    let b : Box2d ℚ := ⟨⟨6, 7⟩⟩
    let rel : Transform2d ℚ := ⟨⟨3, 10⟩, ⟨⟨0, -1⟩⟩, ⟨1, 1⟩⟩
    let rel' : Transform2d ℚ := ⟨⟨3, -10⟩, ⟨⟨0, -1⟩⟩, ⟨1, 1⟩⟩
    (collidesRel a b rel = .ok true ∧ penetratesRel a b rel = .ok (some 0) ∧
      distanceToRel a b rel = .ok none ∧ sdfvRel a b rel = .ok (true, 0)) ∧
    (collidesRel a b rel' = .ok false ∧ penetratesRel a b rel' = .ok none ∧
      distanceToRel a b rel' = .ok (some 0) ∧ sdfvRel a b rel' = .ok (false, 0)) ∧
    (∀ r, r = rel ∨ r = rel' → Touch (Region.pts a) (placed r b) ∧
      Separable (Region.pts a) (placed r b)) := by
  refine ⟨by decide +kernel, by decide +kernel, ?_⟩
  rintro r (rfl | rfl)
  · refine ⟨⟨⟨3, 4⟩, ⟨by norm_num, by norm_num⟩, ⟨⟨6, 0⟩, ⟨by norm_num, by norm_num⟩, ?_⟩⟩,
      ⟨⟨0, 1⟩, by intro h; have := congrArg V2.y h; simp at this, ?_⟩⟩
    · ext <;> simp [apply, Rotor2d.rotate] <;> norm_num
    · rintro p ⟨_, hp⟩ _ ⟨q, ⟨hq, _⟩, rfl⟩
      have h1 := (abs_le.1 hp).2
      have h2 := (abs_le.1 hq).2
      simp [dot_def, apply, Rotor2d.rotate] at h1 h2 ⊢
      linarith
  · refine ⟨⟨⟨3, -4⟩, ⟨by norm_num, by norm_num⟩, ⟨⟨-6, 0⟩, ⟨by norm_num, by norm_num⟩, ?_⟩⟩,
      ⟨⟨0, -1⟩, by intro h; have := congrArg V2.y h; simp at this, ?_⟩⟩
    · ext <;> simp [apply, Rotor2d.rotate] <;> norm_num
    · rintro p ⟨_, hp⟩ _ ⟨q, ⟨hq, _⟩, rfl⟩
      have h1 := (abs_le.1 hp).1
      have h2 := (abs_le.1 hq).1
      simp [dot_def, apply, Rotor2d.rotate] at h1 h2 ⊢
      linarith

end
end Auburn
