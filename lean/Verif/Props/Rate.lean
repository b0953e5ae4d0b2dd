import Verif.Lib.GjkRate
import Verif.Props.Distance
import Verif.Props.Epa

/-!
# C92: every overlap that is not extremely flat is found

Exact arithmetic, Minkowski-based pairs (`DefaultMinkowski`), any convex shapes: polygons with any number of vertices
and round shapes.  The iteration limit of 20 only matters when the overlap is more than `2^15` times shallower than the
distance between the farthest points.
-/

set_option linter.unusedSectionVars false
set_option synthInstance.maxSize 1000

namespace Auburn

open V2 ExtremePoint2d Transformation2d Auburn.Invertible Composable

section
variable {K : Type} [Field K] [LinearOrder K] [IsStrictOrderedRing K] [FloatExtra K]
  [ExactFloat K] [ExactSqrt K]

/-- `R` bounds the distances between points of the two sets -/
def WithinReach (R : K) (X Y : Set (V2 K)) : Prop := ∀ p ∈ X, ∀ q ∈ Y, (p - q).length ≤ R

theorem WithinReach.diam {R : K} {X Y : Set (V2 K)} (h : WithinReach R X Y) :
    ∀ m ∈ minkDiff X Y, ∀ m' ∈ minkDiff X Y, lengthSq (m - m') ≤ 4 * R ^ 2 := by
  rintro m ⟨p, hp, q, hq, rfl⟩ m' ⟨p', hp', q', hq', rfl⟩
  have h1 := h p hp q hq
  have h2 := h p' hp' q' hq'
  have h3 := V2.neg_length_le_dot (p - q) (p' - q')
  have h4 : (p - q).length * (p' - q').length ≤ R * R :=
    mul_le_mul h1 h2 (V2.length_nonneg _) ((V2.length_nonneg _).trans h1)
  have h5 : (p - q).length ^ 2 ≤ R ^ 2 := pow_le_pow_left₀ (V2.length_nonneg _) h1 2
  have h6 : (p' - q').length ^ 2 ≤ R ^ 2 := pow_le_pow_left₀ (V2.length_nonneg _) h2 2
  rw [V2.length_sq] at h5 h6
  have e : lengthSq (p - q - (p' - q')) = lengthSq (p - q) + lengthSq (p' - q') - 2 * (p - q).dot (p' - q') := by
    simp only [lengthSq_def, dot_def, sub_x, sub_y]; ring
  rw [e]
  linarith only [h3, h4, h5, h6]

theorem rate_arith {δ R : K} (hδ : 0 < δ) (hR0 : 0 ≤ R) (h : R ≤ 2 ^ 15 * δ) {j : Nat} (hj : 16 ≤ j) :
    4 * R ^ 2 / 4 ^ j < 2 * δ ^ 2 := by
  have h1 : R ^ 2 ≤ (2 ^ 15 * δ) ^ 2 := pow_le_pow_left₀ hR0 h 2
  have h2 : (4 : K) ^ 16 ≤ 4 ^ j := pow_le_pow_right₀ (by norm_num) hj
  rw [div_lt_iff₀ (by positivity)]
  have h3 : 0 < δ ^ 2 := by positivity
  calc 4 * R ^ 2 ≤ 4 * (2 ^ 15 * δ) ^ 2 := by linarith
    _ = 2 ^ 32 * δ ^ 2 := by ring
    _ < 2 * 2 ^ 32 * δ ^ 2 := by linarith
    _ = 2 * δ ^ 2 * 4 ^ 16 := by ring
    _ ≤ _ := mul_le_mul_of_nonneg_left h2 (by positivity)

variable {A B T : Type} [Region A K] [Region B K] [ExtremePoint2d A K]
    [ExtremePoint2d B K] [Transformation2d T K] {a : A} {b : B} {rel : T} [DefaultMinkowski A B]

theorem reach_nonneg (h : ConvexPair (K := K) a b rel) {R : K} (hR : WithinReach R (Region.pts a) (placed rel b)) :
    0 ≤ R := by
  obtain ⟨p, hp, q, hq, -⟩ := (h.support 0).1
  exact (V2.length_nonneg _).trans (hR p hp q hq)

/-- `collides` finds every overlap by `δ` of shapes with points at most `2^15 δ` apart. -/
theorem C92_collides (h : ConvexPair (K := K) a b rel) {δ R : K} (hδ : 0 < δ)
    (hO : OverlapBy δ (Region.pts a) (placed rel b)) (hR : WithinReach R (Region.pts a) (placed rel b))
    (hflat : R ≤ 2 ^ 15 * δ) : collidesRel a b rel = .ok true := by
  obtain ⟨c, hc⟩ := (C33_rel_no_panic a b rel).1
  have hc' : Except.map (·.1) (gjkCollide (extremePoint (LocalMinkowskiDiff2d.mk a b rel))
      iterationLimit (initialDirection (applyOrigin rel)) []) = .ok c := hc
  cases hr : gjkCollide (extremePoint (LocalMinkowskiDiff2d.mk a b rel))
      iterationLimit (initialDirection (applyOrigin rel)) [] with
  | error e => rw [hr] at hc'; cases hc'
  | ok r =>
    rw [hr] at hc'
    simp only [Except.map, Except.ok.injEq] at hc'
    have hR0 := reach_nonneg h hR
    have h1 := gjkCollide_rate hδ (by positivity) h.convex (overlapBy_iff.1 hO) h.support hR.diam iterationLimit 16 0
      [] _ [] (.start _ (initialDirection_ne _)) (Or.inl ⟨rfl, rfl⟩) rfl (rate_arith hδ hR0 hflat (le_refl _)) r hr
    rw [hc, ← hc', h1]

/-- So a negative answer of `collides` bounds the overlap, for all convex shapes: if they overlap at all, it is by less
than `2^-15` of their reach. -/
theorem C92_collides_false (h : ConvexPair (K := K) a b rel) {R : K}
    (hR : WithinReach R (Region.pts a) (placed rel b)) (hc : collidesRel a b rel = .ok false) {δ : K} (hδ : 0 < δ)
    (hO : OverlapBy δ (Region.pts a) (placed rel b)) : δ < R / 2 ^ 15 := by
  by_contra hn
  have h1 : R ≤ 2 ^ 15 * δ := by
    have := not_lt.1 hn
    rw [div_le_iff₀ (by positivity)] at this
    linarith
  rw [C92_collides h hδ hO hR h1] at hc
  simp at hc

theorem penetrate_run_rate (h : ConvexPair (K := K) a b rel) {δ R : K} (hδ : 0 < δ)
    (hO : OverlapBy δ (Region.pts a) (placed rel b)) (hR : WithinReach R (Region.pts a) (placed rel b))
    (hflat : R ≤ 2 ^ 15 * δ) (hε : 1 / 2 ^ 23 * R ≤ δ ^ 4) :
    (∃ v, gjkPenetrate (extremePoint (LocalMinkowskiDiff2d.mk a b rel)) iterationLimit
      (initialDirection (applyOrigin rel)) [] = .ok (true, v)) ∧
    ∃ v, gjkPenetrate (extremePoint (LocalMinkowskiDiff2d.mk a b rel)) iterationLimit
      (-(extremePoint (LocalMinkowskiDiff2d.mk a b rel) (initialDirection (applyOrigin rel))))
      [extremePoint (LocalMinkowskiDiff2d.mk a b rel) (initialDirection (applyOrigin rel))] = .ok (true, v) := by
  have hD := overlapBy_iff.1 hO
  have hR' : ∀ x ∈ minkDiff (Region.pts a) (placed rel b), x.length ≤ R := by
    rintro x ⟨p, hp, q, hq, rfl⟩; exact hR p hp q hq
  have hR0 := reach_nonneg h hR
  set S := extremePoint (LocalMinkowskiDiff2d.mk a b rel) with hS
  set d0 := initialDirection (applyOrigin rel) with hd0
  have hd : d0 ≠ 0 := initialDirection_ne _
  have hPb : PInv (minkDiff (Region.pts a) (placed rel b)) (S d0) := hD.pinv hδ hd (h.support d0)
  have hG : GInv (minkDiff (Region.pts a) (placed rel b)) [S d0] (-(S d0)) [S d0] :=
    .point _ (h.support d0).1 hPb
  constructor
  · obtain ⟨r, hr⟩ := gjkPenetrate_ok S iterationLimit d0 [] (by simp)
    have h1 := gjkPenetrate_rate hδ (by positivity) hD hR' hε h.convex h.support hR.diam iterationLimit 16 0
      [] _ [] (.start _ hd) (Or.inl ⟨rfl, rfl⟩) (by intro u v huv; simp at huv) rfl
      (rate_arith hδ hR0 hflat (le_refl _)) r hr
    exact ⟨r.2, by rw [hr, ← h1]⟩
  · obtain ⟨r, hr⟩ := gjkPenetrate_ok S iterationLimit (-(S d0)) [S d0] (by simp)
    have h1 := gjkPenetrate_rate hδ (by positivity) hD hR' hε h.convex h.support hR.diam iterationLimit 17 1
      [S d0] _ _ hG (Or.inr (Or.inl ⟨_, rfl, rfl⟩)) (by intro u v huv; simp at huv) rfl
      (rate_arith hδ hR0 hflat (by norm_num)) r hr
    exact ⟨r.2, by rw [hr, ← h1]⟩

/-- All four queries agree on such an overlap, if it is also deep enough for the tolerances (`ε R ≤ δ⁴`). -/
theorem C92_all_queries (h : ConvexPair (K := K) a b rel) {δ R : K} (hδ : 0 < δ)
    (hO : OverlapBy δ (Region.pts a) (placed rel b)) (hR : WithinReach R (Region.pts a) (placed rel b))
    (hflat : R ≤ 2 ^ 15 * δ) (hε : 1 / 2 ^ 23 * R ≤ δ ^ 4) :
    collidesRel a b rel = .ok true ∧ (∃ v, penetratesRel a b rel = .ok (some v)) ∧
      distanceToRel a b rel = .ok none ∧ ∃ v, sdfvRel a b rel = .ok (true, v) := by
  have hD := overlapBy_iff.1 hO
  obtain ⟨⟨v, hv⟩, ⟨v', hv'⟩⟩ := penetrate_run_rate h hδ hO hR hflat hε
  have hPb : PInv (minkDiff (Region.pts a) (placed rel b)) (extremePoint (LocalMinkowskiDiff2d.mk a b rel)
    (initialDirection (applyOrigin rel))) := hD.pinv hδ (initialDirection_ne _) (h.support _)
  have hne := neg_ne_zero.2 hPb.ne_zero
  refine ⟨C92_collides h hδ hO hR hflat, ⟨v, ?_⟩, ?_, ⟨v', ?_⟩⟩
  · show Except.map (fun r => if r.1 then some r.2 else none) (gjkPenetrate (extremePoint (LocalMinkowskiDiff2d.mk a b rel))
      iterationLimit (initialDirection (applyOrigin rel)) []) = _
    rw [hv]; rfl
  · obtain ⟨w, hw⟩ := gjkDistance_of_penetrate (hD.surrounds hδ h.support) iterationLimit _
      (extremePoint (LocalMinkowskiDiff2d.mk a b rel) (initialDirection (applyOrigin rel))) _ v' hne hv'
    show Except.map _ (gjkDistance _ iterationLimit _ _ _) = _
    rw [hw]; rfl
  · exact gjkFull_of_penetrate (hD.surrounds hδ h.support) iterationLimit _
      (extremePoint (LocalMinkowskiDiff2d.mk a b rel) (initialDirection (applyOrigin rel))) _ v' hne hv'

/-- A `None` of `penetrates` bounds the overlap for all convex shapes. -/
theorem C92_penetrates_none (h : ConvexPair (K := K) a b rel) {R : K}
    (hR : WithinReach R (Region.pts a) (placed rel b)) (hc : penetratesRel a b rel = .ok none) {δ : K} (hδ : 0 < δ)
    (hO : OverlapBy δ (Region.pts a) (placed rel b)) : δ < R / 2 ^ 15 ∨ δ ^ 4 < R / 2 ^ 23 := by
  by_contra hn
  obtain ⟨h1, h2⟩ := not_or.1 hn
  have h3 : R ≤ 2 ^ 15 * δ := by
    have := not_lt.1 h1
    rw [div_le_iff₀ (by positivity)] at this
    linarith
  have h4 : 1 / 2 ^ 23 * R ≤ δ ^ 4 := by
    have := not_lt.1 h2
    rw [div_mul_eq_mul_div, one_mul]; exact this
  obtain ⟨v, hv⟩ := (C92_all_queries h hδ hO hR h3 h4).2.1
  rw [hv] at hc
  simp at hc

end

section
variable {K : Type} [Field K] [LinearOrder K] [IsStrictOrderedRing K] [FloatExtra K]
  [ExactFloat K] [ExactSqrt K]

/-- Polygons with any number of vertices. -/
theorem C92_poly_poly {T : Type} [Transformation2d T K] (a b : Poly2d K) (rel : T)
    (ha : (0 : V2 K) ∈ Region.pts a) (hb : (0 : V2 K) ∈ Region.pts b)
    (hs : ∃ s : K, 0 ≤ s ∧ Similarity rel s) {δ R : K} (hδ : 0 < δ)
    (hO : OverlapBy δ (Region.pts a) (placed rel b)) (hR : WithinReach R (Region.pts a) (placed rel b))
    (hflat : R ≤ 2 ^ 15 * δ) : collidesRel a b rel = .ok true ∧ (1 / 2 ^ 23 * R ≤ δ ^ 4 →
      (∃ v, penetratesRel a b rel = .ok (some v)) ∧ distanceToRel a b rel = .ok none ∧
        ∃ v, sdfvRel a b rel = .ok (true, v)) :=
  ⟨C92_collides (convexPair_poly_poly a b rel ha hb hs) hδ hO hR hflat, fun hε =>
    (C92_all_queries (convexPair_poly_poly a b rel ha hb hs) hδ hO hR hflat hε).2⟩

/-- Boxes and polygons with any number of vertices, either way round. -/
theorem C92_box_poly {T : Type} [Transformation2d T K] (a : Box2d K) (b : Poly2d K) (rel : T)
    (ha : 0 ≤ a.halfsize.x ∧ 0 ≤ a.halfsize.y) (hb : (0 : V2 K) ∈ Region.pts b)
    (hs : ∃ s : K, 0 ≤ s ∧ Similarity rel s) {δ R : K} (hδ : 0 < δ) (hflat : R ≤ 2 ^ 15 * δ) :
    (OverlapBy δ (Region.pts a) (placed rel b) → WithinReach R (Region.pts a) (placed rel b) →
      collidesRel a b rel = .ok true) ∧
    (OverlapBy δ (Region.pts b) (placed rel a) → WithinReach R (Region.pts b) (placed rel a) →
      collidesRel b a rel = .ok true) := by
  obtain ⟨h1, h2⟩ := convexPair_box_poly a b rel ha hb hs
  exact ⟨fun hO hR => C92_collides h1 hδ hO hR hflat, fun hO hR => C92_collides (h2 rel hs) hδ hO hR hflat⟩

/-- The shape enum: balls, boxes and polygons mixed. -/
theorem C92_shape2d {T : Type} [Transformation2d T K] (a b : Shape2d K) (rel : T)
    (ha : a.Valid) (hb : b.Valid) (hs : ∃ s : K, 0 ≤ s ∧ Similarity rel s) {δ R : K} (hδ : 0 < δ)
    (hO : OverlapBy δ (Region.pts a) (placed rel b)) (hR : WithinReach R (Region.pts a) (placed rel b))
    (hflat : R ≤ 2 ^ 15 * δ) : collidesRel a b rel = .ok true ∧ (1 / 2 ^ 23 * R ≤ δ ^ 4 →
      (∃ v, penetratesRel a b rel = .ok (some v)) ∧ distanceToRel a b rel = .ok none ∧
        ∃ v, sdfvRel a b rel = .ok (true, v)) :=
  ⟨C92_collides (convexPair_shape2d a b rel ha hb hs) hδ hO hR hflat, fun hε =>
    (C92_all_queries (convexPair_shape2d a b rel ha hb hs) hδ hO hR hflat hε).2⟩

end

/-- the hypotheses are met by two unit discs at distance one: they overlap by `1`, their reach is `3` -/
example : let _ := realFloat true 0
    let disc : Shape2d ℝ := .ball ⟨1⟩
    disc.Valid ∧ OverlapBy 1 (Region.pts disc) (placed (⟨1, 0⟩ : V2 ℝ) disc) ∧
      WithinReach 3 (Region.pts disc) (placed (⟨1, 0⟩ : V2 ℝ) disc) ∧ (3 : ℝ) ≤ 2 ^ 15 * 1 ∧
      (1 / 2 ^ 23 * 3 : ℝ) ≤ 1 ^ 4 := by
  intro _ disc
  have := realFloat_exact true 0
  have := realFloat_sqrt true 0
  refine ⟨?_, ?_, ?_, by norm_num, by norm_num⟩
  · show (0 : ℝ) ≤ 1; norm_num
  · intro v hv
    rw [lengthSq_def] at hv
    refine ⟨scale (1 / 2) (⟨1, 0⟩ + v), ⟨scale (1 / 2) (⟨1, 0⟩ - v), ⟨by norm_num, ?_⟩, ?_⟩,
      ⟨scale (1 / 2) (v - ⟨1, 0⟩), ⟨by norm_num, ?_⟩, ?_⟩⟩
    · rw [lengthSq_def]; simp only [scale_x, scale_y, sub_x, sub_y]
      nlinarith [sq_nonneg (1 + v.x), mul_self_nonneg v.y]
    · ext <;> simp <;> ring
    · rw [lengthSq_def]; simp only [scale_x, scale_y, sub_x, sub_y]
      nlinarith [sq_nonneg (1 + v.x), mul_self_nonneg v.y]
    · ext <;> simp [apply] <;> ring
  · rintro p ⟨_, hp⟩ q ⟨q', ⟨_, hq⟩, rfl⟩
    apply le_of_sq_le_sq _ (by norm_num)
    rw [V2.length_sq, lengthSq_def]
    rw [lengthSq_def] at hp hq
    simp only [apply, sub_x, sub_y, add_x, add_y]
    simp only [one_pow] at hp hq
    nlinarith [sq_nonneg (p.x + q'.x), sq_nonneg (p.y + q'.y), sq_nonneg (p.x + 1), sq_nonneg (q'.x - 1), sq_nonneg p.y, sq_nonneg q'.y, sq_nonneg (p.x+1/1), sq_nonneg (p.x - q'.x + 2)]

/-! ## C93 -/

section
variable {K : Type} [Field K] [LinearOrder K] [IsStrictOrderedRing K] [FloatExtra K]
  [ExactFloat K] [ExactSqrt K]
variable {A B T : Type} [Region A K] [Region B K] [ExtremePoint2d A K]
    [ExtremePoint2d B K] [Transformation2d T K] {a : A} {b : B} {rel : T} [DefaultMinkowski A B]

/-- For any convex shapes the vectors of `penetrates` and `sdfv` on an overlap are minimal pushes (up to 1 %), or they
are zero; and zero is never a push that separates, so a caller can tell. -/
theorem C93_push (h : ConvexPair (K := K) a b rel) {δ R : K} (hδ : 0 < δ)
    (hO : OverlapBy δ (Region.pts a) (placed rel b)) (hR : WithinReach R (Region.pts a) (placed rel b))
    (hflat : R ≤ 2 ^ 15 * δ) (hε : 1 / 2 ^ 23 * R ≤ δ ^ 4) :
    (∃ v, penetratesRel a b rel = .ok (some v) ∧ (MinimalPush v (Region.pts a) (placed rel b) ↔ v ≠ 0)) ∧
    ∃ v, sdfvRel a b rel = .ok (true, v) ∧ (MinimalPush v (Region.pts a) (placed rel b) ↔ v ≠ 0) := by
  have hD := overlapBy_iff.1 hO
  have hR' : ∀ x ∈ minkDiff (Region.pts a) (placed rel b), x.length ≤ R := by
    rintro x ⟨p, hp, q, hq, rfl⟩; exact hR p hp q hq
  have hzero : ∀ v, MinimalPush v (Region.pts a) (placed rel b) → v ≠ 0 := by
    rintro v ⟨hv, -⟩ rfl
    have e : shift (0 : V2 K) (Region.pts a) = Region.pts a := by
      ext x; constructor
      · rintro ⟨p, hp, rfl⟩; simpa using hp
      · intro hx; exact ⟨x, hx, by simp⟩
    rw [e] at hv
    exact hv.not_overlap ⟨δ, hδ, hO⟩
  obtain ⟨⟨v, hv⟩, ⟨v', hv'⟩⟩ := penetrate_run_rate h hδ hO hR hflat hε
  constructor
  · obtain ⟨v, hv⟩ := (C92_all_queries h hδ hO hR hflat hε).2.1
    refine ⟨v, hv, hzero v, fun h0 => ?_⟩
    exact (C41_penetrates_minimal h hδ hO hR hε v hv).resolve_right fun h' => h0 h'.1
  · set S := extremePoint (LocalMinkowskiDiff2d.mk a b rel) with hS
    set d0 := initialDirection (applyOrigin rel) with hd0
    have hd : d0 ≠ 0 := initialDirection_ne _
    have hPb : PInv (minkDiff (Region.pts a) (placed rel b)) (S d0) := hD.pinv hδ hd (h.support d0)
    have hne : -(S d0) ≠ 0 := neg_ne_zero.2 hPb.ne_zero
    have hG : GInv (minkDiff (Region.pts a) (placed rel b)) [S d0] (-(S d0)) [S d0] :=
      .point _ (h.support d0).1 hPb
    have hsup : ∀ e ∈ [S d0], ∃ d, d ≠ 0 ∧ e = S d := by
      intro e he; rw [List.mem_singleton.1 he]; exact ⟨d0, hd, rfl⟩
    have hgood := gjkPenetrate_margin_epa hδ hD hR' hε h.convex h.support iterationLimit [S d0] _ _
      hG hsup (by intro u v huv; simp at huv) _ hv' rfl
    refine ⟨v', gjkFull_of_penetrate (hD.surrounds hδ h.support) iterationLimit _ (S d0) _ v' hne hv', hzero v',
      fun h0 => ?_⟩
    exact minimalPush_of_good (hgood.resolve_right fun h' => h0 h'.1)

end

/-! ## the iteration limit (finding) -/

section
attribute [local instance] ratFloat ratFloat_exact

/-- a convex polygon with 22 vertices, all coordinates integers below `2^24` -/
def spiral : Poly2d ℚ := ⟨[⟨-8388607, -8388609⟩, ⟨8388609, -8388609⟩, ⟨7969179, 8388607⟩, ⟨-8094167, -1375733⟩, ⟨-3996934, 2705761⟩, ⟨1306485, 5908045⟩, ⟨3766863, 7065227⟩, ⟨5778595, 7810952⟩, ⟨6728609, 8108444⟩, ⟨7278434, 8252728⟩, ⟨7560586, 8316116⟩, ⟨7768784, 8356964⟩, ⟨7878199, 8376330⟩, ⟨7925942, 8383843⟩, ⟨7944241, 8386297⟩, ⟨7954089, 8387374⟩, ⟨7960967, 8388009⟩, ⟨7965103, 8388346⟩, ⟨7967303, 8388506⟩, ⟨7968198, 8388563⟩, ⟨7968701, 8388590⟩, ⟨7969081, 8388607⟩]⟩

theorem mem_spiral {x y u v w : ℚ} (p q r : V2 ℚ) (hp : p ∈ spiral.points) (hq : q ∈ spiral.points)
    (hr : r ∈ spiral.points) (hu : 0 ≤ u) (hv : 0 ≤ v) (hw : 0 ≤ w) (h1 : u + v + w = 1)
    (hx : u * p.x + v * q.x + w * r.x = x) (hy : u * p.y + v * q.y + w * r.y = y) :
    (⟨x, y⟩ : V2 ℚ) ∈ Region.pts spiral := by
  have hm : ∀ p ∈ spiral.points, p ∈ Region.pts spiral := fun p hp => subset_convexHull ℚ _ hp
  have := (convex_poly spiral).sum_mem (t := Finset.univ) (w := ![u, v, w]) (z := ![p, q, r])
    (by intro i _; fin_cases i <;> simpa) (by rw [Fin.sum_univ_three]; simpa using h1)
    (by intro i _; fin_cases i <;> simp [hm p hp, hm q hq, hm r hr])
  rw [Fin.sum_univ_three] at this
  have e : (⟨x, y⟩ : V2 ℚ) = u • p + v • q + w • r := by ext <;> simp [← hx, ← hy]
  rw [e]
  simpa using this

/-- Finding: a box and a convex polygon with 22 vertices overlap by `1` but `collides` says no, `penetrates` says `None`:
the search stops at its limit of 20 iterations.  (By C92 the reach of such a pair is above `2^15`; here it is about
`2^25`.  All coordinates are integers that `f32` represents exactly.) -/
theorem C92_iteration_limit_finding :
    (0 : V2 ℚ) ∈ Region.pts spiral ∧
    OverlapBy 1 (Region.pts spiral) (placed (⟨7969080, 8388606⟩ : V2 ℚ) (⟨⟨1, 1⟩⟩ : Box2d ℚ)) ∧
    collidesRel spiral (⟨⟨1, 1⟩⟩ : Box2d ℚ) (⟨7969080, 8388606⟩ : V2 ℚ) = .ok false ∧
    penetratesRel spiral (⟨⟨1, 1⟩⟩ : Box2d ℚ) (⟨7969080, 8388606⟩ : V2 ℚ) = .ok none := by
  refine ⟨?_, ?_, by decide +kernel, by decide +kernel⟩
  · exact mem_spiral (u := 68609535429837 / 140737488355328) (v := 1759200359219 / 140737488355328)
      (w := 8388609 / 16777216) ⟨-8388607, -8388609⟩ ⟨8388609, -8388609⟩ ⟨7969179, 8388607⟩
      (by simp [spiral]) (by simp [spiral]) (by simp [spiral]) (by norm_num) (by norm_num) (by norm_num) (by norm_num)
      (by norm_num) (by norm_num)
  · have c1 : (⟨7969080, 8388604⟩ : V2 ℚ) ∈ Region.pts spiral :=
      mem_spiral (u := 2254475 / 35184372088832) (v := 4036981 / 35184372088832) (w := 16777213 / 16777216)
        ⟨-8388607, -8388609⟩ ⟨8388609, -8388609⟩ ⟨7969081, 8388607⟩
        (by simp [spiral]) (by simp [spiral]) (by simp [spiral]) (by norm_num) (by norm_num) (by norm_num)
        (by norm_num) (by norm_num) (by norm_num)
    have c2 : (⟨7969080, 8388606⟩ : V2 ℚ) ∈ Region.pts spiral :=
      mem_spiral (u := 524909 / 9147879509304) (v := 52441 / 13721819263956) (w := 27443636848303 / 27443638527912)
        ⟨-8388607, -8388609⟩ ⟨-8094167, -1375733⟩ ⟨7969081, 8388607⟩
        (by simp [spiral]) (by simp [spiral]) (by simp [spiral]) (by norm_num) (by norm_num) (by norm_num)
        (by norm_num) (by norm_num) (by norm_num)
    have c3 : (⟨7969082, 8388604⟩ : V2 ℚ) ∈ Region.pts spiral :=
      mem_spiral (u := 3 / 16777216) (v := 8231285 / 205520896) (w := 789158297 / 822083584)
        ⟨-8388607, -8388609⟩ ⟨7969179, 8388607⟩ ⟨7969081, 8388607⟩
        (by simp [spiral]) (by simp [spiral]) (by simp [spiral]) (by norm_num) (by norm_num) (by norm_num)
        (by norm_num) (by norm_num) (by norm_num)
    have c4 : (⟨7969082, 8388606⟩ : V2 ℚ) ∈ Region.pts spiral :=
      mem_spiral (u := 1 / 16777216) (v := 4141863 / 205520896) (w := 805516083 / 822083584)
        ⟨-8388607, -8388609⟩ ⟨7969179, 8388607⟩ ⟨7969081, 8388607⟩
        (by simp [spiral]) (by simp [spiral]) (by simp [spiral]) (by norm_num) (by norm_num) (by norm_num)
        (by norm_num) (by norm_num) (by norm_num)
    intro v hv
    rw [lengthSq_def] at hv
    have hx : |v.x| ≤ 1 := abs_le_of_sq_le_sq (by nlinarith [mul_self_nonneg v.y]) (by norm_num)
    have hy : |v.y| ≤ 1 := abs_le_of_sq_le_sq (by nlinarith [mul_self_nonneg v.x]) (by norm_num)
    rw [abs_le] at hx hy
    have hc := convex_poly spiral
    have d1 := hc c1 c2 (a := (1 + v.y) / 2) (b := (1 - v.y) / 2) (by linarith) (by linarith) (by ring)
    have d2 := hc c3 c4 (a := (1 + v.y) / 2) (b := (1 - v.y) / 2) (by linarith) (by linarith) (by ring)
    have d3 := hc d1 d2 (a := (1 + v.x) / 2) (b := (1 - v.x) / 2) (by linarith) (by linarith) (by ring)
    refine ⟨⟨7969081, 8388605⟩, ⟨⟨7969081 - v.x, 8388605 - v.y⟩, ?_, by ext <;> simp⟩,
      ⟨⟨1, -1⟩, ⟨by simp, by simp⟩, by ext <;> simp [apply] <;> norm_num⟩⟩
    convert d3 using 1
    ext <;> simp <;> ring

/-- a convex 24-gon of radius 1000: the regular one, rounded to integers -/
def gon24 : Poly2d ℚ := ⟨[⟨1000, 0⟩, ⟨966, 259⟩, ⟨866, 500⟩, ⟨707, 707⟩, ⟨500, 866⟩, ⟨259, 966⟩, ⟨0, 1000⟩, ⟨-259, 966⟩, ⟨-500, 866⟩, ⟨-707, 707⟩, ⟨-866, 500⟩, ⟨-966, 259⟩, ⟨-1000, 0⟩, ⟨-966, -259⟩, ⟨-866, -500⟩, ⟨-707, -707⟩, ⟨-500, -866⟩, ⟨-259, -966⟩, ⟨0, -1000⟩, ⟨259, -966⟩, ⟨500, -866⟩, ⟨707, -707⟩, ⟨866, -500⟩, ⟨966, -259⟩]⟩

/-- Finding: a small box near the middle of a 24-gon: `penetrates` and `sdfv` report the overlap, but with the zero
vector, although no displacement shorter than 700 separates them.  The polytope search stops at its limit of 20
iterations and then returns zero. -/
theorem C93_zero_push_finding :
    penetratesRel gon24 (⟨⟨10, 10⟩⟩ : Box2d ℚ) (⟨10, 7⟩ : V2 ℚ) = .ok (some 0) ∧
    sdfvRel gon24 (⟨⟨10, 10⟩⟩ : Box2d ℚ) (⟨10, 7⟩ : V2 ℚ) = .ok (true, 0) ∧
    ∀ w : V2 ℚ, Separable (shift w (Region.pts gon24)) (placed (⟨10, 7⟩ : V2 ℚ) (⟨⟨10, 10⟩⟩ : Box2d ℚ)) →
      700 ^ 2 ≤ lengthSq w := by
  refine ⟨by decide +kernel, by decide +kernel, ?_⟩
  rintro w ⟨n, hn, hs⟩
  have hb : (0 : V2 ℚ) ∈ placed (⟨10, 7⟩ : V2 ℚ) (⟨⟨10, 10⟩⟩ : Box2d ℚ) :=
    ⟨⟨-10, -7⟩, ⟨by simp, by simp; norm_num⟩, by ext <;> simp [apply]⟩
  have key : ∀ p ∈ gon24.points, n.dot p + n.dot w ≤ 0 := by
    intro p hp
    have := hs (p + w) ⟨p, subset_convexHull ℚ _ hp, rfl⟩ 0 hb
    rw [dot_add] at this
    simpa using this
  have k1 := key ⟨1000, 0⟩ (by simp [gon24])
  have k2 := key ⟨-1000, 0⟩ (by simp [gon24])
  have k3 := key ⟨0, 1000⟩ (by simp [gon24])
  have k4 := key ⟨0, -1000⟩ (by simp [gon24])
  have hN := lengthSq_pos.2 hn
  have hcs := dot_sq_le n w
  simp only [dot_def] at k1 k2 k3 k4 hcs
  rw [lengthSq_def] at hN hcs ⊢
  set m := n.x * w.x + n.y * w.y
  have q1 : (1000 * n.x) ^ 2 ≤ m ^ 2 := by rw [← neg_sq m]; exact sq_le_sq' (by linarith) (by linarith)
  have q2 : (1000 * n.y) ^ 2 ≤ m ^ 2 := by rw [← neg_sq m]; exact sq_le_sq' (by linarith) (by linarith)
  by_contra hlt
  have q3 := mul_lt_mul_of_pos_left (not_le.1 hlt) hN
  rw [lengthSq_def] at hcs
  nlinarith

end

end Auburn
