import Verif.Lib.GjkFull
import Verif.Props.Gjk

/-!
# C34, C40–C42: the penetration vector

Exact arithmetic, Minkowski-based pairs (`DefaultMinkowski`).
-/

set_option linter.unusedSectionVars false
set_option synthInstance.maxSize 1000

namespace Auburn

open V2 ExtremePoint2d Transformation2d Auburn.Invertible Composable

section
variable {K : Type} [Field K] [LinearOrder K] [IsStrictOrderedRing K] [FloatExtra K]
  [ExactFloat K]
variable {A B T : Type} [Region A K] [Region B K] [ExtremePoint2d A K]
    [ExtremePoint2d B K] [Transformation2d T K] {a : A} {b : B} {rel : T}

/-- the displacement `v` of `A` separates `A` from `B`, and no displacement that separates them is
shorter than `|v| / 1.01` -/
def MinimalPush (v : V2 K) (X Y : Set (V2 K)) : Prop :=
  Separable (shift v X) Y ∧
    ∀ w : V2 K, Separable (shift w X) Y → lengthSq v ≤ (101 / 100) ^ 2 * lengthSq w

theorem MinimalPush.length_le [ExactSqrt K] {v : V2 K} {X Y : Set (V2 K)} (h : MinimalPush v X Y)
    {w : V2 K} (hw : Separable (shift w X) Y) : v.length ≤ 101 / 100 * w.length := by
  apply (pow_le_pow_iff_left₀ (V2.length_nonneg v)
    (mul_nonneg (by norm_num) (V2.length_nonneg w)) two_ne_zero).1
  rw [mul_pow, V2.length_sq, V2.length_sq]
  exact h.2 w hw

theorem minimalPush_of_good {v : V2 K} {X Y : Set (V2 K)} (h : EpaGood (minkDiff X Y) v) :
    MinimalPush v X Y := by
  refine ⟨shift_separable_iff.2 h.1, fun w hw => ?_⟩
  refine (h.2 w (shift_separable_iff.1 hw)).trans ?_
  refine mul_le_mul_of_nonneg_right ?_ (lengthSq_nonneg w)
  refine pow_le_pow_left₀ ?_ ?_ 2
  · have := (tol_bounds (K := K)).1; linarith
  · rw [ExactFloat.tol_eq]; norm_num

variable [DefaultMinkowski A B]

/-! ## C40 -/

/-- Moving self by the returned vector leaves the shapes with disjoint interiors.  (The vector
`ZERO` is what `penetrates` returns when the iteration limit is reached, see C41, C42.) -/
theorem C40_penetrates_separates (h : ConvexPair (K := K) a b rel) (v : V2 K)
    (hc : penetratesRel a b rel = .ok (some v)) (hv : v ≠ 0) :
    Separable (shift v (Region.pts a)) (placed rel b) := by
  obtain ⟨r, hr, ho⟩ := penetratesRel_run hc
  cases h1 : r.1 with
  | false => rw [h1] at ho; simp at ho
  | true =>
    rw [h1] at ho
    simp only [if_true, Option.some.injEq] at ho
    subst ho
    exact shift_separable_iff.2 (gjkPenetrate_separates h.support _ _ _ r hr h1 hv)

/-- The same for the vector of `sdfv` when it reports a collision. -/
theorem C40_sdfv_separates (h : ConvexPair (K := K) a b rel) (v : V2 K)
    (hc : sdfvRel a b rel = .ok (true, v)) (hv : v ≠ 0) :
    Separable (shift v (Region.pts a)) (placed rel b) := by
  have hr : gjkFull (extremePoint (LocalMinkowskiDiff2d.mk a b rel)) iterationLimit true _ _
    [extremePoint (LocalMinkowskiDiff2d.mk a b rel) (initialDirection (applyOrigin rel))] =
      .ok (true, v) := hc
  exact shift_separable_iff.2 (gjkFull_separates h.support _ _ _ _ _ _ hr rfl hv)

/-! ## C41 -/

/-- For shapes that overlap with margin `δ` (`ε R ≤ δ⁴`, where `R` bounds the distances between
their points) the vector of `penetrates` separates and is minimal up to 1 %, unless it is zero: then the
search ran into its limit of 20 iterations, for which the difference must have 23 different extreme points
(this happens, see `C93_zero_push_finding`). -/
theorem C41_penetrates_minimal [ExactSqrt K] (h : ConvexPair (K := K) a b rel) {δ R : K}
    (hδ : 0 < δ) (hO : OverlapBy δ (Region.pts a) (placed rel b))
    (hR : ∀ p ∈ Region.pts a, ∀ q ∈ placed rel b, (p - q).length ≤ R)
    (hε : 1 / 2 ^ 23 * R ≤ δ ^ 4) (v : V2 K) (hc : penetratesRel a b rel = .ok (some v)) :
    MinimalPush v (Region.pts a) (placed rel b) ∨ v = 0 ∧ ManyExtremePoints a b rel 23 := by
  obtain ⟨r, hr, ho⟩ := penetratesRel_run hc
  have hR' : ∀ x ∈ minkDiff (Region.pts a) (placed rel b), x.length ≤ R := by
    rintro x ⟨p, hp, q, hq, rfl⟩; exact hR p hp q hq
  cases h1 : r.1 with
  | false => rw [h1] at ho; simp at ho
  | true =>
    rw [h1] at ho
    simp only [if_true, Option.some.injEq] at ho
    subst ho
    rcases gjkPenetrate_margin_epa hδ (overlapBy_iff.1 hO) hR' hε h.convex h.support iterationLimit
      [] _ [] (.start _ (initialDirection_ne _)) (by simp) (by intro u v h; simp at h) r hr h1 with
      h2 | h2
    · exact Or.inl (minimalPush_of_good h2)
    · exact Or.inr h2

/-- On coordinates that are multiples of `1/N` (`N ≤ 203`) no margin is needed. -/
theorem C41_penetrates_minimal_grid (h : ConvexPair (K := K) a b rel) {N : Nat} (h0 : 0 < N)
    (hN : N ≤ 203) (hG : GridPair a b rel N) (v : V2 K)
    (hc : penetratesRel a b rel = .ok (some v)) :
    MinimalPush v (Region.pts a) (placed rel b) ∨ v = 0 ∧ ManyExtremePoints a b rel 23 := by
  obtain ⟨r, hr, ho⟩ := penetratesRel_run hc
  cases h1 : r.1 with
  | false => rw [h1] at ho; simp at ho
  | true =>
    rw [h1] at ho
    simp only [if_true, Option.some.injEq] at ho
    subst ho
    rcases gjkPenetrate_grid_epa h0 hN h.convex h.support hG iterationLimit
      [] _ [] (.start _ (initialDirection_ne _)) (by simp) r hr h1 with h2 | h2
    · exact Or.inl (minimalPush_of_good h2)
    · exact Or.inr h2

/-! ## C42 -/

/-- Pairs with few extreme points: every overlap with a margin gets a minimal separating vector. -/
theorem minimalPush_of_few [ExactSqrt K] (h : ConvexPair (K := K) a b rel) {n m : Nat}
    (hn : FewExtremePoints (K := K) a n) (hm : FewExtremePoints (K := K) b m) (hnm : n * m < 20)
    {δ R : K} (hδ : 0 < δ) (hO : OverlapBy δ (Region.pts a) (placed rel b))
    (hR : ∀ p ∈ Region.pts a, ∀ q ∈ placed rel b, (p - q).length ≤ R)
    (hε : 1 / 2 ^ 23 * R ≤ δ ^ 4) :
    ∃ v, penetratesRel a b rel = .ok (some v) ∧ MinimalPush v (Region.pts a) (placed rel b) := by
  obtain ⟨v, hv⟩ := penetrates_of_few h hn hm hnm hδ hO hR hε
  exact ⟨v, hv, (C41_penetrates_minimal h hδ hO hR hε v hv).resolve_right
    fun h' => not_many hn hm (by omega) h'.2⟩

/-- `sdfv` gives the same answer as `penetrates` for overlaps (with any margin) that `penetrates`
finds within 19 iterations; here for pairs with few extreme points. -/
theorem sdfv_of_few [ExactSqrt K] (h : ConvexPair (K := K) a b rel) {n m : Nat}
    (hn : FewExtremePoints (K := K) a n) (hm : FewExtremePoints (K := K) b m) (hnm : n * m < 20)
    {δ R : K} (hδ : 0 < δ) (hO : OverlapBy δ (Region.pts a) (placed rel b))
    (hR : ∀ p ∈ Region.pts a, ∀ q ∈ placed rel b, (p - q).length ≤ R)
    (hε : 1 / 2 ^ 23 * R ≤ δ ^ 4) :
    ∃ v, sdfvRel a b rel = .ok (true, v) ∧ MinimalPush v (Region.pts a) (placed rel b) := by
  have hD := overlapBy_iff.1 hO
  have hR' : ∀ x ∈ minkDiff (Region.pts a) (placed rel b), x.length ≤ R := by
    rintro x ⟨p, hp, q, hq, rfl⟩; exact hR p hp q hq
  set S := extremePoint (LocalMinkowskiDiff2d.mk a b rel) with hS
  set d0 := initialDirection (applyOrigin rel) with hd0
  have hd : d0 ≠ 0 := initialDirection_ne _
  have hPb : PInv (minkDiff (Region.pts a) (placed rel b)) (S d0) := hD.pinv hδ hd (h.support d0)
  have hne : -(S d0) ≠ 0 := neg_ne_zero.2 hPb.ne_zero
  have hG : GInv (minkDiff (Region.pts a) (placed rel b)) [S d0] (-(S d0)) [S d0] :=
    .point _ (h.support d0).1 hPb
  have hsup : ∀ e ∈ [S d0], ∃ d, d ≠ 0 ∧ e = S d := by
    intro e he; rw [List.mem_singleton.1 he]; exact ⟨d0, hd, rfl⟩
  have hlong : LongEdge δ [S d0] := by intro u v huv; simp at huv
  obtain ⟨r, hr⟩ := gjkPenetrate_ok S iterationLimit (-(S d0)) [S d0] (by simp)
  have h1 : r.1 = true := by
    rcases gjkPenetrate_margin hδ hD hR' hε h.convex h.support iterationLimit [S d0] _ _ hG
      (List.nodup_singleton _) hsup hlong (by right; unfold iterationLimit; simp) r hr with h2 | h2
    · exact h2
    · exact absurd h2 (not_many hn hm (by simp; unfold iterationLimit; omega))
  have hgood := (gjkPenetrate_margin_epa hδ hD hR' hε h.convex h.support iterationLimit [S d0] _ _
    hG hsup hlong r hr h1).resolve_right fun h' => not_many hn hm (by unfold iterationLimit; omega) h'.2
  have hr' : gjkPenetrate S iterationLimit (-(S d0)) [S d0] = .ok (true, r.2) := by
    rw [hr, ← h1]
  refine ⟨r.2, ?_, minimalPush_of_good hgood⟩
  have := gjkFull_of_penetrate (hD.surrounds hδ h.support) iterationLimit (-(S d0)) (S d0) [S d0] r.2
    hne hr'
  exact this

end

section
variable {K : Type} [Field K] [LinearOrder K] [IsStrictOrderedRing K] [FloatExtra K]
  [ExactFloat K]

/-- Box2d v Box2d, any similarity: `penetrates` and `sdfv` of boxes overlapping with a margin always
converge: the vector separates the boxes and is minimal up to 1 %. -/
theorem C42_box_box [ExactSqrt K] {T : Type} [Transformation2d T K] (a b : Box2d K) (rel : T)
    (ha : 0 ≤ a.halfsize.x ∧ 0 ≤ a.halfsize.y) (hb : 0 ≤ b.halfsize.x ∧ 0 ≤ b.halfsize.y)
    (hs : ∃ s : K, 0 ≤ s ∧ Similarity rel s) {δ R : K} (hδ : 0 < δ)
    (hO : OverlapBy δ (Region.pts a) (placed rel b))
    (hR : ∀ p ∈ Region.pts a, ∀ q ∈ placed rel b, (p - q).length ≤ R)
    (hε : 1 / 2 ^ 23 * R ≤ δ ^ 4) :
    (∃ v, penetratesRel a b rel = .ok (some v) ∧ MinimalPush v (Region.pts a) (placed rel b)) ∧
    (∃ v, sdfvRel a b rel = .ok (true, v) ∧ MinimalPush v (Region.pts a) (placed rel b)) :=
  ⟨minimalPush_of_few (convexPair_box_box a b rel ha hb hs) (few_box a) (few_box b) (by norm_num) hδ
    hO hR hε, sdfv_of_few (convexPair_box_box a b rel ha hb hs) (few_box a) (few_box b)
    (by norm_num) hδ hO hR hε⟩

/-- Polygons whose vertex counts multiply to at most 19. -/
theorem C42_poly_poly [ExactSqrt K] {T : Type} [Transformation2d T K] (a b : Poly2d K) (rel : T)
    (ha : (0 : V2 K) ∈ Region.pts a) (hb : (0 : V2 K) ∈ Region.pts b)
    (hs : ∃ s : K, 0 ≤ s ∧ Similarity rel s) (hnm : a.points.length * b.points.length ≤ 19)
    {δ R : K} (hδ : 0 < δ) (hO : OverlapBy δ (Region.pts a) (placed rel b))
    (hR : ∀ p ∈ Region.pts a, ∀ q ∈ placed rel b, (p - q).length ≤ R)
    (hε : 1 / 2 ^ 23 * R ≤ δ ^ 4) :
    (∃ v, penetratesRel a b rel = .ok (some v) ∧ MinimalPush v (Region.pts a) (placed rel b)) ∧
    (∃ v, sdfvRel a b rel = .ok (true, v) ∧ MinimalPush v (Region.pts a) (placed rel b)) :=
  ⟨minimalPush_of_few (convexPair_poly_poly a b rel ha hb hs) (few_poly a ha) (few_poly b hb)
    (by omega) hδ hO hR hε, sdfv_of_few (convexPair_poly_poly a b rel ha hb hs) (few_poly a ha)
    (few_poly b hb) (by omega) hδ hO hR hε⟩

theorem gridPair_box_box (a b : Box2d K) (t : V2 K) {N : Nat} (h0 : 0 < N)
    (ga : OnGrid N a.halfsize) (gb : OnGrid N b.halfsize) (gt : OnGrid N t) :
    GridPair a b t N := by
  have hN0 : (N : K) ≠ 0 := by exact_mod_cast h0.ne'
  have sg : ∀ x : K, ∃ z : ℤ, (FloatExtra.signum x : K) = z := by
    intro x
    rcases lt_trichotomy x 0 with h | h | h
    · exact ⟨-1, by rw [ExactFloat.signum_neg x h]; simp⟩
    · rw [h]
      rcases ExactFloat.signum_zero (K := K) with h | h
      · exact ⟨1, by rw [h]; simp⟩
      · exact ⟨-1, by rw [h]; simp⟩
    · exact ⟨1, by rw [ExactFloat.signum_pos x h]; simp⟩
  intro d
  obtain ⟨i, j, ea⟩ := ga
  obtain ⟨k, l, eb⟩ := gb
  obtain ⟨u, v, et⟩ := gt
  obtain ⟨z1, hz1⟩ := sg d.x
  obtain ⟨z2, hz2⟩ := sg d.y
  obtain ⟨z3, hz3⟩ := sg (-d.x)
  obtain ⟨z4, hz4⟩ := sg (-d.y)
  refine ⟨z1 * i - (z3 * k + u), z2 * j - (z4 * l + v), ?_⟩
  ext
  · simp [extremePoint, apply, unapplyNormal, ea, eb, et, hz1, hz3]
    field_simp
  · simp [extremePoint, apply, unapplyNormal, ea, eb, et, hz2, hz4]
    field_simp

/-- Axis-aligned boxes with half sizes and offset in multiples of `1/N`, `N ≤ 203`: every overlap,
without margin, gets a separating vector minimal up to 1 %. -/
theorem C42_box_box_grid (a b : Box2d K) (t : V2 K) {N : Nat} (h0 : 0 < N) (hN : N ≤ 203)
    (ha : 0 ≤ a.halfsize.x ∧ 0 ≤ a.halfsize.y) (hb : 0 ≤ b.halfsize.x ∧ 0 ≤ b.halfsize.y)
    (ga : OnGrid N a.halfsize) (gb : OnGrid N b.halfsize) (gt : OnGrid N t)
    (ho : Overlap (Region.pts a) (placed t b)) :
    ∃ v, penetratesRel a b t = .ok (some v) ∧ MinimalPush v (Region.pts a) (placed t b) := by
  obtain ⟨v, hv⟩ := (C38_box_box_penetrates_grid a b t h0 hN ha hb ga gb gt).1 ho
  exact ⟨v, hv, (C41_penetrates_minimal_grid
    (convexPair_box_box a b t ha hb ⟨1, zero_le_one, similarity_vec2 t⟩) h0 hN
    (gridPair_box_box a b t h0 ga gb gt) v hv).resolve_right
    fun h' => not_many (few_box a) (few_box b) (by norm_num) h'.2⟩

end

/-! ## C34 -/

section
variable {K : Type} [Field K] [LinearOrder K] [IsStrictOrderedRing K] [FloatExtra K]
  [ExactFloat K]
variable {A B T : Type} [Region A K] [Region B K] [ExtremePoint2d A K]
    [ExtremePoint2d B K] [Transformation2d T K] {a : A} {b : B} {rel : T} [DefaultMinkowski A B]

/-- `sdfv` never panics on shapes whose interiors overlap.  The claim for all shapes is false, see
`C34_sdfv_panic_finding`. -/
theorem C34_overlap_no_panic (h : ConvexPair (K := K) a b rel)
    (ho : Overlap (Region.pts a) (placed rel b)) : ∃ r, sdfvRel a b rel = .ok r := by
  rcases C33_sdfv_only_explicit_panic a b rel with h1 | h1
  · exact h1
  · exfalso
    obtain ⟨δ, hδ, hO⟩ := ho
    have hs := (overlapBy_iff.1 (show OverlapBy δ _ _ from hO)).surrounds' hδ h.support
    refine gjkFull_no_panic hs iterationLimit _ _ _ ?_ (by simp) h1
    have := hs _ (initialDirection_ne (applyOrigin rel))
    refine neg_ne_zero.2 ?_
    intro h0
    have h2 : (extremePoint (LocalMinkowskiDiff2d.mk a b rel)
      (initialDirection (applyOrigin rel))) = 0 := h0
    rw [h2] at this
    simp at this

end

section
attribute [local instance] ratFloat

/-- the polygon of `C34_sdfv_panic_finding`; one of its vertices is its origin -/
def panicPoly : Poly2d ℚ :=
  ⟨[⟨1 / 2 ^ 30 - 1 / 2 ^ 26, 1 - 1 / 2 ^ 24⟩, ⟨1 / 4 - 1 / 2 ^ 26, 1⟩, ⟨1 / 4 - 1 / 2 ^ 26, -1⟩,
    ⟨0, 0⟩]⟩

/-- Finding: `sdfv` panics ("Simplex collided after collision was no longer possible") for two
polygons that are disjoint but closer than `2^-23`. -/
theorem C34_sdfv_panic_finding :
    sdfvRel panicPoly (⟨[⟨0, 0⟩]⟩ : Poly2d ℚ) (⟨-1 / 2 ^ 26, 1⟩ : V2 ℚ) =
      .error .collidedAfterImpossible ∧
    ¬ Touch (Region.pts panicPoly) (placed (⟨-1 / 2 ^ 26, 1⟩ : V2 ℚ) (⟨[⟨0, 0⟩]⟩ : Poly2d ℚ)) ∧
    (0 : V2 ℚ) ∈ Region.pts panicPoly := by
  refine ⟨by decide +kernel, ?_, subset_convexHull ℚ _ ?_⟩
  rotate_left
  · show (0 : V2 ℚ) ∈ panicPoly.points
    exact .tail _ (.tail _ (.tail _ (.head _)))
  rintro ⟨p, h1, q, h2, h3⟩
  have hq : q = 0 := by
    have : Region.pts (⟨[⟨0, 0⟩]⟩ : Poly2d ℚ) ⊆ {0} := by
      apply convexHull_min _ (convex_singleton 0)
      intro x hx
      simp only [List.mem_singleton, Set.mem_ofPred_eq] at hx
      rw [hx]; rfl
    exact this h2
  have hx : -1 / 2 ^ 26 < p.x := by
    have hc : Convex ℚ {v : V2 ℚ | -1 / 2 ^ 26 < v.x} := by
      intro x hx y hy s t hs ht hst
      simp only [Set.mem_ofPred_eq, add_x, smul_x] at hx hy ⊢
      have e : (-1 / 2 ^ 26 : ℚ) = s * (-1 / 2 ^ 26) + t * (-1 / 2 ^ 26) := by
        rw [← add_mul, hst, one_mul]
      rw [e]
      rcases hs.lt_or_eq with h | h
      · have := mul_lt_mul_of_pos_left hx h
        have := mul_le_mul_of_nonneg_left hy.le ht
        linarith
      · have ht1 : t = 1 := by linarith
        rw [← h, ht1]; linarith
    have : Region.pts panicPoly ⊆ {v : V2 ℚ | -1 / 2 ^ 26 < v.x} := by
      apply convexHull_min _ hc
      intro x hx
      simp only [panicPoly, List.mem_cons, List.not_mem_nil, or_false, Set.mem_ofPred_eq] at hx ⊢
      rcases hx with rfl | rfl | rfl | rfl <;> norm_num
    exact this h1
  rw [h3, hq] at hx
  simp [apply] at hx

/-- Finding: without a margin the minimality claim fails: the disjoint boxes of
`C36_penetrates_disjoint_finding` need no push at all, but get one (towards each other). -/
theorem C41_no_margin_finding :
    penetratesRel (⟨⟨1 / 2, 1 / 2⟩⟩ : Box2d ℚ) (⟨⟨1 / 2, 1 / 2⟩⟩ : Box2d ℚ)
        (⟨1 + 1 / 2 ^ 27, -1 / 2⟩ : V2 ℚ) = .ok (some ⟨1 / 2 ^ 27, 0⟩) ∧
    ¬ MinimalPush (⟨1 / 2 ^ 27, 0⟩ : V2 ℚ) (Region.pts (⟨⟨1 / 2, 1 / 2⟩⟩ : Box2d ℚ))
      (placed (⟨1 + 1 / 2 ^ 27, -1 / 2⟩ : V2 ℚ) (⟨⟨1 / 2, 1 / 2⟩⟩ : Box2d ℚ)) := by
  refine ⟨C36_penetrates_disjoint_finding.1, fun h => ?_⟩
  have := h.2 0 ⟨⟨1, 0⟩, by intro h; have := congrArg V2.x h; simp at this, ?_⟩
  · simp [lengthSq_def] at this
    norm_num at this
  · rintro x ⟨p, ⟨h1, _⟩, rfl⟩ q ⟨r, ⟨h2, _⟩, rfl⟩
    have h3 := (abs_le.1 h1).2
    have h4 := (abs_le.1 h2).1
    simp only [dot_def, apply, add_x, add_y, zero_x, zero_y] at h3 h4 ⊢
    norm_num at h3 h4 ⊢
    linarith

/-- overlapping boxes: the hypotheses of the grid version of C42 are met, and the vector is the
least overlap -/
example : Overlap (Region.pts (⟨⟨1, 2⟩⟩ : Box2d ℚ)) (placed (⟨1, 1⟩ : V2 ℚ) (⟨⟨1, 1⟩⟩ : Box2d ℚ)) ∧
    OnGrid 1 (⟨1, 1⟩ : V2 ℚ) ∧ OnGrid 1 (⟨1, 2⟩ : V2 ℚ) ∧
    penetratesRel (⟨⟨1, 2⟩⟩ : Box2d ℚ) (⟨⟨1, 1⟩⟩ : Box2d ℚ) (⟨1, 1⟩ : V2 ℚ) =
      .ok (some ⟨-1, 0⟩) := by
  refine ⟨⟨1 / 2, by norm_num, fun v hv => ?_⟩, ⟨1, 1, by ext <;> simp⟩, ⟨1, 2, by ext <;> simp⟩,
    by decide +kernel⟩
  rw [lengthSq_def] at hv
  have hx : |v.x| ≤ 1 / 2 := abs_le_of_sq_le_sq (by nlinarith [mul_self_nonneg v.y]) (by norm_num)
  have hy : |v.y| ≤ 1 / 2 := abs_le_of_sq_le_sq (by nlinarith [mul_self_nonneg v.x]) (by norm_num)
  rw [abs_le] at hx hy
  refine ⟨⟨1 / 2, 1⟩, ⟨⟨1 / 2, 1⟩ - v, ⟨?_, ?_⟩, by ext <;> simp⟩, ⟨⟨-1 / 2, 0⟩, ⟨?_, ?_⟩, ?_⟩⟩
  · show |1 / 2 - v.x| ≤ 1
    rw [abs_le]; constructor <;> linarith [hx.1, hx.2]
  · show |1 - v.y| ≤ 2
    rw [abs_le]; constructor <;> linarith [hy.1, hy.2]
  · show |(-1 / 2 : ℚ)| ≤ 1
    rw [abs_le]; constructor <;> norm_num
  · show |(0 : ℚ)| ≤ 1
    simp
  · ext <;> simp [apply]
    norm_num

/-- a turned box (3-4-5 rotation): `penetrates` and `sdfv` return the same non-zero vector, which
C40 shows to be separating -/
example : ∃ v : V2 ℚ, v ≠ 0 ∧ penetratesRel (⟨⟨1, 2⟩⟩ : Box2d ℚ) (⟨⟨1, 1⟩⟩ : Box2d ℚ)
    (⟨⟨2, 1⟩, ⟨⟨3 / 5, 4 / 5⟩⟩, ⟨1, 1⟩⟩ : Transform2d ℚ) = .ok (some v) ∧
    sdfvRel (⟨⟨1, 2⟩⟩ : Box2d ℚ) (⟨⟨1, 1⟩⟩ : Box2d ℚ)
    (⟨⟨2, 1⟩, ⟨⟨3 / 5, 4 / 5⟩⟩, ⟨1, 1⟩⟩ : Transform2d ℚ) = .ok (true, v) :=
  ⟨⟨-2 / 5, 0⟩, by decide +kernel, by decide +kernel, by decide +kernel⟩

end

end Auburn
