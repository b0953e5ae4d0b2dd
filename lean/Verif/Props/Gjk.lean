import Verif.Lib.GjkExact

/-!
# C35–C39: what the answers of the Minkowski-based collision tests mean

Exact arithmetic.  The pairs are those that use GJK (`DefaultMinkowski`): Ball–Box2d, Box2d–Box2d,
Box2d–Poly2d, Poly2d–Box2d, Poly2d–Poly2d, Shape2d–Shape2d.
-/

set_option linter.unusedSectionVars false
set_option synthInstance.maxSize 1000

namespace Auburn

open V2 ExtremePoint2d Transformation2d Auburn.Invertible Composable

section
variable {K : Type} [Field K] [LinearOrder K] [IsStrictOrderedRing K] [FloatExtra K]
  [ExactFloat K]

/-! ## the setting -/

/-- two convex shapes with exact extreme points, the second placed by a similarity (rotation,
translation, uniform scaling) -/
structure ConvexPair {A B T : Type} [Region A K] [Region B K] [ExtremePoint2d A K]
    [ExtremePoint2d B K] [Transformation2d T K] (a : A) (b : B) (rel : T) : Prop where
  convexA : Convex K (Region.pts a)
  convexB : Convex K (Region.pts b)
  supportA : ExactSupport (K := K) a
  supportB : ExactSupport (K := K) b
  sim : ∃ s : K, 0 ≤ s ∧ Similarity rel s

theorem convex_ball (b : Ball K) : Convex K (Region.pts b) := by
  rw [convex_iff_forall_pos]
  rintro p ⟨h0, hp⟩ q ⟨_, hq⟩ s t hs ht hst
  refine ⟨h0, ?_⟩
  have e : lengthSq (s • p + t • q) = s ^ 2 * lengthSq p + 2 * (s * t) * p.dot q +
      t ^ 2 * lengthSq q := by
    simp only [lengthSq_def, dot_def, add_x, add_y, smul_x, smul_y]; ring
  have h1 : 2 * p.dot q ≤ lengthSq p + lengthSq q := by
    have := lengthSq_nonneg (p - q)
    have e2 : lengthSq (p - q) = lengthSq p + lengthSq q - 2 * p.dot q := by
      simp only [lengthSq_def, dot_def, sub_x, sub_y]; ring
    linarith
  have h2 : s * t * (2 * p.dot q) ≤ s * t * (b.radius ^ 2 + b.radius ^ 2) :=
    mul_le_mul_of_nonneg_left (by linarith) (mul_nonneg hs.le ht.le)
  have h3 := mul_le_mul_of_nonneg_left hp (sq_nonneg s)
  have h4 := mul_le_mul_of_nonneg_left hq (sq_nonneg t)
  rw [e]
  have e3 : b.radius ^ 2 = (s + t) ^ 2 * b.radius ^ 2 := by rw [hst]; ring
  rw [e3]
  nlinarith

theorem convex_poly (p : Poly2d K) : Convex K (Region.pts p) := convex_convexHull K _

theorem convex_shape2d (s : Shape2d K) : Convex K (Region.pts s) := by
  cases s with
  | ball b => exact convex_ball b
  | box b => exact convex_box b.halfsize
  | poly p => exact convex_poly p

/-- which pairs are covered -/
theorem convexPair_box_box {T : Type} [Transformation2d T K] (a b : Box2d K) (rel : T)
    (ha : 0 ≤ a.halfsize.x ∧ 0 ≤ a.halfsize.y) (hb : 0 ≤ b.halfsize.x ∧ 0 ≤ b.halfsize.y)
    (hs : ∃ s : K, 0 ≤ s ∧ Similarity rel s) : ConvexPair a b rel :=
  ⟨convex_box a.halfsize, convex_box b.halfsize, fun d => C08_extreme_point_box a ha d,
    fun d => C08_extreme_point_box b hb d, hs⟩

theorem convexPair_ball_box [ExactSqrt K] {T : Type} [Transformation2d T K] (a : Ball K)
    (b : Box2d K) (rel : T) (ha : 0 ≤ a.radius) (hb : 0 ≤ b.halfsize.x ∧ 0 ≤ b.halfsize.y)
    (hs : ∃ s : K, 0 ≤ s ∧ Similarity rel s) : ConvexPair a b rel :=
  ⟨convex_ball a, convex_box b.halfsize, fun d => C08_extreme_point_ball a ha d,
    fun d => C08_extreme_point_box b hb d, hs⟩

theorem convexPair_poly_poly {T : Type} [Transformation2d T K] (a b : Poly2d K) (rel : T)
    (ha : (0 : V2 K) ∈ Region.pts a) (hb : (0 : V2 K) ∈ Region.pts b)
    (hs : ∃ s : K, 0 ≤ s ∧ Similarity rel s) : ConvexPair a b rel :=
  ⟨convex_poly a, convex_poly b, fun d => (C08_extreme_point_poly a ha d).1,
    fun d => (C08_extreme_point_poly b hb d).1, hs⟩

theorem convexPair_box_poly {T : Type} [Transformation2d T K] (a : Box2d K) (b : Poly2d K)
    (rel : T) (ha : 0 ≤ a.halfsize.x ∧ 0 ≤ a.halfsize.y) (hb : (0 : V2 K) ∈ Region.pts b)
    (hs : ∃ s : K, 0 ≤ s ∧ Similarity rel s) : ConvexPair a b rel ∧
      (∀ rel' : T, (∃ s : K, 0 ≤ s ∧ Similarity rel' s) → ConvexPair b a rel') :=
  ⟨⟨convex_box a.halfsize, convex_poly b, fun d => C08_extreme_point_box a ha d,
    fun d => (C08_extreme_point_poly b hb d).1, hs⟩, fun _ hs' =>
    ⟨convex_poly b, convex_box a.halfsize, fun d => (C08_extreme_point_poly b hb d).1,
    fun d => C08_extreme_point_box a ha d, hs'⟩⟩

theorem convexPair_shape2d [ExactSqrt K] {T : Type} [Transformation2d T K] (a b : Shape2d K)
    (rel : T) (ha : a.Valid) (hb : b.Valid) (hs : ∃ s : K, 0 ≤ s ∧ Similarity rel s) :
    ConvexPair a b rel :=
  ⟨convex_shape2d a, convex_shape2d b, fun d => C08_extreme_point_shape2d a ha d,
    fun d => C08_extreme_point_shape2d b hb d, hs⟩

/-! ## bridge to the Minkowski difference -/

section
variable {A B T : Type} [Region A K] [Region B K] [ExtremePoint2d A K]
    [ExtremePoint2d B K] [Transformation2d T K] {a : A} {b : B} {rel : T}

theorem applyNormal_add {t : T} {s : K} (h : Similarity t s) (u v : V2 K) :
    applyNormal t (u + v) = applyNormal t u + applyNormal t v := by
  have hz : lengthSq (applyNormal t (u + v) - (applyNormal t u + applyNormal t v)) = 0 := by
    have e : ∀ x y z : V2 K, lengthSq (x - (y + z)) = lengthSq x + lengthSq y + lengthSq z
        - 2 * x.dot y - 2 * x.dot z + 2 * y.dot z := by
      intro x y z; simp only [lengthSq_def, dot_def, sub_x, sub_y, add_x, add_y]; ring
    rw [e, h.lengthSq_applyNormal, h.lengthSq_applyNormal, h.lengthSq_applyNormal,
      h.normal.2.2, h.normal.2.2, h.normal.2.2, ← e, sub_self, lengthSq_eq_zero.2 rfl]
  exact sub_eq_zero.1 (lengthSq_eq_zero.1 hz)

theorem applyNormal_smul {t : T} {s : K} (h : Similarity t s) (c : K) (u : V2 K) :
    applyNormal t (c • u) = c • applyNormal t u := by
  have hz : lengthSq (applyNormal t (c • u) - c • applyNormal t u) = 0 := by
    have e : ∀ x y : V2 K, lengthSq (x - c • y) = lengthSq x - 2 * c * x.dot y +
        c ^ 2 * lengthSq y := by
      intro x y; simp only [lengthSq_def, dot_def, sub_x, sub_y, smul_x, smul_y]; ring
    rw [e, h.lengthSq_applyNormal, h.lengthSq_applyNormal, h.normal.2.2, ← e, sub_self,
      lengthSq_eq_zero.2 rfl]
  exact sub_eq_zero.1 (lengthSq_eq_zero.1 hz)

theorem ConvexPair.convex_placed (h : ConvexPair (K := K) a b rel) : Convex K (placed rel b) := by
  obtain ⟨s, _, hs⟩ := h.sim
  rintro x ⟨p, hp, rfl⟩ y ⟨q, hq, rfl⟩ u v hu hv huv
  refine ⟨u • p + v • q, h.convexB hp hq hu hv huv, ?_⟩
  rw [hs.apply_eq, hs.apply_eq, hs.apply_eq, applyNormal_add hs, applyNormal_smul hs,
    applyNormal_smul hs]
  have e : applyOrigin rel = u • applyOrigin rel + v • applyOrigin (T := T) rel := by
    rw [← add_smul, huv, one_smul]
  conv_rhs => rw [e]
  ext <;> simp <;> ring

theorem ConvexPair.convex (h : ConvexPair (K := K) a b rel) :
    Convex K (minkDiff (Region.pts a) (placed rel b)) := by
  rintro x ⟨p, hp, q, hq, rfl⟩ y ⟨p', hp', q', hq', rfl⟩ u v hu hv huv
  refine ⟨u • p + v • p', h.convexA hp hp' hu hv huv, u • q + v • q',
    h.convex_placed hq hq' hu hv huv, ?_⟩
  ext <;> simp <;> ring

theorem ConvexPair.support (h : ConvexPair (K := K) a b rel) (d : V2 K) :
    IsExtreme (minkDiff (Region.pts a) (placed rel b)) d
      (extremePoint (LocalMinkowskiDiff2d.mk a b rel) d) := by
  obtain ⟨s, h0, hs⟩ := h.sim
  exact C11_minkowski_support ⟨a, b, rel⟩ s h0 hs h.supportA h.supportB d

theorem touch_iff {X Y : Set (V2 K)} : Touch X Y ↔ (0 : V2 K) ∈ minkDiff X Y := by
  constructor
  · rintro ⟨p, h1, h2⟩; exact ⟨p, h1, p, h2, (sub_self p).symm⟩
  · rintro ⟨p, h1, q, h2, h3⟩
    have : p = q := sub_eq_zero.1 h3.symm
    exact ⟨p, h1, this ▸ h2⟩

theorem separable_iff {X Y : Set (V2 K)} : Separable X Y ↔ OneSide (minkDiff X Y) := by
  constructor
  · rintro ⟨n, hn, h⟩
    refine ⟨n, hn, ?_⟩
    rintro m ⟨p, h1, q, h2, rfl⟩
    rw [dot_sub]; linarith [h p h1 q h2]
  · rintro ⟨n, hn, h⟩
    refine ⟨n, hn, fun p hp q hq => ?_⟩
    have := h _ ⟨p, hp, q, hq, rfl⟩
    rw [dot_sub] at this; linarith

theorem shift_touch_iff {X Y : Set (V2 K)} {v : V2 K} : Touch (shift v X) Y ↔ -v ∈ minkDiff X Y := by
  constructor
  · rintro ⟨p, ⟨x, hx, rfl⟩, h2⟩; exact ⟨x, hx, x + v, h2, by abel⟩
  · rintro ⟨p, h1, q, h2, h3⟩
    refine ⟨q, ⟨p, h1, ?_⟩, h2⟩
    have h4 : v = q - p := by rw [← neg_neg v, h3]; abel
    rw [h4]; abel

theorem shift_separable_iff {X Y : Set (V2 K)} {v : V2 K} : Separable (shift v X) Y ↔
    ∃ n : V2 K, n ≠ 0 ∧ ∀ m ∈ minkDiff X Y, n.dot m ≤ -n.dot v := by
  constructor
  · rintro ⟨n, hn, h⟩
    refine ⟨n, hn, ?_⟩
    rintro m ⟨p, h1, q, h2, rfl⟩
    have := h (p + v) ⟨p, h1, rfl⟩ q h2
    rw [dot_add] at this
    rw [dot_sub]; linarith
  · rintro ⟨n, hn, h⟩
    refine ⟨n, hn, ?_⟩
    rintro x ⟨p, hp, rfl⟩ q hq
    have := h _ ⟨p, hp, q, hq, rfl⟩
    rw [dot_sub] at this
    rw [dot_add]; linarith

/-- `A` and `B` overlap with margin `δ`: they keep sharing a point under every displacement of `A`
by at most `δ` -/
def OverlapBy (δ : K) (X Y : Set (V2 K)) : Prop :=
  ∀ v : V2 K, lengthSq v ≤ δ ^ 2 → Touch (shift v X) Y

theorem overlapBy_iff {δ : K} {X Y : Set (V2 K)} : OverlapBy δ X Y ↔ HasDisc (minkDiff X Y) δ := by
  constructor
  · intro h v hv
    have := shift_touch_iff.1 (h (-v) (by rwa [lengthSq_neg]))
    rwa [neg_neg] at this
  · intro h v hv
    exact shift_touch_iff.2 (h (-v) (by rwa [lengthSq_neg]))

/-- the sets share a point or come within `2^(-23/3)` (about 0.0049) of each other -/
def WithinTolerance (X Y : Set (V2 K)) : Prop :=
  ∃ p ∈ X, ∃ q ∈ Y, lengthSq (p - q) ^ 3 < (1 / 2 ^ 23 : K) ^ 2

theorem withinTolerance_iff {X Y : Set (V2 K)} : WithinTolerance X Y ↔ NearOrigin (minkDiff X Y) := by
  constructor
  · rintro ⟨p, hp, q, hq, h⟩; exact ⟨p - q, ⟨p, hp, q, hq, rfl⟩, h⟩
  · rintro ⟨m, ⟨p, hp, q, hq, rfl⟩, h⟩; exact ⟨p, hp, q, hq, h⟩

/-- the tolerance in terms of lengths: `|p - q|³ < ε` -/
theorem withinTolerance_length [ExactSqrt K] {X Y : Set (V2 K)} (h : WithinTolerance X Y) :
    ∃ p ∈ X, ∃ q ∈ Y, (p - q).length ^ 3 < 1 / 2 ^ 23 := by
  obtain ⟨p, hp, q, hq, h⟩ := h
  refine ⟨p, hp, q, hq, ?_⟩
  rw [← V2.length_sq] at h
  have : ((p - q).length ^ 3) ^ 2 < (1 / 2 ^ 23 : K) ^ 2 := by
    calc ((p - q).length ^ 3) ^ 2 = ((p - q).length ^ 2) ^ 3 := by ring
      _ < _ := h
  exact lt_of_pow_lt_pow_left₀ 2 (by positivity) this

/-- there are `k` different points among the extreme points (in the sense of the two shapes'
`extreme_point`) of the difference `A - B` -/
def ManyExtremePoints (a : A) (b : B) (rel : T) (k : Nat) : Prop :=
  ∃ L : List (V2 K), L.Nodup ∧ L.length = k ∧ ∀ e ∈ L, ∃ d : V2 K, d ≠ 0 ∧
    e = extremePoint a d - apply rel (extremePoint b (unapplyNormal rel (-d)))

theorem initialDirection_ne (o : V2 K) : initialDirection o ≠ 0 := by
  unfold initialDirection
  split_ifs with h
  · intro h'; have := congrArg V2.x h'; simp at this
  · rintro rfl
    apply h
    rw [ExactFloat.epsilon_eq, (lengthSq_eq_zero (a := (0 : V2 K))).2 rfl]
    positivity

variable [DefaultMinkowski A B]

theorem collidesRel_spec (h : ConvexPair (K := K) a b rel) {c : Bool}
    (hc : collidesRel a b rel = .ok c) :
    (c = true → NearOrigin (minkDiff (Region.pts a) (placed rel b))) ∧
    (c = false → OneSide (minkDiff (Region.pts a) (placed rel b)) ∨
      ManySupport (extremePoint (LocalMinkowskiDiff2d.mk a b rel)) iterationLimit) := by
  have hc' : Except.map (·.1) (gjkCollide (extremePoint (LocalMinkowskiDiff2d.mk a b rel))
      iterationLimit (initialDirection (applyOrigin rel)) []) = .ok c := hc
  cases hr : gjkCollide (extremePoint (LocalMinkowskiDiff2d.mk a b rel))
      iterationLimit (initialDirection (applyOrigin rel)) [] with
  | error e => rw [hr] at hc'; cases hc'
  | ok r =>
    rw [hr] at hc'
    simp only [Except.map, Except.ok.injEq] at hc'
    subst hc'
    have := gjkCollide_spec h.convex h.support iterationLimit [] _ []
      (.start _ (initialDirection_ne _)) List.nodup_nil (by simp) r hr
    simpa using this

theorem penetratesRel_run {o : Option (V2 K)} (hc : penetratesRel a b rel = .ok o) :
    ∃ r, gjkPenetrate (extremePoint (LocalMinkowskiDiff2d.mk a b rel)) iterationLimit
      (initialDirection (applyOrigin rel)) [] = .ok r ∧ o = if r.1 then some r.2 else none := by
  have hc' : Except.map (fun r => if r.1 then some r.2 else none)
      (gjkPenetrate (extremePoint (LocalMinkowskiDiff2d.mk a b rel))
      iterationLimit (initialDirection (applyOrigin rel)) []) = .ok o := hc
  cases hr : gjkPenetrate (extremePoint (LocalMinkowskiDiff2d.mk a b rel))
      iterationLimit (initialDirection (applyOrigin rel)) [] with
  | error e => rw [hr] at hc'; cases hc'
  | ok r =>
    rw [hr] at hc'
    simp only [Except.map, Except.ok.injEq] at hc'
    exact ⟨r, rfl, hc'.symm⟩

/-! ## C35 -/

/-- A negative answer of `collides_rel` comes with a separating line, or the search ran through 20
pairwise different extreme points of the difference (its iteration limit). -/
theorem C35_collides_false (h : ConvexPair (K := K) a b rel)
    (hc : collidesRel a b rel = .ok false) :
    Separable (Region.pts a) (placed rel b) ∨ ManyExtremePoints a b rel 20 := by
  rcases (collidesRel_spec h hc).2 rfl with h1 | h1
  · exact Or.inl (separable_iff.2 h1)
  · exact Or.inr h1

/-- The same for `penetrates_rel`; here a third reason is possible: the shapes come within the
tolerance of each other (and the search was restarted in a perpendicular direction). -/
theorem C35_penetrates_none (h : ConvexPair (K := K) a b rel)
    (hc : penetratesRel a b rel = .ok none) :
    Separable (Region.pts a) (placed rel b) ∨ WithinTolerance (Region.pts a) (placed rel b) ∨
      ManyExtremePoints a b rel 20 := by
  obtain ⟨r, hr, ho⟩ := penetratesRel_run hc
  have hf : r.1 = false := by
    cases h1 : r.1 with
    | true => rw [h1] at ho; simp at ho
    | false => rfl
  rcases (gjkPenetrate_spec h.convex h.support iterationLimit [] _ [] (initialDirection_ne _)
    (by simp) (Or.inr ⟨.start _ (initialDirection_ne _), List.nodup_nil, by simp⟩) r hr).2 hf
    with h1 | h1 | h1
  · exact Or.inl (separable_iff.2 h1)
  · exact Or.inr (Or.inl (withinTolerance_iff.2 h1))
  · rw [List.length_nil, Nat.zero_add] at h1; exact Or.inr (Or.inr h1)

/-! ## C36 -/

/-- If `penetrates_rel` reports a collision the shapes share a point or come within the tolerance
of each other.  (The exact claim "they share a point" is false, see
`C36_penetrates_disjoint_finding`.) -/
theorem C36_penetrates_some (h : ConvexPair (K := K) a b rel) (v : V2 K)
    (hc : penetratesRel a b rel = .ok (some v)) :
    WithinTolerance (Region.pts a) (placed rel b) := by
  obtain ⟨r, hr, ho⟩ := penetratesRel_run hc
  have hf : r.1 = true := by
    cases h1 : r.1 with
    | true => rfl
    | false => rw [h1] at ho; simp at ho
  exact withinTolerance_iff.2 ((gjkPenetrate_spec h.convex h.support iterationLimit [] _ []
    (initialDirection_ne _) (by simp)
    (Or.inr ⟨.start _ (initialDirection_ne _), List.nodup_nil, by simp⟩) r hr).1 hf)

/-- all extreme points of the difference have coordinates that are multiples of `1/N` -/
def GridPair (a : A) (b : B) (rel : T) (N : Nat) : Prop :=
  ∀ d : V2 K, OnGrid N (extremePoint a d - apply rel (extremePoint b (unapplyNormal rel (-d))))

/-- On coordinates that are multiples of `1/N` for some `N ≤ 203` (e.g. tile worlds with positions
and sizes in 1/128 steps) the answer of `penetrates_rel` is exact: `Some` only for shapes that share
a point, `None` only for separable shapes (or at the iteration limit). -/
theorem C36_penetrates_grid (h : ConvexPair (K := K) a b rel) {N : Nat} (h0 : 0 < N)
    (hN : N ≤ 203) (hG : GridPair a b rel N) :
    (∀ v, penetratesRel a b rel = .ok (some v) → Touch (Region.pts a) (placed rel b)) ∧
    (penetratesRel a b rel = .ok none →
      Separable (Region.pts a) (placed rel b) ∨ ManyExtremePoints a b rel 20) := by
  have key := fun r hr => gjkPenetrate_grid h0 hN h.convex h.support hG iterationLimit [] _ []
    (.start _ (initialDirection_ne (applyOrigin rel))) List.nodup_nil (by simp) (by simp) r hr
  constructor
  · intro v hc
    obtain ⟨r, hr, ho⟩ := penetratesRel_run hc
    have hf : r.1 = true := by
      cases h1 : r.1 with
      | true => rfl
      | false => rw [h1] at ho; simp at ho
    exact touch_iff.2 ((key r hr).1 hf)
  · intro hc
    obtain ⟨r, hr, ho⟩ := penetratesRel_run hc
    have hf : r.1 = false := by
      cases h1 : r.1 with
      | true => rw [h1] at ho; simp at ho
      | false => rfl
    rcases (key r hr).2 hf with h1 | h1
    · exact Or.inl (separable_iff.2 h1)
    · rw [List.length_nil, Nat.zero_add] at h1; exact Or.inr h1

/-! ## C37 -/

/-- If `collides_rel` is true, the shapes share a point or come within the tolerance. -/
theorem C37_collides_true (h : ConvexPair (K := K) a b rel)
    (hc : collidesRel a b rel = .ok true) :
    WithinTolerance (Region.pts a) (placed rel b) :=
  withinTolerance_iff.2 ((collidesRel_spec h hc).1 rfl)

/-- in lengths -/
theorem C37_collides_true_length [ExactSqrt K] (h : ConvexPair (K := K) a b rel)
    (hc : collidesRel a b rel = .ok true) :
    ∃ p ∈ Region.pts a, ∃ q ∈ placed rel b, (p - q).length ^ 3 < 1 / 2 ^ 23 :=
  withinTolerance_length (C37_collides_true h hc)

/-! ## C38, C39: completeness when the shapes have few extreme points -/

/-- `extreme_point` of the shape only ever returns one of at most `n` points -/
def FewExtremePoints {S : Type} [ExtremePoint2d S K] (s : S) (n : Nat) : Prop :=
  ∃ l : List (V2 K), l.length ≤ n ∧ ∀ d : V2 K, extremePoint s d ∈ l

theorem not_many {n m : Nat} (hn : FewExtremePoints (K := K) a n) (hm : FewExtremePoints (K := K) b m)
    {k : Nat} (hk : n * m < k) : ¬ ManyExtremePoints (K := K) a b rel k := by
  rintro ⟨L, hL, hlen, hLS⟩
  obtain ⟨la, ha, ha'⟩ := hn
  obtain ⟨lb, hb, hb'⟩ := hm
  have hsub : L ⊆ (la.flatMap fun x => lb.map fun y => x - apply rel y) := by
    intro e he
    obtain ⟨d, _, rfl⟩ := hLS e he
    exact List.mem_flatMap.2 ⟨_, ha' d, List.mem_map.2 ⟨_, hb' _, rfl⟩⟩
  have h1 := (hL.subperm hsub).length_le
  have h2 : (la.flatMap fun x => lb.map fun y => x - apply rel y).length = la.length * lb.length := by
    simp [List.length_flatMap]
  rw [h2, hlen] at h1
  have := Nat.mul_le_mul ha hb
  omega

theorem few_box (b : Box2d K) : FewExtremePoints (K := K) b 4 := by
  have sg : ∀ x : K, FloatExtra.signum x = (1 : K) ∨ FloatExtra.signum x = (-1 : K) := by
    intro x
    rcases lt_trichotomy x 0 with h | h | h
    · exact Or.inr (ExactFloat.signum_neg x h)
    · rw [h]; exact ExactFloat.signum_zero
    · exact Or.inl (ExactFloat.signum_pos x h)
  refine ⟨[V2.mulV b.halfsize ⟨1, 1⟩, V2.mulV b.halfsize ⟨1, -1⟩, V2.mulV b.halfsize ⟨-1, 1⟩,
    V2.mulV b.halfsize ⟨-1, -1⟩], by simp, fun d => ?_⟩
  have e : extremePoint b d = V2.mulV b.halfsize ⟨FloatExtra.signum d.x, FloatExtra.signum d.y⟩ := by
    ext <;> simp [extremePoint, mul_comm]
  rw [e]
  rcases sg d.x with h1 | h1 <;> rcases sg d.y with h2 | h2 <;> rw [h1, h2] <;> simp

theorem few_poly (p : Poly2d K) (h0 : (0 : V2 K) ∈ Region.pts p) :
    FewExtremePoints (K := K) p p.points.length :=
  ⟨p.points, le_refl _, fun d => C10_poly_extreme_vertex p h0 d⟩

/-- completeness of both tests for any pair with few extreme points -/
theorem complete_of_few (h : ConvexPair (K := K) a b rel) {n m : Nat}
    (hn : FewExtremePoints (K := K) a n) (hm : FewExtremePoints (K := K) b m) (hnm : n * m < 20) :
    (Overlap (Region.pts a) (placed rel b) → collidesRel a b rel = .ok true) ∧
    (collidesRel a b rel = .ok false → Separable (Region.pts a) (placed rel b)) := by
  have h1 : collidesRel a b rel = .ok false → Separable (Region.pts a) (placed rel b) := fun hc =>
    (C35_collides_false h hc).resolve_right (not_many hn hm hnm)
  refine ⟨fun ho => ?_, h1⟩
  obtain ⟨c, hc⟩ := (C33_rel_no_panic a b rel).1
  cases c with
  | true => exact hc
  | false => exact absurd ho (h1 hc).not_overlap

/-- `penetrates` finds every overlap with a sufficient margin, for pairs with few extreme points:
`R` bounds the distances between points of the two shapes, and `ε R ≤ δ⁴` -/
theorem penetrates_of_few [ExactSqrt K] (h : ConvexPair (K := K) a b rel) {n m : Nat}
    (hn : FewExtremePoints (K := K) a n) (hm : FewExtremePoints (K := K) b m) (hnm : n * m < 20)
    {δ R : K} (hδ : 0 < δ) (hO : OverlapBy δ (Region.pts a) (placed rel b))
    (hR : ∀ p ∈ Region.pts a, ∀ q ∈ placed rel b, (p - q).length ≤ R)
    (hε : 1 / 2 ^ 23 * R ≤ δ ^ 4) : ∃ v, penetratesRel a b rel = .ok (some v) := by
  obtain ⟨o, hc⟩ := (C33_rel_no_panic a b rel).2.1
  obtain ⟨r, hr, ho⟩ := penetratesRel_run hc
  have hR' : ∀ x ∈ minkDiff (Region.pts a) (placed rel b), x.length ≤ R := by
    rintro x ⟨p, hp, q, hq, rfl⟩; exact hR p hp q hq
  rcases gjkPenetrate_margin hδ (overlapBy_iff.1 hO) hR' hε h.convex h.support iterationLimit [] _ []
    (.start _ (initialDirection_ne _)) List.nodup_nil (by simp) (by intro u v h; simp at h)
    (by right; unfold iterationLimit; simp) r hr with h1 | h1
  · rw [h1] at ho
    exact ⟨r.2, by rw [hc, ho]; rfl⟩
  · exact absurd h1 (not_many hn hm hnm)

end

/-- Box2d v Box2d under any similarity (in particular any rotation and translation): every overlap
is found by `collides`, every negative answer is certified by a separating line, and a positive
answer means contact up to the tolerance. The iteration limit never decides. -/
theorem C38_box_box_collides {T : Type} [Transformation2d T K] (a b : Box2d K) (rel : T)
    (ha : 0 ≤ a.halfsize.x ∧ 0 ≤ a.halfsize.y) (hb : 0 ≤ b.halfsize.x ∧ 0 ≤ b.halfsize.y)
    (hs : ∃ s : K, 0 ≤ s ∧ Similarity rel s) :
    ∃ c, collidesRel a b rel = .ok c ∧ (Overlap (Region.pts a) (placed rel b) → c = true) ∧
      (c = false → Separable (Region.pts a) (placed rel b)) ∧
      (c = true → WithinTolerance (Region.pts a) (placed rel b)) := by
  have h := convexPair_box_box a b rel ha hb hs
  obtain ⟨c, hc⟩ := (C33_rel_no_panic a b rel).1
  obtain ⟨h1, h2⟩ := complete_of_few h (few_box a) (few_box b) (by norm_num)
  refine ⟨c, hc, fun ho => ?_, fun h' => h2 (h' ▸ hc), fun h' => C37_collides_true h (h' ▸ hc)⟩
  have := h1 ho
  rw [hc] at this
  simpa using this

/-- Box2d v Box2d `penetrates`: every overlap with margin `δ` is found when `ε R ≤ δ⁴`, and shapes
farther apart than the tolerance get `None`. -/
theorem C38_box_box_penetrates [ExactSqrt K] {T : Type} [Transformation2d T K]
    (a b : Box2d K) (rel : T)
    (ha : 0 ≤ a.halfsize.x ∧ 0 ≤ a.halfsize.y) (hb : 0 ≤ b.halfsize.x ∧ 0 ≤ b.halfsize.y)
    (hs : ∃ s : K, 0 ≤ s ∧ Similarity rel s) :
    (∀ δ R : K, 0 < δ → OverlapBy δ (Region.pts a) (placed rel b) →
      (∀ p ∈ Region.pts a, ∀ q ∈ placed rel b, (p - q).length ≤ R) → 1 / 2 ^ 23 * R ≤ δ ^ 4 →
      ∃ v, penetratesRel a b rel = .ok (some v)) ∧
    (¬ WithinTolerance (Region.pts a) (placed rel b) → penetratesRel a b rel = .ok none) := by
  have h := convexPair_box_box a b rel ha hb hs
  refine ⟨fun δ R hδ hO hR hε => penetrates_of_few h (few_box a) (few_box b) (by norm_num) hδ hO hR
    hε, fun hn => ?_⟩
  obtain ⟨o, hc⟩ := (C33_rel_no_panic a b rel).2.1
  cases o with
  | none => exact hc
  | some v => exact absurd (C36_penetrates_some h v hc) hn

/-- Axis-aligned boxes whose half sizes and offset are multiples of `1/N`, `N ≤ 203`: `penetrates`
is exact — `Some` iff not separable, hence for every overlap, and never for disjoint boxes. -/
theorem C38_box_box_penetrates_grid (a b : Box2d K) (t : V2 K) {N : Nat} (h0 : 0 < N)
    (hN : N ≤ 203)
    (ha : 0 ≤ a.halfsize.x ∧ 0 ≤ a.halfsize.y) (hb : 0 ≤ b.halfsize.x ∧ 0 ≤ b.halfsize.y)
    (ga : OnGrid N a.halfsize) (gb : OnGrid N b.halfsize) (gt : OnGrid N t) :
    (Overlap (Region.pts a) (placed t b) → ∃ v, penetratesRel a b t = .ok (some v)) ∧
    (¬ Touch (Region.pts a) (placed t b) → penetratesRel a b t = .ok none) := by
  have h := convexPair_box_box a b t ha hb ⟨1, zero_le_one, similarity_vec2 t⟩
  have hN0 : (N : K) ≠ 0 := by exact_mod_cast h0.ne'
  have sg : ∀ x : K, ∃ z : ℤ, (FloatExtra.signum x : K) = z := by
    intro x
    rcases lt_trichotomy x 0 with h | h | h
    · exact ⟨-1, by rw [ExactFloat.signum_neg x h]; simp⟩
    · rw [h]
      rcases ExactFloat.signum_zero (K := K) with h | h
      · exact ⟨1, by rw [h]; simp⟩
      · exact ⟨-1, by rw [h]; simp⟩
    · exact ⟨1, by rw [ExactFloat.signum_pos x h]; simp⟩
  have hG : GridPair a b t N := by
    intro d
    obtain ⟨i, j, ea⟩ := ga
    obtain ⟨k, l, eb⟩ := gb
    obtain ⟨u, v, et⟩ := gt
    obtain ⟨z1, hz1⟩ := sg d.x
    obtain ⟨z2, hz2⟩ := sg d.y
    obtain ⟨z3, hz3⟩ := sg (-d.x)
    obtain ⟨z4, hz4⟩ := sg (-d.y)
    refine ⟨z1 * i - (z3 * k + u), z2 * j - (z4 * l + v), ?_⟩
    ext
    · simp [extremePoint, apply, unapplyNormal, ea, eb, et, hz1, hz3]
      field_simp
    · simp [extremePoint, apply, unapplyNormal, ea, eb, et, hz2, hz4]
      field_simp
  obtain ⟨h1, h2⟩ := C36_penetrates_grid h h0 hN hG
  obtain ⟨o, hc⟩ := (C33_rel_no_panic a b t).2.1
  constructor
  · intro ho
    cases o with
    | none => exact absurd ho ((h2 hc).resolve_right
        (not_many (few_box a) (few_box b) (by norm_num))).not_overlap
    | some v => exact ⟨v, hc⟩
  · intro hn
    cases o with
    | none => exact hc
    | some v => exact absurd (h1 v hc) hn

/-- Polygons (containing their origin) whose vertex counts multiply to at most 19. -/
theorem C39_poly_poly {T : Type} [Transformation2d T K] (a b : Poly2d K) (rel : T)
    (ha : (0 : V2 K) ∈ Region.pts a) (hb : (0 : V2 K) ∈ Region.pts b)
    (hs : ∃ s : K, 0 ≤ s ∧ Similarity rel s) (hnm : a.points.length * b.points.length ≤ 19) :
    ∃ c, collidesRel a b rel = .ok c ∧ (Overlap (Region.pts a) (placed rel b) → c = true) ∧
      (c = false → Separable (Region.pts a) (placed rel b)) := by
  have h := convexPair_poly_poly a b rel ha hb hs
  obtain ⟨c, hc⟩ := (C33_rel_no_panic a b rel).1
  obtain ⟨h1, h2⟩ := complete_of_few h (few_poly a ha) (few_poly b hb) (by omega)
  refine ⟨c, hc, fun ho => ?_, fun h' => h2 (h' ▸ hc)⟩
  have := h1 ho
  rw [hc] at this
  simpa using this

/-- `penetrates` of such polygons finds every overlap with a sufficient margin. -/
theorem C39_poly_poly_penetrates [ExactSqrt K] {T : Type} [Transformation2d T K]
    (a b : Poly2d K) (rel : T)
    (ha : (0 : V2 K) ∈ Region.pts a) (hb : (0 : V2 K) ∈ Region.pts b)
    (hs : ∃ s : K, 0 ≤ s ∧ Similarity rel s) (hnm : a.points.length * b.points.length ≤ 19)
    {δ R : K} (hδ : 0 < δ) (hO : OverlapBy δ (Region.pts a) (placed rel b))
    (hR : ∀ p ∈ Region.pts a, ∀ q ∈ placed rel b, (p - q).length ≤ R)
    (hε : 1 / 2 ^ 23 * R ≤ δ ^ 4) : ∃ v, penetratesRel a b rel = .ok (some v) :=
  penetrates_of_few (convexPair_poly_poly a b rel ha hb hs) (few_poly a ha) (few_poly b hb)
    (by omega) hδ hO hR hε

/-- Box2d v Poly2d and Poly2d v Box2d with at most four vertices. -/
theorem C39_box_poly {T : Type} [Transformation2d T K] (a : Box2d K) (b : Poly2d K) (rel : T)
    (ha : 0 ≤ a.halfsize.x ∧ 0 ≤ a.halfsize.y) (hb : (0 : V2 K) ∈ Region.pts b)
    (hs : ∃ s : K, 0 ≤ s ∧ Similarity rel s) (hm : b.points.length ≤ 4) :
    (∃ c, collidesRel a b rel = .ok c ∧ (Overlap (Region.pts a) (placed rel b) → c = true) ∧
      (c = false → Separable (Region.pts a) (placed rel b))) ∧
    (∃ c, collidesRel b a rel = .ok c ∧ (Overlap (Region.pts b) (placed rel a) → c = true) ∧
      (c = false → Separable (Region.pts b) (placed rel a))) := by
  obtain ⟨h, h'⟩ := convexPair_box_poly a b rel ha hb hs
  have hf := few_poly b hb
  constructor
  · obtain ⟨c, hc⟩ := (C33_rel_no_panic a b rel).1
    obtain ⟨h1, h2⟩ := complete_of_few h (few_box a) hf (by omega)
    refine ⟨c, hc, fun ho => ?_, fun h' => h2 (h' ▸ hc)⟩
    have := h1 ho
    rw [hc] at this
    simpa using this
  · obtain ⟨c, hc⟩ := (C33_rel_no_panic b a rel).1
    obtain ⟨h1, h2⟩ := complete_of_few (h' rel hs) hf (few_box a) (by omega)
    refine ⟨c, hc, fun ho => ?_, fun h' => h2 (h' ▸ hc)⟩
    have := h1 ho
    rw [hc] at this
    simpa using this

end

/-! ## findings and concrete cases (evaluated by the kernel over ℚ) -/

section
attribute [local instance] ratFloat

/-- Finding: within the tolerance `penetrates` and `collides` report a collision of *disjoint*
boxes: unit boxes whose faces are `2^-27` apart; and the vector returned moves self towards the
other box.  So the exact version of C36 (and of C37 without its tolerance) is false. -/
theorem C36_penetrates_disjoint_finding :
    penetratesRel (⟨⟨1 / 2, 1 / 2⟩⟩ : Box2d ℚ) (⟨⟨1 / 2, 1 / 2⟩⟩ : Box2d ℚ)
        (⟨1 + 1 / 2 ^ 27, -1 / 2⟩ : V2 ℚ) = .ok (some ⟨1 / 2 ^ 27, 0⟩) ∧
    collidesRel (⟨⟨1 / 2, 1 / 2⟩⟩ : Box2d ℚ) (⟨⟨1 / 2, 1 / 2⟩⟩ : Box2d ℚ)
        (⟨1 + 1 / 2 ^ 27, -1 / 2⟩ : V2 ℚ) = .ok true ∧
    ¬ Touch (Region.pts (⟨⟨1 / 2, 1 / 2⟩⟩ : Box2d ℚ))
        (placed (⟨1 + 1 / 2 ^ 27, -1 / 2⟩ : V2 ℚ) (⟨⟨1 / 2, 1 / 2⟩⟩ : Box2d ℚ)) := by
  refine ⟨by decide +kernel, by decide +kernel, ?_⟩
  rintro ⟨p, ⟨h1, _⟩, q, ⟨h2, _⟩, rfl⟩
  have h3 := (abs_le.1 h1).2
  have h4 := (abs_le.1 h2).1
  simp only [apply, add_x] at h3
  norm_num at h3 h4
  linarith

/-- a turned box (3-4-5 rotation) overlapping a box: the hypotheses of C38 are met, with overlap -/
example : ∃ rel : Transform2d ℚ, (∃ s : ℚ, 0 ≤ s ∧ Similarity rel s) ∧
    Overlap (Region.pts (⟨⟨1, 2⟩⟩ : Box2d ℚ)) (placed rel (⟨⟨1, 1⟩⟩ : Box2d ℚ)) ∧
    collidesRel (⟨⟨1, 2⟩⟩ : Box2d ℚ) (⟨⟨1, 1⟩⟩ : Box2d ℚ) rel = .ok true := by
  have : ExactFloat ℚ := ratFloat_exact
  refine ⟨⟨⟨1, 0⟩, ⟨⟨3 / 5, 4 / 5⟩⟩, ⟨1, 1⟩⟩, ⟨1, by norm_num,
    similarity_transform2d _ 1 (by simp only [Rotor2d.IsUnit]; norm_num) rfl⟩, ?_,
    by decide +kernel⟩
  refine ⟨1 / 4, by norm_num, fun v hv => ?_⟩
  rw [lengthSq_def] at hv
  have hx : |v.x| ≤ 1 / 4 := abs_le_of_sq_le_sq (by nlinarith [mul_self_nonneg v.y]) (by norm_num)
  have hy : |v.y| ≤ 1 / 4 := abs_le_of_sq_le_sq (by nlinarith [mul_self_nonneg v.x]) (by norm_num)
  rw [abs_le] at hx hy
  refine ⟨⟨1 / 2, 0⟩, ⟨⟨1 / 2, 0⟩ - v, ⟨?_, ?_⟩, by ext <;> simp⟩, ⟨⟨-3 / 10, 2 / 5⟩, ⟨?_, ?_⟩, ?_⟩⟩
  · show |1 / 2 - v.x| ≤ 1
    rw [abs_le]; constructor <;> linarith [hx.1, hx.2]
  · show |0 - v.y| ≤ 2
    rw [abs_le]; constructor <;> linarith [hy.1, hy.2]
  · show |(-3 / 10 : ℚ)| ≤ 1
    rw [abs_le]; constructor <;> norm_num
  · show |(2 / 5 : ℚ)| ≤ 1
    rw [abs_le]; constructor <;> norm_num
  · ext <;> simp [apply, Rotor2d.rotate] <;> norm_num

/-- both alternatives of C35 and the grid theorem have concrete instances: separated boxes -/
example : collidesRel (⟨⟨1, 2⟩⟩ : Box2d ℚ) (⟨⟨1, 1⟩⟩ : Box2d ℚ) (⟨3, 1⟩ : V2 ℚ) = .ok false ∧
    penetratesRel (⟨⟨1, 2⟩⟩ : Box2d ℚ) (⟨⟨1, 1⟩⟩ : Box2d ℚ) (⟨3, 1⟩ : V2 ℚ) = .ok none ∧
    penetratesRel (⟨⟨1, 2⟩⟩ : Box2d ℚ) (⟨⟨1, 1⟩⟩ : Box2d ℚ) (⟨1, 1⟩ : V2 ℚ) =
      .ok (some ⟨-1, 0⟩) ∧ OnGrid 1 (⟨3, 1⟩ : V2 ℚ) :=
  ⟨by decide +kernel, by decide +kernel, by decide +kernel, ⟨3, 1, by ext <;> simp⟩⟩

/-- polygons for C39: a triangle and a pentagon around the origin (3 · 5 ≤ 19) -/
example : (0 : V2 ℚ) ∈ Region.pts (⟨[⟨-1, -1⟩, ⟨2, -1⟩, ⟨0, 2⟩]⟩ : Poly2d ℚ) ∧
    collidesRel (⟨[⟨-1, -1⟩, ⟨2, -1⟩, ⟨0, 2⟩]⟩ : Poly2d ℚ)
      (⟨[⟨-1, -1⟩, ⟨1, -1⟩, ⟨2, 0⟩, ⟨0, 2⟩, ⟨-2, 0⟩]⟩ : Poly2d ℚ) (⟨2, 1⟩ : V2 ℚ) = .ok true := by
  refine ⟨?_, by decide +kernel⟩
  have hc : Convex ℚ (Region.pts (⟨[⟨-1, -1⟩, ⟨2, -1⟩, ⟨0, 2⟩]⟩ : Poly2d ℚ)) := convex_convexHull ℚ _
  have hm : ∀ p ∈ [(⟨-1, -1⟩ : V2 ℚ), ⟨2, -1⟩, ⟨0, 2⟩],
      p ∈ Region.pts (⟨[⟨-1, -1⟩, ⟨2, -1⟩, ⟨0, 2⟩]⟩ : Poly2d ℚ) := fun p hp =>
    subset_convexHull ℚ _ hp
  have h1 : (2 / 3 : ℚ) • (⟨-1, -1⟩ : V2 ℚ) + (1 / 3 : ℚ) • ⟨2, -1⟩ ∈ _ :=
    hc (hm _ (by simp)) (hm _ (by simp)) (by norm_num) (by norm_num) (by norm_num)
  have h2 := hc h1 (hm ⟨0, 2⟩ (by simp)) (show (0 : ℚ) ≤ 2 / 3 by norm_num)
    (show (0 : ℚ) ≤ 1 / 3 by norm_num) (by norm_num)
  have e : (2 / 3 : ℚ) • ((2 / 3 : ℚ) • (⟨-1, -1⟩ : V2 ℚ) + (1 / 3 : ℚ) • ⟨2, -1⟩) +
      (1 / 3 : ℚ) • (⟨0, 2⟩ : V2 ℚ) = 0 := by ext <;> simp <;> norm_num
  rwa [e] at h2

end

/-- the margin hypotheses of C38 are met: unit boxes on top of each other, `δ = 1`, `R = 4` -/
example : OverlapBy 1 (Region.pts (⟨⟨1, 1⟩⟩ : Box2d ℝ)) (placed (0 : V2 ℝ) (⟨⟨1, 1⟩⟩ : Box2d ℝ)) ∧
    (∀ p ∈ Region.pts (⟨⟨1, 1⟩⟩ : Box2d ℝ), ∀ q ∈ placed (0 : V2 ℝ) (⟨⟨1, 1⟩⟩ : Box2d ℝ),
      @V2.length ℝ _ _ (realFloat true 0) (p - q) ≤ 4) ∧ (1 / 2 ^ 23 * 4 : ℝ) ≤ 1 ^ 4 := by
  let _ := realFloat true 0
  have := realFloat_sqrt true 0
  refine ⟨?_, ?_, by norm_num⟩
  · intro v hv
    rw [lengthSq_def] at hv
    have hx : |v.x| ≤ 1 := abs_le_of_sq_le_sq (by nlinarith [mul_self_nonneg v.y]) (by norm_num)
    have hy : |v.y| ≤ 1 := abs_le_of_sq_le_sq (by nlinarith [mul_self_nonneg v.x]) (by norm_num)
    exact ⟨v, ⟨0, ⟨by simp, by simp⟩, by ext <;> simp⟩, ⟨v, ⟨hx, hy⟩, by ext <;> simp [apply]⟩⟩
  · rintro p ⟨h1, h2⟩ q ⟨q', ⟨h3, h4⟩, rfl⟩
    apply le_of_sq_le_sq _ (by norm_num)
    rw [V2.length_sq, lengthSq_def]
    rw [abs_le] at h1 h2 h3 h4
    simp only [apply, sub_x, sub_y, add_x, add_y, zero_x, zero_y]
    simp only at h1 h2 h3 h4
    nlinarith [h1.1, h1.2, h2.1, h2.2, h3.1, h3.2, h4.1, h4.2]

end Auburn
