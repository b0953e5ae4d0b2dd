import Verif.Spec.Similarity
import Mathlib.Analysis.Convex.Combination
import Mathlib.Analysis.SpecialFunctions.Trigonometric.Bounds
import Mathlib.RingTheory.RootsOfUnity.Complex

/-!
# C08–C16: extreme points, bounding boxes, polygons
-/

set_option linter.unusedSectionVars false

namespace Auburn

open V2 ExtremePoint2d Transformation2d

/-! ## C10: totality, for every behaviour of the scalars -/

/-- `Poly2d::extreme_point` never panics (it is a total function of the model: no indexing, no
unwrap) and returns a vertex or `ZERO`, whatever the arithmetic does (NaN, overflow, ...). -/
theorem C10_poly_extreme_vertex_or_zero {F : Type} [Zero F] [Add F] [Mul F] [LT F] [DecidableLT F]
    [FloatExtra F] (s : Poly2d F) (d : V2 F) :
    extremePoint s d ∈ s.points ∨ extremePoint s d = 0 := by
  have : ∀ (l : List (V2 F)) (acc : F × V2 F),
      (l.foldl (Poly2d.extremeStep d) acc).2 ∈ l ∨ (l.foldl (Poly2d.extremeStep d) acc).2 = acc.2 := by
    intro l
    induction l with
    | nil => intro acc; right; rfl
    | cons p l ih =>
      intro acc
      rw [List.foldl_cons]
      rcases ih (Poly2d.extremeStep d acc p) with h | h
      · exact Or.inl (List.mem_cons_of_mem _ h)
      · rw [h]
        unfold Poly2d.extremeStep
        simp only
        split_ifs
        · exact Or.inl (by simp)
        · exact Or.inr rfl
  exact this s.points (FloatExtra.f32Min, 0)

section
variable {K : Type} [Field K] [LinearOrder K] [IsStrictOrderedRing K] [FloatExtra K]

/-! ## helpers on hulls -/

theorem convex_halfplane (d : V2 K) (M : K) : Convex K {p : V2 K | d.dot p ≤ M} := by
  intro x hx y hy a b ha hb hab
  have hx' : d.dot x ≤ M := hx
  have hy' : d.dot y ≤ M := hy
  show d.dot (a • x + b • y) ≤ M
  rw [dot_add, dot_smul, dot_smul]
  calc a * d.dot x + b * d.dot y ≤ a * M + b * M :=
        add_le_add (mul_le_mul_of_nonneg_left hx' ha) (mul_le_mul_of_nonneg_left hy' hb)
    _ = M := by rw [← add_mul, hab, one_mul]

theorem hull_dot_le {l : List (V2 K)} {d : V2 K} {M : K} (h : ∀ p ∈ l, d.dot p ≤ M) {q : V2 K}
    (hq : q ∈ convexHull K {p | p ∈ l}) : d.dot q ≤ M :=
  convexHull_min (show {p | p ∈ l} ⊆ {p : V2 K | d.dot p ≤ M} from h) (convex_halfplane d M) hq

theorem convex_box (h : V2 K) : Convex K (Region.pts (Box2d.mk h)) := by
  rintro x ⟨hx1, hx2⟩ y ⟨hy1, hy2⟩ a b ha hb hab
  have key : ∀ u v m : K, |u| ≤ m → |v| ≤ m → |a * u + b * v| ≤ m := by
    intro u v m hu hv
    rw [abs_le] at *
    have e : a * m + b * m = m := by rw [← add_mul, hab, one_mul]
    constructor
    · nlinarith [mul_le_mul_of_nonneg_left hu.1 ha, mul_le_mul_of_nonneg_left hv.1 hb]
    · nlinarith [mul_le_mul_of_nonneg_left hu.2 ha, mul_le_mul_of_nonneg_left hv.2 hb]
  exact ⟨key _ _ _ hx1 hy1, key _ _ _ hx2 hy2⟩

section
variable [ExactFloat K]

theorem f32Min_neg : (FloatExtra.f32Min : K) < 0 := by
  rw [ExactFloat.f32Min_eq]; norm_num

theorem signum_mul_self (x : K) : FloatExtra.signum x * x = |x| := by
  rcases lt_trichotomy x 0 with h | h | h
  · rw [ExactFloat.signum_neg x h, abs_of_neg h]; ring
  · subst h; simp
  · rw [ExactFloat.signum_pos x h, abs_of_pos h]; ring

theorem signum_abs (x : K) : |(FloatExtra.signum x : K)| = 1 := by
  rcases lt_trichotomy x 0 with h | h | h
  · rw [ExactFloat.signum_neg x h]; simp
  · subst h
    rcases ExactFloat.signum_zero (K := K) with h | h <;> rw [h] <;> simp
  · rw [ExactFloat.signum_pos x h]; simp

theorem signum_mul_signum (x : K) : (FloatExtra.signum x : K) * FloatExtra.signum x = 1 := by
  have := signum_abs x
  rw [← sq, ← sq_abs, this]; norm_num

theorem abs_mul_signum (x : K) : |x| * FloatExtra.signum x = x := by
  rw [← signum_mul_self x]
  linear_combination x * signum_mul_signum x

/-- the fold of `Poly2d::extreme_point` -/
theorem poly_fold_spec (d : V2 K) (l : List (V2 K)) (acc : K × V2 K) :
    let r := l.foldl (Poly2d.extremeStep d) acc
    (∀ p ∈ l, d.dot p ≤ r.1) ∧ acc.1 ≤ r.1 ∧
      (r = acc ∨ (r.2 ∈ l ∧ r.1 = d.dot r.2)) := by
  induction l generalizing acc with
  | nil => simp
  | cons p l ih =>
    simp only [List.foldl_cons]
    obtain ⟨h1, h2, h3⟩ := ih (Poly2d.extremeStep d acc p)
    have hs : d.dot p ≤ (Poly2d.extremeStep d acc p).1 ∧ acc.1 ≤ (Poly2d.extremeStep d acc p).1 ∧
        (Poly2d.extremeStep d acc p = acc ∨
          (Poly2d.extremeStep d acc p = (d.dot p, p))) := by
      unfold Poly2d.extremeStep
      simp only
      split_ifs with h
      · exact ⟨le_refl _, le_of_lt h, Or.inr rfl⟩
      · exact ⟨not_lt.1 h, le_refl _, Or.inl rfl⟩
    refine ⟨?_, hs.2.1.trans h2, ?_⟩
    · intro q hq
      rcases List.mem_cons.1 hq with rfl | hq
      · exact hs.1.trans h2
      · exact h1 q hq
    · rcases h3 with h3 | ⟨h3, h4⟩
      · rcases hs.2.2 with h | h
        · left; rw [h3, h]
        · right; rw [h3, h]; simp
      · right; exact ⟨List.mem_cons_of_mem _ h3, h4⟩

/-- `Poly2d::extreme_point` is exact as soon as some vertex scores above `f32::MIN`. -/
theorem poly_extreme_of_score (s : Poly2d K) (d : V2 K)
    (h : ∃ p ∈ s.points, (FloatExtra.f32Min : K) < d.dot p) :
    extremePoint s d ∈ s.points ∧ IsExtreme (Region.pts s) d (extremePoint s d) := by
  obtain ⟨h1, h2, h3⟩ := poly_fold_spec d s.points (FloatExtra.f32Min, 0)
  obtain ⟨p, hp, hlt⟩ := h
  rcases h3 with h3 | ⟨h3, h4⟩
  · exfalso
    have := h1 p hp
    rw [h3] at this
    exact absurd hlt (not_lt.2 this)
  · refine ⟨h3, subset_convexHull K _ h3, ?_⟩
    intro q hq
    refine hull_dot_le (fun p hp => ?_) hq
    have := h1 p hp
    rw [h4] at this
    exact this

/-- a polygon containing the origin has a vertex of non-negative score in every direction -/
theorem exists_score_of_origin {l : List (V2 K)} (h : (0 : V2 K) ∈ convexHull K {p | p ∈ l})
    (d : V2 K) : ∃ p ∈ l, 0 ≤ d.dot p := by
  by_contra hcon
  push Not at hcon
  -- choose a uniform negative bound
  have hb : ∃ M : K, M < 0 ∧ ∀ p ∈ l, d.dot p ≤ M := by
    clear h
    induction l with
    | nil => exact ⟨-1, by norm_num, by simp⟩
    | cons a l ih =>
      obtain ⟨M, hM, hl⟩ := ih (fun p hp => hcon p (List.mem_cons_of_mem _ hp))
      refine ⟨max M (d.dot a), max_lt hM (hcon a (by simp)), ?_⟩
      intro p hp
      rcases List.mem_cons.1 hp with rfl | hp
      · exact le_max_right _ _
      · exact (hl p hp).trans (le_max_left _ _)
  obtain ⟨M, hM, hl⟩ := hb
  have := hull_dot_le hl h
  rw [dot_zero] at this
  exact absurd hM (not_lt.2 this)

/-! ## C08 -/

theorem C08_extreme_point_point (p : Point K) (d : V2 K) :
    IsExtreme (Region.pts p) d (extremePoint p d) := by
  refine ⟨rfl, ?_⟩
  intro q hq
  rw [show q = 0 from hq]; exact le_refl _

theorem C08_extreme_point_box (b : Box2d K) (hb : 0 ≤ b.halfsize.x ∧ 0 ≤ b.halfsize.y) (d : V2 K) :
    IsExtreme (Region.pts b) d (extremePoint b d) := by
  constructor
  · refine ⟨?_, ?_⟩
    · show |FloatExtra.signum d.x * b.halfsize.x| ≤ _
      rw [abs_mul, signum_abs, one_mul, abs_of_nonneg hb.1]
    · show |FloatExtra.signum d.y * b.halfsize.y| ≤ _
      rw [abs_mul, signum_abs, one_mul, abs_of_nonneg hb.2]
  · rintro p ⟨hx, hy⟩
    have key : ∀ u x h : K, |x| ≤ h → u * x ≤ u * (FloatExtra.signum u * h) := by
      intro u x h hxh
      calc u * x ≤ |u * x| := le_abs_self _
        _ = |u| * |x| := abs_mul _ _
        _ ≤ |u| * h := mul_le_mul_of_nonneg_left hxh (abs_nonneg _)
        _ = u * (FloatExtra.signum u * h) := by rw [← signum_mul_self]; ring
    exact add_le_add (key _ _ _ hx) (key _ _ _ hy)

/-- normalisation: a non-zero vector divided by its length, `ZERO` for `ZERO` -/
theorem normalizeOrZero_eq [ExactSqrt K] (d : V2 K) :
    d.normalizeOrZero = V2.scale (1 / d.length) d := by
  unfold normalizeOrZero
  simp only [ExactFloat.isFinite_eq]
  by_cases h : d = 0
  · subst h
    split_ifs
    · rfl
    · ext <;> simp
  · have hp := V2.length_pos.2 h
    have : (1 / d.length) > 0 := by positivity
    rw [if_pos ⟨trivial, this⟩]

theorem ball_extreme_dot [ExactSqrt K] (b : Ball K) (d : V2 K) :
    d.dot (extremePoint b d) = b.radius * d.length := by
  show d.dot (V2.scale b.radius d.normalizeOrZero) = _
  rw [normalizeOrZero_eq, dot_scale, dot_scale, dot_self, ← V2.length_sq]
  by_cases h : d.length = 0
  · rw [h]; ring
  · field_simp

theorem C08_extreme_point_ball [ExactSqrt K] (b : Ball K) (hb : 0 ≤ b.radius) (d : V2 K) :
    IsExtreme (Region.pts b) d (extremePoint b d) := by
  constructor
  · refine ⟨hb, ?_⟩
    show lengthSq (V2.scale b.radius d.normalizeOrZero) ≤ _
    rw [normalizeOrZero_eq, lengthSq_scale, lengthSq_scale, ← V2.length_sq]
    by_cases h : d.length = 0
    · rw [h]; simp; positivity
    · have : (1 / d.length) ^ 2 * d.length ^ 2 = 1 := by field_simp
      rw [this, mul_one]
  · rintro p ⟨_, hp⟩
    rw [ball_extreme_dot]
    have h1 := V2.dot_le_length d p
    have h2 : p.length ≤ b.radius := by
      rw [← V2.length_sq] at hp
      exact abs_le_of_sq_le_sq hp hb |> fun h => (abs_le.1 h).2
    calc d.dot p ≤ d.length * p.length := h1
      _ ≤ d.length * b.radius := mul_le_mul_of_nonneg_left h2 (V2.length_nonneg d)
      _ = b.radius * d.length := mul_comm _ _

theorem C08_extreme_point_rounded_box [ExactSqrt K] (r : RoundedBox2d K)
    (hb : 0 ≤ r.halfsize.x ∧ 0 ≤ r.halfsize.y) (hr : 0 ≤ r.radius) (d : V2 K) :
    IsExtreme (Region.pts r) d (extremePoint r d) := by
  have h1 := C08_extreme_point_box (Box2d.mk r.halfsize) hb d
  have h2 := C08_extreme_point_ball (Ball.mk r.radius) hr d
  constructor
  · refine ⟨hr, extremePoint (Box2d.mk r.halfsize) d, h1.1, ?_⟩
    have e : extremePoint r d - extremePoint (Box2d.mk r.halfsize) d =
        extremePoint (Ball.mk r.radius) d := by
      show extremePoint (Ball.mk r.radius) d + extremePoint (Box2d.mk r.halfsize) d
        - extremePoint (Box2d.mk r.halfsize) d = _
      exact add_sub_cancel_right _ _
    rw [e]; exact h2.1.2
  · rintro p ⟨_, q, hq, hpq⟩
    have e : d.dot p = d.dot (p - q) + d.dot q := by rw [dot_sub]; ring
    have h3 := h2.2 (p - q) ⟨hr, hpq⟩
    have h4 := h1.2 q hq
    show d.dot p ≤ d.dot (extremePoint (Ball.mk r.radius) d + extremePoint (Box2d.mk r.halfsize) d)
    rw [e, dot_add]
    exact add_le_add h3 h4

/-- polygons that contain the origin, as their documentation requires -/
theorem C08_extreme_point_poly (s : Poly2d K) (h0 : (0 : V2 K) ∈ Region.pts s) (d : V2 K) :
    IsExtreme (Region.pts s) d (extremePoint s d) ∧ extremePoint s d ∈ s.points := by
  obtain ⟨p, hp, hle⟩ := exists_score_of_origin h0 d
  have := poly_extreme_of_score s d ⟨p, hp, lt_of_lt_of_le f32Min_neg hle⟩
  exact ⟨this.2, this.1⟩

/-- Finding: without the documented limitation the search starts from `(f32::MIN, ZERO)`, so for a
polygon far away from the origin the answer can be `ZERO`, which is not a point of the polygon. -/
theorem C08_extreme_point_poly_far_finding :
    ∃ (s : Poly2d K) (d : V2 K), s.points ≠ [] ∧ ¬ IsExtreme (Region.pts s) d (extremePoint s d) := by
  refine ⟨⟨[⟨2 ^ 128, 0⟩]⟩, ⟨-1, 0⟩, by simp, ?_⟩
  intro h
  have hz : extremePoint (⟨[⟨2 ^ 128, 0⟩]⟩ : Poly2d K) ⟨-1, 0⟩ = 0 := by
    show (List.foldl (Poly2d.extremeStep ⟨-1, 0⟩) (FloatExtra.f32Min, 0) [⟨2 ^ 128, 0⟩]).2 = 0
    rw [List.foldl_cons, List.foldl_nil]
    unfold Poly2d.extremeStep
    simp only [dot_def, ExactFloat.f32Min_eq]
    rw [if_neg (by norm_num)]
  rw [hz] at h
  have := hull_dot_le (d := (⟨-1, 0⟩ : V2 K)) (M := -2 ^ 128) (l := [⟨2 ^ 128, 0⟩])
    (by intro p hp; rw [List.mem_singleton] at hp; subst hp; simp [dot_def]) h.1
  rw [dot_zero] at this
  norm_num at this

/-- the well-formed shapes: non-negative sizes, polygons containing the origin -/
def Shape2d.Valid : Shape2d K → Prop
  | .ball b => 0 ≤ b.radius
  | .box b => 0 ≤ b.halfsize.x ∧ 0 ≤ b.halfsize.y
  | .poly p => (0 : V2 K) ∈ Region.pts p

theorem C08_extreme_point_shape2d [ExactSqrt K] (s : Shape2d K) (hs : s.Valid) (d : V2 K) :
    IsExtreme (Region.pts s) d (extremePoint s d) := by
  cases s with
  | ball b => exact C08_extreme_point_ball b hs d
  | box b => exact C08_extreme_point_box b hs d
  | poly p => exact (C08_extreme_point_poly p hs d).1

/-- non-vacuity: a triangle containing the origin -/
example : (0 : V2 K) ∈ Region.pts (⟨[⟨2, 0⟩, ⟨-1, 1⟩, ⟨-1, -1⟩]⟩ : Poly2d K) := by
  have hc := convex_convexHull K {p | p ∈ ([⟨2, 0⟩, ⟨-1, 1⟩, ⟨-1, -1⟩] : List (V2 K))}
  have h1 : (⟨2, 0⟩ : V2 K) ∈ convexHull K {p | p ∈ ([⟨2, 0⟩, ⟨-1, 1⟩, ⟨-1, -1⟩] : List (V2 K))} :=
    subset_convexHull K _ (by simp)
  have h2 : (⟨-1, 1⟩ : V2 K) ∈ convexHull K {p | p ∈ ([⟨2, 0⟩, ⟨-1, 1⟩, ⟨-1, -1⟩] : List (V2 K))} :=
    subset_convexHull K _ (by simp)
  have h3 : (⟨-1, -1⟩ : V2 K) ∈ convexHull K {p | p ∈ ([⟨2, 0⟩, ⟨-1, 1⟩, ⟨-1, -1⟩] : List (V2 K))} :=
    subset_convexHull K _ (by simp)
  have h4 := hc h2 h3 (a := 1 / 2) (b := 1 / 2) (by norm_num) (by norm_num) (by norm_num)
  have h5 := hc h1 h4 (a := 1 / 3) (b := 2 / 3) (by norm_num) (by norm_num) (by norm_num)
  have e : (0 : V2 K) = (1 / 3 : K) • (⟨2, 0⟩ : V2 K) +
      (2 / 3 : K) • ((1 / 2 : K) • (⟨-1, 1⟩ : V2 K) + (1 / 2 : K) • (⟨-1, -1⟩ : V2 K)) := by
    ext <;> simp
    norm_num
  rw [e]; exact h5

/-! ## C10, second half -/

theorem C10_poly_extreme_vertex (s : Poly2d K) (h0 : (0 : V2 K) ∈ Region.pts s) (d : V2 K) :
    extremePoint s d ∈ s.points := (C08_extreme_point_poly s h0 d).2

/-! ## C09 -/

/-- the default `extreme_point_t` under a similarity -/
theorem extremePointTDefault_spec {S T : Type} [Region S K] [ExtremePoint2d S K]
    [Transformation2d T K] (sh : S) (t : T) (s : K) (hs : 0 ≤ s) (ht : Similarity t s) (d : V2 K)
    (h : IsExtreme (Region.pts sh) (unapplyNormal t d) (extremePoint sh (unapplyNormal t d))) :
    IsExtreme (placed t sh) d (extremePointTDefault sh t d) := by
  constructor
  · exact ⟨_, h.1, rfl⟩
  · rintro p ⟨q, hq, rfl⟩
    show d.dot (apply t q) ≤ d.dot (apply t (extremePoint sh (unapplyNormal t d)))
    rw [ht.dot_apply, ht.dot_apply]
    have := mul_le_mul_of_nonneg_left (h.2 q hq) hs
    linarith

theorem C09_collider_extreme_box {T : Type} [Transformation2d T K] (c : Collider2d (Box2d K) T)
    (s : K) (hs : 0 ≤ s) (ht : Similarity c.transform s)
    (hb : 0 ≤ c.shape.halfsize.x ∧ 0 ≤ c.shape.halfsize.y) (d : V2 K) :
    IsExtreme c.region d (extremePoint c d) :=
  extremePointTDefault_spec c.shape c.transform s hs ht d (C08_extreme_point_box _ hb _)

theorem C09_collider_extreme_poly {T : Type} [Transformation2d T K] (c : Collider2d (Poly2d K) T)
    (s : K) (hs : 0 ≤ s) (ht : Similarity c.transform s)
    (h0 : (0 : V2 K) ∈ Region.pts c.shape) (d : V2 K) :
    IsExtreme c.region d (extremePoint c d) :=
  extremePointTDefault_spec c.shape c.transform s hs ht d (C08_extreme_point_poly _ h0 _).1

theorem C09_collider_extreme_shape2d [ExactSqrt K] {T : Type} [Transformation2d T K]
    (c : Collider2d (Shape2d K) T) (s : K) (hs : 0 ≤ s) (ht : Similarity c.transform s)
    (hv : c.shape.Valid) (d : V2 K) : IsExtreme c.region d (extremePoint c d) :=
  extremePointTDefault_spec c.shape c.transform s hs ht d (C08_extreme_point_shape2d _ hv _)

theorem C09_collider_extreme_point {T : Type} [Transformation2d T K] (c : Collider2d (Point K) T)
    (s : K) (ht : Similarity c.transform s) (d : V2 K) :
    IsExtreme c.region d (extremePoint c d) := by
  constructor
  · exact ⟨0, rfl, ht.origin⟩
  · rintro p ⟨q, hq, rfl⟩
    rw [show q = 0 from hq, ← ht.origin]; exact le_refl _

theorem C09_collider_extreme_ball [ExactSqrt K] {T : Type} [Transformation2d T K]
    (c : Collider2d (Ball K) T) (s : K) (hs : 0 ≤ s) (ht : Similarity c.transform s)
    (hr : 0 ≤ c.shape.radius) (d : V2 K) : IsExtreme c.region d (extremePoint c d) := by
  have he : extremePoint c d =
      applyOrigin c.transform + V2.scale s (extremePoint c.shape d) := by
    show applyOrigin c.transform + V2.scale (scalingFactor c.transform) _ = _
    rw [ht.factor]
  have hx := C08_extreme_point_ball c.shape hr d
  constructor
  · refine ⟨unapplyNormal c.transform (extremePoint c.shape d), ⟨hr, ?_⟩, ?_⟩
    · rw [ht.lengthSq_unapplyNormal]; exact hx.1.2
    · rw [he, ht.apply_eq, ht.normal.2.1]
  · rintro p ⟨q, ⟨_, hq⟩, rfl⟩
    rw [he, ht.apply_eq, dot_add, dot_add, dot_scale, dot_scale]
    have h1 := hx.2 (applyNormal c.transform q) ⟨hr, by rw [ht.lengthSq_applyNormal]; exact hq⟩
    have := mul_le_mul_of_nonneg_left h1 hs
    linarith

/-- boxes are also right under non-uniform (non-negative) scaling -/
theorem C09_collider_extreme_box_nonuniform (c : Collider2d (Box2d K) (Transform2d K))
    (hs : 0 ≤ c.transform.scale.x ∧ 0 ≤ c.transform.scale.y)
    (hb : 0 ≤ c.shape.halfsize.x ∧ 0 ≤ c.shape.halfsize.y) (d : V2 K) :
    IsExtreme c.region d (extremePoint c d) := by
  have hloc := C08_extreme_point_box c.shape hb (unapplyNormal c.transform d)
  have hdot : ∀ p, d.dot (apply c.transform p) = d.dot c.transform.pos +
      (unapplyNormal c.transform d).dot (V2.mulV c.transform.scale p) := by
    intro p
    simp only [apply, unapplyNormal, Rotor2d.rotate, Rotor2d.inverse, dot_def, add_x, add_y]; ring
  constructor
  · exact ⟨_, hloc.1, rfl⟩
  · rintro p ⟨q, hq, rfl⟩
    show d.dot (apply c.transform q) ≤
      d.dot (apply c.transform (extremePoint c.shape (unapplyNormal c.transform d)))
    rw [hdot, hdot]
    set n := unapplyNormal c.transform d
    have key : ∀ u x h sc : K, 0 ≤ sc → |x| ≤ h →
        u * (sc * x) ≤ u * (sc * (FloatExtra.signum u * h)) := by
      intro u x h sc hsc hxh
      have : u * x ≤ u * (FloatExtra.signum u * h) := by
        calc u * x ≤ |u * x| := le_abs_self _
          _ = |u| * |x| := abs_mul _ _
          _ ≤ |u| * h := mul_le_mul_of_nonneg_left hxh (abs_nonneg _)
          _ = u * (FloatExtra.signum u * h) := by rw [← signum_mul_self]; ring
      nlinarith [mul_le_mul_of_nonneg_left this hsc]
    have h1 := key n.x q.x c.shape.halfsize.x c.transform.scale.x hs.1 hq.1
    have h2 := key n.y q.y c.shape.halfsize.y c.transform.scale.y hs.2 hq.2
    have : n.dot (V2.mulV c.transform.scale q) ≤
        n.dot (V2.mulV c.transform.scale (extremePoint c.shape n)) := add_le_add h1 h2
    linarith

/-- Finding: with a non-uniform scale a polygon collider's extreme point is not farthest. -/
theorem C09_collider_extreme_poly_nonuniform_finding :
    ∃ (c : Collider2d (Poly2d K) (Transform2d K)) (d : V2 K),
      (0 : V2 K) ∈ Region.pts c.shape ∧ c.transform.rot.IsUnit ∧
      0 < c.transform.scale.x ∧ 0 < c.transform.scale.y ∧
      ¬ IsExtreme c.region d (extremePoint c d) := by
  refine ⟨⟨⟨[⟨2, 0⟩, ⟨0, 1⟩, ⟨-2, -1⟩]⟩, ⟨0, ⟨⟨1, 0⟩⟩, ⟨1, 10⟩⟩⟩, ⟨1, 1⟩, ?_, ?_, ?_, ?_, ?_⟩
  · have hc := convex_convexHull K {p | p ∈ ([⟨2, 0⟩, ⟨0, 1⟩, ⟨-2, -1⟩] : List (V2 K))}
    have h1 : (⟨2, 0⟩ : V2 K) ∈ convexHull K {p | p ∈ ([⟨2, 0⟩, ⟨0, 1⟩, ⟨-2, -1⟩] : List (V2 K))} :=
      subset_convexHull K _ (by simp)
    have h2 : (⟨0, 1⟩ : V2 K) ∈ convexHull K {p | p ∈ ([⟨2, 0⟩, ⟨0, 1⟩, ⟨-2, -1⟩] : List (V2 K))} :=
      subset_convexHull K _ (by simp)
    have h3 : (⟨-2, -1⟩ : V2 K) ∈
        convexHull K {p | p ∈ ([⟨2, 0⟩, ⟨0, 1⟩, ⟨-2, -1⟩] : List (V2 K))} :=
      subset_convexHull K _ (by simp)
    have h4 := hc h2 h3 (a := 1 / 2) (b := 1 / 2) (by norm_num) (by norm_num) (by norm_num)
    have h5 := hc h1 h4 (a := 1 / 3) (b := 2 / 3) (by norm_num) (by norm_num) (by norm_num)
    have e : (0 : V2 K) = (1 / 3 : K) • (⟨2, 0⟩ : V2 K) +
        (2 / 3 : K) • ((1 / 2 : K) • (⟨0, 1⟩ : V2 K) + (1 / 2 : K) • (⟨-2, -1⟩ : V2 K)) := by
      ext <;> simp; norm_num
    rw [e]; exact h5
  · simp [Rotor2d.IsUnit]
  · simp
  · simp
  · intro h
    have hv := h.2 (apply (⟨0, ⟨⟨1, 0⟩⟩, ⟨1, 10⟩⟩ : Transform2d K) ⟨0, 1⟩)
      ⟨⟨0, 1⟩, subset_convexHull K _ (by simp), rfl⟩
    have he : extremePoint (⟨⟨[⟨2, 0⟩, ⟨0, 1⟩, ⟨-2, -1⟩]⟩, ⟨0, ⟨⟨1, 0⟩⟩, ⟨1, 10⟩⟩⟩ :
        Collider2d (Poly2d K) (Transform2d K)) ⟨1, 1⟩ = ⟨2, 0⟩ := by
      have hl : unapplyNormal (⟨0, ⟨⟨1, 0⟩⟩, ⟨1, 10⟩⟩ : Transform2d K) ⟨1, 1⟩ = ⟨1, 1⟩ := by
        ext <;> simp [unapplyNormal, Rotor2d.inverse, Rotor2d.rotate]
      show apply (⟨0, ⟨⟨1, 0⟩⟩, ⟨1, 10⟩⟩ : Transform2d K)
        (extremePoint (⟨[⟨2, 0⟩, ⟨0, 1⟩, ⟨-2, -1⟩]⟩ : Poly2d K)
          (unapplyNormal (⟨0, ⟨⟨1, 0⟩⟩, ⟨1, 10⟩⟩ : Transform2d K) ⟨1, 1⟩)) = _
      rw [hl]
      have : extremePoint (⟨[⟨2, 0⟩, ⟨0, 1⟩, ⟨-2, -1⟩]⟩ : Poly2d K) ⟨1, 1⟩ = ⟨2, 0⟩ := by
        show (List.foldl (Poly2d.extremeStep ⟨1, 1⟩) (FloatExtra.f32Min, 0) _).2 = _
        simp only [List.foldl_cons, List.foldl_nil, Poly2d.extremeStep, dot_def,
          ExactFloat.f32Min_eq]
        norm_num
      rw [this]
      ext <;> simp [apply, Rotor2d.rotate]
    rw [he] at hv
    simp [apply, Rotor2d.rotate, dot_def] at hv
    norm_num at hv

/-! ## C11 -/

/-- the configuration-space difference of two sets -/
def minkDiff (A B : Set (V2 K)) : Set (V2 K) := {x | ∃ a ∈ A, ∃ b ∈ B, x = a - b}

/-- what the pair theorems need of a shape: its `extreme_point` is exact in every direction -/
def ExactSupport {S : Type} [Region S K] [ExtremePoint2d S K] (s : S) : Prop :=
  ∀ d : V2 K, IsExtreme (Region.pts s) d (extremePoint s d)

/-- The support point used by all Minkowski based queries is exact, for every pair of shapes with
exact extreme points and every similarity of non-negative ratio. -/
theorem C11_minkowski_support {A B T : Type} [Region A K] [Region B K] [ExtremePoint2d A K]
    [ExtremePoint2d B K] [Transformation2d T K] (m : LocalMinkowskiDiff2d A B T) (s : K)
    (hs : 0 ≤ s) (ht : Similarity m.rel s) (ha : ExactSupport (K := K) m.a)
    (hb : ExactSupport (K := K) m.b) (d : V2 K) :
    IsExtreme (minkDiff (Region.pts m.a) (placed m.rel m.b)) d (extremePoint m d) := by
  have h2 := extremePointTDefault_spec m.b m.rel s hs ht (-d) (hb _)
  constructor
  · exact ⟨_, (ha d).1, _, h2.1, rfl⟩
  · rintro x ⟨p, hp, q, hq, rfl⟩
    have h3 := h2.2 q hq
    have h4 := (ha d).2 p hp
    show d.dot (p - q) ≤ d.dot (extremePoint m.a d - extremePointTDefault m.b m.rel (-d))
    rw [dot_sub, dot_sub]
    rw [neg_dot, neg_dot] at h3
    linarith

/-- which shapes have exact support -/
theorem C11_exact_support_shapes [ExactSqrt K] :
    (∀ b : Ball K, 0 ≤ b.radius → ExactSupport (K := K) b) ∧
    (∀ b : Box2d K, 0 ≤ b.halfsize.x ∧ 0 ≤ b.halfsize.y → ExactSupport (K := K) b) ∧
    (∀ p : Poly2d K, (0 : V2 K) ∈ Region.pts p → ExactSupport (K := K) p) ∧
    (∀ s : Shape2d K, s.Valid → ExactSupport (K := K) s) :=
  ⟨fun b hb d => C08_extreme_point_ball b hb d, fun b hb d => C08_extreme_point_box b hb d,
    fun p hp d => (C08_extreme_point_poly p hp d).1, fun s hs d => C08_extreme_point_shape2d s hs d⟩

/-! ## C12, C13 -/

/-- `bb` is the smallest origin-centred box (of non-negative size) containing `S` -/
def IsLeastBox (S : Set (V2 K)) (bb : Box2d K) : Prop :=
  S ⊆ Region.pts bb ∧ ∀ b' : Box2d K, 0 ≤ b'.halfsize.x → 0 ≤ b'.halfsize.y →
    S ⊆ Region.pts b' → bb.halfsize.x ≤ b'.halfsize.x ∧ bb.halfsize.y ≤ b'.halfsize.y

theorem C12_bounding_box_point (p : Point K) : IsLeastBox (Region.pts p) p.boundingBox := by
  constructor
  · intro q hq; rw [show q = 0 from hq]; simp [Region.pts, Point.boundingBox]
  · intro b' h1 h2 _; exact ⟨h1, h2⟩

theorem C12_bounding_box_box (b : Box2d K) (hb : 0 ≤ b.halfsize.x ∧ 0 ≤ b.halfsize.y) :
    IsLeastBox (Region.pts b) b.boundingBox := by
  constructor
  · exact fun _ h => h
  · intro b' _ _ hsub
    have := hsub (show b.halfsize ∈ Region.pts b from
      ⟨by rw [abs_of_nonneg hb.1], by rw [abs_of_nonneg hb.2]⟩)
    exact ⟨(le_abs_self _).trans this.1, (le_abs_self _).trans this.2⟩

theorem C12_bounding_box_ball (b : Ball K) (hb : 0 ≤ b.radius) :
    IsLeastBox (Region.pts b) b.boundingBox := by
  constructor
  · rintro p ⟨_, hp⟩
    rw [lengthSq_def] at hp
    constructor
    · show |p.x| ≤ b.radius
      exact abs_le_of_sq_le_sq (by nlinarith [mul_self_nonneg p.y]) hb
    · show |p.y| ≤ b.radius
      exact abs_le_of_sq_le_sq (by nlinarith [mul_self_nonneg p.x]) hb
  · intro b' _ _ hsub
    have h1 := hsub (show (⟨b.radius, 0⟩ : V2 K) ∈ Region.pts b from
      ⟨hb, by simp [lengthSq_def, sq]⟩)
    have h2 := hsub (show (⟨0, b.radius⟩ : V2 K) ∈ Region.pts b from
      ⟨hb, by simp [lengthSq_def, sq]⟩)
    exact ⟨(le_abs_self _).trans h1.1, (le_abs_self _).trans h2.2⟩

theorem C12_bounding_box_rounded_box (r : RoundedBox2d K)
    (hb : 0 ≤ r.halfsize.x ∧ 0 ≤ r.halfsize.y) (hr : 0 ≤ r.radius) :
    IsLeastBox (Region.pts r) r.boundingBox := by
  constructor
  · rintro p ⟨_, q, ⟨hqx, hqy⟩, hpq⟩
    rw [lengthSq_def] at hpq
    have h1 : |(p - q).x| ≤ r.radius :=
      abs_le_of_sq_le_sq (by nlinarith [mul_self_nonneg (p - q).y]) hr
    have h2 : |(p - q).y| ≤ r.radius :=
      abs_le_of_sq_le_sq (by nlinarith [mul_self_nonneg (p - q).x]) hr
    simp only [sub_x, sub_y] at h1 h2
    simp only at hqx hqy
    rw [abs_le] at h1 h2 hqx hqy
    constructor
    · show |p.x| ≤ r.halfsize.x + r.radius
      rw [abs_le]; constructor <;> linarith [h1.1, h1.2, hqx.1, hqx.2]
    · show |p.y| ≤ r.halfsize.y + r.radius
      rw [abs_le]; constructor <;> linarith [h2.1, h2.2, hqy.1, hqy.2]
  · intro b' _ _ hsub
    have h1 := hsub (show (⟨r.halfsize.x + r.radius, 0⟩ : V2 K) ∈ Region.pts r from
      ⟨hr, ⟨r.halfsize.x, 0⟩, ⟨by simp [abs_of_nonneg hb.1], by simpa using hb.2⟩, by
        simp [lengthSq_def, sq]⟩)
    have h2 := hsub (show (⟨0, r.halfsize.y + r.radius⟩ : V2 K) ∈ Region.pts r from
      ⟨hr, ⟨0, r.halfsize.y⟩, ⟨by simpa using hb.1, by simp [abs_of_nonneg hb.2]⟩, by
        simp [lengthSq_def, sq]⟩)
    exact ⟨(le_abs_self _).trans h1.1, (le_abs_self _).trans h2.2⟩

/-- `cover`: the new box contains the point and all previous points and is the smallest such box -/
theorem C13_cover (b : Box2d K) (p : V2 K) :
    p ∈ Region.pts (b.cover p) ∧ Region.pts b ⊆ Region.pts (b.cover p) ∧
    (∀ b' : Box2d K, b.halfsize.x ≤ b'.halfsize.x → b.halfsize.y ≤ b'.halfsize.y →
      p ∈ Region.pts b' → (b.cover p).halfsize.x ≤ b'.halfsize.x ∧
        (b.cover p).halfsize.y ≤ b'.halfsize.y) := by
  have hx : (b.cover p).halfsize.x = max b.halfsize.x |p.x| := by
    simp [Box2d.cover, ExactFloat.fmax_eq, ExactFloat.abs_eq]
  have hy : (b.cover p).halfsize.y = max b.halfsize.y |p.y| := by
    simp [Box2d.cover, ExactFloat.fmax_eq, ExactFloat.abs_eq]
  refine ⟨⟨?_, ?_⟩, ?_, ?_⟩
  · rw [hx]; exact le_max_right _ _
  · rw [hy]; exact le_max_right _ _
  · rintro q ⟨h1, h2⟩
    exact ⟨by rw [hx]; exact h1.trans (le_max_left _ _), by rw [hy]; exact h2.trans (le_max_left _ _)⟩
  · intro b' h1 h2 h3
    rw [hx, hy]
    exact ⟨max_le h1 h3.1, max_le h2 h3.2⟩

/-- covering is idempotent and independent of the order of points -/
theorem C13_cover_algebra (b : Box2d K) (p q : V2 K) :
    (b.cover p).cover p = b.cover p ∧ (b.cover p).cover q = (b.cover q).cover p := by
  constructor <;> ext <;>
    simp only [Box2d.cover, ExactFloat.fmax_eq, ExactFloat.abs_eq]
  · rw [max_assoc, max_self]
  · rw [max_assoc, max_self]
  · rw [max_assoc, max_assoc, max_comm |p.x|]
  · rw [max_assoc, max_assoc, max_comm |p.y|]

theorem cover_fold (l : List (V2 K)) (b : Box2d K) :
    (∀ p ∈ l, p ∈ Region.pts (l.foldl Box2d.cover b)) ∧
    b.halfsize.x ≤ (l.foldl Box2d.cover b).halfsize.x ∧
    b.halfsize.y ≤ (l.foldl Box2d.cover b).halfsize.y ∧
    (∀ b' : Box2d K, b.halfsize.x ≤ b'.halfsize.x → b.halfsize.y ≤ b'.halfsize.y →
      (∀ p ∈ l, p ∈ Region.pts b') → (l.foldl Box2d.cover b).halfsize.x ≤ b'.halfsize.x ∧
        (l.foldl Box2d.cover b).halfsize.y ≤ b'.halfsize.y) := by
  induction l generalizing b with
  | nil => exact ⟨by simp, le_refl _, le_refl _, fun b' h1 h2 _ => ⟨h1, h2⟩⟩
  | cons p l ih =>
    rw [List.foldl_cons]
    obtain ⟨h1, h2, h3, h4⟩ := ih (b.cover p)
    obtain ⟨c1, c2, c3⟩ := C13_cover b p
    have hx : b.halfsize.x ≤ (b.cover p).halfsize.x := by
      simp only [Box2d.cover, ExactFloat.fmax_eq]; exact le_max_left _ _
    have hy : b.halfsize.y ≤ (b.cover p).halfsize.y := by
      simp only [Box2d.cover, ExactFloat.fmax_eq]; exact le_max_left _ _
    refine ⟨?_, hx.trans h2, hy.trans h3, ?_⟩
    · intro q hq
      rcases List.mem_cons.1 hq with rfl | hq
      · exact ⟨c1.1.trans h2, c1.2.trans h3⟩
      · exact h1 q hq
    · intro b' hb1 hb2 hall
      have := c3 b' hb1 hb2 (hall p (by simp))
      exact h4 b' this.1 this.2 (fun q hq => hall q (List.mem_cons_of_mem _ hq))

theorem C12_bounding_box_poly (s : Poly2d K) : IsLeastBox (Region.pts s) s.boundingBox := by
  obtain ⟨h1, h2, h3, h4⟩ := cover_fold s.points (⟨⟨0, 0⟩⟩ : Box2d K)
  constructor
  · exact convexHull_min (show {p | p ∈ s.points} ⊆ _ from h1) (convex_box _)
  · intro b' hb1 hb2 hsub
    exact h4 b' hb1 hb2 (fun p hp => hsub (subset_convexHull K _ hp))

/-! ## C14 -/

/-- `strict_check` passes only if every vertex `p` is a farthest point of the polygon in its own
direction: the polygon lies behind the line through `p` perpendicular to `p`. -/
theorem C14_strict_check_sound (s : Poly2d K) (h : s.strictCheck = true) :
    ∀ p ∈ s.points, ∀ q ∈ Region.pts s, p.dot q ≤ p.dot p := by
  intro p hp q hq
  unfold Poly2d.strictCheck at h
  rw [List.all_eq_true] at h
  have hp' := h p hp
  unfold V2.feq at hp'
  rw [ExactFloat.feq_eq, ExactFloat.feq_eq, Bool.and_eq_true, decide_eq_true_eq,
    decide_eq_true_eq] at hp'
  have he : extremePoint s p = p := V2.ext hp'.1 hp'.2
  have := (poly_extreme_of_score s p ⟨p, hp, lt_of_lt_of_le f32Min_neg (lengthSq_nonneg p)⟩).2.2 q hq
  rwa [he] at this

/-- conversely it passes whenever every vertex is the unique farthest vertex in its direction -/
theorem C14_strict_check_complete (s : Poly2d K)
    (h : ∀ p ∈ s.points, ∀ q ∈ s.points, q ≠ p → p.dot q < p.dot p) : s.strictCheck = true := by
  unfold Poly2d.strictCheck
  rw [List.all_eq_true]
  intro p hp
  obtain ⟨h1, h2⟩ := poly_extreme_of_score s p
    ⟨p, hp, lt_of_lt_of_le f32Min_neg (lengthSq_nonneg p)⟩
  have he : extremePoint s p = p := by
    by_contra hne
    exact absurd (h p hp _ h1 hne) (not_lt.2 (h2.2 p (subset_convexHull K _ hp)))
  rw [he]
  unfold V2.feq
  simp [ExactFloat.feq_eq]

/-- Finding: the documentation says the origin must be strictly inside to pass; but the triangle
(1,0), (0,1), (0.8,0.7), which does not contain the origin at all, passes. -/
theorem C14_strict_check_origin_finding :
    ∃ s : Poly2d K, s.strictCheck = true ∧ s.points.length = 3 ∧ (0 : V2 K) ∉ Region.pts s := by
  refine ⟨⟨[⟨1, 0⟩, ⟨0, 1⟩, ⟨4 / 5, 7 / 10⟩]⟩, ?_, rfl, ?_⟩
  · apply C14_strict_check_complete
    simp only [List.mem_cons, List.not_mem_nil, or_false]
    rintro p (rfl | rfl | rfl) q (rfl | rfl | rfl) hne <;>
      first
        | exact absurd rfl hne
        | (simp only [dot_def]; norm_num)
  · intro h
    obtain ⟨p, hp, hle⟩ := exists_score_of_origin h (⟨-1, -1⟩ : V2 K)
    simp only [List.mem_cons, List.not_mem_nil, or_false] at hp
    rcases hp with rfl | rfl | rfl <;> norm_num [dot_def] at hle

/-- Finding: it does not certify convex position either: a vertex in the middle of an edge passes
if it is listed before the edge's end points. -/
theorem C14_strict_check_convex_finding :
    ∃ (p a b : V2 K) (rest : List (V2 K)), (⟨p :: a :: b :: rest⟩ : Poly2d K).strictCheck = true ∧
      p ∈ convexHull K {q | q ∈ a :: b :: rest} ∧ p ∉ a :: b :: rest := by
  refine ⟨⟨1, 0⟩, ⟨1, 1⟩, ⟨1, -1⟩, [⟨-1, 0⟩], ?_, ?_, ?_⟩
  · unfold Poly2d.strictCheck
    have key : ∀ d : V2 K, extremePoint (⟨[⟨1, 0⟩, ⟨1, 1⟩, ⟨1, -1⟩, ⟨-1, 0⟩]⟩ : Poly2d K) d =
      (([⟨1, 0⟩, ⟨1, 1⟩, ⟨1, -1⟩, ⟨-1, 0⟩] : List (V2 K)).foldl (Poly2d.extremeStep d)
        (FloatExtra.f32Min, 0)).2 := fun d => rfl
    simp only [key, List.all_cons, List.all_nil, List.foldl_cons, List.foldl_nil,
      Poly2d.extremeStep, dot_def, ExactFloat.f32Min_eq, V2.feq, ExactFloat.feq_eq]
    norm_num
  · have hc := convex_convexHull K {q | q ∈ ([⟨1, 1⟩, ⟨1, -1⟩, ⟨-1, 0⟩] : List (V2 K))}
    have h1 : (⟨1, 1⟩ : V2 K) ∈ convexHull K {q | q ∈ ([⟨1, 1⟩, ⟨1, -1⟩, ⟨-1, 0⟩] : List (V2 K))} :=
      subset_convexHull K _ (by simp)
    have h2 : (⟨1, -1⟩ : V2 K) ∈ convexHull K {q | q ∈ ([⟨1, 1⟩, ⟨1, -1⟩, ⟨-1, 0⟩] : List (V2 K))} :=
      subset_convexHull K _ (by simp)
    have h4 := hc h1 h2 (a := 1 / 2) (b := 1 / 2) (by norm_num) (by norm_num) (by norm_num)
    convert h4 using 1
    ext <;> simp; norm_num
  · simp [V2.ext_iff]; norm_num

/-! ## C15 -/

theorem C15_poly_from_box (b : Box2d K) (hb : 0 ≤ b.halfsize.x ∧ 0 ≤ b.halfsize.y) :
    Region.pts (Poly2d.ofBox b) = Region.pts b ∧ (Poly2d.ofBox b).boundingBox = b ∧
    ∀ d : V2 K, d.dot (extremePoint (Poly2d.ofBox b) d) = d.dot (extremePoint b d) := by
  obtain ⟨⟨hx, hy⟩⟩ := b
  obtain ⟨h1, h2⟩ := hb
  simp only at h1 h2
  have hpts : Region.pts (Poly2d.ofBox (⟨⟨hx, hy⟩⟩ : Box2d K)) = Region.pts (⟨⟨hx, hy⟩⟩ : Box2d K) := by
    apply Set.Subset.antisymm
    · refine convexHull_min ?_ (convex_box _)
      intro p hp
      simp only [Poly2d.ofBox, List.mem_cons, List.not_mem_nil, or_false, Set.mem_ofPred_eq] at hp
      rcases hp with rfl | rfl | rfl | rfl <;>
        simp [Region.pts, abs_of_nonneg h1, abs_of_nonneg h2]
    · rintro p ⟨hpx, hpy⟩
      simp only at hpx hpy
      have hc := convex_convexHull K {q | q ∈ (Poly2d.ofBox (⟨⟨hx, hy⟩⟩ : Box2d K)).points}
      have mem : ∀ q, q ∈ (Poly2d.ofBox (⟨⟨hx, hy⟩⟩ : Box2d K)).points →
          q ∈ Region.pts (Poly2d.ofBox (⟨⟨hx, hy⟩⟩ : Box2d K)) := fun q hq => subset_convexHull K _ hq
      have m1 := mem ⟨-hx, -hy⟩ (by simp [Poly2d.ofBox, V2.ext_iff])
      have m2 := mem ⟨hx, hy⟩ (by simp [Poly2d.ofBox, V2.ext_iff])
      have m3 := mem ⟨-hx, hy⟩ (by simp [Poly2d.ofBox, V2.ext_iff])
      have m4 := mem ⟨hx, -hy⟩ (by simp [Poly2d.ofBox, V2.ext_iff])
      -- interpolation weights
      have wt : ∀ x h : K, 0 ≤ h → |x| ≤ h → ∃ a b : K, 0 ≤ a ∧ 0 ≤ b ∧ a + b = 1 ∧
          a * -h + b * h = x := by
        intro x h hh hxh
        rw [abs_le] at hxh
        rcases hh.lt_or_eq with hh | hh
        · refine ⟨(h - x) / (2 * h), (h + x) / (2 * h), ?_, ?_, ?_, ?_⟩
          · exact div_nonneg (by linarith) (by linarith)
          · exact div_nonneg (by linarith) (by linarith)
          · field_simp; ring
          · field_simp; ring
        · refine ⟨1, 0, by norm_num, by norm_num, by norm_num, ?_⟩
          rw [← hh] at hxh ⊢
          have : x = 0 := le_antisymm hxh.2 (by linarith [hxh.1])
          rw [this]; ring
      obtain ⟨a, b, ha, hb, hab, hax⟩ := wt p.x hx h1 hpx
      obtain ⟨c, d, hc0, hd0, hcd, hcy⟩ := wt p.y hy h2 hpy
      have n1 := hc m1 m4 ha hb hab
      have n2 := hc m3 m2 ha hb hab
      have n3 := hc n1 n2 hc0 hd0 hcd
      have e : p = c • (a • (⟨-hx, -hy⟩ : V2 K) + b • (⟨hx, -hy⟩ : V2 K)) +
          d • (a • (⟨-hx, hy⟩ : V2 K) + b • (⟨hx, hy⟩ : V2 K)) := by
        ext
        · simp only [add_x, smul_x]
          rw [hax, ← add_mul, hcd, one_mul]
        · simp only [add_y, smul_y]
          rw [← add_mul, ← add_mul, hab, one_mul, one_mul, hcy]
      rw [e]; exact n3
  refine ⟨hpts, ?_, ?_⟩
  · have e := C12_bounding_box_poly (Poly2d.ofBox (⟨⟨hx, hy⟩⟩ : Box2d K))
    have e' := C12_bounding_box_box (⟨⟨hx, hy⟩⟩ : Box2d K) ⟨h1, h2⟩
    rw [hpts] at e
    have l1 := e.2 ⟨⟨hx, hy⟩⟩ h1 h2 e'.1
    have hbb := cover_fold (Poly2d.ofBox (⟨⟨hx, hy⟩⟩ : Box2d K)).points (⟨⟨0, 0⟩⟩ : Box2d K)
    have l2 := e'.2 (Poly2d.ofBox (⟨⟨hx, hy⟩⟩ : Box2d K)).boundingBox hbb.2.1 hbb.2.2.1 e.1
    ext
    · exact le_antisymm l1.1 l2.1
    · exact le_antisymm l1.2 l2.2
  · intro d
    have h0 : (0 : V2 K) ∈ Region.pts (Poly2d.ofBox (⟨⟨hx, hy⟩⟩ : Box2d K)) := by
      rw [hpts]; simpa [Region.pts] using ⟨h1, h2⟩
    have e1 := (C08_extreme_point_poly _ h0 d).1
    have e2 := C08_extreme_point_box (⟨⟨hx, hy⟩⟩ : Box2d K) ⟨h1, h2⟩ d
    rw [hpts] at e1
    exact le_antisymm (e2.2 _ e1.1) (e1.2 _ e2.1)

end
end

/-! ## C16 (over the reals) -/

section
variable [FloatExtra ℝ] [ExactFloat ℝ] [RealTrig]

theorem regularAngle_eq (n i : Nat) :
    (Poly2d.regularAngle n i : ℝ) = 2 * Real.pi * i / n := by
  simp [Poly2d.regularAngle, ExactFloat.two_eq, RealTrig.pi_eq, ExactFloat.ofInt_eq]

/-- rotation by the angle `θ` (independent of the crate's rotors) -/
noncomputable def rot (θ : ℝ) (v : V2 ℝ) : V2 ℝ :=
  ⟨Real.cos θ * v.x - Real.sin θ * v.y, Real.sin θ * v.x + Real.cos θ * v.y⟩

/-- `Poly2d::regular(n, r)`: `n` vertices at distance `|r|`, the first is `(r, 0)`, and rotating by
`2π/n` maps each vertex to the next one (cyclically). -/
theorem C16_regular (n : Nat) (r : ℝ) (hn : 0 < n) :
    (Poly2d.regular n r).points.length = n ∧
    (Poly2d.regular n r).points[0]? = some ⟨r, 0⟩ ∧
    (∀ p ∈ (Poly2d.regular n r).points, lengthSq p = r ^ 2) ∧
    (∀ i, i < n → ∃ p q, (Poly2d.regular n r).points[i]? = some p ∧
      (Poly2d.regular n r).points[(i + 1) % n]? = some q ∧ rot (2 * Real.pi / n) p = q) := by
  have hget : ∀ i, i < n → (Poly2d.regular n r).points[i]? =
      some ⟨r * Real.cos (2 * Real.pi * i / n), r * Real.sin (2 * Real.pi * i / n)⟩ := by
    intro i hi
    simp only [Poly2d.regular, List.getElem?_map, List.getElem?_range hi, Option.map_some,
      regularAngle_eq, RealTrig.cos_eq, RealTrig.sin_eq]
    rfl
  have hn' : (n : ℝ) ≠ 0 := by exact_mod_cast hn.ne'
  refine ⟨by simp [Poly2d.regular], ?_, ?_, ?_⟩
  · rw [hget 0 hn]; simp
  · intro p hp
    simp only [Poly2d.regular, List.mem_map] at hp
    obtain ⟨i, _, rfl⟩ := hp
    simp only [lengthSq_def, scale_x, scale_y, RealTrig.cos_eq, RealTrig.sin_eq]
    linear_combination r ^ 2 * Real.cos_sq_add_sin_sq (Poly2d.regularAngle n i)
  · intro i hi
    refine ⟨_, _, hget i hi, hget _ (Nat.mod_lt _ hn), ?_⟩
    have hang : ∃ k : ℕ, 2 * Real.pi / n + 2 * Real.pi * i / n =
        2 * Real.pi * ((i + 1) % n : ℕ) / n + k * (2 * Real.pi) := by
      refine ⟨(i + 1) / n, ?_⟩
      have h := Nat.mod_add_div (i + 1) n
      have h' : (((i + 1) % n : ℕ) : ℝ) + n * ((i + 1) / n : ℕ) = i + 1 := by exact_mod_cast h
      field_simp
      linear_combination (-1) * h'
    obtain ⟨k, hk⟩ := hang
    have hc : Real.cos (2 * Real.pi / n + 2 * Real.pi * i / n) =
        Real.cos (2 * Real.pi * ((i + 1) % n : ℕ) / n) := by
      rw [hk]; exact Real.cos_add_nat_mul_two_pi _ _
    have hs : Real.sin (2 * Real.pi / n + 2 * Real.pi * i / n) =
        Real.sin (2 * Real.pi * ((i + 1) % n : ℕ) / n) := by
      rw [hk]; exact Real.sin_add_nat_mul_two_pi _ _
    rw [Real.cos_add] at hc
    rw [Real.sin_add] at hs
    ext
    · simp only [rot]; linear_combination r * hc
    · simp only [rot]; linear_combination r * hs

/-- the vertices of `regular_upright` are those of `regular` with the coordinates swapped -/
theorem regularUpright_eq (n : Nat) (r : ℝ) :
    (Poly2d.regularUpright n r).points = (Poly2d.regular n r).points.map fun p => ⟨p.y, p.x⟩ := by
  simp only [Poly2d.regularUpright, Poly2d.regular, List.map_map]
  rfl

/-- `Poly2d::regular_upright(n, r)`: the same with first vertex `(0, r)`, turning the other way. -/
theorem C16_regular_upright (n : Nat) (r : ℝ) (hn : 0 < n) :
    (Poly2d.regularUpright n r).points.length = n ∧
    (Poly2d.regularUpright n r).points[0]? = some ⟨0, r⟩ ∧
    (∀ p ∈ (Poly2d.regularUpright n r).points, lengthSq p = r ^ 2) ∧
    (∀ i, i < n → ∃ p q, (Poly2d.regularUpright n r).points[i]? = some p ∧
      (Poly2d.regularUpright n r).points[(i + 1) % n]? = some q ∧
      rot (-(2 * Real.pi / n)) p = q) := by
  obtain ⟨h1, h2, h3, h4⟩ := C16_regular n r hn
  rw [regularUpright_eq]
  refine ⟨by simpa using h1, by rw [List.getElem?_map, h2]; rfl, ?_, ?_⟩
  · intro p hp
    rw [List.mem_map] at hp
    obtain ⟨q, hq, rfl⟩ := hp
    rw [← h3 q hq]; simp only [lengthSq_def]; ring
  · intro i hi
    obtain ⟨p, q, hp, hq, hpq⟩ := h4 i hi
    refine ⟨_, _, by rw [List.getElem?_map, hp]; rfl, by rw [List.getElem?_map, hq]; rfl, ?_⟩
    rw [← hpq]
    ext <;> simp only [rot, Real.cos_neg, Real.sin_neg] <;> ring

/-- the sums of the cosines and sines of the `n` equally spaced angles vanish for `n ≥ 2` -/
theorem sum_regular (n : Nat) (hn : 1 < n) :
    (∑ i ∈ Finset.range n, Real.cos (2 * Real.pi * i / n)) = 0 ∧
    (∑ i ∈ Finset.range n, Real.sin (2 * Real.pi * i / n)) = 0 := by
  have h := (Complex.isPrimitiveRoot_exp n (by omega)).geom_sum_eq_zero hn
  have e : ∀ i ∈ Finset.range n, Complex.exp (2 * Real.pi * Complex.I / n) ^ i =
      (Real.cos (2 * Real.pi * i / n) : ℂ) + Real.sin (2 * Real.pi * i / n) * Complex.I := by
    intro i _
    rw [← Complex.exp_nat_mul, Complex.ofReal_cos, Complex.ofReal_sin, ← Complex.exp_mul_I]
    congr 1
    push_cast
    ring
  rw [Finset.sum_congr rfl e] at h
  constructor
  · have := congrArg Complex.re h
    simpa [Complex.re_sum, -Complex.ofReal_cos, -Complex.ofReal_sin] using this
  · have := congrArg Complex.im h
    simpa [Complex.im_sum, -Complex.ofReal_cos, -Complex.ofReal_sin] using this

theorem foldl_mem_origin (n : Nat) (hn : 1 < n) (f : Nat → V2 ℝ)
    (hx : ∑ i ∈ Finset.range n, (f i).x = 0) (hy : ∑ i ∈ Finset.range n, (f i).y = 0) :
    (0 : V2 ℝ) ∈ convexHull ℝ {p | p ∈ (List.range n).map f} := by
  have hc := convex_convexHull ℝ {p | p ∈ (List.range n).map f}
  have hn' : (n : ℝ) ≠ 0 := by exact_mod_cast (by omega : n ≠ 0)
  have := hc.sum_mem (t := Finset.range n) (w := fun _ => 1 / (n : ℝ)) (z := f)
    (fun _ _ => by positivity) (by simp [hn'])
    (fun i hi => subset_convexHull ℝ _ (List.mem_map.2 ⟨i, by simpa using hi, rfl⟩))
  have e : (0 : V2 ℝ) = ∑ i ∈ Finset.range n, (1 / (n : ℝ)) • f i := by
    have sx : ∀ m, (∑ i ∈ Finset.range m, (1 / (n : ℝ)) • f i).x =
        1 / (n : ℝ) * ∑ i ∈ Finset.range m, (f i).x := by
      intro m; induction m with
      | zero => simp
      | succ m ih => rw [Finset.sum_range_succ, Finset.sum_range_succ, add_x, ih, smul_x]; ring
    have sy : ∀ m, (∑ i ∈ Finset.range m, (1 / (n : ℝ)) • f i).y =
        1 / (n : ℝ) * ∑ i ∈ Finset.range m, (f i).y := by
      intro m; induction m with
      | zero => simp
      | succ m ih => rw [Finset.sum_range_succ, Finset.sum_range_succ, add_y, ih, smul_y]; ring
    ext
    · rw [sx, hx]; simp
    · rw [sy, hy]; simp
  rw [e]; exact this

/-- Regular polygons with at least two vertices contain the origin (so every theorem about
polygons containing the origin applies to them); the bounding square of side `2r` contains them. -/
theorem C16_regular_origin (n : Nat) (r : ℝ) (hn : 2 ≤ n) :
    (0 : V2 ℝ) ∈ Region.pts (Poly2d.regular n r) ∧
    (0 : V2 ℝ) ∈ Region.pts (Poly2d.regularUpright n r) := by
  obtain ⟨h1, h2⟩ := sum_regular n hn
  constructor
  · refine foldl_mem_origin n hn _ ?_ ?_ <;>
      simp only [scale_x, scale_y, RealTrig.cos_eq, RealTrig.sin_eq, regularAngle_eq,
        ← Finset.mul_sum, h1, h2, mul_zero]
  · refine foldl_mem_origin n hn _ ?_ ?_ <;>
      simp only [scale_x, scale_y, RealTrig.cos_eq, RealTrig.sin_eq, regularAngle_eq,
        ← Finset.mul_sum, h1, h2, mul_zero]

/-- consecutive edges of the regular polygon have equal length -/
theorem C16_regular_edges (n : Nat) (r : ℝ) (hn : 0 < n) (i j : Nat) (hi : i < n) (hj : j < n) :
    ∃ p q p' q' : V2 ℝ, (Poly2d.regular n r).points[i]? = some p ∧
      (Poly2d.regular n r).points[(i + 1) % n]? = some q ∧
      (Poly2d.regular n r).points[j]? = some p' ∧
      (Poly2d.regular n r).points[(j + 1) % n]? = some q' ∧
      lengthSq (q - p) = lengthSq (q' - p') := by
  obtain ⟨_, _, h3, h4⟩ := C16_regular n r hn
  obtain ⟨p, q, hp, hq, hpq⟩ := h4 i hi
  obtain ⟨p', q', hp', hq', hpq'⟩ := h4 j hj
  refine ⟨p, q, p', q', hp, hq, hp', hq', ?_⟩
  have e := h3 p (List.mem_of_getElem? hp)
  have e' := h3 p' (List.mem_of_getElem? hp')
  rw [← hpq, ← hpq']
  simp only [lengthSq_def, rot, sub_x, sub_y] at *
  linear_combination (Real.cos (2 * Real.pi / n) ^ 2 + Real.sin (2 * Real.pi / n) ^ 2
    - 2 * Real.cos (2 * Real.pi / n) + 1) * (e - e')

end

end Auburn
