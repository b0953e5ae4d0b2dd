import Verif.Lib.Fan
import Verif.Props.Rate
import Verif.Props.DistanceSafe
import Verif.Props.World

/-!
# C39, C42, C93: the number of corners of the two shapes added up (not multiplied) bounds the search

The extreme points of the difference of two polygons are met in the order of the directions around the
circle, where each step moves on one corner of one of the two polygons.  So there are at most `n + m` of
them, and the limits of 20 iterations are out of reach for `n + m ≤ 19` (collision search) and `n + m ≤ 22`
(expansion).
-/

set_option linter.unusedSectionVars false
set_option synthInstance.maxSize 1000

namespace Auburn

open V2 ExtremePoint2d Transformation2d Auburn.Invertible Composable

section
variable {K : Type} [Field K] [LinearOrder K] [IsStrictOrderedRing K] [FloatExtra K]
  [ExactFloat K]

/-! ## the specification: shapes with `n` corners -/

/-- the polygon contains its origin (as its documentation requires), and its vertices are not all on
one line unless it is a segment or a point -/
def Poly2d.Proper (p : Poly2d K) : Prop :=
  (0 : V2 K) ∈ Region.pts p ∧ (p.points.length ≤ 2 ∨
    ∀ d : V2 K, d ≠ 0 → ∃ u ∈ p.points, ∃ v ∈ p.points, d.dot u ≠ d.dot v)

/-- boxes, and polygons with an area or at most two vertices; no balls -/
def Shape2d.Proper : Shape2d K → Prop
  | .ball _ => False
  | .box b => 0 ≤ b.halfsize.x ∧ 0 ≤ b.halfsize.y
  | .poly p => p.Proper

/-- the number of vertices -/
def Shape2d.corners : Shape2d K → ℕ
  | .ball _ => 0
  | .box _ => 4
  | .poly p => p.points.length

/-! ## shapes with corners are fans -/

theorem signum_cone {x y s t : K} (hs : 0 < s) (ht : 0 < t)
    (h : (FloatExtra.signum x : K) = FloatExtra.signum y) :
    (FloatExtra.signum (s * x + t * y) : K) = FloatExtra.signum x := by
  have hp := fun x => ExactFloat.signum_pos (K := K) x
  have hn := fun x => ExactFloat.signum_neg (K := K) x
  rcases lt_trichotomy x 0 with hx | hx | hx
  · rw [hn x hx] at h ⊢
    rcases lt_trichotomy y 0 with hy | hy | hy
    · exact hn _ (by nlinarith)
    · subst hy
      rw [mul_zero, add_zero]; exact hn _ (by nlinarith)
    · rw [hp y hy] at h; norm_num at h
  · subst hx
    rw [mul_zero, zero_add]
    rcases lt_trichotomy y 0 with hy | hy | hy
    · rw [hn _ (mul_neg_of_pos_of_neg ht hy), h, hn y hy]
    · subst hy; rw [mul_zero]
    · rw [hp _ (mul_pos ht hy), h, hp y hy]
  · rw [hp x hx] at h ⊢
    rcases lt_trichotomy y 0 with hy | hy | hy
    · rw [hn y hy] at h; norm_num at h
    · subst hy
      rw [mul_zero, add_zero]; exact hp _ (by positivity)
    · exact hp _ (by positivity)

theorem signum_opp {x : K} (h : (FloatExtra.signum (-x) : K) = FloatExtra.signum x) : x = 0 := by
  rcases lt_trichotomy x 0 with hx | hx | hx
  · rw [ExactFloat.signum_neg x hx, ExactFloat.signum_pos _ (neg_pos.2 hx)] at h; norm_num at h
  · exact hx
  · rw [ExactFloat.signum_pos x hx, ExactFloat.signum_neg _ (neg_neg_of_pos hx)] at h; norm_num at h

/-- the signs of one sign agree with that of zero -/
theorem signum_side (x0 : K) (h0 : x0 ≠ 0) : (∀ x : K, 0 < x0 * x → (FloatExtra.signum x : K) = FloatExtra.signum (0 : K)) ∨
    (∀ x : K, x0 * x < 0 → (FloatExtra.signum x : K) = FloatExtra.signum (0 : K)) := by
  have hp := fun x => ExactFloat.signum_pos (K := K) x
  have hn := fun x => ExactFloat.signum_neg (K := K) x
  rcases ExactFloat.signum_zero (K := K) with h | h <;> rw [h] <;> rcases lt_or_gt_of_ne h0 with h1 | h1
  · exact Or.inr fun x hx => hp x (by by_contra hc; nlinarith [mul_nonneg_of_nonpos_of_nonpos h1.le (not_lt.1 hc)])
  · exact Or.inl fun x hx => hp x (pos_of_mul_pos_right hx h1.le)
  · exact Or.inl fun x hx => hn x (by by_contra hc; nlinarith [mul_nonpos_of_nonpos_of_nonneg h1.le (not_lt.1 hc)])
  · exact Or.inr fun x hx => hn x (by by_contra hc; nlinarith [mul_nonneg h1.le (not_lt.1 hc)])

theorem fan_box (b : Box2d K) : Fan (fun d : V2 K => (extremePoint b d : V2 K)) := by
  have e : ∀ d : V2 K, (extremePoint b d : V2 K) =
      ⟨FloatExtra.signum d.x * b.halfsize.x, FloatExtra.signum d.y * b.halfsize.y⟩ := fun d => rfl
  constructor
  · intro d e' s t _ _ hs ht h
    change (extremePoint b d : V2 K) = extremePoint b e' at h
    rw [e, e, V2.mk.injEq] at h
    show (extremePoint b (V2.scale s d + V2.scale t e') : V2 K) = extremePoint b d
    rw [e, e]
    simp only [add_x, add_y, scale_x, scale_y]
    have key : ∀ x y w : K, (FloatExtra.signum x * w : K) = FloatExtra.signum y * w →
        (FloatExtra.signum (s * x + t * y) * w : K) = FloatExtra.signum x * w := by
      intro x y w h
      by_cases hw : w = 0
      · rw [hw, mul_zero, mul_zero]
      · rw [signum_cone hs ht (mul_right_cancel₀ hw h)]
    rw [key _ _ _ h.1, key _ _ _ h.2]
  · intro d hd h
    change (extremePoint b (-d) : V2 K) = extremePoint b d at h
    rw [e, e, V2.mk.injEq] at h
    simp only [neg_x, neg_y] at h
    show (∀ e', 0 < Fan.cr d e' → (extremePoint b e' : V2 K) = extremePoint b d) ∨
      (∀ e', Fan.cr d e' < 0 → (extremePoint b e' : V2 K) = extremePoint b d)
    simp only [e]
    by_cases hx : b.halfsize.x = 0
    · by_cases hy : b.halfsize.y = 0
      · left; intro e' _; rw [hx, hy]; simp
      · have hdy : d.y = 0 := signum_opp (mul_right_cancel₀ hy h.2)
        have hdx : d.x ≠ 0 := fun hx => hd (V2.ext hx hdy)
        have hcr : ∀ e' : V2 K, Fan.cr d e' = d.x * e'.y := by intro e'; simp [Fan.cr, hdy]
        simp only [hcr, hx, mul_zero, hdy]
        exact (signum_side d.x hdx).imp (fun h e' he => by rw [h _ he]) fun h e' he => by rw [h _ he]
    · have hdx : d.x = 0 := signum_opp (mul_right_cancel₀ hx h.1)
      have hdy : d.y ≠ 0 := fun hy => hd (V2.ext hdx hy)
      have hy : b.halfsize.y = 0 := by
        by_contra hy
        exact hdy (signum_opp (mul_right_cancel₀ hy h.2))
      have hcr : ∀ e' : V2 K, Fan.cr d e' = -(d.y * e'.x) := by intro e'; simp [Fan.cr, hdx]
      simp only [hcr, hy, mul_zero, hdx, neg_pos, neg_neg_iff_pos]
      exact (signum_side d.y hdy).symm.imp (fun h e' he => by rw [h _ he]) fun h e' he => by rw [h _ he]

/-- `p` is the first of the vertices that are farthest in direction `d` -/
theorem poly_first_max {l1 l2 : List (V2 K)} {p d : V2 K} {c : K × V2 K} (h0 : c.1 < d.dot p)
    (h1 : ∀ q ∈ l1, d.dot q < d.dot p) (h2 : ∀ q ∈ l2, d.dot q ≤ d.dot p) :
    ((l1 ++ p :: l2).foldl (Poly2d.extremeStep d) c).2 = p := by
  induction l1 generalizing c with
  | cons q l ih =>
    rw [List.cons_append, List.foldl_cons]
    refine ih ?_ fun r hr => h1 r (List.mem_cons_of_mem _ hr)
    unfold Poly2d.extremeStep
    have := h1 q (by simp)
    simp only
    split_ifs
    · exact this
    · exact h0
  | nil =>
    rw [List.nil_append, List.foldl_cons]
    have e : Poly2d.extremeStep d c p = (d.dot p, p) := by
      unfold Poly2d.extremeStep
      simp only
      rw [if_pos h0]
    rw [e]
    clear h0 e h1
    induction l2 with
    | nil => rfl
    | cons q l ih =>
      rw [List.foldl_cons]
      have e : Poly2d.extremeStep d (d.dot p, p) q = (d.dot p, p) := by
        unfold Poly2d.extremeStep
        simp only
        rw [if_neg (not_lt.2 (h2 q (by simp)))]
      rw [e]
      exact ih fun r hr => h2 r (List.mem_cons_of_mem _ hr)

theorem exists_first_max (d : V2 K) {l : List (V2 K)} (hl : l ≠ []) : ∃ l1 p l2, l = l1 ++ p :: l2 ∧
    (∀ q ∈ l1, d.dot q < d.dot p) ∧ ∀ q ∈ l2, d.dot q ≤ d.dot p := by
  induction l with
  | nil => exact absurd rfl hl
  | cons a l ih =>
    by_cases h0 : l = []
    · subst h0; exact ⟨[], a, [], rfl, by simp, by simp⟩
    obtain ⟨l1, p, l2, rfl, h1, h2⟩ := ih h0
    by_cases h : d.dot p ≤ d.dot a
    · refine ⟨[], a, l1 ++ p :: l2, rfl, by simp, fun q hq => ?_⟩
      rcases List.mem_append.1 hq with hq | hq
      · exact (h1 q hq).le.trans h
      · rcases List.mem_cons.1 hq with rfl | hq
        · exact h
        · exact (h2 q hq).trans h
    · refine ⟨a :: l1, p, l2, rfl, fun q hq => ?_, h2⟩
      rcases List.mem_cons.1 hq with rfl | hq
      · exact not_le.1 h
      · exact h1 q hq

theorem split_unique {α : Type} {p : α} : ∀ {l1 l2 m1 m2 : List α}, l1 ++ p :: l2 = m1 ++ p :: m2 →
    p ∉ l1 → p ∉ m1 → l1 = m1 ∧ l2 = m2
  | [], _, [], _, h, _, _ => by simpa using h
  | [], _, b :: m, _, h, _, h2 => by
    simp only [List.nil_append, List.cons_append, List.cons.injEq] at h
    exact absurd (h.1 ▸ List.mem_cons_self) h2
  | a :: l, _, [], _, h, h1, _ => by
    simp only [List.nil_append, List.cons_append, List.cons.injEq] at h
    exact absurd (h.1 ▸ List.mem_cons_self) h1
  | a :: l, _, b :: m, _, h, h1, h2 => by
    simp only [List.cons_append, List.cons.injEq] at h
    obtain ⟨h3, h4⟩ := split_unique h.2 (fun h => h1 (List.mem_cons_of_mem _ h))
      (fun h => h2 (List.mem_cons_of_mem _ h))
    exact ⟨by rw [h.1, h3], h4⟩

theorem poly_split (s : Poly2d K) (h0 : (0 : V2 K) ∈ Region.pts s) (d : V2 K) :
    ∃ l1 l2, s.points = l1 ++ extremePoint s d :: l2 ∧
      (∀ q ∈ l1, d.dot q < d.dot (extremePoint s d)) ∧ (∀ q ∈ l2, d.dot q ≤ d.dot (extremePoint s d)) ∧
      0 ≤ d.dot (extremePoint s d) := by
  obtain ⟨p0, hp0, hpos⟩ := exists_score_of_origin h0 d
  obtain ⟨l1, p, l2, e, h1, h2⟩ := exists_first_max d (List.ne_nil_of_mem hp0)
  have hge : 0 ≤ d.dot p := by
    rw [e] at hp0
    rcases List.mem_append.1 hp0 with h | h
    · exact hpos.trans (h1 _ h).le
    · rcases List.mem_cons.1 h with rfl | h
      · exact hpos
      · exact hpos.trans (h2 _ h)
  have he : extremePoint s d = p := by
    show (s.points.foldl (Poly2d.extremeStep d) (FloatExtra.f32Min, 0)).2 = p
    rw [e]
    exact poly_first_max (lt_of_lt_of_le f32Min_neg hge) h1 h2
  rw [he]
  exact ⟨l1, l2, e, h1, h2, hge⟩

/-- segments and points -/
theorem poly_segment (s : Poly2d K) (h0 : (0 : V2 K) ∈ Region.pts s) (hlen : s.points.length ≤ 2)
    (d : V2 K) (h : (extremePoint s (-d) : V2 K) = extremePoint s d) :
    (∀ e, 0 < Fan.cr d e → (extremePoint s e : V2 K) = extremePoint s d) ∨
    (∀ e, Fan.cr d e < 0 → (extremePoint s e : V2 K) = extremePoint s d) := by
  have hmem := fun d => (C08_extreme_point_poly s h0 d).2
  have hsp := poly_split s h0
  obtain ⟨pts⟩ := s
  match pts, hlen, hmem, hsp with
  | [], _, hmem, _ => exact absurd (hmem d) (by simp)
  | [p], _, hmem, _ =>
    left
    intro e _
    rw [List.mem_singleton.1 (hmem e), List.mem_singleton.1 (hmem d)]
  | [p, q], _, hmem, hsp =>
    -- the first vertex is taken iff it is as far as the second
    have hfirst : ∀ e : V2 K, e.dot q ≤ e.dot p →
        (extremePoint (⟨[p, q]⟩ : Poly2d K) e : V2 K) = p := by
      intro e he
      obtain ⟨l1, l2, h1, h2, h3, h4⟩ := hsp e
      have hge : 0 ≤ e.dot p := by
        rcases List.mem_pair.1 (hmem e) with h5 | h5
        · rwa [h5] at h4
        · rw [h5] at h4; exact h4.trans he
      exact poly_first_max (l1 := []) (l2 := [q]) (lt_of_lt_of_le f32Min_neg hge) (by simp) (by simpa using he)
    have hsecond : ∀ e : V2 K, e.dot p < e.dot q →
        (extremePoint (⟨[p, q]⟩ : Poly2d K) e : V2 K) = q := by
      intro e he
      rcases List.mem_pair.1 (hmem e) with h5 | h5
      · have := (C08_extreme_point_poly _ h0 e).1.2 q (subset_convexHull K _ (by simp))
        rw [h5] at this
        exact absurd he (not_lt.2 this)
      · exact h5
    by_cases hpq : p = q
    · subst hpq
      left; intro e _
      rw [hfirst e le_rfl, hfirst d le_rfl]
    have hd : d.dot p = d.dot q := by
      rcases lt_trichotomy (d.dot p) (d.dot q) with h1 | h1 | h1
      · rw [hsecond d h1, hfirst (-d) (by rw [neg_dot, neg_dot]; linarith)] at h
        exact absurd h hpq
      · exact h1
      · rw [hfirst d h1.le, hsecond (-d) (by rw [neg_dot, neg_dot]; linarith)] at h
        exact absurd h.symm hpq
    rw [hfirst d hd.ge]
    -- `p - q` is orthogonal to `d`
    have hside : ∀ e : V2 K, lengthSq d * (e.dot p - e.dot q) = Fan.cr d e * Fan.cr d (p - q) := by
      intro e
      simp only [dot_def] at hd
      simp only [lengthSq_def, dot_def, Fan.cr, sub_x, sub_y]
      linear_combination (d.x * e.x + d.y * e.y) * hd
    by_cases hd0 : d = 0
    · left; intro e he; rw [hd0] at he; simp [Fan.cr] at he
    have hl : 0 < lengthSq d := lt_of_le_of_ne (lengthSq_nonneg d) fun h => hd0 (lengthSq_eq_zero.1 h.symm)
    have fin : ∀ e : V2 K, 0 ≤ Fan.cr d e * Fan.cr d (p - q) →
        (extremePoint (⟨[p, q]⟩ : Poly2d K) e : V2 K) = p := by
      intro e he
      apply hfirst
      rw [← hside] at he
      have := nonneg_of_mul_nonneg_right he hl
      linarith
    rcases le_total 0 (Fan.cr d (p - q)) with h1 | h1
    · exact Or.inl fun e he => fin e (mul_nonneg he.le h1)
    · exact Or.inr fun e he => fin e (mul_nonneg_of_nonpos_of_nonpos he.le h1)

theorem fan_poly (s : Poly2d K) (hs : s.Proper) : Fan (fun d : V2 K => (extremePoint s d : V2 K)) := by
  obtain ⟨h0, harea⟩ := hs
  constructor
  · intro d e x y _ _ hx hy h
    obtain ⟨l1, l2, e1, h1, h2, h3⟩ := poly_split s h0 d
    obtain ⟨m1, m2, e2, g1, g2, g3⟩ := poly_split s h0 e
    change (extremePoint s d : V2 K) = extremePoint s e at h
    rw [← h] at e2 g1 g2 g3
    set p : V2 K := extremePoint s d with hp
    obtain ⟨rfl, rfl⟩ := split_unique (e1.symm.trans e2) (fun h => lt_irrefl _ (h1 p h))
      (fun h => lt_irrefl _ (g1 p h))
    have lin : ∀ q : V2 K, (V2.scale x d + V2.scale y e).dot q = x * d.dot q + y * e.dot q := by
      intro q; simp only [dot_def, add_x, add_y, scale_x, scale_y]; ring
    show (s.points.foldl (Poly2d.extremeStep _) (FloatExtra.f32Min, 0)).2 = p
    rw [e1]
    refine poly_first_max ?_ (fun q hq => ?_) fun q hq => ?_
    · rw [lin]
      have := mul_nonneg hx.le h3
      have := mul_nonneg hy.le g3
      have := f32Min_neg (K := K)
      simp only
      linarith
    · rw [lin, lin]
      have := mul_lt_mul_of_pos_left (h1 q hq) hx
      have := mul_lt_mul_of_pos_left (g1 q hq) hy
      linarith
    · rw [lin, lin]
      have := mul_le_mul_of_nonneg_left (h2 q hq) hx.le
      have := mul_le_mul_of_nonneg_left (g2 q hq) hy.le
      linarith
  · intro d hd h
    change (extremePoint s (-d) : V2 K) = extremePoint s d at h
    rcases harea with hlen | harea
    · exact poly_segment s h0 hlen d h
    exfalso
    obtain ⟨u, hu, v, hv, huv⟩ := harea d hd
    have h1 := (C08_extreme_point_poly s h0 d).1.2
    have h2 := (C08_extreme_point_poly s h0 (-d)).1.2
    rw [h] at h2
    have m : ∀ q ∈ s.points, d.dot q = d.dot (extremePoint s d) := by
      intro q hq
      have hq' : q ∈ Region.pts s := subset_convexHull K _ hq
      have a1 := h1 q hq'
      have a2 := h2 q hq'
      rw [neg_dot, neg_dot] at a2
      linarith
    exact huv (by rw [m u hu, m v hv])

/-- `n` corners, in terms of `extreme_point` -/
structure Cornered {S : Type} [ExtremePoint2d S K] (s : S) (n : ℕ) : Prop where
  few : FewExtremePoints (K := K) s n
  fan : Fan (fun d : V2 K => (extremePoint s d : V2 K))

theorem cornered_box (b : Box2d K) : Cornered (K := K) b 4 := ⟨few_box b, fan_box b⟩

theorem cornered_poly (p : Poly2d K) (hp : p.Proper) : Cornered (K := K) p p.points.length :=
  ⟨few_poly p hp.1, fan_poly p hp⟩

theorem cornered_shape (s : Shape2d K) (hs : s.Proper) : Cornered (K := K) s s.corners := by
  cases s with
  | ball b => exact hs.elim
  | box b => exact ⟨(few_box b), (fan_box b)⟩
  | poly p => exact ⟨(few_poly p hs.1), (fan_poly p hs)⟩

theorem Shape2d.Proper.valid {s : Shape2d K} (hs : s.Proper) : s.Valid := by
  cases s with
  | ball b => exact hs.elim
  | box b => exact hs
  | poly p => exact hs.1

variable {A B T : Type} [Region A K] [Region B K] [ExtremePoint2d A K]
    [ExtremePoint2d B K] [Transformation2d T K] {a : A} {b : B} {rel : T}

theorem fan_turned {s : K} (hs : Similarity rel s)
    (hf : Fan (fun d : V2 K => (extremePoint b d : V2 K))) :
    Fan (fun d : V2 K => (extremePoint b (unapplyNormal rel (-d)) : V2 K)) := by
  have ext' : ∀ u v : V2 K, (∀ p, u.dot p = v.dot p) → u = v := by
    intro u v h
    have h1 := h ⟨1, 0⟩
    have h2 := h ⟨0, 1⟩
    simp only [dot_def, mul_one, mul_zero, add_zero, zero_add] at h1 h2
    exact V2.ext h1 h2
  have hlin : ∀ d e : V2 K, ∀ x y : K, unapplyNormal rel (-(V2.scale x d + V2.scale y e)) =
      V2.scale x (unapplyNormal rel (-d)) + V2.scale y (unapplyNormal rel (-e)) := by
    intro d e x y
    apply ext'
    intro p
    rw [← hs.dot_applyNormal, add_dot, scale_dot, scale_dot, ← hs.dot_applyNormal,
      ← hs.dot_applyNormal]
    simp only [dot_def, neg_x, neg_y, add_x, add_y, scale_x, scale_y]
    ring
  have hneg : ∀ d : V2 K, unapplyNormal rel (-(-d)) = -(unapplyNormal rel (-d)) := by
    intro d
    apply ext'
    intro p
    rw [← hs.dot_applyNormal, neg_dot (unapplyNormal _ _), ← hs.dot_applyNormal, ← neg_dot]
  have hne : ∀ d : V2 K, d ≠ 0 → (unapplyNormal rel (-d) : V2 K) ≠ 0 := by
    intro d hd h
    have := hs.lengthSq_unapplyNormal (-d)
    rw [h, (lengthSq_eq_zero (a := (0 : V2 K))).2 rfl, lengthSq_neg] at this
    exact hd (lengthSq_eq_zero.1 this.symm)
  constructor
  · intro d e x y hd he hx hy h
    show (extremePoint b (unapplyNormal rel (-(V2.scale x d + V2.scale y e))) : V2 K) = _
    rw [hlin]
    exact hf.cone _ _ x y (hne d hd) (hne e he) hx hy h
  · intro d hd h
    simp only [hneg] at h
    -- the linear map `e ↦ unapplyNormal rel (-e)` turns areas by the factor `D`, which is not zero
    set i : V2 K := unapplyNormal rel (-(⟨1, 0⟩ : V2 K)) with hi
    set j : V2 K := unapplyNormal rel (-(⟨0, 1⟩ : V2 K)) with hj
    have hij : ∀ e : V2 K, (unapplyNormal rel (-e) : V2 K) = V2.scale e.x i + V2.scale e.y j := by
      intro e
      have : e = V2.scale e.x (⟨1, 0⟩ : V2 K) + V2.scale e.y ⟨0, 1⟩ := by ext <;> simp
      conv_lhs => rw [this]
      exact hlin _ _ _ _
    have hcr : ∀ e e' : V2 K, Fan.cr (unapplyNormal rel (-e)) (unapplyNormal rel (-e')) =
        Fan.cr i j * Fan.cr e e' := by
      intro e e'
      rw [hij e, hij e']
      simp only [Fan.cr, add_x, add_y, scale_x, scale_y]
      ring
    have hdot : ∀ n m : V2 K, (unapplyNormal rel n : V2 K).dot (unapplyNormal rel m) = n.dot m := by
      intro n m
      have := hs.normal.2.2 (unapplyNormal rel n) (unapplyNormal rel m)
      rw [hs.normal.2.1, hs.normal.2.1] at this
      exact this.symm
    have hD : Fan.cr i j ≠ 0 := by
      intro h0
      have h1 := hdot (-(⟨1, 0⟩ : V2 K)) (-(⟨1, 0⟩ : V2 K))
      have h2 := hdot (-(⟨0, 1⟩ : V2 K)) (-(⟨0, 1⟩ : V2 K))
      have h3 := hdot (-(⟨1, 0⟩ : V2 K)) (-(⟨0, 1⟩ : V2 K))
      rw [← hi] at h1 h3
      rw [← hj] at h2 h3
      simp only [dot_def, neg_x, neg_y] at h1 h2 h3
      simp only [Fan.cr] at h0
      have h4 : (i.x * j.y - i.y * j.x) ^ 2 =
          (i.x * i.x + i.y * i.y) * (j.x * j.x + j.y * j.y) - (i.x * j.x + i.y * j.y) ^ 2 := by ring
      rw [h0, h1, h2, h3] at h4
      norm_num at h4
    rcases hf.opp _ (hne d hd) h with h1 | h1 <;> rcases lt_or_gt_of_ne hD with h2 | h2
    · exact Or.inr fun e he => h1 _ (by rw [hcr]; exact mul_pos_of_neg_of_neg h2 he)
    · exact Or.inl fun e he => h1 _ (by rw [hcr]; exact mul_pos h2 he)
    · exact Or.inl fun e he => h1 _ (by rw [hcr]; exact mul_neg_of_neg_of_pos h2 he)
    · exact Or.inr fun e he => h1 _ (by rw [hcr]; exact mul_neg_of_pos_of_neg h2 he)

/-- The difference of shapes with `n` and `m` corners has at most `n + m` extreme points. -/
theorem not_many_corners {n m : ℕ} (hs : ∃ s : K, 0 ≤ s ∧ Similarity rel s)
    (ha : Cornered (K := K) a n) (hb : Cornered (K := K) b m) {k : ℕ} (hk : n + m < k) :
    ¬ ManyExtremePoints (K := K) a b rel k := by
  rintro ⟨L, hL, hlen, hLS⟩
  obtain ⟨s, -, hsim⟩ := hs
  obtain ⟨la, hla, ha'⟩ := ha.few
  obtain ⟨lb, hlb, hb'⟩ := hb.few
  set φ : V2 K → V2 K := fun d => extremePoint a d - apply rel (extremePoint b (unapplyNormal rel (-d)))
    with hφ
  have hD : ∃ D : List (V2 K), D.map φ = L ∧ ∀ d ∈ D, d ≠ 0 := by
    clear hL hlen
    induction L with
    | nil => exact ⟨[], rfl, by simp⟩
    | cons e L ih =>
      obtain ⟨D, h1, h2⟩ := ih fun e he => hLS e (List.mem_cons_of_mem _ he)
      obtain ⟨d, hd, he⟩ := hLS e (by simp)
      refine ⟨d :: D, by rw [List.map_cons, h1, he], fun x hx => ?_⟩
      rcases List.mem_cons.1 hx with rfl | hx
      · exact hd
      · exact h2 x hx
  obtain ⟨D, rfl, hD0⟩ := hD
  have hpw : D.Pairwise fun d e => ((extremePoint a d : V2 K), (extremePoint b (unapplyNormal rel (-d)) : V2 K)) ≠
      (extremePoint a e, extremePoint b (unapplyNormal rel (-e))) := by
    refine (List.pairwise_map.1 hL).imp ?_
    intro d e hne h
    rw [Prod.mk.injEq] at h
    apply hne
    simp only [hφ, h.1, h.2]
  have := Fan.count ha.fan (fan_turned hsim hb.fan) ha' (fun d => hb' _) D hD0 hpw
  rw [List.length_map] at hlen
  omega

variable [DefaultMinkowski A B]

/-- `collides` is complete for pairs with at most 19 corners together -/
theorem complete_of_corners (h : ConvexPair (K := K) a b rel) {n m : ℕ} (ha : Cornered (K := K) a n)
    (hb : Cornered (K := K) b m) (hnm : n + m ≤ 19) :
    ∃ c, collidesRel a b rel = .ok c ∧ (Overlap (Region.pts a) (placed rel b) → c = true) ∧
      (c = false → Separable (Region.pts a) (placed rel b)) := by
  have h1 : collidesRel a b rel = .ok false → Separable (Region.pts a) (placed rel b) := fun hc =>
    (C35_collides_false h hc).resolve_right (not_many_corners h.sim ha hb (by omega))
  obtain ⟨c, hc⟩ := (C33_rel_no_panic a b rel).1
  refine ⟨c, hc, fun ho => ?_, fun h' => h1 (h' ▸ hc)⟩
  cases c with
  | true => rfl
  | false => exact absurd ho (h1 hc).not_overlap

/-- the three other queries on an overlap with a margin, for pairs with at most 18 corners together -/
theorem push_of_corners [ExactSqrt K] (h : ConvexPair (K := K) a b rel) {n m : ℕ}
    (ha : Cornered (K := K) a n) (hb : Cornered (K := K) b m) (hnm : n + m ≤ 19)
    {δ R : K} (hδ : 0 < δ) (hO : OverlapBy δ (Region.pts a) (placed rel b))
    (hR : WithinReach R (Region.pts a) (placed rel b)) (hε : 1 / 2 ^ 23 * R ≤ δ ^ 4) :
    (∃ v, penetratesRel a b rel = .ok (some v) ∧ MinimalPush v (Region.pts a) (placed rel b)) ∧
    (∃ v, sdfvRel a b rel = .ok (true, v) ∧ MinimalPush v (Region.pts a) (placed rel b)) ∧
    distanceToRel a b rel = .ok none := by
  have hmany : ∀ k, 20 ≤ k → ¬ ManyExtremePoints (K := K) a b rel k := fun k hk =>
    not_many_corners h.sim ha hb (by omega)
  have hD := overlapBy_iff.1 hO
  have hR' : ∀ x ∈ minkDiff (Region.pts a) (placed rel b), x.length ≤ R := by
    rintro x ⟨p, hp, q, hq, rfl⟩; exact hR p hp q hq
  set S := extremePoint (LocalMinkowskiDiff2d.mk a b rel) with hS
  set d0 := initialDirection (applyOrigin rel) with hd0
  have hd : d0 ≠ 0 := initialDirection_ne _
  constructor
  · obtain ⟨o, hc⟩ := (C33_rel_no_panic a b rel).2.1
    obtain ⟨r, hr, ho⟩ := penetratesRel_run hc
    rcases gjkPenetrate_margin hδ hD hR' hε h.convex h.support iterationLimit [] _ []
      (.start _ (initialDirection_ne _)) List.nodup_nil (by simp) (by intro u v h; simp at h)
      (by right; unfold iterationLimit; simp) r hr with h1 | h1
    · rw [h1] at ho
      have hv : penetratesRel a b rel = .ok (some r.2) := by rw [hc, ho]; rfl
      exact ⟨r.2, hv, (C41_penetrates_minimal h hδ hO hR hε _ hv).resolve_right
        fun h' => hmany 23 (by norm_num) h'.2⟩
    · exact absurd h1 (hmany 20 le_rfl)
  have hPb : PInv (minkDiff (Region.pts a) (placed rel b)) (S d0) := hD.pinv hδ hd (h.support d0)
  have hne : -(S d0) ≠ 0 := neg_ne_zero.2 hPb.ne_zero
  have hG : GInv (minkDiff (Region.pts a) (placed rel b)) [S d0] (-(S d0)) [S d0] :=
    .point _ (h.support d0).1 hPb
  have hsup : ∀ e ∈ [S d0], ∃ d, d ≠ 0 ∧ e = S d := by
    intro e he; rw [List.mem_singleton.1 he]; exact ⟨d0, hd, rfl⟩
  have hlong : LongEdge δ [S d0] := by intro u v huv; simp at huv
  obtain ⟨r, hr⟩ := gjkPenetrate_ok S iterationLimit (-(S d0)) [S d0] (by simp)
  have h1 : r.1 = true := by
    rcases gjkPenetrate_margin hδ hD hR' hε h.convex h.support iterationLimit [S d0] _ _ hG
      (List.nodup_singleton _) hsup hlong (by right; unfold iterationLimit; simp) r hr with h2 | h2
    · exact h2
    · exact absurd h2 (hmany _ (by simp [iterationLimit]))
  have hgood := (gjkPenetrate_margin_epa hδ hD hR' hε h.convex h.support iterationLimit [S d0] _ _
    hG hsup hlong r hr h1).resolve_right fun h' => hmany _ (by unfold iterationLimit; omega) h'.2
  have hr' : gjkPenetrate S iterationLimit (-(S d0)) [S d0] = .ok (true, r.2) := by rw [hr, ← h1]
  constructor
  · exact ⟨r.2, gjkFull_of_penetrate (hD.surrounds hδ h.support) iterationLimit (-(S d0)) (S d0)
      [S d0] r.2 hne hr', minimalPush_of_good hgood⟩
  · obtain ⟨w, hw⟩ := gjkDistance_of_penetrate (hD.surrounds hδ h.support) iterationLimit (-(S d0))
      (S d0) [S d0] r.2 hne hr'
    show Except.map _ (gjkDistance S iterationLimit (-(S d0)) (S d0) [S d0]) = _
    rw [hw]; rfl

/-- under the conditions of C92: with at most 22 corners together the expansion converges -/
theorem push_of_corners_flat [ExactSqrt K] (h : ConvexPair (K := K) a b rel) {n m : ℕ}
    (ha : Cornered (K := K) a n) (hb : Cornered (K := K) b m) (hnm : n + m ≤ 22)
    {δ R : K} (hδ : 0 < δ) (hO : OverlapBy δ (Region.pts a) (placed rel b))
    (hR : WithinReach R (Region.pts a) (placed rel b)) (hflat : R ≤ 2 ^ 15 * δ)
    (hε : 1 / 2 ^ 23 * R ≤ δ ^ 4) :
    (∃ v, penetratesRel a b rel = .ok (some v) ∧ MinimalPush v (Region.pts a) (placed rel b)) ∧
    (∃ v, sdfvRel a b rel = .ok (true, v) ∧ MinimalPush v (Region.pts a) (placed rel b)) := by
  have hmany : ¬ ManyExtremePoints (K := K) a b rel 23 := not_many_corners h.sim ha hb (by omega)
  have hD := overlapBy_iff.1 hO
  have hR' : ∀ x ∈ minkDiff (Region.pts a) (placed rel b), x.length ≤ R := by
    rintro x ⟨p, hp, q, hq, rfl⟩; exact hR p hp q hq
  obtain ⟨-, ⟨v', hv'⟩⟩ := penetrate_run_rate h hδ hO hR hflat hε
  constructor
  · obtain ⟨v, hv⟩ := (C92_all_queries h hδ hO hR hflat hε).2.1
    exact ⟨v, hv, (C41_penetrates_minimal h hδ hO hR hε v hv).resolve_right fun h' => hmany h'.2⟩
  · set S := extremePoint (LocalMinkowskiDiff2d.mk a b rel) with hS
    set d0 := initialDirection (applyOrigin rel) with hd0
    have hd : d0 ≠ 0 := initialDirection_ne _
    have hPb : PInv (minkDiff (Region.pts a) (placed rel b)) (S d0) := hD.pinv hδ hd (h.support d0)
    have hne : -(S d0) ≠ 0 := neg_ne_zero.2 hPb.ne_zero
    have hG : GInv (minkDiff (Region.pts a) (placed rel b)) [S d0] (-(S d0)) [S d0] :=
      .point _ (h.support d0).1 hPb
    have hsup : ∀ e ∈ [S d0], ∃ d, d ≠ 0 ∧ e = S d := by
      intro e he; rw [List.mem_singleton.1 he]; exact ⟨d0, hd, rfl⟩
    have hgood := gjkPenetrate_margin_epa hδ hD hR' hε h.convex h.support iterationLimit [S d0] _ _
      hG hsup (by intro u v huv; simp at huv) _ hv' rfl
    refine ⟨v', gjkFull_of_penetrate (hD.surrounds hδ h.support) iterationLimit _ (S d0) _ v' hne hv',
      minimalPush_of_good (hgood.resolve_right fun h' => hmany h'.2)⟩

end

section
variable {K : Type} [Field K] [LinearOrder K] [IsStrictOrderedRing K] [FloatExtra K]
  [ExactFloat K] {T : Type} [Transformation2d T K]

/-! ## C39 -/

/-- Polygons with at most 19 vertices together (for example two 9-gons). -/
theorem C39_corners_poly_poly (a b : Poly2d K) (rel : T) (ha : a.Proper) (hb : b.Proper)
    (hs : ∃ s : K, 0 ≤ s ∧ Similarity rel s) (hnm : a.points.length + b.points.length ≤ 19) :
    ∃ c, collidesRel a b rel = .ok c ∧ (Overlap (Region.pts a) (placed rel b) → c = true) ∧
      (c = false → Separable (Region.pts a) (placed rel b)) :=
  complete_of_corners (convexPair_poly_poly a b rel ha.1 hb.1 hs) (cornered_poly a ha)
    (cornered_poly b hb) hnm

/-- A box and a polygon with at most 15 vertices, either way round. -/
theorem C39_corners_box_poly (a : Box2d K) (b : Poly2d K) (rel : T)
    (ha : 0 ≤ a.halfsize.x ∧ 0 ≤ a.halfsize.y) (hb : b.Proper)
    (hs : ∃ s : K, 0 ≤ s ∧ Similarity rel s) (hm : b.points.length ≤ 15) :
    (∃ c, collidesRel a b rel = .ok c ∧ (Overlap (Region.pts a) (placed rel b) → c = true) ∧
      (c = false → Separable (Region.pts a) (placed rel b))) ∧
    (∃ c, collidesRel b a rel = .ok c ∧ (Overlap (Region.pts b) (placed rel a) → c = true) ∧
      (c = false → Separable (Region.pts b) (placed rel a))) := by
  obtain ⟨h, h'⟩ := convexPair_box_poly a b rel ha hb.1 hs
  exact ⟨complete_of_corners h (cornered_box a) (cornered_poly b hb) (by omega),
    complete_of_corners (h' rel hs) (cornered_poly b hb) (cornered_box a) (by omega)⟩

/-- Boxes and polygons of the shape enum, with at most 19 corners together: `collides`, and with a margin
the three other queries. -/
theorem C39_corners_shape2d [ExactSqrt K] (a b : Shape2d K) (rel : T) (ha : a.Proper) (hb : b.Proper)
    (hs : ∃ s : K, 0 ≤ s ∧ Similarity rel s) (hnm : a.corners + b.corners ≤ 19) :
    (∃ c, collidesRel a b rel = .ok c ∧ (Overlap (Region.pts a) (placed rel b) → c = true) ∧
      (c = false → Separable (Region.pts a) (placed rel b))) ∧
    ∀ δ R : K, 0 < δ → OverlapBy δ (Region.pts a) (placed rel b) →
      WithinReach R (Region.pts a) (placed rel b) → 1 / 2 ^ 23 * R ≤ δ ^ 4 →
      (∃ v, penetratesRel a b rel = .ok (some v)) ∧ distanceToRel a b rel = .ok none ∧
        ∃ v, sdfvRel a b rel = .ok (true, v) := by
  have h := convexPair_shape2d a b rel ha.valid hb.valid hs
  refine ⟨complete_of_corners h (cornered_shape a ha) (cornered_shape b hb) hnm,
    fun δ R hδ hO hR hε => ?_⟩
  obtain ⟨⟨v, hv, -⟩, ⟨w, hw, -⟩, hd⟩ := push_of_corners h (cornered_shape a ha) (cornered_shape b hb)
    hnm hδ hO hR hε
  exact ⟨⟨v, hv⟩, hd, w, hw⟩

/-! ## C42 -/

/-- `penetrates` and `sdfv` of polygons with at most 19 vertices together converge. -/
theorem C42_corners_poly_poly [ExactSqrt K] (a b : Poly2d K) (rel : T) (ha : a.Proper) (hb : b.Proper)
    (hs : ∃ s : K, 0 ≤ s ∧ Similarity rel s) (hnm : a.points.length + b.points.length ≤ 19)
    {δ R : K} (hδ : 0 < δ) (hO : OverlapBy δ (Region.pts a) (placed rel b))
    (hR : WithinReach R (Region.pts a) (placed rel b)) (hε : 1 / 2 ^ 23 * R ≤ δ ^ 4) :
    (∃ v, penetratesRel a b rel = .ok (some v) ∧ MinimalPush v (Region.pts a) (placed rel b)) ∧
    (∃ v, sdfvRel a b rel = .ok (true, v) ∧ MinimalPush v (Region.pts a) (placed rel b)) :=
  let h := push_of_corners (convexPair_poly_poly a b rel ha.1 hb.1 hs) (cornered_poly a ha)
    (cornered_poly b hb) hnm hδ hO hR hε
  ⟨h.1, h.2.1⟩

/-- The same for the shape enum (boxes and polygons mixed). -/
theorem C42_corners_shape2d [ExactSqrt K] (a b : Shape2d K) (rel : T) (ha : a.Proper) (hb : b.Proper)
    (hs : ∃ s : K, 0 ≤ s ∧ Similarity rel s) (hnm : a.corners + b.corners ≤ 19)
    {δ R : K} (hδ : 0 < δ) (hO : OverlapBy δ (Region.pts a) (placed rel b))
    (hR : WithinReach R (Region.pts a) (placed rel b)) (hε : 1 / 2 ^ 23 * R ≤ δ ^ 4) :
    (∃ v, penetratesRel a b rel = .ok (some v) ∧ MinimalPush v (Region.pts a) (placed rel b)) ∧
    (∃ v, sdfvRel a b rel = .ok (true, v) ∧ MinimalPush v (Region.pts a) (placed rel b)) :=
  let h := push_of_corners (convexPair_shape2d a b rel ha.valid hb.valid hs) (cornered_shape a ha)
    (cornered_shape b hb) hnm hδ hO hR hε
  ⟨h.1, h.2.1⟩

/-! ## C93 -/

/-- Boxes and polygons with at most 22 corners together: under the conditions of C92 the pushes of
`penetrates` and `sdfv` are minimal (up to 1 %), never zero. -/
theorem C93_corners_shape2d [ExactSqrt K] (a b : Shape2d K) (rel : T) (ha : a.Proper) (hb : b.Proper)
    (hs : ∃ s : K, 0 ≤ s ∧ Similarity rel s) (hnm : a.corners + b.corners ≤ 22)
    {δ R : K} (hδ : 0 < δ) (hO : OverlapBy δ (Region.pts a) (placed rel b))
    (hR : WithinReach R (Region.pts a) (placed rel b)) (hflat : R ≤ 2 ^ 15 * δ)
    (hε : 1 / 2 ^ 23 * R ≤ δ ^ 4) :
    (∃ v, penetratesRel a b rel = .ok (some v) ∧ MinimalPush v (Region.pts a) (placed rel b)) ∧
    (∃ v, sdfvRel a b rel = .ok (true, v) ∧ MinimalPush v (Region.pts a) (placed rel b)) := by
  exact push_of_corners_flat (convexPair_shape2d a b rel ha.valid hb.valid hs) (cornered_shape a ha)
    (cornered_shape b hb) hnm hδ hO hR hflat hε

/-! ## C42 on a grid -/

/-- On coordinates that are multiples of `1/N` (`N ≤ 203`), boxes and polygons with at most 19 corners
together: `penetrates` finds every overlap, with a minimal push and without any margin, and it is `None`
for shapes that share no point. -/
theorem C42_corners_grid [ExactSqrt K] (a b : Shape2d K) (rel : T) (ha : a.Proper) (hb : b.Proper)
    (hs : ∃ s : K, 0 ≤ s ∧ Similarity rel s) (hnm : a.corners + b.corners ≤ 19) {N : Nat} (h0 : 0 < N)
    (hN : N ≤ 203) (hG : GridPair a b rel N) :
    (Overlap (Region.pts a) (placed rel b) →
      ∃ v, penetratesRel a b rel = .ok (some v) ∧ MinimalPush v (Region.pts a) (placed rel b)) ∧
    (¬ Touch (Region.pts a) (placed rel b) → penetratesRel a b rel = .ok none) := by
  have h := convexPair_shape2d a b rel ha.valid hb.valid hs
  have hmany : ∀ k, 20 ≤ k → ¬ ManyExtremePoints (K := K) a b rel k := fun k hk =>
    not_many_corners h.sim (cornered_shape a ha) (cornered_shape b hb) (by omega)
  obtain ⟨h1, h2⟩ := C36_penetrates_grid h h0 hN hG
  obtain ⟨o, hc⟩ := (C33_rel_no_panic a b rel).2.1
  cases o with
  | none => exact ⟨fun ho => absurd ho ((h2 hc).resolve_right (hmany 20 le_rfl)).not_overlap, fun _ => hc⟩
  | some v => exact ⟨fun _ => ⟨v, hc, (C41_penetrates_minimal_grid h h0 hN hG v hc).resolve_right
      fun h' => hmany 23 (by norm_num) h'.2⟩, fun hn => absurd (h1 v hc) hn⟩

/-! ## C44 -/

/-- Boxes and polygons with at most 20 corners together, sharing no point (and resolvable): the vectors of
`distance_to` and `sdfv` are shortest ones (for `sdfv` up to 1 %), or shortest to the facing edge at which the
search stopped. -/
theorem C44_corners_shape2d [ExactSqrt K] (a b : Shape2d K) (rel : T) (ha : a.Proper) (hb : b.Proper)
    (hs : ∃ s : K, 0 ≤ s ∧ Similarity rel s) (hnm : a.corners + b.corners ≤ 20)
    (hr : Resolvable (K := K) a b rel) (hn : ¬ Touch (Region.pts a) (placed rel b)) :
    (∃ v, distanceToRel a b rel = .ok (some v) ∧
      ((∀ w, Touch (shift w (Region.pts a)) (placed rel b) → lengthSq v ≤ lengthSq w) ∨
        ShortestOfEdge a b rel 1 v)) ∧
    ∃ v, sdfvRel a b rel = .ok (false, v) ∧
      ((∀ w, Touch (shift w (Region.pts a)) (placed rel b) →
          (99 / 100) ^ 2 * lengthSq v ≤ lengthSq w) ∨ ShortestOfEdge a b rel (99 / 100) v) := by
  have h := convexPair_shape2d a b rel ha.valid hb.valid hs
  have hmany : ¬ ManyExtremePoints (K := K) a b rel 21 :=
    not_many_corners h.sim (cornered_shape a ha) (cornered_shape b hb) (by omega)
  obtain ⟨v, hv, h1⟩ := C44_distance_shortest_or_corner h hr hn
  obtain ⟨w, hw, h2⟩ := C44_sdfv_shortest_or_corner h hr hn
  refine ⟨⟨v, hv, ?_⟩, w, hw, ?_⟩
  · rcases h1 with h1 | h1 | h1
    exacts [Or.inl h1, Or.inr h1, absurd h1 hmany]
  · rcases h2 with h2 | h2 | h2
    exacts [Or.inl h2, Or.inr h2, absurd h2 hmany]

/-! ## C94 -/

/-- Colliders in the world with box and polygon shapes: a negative answer of `collides` means that a line separates them
(at most 19 corners together), and the pushes of deep enough overlaps are minimal, never zero (at most 22). -/
theorem C94_corners {a b : Collider2d (Shape2d K) T} {s : K} [ExactSqrt K] [Invertible T] [Composable T]
    (h : WorldPair a b s) (ha : a.shape.Proper) (hb : b.shape.Proper) :
    (a.shape.corners + b.shape.corners ≤ 19 → ∃ c, collides a b = .ok c ∧
      (Overlap a.region b.region → c = true) ∧ (c = false → Separable a.region b.region)) ∧
    (a.shape.corners + b.shape.corners ≤ 22 → ∀ δ R : K, 0 < δ → OverlapBy δ a.region b.region →
      WithinReach R a.region b.region → R ≤ 2 ^ 15 * δ → 1 / 2 ^ 23 * R * s ^ 3 ≤ δ ^ 4 →
      (∃ v, penetrates a b = .ok (some v) ∧ MinimalPush (worldVec s a.transform v) a.region b.region) ∧
      ∃ v, sdfv a b = .ok (true, v) ∧ MinimalPush (V2.scale s v) a.region b.region) := by
  have hca := cornered_shape a.shape ha
  have hcb := cornered_shape b.shape hb
  have hs := h.pos
  constructor
  · intro hnm
    obtain ⟨c, hc, h1, h2⟩ := complete_of_corners h.pair hca hcb hnm
    refine ⟨c, hc, fun hO => h1 ?_, fun hf => ?_⟩
    · rw [h.region] at hO
      exact overlap_sim h.self hs hO
    · rw [h.region]; exact (separable_sim h.self hs _ _).2 (h2 hf)
  · intro hnm δ R hδ hO hR hflat hε
    rw [h.region] at hO hR ⊢
    have hO' := overlapBy_sim h.self hs hO
    have hR' := withinReach_sim h.self hs hR
    have hδ' : 0 < δ / s := div_pos hδ hs
    have hflat' : R / s ≤ 2 ^ 15 * (δ / s) := by
      rw [← mul_div_assoc]; exact div_le_div_of_nonneg_right hflat hs.le
    have hε' : 1 / 2 ^ 23 * (R / s) ≤ (δ / s) ^ 4 := by
      rw [div_pow, le_div_iff₀ (by positivity)]
      calc 1 / 2 ^ 23 * (R / s) * s ^ 4 = 1 / 2 ^ 23 * R * s ^ 3 := by field_simp
        _ ≤ _ := hε
    obtain ⟨⟨v, hv, hv'⟩, ⟨w, hw, hw'⟩⟩ := push_of_corners_flat h.pair hca hcb hnm hδ' hO' hR' hflat' hε'
    refine ⟨⟨v, hv, (minimalPush_sim h.self hs v _ _).2 hv'⟩, applyNormal a.transform w, ?_,
      (minimalPush_sim h.self hs w _ _).2 hw'⟩
    unfold sdfv; rw [hw]; rfl
end

/-! ## concrete cases: two octagons (16 corners together; the product of the numbers of vertices is 64) -/

section
variable {K : Type} [Field K] [LinearOrder K] [IsStrictOrderedRing K] [FloatExtra K] [ExactFloat K]

def octagon (K : Type) [Field K] : Poly2d K :=
  ⟨[⟨3, 1⟩, ⟨1, 3⟩, ⟨-1, 3⟩, ⟨-3, 1⟩, ⟨-3, -1⟩, ⟨-1, -3⟩, ⟨1, -3⟩, ⟨3, -1⟩]⟩

theorem octagon_mem {x y : K} (hx : |x| ≤ 3) (hy : |y| ≤ 1) : (⟨x, y⟩ : V2 K) ∈ Region.pts (octagon K) := by
  rw [abs_le] at hx hy
  have hm : ∀ p ∈ (octagon K).points, p ∈ Region.pts (octagon K) := fun p hp => subset_convexHull K _ hp
  have hc : Convex K (Region.pts (octagon K)) := convex_convexHull K _
  have a0 : 0 ≤ (1 + y) / 2 := by linarith [hy.1]
  have b0 : 0 ≤ (1 - y) / 2 := by linarith [hy.2]
  have h1 := hc (hm ⟨3, 1⟩ (by simp [octagon])) (hm ⟨3, -1⟩ (by simp [octagon])) a0 b0 (by ring)
  have h2 := hc (hm ⟨-3, 1⟩ (by simp [octagon])) (hm ⟨-3, -1⟩ (by simp [octagon])) a0 b0 (by ring)
  have h3 := hc h1 h2 (a := (3 + x) / 6) (b := (3 - x) / 6) (by linarith [hx.1]) (by linarith [hx.2]) (by ring)
  have e : (⟨x, y⟩ : V2 K) = ((3 + x) / 6) • (((1 + y) / 2) • (⟨3, 1⟩ : V2 K) + ((1 - y) / 2) • ⟨3, -1⟩) +
      ((3 - x) / 6) • (((1 + y) / 2) • (⟨-3, 1⟩ : V2 K) + ((1 - y) / 2) • ⟨-3, -1⟩) := by
    ext <;> simp <;> ring
  rw [e]; exact h3

theorem octagon_bound {p : V2 K} (hp : p ∈ Region.pts (octagon K)) : |p.x| ≤ 3 ∧ |p.y| ≤ 3 := by
  have h1 := hull_dot_le (l := (octagon K).points) (M := (3 : K)) (d := ⟨1, 0⟩) (by simp [octagon, dot_def]; norm_num) hp
  have h2 := hull_dot_le (l := (octagon K).points) (M := (3 : K)) (d := ⟨-1, 0⟩) (by simp [octagon, dot_def]; norm_num) hp
  have h3 := hull_dot_le (l := (octagon K).points) (M := (3 : K)) (d := ⟨0, 1⟩) (by simp [octagon, dot_def]; norm_num) hp
  have h4 := hull_dot_le (l := (octagon K).points) (M := (3 : K)) (d := ⟨0, -1⟩) (by simp [octagon, dot_def]; norm_num) hp
  simp only [dot_def] at h1 h2 h3 h4
  exact ⟨abs_le.2 ⟨by linarith, by linarith⟩, abs_le.2 ⟨by linarith, by linarith⟩⟩

theorem octagon_proper : (octagon K).Proper := by
  refine ⟨?_, Or.inr fun d hd => ?_⟩
  · have : (0 : V2 K) = ⟨0, 0⟩ := rfl
    rw [this]; exact octagon_mem (by simp) (by simp)
  · by_cases hx : d.x = 0
    · have hy : d.y ≠ 0 := fun hy => hd (V2.ext hx hy)
      refine ⟨⟨3, 1⟩, by simp [octagon], ⟨3, -1⟩, by simp [octagon], fun h => hy ?_⟩
      simp only [dot_def, hx] at h
      linarith
    · refine ⟨⟨3, 1⟩, by simp [octagon], ⟨-3, 1⟩, by simp [octagon], fun h => hx ?_⟩
      simp only [dot_def] at h
      linarith

theorem octagon_overlap : OverlapBy 1 (Region.pts (octagon K)) (placed (⟨2, 1⟩ : V2 K) (octagon K)) := by
  intro v hv
  rw [lengthSq_def] at hv
  have hx : |v.x| ≤ 1 := abs_le_of_sq_le_sq (by nlinarith [mul_self_nonneg v.y]) (by norm_num)
  have hy : |v.y| ≤ 1 := abs_le_of_sq_le_sq (by nlinarith [mul_self_nonneg v.x]) (by norm_num)
  rw [abs_le] at hx hy
  refine ⟨⟨1 + v.x / 2, 1 / 2 + v.y / 2⟩, ⟨⟨1 - v.x / 2, 1 / 2 - v.y / 2⟩, octagon_mem ?_ ?_, ?_⟩,
    ⟨⟨-1 + v.x / 2, -1 / 2 + v.y / 2⟩, octagon_mem ?_ ?_, ?_⟩⟩
  · rw [abs_le]; constructor <;> linarith [hx.1, hx.2]
  · rw [abs_le]; constructor <;> linarith [hy.1, hy.2]
  · ext <;> simp <;> ring
  · rw [abs_le]; constructor <;> linarith [hx.1, hx.2]
  · rw [abs_le]; constructor <;> linarith [hy.1, hy.2]
  · ext <;> simp [apply] <;> ring

end

/-- the hypotheses of the theorems on pushes are met by two octagons overlapping by 1 -/
example : let _ := realFloat true 0
    let o : Shape2d ℝ := .poly (octagon ℝ)
    o.Proper ∧ o.corners + o.corners ≤ 19 ∧
      OverlapBy 1 (Region.pts o) (placed (⟨2, 1⟩ : V2 ℝ) o) ∧
      WithinReach 12 (Region.pts o) (placed (⟨2, 1⟩ : V2 ℝ) o) ∧ (12 : ℝ) ≤ 2 ^ 15 * 1 ∧
      (1 / 2 ^ 23 * 12 : ℝ) ≤ 1 ^ 4 := by
  intro _ o
  have := realFloat_exact true 0
  have := realFloat_sqrt true 0
  refine ⟨octagon_proper, by norm_num [o, Shape2d.corners, octagon], octagon_overlap, ?_, by norm_num, by norm_num⟩
  rintro p hp q ⟨q', hq, rfl⟩
  obtain ⟨h1, h2⟩ := octagon_bound (K := ℝ) hp
  obtain ⟨h3, h4⟩ := octagon_bound (K := ℝ) hq
  apply le_of_sq_le_sq _ (by norm_num)
  rw [V2.length_sq, lengthSq_def]
  rw [abs_le] at h1 h2 h3 h4
  simp only [apply, sub_x, sub_y, add_x, add_y]
  have hx : |p.x - (q'.x + 2)| ≤ 8 := by rw [abs_le]; constructor <;> linarith [h1.1, h1.2, h3.1, h3.2]
  have hy : |p.y - (q'.y + 1)| ≤ 7 := by rw [abs_le]; constructor <;> linarith [h2.1, h2.2, h4.1, h4.2]
  have hx2 := sq_le_sq' (by linarith [(abs_le.1 hx).1]) (abs_le.1 hx).2
  have hy2 := sq_le_sq' (by linarith [(abs_le.1 hy).1]) (abs_le.1 hy).2
  nlinarith [hx2, hy2]

section
attribute [local instance] ratFloat ratFloat_exact

/-- segments are covered: a segment across an octagon -/
example : (⟨[⟨-2, 0⟩, ⟨2, 0⟩]⟩ : Poly2d ℚ).Proper ∧
    collidesRel (octagon ℚ) (⟨[⟨-2, 0⟩, ⟨2, 0⟩]⟩ : Poly2d ℚ) (⟨4, 0⟩ : V2 ℚ) = .ok true ∧
    collidesRel (octagon ℚ) (⟨[⟨-2, 0⟩, ⟨2, 0⟩]⟩ : Poly2d ℚ) (⟨6, 0⟩ : V2 ℚ) = .ok false := by
  refine ⟨⟨?_, Or.inl (by simp)⟩, by decide +kernel, by decide +kernel⟩
  have hc : Convex ℚ (Region.pts (⟨[⟨-2, 0⟩, ⟨2, 0⟩]⟩ : Poly2d ℚ)) := convex_convexHull ℚ _
  have hm : ∀ p ∈ [(⟨-2, 0⟩ : V2 ℚ), ⟨2, 0⟩],
      p ∈ Region.pts (⟨[⟨-2, 0⟩, ⟨2, 0⟩]⟩ : Poly2d ℚ) := fun p hp => subset_convexHull ℚ _ hp
  have h1 := hc (hm ⟨-2, 0⟩ (by simp)) (hm ⟨2, 0⟩ (by simp)) (show (0 : ℚ) ≤ 1 / 2 by norm_num)
    (show (0 : ℚ) ≤ 1 / 2 by norm_num) (by norm_num)
  have e : (1 / 2 : ℚ) • (⟨-2, 0⟩ : V2 ℚ) + (1 / 2 : ℚ) • (⟨2, 0⟩ : V2 ℚ) = 0 := by ext <;> simp
  rwa [e] at h1

/-- the two octagons in the model: found, with a push that is not zero; and apart they are not found -/
example : collidesRel (octagon ℚ) (octagon ℚ) (⟨2, 1⟩ : V2 ℚ) = .ok true ∧
    (∃ v, penetratesRel (octagon ℚ) (octagon ℚ) (⟨2, 1⟩ : V2 ℚ) = .ok (some v) ∧ v ≠ 0) ∧
    collidesRel (octagon ℚ) (octagon ℚ) (⟨5, 5⟩ : V2 ℚ) = .ok false :=
  ⟨by decide +kernel, ⟨⟨-5 / 2, -5 / 2⟩, by decide +kernel, by decide +kernel⟩, by decide +kernel⟩

end

end Auburn
