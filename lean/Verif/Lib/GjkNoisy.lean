import Verif.Lib.GjkRate

/-!
# The search with inexact support points (library lemmas for C97)

The points are only nearly extreme (`η`) and the side tests may be wrong when the origin is nearly on the edge's line
(also `η`).  The set reaches `δ` in every direction, with `η` and the size of the set in proportion:
`8192 η ≤ δ`, all points within `192 δ`.  As in the exact case every step shrinks the triangle over the edge.
-/

set_option linter.unusedSectionVars false
set_option synthInstance.maxSize 1000

namespace Auburn
open V2

section
variable {X : Set (V2 ℝ)} {δ η τ w w' : ℝ} {d b c a ub uc u p : V2 ℝ}

/-- the set reaches at least `δ` in every direction -/
def Deep (X : Set (V2 ℝ)) (δ : ℝ) : Prop := ∀ u : V2 ℝ, lengthSq u = 1 → ∃ x ∈ X, δ ≤ u.dot x

/-- a computed point -/
structure NPt (X : Set (V2 ℝ)) (δ η : ℝ) (p : V2 ℝ) : Prop where
  size : lengthSq p ≤ (192 * δ) ^ 2
  near : ∃ x ∈ X, lengthSq (p - x) ≤ η ^ 2

/-- a line at `p` that nearly supports the set, with the disc below it -/
structure NSup (X : Set (V2 ℝ)) (δ : ℝ) (u p : V2 ℝ) : Prop where
  lu : lengthSq u ≤ 1
  sup : ∀ m ∈ X, u.dot m ≤ u.dot p + δ / 8
  pos : 3 / 4 * δ ≤ u.dot p

/-- an edge `b c` with outward normal `d` and length `w` -/
structure NEdge (X : Set (V2 ℝ)) (δ η τ : ℝ) (d b c : V2 ℝ) (w : ℝ) : Prop where
  unit : lengthSq d = 1
  perp : d.dot b = d.dot c
  le : d.dot b ≤ η
  hb : NPt X δ η b
  hc : NPt X δ η c
  w0 : 0 < w
  wlo : 8 / 10 * δ ≤ w
  hw : w ^ 2 = lengthSq (c - b)
  pb : -(τ * w) ≤ (c - b).dot (-b)
  pc : -(τ * w) ≤ (b - c).dot (-c)

theorem NEdge.symm (h : NEdge X δ η τ d b c w) : NEdge X δ η τ d c b w :=
  ⟨h.unit, h.perp.symm, h.perp ▸ h.le, h.hc, h.hb, h.w0, h.wlo, by rw [lengthSq_sub_comm]; exact h.hw, h.pc, h.pb⟩

/-! ## scalars -/

theorem le_of_sq {x y : ℝ} (hy : 0 ≤ y) (h : x ^ 2 ≤ y ^ 2) : x ≤ y := (abs_le_of_sq_le_sq' h hy).2

/-- `u · v ≤ r` for `|u| ≤ 1`, `|v| ≤ r` -/
theorem dot_le_of {u v : V2 ℝ} {r : ℝ} (hr : 0 ≤ r) (hu : lengthSq u ≤ 1) (hv : lengthSq v ≤ r ^ 2) : u.dot v ≤ r := by
  refine le_of_sq hr ((dot_sq_le u v).trans ?_)
  calc lengthSq u * lengthSq v ≤ 1 * r ^ 2 := mul_le_mul hu hv (lengthSq_nonneg _) (by norm_num)
    _ = _ := one_mul _

theorem neg_le_dot_of {u v : V2 ℝ} {r : ℝ} (hr : 0 ≤ r) (hu : lengthSq u ≤ 1) (hv : lengthSq v ≤ r ^ 2) : -r ≤ u.dot v := by
  have := dot_le_of (u := u) (v := -v) hr hu (by
    have : lengthSq (-v) = lengthSq v := by simp only [lengthSq_def, neg_x, neg_y]; ring
    rw [this]; exact hv)
  rw [dot_neg] at this
  linarith

theorem NPt.dot_le (hη : 0 ≤ η) (hp : NPt X δ η p) (hu : lengthSq u ≤ 1) {r : ℝ} (h : ∀ m ∈ X, u.dot m ≤ r) :
    u.dot p ≤ r + η := by
  obtain ⟨x, hx, hd⟩ := hp.near
  have h1 := dot_le_of hη hu hd
  rw [dot_sub] at h1
  linarith [h x hx]

theorem lengthSq_sub_le {p q : V2 ℝ} {r : ℝ} (hp : lengthSq p ≤ r ^ 2) (hq : lengthSq q ≤ r ^ 2) :
    lengthSq (p - q) ≤ (2 * r) ^ 2 := by
  have h : lengthSq (p - q) + lengthSq (p + q) = 2 * lengthSq p + 2 * lengthSq q := by
    simp only [lengthSq_def, sub_x, sub_y, add_x, add_y]; ring
  have := lengthSq_nonneg (p + q)
  linarith

theorem NPt.diam (hp : NPt X δ η p) (hq : NPt X δ η a) : lengthSq (p - a) ≤ (384 * δ) ^ 2 := by
  have := lengthSq_sub_le hp.size hq.size
  rwa [show 2 * (192 * δ) = 384 * δ by ring] at this

/-- the foot of the origin on the new edge is before the new point -/
theorem foot_new {p β ξ h : ℝ} (hδ : 0 < δ) (hη : 0 < η) (hr : 8192 * η ≤ δ) (hτ : τ ≤ δ / 4) (hβ : -η ≤ β)
    (hp : -τ ≤ p) (hh : 9 / 10 * δ ≤ h) (hw0 : 0 < w') (hw : w' ≤ 384 * δ) (hG : h * p - β * ξ ≤ η * w') :
    h ^ 2 / 2 ≤ ξ * (ξ + p) + h * (h + β) := by
  have hh0 : δ / 2 ≤ h := by linarith
  have hhp : 0 < h := by linarith
  have k1 : -(h * η) ≤ h * β := by
    have := mul_le_mul_of_nonneg_left hβ hhp.le
    linarith
  have k2 : h * η ≤ h * (δ / 8192) := mul_le_mul_of_nonneg_left (by linarith) hhp.le
  have k3 : h * (δ / 2) ≤ h * h := mul_le_mul_of_nonneg_left hh0 hhp.le
  have k4 : δ / 2 * (δ / 2) ≤ h * h := mul_le_mul hh0 hh0 (by positivity) hhp.le
  have k5 : -(δ ^ 2 / 64) ≤ ξ * (ξ + p) := by
    rcases le_total 0 ξ with hξ | hξ
    · have q1 := mul_le_mul_of_nonneg_left (show -(δ / 4) ≤ p by linarith) hξ
      have q2 := sq_nonneg (ξ - δ / 8)
      linarith
    · have q1 := mul_le_mul_of_nonpos_right hG hξ
      have q2 : η * w' ≤ 3 / 64 * δ ^ 2 := by
        have := mul_le_mul (show η ≤ δ / 8192 by linarith) hw hw0.le (by positivity)
        linarith
      have q3 := mul_le_mul_of_nonpos_right q2 hξ
      have q4 : -(η * ξ ^ 2) ≤ β * ξ ^ 2 := by
        have := mul_le_mul_of_nonneg_right hβ (sq_nonneg ξ)
        linarith
      have q5 : h * ξ ^ 2 - η * ξ ^ 2 ≥ δ / 2 * ξ ^ 2 := by
        have := mul_le_mul_of_nonneg_right (show δ / 2 ≤ h - η by linarith) (sq_nonneg ξ)
        linarith
      have q6 : -(δ ^ 3 / 256) ≤ h * (ξ * (ξ + p)) := by
        have := mul_nonneg hδ.le (sq_nonneg (ξ + 3 / 64 * δ))
        have : 0 ≤ δ ^ 3 := by positivity
        linarith
      have q7 : δ ^ 3 / 256 ≤ h * (δ ^ 2 / 64) := by
        have := mul_le_mul_of_nonneg_right hh0 (show 0 ≤ δ ^ 2 / 64 by positivity)
        have : 0 ≤ δ ^ 3 := by positivity
        linarith
      refine le_of_mul_le_mul_left ?_ hhp
      linarith
  linarith [mul_pos hhp hhp]

/-- the foot of the origin on the new edge is after the old point -/
theorem foot_old {p β ξ h : ℝ} (hδ : 0 < δ) (hη : 0 < η) (hr : 8192 * η ≤ δ) (hτ : δ / 8 ≤ τ) (hβ : -η ≤ β)
    (hp : -τ ≤ p) (hh : 9 / 10 * δ ≤ h) (hw0 : 0 < w') (hw : w' ≤ 384 * δ) (hw2 : w' ^ 2 = (ξ + p) ^ 2 + (h + β) ^ 2)
    (hG : h * p - β * ξ ≤ η * w') :
    -((τ + η) * w') ≤ (ξ + p) * p + (h + β) * β := by
  have hh0 : δ / 2 ≤ h := by linarith
  have l1 : |ξ + p| ≤ w' := abs_le_of_sq_le_sq (by linarith [sq_nonneg (h + β)]) hw0.le
  have l2 : |h + β| ≤ w' := abs_le_of_sq_le_sq (by linarith [sq_nonneg (ξ + p)]) hw0.le
  have l3 := (abs_le.1 l1)
  have l4 := (abs_le.1 l2)
  have k1 : -(η * w') ≤ (h + β) * β := by
    rcases le_total 0 β with hb | hb
    · have := mul_nonneg (show 0 ≤ h + β by linarith) hb
      have := mul_nonneg hη.le hw0.le
      linarith
    · have q1 := mul_le_mul_of_nonneg_left hβ (show 0 ≤ h + β by linarith)
      have q2 := mul_le_mul_of_nonneg_left l4.2 hη.le
      linarith
  have hτ0 : 0 < τ := by linarith
  have k2 : -(τ * w') ≤ (ξ + p) * p := by
    rcases le_total 0 (ξ + p) with h1 | h1
    · have q1 := mul_le_mul_of_nonneg_left hp h1
      have q2 := mul_le_mul_of_nonneg_left l3.2 hτ0.le
      linarith
    · rcases le_total p 0 with h2 | h2
      · have := mul_nonneg_of_nonpos_of_nonpos h1 h2
        have := mul_pos hτ0 hw0
        linarith
      · have q2 : η * w' ≤ 3 / 64 * δ ^ 2 := by
          have := mul_le_mul (show η ≤ δ / 8192 by linarith) hw hw0.le (by positivity)
          linarith
        have hξ : ξ ≤ 0 := by linarith
        have q3 : β * ξ ≤ η * p + η * w' := by
          have q4 := mul_le_mul_of_nonpos_right hβ hξ
          have q5 := mul_le_mul_of_nonneg_left (show -ξ ≤ p + w' by linarith) hη.le
          linarith
        have q4 : (h - η) * p ≤ 3 / 32 * δ ^ 2 := by linarith
        have q5 : 89 / 100 * δ * p ≤ (h - η) * p := mul_le_mul_of_nonneg_right (by linarith) h2
        have q6 : p ≤ δ / 8 := by
          refine le_of_mul_le_mul_left ?_ hδ
          linarith [sq_nonneg δ]
        have q7 := mul_le_mul_of_nonneg_right l3.1 h2
        have q8 := mul_le_mul_of_nonneg_left (q6.trans hτ) hw0.le
        linarith
  linarith

/-! ## one step -/

/-- height of a nearly extreme point over the edge -/
theorem disc_height (_hδ : 0 < δ) (hD : Deep X δ) (hd : lengthSq d = 1) (ha : ∀ m ∈ X, d.dot m ≤ d.dot a + η) :
    δ - η ≤ d.dot a := by
  obtain ⟨x, hx, h⟩ := hD d hd
  have h1 := ha x hx
  linarith

theorem NEdge.frame (h : NEdge X δ η τ d b c w) : ∃ e : ℝ, e ^ 2 = 1 ∧ d.cross c = d.cross b + e * w := by
  have h1 := frame_lengthSq d (c - b)
  rw [h.unit, one_mul, ← h.hw, dot_sub, h.perp, sub_self, cross_sub] at h1
  have hw := h.w0.ne'
  refine ⟨(d.cross c - d.cross b) / w, ?_, ?_⟩
  · rw [div_pow, div_eq_one_iff_eq (pow_ne_zero _ hw)]; linarith
  · rw [div_mul_cancel₀ _ hw]; ring

theorem unit_dot (hd : lengthSq d = 1) (v u : V2 ℝ) : v.dot u = d.dot v * d.dot u + d.cross v * d.cross u := by
  rw [← frame_dot, hd, one_mul]
theorem unit_cross (hd : lengthSq d = 1) (v u : V2 ℝ) : v.cross u = d.dot v * d.cross u - d.cross v * d.dot u := by
  rw [← frame_cross, hd, one_mul]
theorem unit_lengthSq (hd : lengthSq d = 1) (v : V2 ℝ) : lengthSq v = d.dot v ^ 2 + d.cross v ^ 2 := by
  rw [← frame_lengthSq, hd, one_mul]

/-- what is assumed of one step: the new point `a`, at distance `w'` from `b` -/
structure NStep (X : Set (V2 ℝ)) (δ η τ : ℝ) (d b c a : V2 ℝ) (w w' : ℝ) : Prop where
  e : NEdge X δ η τ d b c w
  pos : 0 < δ
  noise : 0 < η
  small : 8192 * η ≤ δ
  disc : Deep X δ
  pt : NPt X δ η a
  ext : ∀ m ∈ X, d.dot m ≤ d.dot a + δ / 10
  w0 : 0 < w'
  hw : w' ^ 2 = lengthSq (b - a)

/-- the unit outward normal of the next edge -/
noncomputable def nextUnit (d b c a : V2 ℝ) (w w' : ℝ) : V2 ℝ := scale (1 / (d.dot (a - b) * w * w')) (outNormal a b c)

variable (h : NStep X δ η τ d b c a w w')
include h

theorem NStep.height : 89 / 100 * δ ≤ d.dot (a - b) := by
  have := disc_height h.pos h.disc h.e.unit h.ext
  rw [dot_sub]; linarith [h.e.le, h.small, h.pos]

theorem NStep.H0 : 0 < d.dot (a - b) := by have := h.height; have := h.small; have := h.pos; linarith

theorem NStep.cross_sq : (b - a).cross (c - a) ^ 2 = (d.dot (a - b) * w) ^ 2 := by
  obtain ⟨e, e1, e2⟩ := h.e.frame
  have : (b - a).cross (c - a) = d.dot (a - b) * (-(e * w)) := by
    rw [unit_cross h.e.unit]
    simp only [dot_sub, cross_sub, e2, ← h.e.perp]; ring
  rw [this, mul_pow, neg_sq, mul_pow, e1, one_mul, mul_pow]

theorem NStep.next_pos : 0 < d.dot (a - b) * w * w' := mul_pos (mul_pos h.H0 h.e.w0) h.w0

theorem NStep.next_unit : lengthSq (nextUnit d b c a w w') = 1 := by
  rw [nextUnit, lengthSq_scale, outNormal_lengthSq, h.cross_sq, ← h.hw]
  have := h.next_pos.ne'
  rw [div_pow, one_pow, one_div, inv_mul_eq_iff_eq_mul₀ (pow_ne_zero _ this)]
  ring

theorem NStep.outNormal_eq : outNormal a b c = scale (d.dot (a - b) * w * w') (nextUnit d b c a w w') := by
  have := h.next_pos.ne'
  rw [nextUnit]
  have e : ∀ x : ℝ, x = d.dot (a - b) * w * w' * (1 / (d.dot (a - b) * w * w') * x) := by
    intro x
    rw [← mul_assoc, mul_one_div_cancel this, one_mul]
  ext <;> simp only [scale_x, scale_y] <;> exact e _

theorem NStep.wle : w' ≤ 384 * δ := by
  refine le_of_sq (by linarith [h.pos]) ?_
  rw [h.hw]; exact h.e.hb.diam h.pt

/-- the frame of the old edge -/
theorem NStep.coords : ∃ p β ξ k : ℝ, -η ≤ β ∧ -τ ≤ p ∧ 9 / 10 * δ ≤ k ∧ w' ^ 2 = (ξ + p) ^ 2 + (k + β) ^ 2 ∧
    (outNormal a b c).dot a = d.dot (a - b) * w * (k * p - β * ξ) ∧
    (b - a).dot (-a) = ξ * (ξ + p) + k * (k + β) ∧ (a - b).dot (-b) = (ξ + p) * p + (k + β) * β := by
  obtain ⟨e, e1, e2⟩ := h.e.frame
  have hu := h.e.unit
  have hd := h.e.perp
  refine ⟨-(e * d.cross b), -d.dot b, e * d.cross a, d.dot a, by linarith [h.e.le], ?_,
    by have := disc_height h.pos h.disc hu h.ext; linarith, ?_, ?_, ?_, ?_⟩
  · have := h.e.pb
    rw [unit_dot hu, dot_sub, cross_sub, e2, hd, sub_self, zero_mul, zero_add, cross_neg] at this
    refine le_of_mul_le_mul_right ?_ h.e.w0
    linarith
  · rw [h.hw, unit_lengthSq hu, dot_sub, cross_sub]
    linear_combination (-(d.cross b - d.cross a) ^ 2) * e1
  · rw [outNormal_dot, unit_cross hu, unit_cross hu (b - a)]
    simp only [dot_sub, cross_sub, e2, ← hd]
    ring
  · rw [unit_dot hu]
    simp only [dot_sub, cross_sub, dot_neg, cross_neg]
    linear_combination (-(d.cross b - d.cross a) * (-d.cross a)) * e1
  · rw [unit_dot hu]
    simp only [dot_sub, cross_sub, dot_neg, cross_neg]
    linear_combination (-(d.cross a - d.cross b) * (-d.cross b)) * e1

/-- **the next edge** -/
theorem NStep.next (h1 : δ / 8 ≤ τ) (h2 : τ ≤ δ / 4) (hside : (nextUnit d b c a w w').dot a ≤ η) :
    NEdge X δ η (τ + η) (nextUnit d b c a w w') a b w' ∧ δ ^ 2 / 4 ≤ (b - a).dot (-a) := by
  obtain ⟨p, β, ξ, k, hβ, hp, hk, hw, e1, e2, e3⟩ := h.coords
  have hG : k * p - β * ξ ≤ η * w' := by
    rw [h.outNormal_eq, scale_dot] at e1
    have e4 : w' * (nextUnit d b c a w w').dot a = k * p - β * ξ :=
      mul_left_cancel₀ (mul_pos h.H0 h.e.w0).ne' (by linear_combination e1)
    rw [← e4, mul_comm η]
    exact mul_le_mul_of_nonneg_left hside h.w0.le
  have f1 := foot_new h.pos h.noise h.small h2 hβ hp hk h.w0 h.wle hG
  have f2 := foot_old h.pos h.noise h.small h1 hβ hp hk h.w0 h.wle hw hG
  have hs := h.small
  have hδ := h.pos
  have hk2 : (δ * (9 / 10)) ^ 2 ≤ k ^ 2 := pow_le_pow_left₀ (by positivity) (by linarith) 2
  have hbig : δ ^ 2 / 4 ≤ (b - a).dot (-a) := by
    rw [e2]
    have := sq_nonneg δ
    linarith
  refine ⟨⟨h.next_unit, ?_, hside, h.pt, h.e.hb, h.w0, ?_, h.hw, ?_, ?_⟩, hbig⟩
  · rw [nextUnit, scale_dot, scale_dot, outNormal_perp]
  · have q1 := dot_le_of h.w0.le h.e.unit.le (by rw [lengthSq_sub_comm, h.hw] : lengthSq (a - b) ≤ w' ^ 2)
    have := h.height
    linarith
  · have : 0 ≤ (τ + η) * w' := mul_nonneg (by linarith [h.noise]) h.w0.le
    have := sq_nonneg δ
    linarith
  · rw [e3]; exact f2

/-- the closing over the next edge -/
theorem NStep.closing_next (u : V2 ℝ) : closing (nextUnit d b c a w w') a b d u * w = u.dot (b - c) * w' := by
  have e := Auburn.closing_next (a := a) h.e.perp u
  have e1 : closing (outNormal a b c) a b d u =
      d.dot (a - b) * w * w' * closing (nextUnit d b c a w w') a b d u := by
    rw [h.outNormal_eq]
    unfold closing
    simp only [scale_dot]; ring
  rw [e1, lengthSq_sub_comm, ← h.hw] at e
  have hH := h.H0.ne'
  have hw := h.w0.ne'
  refine mul_left_cancel₀ (mul_ne_zero hH hw) ?_
  linear_combination e

/-- the lines at the next edge -/
theorem NStep.sup_new : NSup X δ d a := by
  have := disc_height h.pos h.disc h.e.unit h.ext
  have := h.small
  have := h.pos
  refine ⟨h.e.unit.le, fun m hm => ?_, by linarith⟩
  linarith [h.ext m hm]

end

/-- the lines at both ends of an edge, not opening up beyond it -/
structure NWedge (X : Set (V2 ℝ)) (δ : ℝ) (d b c ub uc : V2 ℝ) : Prop where
  lb : NSup X δ ub b
  lc : NSup X δ uc c
  sb : 0 < ub.dot (b - c)
  sc : 0 < uc.dot (c - b)
  close : 0 ≤ closing d b c ub uc

section
variable {X : Set (V2 ℝ)} {δ η τ w w' : ℝ} {d b c a ub uc u p : V2 ℝ}

theorem NWedge.symm (h : NWedge X δ d b c ub uc) : NWedge X δ d c b uc ub :=
  ⟨h.lc, h.lb, h.sc, h.sb, by rw [closing_symm]; exact h.close⟩

theorem NEdge.dot_le_w (h : NEdge X δ η τ d b c w) (hu : lengthSq u ≤ 1) : u.dot (b - c) ≤ w :=
  dot_le_of h.w0.le hu (by rw [lengthSq_sub_comm, h.hw])

/-- a step from an edge with a line at `b` -/
theorem NStep.nextWedge (h : NStep X δ η τ d b c a w w') (hside : (nextUnit d b c a w w').dot a ≤ η)
    (hb : NSup X δ ub b) (hs : 0 ≤ ub.dot (b - c)) : NWedge X δ (nextUnit d b c a w w') a b d ub := by
  have hκ := h.closing_next ub
  have hw := h.e.w0
  have hw' := h.w0
  have hη := h.noise
  have hr := h.small
  have hδ := h.pos
  have hH := h.height
  have hκ0 : 0 ≤ closing (nextUnit d b c a w w') a b d ub :=
    nonneg_of_mul_nonneg_left (by rw [hκ]; exact mul_nonneg hs hw'.le) hw
  have hκ1 : closing (nextUnit d b c a w w') a b d ub ≤ w' := by
    refine le_of_mul_le_mul_right ?_ hw
    rw [hκ, mul_comm]
    exact mul_le_mul_of_nonneg_left (h.e.dot_le_w hb.lu) hw'.le
  refine ⟨h.sup_new, hb, h.H0, ?_, hκ0⟩
  have id := wedge_identity (ub := d) (uc := ub) (d := nextUnit d b c a w w') (b := a) (c := b)
    (by intro h0; have := h.next_unit; rw [h0] at this; simp [lengthSq_def] at this)
    (by rw [nextUnit, scale_dot, scale_dot, outNormal_perp])
  rw [h.next_unit, one_mul, one_mul] at id
  have hs' : -(δ / 8 + η) ≤ ub.dot (b - a) := by
    have := h.pt.dot_le hη.le hb.lu hb.sup
    rw [dot_sub]; linarith
  have hda : d.dot a = d.dot (a - b) + d.dot b := by rw [dot_sub]; ring
  rw [hda] at id
  set κ := closing (nextUnit d b c a w w') a b d ub
  set s' := ub.dot (b - a)
  set H := d.dot (a - b)
  set g := (nextUnit d b c a w w').dot a
  -- s' (-d b) = H ub b - g κ
  have e1 : s' * (-d.dot b) = H * ub.dot b - g * κ := by linarith
  have e2 : g * κ ≤ δ ^ 2 / 16 := by
    have q1 := mul_le_mul_of_nonneg_right hside hκ0
    have q2 := mul_le_mul_of_nonneg_left (hκ1.trans h.wle) hη.le
    have q3 := mul_le_mul_of_nonneg_right hr hδ.le
    linarith [sq_nonneg δ]
  have e3 : δ ^ 2 / 2 ≤ H * ub.dot b := by
    have := mul_le_mul (show 85 / 100 * δ ≤ H by linarith) hb.pos (by positivity) (by linarith)
    linarith [sq_nonneg δ]
  by_contra hcon
  push Not at hcon
  have e4 : s' * (-d.dot b) ≤ δ ^ 2 / 16 := by
    rcases le_total (d.dot b) 0 with h0 | h0
    · have := mul_nonpos_of_nonpos_of_nonneg hcon (neg_nonneg.2 h0)
      linarith [sq_nonneg δ]
    · have q1 := mul_le_mul_of_nonneg_right (neg_le_neg hs') h0
      have q2 := mul_le_mul_of_nonneg_left h.e.le (show 0 ≤ δ / 8 + η by linarith)
      have q3 := mul_le_mul (show δ / 8 + η ≤ δ by linarith) (show η ≤ δ / 16 by linarith) hη.le hδ.le
      linarith
  have : 0 < δ ^ 2 := by positivity
  linarith

/-- `2 area ≤ A` of the triangle over the edge -/
def NNarrow (A : ℝ) (d b c ub uc : V2 ℝ) (w : ℝ) : Prop :=
  ub.dot (b - c) * uc.dot (c - b) * w ≤ A * closing d b c ub uc

theorem NNarrow.symm {A : ℝ} (h : NNarrow A d b c ub uc w) : NNarrow A d c b uc ub w := by
  unfold NNarrow at *
  rw [closing_symm]; linarith

theorem NStep.narrow_next (h : NStep X δ η τ d b c a w w') {A : ℝ}
    (key : d.dot (a - b) * ub.dot (b - a) * w ≤ A * ub.dot (b - c)) :
    NNarrow A (nextUnit d b c a w w') a b d ub w' := by
  have hκ := h.closing_next ub
  unfold NNarrow
  refine le_of_mul_le_mul_right ?_ h.e.w0
  rw [mul_assoc A, hκ]
  have := mul_le_mul_of_nonneg_right key h.w0.le
  linarith

/-- the lines are not close to the far ends -/
theorem NWedge.lower (_hδ : 0 < δ) (hη : 0 < η) (hr : 8192 * η ≤ δ) (e : NEdge X δ η τ d b c w)
    (hw : NWedge X δ d b c ub uc) : 74 / 100 * δ * (ub.dot (b - c) + uc.dot (c - b)) ≤ ub.dot (b - c) * uc.dot (c - b) := by
  have id := wedge_identity (ub := ub) (uc := uc) (d := d) (b := b) (c := c)
    (by intro h0; have := e.unit; rw [h0] at this; simp [lengthSq_def] at this) e.perp
  rw [e.unit, one_mul, one_mul] at id
  have hs := hw.sb
  have ht := hw.sc
  have hκ : closing d b c ub uc ≤ ub.dot (b - c) + uc.dot (c - b) := by
    unfold closing
    have q1 := dot_le_of (u := d) (v := ub) zero_le_one e.unit.le (by rw [one_pow]; exact hw.lb.lu)
    have q2 := dot_le_of (u := d) (v := uc) zero_le_one e.unit.le (by rw [one_pow]; exact hw.lc.lu)
    have q3 := mul_le_mul_of_nonneg_left q1 ht.le
    have q4 := mul_le_mul_of_nonneg_left q2 hs.le
    linarith
  have q1 := mul_le_mul_of_nonneg_left hw.lb.pos ht.le
  have q2 := mul_le_mul_of_nonneg_left hw.lc.pos hs.le
  have q3 := mul_le_mul_of_nonneg_right e.le hw.close
  have q4 := mul_le_mul_of_nonneg_left hκ hη.le
  have q5 := mul_le_mul_of_nonneg_right (show η ≤ δ / 100 by linarith) (show 0 ≤ ub.dot (b - c) + uc.dot (c - b) by linarith)
  linarith

theorem NWedge.t_ge (hδ : 0 < δ) (hη : 0 < η) (hr : 8192 * η ≤ δ) (e : NEdge X δ η τ d b c w)
    (hw : NWedge X δ d b c ub uc) : 74 / 100 * δ ≤ uc.dot (c - b) := by
  have := hw.lower hδ hη hr e
  have hs := hw.sb
  have ht := mul_pos hδ hw.sc
  refine le_of_mul_le_mul_left ?_ hs
  linarith

/-- **Depth** -/
theorem NWedge.depth (hδ : 0 < δ) (hη : 0 < η) (hr : 8192 * η ≤ δ) (e : NEdge X δ η τ d b c w)
    (hw : NWedge X δ d b c ub uc) {A : ℝ} (hκ : 0 < closing d b c ub uc) (hN : NNarrow A d b c ub uc w) :
    δ ^ 2 ≤ A := by
  have hl := hw.lower hδ hη hr e
  have hs := hw.sb
  have ht := hw.sc
  have hκ1 : closing d b c ub uc ≤ ub.dot (b - c) + uc.dot (c - b) := by
    unfold closing
    have q1 := dot_le_of (u := d) (v := ub) zero_le_one e.unit.le (by rw [one_pow]; exact hw.lb.lu)
    have q2 := dot_le_of (u := d) (v := uc) zero_le_one e.unit.le (by rw [one_pow]; exact hw.lc.lu)
    have q3 := mul_le_mul_of_nonneg_left q1 ht.le
    have q4 := mul_le_mul_of_nonneg_left q2 hs.le
    linarith
  have w1 := e.dot_le_w hw.lb.lu
  have w2 := e.symm.dot_le_w hw.lc.lu
  unfold NNarrow at hN
  set κ := closing d b c ub uc
  set s := ub.dot (b - c)
  set t := uc.dot (c - b)
  have hst := mul_pos hs ht
  have k4 : 148 / 100 * δ ≤ w := by
    refine le_of_mul_le_mul_right ?_ hst
    have q1 := mul_le_mul_of_nonneg_left w1 (mul_nonneg hδ.le ht.le)
    have q2 := mul_le_mul_of_nonneg_left w2 (mul_nonneg hδ.le hs.le)
    have q3 := mul_le_mul_of_nonneg_left hl e.w0.le
    linarith
  have k5 : 74 / 100 * δ * κ ≤ s * t := by
    have := mul_le_mul_of_nonneg_left hκ1 hδ.le
    linarith
  have k6 := mul_le_mul k4 k5 (by positivity) e.w0.le
  refine le_of_mul_le_mul_right ?_ hκ
  have : 0 < δ ^ 2 * κ := by positivity
  linarith

/-- **Rate** -/
theorem NStep.rate (h : NStep X δ η τ d b c a w w') (hw : NWedge X δ d b c ub uc) {A : ℝ}
    (hκ : 0 < closing d b c ub uc) (hN : NNarrow A d b c ub uc w) :
    NNarrow (35 / 100 * A) (nextUnit d b c a w w') a b d ub w' := by
  refine h.narrow_next ?_
  have hη := h.noise
  have hr := h.small
  have hδ := h.pos
  have ht1 := hw.t_ge hδ hη hr h.e
  have id := cut_identity (ub := ub) (uc := uc) (a := a) (d := d) (b := b) (c := c)
    (by intro h0; have := h.e.unit; rw [h0] at this; simp [lengthSq_def] at this) h.e.perp
  rw [h.e.unit, one_mul, one_mul] at id
  have hc : -(δ / 8 + η) ≤ uc.dot (c - a) := by
    have := h.pt.dot_le hη.le hw.lc.lu hw.lc.sup
    rw [dot_sub]; linarith
  unfold NNarrow at hN
  have hH := h.H0
  have hs := hw.sb
  have ht := hw.sc
  have hww := h.e.w0
  set κ := closing d b c ub uc
  set s := ub.dot (b - c)
  set t := uc.dot (c - b)
  set s' := ub.dot (b - a)
  set H := d.dot (a - b)
  -- t s' ≤ (1 + ν) s t - H κ
  have k1 : t * s' ≤ 118 / 100 * (s * t) - H * κ := by
    have q1 := mul_le_mul_of_nonneg_left hc hs.le
    have q2 := mul_le_mul_of_nonneg_left (show δ / 8 + η ≤ 18 / 100 * t by linarith) hs.le
    linarith
  have k2 : 4 * κ * (H * s') ≤ (118 / 100) ^ 2 * (s ^ 2 * t) := by
    refine le_of_mul_le_mul_left ?_ ht
    have q1 := mul_le_mul_of_nonneg_left k1 (show 0 ≤ 4 * κ * H by positivity)
    have q2 := sq_nonneg (118 / 100 * (s * t) - 2 * (H * κ))
    calc t * (4 * κ * (H * s')) = 4 * κ * H * (t * s') := by ring
      _ ≤ _ := q1
      _ ≤ (118 / 100 * (s * t)) ^ 2 := by linarith
      _ = _ := by ring
  have k3 := mul_le_mul_of_nonneg_right k2 hww.le
  have k4 := mul_le_mul_of_nonneg_left hN hs.le
  have hA : 0 ≤ A := by
    by_contra hcon
    push Not at hcon
    have q1 := mul_neg_of_neg_of_pos hcon hκ
    have q2 := mul_pos (mul_pos hs ht) hww
    linarith
  have k5 : 0 ≤ s * (A * κ) := by positivity
  refine le_of_mul_le_mul_left ?_ (show 0 < 4 * κ by positivity)
  linarith

/-- the first triangle -/
theorem NStep.first (h : NStep X δ η τ d b c a w w') (hw : NWedge X δ d b c ub uc) :
    NNarrow (118 / 100 * (384 * δ) ^ 2) (nextUnit d b c a w w') a b d ub w' := by
  refine h.narrow_next ?_
  have hη := h.noise
  have hr := h.small
  have hδ := h.pos
  have ht1 := hw.t_ge hδ hη hr h.e
  have id := cut_identity (ub := ub) (uc := uc) (a := a) (d := d) (b := b) (c := c)
    (by intro h0; have := h.e.unit; rw [h0] at this; simp [lengthSq_def] at this) h.e.perp
  rw [h.e.unit, one_mul, one_mul] at id
  have hc : -(δ / 8 + η) ≤ uc.dot (c - a) := by
    have := h.pt.dot_le hη.le hw.lc.lu hw.lc.sup
    rw [dot_sub]; linarith
  have hH := h.H0
  have hH1 : d.dot (a - b) ≤ 384 * δ := dot_le_of (by positivity) h.e.unit.le (h.pt.diam h.e.hb)
  have hw1 : w ≤ 384 * δ := le_of_sq (by positivity) (by rw [h.e.hw]; exact h.e.hc.diam h.e.hb)
  have hs := hw.sb
  have ht := hw.sc
  have hκ := hw.close
  set κ := closing d b c ub uc
  set s := ub.dot (b - c)
  set t := uc.dot (c - b)
  set s' := ub.dot (b - a)
  set H := d.dot (a - b)
  have k1 : t * s' ≤ t * (118 / 100 * s) := by
    have q1 := mul_le_mul_of_nonneg_left hc hs.le
    have q2 := mul_le_mul_of_nonneg_left (show δ / 8 + η ≤ 18 / 100 * t by linarith) hs.le
    have q3 := mul_nonneg hH.le hκ
    linarith
  have k2 : s' ≤ 118 / 100 * s := le_of_mul_le_mul_left k1 ht
  have k3 := mul_le_mul hH1 hw1 h.e.w0.le (by positivity)
  have k4 := mul_le_mul_of_nonneg_left k2 (mul_nonneg hH.le h.e.w0.le)
  have k5 := mul_le_mul_of_nonneg_right k3 (show 0 ≤ 118 / 100 * s by positivity)
  linarith

/-! ## the invariant -/

/-- an edge after `k` points -/
def NInv (X : Set (V2 ℝ)) (δ η : ℝ) (k : Nat) (d b c : V2 ℝ) (w : ℝ) : Prop :=
  NEdge X δ η (δ / 8 + k * η) d b c w ∧ ∃ ub uc, NSup X δ ub b ∧ NSup X δ uc c ∧ 0 ≤ ub.dot (b - c) ∧ 0 ≤ uc.dot (c - b) ∧
    (k = 2 ∨ NWedge X δ d b c ub uc ∧
      (k = 3 ∨ 0 < closing d b c ub uc ∧ ∃ j, k = j + 4 ∧ NNarrow ((35 / 100) ^ j * (118 / 100 * (384 * δ) ^ 2)) d b c ub uc w))

theorem NInv.symm {k : Nat} (h : NInv X δ η k d b c w) : NInv X δ η k d c b w := by
  obtain ⟨e, ub, uc, sb, sc, s, t, h⟩ := h
  refine ⟨e.symm, uc, ub, sc, sb, t, s, ?_⟩
  rcases h with h | ⟨hw, h⟩
  · exact Or.inl h
  · refine Or.inr ⟨hw.symm, ?_⟩
    rcases h with h | ⟨hκ, j, hj, hN⟩
    · exact Or.inl h
    · exact Or.inr ⟨by rw [closing_symm]; exact hκ, j, hj, hN.symm⟩

/-- **the invariant is kept**, and the foot of the origin is where the code expects it -/
theorem NInv.next {k : Nat} (hk : k ≤ 100) (hI : NInv X δ η k d b c w) (hδ : 0 < δ) (hη : 0 < η) (hr : 8192 * η ≤ δ)
    (hD : Deep X δ) (ha : NPt X δ η a) (hext : ∀ m ∈ X, d.dot m ≤ d.dot a + δ / 10) (hw0 : 0 < w')
    (hw' : w' ^ 2 = lengthSq (b - a)) (hside : (nextUnit d b c a w w').dot a ≤ η) :
    NInv X δ η (k + 1) (nextUnit d b c a w w') a b w' ∧ δ ^ 2 / 4 ≤ (b - a).dot (-a) := by
  obtain ⟨e, ub, uc, sb, sc, s, t, hI⟩ := hI
  have st : NStep X δ η (δ / 8 + k * η) d b c a w w' := ⟨e, hδ, hη, hr, hD, ha, hext, hw0, hw'⟩
  have hk' : (k : ℝ) ≤ 100 := by exact_mod_cast hk
  have hk0 : (0 : ℝ) ≤ k := Nat.cast_nonneg k
  have q1 := mul_le_mul_of_nonneg_right hk' hη.le
  have q2 := mul_nonneg hk0 hη.le
  obtain ⟨n1, n2⟩ := st.next (by linarith) (by linarith) hside
  have nw := st.nextWedge hside sb s
  refine ⟨⟨?_, d, ub, st.sup_new, sb, st.H0.le, nw.sc.le, Or.inr ⟨nw, ?_⟩⟩, n2⟩
  · rw [show δ / 8 + ((k + 1 : ℕ) : ℝ) * η = δ / 8 + k * η + η by push_cast; ring]
    exact n1
  · rcases hI with rfl | ⟨wd, hI⟩
    · exact Or.inl rfl
    · right
      have hpos : 0 < closing (nextUnit d b c a w w') a b d ub := by
        have q : 0 < closing (nextUnit d b c a w w') a b d ub * w := by
          rw [st.closing_next]
          exact mul_pos wd.sb hw0
        exact pos_of_mul_pos_left q e.w0.le
      refine ⟨hpos, ?_⟩
      rcases hI with rfl | ⟨hκ, j, rfl, hN⟩
      · exact ⟨0, rfl, by rw [pow_zero, one_mul]; exact st.first wd⟩
      · refine ⟨j + 1, by omega, ?_⟩
        rw [pow_succ, mul_comm _ (35 / 100 : ℝ), mul_assoc]
        exact st.rate wd hκ hN

/-- **the first edge** -/
theorem NInv.start {d0 u1 b0 b1 : V2 ℝ} (hδ : 0 < δ) (hη : 0 < η) (hr : 8192 * η ≤ δ) (hD : Deep X δ)
    (hX : ∀ m ∈ X, lengthSq m ≤ (192 * δ) ^ 2) (h0 : NPt X δ η b0) (hd0 : lengthSq d0 = 1)
    (e0 : ∀ m ∈ X, d0.dot m ≤ d0.dot b0 + η) (h1 : NPt X δ η b1) {l : ℝ} (hl : 0 < l) (hu : lengthSq u1 = 1)
    (eu : -b0 = scale l u1) (e1 : ∀ m ∈ X, u1.dot m ≤ u1.dot b1 + η) (hw : w ^ 2 = lengthSq (b0 - b1)) (hw0 : 0 ≤ w) :
    189 / 100 * δ ≤ w ∧ δ ^ 2 ≤ (b0 - b1).dot (-b1) ∧ 9 / 10 * δ ≤ l ∧
    (lengthSq d = 1 → d.dot b1 = d.dot b0 → d.dot b1 ≤ η → NInv X δ η 2 d b1 b0 w) := by
  have k0 := disc_height hδ hD hd0 e0
  have k1 := disc_height hδ hD hu e1
  have hb0 : b0 = scale (-l) u1 := by
    have : b0 = -(-b0) := by simp
    rw [this, eu]; ext <;> simp
  have ll : lengthSq b0 = l ^ 2 := by rw [hb0, lengthSq_scale, hu, neg_sq, mul_one]
  have hl1 : 99 / 100 * δ ≤ l := by
    have := dot_le_of (u := d0) (v := b0) hl.le hd0.le ll.le
    linarith
  have hdot : b0.dot b1 = -(l * u1.dot b1) := by rw [hb0, scale_dot]; ring
  have hub : u1.dot (b1 - b0) = u1.dot b1 + l := by
    rw [dot_sub, hb0, dot_scale, dot_self, hu]; ring
  have hww : 189 / 100 * δ ≤ w := by
    have := dot_le_of (u := u1) (v := b1 - b0) hw0 hu.le (by rw [lengthSq_sub_comm, hw])
    rw [hub] at this
    linarith
  have hwp : 0 < w := by linarith
  have hprod : 9 / 10 * δ ^ 2 ≤ l * u1.dot b1 := by
    have := mul_le_mul hl1 (show 99 / 100 * δ ≤ u1.dot b1 by linarith) (by positivity) hl.le
    linarith [sq_nonneg δ]
  have hb1 : δ ^ 2 * (9 / 10) ≤ lengthSq b1 := by
    have q := dot_sq_le u1 b1
    rw [hu, one_mul] at q
    have := pow_le_pow_left₀ (by positivity) (show 99 / 100 * δ ≤ u1.dot b1 by linarith) 2
    linarith [sq_nonneg δ]
  have p1 : δ ^ 2 ≤ (b0 - b1).dot (-b1) := by
    rw [dot_neg, sub_dot, dot_self, hdot]
    linarith [sq_nonneg δ]
  have p2 : 0 ≤ (b1 - b0).dot (-b0) := by
    rw [dot_neg, sub_dot, dot_self, dot_comm b1, hdot, ll]
    linarith [sq_nonneg δ, sq_nonneg l]
  refine ⟨hww, p1, by linarith, fun hd hp hle => ?_⟩
  have hτ : 0 ≤ (δ / 8 + (2 : ℕ) * η) * w := by positivity
  have edge : NEdge X δ η (δ / 8 + (2 : ℕ) * η) d b1 b0 w :=
    ⟨hd, hp, hle, h1, h0, hwp, by linarith, hw, by linarith [sq_nonneg δ], by linarith⟩
  have sup1 : NSup X δ u1 b1 := ⟨hu.le, fun m hm => by linarith [e1 m hm], by linarith⟩
  suffices hs : ∃ u, NSup X δ u b0 ∧ 0 ≤ u.dot (b0 - b1) by
    obtain ⟨u, h2, h3⟩ := hs
    exact ⟨edge, u1, u, sup1, h2, by rw [hub]; linarith, h3, Or.inl rfl⟩
  rcases le_or_gt 0 (d0.dot (b0 - b1)) with hs | hs
  · exact ⟨d0, ⟨hd0.le, fun m hm => by linarith [e0 m hm], by linarith⟩, hs⟩
  · have hs2 : -(2 * η) ≤ d0.dot (b0 - b1) := by
      have := h1.dot_le hη.le hd0.le e0
      rw [dot_sub]; linarith
    obtain ⟨θ, hθ⟩ : ∃ θ, θ = -d0.dot (b0 - b1) / w := ⟨_, rfl⟩
    have hθ0 : 0 ≤ θ := by rw [hθ]; exact div_nonneg (by linarith) hw0
    have hθw : θ * w = -d0.dot (b0 - b1) := by rw [hθ, div_mul_cancel₀ _ hwp.ne']
    obtain ⟨e, he⟩ : ∃ e, e = scale (1 / w) (b0 - b1) := ⟨_, rfl⟩
    have hee : lengthSq e = 1 := by
      rw [he, lengthSq_scale, ← hw, div_pow, one_pow, one_div_mul_cancel (pow_ne_zero _ hwp.ne')]
    have hew : e.dot (b0 - b1) = w := by
      rw [he, scale_dot, dot_self, ← hw, sq, ← mul_assoc, one_div_mul_cancel hwp.ne', one_mul]
    have hed : d0.dot e * w = d0.dot (b0 - b1) := by
      rw [he, dot_scale, mul_comm (1 / w), mul_assoc, one_div_mul_cancel hwp.ne', mul_one]
    have hθd : θ * δ ≤ 2 * η := by
      have := mul_le_mul_of_nonneg_left hww hθ0
      have := mul_nonneg hθ0 hδ.le
      linarith
    refine ⟨d0 + scale θ e, ⟨?_, fun m hm => ?_, ?_⟩, ?_⟩
    · have : lengthSq (d0 + scale θ e) = lengthSq d0 + 2 * (θ * d0.dot e) + θ ^ 2 * lengthSq e := by
        simp only [lengthSq_def, dot_def, add_x, add_y, scale_x, scale_y]; ring
      rw [this, hd0, hee]
      have q : d0.dot e = -θ := mul_right_cancel₀ hwp.ne' (by rw [hed]; linarith)
      rw [q]
      linarith [sq_nonneg θ]
    · rw [add_dot, add_dot, scale_dot, scale_dot]
      have q := dot_le_of (u := e) (v := m - b0) (r := 384 * δ) (by positivity) hee.le
        (by have := lengthSq_sub_le (hX m hm) h0.size; rwa [show 2 * (192 * δ) = 384 * δ by ring] at this)
      rw [dot_sub] at q
      have q2 := mul_le_mul_of_nonneg_left q hθ0
      linarith [e0 m hm]
    · rw [add_dot, scale_dot]
      have q := neg_le_dot_of (u := e) (v := b0) (r := 192 * δ) (by positivity) hee.le h0.size
      have q2 := mul_le_mul_of_nonneg_left q hθ0
      linarith
    · rw [add_dot, scale_dot, hew, hθw]
      linarith

/-- it cannot go on for long -/
theorem NInv.bound {k : Nat} (hI : NInv X δ η k d b c w) (hδ : 0 < δ) (hη : 0 < η) (hr : 8192 * η ≤ δ) : k < 16 := by
  obtain ⟨e, ub, uc, sb, sc, s, t, rfl | ⟨wd, rfl | ⟨hκ, j, rfl, hN⟩⟩⟩ := hI
  · norm_num
  · norm_num
  · have h := wd.depth hδ hη hr e hκ hN
    by_contra hcon
    have hj : 12 ≤ j := by omega
    have h1 : ((35 : ℝ) / 100) ^ j ≤ (35 / 100) ^ 12 := pow_le_pow_of_le_one (by norm_num) (by norm_num) hj
    have h2 := mul_le_mul_of_nonneg_right h1 (show 0 ≤ 118 / 100 * (384 * δ) ^ 2 by positivity)
    have h3 : (0 : ℝ) < δ ^ 2 := by positivity
    have h4 : ((35 : ℝ) / 100) ^ 12 * (118 / 100 * (384 * δ) ^ 2) = (35 / 100) ^ 12 * (118 / 100) * 384 ^ 2 * δ ^ 2 := by ring
    have h5 : ((35 : ℝ) / 100) ^ 12 * (118 / 100) * 384 ^ 2 < 1 := by norm_num
    have h6 := mul_lt_mul_of_pos_right h5 h3
    linarith

end

end Auburn
