import Verif.Lib.GjkFull

/-!
# An invariant of the distance searches (`distance_to`, `sdfv`), exact arithmetic

These searches go on after a step that stays below the origin, and keep an edge of the simplex on
which the origin need not project.  What is preserved: the edge faces the origin, and every endpoint
of it beyond which the origin projects is "guarded": it is a support point of some direction `e` in
which the whole set lies below the origin and which makes no obtuse angle with the search direction.
-/

set_option linter.unusedSectionVars false
set_option synthInstance.maxSize 1000

namespace Auburn

open V2

section
variable {K : Type} [Field K] [LinearOrder K] [IsStrictOrderedRing K]
variable {M : Set (V2 K)}

/-- `p` is a support point of `M` in a direction `e` in which `M` does not reach beyond the origin,
and `e` makes no obtuse angle with `d` -/
def LowAt (M : Set (V2 K)) (p d : V2 K) : Prop :=
  ∃ e : V2 K, e ≠ 0 ∧ (∀ x ∈ M, e.dot x ≤ e.dot p) ∧ e.dot p ≤ 0 ∧ 0 ≤ e.dot d

/-- the origin projects to the side of `q` from `p`, or `p` is low -/
def Guard (M : Set (V2 K)) (p q d : V2 K) : Prop := 0 ≤ (q - p).dot (-p) ∨ LowAt M p d

/-- how the newest point `b` of the edge `b c` was found -/
def Prov (M : Set (V2 K)) (b c d : V2 K) : Prop :=
  (∃ e : V2 K, e ≠ 0 ∧ (∀ x ∈ M, e.dot x ≤ e.dot c) ∧ e.dot c ≤ 0) ∨
  ∃ e w : V2 K, (∀ x ∈ M, e.dot x ≤ e.dot b) ∧ e.dot c ≤ 0 ∧ e.dot c < e.dot b ∧ w.dot e = 0 ∧
    w.dot d < 0 ∧ 0 ≤ w.dot (-c)

/-- sign that puts `p` to the right of `q` -/
theorem exists_orient {d p q : V2 K} (hd : d ≠ 0) (hperp : d.dot p = d.dot q) (hne : p ≠ q) :
    ∃ τ : K, τ * τ = 1 ∧ 0 < τ * d.cross p - τ * d.cross q := by
  have h : d.cross p ≠ d.cross q := fun h => hne (frame_ext hd hperp h)
  rcases lt_or_gt_of_ne h with h | h
  · exact ⟨-1, by ring, by linarith⟩
  · exact ⟨1, by ring, by linarith⟩

theorem outNormal_frame {d p q a : V2 K} {τ : K} (hτ : τ * τ = 1) (hperp : d.dot p = d.dot q)
    (v : V2 K) :
    lengthSq d ^ 2 * (outNormal a p q).dot v = (d.dot a - d.dot p) *
      (τ * d.cross p - τ * d.cross q) * ((d.dot a - d.dot p) * (τ * d.cross v) +
        (τ * d.cross p - τ * d.cross a) * d.dot v) := by
  have e1 := frame_cross d (p - a) (q - a)
  have e2 := frame_cross d (p - a) v
  rw [dot_sub d p a, dot_sub d q a, cross_sub d p a, cross_sub d q a, ← hperp] at e1
  rw [dot_sub d p a, cross_sub d p a] at e2
  rw [outNormal_dot]
  have : lengthSq d ^ 2 * -((p - a).cross (q - a) * (p - a).cross v) =
      -((lengthSq d * (p - a).cross (q - a)) * (lengthSq d * (p - a).cross v)) := by ring
  rw [this, e1, e2]
  linear_combination (-((d.dot a - d.dot p) * (d.cross p - d.cross q) *
    ((d.dot a - d.dot p) * d.cross v + (d.cross p - d.cross a) * d.dot v))) * hτ

theorem frame_dot_orient {d : V2 K} {τ : K} (hτ : τ * τ = 1) (v w : V2 K) :
    lengthSq d * v.dot w = d.dot v * d.dot w + (τ * d.cross v) * (τ * d.cross w) := by
  rw [frame_dot]
  linear_combination (-(d.cross v * d.cross w)) * hτ

/-- coordinates of the step from an edge `p q` to a new point `a`, oriented so that `p` is to the
right of `q` -/
structure StepCoords (d p q a : V2 K) (τ px qx h ax f : K) : Prop where
  hτ : τ * τ = 1
  hpx : τ * d.cross p = px
  hqx : τ * d.cross q = qx
  hax : τ * d.cross a = ax
  hh : d.dot p = h
  hqh : d.dot q = h
  hf : d.dot a = f
  right : qx < px

variable {d p q a : V2 K} {τ px qx h ax f : K}

theorem StepCoords.exists (hd : d ≠ 0) (hperp : d.dot p = d.dot q) (hne : p ≠ q) (a : V2 K) :
    ∃ τ px qx h ax f : K, StepCoords d p q a τ px qx h ax f := by
  obtain ⟨τ, h1, h2⟩ := exists_orient hd hperp hne
  exact ⟨τ, _, _, _, _, _, h1, rfl, rfl, rfl, rfl, hperp.symm, rfl, by linarith⟩

/-- the outward normal of the edge `a p` against any vector -/
theorem StepCoords.normal (c : StepCoords d p q a τ px qx h ax f) (v : V2 K) :
    lengthSq d ^ 2 * (outNormal a p q).dot v =
      (f - h) * (px - qx) * ((f - h) * (τ * d.cross v) + (px - ax) * d.dot v) := by
  rw [outNormal_frame c.hτ (c.hh.trans c.hqh.symm), c.hpx, c.hqx, c.hax, c.hh, c.hf]

/-- the inward/outward normal of the other edge `a q` -/
theorem StepCoords.normal' (c : StepCoords d p q a τ px qx h ax f) (v : V2 K) :
    lengthSq d ^ 2 * (outNormal a q p).dot v =
      -((f - h) * (px - qx) * ((f - h) * (τ * d.cross v) + (qx - ax) * d.dot v)) := by
  rw [outNormal_frame c.hτ (c.hqh.trans c.hh.symm), c.hpx, c.hqx, c.hax, c.hqh, c.hf]; ring

theorem pos_iff_of_mul_eq {L x y c : K} (hL : 0 < L) (hc : 0 < c) (h : L * x = c * y) :
    (0 ≤ x ↔ 0 ≤ y) ∧ (x < 0 ↔ y < 0) := by
  have h1 : 0 ≤ x ↔ 0 ≤ y := by
    constructor
    · intro hx
      have := mul_nonneg hL.le hx
      rw [h] at this
      exact nonneg_of_mul_nonneg_right this hc
    · intro hy
      have := mul_nonneg hc.le hy
      rw [← h] at this
      exact nonneg_of_mul_nonneg_right this hL
  exact ⟨h1, by rw [← not_le, ← not_le, h1]⟩

/-- "the origin is beyond `a p`" -/
theorem StepCoords.beyond (c : StepCoords d p q a τ px qx h ax f) (hd : d ≠ 0) (hD : h < f) :
    (0 ≤ (outNormal a p q).dot (-a) ↔ 0 ≤ h * ax - f * px) ∧
    ((outNormal a p q).dot (-a) < 0 ↔ h * ax - f * px < 0) := by
  have hL := pow_pos (lengthSq_pos.2 hd) 2
  have hc : 0 < (f - h) * (px - qx) := mul_pos (by linarith) (by linarith [c.right])
  have e := c.normal (-a)
  rw [cross_neg, dot_neg d a, c.hf, mul_neg τ, c.hax] at e
  exact pos_iff_of_mul_eq hL hc (e.trans (by ring))

/-- "the origin is beyond `a q`" -/
theorem StepCoords.beyond' (c : StepCoords d p q a τ px qx h ax f) (hd : d ≠ 0) (hD : h < f) :
    (0 ≤ (outNormal a q p).dot (-a) ↔ h * ax - f * qx ≤ 0) ∧
    ((outNormal a q p).dot (-a) < 0 ↔ 0 < h * ax - f * qx) := by
  have hL := pow_pos (lengthSq_pos.2 hd) 2
  have hc : 0 < (f - h) * (px - qx) := mul_pos (by linarith) (by linarith [c.right])
  have e := c.normal' (-a)
  rw [cross_neg, dot_neg d a, c.hf, mul_neg τ, c.hax] at e
  obtain ⟨h1, h2⟩ := pos_iff_of_mul_eq (y := -(h * ax - f * qx)) hL hc (e.trans (by ring))
  exact ⟨h1.trans (by constructor <;> intro h <;> linarith), h2.trans (by constructor <;> intro h <;> linarith)⟩

/-- a dot product in coordinates -/
theorem StepCoords.dot (c : StepCoords d p q a τ px qx h ax f) (v w : V2 K) :
    lengthSq d * v.dot w = d.dot v * d.dot w + (τ * d.cross v) * (τ * d.cross w) :=
  frame_dot_orient c.hτ v w

theorem StepCoords.projP (c : StepCoords d p q a τ px qx h ax f) (hd : d ≠ 0) :
    0 ≤ (q - p).dot (-p) ↔ 0 ≤ px := by
  have e := c.dot (q - p) (-p)
  rw [dot_sub d, cross_sub d, dot_neg d, cross_neg d, c.hh, c.hqh, sub_self, zero_mul, zero_add,
    mul_sub τ, mul_neg τ, c.hpx, c.hqx] at e
  exact (pos_iff_of_mul_eq (lengthSq_pos.2 hd) (c := px - qx) (by linarith [c.right])
    (e.trans (by ring))).1

theorem StepCoords.projA (c : StepCoords d p q a τ px qx h ax f) (hd : d ≠ 0) :
    (0 ≤ (p - a).dot (-a) ↔ 0 ≤ ax * (ax - px) + (f - h) * f) ∧
    ((p - a).dot (-a) < 0 ↔ ax * (ax - px) + (f - h) * f < 0) := by
  have e := c.dot (p - a) (-a)
  rw [dot_sub d, cross_sub d, dot_neg d, cross_neg d, c.hh, c.hf, mul_sub τ, mul_neg τ, c.hpx,
    c.hax] at e
  exact pos_iff_of_mul_eq (lengthSq_pos.2 hd) (c := 1) one_pos (e.trans (by ring))

theorem StepCoords.projPA (c : StepCoords d p q a τ px qx h ax f) (hd : d ≠ 0) :
    0 ≤ (a - p).dot (-p) ↔ 0 ≤ (px - ax) * px - (f - h) * h := by
  have e := c.dot (a - p) (-p)
  rw [dot_sub d, cross_sub d, dot_neg d, cross_neg d, c.hh, c.hf, mul_sub τ, mul_neg τ, c.hpx,
    c.hax] at e
  exact (pos_iff_of_mul_eq (lengthSq_pos.2 hd) (c := 1) one_pos (e.trans (by ring))).1

/-- a support direction `e` of `p` in coordinates -/
theorem StepCoords.low (c : StepCoords d p q a τ px qx h ax f) {e : V2 K} (hd : d ≠ 0)
    (hq : e.dot q ≤ e.dot p) (ha : e.dot a ≤ e.dot p) :
    0 ≤ τ * d.cross e ∧ (τ * d.cross e) * (ax - px) + d.dot e * (f - h) ≤ 0 := by
  have hL := lengthSq_pos.2 hd
  have e1 := c.dot e (q - p)
  have e2 := c.dot e (a - p)
  rw [dot_sub e, dot_sub d, cross_sub d, mul_sub τ, c.hh, c.hqh, sub_self, mul_zero, zero_add,
    c.hpx, c.hqx] at e1
  rw [dot_sub e, dot_sub d, cross_sub d, mul_sub τ, c.hh, c.hf, c.hpx, c.hax] at e2
  have h1 : lengthSq d * (e.dot q - e.dot p) ≤ 0 :=
    mul_nonpos_of_nonneg_of_nonpos hL.le (by linarith)
  have h2 : lengthSq d * (e.dot a - e.dot p) ≤ 0 :=
    mul_nonpos_of_nonneg_of_nonpos hL.le (by linarith)
  rw [e1] at h1
  rw [e2] at h2
  refine ⟨?_, by linarith⟩
  by_contra hn
  have := mul_pos_of_neg_of_neg (not_le.1 hn) (show qx - px < 0 by linarith [c.right])
  linarith

theorem StepCoords.ne_zero (c : StepCoords d p q a τ px qx h ax f) {e : V2 K} (hd : d ≠ 0)
    (he : e ≠ 0) (hx : τ * d.cross e = 0) (hy : d.dot e = 0) : False := by
  have hτ0 : τ ≠ 0 := by
    intro h0
    have := c.hτ
    rw [h0] at this
    simp at this
  exact he (frame_zero hd hy ((mul_eq_zero.1 hx).resolve_left hτ0))

/-- an endpoint that stays in the simplex stays guarded -/
theorem Guard.keep (hd : d ≠ 0) (hperp : d.dot p = d.dot q) (hle : d.dot p ≤ 0) (hne : p ≠ q)
    (hD : d.dot p < d.dot a) (ha : a ∈ M) (hq : q ∈ M) (hb : 0 ≤ (outNormal a p q).dot (-a))
    (hg : Guard M p q d) : Guard M p a (outNormal a p q) := by
  obtain ⟨τ, px, qx, h, ax, f, c⟩ := StepCoords.exists hd hperp hne a
  rw [c.hh] at hle hD
  rw [c.hf] at hD
  rw [(c.beyond hd hD).1] at hb
  rcases hg with hg | ⟨e, he, hs, hl, hv⟩
  · left
    rw [c.projP hd] at hg
    rw [c.projPA hd]
    -- h * ax ≥ f * px, px ≥ 0, h ≤ 0
    have h1 : 0 ≤ (f - h) * (-h) := mul_nonneg (by linarith) (by linarith)
    by_cases h2 : ax ≤ px
    · have := mul_nonneg (sub_nonneg.2 h2) hg
      linarith
    · have h3 : h * (ax - px) ≤ 0 := mul_nonpos_of_nonpos_of_nonneg hle (by linarith)
      have h4 : 0 ≤ (f - h) * px := mul_nonneg (by linarith) hg
      have h5 : (f - h) * px = 0 := by linarith
      have h6 : px = 0 := (mul_eq_zero.1 h5).resolve_left (by linarith)
      rw [h6, mul_zero, zero_sub]
      linarith
  · right
    obtain ⟨hu, hua⟩ := c.low hd (hs q hq) (hs a ha)
    refine ⟨e, he, hs, hl, ?_⟩
    have en := c.normal e
    rw [dot_comm]
    have hcpos : 0 < (f - h) * (px - qx) := mul_pos (by linarith) (by linarith [c.right])
    rw [(pos_iff_of_mul_eq (pow_pos (lengthSq_pos.2 hd) 2) hcpos en).1]
    rw [dot_comm] at hv
    set u := τ * d.cross e with hu'
    set v := d.dot e with hv'
    have h1 : 0 ≤ (f - h) * u := mul_nonneg (by linarith) hu
    rcases hv.eq_or_lt with h0 | h0
    · rw [← h0, mul_zero, add_zero]; exact h1
    · have h2 : 0 < v * (f - h) := mul_pos h0 (by linarith)
      have h3 : u * (ax - px) < 0 := by linarith
      have h4 : ax - px < 0 := by
        by_contra hn
        have := mul_nonneg hu (not_lt.1 hn)
        linarith
      have := mul_pos (show 0 < px - ax by linarith) h0
      linarith

/-- where the new point is, if the origin is beyond `a p` -/
theorem Guard.lateral (c : StepCoords d p q a τ px qx h ax f) (hd : d ≠ 0) (hle : h ≤ 0)
    (hD : h < f) (ha : a ∈ M) (hq : q ∈ M) (hb : 0 ≤ h * ax - f * px)
    (hg : Guard M p q d) : ax ≤ px ∧ (px < 0 ∨ 0 ≤ px ∧ (h < 0 ∨ px = 0)) ∨ px = 0 ∧ h = 0 := by
  rcases hg with hg | ⟨e, he, hs, hl, hv⟩
  · rw [c.projP hd] at hg
    by_cases h2 : ax ≤ px
    · by_cases h0 : h < 0
      · exact Or.inl ⟨h2, Or.inr ⟨hg, Or.inl h0⟩⟩
      · have h0 : h = 0 := le_antisymm hle (not_lt.1 h0)
        refine Or.inr ⟨?_, h0⟩
        have := mul_nonneg (show 0 ≤ f by linarith) hg
        rw [h0, zero_mul] at hb
        exact (mul_eq_zero.1 (show f * px = 0 by linarith)).resolve_left (by linarith)
    · have h3 : h * (ax - px) ≤ 0 := mul_nonpos_of_nonpos_of_nonneg hle (by linarith)
      have h4 : 0 ≤ (f - h) * px := mul_nonneg (by linarith) hg
      have h5 : (f - h) * px = 0 := by linarith
      have h6 : px = 0 := (mul_eq_zero.1 h5).resolve_left (by linarith)
      have h7 : h * (ax - px) = 0 := by linarith
      exact Or.inr ⟨h6, (mul_eq_zero.1 h7).resolve_right (by linarith)⟩
  · obtain ⟨hu, hua⟩ := c.low hd (hs q hq) (hs a ha)
    rw [dot_comm] at hv
    have hvD : 0 ≤ d.dot e * (f - h) := mul_nonneg hv (by linarith)
    rcases hu.eq_or_lt with h0 | h0
    · rw [← h0, zero_mul, zero_add] at hua
      have h1 : d.dot e = 0 := (mul_eq_zero.1 (le_antisymm hua hvD)).resolve_right (by linarith)
      exact (c.ne_zero hd he h0.symm h1).elim
    · have h1 : ax ≤ px := by
        by_contra hn
        have := mul_pos h0 (show 0 < ax - px by linarith)
        linarith
      by_cases hp : px < 0
      · exact Or.inl ⟨h1, Or.inl hp⟩
      · by_cases h2 : h < 0
        · exact Or.inl ⟨h1, Or.inr ⟨not_lt.1 hp, Or.inl h2⟩⟩
        · have h0 : h = 0 := le_antisymm hle (not_lt.1 h2)
          refine Or.inr ⟨?_, h0⟩
          have := mul_nonneg (show 0 ≤ f by linarith) (not_lt.1 hp)
          rw [h0, zero_mul] at hb
          exact (mul_eq_zero.1 (show f * px = 0 by linarith)).resolve_left (by linarith)

/-- a new point in front of the origin sees the origin project onto the edge it came from -/
theorem Guard.proj (c : StepCoords d p q a τ px qx h ax f) (hd : d ≠ 0) (hle : h ≤ 0)
    (hD : h < f) (ha : a ∈ M) (hq : q ∈ M) (hb : 0 ≤ h * ax - f * px)
    (hg : Guard M p q d) (hf : 0 < f) : 0 ≤ (p - a).dot (-a) := by
  rw [(c.projA hd).1]
  have hDf : 0 ≤ (f - h) * f := mul_nonneg (by linarith) hf.le
  rcases hg.lateral c hd hle hD ha hq hb with ⟨h1, h2⟩ | ⟨h1, h2⟩
  · rcases h2 with h2 | ⟨h2, h3⟩
    · have := mul_nonneg_of_nonpos_of_nonpos (show ax ≤ 0 by linarith) (show ax - px ≤ 0 by linarith)
      linarith
    · have hax : ax ≤ 0 := by
        rcases h3 with h3 | h3
        · by_contra hn
          have := mul_neg_of_neg_of_pos h3 (not_le.1 hn)
          have := mul_nonneg hf.le h2
          linarith
        · linarith
      have := mul_nonneg_of_nonpos_of_nonpos hax (show ax - px ≤ 0 by linarith)
      linarith
  · rw [h1, sub_zero]
    linarith [mul_self_nonneg ax]

/-- the new point is guarded on the edge to the endpoint kept -/
theorem Guard.new (hd : d ≠ 0) (hperp : d.dot p = d.dot q) (hle : d.dot p ≤ 0) (hne : p ≠ q)
    (hD : d.dot p < d.dot a) (ha : IsExtreme M d a) (hq : q ∈ M)
    (hb : 0 ≤ (outNormal a p q).dot (-a)) (hg : Guard M p q d) :
    Guard M a p (outNormal a p q) := by
  obtain ⟨τ, px, qx, h, ax, f, c⟩ := StepCoords.exists hd hperp hne a
  rw [c.hh] at hle hD
  rw [c.hf] at hD
  rw [(c.beyond hd hD).1] at hb
  by_cases hf : 0 < f
  · exact Or.inl (hg.proj c hd hle hD ha.1 hq hb hf)
  · have hf := not_lt.1 hf
    right
    refine ⟨d, hd, fun x hx => ha.2 x hx, by rw [c.hf]; exact hf, ?_⟩
    rw [dot_comm]
    have hcpos : 0 < (f - h) * (px - qx) := mul_pos (by linarith) (by linarith [c.right])
    rw [(pos_iff_of_mul_eq (pow_pos (lengthSq_pos.2 hd) 2) hcpos (c.normal d)).1, cross_self,
      mul_zero, mul_zero, zero_add]
    refine mul_nonneg ?_ (show 0 ≤ lengthSq d from lengthSq_nonneg d)
    rcases hg.lateral c hd hle hD ha.1 hq hb with ⟨h1, _⟩ | ⟨h1, h2⟩
    · linarith
    · linarith

/-- if the origin is beyond `a b` but projects outside it past `a`, it is beyond `a c` -/
theorem Prov.not_bad {b c : V2 K} (hd : d ≠ 0) (hperp : d.dot b = d.dot c) (hle : d.dot b ≤ 0)
    (hne : b ≠ c) (hbM : b ∈ M) (hcM : c ∈ M) (ha : a ∈ M) (hD : d.dot b < d.dot a)
    (hg : Guard M b c d) (hP : Prov M b c d)
    (hab : 0 ≤ (outNormal a b c).dot (-a)) (hproj : (b - a).dot (-a) < 0) :
    0 ≤ (outNormal a c b).dot (-a) := by
  have hf : d.dot a ≤ 0 := by
    by_contra hf
    obtain ⟨τ, px, qx, h, ax, f, k⟩ := StepCoords.exists hd hperp hne a
    rw [k.hh, k.hf] at hD
    rw [k.hf] at hf
    rw [(k.beyond hd hD).1] at hab
    have := hg.proj k hd (k.hh ▸ hle) hD ha hcM hab (not_le.1 hf)
    linarith
  obtain ⟨τ, cx, bx, h, ax, f, k⟩ := StepCoords.exists hd hperp.symm hne.symm a
  rw [k.hqh, k.hf] at hD
  rw [k.hf] at hf
  rw [k.hqh] at hle
  rw [(k.beyond' hd hD).1] at hab
  rw [(k.beyond hd hD).1]
  have hL := lengthSq_pos.2 hd
  have hproj' : ax * (ax - bx) + (f - h) * f < 0 := by
    have e := k.dot (b - a) (-a)
    rw [dot_sub d, cross_sub d, dot_neg d, cross_neg d, k.hqh, k.hf, mul_sub τ, mul_neg τ, k.hqx,
      k.hax] at e
    exact (pos_iff_of_mul_eq hL (c := 1) one_pos (e.trans (by ring))).2.1 hproj
  by_contra hin
  rw [not_le] at hin
  have hh : h < 0 := by linarith
  have hr := k.right
  rcases hP with ⟨e, he, hs, hec⟩ | ⟨e, w, hs, hec, hlt, hwe, hwd, hwc⟩
  · obtain ⟨hu, hua⟩ := k.low hd (hs b hbM) (hs a ha)
    have e1 := k.dot e c
    rw [k.hh, k.hpx] at e1
    have h1 : d.dot e * h + τ * d.cross e * cx ≤ 0 := by
      rw [← e1]; exact mul_nonpos_of_nonneg_of_nonpos hL.le hec
    generalize hu' : τ * d.cross e = u at *
    generalize hv' : d.dot e = v at *
    have h2 : 0 ≤ (u * (ax - cx) + v * (f - h)) * h := mul_nonneg_of_nonpos_of_nonpos hua hle
    have h3 : (v * h + u * cx) * (f - h) ≤ 0 :=
      mul_nonpos_of_nonpos_of_nonneg h1 (by linarith)
    rcases hu.eq_or_lt with h0 | h0
    · rw [← h0] at h3 hua hu'
      have h4 : v ≤ 0 := by
        by_contra hn
        have := mul_pos (not_le.1 hn) (show 0 < f - h by linarith)
        linarith
      have h5 : v < 0 := lt_of_le_of_ne h4 (fun h5 => k.ne_zero hd he hu' (hv'.trans h5))
      have := mul_pos (mul_pos_of_neg_of_neg h5 hh) (show 0 < f - h by linarith)
      linarith
    · have := mul_pos h0 (show 0 < (f - h) * cx - (ax - cx) * h by linarith)
      linarith
  · have e1 := k.dot e (c - b)
    have e2 := k.dot e c
    have e3 := k.dot w e
    have e4 := k.dot w (-c)
    have e5 := k.dot e (a - b)
    rw [dot_sub e, dot_sub d, cross_sub d, mul_sub τ, k.hh, k.hqh, sub_self, mul_zero, zero_add,
      k.hpx, k.hqx] at e1
    rw [k.hh, k.hpx] at e2
    rw [hwe, mul_zero] at e3
    rw [dot_neg d, cross_neg d, k.hh, mul_neg τ, k.hpx] at e4
    rw [dot_sub e, dot_sub d, cross_sub d, mul_sub τ, k.hf, k.hqh, k.hax, k.hqx] at e5
    have i1 := mul_neg_of_pos_of_neg hL (show e.dot c - e.dot b < 0 by linarith)
    have i2 := mul_nonpos_of_nonneg_of_nonpos hL.le hec
    have i4 := mul_nonneg hL.le hwc
    have i5 := mul_nonpos_of_nonneg_of_nonpos hL.le (show e.dot a - e.dot b ≤ 0 by
      linarith [hs a ha])
    rw [e1] at i1
    rw [e2] at i2
    rw [e4] at i4
    rw [e5] at i5
    rw [dot_comm] at hwd
    generalize τ * d.cross e = ex at *
    generalize d.dot e = ey at *
    generalize τ * d.cross w = wx at *
    generalize d.dot w = wy at *
    have hex : ex < 0 := by
      by_contra hn
      have := mul_nonneg (not_lt.1 hn) (show 0 ≤ cx - bx by linarith)
      linarith
    -- `wy * (ey * cx - ex * h) ≤ 0`
    have h1 : 0 ≤ ey * cx - ex * h := by
      by_contra hn
      have h2 := mul_pos_of_neg_of_neg hwd (not_le.1 hn)
      have h3 := mul_nonpos_of_nonpos_of_nonneg hex.le i4
      have h4 : wy * (ey * cx - ex * h) =
        ex * (wy * -h + wx * -cx) + cx * (wy * ey + wx * ex) := by ring
      rw [← e3, mul_zero, add_zero] at h4
      linarith
    have h2 : 0 < ex * h := mul_pos_of_neg_of_neg hex hh
    have hcx : 0 < cx := by
      by_contra hn
      have h3 : 0 ≤ ex * cx := mul_nonneg_of_nonpos_of_nonpos hex.le (not_lt.1 hn)
      have h4 : 0 ≤ ey := by
        by_contra h5
        have := mul_pos_of_neg_of_neg (not_le.1 h5) hh
        linarith
      have := mul_nonpos_of_nonneg_of_nonpos h4 (not_lt.1 hn)
      linarith
    have hey : 0 < ey := by
      by_contra hn
      have := mul_nonpos_of_nonpos_of_nonneg (not_lt.1 hn) hcx.le
      linarith
    -- `-h * D ≤ cx * (ax - bx)`
    have h3 : 0 ≤ cx * (ax - bx) + h * (f - h) := by
      have h4 := mul_nonpos_of_nonpos_of_nonneg i5 hcx.le
      have h5 := mul_nonneg h1 (show 0 ≤ f - h by linarith)
      by_contra hn
      have h6 := mul_pos_of_neg_of_neg hex (not_le.1 hn)
      linarith
    have hfc : f * cx ≤ 0 := mul_nonpos_of_nonpos_of_nonneg hf hcx.le
    have hax : 0 < ax := by
      by_contra hn
      have := mul_nonneg_of_nonpos_of_nonpos hle (not_lt.1 hn)
      linarith
    have h4 := mul_nonneg hax.le h3
    have h5 := mul_neg_of_pos_of_neg hcx hproj'
    have h6 : 0 < (f - h) * (f * cx - h * ax) := mul_pos (by linarith) (by linarith)
    linarith


/-! ## the edge states -/

/-- an edge facing the origin: `b` is the newest point -/
structure T1 (M : Set (V2 K)) (b c d : V2 K) : Prop where
  hd : d ≠ 0
  bM : b ∈ M
  cM : c ∈ M
  perp : d.dot b = d.dot c
  le : d.dot b ≤ 0
  ne : b ≠ c
  gb : Guard M b c d
  gc : Guard M c b d
  prov : Prov M b c d

/-- the origin is past the newest point `b` of the edge `b c`; the search direction is `-b` -/
structure T2 (M : Set (V2 K)) (b c : V2 K) : Prop where
  bM : b ∈ M
  cM : c ∈ M
  past : (c - b).dot (-b) < 0
  supp : ∀ x ∈ M, c.dot b ≤ c.dot x

/-- one more point on the side of `p` -/
theorem Guard.next (hd : d ≠ 0) (hperp : d.dot p = d.dot q) (hle : d.dot p ≤ 0) (hne : p ≠ q)
    (hp : p ∈ M) (hq : q ∈ M) (hg : Guard M p q d) (ha : IsExtreme M d a)
    (hD : d.dot p < d.dot a) (hb : 0 ≤ (outNormal a p q).dot (-a)) :
    T1 M a p (outNormal a p q) ∧ ∃ x ∈ M, (outNormal a p q).dot x < 0 := by
  have hnew := hg.new hd hperp hle hne hD ha hq hb
  have hkeep := Guard.keep hd hperp hle hne hD ha.1 hq hb hg
  have hnp := outNormal_perp a p q
  have hna : (outNormal a p q).dot a ≤ 0 := by rw [dot_neg] at hb; linarith
  obtain ⟨τ, px, qx, h, ax, f, k⟩ := StepCoords.exists hd hperp hne a
  have hD' := hD
  rw [k.hh, k.hf] at hD'
  have hL := pow_pos (lengthSq_pos.2 hd) 2
  have hcpos : 0 < (f - h) * (px - qx) := mul_pos (by linarith) (by linarith [k.right])
  have hqp : (outNormal a p q).dot (q - p) < 0 := by
    have e := k.normal (q - p)
    rw [dot_sub d, cross_sub d, k.hh, k.hqh, sub_self, mul_sub τ, k.hpx, k.hqx, mul_zero,
      add_zero] at e
    rw [(pos_iff_of_mul_eq hL hcpos e).2]
    exact mul_neg_of_pos_of_neg (by linarith) (by linarith [k.right])
  have hn : outNormal a p q ≠ 0 := by
    intro h0
    rw [h0] at hqp
    simp at hqp
  refine ⟨⟨hn, ha.1, hp, hnp, hna, ?_, hnew, hkeep, ?_⟩, q, hq, ?_⟩
  · rintro rfl
    linarith
  · rcases hg with hg | ⟨e, he, hs, hl, _⟩
    · refine Or.inr ⟨d, q - p, ha.2, hle, hD, ?_, ?_, hg⟩
      · rw [dot_comm, dot_sub, hperp, sub_self]
      · rw [dot_comm]; exact hqp
    · exact Or.inl ⟨e, he, hs, hl⟩
  · rw [dot_sub] at hqp
    linarith

/-- what happens when the new point closes a triangle around the origin -/
theorem StepCoords.triangle (k : StepCoords d p q a τ px qx h ax f) (hd : d ≠ 0) :
    scale (h * ax - f * qx) p + scale (f * px - h * ax) q = scale (h * (px - qx)) a := by
  have hτ0 : τ ≠ 0 := by
    intro h0
    have := k.hτ
    rw [h0] at this
    simp at this
  refine frame_ext hd ?_ ?_
  · rw [dot_add, dot_scale, dot_scale, dot_scale, k.hh, k.hqh, k.hf]; ring
  · apply mul_left_cancel₀ hτ0
    rw [cross_add, cross_scale, cross_scale, cross_scale, mul_add, mul_left_comm τ, mul_left_comm τ,
      mul_left_comm τ, k.hpx, k.hqx, k.hax]
    ring

/-- an enclosed origin is in the set -/
theorem T1.capture {b c : V2 K} (h : T1 M b c d) (hM : Convex K M) (ha : a ∈ M)
    (hD : d.dot b < d.dot a) (h1 : (outNormal a b c).dot (-a) < 0)
    (h2 : (outNormal a c b).dot (-a) < 0) : 0 < d.dot a ∧ (0 : V2 K) ∈ M := by
  obtain ⟨τ, cx, bx, y, ax, f, k⟩ := StepCoords.exists h.hd h.perp.symm h.ne.symm a
  have hle := h.le
  rw [k.hqh, k.hf] at hD
  rw [k.hqh] at hle
  rw [(k.beyond h.hd hD).2] at h2
  rw [(k.beyond' h.hd hD).2] at h1
  have hr := k.right
  have hf : 0 < f := by
    by_contra hn
    have := mul_nonpos_of_nonpos_of_nonneg (not_lt.1 hn) (show 0 ≤ cx - bx by linarith)
    linarith
  refine ⟨by rw [k.hf]; exact hf, ?_⟩
  have e := k.triangle h.hd
  have hy : 0 ≤ -y * (cx - bx) := mul_nonneg (by linarith) (by linarith)
  set s := (y * ax - f * bx) + (f * cx - y * ax) + -y * (cx - bx) with hs
  have hspos : 0 < s := by linarith
  have e2 : (0 : V2 K) = ((y * ax - f * bx) / s) • c + ((f * cx - y * ax) / s) • b +
      (-y * (cx - bx) / s) • a := by
    have ex := congrArg V2.x e
    have ey := congrArg V2.y e
    simp only [add_x, add_y, scale_x, scale_y] at ex ey
    ext
    · simp only [add_x, smul_x, zero_x]
      field_simp
      linarith
    · simp only [add_y, smul_y, zero_y]
      field_simp
      linarith
  rw [e2]
  have key := hM.sum_mem (t := Finset.univ) (w := ![(y * ax - f * bx) / s, (f * cx - y * ax) / s,
    -y * (cx - bx) / s]) (z := ![c, b, a]) (by
      intro i _
      fin_cases i
      · exact div_nonneg h1.le hspos.le
      · exact div_nonneg (by linarith) hspos.le
      · exact div_nonneg hy hspos.le) (by
      simp only [Fin.sum_univ_three, Matrix.cons_val_zero, Matrix.cons_val_one, Matrix.cons_val]
      field_simp
      linarith) (by
      intro i _
      fin_cases i
      · exact h.cM
      · exact h.bM
      · exact ha)
  simpa [Fin.sum_univ_three] using key

/-- once the set is known to be in a half plane, the origin is no longer enclosed -/
theorem T1.no_capture {b c : V2 K} (h : T1 M b c d) (hlow : OneSide M) (ha : a ∈ M)
    (hz : (∃ x ∈ M, d.dot x < 0) ∨ b = 0)
    (hD : d.dot b < d.dot a) (h1 : (outNormal a b c).dot (-a) < 0)
    (h2 : (outNormal a c b).dot (-a) < 0) : False := by
  obtain ⟨τ, cx, bx, y, ax, f, k⟩ := StepCoords.exists h.hd h.perp.symm h.ne.symm a
  have hle := h.le
  rw [k.hqh, k.hf] at hD
  rw [k.hqh] at hle
  rw [(k.beyond h.hd hD).2] at h2
  rw [(k.beyond' h.hd hD).2] at h1
  have hr := k.right
  have hf : 0 < f := by
    by_contra hn
    have := mul_nonpos_of_nonpos_of_nonneg (not_lt.1 hn) (show 0 ≤ cx - bx by linarith)
    linarith
  have hy : 0 ≤ -y * (cx - bx) := mul_nonneg (by linarith) (by linarith)
  obtain ⟨e, he, hx⟩ := hlow
  have e1 := congrArg e.dot (k.triangle h.hd)
  rw [dot_add, dot_scale, dot_scale, dot_scale] at e1
  have i1 := mul_nonpos_of_nonneg_of_nonpos h1.le (hx c h.cM)
  have i2 := mul_nonpos_of_nonneg_of_nonpos (show 0 ≤ f * cx - y * ax by linarith) (hx b h.bM)
  have i3 := mul_nonpos_of_nonneg_of_nonpos hy (hx a ha)
  have j1 : (y * ax - f * bx) * e.dot c = 0 := by linarith
  have j2 : (f * cx - y * ax) * e.dot b = 0 := by linarith
  have hc0 : e.dot c = 0 := (mul_eq_zero.1 j1).resolve_left h1.ne'
  have hb0 : e.dot b = 0 := (mul_eq_zero.1 j2).resolve_left (by linarith)
  have f1 := k.dot e (c - b)
  rw [dot_sub e, hc0, hb0, sub_self, mul_zero, dot_sub d, cross_sub d, k.hh, k.hqh, sub_self,
    mul_zero, zero_add, mul_sub τ, k.hpx, k.hqx] at f1
  have hex : τ * d.cross e = 0 := (mul_eq_zero.1 f1.symm).resolve_right (by linarith)
  have hey : d.dot e ≠ 0 := fun h0 => k.ne_zero h.hd he hex h0
  have f2 := k.dot e a
  rw [hex, zero_mul, add_zero, k.hf] at f2
  have hL := lengthSq_pos.2 h.hd
  have hey' : d.dot e < 0 := by
    refine lt_of_le_of_ne ?_ hey
    by_contra hn
    have := mul_pos (not_le.1 hn) hf
    have := mul_nonpos_of_nonneg_of_nonpos hL.le (hx a ha)
    linarith
  rcases hz with ⟨x, hxM, hxd⟩ | hz
  · have f3 := k.dot e x
    rw [hex, zero_mul, add_zero] at f3
    have := mul_pos_of_neg_of_neg hey' hxd
    have := mul_nonpos_of_nonneg_of_nonpos hL.le (hx x hxM)
    linarith
  · have h3 := k.hqh
    have h4 := k.hqx
    rw [hz] at h3 h4
    rw [dot_zero] at h3
    rw [show d.cross 0 = 0 by simp [cross_def], mul_zero] at h4
    rw [← h3, ← h4] at h1
    linarith


/-- the step from an edge past whose newest point the origin lies -/
theorem T2.step {b c : V2 K} (h : T2 M b c) (ha : IsExtreme M (-b) a) (hp : b.dot a < b.dot b) :
    0 < (outNormal a b c).dot (-a) ∧
    (0 ≤ (b - a).dot (-a) → T1 M a b (outNormal a b c) ∧ ∃ x ∈ M, (outNormal a b c).dot x < 0) ∧
    ((b - a).dot (-a) < 0 → T1 M a c (outNormal a c b) ∧ ∃ x ∈ M, (outNormal a c b).dot x < 0) := by
  obtain ⟨bM, cM, past, supp⟩ := h
  have hc : c ≠ 0 := by
    rintro rfl
    rw [dot_neg, dot_comm, dot_sub, dot_zero] at past
    have := lengthSq_nonneg b
    rw [← dot_self] at this
    linarith
  have hL := lengthSq_pos.2 hc
  obtain ⟨τ, hτ, hbg⟩ : ∃ τ : K, τ * τ = 1 ∧ 0 ≤ τ * c.cross b := by
    rcases le_total 0 (c.cross b) with h | h
    · exact ⟨1, by ring, by linarith⟩
    · exact ⟨-1, by ring, by linarith⟩
  have dot' := fun v w => frame_dot_orient (d := c) hτ v w
  have cross' : ∀ v w : V2 K, lengthSq c * (τ * v.cross w) =
      c.dot v * (τ * c.cross w) - (τ * c.cross v) * c.dot w := by
    intro v w
    have := frame_cross c v w
    linear_combination τ * this
  have hcc : c.dot c = lengthSq c := dot_self c
  have hfin := supp a ha.1
  have e1 := dot' b b
  have e2 := dot' b a
  have past' : b.dot b < c.dot b := by
    rw [dot_neg, dot_comm, dot_sub, dot_comm b c] at past
    linarith
  have hLb := mul_lt_mul_of_pos_left past' hL
  have hpL := mul_lt_mul_of_pos_left hp hL
  rw [e1] at hLb hpL
  rw [e2] at hpL
  -- cross products in the frame of `c`
  have cs : lengthSq c * (τ * (b - a).cross (c - a)) = -(lengthSq c * (τ * c.cross b - τ * c.cross a)
      + c.dot b * (τ * c.cross a) - (τ * c.cross b) * c.dot a) := by
    rw [cross', dot_sub c, dot_sub c, cross_sub c, cross_sub c, cross_self, hcc]; ring
  have cba : lengthSq c * (τ * b.cross a) = c.dot b * (τ * c.cross a) - (τ * c.cross b) * c.dot a :=
    cross' b a
  have hpb : ∀ x y : V2 K, (τ * x.cross y) * (τ * x.cross y) = x.cross y * x.cross y := by
    intro x y; linear_combination (x.cross y * x.cross y) * hτ
  have bpos : 0 ≤ b.dot b := lengthSq_nonneg b
  have hbf : 0 < c.dot b := by linarith
  have haE : ∀ x ∈ M, b.dot a ≤ b.dot x := by
    intro x hx
    have := ha.2 x hx
    rw [dot_comm, dot_comm (-b), dot_neg, dot_neg, dot_comm x, dot_comm a] at this
    linarith
  -- names
  set L := lengthSq c with hLdef
  set bf := c.dot b with hbf'
  set af := c.dot a with haf'
  set bg := τ * c.cross b with hbg'
  set ag := τ * c.cross a with hag'
  have hLbf : bf < L := by
    have h1 : bf * bf < bf * L := by linarith [mul_self_nonneg bg]
    exact lt_of_mul_lt_mul_left h1 hbf.le
  have h1 : bf * (af - bf) < bg * (bg - ag) := by linarith
  have h2 : 0 ≤ bf * (af - bf) := mul_nonneg hbf.le (by linarith)
  have hbg0 : 0 < bg := by
    refine lt_of_le_of_ne hbg fun h0 => ?_
    rw [← h0, zero_mul] at h1
    linarith
  have hag : ag < bg := by
    by_contra hn
    have := mul_nonpos_of_nonneg_of_nonpos hbg (show bg - ag ≤ 0 by linarith)
    linarith
  set s := L * (bg - ag) + bf * ag - bg * af with hs
  have hspos : 0 < s := by
    have h3 := mul_lt_mul_of_pos_left h1 hbg0
    have h4 := mul_lt_mul_of_pos_right (show bg * bg < bf * (L - bf) by linarith)
      (show 0 < bg - ag by linarith)
    by_contra hn
    have h5 := mul_nonpos_of_nonneg_of_nonpos hbf.le (not_lt.1 hn)
    rw [hs] at h5
    linarith
  have habpos : 0 < bg * af - bf * ag := by
    rcases le_or_gt ag 0 with h3 | h3
    · have := mul_nonpos_of_nonneg_of_nonpos hbf.le h3
      have := mul_pos hbg0 (show 0 < af by linarith)
      linarith
    · have := mul_lt_mul_of_pos_left hag hbf
      have := mul_le_mul_of_nonneg_left hfin hbg
      linarith
  -- normals
  have nab : ∀ v : V2 K, L ^ 2 * (outNormal a b c).dot v = s * (L * (τ * (b - a).cross v)) := by
    intro v
    rw [outNormal_dot]
    have : L ^ 2 * -((b - a).cross (c - a) * (b - a).cross v) =
      -(L * (τ * (b - a).cross (c - a))) * (L * (τ * (b - a).cross v)) := by
      linear_combination (L ^ 2 * ((b - a).cross (c - a) * (b - a).cross v)) * hτ
    rw [this, cs]; ring
  have nac : ∀ v : V2 K, L ^ 2 * (outNormal a c b).dot v = -s * (L * (τ * (c - a).cross v)) := by
    intro v
    rw [outNormal_dot, cross_anti (c - a) (b - a)]
    have : L ^ 2 * -(-(b - a).cross (c - a) * (c - a).cross v) =
      (L * (τ * (b - a).cross (c - a))) * (L * (τ * (c - a).cross v)) := by
      linear_combination (-(L ^ 2 * ((b - a).cross (c - a) * (c - a).cross v))) * hτ
    rw [this, cs]
  have hL2 := pow_pos hL 2
  have n1 : 0 < (outNormal a b c).dot (-a) := by
    have e := nab (-a)
    rw [cross', dot_sub c, cross_sub c, dot_neg c, cross_neg c, mul_sub τ, mul_neg τ] at e
    have : 0 < L ^ 2 * (outNormal a b c).dot (-a) := by
      rw [e]
      exact mul_pos hspos (by linarith)
    exact pos_of_mul_pos_right this hL2.le
  have n2 : L ^ 2 * (outNormal a c b).dot (-a) = s * (L * ag) := by
    rw [nac, cross', dot_sub c, cross_sub c, dot_neg c, cross_neg c, mul_sub τ, mul_neg τ,
      cross_self, hcc]
    ring
  have hlt : (b - a).cross (c - a) ≠ 0 := by
    intro h0
    rw [h0] at cs
    simp only [mul_zero] at cs
    linarith
  have hab : a ≠ b := by
    rintro rfl
    exact lt_irrefl _ hp
  have hac : a ≠ c := by
    rintro rfl
    rw [sub_self] at hlt
    simp [cross_def] at hlt
  refine ⟨n1, fun hproj => ?_, fun hproj => ?_⟩
  · have hn : outNormal a b c ≠ 0 := by
      intro h0
      rw [h0] at n1
      simp at n1
    rw [dot_neg] at n1
    refine ⟨⟨hn, ha.1, bM, outNormal_perp a b c, by linarith, hab, Or.inl hproj, Or.inl ?_,
      Or.inl ⟨-c, neg_ne_zero.2 hc, ?_, ?_⟩⟩, a, ha.1, by linarith⟩
    · rw [dot_neg, dot_comm, dot_sub]; linarith
    · intro x hx
      rw [dot_comm, dot_neg, dot_comm (-c), dot_neg, dot_comm x, dot_comm b]
      have := supp x hx
      linarith
    · rw [dot_comm, dot_neg, dot_comm b]
      linarith
  · have hproj' : (af - bf) * af < (bg - ag) * ag := by
      have e := dot' (b - a) (-a)
      rw [dot_sub c, cross_sub c, dot_neg c, cross_neg c, mul_sub τ, mul_neg τ] at e
      have := mul_neg_of_pos_of_neg hL hproj
      rw [e] at this
      linarith
    have h3 : 0 ≤ (af - bf) * af := mul_nonneg (by linarith) (by linarith)
    have hag0 : 0 < ag := by
      by_contra hn
      have := mul_nonpos_of_nonneg_of_nonpos (show 0 ≤ bg - ag by linarith) (not_lt.1 hn)
      linarith
    have n3 : 0 < (outNormal a c b).dot (-a) := by
      have : 0 < L ^ 2 * (outNormal a c b).dot (-a) := by
        rw [n2]; exact mul_pos hspos (mul_pos hL hag0)
      exact pos_of_mul_pos_right this hL2.le
    have hn : outNormal a c b ≠ 0 := by
      intro h0
      rw [h0] at n3
      simp at n3
    have n3' := n3
    rw [dot_neg] at n3'
    -- `b · a` is positive and below `b · c`
    have hba : 0 < b.dot a := by
      have : 0 < L * b.dot a := by
        rw [e2]
        exact add_pos (mul_pos hbf (by linarith)) (mul_pos hbg0 hag0)
      exact pos_of_mul_pos_right this hL.le
    have hbac : b.dot a < b.dot c := by rw [dot_comm b c]; linarith
    have haL : af ≤ L := by
      by_contra hn
      have i1 : (bg - ag) * ag ≤ bg * bg := by
        have := mul_nonneg hbg (show 0 ≤ bg - ag by linarith)
        have := mul_self_nonneg ag
        linarith
      have i2 : bf * (L - bf) ≤ af * (af - bf) :=
        mul_le_mul (by linarith) (by linarith) (by linarith) (by linarith)
      linarith
    have hsuppa : ∀ x ∈ M, (-b).dot x ≤ (-b).dot a := fun x hx => ha.2 x hx
    have hea : (-b).dot a = -b.dot a := by rw [dot_comm, dot_neg, dot_comm a]
    have hec : (-b).dot c = -b.dot c := by rw [dot_comm, dot_neg, dot_comm c]
    have hb0 : b ≠ 0 := by
      rintro rfl
      rw [hbf', dot_zero] at hbf
      exact lt_irrefl _ hbf
    refine ⟨⟨hn, ha.1, cM, outNormal_perp a c b, by linarith, hac, Or.inr ⟨-b, neg_ne_zero.2 hb0,
      hsuppa, by linarith, ?_⟩, Or.inl ?_, Or.inr ⟨-b, ⟨-(τ * b.y), τ * b.x⟩, hsuppa, by linarith,
      by linarith, ?_, ?_, ?_⟩⟩, a, ha.1, by linarith⟩
    · have e := nac (-b)
      rw [cross', dot_sub c, cross_sub c, dot_neg c, cross_neg c, mul_sub τ, mul_neg τ,
        cross_self, hcc, mul_zero] at e
      have : 0 ≤ L ^ 2 * (outNormal a c b).dot (-b) := by
        rw [e]
        have := mul_nonneg hspos.le (show 0 ≤ s + L * ag from add_nonneg hspos.le
          (mul_nonneg hL.le hag0.le))
        linarith
      rw [dot_comm]
      exact nonneg_of_mul_nonneg_right this hL2
    · rw [dot_neg, dot_comm, dot_sub, hcc]
      linarith
    · simp only [dot_def, neg_x, neg_y]; ring
    · have e := nac ⟨-(τ * b.y), τ * b.x⟩
      have e3 : L * (τ * (c - a).cross ⟨-(τ * b.y), τ * b.x⟩) = L * (b.dot c - b.dot a) := by
        simp only [cross_def, sub_x, sub_y, dot_def]
        linear_combination (L * ((c.x - a.x) * b.x + (c.y - a.y) * b.y)) * hτ
      rw [e3] at e
      rw [dot_comm]
      have := mul_pos hspos (mul_pos hL (show 0 < b.dot c - b.dot a by linarith))
      by_contra hn
      have := mul_nonneg hL2.le (not_lt.1 hn)
      rw [e] at this
      linarith
    · have : (⟨-(τ * b.y), τ * b.x⟩ : V2 K).dot (-c) = bg := by
        rw [hbg']
        simp only [cross_def, dot_def, neg_x, neg_y]; ring
      rw [this]; exact hbg

/-- the first edge: `a` was found in direction `-c` and the origin projects onto `a c` -/
theorem T1.start {c : V2 K} (hc : c ∈ M) (ha : IsExtreme M (-c) a) (hp : c.dot a < c.dot c)
    (hproj : 0 ≤ (c - a).dot (-a)) (hd : d ≠ 0) (hperp : d.dot a = d.dot c) (hle : d.dot a ≤ 0) :
    T1 M a c d := by
  have hne : a ≠ c := by
    rintro rfl
    exact lt_irrefl _ hp
  have hc0 : c ≠ 0 := by
    rintro rfl
    rw [dot_comm, dot_zero, dot_zero] at hp
    exact lt_irrefl _ hp
  have hcr : c.cross d ≠ 0 := by
    intro h0
    have e := frame_dot c d (c - a)
    rw [h0, zero_mul, add_zero, dot_sub d, hperp, sub_self, mul_zero, dot_sub] at e
    have : c.dot d = 0 := (mul_eq_zero.1 e.symm).resolve_right (by linarith)
    exact hd (frame_zero hc0 this h0)
  have hea : (-c).dot a = -c.dot a := by rw [dot_comm, dot_neg, dot_comm a]
  have hec : (-c).dot c = -c.dot c := by rw [dot_comm, dot_neg]
  have hcc : 0 ≤ c.dot c := lengthSq_nonneg c
  refine ⟨hd, ha.1, hc, hperp, hle, hne, Or.inl hproj, Or.inl ?_, Or.inr ?_⟩
  · rw [dot_neg, dot_comm, dot_sub]; linarith
  · have hw : ∀ s : K, (⟨-(s * c.y), s * c.x⟩ : V2 K).dot (-c) = 0 ∧
        (⟨-(s * c.y), s * c.x⟩ : V2 K).dot d = s * c.cross d := by
      intro s
      constructor
      · simp only [dot_def, neg_x, neg_y]; ring
      · simp only [dot_def, cross_def]; ring
    refine ⟨-c, ⟨-(-c.cross d * c.y), -c.cross d * c.x⟩, fun x hx => ha.2 x hx, by linarith,
      by linarith, ?_, ?_, ?_⟩
    · exact (hw _).1
    · rw [(hw _).2]
      have := mul_self_pos.2 hcr
      linarith
    · rw [(hw _).1]


end
end Auburn
