import Verif.Lib.Winding

/-!
# The triangle with which EPA starts (library lemmas for C98)

The triangle GJK ends with contains the origin up to the noise.  Hence it contains, strictly, a point near the origin.
-/

set_option linter.unusedSectionVars false
set_option synthInstance.maxSize 1000

namespace Auburn
open V2

section
variable {X : Set (V2 ℝ)} {δ η τ w wb wc : ℝ} {d a b c u : V2 ℝ}

/-- `o` is strictly inside the triangle, whatever its orientation -/
structure InTri (o a b c : V2 ℝ) : Prop where
  ab : 0 < (b - a).cross (c - a) * (a - o).cross (b - o)
  bc : 0 < (b - a).cross (c - a) * (b - o).cross (c - o)
  ca : 0 < (b - a).cross (c - a) * (c - o).cross (a - o)

/-- a point next to an inner point of a side -/
theorem center_foot {t : ℝ} (hδ : 0 < δ) (hD : (b - a).cross (c - a) ≠ 0) (t0 : 0 < t) (t1 : t < 1)
    (hf : lengthSq (b + scale t (c - b)) ≤ (δ / 16) ^ 2) (ha : lengthSq a ≤ (192 * δ) ^ 2) :
    ∃ o, lengthSq o ≤ (δ / 4) ^ 2 ∧ InTri o a b c := by
  obtain ⟨f, ef⟩ : ∃ f, f = b + scale t (c - b) := ⟨_, rfl⟩
  have hDD : 0 < (b - a).cross (c - a) ^ 2 := by positivity
  refine ⟨f + scale (1 / 2000) (a - f), ?_, ⟨?_, ?_, ?_⟩⟩
  · rw [← ef] at hf
    have e : lengthSq (f + scale (1 / 2000) (a - f)) + lengthSq (scale (1999 / 2000) f - scale (1 / 2000) a) =
        2 * ((1999 / 2000) ^ 2 * lengthSq f) + 2 * ((1 / 2000) ^ 2 * lengthSq a) := by
      simp only [lengthSq_def, add_x, add_y, sub_x, sub_y, scale_x, scale_y]; ring
    have h1 := lengthSq_nonneg (scale (1999 / 2000) f - scale (1 / 2000) a)
    have h2 : 0 < δ ^ 2 := by positivity
    have h3 := lengthSq_nonneg f
    linarith
  · have e : (a - (f + scale (1 / 2000) (a - f))).cross (b - (f + scale (1 / 2000) (a - f))) =
        1999 / 2000 * (t * (b - a).cross (c - a)) := by
      rw [ef]; simp only [cross_def, add_x, add_y, sub_x, sub_y, scale_x, scale_y]; ring
    rw [e]
    have := mul_pos t0 hDD
    linarith
  · have e : (b - (f + scale (1 / 2000) (a - f))).cross (c - (f + scale (1 / 2000) (a - f))) =
        1 / 2000 * (b - a).cross (c - a) := by
      rw [ef]; simp only [cross_def, add_x, add_y, sub_x, sub_y, scale_x, scale_y]; ring
    rw [e]
    linarith
  · have e : (c - (f + scale (1 / 2000) (a - f))).cross (a - (f + scale (1 / 2000) (a - f))) =
        1999 / 2000 * ((1 - t) * (b - a).cross (c - a)) := by
      rw [ef]; simp only [cross_def, add_x, add_y, sub_x, sub_y, scale_x, scale_y]; ring
    rw [e]
    have := mul_pos (show 0 < 1 - t by linarith) hDD
    linarith

theorem InTri.rot {o : V2 ℝ} (h : InTri o a b c) : InTri o c a b := by
  have e : (a - c).cross (b - c) = (b - a).cross (c - a) := by simp only [cross_def, sub_x, sub_y]; ring
  exact ⟨by rw [e]; exact h.ca, by rw [e]; exact h.ab, by rw [e]; exact h.bc⟩

/-- the foot of the origin on an edge whose line passes near it, with far away ends -/
theorem NEdge.foot (h : NEdge X δ η τ d b c w) (hδ : 0 < δ) (hτ : τ ≤ δ / 4) (hd : |d.dot b| ≤ δ / 16)
    (hb : (3 / 4 * δ) ^ 2 ≤ lengthSq b) (hc : (3 / 4 * δ) ^ 2 ≤ lengthSq c) :
    ∃ t : ℝ, 0 < t ∧ t < 1 ∧ lengthSq (b + scale t (c - b)) ≤ (δ / 16) ^ 2 := by
  obtain ⟨e, e1, e2⟩ := h.frame
  have hw := h.w0
  -- coordinates along the edge
  have fb := unit_lengthSq h.unit b
  have fc := unit_lengthSq h.unit c
  have pb := h.pb
  have pc := h.pc
  rw [unit_dot h.unit, dot_sub, cross_sub, e2, h.perp, sub_self, zero_mul, zero_add, cross_neg] at pb
  rw [unit_dot h.unit, dot_sub, cross_sub, h.perp, sub_self, zero_mul, zero_add, cross_neg] at pc
  have d2 : d.dot b ^ 2 ≤ (δ / 16) ^ 2 := by rw [← sq_abs]; exact pow_le_pow_left₀ (abs_nonneg _) hd 2
  obtain ⟨y, hy⟩ : ∃ y, y = -(e * d.cross b) := ⟨_, rfl⟩
  have y1 : -τ ≤ y := by
    refine le_of_mul_le_mul_right ?_ hw
    rw [hy]; linarith
  have z1 : -τ ≤ w - y := by
    refine le_of_mul_le_mul_right ?_ hw
    have : (w - y) * w = (d.cross b - d.cross c) * -d.cross c := by
      rw [hy, e2]; linear_combination (-(w ^ 2)) * e1
    rw [this]; linarith
  have y2 : y ^ 2 = d.cross b ^ 2 := by rw [hy, neg_sq, mul_pow, e1, one_mul]
  have z2 : (w - y) ^ 2 = d.cross c ^ 2 := by
    have : w - y = e * d.cross c := by rw [hy, e2]; linear_combination (-w) * e1
    rw [this, mul_pow, e1, one_mul]
  have hδ2 : 0 < δ ^ 2 := by positivity
  have far : ∀ x : ℝ, -τ ≤ x → (δ / 2) ^ 2 ≤ x ^ 2 → 0 < x := by
    intro x hx h2
    by_contra hcon
    push Not at hcon
    have h3 : (-x) ^ 2 ≤ (δ / 4) ^ 2 := pow_le_pow_left₀ (by linarith) (by linarith) 2
    rw [neg_sq] at h3
    linarith
  have y0 := far y y1 (by linarith)
  rw [h.perp] at d2
  have z0 := far (w - y) z1 (by linarith)
  refine ⟨y / w, by positivity, (div_lt_one hw).2 (by linarith), ?_⟩
  rw [unit_lengthSq h.unit, dot_add, dot_scale, dot_sub, h.perp, sub_self, mul_zero, add_zero, cross_add]
  have : d.cross (scale (y / w) (c - b)) = y / w * d.cross (c - b) := by
    simp only [cross_def, scale_x, scale_y]; ring
  rw [this, cross_sub, e2, hy]
  have e3 : d.cross b + -(e * d.cross b) / w * (d.cross b + e * w - d.cross b) = 0 := by
    field_simp
    linear_combination (-d.cross b * w) * e1
  rw [e3]
  linarith

/-- **A point near the origin strictly inside the last triangle.** -/
theorem NInv.center {k : Nat} (hk : k ≤ 100) (hI : NInv X δ η k d b c w) (hδ : 0 < δ) (hη : 0 < η) (hr : 8192 * η ≤ δ)
    (hD : Deep X δ) (ha : NPt X δ η a) (hext : ∀ m ∈ X, d.dot m ≤ d.dot a + δ / 10) (hwb : 0 < wb)
    (hwb' : wb ^ 2 = lengthSq (b - a)) (hwc : 0 < wc) (hwc' : wc ^ 2 = lengthSq (c - a))
    (sb : -η ≤ (nextUnit d b c a w wb).dot a) (sc : -η ≤ (nextUnit d c b a w wc).dot a) :
    ∃ o, lengthSq o ≤ (δ / 4) ^ 2 ∧ InTri o a b c := by
  have hk' : (k : ℝ) ≤ 100 := by exact_mod_cast hk
  have hk0 : (0 : ℝ) ≤ k := Nat.cast_nonneg k
  have q1 := mul_le_mul_of_nonneg_right hk' hη.le
  have q2 := mul_nonneg hk0 hη.le
  have stb : NStep X δ η (δ / 8 + k * η) d b c a w wb := ⟨hI.1, hδ, hη, hr, hD, ha, hext, hwb, hwb'⟩
  have stc : NStep X δ η (δ / 8 + k * η) d c b a w wc := ⟨hI.1.symm, hδ, hη, hr, hD, ha, hext, hwc, hwc'⟩
  have hDD : (b - a).cross (c - a) ≠ 0 := by
    intro h0
    have := stb.cross_sq
    rw [h0] at this
    have h1 := mul_pos stb.H0 stb.e.w0
    have h2 : 0 < (d.dot (a - b) * w) ^ 2 := by positivity
    rw [← this] at h2
    norm_num at h2
  -- the ends are far from the origin
  have far : ∀ {u p : V2 ℝ}, NSup X δ u p → (3 / 4 * δ) ^ 2 ≤ lengthSq p := by
    intro u p hs
    have h1 := dot_sq_le u p
    have h2 := mul_le_mul_of_nonneg_right hs.lu (lengthSq_nonneg p)
    have h3 := pow_le_pow_left₀ (by positivity) hs.pos 2
    linarith
  obtain ⟨-, ub, uc, nb, nc, -, -, -⟩ := hI
  have fa := far stb.sup_new
  have fb := far nb
  have fc := far nc
  have hη4 : η ≤ δ / 16 := by linarith
  by_cases e1 : 0 < (b - a).cross (c - a) * b.cross c
  · by_cases e2 : 0 < (b - a).cross (c - a) * a.cross b
    · by_cases e3 : 0 < (b - a).cross (c - a) * c.cross a
      · refine ⟨0, by simp only [lengthSq_def, zero_x, zero_y]; norm_num; positivity, ?_⟩
        have z : ∀ v : V2 ℝ, v - 0 = v := fun v => by ext <;> simp
        exact ⟨by rw [z, z]; exact e2, by rw [z, z]; exact e1, by rw [z, z]; exact e3⟩
      · -- the side `c a`
        have hle : (nextUnit d c b a w wc).dot a ≤ 0 := by
          have h1 : (outNormal a c b).dot a = (b - a).cross (c - a) * c.cross a := by
            rw [outNormal_dot]; simp only [cross_def, sub_x, sub_y]; ring
          rw [stc.outNormal_eq, scale_dot] at h1
          have := not_lt.1 e3
          rw [← h1] at this
          exact nonpos_of_mul_nonpos_right this stc.next_pos
        obtain ⟨n1, -⟩ := stc.next (by linarith) (by linarith) (hle.trans hη.le)
        obtain ⟨t, t0, t1, t2⟩ := n1.symm.foot hδ (by linarith) (by
          rw [← n1.perp]; exact abs_le.2 ⟨by linarith, by linarith⟩) fc fa
        obtain ⟨o, o1, o2⟩ := center_foot (a := b) (b := c) (c := a) hδ (by
          rw [show (c - b).cross (a - b) = (b - a).cross (c - a) by simp only [cross_def, sub_x, sub_y]; ring]; exact hDD)
          t0 t1 t2 stb.e.hb.size
        exact ⟨o, o1, o2.rot⟩
    · have hle : (nextUnit d b c a w wb).dot a ≤ 0 := by
        have h1 : (outNormal a b c).dot a = (b - a).cross (c - a) * a.cross b := by
          rw [outNormal_dot]; simp only [cross_def, sub_x, sub_y]; ring
        rw [stb.outNormal_eq, scale_dot] at h1
        have := not_lt.1 e2
        rw [← h1] at this
        exact nonpos_of_mul_nonpos_right this stb.next_pos
      obtain ⟨n1, -⟩ := stb.next (by linarith) (by linarith) (hle.trans hη.le)
      obtain ⟨t, t0, t1, t2⟩ := n1.foot hδ (by linarith) (abs_le.2 ⟨by linarith, by linarith⟩) fa fb
      obtain ⟨o, o1, o2⟩ := center_foot (a := c) (b := a) (c := b) hδ (by
        rw [show (a - c).cross (b - c) = (b - a).cross (c - a) by simp only [cross_def, sub_x, sub_y]; ring]; exact hDD)
        t0 t1 t2 stb.e.hc.size
      exact ⟨o, o1, o2.rot.rot⟩
  · -- the side `b c`
    have hge : 0 ≤ d.dot b := by
      obtain ⟨e, g1, g2⟩ := stb.e.frame
      have h1 : (b - a).cross (c - a) = d.dot (a - b) * (-(e * w)) := by
        rw [unit_cross stb.e.unit]
        simp only [dot_sub, cross_sub, g2, ← stb.e.perp]; ring
      have h2 : b.cross c = d.dot b * (e * w) := by
        rw [unit_cross stb.e.unit, g2, ← stb.e.perp]; ring
      have h3 : (b - a).cross (c - a) * b.cross c = -(d.dot (a - b) * w ^ 2 * d.dot b) := by
        rw [h1, h2]; linear_combination (-(d.dot (a - b) * d.dot b * w ^ 2)) * g1
      rw [h3] at e1
      have h4 : 0 ≤ d.dot (a - b) * w ^ 2 * d.dot b := by linarith
      exact nonneg_of_mul_nonneg_right h4 (mul_pos stb.H0 (pow_pos stb.e.w0 2))
    obtain ⟨t, t0, t1, t2⟩ := stb.e.foot hδ (by linarith) (abs_le.2 ⟨by linarith, by linarith [stb.e.le]⟩) fb fc
    exact center_foot hδ hDD t0 t1 t2 ha.size

end
end Auburn
