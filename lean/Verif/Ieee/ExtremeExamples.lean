import Verif.Ieee.ExtremeProps
import Verif.Ieee.TurnExamples

/-!
# C91: concrete cases
-/

set_option linter.unusedSectionVars false
set_option synthInstance.maxSize 1000

namespace Auburn

open F32 V2 ExtremePoint2d Transformation2d

section
variable [env : F32Env]

/-- the real vector of evaluated coordinates -/
theorem rel2_toReal {q : V2 QF} {v : V2 F32} (h : Rel2 q v) {x y : ℚ} (hx : q.x.toRat = x) (hy : q.y.toRat = y) :
    v.toReal = ⟨x, y⟩ := by
  refine V2.ext ?_ ?_
  · exact h.x.toReal.trans (by rw [hx])
  · exact h.y.toReal.trans (by rw [hy])

/-- two vertices whose dot products with `(1, 1)` round to the same number -/
def tallList : List (ℚ × ℚ) := [(16777216, 0), (16777216, 1), (0, 0)]

theorem tall_hyps : (litPoly tallList).Bounded32 (2 ^ 24) ∧ (litV 1 1).Sane 58 := by
  have h := litPoly_good (l := tallList) (m := 2 ^ 24) (by decide) (by decide +kernel)
  have h' := litV_good (p := (1, 1)) (m := 1) (by decide +kernel)
  have e := rel2_toReal (rel_litV (1, 1)) (x := 1) (y := 1) (by decide +kernel) (by decide +kernel)
  have e : (litV 1 1).toReal = ⟨1, 1⟩ := by simpa using e
  simp only [Rat.cast_pow, Rat.cast_ofNat, Rat.cast_one] at h h'
  refine ⟨h.1, h'.1.1, ⟨h'.1.2.1.trans (one_le_zpow₀ (by norm_num) (by norm_num)),
    h'.1.2.2.trans (one_le_zpow₀ (by norm_num) (by norm_num))⟩, ?_⟩
  rw [e]
  norm_num

/-- the hypotheses of the C91 statements hold for literal shapes, a literal rotated transform and a literal direction -/
example : (litPoly triA).Bounded32 16 ∧ turnA.Rigid32 16 (1 / 2 ^ 16) ∧ (litV 1 1).Sane 58 ∧ (litV 1 1).Sane 85 ∧
    (2 : ℝ) ^ (-20 : ℤ) ≤ 16 ∧ (16 : ℝ) ≤ (2 : ℝ) ^ (15 : ℤ) := by
  obtain ⟨-, -, h3, -, -⟩ := turn_hyps
  obtain ⟨-, h⟩ := tall_hyps
  have hA := litPoly_good (l := triA) (m := 16) (by decide) (by decide +kernel)
  simp only [Rat.cast_ofNat] at hA
  exact ⟨hA.1, h3.mono (by norm_num) (by norm_num), h, ⟨h.1, ⟨h.2.1.1.trans (zpow_le_zpow (by norm_num)),
    h.2.1.2.trans (zpow_le_zpow (by norm_num))⟩, h.2.2⟩, by norm_num, by norm_num⟩

/-- Finding: the vertex a polygon answers need not be the farthest one: with `(2^24, 0)` and `(2^24, 1)` and the
direction `(1, 1)` it answers the first although the second is farther by one unit, because both dot products round to
`2^24`. -/
theorem C91_f32_poly_finding : ∃ (P : Poly2d F32) (d : V2 F32), P.Bounded32 (2 ^ 24) ∧ d.Sane 58 ∧
    ∃ v ∈ P.points, d.toReal.dot (extremePoint P d).toReal + 1 = d.toReal.dot v.toReal := by
  obtain ⟨h1, h2⟩ := tall_hyps
  refine ⟨litPoly tallList, litV 1 1, h1, h2, litV 16777216 1, by simp [litPoly, tallList], ?_⟩
  have r := rel_poly (rel_litPoly tallList) _ _ (rel_litV (1, 1))
  have e := rel2_toReal r (x := 16777216) (y := 0) (by decide +kernel) (by decide +kernel)
  have e1 := rel2_toReal (rel_litV (1, 1)) (x := 1) (y := 1) (by decide +kernel) (by decide +kernel)
  have e2 := rel2_toReal (rel_litV (16777216, 1)) (x := 16777216) (y := 1) (by decide +kernel) (by decide +kernel)
  change (extremePoint (litPoly tallList) (litV 1 1)).toReal = _ at e
  change (litV 1 1).toReal = _ at e1
  change (litV 16777216 1).toReal = _ at e2
  rw [e, e1, e2]
  simp [dot_def]

end

end Auburn
