import Verif.Ieee.PosProps
import Verif.Ieee.NoisyExamples

/-!
# C87: concrete cases, and why a tolerance is needed
-/

set_option linter.unusedSectionVars false
set_option synthInstance.maxSize 1000

namespace Auburn

open F32 V2 ExtremePoint2d Transformation2d

section
variable [env : F32Env]

/-- The hypotheses of `C87_f32_poly_poly` hold with `M = 8` and all three answers are positive. -/
example : (litPoly triA).Bounded32 8 ∧ (litPoly triB).Bounded32 8 ∧ (litV (13/10) (7/10)).Bounded32 8 ∧
    (1 : ℝ) ≤ 8 ∧ (8 : ℝ) ≤ (2 : ℝ) ^ (26 : ℤ) ∧
    collidesRel (litPoly triA) (litPoly triB) (litV (13/10) (7/10)) = .ok true ∧
    (∃ v, penetratesRel (litPoly triA) (litPoly triB) (litV (13/10) (7/10)) = .ok (some v)) ∧
    ∃ v, sdfvRel (litPoly triA) (litPoly triB) (litV (13/10) (7/10)) = .ok (true, v) := by
  obtain ⟨h1, h2, h3, -⟩ := tri_hyps (13/10, 7/10) (by decide +kernel)
  refine ⟨h1, h2, h3, by norm_num, by norm_num, ?_, ?_, ?_⟩
  · obtain ⟨v, hv⟩ := (rel_run false false triA triB (13/10, 7/10)).flag true (by decide +kernel)
    show (LocalMinkowskiDiff2d.sdfvMinkowski false false ⟨_, _, _⟩).map _ = _
    rw [hv]; rfl
  · obtain ⟨v, hv⟩ := (rel_run true false triA triB (13/10, 7/10)).flag true (by decide +kernel)
    refine ⟨v, ?_⟩
    show (LocalMinkowskiDiff2d.sdfvMinkowski true false ⟨_, _, _⟩).map _ = _
    rw [hv]; rfl
  · exact (rel_run true true triA triB (13/10, 7/10)).flag true (by decide +kernel)

/-- What C87 then says about the two triangles: some point of one is within 1/8 of the other. -/
example : MeetUpTo (8 / 2 ^ 6) (Region.pts (litPoly triA).toReal)
    (shift (litV (13/10) (7/10)).toReal (Region.pts (litPoly triB).toReal)) := by
  obtain ⟨h1, h2, h3, -⟩ := tri_hyps (13/10, 7/10) (by decide +kernel)
  obtain ⟨v, hv⟩ := (rel_run false false triA triB (13/10, 7/10)).flag true (by decide +kernel)
  refine (C87_f32_poly_poly _ _ _ h1 h2 h3 (by norm_num) (by norm_num)).collides ?_
  show (LocalMinkowskiDiff2d.sdfvMinkowski false false ⟨_, _, _⟩).map _ = _
  rw [hv]; rfl

/-- Finding: for these two triangles with integer vertices, more than 8 units apart, `collides` answers true: the
cross product of two nearly parallel edges rounds to zero, and the search takes the zero direction for a contact.
The coordinates are below `2^16`, so the tolerance of C87 cannot be smaller than `M / 2^13`. -/
theorem C87_f32_collides_false_positive_finding :
    let a := litPoly [(1, -21), (17, -5), (-55703, -55711)]
    let b := litPoly [(5, 3), (3, 1), (2, 1)]
    let t := litV 4 (-4)
    collidesRel a b t = .ok true ∧ a.Bounded32 (2 ^ 16) ∧ b.Bounded32 (2 ^ 16) ∧ t.Bounded32 (2 ^ 16) ∧
      FartherThan 8 (Region.pts a.toReal) (shift t.toReal (Region.pts b.toReal)) := by
  intro a b t
  have h1 := litPoly_good (l := [(1, -21), (17, -5), (-55703, -55711)]) (m := 2 ^ 16) (by decide) (by decide +kernel)
  have h2 := litPoly_good (l := [(5, 3), (3, 1), (2, 1)]) (m := 2 ^ 16) (by decide) (by decide +kernel)
  have h3 := litV_good (p := (4, -4)) (m := 2 ^ 16) (by decide +kernel)
  rw [show ((2 ^ 16 : ℚ) : ℝ) = 2 ^ 16 by norm_num] at h1 h2 h3
  refine ⟨?_, h1.1, h2.1, h3.1, ?_⟩
  · obtain ⟨v, hv⟩ := (rel_run false false [(1, -21), (17, -5), (-55703, -55711)] [(5, 3), (3, 1), (2, 1)] (4, -4)).flag
      true (by decide +kernel)
    show (LocalMinkowskiDiff2d.sdfvMinkowski false false ⟨a, b, t⟩).map _ = _
    change (LocalMinkowskiDiff2d.sdfvMinkowski false false ⟨a, b, t⟩) = _ at hv
    rw [hv]; rfl
  · exact_mod_cast farther (t := (4, -4)) (55690, -55704) 668308 8 (by decide +kernel) (by norm_num) (by norm_num)

end

end Auburn
