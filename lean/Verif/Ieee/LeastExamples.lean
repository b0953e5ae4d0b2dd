import Verif.Ieee.LeastProps
import Verif.Ieee.DeepExamples

/-!
# C98: concrete cases

The polygon with eight vertices and the triangle of the C97 examples: all hypotheses of `C98_f32_poly_poly` and of
`C98_f32_poly_poly_turned_colliders` hold, and the reported pushes are not zero, so that both halves of `NearlyLeast`
apply to them.
-/

set_option linter.unusedSectionVars false
set_option synthInstance.maxSize 1000

namespace Auburn

open F32 V2 ExtremePoint2d Transformation2d

section
variable [env : F32Env]

example : (litPoly octo).Bounded32 8 ∧ (litPoly triB).Bounded32 8 ∧ (litV (2/10) (-1/10)).Bounded32 8 ∧
    DeepBy (8 / 32) (Region.pts (litPoly octo).toReal)
      (shift (litV (2/10) (-1/10)).toReal (Region.pts (litPoly triB).toReal)) ∧
    ∃ v x, penetratesRel (litPoly octo) (litPoly triB) (litV (2/10) (-1/10)) = .ok (some v) ∧ V2.Is v x ∧ x ≠ 0 ∧
      NearlyLeast (49 / 50) (8 / 2 ^ 17) (Region.pts (litPoly octo).toReal)
        (shift (litV (2/10) (-1/10)).toReal (Region.pts (litPoly triB).toReal)) x := by
  have h1 := litPoly_good (l := octo) (m := 8) (by decide) (by decide +kernel)
  have h2 := litPoly_good (l := triB) (m := 8) (by decide) (by decide +kernel)
  have h3 := litV_good (p := (2/10, -1/10)) (m := 8) (by decide +kernel)
  simp only [Rat.cast_ofNat] at h1 h2 h3
  refine ⟨h1.1, h2.1, h3.1, octo_deep, ?_⟩
  obtain ⟨⟨v, x, e, hx, hl⟩, -⟩ := C98_f32_poly_poly _ _ _ h1.1 h2.1 h3.1 (le_refl _) (by norm_num) octo_deep
  refine ⟨v, x, e, hx, ?_, hl⟩
  obtain ⟨w, hw, r⟩ := (rel_run true false octo triB (2/10, -1/10)).vec true
    (u := ⟨.fin true (2986421/2097152), .fin false (15718005/8388608)⟩) (by decide +kernel)
  have e' : penetratesRel (litPoly octo) (litPoly triB) (litV (2/10) (-1/10)) = .ok (some w) := by
    show (LocalMinkowskiDiff2d.sdfvMinkowski true false ⟨_, _, _⟩).map _ = _
    rw [hw]; rfl
  rw [e] at e'
  cases e'
  have := rel_nonzero r (by decide +kernel)
  rwa [hx.toReal] at this

example : (litPoly octo).Bounded32 4 ∧ (litPoly triB).Bounded32 4 ∧ deepA.Rigid32 (4 / 4) (1 / 2 ^ 18) ∧
    deepB.Rigid32 (4 / 4) (1 / 2 ^ 18) ∧
    DeepBy (4 / 15) (deepA.image (Region.pts (litPoly octo).toReal)) (deepB.image (Region.pts (litPoly triB).toReal)) ∧
    ∃ v x, penetrates ⟨litPoly octo, deepA⟩ ⟨litPoly triB, deepB⟩ = .ok (some v) ∧ V2.Is v x ∧ x ≠ 0 ∧
      NearlyLeast (24 / 25) (4 / 2 ^ 15) (deepA.image (Region.pts (litPoly octo).toReal))
        (deepB.image (Region.pts (litPoly triB).toReal)) (turn deepA.rot.a.toReal x) := by
  have h1 := litPoly_good (l := octo) (m := 4) (by decide) (by decide +kernel)
  have h2 := litPoly_good (l := triB) (m := 4) (by decide) (by decide +kernel)
  simp only [Rat.cast_ofNat] at h1 h2
  have hr : RelT (deltaTransform (qlitT (1/10, -3/10) (3/5, 4/5)) (qlitT (-6/10, -2/10) (5/13, 12/13)))
      (deltaTransform deepA deepB) := (rel_litT _ _).delta (rel_litT _ _)
  refine ⟨h1.1, h2.1, deep_rigid.1, deep_rigid.2, octo_turned_deep, ?_⟩
  obtain ⟨⟨v, x, e, hx, hl⟩, -⟩ := C98_f32_poly_poly_turned_colliders _ _ _ _ h1.1 h2.1 deep_rigid.1 deep_rigid.2
    (le_refl _) (by norm_num) octo_turned_deep
  refine ⟨v, x, e, hx, ?_, hl⟩
  obtain ⟨w, hw, r⟩ := (rel_qturn true false octo triB hr).vec true
    (u := ⟨.fin false (12614735/16777216), .fin true (7932335/4194304)⟩) (by decide +kernel)
  have e' : penetrates ⟨litPoly octo, deepA⟩ ⟨litPoly triB, deepB⟩ = .ok (some w) := by
    show (LocalMinkowskiDiff2d.sdfvMinkowski true false ⟨_, _, _⟩).map _ = _
    rw [hw]; rfl
  rw [e] at e'
  cases e'
  have := rel_nonzero r (by decide +kernel)
  rwa [hx.toReal] at this

/-- A ball of radius one at the centre of a box of half size one meets the hypotheses of `C98_f32_ball_box`. -/
example : (Ball.mk (1 : F32)).Bounded32 8 ∧ (Box2d.mk (⟨1, 1⟩ : V2 F32)).Bounded32 8 ∧ (0 : V2 F32).Bounded32 8 ∧
    DeepBy (8 / 32) (Region.pts (Ball.mk (1 : F32).toReal)) (shift (0 : V2 F32).toReal (Region.pts (Box2d.mk (⟨1, 1⟩ : V2 F32)).toReal)) := by
  have e1 : (1 : F32).toReal = 1 := F32.Is.toReal is_one
  have e0 : (0 : F32).toReal = 0 := F32.Is.toReal is_zero
  refine ⟨⟨?_, ?_, ?_⟩, ⟨⟨?_, ?_⟩, ?_⟩, ⟨?_, ?_⟩, ?_⟩
  · show F32.Is (1 : F32) (1 : F32).toReal
    rw [e1]; exact is_one
  · show 0 ≤ (1 : F32).toReal
    rw [e1]; norm_num
  · show (1 : F32).toReal ≤ 8
    rw [e1]; norm_num
  · show V2.Is (⟨1, 1⟩ : V2 F32) ⟨(1 : F32).toReal, (1 : F32).toReal⟩
    rw [e1]; exact ⟨is_one, is_one⟩
  · show |(1 : F32).toReal| ≤ 8 ∧ |(1 : F32).toReal| ≤ 8
    rw [e1]; norm_num
  · show 0 ≤ (1 : F32).toReal ∧ 0 ≤ (1 : F32).toReal
    rw [e1]; norm_num
  · show V2.Is (⟨0, 0⟩ : V2 F32) ⟨(0 : F32).toReal, (0 : F32).toReal⟩
    rw [e0]; exact ⟨is_zero, is_zero⟩
  · show |(0 : F32).toReal| ≤ 8 ∧ |(0 : F32).toReal| ≤ 8
    rw [e0]; norm_num
  · have hbox : (0 : V2 ℝ) ∈ shift (0 : V2 F32).toReal (Region.pts (Box2d.mk (⟨1, 1⟩ : V2 F32)).toReal) := by
      refine ⟨0, ⟨?_, ?_⟩, ?_⟩
      · show |(0 : ℝ)| ≤ (1 : F32).toReal
        rw [e1]; norm_num
      · show |(0 : ℝ)| ≤ (1 : F32).toReal
        rw [e1]; norm_num
      · show (0 : V2 ℝ) = 0 + ⟨(0 : F32).toReal, (0 : F32).toReal⟩
        rw [e0]; ext <;> simp
    have hball : ∀ x : V2 ℝ, x.norm ≤ 1 → x ∈ Region.pts (Ball.mk (1 : F32).toReal) := by
      intro x hx
      rw [e1]
      refine ⟨zero_le_one, ?_⟩
      show x.lengthSq ≤ 1 ^ 2
      rw [← V2.norm_sq_lengthSq]
      exact pow_le_pow_left₀ x.norm_nonneg hx 2
    intro n
    rcases n.norm_nonneg.lt_or_eq with hl | hl
    · refine ⟨V2.scale (1 / n.norm) n, hball _ ?_, 0, hbox, ?_⟩
      · rw [V2.norm_scale, abs_of_pos (by positivity), one_div_mul_cancel hl.ne']
      · have e : n.dot (V2.scale (1 / n.norm) n - 0) = n.norm := by
          have h := V2.norm_sq' n
          simp only [dot_def, sub_x, sub_y, scale_x, scale_y, zero_x, zero_y] at h ⊢
          field_simp
          linarith
        rw [e]; linarith
    · refine ⟨0, hball _ (by rw [V2.norm_zero]; norm_num), 0, hbox, ?_⟩
      rw [← hl]
      simp [dot_def]

end

end Auburn
