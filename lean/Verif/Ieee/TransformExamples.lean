import Verif.Ieee.TransformProps
import Verif.Ieee.TurnExamples

/-!
# C90: concrete cases
-/

set_option linter.unusedSectionVars false
set_option synthInstance.maxSize 1000

namespace Auburn

open F32 V2 ExtremePoint2d Transformation2d

section
variable [env : F32Env]

/-- the hypotheses of the C90 statements hold for literal transforms and points, and for a rotation by the same
rotor a thousand times -/
example : turnA.Rigid32 16 (1 / 2 ^ 18) ∧ turnB.Rigid32 16 (1 / 2 ^ 18) ∧ (litV (13/10) (7/10)).Bounded32 16 ∧
    (List.replicate 1000 turnA.rot).length ≤ 2 ^ 14 ∧
    ∀ r ∈ List.replicate 1000 turnA.rot, r.a.Is r.a.toReal ∧ NearUnit (1 / 2 ^ 16) r.a.toReal := by
  obtain ⟨-, -, h3, h4, -⟩ := turn_hyps
  have h := litV_good (p := (13/10, 7/10)) (m := 16) (by decide +kernel)
  simp only [Rat.cast_ofNat] at h
  refine ⟨h3.mono (by norm_num) le_rfl, h4.mono (by norm_num) le_rfl, h.1, by rw [List.length_replicate]; norm_num, ?_⟩
  intro r hr
  rw [List.mem_replicate] at hr
  rw [hr.2]
  exact ⟨h3.rot, h3.unit.trans (by norm_num)⟩

/-- Finding: the round trip is not exact in f32, neither for a rotation nor for a translation. -/
theorem C90_f32_round_trip_finding :
    (∃ (t : Transform2d F32) (p : V2 F32), t.Rigid32 4 (1 / 2 ^ 18) ∧ p.Bounded32 4 ∧ unapply t (apply t p) ≠ p) ∧
    ∃ t p : V2 F32, t.Bounded32 4 ∧ p.Bounded32 4 ∧ unapply t (apply t p : V2 F32) ≠ p := by
  obtain ⟨-, -, h3, -, -⟩ := turn_hyps
  have h := litV_good (p := (1/10, 7/10)) (m := 4) (by decide +kernel)
  have h' := litV_good (p := (13/10, 7/2)) (m := 4) (by decide +kernel)
  simp only [Rat.cast_ofNat] at h h'
  have key : ∀ {u : V2 QF} {v w : V2 F32} {z : V2 QF}, Rel2 u v → Rel2 z w → u.x.toRat ≠ z.x.toRat → v ≠ w := by
    intro u v w z h1 h2 e h0
    have e1 := h1.x.toReal
    have e2 := h2.x.toReal
    rw [h0, e2] at e1
    exact e (by exact_mod_cast e1.symm)
  refine ⟨⟨turnA, litV (1/10) (7/10), h3.mono (by norm_num) le_rfl, h.1, ?_⟩,
    litV (13/10) (7/2), litV (1/10) (7/10), h'.1, h.1, ?_⟩
  · have r : RelT qta turnA := rel_litT _ _
    exact key (r.unapply (r.apply (rel_litV (1/10, 7/10)))) (rel_litV (1/10, 7/10)) (by decide +kernel)
  · exact key (((rel_litV (1/10, 7/10)).add (rel_litV (13/10, 7/2))).sub (rel_litV (13/10, 7/2))) (rel_litV (1/10, 7/10))
      (by decide +kernel)

end

end Auburn
