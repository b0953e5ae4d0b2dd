import Verif.Ieee.BoxFlip
import Verif.Ieee.EqFindings

/-! # C103: finding: the way out of a square does not turn with it -/

set_option linter.unusedSectionVars false
set_option synthInstance.maxSize 1000

namespace Auburn

open ExtremePoint2d Transformation2d Auburn.Invertible Composable SdfvCommonRel2d SdfRel2d

section
variable [env : F32Env]

theorem boxPoint_tie {q k : V2 QF} {p h : V2 F32} (hp : Rel2 q p) (hh : Rel2 k h) {mx my : ℚ}
    (ex : FloatExtra.abs q.x - k.x = .fin true mx) (ey : FloatExtra.abs q.y - k.y = .fin true my)
    (hlt : ¬ QF.fin true my < QF.fin true mx) :
    boxPoint true false h p = (true, ⟨0, (FloatExtra.abs p.y - h.y) * FloatExtra.signum p.y⟩) := by
  have rx := hp.x.abs.sub hh.x
  have ry := hp.y.abs.sub hh.y
  rw [ex] at rx
  rw [ey] at ry
  unfold boxPoint
  dsimp only
  rw [if_pos ⟨rx.signNeg, ry.signNeg⟩, if_pos rfl, if_neg (fun c => hlt ((ry.lt rx).2 c))]

/-- finding: a square of half size 1 and a point at (1/2, 1/2) in it: the answer is to push by (0, -1/2), and it is (0, -1/2)
again when the scene is turned by 90 degrees (the point is then at (-1/2, 1/2)), not (1/2, 0) -/
theorem C103_box_turn_finding : ∃ (a : Box2d F32) (b : Point F32) (rel v w : V2 F32), a.quarter = a ∧
    penetratesRel a b rel = .ok (some v) ∧ penetratesRel a b (quarter rel) = .ok (some w) ∧
    v.toReal = ⟨0, -1 / 2⟩ ∧ w.toReal = ⟨0, -1 / 2⟩ ∧ ¬ Turned v w := by
  have hh : Rel2 ⟨qlit 1, qlit 1⟩ ⟨lit 1, lit 1⟩ := ⟨rel_lit 1, rel_lit 1⟩
  have hp : Rel2 ⟨qlit (1 / 2), qlit (1 / 2)⟩ ⟨lit (1 / 2), lit (1 / 2)⟩ := ⟨rel_lit _, rel_lit _⟩
  have hp' : Rel2 ⟨-qlit (1 / 2), qlit (1 / 2)⟩ ⟨-lit (1 / 2), lit (1 / 2)⟩ := ⟨(rel_lit _).neg, rel_lit _⟩
  have e := boxPoint_tie (mx := 1 / 2) (my := 1 / 2) hp hh (by decide +kernel) (by decide +kernel) (by decide +kernel)
  have e' := boxPoint_tie (mx := 1 / 2) (my := 1 / 2) hp' hh (by decide +kernel) (by decide +kernel) (by decide +kernel)
  have hr := ((hp.y.abs.sub hh.y).mul hp.y.signum).toReal
  have hq : (((FloatExtra.abs (qlit (1 / 2)) - qlit 1) * FloatExtra.signum (qlit (1 / 2)) : QF)).toRat = -1 / 2 := by
    decide +kernel
  rw [hq] at hr
  have hv : (⟨0, (FloatExtra.abs (lit (1 / 2)) - lit 1) * FloatExtra.signum (lit (1 / 2))⟩ : V2 F32).toReal = ⟨0, -1 / 2⟩ := by
    show (⟨F32.toReal 0, F32.toReal _⟩ : V2 ℝ) = _
    rw [hr, Rel.zero.toReal]
    congr 1
    · show ((QF.toRat 0 : ℚ) : ℝ) = 0
      have : (QF.toRat 0 : ℚ) = 0 := by decide +kernel
      rw [this]; norm_num
    · norm_num
  refine ⟨⟨⟨lit 1, lit 1⟩⟩, ⟨⟩, ⟨lit (1 / 2), lit (1 / 2)⟩,
    ⟨0, (FloatExtra.abs (lit (1 / 2)) - lit 1) * FloatExtra.signum (lit (1 / 2))⟩,
    ⟨0, (FloatExtra.abs (lit (1 / 2)) - lit 1) * FloatExtra.signum (lit (1 / 2))⟩, rfl, ?_, ?_, hv, hv, ?_⟩
  · exact congrArg (fun r : Bool × V2 F32 => Except.ok (if r.1 then some r.2 else none)) e
  · exact congrArg (fun r : Bool × V2 F32 => Except.ok (if r.1 then some r.2 else none)) e'
  · intro h
    have h1 : Same32 (-((FloatExtra.abs (lit (1 / 2)) - lit 1) * FloatExtra.signum (lit (1 / 2)))) 0 := h.1
    have h2 : Rel (-((FloatExtra.abs (qlit (1 / 2)) - qlit 1) * FloatExtra.signum (qlit (1 / 2)))) _ :=
      ((hp.y.abs.sub hh.y).mul hp.y.signum).neg
    have h3 := (h2.lt Rel.zero)
    have h4 := (Rel.zero.lt h2)
    have hz := Zr.iff.2 h1
    have h5 := Zr.zero.lt hz
    exact absurd (h5.1 (h4.1 (by decide +kernel))) (by
      intro c
      exact absurd ((Rel.zero.lt Rel.zero).2 c) (by decide +kernel))

end

end Auburn
