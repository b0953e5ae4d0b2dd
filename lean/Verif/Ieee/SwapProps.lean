import Verif.Ieee.BallProps
import Verif.Ieee.PosStep

/-!
# C100 in binary32: two balls
-/

set_option linter.unusedSectionVars false
set_option synthInstance.maxSize 1000

namespace Auburn

variable [env : F32Env]
open F32 V2 ExtremePoint2d Transformation2d Auburn.Invertible Composable

theorem ofReal_neg_sq (z z' : Bool) (x : ℝ) : ofReal z x * ofReal z x = ofReal z' (-x) * ofReal z' (-x) := by
  by_cases h : x = 0
  · subst h
    simp only [ofReal, neg_zero, if_true]
    show F32.mul _ _ = F32.mul _ _
    simp [F32.mul]
  · have h' : -x ≠ 0 := neg_ne_zero.2 h
    simp only [ofReal, if_neg h, if_neg h', abs_neg]
    unfold ofMag
    split_ifs
    · show F32.mul _ _ = F32.mul _ _
      simp [F32.mul]
    · show F32.mul _ _ = F32.mul _ _
      simp [F32.mul]

/-- the square of a difference does not depend on the order, bit for bit -/
theorem sub_sq_comm (u v : F32) : (u + -v) * (u + -v) = (v + -u) * (v + -u) := by
  have hs : ∀ (s : Bool) (m : ℝ), sval (!s) m = -sval s m := by intro s m; cases s <;> simp [sval]
  rcases u with _ | s | ⟨s, m, hm⟩ <;> rcases v with _ | t | ⟨t, n, hn⟩
  all_goals try rfl
  · cases s <;> cases t <;> rfl
  · cases s <;> cases t <;> rfl
  · cases s <;> cases t <;> rfl
  · show F32.mul (F32.add _ (F32.neg _)) (F32.add _ (F32.neg _)) = F32.mul (F32.add _ (F32.neg _)) (F32.add _ (F32.neg _))
    simp only [F32.add, F32.neg, hs]
    have e : sval t n + -sval s m = -(sval s m + -sval t n) := by ring
    rw [e]
    exact ofReal_neg_sq _ _ _

/-- Two ball colliders placed by `Vec2` or `Translate2d`, any radii and positions, even huge, infinite or NaN:
`collides` and `sdf` give the same answer in both orders, bit for bit. -/
theorem C100_f32_balls (a b : Ball F32) (p q : V2 F32) :
    collides (Collider2d.mk a p) (Collider2d.mk b q) = collides (Collider2d.mk b q) (Collider2d.mk a p) ∧
    sdf (Collider2d.mk a p) (Collider2d.mk b q) = sdf (Collider2d.mk b q) (Collider2d.mk a p) ∧
    collides (Collider2d.mk a (Translate2d.mk p)) (Collider2d.mk b (Translate2d.mk q)) =
      collides (Collider2d.mk b (Translate2d.mk q)) (Collider2d.mk a (Translate2d.mk p)) ∧
    sdf (Collider2d.mk a (Translate2d.mk p)) (Collider2d.mk b (Translate2d.mk q)) =
      sdf (Collider2d.mk b (Translate2d.mk q)) (Collider2d.mk a (Translate2d.mk p)) := by
  have hl : (q + -p).length = (p + -q).length := by
    show F32.sqrt ((q.x + -p.x) * (q.x + -p.x) + (q.y + -p.y) * (q.y + -p.y)) =
      F32.sqrt ((p.x + -q.x) * (p.x + -q.x) + (p.y + -q.y) * (p.y + -q.y))
    rw [sub_sq_comm q.x p.x, sub_sq_comm q.y p.y]
  have hf : ∀ R, (ballDelta R (q + -p)).1 = (ballDelta R (p + -q)).1 := by
    intro R; unfold ballDelta; simp only [hl]; split_ifs <;> rfl
  have hc := F32.add_comm' a.radius b.radius
  refine ⟨?_, ?_, ?_, ?_⟩
  · show Except.ok (ballDelta (a.radius + b.radius) (q + -p)).1 = Except.ok (ballDelta (b.radius + a.radius) (p + -q)).1
    rw [hc, hf]
  · show Except.ok ((q + -p).length - (a.radius + b.radius)) = Except.ok ((p + -q).length - (b.radius + a.radius))
    rw [hc, hl]
  · show Except.ok (ballDelta (a.radius + b.radius) (q + -p)).1 = Except.ok (ballDelta (b.radius + a.radius) (p + -q)).1
    rw [hc, hf]
  · show Except.ok ((q + -p).length - (a.radius + b.radius)) = Except.ok ((p + -q).length - (b.radius + a.radius))
    rw [hc, hl]

end Auburn
