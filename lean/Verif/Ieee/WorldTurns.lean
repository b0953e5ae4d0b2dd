import Verif.Ieee.WorldTurn
import Verif.Ieee.BoxFlip

/-! # C103: any number of turns of the world, and mirrored balls (binary32) -/

set_option linter.unusedSectionVars false
set_option synthInstance.maxSize 1000

namespace Auburn

open ExtremePoint2d Transformation2d Auburn.Invertible Composable SdfvCommonRel2d SdfRel2d

/-- `TurnsWithWorld` for `n` quarter turns of both colliders -/
def TurnsWithWorldBy (n : Nat) {A B : Type} [∀ p d, SdfvCommonRel2d p d A B (Transform2d F32) F32] [env : F32Env]
    (a : Collider2d A (Transform2d F32)) (b : Collider2d B (Transform2d F32)) : Prop :=
  SameOutcome Eq (collides a b) (collides (Collider2d.turn^[n] a) (Collider2d.turn^[n] b)) ∧
  SameOutcome (SameOption SameV) (penetrates a b) (penetrates (Collider2d.turn^[n] a) (Collider2d.turn^[n] b)) ∧
  SameOutcome (SameOption SameV) (distanceTo a b) (distanceTo (Collider2d.turn^[n] a) (Collider2d.turn^[n] b)) ∧
  SameOutcome (fun x y => x.1 = y.1 ∧ TurnedBy n x.2 y.2) (sdfv a b) (sdfv (Collider2d.turn^[n] a) (Collider2d.turn^[n] b))

section
variable [env : F32Env]

theorem turnsWithWorldBy_of {A B : Type} [∀ p d, SdfvCommonRel2d p d A B (Transform2d F32) F32]
    {P : Collider2d A (Transform2d F32) → Collider2d B (Transform2d F32) → Prop}
    (hP : ∀ a b, P a b → P a.turn b.turn) (hT : ∀ a b, P a b → TurnsWithWorld a b) (n : Nat) :
    ∀ a b, P a b → TurnsWithWorldBy n a b ∧ P (Collider2d.turn^[n] a) (Collider2d.turn^[n] b) := by
  induction n with
  | zero =>
    intro a b h
    have o : ∀ x : Option (V2 F32), SameOption SameV x x := by
      intro x
      cases x with
      | none => exact .none
      | some v => exact .some ⟨.inl rfl, .inl rfl⟩
    exact ⟨⟨sameOutcome_refl (fun _ => rfl) _, sameOutcome_refl o _, sameOutcome_refl o _,
      sameOutcome_refl (fun v => ⟨rfl, turnedBy_zero v.2⟩) _⟩, h⟩
  | succ n ih =>
    intro a b h
    obtain ⟨⟨h1, h2, h3, h4⟩, k⟩ := ih a b h
    obtain ⟨g1, g2, g3, g4⟩ := hT _ _ k
    refine ⟨?_, by rw [Function.iterate_succ_apply', Function.iterate_succ_apply']; exact hP _ _ k⟩
    unfold TurnsWithWorldBy
    simp only [Function.iterate_succ_apply']
    exact ⟨h1.trans (fun _ _ _ h g => h.trans g) g1,
      h2.trans (fun _ _ _ h g => h.trans (R := SameV) (Q := SameV) (S := SameV) (fun _ _ _ h g => SameV.trans h g) g) g2,
      h3.trans (fun _ _ _ h g => h.trans (R := SameV) (Q := SameV) (S := SameV) (fun _ _ _ h g => SameV.trans h g) g) g3,
      h4.trans (fun _ _ _ h g => ⟨h.1.trans g.1, h.2.succ g.2⟩) g4⟩

/-- **Any number of turns of the world**, for balls and polygons as `Shape2d`. -/
theorem C103_world_shape2d_turns (n : Nat) (a b : Collider2d (Shape2d F32) (Transform2d F32)) (ha : a.shape.NoBox)
    (hb : b.shape.NoBox) (hs : a.transform.scale.x = a.transform.scale.y) : TurnsWithWorldBy n a b :=
  (turnsWithWorldBy_of (A := Shape2d F32) (B := Shape2d F32) (P := fun a b => a.shape.NoBox ∧ b.shape.NoBox ∧ a.transform.scale.x = a.transform.scale.y)
    (fun _ _ h => h) (fun a b h => C103_world_shape2d a b h.1 h.2.1 h.2.2) n a b ⟨ha, hb, hs⟩).1

/-- **Any number of turns of the world**, for two polygons. -/
theorem C103_world_poly_poly_turns (n : Nat) (a b : Collider2d (Poly2d F32) (Transform2d F32))
    (hs : a.transform.scale.x = a.transform.scale.y) : TurnsWithWorldBy n a b :=
  (turnsWithWorldBy_of (A := Poly2d F32) (B := Poly2d F32) (P := fun a _ => a.transform.scale.x = a.transform.scale.y)
    (fun _ _ h => h) (fun a b h => C103_world_poly_poly a b h) n a b hs).1

theorem flip_length (sx sy : Bool) (v : V2 F32) : (flip sx sy v).length = v.length := by
  show FloatExtra.sqrt (fl sx v.x * fl sx v.x + fl sy v.y * fl sy v.y) = FloatExtra.sqrt (v.x * v.x + v.y * v.y)
  rw [fl_sq, fl_sq]

theorem ballDelta_flip (sx sy : Bool) (r : F32) (v : V2 F32) (h0 : v.length > 0) :
    (ballDelta r v).1 = (ballDelta r (flip sx sy v)).1 ∧ Flipped sx sy (ballDelta r v).2 (ballDelta r (flip sx sy v)).2 := by
  unfold ballDelta
  rw [flip_length]
  dsimp only
  rw [if_pos h0, if_pos h0]
  exact ⟨rfl, flipped_mk (Zr.iff.2 (.inl (mul_fl sx _ v.x).symm)) (Zr.iff.2 (.inl (mul_fl sy _ v.y).symm))⟩

/-- **Two balls**, mirrored in either axis or both, the centres not at the same place. -/
theorem C103_flip_ball_ball (sx sy : Bool) (a b : Ball F32) (rel : V2 F32) (h0 : rel.length > 0) :
    FlippedAnswers sx sy (collidesRel a b rel) (collidesRel a b (flip sx sy rel))
      (penetratesRel a b rel) (penetratesRel a b (flip sx sy rel))
      (distanceToRel a b rel) (distanceToRel a b (flip sx sy rel))
      (sdfvRel a b rel) (sdfvRel a b (flip sx sy rel)) ∧
    sdfRel a b rel = sdfRel a b (flip sx sy rel) := by
  refine ⟨flipped_answers fun p d => .ok (ballDelta_flip sx sy _ rel h0), ?_⟩
  show Except.ok (rel.length - _) = Except.ok ((flip sx sy rel).length - _)
  rw [flip_length]

/-- **A ball and a point**, mirrored in either axis or both. -/
theorem C103_flip_ball_point (sx sy : Bool) (a : Ball F32) (b : Point F32) (rel : V2 F32) (h0 : rel.length > 0) :
    FlippedAnswers sx sy (collidesRel a b rel) (collidesRel a b (flip sx sy rel))
      (penetratesRel a b rel) (penetratesRel a b (flip sx sy rel))
      (distanceToRel a b rel) (distanceToRel a b (flip sx sy rel))
      (sdfvRel a b rel) (sdfvRel a b (flip sx sy rel)) ∧
    sdfRel a b rel = sdfRel a b (flip sx sy rel) := by
  refine ⟨flipped_answers fun p d => .ok (ballDelta_flip sx sy _ rel h0), ?_⟩
  show Except.ok (rel.length - _) = Except.ok ((flip sx sy rel).length - _)
  rw [flip_length]

end

end Auburn
