import Verif.Ieee.QuarterProps
import Verif.Ieee.EvalFindings

/-! # C103: any number of quarter turns, and a concrete scene -/

set_option linter.unusedSectionVars false
set_option synthInstance.maxSize 1000

namespace Auburn

open ExtremePoint2d Transformation2d Auburn.Invertible Composable SdfvCommonRel2d SdfRel2d

/-- `b` is `a` turned `n` times by 90 degrees, up to the sign of zeros -/
def TurnedBy (n : Nat) (a b : V2 F32) : Prop := SameV (quarter^[n] a) b

/-- `TurnedAnswers` for `n` quarter turns -/
def TurnedAnswersBy (n : Nat) (c c' : Except Panic Bool) (p p' d d' : Except Panic (Option (V2 F32)))
    (s s' : Except Panic (Bool × V2 F32)) : Prop :=
  SameOutcome Eq c c' ∧ SameOutcome (SameOption (TurnedBy n)) p p' ∧ SameOutcome (SameOption (TurnedBy n)) d d' ∧
  SameOutcome (fun x y => x.1 = y.1 ∧ TurnedBy n x.2 y.2) s s'

section
variable [env : F32Env]

theorem Same32.trans {a b c : F32} (h : Same32 a b) (g : Same32 b c) : Same32 a c :=
  Zr.iff.1 ((Zr.iff.2 h).trans (Zr.iff.2 g))

theorem SameV.trans {a b c : V2 F32} (h : SameV a b) (g : SameV b c) : SameV a c := ⟨h.1.trans g.1, h.2.trans g.2⟩

theorem SameV.quarter {a b : V2 F32} (h : SameV a b) : SameV (quarter a) (quarter b) :=
  ⟨Zr.iff.1 (Zr.iff.2 h.2).neg, h.1⟩

theorem TurnedBy.succ {n : Nat} {a b c : V2 F32} (h : TurnedBy n a b) (g : Turned b c) : TurnedBy (n + 1) a c := by
  show SameV (Auburn.quarter^[n + 1] a) c
  rw [Function.iterate_succ_apply']
  exact h.quarter.trans g

theorem SameOutcome.trans {A : Type} {R Q S : A → A → Prop} (k : ∀ a b c, R a b → Q b c → S a c)
    {x y z : Except Panic A} (h : SameOutcome R x y) (g : SameOutcome Q y z) : SameOutcome S x z := by
  cases h with
  | panic e => cases g; exact .panic e
  | ok h => cases g with
    | ok g => exact .ok (k _ _ _ h g)

theorem SameOption.trans {A : Type} {R Q S : A → A → Prop} (k : ∀ a b c, R a b → Q b c → S a c)
    {x y z : Option A} (h : SameOption R x y) (g : SameOption Q y z) : SameOption S x z := by
  cases h with
  | none => cases g; exact .none
  | some h => cases g with
    | some g => exact .some (k _ _ _ h g)

theorem TurnedAnswersBy.succ {n : Nat} {c c' c'' : Except Panic Bool} {p p' p'' d d' d'' : Except Panic (Option (V2 F32))}
    {s s' s'' : Except Panic (Bool × V2 F32)} (h : TurnedAnswersBy n c c' p p' d d' s s')
    (g : TurnedAnswers c' c'' p' p'' d' d'' s' s'') : TurnedAnswersBy (n + 1) c c'' p p'' d d'' s s'' :=
  ⟨h.1.trans (fun _ _ _ h g => h.trans g) g.1,
   h.2.1.trans (fun _ _ _ h g => h.trans (fun _ _ _ h g => h.succ g) g) g.2.1,
   h.2.2.1.trans (fun _ _ _ h g => h.trans (fun _ _ _ h g => h.succ g) g) g.2.2.1,
   h.2.2.2.trans (fun _ _ _ h g => ⟨h.1.trans g.1, h.2.succ g.2⟩) g.2.2.2⟩

theorem sameOutcome_refl {A : Type} {R : A → A → Prop} (k : ∀ a, R a a) (x : Except Panic A) : SameOutcome R x x := by
  cases x with
  | error e => exact .panic e
  | ok a => exact .ok (k a)

theorem turnedBy_zero (a : V2 F32) : TurnedBy 0 a a := ⟨.inl rfl, .inl rfl⟩

theorem TurnedAnswersBy.zero (c : Except Panic Bool) (p d : Except Panic (Option (V2 F32)))
    (s : Except Panic (Bool × V2 F32)) : TurnedAnswersBy 0 c c p p d d s s := by
  have o : ∀ x : Option (V2 F32), SameOption (TurnedBy 0) x x := by
    intro x
    cases x with
    | none => exact .none
    | some v => exact .some (turnedBy_zero v)
  exact ⟨sameOutcome_refl (fun _ => rfl) c, sameOutcome_refl o p, sameOutcome_refl o d,
    sameOutcome_refl (fun v => ⟨rfl, turnedBy_zero v.2⟩) s⟩

theorem quarter_lengthSq (a : V2 F32) : (quarter a).lengthSq = a.lengthSq := (tr_quarter a).dotSelf.symm

theorem turns_lengthSq (n : Nat) (a : V2 F32) : (quarter^[n] a).lengthSq = a.lengthSq := by
  induction n with
  | zero => rfl
  | succ n ih => rw [Function.iterate_succ_apply', quarter_lengthSq, ih]

theorem Shape2d.NoBox.turns {a : Shape2d F32} (h : a.NoBox) (n : Nat) : (Shape2d.quarter^[n] a).NoBox := by
  induction n with
  | zero => exact h
  | succ n ih =>
    rw [Function.iterate_succ_apply']
    generalize Shape2d.quarter^[n] a = s at ih
    cases s with
    | ball b => trivial
    | box b => exact ih.elim
    | poly p => trivial

/-- **Any number of quarter turns** of both `Shape2d` values (balls or polygons) and of their offset. -/
theorem C103_shape2d_turns (n : Nat) (a b : Shape2d F32) (ha : a.NoBox) (hb : b.NoBox) (rel : V2 F32)
    (h0 : ¬ rel.lengthSq < FloatExtra.epsilon) :
    TurnedAnswersBy n
      (collidesRel a b rel) (collidesRel (Shape2d.quarter^[n] a) (Shape2d.quarter^[n] b) (quarter^[n] rel))
      (penetratesRel a b rel) (penetratesRel (Shape2d.quarter^[n] a) (Shape2d.quarter^[n] b) (quarter^[n] rel))
      (distanceToRel a b rel) (distanceToRel (Shape2d.quarter^[n] a) (Shape2d.quarter^[n] b) (quarter^[n] rel))
      (sdfvRel a b rel) (sdfvRel (Shape2d.quarter^[n] a) (Shape2d.quarter^[n] b) (quarter^[n] rel)) := by
  induction n with
  | zero => exact .zero _ _ _ _
  | succ n ih =>
    simp only [Function.iterate_succ_apply']
    exact ih.succ (C103_shape2d _ _ (ha.turns n) (hb.turns n) _ (by rw [turns_lengthSq]; exact h0))

/-- a half turn negates both components (zeros may change sign) -/
theorem turnedBy_two {a b : V2 F32} : TurnedBy 2 a b ↔ SameV (-a) b := Iff.rfl

/-- a turned pair of literals satisfies the hypotheses: a triangle and a ball 5 apart, their vertices not symmetric -/
example : ∃ (a b : Shape2d F32) (rel : V2 F32), a = .poly (litPoly [(1, 0), (0, 2), (-1, -1 / 3)]) ∧
    b = .ball ⟨lit (1 / 2)⟩ ∧ rel = litV 5 (1 / 7) ∧ a.NoBox ∧ b.NoBox ∧ ¬ rel.lengthSq < FloatExtra.epsilon := by
  refine ⟨_, _, _, rfl, rfl, rfl, trivial, trivial, ?_⟩
  have h : Rel2 (⟨qlit 5, qlit (1 / 7)⟩ : V2 QF) (litV 5 (1 / 7)) := ⟨rel_lit 5, rel_lit (1 / 7)⟩
  intro c
  exact absurd (((h.dot h).lt Rel.eps).2 c) (by decide +kernel)

end

end Auburn
