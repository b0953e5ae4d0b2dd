import Verif.Ieee.EqSwapProps
import Verif.Ieee.EvalFindings

/-!
# C102: `==` inputs, transforms and findings
-/

set_option linter.unusedSectionVars false
set_option synthInstance.maxSize 1000

namespace Auburn

open F32 V2 ExtremePoint2d Transformation2d Auburn.Invertible Composable

section
variable [env : F32Env]

/-! ## from `==` -/

theorem same_of_feq {x y : F32} (h : FloatExtra.feq x y = true) : Same32 x y := .inr (of_decide_eq_true h)

theorem sameV_of_eqv {a b : V2 F32} (h : PEq.eqv a b = true) : SameV a b :=
  ⟨same_of_feq (Bool.and_eq_true_iff.1 h).1, same_of_feq (Bool.and_eq_true_iff.1 h).2⟩

theorem same_of_eqv {t t' : Transform2d F32} (h : PEq.eqv t t' = true) : SameTransform.same t t' := by
  obtain ⟨h, h3⟩ := Bool.and_eq_true_iff.1 h
  obtain ⟨h1, h2⟩ := Bool.and_eq_true_iff.1 h
  exact ⟨sameV_of_eqv h1, sameV_of_eqv h2, sameV_of_eqv h3⟩

/-- **`==` transforms and points are interchangeable.**  `apply`, `apply_normal`, `unapply_normal`, `apply_origin`,
`scaling_factor` and `compose` of `==` arguments give the same results up to the sign of zeros. -/
theorem C102_apply (t t' s s' : Transform2d F32) (p p' : V2 F32) (ht : PEq.eqv t t' = true) (hs : PEq.eqv s s' = true)
    (hp : PEq.eqv p p' = true) :
    SameV (apply t p) (apply t' p') ∧ SameV (applyNormal t p) (applyNormal t' p') ∧
    SameV (unapplyNormal t p) (unapplyNormal t' p') ∧ SameV (applyOrigin t) (applyOrigin t') ∧
    Same32 (scalingFactor t) (scalingFactor t') ∧
    SameV (compose t s).pos (compose t' s').pos ∧ SameV (compose t s).rot.a (compose t' s').rot.a ∧
    SameV (compose t s).scale (compose t' s').scale := by
  have h := same_of_eqv ht
  have g := (sameV_of_eqv hp).zr
  have c := BlindTransform.comp h (same_of_eqv hs)
  exact ⟨(BlindTransform.applyP h g).sameV, (BlindTransform.applyN h g).sameV, (BlindTransform.unapplyN h g).sameV,
    (BlindTransform.origin h).sameV, Zr.iff.1 (BlindTransform.factor h), c.1, c.2.1, c.2.2⟩

/-- `unapply`, `inverse` and `delta_transform` too, if no scale of the inverted transform is zero -/
theorem C102_unapply (t t' s s' : Transform2d F32) (p p' : V2 F32) (ht : PEq.eqv t t' = true) (hs : PEq.eqv s s' = true)
    (hp : PEq.eqv p p' = true) (hx : ¬ F32.eq t.scale.x 0) (hy : ¬ F32.eq t.scale.y 0) :
    SameV (unapply t p) (unapply t' p') ∧
    SameV (inverse t).pos (inverse t').pos ∧ SameV (inverse t).rot.a (inverse t').rot.a ∧
    SameV (inverse t).scale (inverse t').scale ∧
    SameV (deltaTransform t s).pos (deltaTransform t' s').pos ∧
    SameV (deltaTransform t s).rot.a (deltaTransform t' s').rot.a ∧
    SameV (deltaTransform t s).scale (deltaTransform t' s').scale := by
  have h := same_of_eqv ht
  have g := (sameV_of_eqv hp).zr
  have i := BlindTransform.inv h ⟨hx, hy⟩
  have c := same_delta h (same_of_eqv hs) ⟨hx, hy⟩
  exact ⟨(BlindTransform.unapplyP h ⟨hx, hy⟩ g).sameV, i.1, i.2.1, i.2.2, c.1, c.2.1, c.2.2⟩

/-- **`==` ball colliders** (the derived `==` of `Collider2d`) are interchangeable in every query -/
theorem C102_eq_balls (a a' b b' : Collider2d (Ball F32) (Transform2d F32)) (ha : PEq.eqv a a' = true)
    (hb : PEq.eqv b b' = true) (hx : ¬ F32.eq a.transform.scale.x 0) (hy : ¬ F32.eq a.transform.scale.y 0) :
    Interchangeable a a' b b' ∧ SameOutcome Same32 (sdf a b) (sdf a' b') := by
  obtain ⟨h1, h2⟩ := Bool.and_eq_true_iff.1 ha
  obtain ⟨g1, g2⟩ := Bool.and_eq_true_iff.1 hb
  exact C102_ball_ball a a' b b' ⟨same_of_feq h1, same_of_eqv h2⟩ ⟨same_of_feq g1, same_of_eqv g2⟩ ⟨hx, hy⟩

/-- **polygons with `==` vertex lists and `==` transforms** are interchangeable in every query -/
theorem C102_eq_polys (a a' b b' : Collider2d (Poly2d F32) (Transform2d F32))
    (ha : eqvList a.shape.points a'.shape.points = true) (ha' : PEq.eqv a.transform a'.transform = true)
    (hb : eqvList b.shape.points b'.shape.points = true) (hb' : PEq.eqv b.transform b'.transform = true)
    (hx : ¬ F32.eq a.transform.scale.x 0) (hy : ¬ F32.eq a.transform.scale.y 0) : Interchangeable a a' b b' := by
  have key : ∀ {l m : List (V2 F32)}, eqvList l m = true → List.Forall₂ SameV l m := by
    intro l
    induction l with
    | nil => intro m h; cases m with
      | nil => exact .nil
      | cons _ _ => exact absurd h (by simp [eqvList])
    | cons p l ih => intro m h; cases m with
      | nil => exact absurd h (by simp [eqvList])
      | cons q m =>
        obtain ⟨h1, h2⟩ := Bool.and_eq_true_iff.1 h
        exact .cons (sameV_of_eqv h1) (ih h2)
  exact C102_poly_poly a a' b b' ⟨key ha, same_of_eqv ha'⟩ ⟨key hb, same_of_eqv hb'⟩ ⟨hx, hy⟩

/-! ## non-trivial instances: `-0` for `0` -/

theorem negZero_eq : F32.eq (-(0 : F32)) 0 := by
  show F32.eq (F32.neg (F32.ofReal false 0)) (F32.ofReal false 0)
  simp [F32.ofReal, F32.neg, F32.eq, F32.sval]

theorem negZero_ne : (-(0 : F32)) ≠ 0 := by
  show F32.neg (F32.ofReal false 0) ≠ F32.ofReal false 0
  simp [F32.ofReal, F32.neg]

theorem negZero_feq : FloatExtra.feq (0 : F32) (-0) = true := feq_symm (decide_eq_true negZero_eq)

theorem one_feq : FloatExtra.feq (1 : F32) 1 = true := by
  rw [feq_self]
  intro h
  have : Rel (.fin false 1) (1 : F32) := Rel.one
  rw [h] at this
  cases this

theorem one_ne_zero32 : ¬ F32.eq (1 : F32) 0 := fun h => by
  have := (Rel.one.eqv Rel.zero).2 h
  exact absurd this (by decide +kernel)

/-- the identity transform, and the same with `-0` for the two zeros -/
noncomputable def idMinus : Transform2d F32 := ⟨⟨-0, -0⟩, ⟨⟨1, -0⟩⟩, V2.one⟩

theorem idMinus_eq : PEq.eqv (Transform2d.identity : Transform2d F32) idMinus = true := by
  show (((FloatExtra.feq (0 : F32) (-0) && FloatExtra.feq (0 : F32) (-0)) &&
    (FloatExtra.feq (1 : F32) 1 && FloatExtra.feq (0 : F32) (-0))) && (FloatExtra.feq (1 : F32) 1 && FloatExtra.feq (1 : F32) 1)) = true
  simp only [negZero_feq, one_feq, Bool.and_self]

example : (Transform2d.identity : Transform2d F32) ≠ idMinus := fun h => negZero_ne (congrArg (·.pos.x) h).symm

/-- the hypotheses of `C102_eq_balls` hold for two balls at the origin given with different zeros -/
example : Interchangeable (A := Ball F32) (B := Ball F32) ⟨⟨1⟩, Transform2d.identity⟩ ⟨⟨1⟩, idMinus⟩
    ⟨⟨0⟩, idMinus⟩ ⟨⟨-0⟩, Transform2d.identity⟩ := by
  refine (C102_eq_balls ⟨⟨1⟩, Transform2d.identity⟩ ⟨⟨1⟩, idMinus⟩ ⟨⟨0⟩, idMinus⟩ ⟨⟨-0⟩, Transform2d.identity⟩
    (Bool.and_eq_true_iff.2 ⟨one_feq, idMinus_eq⟩)
    (Bool.and_eq_true_iff.2 ⟨negZero_feq, (C102_symm_trans.2.2.2.2.2.2.2.2.2.1).1 _ _ idMinus_eq⟩)
    one_ne_zero32 one_ne_zero32).1

/-! ## findings -/

theorem same32_iff_rel {x y : F32} {a b : QF} (h : Rel a x) (g : Rel b y) (hn : a ≠ .nan) :
    Same32 x y ↔ QF.eqb a b = true := by
  rw [h.eqv g]
  refine ⟨fun k => Zr.eq (Zr.iff.2 k) ?_, .inr⟩
  rintro rfl
  cases h
  exact hn rfl

/-- finding: two `==` transforms (one scale is `0` in one and `-0` in the other) have inverses that are not `==`: one
scales by `+∞`, the other by `-∞` -/
theorem C102_inverse_finding : ∃ t t' : Transform2d F32, PEq.eqv t t' = true ∧
    ¬ SameV (inverse t).scale (inverse t').scale := by
  refine ⟨⟨0, Rotor2d.identity, ⟨0, 1⟩⟩, ⟨0, Rotor2d.identity, ⟨-0, 1⟩⟩, ?_, fun h => ?_⟩
  · show (((FloatExtra.feq (0 : F32) 0 && FloatExtra.feq (0 : F32) 0) &&
      (FloatExtra.feq (1 : F32) 1 && FloatExtra.feq (0 : F32) 0)) && (FloatExtra.feq (0 : F32) (-0) && FloatExtra.feq (1 : F32) 1)) = true
    have z : FloatExtra.feq (0 : F32) 0 = true := feq_trans negZero_feq (feq_symm negZero_feq)
    simp only [z, negZero_feq, one_feq, Bool.and_self]
  · have h : Same32 ((1 : F32) / 0) (1 / -0) := h.1
    rw [same32_iff_rel (Rel.one.div Rel.zero) (Rel.one.div Rel.zero.neg) (by decide +kernel)] at h
    exact absurd h (by decide +kernel)

/-- finding: a box answers `==` directions with different corners -/
theorem C102_box_extreme_finding : ∃ (b : Box2d F32) (d d' : V2 F32), PEq.eqv d d' = true ∧
    ¬ SameV (extremePoint b d) (extremePoint b d') := by
  refine ⟨⟨V2.one⟩, ⟨0, 1⟩, ⟨-0, 1⟩, Bool.and_eq_true_iff.2 ⟨negZero_feq, one_feq⟩, fun h => ?_⟩
  have h : Same32 (FloatExtra.signum (0 : F32) * 1) (FloatExtra.signum (-0 : F32) * 1) := h.1
  rw [same32_iff_rel (Rel.zero.signum.mul Rel.one) (Rel.zero.neg.signum.mul Rel.one) (by decide +kernel)] at h
  exact absurd h (by decide +kernel)

theorem Rel.abs {a : QF} {a' : F32} (h : Rel a a') : Rel (FloatExtra.abs a) (FloatExtra.abs a') := by
  cases h with
  | nan => exact .nan
  | inf s => exact .inf _
  | fin s q m h e => exact .fin _ _ _ _ e

theorem Rel.signNeg {m : ℚ} {x : F32} (h : Rel (.fin true m) x) : FloatExtra.isSignNeg x = true := by
  cases h; rfl

theorem boxPoint_run {q k : V2 QF} {p h : V2 F32} (hp : Rel2 q p) (hh : Rel2 k h) {mx my : ℚ}
    (ex : FloatExtra.abs q.x - k.x = .fin true mx) (ey : FloatExtra.abs q.y - k.y = .fin true my)
    (hlt : QF.fin true my < QF.fin true mx) :
    boxPoint true false h p = (true, ⟨(FloatExtra.abs p.x - h.x) * FloatExtra.signum p.x, 0⟩) := by
  have rx := hp.x.abs.sub hh.x
  have ry := hp.y.abs.sub hh.y
  rw [ex] at rx
  rw [ey] at ry
  unfold boxPoint
  dsimp only
  rw [if_pos ⟨rx.signNeg, ry.signNeg⟩, if_pos rfl, if_pos ((ry.lt rx).1 hlt)]

/-- finding: a point at the centre of a box is pushed out to the left or to the right depending on the sign of the
zero in its (`==`) position -/
theorem C102_box_point_finding : ∃ (a : Collider2d (Box2d F32) (V2 F32)) (b b' : Collider2d (Point F32) (V2 F32))
    (v v' : V2 F32), PEq.eqv b b' = true ∧ penetrates a b = .ok (some v) ∧ penetrates a b' = .ok (some v') ∧
    v.x.toReal = -1 ∧ v'.x.toReal = 1 := by
  have hh : Rel2 ⟨qlit 1, qlit 2⟩ ⟨lit 1, lit 2⟩ := ⟨rel_lit 1, rel_lit 2⟩
  have hp : Rel2 (⟨0 + -0, 0 + -0⟩ : V2 QF) ⟨0 + -0, 0 + -0⟩ := ⟨Rel.zero.add Rel.zero.neg, Rel.zero.add Rel.zero.neg⟩
  have hp' : Rel2 (⟨-0 + -0, 0 + -0⟩ : V2 QF) ⟨-0 + -0, 0 + -0⟩ :=
    ⟨Rel.zero.neg.add Rel.zero.neg, Rel.zero.add Rel.zero.neg⟩
  have e := boxPoint_run (mx := 1) (my := 2) hp hh (by decide +kernel) (by decide +kernel) (by decide +kernel)
  have e' := boxPoint_run (mx := 1) (my := 2) hp' hh (by decide +kernel) (by decide +kernel) (by decide +kernel)
  have z : FloatExtra.feq (0 : F32) 0 = true := feq_trans negZero_feq (feq_symm negZero_feq)
  refine ⟨⟨⟨⟨lit 1, lit 2⟩⟩, 0⟩, ⟨⟨⟩, ⟨0, 0⟩⟩, ⟨⟨⟩, ⟨-0, 0⟩⟩,
    ⟨(FloatExtra.abs (0 + -0) - lit 1) * FloatExtra.signum (0 + -0), 0⟩,
    ⟨(FloatExtra.abs (-0 + -0) - lit 1) * FloatExtra.signum (-0 + -0), 0⟩, ?_, ?_, ?_, ?_, ?_⟩
  · show (true && (FloatExtra.feq (0 : F32) (-0) && FloatExtra.feq (0 : F32) 0)) = true
    simp only [z, negZero_feq, Bool.and_self]
  · exact congrArg (fun r : Bool × V2 F32 => Except.ok (if r.1 then some r.2 else none)) e
  · exact congrArg (fun r : Bool × V2 F32 => Except.ok (if r.1 then some r.2 else none)) e'
  · have := ((hp.x.abs.sub hh.x).mul hp.x.signum).toReal
    rw [this]
    have : (((FloatExtra.abs (0 + -0) - qlit 1) * FloatExtra.signum (0 + -0) : QF)).toRat = -1 := by decide +kernel
    rw [this]; norm_num
  · have := ((hp'.x.abs.sub hh.x).mul hp'.x.signum).toReal
    rw [this]
    have : (((FloatExtra.abs (-0 + -0) - qlit 1) * FloatExtra.signum (-0 + -0) : QF)).toRat = 1 := by decide +kernel
    rw [this]; norm_num

end

end Auburn
