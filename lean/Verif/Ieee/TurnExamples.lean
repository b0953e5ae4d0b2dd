import Verif.Ieee.TurnColliders
import Verif.Ieee.NoisyExamples

/-!
# C88: concrete cases

Two triangles with one-decimal literals as colliders, turned by the rotors `(3/5, 4/5)` and `(5/13, 12/13)` rounded to
f32 (neither is then exactly of unit length): overlapping at one position, apart at another.  All hypotheses of
`C88_f32_poly_poly_colliders` hold with `M = 8`, the side condition of the pushes included, and the answers the
statements speak about do occur.
-/

set_option linter.unusedSectionVars false
set_option synthInstance.maxSize 1000

namespace Auburn

open F32 V2 ExtremePoint2d Transformation2d

section
variable [env : F32Env]

/-- two transforms with the same parts -/
structure RelT (t : Transform2d QF) (t' : Transform2d F32) : Prop where
  pos : Rel2 t.pos t'.pos
  rot : Rel2 t.rot.a t'.rot.a
  scale : Rel2 t.scale t'.scale

section
variable {t u : Transform2d QF} {t' u' : Transform2d F32} {p q : V2 QF} {p' q' : V2 F32} {r s : Rotor2d QF}
  {r' s' : Rotor2d F32}

theorem Rel2.rotate (h : Rel2 r.a r'.a) (g : Rel2 p p') : Rel2 (r.rotate p) (r'.rotate p') :=
  ⟨(h.x.mul g.x).sub (h.y.mul g.y), (h.x.mul g.y).add (h.y.mul g.x)⟩
theorem Rel2.inverse (h : Rel2 r.a r'.a) : Rel2 r.inverse.a r'.inverse.a := ⟨h.x, h.y.neg⟩
theorem Rel2.mulR (h : Rel2 r.a r'.a) (g : Rel2 s.a s'.a) : Rel2 (r.mulR s).a (r'.mulR s').a :=
  ⟨(h.x.mul g.x).sub (h.y.mul g.y), (h.x.mul g.y).add (h.y.mul g.x)⟩
theorem Rel2.mulV (h : Rel2 p p') (g : Rel2 q q') : Rel2 (V2.mulV p q) (V2.mulV p' q') := ⟨h.x.mul g.x, h.y.mul g.y⟩
theorem Rel2.divV (h : Rel2 p p') (g : Rel2 q q') : Rel2 (V2.divV p q) (V2.divV p' q') := ⟨h.x.div g.x, h.y.div g.y⟩
theorem Rel2.recip (h : Rel2 p p') : Rel2 p.recip p'.recip := ⟨Rel.one.div h.x, Rel.one.div h.y⟩

theorem RelT.apply (h : RelT t t') (g : Rel2 p p') : Rel2 (Transformation2d.apply t p) (Transformation2d.apply t' p') :=
  (Rel2.rotate h.rot (h.scale.mulV g)).add h.pos
theorem RelT.unapply (h : RelT t t') (g : Rel2 p p') :
    Rel2 (Transformation2d.unapply t p) (Transformation2d.unapply t' p') :=
  (Rel2.rotate (Rel2.inverse h.rot) (g.sub h.pos)).divV h.scale
theorem RelT.unapplyNormal (h : RelT t t') (g : Rel2 p p') :
    Rel2 (Transformation2d.unapplyNormal t p) (Transformation2d.unapplyNormal t' p') :=
  Rel2.rotate (Rel2.inverse h.rot) g
theorem RelT.delta (h : RelT t t') (g : RelT u u') : RelT (deltaTransform t u) (deltaTransform t' u') := by
  have hi : RelT (Invertible.inverse t) (Invertible.inverse t') := ⟨h.unapply Rel2.zero, Rel2.inverse h.rot, h.scale.recip⟩
  exact ⟨hi.apply g.pos, Rel2.mulR hi.rot g.rot, hi.scale.mulV g.scale⟩

theorem rel_turned {A A' B B' : Type} [ExtremePoint2d A QF] [ExtremePoint2d A' F32] [ExtremePoint2d B QF]
    [ExtremePoint2d B' F32] {x : A} {x' : A'} {y : B} {y' : B'} (hx : RelS x x') (hy : RelS y y')
    (ht : RelT t t') (p q : Bool) :
    RelE RelA (LocalMinkowskiDiff2d.sdfvMinkowski p q ⟨x, y, t⟩) (LocalMinkowskiDiff2d.sdfvMinkowski p q ⟨x', y', t'⟩) := by
  refine rel_sdfvMinkowski (fun d d' hd => ?_) p q (rel_initialDirection ht.pos)
  exact (hx _ _ hd).sub (ht.apply (hy _ _ (ht.unapplyNormal hd.neg)))

end

/-- a literal transform: position and rotor -/
noncomputable def litT (p r : ℚ × ℚ) : Transform2d F32 := ⟨litV p.1 p.2, ⟨litV r.1 r.2⟩, V2.one⟩
/-- the same, computed -/
def qlitT (p r : ℚ × ℚ) : Transform2d QF := ⟨qlitV p, ⟨qlitV r⟩, V2.one⟩
theorem rel_litT (p r : ℚ × ℚ) : RelT (qlitT p r) (litT p r) := ⟨rel_litV p, rel_litV r, ⟨.one, .one⟩⟩

/-- the transform is rigid, computed -/
def qrigid (m e : ℚ) (t : Transform2d QF) : Bool :=
  t.pos.x.good m && t.pos.y.good m && t.rot.a.x.good 2 && t.rot.a.y.good 2 &&
    decide (|t.rot.a.x.toRat * t.rot.a.x.toRat + t.rot.a.y.toRat * t.rot.a.y.toRat - 1| ≤ e)

theorem litT_rigid {p r : ℚ × ℚ} {m e : ℚ} (h : qrigid m e (qlitT p r) = true) : (litT p r).Rigid32 m e := by
  have hr := rel_litT p r
  simp only [qrigid, Bool.and_eq_true, decide_eq_true_eq] at h
  obtain ⟨⟨⟨⟨h1, h2⟩, h3⟩, h4⟩, h5⟩ := h
  have g1 := hr.pos.x.good h1
  have g2 := hr.pos.y.good h2
  have g3 := hr.rot.x.good h3
  have g4 := hr.rot.y.good h4
  refine ⟨⟨⟨g1.1, g2.1⟩, g1.2.1, g2.2.1⟩, ⟨g3.1, g4.1⟩, ?_, rfl⟩
  show |(litT p r).rot.a.x.toReal * (litT p r).rot.a.x.toReal + (litT p r).rot.a.y.toReal * (litT p r).rot.a.y.toReal - 1| ≤ _
  rw [hr.rot.x.toReal, hr.rot.y.toReal]
  exact_mod_cast h5

/-- on the grid, computed -/
def qgr (x : ℚ) : Bool := decide ((x * 2 ^ 60).den = 1)
theorem qgr_cast {x : ℚ} (h : qgr x = true) : Gr (x : ℝ) := by
  simp only [qgr, decide_eq_true_eq] at h
  refine ⟨(x * 2 ^ 60).num, ?_⟩
  have h2 : (((x * 2 ^ 60).num : ℚ)) = x * 2 ^ 60 := by
    conv_rhs => rw [← Rat.num_div_den (x * 2 ^ 60), h]
    simp
  have h3 : ((x * 2 ^ 60).num : ℝ) = (x : ℝ) * 2 ^ 60 := by exact_mod_cast h2
  rw [h3, mul_assoc]
  norm_num

/-- the side condition of the pushes, computed -/
def qfine (l : List (ℚ × ℚ)) (t : Transform2d QF) : Bool :=
  qgr t.pos.x.toRat && qgr t.pos.y.toRat && l.all fun p =>
    qgr (t.rot.a.x.toRat * (qlit p.1).toRat) && qgr (t.rot.a.y.toRat * (qlit p.2).toRat) &&
    qgr (t.rot.a.x.toRat * (qlit p.2).toRat) && qgr (t.rot.a.y.toRat * (qlit p.1).toRat)

theorem fine_turn {l : List (ℚ × ℚ)} {t : Transform2d QF} {t' : Transform2d F32} (h : RelT t t')
    (e : qfine l t = true) : (litPoly l).FineTurn t'.rot.a.toReal ∧ t'.pos.toReal.Gr := by
  simp only [qfine, Bool.and_eq_true, List.all_eq_true] at e
  obtain ⟨⟨e1, e2⟩, e3⟩ := e
  have g1 := qgr_cast e1
  have g2 := qgr_cast e2
  rw [← h.pos.x.toReal] at g1
  rw [← h.pos.y.toReal] at g2
  refine ⟨?_, g1, g2⟩
  intro v hv
  simp only [litPoly, List.mem_map] at hv
  obtain ⟨p, hp, rfl⟩ := hv
  obtain ⟨⟨⟨f1, f2⟩, f3⟩, f4⟩ := e3 p hp
  have key : ∀ {a : QF} {a' : F32} (x : ℚ), Rel a a' → qgr (a.toRat * (qlit x).toRat) = true →
      Gr (a'.toReal * (lit x).toReal) := fun x ha e => by
    rw [ha.toReal, (rel_lit x).toReal]
    exact_mod_cast qgr_cast e
  exact ⟨key _ h.rot.x f1, key _ h.rot.y f2, key _ h.rot.x f3, key _ h.rot.y f4⟩

/-- the run for two triangles as colliders, computed -/
def qturn (p q : Bool) (la lb : List (ℚ × ℚ)) (t : Transform2d QF) : Except Panic (Bool × V2 QF) :=
  LocalMinkowskiDiff2d.sdfvMinkowski p q
    (⟨⟨la.map qlitV⟩, ⟨lb.map qlitV⟩, t⟩ : LocalMinkowskiDiff2d (Poly2d QF) (Poly2d QF) (Transform2d QF))

theorem rel_qturn (p q : Bool) (la lb : List (ℚ × ℚ)) {t : Transform2d QF} {t' : Transform2d F32} (h : RelT t t') :
    RelE RelA (qturn p q la lb t) (LocalMinkowskiDiff2d.sdfvMinkowski p q ⟨litPoly la, litPoly lb, t'⟩) :=
  rel_turned (rel_poly (rel_litPoly la)) (rel_poly (rel_litPoly lb)) h p q

/-- the direction test of the first step, computed -/
def qfirstT (la lb : List (ℚ × ℚ)) (t : Transform2d QF) (second : Bool) : Bool :=
  let S := extremePoint (LocalMinkowskiDiff2d.mk (Poly2d.mk (la.map qlitV)) (Poly2d.mk (lb.map qlitV)) t)
  let d := if second then -(S (initialDirection t.pos)) else initialDirection t.pos
  decide ((S d).dot d ≤ 0)

theorem first_stopT {la lb : List (ℚ × ℚ)} {t : Transform2d QF} {t' : Transform2d F32} (ht : RelT t t') :
    (qfirstT la lb t false = true → ¬ CollideRunsOut (litPoly la) (litPoly lb) t' ∧
      ¬ PenetrateRunsOut (litPoly la) (litPoly lb) t') ∧
    (qfirstT la lb t true = true → ¬ DistanceRunsOut (litPoly la) (litPoly lb) t') := by
  have hS : ∀ d d', Rel2 d d' → Rel2
      (extremePoint (LocalMinkowskiDiff2d.mk (Poly2d.mk (la.map qlitV)) (Poly2d.mk (lb.map qlitV)) t) d)
      (extremePoint (LocalMinkowskiDiff2d.mk (litPoly la) (litPoly lb) t') d') := fun d d' hd =>
    (rel_poly (rel_litPoly la) _ _ hd).sub (ht.apply (rel_poly (rel_litPoly lb) _ _ (ht.unapplyNormal hd.neg)))
  have hd := rel_initialDirection ht.pos
  constructor
  · intro h
    simp only [qfirstT, decide_eq_true_eq, Bool.false_eq_true, if_false] at h
    rw [((hS _ _ hd).dot hd).le Rel.zero] at h
    exact ⟨fun hr => hr.1 h, fun hr => hr.1 h⟩
  · intro h
    simp only [qfirstT, decide_eq_true_eq, if_true] at h
    have hd' := (hS _ _ hd).neg
    rw [((hS _ _ hd').dot hd').le Rel.zero] at h
    exact fun hr => hr.1 h

/-- the placements -/
def qta : Transform2d QF := qlitT (1/10, -3/10) (3/5, 4/5)
def qtb : Transform2d QF := qlitT (-9/10, 21/10) (5/13, 12/13)
def qtc : Transform2d QF := qlitT (16/5, -9/10) (5/13, 12/13)
noncomputable def turnA : Transform2d F32 := litT (1/10, -3/10) (3/5, 4/5)
noncomputable def turnB : Transform2d F32 := litT (-9/10, 21/10) (5/13, 12/13)
noncomputable def turnC : Transform2d F32 := litT (16/5, -9/10) (5/13, 12/13)

theorem rel_ab : RelT (deltaTransform qta qtb) (deltaTransform turnA turnB) := (rel_litT _ _).delta (rel_litT _ _)
theorem rel_ac : RelT (deltaTransform qta qtc) (deltaTransform turnA turnC) := (rel_litT _ _).delta (rel_litT _ _)

/-- the hypotheses of `C88_f32_poly_poly_colliders` -/
theorem turn_hyps : (litPoly triA).Bounded32 16 ∧ (litPoly triB).Bounded32 16 ∧ turnA.Rigid32 (16 / 4) (1 / 2 ^ 18) ∧
    turnB.Rigid32 (16 / 4) (1 / 2 ^ 18) ∧ turnC.Rigid32 (16 / 4) (1 / 2 ^ 18) := by
  have h1 := litPoly_good (l := triA) (m := 16) (by decide) (by decide +kernel)
  have h2 := litPoly_good (l := triB) (m := 16) (by decide) (by decide +kernel)
  have h3 := litT_rigid (p := (1/10, -3/10)) (r := (3/5, 4/5)) (m := 4) (e := 1 / 2 ^ 18) (by decide +kernel)
  have h4 := litT_rigid (p := (-9/10, 21/10)) (r := (5/13, 12/13)) (m := 4) (e := 1 / 2 ^ 18) (by decide +kernel)
  have h5 := litT_rigid (p := (16/5, -9/10)) (r := (5/13, 12/13)) (m := 4) (e := 1 / 2 ^ 18) (by decide +kernel)
  simp only [Rat.cast_ofNat] at h1 h2 h3 h4 h5
  have e4 : (16 / 4 : ℝ) = 4 := by norm_num
  have e5 : (((1 / 2 ^ 18 : ℚ)) : ℝ) = 1 / 2 ^ 18 := by push_cast; rfl
  rw [e5] at h3 h4 h5
  rw [e4]
  exact ⟨h1.1, h2.1, h3, h4, h5⟩

theorem rel_finite {u : V2 QF} {v : V2 F32} (h : Rel2 u v) (e : (u.x.good 8 && u.y.good 8) = true) : v.Is v.toReal := by
  rw [Bool.and_eq_true] at e
  exact ⟨(h.x.good e.1).1, (h.y.good e.2).1⟩
theorem rel_nonzero {u : V2 QF} {v : V2 F32} (h : Rel2 u v) (e0 : u.x.toRat ≠ 0) : v.toReal ≠ 0 := fun h0 => by
  have h5 : v.x.toReal = 0 := congrArg V2.x h0
  rw [h.x.toReal] at h5
  exact e0 (by exact_mod_cast h5)

/-- Overlapping: all hypotheses hold, with the side condition of the pushes, and `collides` answers `true` while
`penetrates` and `sdfv` report a finite push that is not zero. -/
example : (litPoly triA).Bounded32 16 ∧ (litPoly triB).Bounded32 16 ∧ turnA.Rigid32 (16 / 4) (1 / 2 ^ 18) ∧
    turnB.Rigid32 (16 / 4) (1 / 2 ^ 18) ∧
    ((litPoly triA).Fine32 ∧ (litPoly triB).FineTurn (deltaTransform turnA turnB).rot.a.toReal ∧
      (deltaTransform turnA turnB).pos.toReal.Gr) ∧
    collides (Collider2d.mk (litPoly triA) turnA) (Collider2d.mk (litPoly triB) turnB) = .ok true ∧
    (∃ v x, penetrates (Collider2d.mk (litPoly triA) turnA) (Collider2d.mk (litPoly triB) turnB) = .ok (some v) ∧
      V2.Is v x ∧ x ≠ 0) ∧
    ∃ v x, sdfv (Collider2d.mk (litPoly triA) turnA) (Collider2d.mk (litPoly triB) turnB) = .ok (true, v) ∧
      V2.Is v x ∧ x ≠ 0 := by
  obtain ⟨h1, h2, h3, h4, -⟩ := turn_hyps
  have hf := litPoly_good (l := triA) (m := 16) (by decide) (by decide +kernel)
  refine ⟨h1, h2, h3, h4, ⟨hf.2, fine_turn rel_ab (by decide +kernel)⟩, ?_, ?_, ?_⟩
  · obtain ⟨v, hv⟩ := (rel_qturn false false triA triB rel_ab).flag true (by decide +kernel)
    show (LocalMinkowskiDiff2d.sdfvMinkowski false false ⟨_, _, _⟩).map _ = _
    rw [hv]; rfl
  · obtain ⟨v, hv, r⟩ := (rel_qturn true false triA triB rel_ab).vec true
      (u := ⟨.fin true (3796469 / 4194304), .fin false (9573705 / 8388608)⟩) (by decide +kernel)
    refine ⟨v, v.toReal, ?_, rel_finite r (by decide +kernel), rel_nonzero r (by decide +kernel)⟩
    show (LocalMinkowskiDiff2d.sdfvMinkowski true false ⟨_, _, _⟩).map _ = _
    rw [hv]; rfl
  · obtain ⟨v, hv, r⟩ := (rel_qturn true true triA triB rel_ab).vec true
      (u := ⟨.fin true (3796469 / 4194304), .fin false (9573705 / 8388608)⟩) (by decide +kernel)
    have r' : Rel2 (qta.rot.rotate _) (turnA.rot.rotate v) := Rel2.rotate (rel_litV _) r
    refine ⟨_, (turnA.rot.rotate v).toReal, ?_, rel_finite r' (by decide +kernel), rel_nonzero r' (by decide +kernel)⟩
    show ((LocalMinkowskiDiff2d.sdfvMinkowski true true ⟨_, _, _⟩).map _) = _
    rw [hv]; rfl

/-- Apart: `collides` and `penetrates` answer negatively, `distance_to` and `sdfv` report a finite vector, and no search
uses up its 20 steps. -/
example : turnA.Rigid32 (16 / 4) (1 / 2 ^ 18) ∧ turnC.Rigid32 (16 / 4) (1 / 2 ^ 18) ∧
    collides (Collider2d.mk (litPoly triA) turnA) (Collider2d.mk (litPoly triB) turnC) = .ok false ∧
    penetrates (Collider2d.mk (litPoly triA) turnA) (Collider2d.mk (litPoly triB) turnC) = .ok none ∧
    (∃ v x, distanceTo (Collider2d.mk (litPoly triA) turnA) (Collider2d.mk (litPoly triB) turnC) = .ok (some v) ∧
      V2.Is v x) ∧
    (∃ v x, sdfv (Collider2d.mk (litPoly triA) turnA) (Collider2d.mk (litPoly triB) turnC) = .ok (false, v) ∧
      V2.Is v x) ∧
    ¬ CollideRunsOut (litPoly triA) (litPoly triB) (deltaTransform turnA turnC) ∧
    ¬ PenetrateRunsOut (litPoly triA) (litPoly triB) (deltaTransform turnA turnC) ∧
    ¬ DistanceRunsOut (litPoly triA) (litPoly triB) (deltaTransform turnA turnC) := by
  obtain ⟨-, -, h3, -, h5⟩ := turn_hyps
  have fs := first_stopT (la := triA) (lb := triB) rel_ac
  have f1 := fs.1 (by decide +kernel)
  have f2 := fs.2 (by decide +kernel)
  refine ⟨h3, h5, ?_, ?_, ?_, ?_, f1.1, f1.2, f2⟩
  · obtain ⟨v, hv⟩ := (rel_qturn false false triA triB rel_ac).flag false (by decide +kernel)
    show (LocalMinkowskiDiff2d.sdfvMinkowski false false ⟨_, _, _⟩).map _ = _
    rw [hv]; rfl
  · obtain ⟨v, hv⟩ := (rel_qturn true false triA triB rel_ac).flag false (by decide +kernel)
    show (LocalMinkowskiDiff2d.sdfvMinkowski true false ⟨_, _, _⟩).map _ = _
    rw [hv]; rfl
  · obtain ⟨v, hv, r⟩ := (rel_qturn false true triA triB rel_ac).vec false
      (u := ⟨.fin false (3236067 / 2097152), .fin true (8575739 / 4194304)⟩) (by decide +kernel)
    refine ⟨v, v.toReal, ?_, rel_finite r (by decide +kernel)⟩
    show (LocalMinkowskiDiff2d.sdfvMinkowski false true ⟨_, _, _⟩).map _ = _
    rw [hv]; rfl
  · obtain ⟨v, hv, r⟩ := (rel_qturn true true triA triB rel_ac).vec false
      (u := ⟨.fin false (3236067 / 2097152), .fin true (8575739 / 4194304)⟩) (by decide +kernel)
    have r' : Rel2 (qta.rot.rotate _) (turnA.rot.rotate v) := Rel2.rotate (rel_litV _) r
    refine ⟨_, (turnA.rot.rotate v).toReal, ?_, rel_finite r' (by decide +kernel)⟩
    show ((LocalMinkowskiDiff2d.sdfvMinkowski true true ⟨_, _, _⟩).map _) = _
    rw [hv]; rfl

end

end Auburn
