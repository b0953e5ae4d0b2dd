import Verif.Ieee.NoisyProps
import Verif.Ieee.EvalFindings

/-!
# C86: concrete cases

Two triangles with one-decimal f32 literals, overlapping at one offset and apart at another: all hypotheses of
`C86_f32_poly_poly` hold with `M = 8`, and the answers the statements speak about do occur.
-/

set_option linter.unusedSectionVars false
set_option synthInstance.maxSize 1000

namespace Auburn

open F32 V2 ExtremePoint2d Transformation2d

section
variable [env : F32Env]

/-- the computed number is finite, at most `m` in magnitude and a multiple of `2^-60` -/
def QF.good (m : ℚ) : QF → Bool
  | .fin s q => decide (|QF.sval s q| ≤ m ∧ (QF.sval s q * 2 ^ 60).den = 1)
  | _ => false

theorem Rel.good {a : QF} {a' : F32} (h : Rel a a') {m : ℚ} (e : a.good m = true) :
    F32.Is a' a'.toReal ∧ |a'.toReal| ≤ m ∧ Gr a'.toReal := by
  cases h with
  | nan => simp [QF.good] at e
  | inf => simp [QF.good] at e
  | fin s q r hr er =>
    simp only [QF.good, decide_eq_true_eq] at e
    have h1 : (F32.fin s r hr).toReal = ((QF.sval s q : ℚ) : ℝ) := by
      simp only [F32.toReal, F32.sval, QF.sval]; split <;> simp [er]
    refine ⟨⟨_, _, _, rfl, rfl⟩, ?_, ?_⟩
    · rw [h1]; exact_mod_cast e.1
    · refine ⟨(QF.sval s q * 2 ^ 60).num, ?_⟩
      have h2 : (((QF.sval s q * 2 ^ 60).num : ℚ)) = QF.sval s q * 2 ^ 60 := by
        conv_rhs => rw [← Rat.num_div_den (QF.sval s q * 2 ^ 60), e.2]
        simp
      have h3 : ((QF.sval s q * 2 ^ 60).num : ℝ) = (QF.sval s q : ℝ) * 2 ^ 60 := by exact_mod_cast h2
      rw [h1, h3, mul_assoc]
      norm_num

theorem litV_good {p : ℚ × ℚ} {m : ℚ} (h : ((qlitV p).x.good m && (qlitV p).y.good m) = true) :
    (litV p.1 p.2).Bounded32 m ∧ (litV p.1 p.2).toReal.Gr := by
  rw [Bool.and_eq_true] at h
  have h1 := (rel_litV p).x.good h.1
  have h2 := (rel_litV p).y.good h.2
  exact ⟨⟨⟨h1.1, h2.1⟩, h1.2.1, h2.2.1⟩, h1.2.2, h2.2.2⟩

theorem litPoly_good {l : List (ℚ × ℚ)} {m : ℚ} (h0 : l ≠ [])
    (h : (l.all fun p => (qlitV p).x.good m && (qlitV p).y.good m) = true) :
    (litPoly l).Bounded32 m ∧ (litPoly l).Fine32 := by
  rw [List.all_eq_true] at h
  refine ⟨⟨by simpa [litPoly] using h0, ?_⟩, ?_⟩
  · intro v hv
    simp only [litPoly, List.mem_map] at hv
    obtain ⟨p, hp, rfl⟩ := hv
    exact (litV_good (h p hp)).1
  · intro v hv
    simp only [litPoly, List.mem_map] at hv
    obtain ⟨p, hp, rfl⟩ := hv
    exact (litV_good (h p hp)).2

/-- the two triangles -/
def triA : List (ℚ × ℚ) := [(1/10, 2/10), (3, 5/2), (-11/10, 27/10)]
def triB : List (ℚ × ℚ) := [(-2, -1), (3/10, -7/10), (1/2, 9/10)]

/-- the direction test of the first step, computed -/
def qfirst (la lb : List (ℚ × ℚ)) (t : ℚ × ℚ) (second : Bool) : Bool :=
  let S := extremePoint (LocalMinkowskiDiff2d.mk (Poly2d.mk (la.map qlitV)) (Poly2d.mk (lb.map qlitV)) (qlitV t))
  let d := if second then -(S (initialDirection (qlitV t))) else initialDirection (qlitV t)
  decide ((S d).dot d ≤ 0)

theorem first_stop {la lb : List (ℚ × ℚ)} {t : ℚ × ℚ} :
    (qfirst la lb t false = true → ¬ CollideRunsOut (litPoly la) (litPoly lb) (litV t.1 t.2) ∧
      ¬ PenetrateRunsOut (litPoly la) (litPoly lb) (litV t.1 t.2)) ∧
    (qfirst la lb t true = true → ¬ DistanceRunsOut (litPoly la) (litPoly lb) (litV t.1 t.2)) := by
  have hS : ∀ d d', Rel2 d d' → Rel2
      (extremePoint (LocalMinkowskiDiff2d.mk (Poly2d.mk (la.map qlitV)) (Poly2d.mk (lb.map qlitV)) (qlitV t)) d)
      (extremePoint (LocalMinkowskiDiff2d.mk (litPoly la) (litPoly lb) (litV t.1 t.2)) d') := fun d d' hd =>
    (rel_poly (rel_litPoly la) _ _ hd).sub ((rel_poly (rel_litPoly lb) _ _ hd.neg).add (rel_litV t))
  have hd := rel_initialDirection (rel_litV t)
  constructor
  · intro h
    simp only [qfirst, decide_eq_true_eq, Bool.false_eq_true, if_false] at h
    rw [((hS _ _ hd).dot hd).le Rel.zero] at h
    exact ⟨fun hr => hr.1 h, fun hr => hr.1 h⟩
  · intro h
    simp only [qfirst, decide_eq_true_eq, if_true] at h
    have hd' := (hS _ _ hd).neg
    rw [((hS _ _ hd').dot hd').le Rel.zero] at h
    exact fun hr => hr.1 h

theorem tri_hyps (t : ℚ × ℚ) (ht : ((qlitV t).x.good 8 && (qlitV t).y.good 8) = true) :
    (litPoly triA).Bounded32 8 ∧ (litPoly triB).Bounded32 8 ∧ (litV t.1 t.2).Bounded32 8 ∧
      ((litPoly triA).Fine32 ∧ (litPoly triB).Fine32 ∧ (litV t.1 t.2).toReal.Gr) := by
  have h1 := litPoly_good (l := triA) (m := 8) (by decide) (by decide +kernel)
  have h2 := litPoly_good (l := triB) (m := 8) (by decide) (by decide +kernel)
  have h3 := litV_good ht
  simp only [Rat.cast_ofNat] at h1 h2 h3
  exact ⟨h1.1, h2.1, h3.1, h1.2, h2.2, h3.2⟩

/-- Overlapping: the hypotheses hold and `penetrates`, `sdfv` report a finite push that is not zero. -/
example : (litPoly triA).Bounded32 8 ∧ (litPoly triB).Bounded32 8 ∧ (litV (13/10) (7/10)).Bounded32 8 ∧
    ((litPoly triA).Fine32 ∧ (litPoly triB).Fine32 ∧ (litV (13/10) (7/10)).toReal.Gr) ∧
    (∃ v x, penetratesRel (litPoly triA) (litPoly triB) (litV (13/10) (7/10)) = .ok (some v) ∧ V2.Is v x ∧ x ≠ 0) ∧
    ∃ v x, sdfvRel (litPoly triA) (litPoly triB) (litV (13/10) (7/10)) = .ok (true, v) ∧ V2.Is v x ∧ x ≠ 0 := by
  obtain ⟨h1, h2, h3, h4⟩ := tri_hyps (13/10, 7/10) (by decide +kernel)
  have key : ∀ {u : V2 QF} {v : V2 F32}, Rel2 u v → (u.x.good 8 && u.y.good 8) = true → u.x.toRat ≠ 0 →
      v.Is v.toReal ∧ v.toReal ≠ 0 := by
    intro u v h e e0
    rw [Bool.and_eq_true] at e
    refine ⟨⟨(h.x.good e.1).1, (h.y.good e.2).1⟩, fun h0 => e0 ?_⟩
    have := congrArg V2.x h0
    have h5 : v.x.toReal = 0 := this
    rw [h.x.toReal] at h5
    exact_mod_cast h5
  refine ⟨h1, h2, h3, h4, ?_, ?_⟩
  · obtain ⟨v, hv, r⟩ := (rel_run true false triA triB (13/10, 7/10)).vec true
      (u := ⟨.fin true (13966265 / 268435456), .fin false (9188333 / 134217728)⟩) (by decide +kernel)
    refine ⟨v, v.toReal, ?_, key r (by decide +kernel) (by decide +kernel)⟩
    show (LocalMinkowskiDiff2d.sdfvMinkowski true false ⟨_, _, _⟩).map _ = _
    rw [hv]; rfl
  · obtain ⟨v, hv, r⟩ := (rel_run true true triA triB (13/10, 7/10)).vec true
      (u := ⟨.fin true (13966265 / 268435456), .fin false (9188333 / 134217728)⟩) (by decide +kernel)
    exact ⟨v, v.toReal, hv, key r (by decide +kernel) (by decide +kernel)⟩

/-- Apart: the hypotheses hold, `collides` and `penetrates` answer negatively, `distance_to` and `sdfv` report a
finite vector, and no search uses up its 20 steps. -/
example : (litPoly triA).Bounded32 8 ∧ (litPoly triB).Bounded32 8 ∧ (litV (73/10) (17/10)).Bounded32 8 ∧
    collidesRel (litPoly triA) (litPoly triB) (litV (73/10) (17/10)) = .ok false ∧
    penetratesRel (litPoly triA) (litPoly triB) (litV (73/10) (17/10)) = .ok none ∧
    (∃ v x, distanceToRel (litPoly triA) (litPoly triB) (litV (73/10) (17/10)) = .ok (some v) ∧ V2.Is v x) ∧
    (∃ v x, sdfvRel (litPoly triA) (litPoly triB) (litV (73/10) (17/10)) = .ok (false, v) ∧ V2.Is v x) ∧
    ¬ CollideRunsOut (litPoly triA) (litPoly triB) (litV (73/10) (17/10)) ∧
    ¬ PenetrateRunsOut (litPoly triA) (litPoly triB) (litV (73/10) (17/10)) ∧
    ¬ DistanceRunsOut (litPoly triA) (litPoly triB) (litV (73/10) (17/10)) := by
  obtain ⟨h1, h2, h3, -⟩ := tri_hyps (73/10, 17/10) (by decide +kernel)
  have key : ∀ {u : V2 QF} {v : V2 F32}, Rel2 u v → (u.x.good 8 && u.y.good 8) = true → v.Is v.toReal := by
    intro u v h e
    rw [Bool.and_eq_true] at e
    exact ⟨(h.x.good e.1).1, (h.y.good e.2).1⟩
  have fs := first_stop (la := triA) (lb := triB) (t := (73/10, 17/10))
  have f1 := fs.1 (by decide +kernel)
  have f2 := fs.2 (by decide +kernel)
  refine ⟨h1, h2, h3, ?_, ?_, ?_, ?_, f1.1, f1.2, f2⟩
  · obtain ⟨v, hv⟩ := (rel_run false false triA triB (73/10, 17/10)).flag false (by decide +kernel)
    show (LocalMinkowskiDiff2d.sdfvMinkowski false false ⟨_, _, _⟩).map _ = _
    rw [hv]; rfl
  · obtain ⟨v, hv⟩ := (rel_run true false triA triB (73/10, 17/10)).flag false (by decide +kernel)
    show (LocalMinkowskiDiff2d.sdfvMinkowski true false ⟨_, _, _⟩).map _ = _
    rw [hv]; rfl
  · obtain ⟨v, hv, r⟩ := (rel_run false true triA triB (73/10, 17/10)).vec false
      (u := ⟨.fin false (2411725 / 1048576), .fin true (7549747 / 4194304)⟩) (by decide +kernel)
    refine ⟨v, v.toReal, ?_, key r (by decide +kernel)⟩
    show (LocalMinkowskiDiff2d.sdfvMinkowski false true ⟨_, _, _⟩).map _ = _
    rw [hv]; rfl
  · obtain ⟨v, hv, r⟩ := (rel_run true true triA triB (73/10, 17/10)).vec false
      (u := ⟨.fin false (2411725 / 1048576), .fin true (7549747 / 4194304)⟩) (by decide +kernel)
    exact ⟨v, v.toReal, hv, key r (by decide +kernel)⟩

/-- A ball and a box with literal sizes meet the hypotheses of `C86_f32_ball_box`. -/
example : (Ball.mk (lit (7/10))).Bounded32 8 ∧ (Box2d.mk (litV (12/10) (3/10))).Bounded32 8 ∧
    (litV (73/10) (17/10)).Bounded32 8 := by
  have h1 := (rel_lit (7/10)).good (m := 8) (by decide +kernel)
  have h2 := litV_good (p := (12/10, 3/10)) (m := 8) (by decide +kernel)
  have h3 := litV_good (p := (73/10, 17/10)) (m := 8) (by decide +kernel)
  simp only [Rat.cast_ofNat] at h1 h2 h3
  have pos : ∀ {x : ℚ}, 0 ≤ (qlit x).toRat → 0 ≤ (lit x).toReal := fun {x} h => by
    rw [(rel_lit x).toReal]; exact_mod_cast h
  exact ⟨⟨h1.1, pos (by decide +kernel), (le_abs_self _).trans h1.2.1⟩,
    ⟨h2.1, pos (x := 12/10) (by decide +kernel), pos (x := 3/10) (by decide +kernel)⟩, h3.1⟩

end

end Auburn
