import Verif.Ieee.EvalGjk
import Verif.Ieee.GjkProps

/-!
# What rounding does to polygons (findings for C71/C73)

C73 shows `distance_to` to be exact on small grids (at most 32 units altogether).  Slightly larger integers
suffice to break it: here the code is run, step by step in binary32, on triangles with two-digit integer
coordinates.  The runs are computed by the kernel on `QF` and carried over to `F32` by `Rel`.
-/

set_option linter.unusedSectionVars false
set_option synthInstance.maxSize 1000

namespace Auburn

open F32 V2 ExtremePoint2d Transformation2d

/-- the f32 literal `x`: the decimal number rounded to binary32 -/
noncomputable def lit (x : ℚ) : F32 := F32.ofReal false (x : ℝ)

/-- the point with the f32 literals `x`, `y` as coordinates -/
noncomputable def litV (x y : ℚ) : V2 F32 := ⟨lit x, lit y⟩

/-- the polygon with the given literals as vertices -/
noncomputable def litPoly (l : List (ℚ × ℚ)) : Poly2d F32 := ⟨l.map fun p => litV p.1 p.2⟩

/-- every point of `X` is farther than `c` from every point of `Y` -/
def FartherThan (c : ℝ) (X Y : Set (V2 ℝ)) : Prop := ∀ p ∈ X, ∀ q ∈ Y, c ^ 2 < lengthSq (p - q)

namespace QF

/-- rational value (0 for NaN and infinities) -/
def toRat : QF → ℚ
  | .fin s m => sval s m
  | _ => 0

end QF

theorem Rel.toReal {a : QF} {a' : F32} (h : Rel a a') : a'.toReal = ((a.toRat : ℚ) : ℝ) := by
  cases h with
  | nan => simp [F32.toReal, QF.toRat]
  | inf => simp [F32.toReal, QF.toRat]
  | fin s q m h e => simp only [F32.toReal, QF.toRat, F32.sval, QF.sval]; split <;> simp [e]

def qlit (x : ℚ) : QF := QF.ofRat false x
def qlitV (p : ℚ × ℚ) : V2 QF := ⟨qlit p.1, qlit p.2⟩

theorem rel_lit (x : ℚ) : Rel (qlit x) (lit x) := Rel.ofRat rfl
theorem rel_litV (p : ℚ × ℚ) : Rel2 (qlitV p) (litV p.1 p.2) := ⟨rel_lit _, rel_lit _⟩
theorem rel_litPoly (l : List (ℚ × ℚ)) : RelL (l.map qlitV) (litPoly l).points := by
  unfold litPoly
  induction l with
  | nil => exact .nil
  | cons p l ih => exact .cons (rel_litV p) ih

/-! ## how far apart the polygons are -/

/-- `n · v` over the rationals -/
def qdot (n : ℚ × ℚ) (v : V2 QF) : ℚ := n.1 * v.x.toRat + n.2 * v.y.toRat

/-- the check: along `n` every vertex of `a` exceeds every vertex of `b` (moved by `t`) by at least `c` -/
def gapCheck (A B : List (V2 QF)) (t : V2 QF) (n : ℚ × ℚ) (c : ℚ) : Bool :=
  A.all fun p => B.all fun q => decide (c ≤ qdot n p - qdot n q - qdot n t)

theorem dot_hull {L : List (V2 QF)} {L' : List (V2 F32)} (h : RelL L L') (n : ℚ × ℚ) {c : ℝ}
    (hc : ∀ p ∈ L, c ≤ ((qdot n p : ℚ) : ℝ)) {z : V2 ℝ} (hz : z ∈ convexHull ℝ {p | p ∈ L'.map V2.toReal}) :
    c ≤ (n.1 : ℝ) * z.x + n.2 * z.y := by
  have hconv : Convex ℝ {z : V2 ℝ | c ≤ (n.1 : ℝ) * z.x + n.2 * z.y} := by
    intro x hx y hy a b ha hb hab
    simp only [Set.mem_ofPred_eq] at hx hy ⊢
    have e1 : (a • x + b • y).x = a * x.x + b * y.x := rfl
    have e2 : (a • x + b • y).y = a * x.y + b * y.y := rfl
    rw [e1, e2]
    have : c = a * c + b * c := by rw [← add_mul, hab, one_mul]
    nlinarith [mul_le_mul_of_nonneg_left hx ha, mul_le_mul_of_nonneg_left hy hb]
  refine convexHull_min ?_ hconv hz
  intro p hp
  simp only [Set.mem_ofPred_eq] at hp ⊢
  clear hz hconv
  induction h with
  | nil => simp at hp
  | @cons q q' _ _ hq _ ih =>
    rw [List.map_cons, List.mem_cons] at hp
    rcases hp with e | hp
    · have := hc q (by simp)
      rw [e]
      show c ≤ (n.1 : ℝ) * q'.x.toReal + n.2 * q'.y.toReal
      rw [hq.x.toReal, hq.y.toReal]
      unfold qdot at this
      push_cast at this
      exact this
    · exact ih (fun p hp => hc p (by simp [hp])) hp

theorem farther {la lb : List (ℚ × ℚ)} {t : ℚ × ℚ} (n : ℚ × ℚ) (c d : ℚ)
    (h : gapCheck (la.map qlitV) (lb.map qlitV) (qlitV t) n c = true) (h0 : 0 ≤ c)
    (hd : d ^ 2 * (n.1 ^ 2 + n.2 ^ 2) < c ^ 2) :
    FartherThan d (Region.pts (litPoly la).toReal) (shift (litV t.1 t.2).toReal (Region.pts (litPoly lb).toReal)) := by
  rintro p hp _ ⟨q, hq, rfl⟩
  unfold gapCheck at h
  simp only [List.all_eq_true, decide_eq_true_eq] at h
  have ht : (n.1 : ℝ) * (litV t.1 t.2).toReal.x + n.2 * (litV t.1 t.2).toReal.y = ((qdot n (qlitV t) : ℚ) : ℝ) := by
    show (n.1 : ℝ) * (litV t.1 t.2).x.toReal + n.2 * (litV t.1 t.2).y.toReal = _
    rw [(rel_litV t).x.toReal, (rel_litV t).y.toReal]
    unfold qdot; push_cast; rfl
  have h1 : ∀ v ∈ lb.map qlitV, ((c + qdot n v + qdot n (qlitV t) : ℚ) : ℝ) ≤ (n.1 : ℝ) * p.x + n.2 * p.y := by
    intro v hv
    refine dot_hull (rel_litPoly la) n ?_ hp
    intro w hw
    have := h w hw v hv
    have : c + qdot n v + qdot n (qlitV t) ≤ qdot n w := by linarith
    exact_mod_cast this
  have h2 : (c : ℝ) + (qdot n (qlitV t) : ℚ) - ((n.1 : ℝ) * p.x + n.2 * p.y) ≤ ((-n.1 : ℚ) : ℝ) * q.x + ((-n.2 : ℚ) : ℝ) * q.y := by
    refine dot_hull (rel_litPoly lb) (-n.1, -n.2) ?_ hq
    intro v hv
    have := h1 v hv
    have e : qdot (-n.1, -n.2) v = -qdot n v := by unfold qdot; ring
    rw [e]
    push_cast at this ⊢
    linarith
  push_cast at h2
  set u := (litV t.1 t.2).toReal with hu
  have key : (c : ℝ) ≤ n.1 * (p.x - (q.x + u.x)) + n.2 * (p.y - (q.y + u.y)) := by rw [← ht] at h2; linarith
  have hdr : (d : ℝ) ^ 2 * ((n.1 : ℝ) ^ 2 + (n.2 : ℝ) ^ 2) < (c : ℝ) ^ 2 := by exact_mod_cast hd
  have c0 : (0 : ℝ) ≤ c := by exact_mod_cast h0
  show (d : ℝ) ^ 2 < (p.x - (q.x + u.x)) * (p.x - (q.x + u.x)) + (p.y - (q.y + u.y)) * (p.y - (q.y + u.y))
  generalize p.x - (q.x + u.x) = X at key ⊢
  generalize p.y - (q.y + u.y) = Y at key ⊢
  have cs : (c : ℝ) ^ 2 ≤ ((n.1 : ℝ) ^ 2 + (n.2 : ℝ) ^ 2) * (X * X + Y * Y) := by
    have : (c : ℝ) ^ 2 ≤ (n.1 * X + n.2 * Y) ^ 2 := by nlinarith
    nlinarith [sq_nonneg ((n.1 : ℝ) * Y - n.2 * X)]
  by_contra hcon
  push Not at hcon
  have := mul_le_mul_of_nonneg_left hcon (by positivity : (0 : ℝ) ≤ (n.1 : ℝ) ^ 2 + (n.2 : ℝ) ^ 2)
  linarith

/-! ## the runs -/

/-- the computed run -/
def qrun (p q : Bool) (la lb : List (ℚ × ℚ)) (t : ℚ × ℚ) : Except Panic (Bool × V2 QF) :=
  LocalMinkowskiDiff2d.sdfvMinkowski p q
    (⟨⟨la.map qlitV⟩, ⟨lb.map qlitV⟩, qlitV t⟩ : LocalMinkowskiDiff2d (Poly2d QF) (Poly2d QF) (V2 QF))

section
variable [env : F32Env]

/-- the parts of a computed answer -/
def qflag : Except Panic (Bool × V2 QF) → Option Bool
  | .ok r => some r.1
  | .error _ => none
def qans : Except Panic (Bool × V2 QF) → Option (Bool × V2 QF)
  | .ok r => some r
  | .error _ => none
def qpanic : Except Panic (Bool × V2 QF) → Option Panic
  | .ok _ => none
  | .error e => some e

theorem rel_run (p q : Bool) (la lb : List (ℚ × ℚ)) (t : ℚ × ℚ) :
    RelE RelA (qrun p q la lb t)
      (LocalMinkowskiDiff2d.sdfvMinkowski p q ⟨litPoly la, litPoly lb, litV t.1 t.2⟩) :=
  rel_minkowski (rel_poly (rel_litPoly la)) (rel_poly (rel_litPoly lb)) (rel_litV t) p q


theorem RelE.flag {a : Except Panic (Bool × V2 QF)} {b : Except Panic (Bool × V2 F32)} (h : RelE RelA a b) (x : Bool)
    (e : qflag a = some x) : ∃ v, b = .ok (x, v) := by
  cases h with
  | error => simp [qflag] at e
  | @ok a b h =>
    simp only [qflag, Option.some.injEq] at e
    exact ⟨b.2, by rw [← e, h.1]⟩

theorem RelE.panics {a : Except Panic (Bool × V2 QF)} {b : Except Panic (Bool × V2 F32)} (h : RelE RelA a b) (x : Panic)
    (e : qpanic a = some x) : b = .error x := by
  cases h with
  | error => simp only [qpanic, Option.some.injEq] at e; rw [e]
  | ok h => simp [qpanic] at e

theorem RelE.vec {a : Except Panic (Bool × V2 QF)} {b : Except Panic (Bool × V2 F32)} (h : RelE RelA a b) (x : Bool)
    {u : V2 QF} (e : qans a = some (x, u)) : ∃ v, b = .ok (x, v) ∧ Rel2 u v := by
  cases h with
  | error => simp [qans] at e
  | @ok a b h =>
    simp only [qans, Option.some.injEq] at e
    obtain ⟨h1, h2⟩ := h
    rw [e] at h1 h2
    exact ⟨b.2, by rw [← Prod.mk.eta (p := b), ← h1], h2⟩

/-- a finite answer longer than `c` -/
def longer (c : ℚ) : Except Panic (Bool × V2 QF) → Bool
  | .ok (false, ⟨.fin _ m, .fin _ m'⟩) => decide (c ^ 2 < m * m + m' * m')
  | _ => false

theorem RelE.far {a : Except Panic (Bool × V2 QF)} {b : Except Panic (Bool × V2 F32)} (h : RelE RelA a b) {c : ℚ}
    (e : longer c a = true) : ∃ v w, b = .ok (false, v) ∧ v.Is w ∧ ((c ^ 2 : ℚ) : ℝ) < lengthSq w := by
  cases h with
  | error => simp [longer] at e
  | @ok a b h =>
    obtain ⟨f, vx, vy⟩ := a
    obtain ⟨g, wx, wy⟩ := b
    obtain ⟨h1, h2, h3⟩ := h
    simp only at h1 h2 h3
    subst h1
    cases f
    · cases h2 <;> cases h3 <;> simp only [longer, Bool.false_eq_true, decide_eq_true_eq] at e
      rename_i s q m hm em s' q' m' hm' em'
      refine ⟨_, ⟨F32.sval s m, F32.sval s' m'⟩, rfl, ⟨?_, ?_⟩, ?_⟩
      · exact ⟨_, _, _, rfl, rfl⟩
      · exact ⟨_, _, _, rfl, rfl⟩
      · have e : ((c ^ 2 : ℚ) : ℝ) < (q : ℝ) * q + q' * q' := by exact_mod_cast e
        rw [em, em'] at e
        refine e.trans_eq ?_
        show _ = F32.sval s m * F32.sval s m + F32.sval s' m' * F32.sval s' m'
        unfold F32.sval; split <;> split <;> ring
    · cases h2 <;> cases h3 <;> simp [longer] at e

/-- Finding: two triangles with integer coordinates of at most two digits, more than 65 units apart, for which
`distance_to` answers `None` — "colliding" — while `collides` answers `false`.  (In exact arithmetic the distance is
found; in binary32 a rounding error in the termination test lets GJK add a point it already has, and the degenerate
triangle is taken for one that contains the origin.) -/
theorem C73_f32_distance_collides_finding :
    let a := litPoly [(12, -22), (2, -21), (2, -22)]
    let b := litPoly [(-31, 31), (-31, 8), (32, 30)]
    let t := litV (-3) 28
    distanceToRel a b t = .ok none ∧ collidesRel a b t = .ok false ∧
      FartherThan 65 (Region.pts a.toReal) (shift t.toReal (Region.pts b.toReal)) := by
  intro a b t
  refine ⟨?_, ?_, ?_⟩
  · obtain ⟨v, hv⟩ := (rel_run false true [(12, -22), (2, -21), (2, -22)] [(-31, 31), (-31, 8), (32, 30)] (-3, 28)).flag true
      (by decide +kernel)
    show (LocalMinkowskiDiff2d.sdfvMinkowski false true ⟨a, b, t⟩).map _ = _
    change (LocalMinkowskiDiff2d.sdfvMinkowski false true ⟨a, b, t⟩) = _ at hv
    rw [hv]; rfl
  · obtain ⟨v, hv⟩ := (rel_run false false [(12, -22), (2, -21), (2, -22)] [(-31, 31), (-31, 8), (32, 30)] (-3, 28)).flag
      false (by decide +kernel)
    show (LocalMinkowskiDiff2d.sdfvMinkowski false false ⟨a, b, t⟩).map _ = _
    change (LocalMinkowskiDiff2d.sdfvMinkowski false false ⟨a, b, t⟩) = _ at hv
    rw [hv]; rfl
  · exact_mod_cast farther (t := (-3, 28)) (22, -63) 4382 65 (by decide +kernel) (by norm_num) (by norm_num)

/-- Finding: for these two triangles, more than 50 units apart, `distance_to` returns `Some` of a vector of NaNs. -/
theorem C73_f32_distance_nan_finding :
    let a := litPoly [(-33, -29), (38, 13), (14, 18)]
    let b := litPoly [(-28, 19), (21, 35), (37, 30)]
    let t := litV (-38) 36
    distanceToRel a b t = .ok (some ⟨.nan, .nan⟩) ∧
      FartherThan 50 (Region.pts a.toReal) (shift t.toReal (Region.pts b.toReal)) := by
  intro a b t
  refine ⟨?_, ?_⟩
  · obtain ⟨v, hv, r⟩ := (rel_run false true [(-33, -29), (38, 13), (14, 18)] [(-28, 19), (21, 35), (37, 30)]
      (-38, 36)).vec false (u := ⟨.nan, .nan⟩) (by decide +kernel)
    show (LocalMinkowskiDiff2d.sdfvMinkowski false true ⟨a, b, t⟩).map _ = _
    change (LocalMinkowskiDiff2d.sdfvMinkowski false true ⟨a, b, t⟩) = _ at hv
    rw [hv]
    obtain ⟨vx, vy⟩ := v
    obtain ⟨h1, h2⟩ := r
    cases h1; cases h2
    rfl
  · exact_mod_cast farther (t := (-38, 36)) (15, -48) 2529 50 (by decide +kernel) (by norm_num) (by norm_num)

/-- Finding: for these two triangles, less than 43 units apart, `distance_to` returns a vector longer than 75 (the
iteration limit is reached).  -/
theorem C73_f32_distance_wrong_finding :
    let a := litPoly [(-37, -31), (32, 14), (-9, -24)]
    let b := litPoly [(-34, 25), (0, 10), (33, 11)]
    let t := litV (-33) 31
    (∃ v w, distanceToRel a b t = .ok (some v) ∧ v.Is w ∧ 75 ^ 2 < lengthSq w) ∧
      ∃ p ∈ Region.pts a.toReal, ∃ q ∈ shift t.toReal (Region.pts b.toReal), lengthSq (p - q) < 43 ^ 2 := by
  intro a b t
  refine ⟨?_, ?_⟩
  · obtain ⟨v, hv⟩ := (rel_run false true [(-37, -31), (32, 14), (-9, -24)] [(-34, 25), (0, 10), (33, 11)]
      (-33, 31)).far (c := 75) (by decide +kernel)
    obtain ⟨w, h1, h2, h3⟩ := hv
    refine ⟨v, w, ?_, h2, by exact_mod_cast h3⟩
    show (LocalMinkowskiDiff2d.sdfvMinkowski false true ⟨a, b, t⟩).map _ = _
    change (LocalMinkowskiDiff2d.sdfvMinkowski false true ⟨a, b, t⟩) = _ at h1
    rw [h1]; rfl
  · refine ⟨(litV 32 14).toReal, subset_convexHull ℝ _ ?_, (litV 33 11).toReal + t.toReal,
      ⟨_, subset_convexHull ℝ _ ?_, rfl⟩, ?_⟩
    · simp [a, litPoly, Poly2d.toReal]
    · simp [b, litPoly, Poly2d.toReal]
    · have e : ∀ p : ℚ × ℚ, (litV p.1 p.2).toReal = ⟨((qlitV p).x.toRat : ℝ), ((qlitV p).y.toRat : ℝ)⟩ := fun p => by
        rw [← (rel_litV p).x.toReal, ← (rel_litV p).y.toReal]; rfl
      have e1 := e (32, 14)
      have e2 := e (33, 11)
      have e3 := e (-33, 31)
      have k : ((qlitV (32, 14)).x.toRat - ((qlitV (33, 11)).x.toRat + (qlitV (-33, 31)).x.toRat)) ^ 2 +
          ((qlitV (32, 14)).y.toRat - ((qlitV (33, 11)).y.toRat + (qlitV (-33, 31)).y.toRat)) ^ 2 < 43 ^ 2 := by decide +kernel
      have k' := (Rat.cast_lt (K := ℝ)).2 k
      push_cast at k'
      show lengthSq ((litV 32 14).toReal - ((litV 33 11).toReal + (litV (-33) 31).toReal)) < _
      simp only at e1 e2 e3
      rw [e1, e2, e3]
      refine lt_of_eq_of_lt ?_ k'
      show _ * _ + _ * _ = _
      rw [sq, sq]; rfl

/-- Finding: `sdfv` panics ("collided after collision was deemed impossible") for these two triangles, written
with one-decimal f32 literals; they are disjoint. -/
theorem C73_f32_sdfv_panic_finding :
    let a := litPoly [(4/5, 41/5), (31/5, 8/5), (27/5, -1/10)]
    let b := litPoly [(79/10, 47/5), (-1/5, 13/2), (-9/5, 42/5)]
    let t := litV (36/5) (-17/2)
    sdfvRel a b t = .error .collidedAfterImpossible ∧
      FartherThan 0 (Region.pts a.toReal) (shift t.toReal (Region.pts b.toReal)) := by
  intro a b t
  refine ⟨?_, ?_⟩
  · exact (rel_run true true [(4/5, 41/5), (31/5, 8/5), (27/5, -1/10)] [(79/10, 47/5), (-1/5, 13/2), (-9/5, 42/5)]
      (36/5, -17/2)).panics .collidedAfterImpossible (by decide +kernel)
  · have := farther (la := [(4/5, 41/5), (31/5, 8/5), (27/5, -1/10)]) (lb := [(79/10, 47/5), (-1/5, 13/2), (-9/5, 42/5)])
      (t := (36/5, -17/2)) (-1, 97/10) (1/1000000) 0 (by decide +kernel) (by norm_num) (by norm_num)
    rwa [Rat.cast_zero] at this

/-- Finding (why C84 excludes very thin boxes): `sdfv` panics for these two disjoint boxes, a few thousandths of a
unit high and hundreds of units wide. -/
theorem C84_f32_thin_panic_finding :
    let a : Box2d F32 := ⟨litV (21352129 / 1000000) (68049659 / 10000000000)⟩
    let b : Box2d F32 := ⟨litV (285113373 / 1000000) (199193135 / 100000000000)⟩
    let t := litV (-306465576 / 1000000) (-53696679 / 10000000000)
    sdfvRel a b t = .error .collidedAfterImpossible ∧
      ¬ Touch (Region.pts a.toReal) (shift t.toReal (Region.pts b.toReal)) := by
  intro a b t
  refine ⟨?_, ?_⟩
  · exact (rel_minkowski (rel_box (rel_litV (21352129 / 1000000, 68049659 / 10000000000)))
      (rel_box (rel_litV (285113373 / 1000000, 199193135 / 100000000000)))
      (rel_litV (-306465576 / 1000000, -53696679 / 10000000000)) true true).panics .collidedAfterImpossible
      (by decide +kernel)
  · rintro ⟨p, h1, q, h2, rfl⟩
    have k : (qlit (21352129 / 1000000)).toRat + (qlit (285113373 / 1000000)).toRat +
        (qlit (-306465576 / 1000000)).toRat < 0 := by decide +kernel
    have k' := (Rat.cast_lt (K := ℝ)).2 k
    push_cast at k'
    rw [← (rel_lit _).toReal, ← (rel_lit _).toReal, ← (rel_lit _).toReal] at k'
    have a1 := (abs_le.1 h1.1).1
    have a2 := (abs_le.1 h2.1).2
    have a1 : -(lit (21352129 / 1000000)).toReal ≤ q.x + (lit (-306465576 / 1000000)).toReal := a1
    have a2 : q.x ≤ (lit (285113373 / 1000000)).toReal := a2
    linarith

end

end Auburn
