import Verif.Props.Family

/-!
# C33, C46, C47: facts that hold for every float behaviour

No law of arithmetic is assumed here: `F` is any type with any operations and comparisons, so the
theorems cover IEEE rounding, overflow, NaN (all comparisons false) and infinities.
-/

set_option linter.unusedSectionVars false
set_option synthInstance.maxSize 1000

namespace Auburn

open V2 ExtremePoint2d Transformation2d Auburn.Invertible Composable

section
variable {F : Type} [Zero F] [One F] [Add F] [Sub F] [Mul F] [Div F] [Neg F]
  [LT F] [LE F] [DecidableLT F] [DecidableLE F] [FloatExtra F]

/-! ## shapes of the simplex -/

theorem addPoint_ok (pts : List (V2 F)) (p : V2 F) (h : pts.length ≤ 2) :
    ∃ r, addPoint pts p = .ok r ∧ (r.collides = true → r.pts.length = 3) ∧
      (r.collides = false → 1 ≤ r.pts.length ∧ r.pts.length ≤ 2) := by
  match pts, h with
  | [], _ => exact ⟨⟨false, -p, [p]⟩, rfl, by simp, by simp⟩
  | [b], _ =>
    simp only [addPoint]
    split_ifs
    · exact ⟨_, rfl, by simp, by simp⟩
    · exact ⟨_, rfl, by simp, by simp⟩
  | [b, c], _ =>
    simp only [addPoint]
    split_ifs
    · exact ⟨_, rfl, by simp, by simp⟩
    · exact ⟨_, rfl, by simp, by simp⟩
    · exact ⟨_, rfl, by simp, by simp⟩
    · exact ⟨_, rfl, by simp, by simp⟩
  | _ :: _ :: _ :: _, h => simp at h

theorem distanceToOrigin_ok (pts : List (V2 F)) (h1 : 1 ≤ pts.length) (h2 : pts.length ≤ 2) :
    ∃ v, distanceToOrigin pts = .ok v := by
  match pts, h1, h2 with
  | [a], _, _ => exact ⟨_, rfl⟩
  | [a, b], _, _ =>
    simp only [distanceToOrigin]
    split_ifs <;> exact ⟨_, rfl⟩
  | _ :: _ :: _ :: _, _, h => simp at h

theorem enforceCcw_ok (pts : List (V2 F)) (h : pts.length = 3) :
    ∃ q, enforceCcw pts = .ok q ∧ q.length = 3 := by
  match pts, h with
  | [a, b, c], _ =>
    simp only [enforceCcw]
    split_ifs <;> exact ⟨_, rfl, rfl⟩

theorem closedEdges_length (pts : List (V2 F)) : (closedEdges pts).length = pts.length := by
  cases pts with
  | nil => rfl
  | cons a l => simp [closedEdges]

theorem closestLoop_index (es : List (V2 F × V2 F)) (i : Nat) (s : ClosestEdge F)
    (h : s.index < i + es.length) : (closestLoop es i s).index < i + es.length := by
  induction es generalizing i s with
  | nil => simpa [closestLoop] using h
  | cons e es ih =>
    simp only [closestLoop, List.length_cons] at *
    have : (closestStep s i e).index < i + 1 + es.length := by
      simp only [closestStep]
      split_ifs <;> first | (simp only; omega) | omega
    have := ih (i + 1) (closestStep s i e) this
    omega

theorem findClosestEdge_index (pts : List (V2 F)) (h : 1 ≤ pts.length) :
    (findClosestEdge pts).index < pts.length := by
  have := closestLoop_index (closedEdges pts) 0 ⟨0, V2.nan, V2.nan, none⟩
    (by rw [closedEdges_length]; simp only; omega)
  rw [closedEdges_length] at this
  simpa [findClosestEdge] using this

theorem epa_ok (S : V2 F → V2 F) (n : Nat) (pts : List (V2 F)) (h : 1 ≤ pts.length) :
    ∃ v, epa S n pts = .ok v := by
  induction n generalizing pts with
  | zero => exact ⟨_, rfl⟩
  | succ n ih =>
    simp only [epa]
    have hi := findClosestEdge_index pts h
    rw [if_pos (show (findClosestEdge pts).index + 1 ≤ pts.length by omega)]
    split_ifs with h1
    · exact ih _ (by rw [List.length_insertIdx]; split_ifs <;> omega)
    · exact ⟨_, rfl⟩

theorem gjkCollide_ok (S : V2 F → V2 F) (n : Nat) (d : V2 F) (pts : List (V2 F))
    (h : pts.length ≤ 2) : ∃ r, gjkCollide S n d pts = .ok r := by
  induction n generalizing d pts with
  | zero => exact ⟨_, rfl⟩
  | succ n ih =>
    simp only [gjkCollide]
    split_ifs with h1
    · exact ⟨_, rfl⟩
    · obtain ⟨r, hr, h3, h2⟩ := addPoint_ok pts (S d) h
      rw [hr]; simp only
      split_ifs with hc
      · exact ⟨_, rfl⟩
      · have hf : r.collides = false := by
          cases hb : r.collides
          · rfl
          · exact absurd (Or.inl hb) hc
        exact ih _ _ (h2 hf).2

theorem gjkDistance_ok (S : V2 F → V2 F) (n : Nat) (d l : V2 F) (pts : List (V2 F))
    (h0 : 1 ≤ pts.length) (h : pts.length ≤ 2) : ∃ r, gjkDistance S n d l pts = .ok r := by
  induction n generalizing d l pts with
  | zero =>
    obtain ⟨v, hv⟩ := distanceToOrigin_ok pts h0 h
    simp only [gjkDistance, hv]; exact ⟨_, rfl⟩
  | succ n ih =>
    simp only [gjkDistance]
    split_ifs with h1
    · obtain ⟨v, hv⟩ := distanceToOrigin_ok pts h0 h
      rw [hv]; exact ⟨_, rfl⟩
    · obtain ⟨r, hr, h3, h2⟩ := addPoint_ok pts (S d) h
      rw [hr]; simp only
      cases hb : r.collides with
      | true => simp [h3 hb]
      | false =>
        simp only [Bool.false_eq_true, if_false]
        exact ih _ _ _ (h2 hb).1 (h2 hb).2

theorem gjkPenetrate_ok (S : V2 F → V2 F) (n : Nat) (d : V2 F) (pts : List (V2 F))
    (h : pts.length ≤ 2) : ∃ r, gjkPenetrate S n d pts = .ok r := by
  induction n generalizing d pts with
  | zero => exact ⟨_, rfl⟩
  | succ n ih =>
    simp only [gjkPenetrate]
    split_ifs with h1
    · exact ⟨_, rfl⟩
    · obtain ⟨r, hr, h3, h2⟩ := addPoint_ok pts (S d) h
      rw [hr]; simp only
      cases hb : r.collides with
      | true =>
        simp only [if_true]
        obtain ⟨q, hq, hl⟩ := enforceCcw_ok r.pts (h3 hb)
        obtain ⟨v, hv⟩ := epa_ok S iterationLimit q (by omega)
        rw [hq]; simp only [hv]; exact ⟨_, rfl⟩
      | false =>
        simp only [Bool.false_eq_true, if_false]
        exact ih _ _ (h2 hb).2

theorem gjkFull_ok (S : V2 F → V2 F) (n : Nat) (c : Bool) (d l : V2 F) (pts : List (V2 F))
    (h0 : 1 ≤ pts.length) (h : pts.length ≤ 2) :
    (∃ r, gjkFull S n c d l pts = .ok r) ∨
      gjkFull S n c d l pts = .error .collidedAfterImpossible := by
  induction n generalizing c d l pts with
  | zero =>
    obtain ⟨v, hv⟩ := distanceToOrigin_ok pts h0 h
    simp only [gjkFull, hv]; exact Or.inl ⟨_, rfl⟩
  | succ n ih =>
    simp only [gjkFull]
    by_cases h1 : (S d).dot d ≤ 0 ∧ ¬ sufficientlyBetter ((S d).dot d) (l.dot d) FloatExtra.tol
    · rw [if_pos h1]
      obtain ⟨v, hv⟩ := distanceToOrigin_ok pts h0 h
      rw [hv]; exact Or.inl ⟨_, rfl⟩
    · rw [if_neg h1]
      obtain ⟨r, hr, h3, h2⟩ := addPoint_ok pts (S d) h
      rw [hr]; simp only
      cases hb : r.collides with
      | true =>
        obtain ⟨q, hq, hl⟩ := enforceCcw_ok r.pts (h3 hb)
        obtain ⟨v, hv⟩ := epa_ok S iterationLimit q (by omega)
        by_cases hp : (if (S d).dot d ≤ 0 then false else c) = false
        · rw [if_pos ⟨rfl, hp⟩]; exact Or.inr rfl
        · rw [if_neg (fun h => hp h.2), if_pos rfl, hq]; simp only [hv]; exact Or.inl ⟨_, rfl⟩
      | false =>
        simp only [Bool.false_eq_true, false_and, if_false]
        exact ih _ _ _ _ (h2 hb).1 (h2 hb).2

/-! ## C33 -/

variable {A B T : Type} [DefaultMinkowski A B] [ExtremePoint2d A F] [ExtremePoint2d B F]
  [Transformation2d T F]

/-- The relative queries of Minkowski-based pairs never panic, for any float behaviour. -/
theorem C33_rel_no_panic (a : A) (b : B) (rel : T) :
    (∃ c, collidesRel a b rel = .ok c) ∧ (∃ v, penetratesRel a b rel = .ok v) ∧
      (∃ v, distanceToRel a b rel = .ok v) := by
  refine ⟨?_, ?_, ?_⟩
  · obtain ⟨r, hr⟩ := gjkCollide_ok (extremePoint (LocalMinkowskiDiff2d.mk a b rel)) iterationLimit
      (initialDirection (applyOrigin rel)) [] (by simp)
    refine ⟨r.1, ?_⟩
    show Except.map _ (gjkCollide _ _ _ _) = _
    rw [hr]; rfl
  · obtain ⟨r, hr⟩ := gjkPenetrate_ok (extremePoint (LocalMinkowskiDiff2d.mk a b rel))
      iterationLimit (initialDirection (applyOrigin rel)) [] (by simp)
    refine ⟨if r.1 then some r.2 else none, ?_⟩
    show Except.map _ (gjkPenetrate _ _ _ _) = _
    rw [hr]; rfl
  · obtain ⟨r, hr⟩ := gjkDistance_ok (extremePoint (LocalMinkowskiDiff2d.mk a b rel))
      iterationLimit (-(extremePoint (LocalMinkowskiDiff2d.mk a b rel)
        (initialDirection (applyOrigin rel))))
      (extremePoint (LocalMinkowskiDiff2d.mk a b rel) (initialDirection (applyOrigin rel)))
      [extremePoint (LocalMinkowskiDiff2d.mk a b rel) (initialDirection (applyOrigin rel))]
      (by simp) (by simp)
    refine ⟨if r.1 then none else some r.2, ?_⟩
    show Except.map _ (gjkDistance _ _ _ _ _) = _
    rw [hr]; rfl

/-- The same for colliders. -/
theorem C33_collider_no_panic [Invertible T] [Composable T] (a : Collider2d A T)
    (b : Collider2d B T) :
    (∃ c, collides a b = .ok c) ∧ (∃ v, penetrates a b = .ok v) ∧ (∃ v, distanceTo a b = .ok v) :=
  C33_rel_no_panic a.shape b.shape _

/-- `sdfv`: the only reachable panic is the explicit one
(`Simplex collided after collision was no longer possible`). -/
theorem C33_sdfv_only_explicit_panic (a : A) (b : B) (rel : T) :
    (∃ r, sdfvRel a b rel = .ok r) ∨ sdfvRel a b rel = .error .collidedAfterImpossible :=
  gjkFull_ok (extremePoint (LocalMinkowskiDiff2d.mk a b rel)) iterationLimit true _ _
    [extremePoint (LocalMinkowskiDiff2d.mk a b rel) (initialDirection (applyOrigin rel))]
    (by simp) (by simp)

/-- The five pair types of the crate are covered. -/
theorem C33_pairs (rel : T) :
    (∀ (a : Ball F) (b : Box2d F), ∃ c, collidesRel a b rel = .ok c) ∧
    (∀ a b : Box2d F, ∃ c, collidesRel a b rel = .ok c) ∧
    (∀ (a : Box2d F) (b : Poly2d F), ∃ c, collidesRel a b rel = .ok c) ∧
    (∀ (a : Poly2d F) (b : Box2d F), ∃ c, collidesRel a b rel = .ok c) ∧
    (∀ a b : Poly2d F, ∃ c, collidesRel a b rel = .ok c) ∧
    (∀ a b : Shape2d F, ∃ c, collidesRel a b rel = .ok c) :=
  ⟨fun a b => (C33_rel_no_panic a b rel).1, fun a b => (C33_rel_no_panic a b rel).1,
    fun a b => (C33_rel_no_panic a b rel).1, fun a b => (C33_rel_no_panic a b rel).1,
    fun a b => (C33_rel_no_panic a b rel).1, fun a b => (C33_rel_no_panic a b rel).1⟩

/-! ## C46 -/

/-- `f`, a computation that uses a support function, looks at it in at most `n` directions: it gives
the same result for every support function that agrees on those directions. -/
def EvaluatesAtMost {R : Type} (n : Nat) (f : (V2 F → V2 F) → R) : Prop :=
  ∀ S : V2 F → V2 F, ∃ ds : List (V2 F), ds.length ≤ n ∧
    ∀ S' : V2 F → V2 F, (∀ d ∈ ds, S' d = S d) → f S' = f S

theorem epa_evals (n : Nat) (pts : List (V2 F)) : EvaluatesAtMost n (fun S => epa S n pts) := by
  intro S
  induction n generalizing pts with
  | zero => exact ⟨[], by simp, fun S' _ => rfl⟩
  | succ n ih =>
    let e := findClosestEdge pts
    let normal := (e.b - e.a).perpRight
    obtain ⟨ds, hl, hds⟩ := ih (pts.insertIdx (e.index + 1) (S normal))
    refine ⟨normal :: ds, by simpa using hl, fun S' h => ?_⟩
    have h1 : S' normal = S normal := h _ (by simp)
    have h2 := hds S' (fun d hd => h d (by simp [hd]))
    simp only [epa]
    simp only [normal, e] at h1 h2
    rw [h1, h2]

theorem gjkCollide_evals (n : Nat) (d : V2 F) (pts : List (V2 F)) :
    EvaluatesAtMost n (fun S => gjkCollide S n d pts) := by
  intro S
  induction n generalizing d pts with
  | zero => exact ⟨[], by simp, fun S' _ => rfl⟩
  | succ n ih =>
    cases hr : addPoint pts (S d) with
    | error e =>
      refine ⟨[d], by simp, fun S' h => ?_⟩
      simp only [gjkCollide, h d (by simp), hr]
    | ok r =>
      obtain ⟨ds, hl, hds⟩ := ih r.dir r.pts
      refine ⟨d :: ds, by simpa using hl, fun S' h => ?_⟩
      have h2 := hds S' (fun x hx => h x (by simp [hx]))
      simp only at h2
      simp only [gjkCollide, h d (by simp), hr, h2]

theorem gjkDistance_evals (n : Nat) (d l : V2 F) (pts : List (V2 F)) :
    EvaluatesAtMost n (fun S => gjkDistance S n d l pts) := by
  intro S
  induction n generalizing d l pts with
  | zero => exact ⟨[], by simp, fun S' _ => rfl⟩
  | succ n ih =>
    cases hr : addPoint pts (S d) with
    | error e =>
      refine ⟨[d], by simp, fun S' h => ?_⟩
      simp only [gjkDistance, h d (by simp), hr]
    | ok r =>
      obtain ⟨ds, hl, hds⟩ := ih (overrideDir d r.dir) (S d) r.pts
      refine ⟨d :: ds, by simpa using hl, fun S' h => ?_⟩
      have h2 := hds S' (fun x hx => h x (by simp [hx]))
      simp only at h2
      simp only [gjkDistance, h d (by simp), hr, h2]

theorem gjkPenetrate_evals (n : Nat) (d : V2 F) (pts : List (V2 F)) :
    EvaluatesAtMost (n + iterationLimit) (fun S => gjkPenetrate S n d pts) := by
  intro S
  induction n generalizing d pts with
  | zero => exact ⟨[], by simp, fun S' _ => rfl⟩
  | succ n ih =>
    cases hr : addPoint pts (S d) with
    | error e =>
      refine ⟨[d], by simp only [List.length_singleton]; omega, fun S' h => ?_⟩
      simp only [gjkPenetrate, h d (by simp), hr]
    | ok r =>
      by_cases hc : r.collides = true
      · cases hq : enforceCcw r.pts with
        | error e =>
          refine ⟨[d], by simp only [List.length_singleton]; omega, fun S' h => ?_⟩
          simp only [gjkPenetrate, h d (by simp), hr, hc, hq, if_true]
        | ok q =>
          obtain ⟨ds, hl, hds⟩ := epa_evals iterationLimit q S
          refine ⟨d :: ds, by simp only [List.length_cons]; omega, fun S' h => ?_⟩
          have h2 := hds S' (fun x hx => h x (by simp [hx]))
          simp only at h2
          simp only [gjkPenetrate, h d (by simp), hr, hc, hq, if_true, h2]
      · obtain ⟨ds, hl, hds⟩ := ih (overrideDir d r.dir) r.pts
        refine ⟨d :: ds, by simp only [List.length_cons]; omega, fun S' h => ?_⟩
        have h2 := hds S' (fun x hx => h x (by simp [hx]))
        simp only at h2
        simp only [gjkPenetrate, h d (by simp), hr, hc, h2, if_false, Bool.false_eq_true]

theorem gjkFull_evals (n : Nat) (c : Bool) (d l : V2 F) (pts : List (V2 F)) :
    EvaluatesAtMost (n + iterationLimit) (fun S => gjkFull S n c d l pts) := by
  intro S
  induction n generalizing c d l pts with
  | zero => exact ⟨[], by simp, fun S' _ => rfl⟩
  | succ n ih =>
    cases hr : addPoint pts (S d) with
    | error e =>
      refine ⟨[d], by simp only [List.length_singleton]; omega, fun S' h => ?_⟩
      simp only [gjkFull, h d (by simp), hr]
    | ok r =>
      by_cases hc : r.collides = true
      · cases hq : enforceCcw r.pts with
        | error e =>
          refine ⟨[d], by simp only [List.length_singleton]; omega, fun S' h => ?_⟩
          simp only [gjkFull, h d (by simp), hr, hc, hq, if_true]
        | ok q =>
          obtain ⟨ds, hl, hds⟩ := epa_evals iterationLimit q S
          refine ⟨d :: ds, by simp only [List.length_cons]; omega, fun S' h => ?_⟩
          have h2 := hds S' (fun x hx => h x (by simp [hx]))
          simp only at h2
          simp only [gjkFull, h d (by simp), hr, hc, hq, if_true, h2]
      · obtain ⟨ds, hl, hds⟩ := ih (if (S d).dot d ≤ 0 then false else c) (overrideDir d r.dir)
          (S d) r.pts
        refine ⟨d :: ds, by simp only [List.length_cons]; omega, fun S' h => ?_⟩
        have h2 := hds S' (fun x hx => h x (by simp [hx]))
        simp only at h2
        simp only [gjkFull, h d (by simp), hr, hc, h2, false_and, if_false, Bool.false_eq_true]

/-- Number of support evaluations of the four algorithms: 20 (`collides`), 40 (`penetrates`),
21 (`distance_to`), 41 (`sdfv`). -/
theorem C46_support_evaluations (d0 : V2 F) :
    EvaluatesAtMost 20 (fun S => sdfvMinkowski false false S d0) ∧
    EvaluatesAtMost 40 (fun S => sdfvMinkowski true false S d0) ∧
    EvaluatesAtMost 21 (fun S => sdfvMinkowski false true S d0) ∧
    EvaluatesAtMost 41 (fun S => sdfvMinkowski true true S d0) := by
  refine ⟨gjkCollide_evals 20 d0 [], gjkPenetrate_evals 20 d0 [], ?_, ?_⟩
  · intro S
    obtain ⟨ds, hl, hds⟩ := gjkDistance_evals 20 (-(S d0)) (S d0) [S d0] S
    refine ⟨d0 :: ds, by simp only [List.length_cons]; omega, fun S' h => ?_⟩
    have h2 := hds S' (fun x hx => h x (by simp [hx]))
    simp only at h2
    simp only [sdfvMinkowski, h d0 (by simp), addPoint, iterationLimit, h2]
  · intro S
    obtain ⟨ds, hl, hds⟩ := gjkFull_evals 20 true (-(S d0)) (S d0) [S d0] S
    refine ⟨d0 :: ds, by simp only [List.length_cons, iterationLimit] at *; omega, fun S' h => ?_⟩
    have h2 := hds S' (fun x hx => h x (by simp [hx]))
    simp only at h2
    simp only [sdfvMinkowski, h d0 (by simp), addPoint, iterationLimit, h2]

/-- In terms of the API: the answer of `sdfv_rel` on a pair of shapes is determined by their extreme
points in at most 41 directions each; likewise `collides_rel` by at most 20. -/
theorem C46_api (a : A) (b : B) (rel : T) :
    (∃ ds : List (V2 F), ds.length ≤ 20 ∧ ∀ (a' : A) (b' : B),
      (∀ d ∈ ds, extremePoint a' d = extremePoint a d ∧
        extremePoint b' (unapplyNormal rel (-d)) = extremePoint b (unapplyNormal rel (-d))) →
      collidesRel a' b' rel = collidesRel a b rel) ∧
    (∃ ds : List (V2 F), ds.length ≤ 40 ∧ ∀ (a' : A) (b' : B),
      (∀ d ∈ ds, extremePoint a' d = extremePoint a d ∧
        extremePoint b' (unapplyNormal rel (-d)) = extremePoint b (unapplyNormal rel (-d))) →
      penetratesRel a' b' rel = penetratesRel a b rel) ∧
    (∃ ds : List (V2 F), ds.length ≤ 21 ∧ ∀ (a' : A) (b' : B),
      (∀ d ∈ ds, extremePoint a' d = extremePoint a d ∧
        extremePoint b' (unapplyNormal rel (-d)) = extremePoint b (unapplyNormal rel (-d))) →
      distanceToRel a' b' rel = distanceToRel a b rel) ∧
    (∃ ds : List (V2 F), ds.length ≤ 41 ∧ ∀ (a' : A) (b' : B),
      (∀ d ∈ ds, extremePoint a' d = extremePoint a d ∧
        extremePoint b' (unapplyNormal rel (-d)) = extremePoint b (unapplyNormal rel (-d))) →
      sdfvRel a' b' rel = sdfvRel a b rel) := by
  obtain ⟨h1, h2, h3, h4⟩ := C46_support_evaluations (initialDirection (applyOrigin rel) : V2 F)
  have key : ∀ (a' : A) (b' : B) (d : V2 F), (extremePoint a' d = extremePoint a d ∧
        extremePoint b' (unapplyNormal rel (-d)) = extremePoint b (unapplyNormal rel (-d))) →
      extremePoint (LocalMinkowskiDiff2d.mk a' b' rel) d =
        extremePoint (LocalMinkowskiDiff2d.mk a b rel) d := by
    rintro a' b' d ⟨e1, e2⟩
    show extremePoint a' d - apply rel (extremePoint b' _) =
      extremePoint a d - apply rel (extremePoint b _)
    rw [e1, e2]
  refine ⟨?_, ?_, ?_, ?_⟩
  · obtain ⟨ds, hl, hds⟩ := h1 (extremePoint (LocalMinkowskiDiff2d.mk a b rel))
    refine ⟨ds, hl, fun a' b' h => ?_⟩
    exact congrArg _ (hds (extremePoint (LocalMinkowskiDiff2d.mk a' b' rel))
      (fun d hd => key a' b' d (h d hd)))
  · obtain ⟨ds, hl, hds⟩ := h2 (extremePoint (LocalMinkowskiDiff2d.mk a b rel))
    refine ⟨ds, hl, fun a' b' h => ?_⟩
    exact congrArg _ (hds (extremePoint (LocalMinkowskiDiff2d.mk a' b' rel))
      (fun d hd => key a' b' d (h d hd)))
  · obtain ⟨ds, hl, hds⟩ := h3 (extremePoint (LocalMinkowskiDiff2d.mk a b rel))
    refine ⟨ds, hl, fun a' b' h => ?_⟩
    exact congrArg _ (hds (extremePoint (LocalMinkowskiDiff2d.mk a' b' rel))
      (fun d hd => key a' b' d (h d hd)))
  · obtain ⟨ds, hl, hds⟩ := h4 (extremePoint (LocalMinkowskiDiff2d.mk a b rel))
    refine ⟨ds, hl, fun a' b' h => ?_⟩
    exact hds (extremePoint (LocalMinkowskiDiff2d.mk a' b' rel))
      (fun d hd => key a' b' d (h d hd))

end

/-! ## C47 -/

section
variable {F : Type} [Zero F] [One F] [Add F] [Sub F] [Mul F] [Div F] [Neg F]
  [LT F] [LE F] [DecidableLT F] [DecidableLE F] [FloatExtra F] {T : Type} [Transformation2d T F]

/-- `Shape2d` has the extreme points of the shape it wraps. -/
theorem C47_extreme_point (d : V2 F) :
    (∀ s : Ball F, extremePoint (Shape2d.ball s) d = extremePoint s d) ∧
    (∀ s : Box2d F, extremePoint (Shape2d.box s) d = extremePoint s d) ∧
    (∀ s : Poly2d F, extremePoint (Shape2d.poly s) d = extremePoint s d) :=
  ⟨fun _ => rfl, fun _ => rfl, fun _ => rfl⟩

/-- `w` is `Shape2d`'s wrapping of `s` -/
inductive Wraps : {S : Type} → [ExtremePoint2d S F] → Shape2d F → S → Prop
  | ball (s : Ball F) : Wraps (Shape2d.ball s) s
  | box (s : Box2d F) : Wraps (Shape2d.box s) s
  | poly (s : Poly2d F) : Wraps (Shape2d.poly s) s

/-- Shape2d v Shape2d answers exactly as the Minkowski-based query on the wrapped shapes. -/
theorem C47_queries {A B : Type} [ExtremePoint2d A F] [ExtremePoint2d B F] (wa wb : Shape2d F)
    (a : A) (b : B) (ha : Wraps wa a) (hb : Wraps wb b) (rel : T) [DefaultMinkowski A B] :
    collidesRel wa wb rel = collidesRel a b rel ∧ penetratesRel wa wb rel = penetratesRel a b rel ∧
    distanceToRel wa wb rel = distanceToRel a b rel ∧ sdfvRel wa wb rel = sdfvRel a b rel := by
  cases ha <;> cases hb <;> exact ⟨rfl, rfl, rfl, rfl⟩

/-- e.g. the same answers for wrapped boxes as for bare boxes, and for wrapped polygons -/
example (a b : Box2d F) (rel : T) :
    collidesRel (Shape2d.box a) (Shape2d.box b) rel = collidesRel a b rel :=
  (C47_queries _ _ a b (.box a) (.box b) rel).1

end

end Auburn
