import Verif.Ieee.Eval
import Verif.Model.Detect2d

/-!
# GJK and EPA preserve `Rel`

Every function of the Minkowski code maps related arguments to related results (the code is polymorphic in
the scalar; this is its parametricity, proved function by function).
-/

set_option linter.unusedSectionVars false
set_option synthInstance.maxSize 1000

namespace Auburn

open ExtremePoint2d Transformation2d

/-- vectors with the same value -/
structure Rel2 (a : V2 QF) (a' : V2 F32) : Prop where
  x : Rel a.x a'.x
  y : Rel a.y a'.y

/-- lists of vectors with the same values -/
abbrev RelL (l : List (V2 QF)) (l' : List (V2 F32)) : Prop := List.Forall₂ Rel2 l l'

/-- the same outcome: the same panic, or related results -/
inductive RelE {α β : Type} (R : α → β → Prop) : Except Panic α → Except Panic β → Prop
  | error (e : Panic) : RelE R (.error e) (.error e)
  | ok {a : α} {b : β} (h : R a b) : RelE R (.ok a) (.ok b)

/-- flag and vector -/
def RelA (a : Bool × V2 QF) (b : Bool × V2 F32) : Prop := a.1 = b.1 ∧ Rel2 a.2 b.2

section
variable [env : F32Env] {a b : V2 QF} {a' b' : V2 F32} {s t : QF} {s' t' : F32}

namespace Rel2

theorem neg (h : Rel2 a a') : Rel2 (-a) (-a') := ⟨h.x.neg, h.y.neg⟩
theorem add (h : Rel2 a a') (g : Rel2 b b') : Rel2 (a + b) (a' + b') := ⟨h.x.add g.x, h.y.add g.y⟩
theorem sub (h : Rel2 a a') (g : Rel2 b b') : Rel2 (a - b) (a' - b') := ⟨h.x.sub g.x, h.y.sub g.y⟩
theorem scale (h : Rel s s') (g : Rel2 a a') : Rel2 (V2.scale s a) (V2.scale s' a') := ⟨h.mul g.x, h.mul g.y⟩
theorem dot (h : Rel2 a a') (g : Rel2 b b') : Rel (a.dot b) (a'.dot b') := (h.x.mul g.x).add (h.y.mul g.y)
theorem lengthSq (h : Rel2 a a') : Rel a.lengthSq a'.lengthSq := h.dot h
theorem perp (h : Rel2 a a') : Rel2 a.perp a'.perp := ⟨h.y.neg, h.x⟩
theorem perpRight (h : Rel2 a a') : Rel2 a.perpRight a'.perpRight := ⟨h.y, h.x.neg⟩
theorem cross (h : Rel2 a a') (g : Rel2 b b') : Rel (a.cross b) (a'.cross b') := (h.x.mul g.y).sub (h.y.mul g.x)
theorem crossAba (h : Rel2 a a') (g : Rel2 b b') : Rel2 (a.crossAba b) (a'.crossAba b') :=
  ⟨h.y.neg.mul (h.cross g), h.x.mul (h.cross g)⟩
theorem crossSV (h : Rel s s') (g : Rel2 a a') : Rel2 (crossSV s a) (crossSV s' a') := ⟨h.neg.mul g.y, h.mul g.x⟩
theorem crossF32 (g : Rel2 a a') (h : Rel s s') : Rel2 (a.crossF32 s) (a'.crossF32 s') := ⟨g.y.mul h, g.x.neg.mul h⟩
theorem nan : Rel2 V2.nan V2.nan := ⟨.nan, .nan⟩
theorem zero : Rel2 0 0 := ⟨.zero, .zero⟩

end Rel2

theorem Rel2.sameDirection (h : Rel2 a a') (g : Rel2 b b') : Auburn.sameDirection a b ↔ Auburn.sameDirection a' b' :=
  Rel.zero.le (h.dot g)

theorem Rel2.tooSmall (h : Rel2 a a') : directionTooSmall a ↔ directionTooSmall a' :=
  h.lengthSq.lt (Rel.eps.mul Rel.eps)

theorem Rel.better {r : QF} {r' : F32} (h : Rel s s') (g : Rel t t') (k : Rel r r') :
    sufficientlyBetter s t r ↔ sufficientlyBetter s' t' r' := by
  unfold sufficientlyBetter
  by_cases c : t > 0
  · rw [if_pos c, if_pos ((Rel.zero.lt g).1 c)]; exact (g.mul (Rel.one.add k)).lt h
  · rw [if_neg c, if_neg (fun c' => c ((Rel.zero.lt g).2 c'))]; exact (g.mul (Rel.one.sub k)).lt h

/-- results of `add_point` -/
structure RelR (r : AddResult QF) (r' : AddResult F32) : Prop where
  collides : r.collides = r'.collides
  dir : Rel2 r.dir r'.dir
  pts : RelL r.pts r'.pts

theorem rel_addPoint {l : List (V2 QF)} {l' : List (V2 F32)} {p : V2 QF} {p' : V2 F32} (hl : RelL l l')
    (hp : Rel2 p p') : RelE RelR (addPoint l p) (addPoint l' p') := by
  cases hl with
  | nil => exact .ok ⟨rfl, hp.neg, .cons hp .nil⟩
  | @cons b b' l l' hb hl => cases hl with
    | nil =>
      have hab := hb.sub hp
      show RelE RelR (if (b - p).dot (-p) ≥ 0 then .ok ⟨false, (b - p).crossAba (-p), [p, b]⟩ else .ok ⟨false, -p, [p, b]⟩)
        (if (b' - p').dot (-p') ≥ 0 then .ok ⟨false, (b' - p').crossAba (-p'), [p', b']⟩ else .ok ⟨false, -p', [p', b']⟩)
      have hc := Rel.zero.le (hab.dot hp.neg)
      by_cases c : (b - p).dot (-p) ≥ 0
      · rw [if_pos c, if_pos (hc.1 c)]
        exact .ok ⟨rfl, hab.crossAba hp.neg, .cons hp (.cons hb .nil)⟩
      · rw [if_neg c, if_neg (fun c' => c (hc.2 c'))]
        exact .ok ⟨rfl, hp.neg, .cons hp (.cons hb .nil)⟩
    | @cons c c' l l' hc hl => cases hl with
      | nil =>
        have hab := hb.sub hp
        have hac := hc.sub hp
        have ho := hp.neg
        have habc := hab.cross hac
        have hacp := Rel2.crossSV habc hac
        have habp := hab.crossF32 habc
        unfold addPoint
        simp only [Rel2.sameDirection habp ho, Rel2.sameDirection hab ho, Rel2.sameDirection hacp ho]
        split
        · split
          · exact .ok ⟨rfl, habp, .cons hp (.cons hb .nil)⟩
          · exact .ok ⟨rfl, hacp, .cons hp (.cons hc .nil)⟩
        · split
          · exact .ok ⟨rfl, hacp, .cons hp (.cons hc .nil)⟩
          · exact .ok ⟨rfl, Rel2.nan, .cons hp (.cons hb (.cons hc .nil))⟩
      | cons _ _ => exact .error _

theorem rel_distanceToOrigin {l : List (V2 QF)} {l' : List (V2 F32)} (hl : RelL l l') :
    RelE Rel2 (distanceToOrigin l) (distanceToOrigin l') := by
  cases hl with
  | nil => exact .error _
  | cons ha hl => cases hl with
    | nil => exact .ok ha.neg
    | cons hb hl => cases hl with
      | nil =>
        have hab := hb.sub ha
        have ht := (ha.neg.dot hab).div (hab.dot hab)
        unfold distanceToOrigin
        simp only [ht.le Rel.zero, GE.ge, Rel.one.le ht]
        split
        · exact .ok ha.neg
        · split
          · exact .ok hb.neg
          · exact .ok (ha.neg.sub (Rel2.scale ht hab))
      | cons _ _ => exact .error _

theorem rel_enforceCcw {l : List (V2 QF)} {l' : List (V2 F32)} (hl : RelL l l') :
    RelE RelL (enforceCcw l) (enforceCcw l') := by
  cases hl with
  | nil => exact .error _
  | cons ha hl => cases hl with
    | nil => exact .error _
    | cons hb hl => cases hl with
      | nil => exact .error _
      | cons hc hl => cases hl with
        | nil =>
          unfold enforceCcw
          simp only [GT.gt, Rel.zero.lt ((hb.sub ha).cross (hc.sub ha))]
          split
          · exact .ok (.cons ha (.cons hb (.cons hc .nil)))
          · exact .ok (.cons ha (.cons hc (.cons hb .nil)))
        | cons _ _ => exact .error _

theorem rel_edgeDistSq (h : Rel2 a a') (g : Rel2 b b') : Rel (edgeDistSq a b) (edgeDistSq a' b') := by
  have hab := g.sub h
  have ht := (h.neg.dot hab).div (hab.dot hab)
  have clamp0 : ∀ {t : QF} {t' : F32}, Rel t t' → Rel (if t < 0 then 0 else t) (if t' < 0 then 0 else t') := by
    intro t t' ht
    simp only [ht.lt Rel.zero]
    split
    · exact .zero
    · exact ht
  have clamp1 : ∀ {t : QF} {t' : F32}, Rel t t' → Rel (if t > 1 then 1 else t) (if t' > 1 then 1 else t') := by
    intro t t' ht
    simp only [GT.gt, Rel.one.lt ht]
    split
    · exact .one
    · exact ht
  exact (h.add (Rel2.scale (clamp1 (clamp0 ht)) hab)).lengthSq

/-- loop states of `find_closest_edge` -/
structure RelC (r : ClosestEdge QF) (r' : ClosestEdge F32) : Prop where
  index : r.index = r'.index
  a : Rel2 r.a r'.a
  b : Rel2 r.b r'.b
  dist : Option.Rel Rel r.dist r'.dist

/-- edges -/
def RelP (e : V2 QF × V2 QF) (e' : V2 F32 × V2 F32) : Prop := Rel2 e.1 e'.1 ∧ Rel2 e.2 e'.2

theorem rel_closestStep {r : ClosestEdge QF} {r' : ClosestEdge F32} (h : RelC r r') (i : Nat)
    {e : V2 QF × V2 QF} {e' : V2 F32 × V2 F32} (he : RelP e e') : RelC (closestStep r i e) (closestStep r' i e') := by
  have hd := rel_edgeDistSq he.1 he.2
  obtain ⟨ri, ra, rb, rd⟩ := r
  obtain ⟨ri', ra', rb', rd'⟩ := r'
  obtain ⟨h1, h2, h3, h4⟩ := h
  simp only at h1 h2 h3 h4
  unfold closestStep
  cases h4 with
  | none =>
    simp only [hd.ltInf]
    split
    · exact ⟨rfl, he.1, he.2, .some hd⟩
    · exact ⟨h1, h2, h3, .none⟩
  | some hc =>
    simp only [decide_eq_true_eq, hd.lt hc]
    split
    · exact ⟨rfl, he.1, he.2, .some hd⟩
    · exact ⟨h1, h2, h3, .some hc⟩

theorem rel_closestLoop {l : List (V2 QF × V2 QF)} {l' : List (V2 F32 × V2 F32)} (hl : List.Forall₂ RelP l l') :
    ∀ (i : Nat) {r : ClosestEdge QF} {r' : ClosestEdge F32}, RelC r r' → RelC (closestLoop l i r) (closestLoop l' i r') := by
  induction hl with
  | nil => intro i r r' h; exact h
  | cons he _ ih => intro i r r' h; exact ih (i + 1) (rel_closestStep h i he)

theorem forall2_zip : ∀ {l m : List (V2 QF)} {l' m' : List (V2 F32)}, RelL l l' → RelL m m' →
    List.Forall₂ RelP (l.zip m) (l'.zip m') := by
  intro l m l' m' h
  induction h generalizing m m' with
  | nil => intro _; exact .nil
  | cons ha _ ih =>
    intro g
    cases g with
    | nil => exact .nil
    | cons hb g => exact .cons ⟨ha, hb⟩ (ih g)

theorem rel_closedEdges {l : List (V2 QF)} {l' : List (V2 F32)} (hl : RelL l l') :
    List.Forall₂ RelP (closedEdges l) (closedEdges l') := by
  refine forall2_zip hl ?_
  cases hl with
  | nil => exact .nil
  | cons ha hl => exact List.rel_append hl (.cons ha .nil)

theorem rel_findClosestEdge {l : List (V2 QF)} {l' : List (V2 F32)} (hl : RelL l l') :
    RelC (findClosestEdge l) (findClosestEdge l') :=
  rel_closestLoop (rel_closedEdges hl) 0 ⟨rfl, Rel2.nan, Rel2.nan, .none⟩

theorem rel_insertIdx {l : List (V2 QF)} {l' : List (V2 F32)} (hl : RelL l l') {p : V2 QF} {p' : V2 F32} (hp : Rel2 p p') :
    ∀ i, RelL (l.insertIdx i p) (l'.insertIdx i p') := by
  induction hl with
  | nil => intro i; cases i with
    | zero => exact .cons hp .nil
    | succ i => exact .nil
  | cons ha hl ih => intro i; cases i with
    | zero => exact .cons hp (.cons ha hl)
    | succ i => exact .cons ha (ih i)

variable {S : V2 QF → V2 QF} {S' : V2 F32 → V2 F32}

theorem rel_epa (hS : ∀ d d', Rel2 d d' → Rel2 (S d) (S' d')) : ∀ (n : Nat) {l : List (V2 QF)} {l' : List (V2 F32)},
    RelL l l' → RelE Rel2 (epa S n l) (epa S' n l') := by
  intro n
  induction n with
  | zero => intro l l' _; exact .ok Rel2.zero
  | succ n ih =>
    intro l l' hl
    have he := rel_findClosestEdge hl
    have hn := (he.b.sub he.a).perpRight
    have hp := hS _ _ hn
    have hb := Rel.better (hp.dot hn) (he.a.dot hn) Rel.tol
    have hlen := List.Forall₂.length_eq hl
    unfold epa
    simp only [hb, he.index, hlen]
    split
    · exact .ok (Rel2.scale ((hp.dot hn).neg.div (hn.dot hn)) hn)
    · split
      · exact ih (rel_insertIdx hl hp _)
      · exact .error _

theorem rel_overrideDir (h : Rel2 a a') (g : Rel2 b b') : Rel2 (overrideDir a b) (overrideDir a' b') := by
  unfold overrideDir
  simp only [g.tooSmall]
  split
  · exact h.perp
  · exact g

theorem rel_gjkCollide (hS : ∀ d d', Rel2 d d' → Rel2 (S d) (S' d')) : ∀ (n : Nat) {d : V2 QF} {d' : V2 F32}
    {l : List (V2 QF)} {l' : List (V2 F32)}, Rel2 d d' → RelL l l' → RelE RelA (gjkCollide S n d l) (gjkCollide S' n d' l') := by
  intro n
  induction n with
  | zero => intro d d' l l' _ _; exact .ok ⟨rfl, Rel2.nan⟩
  | succ n ih =>
    intro d d' l l' hd hl
    have ha := hS _ _ hd
    unfold gjkCollide
    simp only [(ha.dot hd).le Rel.zero]
    split
    · exact .ok ⟨rfl, Rel2.nan⟩
    · have h := rel_addPoint hl ha
      cases h1 : addPoint l (S d) <;> cases h2 : addPoint l' (S' d') <;> rw [h1, h2] at h <;> cases h
      · exact .error _
      · rename_i r r' hr
        simp only [hr.collides, hr.dir.tooSmall]
        split
        · exact .ok ⟨rfl, Rel2.nan⟩
        · exact ih hr.dir hr.pts

/-- both runs end with `distance_to_origin` -/
macro "rel_final" h:term : tactic => `(tactic| (
  have h := rel_distanceToOrigin $h
  revert h
  generalize distanceToOrigin (F := QF) _ = x
  generalize distanceToOrigin (F := F32) _ = x'
  intro h
  cases h with
  | error => exact .error _
  | ok h => exact .ok ⟨rfl, h⟩))

/-- both runs continue with EPA -/
macro "rel_push" hS:term:max h:term:max : tactic => `(tactic| (
  have h := rel_enforceCcw $h
  revert h
  generalize enforceCcw (F := QF) _ = x
  generalize enforceCcw (F := F32) _ = x'
  intro h
  cases h with
  | error => exact .error _
  | ok h =>
    have g := rel_epa $hS iterationLimit h
    revert g
    dsimp only
    generalize epa (F := QF) _ _ _ = y
    generalize epa (F := F32) _ _ _ = y'
    intro g
    cases g with
    | error => exact .error _
    | ok g => exact .ok ⟨rfl, g⟩))

theorem rel_gjkDistance (hS : ∀ d d', Rel2 d d' → Rel2 (S d) (S' d')) : ∀ (n : Nat) {d c : V2 QF} {d' c' : V2 F32}
    {l : List (V2 QF)} {l' : List (V2 F32)}, Rel2 d d' → Rel2 c c' → RelL l l' →
    RelE RelA (gjkDistance S n d c l) (gjkDistance S' n d' c' l') := by
  intro n
  induction n with
  | zero => intro d c d' c' l l' _ _ hl; unfold gjkDistance; rel_final hl
  | succ n ih =>
    intro d c d' c' l l' hd hc hl
    have ha := hS _ _ hd
    unfold gjkDistance
    simp only [(ha.dot hd).le Rel.zero, (ha.dot hd).le (hc.dot hd)]
    split
    · rel_final hl
    · have h := rel_addPoint hl ha
      cases h1 : addPoint l (S d) <;> cases h2 : addPoint l' (S' d') <;> rw [h1, h2] at h <;> cases h
      · exact .error _
      · rename_i r r' hr
        simp only [hr.collides, List.Forall₂.length_eq hr.pts]
        split
        · split
          · exact .ok ⟨rfl, Rel2.nan⟩
          · exact .error _
        · exact ih (rel_overrideDir hd hr.dir) ha hr.pts

theorem rel_gjkPenetrate (hS : ∀ d d', Rel2 d d' → Rel2 (S d) (S' d')) : ∀ (n : Nat) {d : V2 QF} {d' : V2 F32}
    {l : List (V2 QF)} {l' : List (V2 F32)}, Rel2 d d' → RelL l l' →
    RelE RelA (gjkPenetrate S n d l) (gjkPenetrate S' n d' l') := by
  intro n
  induction n with
  | zero => intro d d' l l' _ _; exact .ok ⟨rfl, Rel2.nan⟩
  | succ n ih =>
    intro d d' l l' hd hl
    have ha := hS _ _ hd
    unfold gjkPenetrate
    simp only [(ha.dot hd).le Rel.zero]
    split
    · exact .ok ⟨rfl, Rel2.nan⟩
    · have h := rel_addPoint hl ha
      cases h1 : addPoint l (S d) <;> cases h2 : addPoint l' (S' d') <;> rw [h1, h2] at h <;> cases h
      · exact .error _
      · rename_i r r' hr
        simp only [hr.collides]
        split
        · rel_push hS hr.pts
        · exact ih (rel_overrideDir hd hr.dir) hr.pts

theorem rel_gjkFull (hS : ∀ d d', Rel2 d d' → Rel2 (S d) (S' d')) : ∀ (n : Nat) (possible : Bool) {d c : V2 QF}
    {d' c' : V2 F32} {l : List (V2 QF)} {l' : List (V2 F32)}, Rel2 d d' → Rel2 c c' → RelL l l' →
    RelE RelA (gjkFull S n possible d c l) (gjkFull S' n possible d' c' l') := by
  intro n
  induction n with
  | zero => intro _ d c d' c' l l' _ _ hl; unfold gjkFull; rel_final hl
  | succ n ih =>
    intro possible d c d' c' l l' hd hc hl
    have ha := hS _ _ hd
    unfold gjkFull
    simp only [(ha.dot hd).le Rel.zero, Rel.better (ha.dot hd) (hc.dot hd) Rel.tol]
    split
    · rel_final hl
    · have h := rel_addPoint hl ha
      cases h1 : addPoint l (S d) <;> cases h2 : addPoint l' (S' d') <;> rw [h1, h2] at h <;> cases h
      · exact .error _
      · rename_i r r' hr
        simp only [hr.collides]
        generalize (if (S' d').dot d' ≤ 0 then false else possible) = possible'
        split
        · exact .error _
        · split
          · rel_push hS hr.pts
          · exact ih _ (rel_overrideDir hd hr.dir) ha hr.pts

theorem rel_sdfvMinkowski (hS : ∀ d d', Rel2 d d' → Rel2 (S d) (S' d')) (p q : Bool) {d : V2 QF} {d' : V2 F32}
    (hd : Rel2 d d') : RelE RelA (sdfvMinkowski p q S d) (sdfvMinkowski p q S' d') := by
  have h := rel_addPoint (.nil) (hS _ _ hd)
  cases p <;> cases q
  · exact rel_gjkCollide hS _ hd .nil
  · unfold sdfvMinkowski
    dsimp only
    cases h1 : addPoint [] (S d) <;> cases h2 : addPoint [] (S' d') <;> rw [h1, h2] at h <;> cases h
    · exact .error _
    · rename_i r r' hr
      exact rel_gjkDistance hS _ hr.dir (hS _ _ hd) hr.pts
  · exact rel_gjkPenetrate hS _ hd .nil
  · unfold sdfvMinkowski
    dsimp only
    cases h1 : addPoint [] (S d) <;> cases h2 : addPoint [] (S' d') <;> rw [h1, h2] at h <;> cases h
    · exact .error _
    · rename_i r r' hr
      exact rel_gjkFull hS _ _ hr.dir (hS _ _ hd) hr.pts

theorem rel_initialDirection (h : Rel2 a a') : Rel2 (initialDirection a) (initialDirection a') := by
  unfold initialDirection
  simp only [h.lengthSq.lt Rel.eps]
  split
  · exact ⟨.one, .zero⟩
  · exact h

/-! ## shapes -/

/-- shapes with the same support function -/
def RelS {A A' : Type} [ExtremePoint2d A QF] [ExtremePoint2d A' F32] (x : A) (x' : A') : Prop :=
  ∀ d d', Rel2 d d' → Rel2 (extremePoint x d) (extremePoint x' d')

theorem rel_box {h : V2 QF} {h' : V2 F32} (r : Rel2 h h') : RelS (Box2d.mk h) (Box2d.mk h') :=
  fun _ _ hd => ⟨hd.x.signum.mul r.x, hd.y.signum.mul r.y⟩

theorem rel_poly {l : List (V2 QF)} {l' : List (V2 F32)} (r : RelL l l') : RelS (Poly2d.mk l) (Poly2d.mk l') := by
  intro d d' hd
  have key : ∀ {l : List (V2 QF)} {l' : List (V2 F32)}, RelL l l' → ∀ {acc : QF × V2 QF} {acc' : F32 × V2 F32},
      Rel acc.1 acc'.1 → Rel2 acc.2 acc'.2 →
      Rel2 (l.foldl (Poly2d.extremeStep d) acc).2 (l'.foldl (Poly2d.extremeStep d') acc').2 := by
    intro l l' h
    induction h with
    | nil => intro acc acc' _ h2; exact h2
    | cons hp _ ih =>
      intro acc acc' h1 h2
      rw [List.foldl_cons, List.foldl_cons]
      have hs := hd.dot hp
      apply ih
      · unfold Poly2d.extremeStep
        simp only [GT.gt, h1.lt hs]
        split
        · exact hs
        · exact h1
      · unfold Poly2d.extremeStep
        simp only [GT.gt, h1.lt hs]
        split
        · exact hp
        · exact h2
  exact key r Rel.f32Min Rel2.zero

theorem rel_minkowski {A A' B B' : Type} [ExtremePoint2d A QF] [ExtremePoint2d A' F32] [ExtremePoint2d B QF]
    [ExtremePoint2d B' F32] {x : A} {x' : A'} {y : B} {y' : B'} (hx : RelS x x') (hy : RelS y y')
    {t : V2 QF} {t' : V2 F32} (ht : Rel2 t t') (p q : Bool) :
    RelE RelA (LocalMinkowskiDiff2d.sdfvMinkowski p q ⟨x, y, t⟩) (LocalMinkowskiDiff2d.sdfvMinkowski p q ⟨x', y', t'⟩) := by
  refine rel_sdfvMinkowski (fun d d' hd => ?_) p q (rel_initialDirection ht)
  exact (hx _ _ hd).sub ((hy _ _ hd.neg).add ht)

end

end Auburn
