import Verif.Ieee.SignedZero
import Verif.Model.Detect2d

/-!
# GJK and EPA do not see the sign of a zero

Every function of the Minkowski code maps arguments related by `Zr` to related results (divisions are only by
squared lengths, which do not depend on the sign of a zero).
-/

set_option linter.unusedSectionVars false
set_option synthInstance.maxSize 1000

namespace Auburn

open ExtremePoint2d Transformation2d

/-- vectors that differ in the sign of zeros only -/
structure Zr2 (a : V2 F32) (a' : V2 F32) : Prop where
  x : Zr a.x a'.x
  y : Zr a.y a'.y

/-- lists of vectors that differ in the sign of zeros only -/
abbrev ZrL (l : List (V2 F32)) (l' : List (V2 F32)) : Prop := List.Forall₂ Zr2 l l'

/-- the same outcome: the same panic, or related results -/
inductive ZrE {α β : Type} (R : α → β → Prop) : Except Panic α → Except Panic β → Prop
  | error (e : Panic) : ZrE R (.error e) (.error e)
  | ok {a : α} {b : β} (h : R a b) : ZrE R (.ok a) (.ok b)

/-- flag and vector -/
def ZrA (a : Bool × V2 F32) (b : Bool × V2 F32) : Prop := a.1 = b.1 ∧ Zr2 a.2 b.2

section
variable [env : F32Env] {a b : V2 F32} {a' b' : V2 F32} {s t : F32} {s' t' : F32}

namespace Zr2

theorem neg (h : Zr2 a a') : Zr2 (-a) (-a') := ⟨h.x.neg, h.y.neg⟩
theorem add (h : Zr2 a a') (g : Zr2 b b') : Zr2 (a + b) (a' + b') := ⟨h.x.add g.x, h.y.add g.y⟩
theorem sub (h : Zr2 a a') (g : Zr2 b b') : Zr2 (a - b) (a' - b') := ⟨h.x.sub g.x, h.y.sub g.y⟩
theorem scale (h : Zr s s') (g : Zr2 a a') : Zr2 (V2.scale s a) (V2.scale s' a') := ⟨h.mul g.x, h.mul g.y⟩
theorem dot (h : Zr2 a a') (g : Zr2 b b') : Zr (a.dot b) (a'.dot b') := (h.x.mul g.x).add (h.y.mul g.y)
theorem lengthSq (h : Zr2 a a') : Zr a.lengthSq a'.lengthSq := h.dot h
theorem perp (h : Zr2 a a') : Zr2 a.perp a'.perp := ⟨h.y.neg, h.x⟩
theorem perpRight (h : Zr2 a a') : Zr2 a.perpRight a'.perpRight := ⟨h.y, h.x.neg⟩
theorem cross (h : Zr2 a a') (g : Zr2 b b') : Zr (a.cross b) (a'.cross b') := (h.x.mul g.y).sub (h.y.mul g.x)
theorem crossAba (h : Zr2 a a') (g : Zr2 b b') : Zr2 (a.crossAba b) (a'.crossAba b') :=
  ⟨h.y.neg.mul (h.cross g), h.x.mul (h.cross g)⟩
theorem crossSV (h : Zr s s') (g : Zr2 a a') : Zr2 (crossSV s a) (crossSV s' a') := ⟨h.neg.mul g.y, h.mul g.x⟩
theorem crossF32 (g : Zr2 a a') (h : Zr s s') : Zr2 (a.crossF32 s) (a'.crossF32 s') := ⟨g.y.mul h, g.x.neg.mul h⟩
theorem nan : Zr2 V2.nan V2.nan := ⟨.nan, .nan⟩
theorem zero : Zr2 0 0 := ⟨.zero, .zero⟩

end Zr2

/-- the squared length does not depend on the sign of zeros -/
theorem Zr2.dotSelf (h : Zr2 a a') : a.dot a = a'.dot a' := by
  show a.x * a.x + a.y * a.y = a'.x * a'.x + a'.y * a'.y
  rw [h.x.sq, h.y.sq]

theorem Zr.divSq (h : Zr s s') (g : Zr2 a a') : Zr (s / a.dot a) (s' / a'.dot a') := by
  rw [← g.dotSelf]; exact h.divR _

theorem Zr2.sameDirection (h : Zr2 a a') (g : Zr2 b b') : Auburn.sameDirection a b ↔ Auburn.sameDirection a' b' :=
  Zr.zero.le (h.dot g)

theorem Zr2.tooSmall (h : Zr2 a a') : directionTooSmall a ↔ directionTooSmall a' :=
  h.lengthSq.lt (Zr.eps.mul Zr.eps)

theorem Zr.better {r : F32} {r' : F32} (h : Zr s s') (g : Zr t t') (k : Zr r r') :
    sufficientlyBetter s t r ↔ sufficientlyBetter s' t' r' := by
  unfold sufficientlyBetter
  by_cases c : t > 0
  · rw [if_pos c, if_pos ((Zr.zero.lt g).1 c)]; exact (g.mul (Zr.one.add k)).lt h
  · rw [if_neg c, if_neg (fun c' => c ((Zr.zero.lt g).2 c'))]; exact (g.mul (Zr.one.sub k)).lt h

/-- results of `add_point` -/
structure ZrR (r : AddResult F32) (r' : AddResult F32) : Prop where
  collides : r.collides = r'.collides
  dir : Zr2 r.dir r'.dir
  pts : ZrL r.pts r'.pts

theorem zr_addPoint {l : List (V2 F32)} {l' : List (V2 F32)} {p : V2 F32} {p' : V2 F32} (hl : ZrL l l')
    (hp : Zr2 p p') : ZrE ZrR (addPoint l p) (addPoint l' p') := by
  cases hl with
  | nil => exact .ok ⟨rfl, hp.neg, .cons hp .nil⟩
  | @cons b b' l l' hb hl => cases hl with
    | nil =>
      have hab := hb.sub hp
      show ZrE ZrR (if (b - p).dot (-p) ≥ 0 then .ok ⟨false, (b - p).crossAba (-p), [p, b]⟩ else .ok ⟨false, -p, [p, b]⟩)
        (if (b' - p').dot (-p') ≥ 0 then .ok ⟨false, (b' - p').crossAba (-p'), [p', b']⟩ else .ok ⟨false, -p', [p', b']⟩)
      have hc := Zr.zero.le (hab.dot hp.neg)
      by_cases c : (b - p).dot (-p) ≥ 0
      · rw [if_pos c, if_pos (hc.1 c)]
        exact .ok ⟨rfl, hab.crossAba hp.neg, .cons hp (.cons hb .nil)⟩
      · rw [if_neg c, if_neg (fun c' => c (hc.2 c'))]
        exact .ok ⟨rfl, hp.neg, .cons hp (.cons hb .nil)⟩
    | @cons c c' l l' hc hl => cases hl with
      | nil =>
        have hab := hb.sub hp
        have hac := hc.sub hp
        have ho := hp.neg
        have habc := hab.cross hac
        have hacp := Zr2.crossSV habc hac
        have habp := hab.crossF32 habc
        unfold addPoint
        simp only [Zr2.sameDirection habp ho, Zr2.sameDirection hab ho, Zr2.sameDirection hacp ho]
        split
        · split
          · exact .ok ⟨rfl, habp, .cons hp (.cons hb .nil)⟩
          · exact .ok ⟨rfl, hacp, .cons hp (.cons hc .nil)⟩
        · split
          · exact .ok ⟨rfl, hacp, .cons hp (.cons hc .nil)⟩
          · exact .ok ⟨rfl, Zr2.nan, .cons hp (.cons hb (.cons hc .nil))⟩
      | cons _ _ => exact .error _

theorem zr_distanceToOrigin {l : List (V2 F32)} {l' : List (V2 F32)} (hl : ZrL l l') :
    ZrE Zr2 (distanceToOrigin l) (distanceToOrigin l') := by
  cases hl with
  | nil => exact .error _
  | cons ha hl => cases hl with
    | nil => exact .ok ha.neg
    | cons hb hl => cases hl with
      | nil =>
        have hab := hb.sub ha
        have ht := (ha.neg.dot hab).divSq hab
        unfold distanceToOrigin
        simp only [ht.le Zr.zero, GE.ge, Zr.one.le ht]
        split
        · exact .ok ha.neg
        · split
          · exact .ok hb.neg
          · exact .ok (ha.neg.sub (Zr2.scale ht hab))
      | cons _ _ => exact .error _

theorem zr_enforceCcw {l : List (V2 F32)} {l' : List (V2 F32)} (hl : ZrL l l') :
    ZrE ZrL (enforceCcw l) (enforceCcw l') := by
  cases hl with
  | nil => exact .error _
  | cons ha hl => cases hl with
    | nil => exact .error _
    | cons hb hl => cases hl with
      | nil => exact .error _
      | cons hc hl => cases hl with
        | nil =>
          unfold enforceCcw
          simp only [GT.gt, Zr.zero.lt ((hb.sub ha).cross (hc.sub ha))]
          split
          · exact .ok (.cons ha (.cons hb (.cons hc .nil)))
          · exact .ok (.cons ha (.cons hc (.cons hb .nil)))
        | cons _ _ => exact .error _

theorem zr_edgeDistSq (h : Zr2 a a') (g : Zr2 b b') : Zr (edgeDistSq a b) (edgeDistSq a' b') := by
  have hab := g.sub h
  have ht := (h.neg.dot hab).divSq hab
  have clamp0 : ∀ {t : F32} {t' : F32}, Zr t t' → Zr (if t < 0 then 0 else t) (if t' < 0 then 0 else t') := by
    intro t t' ht
    simp only [ht.lt Zr.zero]
    split
    · exact .zero
    · exact ht
  have clamp1 : ∀ {t : F32} {t' : F32}, Zr t t' → Zr (if t > 1 then 1 else t) (if t' > 1 then 1 else t') := by
    intro t t' ht
    simp only [GT.gt, Zr.one.lt ht]
    split
    · exact .one
    · exact ht
  exact (h.add (Zr2.scale (clamp1 (clamp0 ht)) hab)).lengthSq

/-- loop states of `find_closest_edge` -/
structure ZrC (r : ClosestEdge F32) (r' : ClosestEdge F32) : Prop where
  index : r.index = r'.index
  a : Zr2 r.a r'.a
  b : Zr2 r.b r'.b
  dist : Option.Rel Zr r.dist r'.dist

/-- edges -/
def ZrP (e : V2 F32 × V2 F32) (e' : V2 F32 × V2 F32) : Prop := Zr2 e.1 e'.1 ∧ Zr2 e.2 e'.2

theorem zr_closestStep {r : ClosestEdge F32} {r' : ClosestEdge F32} (h : ZrC r r') (i : Nat)
    {e : V2 F32 × V2 F32} {e' : V2 F32 × V2 F32} (he : ZrP e e') : ZrC (closestStep r i e) (closestStep r' i e') := by
  have hd := zr_edgeDistSq he.1 he.2
  obtain ⟨ri, ra, rb, rd⟩ := r
  obtain ⟨ri', ra', rb', rd'⟩ := r'
  obtain ⟨h1, h2, h3, h4⟩ := h
  simp only at h1 h2 h3 h4
  unfold closestStep
  cases h4 with
  | none =>
    simp only [hd.ltInf]
    split
    · exact ⟨rfl, he.1, he.2, .some hd⟩
    · exact ⟨h1, h2, h3, .none⟩
  | some hc =>
    simp only [decide_eq_true_eq, hd.lt hc]
    split
    · exact ⟨rfl, he.1, he.2, .some hd⟩
    · exact ⟨h1, h2, h3, .some hc⟩

theorem zr_closestLoop {l : List (V2 F32 × V2 F32)} {l' : List (V2 F32 × V2 F32)} (hl : List.Forall₂ ZrP l l') :
    ∀ (i : Nat) {r : ClosestEdge F32} {r' : ClosestEdge F32}, ZrC r r' → ZrC (closestLoop l i r) (closestLoop l' i r') := by
  induction hl with
  | nil => intro i r r' h; exact h
  | cons he _ ih => intro i r r' h; exact ih (i + 1) (zr_closestStep h i he)

theorem zr_zip : ∀ {l m : List (V2 F32)} {l' m' : List (V2 F32)}, ZrL l l' → ZrL m m' →
    List.Forall₂ ZrP (l.zip m) (l'.zip m') := by
  intro l m l' m' h
  induction h generalizing m m' with
  | nil => intro _; exact .nil
  | cons ha _ ih =>
    intro g
    cases g with
    | nil => exact .nil
    | cons hb g => exact .cons ⟨ha, hb⟩ (ih g)

theorem zr_closedEdges {l : List (V2 F32)} {l' : List (V2 F32)} (hl : ZrL l l') :
    List.Forall₂ ZrP (closedEdges l) (closedEdges l') := by
  refine zr_zip hl ?_
  cases hl with
  | nil => exact .nil
  | cons ha hl => exact List.rel_append hl (.cons ha .nil)

theorem zr_findClosestEdge {l : List (V2 F32)} {l' : List (V2 F32)} (hl : ZrL l l') :
    ZrC (findClosestEdge l) (findClosestEdge l') :=
  zr_closestLoop (zr_closedEdges hl) 0 ⟨rfl, Zr2.nan, Zr2.nan, .none⟩

theorem zr_insertIdx {l : List (V2 F32)} {l' : List (V2 F32)} (hl : ZrL l l') {p : V2 F32} {p' : V2 F32} (hp : Zr2 p p') :
    ∀ i, ZrL (l.insertIdx i p) (l'.insertIdx i p') := by
  induction hl with
  | nil => intro i; cases i with
    | zero => exact .cons hp .nil
    | succ i => exact .nil
  | cons ha hl ih => intro i; cases i with
    | zero => exact .cons hp (.cons ha hl)
    | succ i => exact .cons ha (ih i)

variable {S : V2 F32 → V2 F32} {S' : V2 F32 → V2 F32}

theorem zr_epa (hS : ∀ d d', Zr2 d d' → Zr2 (S d) (S' d')) : ∀ (n : Nat) {l : List (V2 F32)} {l' : List (V2 F32)},
    ZrL l l' → ZrE Zr2 (epa S n l) (epa S' n l') := by
  intro n
  induction n with
  | zero => intro l l' _; exact .ok Zr2.zero
  | succ n ih =>
    intro l l' hl
    have he := zr_findClosestEdge hl
    have hn := (he.b.sub he.a).perpRight
    have hp := hS _ _ hn
    have hb := Zr.better (hp.dot hn) (he.a.dot hn) Zr.tol
    have hlen := List.Forall₂.length_eq hl
    unfold epa
    simp only [hb, he.index, hlen]
    split
    · exact .ok (Zr2.scale ((hp.dot hn).neg.divSq hn) hn)
    · split
      · exact ih (zr_insertIdx hl hp _)
      · exact .error _

theorem zr_overrideDir (h : Zr2 a a') (g : Zr2 b b') : Zr2 (overrideDir a b) (overrideDir a' b') := by
  unfold overrideDir
  simp only [g.tooSmall]
  split
  · exact h.perp
  · exact g

theorem zr_gjkCollide (hS : ∀ d d', Zr2 d d' → Zr2 (S d) (S' d')) : ∀ (n : Nat) {d : V2 F32} {d' : V2 F32}
    {l : List (V2 F32)} {l' : List (V2 F32)}, Zr2 d d' → ZrL l l' → ZrE ZrA (gjkCollide S n d l) (gjkCollide S' n d' l') := by
  intro n
  induction n with
  | zero => intro d d' l l' _ _; exact .ok ⟨rfl, Zr2.nan⟩
  | succ n ih =>
    intro d d' l l' hd hl
    have ha := hS _ _ hd
    unfold gjkCollide
    simp only [(ha.dot hd).le Zr.zero]
    split
    · exact .ok ⟨rfl, Zr2.nan⟩
    · have h := zr_addPoint hl ha
      cases h1 : addPoint l (S d) <;> cases h2 : addPoint l' (S' d') <;> rw [h1, h2] at h <;> cases h
      · exact .error _
      · rename_i r r' hr
        simp only [hr.collides, hr.dir.tooSmall]
        split
        · exact .ok ⟨rfl, Zr2.nan⟩
        · exact ih hr.dir hr.pts

/-- both runs end with `distance_to_origin` -/
macro "zr_final" h:term : tactic => `(tactic| (
  have h := zr_distanceToOrigin $h
  revert h
  generalize distanceToOrigin (F := F32) _ = x
  generalize distanceToOrigin (F := F32) _ = x'
  intro h
  cases h with
  | error => exact .error _
  | ok h => exact .ok ⟨rfl, h⟩))

/-- both runs continue with EPA -/
macro "zr_push" hS:term:max h:term:max : tactic => `(tactic| (
  have h := zr_enforceCcw $h
  revert h
  generalize enforceCcw (F := F32) _ = x
  generalize enforceCcw (F := F32) _ = x'
  intro h
  cases h with
  | error => exact .error _
  | ok h =>
    have g := zr_epa $hS iterationLimit h
    revert g
    dsimp only
    generalize epa (F := F32) _ _ _ = y
    generalize epa (F := F32) _ _ _ = y'
    intro g
    cases g with
    | error => exact .error _
    | ok g => exact .ok ⟨rfl, g⟩))

theorem zr_gjkDistance (hS : ∀ d d', Zr2 d d' → Zr2 (S d) (S' d')) : ∀ (n : Nat) {d c : V2 F32} {d' c' : V2 F32}
    {l : List (V2 F32)} {l' : List (V2 F32)}, Zr2 d d' → Zr2 c c' → ZrL l l' →
    ZrE ZrA (gjkDistance S n d c l) (gjkDistance S' n d' c' l') := by
  intro n
  induction n with
  | zero => intro d c d' c' l l' _ _ hl; unfold gjkDistance; zr_final hl
  | succ n ih =>
    intro d c d' c' l l' hd hc hl
    have ha := hS _ _ hd
    unfold gjkDistance
    simp only [(ha.dot hd).le Zr.zero, (ha.dot hd).le (hc.dot hd)]
    split
    · zr_final hl
    · have h := zr_addPoint hl ha
      cases h1 : addPoint l (S d) <;> cases h2 : addPoint l' (S' d') <;> rw [h1, h2] at h <;> cases h
      · exact .error _
      · rename_i r r' hr
        simp only [hr.collides, List.Forall₂.length_eq hr.pts]
        split
        · split
          · exact .ok ⟨rfl, Zr2.nan⟩
          · exact .error _
        · exact ih (zr_overrideDir hd hr.dir) ha hr.pts

theorem zr_gjkPenetrate (hS : ∀ d d', Zr2 d d' → Zr2 (S d) (S' d')) : ∀ (n : Nat) {d : V2 F32} {d' : V2 F32}
    {l : List (V2 F32)} {l' : List (V2 F32)}, Zr2 d d' → ZrL l l' →
    ZrE ZrA (gjkPenetrate S n d l) (gjkPenetrate S' n d' l') := by
  intro n
  induction n with
  | zero => intro d d' l l' _ _; exact .ok ⟨rfl, Zr2.nan⟩
  | succ n ih =>
    intro d d' l l' hd hl
    have ha := hS _ _ hd
    unfold gjkPenetrate
    simp only [(ha.dot hd).le Zr.zero]
    split
    · exact .ok ⟨rfl, Zr2.nan⟩
    · have h := zr_addPoint hl ha
      cases h1 : addPoint l (S d) <;> cases h2 : addPoint l' (S' d') <;> rw [h1, h2] at h <;> cases h
      · exact .error _
      · rename_i r r' hr
        simp only [hr.collides]
        split
        · zr_push hS hr.pts
        · exact ih (zr_overrideDir hd hr.dir) hr.pts

theorem zr_gjkFull (hS : ∀ d d', Zr2 d d' → Zr2 (S d) (S' d')) : ∀ (n : Nat) (possible : Bool) {d c : V2 F32}
    {d' c' : V2 F32} {l : List (V2 F32)} {l' : List (V2 F32)}, Zr2 d d' → Zr2 c c' → ZrL l l' →
    ZrE ZrA (gjkFull S n possible d c l) (gjkFull S' n possible d' c' l') := by
  intro n
  induction n with
  | zero => intro _ d c d' c' l l' _ _ hl; unfold gjkFull; zr_final hl
  | succ n ih =>
    intro possible d c d' c' l l' hd hc hl
    have ha := hS _ _ hd
    unfold gjkFull
    simp only [(ha.dot hd).le Zr.zero, Zr.better (ha.dot hd) (hc.dot hd) Zr.tol]
    split
    · zr_final hl
    · have h := zr_addPoint hl ha
      cases h1 : addPoint l (S d) <;> cases h2 : addPoint l' (S' d') <;> rw [h1, h2] at h <;> cases h
      · exact .error _
      · rename_i r r' hr
        simp only [hr.collides]
        generalize (if (S' d').dot d' ≤ 0 then false else possible) = possible'
        split
        · exact .error _
        · split
          · zr_push hS hr.pts
          · exact ih _ (zr_overrideDir hd hr.dir) ha hr.pts

theorem zr_sdfvMinkowski (hS : ∀ d d', Zr2 d d' → Zr2 (S d) (S' d')) (p q : Bool) {d : V2 F32} {d' : V2 F32}
    (hd : Zr2 d d') : ZrE ZrA (sdfvMinkowski p q S d) (sdfvMinkowski p q S' d') := by
  have h := zr_addPoint (.nil) (hS _ _ hd)
  cases p <;> cases q
  · exact zr_gjkCollide hS _ hd .nil
  · unfold sdfvMinkowski
    dsimp only
    cases h1 : addPoint [] (S d) <;> cases h2 : addPoint [] (S' d') <;> rw [h1, h2] at h <;> cases h
    · exact .error _
    · rename_i r r' hr
      exact zr_gjkDistance hS _ hr.dir (hS _ _ hd) hr.pts
  · exact zr_gjkPenetrate hS _ hd .nil
  · unfold sdfvMinkowski
    dsimp only
    cases h1 : addPoint [] (S d) <;> cases h2 : addPoint [] (S' d') <;> rw [h1, h2] at h <;> cases h
    · exact .error _
    · rename_i r r' hr
      exact zr_gjkFull hS _ _ hr.dir (hS _ _ hd) hr.pts

theorem zr_initialDirection (h : Zr2 a a') : Zr2 (initialDirection a) (initialDirection a') := by
  unfold initialDirection
  simp only [h.lengthSq.lt Zr.eps]
  split
  · exact ⟨.one, .zero⟩
  · exact h

/-! ## shapes -/

/-- shapes whose support functions differ in the sign of zeros only -/
def ZrS {A A' : Type} [ExtremePoint2d A F32] [ExtremePoint2d A' F32] (x : A) (x' : A') : Prop :=
  ∀ d d', Zr2 d d' → Zr2 (extremePoint x d) (extremePoint x' d')

theorem zr_poly {l : List (V2 F32)} {l' : List (V2 F32)} (r : ZrL l l') : ZrS (Poly2d.mk l) (Poly2d.mk l') := by
  intro d d' hd
  have key : ∀ {l : List (V2 F32)} {l' : List (V2 F32)}, ZrL l l' → ∀ {acc : F32 × V2 F32} {acc' : F32 × V2 F32},
      Zr acc.1 acc'.1 → Zr2 acc.2 acc'.2 →
      Zr2 (l.foldl (Poly2d.extremeStep d) acc).2 (l'.foldl (Poly2d.extremeStep d') acc').2 := by
    intro l l' h
    induction h with
    | nil => intro acc acc' _ h2; exact h2
    | cons hp _ ih =>
      intro acc acc' h1 h2
      rw [List.foldl_cons, List.foldl_cons]
      have hs := hd.dot hp
      apply ih
      · unfold Poly2d.extremeStep
        simp only [GT.gt, h1.lt hs]
        split
        · exact hs
        · exact h1
      · unfold Poly2d.extremeStep
        simp only [GT.gt, h1.lt hs]
        split
        · exact hp
        · exact h2
  exact key r Zr.f32Min Zr2.zero

theorem zr_minkowski {A A' B B' : Type} [ExtremePoint2d A F32] [ExtremePoint2d A' F32] [ExtremePoint2d B F32]
    [ExtremePoint2d B' F32] {x : A} {x' : A'} {y : B} {y' : B'} (hx : ZrS x x') (hy : ZrS y y')
    {t : V2 F32} {t' : V2 F32} (ht : Zr2 t t') (p q : Bool) :
    ZrE ZrA (LocalMinkowskiDiff2d.sdfvMinkowski p q ⟨x, y, t⟩) (LocalMinkowskiDiff2d.sdfvMinkowski p q ⟨x', y', t'⟩) := by
  refine zr_sdfvMinkowski (fun d d' hd => ?_) p q (zr_initialDirection ht)
  exact (hx _ _ hd).sub ((hy _ _ hd.neg).add ht)

end

end Auburn
