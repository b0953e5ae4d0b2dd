import Verif.Ieee.ZeroGjk
import Verif.Ieee.SignAlg
import Verif.Model.Detect2d

/-!
# GJK and EPA turn with the scene

Turning every vector by 90 degrees, every function of the Minkowski code gives turned results, up to the sign of
zeros: products and sums only change places or signs, which binary32 rounding respects.
-/

set_option linter.unusedSectionVars false
set_option synthInstance.maxSize 1000

namespace Auburn

open ExtremePoint2d Transformation2d

/-- the second vector is the first turned by 90 degrees, up to the sign of zeros -/
structure Tr2 (a : V2 F32) (a' : V2 F32) : Prop where
  x : Zr (-a.y) a'.x
  y : Zr a.x a'.y

/-- lists of turned vectors -/
abbrev TrL (l : List (V2 F32)) (l' : List (V2 F32)) : Prop := List.Forall₂ Tr2 l l'

/-- the same outcome: the same panic, or related results -/
inductive TrE {α β : Type} (R : α → β → Prop) : Except Panic α → Except Panic β → Prop
  | error (e : Panic) : TrE R (.error e) (.error e)
  | ok {a : α} {b : β} (h : R a b) : TrE R (.ok a) (.ok b)

/-- flag and vector -/
def TrA (a : Bool × V2 F32) (b : Bool × V2 F32) : Prop := a.1 = b.1 ∧ Tr2 a.2 b.2

section
variable [env : F32Env] {a b : V2 F32} {a' b' : V2 F32} {s t : F32} {s' t' : F32}

namespace Tr2

theorem neg (h : Tr2 a a') : Tr2 (-a) (-a') := ⟨h.x.neg, h.y.neg⟩
theorem add (h : Tr2 a a') (g : Tr2 b b') : Tr2 (a + b) (a' + b') := ⟨(Zr.na _ _).trans (h.x.add g.x), h.y.add g.y⟩
theorem sub (h : Tr2 a a') (g : Tr2 b b') : Tr2 (a - b) (a' - b') := h.add g.neg
theorem scale (h : Zr s s') (g : Tr2 a a') : Tr2 (V2.scale s a) (V2.scale s' a') := by
  refine ⟨?_, h.mul g.y⟩
  have := h.mul g.x
  rwa [Zr.mn] at this
theorem dot (h : Tr2 a a') (g : Tr2 b b') : Zr (a.dot b) (a'.dot b') := by
  have := (h.x.mul g.x).add (h.y.mul g.y)
  rw [Zr.mn, Zr.nm, Zr.nn, Zr.ac] at this
  exact this
theorem lengthSq (h : Tr2 a a') : Zr a.lengthSq a'.lengthSq := h.dot h
theorem perp (h : Tr2 a a') : Tr2 a.perp a'.perp := ⟨h.y.neg, h.x⟩
theorem perpRight (h : Tr2 a a') : Tr2 a.perpRight a'.perpRight := by
  refine ⟨?_, ?_⟩
  · show Zr (- -a.x) a'.y
    rw [Zr.nn]; exact h.y
  · have := h.x.neg
    rwa [Zr.nn] at this
theorem cross (h : Tr2 a a') (g : Tr2 b b') : Zr (a.cross b) (a'.cross b') := by
  have := (h.x.mul g.y).add (h.y.mul g.x).neg
  rw [Zr.nm, Zr.mn, Zr.nn, Zr.ac] at this
  exact this
theorem crossAba (h : Tr2 a a') (g : Tr2 b b') : Tr2 (a.crossAba b) (a'.crossAba b') := by
  have c := h.cross g
  refine ⟨?_, ?_⟩
  · have := h.y.neg.mul c
    rwa [Zr.nm] at this
  · have := h.x.mul c
    exact this
theorem crossSV (h : Zr s s') (g : Tr2 a a') : Tr2 (crossSV s a) (crossSV s' a') := by
  refine ⟨?_, ?_⟩
  · have := h.neg.mul g.y
    rwa [Zr.nm] at this
  · have := h.mul g.x
    rwa [Zr.mn, ← Zr.nm] at this
theorem crossF32 (g : Tr2 a a') (h : Zr s s') : Tr2 (a.crossF32 s) (a'.crossF32 s') := by
  refine ⟨?_, ?_⟩
  · have := g.y.mul h
    show Zr (-(-a.x * s)) (a'.y * s')
    rwa [Zr.nm, Zr.nn]
  · have := g.x.neg.mul h
    rwa [Zr.nn] at this
theorem nan : Tr2 V2.nan V2.nan := ⟨.nan, .nan⟩
theorem zero : Tr2 0 0 := ⟨.negZero, .zero⟩

end Tr2

/-- the squared length does not change at all -/
theorem Tr2.dotSelf (h : Tr2 a a') : a.dot a = a'.dot a' := by
  show a.x * a.x + a.y * a.y = a'.x * a'.x + a'.y * a'.y
  rw [← h.x.sq, ← h.y.sq, Zr.mn, Zr.nm, Zr.nn, Zr.ac]

theorem Tr2.divSq (h : Zr s s') (g : Tr2 a a') : Zr (s / a.dot a) (s' / a'.dot a') := by
  rw [← g.dotSelf]; exact h.divR _

theorem Tr2.sameDirection (h : Tr2 a a') (g : Tr2 b b') : Auburn.sameDirection a b ↔ Auburn.sameDirection a' b' :=
  Zr.zero.le (h.dot g)

theorem Tr2.tooSmall (h : Tr2 a a') : directionTooSmall a ↔ directionTooSmall a' :=
  h.lengthSq.lt (Zr.eps.mul Zr.eps)

/-- results of `add_point` -/
structure TrR (r : AddResult F32) (r' : AddResult F32) : Prop where
  collides : r.collides = r'.collides
  dir : Tr2 r.dir r'.dir
  pts : TrL r.pts r'.pts

theorem tr_addPoint {l : List (V2 F32)} {l' : List (V2 F32)} {p : V2 F32} {p' : V2 F32} (hl : TrL l l')
    (hp : Tr2 p p') : TrE TrR (addPoint l p) (addPoint l' p') := by
  cases hl with
  | nil => exact .ok ⟨rfl, hp.neg, .cons hp .nil⟩
  | @cons b b' l l' hb hl => cases hl with
    | nil =>
      have hab := hb.sub hp
      show TrE TrR (if (b - p).dot (-p) ≥ 0 then .ok ⟨false, (b - p).crossAba (-p), [p, b]⟩ else .ok ⟨false, -p, [p, b]⟩)
        (if (b' - p').dot (-p') ≥ 0 then .ok ⟨false, (b' - p').crossAba (-p'), [p', b']⟩ else .ok ⟨false, -p', [p', b']⟩)
      have hc := Zr.zero.le (hab.dot hp.neg)
      by_cases c : (b - p).dot (-p) ≥ 0
      · rw [if_pos c, if_pos (hc.1 c)]
        exact .ok ⟨rfl, hab.crossAba hp.neg, .cons hp (.cons hb .nil)⟩
      · rw [if_neg c, if_neg (fun c' => c (hc.2 c'))]
        exact .ok ⟨rfl, hp.neg, .cons hp (.cons hb .nil)⟩
    | @cons c c' l l' hc hl => cases hl with
      | nil =>
        have hab := hb.sub hp
        have hac := hc.sub hp
        have ho := hp.neg
        have habc := hab.cross hac
        have hacp := Tr2.crossSV habc hac
        have habp := hab.crossF32 habc
        unfold addPoint
        simp only [Tr2.sameDirection habp ho, Tr2.sameDirection hab ho, Tr2.sameDirection hacp ho]
        split
        · split
          · exact .ok ⟨rfl, habp, .cons hp (.cons hb .nil)⟩
          · exact .ok ⟨rfl, hacp, .cons hp (.cons hc .nil)⟩
        · split
          · exact .ok ⟨rfl, hacp, .cons hp (.cons hc .nil)⟩
          · exact .ok ⟨rfl, Tr2.nan, .cons hp (.cons hb (.cons hc .nil))⟩
      | cons _ _ => exact .error _

theorem tr_distanceToOrigin {l : List (V2 F32)} {l' : List (V2 F32)} (hl : TrL l l') :
    TrE Tr2 (distanceToOrigin l) (distanceToOrigin l') := by
  cases hl with
  | nil => exact .error _
  | cons ha hl => cases hl with
    | nil => exact .ok ha.neg
    | cons hb hl => cases hl with
      | nil =>
        have hab := hb.sub ha
        have ht := Tr2.divSq (ha.neg.dot hab) hab
        unfold distanceToOrigin
        simp only [ht.le Zr.zero, GE.ge, Zr.one.le ht]
        split
        · exact .ok ha.neg
        · split
          · exact .ok hb.neg
          · exact .ok (ha.neg.sub (Tr2.scale ht hab))
      | cons _ _ => exact .error _

theorem tr_enforceCcw {l : List (V2 F32)} {l' : List (V2 F32)} (hl : TrL l l') :
    TrE TrL (enforceCcw l) (enforceCcw l') := by
  cases hl with
  | nil => exact .error _
  | cons ha hl => cases hl with
    | nil => exact .error _
    | cons hb hl => cases hl with
      | nil => exact .error _
      | cons hc hl => cases hl with
        | nil =>
          unfold enforceCcw
          simp only [GT.gt, Zr.zero.lt ((hb.sub ha).cross (hc.sub ha))]
          split
          · exact .ok (.cons ha (.cons hb (.cons hc .nil)))
          · exact .ok (.cons ha (.cons hc (.cons hb .nil)))
        | cons _ _ => exact .error _

theorem tr_edgeDistSq (h : Tr2 a a') (g : Tr2 b b') : Zr (edgeDistSq a b) (edgeDistSq a' b') := by
  have hab := g.sub h
  have ht := Tr2.divSq (h.neg.dot hab) hab
  have clamp0 : ∀ {t : F32} {t' : F32}, Zr t t' → Zr (if t < 0 then 0 else t) (if t' < 0 then 0 else t') := by
    intro t t' ht
    simp only [ht.lt Zr.zero]
    split
    · exact .zero
    · exact ht
  have clamp1 : ∀ {t : F32} {t' : F32}, Zr t t' → Zr (if t > 1 then 1 else t) (if t' > 1 then 1 else t') := by
    intro t t' ht
    simp only [GT.gt, Zr.one.lt ht]
    split
    · exact .one
    · exact ht
  exact (h.add (Tr2.scale (clamp1 (clamp0 ht)) hab)).lengthSq

/-- loop states of `find_closest_edge` -/
structure TrC (r : ClosestEdge F32) (r' : ClosestEdge F32) : Prop where
  index : r.index = r'.index
  a : Tr2 r.a r'.a
  b : Tr2 r.b r'.b
  dist : Option.Rel Zr r.dist r'.dist

/-- edges -/
def TrP (e : V2 F32 × V2 F32) (e' : V2 F32 × V2 F32) : Prop := Tr2 e.1 e'.1 ∧ Tr2 e.2 e'.2

theorem tr_closestStep {r : ClosestEdge F32} {r' : ClosestEdge F32} (h : TrC r r') (i : Nat)
    {e : V2 F32 × V2 F32} {e' : V2 F32 × V2 F32} (he : TrP e e') : TrC (closestStep r i e) (closestStep r' i e') := by
  have hd := tr_edgeDistSq he.1 he.2
  obtain ⟨ri, ra, rb, rd⟩ := r
  obtain ⟨ri', ra', rb', rd'⟩ := r'
  obtain ⟨h1, h2, h3, h4⟩ := h
  simp only at h1 h2 h3 h4
  unfold closestStep
  cases h4 with
  | none =>
    simp only [hd.ltInf]
    split
    · exact ⟨rfl, he.1, he.2, .some hd⟩
    · exact ⟨h1, h2, h3, .none⟩
  | some hc =>
    simp only [decide_eq_true_eq, hd.lt hc]
    split
    · exact ⟨rfl, he.1, he.2, .some hd⟩
    · exact ⟨h1, h2, h3, .some hc⟩

theorem tr_closestLoop {l : List (V2 F32 × V2 F32)} {l' : List (V2 F32 × V2 F32)} (hl : List.Forall₂ TrP l l') :
    ∀ (i : Nat) {r : ClosestEdge F32} {r' : ClosestEdge F32}, TrC r r' → TrC (closestLoop l i r) (closestLoop l' i r') := by
  induction hl with
  | nil => intro i r r' h; exact h
  | cons he _ ih => intro i r r' h; exact ih (i + 1) (tr_closestStep h i he)

theorem tr_zip : ∀ {l m : List (V2 F32)} {l' m' : List (V2 F32)}, TrL l l' → TrL m m' →
    List.Forall₂ TrP (l.zip m) (l'.zip m') := by
  intro l m l' m' h
  induction h generalizing m m' with
  | nil => intro _; exact .nil
  | cons ha _ ih =>
    intro g
    cases g with
    | nil => exact .nil
    | cons hb g => exact .cons ⟨ha, hb⟩ (ih g)

theorem tr_closedEdges {l : List (V2 F32)} {l' : List (V2 F32)} (hl : TrL l l') :
    List.Forall₂ TrP (closedEdges l) (closedEdges l') := by
  refine tr_zip hl ?_
  cases hl with
  | nil => exact .nil
  | cons ha hl => exact List.rel_append hl (.cons ha .nil)

theorem tr_findClosestEdge {l : List (V2 F32)} {l' : List (V2 F32)} (hl : TrL l l') :
    TrC (findClosestEdge l) (findClosestEdge l') :=
  tr_closestLoop (tr_closedEdges hl) 0 ⟨rfl, Tr2.nan, Tr2.nan, .none⟩

theorem tr_insertIdx {l : List (V2 F32)} {l' : List (V2 F32)} (hl : TrL l l') {p : V2 F32} {p' : V2 F32} (hp : Tr2 p p') :
    ∀ i, TrL (l.insertIdx i p) (l'.insertIdx i p') := by
  induction hl with
  | nil => intro i; cases i with
    | zero => exact .cons hp .nil
    | succ i => exact .nil
  | cons ha hl ih => intro i; cases i with
    | zero => exact .cons hp (.cons ha hl)
    | succ i => exact .cons ha (ih i)

variable {S : V2 F32 → V2 F32} {S' : V2 F32 → V2 F32}

theorem tr_epa (hS : ∀ d d', Tr2 d d' → Tr2 (S d) (S' d')) : ∀ (n : Nat) {l : List (V2 F32)} {l' : List (V2 F32)},
    TrL l l' → TrE Tr2 (epa S n l) (epa S' n l') := by
  intro n
  induction n with
  | zero => intro l l' _; exact .ok Tr2.zero
  | succ n ih =>
    intro l l' hl
    have he := tr_findClosestEdge hl
    have hn := (he.b.sub he.a).perpRight
    have hp := hS _ _ hn
    have hb := Zr.better (hp.dot hn) (he.a.dot hn) Zr.tol
    have hlen := List.Forall₂.length_eq hl
    unfold epa
    simp only [hb, he.index, hlen]
    split
    · exact .ok (Tr2.scale (Tr2.divSq (hp.dot hn).neg hn) hn)
    · split
      · exact ih (tr_insertIdx hl hp _)
      · exact .error _

theorem tr_overrideDir (h : Tr2 a a') (g : Tr2 b b') : Tr2 (overrideDir a b) (overrideDir a' b') := by
  unfold overrideDir
  simp only [g.tooSmall]
  split
  · exact h.perp
  · exact g

theorem tr_gjkCollide (hS : ∀ d d', Tr2 d d' → Tr2 (S d) (S' d')) : ∀ (n : Nat) {d : V2 F32} {d' : V2 F32}
    {l : List (V2 F32)} {l' : List (V2 F32)}, Tr2 d d' → TrL l l' → TrE TrA (gjkCollide S n d l) (gjkCollide S' n d' l') := by
  intro n
  induction n with
  | zero => intro d d' l l' _ _; exact .ok ⟨rfl, Tr2.nan⟩
  | succ n ih =>
    intro d d' l l' hd hl
    have ha := hS _ _ hd
    unfold gjkCollide
    simp only [(ha.dot hd).le Zr.zero]
    split
    · exact .ok ⟨rfl, Tr2.nan⟩
    · have h := tr_addPoint hl ha
      cases h1 : addPoint l (S d) <;> cases h2 : addPoint l' (S' d') <;> rw [h1, h2] at h <;> cases h
      · exact .error _
      · rename_i r r' hr
        simp only [hr.collides, hr.dir.tooSmall]
        split
        · exact .ok ⟨rfl, Tr2.nan⟩
        · exact ih hr.dir hr.pts

/-- both runs end with `distance_to_origin` -/
macro "tr_final" h:term : tactic => `(tactic| (
  have h := tr_distanceToOrigin $h
  revert h
  generalize distanceToOrigin (F := F32) _ = x
  generalize distanceToOrigin (F := F32) _ = x'
  intro h
  cases h with
  | error => exact .error _
  | ok h => exact .ok ⟨rfl, h⟩))

/-- both runs continue with EPA -/
macro "tr_push" hS:term:max h:term:max : tactic => `(tactic| (
  have h := tr_enforceCcw $h
  revert h
  generalize enforceCcw (F := F32) _ = x
  generalize enforceCcw (F := F32) _ = x'
  intro h
  cases h with
  | error => exact .error _
  | ok h =>
    have g := tr_epa $hS iterationLimit h
    revert g
    dsimp only
    generalize epa (F := F32) _ _ _ = y
    generalize epa (F := F32) _ _ _ = y'
    intro g
    cases g with
    | error => exact .error _
    | ok g => exact .ok ⟨rfl, g⟩))

theorem tr_gjkDistance (hS : ∀ d d', Tr2 d d' → Tr2 (S d) (S' d')) : ∀ (n : Nat) {d c : V2 F32} {d' c' : V2 F32}
    {l : List (V2 F32)} {l' : List (V2 F32)}, Tr2 d d' → Tr2 c c' → TrL l l' →
    TrE TrA (gjkDistance S n d c l) (gjkDistance S' n d' c' l') := by
  intro n
  induction n with
  | zero => intro d c d' c' l l' _ _ hl; unfold gjkDistance; tr_final hl
  | succ n ih =>
    intro d c d' c' l l' hd hc hl
    have ha := hS _ _ hd
    unfold gjkDistance
    simp only [(ha.dot hd).le Zr.zero, (ha.dot hd).le (hc.dot hd)]
    split
    · tr_final hl
    · have h := tr_addPoint hl ha
      cases h1 : addPoint l (S d) <;> cases h2 : addPoint l' (S' d') <;> rw [h1, h2] at h <;> cases h
      · exact .error _
      · rename_i r r' hr
        simp only [hr.collides, List.Forall₂.length_eq hr.pts]
        split
        · split
          · exact .ok ⟨rfl, Tr2.nan⟩
          · exact .error _
        · exact ih (tr_overrideDir hd hr.dir) ha hr.pts

theorem tr_gjkPenetrate (hS : ∀ d d', Tr2 d d' → Tr2 (S d) (S' d')) : ∀ (n : Nat) {d : V2 F32} {d' : V2 F32}
    {l : List (V2 F32)} {l' : List (V2 F32)}, Tr2 d d' → TrL l l' →
    TrE TrA (gjkPenetrate S n d l) (gjkPenetrate S' n d' l') := by
  intro n
  induction n with
  | zero => intro d d' l l' _ _; exact .ok ⟨rfl, Tr2.nan⟩
  | succ n ih =>
    intro d d' l l' hd hl
    have ha := hS _ _ hd
    unfold gjkPenetrate
    simp only [(ha.dot hd).le Zr.zero]
    split
    · exact .ok ⟨rfl, Tr2.nan⟩
    · have h := tr_addPoint hl ha
      cases h1 : addPoint l (S d) <;> cases h2 : addPoint l' (S' d') <;> rw [h1, h2] at h <;> cases h
      · exact .error _
      · rename_i r r' hr
        simp only [hr.collides]
        split
        · tr_push hS hr.pts
        · exact ih (tr_overrideDir hd hr.dir) hr.pts

theorem tr_gjkFull (hS : ∀ d d', Tr2 d d' → Tr2 (S d) (S' d')) : ∀ (n : Nat) (possible : Bool) {d c : V2 F32}
    {d' c' : V2 F32} {l : List (V2 F32)} {l' : List (V2 F32)}, Tr2 d d' → Tr2 c c' → TrL l l' →
    TrE TrA (gjkFull S n possible d c l) (gjkFull S' n possible d' c' l') := by
  intro n
  induction n with
  | zero => intro _ d c d' c' l l' _ _ hl; unfold gjkFull; tr_final hl
  | succ n ih =>
    intro possible d c d' c' l l' hd hc hl
    have ha := hS _ _ hd
    unfold gjkFull
    simp only [(ha.dot hd).le Zr.zero, Zr.better (ha.dot hd) (hc.dot hd) Zr.tol]
    split
    · tr_final hl
    · have h := tr_addPoint hl ha
      cases h1 : addPoint l (S d) <;> cases h2 : addPoint l' (S' d') <;> rw [h1, h2] at h <;> cases h
      · exact .error _
      · rename_i r r' hr
        simp only [hr.collides]
        generalize (if (S' d').dot d' ≤ 0 then false else possible) = possible'
        split
        · exact .error _
        · split
          · tr_push hS hr.pts
          · exact ih _ (tr_overrideDir hd hr.dir) ha hr.pts

theorem tr_sdfvMinkowski (hS : ∀ d d', Tr2 d d' → Tr2 (S d) (S' d')) (p q : Bool) {d : V2 F32} {d' : V2 F32}
    (hd : Tr2 d d') : TrE TrA (sdfvMinkowski p q S d) (sdfvMinkowski p q S' d') := by
  have h := tr_addPoint (.nil) (hS _ _ hd)
  cases p <;> cases q
  · exact tr_gjkCollide hS _ hd .nil
  · unfold sdfvMinkowski
    dsimp only
    cases h1 : addPoint [] (S d) <;> cases h2 : addPoint [] (S' d') <;> rw [h1, h2] at h <;> cases h
    · exact .error _
    · rename_i r r' hr
      exact tr_gjkDistance hS _ hr.dir (hS _ _ hd) hr.pts
  · exact tr_gjkPenetrate hS _ hd .nil
  · unfold sdfvMinkowski
    dsimp only
    cases h1 : addPoint [] (S d) <;> cases h2 : addPoint [] (S' d') <;> rw [h1, h2] at h <;> cases h
    · exact .error _
    · rename_i r r' hr
      exact tr_gjkFull hS _ _ hr.dir (hS _ _ hd) hr.pts

theorem tr_initialDirection (h : Tr2 a a') (h0 : ¬ a.lengthSq < FloatExtra.epsilon) :
    Tr2 (initialDirection a) (initialDirection a') := by
  unfold initialDirection
  rw [if_neg h0, if_neg fun k => h0 ((h.lengthSq.lt Zr.eps).2 k)]
  exact h

/-! ## shapes -/

/-- shapes whose support functions are turned -/
def TrS {A A' : Type} [ExtremePoint2d A F32] [ExtremePoint2d A' F32] (x : A) (x' : A') : Prop :=
  ∀ d d', Tr2 d d' → Tr2 (extremePoint x d) (extremePoint x' d')

theorem tr_poly {l : List (V2 F32)} {l' : List (V2 F32)} (r : TrL l l') : TrS (Poly2d.mk l) (Poly2d.mk l') := by
  intro d d' hd
  have key : ∀ {l : List (V2 F32)} {l' : List (V2 F32)}, TrL l l' → ∀ {acc : F32 × V2 F32} {acc' : F32 × V2 F32},
      Zr acc.1 acc'.1 → Tr2 acc.2 acc'.2 →
      Tr2 (l.foldl (Poly2d.extremeStep d) acc).2 (l'.foldl (Poly2d.extremeStep d') acc').2 := by
    intro l l' h
    induction h with
    | nil => intro acc acc' _ h2; exact h2
    | cons hp _ ih =>
      intro acc acc' h1 h2
      rw [List.foldl_cons, List.foldl_cons]
      have hs := hd.dot hp
      apply ih
      · unfold Poly2d.extremeStep
        simp only [GT.gt, h1.lt hs]
        split
        · exact hs
        · exact h1
      · unfold Poly2d.extremeStep
        simp only [GT.gt, h1.lt hs]
        split
        · exact hp
        · exact h2
  exact key r Zr.f32Min Tr2.zero

end

end Auburn
