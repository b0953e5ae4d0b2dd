import Verif.Ieee.QuarterTurns

/-!
# C103: whether things collide does not depend on handedness (binary32)

The winding of a simplex decides, through the sign of a cross product, on which sides the search looks.  Mirroring the
scene flips that sign everywhere; `collides` still answers the same for balls and polygons with any f32 coordinates.
-/

set_option linter.unusedSectionVars false
set_option synthInstance.maxSize 1000

namespace Auburn

open ExtremePoint2d Transformation2d Auburn.Invertible Composable SdfvCommonRel2d SdfRel2d

/-! ## specification -/

/-- mirror in the x axis -/
def mirror {F : Type} [Neg F] (v : V2 F) : V2 F := ⟨v.x, -v.y⟩

/-- every vertex mirrored, in the same order (so the winding is reversed) -/
def Poly2d.mirror {F : Type} [Neg F] (p : Poly2d F) : Poly2d F := ⟨p.points.map Auburn.mirror⟩

/-- balls stay, polygons are mirrored (boxes are not covered) -/
def Shape2d.mirror {F : Type} [Neg F] : Shape2d F → Shape2d F
  | .ball b => .ball b
  | .box b => .box b
  | .poly p => .poly p.mirror

/-! ## proof -/

/-- the second vector is the first mirrored, up to the sign of zeros -/
structure Mi2 (a : V2 F32) (a' : V2 F32) : Prop where
  x : Zr a.x a'.x
  y : Zr (-a.y) a'.y

/-- lists of mirrored vectors -/
abbrev MiL (l : List (V2 F32)) (l' : List (V2 F32)) : Prop := List.Forall₂ Mi2 l l'

section
variable [env : F32Env] {a b : V2 F32} {a' b' : V2 F32} {s t : F32} {s' t' : F32}

namespace Mi2

theorem neg (h : Mi2 a a') : Mi2 (-a) (-a') := ⟨h.x.neg, h.y.neg⟩
theorem add (h : Mi2 a a') (g : Mi2 b b') : Mi2 (a + b) (a' + b') := ⟨h.x.add g.x, (Zr.na _ _).trans (h.y.add g.y)⟩
theorem sub (h : Mi2 a a') (g : Mi2 b b') : Mi2 (a - b) (a' - b') := h.add g.neg
theorem scale (h : Zr s s') (g : Mi2 a a') : Mi2 (V2.scale s a) (V2.scale s' a') := by
  refine ⟨h.mul g.x, ?_⟩
  have := h.mul g.y
  rwa [Zr.mn] at this
theorem dot (h : Mi2 a a') (g : Mi2 b b') : Zr (a.dot b) (a'.dot b') := by
  have := (h.x.mul g.x).add (h.y.mul g.y)
  rw [Zr.mn, Zr.nm, Zr.nn] at this
  exact this
theorem lengthSq (h : Mi2 a a') : Zr a.lengthSq a'.lengthSq := h.dot h
/-- the winding is reversed -/
theorem cross (h : Mi2 a a') (g : Mi2 b b') : Zr (-(a.cross b)) (a'.cross b') := by
  have := (h.x.mul g.y).add (h.y.mul g.x).neg
  rw [Zr.mn, Zr.nm] at this
  exact (Zr.na _ _).trans this
theorem crossAba (h : Mi2 a a') (g : Mi2 b b') : Mi2 (a.crossAba b) (a'.crossAba b') := by
  have c := h.cross g
  refine ⟨?_, ?_⟩
  · have := h.y.neg.mul c
    rw [Zr.mn, Zr.nm (-a.y), Zr.nn] at this
    exact this
  · have := h.x.mul c
    rwa [Zr.mn] at this
theorem crossSV (h : Zr (-s) s') (g : Mi2 a a') : Mi2 (crossSV s a) (crossSV s' a') := by
  refine ⟨?_, ?_⟩
  · have := h.neg.mul g.y
    rw [Zr.nn, Zr.mn, ← Zr.nm] at this
    exact this
  · have := h.mul g.x
    rw [Zr.nm] at this
    exact this
theorem crossF32 (g : Mi2 a a') (h : Zr (-s) s') : Mi2 (a.crossF32 s) (a'.crossF32 s') := by
  refine ⟨?_, ?_⟩
  · have := g.y.mul h
    rwa [Zr.mn, Zr.nm, Zr.nn] at this
  · have := g.x.neg.mul h
    rwa [Zr.mn] at this
theorem nan : Mi2 V2.nan V2.nan := ⟨.nan, .nan⟩
theorem zero : Mi2 0 0 := ⟨.zero, .negZero⟩

end Mi2

theorem Mi2.sameDirection (h : Mi2 a a') (g : Mi2 b b') : Auburn.sameDirection a b ↔ Auburn.sameDirection a' b' :=
  Zr.zero.le (h.dot g)

theorem Mi2.tooSmall (h : Mi2 a a') : directionTooSmall a ↔ directionTooSmall a' :=
  h.lengthSq.lt (Zr.eps.mul Zr.eps)

/-- results of `add_point` -/
structure MiR (r : AddResult F32) (r' : AddResult F32) : Prop where
  collides : r.collides = r'.collides
  dir : Mi2 r.dir r'.dir
  pts : MiL r.pts r'.pts

theorem mi_addPoint {l : List (V2 F32)} {l' : List (V2 F32)} {p : V2 F32} {p' : V2 F32} (hl : MiL l l')
    (hp : Mi2 p p') : TrE MiR (addPoint l p) (addPoint l' p') := by
  cases hl with
  | nil => exact .ok ⟨rfl, hp.neg, .cons hp .nil⟩
  | @cons b b' l l' hb hl => cases hl with
    | nil =>
      have hab := hb.sub hp
      show TrE MiR (if (b - p).dot (-p) ≥ 0 then .ok ⟨false, (b - p).crossAba (-p), [p, b]⟩ else .ok ⟨false, -p, [p, b]⟩)
        (if (b' - p').dot (-p') ≥ 0 then .ok ⟨false, (b' - p').crossAba (-p'), [p', b']⟩ else .ok ⟨false, -p', [p', b']⟩)
      have hc := Zr.zero.le (hab.dot hp.neg)
      by_cases c : (b - p).dot (-p) ≥ 0
      · rw [if_pos c, if_pos (hc.1 c)]
        exact .ok ⟨rfl, hab.crossAba hp.neg, .cons hp (.cons hb .nil)⟩
      · rw [if_neg c, if_neg (fun c' => c (hc.2 c'))]
        exact .ok ⟨rfl, hp.neg, .cons hp (.cons hb .nil)⟩
    | @cons c c' l l' hc hl => cases hl with
      | nil =>
        have hab := hb.sub hp
        have hac := hc.sub hp
        have ho := hp.neg
        have habc := hab.cross hac
        have hacp := Mi2.crossSV habc hac
        have habp := hab.crossF32 habc
        unfold addPoint
        simp only [Mi2.sameDirection habp ho, Mi2.sameDirection hab ho, Mi2.sameDirection hacp ho]
        split
        · split
          · exact .ok ⟨rfl, habp, .cons hp (.cons hb .nil)⟩
          · exact .ok ⟨rfl, hacp, .cons hp (.cons hc .nil)⟩
        · split
          · exact .ok ⟨rfl, hacp, .cons hp (.cons hc .nil)⟩
          · exact .ok ⟨rfl, Mi2.nan, .cons hp (.cons hb (.cons hc .nil))⟩
      | cons _ _ => exact .error _

theorem mi_gjkCollide {S S' : V2 F32 → V2 F32} (hS : ∀ d d', Mi2 d d' → Mi2 (S d) (S' d')) : ∀ (n : Nat) {d d' : V2 F32}
    {l l' : List (V2 F32)}, Mi2 d d' → MiL l l' → gjkCollide S n d l = gjkCollide S' n d' l' := by
  intro n
  induction n with
  | zero => intro d d' l l' _ _; rfl
  | succ n ih =>
    intro d d' l l' hd hl
    have ha := hS _ _ hd
    unfold gjkCollide
    simp only [(ha.dot hd).le Zr.zero]
    split
    · rfl
    · have h := mi_addPoint hl ha
      cases h1 : addPoint l (S d) <;> cases h2 : addPoint l' (S' d') <;> rw [h1, h2] at h <;> cases h
      · rfl
      · rename_i r r' hr
        simp only [hr.collides, hr.dir.tooSmall]
        split
        · rfl
        · exact ih hr.dir hr.pts

/-- the fixed direction `(1, 0)` is its own mirror image, so tiny offsets are no exception -/
theorem mi_initialDirection (h : Mi2 a a') : Mi2 (initialDirection a) (initialDirection a') := by
  unfold initialDirection
  simp only [h.lengthSq.lt Zr.eps]
  split
  · exact ⟨.refl _, .negZero⟩
  · exact h

/-- shapes whose support functions are mirrored -/
def MiS {A A' : Type} [ExtremePoint2d A F32] [ExtremePoint2d A' F32] (x : A) (x' : A') : Prop :=
  ∀ d d', Mi2 d d' → Mi2 (extremePoint x d) (extremePoint x' d')

theorem mi_mirror (a : V2 F32) : Mi2 a (mirror a) := ⟨.refl _, .refl _⟩

theorem Mi2.dotSelf (h : Mi2 a a') : a.dot a = a'.dot a' := by
  show a.x * a.x + a.y * a.y = a'.x * a'.x + a'.y * a'.y
  rw [← h.x.sq, ← h.y.sq, Zr.mn, Zr.nm, Zr.nn]

theorem Mi2.length (h : Mi2 a a') : a.length = a'.length := by
  unfold V2.length; rw [h.dotSelf]

theorem Mi2.normalize (h : Mi2 a a') : Mi2 a.normalizeOrZero a'.normalizeOrZero := by
  unfold V2.normalizeOrZero
  rw [h.length]
  dsimp only
  split
  · exact Mi2.scale (.refl _) h
  · exact .zero

theorem miS_ball (b : Ball F32) : MiS b b := fun _ _ h => Mi2.scale (.refl _) h.normalize

theorem miS_poly (p : Poly2d F32) : MiS p p.mirror := by
  have r : MiL p.points (p.points.map mirror) := by
    induction p.points with
    | nil => exact .nil
    | cons a l ih => exact .cons (mi_mirror a) ih
  intro d d' hd
  have key : ∀ {l : List (V2 F32)} {l' : List (V2 F32)}, MiL l l' → ∀ {acc : F32 × V2 F32} {acc' : F32 × V2 F32},
      Zr acc.1 acc'.1 → Mi2 acc.2 acc'.2 →
      Mi2 (l.foldl (Poly2d.extremeStep d) acc).2 (l'.foldl (Poly2d.extremeStep d') acc').2 := by
    intro l l' h
    induction h with
    | nil => intro acc acc' _ h2; exact h2
    | cons hp _ ih =>
      intro acc acc' h1 h2
      rw [List.foldl_cons, List.foldl_cons]
      have hs := hd.dot hp
      apply ih
      · unfold Poly2d.extremeStep
        simp only [GT.gt, h1.lt hs]
        split
        · exact hs
        · exact h1
      · unfold Poly2d.extremeStep
        simp only [GT.gt, h1.lt hs]
        split
        · exact hp
        · exact h2
  exact key r Zr.f32Min Mi2.zero

theorem miS_shape (s : Shape2d F32) (h : s.NoBox) : MiS s s.mirror := by
  cases s with
  | ball b => exact miS_ball b
  | box b => exact h.elim
  | poly p => exact miS_poly p

theorem mi_collides {A A' B B' : Type} [ExtremePoint2d A F32] [ExtremePoint2d A' F32] [ExtremePoint2d B F32]
    [ExtremePoint2d B' F32] {x : A} {x' : A'} {y : B} {y' : B'} (hx : MiS x x') (hy : MiS y y') {t t' : V2 F32}
    (ht : Mi2 t t') : LocalMinkowskiDiff2d.sdfvMinkowski false false (⟨x, y, t⟩ : LocalMinkowskiDiff2d A B (V2 F32)) =
      LocalMinkowskiDiff2d.sdfvMinkowski false false (⟨x', y', t'⟩ : LocalMinkowskiDiff2d A' B' (V2 F32)) :=
  mi_gjkCollide (fun _ _ hd => (hx _ _ hd).sub ((hy _ _ hd.neg).add ht)) _ (mi_initialDirection ht) .nil

/-- **Two polygons** with any vertices, NaN and infinities included, at any offset: `collides` answers the same (panics the
same) for the mirrored scene. -/
theorem C103_mirror_poly_poly (a b : Poly2d F32) (rel : V2 F32) :
    collidesRel a b rel = collidesRel a.mirror b.mirror (mirror rel) :=
  congrArg (Except.map Prod.fst) (mi_collides (miS_poly a) (miS_poly b) (mi_mirror rel))

/-- **`Shape2d` values** that are balls or polygons. -/
theorem C103_mirror_shape2d (a b : Shape2d F32) (ha : a.NoBox) (hb : b.NoBox) (rel : V2 F32) :
    collidesRel a b rel = collidesRel a.mirror b.mirror (mirror rel) :=
  congrArg (Except.map Prod.fst) (mi_collides (miS_shape a ha) (miS_shape b hb) (mi_mirror rel))

/-- **Two balls**. -/
theorem C103_mirror_ball_ball (a b : Ball F32) (rel : V2 F32) : collidesRel a b rel = collidesRel a b (mirror rel) := by
  have h := (mi_mirror rel).length
  show Except.ok (ballDelta _ rel).1 = Except.ok (ballDelta _ (mirror rel)).1
  unfold ballDelta
  rw [← h]
  dsimp only
  split <;> rfl

/-- **Colliders** of the shape enum placed by `Vec2` or `Translate2d`. -/
theorem C103_mirror_colliders (a b : Shape2d F32) (ha : a.NoBox) (hb : b.NoBox) (p q : V2 F32) :
    collides ⟨a, p⟩ ⟨b, q⟩ = collides ⟨a.mirror, mirror p⟩ ⟨b.mirror, mirror q⟩ ∧
    collides ⟨a, Translate2d.mk p⟩ ⟨b, Translate2d.mk q⟩ =
      collides ⟨a.mirror, Translate2d.mk (mirror p)⟩ ⟨b.mirror, Translate2d.mk (mirror q)⟩ := by
  have h : Mi2 (q + -p) (mirror q + -mirror p) := (mi_mirror q).add (mi_mirror p).neg
  have k := congrArg (Except.map Prod.fst) (mi_collides (miS_shape a ha) (miS_shape b hb) h)
  exact ⟨k, k⟩

/-- **All eight symmetries of the square**: mirrored or not, and turned any number of times, `collides` answers the same. -/
theorem C103_collides_symmetries (a b : Shape2d F32) (ha : a.NoBox) (hb : b.NoBox) (rel : V2 F32)
    (h0 : ¬ rel.lengthSq < FloatExtra.epsilon) (n : Nat) :
    collidesRel (Shape2d.quarter^[n] a) (Shape2d.quarter^[n] b) (quarter^[n] rel) = collidesRel a b rel ∧
    collidesRel (Shape2d.quarter^[n] a).mirror (Shape2d.quarter^[n] b).mirror (mirror (quarter^[n] rel)) =
      collidesRel a b rel := by
  have h : ∀ {x y : Except Panic Bool}, SameOutcome Eq x y → x = y := by
    intro x y h
    cases h with
    | panic e => rfl
    | ok h => rw [h]
  have k := h (C103_shape2d_turns n a b ha hb rel h0).1
  exact ⟨k.symm, (k.trans (C103_mirror_shape2d _ _ (ha.turns n) (hb.turns n) _)).symm⟩

/-- the claim about `collides` is not vacuous: it covers a NaN vertex, a concave outline and an offset of zero -/
example : collidesRel (⟨[⟨.nan, 1⟩, 0, ⟨1, -1⟩]⟩ : Poly2d F32) (litPoly [(0, 0), (2, 0), (1 / 3, 1 / 5), (0, 2)]) (0 : V2 F32) =
    collidesRel (⟨[⟨.nan, -1⟩, ⟨0, -0⟩, ⟨1, - -1⟩]⟩ : Poly2d F32)
      (⟨[⟨lit 0, -lit 0⟩, ⟨lit 2, -lit 0⟩, ⟨lit (1 / 3), -lit (1 / 5)⟩, ⟨lit 0, -lit 2⟩]⟩ : Poly2d F32) (⟨0, -0⟩ : V2 F32) :=
  C103_mirror_poly_poly _ _ _

end

end Auburn
