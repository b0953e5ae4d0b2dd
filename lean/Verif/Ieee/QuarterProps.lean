import Verif.Ieee.QuarterGjk
import Verif.Ieee.EqSwapProps

/-!
# C103: the answers turn with the scene (binary32)

The searches work with fixed directions and branch on coordinates, so nothing in the code says that a scene turned by 90
degrees gets the turned answer.  It does, bit for bit up to the sign of zeros, although every step rounds: for balls and
polygons with any f32 coordinates.
-/

set_option linter.unusedSectionVars false
set_option synthInstance.maxSize 1000

namespace Auburn

open ExtremePoint2d Transformation2d Auburn.Invertible Composable SdfvCommonRel2d SdfRel2d

/-! ## specification -/

/-- turn by 90 degrees counter-clockwise -/
def quarter {F : Type} [Neg F] (v : V2 F) : V2 F := ⟨-v.y, v.x⟩

/-- every vertex turned -/
def Poly2d.quarter {F : Type} [Neg F] (p : Poly2d F) : Poly2d F := ⟨p.points.map Auburn.quarter⟩

/-- balls stay, polygons are turned (boxes are not covered) -/
def Shape2d.quarter {F : Type} [Neg F] : Shape2d F → Shape2d F
  | .ball b => .ball b
  | .box b => .box b
  | .poly p => .poly p.quarter

/-- no box -/
def Shape2d.NoBox {F : Type} : Shape2d F → Prop
  | .box _ => False
  | _ => True

/-- `b` is `a` turned by 90 degrees, up to the sign of zeros -/
def Turned (a b : V2 F32) : Prop := SameV (quarter a) b

/-- the same panic, flag and presence of a vector, and turned vectors, in all four queries -/
def TurnedAnswers (c c' : Except Panic Bool) (p p' d d' : Except Panic (Option (V2 F32)))
    (s s' : Except Panic (Bool × V2 F32)) : Prop :=
  SameOutcome Eq c c' ∧ SameOutcome (SameOption Turned) p p' ∧ SameOutcome (SameOption Turned) d d' ∧
  SameOutcome (fun x y => x.1 = y.1 ∧ Turned x.2 y.2) s s'

section
variable [env : F32Env]

theorem Tr2.turned {a b : V2 F32} (h : Tr2 a b) : Turned a b := ⟨Zr.iff.1 h.x, Zr.iff.1 h.y⟩
theorem Turned.tr {a b : V2 F32} (h : Turned a b) : Tr2 a b := ⟨Zr.iff.2 h.1, Zr.iff.2 h.2⟩
theorem tr_quarter (a : V2 F32) : Tr2 a (quarter a) := ⟨.refl _, .refl _⟩

theorem Tr2.length {a b : V2 F32} (h : Tr2 a b) : a.length = b.length := by
  unfold V2.length; rw [h.dotSelf]

theorem Tr2.normalize {a b : V2 F32} (h : Tr2 a b) : Tr2 a.normalizeOrZero b.normalizeOrZero := by
  unfold V2.normalizeOrZero
  rw [h.length]
  dsimp only
  split
  · exact Tr2.scale (.refl _) h
  · exact .zero

theorem trS_ball (b : Ball F32) : TrS b b := fun _ _ h => Tr2.scale (.refl _) h.normalize

theorem trS_poly (p : Poly2d F32) : TrS p p.quarter := by
  refine tr_poly ?_
  induction p.points with
  | nil => exact .nil
  | cons a l ih => exact .cons (tr_quarter a) ih

theorem trS_shape (s : Shape2d F32) (h : s.NoBox) : TrS s s.quarter := by
  cases s with
  | ball b => exact trS_ball b
  | box b => exact h.elim
  | poly p => exact trS_poly p

theorem turned_answers {A B A' B' T : Type} [∀ p d, SdfvCommonRel2d p d A B T F32] [∀ p d, SdfvCommonRel2d p d A' B' T F32]
    {a : A} {b : B} {a' : A'} {b' : B'} {t t' : T}
    (h : ∀ p d, SameOutcome (fun x y : Bool × V2 F32 => x.1 = y.1 ∧ Turned x.2 y.2) (sdfvCommonRel p d a b t)
      (sdfvCommonRel p d a' b' t')) :
    TurnedAnswers (collidesRel a b t) (collidesRel a' b' t') (penetratesRel a b t) (penetratesRel a' b' t')
      (distanceToRel a b t) (distanceToRel a' b' t') (sdfvRel a b t) (sdfvRel a' b' t') := by
  refine ⟨(h false false).map fun _ _ h => h.1, (h true false).map fun x y h => ?_, (h false true).map fun x y h => ?_,
    h true true⟩
  · rw [h.1]
    split
    · exact .some h.2
    · exact .none
  · rw [h.1]
    split
    · exact .none
    · exact .some h.2

theorem trAnswer {x y : Except Panic (Bool × V2 F32)} (h : TrE TrA x y) :
    SameOutcome (fun x y : Bool × V2 F32 => x.1 = y.1 ∧ Turned x.2 y.2) x y := by
  cases h with
  | error e => exact .panic e
  | ok h => exact .ok ⟨h.1, h.2.turned⟩

/-- generic core: turned support functions and an offset that is not tiny -/
theorem tr_pair {A A' B B' : Type} [ExtremePoint2d A F32] [ExtremePoint2d A' F32] [ExtremePoint2d B F32]
    [ExtremePoint2d B' F32] {x : A} {x' : A'} {y : B} {y' : B'} (hx : TrS x x') (hy : TrS y y') {t t' : V2 F32}
    (ht : Tr2 t t') (h0 : ¬ t.lengthSq < FloatExtra.epsilon) (p d : Bool) :
    SameOutcome (fun x y : Bool × V2 F32 => x.1 = y.1 ∧ Turned x.2 y.2)
      (LocalMinkowskiDiff2d.sdfvMinkowski p d ⟨x, y, t⟩) (LocalMinkowskiDiff2d.sdfvMinkowski p d ⟨x', y', t'⟩) :=
  trAnswer (tr_sdfvMinkowski (fun _ _ hd => (hx _ _ hd).sub ((hy _ _ hd.neg).add ht)) p d (tr_initialDirection ht h0))

/-- **Two polygons** with any vertices, NaN and infinities included: turn both and their offset by 90 degrees, and every
query gives the turned answer. -/
theorem C103_poly_poly (a b : Poly2d F32) (rel : V2 F32) (h0 : ¬ rel.lengthSq < FloatExtra.epsilon) :
    TurnedAnswers (collidesRel a b rel) (collidesRel a.quarter b.quarter (quarter rel))
      (penetratesRel a b rel) (penetratesRel a.quarter b.quarter (quarter rel))
      (distanceToRel a b rel) (distanceToRel a.quarter b.quarter (quarter rel))
      (sdfvRel a b rel) (sdfvRel a.quarter b.quarter (quarter rel)) :=
  turned_answers fun p d => tr_pair (trS_poly a) (trS_poly b) (tr_quarter rel) h0 p d

/-- **`Shape2d` values** that are balls or polygons. -/
theorem C103_shape2d (a b : Shape2d F32) (ha : a.NoBox) (hb : b.NoBox) (rel : V2 F32)
    (h0 : ¬ rel.lengthSq < FloatExtra.epsilon) :
    TurnedAnswers (collidesRel a b rel) (collidesRel a.quarter b.quarter (quarter rel))
      (penetratesRel a b rel) (penetratesRel a.quarter b.quarter (quarter rel))
      (distanceToRel a b rel) (distanceToRel a.quarter b.quarter (quarter rel))
      (sdfvRel a b rel) (sdfvRel a.quarter b.quarter (quarter rel)) :=
  turned_answers fun p d => tr_pair (trS_shape a ha) (trS_shape b hb) (tr_quarter rel) h0 p d

/-- **Two balls**, the centres not at the same place. -/
theorem C103_ball_ball (a b : Ball F32) (rel : V2 F32) (h0 : rel.length > 0) :
    TurnedAnswers (collidesRel a b rel) (collidesRel a b (quarter rel))
      (penetratesRel a b rel) (penetratesRel a b (quarter rel))
      (distanceToRel a b rel) (distanceToRel a b (quarter rel))
      (sdfvRel a b rel) (sdfvRel a b (quarter rel)) := by
  refine turned_answers fun p d => .ok ?_
  have h := tr_quarter rel
  show (ballDelta _ rel).1 = (ballDelta _ (quarter rel)).1 ∧ Turned (ballDelta _ rel).2 (ballDelta _ (quarter rel)).2
  unfold ballDelta
  rw [← h.length]
  dsimp only
  rw [if_pos h0, if_pos h0]
  exact ⟨rfl, (Tr2.scale (.refl _) h).turned⟩

/-- **Colliders** of the shape enum placed by `Vec2` or `Translate2d`: turn both shapes and both positions. -/
theorem C103_colliders (a b : Shape2d F32) (ha : a.NoBox) (hb : b.NoBox) (p q : V2 F32)
    (h0 : ¬ (q + -p).lengthSq < FloatExtra.epsilon) :
    TurnedAnswers (collides ⟨a, p⟩ ⟨b, q⟩) (collides ⟨a.quarter, quarter p⟩ ⟨b.quarter, quarter q⟩)
      (penetrates ⟨a, p⟩ ⟨b, q⟩) (penetrates ⟨a.quarter, quarter p⟩ ⟨b.quarter, quarter q⟩)
      (distanceTo ⟨a, p⟩ ⟨b, q⟩) (distanceTo ⟨a.quarter, quarter p⟩ ⟨b.quarter, quarter q⟩)
      (sdfv ⟨a, p⟩ ⟨b, q⟩) (sdfv ⟨a.quarter, quarter p⟩ ⟨b.quarter, quarter q⟩) ∧
    TurnedAnswers (collides ⟨a, Translate2d.mk p⟩ ⟨b, Translate2d.mk q⟩)
        (collides ⟨a.quarter, Translate2d.mk (quarter p)⟩ ⟨b.quarter, Translate2d.mk (quarter q)⟩)
      (penetrates ⟨a, Translate2d.mk p⟩ ⟨b, Translate2d.mk q⟩)
        (penetrates ⟨a.quarter, Translate2d.mk (quarter p)⟩ ⟨b.quarter, Translate2d.mk (quarter q)⟩)
      (distanceTo ⟨a, Translate2d.mk p⟩ ⟨b, Translate2d.mk q⟩)
        (distanceTo ⟨a.quarter, Translate2d.mk (quarter p)⟩ ⟨b.quarter, Translate2d.mk (quarter q)⟩)
      (sdfv ⟨a, Translate2d.mk p⟩ ⟨b, Translate2d.mk q⟩)
        (sdfv ⟨a.quarter, Translate2d.mk (quarter p)⟩ ⟨b.quarter, Translate2d.mk (quarter q)⟩) := by
  have ht : Tr2 (q + -p) (quarter q + -quarter p) := (tr_quarter q).add (tr_quarter p).neg
  have key := turned_answers (A := Shape2d F32) (B := Shape2d F32) (T := V2 F32) (a := a) (b := b)
    (a' := a.quarter) (b' := b.quarter) fun x y => tr_pair (trS_shape a ha) (trS_shape b hb) ht h0 x y
  have id1 : ∀ r : Except Panic (Bool × V2 F32), r.map (fun r => (r.1, r.2)) = r := by
    intro r; cases r <;> rfl
  obtain ⟨k1, k2, k3, k4⟩ := key
  rw [← id1 (sdfvRel a b (q + -p)), ← id1 (sdfvRel a.quarter b.quarter (quarter q + -quarter p))] at k4
  exact ⟨⟨k1, k2, k3, k4⟩, ⟨k1, k2, k3, k4⟩⟩

end

end Auburn
