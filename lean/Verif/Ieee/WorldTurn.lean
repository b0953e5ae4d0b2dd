import Verif.Ieee.QuarterTurns

/-!
# C103: colliders with a full transform turn with the world (binary32)

Here the shapes stay and the transforms turn: position and rotation of both colliders by 90 degrees.  The relative
transform, computed by rounding operations, comes out the same up to the sign of zeros; so does the local answer, and
`sdfv`, which alone converts its vector to the world, turns.
-/

set_option linter.unusedSectionVars false
set_option synthInstance.maxSize 1000

namespace Auburn

open ExtremePoint2d Transformation2d Auburn.Invertible Composable SdfvCommonRel2d SdfRel2d

/-! ## specification -/

/-- the object turned by 90 degrees around the origin of the world: its position and its rotation -/
def Transform2d.quarter {F : Type} [Neg F] (t : Transform2d F) : Transform2d F :=
  ⟨Auburn.quarter t.pos, ⟨Auburn.quarter t.rot.a⟩, t.scale⟩

/-- the collider turned around the origin of the world -/
def Collider2d.turn {F S : Type} [Neg F] (c : Collider2d S (Transform2d F)) : Collider2d S (Transform2d F) :=
  ⟨c.shape, c.transform.quarter⟩

/-- with both colliders turned: the same panics and flags; the vectors of `penetrates` and `distance_to`, which are in the
frame of the first collider, the same; the vector of `sdfv`, which is in the world, turned -/
def TurnsWithWorld {A B : Type} [∀ p d, SdfvCommonRel2d p d A B (Transform2d F32) F32] [env : F32Env]
    (a : Collider2d A (Transform2d F32)) (b : Collider2d B (Transform2d F32)) : Prop :=
  SameOutcome Eq (collides a b) (collides a.turn b.turn) ∧
  SameOutcome (SameOption SameV) (penetrates a b) (penetrates a.turn b.turn) ∧
  SameOutcome (SameOption SameV) (distanceTo a b) (distanceTo a.turn b.turn) ∧
  SameOutcome (fun x y => x.1 = y.1 ∧ Turned x.2 y.2) (sdfv a b) (sdfv a.turn b.turn)

/-! ## proof -/

section
variable [env : F32Env]

/-- the inverse of the turned rotor undoes the turn -/
theorem unturn {r r' v v' : V2 F32} (hr : Tr2 r r') (hv : Tr2 v v') :
    Zr2 ((Rotor2d.inverse ⟨r⟩).rotate v) ((Rotor2d.inverse ⟨r'⟩).rotate v') := by
  refine ⟨?_, ?_⟩
  · show Zr (r.x * v.x - -r.y * v.y) (r'.x * v'.x - -r'.y * v'.y)
    have := (hr.x.mul hv.x).sub (hr.y.neg.mul hv.y)
    rw [Zr.mn] at this
    have e : -(-r.y * v.y) - -r.x * v.x = r.x * v.x - -r.y * v.y := by
      show -(-r.y * v.y) + -(-r.x * v.x) = r.x * v.x + -(-r.y * v.y)
      rw [Zr.nm r.x, Zr.nn, Zr.ac]
    rwa [e] at this
  · show Zr (r.x * v.y + -r.y * v.x) (r'.x * v'.y + -r'.y * v'.x)
    have := (hr.x.mul hv.y).add (hr.y.neg.mul hv.x)
    rw [Zr.mn (-r.x), Zr.nm r.x, Zr.nn, Zr.ac] at this
    exact this

/-- turning the rotor turns the result -/
theorem turn_rotate {r r' v v' : V2 F32} (hr : Tr2 r r') (hv : Zr2 v v') :
    Tr2 ((⟨r⟩ : Rotor2d F32).rotate v) ((⟨r'⟩ : Rotor2d F32).rotate v') := by
  refine ⟨?_, ?_⟩
  · show Zr (-(r.x * v.y + r.y * v.x)) (r'.x * v'.x - r'.y * v'.y)
    have := (hr.x.mul hv.x).sub (hr.y.mul hv.y)
    rw [Zr.nm] at this
    refine (Zr.na _ _).trans ?_
    rw [Zr.ac]
    exact this
  · show Zr (r.x * v.x - r.y * v.y) (r'.x * v'.y + r'.y * v'.x)
    have := (hr.x.mul hv.y).add (hr.y.mul hv.x)
    rw [Zr.nm, Zr.ac] at this
    exact this

/-- the relative transform does not notice the turn -/
theorem turn_delta (t s : Transform2d F32) (hs : t.scale.x = t.scale.y) :
    SameTransform.same (deltaTransform t s) (deltaTransform t.quarter s.quarter) := by
  have hr : Tr2 t.rot.a t.quarter.rot.a := tr_quarter _
  have hp : Tr2 t.pos t.quarter.pos := tr_quarter _
  have hq : Tr2 s.pos s.quarter.pos := tr_quarter _
  have hw : Tr2 s.rot.a s.quarter.rot.a := tr_quarter _
  have u := unturn hr (Tr2.zero.sub hp)
  have u' : Zr2 (unapply t 0) (unapply t.quarter 0) := ⟨u.x.divR t.scale.x, u.y.divR t.scale.y⟩
  have m : Tr2 (V2.mulV t.scale.recip s.pos) (V2.mulV t.scale.recip s.quarter.pos) := by
    have := Tr2.scale (.refl (1 / t.scale.x)) hq
    have e : ∀ v : V2 F32, V2.mulV t.scale.recip v = V2.scale (1 / t.scale.x) v := by
      intro v
      show (⟨1 / t.scale.x * v.x, 1 / t.scale.y * v.y⟩ : V2 F32) = ⟨1 / t.scale.x * v.x, 1 / t.scale.x * v.y⟩
      rw [hs]
    rw [e, e]
    exact this
  have k := unturn hr m
  have w := unturn hr hw
  exact ⟨(k.add u').sameV, w.sameV, (Zr2.refl _).sameV⟩

theorem turnsWithWorld_of {A B : Type} [∀ p d, SdfvCommonRel2d p d A B (Transform2d F32) F32]
    (a : Collider2d A (Transform2d F32)) (b : Collider2d B (Transform2d F32))
    (hc : ∀ p d, SameOutcome SameAnswer (sdfvCommonRel p d a.shape b.shape (deltaTransform a.transform b.transform))
      (sdfvCommonRel p d a.shape b.shape (deltaTransform a.transform.quarter b.transform.quarter))) : TurnsWithWorld a b := by
  refine ⟨(hc false false).map fun _ _ h => h.1, (hc true false).map fun x y h => ?_, (hc false true).map fun x y h => ?_,
    (hc true true).map fun x y h => ⟨h.1, (turn_rotate (tr_quarter _) h.2.zr).turned⟩⟩
  · rw [h.1]
    split
    · exact .some h.2
    · exact .none
  · rw [h.1]
    split
    · exact .none
    · exact .some h.2

theorem sameV_refl_list (l : List (V2 F32)) : List.Forall₂ SameV l l := by
  induction l with
  | nil => exact .nil
  | cons a l ih => exact .cons ⟨.inl rfl, .inl rfl⟩ ih

theorem sameShape_refl (s : Shape2d F32) (h : s.NoBox) : SameShape.same s s := by
  cases s with
  | ball b => exact Or.inl rfl
  | box b => exact h.elim
  | poly p => exact sameV_refl_list p.points

/-- **Two polygons** with any vertices, positions and rotations and a uniform scale of the first, NaN, infinities and zero
scales included. -/
theorem C103_world_poly_poly (a b : Collider2d (Poly2d F32) (Transform2d F32))
    (hs : a.transform.scale.x = a.transform.scale.y) : TurnsWithWorld a b :=
  turnsWithWorld_of a b fun p d =>
    blind_minkowski (sameV_refl_list a.shape.points) (sameV_refl_list b.shape.points) (turn_delta _ _ hs) p d

/-- **`Shape2d` values** that are balls or polygons. -/
theorem C103_world_shape2d (a b : Collider2d (Shape2d F32) (Transform2d F32)) (ha : a.shape.NoBox) (hb : b.shape.NoBox)
    (hs : a.transform.scale.x = a.transform.scale.y) : TurnsWithWorld a b :=
  turnsWithWorld_of a b fun p d =>
    blind_minkowski (sameShape_refl _ ha) (sameShape_refl _ hb) (turn_delta _ _ hs) p d

/-- **Two balls**, with the signed distance. -/
theorem C103_world_ball_ball (a b : Collider2d (Ball F32) (Transform2d F32))
    (hs : a.transform.scale.x = a.transform.scale.y) :
    TurnsWithWorld a b ∧ SameOutcome Same32 (sdf a b) (sdf a.turn b.turn) := by
  have hd := BlindTransform.origin (turn_delta a.transform b.transform hs)
  refine ⟨turnsWithWorld_of a b fun p d => .ok (blind_ballDelta (.refl _) hd), .ok (Zr.iff.1 ?_)⟩
  show Zr ((applyOrigin (deltaTransform a.transform b.transform)).length - _)
    ((applyOrigin (deltaTransform a.transform.quarter b.transform.quarter)).length - _)
  rw [hd.length]
  exact .refl _

/-- **A ball and a point**, with the signed distance. -/
theorem C103_world_ball_point (a : Collider2d (Ball F32) (Transform2d F32)) (b : Collider2d (Point F32) (Transform2d F32))
    (hs : a.transform.scale.x = a.transform.scale.y) :
    TurnsWithWorld a b ∧ SameOutcome Same32 (sdf a b) (sdf a.turn b.turn) := by
  have hd := BlindTransform.origin (turn_delta a.transform b.transform hs)
  refine ⟨turnsWithWorld_of a b fun p d => .ok (blind_ballDelta (.refl _) hd), .ok (Zr.iff.1 ?_)⟩
  show Zr ((applyOrigin (deltaTransform a.transform b.transform)).length - _)
    ((applyOrigin (deltaTransform a.transform.quarter b.transform.quarter)).length - _)
  rw [hd.length]
  exact .refl _

/-- the hypotheses are met by colliders that are moved, rotated (not by a multiple of 90 degrees) and scaled -/
example : ∃ a b : Collider2d (Shape2d F32) (Transform2d F32), a.shape.NoBox ∧ b.shape.NoBox ∧
    a.transform.scale.x = a.transform.scale.y ∧ a.transform.pos = litV 3 (-1 / 7) ∧ b.transform.rot = ⟨litV (3 / 5) (4 / 5)⟩ ∧
    b.transform.scale = litV 2 (1 / 2) :=
  ⟨⟨.poly (litPoly [(1, 0), (0, 2), (-1, -1 / 3)]), ⟨litV 3 (-1 / 7), ⟨litV (4 / 5) (3 / 5)⟩, litV 3 3⟩⟩,
    ⟨.ball ⟨lit (1 / 2)⟩, ⟨litV 0 5, ⟨litV (3 / 5) (4 / 5)⟩, litV 2 (1 / 2)⟩⟩, trivial, trivial, rfl, rfl, rfl, rfl⟩

end

end Auburn
