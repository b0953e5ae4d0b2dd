import Verif.Ieee.EqProps

/-!
# C102: `==` inputs are interchangeable (balls, points, polygons)
-/

set_option linter.unusedSectionVars false
set_option synthInstance.maxSize 1000

namespace Auburn

open ExtremePoint2d Transformation2d Auburn.Invertible Composable SdfvCommonRel2d SdfRel2d

/-! ## specification -/

/-- the same number, or `==` (so the two differ in the sign of a zero at most) -/
def Same32 (x y : F32) : Prop := x = y ∨ F32.eq x y

/-- component by component -/
def SameV (a b : V2 F32) : Prop := Same32 a.x b.x ∧ Same32 a.y b.y

/-- the same panic, or results related by `R` -/
inductive SameOutcome {A : Type} (R : A → A → Prop) : Except Panic A → Except Panic A → Prop
  | panic (e : Panic) : SameOutcome R (.error e) (.error e)
  | ok {a b : A} (h : R a b) : SameOutcome R (.ok a) (.ok b)

/-- both absent, or both present and related -/
inductive SameOption {A : Type} (R : A → A → Prop) : Option A → Option A → Prop
  | none : SameOption R none none
  | some {a b : A} (h : R a b) : SameOption R (some a) (some b)

/-- transforms whose numbers differ in the sign of zeros at most -/
class SameTransform (T : Type) where
  same : T → T → Prop
  /-- no number of the scale is zero -/
  scaled : T → Prop

instance : SameTransform (V2 F32) := ⟨SameV, fun _ => True⟩
instance : SameTransform (Translate2d F32) := ⟨fun a b => SameV a.pos b.pos, fun _ => True⟩
instance : SameTransform (AxisTransform2d F32) :=
  ⟨fun a b => SameV a.pos b.pos ∧ Same32 a.scale b.scale, fun a => ¬ F32.eq a.scale 0⟩
instance : SameTransform (Transform2d F32) :=
  ⟨fun a b => SameV a.pos b.pos ∧ SameV a.rot.a b.rot.a ∧ SameV a.scale b.scale,
    fun a => ¬ F32.eq a.scale.x 0 ∧ ¬ F32.eq a.scale.y 0⟩

/-- shapes whose numbers differ in the sign of zeros at most -/
class SameShape (A : Type) where
  same : A → A → Prop

instance : SameShape (Ball F32) := ⟨fun a b => Same32 a.radius b.radius⟩
instance : SameShape (Point F32) := ⟨fun _ _ => True⟩
instance : SameShape (Poly2d F32) := ⟨fun a b => List.Forall₂ SameV a.points b.points⟩
/-- for `Shape2d` only balls and polygons (not boxes) are covered -/
instance : SameShape (Shape2d F32) := ⟨fun a b => match a, b with
  | .ball a, .ball b => Same32 a.radius b.radius
  | .poly a, .poly b => List.Forall₂ SameV a.points b.points
  | _, _ => False⟩

/-! ## transforms -/

section
variable [env : F32Env]

theorem SameV.zr {a b : V2 F32} (h : SameV a b) : Zr2 a b := ⟨Zr.iff.2 h.1, Zr.iff.2 h.2⟩
theorem Zr2.sameV {a b : V2 F32} (h : Zr2 a b) : SameV a b := ⟨Zr.iff.1 h.x, Zr.iff.1 h.y⟩
theorem Zr2.refl (a : V2 F32) : Zr2 a a := ⟨.refl _, .refl _⟩
theorem Zr2.symm {a b : V2 F32} (h : Zr2 a b) : Zr2 b a := ⟨h.x.symm, h.y.symm⟩
theorem Zr2.mulV {a a' b b' : V2 F32} (h : Zr2 a a') (g : Zr2 b b') : Zr2 (V2.mulV a b) (V2.mulV a' b') :=
  ⟨h.x.mul g.x, h.y.mul g.y⟩
theorem Zr2.length {a b : V2 F32} (h : Zr2 a b) : a.length = b.length := by
  unfold V2.length; rw [h.dotSelf]
theorem Zr2.normalize {a b : V2 F32} (h : Zr2 a b) : Zr2 a.normalizeOrZero b.normalizeOrZero := by
  unfold V2.normalizeOrZero
  rw [h.length]
  dsimp only
  split
  · exact Zr2.scale (.refl _) h
  · exact .refl _

/-- what makes a transform type insensitive to the sign of zeros -/
class BlindTransform (T : Type) [Transformation2d T F32] [Auburn.Invertible T] [Composable T] [SameTransform T] : Prop where
  origin : ∀ {t t' : T}, SameTransform.same t t' → Zr2 (applyOrigin t) (applyOrigin t')
  applyN : ∀ {t t' : T}, SameTransform.same t t' → ∀ {p p' : V2 F32}, Zr2 p p' → Zr2 (applyNormal t p) (applyNormal t' p')
  unapplyN : ∀ {t t' : T}, SameTransform.same t t' → ∀ {p p' : V2 F32}, Zr2 p p' →
    Zr2 (unapplyNormal t p) (unapplyNormal t' p')
  applyP : ∀ {t t' : T}, SameTransform.same t t' → ∀ {p p' : V2 F32}, Zr2 p p' → Zr2 (apply t p) (apply t' p')
  unapplyP : ∀ {t t' : T}, SameTransform.same t t' → SameTransform.scaled t → ∀ {p p' : V2 F32}, Zr2 p p' →
    Zr2 (unapply t p) (unapply t' p')
  factor : ∀ {t t' : T}, SameTransform.same t t' → Zr (scalingFactor t) (scalingFactor t')
  inv : ∀ {t t' : T}, SameTransform.same t t' → SameTransform.scaled t → SameTransform.same (inverse t) (inverse t')
  comp : ∀ {t t' s s' : T}, SameTransform.same t t' → SameTransform.same s s' →
    SameTransform.same (compose t s) (compose t' s')

instance : BlindTransform (V2 F32) where
  origin h := SameV.zr h
  applyN _ _ _ g := g
  unapplyN _ _ _ g := g
  applyP h _ _ g := g.add (SameV.zr h)
  unapplyP h _ _ _ g := g.sub (SameV.zr h)
  factor _ := .one
  inv h _ := (SameV.zr h).neg.sameV
  comp h g := ((SameV.zr g).add (SameV.zr h)).sameV

instance : BlindTransform (Translate2d F32) where
  origin h := SameV.zr h
  applyN _ _ _ g := g
  unapplyN _ _ _ g := g
  applyP h _ _ g := g.add (SameV.zr h)
  unapplyP h _ _ _ g := g.sub (SameV.zr h)
  factor _ := .one
  inv h _ := (SameV.zr h).neg.sameV
  comp h g := ((SameV.zr g).add (SameV.zr h)).sameV

instance : BlindTransform (AxisTransform2d F32) where
  origin h := SameV.zr h.1
  applyN _ _ _ g := g
  unapplyN _ _ _ g := g
  applyP h _ _ g := (SameV.zr h.1).add (Zr2.scale (Zr.iff.2 h.2) g)
  unapplyP h h0 _ _ g := by
    have k := g.sub (SameV.zr h.1)
    exact ⟨k.x.div (Zr.iff.2 h.2) h0, k.y.div (Zr.iff.2 h.2) h0⟩
  factor h := Zr.iff.2 h.2
  inv h h0 := ⟨(SameV.zr h.1).neg.sameV, Zr.iff.1 (Zr.one.div (Zr.iff.2 h.2) h0)⟩
  comp h g := ⟨((SameV.zr h.1).add (Zr2.scale (Zr.iff.2 h.2) (SameV.zr g.1))).sameV,
    Zr.iff.1 ((Zr.iff.2 h.2).mul (Zr.iff.2 g.2))⟩

theorem zr_rotate {r r' : Rotor2d F32} (h : Zr2 r.a r'.a) {v v' : V2 F32} (g : Zr2 v v') : Zr2 (r.rotate v) (r'.rotate v') :=
  ⟨(h.x.mul g.x).sub (h.y.mul g.y), (h.x.mul g.y).add (h.y.mul g.x)⟩

theorem zr_rotInv {r r' : Rotor2d F32} (h : Zr2 r.a r'.a) : Zr2 r.inverse.a r'.inverse.a := ⟨h.x, h.y.neg⟩

theorem zr_unapply {t t' : Transform2d F32} (h : SameTransform.same t t') (h0 : SameTransform.scaled t) {p p' : V2 F32}
    (g : Zr2 p p') : Zr2 (unapply t p) (unapply t' p') := by
  have k := zr_rotate (zr_rotInv (SameV.zr h.2.1)) (g.sub (SameV.zr h.1))
  have s := SameV.zr h.2.2
  exact ⟨k.x.div s.x h0.1, k.y.div s.y h0.2⟩

instance : BlindTransform (Transform2d F32) where
  origin h := SameV.zr h.1
  applyN h _ _ g := zr_rotate (SameV.zr h.2.1) g
  unapplyN h _ _ g := zr_rotate (zr_rotInv (SameV.zr h.2.1)) g
  applyP h _ _ g := (zr_rotate (SameV.zr h.2.1) ((SameV.zr h.2.2).mulV g)).add (SameV.zr h.1)
  unapplyP h h0 _ _ g := zr_unapply h h0 g
  factor h := (SameV.zr h.2.2).x.fmax (SameV.zr h.2.2).y
  inv h h0 := by
    have s := SameV.zr h.2.2
    exact ⟨(zr_unapply h h0 (.refl _)).sameV, (zr_rotInv (SameV.zr h.2.1)).sameV,
      Zr2.sameV ⟨Zr.one.div s.x h0.1, Zr.one.div s.y h0.2⟩⟩
  comp h g := by
    have r := SameV.zr h.2.1
    have r' := SameV.zr g.2.1
    exact ⟨((zr_rotate r ((SameV.zr h.2.2).mulV (SameV.zr g.1))).add (SameV.zr h.1)).sameV,
      Zr2.sameV ⟨(r.x.mul r'.x).sub (r.y.mul r'.y), (r.x.mul r'.y).add (r.y.mul r'.x)⟩,
      ((SameV.zr h.2.2).mulV (SameV.zr g.2.2)).sameV⟩

/-! ## shapes and pairs -/

/-- a shape type whose support function is insensitive to the sign of zeros -/
class BlindShape (A : Type) [ExtremePoint2d A F32] [SameShape A] : Prop where
  ext : ∀ {a a' : A}, SameShape.same a a' → ∀ {d d' : V2 F32}, Zr2 d d' → Zr2 (extremePoint a d) (extremePoint a' d')

theorem zrL {l m : List (V2 F32)} (h : List.Forall₂ SameV l m) : ZrL l m := h.imp fun _ _ g => SameV.zr g

instance : BlindShape (Ball F32) where
  ext h _ _ g := Zr2.scale (Zr.iff.2 h) g.normalize
instance : BlindShape (Point F32) where
  ext _ _ _ _ := .refl _
instance : BlindShape (Poly2d F32) where
  ext h _ _ g := zr_poly (zrL h) _ _ g
instance : BlindShape (Shape2d F32) where
  ext {a a'} h _ _ g := by
    cases a <;> cases a' <;> first | exact h.elim | skip
    · exact Zr2.scale (Zr.iff.2 h) g.normalize
    · exact zr_poly (zrL h) _ _ g

/-- flags equal, vectors the same up to the sign of zeros -/
def SameAnswer (a b : Bool × V2 F32) : Prop := a.1 = b.1 ∧ SameV a.2 b.2

theorem zrAnswer {x y : Except Panic (Bool × V2 F32)} (h : ZrE ZrA x y) : SameOutcome SameAnswer x y := by
  cases h with
  | error e => exact .panic e
  | ok h => exact .ok ⟨h.1, h.2.sameV⟩

theorem SameOutcome.map {A B : Type} {R : A → A → Prop} {Q : B → B → Prop} {f : A → B} {g : A → B}
    {x y : Except Panic A} (h : SameOutcome R x y) (k : ∀ a b, R a b → Q (f a) (g b)) : SameOutcome Q (x.map f) (y.map g) := by
  cases h with
  | panic e => exact .panic e
  | ok h => exact .ok (k _ _ h)

section
variable {A B T : Type} [Transformation2d T F32] [Auburn.Invertible T] [Composable T] [SameTransform T] [BlindTransform T]
  [∀ p d, SdfvCommonRel2d p d A B T F32]

/-- `collides`, `penetrates`, `distance_to` and `sdfv` of `a`, `b` and of `a'`, `b'` panic alike, return the same flags
and the same presence of a vector, and vectors that differ in the sign of zeros at most -/
def Interchangeable (a a' : Collider2d A T) (b b' : Collider2d B T) : Prop :=
  SameOutcome Eq (collides a b) (collides a' b') ∧
  SameOutcome (SameOption SameV) (penetrates a b) (penetrates a' b') ∧
  SameOutcome (SameOption SameV) (distanceTo a b) (distanceTo a' b') ∧
  SameOutcome (fun x y => x.1 = y.1 ∧ SameV x.2 y.2) (sdfv a b) (sdfv a' b')

/-- colliders whose numbers differ in the sign of zeros at most -/
def SameCollider {S : Type} [SameShape S] (a a' : Collider2d S T) : Prop :=
  SameShape.same a.shape a'.shape ∧ SameTransform.same a.transform a'.transform

theorem same_delta {t t' s s' : T} (h : SameTransform.same t t') (g : SameTransform.same s s') (h0 : SameTransform.scaled t) :
    SameTransform.same (deltaTransform t s) (deltaTransform t' s') :=
  BlindTransform.comp (BlindTransform.inv h h0) g

theorem interchangeable_of {a a' : Collider2d A T} {b b' : Collider2d B T}
    (ht : SameTransform.same a.transform a'.transform)
    (hc : ∀ p d, SameOutcome SameAnswer (sdfvCommonRel p d a.shape b.shape (deltaTransform a.transform b.transform))
      (sdfvCommonRel p d a'.shape b'.shape (deltaTransform a'.transform b'.transform))) : Interchangeable a a' b b' := by
  refine ⟨(hc false false).map fun _ _ h => h.1, (hc true false).map fun x y h => ?_, (hc false true).map fun x y h => ?_,
    (hc true true).map fun x y h => ⟨h.1, (BlindTransform.applyN ht h.2.zr).sameV⟩⟩
  · rw [h.1]
    split
    · exact .some h.2
    · exact .none
  · rw [h.1]
    split
    · exact .none
    · exact .some h.2

end

section
variable {T : Type} [Transformation2d T F32] [Auburn.Invertible T] [Composable T] [SameTransform T] [BlindTransform T]

theorem blind_minkowski {A B : Type} [ExtremePoint2d A F32] [ExtremePoint2d B F32] [SameShape A] [SameShape B] [BlindShape A]
    [BlindShape B] {a a' : A} {b b' : B} {t t' : T} (ha : SameShape.same a a') (hb : SameShape.same b b')
    (ht : SameTransform.same t t') (p d : Bool) :
    SameOutcome SameAnswer (LocalMinkowskiDiff2d.sdfvMinkowski p d ⟨a, b, t⟩)
      (LocalMinkowskiDiff2d.sdfvMinkowski p d ⟨a', b', t'⟩) := by
  refine zrAnswer (zr_sdfvMinkowski (fun d d' hd => ?_) p d (zr_initialDirection (BlindTransform.origin ht)))
  exact (BlindShape.ext ha hd).sub (BlindTransform.applyP ht (BlindShape.ext hb (BlindTransform.unapplyN ht hd.neg)))

theorem blind_ballDelta {r r' : F32} {v v' : V2 F32} (hr : Zr r r') (hv : Zr2 v v') :
    SameAnswer (ballDelta r v) (ballDelta r' v') := by
  unfold ballDelta
  rw [hv.length]
  dsimp only
  have h := (Zr.refl v'.length).lt hr
  split
  · refine ⟨?_, (Zr2.scale (((Zr.refl _).sub hr).divR _) hv).sameV⟩
    simp only [h]
  · exact ⟨rfl, (Zr2.scale hr (.refl _)).sameV⟩

/-- **balls, points and polygons: `==` colliders are interchangeable.**  Replace both colliders by ones that differ in
the sign of zeros only (positions, rotations, scales, radii, vertices; NaN and infinities included); the scale of the
first must not be zero.  Every query gives the same panic, flag and presence of a result, and the same vector up to
the sign of its zeros. -/
theorem C102_poly_poly (a a' b b' : Collider2d (Poly2d F32) T) (ha : SameCollider a a') (hb : SameCollider b b')
    (h0 : SameTransform.scaled a.transform) : Interchangeable a a' b b' :=
  interchangeable_of ha.2 fun p d => blind_minkowski ha.1 hb.1 (same_delta ha.2 hb.2 h0) p d

/-- the same for `Shape2d` values that are balls or polygons -/
theorem C102_shape2d (a a' b b' : Collider2d (Shape2d F32) T) (ha : SameCollider a a') (hb : SameCollider b b')
    (h0 : SameTransform.scaled a.transform) : Interchangeable a a' b b' :=
  interchangeable_of ha.2 fun p d => blind_minkowski ha.1 hb.1 (same_delta ha.2 hb.2 h0) p d

/-- the same for two balls, with the signed distance -/
theorem C102_ball_ball (a a' b b' : Collider2d (Ball F32) T) (ha : SameCollider a a') (hb : SameCollider b b')
    (h0 : SameTransform.scaled a.transform) :
    Interchangeable a a' b b' ∧ SameOutcome Same32 (sdf a b) (sdf a' b') := by
  have hd := BlindTransform.origin (same_delta ha.2 hb.2 h0)
  have hr : Zr (a.shape.radius + b.shape.radius) (a'.shape.radius + b'.shape.radius) :=
    (Zr.iff.2 ha.1).add (Zr.iff.2 hb.1)
  refine ⟨interchangeable_of ha.2 fun p d => .ok (blind_ballDelta hr hd), .ok (Zr.iff.1 ?_)⟩
  rw [hd.length]
  exact (Zr.refl _).sub hr

/-- the same for a ball and a point -/
theorem C102_ball_point (a a' : Collider2d (Ball F32) T) (b b' : Collider2d (Point F32) T) (ha : SameCollider a a')
    (hb : SameCollider b b') (h0 : SameTransform.scaled a.transform) :
    Interchangeable a a' b b' ∧ SameOutcome Same32 (sdf a b) (sdf a' b') := by
  have hd := BlindTransform.origin (same_delta ha.2 hb.2 h0)
  refine ⟨interchangeable_of ha.2 fun p d => .ok (blind_ballDelta (Zr.iff.2 ha.1) hd), .ok (Zr.iff.1 ?_)⟩
  rw [hd.length]
  exact (Zr.refl _).sub (Zr.iff.2 ha.1)

/-- the same for a point and a ball; this pair inverts the relative transform, whose scale must not be zero either -/
theorem C102_point_ball (a a' : Collider2d (Point F32) T) (b b' : Collider2d (Ball F32) T) (ha : SameCollider a a')
    (hb : SameCollider b b') (h0 : SameTransform.scaled a.transform)
    (h1 : SameTransform.scaled (deltaTransform a.transform b.transform)) : Interchangeable a a' b b' := by
  have hd := same_delta ha.2 hb.2 h0
  refine interchangeable_of ha.2 fun p d => .ok ?_
  have k := blind_ballDelta (Zr.iff.2 hb.1) (BlindTransform.origin (BlindTransform.inv hd h1))
  exact ⟨k.1, (BlindTransform.applyN hd k.2.zr.neg).sameV⟩

/-- the same for two points -/
theorem C102_point_point (a a' b b' : Collider2d (Point F32) T) (ha : SameCollider a a')
    (hb : SameCollider b b') (h0 : SameTransform.scaled a.transform) :
    Interchangeable a a' b b' ∧ SameOutcome Same32 (sdf a b) (sdf a' b') := by
  have hd := BlindTransform.origin (same_delta ha.2 hb.2 h0)
  refine ⟨interchangeable_of ha.2 fun p d => .ok ⟨?_, hd.sameV⟩, .ok (Zr.iff.1 ?_)⟩
  · show (decide (F32.eq _ 0) && decide (F32.eq _ 0)) = (decide (F32.eq _ 0) && decide (F32.eq _ 0))
    simp only [hd.x.eqv .zero, hd.y.eqv .zero]
  · rw [hd.length]; exact .refl _

end

end

end Auburn
