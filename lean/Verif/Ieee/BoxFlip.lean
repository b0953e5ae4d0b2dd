import Verif.Ieee.MirrorProps

/-!
# C103: boxes against points and balls, mirrored (binary32)

The hand-written box queries fold the plane on both axes with `abs` and unfold the answer with `signum`.  Mirrored in
either axis or both, the answers are the mirrored ones, bit for bit up to the sign of zeros.
-/

set_option linter.unusedSectionVars false
set_option synthInstance.maxSize 1000

namespace Auburn

open ExtremePoint2d Transformation2d Auburn.Invertible Composable SdfvCommonRel2d SdfRel2d

/-! ## specification -/

/-- mirror left and right if `sx`, up and down if `sy` -/
def flip {F : Type} [Neg F] (sx sy : Bool) (v : V2 F) : V2 F := ⟨if sx then -v.x else v.x, if sy then -v.y else v.y⟩

/-- `b` is `a` mirrored, up to the sign of zeros -/
def Flipped (sx sy : Bool) (a b : V2 F32) : Prop := SameV (flip sx sy a) b

/-- the same panic, flag and presence of a vector, and mirrored vectors, in all four queries -/
def FlippedAnswers (sx sy : Bool) (c c' : Except Panic Bool) (p p' d d' : Except Panic (Option (V2 F32)))
    (s s' : Except Panic (Bool × V2 F32)) : Prop :=
  SameOutcome Eq c c' ∧ SameOutcome (SameOption (Flipped sx sy)) p p' ∧ SameOutcome (SameOption (Flipped sx sy)) d d' ∧
  SameOutcome (fun x y => x.1 = y.1 ∧ Flipped sx sy x.2 y.2) s s'

/-! ## proof -/

section
variable [env : F32Env]

/-- one coordinate -/
def fl (s : Bool) (a : F32) : F32 := if s then -a else a

theorem fl_abs (s : Bool) (a : F32) : FloatExtra.abs (fl s a) = FloatExtra.abs a := by
  cases s
  · rfl
  · cases a <;> rfl

theorem fl_signum (s : Bool) (a : F32) : FloatExtra.signum (fl s a) = fl s (FloatExtra.signum a) := by
  cases s
  · rfl
  · cases a with
    | nan => rfl
    | inf t => cases t
               · rfl
               · exact (Zr.nn 1).symm
    | fin t m h => cases t
                   · rfl
                   · exact (Zr.nn 1).symm

theorem mul_fl (s : Bool) (c a : F32) : c * fl s a = fl s (c * a) := by
  cases s
  · rfl
  · exact Zr.mn c a

theorem fl_div (s : Bool) (a c : F32) : fl s a / c = fl s (a / c) := by
  cases s
  · rfl
  · show F32.div (F32.neg a) c = F32.neg (F32.div a c)
    have hx : ∀ s t : Bool, (!s ^^ t) = !(s ^^ t) := by decide
    cases a with
    | nan => rfl
    | inf s => cases c with
      | nan => rfl
      | inf t => rfl
      | fin t b hb => show F32.inf (!s ^^ t) = F32.inf (!(s ^^ t)); rw [hx]
    | fin s a ha => cases c with
      | nan => rfl
      | inf t =>
        show F32.ofMag (!s ^^ t) 0 (le_refl 0) = -(F32.ofMag (s ^^ t) 0 (le_refl 0))
        rw [Zr.neg_ofMag, hx]
      | fin t b hb =>
        show (open Classical in if b = 0 then (if a = 0 then F32.nan else .inf (!s ^^ t)) else
            F32.ofMag (!s ^^ t) (a / b) (div_nonneg ha.1 hb.1)) =
          F32.neg (open Classical in if b = 0 then (if a = 0 then F32.nan else .inf (s ^^ t)) else
            F32.ofMag (s ^^ t) (a / b) (div_nonneg ha.1 hb.1))
        split
        · split
          · rfl
          · show F32.inf (!s ^^ t) = F32.inf (!(s ^^ t)); rw [hx]
        · show _ = -(F32.ofMag (s ^^ t) (a / b) (div_nonneg ha.1 hb.1))
          rw [Zr.neg_ofMag, hx]

theorem fl_sq (s : Bool) (a : F32) : fl s a * fl s a = a * a := by
  cases s
  · rfl
  · show -a * -a = a * a
    rw [Zr.mn, Zr.nm, Zr.nn]

theorem fl_zero (s : Bool) : Zr (fl s 0) 0 := by
  cases s
  · exact .zero
  · exact .negZero

theorem fl_nan (s : Bool) : fl s FloatExtra.nan = FloatExtra.nan := by cases s <;> rfl

theorem flip_eq (sx sy : Bool) (v : V2 F32) : flip sx sy v = ⟨fl sx v.x, fl sy v.y⟩ := rfl

theorem flipped_mk {sx sy : Bool} {v w : V2 F32} (hx : Zr (fl sx v.x) w.x) (hy : Zr (fl sy v.y) w.y) : Flipped sx sy v w :=
  ⟨Zr.iff.1 hx, Zr.iff.1 hy⟩

theorem flipped_nan (sx sy : Bool) : Flipped sx sy V2.nan V2.nan :=
  flipped_mk (by show Zr (fl sx FloatExtra.nan) _; rw [fl_nan]; exact .nan)
    (by show Zr (fl sy FloatExtra.nan) _; rw [fl_nan]; exact .nan)

theorem boxPoint_flip (sx sy p d : Bool) (h v : V2 F32) :
    (boxPoint p d h v).1 = (boxPoint p d h (flip sx sy v)).1 ∧
    Flipped sx sy (boxPoint p d h v).2 (boxPoint p d h (flip sx sy v)).2 := by
  unfold boxPoint
  simp only [flip_eq, fl_abs, fl_signum, mul_fl]
  split
  · refine ⟨rfl, ?_⟩
    cases p
    · exact flipped_nan sx sy
    · simp only [if_true]
      split
      · exact flipped_mk (.refl _) (fl_zero sy)
      · exact flipped_mk (fl_zero sx) (.refl _)
  · refine ⟨rfl, ?_⟩
    cases d
    · exact flipped_nan sx sy
    · exact flipped_mk (.refl _) (.refl _)

theorem roundedBoxPoint_flip (sx sy : Bool) (h : V2 F32) (r : F32) (v : V2 F32) :
    (roundedBoxPoint h r v).1 = (roundedBoxPoint h r (flip sx sy v)).1 ∧
    Flipped sx sy (roundedBoxPoint h r v).2 (roundedBoxPoint h r (flip sx sy v)).2 := by
  unfold roundedBoxPoint
  rw [← (boxPoint_flip sx sy false false h v).1]
  simp only [flip_eq, fl_abs, fl_signum, mul_fl]
  split
  · split
    · exact ⟨rfl, flipped_mk (.refl _) (fl_zero sy)⟩
    · exact ⟨rfl, flipped_mk (fl_zero sx) (.refl _)⟩
  · split
    · exact ⟨rfl, flipped_mk (fl_zero sx) (.refl _)⟩
    · split
      · exact ⟨rfl, flipped_mk (.refl _) (fl_zero sy)⟩
      · generalize (FloatExtra.abs v.x - h.x) * FloatExtra.signum v.x = x
        generalize (FloatExtra.abs v.y - h.y) * FloatExtra.signum v.y = y
        have hl : (⟨fl sx x, fl sy y⟩ : V2 F32).length = (⟨x, y⟩ : V2 F32).length := by
          show FloatExtra.sqrt (fl sx x * fl sx x + fl sy y * fl sy y) = FloatExtra.sqrt (x * x + y * y)
          rw [fl_sq, fl_sq]
        rw [hl]
        generalize (⟨x, y⟩ : V2 F32).length = L
        refine ⟨rfl, flipped_mk (Zr.iff.2 (.inl ?_)) (Zr.iff.2 (.inl ?_))⟩
        · show fl sx ((L - r) * x / L) = (L - r) * fl sx x / L
          rw [mul_fl, fl_div]
        · show fl sy ((L - r) * y / L) = (L - r) * fl sy y / L
          rw [mul_fl, fl_div]

theorem flipped_answers {sx sy : Bool} {A B T : Type} [∀ p d, SdfvCommonRel2d p d A B T F32] {a : A} {b : B} {t t' : T}
    (h : ∀ p d, SameOutcome (fun x y : Bool × V2 F32 => x.1 = y.1 ∧ Flipped sx sy x.2 y.2) (sdfvCommonRel p d a b t)
      (sdfvCommonRel p d a b t')) :
    FlippedAnswers sx sy (collidesRel a b t) (collidesRel a b t') (penetratesRel a b t) (penetratesRel a b t')
      (distanceToRel a b t) (distanceToRel a b t') (sdfvRel a b t) (sdfvRel a b t') := by
  refine ⟨(h false false).map fun _ _ h => h.1, (h true false).map fun x y h => ?_, (h false true).map fun x y h => ?_,
    h true true⟩
  · rw [h.1]
    split
    · exact .some h.2
    · exact .none
  · rw [h.1]
    split
    · exact .none
    · exact .some h.2

/-- **A box and a point**, any f32 numbers: mirrored positions get mirrored answers, and the same signed distance. -/
theorem C103_flip_box_point (sx sy : Bool) (a : Box2d F32) (b : Point F32) (rel : V2 F32) :
    FlippedAnswers sx sy (collidesRel a b rel) (collidesRel a b (flip sx sy rel))
      (penetratesRel a b rel) (penetratesRel a b (flip sx sy rel))
      (distanceToRel a b rel) (distanceToRel a b (flip sx sy rel))
      (sdfvRel a b rel) (sdfvRel a b (flip sx sy rel)) ∧
    sdfRel a b rel = sdfRel a b (flip sx sy rel) := by
  refine ⟨flipped_answers fun p d => .ok (boxPoint_flip sx sy p d a.halfsize rel), ?_⟩
  show Except.ok (boxPointSdf a.halfsize rel) = Except.ok (boxPointSdf a.halfsize (flip sx sy rel))
  unfold boxPointSdf
  rw [← (boxPoint_flip sx sy false false a.halfsize rel).1]
  simp only [flip_eq, fl_abs]

/-- **A rounded box and a point**. -/
theorem C103_flip_rounded_box_point (sx sy : Bool) (a : RoundedBox2d F32) (b : Point F32) (rel : V2 F32) :
    FlippedAnswers sx sy (collidesRel a b rel) (collidesRel a b (flip sx sy rel))
      (penetratesRel a b rel) (penetratesRel a b (flip sx sy rel))
      (distanceToRel a b rel) (distanceToRel a b (flip sx sy rel))
      (sdfvRel a b rel) (sdfvRel a b (flip sx sy rel)) ∧
    sdfRel a b rel = sdfRel a b (flip sx sy rel) := by
  refine ⟨flipped_answers fun p d => .ok (roundedBoxPoint_flip sx sy a.halfsize a.radius rel), ?_⟩
  show Except.ok (boxPointSdf a.halfsize rel - a.radius) = Except.ok (boxPointSdf a.halfsize (flip sx sy rel) - a.radius)
  unfold boxPointSdf
  rw [← (boxPoint_flip sx sy false false a.halfsize rel).1]
  simp only [flip_eq, fl_abs]

/-- **A box and a ball**. -/
theorem C103_flip_box_ball (sx sy : Bool) (a : Box2d F32) (b : Ball F32) (rel : V2 F32) :
    FlippedAnswers sx sy (collidesRel a b rel) (collidesRel a b (flip sx sy rel))
      (penetratesRel a b rel) (penetratesRel a b (flip sx sy rel))
      (distanceToRel a b rel) (distanceToRel a b (flip sx sy rel))
      (sdfvRel a b rel) (sdfvRel a b (flip sx sy rel)) :=
  flipped_answers fun _ _ => .ok (roundedBoxPoint_flip sx sy a.halfsize b.radius rel)

/-- quarter turns: the box is turned by swapping its half sizes -/
def Box2d.quarter {F : Type} (b : Box2d F) : Box2d F := ⟨⟨b.halfsize.y, b.halfsize.x⟩⟩

/-- **A box and a point, turned by 90 degrees**: the same `collides` and `distance_to` turned. -/
theorem C103_quarter_box_point (a : Box2d F32) (b : Point F32) (rel : V2 F32) :
    collidesRel a b rel = collidesRel a.quarter b (quarter rel) ∧
    SameOutcome (SameOption Turned) (distanceToRel a b rel) (distanceToRel a.quarter b (quarter rel)) := by
  have hab : FloatExtra.abs (-rel.y) = FloatExtra.abs rel.y := fl_abs true rel.y
  have hsg : FloatExtra.signum (-rel.y) = -FloatExtra.signum rel.y := fl_signum true rel.y
  have key : ∀ d, (boxPoint false d a.halfsize rel).1 = (boxPoint false d a.quarter.halfsize (quarter rel)).1 ∧
      Turned (boxPoint false d a.halfsize rel).2 (boxPoint false d a.quarter.halfsize (quarter rel)).2 := by
    intro d
    unfold boxPoint
    simp only [quarter, Box2d.quarter, hab, hsg]
    by_cases c : FloatExtra.isSignNeg (FloatExtra.abs rel.x - a.halfsize.x) = true ∧
        FloatExtra.isSignNeg (FloatExtra.abs rel.y - a.halfsize.y) = true
    · rw [if_pos c, if_pos c.symm]
      exact ⟨rfl, Tr2.nan.turned⟩
    · rw [if_neg c, if_neg (show ¬(FloatExtra.isSignNeg (FloatExtra.abs rel.y - a.halfsize.y) = true ∧
        FloatExtra.isSignNeg (FloatExtra.abs rel.x - a.halfsize.x) = true) from fun k => c k.symm)]
      refine ⟨rfl, ?_⟩
      cases d
      · exact Tr2.nan.turned
      · refine Tr2.turned ⟨Zr.iff.2 (.inl ?_), .refl _⟩
        exact (Zr.mn _ _).symm
  refine ⟨congrArg Except.ok (key false).1, .ok ?_⟩
  show SameOption Turned (if (boxPoint false true a.halfsize rel).1 then none else some _)
    (if (boxPoint false true a.quarter.halfsize (quarter rel)).1 then none else some _)
  rw [(key true).1]
  split
  · exact .none
  · exact .some (key true).2

end

end Auburn
