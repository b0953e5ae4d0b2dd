import Verif.Ieee.BoxFlip
import Verif.Ieee.RectStep
import Verif.Ieee.Rounding
import Verif.Ieee.Grid
import Verif.Model.Col3dPairs

/-! # C103 in three dimensions: mirrored scenes (binary32) -/

set_option linter.unusedSectionVars false
set_option synthInstance.maxSize 1000

namespace Auburn

/-! ## specification -/

/-- mirror in the chosen axes -/
def flip3 {F : Type} [Neg F] (sx sy sz : Bool) (v : V3 F) : V3 F :=
  ⟨if sx then -v.x else v.x, if sy then -v.y else v.y, if sz then -v.z else v.z⟩

/-- `b` is `a` mirrored, up to the sign of zeros -/
def Flipped3 (sx sy sz : Bool) (a b : V3 F32) : Prop :=
  Same32 (flip3 sx sy sz a).x b.x ∧ Same32 (flip3 sx sy sz a).y b.y ∧ Same32 (flip3 sx sy sz a).z b.z

/-- the same flag, presence of a vector and signed distance, and mirrored vectors, in all four queries -/
def FlippedAnswers3 (sx sy sz : Bool) (c c' : Bool) (p p' : Option (V3 F32)) (s s' : F32) (v v' : V3 F32) : Prop :=
  c = c' ∧ SameOption (Flipped3 sx sy sz) p p' ∧ s = s' ∧ Flipped3 sx sy sz v v'

/-! ## proof -/

section
variable [env : F32Env]

theorem neg_lt_neg_f32 (a b : F32) : -a < -b ↔ b < a := by
  have e : ∀ (s : Bool) (a : ℝ), F32.sval (!s) a = -F32.sval s a := by
    intro s a; cases s <;> simp [F32.sval]
  show F32.lt (F32.neg a) (F32.neg b) ↔ F32.lt b a
  cases a with
  | nan => cases b <;> simp [F32.lt, F32.neg]
  | inf s => cases b with
    | nan => simp [F32.lt, F32.neg]
    | inf t => cases s <;> cases t <;> simp [F32.lt, F32.neg]
    | fin t b hb => cases s <;> simp [F32.lt, F32.neg]
  | fin s a ha => cases b with
    | nan => simp [F32.lt, F32.neg]
    | inf t => cases t <;> simp [F32.lt, F32.neg]
    | fin t b hb =>
      show F32.sval (!s) a < F32.sval (!t) b ↔ F32.sval t b < F32.sval s a
      rw [e, e]
      exact neg_lt_neg_iff

theorem fl_between (s : Bool) (h d : F32) : (-h < fl s d ∧ fl s d < h) ↔ (-h < d ∧ d < h) := by
  cases s
  · exact Iff.rfl
  · show (-h < -d ∧ -d < h) ↔ _
    rw [neg_lt_neg_f32]
    have : -d < h ↔ -h < d := by
      conv_lhs => rw [← Zr.nn h]
      exact neg_lt_neg_f32 d (-h)
    rw [this, and_comm]

theorem box3dContains_flip (sx sy sz : Bool) (h v : V3 F32) : box3dContains h v = box3dContains h (flip3 sx sy sz v) := by
  have hx := fl_between sx h.x v.x
  have hy := fl_between sy h.y v.y
  have hz := fl_between sz h.z v.z
  unfold box3dContains
  rw [Bool.eq_iff_iff]
  simp only [Bool.and_eq_true, decide_eq_true_eq]
  show _ ↔ (((((-h.x < fl sx v.x ∧ fl sx v.x < h.x) ∧ -h.y < fl sy v.y) ∧ fl sy v.y < h.y) ∧ -h.z < fl sz v.z) ∧ fl sz v.z < h.z)
  constructor
  · rintro ⟨⟨⟨⟨h1, h2⟩, h3⟩, h4⟩, h5⟩
    exact ⟨⟨⟨⟨hx.2 h1, (hy.2 ⟨h2, h3⟩).1⟩, (hy.2 ⟨h2, h3⟩).2⟩, (hz.2 ⟨h4, h5⟩).1⟩, (hz.2 ⟨h4, h5⟩).2⟩
  · rintro ⟨⟨⟨⟨h1, h2⟩, h3⟩, h4⟩, h5⟩
    exact ⟨⟨⟨⟨hx.1 h1, (hy.1 ⟨h2, h3⟩).1⟩, (hy.1 ⟨h2, h3⟩).2⟩, (hz.1 ⟨h4, h5⟩).1⟩, (hz.1 ⟨h4, h5⟩).2⟩

theorem flip3_eq (sx sy sz : Bool) (v : V3 F32) : flip3 sx sy sz v = ⟨fl sx v.x, fl sy v.y, fl sz v.z⟩ := rfl

theorem flipped3_mk {sx sy sz : Bool} {v w : V3 F32} (hx : Zr (fl sx v.x) w.x) (hy : Zr (fl sy v.y) w.y)
    (hz : Zr (fl sz v.z) w.z) : Flipped3 sx sy sz v w := ⟨Zr.iff.1 hx, Zr.iff.1 hy, Zr.iff.1 hz⟩

theorem box3dPush_flip (sx sy sz : Bool) (h v : V3 F32) :
    Flipped3 sx sy sz (box3dPush h v) (box3dPush h (flip3 sx sy sz v)) := by
  unfold box3dPush
  simp only [flip3_eq, fl_abs, fl_signum, mul_fl]
  split
  · split
    · exact flipped3_mk (fl_zero sx) (fl_zero sy) (.refl _)
    · exact flipped3_mk (.refl _) (fl_zero sy) (fl_zero sz)
  · split
    · exact flipped3_mk (fl_zero sx) (fl_zero sy) (.refl _)
    · exact flipped3_mk (fl_zero sx) (.refl _) (fl_zero sz)

/-- **A box and a point in space**, any f32 numbers, mirrored in any of the axes. -/
theorem C103_flip_box3d_point (sx sy sz : Bool) (a : Box3d F32) (b : Point F32) (rel : V3 F32) :
    FlippedAnswers3 sx sy sz
      (CollidesRel3d.collidesRel a b rel) (CollidesRel3d.collidesRel a b (flip3 sx sy sz rel))
      (PenetratesRel3d.penetratesRel a b rel) (PenetratesRel3d.penetratesRel a b (flip3 sx sy sz rel))
      (SdfRel3d.sdfRel a b rel) (SdfRel3d.sdfRel a b (flip3 sx sy sz rel))
      (SdfvRel3d.sdfvRel a b rel) (SdfvRel3d.sdfvRel a b (flip3 sx sy sz rel)) := by
  have hc : (CollidesRel3d.collidesRel a b rel : Bool) = CollidesRel3d.collidesRel a b (flip3 sx sy sz rel) :=
    box3dContains_flip sx sy sz a.halfsize rel
  refine ⟨hc, ?_, ?_, ?_⟩
  · show SameOption _ (if (CollidesRel3d.collidesRel a b rel : Bool) then some (box3dPush a.halfsize rel) else none)
      (if (CollidesRel3d.collidesRel a b (flip3 sx sy sz rel) : Bool) then some (box3dPush a.halfsize (flip3 sx sy sz rel)) else none)
    rw [← hc]
    split
    · exact .some (box3dPush_flip sx sy sz a.halfsize rel)
    · exact .none
  · simp only [SdfRel3d.sdfRel, ← hc]
    simp only [Transformation3d.applyOrigin, flip3_eq, fl_abs]
  · simp only [SdfvRel3d.sdfvRel, ← hc]
    simp only [Transformation3d.applyOrigin]
    split
    · exact box3dPush_flip sx sy sz a.halfsize rel
    · simp only [flip3_eq, fl_abs, fl_signum, mul_fl]
      exact flipped3_mk (.refl _) (.refl _) (.refl _)

theorem flip3_dot (sx sy sz : Bool) (v : V3 F32) : (flip3 sx sy sz v).dot (flip3 sx sy sz v) = v.dot v := by
  show fl sx v.x * fl sx v.x + fl sy v.y * fl sy v.y + fl sz v.z * fl sz v.z = _
  rw [fl_sq, fl_sq, fl_sq]
  rfl

theorem flip3_length (sx sy sz : Bool) (v : V3 F32) : (flip3 sx sy sz v).length = v.length := by
  unfold V3.length
  rw [flip3_dot]

theorem fl_neg (s : Bool) (a : F32) : -(fl s a) = fl s (-a) := by cases s <;> rfl

/-- **A ball and a point in space**, mirrored in any of the axes; in the x axis only if the distance of the centres is not
below `EPSILON`, where the answer points in the fixed direction `+x`. -/
theorem C103_flip_ball_point3d (sx sy sz : Bool) (a : Ball F32) (b : Point F32) (rel : V3 F32)
    (h0 : sx = false ∨ (¬ rel.length < FloatExtra.epsilon ∧ rel.length > 0)) :
    FlippedAnswers3 sx sy sz
      (CollidesRel3d.collidesRel a b rel) (CollidesRel3d.collidesRel a b (flip3 sx sy sz rel))
      (PenetratesRel3d.penetratesRel a b rel) (PenetratesRel3d.penetratesRel a b (flip3 sx sy sz rel))
      (SdfRel3d.sdfRel a b rel) (SdfRel3d.sdfRel a b (flip3 sx sy sz rel))
      (SdfvRel3d.sdfvRel a b rel) (SdfvRel3d.sdfvRel a b (flip3 sx sy sz rel)) := by
  have hc : (CollidesRel3d.collidesRel a b rel : Bool) = CollidesRel3d.collidesRel a b (flip3 sx sy sz rel) := by
    show decide (rel.dot rel < _) = decide ((flip3 sx sy sz rel).dot (flip3 sx sy sz rel) < _)
    rw [flip3_dot]
  refine ⟨hc, ?_, ?_, ?_⟩
  · simp only [PenetratesRel3d.penetratesRel, ← hc]
    simp only [Transformation3d.applyOrigin, flip3_length]
    split
    · split
      · rename_i k
        rcases h0 with rfl | h0
        · exact .some (flipped3_mk (.refl _) (fl_zero sy) (fl_zero sz))
        · exact absurd k h0.1
      · refine .some (flipped3_mk (Zr.iff.2 (.inl ?_)) (Zr.iff.2 (.inl ?_)) (Zr.iff.2 (.inl ?_)))
        · show fl sx (-((a.radius - rel.length) / rel.length * rel.x)) = -((a.radius - rel.length) / rel.length * fl sx rel.x)
          rw [mul_fl, fl_neg]
        · show fl sy (-((a.radius - rel.length) / rel.length * rel.y)) = -((a.radius - rel.length) / rel.length * fl sy rel.y)
          rw [mul_fl, fl_neg]
        · show fl sz (-((a.radius - rel.length) / rel.length * rel.z)) = -((a.radius - rel.length) / rel.length * fl sz rel.z)
          rw [mul_fl, fl_neg]
    · exact .none
  · simp only [SdfRel3d.sdfRel, Transformation3d.applyOrigin, flip3_length]
  · simp only [SdfvRel3d.sdfvRel, Transformation3d.applyOrigin, flip3_length]
    split
    · refine flipped3_mk (Zr.iff.2 (.inl ?_)) (Zr.iff.2 (.inl ?_)) (Zr.iff.2 (.inl ?_))
      · exact (mul_fl sx _ rel.x).symm
      · exact (mul_fl sy _ rel.y).symm
      · exact (mul_fl sz _ rel.z).symm
    · rename_i k
      rcases h0 with rfl | h0
      · refine flipped3_mk (.refl _) ?_ ?_
        · show Zr (fl sy (a.radius * 0)) (a.radius * 0)
          rw [← mul_fl]; exact (Zr.refl a.radius).mul (fl_zero sy)
        · show Zr (fl sz (a.radius * 0)) (a.radius * 0)
          rw [← mul_fl]; exact (Zr.refl a.radius).mul (fl_zero sz)
      · exact absurd h0.2 k

/-- **Two boxes in space**, mirrored in any of the axes. -/
theorem C103_flip_box3d_box3d (sx sy sz : Bool) (a b : Box3d F32) (rel : V3 F32) :
    FlippedAnswers3 sx sy sz
      (CollidesRel3d.collidesRel a b rel) (CollidesRel3d.collidesRel a b (flip3 sx sy sz rel))
      (PenetratesRel3d.penetratesRel a b rel) (PenetratesRel3d.penetratesRel a b (flip3 sx sy sz rel))
      (SdfRel3d.sdfRel a b rel) (SdfRel3d.sdfRel a b (flip3 sx sy sz rel))
      (SdfvRel3d.sdfvRel a b rel) (SdfvRel3d.sdfvRel a b (flip3 sx sy sz rel)) :=
  C103_flip_box3d_point sx sy sz (Box3d.minkowskiSum a b) ⟨⟩ rel

/-- the exception of the ball is met by ordinary scenes: distance 1 -/
example : ∃ rel : V3 F32, rel = ⟨1, 0, 0⟩ ∧ (¬ rel.length < FloatExtra.epsilon ∧ rel.length > 0) := by
  refine ⟨_, rfl, ?_⟩
  have z : F32.Is ((0 : F32) * 0) 0 := by
    have := F32.is_mul F32.is_zero F32.is_zero (by rw [mul_zero]; exact F32.is_zero.representable)
    rwa [mul_zero] at this
  have o : F32.Is ((1 : F32) * 1) 1 := by
    have := F32.is_mul F32.is_one F32.is_one (by rw [one_mul]; exact F32.is_one.representable)
    rwa [one_mul] at this
  have d : F32.Is ((1 : F32) * 1 + 0 * 0 + 0 * 0) 1 := is_add_zero (is_add_zero o z) z
  obtain ⟨w, hw, h, h0⟩ := F32.round_sqrt d (by norm_num)
  rw [Real.sqrt_one, abs_le] at h
  have hl : F32.Is (⟨1, 0, 0⟩ : V3 F32).length w := hw
  constructor
  · rw [F32.lt_iff hl is_epsilon]
    norm_num at h ⊢
    linarith [h.1]
  · show (0 : F32) < _
    rw [F32.lt_iff F32.is_zero hl]
    norm_num at h ⊢
    linarith [h.1]

end

end Auburn
