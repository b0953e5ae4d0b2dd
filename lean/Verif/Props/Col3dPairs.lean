import Verif.Model.Col3dPairs
import Verif.Props.Col3d

/-!
# C99: two 3D boxes

The queries of a `Box3d` against a `Box3d` (code under `cfg(minkowski)`; the doc examples of
`col3d/detection` and the unit tests of `box3d.rs` describe them).
-/

set_option linter.unusedSectionVars false
set_option synthInstance.maxSize 1000

namespace Auburn

open V3 Transformation3d Auburn.Invertible Composable

/-! ## Specification -/

/-- the set of points `S` placed by `t` -/
def placed3 {T K : Type} [Transformation3d T K] (t : T) (S : Set (V3 K)) : Set (V3 K) :=
  {p | ∃ q ∈ S, p = apply t q}
/-- `t` only moves points: it does not turn or scale -/
def OnlyMoves {T K : Type} [Transformation3d T K] [Add K] (t : T) : Prop :=
  ∀ p : V3 K, apply t p = p + applyOrigin t

section
variable {K : Type} [Field K] [LinearOrder K] [IsStrictOrderedRing K]

/-- all half sizes are positive -/
def Box3d.Solid (b : Box3d K) : Prop := 0 < b.halfsize.x ∧ 0 < b.halfsize.y ∧ 0 < b.halfsize.z
/-- the box `a` at the origin and the box `b` with its centre at `c` have an interior point in common -/
def BoxesOverlap (a b : Box3d K) (c : V3 K) : Prop :=
  ∃ p, p ∈ cuboidInterior a.halfsize ∧ p - c ∈ cuboidInterior b.halfsize
/-- the box `a` at the origin and the box `b` with its centre at `c` have a point in common, but no
interior point -/
def BoxesTouch (a b : Box3d K) (c : V3 K) : Prop :=
  (∃ p, p ∈ cuboid a.halfsize ∧ p - c ∈ cuboid b.halfsize) ∧ ¬ BoxesOverlap a b c

/-! ## The configuration space -/

theorem split_lt {s h k : K} (hh : 0 < h) (hk : 0 < k) (hs : |s| < h + k) :
    ∃ u : K, |u| < h ∧ |u - s| < k := by
  have hp : 0 < h + k := by linarith
  refine ⟨s * (h / (h + k)), ?_, ?_⟩
  · rw [abs_mul, abs_of_pos (div_pos hh hp), mul_div_assoc', div_lt_iff₀ hp, mul_comm]
    exact mul_lt_mul_of_pos_left hs hh
  · have e : s * (h / (h + k)) - s = -(s * (k / (h + k))) := by field_simp; ring
    rw [e, abs_neg, abs_mul, abs_of_pos (div_pos hk hp), mul_div_assoc', div_lt_iff₀ hp, mul_comm]
    exact mul_lt_mul_of_pos_left hs hk

theorem split_le {s h k : K} (hh : 0 < h) (hk : 0 < k) (hs : |s| ≤ h + k) :
    ∃ u : K, |u| ≤ h ∧ |u - s| ≤ k := by
  have hp : 0 < h + k := by linarith
  refine ⟨s * (h / (h + k)), ?_, ?_⟩
  · rw [abs_mul, abs_of_pos (div_pos hh hp), mul_div_assoc', div_le_iff₀ hp, mul_comm]
    exact mul_le_mul_of_nonneg_left hs hh.le
  · have e : s * (h / (h + k)) - s = -(s * (k / (h + k))) := by field_simp; ring
    rw [e, abs_neg, abs_mul, abs_of_pos (div_pos hk hp), mul_div_assoc', div_le_iff₀ hp, mul_comm]
    exact mul_le_mul_of_nonneg_left hs hk.le

theorem overlap_iff_sum {a b : Box3d K} (ha : a.Solid) (hb : b.Solid) (c : V3 K) :
    BoxesOverlap a b c ↔ c ∈ cuboidInterior (a.minkowskiSum b).halfsize := by
  have tri : ∀ p c h k : K, |p| < h → |p - c| < k → |c| < h + k := by
    intro p c h k h1 h2
    have := abs_sub p (p - c)
    rw [sub_sub_cancel] at this
    linarith
  constructor
  · rintro ⟨p, ⟨p1, p2, p3⟩, q1, q2, q3⟩
    exact ⟨tri _ _ _ _ p1 q1, tri _ _ _ _ p2 q2, tri _ _ _ _ p3 q3⟩
  · rintro ⟨c1, c2, c3⟩
    obtain ⟨u1, x1, y1⟩ := split_lt ha.1 hb.1 c1
    obtain ⟨u2, x2, y2⟩ := split_lt ha.2.1 hb.2.1 c2
    obtain ⟨u3, x3, y3⟩ := split_lt ha.2.2 hb.2.2 c3
    exact ⟨⟨u1, u2, u3⟩, ⟨x1, x2, x3⟩, y1, y2, y3⟩

theorem touch_iff_sum {a b : Box3d K} (ha : a.Solid) (hb : b.Solid) (c : V3 K) :
    BoxesTouch a b c ↔ c ∈ cuboidSurface (a.minkowskiSum b).halfsize := by
  have tri : ∀ p c h k : K, |p| ≤ h → |p - c| ≤ k → |c| ≤ h + k := by
    intro p c h k h1 h2
    have := abs_sub p (p - c)
    rw [sub_sub_cancel] at this
    linarith
  have meet : (∃ p, p ∈ cuboid a.halfsize ∧ p - c ∈ cuboid b.halfsize) ↔
      c ∈ cuboid (a.minkowskiSum b).halfsize := by
    constructor
    · rintro ⟨p, ⟨p1, p2, p3⟩, q1, q2, q3⟩
      exact ⟨tri _ _ _ _ p1 q1, tri _ _ _ _ p2 q2, tri _ _ _ _ p3 q3⟩
    · rintro ⟨c1, c2, c3⟩
      obtain ⟨u1, x1, y1⟩ := split_le ha.1 hb.1 c1
      obtain ⟨u2, x2, y2⟩ := split_le ha.2.1 hb.2.1 c2
      obtain ⟨u3, x3, y3⟩ := split_le ha.2.2 hb.2.2 c3
      exact ⟨⟨u1, u2, u3⟩, ⟨x1, x2, x3⟩, y1, y2, y3⟩
  unfold BoxesTouch
  rw [meet, overlap_iff_sum ha hb]
  constructor
  · rintro ⟨h1, h2⟩
    refine ⟨h1, ?_⟩
    by_contra hn
    push Not at hn
    exact h2 ⟨lt_of_le_of_ne h1.1 hn.1, lt_of_le_of_ne h1.2.1 hn.2.1, lt_of_le_of_ne h1.2.2 hn.2.2⟩
  · rintro ⟨h1, h2⟩
    refine ⟨h1, fun h3 => ?_⟩
    rcases h2 with e | e | e
    · exact (ne_of_lt h3.1) e
    · exact (ne_of_lt h3.2.1) e
    · exact (ne_of_lt h3.2.2) e

theorem sum_solid {a b : Box3d K} (ha : a.Solid) (hb : b.Solid) :
    0 ≤ (a.minkowskiSum b).halfsize.x ∧ 0 ≤ (a.minkowskiSum b).halfsize.y ∧
      0 ≤ (a.minkowskiSum b).halfsize.z :=
  ⟨(add_pos ha.1 hb.1).le, (add_pos ha.2.1 hb.2.1).le, (add_pos ha.2.2 hb.2.2).le⟩

end

section
variable {K : Type} [Field K] [LinearOrder K] [IsStrictOrderedRing K] [FloatExtra K] [ExactFloat K]
variable {T : Type} [Transformation3d T K] {a b : Box3d K} {rel : T}

theorem onlyMoves_overlap (hm : OnlyMoves rel) :
    BoxesOverlap a b (applyOrigin rel) ↔
      (cuboidInterior a.halfsize ∩ placed3 rel (cuboidInterior b.halfsize)).Nonempty := by
  constructor
  · rintro ⟨p, hp, hq⟩
    exact ⟨p, hp, _, hq, by rw [hm]; ext <;> simp⟩
  · rintro ⟨p, hp, q, hq, e⟩
    refine ⟨p, hp, ?_⟩
    have : p - applyOrigin rel = q := by rw [e, hm]; ext <;> simp
    rwa [this]

/-! ## Theorems -/

/-- `collides_rel`: for boxes that are not turned or scaled relative to each other, the answer is
`true` exactly when their interiors meet. -/
theorem C99_collides (ha : a.Solid) (hb : b.Solid) (hm : OnlyMoves rel) :
    CollidesRel3d.collidesRel a b rel = true ↔
      (cuboidInterior a.halfsize ∩ placed3 rel (cuboidInterior b.halfsize)).Nonempty := by
  rw [← onlyMoves_overlap hm, overlap_iff_sum ha hb]
  exact C64_box_collides (a.minkowskiSum b) Point.mk rel

/-- `collides` on placed boxes: `true` exactly when the interiors of the two boxes in the world meet. -/
theorem C99_world [Invertible T] [Composable T] {ta tb : T} (ha : a.Solid) (hb : b.Solid)
    (hd : DeltaLaw3 ta tb) (hu : UnapplyLaw3 ta) (hm : OnlyMoves (deltaTransform ta tb)) :
    collides3d a ta b tb = true ↔
      (placed3 ta (cuboidInterior a.halfsize) ∩ placed3 tb (cuboidInterior b.halfsize)).Nonempty := by
  refine (C99_collides ha hb hm).trans ?_
  constructor
  · rintro ⟨p, hp, q, hq, e⟩
    exact ⟨apply ta p, ⟨p, hp, rfl⟩, q, hq, by rw [e, hd]⟩
  · rintro ⟨w, ⟨p, hp, e⟩, q, hq, e'⟩
    refine ⟨p, hp, q, hq, ?_⟩
    rw [← hu.1 p, ← e, e', ← hd, hu.1]

/-- a point outside the interior is at least as far from an interior point as the surface is -/
theorem outside_far {h δ q : V3 K} (hin : δ ∈ cuboidInterior h) (hq : q ∉ cuboidInterior h) :
    V3.lengthSq (box3dPush h δ) ≤ V3.lengthSq (δ - q) := by
  obtain ⟨ix, iy, iz⟩ := hin
  rw [(box3dPush_nearest ⟨ix, iy, iz⟩).2]
  set m := max (max (|δ.x| - h.x) (|δ.y| - h.y)) (|δ.z| - h.z) with hm
  have mx : |δ.x| - h.x ≤ m := (le_max_left _ _).trans (le_max_left _ _)
  have my : |δ.y| - h.y ≤ m := (le_max_right _ _).trans (le_max_left _ _)
  have mz : |δ.z| - h.z ≤ m := le_max_right _ _
  have m0 : m ≤ 0 := max_le (max_le (by linarith) (by linarith)) (by linarith)
  have key : ∀ a b k : K, k ≤ |b| → |a| - k ≤ m → m ^ 2 ≤ (a - b) * (a - b) := by
    intro a b k hb hk
    have : -m ≤ |a - b| := by
      have := abs_sub_abs_le_abs_sub b a
      rw [abs_sub_comm] at this; linarith
    rw [← sq, ← sq_abs (a - b), ← neg_sq m]
    exact pow_le_pow_left₀ (by linarith) this 2
  rw [V3.lengthSq_def]
  simp only [V3.sub_x, V3.sub_y, V3.sub_z]
  have nx := mul_self_nonneg (δ.x - q.x)
  have ny := mul_self_nonneg (δ.y - q.y)
  have nz := mul_self_nonneg (δ.z - q.z)
  by_cases c1 : h.x ≤ |q.x|
  · linarith [key _ _ _ c1 mx]
  by_cases c2 : h.y ≤ |q.y|
  · linarith [key _ _ _ c2 my]
  by_cases c3 : h.z ≤ |q.z|
  · linarith [key _ _ _ c3 mz]
  exact absurd ⟨not_le.1 c1, not_le.1 c2, not_le.1 c3⟩ hq

/-- `penetrates_rel`: `None` exactly when the interiors do not meet; otherwise the push `v` is such that
after moving the second box by `-v` (or the first by `v`) the boxes touch, and no shorter move takes
the interiors apart. -/
theorem C99_penetrates (ha : a.Solid) (hb : b.Solid) (hm : OnlyMoves rel) :
    (PenetratesRel3d.penetratesRel a b rel = none ↔
      ¬ (cuboidInterior a.halfsize ∩ placed3 rel (cuboidInterior b.halfsize)).Nonempty) ∧
    ∀ v, PenetratesRel3d.penetratesRel a b rel = some v →
      BoxesTouch a b (applyOrigin rel - v) ∧
      ∀ w, ¬ BoxesOverlap a b (applyOrigin rel - w) → V3.lengthSq v ≤ V3.lengthSq w := by
  rw [← onlyMoves_overlap hm, overlap_iff_sum ha hb]
  have e : PenetratesRel3d.penetratesRel a b rel =
      PenetratesRel3d.penetratesRel (a.minkowskiSum b) (Point.mk : Point K) rel := rfl
  rw [e]
  have h := C64_box_penetrates (a.minkowskiSum b) Point.mk rel
  by_cases hin : applyOrigin rel ∈ cuboidInterior (a.minkowskiSum b).halfsize
  · have e2 : PenetratesRel3d.penetratesRel (a.minkowskiSum b) (Point.mk : Point K) rel =
        some (box3dPush (a.minkowskiSum b).halfsize (applyOrigin rel)) :=
      if_pos ((C64_box_collides (a.minkowskiSum b) Point.mk rel).2 hin)
    rw [e2]
    refine ⟨⟨fun h => by simp at h, fun h => absurd hin h⟩, ?_⟩
    rintro v hv
    obtain rfl := Option.some.inj hv
    refine ⟨(touch_iff_sum ha hb _).2 (box3dPush_nearest hin).1.1, fun w hw => ?_⟩
    rw [overlap_iff_sum ha hb] at hw
    have := outside_far hin hw
    have e3 : applyOrigin rel - (applyOrigin rel - w) = w := by ext <;> simp
    rwa [e3] at this
  · rw [h.2 hin]
    exact ⟨⟨fun _ => hin, fun _ => rfl⟩, fun v hv => by simp at hv⟩

/-- `sdfv_rel`: moving the second box by `-v` brings the boxes into contact, and no shorter move does. -/
theorem C99_sdfv (ha : a.Solid) (hb : b.Solid) :
    BoxesTouch a b (applyOrigin rel - SdfvRel3d.sdfvRel a b rel) ∧
    ∀ w, BoxesTouch a b (applyOrigin rel - w) →
      V3.lengthSq (SdfvRel3d.sdfvRel a b rel) ≤ V3.lengthSq w := by
  have h := C64_box_sdfv (a.minkowskiSum b) Point.mk rel (sum_solid ha hb)
  refine ⟨(touch_iff_sum ha hb _).2 h.1, fun w hw => ?_⟩
  have := h.2 _ ((touch_iff_sum ha hb _).1 hw)
  have e3 : ∀ w : V3 K, applyOrigin rel - (applyOrigin rel - w) = w := fun w => by ext <;> simp
  rw [e3, e3] at this
  exact this

/-- `sdf_rel` is the signed distance to contact, except when one box is straight above or below the
other (in `z`). -/
theorem C99_sdf [ExactSqrt K] (ha : a.Solid) (hb : b.Solid)
    (hz : ¬ (|(applyOrigin rel).x| < a.halfsize.x + b.halfsize.x ∧
      |(applyOrigin rel).y| < a.halfsize.y + b.halfsize.y ∧
      a.halfsize.z + b.halfsize.z ≤ |(applyOrigin rel).z|)) :
    (SdfRel3d.sdfRel a b rel < 0 ↔ BoxesOverlap a b (applyOrigin rel)) ∧
    (∃ w, BoxesTouch a b (applyOrigin rel - w) ∧ V3.lengthSq w = SdfRel3d.sdfRel a b rel ^ 2) ∧
    ∀ w, BoxesTouch a b (applyOrigin rel - w) → SdfRel3d.sdfRel a b rel ^ 2 ≤ V3.lengthSq w := by
  obtain ⟨h1, ⟨q, hq, h2⟩, h3⟩ := (C64_box_sdf_iff (a.minkowskiSum b) Point.mk rel (sum_solid ha hb)).2 hz
  have e3 : ∀ w : V3 K, applyOrigin rel - (applyOrigin rel - w) = w := fun w => by ext <;> simp
  refine ⟨h1.trans (overlap_iff_sum ha hb _).symm, ⟨applyOrigin rel - q, ?_, h2⟩, fun w hw => ?_⟩
  · rw [e3]; exact (touch_iff_sum ha hb _).2 hq
  · have := h3 _ ((touch_iff_sum ha hb _).1 hw)
    rw [e3] at this
    exact this

/-- finding: for two boxes one above the other, with a gap of 1 between them, `sdf_rel` is not 1. -/
theorem C99_sdf_finding [ExactSqrt K] :
    let a : Box3d K := ⟨⟨1, 1, 1⟩⟩
    BoxesTouch a a (⟨0, 0, 2⟩ : V3 K) ∧ SdfRel3d.sdfRel a a (⟨0, 0, 3⟩ : V3 K) ≠ 1 := by
  intro a
  have ha : a.Solid := ⟨one_pos, one_pos, one_pos⟩
  refine ⟨(touch_iff_sum ha ha _).2 ?_, ?_⟩
  · refine ⟨⟨?_, ?_, ?_⟩, Or.inr (Or.inr ?_)⟩ <;> norm_num [Box3d.minkowskiSum, a]
  · intro h1
    have h := C64_box_sdf_iff (a.minkowskiSum a) Point.mk (⟨0, 0, 3⟩ : V3 K) (sum_solid ha ha)
    have hb : ¬ ¬ (|(applyOrigin (⟨0, 0, 3⟩ : V3 K)).x| < (a.minkowskiSum a).halfsize.x ∧
        |(applyOrigin (⟨0, 0, 3⟩ : V3 K)).y| < (a.minkowskiSum a).halfsize.y ∧
        (a.minkowskiSum a).halfsize.z ≤ |(applyOrigin (⟨0, 0, 3⟩ : V3 K)).z|) := by
      norm_num [Box3d.minkowskiSum, a, applyOrigin]
    refine (h.not.2 hb) ?_
    rw [show SdfRel3d.sdfRel (a.minkowskiSum a) (Point.mk : Point K) (⟨0, 0, 3⟩ : V3 K) = 1 from h1]
    refine ⟨⟨fun h => by linarith, fun h => ?_⟩, ⟨⟨0, 0, 2⟩, ?_, ?_⟩, ?_⟩
    · have := h.2.2; norm_num [Box3d.minkowskiSum, a, applyOrigin] at this
    · refine ⟨⟨?_, ?_, ?_⟩, Or.inr (Or.inr ?_)⟩ <;> norm_num [Box3d.minkowskiSum, a]
    · norm_num [V3.lengthSq_def, applyOrigin]
    · rintro q ⟨⟨_, _, h3⟩, _⟩
      have h4 := (abs_le.1 h3).2
      rw [V3.lengthSq_def]
      simp only [V3.sub_x, V3.sub_y, V3.sub_z, applyOrigin]
      simp only [Box3d.minkowskiSum, a, V3.add_z] at h4
      have : (1 : K) ≤ 3 - q.z := by linarith
      nlinarith [mul_self_nonneg ((0 : K) - q.x), mul_self_nonneg ((0 : K) - q.y)]

/-- finding: the rotation of the second box is ignored.  A long box turned towards the first one reaches
into it, and `collides_rel` answers `false`. -/
theorem C99_rotation_finding :
    let a : Box3d K := ⟨⟨1, 1, 1⟩⟩
    let b : Box3d K := ⟨⟨5, 1, 1⟩⟩
    let rel : Transform3d K := ⟨⟨0, 4, 0⟩, ⟨0, 0, 3 / 5, 4 / 5⟩, ⟨1, 1, 1⟩⟩
    (cuboidInterior a.halfsize ∩ placed3 rel (cuboidInterior b.halfsize)).Nonempty ∧
      CollidesRel3d.collidesRel a b rel = false := by
  intro a b rel
  constructor
  · refine ⟨⟨0, 1 / 2, 0⟩, ⟨?_, ?_, ?_⟩, ⟨-84 / 25, -49 / 50, 0⟩, ⟨?_, ?_, ?_⟩, ?_⟩
    · norm_num [a]
    · norm_num [a, abs_lt]
    · norm_num [a]
    · norm_num [b, abs_lt]
    · norm_num [b, abs_lt]
    · norm_num [b]
    · show _ = rel.rot.mulV3 (V3.mulV rel.scale _) + rel.pos
      ext
      · simp [rel, quat_mulV3_x, V3.mulV]; norm_num
      · simp [rel, quat_mulV3_y, V3.mulV]; norm_num
      · simp [rel, quat_mulV3_z, V3.mulV]
  · rw [Bool.eq_false_iff]
    intro h
    have := (C64_box_collides (a.minkowskiSum b) Point.mk rel).1 h
    have := this.2.1
    norm_num [Box3d.minkowskiSum, a, b, rel, applyOrigin] at this

attribute [local instance] ratFloat ratFloat_exact

/-- concrete cases: the doc example of `penetrates_rel` (`Some((-1, 0, 0))`), and translations only move -/
example : PenetratesRel3d.penetratesRel (⟨⟨1, 1, 1⟩⟩ : Box3d ℚ) (⟨⟨1, 1, 1⟩⟩ : Box3d ℚ)
    (⟨⟨1, 0, 0⟩⟩ : Translate3d ℚ) = some ⟨-1, 0, 0⟩ := by decide +kernel

example (v : V3 K) : OnlyMoves (⟨v⟩ : Translate3d K) := fun _ => rfl
example (v w : V3 K) : OnlyMoves (deltaTransform (⟨v⟩ : Translate3d K) ⟨w⟩) := fun _ => rfl
example : (⟨⟨1, 1, 1⟩⟩ : Box3d K).Solid := ⟨one_pos, one_pos, one_pos⟩

end
end Auburn
