import Verif.Ieee.DeepProps
import Verif.Ieee.NoisyExamples
import Verif.Ieee.TurnExamples

/-!
# C97: concrete cases

An eight-vertex polygon and a triangle with one-decimal f32 literals (none of them on a binary grid): the hypotheses
of `C97_f32_poly_poly` hold with `M = 8`, those of the rotated collider form with `M = 4`.
-/

set_option linter.unusedSectionVars false
set_option synthInstance.maxSize 1000

namespace Auburn

open F32 V2 ExtremePoint2d Transformation2d

section
variable [env : F32Env]

/-- the literal is within 1/1000 of the number written -/
def qclose (p : ℚ × ℚ) : Bool :=
  decide (|(qlitV p).x.toRat - p.1| ≤ 1 / 1000 ∧ |(qlitV p).y.toRat - p.2| ≤ 1 / 1000)

theorem litV_close {p : ℚ × ℚ} (h : qclose p = true) :
    |(litV p.1 p.2).toReal.x - (p.1 : ℝ)| ≤ 1 / 1000 ∧ |(litV p.1 p.2).toReal.y - (p.2 : ℝ)| ≤ 1 / 1000 := by
  simp only [qclose, decide_eq_true_eq] at h
  have h1 : (litV p.1 p.2).toReal.x = ((qlitV p).x.toRat : ℝ) := (rel_litV p).x.toReal
  have h2 : (litV p.1 p.2).toReal.y = ((qlitV p).y.toRat : ℝ) := (rel_litV p).y.toReal
  rw [h1, h2]
  constructor
  · have := (Rat.cast_le (K := ℝ)).2 h.1
    push_cast at this
    exact this
  · have := (Rat.cast_le (K := ℝ)).2 h.2
    push_cast at this
    exact this

theorem dot_close {n x : V2 ℝ} {a b e : ℝ} (h1 : |x.x - a| ≤ e) (h2 : |x.y - b| ≤ e) :
    |n.dot x - (n.x * a + n.y * b)| ≤ (|n.x| + |n.y|) * e := by
  have e1 : n.dot x - (n.x * a + n.y * b) = n.x * (x.x - a) + n.y * (x.y - b) := by rw [dot_def]; ring
  rw [e1]
  refine (abs_add_le _ _).trans ?_
  rw [abs_mul, abs_mul]
  have := mul_le_mul_of_nonneg_left h1 (abs_nonneg n.x)
  have := mul_le_mul_of_nonneg_left h2 (abs_nonneg n.y)
  linarith

/-- the polygon with eight vertices -/
def octo : List (ℚ × ℚ) :=
  [(21/10, 1/10), (16/10, 15/10), (1/10, 21/10), (-14/10, 16/10), (-21/10, 1/10), (-15/10, -14/10), (1/10, -21/10), (13/10, -17/10)]

theorem mem_octo {p : ℚ × ℚ} (h : p ∈ octo) : (litV p.1 p.2).toReal ∈ Region.pts (litPoly octo).toReal :=
  subset_convexHull ℝ _ (by
    simp only [Poly2d.toReal, litPoly, List.map_map, Set.mem_ofPred_eq, List.mem_map]
    exact ⟨p, h, rfl⟩)

theorem mem_triB {p : ℚ × ℚ} (h : p ∈ triB) : (litV p.1 p.2).toReal ∈ Region.pts (litPoly triB).toReal :=
  subset_convexHull ℝ _ (by
    simp only [Poly2d.toReal, litPoly, List.map_map, Set.mem_ofPred_eq, List.mem_map]
    exact ⟨p, h, rfl⟩)

/-- the polygon reaches far beyond the triangle's vertex, in every direction -/
theorem octo_deep : DeepBy (8 / 32) (Region.pts (litPoly octo).toReal)
    (shift (litV (2/10) (-1/10)).toReal (Region.pts (litPoly triB).toReal)) := by
  intro n
  have hy := litV_close (p := (3/10, -7/10)) (by decide +kernel)
  have ht := litV_close (p := (2/10, -1/10)) (by decide +kernel)
  have hv := mem_triB (p := (3/10, -7/10)) (by simp [triB])
  have ey := abs_le.1 (dot_close (n := n) hy.1 hy.2)
  have et := abs_le.1 (dot_close (n := n) ht.1 ht.2)
  have hn := V2.norm_le_add n
  have fin : ∀ p ∈ octo, qclose p = true → 1 / 4 * (|n.x| + |n.y|) ≤
      n.x * ((p.1 : ℚ) : ℝ) + n.y * ((p.2 : ℚ) : ℝ) - (n.x * (1 / 2) + n.y * (-(8 / 10))) - 1 / 100 * (|n.x| + |n.y|) →
      ∃ x ∈ Region.pts (litPoly octo).toReal, ∃ y ∈ shift (litV (2/10) (-1/10)).toReal (Region.pts (litPoly triB).toReal),
        8 / 32 * n.norm ≤ n.dot (x - y) := by
    intro p hp hc h
    refine ⟨_, mem_octo hp, _, ⟨_, hv, rfl⟩, ?_⟩
    have hx := litV_close hc
    have ex := abs_le.1 (dot_close (n := n) hx.1 hx.2)
    rw [dot_sub, dot_add]
    push_cast at ey et ex
    linarith [abs_nonneg n.x, abs_nonneg n.y]
  rcases le_total |n.y| |n.x| with h | h
  · rcases le_total 0 n.x with h0 | h0
    · refine fin (21/10, 1/10) (by simp [octo]) (by decide +kernel) ?_
      rw [abs_of_nonneg h0] at h ⊢
      have := neg_abs_le n.y
      push_cast
      linarith
    · refine fin (-21/10, 1/10) (by simp [octo]) (by decide +kernel) ?_
      rw [abs_of_nonpos h0] at h ⊢
      have := neg_abs_le n.y
      push_cast
      linarith
  · rcases le_total 0 n.y with h0 | h0
    · refine fin (1/10, 21/10) (by simp [octo]) (by decide +kernel) ?_
      rw [abs_of_nonneg h0] at h ⊢
      have := le_abs_self n.x
      push_cast
      linarith
    · refine fin (1/10, -21/10) (by simp [octo]) (by decide +kernel) ?_
      rw [abs_of_nonpos h0] at h ⊢
      have := neg_abs_le n.x
      have := le_abs_self n.x
      push_cast
      linarith

/-- All hypotheses of `C97_f32_poly_poly` hold, and all four answers are positive. -/
example : (litPoly octo).Bounded32 8 ∧ (litPoly triB).Bounded32 8 ∧ (litV (2/10) (-1/10)).Bounded32 8 ∧
    DeepBy (8 / 32) (Region.pts (litPoly octo).toReal)
      (shift (litV (2/10) (-1/10)).toReal (Region.pts (litPoly triB).toReal)) ∧
    collidesRel (litPoly octo) (litPoly triB) (litV (2/10) (-1/10)) = .ok true ∧
    (∃ v, penetratesRel (litPoly octo) (litPoly triB) (litV (2/10) (-1/10)) = .ok (some v)) ∧
    distanceToRel (litPoly octo) (litPoly triB) (litV (2/10) (-1/10)) = .ok none ∧
    ∃ v, sdfvRel (litPoly octo) (litPoly triB) (litV (2/10) (-1/10)) = .ok (true, v) := by
  have h1 := (litPoly_good (l := octo) (m := 8) (by decide) (by decide +kernel)).1
  have h2 := (litPoly_good (l := triB) (m := 8) (by decide) (by decide +kernel)).1
  have h3 := (litV_good (p := (2/10, -1/10)) (m := 8) (by decide +kernel)).1
  simp only [Rat.cast_ofNat] at h1 h2 h3
  obtain ⟨a1, a2, a3, a4⟩ := C97_f32_poly_poly _ _ _ h1 h2 h3 (by norm_num) (by norm_num) octo_deep
  exact ⟨h1, h2, h3, octo_deep, a1, a2 (le_refl _), a3 (le_refl _), a4 (le_refl _)⟩

/-- the placements: the polygon turned by (3/5, 4/5), the triangle by (5/13, 12/13) -/
noncomputable def deepA : Transform2d F32 := litT (1/10, -3/10) (3/5, 4/5)
noncomputable def deepB : Transform2d F32 := litT (-6/10, -2/10) (5/13, 12/13)

theorem deep_rigid : deepA.Rigid32 (4 / 4) (1 / 2 ^ 18) ∧ deepB.Rigid32 (4 / 4) (1 / 2 ^ 18) := by
  have h3 := litT_rigid (p := (1/10, -3/10)) (r := (3/5, 4/5)) (m := 1) (e := 1 / 2 ^ 18) (by decide +kernel)
  have h4 := litT_rigid (p := (-6/10, -2/10)) (r := (5/13, 12/13)) (m := 1) (e := 1 / 2 ^ 18) (by decide +kernel)
  have e5 : (((1 / 2 ^ 18 : ℚ)) : ℝ) = 1 / 2 ^ 18 := by push_cast; rfl
  have e4 : (4 / 4 : ℝ) = ((1 : ℚ) : ℝ) := by norm_num
  rw [e5] at h3 h4
  rw [e4]
  exact ⟨h3, h4⟩

/-- the vertex of the turned triangle, seen from the centre of the polygon (exact) -/
def qoff : ℚ × ℚ :=
  let p := qlitV (1/10, -3/10)
  let q := qlitV (-6/10, -2/10)
  let s := qlitV (5/13, 12/13)
  let y := qlitV (3/10, -7/10)
  (p.x.toRat - (s.x.toRat * y.x.toRat - s.y.toRat * y.y.toRat + q.x.toRat),
    p.y.toRat - (s.x.toRat * y.y.toRat + s.y.toRat * y.x.toRat + q.y.toRat))

theorem deep_off : deepA.pos.toReal - (turn deepB.rot.a.toReal (litV (3/10) (-7/10)).toReal + deepB.pos.toReal) =
    ⟨((qoff.1 : ℚ) : ℝ), ((qoff.2 : ℚ) : ℝ)⟩ := by
  have hx : ∀ p : ℚ × ℚ, (litV p.1 p.2).toReal.x = ((qlitV p).x.toRat : ℝ) := fun p => (rel_litV p).x.toReal
  have hy : ∀ p : ℚ × ℚ, (litV p.1 p.2).toReal.y = ((qlitV p).y.toRat : ℝ) := fun p => (rel_litV p).y.toReal
  have e : ∀ a b : ℚ, litV a b = litV (a, b).1 (a, b).2 := fun _ _ => rfl
  simp only [deepA, deepB, litT]
  ext
  · simp only [sub_x, add_x, turn, qoff]
    rw [e, hx, e, hx, hy, e (3/10), hx, hy, e, hx]
    push_cast
    rfl
  · simp only [sub_y, add_y, turn, qoff]
    rw [e, hy, e, hx, hy, e (3/10), hx, hy, e, hy]
    push_cast
    rfl

theorem octo_turned_deep : DeepBy (4 / 15) (deepA.image (Region.pts (litPoly octo).toReal))
    (deepB.image (Region.pts (litPoly triB).toReal)) := by
  intro n
  set r := deepA.rot.a.toReal with hr
  have hv := mem_triB (p := (3/10, -7/10)) (by simp [triB])
  obtain ⟨m, hm⟩ : ∃ m, m = turn r.conj n := ⟨_, rfl⟩
  have hnm : n.norm ≤ 101 / 100 * (|m.x| + |m.y|) := by
    have h1 : m.norm = r.norm * n.norm := by
      rw [hm, turn_norm]
      congr 1
      simp [V2.norm, V2.conj]
    have h2 := mul_le_mul_of_nonneg_right (rot_norms deep_rigid.1).2 n.norm_nonneg
    have h3 := V2.norm_le_add m
    have h4 : (1 - 1 / 2 ^ 18) * n.norm ≤ m.norm := by rw [h1]; exact h2
    linarith [n.norm_nonneg, m.norm_nonneg]
  have hoff : |n.dot (deepA.pos.toReal - (turn deepB.rot.a.toReal (litV (3/10) (-7/10)).toReal + deepB.pos.toReal))| ≤
      n.norm * (1 / 4) := by
    refine (dot_le_norm _ _).trans (mul_le_mul_of_nonneg_left ?_ n.norm_nonneg)
    rw [deep_off]
    have b1 : |qoff.1| ≤ 1 / 10 := by decide +kernel
    have b2 : |qoff.2| ≤ 3 / 20 := by decide +kernel
    have b1 := (Rat.cast_le (K := ℝ)).2 b1
    have b2 := (Rat.cast_le (K := ℝ)).2 b2
    push_cast at b1 b2
    refine (V2.norm_le_add _).trans ?_
    show |((qoff.1 : ℚ) : ℝ)| + |((qoff.2 : ℚ) : ℝ)| ≤ 1 / 4
    linarith
  have hoff := (abs_le.1 hoff).1
  have fin : ∀ p ∈ octo, qclose p = true → 6 / 10 * (|m.x| + |m.y|) ≤
      m.x * ((p.1 : ℚ) : ℝ) + m.y * ((p.2 : ℚ) : ℝ) - 1 / 1000 * (|m.x| + |m.y|) →
      ∃ x ∈ deepA.image (Region.pts (litPoly octo).toReal), ∃ y ∈ deepB.image (Region.pts (litPoly triB).toReal),
        4 / 15 * n.norm ≤ n.dot (x - y) := by
    intro p hp hc h
    refine ⟨_, ⟨_, mem_octo hp, rfl⟩, _, ⟨_, hv, rfl⟩, ?_⟩
    have hx := litV_close hc
    have ex := abs_le.1 (dot_close (n := m) hx.1 hx.2)
    have e : turn deepA.rot.a.toReal (litV p.1 p.2).toReal + deepA.pos.toReal -
        (turn deepB.rot.a.toReal (litV (3/10) (-7/10)).toReal + deepB.pos.toReal) =
        turn r (litV p.1 p.2).toReal +
          (deepA.pos.toReal - (turn deepB.rot.a.toReal (litV (3/10) (-7/10)).toReal + deepB.pos.toReal)) := by
      rw [hr]; ext <;> simp <;> ring
    rw [e, dot_add, turn_dot, ← hm]
    linarith [abs_nonneg m.x, abs_nonneg m.y, n.norm_nonneg]
  rcases le_total |m.y| |m.x| with h | h
  · rcases le_total 0 m.x with h0 | h0
    · refine fin (21/10, 1/10) (by simp [octo]) (by decide +kernel) ?_
      rw [abs_of_nonneg h0] at h ⊢
      have := neg_abs_le m.y
      push_cast
      linarith
    · refine fin (-21/10, 1/10) (by simp [octo]) (by decide +kernel) ?_
      rw [abs_of_nonpos h0] at h ⊢
      have := neg_abs_le m.y
      push_cast
      linarith
  · rcases le_total 0 m.y with h0 | h0
    · refine fin (1/10, 21/10) (by simp [octo]) (by decide +kernel) ?_
      rw [abs_of_nonneg h0] at h ⊢
      have := neg_abs_le m.x
      push_cast
      linarith
    · refine fin (1/10, -21/10) (by simp [octo]) (by decide +kernel) ?_
      rw [abs_of_nonpos h0] at h ⊢
      have := neg_abs_le m.x
      push_cast
      linarith

/-- All hypotheses of `C97_f32_poly_poly_turned_colliders` hold, and all four answers are positive. -/
example : (litPoly octo).Bounded32 4 ∧ (litPoly triB).Bounded32 4 ∧ deepA.Rigid32 (4 / 4) (1 / 2 ^ 18) ∧
    deepB.Rigid32 (4 / 4) (1 / 2 ^ 18) ∧
    DeepBy (4 / 15) (deepA.image (Region.pts (litPoly octo).toReal)) (deepB.image (Region.pts (litPoly triB).toReal)) ∧
    collides ⟨litPoly octo, deepA⟩ ⟨litPoly triB, deepB⟩ = .ok true ∧
    (∃ v, penetrates ⟨litPoly octo, deepA⟩ ⟨litPoly triB, deepB⟩ = .ok (some v)) ∧
    distanceTo ⟨litPoly octo, deepA⟩ ⟨litPoly triB, deepB⟩ = .ok none ∧
    ∃ v, sdfv ⟨litPoly octo, deepA⟩ ⟨litPoly triB, deepB⟩ = .ok (true, v) := by
  have h1 := (litPoly_good (l := octo) (m := 4) (by decide) (by decide +kernel)).1
  have h2 := (litPoly_good (l := triB) (m := 4) (by decide) (by decide +kernel)).1
  simp only [Rat.cast_ofNat] at h1 h2
  obtain ⟨a1, a2, a3, a4⟩ := C97_f32_poly_poly_turned_colliders _ _ _ _ h1 h2 deep_rigid.1 deep_rigid.2 (by norm_num)
    (by norm_num) octo_turned_deep
  exact ⟨h1, h2, deep_rigid.1, deep_rigid.2, octo_turned_deep, a1, a2 (le_refl _), a3 (le_refl _), a4 (le_refl _)⟩

end

end Auburn
