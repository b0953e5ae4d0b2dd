import Verif.Ieee.TransformProps

/-!
# C91: extreme points in binary32

The public `extreme_point` of every 2D shape, and of boxes, polygons and `Shape2d` placed by a rotated `Transform2d`.
-/

set_option linter.unusedSectionVars false
set_option synthInstance.maxSize 1000

namespace Auburn

open F32 V2 ExtremePoint2d Transformation2d

section
variable [env : F32Env]

/-- `p` is a farthest point of `X` in the direction `d`, up to `δ`: it is next to a point of `X`, and no point of `X` is
farther by more than `δ` times the length of `d` (measured as `|x| + |y|`). -/
structure NearExtreme (δ : ℝ) (X : Set (V2 ℝ)) (d p : V2 ℝ) : Prop where
  near : ∃ q ∈ X, V2.Within δ p q
  far : ∀ q ∈ X, d.dot q ≤ d.dot p + δ * (|d.x| + |d.y|)

theorem NearExtreme.mono {δ δ' : ℝ} {X : Set (V2 ℝ)} {d p : V2 ℝ} (h : NearExtreme δ X d p) (hδ : δ ≤ δ') :
    NearExtreme δ' X d p := by
  obtain ⟨⟨q, hq, h1, h2⟩, h3⟩ := h
  refine ⟨⟨q, hq, h1.trans hδ, h2.trans hδ⟩, fun q hq => (h3 q hq).trans ?_⟩
  have := mul_le_mul_of_nonneg_right hδ (show 0 ≤ |d.x| + |d.y| by positivity)
  linarith only [this]

/-- a direction that is neither huge nor tiny -/
def V2.Sane (k : ℤ) (d : V2 F32) : Prop :=
  d.Is d.toReal ∧ d.toReal.Coord ((2 : ℝ) ^ k) ∧ (2 : ℝ) ^ (-60 : ℤ) ≤ |d.toReal.x| + |d.toReal.y|

variable {M : ℝ}

/-- Boxes: exact, for every finite direction. -/
theorem C91_f32_box (b : Box2d F32) (hb : b.Bounded32 M) (d : V2 F32) (hd : d.Is d.toReal) :
    ∃ p, (extremePoint b d).Is p ∧ IsExtreme (Region.pts b.toReal) d.toReal p := by
  obtain ⟨p, p1, -, p3, -⟩ := box_extreme hb hd
  exact ⟨p, p1, p3⟩

theorem noisy_extreme {S : Type} [ExtremePoint2d S F32] {k : ℤ} {s : S} {X : Set (V2 ℝ)} {g : Prop}
    (h1 : NoisyShape k s X M) (h2 : GridShape g True k s X M) (hM : 0 ≤ M) {d' : V2 F32} {d : V2 ℝ} (hd : d'.Is d)
    (hB : DirB k d) (hl : (2 : ℝ) ^ (-61 : ℤ) ≤ d.l1) :
    ∃ p, (extremePoint s d').Is p ∧ p.Coord (M + M / 2 ^ 20) ∧ NearExtreme (9 * (M / 2 ^ 24)) X d p := by
  obtain ⟨p, p1, p2, p3⟩ := h1 d' d hd hB hl
  obtain ⟨q, q1, -, -, x, hx, q4⟩ := h2 d' d hd hB (fun _ => hl)
  have e : q = p := V2.ext (q1.1.unique p1.1) (q1.2.unique p1.2)
  rw [e] at q4
  have : 8 * (M / 2 ^ 24) ≤ 9 * (M / 2 ^ 24) := by linarith only [hM]
  exact ⟨p, p1, p2, ⟨x, hx, q4.1.trans this, q4.2.trans this⟩, p3⟩

/-- Polygons: one of the vertices, farthest up to the rounding of the dot products. -/
theorem C91_f32_poly (P : Poly2d F32) (hP : P.Bounded32 M) (hM0 : (2 : ℝ) ^ (-20 : ℤ) ≤ M) (hM : M ≤ (2 : ℝ) ^ (26 : ℤ))
    (d : V2 F32) (hd : d.Sane 88) :
    extremePoint P d ∈ P.points ∧
    ∃ p, (extremePoint P d).Is p ∧ NearExtreme (9 * (M / 2 ^ 24)) (Region.pts P.toReal) d.toReal p := by
  have hM1 : 0 < M := lt_of_lt_of_le (two_zpow_pos _) hM0
  have hB : DirB 26 d.toReal := hd.2.1
  refine ⟨(poly_extreme hP (by norm_num) hM hd.1 hB).1, ?_⟩
  obtain ⟨p, p1, -, p3⟩ := noisy_extreme (noisy_poly hP (by norm_num) hM hM0)
    (grid_poly (g := False) hP (by norm_num) hM False.elim) hM1.le hd.1 hB ((zpow_le_zpow (by norm_num)).trans hd.2.2)
  exact ⟨p, p1, p3⟩

/-- Balls. -/
theorem C91_f32_ball (b : Ball F32) (hb : b.Bounded32 M) (hM0 : (2 : ℝ) ^ (-20 : ℤ) ≤ M) (hM : M ≤ (2 : ℝ) ^ (17 : ℤ))
    (d : V2 F32) (hd : d.Sane 61) :
    ∃ p, (extremePoint b d).Is p ∧ NearExtreme (9 * (M / 2 ^ 24)) (Region.pts (Ball.mk b.radius.toReal)) d.toReal p := by
  have hM1 : 0 < M := lt_of_lt_of_le (two_zpow_pos _) hM0
  obtain ⟨p, p1, -, p3⟩ := noisy_extreme (noisy_ball hb hM hM0) (grid_ball hb hM hM0) hM1.le hd.1
    (show DirB 17 d.toReal from hd.2.1) ((zpow_le_zpow (by norm_num)).trans hd.2.2)
  exact ⟨p, p1, p3⟩

/-- `Shape2d`. -/
theorem C91_f32_shape (s : Shape2d F32) (hs : s.Bounded32 M) (hM0 : (2 : ℝ) ^ (-20 : ℤ) ≤ M) (hM : M ≤ (2 : ℝ) ^ (17 : ℤ))
    (d : V2 F32) (hd : d.Sane 61) :
    ∃ p, (extremePoint s d).Is p ∧ NearExtreme (9 * (M / 2 ^ 24)) (Region.pts s.toReal) d.toReal p := by
  have hM1 : 0 < M := lt_of_lt_of_le (two_zpow_pos _) hM0
  have h := ball_shape hs hM0 hM
  obtain ⟨p, p1, -, p3⟩ := noisy_extreme h.2.1 h.2.2 hM1.le hd.1
    (show DirB 17 d.toReal from hd.2.1) ((zpow_le_zpow (by norm_num)).trans hd.2.2)
  exact ⟨p, p1, p3⟩

/-- Rounded boxes: the sum of the ball part and the box part. -/
theorem C91_f32_rounded_box (r : RoundedBox2d F32) (hb : (Box2d.mk r.halfsize).Bounded32 M) (hr : (Ball.mk r.radius).Bounded32 M)
    (hM0 : (2 : ℝ) ^ (-20 : ℤ) ≤ M) (hM : M ≤ (2 : ℝ) ^ (17 : ℤ)) (d : V2 F32) (hd : d.Sane 61) :
    ∃ p, (extremePoint r d).Is p ∧ NearExtreme (12 * (M / 2 ^ 24))
      (Region.pts (RoundedBox2d.mk r.halfsize.toReal r.radius.toReal)) d.toReal p := by
  have hM1 : 0 < M := lt_of_lt_of_le (two_zpow_pos _) hM0
  obtain ⟨q, q1, q2, q3⟩ := noisy_extreme (noisy_ball hr hM hM0) (grid_ball hr hM hM0) hM1.le hd.1
    (show DirB 17 d.toReal from hd.2.1) ((zpow_le_zpow (by norm_num)).trans hd.2.2)
  obtain ⟨p, p1, p2, p3, -⟩ := box_extreme hb hd.1
  have hbig : (2 : ℝ) ^ (17 : ℤ) ≤ (2 : ℝ) ^ (126 : ℤ) / 16 := by norm_num
  have key : ∀ {x y : ℝ} {x' y' : F32}, F32.Is x' x → F32.Is y' y → |x| ≤ M + M / 2 ^ 20 → |y| ≤ M →
      ∃ w, F32.Is (x' + y') w ∧ |w - (x + y)| ≤ 3 * (M / 2 ^ 24) := by
    intro x y x' y' hx hy bx b_y
    have a1 := abs_add_le x y
    obtain ⟨w, w1, w2⟩ := F32.round_add hx hy (by linarith only [a1, bx, b_y, hM, hbig, hM1])
    exact ⟨w, w1, by linarith only [w2, a1, bx, b_y, hM1]⟩
  obtain ⟨wx, x1, x2⟩ := key q1.1 p1.1 q2.1 p2.1
  obtain ⟨wy, y1, y2⟩ := key q1.2 p1.2 q2.2 p2.2
  obtain ⟨⟨z, ⟨z0, hz⟩, z1, z2⟩, q4⟩ := q3
  refine ⟨⟨wx, wy⟩, ⟨x1, y1⟩, ⟨z + p, ⟨hr.2.1, p, p3.1, ?_⟩, ?_, ?_⟩, ?_⟩
  · rw [show z + p - p = z by ext <;> simp]; exact hz
  · have a1 := abs_add_le (wx - (q.x + p.x)) (q.x - z.x)
    rw [show wx - (q.x + p.x) + (q.x - z.x) = wx - (z.x + p.x) by ring] at a1
    exact a1.trans (by linarith only [x2, z1])
  · have a1 := abs_add_le (wy - (q.y + p.y)) (q.y - z.y)
    rw [show wy - (q.y + p.y) + (q.y - z.y) = wy - (z.y + p.y) by ring] at a1
    exact a1.trans (by linarith only [y2, z2])
  · rintro v ⟨v0, u, hu, hv⟩
    have b1 := p3.2 u hu
    have b2 := q4 (v - u) ⟨v0, hv⟩
    have s := dot_le_l1 (d := d.toReal) (p := ⟨wx - (q.x + p.x), wy - (q.y + p.y)⟩) (show V2.Coord _ _ from ⟨x2, y2⟩)
    have e : d.toReal.dot ⟨wx - (q.x + p.x), wy - (q.y + p.y)⟩ = d.toReal.dot ⟨wx, wy⟩ - (d.toReal.dot q + d.toReal.dot p) := by
      simp only [dot_def]; ring
    rw [e] at s
    have s' := (abs_le.1 s).1
    rw [dot_sub] at b2
    unfold V2.l1 at s'
    linarith only [b1, b2, s']

/-! ## placed by a rotated transform -/

theorem neg_neg32 (d : V2 F32) : - -d = d := by
  have h : ∀ a : F32, - -a = a := fun a => by cases a <;> simp [Neg.neg, F32.neg]
  exact V2.ext (h _) (h _)

theorem turned_extreme {S : Type} [ExtremePoint2d S F32] {k : ℤ} {s : S} {X : Set (V2 ℝ)} {g : Prop}
    (h1 : NoisyShape (k + 1) s X M) (h2 : GridShape g True (k + 1) s X M) {t : Transform2d F32} (ht : t.Rigid32 M (1 / 2 ^ 16))
    (hk : 0 ≤ k) (hk2 : k ≤ 26) (hM : M ≤ (2 : ℝ) ^ (26 : ℤ)) (hM0 : (2 : ℝ) ^ (-20 : ℤ) ≤ M) {d' : V2 F32}
    (hd : d'.Sane (3 * k + 10)) :
    ∃ p, (extremePointTDefault s t d').Is p ∧ NearExtreme (32 * (M / 2 ^ 24)) (t.image X) d'.toReal p := by
  have hM1 : 0 < M := lt_of_lt_of_le (two_zpow_pos _) hM0
  obtain ⟨hd, hD, hl⟩ := hd
  set d := d'.toReal
  have hl : (2 : ℝ) ^ (-60 : ℤ) ≤ d.l1 := hl
  have hl1 : (-d).l1 = d.l1 := by unfold V2.l1; simp
  obtain ⟨e, e1, e2, e3⟩ := turn_dir ht hk hk2 hd.neg (V2.Coord.neg hD)
  rw [neg_neg32] at e1
  rw [hl1, neg_neg] at e3
  obtain ⟨e3, e4, e5⟩ := e3 hl
  obtain ⟨q, q1, q2, q3⟩ := noisy_extreme h1 h2 hM1.le e1 e2 e3
  obtain ⟨u, u1, u2, u3, -⟩ := turn_point ht hM hM0 q1 q2
  set r := t.rot.a.toReal with hr
  set f := turn r.conj d with hf
  have fdot : ∀ v, f.dot v = d.dot (turn r v) := fun v => by rw [hf, ← turn_dot]
  have hμL : 0 ≤ M / 2 ^ 24 * d.l1 := by have := d.l1_nonneg; positivity
  obtain ⟨⟨z, hz, z1⟩, q4⟩ := q3
  refine ⟨u, u1, ⟨_, ⟨z, hz, rfl⟩, ?_⟩, ?_⟩
  · have c := coord_turn ht.norm_le (show (q - z).Coord (9 * (M / 2 ^ 24)) from z1)
    have w := within_add u3 (show (turn r q + t.pos.toReal - (turn r z + t.pos.toReal)).Coord ((151 / 100) * (9 * (M / 2 ^ 24))) by
      rw [show turn r q + t.pos.toReal - (turn r z + t.pos.toReal) = turn r (q - z) by rw [turn_sub]; ext <;> simp]
      exact c) rfl
    exact ⟨w.1.trans (by linarith only [hM1]), w.2.trans (by linarith only [hM1])⟩
  · rintro _ ⟨y, hy, rfl⟩
    have yc := h1.coord (by omega) hM1.le y hy
    have near : ∀ v : V2 ℝ, v.Coord (M + M / 2 ^ 19) → |e.dot v - f.dot v| ≤ (461 / 100) * (M / 2 ^ 24 * d.l1) := by
      intro v hv
      have h := dot_le_l1 (d := v) (p := ⟨e.x - f.x, e.y - f.y⟩) e5
      have e' : v.dot ⟨e.x - f.x, e.y - f.y⟩ = e.dot v - f.dot v := by simp only [dot_def]; ring
      rw [e'] at h
      have hv1 : v.l1 ≤ (2002 / 1000) * M := by unfold V2.l1; linarith [hv.1, hv.2]
      have h' := mul_le_mul_of_nonneg_left hv1 (show 0 ≤ (23 / 10) * (d.l1 / 2 ^ 24) by have := d.l1_nonneg; positivity)
      refine h.trans (h'.trans (le_of_eq_of_le (b := (23 / 10 * 2002 / 1000) * (M / 2 ^ 24 * d.l1)) (by ring) ?_))
      exact mul_le_mul_of_nonneg_right (by norm_num) hμL
    have ny := (abs_le.1 (near y yc)).1
    have nq := (abs_le.1 (near q (q2.mono (by linarith)))).2
    have h2 := q4 y hy
    have hl' : 9 * (M / 2 ^ 24) * e.l1 ≤ (1359 / 100) * (M / 2 ^ 24 * d.l1) := by
      have := mul_le_mul_of_nonneg_left e4 (show 0 ≤ 9 * (M / 2 ^ 24) by positivity)
      linarith only [this]
    have s1 := dot_le_l1 (d := d) (p := ⟨u.x - (turn r q + t.pos.toReal).x, u.y - (turn r q + t.pos.toReal).y⟩) u3
    have k1 : d.dot ⟨u.x - (turn r q + t.pos.toReal).x, u.y - (turn r q + t.pos.toReal).y⟩ =
        d.dot u - (d.dot (turn r q) + d.dot t.pos.toReal) := by
      simp only [dot_def, add_x, add_y]; ring
    rw [k1] at s1
    have s1' := (abs_le.1 s1).1
    rw [fdot] at ny nq
    rw [dot_add]
    change 9 * (M / 2 ^ 24) * (|e.x| + |e.y|) ≤ _ at hl'
    change _ ≤ d.dot u + 32 * (M / 2 ^ 24) * d.l1
    linarith only [h2, ny, nq, hl', s1', hμL]

/-- Boxes, polygons and `Shape2d` as colliders with a rotated transform. -/
theorem C91_f32_colliders (t : Transform2d F32) (ht : t.Rigid32 M (1 / 2 ^ 16)) (hM0 : (2 : ℝ) ^ (-20 : ℤ) ≤ M) (d : V2 F32) :
    (∀ b : Box2d F32, b.Bounded32 M → M ≤ (2 : ℝ) ^ (24 : ℤ) → d.Sane 85 →
      ∃ p, (extremePoint (Collider2d.mk b t) d).Is p ∧
        NearExtreme (32 * (M / 2 ^ 24)) (t.image (Region.pts b.toReal)) d.toReal p) ∧
    (∀ P : Poly2d F32, P.Bounded32 M → M ≤ (2 : ℝ) ^ (24 : ℤ) → d.Sane 85 →
      ∃ p, (extremePoint (Collider2d.mk P t) d).Is p ∧
        NearExtreme (32 * (M / 2 ^ 24)) (t.image (Region.pts P.toReal)) d.toReal p) ∧
    (∀ s : Shape2d F32, s.Bounded32 M → M ≤ (2 : ℝ) ^ (15 : ℤ) → d.Sane 58 →
      ∃ p, (extremePoint (Collider2d.mk s t) d).Is p ∧
        NearExtreme (32 * (M / 2 ^ 24)) (t.image (Region.pts s.toReal)) d.toReal p) := by
  refine ⟨fun b hb hM hd => ?_, fun P hP hM hd => ?_, fun s hs hM hd => ?_⟩
  · have hM' : M ≤ (2 : ℝ) ^ (26 : ℤ) := hM.trans (zpow_le_zpow (by norm_num))
    exact turned_extreme (k := 25) (noisy_box hb _) (grid_box (g := False) hb False.elim _) ht (by norm_num) (by norm_num)
      hM' hM0 hd
  · have hM' : M ≤ (2 : ℝ) ^ (26 : ℤ) := hM.trans (zpow_le_zpow (by norm_num))
    exact turned_extreme (k := 25) (noisy_poly hP (by norm_num) hM' hM0) (grid_poly (g := False) hP (by norm_num) hM' False.elim)
      ht (by norm_num) (by norm_num) hM' hM0 hd
  · have hM' : M ≤ (2 : ℝ) ^ (17 : ℤ) := hM.trans (zpow_le_zpow (by norm_num))
    have h := ball_shape hs hM0 hM'
    exact turned_extreme (k := 16) h.2.1 h.2.2 ht (by norm_num) (by norm_num) (hM.trans (zpow_le_zpow (by norm_num))) hM0 hd

end

end Auburn
