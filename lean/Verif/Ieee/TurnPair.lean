import Verif.Ieee.Turn
import Verif.Ieee.PosProps

/-!
# The difference of a shape and a rotated shape on binary32 (library lemmas for C88)
-/

set_option linter.unusedSectionVars false
set_option synthInstance.maxSize 1000

namespace Auburn

open F32 V2 ExtremePoint2d Transformation2d

section
variable [env : F32Env]

/-- where a rigid placement puts a set -/
def Transform2d.image (t : Transform2d F32) (X : Set (V2 ℝ)) : Set (V2 ℝ) := moved t.rot.a.toReal t.pos.toReal X

theorem Transform2d.Rigid32.norm_le {M : ℝ} {t : Transform2d F32} (h : t.Rigid32 M (1 / 2 ^ 16)) :
    t.rot.a.toReal.norm ≤ 1 + 1 / 2 ^ 16 := by
  have := (abs_le.1 (h.unit.norm (by norm_num))).2
  linarith
theorem Transform2d.Rigid32.norm_ge {M : ℝ} {t : Transform2d F32} (h : t.Rigid32 M (1 / 2 ^ 16)) :
    1 - 1 / 2 ^ 16 ≤ t.rot.a.toReal.norm := by
  have := (abs_le.1 (h.unit.norm (by norm_num))).1
  linarith
theorem Transform2d.Rigid32.inv_is {M e : ℝ} {t : Transform2d F32} (h : t.Rigid32 M e) :
    t.rot.inverse.a.Is t.rot.a.toReal.conj := ⟨h.rot.1, is_neg h.rot.2⟩

theorem one_mulV {q' : V2 F32} {q : V2 ℝ} (h : q'.Is q) : (V2.mulV V2.one q').Is q := by
  have hx : F32.Is (1 * q'.x) (1 * q.x) := is_mul is_one h.1 (by rw [one_mul]; exact h.1.representable)
  have hy : F32.Is (1 * q'.y) (1 * q.y) := is_mul is_one h.2 (by rw [one_mul]; exact h.2.representable)
  rw [one_mul] at hx hy
  exact ⟨hx, hy⟩

variable {k : ℤ} {M : ℝ} {rel : Transform2d F32}

/-- the direction handed to the second shape -/
theorem turn_dir (hr : rel.Rigid32 M (1 / 2 ^ 16)) (hk : 0 ≤ k) (hk2 : k ≤ 26) {d' : V2 F32} {d : V2 ℝ} (hd : d'.Is d)
    (hD : DirB k d) : ∃ e, (unapplyNormal rel (-d')).Is e ∧ DirB (k + 1) e ∧
      ((2 : ℝ) ^ (-60 : ℤ) ≤ d.l1 → (2 : ℝ) ^ (-61 : ℤ) ≤ e.l1 ∧ e.l1 ≤ (151 / 100) * d.l1 ∧
        V2.Within ((23 / 10) * (d.l1 / 2 ^ 24)) e (turn rel.rot.a.toReal.conj (-d))) := by
  set r := rel.rot.a.toReal with hrd
  have n1 : r.norm ≤ 1 + 1 / 2 ^ 16 := hr.norm_le
  have n2 : 1 - 1 / 2 ^ 16 ≤ r.norm := hr.norm_ge
  have dl : d.norm ≤ d.l1 := V2.norm_le_add d
  have dl2 : d.l1 ≤ 3 / 2 * d.norm := d.l1_le_norm
  have d0 := d.norm_nonneg
  have L0 := d.l1_nonneg
  have hB : d.l1 ≤ 2 * (2 : ℝ) ^ (3 * k + 10) := by unfold V2.l1; linarith [hD.1, hD.2]
  have hP : r.conj.norm * (-d).norm ≤ (1 + 1 / 2 ^ 16) * d.l1 := by
    rw [conj_norm, V2.norm_neg]
    exact mul_le_mul n1 dl d0 (by norm_num)
  have hbig : (2 : ℝ) ^ (3 * k + 10) ≤ (2 : ℝ) ^ (88 : ℤ) := zpow_le_zpow (by omega)
  have h88 : (2 : ℝ) ^ (88 : ℤ) * 4 ≤ (2 : ℝ) ^ (125 : ℤ) := by norm_num
  have hone : (1 : ℝ) ≤ (2 : ℝ) ^ (3 * k + 10) := one_le_zpow₀ (by norm_num) (by omega)
  obtain ⟨e, e1, e2, e3⟩ := round_turn (hr.inv_is) hd.neg hP (by linarith)
  set f := turn r.conj (-d) with hf
  have fn : f.norm = r.norm * d.norm := by rw [hf, turn_norm, conj_norm, V2.norm_neg]
  have fx := f.abs_x_le_norm
  have fy := f.abs_y_le_norm
  have fle : f.norm ≤ (1 + 1 / 2 ^ 16) * d.l1 := by
    rw [fn]; exact mul_le_mul n1 dl d0 (by norm_num)
  have tx := abs_add_le f.x (e.x - f.x)
  have ty := abs_add_le f.y (e.y - f.y)
  rw [add_sub_cancel] at tx ty
  refine ⟨e, e1, ?_, fun hl => ?_⟩
  · have h3 : (2 : ℝ) ^ (3 * (k + 1) + 10) = 8 * (2 : ℝ) ^ (3 * k + 10) := by
      rw [show 3 * (k + 1) + 10 = 3 + (3 * k + 10) by ring, zpow_add₀ (by norm_num)]; norm_num
    have hsm : (3 : ℝ) / 2 ^ 150 ≤ 1 := by norm_num
    refine ⟨?_, ?_⟩
    · rw [h3]; linarith
    · rw [h3]; linarith
  · have hsm : (3 : ℝ) / 2 ^ 150 ≤ (1 / 100) * (d.l1 / 2 ^ 24) := by
      have h1 : (3 : ℝ) / 2 ^ 150 ≤ (1 / 100) * ((2 : ℝ) ^ (-60 : ℤ) / 2 ^ 24) := by norm_num
      have h2 := div_le_div_of_nonneg_right hl (show (0 : ℝ) ≤ 2 ^ 24 by positivity)
      linarith only [h1, h2]
    have w1 : |e.x - f.x| ≤ (23 / 10) * (d.l1 / 2 ^ 24) := by linarith only [e2, hsm, L0]
    have w2 : |e.y - f.y| ≤ (23 / 10) * (d.l1 / 2 ^ 24) := by linarith only [e3, hsm, L0]
    have fl1 : f.norm ≤ f.l1 := V2.norm_le_add f
    have fl2 : f.l1 ≤ 3 / 2 * f.norm := f.l1_le_norm
    have ux := abs_sub e.x (e.x - f.x)
    have uy := abs_sub e.y (e.y - f.y)
    rw [sub_sub_cancel] at ux uy
    have fge : (2 / 3) * (1 - 1 / 2 ^ 16) * d.l1 ≤ f.norm := by
      rw [fn]
      have h1 := mul_le_mul_of_nonneg_right n2 d0
      linarith only [h1, dl2]
    refine ⟨?_, ?_, w1, w2⟩
    · have h1 : d.l1 / 2 ≤ e.l1 := by
        unfold V2.l1 at *
        linarith only [fl1, fge, ux, uy, w1, w2, L0]
      have h2 : (2 : ℝ) ^ (-61 : ℤ) = (2 : ℝ) ^ (-60 : ℤ) / 2 := by norm_num
      rw [h2]; exact (div_le_div_of_nonneg_right hl (by norm_num)).trans h1
    · unfold V2.l1 at *
      linarith only [fl2, fle, tx, ty, w1, w2, L0]

/-- a point of the second shape, placed -/
theorem turn_point (hr : rel.Rigid32 M (1 / 2 ^ 16)) (hM : M ≤ (2 : ℝ) ^ (26 : ℤ)) (hM0 : (2 : ℝ) ^ (-20 : ℤ) ≤ M)
    {q' : V2 F32} {q : V2 ℝ} (hq : q'.Is q) (hc : q.Coord (M + M / 2 ^ 20)) :
    ∃ u, (apply rel q').Is u ∧ u.Coord ((254 / 100) * M) ∧
      V2.Within (6 * (M / 2 ^ 24)) u (turn rel.rot.a.toReal q + rel.pos.toReal) ∧
      (ProdGr rel.rot.a.toReal q → rel.pos.toReal.Gr → u.Gr) := by
  set r := rel.rot.a.toReal with hrd
  set t := rel.pos.toReal with htd
  have n1 : r.norm ≤ 1 + 1 / 2 ^ 16 := hr.norm_le
  have hM1 : 0 < M := lt_of_lt_of_le (two_zpow_pos _) hM0
  have qn := norm_coord hc
  have hP : r.norm * q.norm ≤ (151 / 100) * M := by
    have := mul_le_mul n1 qn q.norm_nonneg (by norm_num)
    linarith only [this, hM1]
  have hbig : (2 : ℝ) ^ (26 : ℤ) ≤ (2 : ℝ) ^ (124 : ℤ) / 16 := by norm_num
  have hbig2 : (2 : ℝ) ^ (125 : ℤ) = 2 * (2 : ℝ) ^ (124 : ℤ) := by norm_num
  have hbig3 : (2 : ℝ) ^ (126 : ℤ) = 4 * (2 : ℝ) ^ (124 : ℤ) := by norm_num
  have hone := one_mulV hq
  obtain ⟨z, z1, z2, z3⟩ := round_turn hr.rot hone hP (by linarith only [hM, hbig, hbig2, hM1])
  have hsm : (3 : ℝ) / 2 ^ 150 ≤ (1 / 100) * (M / 2 ^ 24) := by
    have h1 : (3 : ℝ) / 2 ^ 150 ≤ (1 / 100) * ((2 : ℝ) ^ (-20 : ℤ) / 2 ^ 24) := by norm_num
    have h2 := div_le_div_of_nonneg_right hM0 (show (0 : ℝ) ≤ 2 ^ 24 by positivity)
    linarith only [h1, h2]
  set f := turn r q with hf
  have fn : f.norm ≤ (151 / 100) * M := by rw [hf, turn_norm]; exact hP
  have key : ∀ {z f t w' : ℝ} {z' t' : F32}, |z - f| ≤ (9 / 4) * ((151 / 100) * M / 2 ^ 24) + 3 / 2 ^ 150 →
      |f| ≤ (151 / 100) * M → |t| ≤ M → F32.Is z' z → F32.Is t' t →
      ∃ u, F32.Is (z' + t') u ∧ |u| ≤ (254 / 100) * M ∧ |u - (f + t)| ≤ 6 * (M / 2 ^ 24) ∧ (Gr z → Gr t → Gr u) := by
    intro z f t _ z' t' h1 h2 h3 i1 i2
    have a1 := abs_add_le f (z - f)
    rw [add_sub_cancel] at a1
    have a2 := abs_add_le z t
    have a3 : |z + t| ≤ (252 / 100) * M := by linarith only [a1, a2, h1, h2, h3, hsm, hM1]
    obtain ⟨u, u1, u2⟩ := F32.round_add i1 i2 (by linarith only [a3, hM, hbig, hbig3, hM1])
    have a4 := abs_add_le (z + t) (u - (z + t))
    rw [add_sub_cancel] at a4
    have a5 := abs_add_le (u - (z + t)) (z - f)
    rw [show u - (z + t) + (z - f) = u - (f + t) by ring] at a5
    refine ⟨u, u1, by linarith only [a4, u2, a3, hM1], by linarith only [a5, u2, a3, h1, hsm, hM1], fun g1 g2 => ?_⟩
    obtain ⟨v, v1, _, v3⟩ := F32.gr_add i1 i2 g1 g2 (by linarith only [a3, hM, hbig, hbig3, hM1])
    rwa [v1.unique u1] at v3
  obtain ⟨ux, x1, x2, x3, x4⟩ := key (w' := 0) z2 (f.abs_x_le_norm.trans fn) hr.pos.2.1 z1.1 hr.pos.1.1
  obtain ⟨uy, y1, y2, y3, y4⟩ := key (w' := 0) z3 (f.abs_y_le_norm.trans fn) hr.pos.2.2 z1.2 hr.pos.1.2
  refine ⟨⟨ux, uy⟩, ?_, ⟨x2, y2⟩, ⟨x3, y3⟩, fun g gt => ?_⟩
  · show (rel.rot.rotate (V2.mulV rel.scale q') + rel.pos).Is _
    rw [hr.scale]
    exact ⟨x1, y1⟩
  · have gz := gr_turn hr.rot hone (hP.trans (by linarith only [hM, hbig, hM1])) g z1
    exact ⟨x4 gz.1 gt.1, y4 gz.2 gt.2⟩

/-- one coordinate of the difference -/
theorem diff_turn {p' u' : F32} {p u M : ℝ} (hp : F32.Is p' p) (hu : F32.Is u' u) (hM : M ≤ (2 : ℝ) ^ (26 : ℤ)) (hM0 : 0 ≤ M)
    (h1 : |p| ≤ M + M / 2 ^ 20) (h2 : |u| ≤ (254 / 100) * M) :
    ∃ z, F32.Is (p' - u') z ∧ |z - (p - u)| ≤ (36 / 10) * (M / 2 ^ 24) ∧ |z| ≤ 4 * (2 * M) ∧ (Gr p → Gr u → Gr z) := by
  have hbig : (2 : ℝ) ^ (26 : ℤ) ≤ (2 : ℝ) ^ (126 : ℤ) / 16 := by norm_num
  have a1 := abs_sub p u
  obtain ⟨z, z1, z2⟩ := F32.round_sub hp hu (by linarith)
  have a2 := abs_add_le (p - u) (z - (p - u))
  rw [add_sub_cancel] at a2
  refine ⟨z, z1, by linarith, by linarith, fun g1 g2 => ?_⟩
  obtain ⟨v, v1, _, v3⟩ := F32.gr_sub hp hu g1 g2 (by linarith)
  rwa [v1.unique z1] at v3

section
variable {A B : Type} [ExtremePoint2d A F32] [ExtremePoint2d B F32] {a : A} {b : B} {X Y : Set (V2 ℝ)}

theorem noisy_turn_pair (hA : NoisyShape k a X M) (hB : NoisyShape (k + 1) b Y M) (hr : rel.Rigid32 M (1 / 2 ^ 16))
    (hk : 0 ≤ k) (hk2 : k ≤ 26) (hM : M ≤ (2 : ℝ) ^ (26 : ℤ)) (hM0 : (2 : ℝ) ^ (-20 : ℤ) ≤ M) :
    Noisy k (minkDiff X (rel.image Y)) (2 * M) (extremePoint (LocalMinkowskiDiff2d.mk a b rel)) := by
  intro d' d hd hD hl
  have hM1 : 0 < M := lt_of_lt_of_le (two_zpow_pos _) hM0
  obtain ⟨p, p1, p2, p3⟩ := hA d' d hd hD ((zpow_le_zpow (by norm_num)).trans hl)
  obtain ⟨e, e1, e2, e3⟩ := turn_dir hr hk hk2 hd hD
  obtain ⟨e3, e4, e5⟩ := e3 hl
  obtain ⟨q, q1, q2, q3⟩ := hB _ _ e1 e2 e3
  obtain ⟨u, u1, u2, u3, -⟩ := turn_point hr hM hM0 q1 q2
  obtain ⟨zx, x1, x2, x3, -⟩ := diff_turn p1.1 u1.1 hM hM1.le p2.1 u2.1
  obtain ⟨zy, y1, y2, y3, -⟩ := diff_turn p1.2 u1.2 hM hM1.le p2.2 u2.2
  refine ⟨⟨zx, zy⟩, ⟨x1, y1⟩, ⟨x3, y3⟩, ?_⟩
  rintro _ ⟨x, hx, _, ⟨y, hy, rfl⟩, rfl⟩
  have yc := hB.coord (by omega) hM1.le y hy
  have h1 := p3 x hx
  have h2 := q3 y hy
  set r := rel.rot.a.toReal
  set t := rel.pos.toReal
  set f := turn r.conj (-d) with hf
  have fdot : ∀ v, f.dot v = -d.dot (turn r v) := fun v => by rw [hf, ← turn_dot, neg_dot]
  have hμL : 0 ≤ M / 2 ^ 24 * d.l1 := by have := d.l1_nonneg; positivity
  -- error of the direction
  have near : ∀ v : V2 ℝ, v.Coord (M + M / 2 ^ 19) → |e.dot v - f.dot v| ≤ (461 / 100) * (M / 2 ^ 24 * d.l1) := by
    intro v hv
    have h := dot_le_l1 (d := v) (p := ⟨e.x - f.x, e.y - f.y⟩) e5
    have e' : v.dot ⟨e.x - f.x, e.y - f.y⟩ = e.dot v - f.dot v := by simp only [dot_def]; ring
    rw [e'] at h
    have hv1 : v.l1 ≤ (2002 / 1000) * M := by unfold V2.l1; linarith [hv.1, hv.2]
    have h' := mul_le_mul_of_nonneg_left hv1 (show 0 ≤ (23 / 10) * (d.l1 / 2 ^ 24) by have := d.l1_nonneg; positivity)
    refine h.trans (h'.trans (le_of_eq_of_le (b := (23 / 10 * 2002 / 1000) * (M / 2 ^ 24 * d.l1)) (by ring) ?_))
    exact mul_le_mul_of_nonneg_right (by norm_num) hμL
  have ny := (abs_le.1 (near y yc)).1
  have nq := (abs_le.1 (near q (q2.mono (by linarith)))).2
  have hl' : 9 * (M / 2 ^ 24) * e.l1 ≤ (1359 / 100) * (M / 2 ^ 24 * d.l1) := by
    have := mul_le_mul_of_nonneg_left e4 (show 0 ≤ 9 * (M / 2 ^ 24) by positivity)
    linarith only [this]
  -- rounding of the point
  have s1 := dot_le_l1 (d := d) (p := ⟨u.x - (turn r q + t).x, u.y - (turn r q + t).y⟩) u3
  have s2 := dot_le_l1 (d := d) (p := ⟨zx - (p.x - u.x), zy - (p.y - u.y)⟩) ⟨x2, y2⟩
  have k1 : d.dot ⟨u.x - (turn r q + t).x, u.y - (turn r q + t).y⟩ = d.dot u - (d.dot (turn r q) + d.dot t) := by
    simp only [dot_def, add_x, add_y]; ring
  have k2 : d.dot ⟨zx - (p.x - u.x), zy - (p.y - u.y)⟩ = d.dot ⟨zx, zy⟩ - (d.dot p - d.dot u) := by
    simp only [dot_def]; ring
  rw [k1] at s1
  rw [k2] at s2
  have s1' := (abs_le.1 s1).2
  have s2' := (abs_le.1 s2).1
  rw [dot_sub, dot_add]
  rw [fdot] at ny nq
  have goal : 24 * (2 * M / 2 ^ 24) * d.l1 = 48 * (M / 2 ^ 24 * d.l1) := by ring
  rw [goal]
  linarith only [h1, h2, ny, nq, hl', s1', s2', hμL]

theorem noisyGrid_turn_pair {g lo : Prop} (hA : GridShape g lo k a X M) (hB : GridShape False lo (k + 1) b Y M)
    (hr : rel.Rigid32 M (1 / 2 ^ 16))
    (hg : g → rel.pos.toReal.Gr ∧ ∀ (e' : V2 F32) (e : V2 ℝ), e'.Is e → DirB (k + 1) e →
      ProdGr rel.rot.a.toReal (extremePoint b e').toReal)
    (hk : 0 ≤ k) (hk2 : k ≤ 26) (hM : M ≤ (2 : ℝ) ^ (26 : ℤ)) (hM0 : (2 : ℝ) ^ (-20 : ℤ) ≤ M) :
    NoisyGrid g lo k (minkDiff X (rel.image Y)) (2 * M) (extremePoint (LocalMinkowskiDiff2d.mk a b rel)) := by
  intro d' d hd hD hlo
  have hM1 : 0 < M := lt_of_lt_of_le (two_zpow_pos _) hM0
  obtain ⟨p, p1, p2, p3, pw, pX, px, py⟩ := hA d' d hd hD (fun h => (zpow_le_zpow (by norm_num)).trans (hlo h))
  obtain ⟨e, e1, e2, e3⟩ := turn_dir hr hk hk2 hd hD
  obtain ⟨q, q1, q2, -, qw, qY, qx, qy⟩ := hB _ _ e1 e2 (fun h => (e3 (hlo h)).1)
  obtain ⟨u, u1, u2, u3, u4⟩ := turn_point hr hM hM0 q1 q2
  obtain ⟨zx, x1, x2, x3, x4⟩ := diff_turn p1.1 u1.1 hM hM1.le p2.1 u2.1
  obtain ⟨zy, y1, y2, y3, y4⟩ := diff_turn p1.2 u1.2 hM hM1.le p2.2 u2.2
  have gu : g → u.Gr := fun h => by
    obtain ⟨g1, g2⟩ := hg h
    refine u4 ?_ g1
    have := g2 _ _ e1 e2
    rwa [q1.toReal] at this
  set r := rel.rot.a.toReal
  set t := rel.pos.toReal
  have n1 : r.norm ≤ 1 + 1 / 2 ^ 16 := hr.norm_le
  have hδ : (turn r (q - qw)).norm ≤ (121 / 10) * (M / 2 ^ 24) := by
    rw [turn_norm]
    have h1 : (q - qw).norm ≤ (3 / 2) * (8 * (M / 2 ^ 24)) := norm_coord ⟨qx, qy⟩
    have h2 := mul_le_mul n1 h1 (V2.norm_nonneg _) (by norm_num)
    linarith only [h2, hM1]
  rw [turn_sub] at hδ
  refine ⟨⟨zx, zy⟩, ⟨x1, y1⟩, ⟨x3, y3⟩, fun h => ⟨x4 (p3 h).1 (gu h).1, y4 (p3 h).2 (gu h).2⟩,
    pw - (turn r qw + t), ⟨pw, pX, _, ⟨qw, qY, rfl⟩, rfl⟩, ?_, ?_⟩
  · have hx := (V2.abs_x_le_norm _).trans hδ
    have ux : |u.x - (turn r q + t).x| ≤ _ := u3.1
    simp only [add_x, sub_x] at ux hx ⊢
    have e' : zx - (pw.x - ((turn r qw).x + t.x)) = ((zx - (p.x - u.x)) + (p.x - pw.x)) -
        ((u.x - ((turn r q).x + t.x)) + ((turn r q).x - (turn r qw).x)) := by ring
    rw [e']
    have h1 := abs_sub ((zx - (p.x - u.x)) + (p.x - pw.x)) ((u.x - ((turn r q).x + t.x)) + ((turn r q).x - (turn r qw).x))
    have h2 := abs_add_le (zx - (p.x - u.x)) (p.x - pw.x)
    have h3 := abs_add_le (u.x - ((turn r q).x + t.x)) ((turn r q).x - (turn r qw).x)
    linarith only [h1, h2, h3, x2, px, ux, hx, hM1]
  · have hy := (V2.abs_y_le_norm _).trans hδ
    have uy : |u.y - (turn r q + t).y| ≤ _ := u3.2
    simp only [add_y, sub_y] at uy hy ⊢
    have e' : zy - (pw.y - ((turn r qw).y + t.y)) = ((zy - (p.y - u.y)) + (p.y - pw.y)) -
        ((u.y - ((turn r q).y + t.y)) + ((turn r q).y - (turn r qw).y)) := by ring
    rw [e']
    have h1 := abs_sub ((zy - (p.y - u.y)) + (p.y - pw.y)) ((u.y - ((turn r q).y + t.y)) + ((turn r q).y - (turn r qw).y))
    have h2 := abs_add_le (zy - (p.y - u.y)) (p.y - pw.y)
    have h3 := abs_add_le (u.y - ((turn r q).y + t.y)) ((turn r q).y - (turn r qw).y)
    linarith only [h1, h2, h3, y2, py, uy, hy, hM1]

end

end

end Auburn
