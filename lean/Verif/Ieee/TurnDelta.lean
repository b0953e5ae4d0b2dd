import Verif.Ieee.TurnProps

/-!
# The relative placement of two rotated colliders on binary32 (library lemmas for C88)
-/

set_option linter.unusedSectionVars false
set_option synthInstance.maxSize 1000

namespace Auburn

open F32 V2 ExtremePoint2d Transformation2d

/-! ## finite results -/

theorem F32.Is.eq {a b : F32} {x : ℝ} (ha : F32.Is a x) (hb : F32.Is b x) (h0 : x ≠ 0) : a = b := by
  obtain ⟨s, m, hm, rfl, rfl⟩ := ha
  obtain ⟨s', m', hm', rfl, e⟩ := hb
  have h1 := abs_sval s hm.1
  have h2 := abs_sval s' hm'.1
  rw [e, h1] at h2
  subst h2
  cases s <;> cases s'
  · rfl
  · simp only [sval_false, sval_true] at e h0
    exact absurd (by linarith : m = 0) h0
  · simp only [sval_false, sval_true] at e h0
    exact absurd (by linarith : -m = 0) h0
  · rfl

/-- a finite rounding result has the usual error, whatever the size -/
theorem round_fin {z : Bool} {x w : ℝ} (h : F32.Is (ofReal z x) w) : |w - x| ≤ |x| / 2 ^ 24 + 1 / 2 ^ 150 := by
  by_cases hx : |x| ≤ 3 * (2 : ℝ) ^ (126 : ℤ)
  · obtain ⟨v, v1, v2, -⟩ := round_any (z := z) hx
    rwa [h.unique v1]
  push Not at hx
  have hpos : 0 < |x| := lt_trans (by positivity) hx
  have h0 : x ≠ 0 := abs_pos.1 hpos
  have hrel : |rnd (|x|) - (|x|)| ≤ |x| / 2 ^ 24 := by
    have hb : (2 : ℝ) ^ (-126 : ℤ) ≤ |x| := le_trans (by norm_num) hx.le
    refine (abs_rnd_sub_le_rel hb).trans (le_of_eq ?_)
    norm_num; ring
  have key : |w - x| ≤ |x| / 2 ^ 24 := by
    rcases ofReal_cases z x with ⟨_, s, h', e, hs, _⟩ | ⟨_, _, e⟩
    · rw [e, hs h0] at h
      have e2 := h.unique ⟨_, _, _, rfl, rfl⟩
      rw [e2]
      by_cases hx0 : x < 0
      · rw [decide_eq_true hx0, sval_true]
        rw [abs_of_neg hx0] at hrel ⊢
        rw [show -rnd (-x) - x = -(rnd (-x) - -x) by ring, abs_neg]
        exact hrel
      · rw [decide_eq_false hx0, sval_false]
        rw [abs_of_nonneg (not_lt.1 hx0)] at hrel ⊢
        exact hrel
    · rw [e] at h
      obtain ⟨s, m, hm, he, _⟩ := h
      cases he
  have : (0 : ℝ) < 1 / 2 ^ 150 := by positivity
  linarith

theorem finite_add {a b : F32} {z : ℝ} (h : F32.Is (a + b) z) :
    ∃ x y, F32.Is a x ∧ F32.Is b y ∧ |z - (x + y)| ≤ |x + y| / 2 ^ 24 + 1 / 2 ^ 150 := by
  have h' : F32.Is (F32.add a b) z := h
  rcases a with _ | s | ⟨s, m, hm⟩ <;> rcases b with _ | t | ⟨t, n, hn⟩
  all_goals try (obtain ⟨_, _, _, he, _⟩ := h'; simp only [F32.add] at he; cases he)
  · obtain ⟨_, _, _, he, _⟩ := h'
    simp only [F32.add] at he
    split at he <;> cases he
  · exact ⟨_, _, ⟨s, m, hm, rfl, rfl⟩, ⟨t, n, hn, rfl, rfl⟩, round_fin h'⟩

theorem finite_mul {a b : F32} {z : ℝ} (h : F32.Is (a * b) z) :
    ∃ x y, F32.Is a x ∧ F32.Is b y ∧ |z - x * y| ≤ |x * y| / 2 ^ 24 + 1 / 2 ^ 150 := by
  have h' : F32.Is (F32.mul a b) z := h
  rcases a with _ | s | ⟨s, m, hm⟩ <;> rcases b with _ | t | ⟨t, n, hn⟩
  all_goals try (obtain ⟨_, _, _, he, _⟩ := h'; simp only [F32.mul] at he; cases he)
  · obtain ⟨_, _, _, he, _⟩ := h'
    simp only [F32.mul] at he
    split at he <;> cases he
  · obtain ⟨_, _, _, he, _⟩ := h'
    simp only [F32.mul] at he
    split at he <;> cases he
  · have ha : F32.Is (fin s m hm) (sval s m) := ⟨s, m, hm, rfl, rfl⟩
    have hb : F32.Is (fin t n hn) (sval t n) := ⟨t, n, hn, rfl, rfl⟩
    obtain ⟨c, e⟩ := F32.mul_eq ha hb
    rw [e] at h
    exact ⟨_, _, ha, hb, round_fin h⟩

theorem finite_sub {a b : F32} {z : ℝ} (h : F32.Is (a - b) z) :
    ∃ x y, F32.Is a x ∧ F32.Is b y ∧ |z - (x - y)| ≤ |x - y| / 2 ^ 24 + 1 / 2 ^ 150 := by
  have h' : F32.Is (a + -b) z := h
  obtain ⟨x, y, h1, h2, h3⟩ := finite_add h'
  refine ⟨x, -y, h1, ?_, by rwa [sub_neg_eq_add]⟩
  have := is_neg h2
  rwa [show -(-b) = b from by rcases b with _ | _ | ⟨s, m, hm⟩ <;> simp [Neg.neg, F32.neg]] at this

/-- one coordinate of a turn with a finite result -/
theorem finite_turn_coord {z p q S X : ℝ} {x y x' y' : ℝ} (h3 : |z - (p + q)| ≤ |p + q| / 2 ^ 24 + 1 / 2 ^ 150)
    (h1 : |p - x * y| ≤ |x * y| / 2 ^ 24 + 1 / 2 ^ 150) (h2 : |q - x' * y'| ≤ |x' * y'| / 2 ^ 24 + 1 / 2 ^ 150)
    (hS : |x * y| + |x' * y'| ≤ S) (hX : X = x * y + x' * y') : |z - X| ≤ (9 / 4) * (S / 2 ^ 24) + 4 / 2 ^ 150 := by
  subst hX
  have a0 := abs_nonneg (x * y)
  have a0' := abs_nonneg (x' * y')
  have a1 := abs_add_le (p - x * y) (q - x' * y')
  have a2 := abs_add_le (x * y) (x' * y')
  have a3 := abs_add_le (x * y + x' * y') ((p - x * y) + (q - x' * y'))
  rw [show x * y + x' * y' + (p - x * y + (q - x' * y')) = p + q by ring] at a3
  have a4 := abs_add_le (z - (p + q)) ((p - x * y) + (q - x' * y'))
  rw [show z - (p + q) + (p - x * y + (q - x' * y')) = z - (x * y + x' * y') by ring] at a4
  have hη : (0 : ℝ) < 1 / 2 ^ 150 := by positivity
  linarith only [a0, a0', a1, a2, a3, a4, h1, h2, h3, hS, hη]

section
variable [env : F32Env]

/-- a finite rotated vector is the rotation of a finite vector, up to rounding -/
theorem finite_turn {r' w' : V2 F32} {r x : V2 ℝ} (hr : r'.Is r) (hx : ((Rotor2d.mk r').rotate w').Is x) :
    ∃ w, w'.Is w ∧ V2.Within ((9 / 4) * (r.norm * w.norm / 2 ^ 24) + 4 / 2 ^ 150) x (turn r w) := by
  obtain ⟨p, q, p1, q1, e1⟩ := finite_sub hx.1
  obtain ⟨u, v, u1, v1, f1⟩ := finite_mul p1
  obtain ⟨u', v', u2, v2, f2⟩ := finite_mul q1
  obtain ⟨s, t, s1, t1, e2⟩ := finite_add hx.2
  obtain ⟨c, d, c1, d1, g1⟩ := finite_mul s1
  obtain ⟨c', d', c2, d2, g2⟩ := finite_mul t1
  have ex := hr.1.unique u1
  have ey := hr.2.unique u2
  have ex' := hr.1.unique c1
  have ey' := hr.2.unique c2
  have ed := v2.unique d1
  have ed' := v1.unique d2
  subst ex ey ed ed'
  rw [← ex'] at g1
  rw [← ey'] at g2
  have hw : w'.Is ⟨v, v'⟩ := ⟨v1, v2⟩
  have en : (⟨v', v⟩ : V2 ℝ).norm = (⟨v, v'⟩ : V2 ℝ).norm := by unfold V2.norm; congr 1; ring
  have b1 := abs_cross_le_norm r ⟨v', v⟩
  have b2 := abs_dot_le_norm r ⟨v', v⟩
  rw [en] at b1 b2
  simp only at b1 b2
  refine ⟨⟨v, v'⟩, hw, ?_, ?_⟩
  · refine finite_turn_coord (x' := -r.y) (y' := v') (q := -q) (by simpa only [sub_eq_add_neg] using e1) f1 ?_ ?_
      (by simp only [turn]; ring)
    · rw [show -q - -r.y * v' = -(q - r.y * v') by ring, abs_neg, neg_mul, abs_neg]; exact f2
    · rw [neg_mul, abs_neg]; exact b1
  · exact finite_turn_coord e2 g1 g2 b2 (by simp only [turn])

/-- rotating a zero gives a zero -/
theorem turn_zero32 {r' w' : V2 F32} {r x : V2 ℝ} (hr : r'.Is r) (hw : w'.Is 0)
    (hx : ((Rotor2d.mk r').rotate w').Is x) : x = 0 := by
  have z : ∀ {a b : F32} {y : ℝ}, F32.Is a y → F32.Is b 0 → F32.Is (a * b) 0 := fun {a b y} ha hb => by
    have := is_mul ha hb (by rw [mul_zero]; exact representable_zero)
    rwa [mul_zero] at this
  have h1 : F32.Is (r'.x * w'.x - r'.y * w'.y) (0 - 0) := is_sub (z hr.1 hw.1) (z hr.2 hw.2)
    (by rw [sub_zero]; exact representable_zero)
  have h2 : F32.Is (r'.x * w'.y + r'.y * w'.x) (0 + 0) := is_add (z hr.1 hw.2) (z hr.2 hw.1)
    (by rw [add_zero]; exact representable_zero)
  rw [sub_zero] at h1
  rw [add_zero] at h2
  exact V2.ext (hx.1.unique h1) (hx.2.unique h2)

/-! ## the relative placement -/

theorem one_div_one : (1 : F32) / 1 = 1 := by
  have h : F32.Is ((1 : F32) / 1) (1 / 1) := is_div is_one is_one one_ne_zero (by rw [div_one]; exact is_one.representable)
  rw [div_one] at h
  exact h.eq is_one one_ne_zero
theorem one_mul_one : (1 : F32) * 1 = 1 := by
  have h : F32.Is ((1 : F32) * 1) (1 * 1) := is_mul is_one is_one (by rw [mul_one]; exact is_one.representable)
  rw [mul_one] at h
  exact h.eq is_one one_ne_zero
theorem one_recip : (V2.one : V2 F32).recip = V2.one := by
  simp only [V2.recip, V2.one]
  rw [one_div_one]
theorem one_mulV_one : V2.mulV (V2.one : V2 F32) V2.one = V2.one := by
  simp only [V2.mulV, V2.one]
  rw [one_mul_one]
theorem one_divV {q' : V2 F32} {q : V2 ℝ} (h : q'.Is q) : (V2.divV q' V2.one).Is q := by
  have hx : F32.Is (q'.x / 1) (q.x / 1) := is_div h.1 is_one one_ne_zero (by rw [div_one]; exact h.1.representable)
  have hy : F32.Is (q'.y / 1) (q.y / 1) := is_div h.2 is_one one_ne_zero (by rw [div_one]; exact h.2.representable)
  rw [div_one] at hx hy
  exact ⟨hx, hy⟩

theorem zero_sub32 {q' : V2 F32} {q : V2 ℝ} (h : q'.Is q) : (0 - q').Is (-q) := by
  have hx : F32.Is (0 - q'.x) (0 - q.x) := is_sub is_zero h.1 (by rw [zero_sub]; exact h.1.representable.neg)
  have hy : F32.Is (0 - q'.y) (0 - q.y) := is_sub is_zero h.2 (by rw [zero_sub]; exact h.2.representable.neg)
  rw [zero_sub] at hx hy
  exact ⟨hx, hy⟩

variable {M : ℝ} {ta tb : Transform2d F32}

theorem delta_rigid (ha : ta.Rigid32 (M / 4) (1 / 2 ^ 18)) (hb : tb.Rigid32 (M / 4) (1 / 2 ^ 18))
    (hM : M ≤ (2 : ℝ) ^ (26 : ℤ)) (hM0 : (2 : ℝ) ^ (-20 : ℤ) ≤ M) :
    (deltaTransform ta tb).Rigid32 M (1 / 2 ^ 16) ∧
    ∀ y : V2 ℝ, y.Coord (M + M / 2 ^ 19) →
      (turn ta.rot.a.toReal (turn (deltaTransform ta tb).rot.a.toReal y + (deltaTransform ta tb).pos.toReal) + ta.pos.toReal -
        (turn tb.rot.a.toReal y + tb.pos.toReal)).norm ≤ 160 * (M / 2 ^ 24) := by
  have hM1 : 0 < M := lt_of_lt_of_le (two_zpow_pos _) hM0
  set rA := ta.rot.a.toReal with hrA
  set rB := tb.rot.a.toReal with hrB
  set pA := ta.pos.toReal with hpA
  set pB := tb.pos.toReal with hpB
  have uA : |rA.x * rA.x + rA.y * rA.y - 1| ≤ 1 / 2 ^ 18 := ha.unit
  have uB : |rB.x * rB.x + rB.y * rB.y - 1| ≤ 1 / 2 ^ 18 := hb.unit
  have nA : rA.norm ≤ 1 + 1 / 2 ^ 18 := by have := (abs_le.1 (ha.unit.norm (by norm_num))).2; linarith
  have nB : rB.norm ≤ 1 + 1 / 2 ^ 18 := by have := (abs_le.1 (hb.unit.norm (by norm_num))).2; linarith
  have nA0 := rA.norm_nonneg
  have nB0 := rB.norm_nonneg
  have hbig : (2 : ℝ) ^ (26 : ℤ) ≤ (2 : ℝ) ^ (124 : ℤ) / 16 := by norm_num
  have hbig2 : (2 : ℝ) ^ (125 : ℤ) = 2 * (2 : ℝ) ^ (124 : ℤ) := by norm_num
  have hbig3 : (2 : ℝ) ^ (126 : ℤ) = 4 * (2 : ℝ) ^ (124 : ℤ) := by norm_num
  have hsm : (3 : ℝ) / 2 ^ 150 ≤ (1 / 100) * (M / 2 ^ 24) := by
    have h1 : (3 : ℝ) / 2 ^ 150 ≤ (1 / 100) * ((2 : ℝ) ^ (-20 : ℤ) / 2 ^ 24) := by norm_num
    have h2 := div_le_div_of_nonneg_right hM0 (show (0 : ℝ) ≤ 2 ^ 24 by positivity)
    linarith only [h1, h2]
  -- the rotor
  have hP : rA.conj.norm * rB.norm ≤ 1 + 1 / 2 ^ 16 := by
    rw [conj_norm]
    have := mul_le_mul nA nB nB0 (by norm_num)
    linarith only [this]
  obtain ⟨z, z1, z2, z3⟩ := round_turn ha.inv_is hb.rot hP (by norm_num)
  set g := turn rA.conj rB with hg
  have z2' : |z.x - g.x| ≤ (226 / 100) / 2 ^ 24 := z2.trans (by norm_num)
  have z3' : |z.y - g.y| ≤ (226 / 100) / 2 ^ 24 := z3.trans (by norm_num)
  have gn : g.norm ≤ 1 + 1 / 2 ^ 16 := by rw [hg, turn_norm]; exact hP
  have zD : (deltaTransform ta tb).rot.a.Is z := z1
  -- the position
  have posn : ∀ p : V2 ℝ, p.Coord (M / 4) → rA.conj.norm * p.norm ≤ (376 / 1000) * M := by
    intro p hp
    rw [conj_norm]
    have := mul_le_mul nA (norm_coord hp) p.norm_nonneg (by norm_num)
    linarith only [this, hM1]
  have hbp : (376 / 1000) * M ≤ (2 : ℝ) ^ (125 : ℤ) := by linarith only [hM, hbig, hbig2, hM1]
  obtain ⟨w, w1, w2, w3⟩ := round_turn ha.inv_is (zero_sub32 ha.pos.1) (posn _ ha.pos.2.neg) hbp
  obtain ⟨u, u1, u2, u3⟩ := round_turn ha.inv_is (one_mulV hb.pos.1) (posn _ hb.pos.2) hbp
  have wn : (turn rA.conj (-pA)).norm ≤ (376 / 1000) * M := by rw [turn_norm]; exact posn _ ha.pos.2.neg
  have un : (turn rA.conj pB).norm ≤ (376 / 1000) * M := by rw [turn_norm]; exact posn _ hb.pos.2
  have key : ∀ {u w f h : ℝ} {u' w' : F32}, |u - f| ≤ (9 / 4) * ((376 / 1000) * M / 2 ^ 24) + 3 / 2 ^ 150 →
      |w - h| ≤ (9 / 4) * ((376 / 1000) * M / 2 ^ 24) + 3 / 2 ^ 150 → |f| ≤ (376 / 1000) * M → |h| ≤ (376 / 1000) * M →
      F32.Is u' u → F32.Is w' w → ∃ s, F32.Is (u' + w') s ∧ |s| ≤ M ∧ |s - (f + h)| ≤ 3 * (M / 2 ^ 24) := by
    intro u w f h u' w' h1 h2 h3 h4 i1 i2
    have a1 := abs_add_le f (u - f)
    rw [add_sub_cancel] at a1
    have a2 := abs_add_le h (w - h)
    rw [add_sub_cancel] at a2
    have a3 := abs_add_le u w
    have a4 : |u + w| ≤ (77 / 100) * M := by linarith only [a1, a2, a3, h1, h2, h3, h4, hsm, hM1]
    obtain ⟨s, s1, s2⟩ := F32.round_add i1 i2 (by linarith only [a4, hM, hbig, hbig3, hM1])
    have a5 := abs_add_le (u + w) (s - (u + w))
    rw [add_sub_cancel] at a5
    have a6 := abs_add_le (s - (u + w)) ((u - f) + (w - h))
    rw [show s - (u + w) + (u - f + (w - h)) = s - (f + h) by ring] at a6
    have a7 := abs_add_le (u - f) (w - h)
    exact ⟨s, s1, by linarith only [a5, s2, a4, hM1], by linarith only [a6, a7, s2, a4, h1, h2, hsm, hM1]⟩
  have w1' := one_divV w1
  obtain ⟨sx, x1, x2, x3⟩ := key u2 w2 ((V2.abs_x_le_norm _).trans un) ((V2.abs_x_le_norm _).trans wn) u1.1 w1'.1
  obtain ⟨sy, y1, y2, y3⟩ := key u3 w3 ((V2.abs_y_le_norm _).trans un) ((V2.abs_y_le_norm _).trans wn) u1.2 w1'.2
  have sD : (deltaTransform ta tb).pos.Is ⟨sx, sy⟩ := by
    show (ta.rot.inverse.rotate (V2.mulV ta.scale.recip tb.pos) +
      V2.divV (ta.rot.inverse.rotate (0 - ta.pos)) ta.scale).Is _
    rw [ha.scale, one_recip]
    exact ⟨x1, y1⟩
  have scD : (deltaTransform ta tb).scale = V2.one := by
    show V2.mulV ta.scale.recip tb.scale = _
    rw [ha.scale, hb.scale, one_recip, one_mulV_one]
  rw [zD.toReal, sD.toReal]
  refine ⟨⟨⟨by rw [sD.toReal]; exact sD, by rw [sD.toReal]; exact ⟨x2, y2⟩⟩, by rw [zD.toReal]; exact zD, ?_, scD⟩, ?_⟩
  · rw [zD.toReal]
    unfold NearUnit
    have e1 : g.x * g.x + g.y * g.y = (rA.x * rA.x + rA.y * rA.y) * (rB.x * rB.x + rB.y * rB.y) := by
      rw [hg]; simp only [turn, V2.conj]; ring
    have e2 : z.x * z.x + z.y * z.y - 1 = (((rA.x * rA.x + rA.y * rA.y - 1) + (rB.x * rB.x + rB.y * rB.y - 1)) +
        (rA.x * rA.x + rA.y * rA.y - 1) * (rB.x * rB.x + rB.y * rB.y - 1)) + ((z.x - g.x) * (z.x + g.x) +
        (z.y - g.y) * (z.y + g.y)) := by
      have : z.x * z.x + z.y * z.y - 1 = (g.x * g.x + g.y * g.y - 1) + ((z.x - g.x) * (z.x + g.x) +
        (z.y - g.y) * (z.y + g.y)) := by ring
      rw [this, e1]; ring
    rw [e2]
    have gx := g.abs_x_le_norm.trans gn
    have gy := g.abs_y_le_norm.trans gn
    have zx : |z.x + g.x| ≤ 201 / 100 := by
      have h1 := abs_add_le (z.x - g.x) (2 * g.x)
      rw [show z.x - g.x + 2 * g.x = z.x + g.x by ring, abs_mul, abs_two] at h1
      linarith only [h1, z2', gx]
    have zy : |z.y + g.y| ≤ 201 / 100 := by
      have h1 := abs_add_le (z.y - g.y) (2 * g.y)
      rw [show z.y - g.y + 2 * g.y = z.y + g.y by ring, abs_mul, abs_two] at h1
      linarith only [h1, z3', gy]
    have m1 := mul_le_mul z2' zx (abs_nonneg _) (by positivity)
    have m2 := mul_le_mul z3' zy (abs_nonneg _) (by positivity)
    have m3 := mul_le_mul uA uB (abs_nonneg _) (by positivity)
    rw [← abs_mul] at m1 m2 m3
    refine (abs_add_le _ _).trans ?_
    have t1 := abs_add_le ((rA.x * rA.x + rA.y * rA.y - 1) + (rB.x * rB.x + rB.y * rB.y - 1))
      ((rA.x * rA.x + rA.y * rA.y - 1) * (rB.x * rB.x + rB.y * rB.y - 1))
    have t2 := abs_add_le (rA.x * rA.x + rA.y * rA.y - 1) (rB.x * rB.x + rB.y * rB.y - 1)
    have t3 := abs_add_le ((z.x - g.x) * (z.x + g.x)) ((z.y - g.y) * (z.y + g.y))
    linarith only [t1, t2, t3, m1, m2, m3, uA, uB]
  · intro y hy
    have yn := norm_coord hy
    set q := rA.x * rA.x + rA.y * rA.y - 1 with hq
    have e : turn rA (turn z y + ⟨sx, sy⟩) + pA - (turn rB y + pB) =
        (turn rA (turn (z - g) y) + V2.scale q (turn rB y)) +
        (turn rA (⟨sx, sy⟩ - (turn rA.conj pB + turn rA.conj (-pA))) + V2.scale q (pB - pA)) := by
      rw [hg, hq]
      ext <;> simp only [turn, V2.conj, V2.scale, add_x, add_y, sub_x, sub_y, neg_x, neg_y] <;> ring
    rw [e]
    have n1 := V2.norm_add_le' (turn rA (turn (z - g) y) + V2.scale q (turn rB y))
      (turn rA (⟨sx, sy⟩ - (turn rA.conj pB + turn rA.conj (-pA))) + V2.scale q (pB - pA))
    have n2 := V2.norm_add_le' (turn rA (turn (z - g) y)) (V2.scale q (turn rB y))
    have n3 := V2.norm_add_le' (turn rA (⟨sx, sy⟩ - (turn rA.conj pB + turn rA.conj (-pA)))) (V2.scale q (pB - pA))
    rw [turn_norm, turn_norm, V2.norm_scale, turn_norm] at n2
    rw [turn_norm, V2.norm_scale] at n3
    have zn : (z - g).norm ≤ (3 / 2) * ((226 / 100) / 2 ^ 24) := norm_coord ⟨z2', z3'⟩
    have sn : (⟨sx, sy⟩ - (turn rA.conj pB + turn rA.conj (-pA)) : V2 ℝ).norm ≤ (3 / 2) * (3 * (M / 2 ^ 24)) :=
      norm_coord ⟨x3, y3⟩
    have pn : (pB - pA).norm ≤ (3 / 2) * (M / 2) := by
      refine norm_coord ⟨?_, ?_⟩
      · have := abs_sub pB.x pA.x
        show |pB.x - pA.x| ≤ _
        linarith only [this, ha.pos.2.1, hb.pos.2.1]
      · have := abs_sub pB.y pA.y
        show |pB.y - pA.y| ≤ _
        linarith only [this, ha.pos.2.2, hb.pos.2.2]
    have y0 := y.norm_nonneg
    have z0 := (z - g).norm_nonneg
    have k1 : rA.norm * ((z - g).norm * y.norm) ≤ (1 + 1 / 2 ^ 18) * ((3 / 2) * ((226 / 100) / 2 ^ 24) * (3 / 2 * (M + M / 2 ^ 19))) :=
      mul_le_mul nA (mul_le_mul zn yn y0 (by positivity)) (mul_nonneg z0 y0) (by norm_num)
    have k2 : |q| * (rB.norm * y.norm) ≤ (1 / 2 ^ 18) * ((1 + 1 / 2 ^ 18) * (3 / 2 * (M + M / 2 ^ 19))) :=
      mul_le_mul uA (mul_le_mul nB yn y0 (by norm_num)) (mul_nonneg nB0 y0) (by positivity)
    have k3 : rA.norm * (⟨sx, sy⟩ - (turn rA.conj pB + turn rA.conj (-pA)) : V2 ℝ).norm ≤ (1 + 1 / 2 ^ 18) * ((3 / 2) * (3 * (M / 2 ^ 24))) :=
      mul_le_mul nA sn (V2.norm_nonneg _) (by norm_num)
    have k4 : |q| * (pB - pA).norm ≤ (1 / 2 ^ 18) * ((3 / 2) * (M / 2)) :=
      mul_le_mul uA pn (V2.norm_nonneg _) (by positivity)
    linarith only [n1, n2, n3, k1, k2, k3, k4, hM1]

end

end Auburn
