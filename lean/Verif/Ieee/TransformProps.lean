import Verif.Ieee.TurnDelta

/-!
# C90: `Transform2d` in binary32

`apply`, `unapply`, `inverse`, `compose` with rounding at every operation, for a rotor of nearly unit length and
scale one, and the drift of a rotation that is updated by multiplication again and again.
-/

set_option linter.unusedSectionVars false
set_option synthInstance.maxSize 1000

namespace Auburn

open F32 V2 ExtremePoint2d Transformation2d

section
variable [env : F32Env]

/-- where `t` puts the point, in real arithmetic -/
noncomputable def Transform2d.exact (t : Transform2d F32) (p : V2 ℝ) : V2 ℝ := turn t.rot.a.toReal p + t.pos.toReal
/-- the reverse: moved back, then turned back -/
noncomputable def Transform2d.exactBack (t : Transform2d F32) (p : V2 ℝ) : V2 ℝ :=
  turn t.rot.a.toReal.conj (p - t.pos.toReal)

variable {M e : ℝ} {t a b : Transform2d F32}

theorem Transform2d.Rigid32.mono {M' e' : ℝ} (h : t.Rigid32 M e) (hM : M ≤ M') (he : e ≤ e') : t.Rigid32 M' e' :=
  ⟨⟨h.pos.1, h.pos.2.mono hM⟩, h.rot, h.unit.trans he, h.scale⟩

theorem coord_turn {r p : V2 ℝ} {C : ℝ} (hr : r.norm ≤ 1 + 1 / 2 ^ 16) (hp : p.Coord C) : (turn r p).Coord ((151 / 100) * C) := by
  have hC : 0 ≤ C := (abs_nonneg _).trans hp.1
  have h1 : (turn r p).norm ≤ (151 / 100) * C := by
    rw [turn_norm]
    have := mul_le_mul hr (norm_coord hp) p.norm_nonneg (by norm_num)
    linarith only [this, hC]
  exact ⟨(V2.abs_x_le_norm _).trans h1, (V2.abs_y_le_norm _).trans h1⟩

theorem within_add {c d : ℝ} {u v w z : V2 ℝ} (h : V2.Within c u v) (h' : V2.Coord d (v - w)) (e : w = z) :
    V2.Within (c + d) u z := by
  subst e
  have h1 := abs_add_le (u.x - v.x) (v.x - w.x)
  have h2 := abs_add_le (u.y - v.y) (v.y - w.y)
  rw [sub_add_sub_cancel] at h1 h2
  exact ⟨h1.trans (add_le_add h.1 h'.1), h2.trans (add_le_add h.2 h'.2)⟩

/-- `apply` -/
theorem C90_f32_apply (h : t.Rigid32 M (1 / 2 ^ 16)) (hM : M ≤ (2 : ℝ) ^ (26 : ℤ)) (hM0 : (2 : ℝ) ^ (-20 : ℤ) ≤ M)
    {p : V2 F32} (hp : p.Bounded32 M) :
    ∃ u, (apply t p).Is u ∧ V2.Within (6 * (M / 2 ^ 24)) u (t.exact p.toReal) := by
  have hM1 : 0 < M := lt_of_lt_of_le (two_zpow_pos _) hM0
  obtain ⟨u, u1, -, u3, -⟩ := turn_point h hM hM0 hp.1 (hp.2.mono (by linarith only [hM1, (by positivity : 0 < M / 2 ^ 20)]))
  exact ⟨u, u1, u3⟩

/-- `unapply` for a point of magnitude `B`, with the position of magnitude `M ≤ B` -/
theorem unapply_point {B : ℝ} (h : t.Rigid32 M (1 / 2 ^ 16)) (hMB : M ≤ B) (hB : B ≤ (2 : ℝ) ^ (28 : ℤ))
    (hB0 : (2 : ℝ) ^ (-20 : ℤ) ≤ B) {p' : V2 F32} {p : V2 ℝ} (hp : p'.Is p) (hc : p.Coord B) :
    ∃ u, (unapply t p').Is u ∧ V2.Within (11 * (B / 2 ^ 24)) u (t.exactBack p) ∧ u.Coord ((31 / 10) * B) := by
  have hB1 : 0 < B := lt_of_lt_of_le (two_zpow_pos _) hB0
  have hbig : (2 : ℝ) ^ (28 : ℤ) ≤ (2 : ℝ) ^ (125 : ℤ) / 16 := by norm_num
  have hbig3 : (2 : ℝ) ^ (126 : ℤ) = 2 * (2 : ℝ) ^ (125 : ℤ) := by norm_num
  have key : ∀ {x y : ℝ} {x' y' : F32}, F32.Is x' x → F32.Is y' y → |x| ≤ B → |y| ≤ M →
      ∃ w, F32.Is (x' - y') w ∧ |w - (x - y)| ≤ 2 * (B / 2 ^ 24) ∧ |w| ≤ (201 / 100) * B := by
    intro x y x' y' hx hy bx b_y
    have a1 := abs_sub x y
    have a2 : |x - y| ≤ 2 * B := by linarith only [a1, bx, b_y, hMB]
    obtain ⟨w, w1, w2⟩ := F32.round_sub hx hy (by linarith only [a2, hB, hbig, hbig3, hB1])
    have a3 := abs_add_le (x - y) (w - (x - y))
    rw [add_sub_cancel] at a3
    exact ⟨w, w1, by linarith only [w2, a2], by linarith only [a3, w2, a2, hB1]⟩
  obtain ⟨wx, x1, x2, x3⟩ := key hp.1 h.pos.1.1 hc.1 h.pos.2.1
  obtain ⟨wy, y1, y2, y3⟩ := key hp.2 h.pos.1.2 hc.2 h.pos.2.2
  have nr : t.rot.a.toReal.conj.norm ≤ 1 + 1 / 2 ^ 16 := by rw [conj_norm]; exact h.norm_le
  have hw : (⟨wx, wy⟩ : V2 ℝ).Coord ((201 / 100) * B) := ⟨x3, y3⟩
  have hP : t.rot.a.toReal.conj.norm * (⟨wx, wy⟩ : V2 ℝ).norm ≤ (302 / 100) * B := by
    have := mul_le_mul nr (norm_coord hw) (V2.norm_nonneg _) (by norm_num)
    linarith only [this, hB1]
  have hsm : (3 : ℝ) / 2 ^ 150 ≤ (1 / 100) * (B / 2 ^ 24) := by
    have h1 : (3 : ℝ) / 2 ^ 150 ≤ (1 / 100) * ((2 : ℝ) ^ (-20 : ℤ) / 2 ^ 24) := by norm_num
    have h2 := div_le_div_of_nonneg_right hB0 (show (0 : ℝ) ≤ 2 ^ 24 by positivity)
    linarith only [h1, h2]
  have hd : (p' - t.pos).Is ⟨wx, wy⟩ := ⟨x1, y1⟩
  obtain ⟨u, u1, u2⟩ := round_turn h.inv_is hd hP (by linarith only [hB, hbig, hB1])
  have hdif := coord_turn nr (show (⟨wx, wy⟩ - (p - t.pos.toReal) : V2 ℝ).Coord (2 * (B / 2 ^ 24)) from ⟨x2, y2⟩)
  rw [turn_sub] at hdif
  have hw2 := within_add u2 hdif rfl
  refine ⟨u, ?_, ⟨hw2.1.trans (by linarith only [hsm, hB1]), hw2.2.trans (by linarith only [hsm, hB1])⟩, ?_⟩
  · show (V2.divV (t.rot.inverse.rotate (p' - t.pos)) t.scale).Is u
    rw [h.scale]
    exact one_divV u1
  · have c1 : (turn t.rot.a.toReal.conj ⟨wx, wy⟩).norm ≤ (302 / 100) * B := by rw [turn_norm]; exact hP
    have b1 := abs_add_le (u.x - (turn t.rot.a.toReal.conj ⟨wx, wy⟩).x) (turn t.rot.a.toReal.conj ⟨wx, wy⟩).x
    have b2 := abs_add_le (u.y - (turn t.rot.a.toReal.conj ⟨wx, wy⟩).y) (turn t.rot.a.toReal.conj ⟨wx, wy⟩).y
    rw [sub_add_cancel] at b1 b2
    exact ⟨by linarith only [b1, u2.1, (V2.abs_x_le_norm _).trans c1, hsm, hB1],
      by linarith only [b2, u2.2, (V2.abs_y_le_norm _).trans c1, hsm, hB1]⟩

/-- `unapply` -/
theorem C90_f32_unapply (h : t.Rigid32 M (1 / 2 ^ 16)) (hM : M ≤ (2 : ℝ) ^ (26 : ℤ)) (hM0 : (2 : ℝ) ^ (-20 : ℤ) ≤ M)
    {p : V2 F32} (hp : p.Bounded32 M) :
    ∃ u, (unapply t p).Is u ∧ V2.Within (11 * (M / 2 ^ 24)) u (t.exactBack p.toReal) := by
  obtain ⟨u, u1, u2, -⟩ := unapply_point h le_rfl (hM.trans (zpow_le_zpow (by norm_num))) hM0 hp.1 hp.2
  exact ⟨u, u1, u2⟩

theorem exactBack_exact (t : Transform2d F32) (p : V2 ℝ) : t.exactBack (t.exact p) - p =
    V2.scale (t.rot.a.toReal.x * t.rot.a.toReal.x + t.rot.a.toReal.y * t.rot.a.toReal.y - 1) p := by
  unfold Transform2d.exact Transform2d.exactBack
  ext <;> simp only [turn, V2.conj, V2.scale, add_x, add_y, sub_x, sub_y] <;> ring
theorem exact_exactBack (t : Transform2d F32) (p : V2 ℝ) : t.exact (t.exactBack p) - p =
    V2.scale (t.rot.a.toReal.x * t.rot.a.toReal.x + t.rot.a.toReal.y * t.rot.a.toReal.y - 1) (p - t.pos.toReal) := by
  unfold Transform2d.exact Transform2d.exactBack
  ext <;> simp only [turn, V2.conj, V2.scale, add_x, add_y, sub_x, sub_y] <;> ring

theorem coord_scale {q C e : ℝ} {p : V2 ℝ} (hq : |q| ≤ e) (hp : p.Coord C) : (V2.scale q p).Coord (e * C) := by
  have hC : 0 ≤ C := (abs_nonneg _).trans hp.1
  have he : 0 ≤ e := (abs_nonneg _).trans hq
  constructor
  · show |q * p.x| ≤ _
    rw [abs_mul]; exact mul_le_mul hq hp.1 (abs_nonneg _) he
  · show |q * p.y| ≤ _
    rw [abs_mul]; exact mul_le_mul hq hp.2 (abs_nonneg _) he

/-- `unapply` undoes `apply`: up to the rounding, and up to the rotor's distance `e` from the unit circle. -/
theorem C90_f32_there_and_back (h : t.Rigid32 M e) (he : e ≤ 1 / 2 ^ 16) (hM : M ≤ (2 : ℝ) ^ (26 : ℤ))
    (hM0 : (2 : ℝ) ^ (-20 : ℤ) ≤ M) {p : V2 F32} (hp : p.Bounded32 M) :
    ∃ u, (unapply t (apply t p)).Is u ∧ V2.Within (e * M + 40 * (M / 2 ^ 24)) u p.toReal := by
  have hM1 : 0 < M := lt_of_lt_of_le (two_zpow_pos _) hM0
  have h' := h.mono le_rfl he
  obtain ⟨u, u1, u2, u3, -⟩ := turn_point h' hM hM0 hp.1
    (hp.2.mono (by linarith only [hM1, (by positivity : 0 < M / 2 ^ 20)]))
  have hbig : (2 : ℝ) ^ (28 : ℤ) = 4 * (2 : ℝ) ^ (26 : ℤ) := by norm_num
  obtain ⟨v, v1, v2, -⟩ := unapply_point (B := (254 / 100) * M) h' (by linarith only [hM1])
    (by linarith only [hM, hbig, hM1]) (hM0.trans (by linarith only [hM1])) u1 u2
  have nr : t.rot.a.toReal.conj.norm ≤ 1 + 1 / 2 ^ 16 := by rw [conj_norm]; exact h'.norm_le
  have d1 := coord_turn nr (show (u - t.exact p.toReal : V2 ℝ).Coord (6 * (M / 2 ^ 24)) from u3)
  have e1 : turn t.rot.a.toReal.conj (u - t.exact p.toReal) = t.exactBack u - t.exactBack (t.exact p.toReal) := by
    unfold Transform2d.exactBack
    rw [← turn_sub]; congr 1; ext <;> simp
  rw [e1] at d1
  have w1 := within_add v2 d1 rfl
  have d2 := coord_scale h.unit hp.2
  rw [← exactBack_exact t p.toReal] at d2
  have w2 := within_add w1 d2 rfl
  exact ⟨v, v1, w2.1.trans (by linarith only [hM1]), w2.2.trans (by linarith only [hM1])⟩

/-- `apply` undoes `unapply`. -/
theorem C90_f32_back_and_there (h : t.Rigid32 M e) (he : e ≤ 1 / 2 ^ 16) (hM : M ≤ (2 : ℝ) ^ (24 : ℤ))
    (hM0 : (2 : ℝ) ^ (-20 : ℤ) ≤ M) {p : V2 F32} (hp : p.Bounded32 M) :
    ∃ u, (apply t (unapply t p)).Is u ∧ V2.Within (2 * e * M + 44 * (M / 2 ^ 24)) u p.toReal := by
  have hM1 : 0 < M := lt_of_lt_of_le (two_zpow_pos _) hM0
  have h' := h.mono le_rfl he
  have hbig : (2 : ℝ) ^ (26 : ℤ) = 4 * (2 : ℝ) ^ (24 : ℤ) := by norm_num
  obtain ⟨u, u1, u2, u3⟩ := unapply_point h' le_rfl (hM.trans (zpow_le_zpow (by norm_num))) hM0 hp.1 hp.2
  obtain ⟨v, v1, -, v3, -⟩ := turn_point (M := 4 * M) (h'.mono (by linarith only [hM1]) le_rfl) (by linarith only [hM, hbig])
    (hM0.trans (by linarith only [hM1])) u1 (u3.mono (by linarith only [hM1]))
  have d1 := coord_turn h'.norm_le (show (u - t.exactBack p.toReal : V2 ℝ).Coord (11 * (M / 2 ^ 24)) from u2)
  have e1 : turn t.rot.a.toReal (u - t.exactBack p.toReal) = (turn t.rot.a.toReal u + t.pos.toReal) - t.exact (t.exactBack p.toReal) := by
    unfold Transform2d.exact
    rw [turn_sub]; ext <;> simp
  rw [e1] at d1
  have w1 := within_add v3 d1 rfl
  have d2 := coord_scale h.unit (show (p.toReal - t.pos.toReal : V2 ℝ).Coord (M + M) from
    ⟨(abs_sub _ _).trans (add_le_add hp.2.1 h.pos.2.1), (abs_sub _ _).trans (add_le_add hp.2.2 h.pos.2.2)⟩)
  rw [← exact_exactBack t p.toReal] at d2
  have w2 := within_add w1 d2 rfl
  exact ⟨v, v1, w2.1.trans (by linarith only [hM1]), w2.2.trans (by linarith only [hM1])⟩

/-- `inverse`: applying it is moving and turning back. -/
theorem C90_f32_inverse (h : t.Rigid32 M (1 / 2 ^ 16)) (hM : M ≤ (2 : ℝ) ^ (24 : ℤ)) (hM0 : (2 : ℝ) ^ (-20 : ℤ) ≤ M)
    {p : V2 F32} (hp : p.Bounded32 M) :
    ∃ u, (apply (Invertible.inverse t) p).Is u ∧ V2.Within (24 * (M / 2 ^ 24)) u (t.exactBack p.toReal) := by
  have hM1 : 0 < M := lt_of_lt_of_le (two_zpow_pos _) hM0
  have hbig : (2 : ℝ) ^ (26 : ℤ) = 4 * (2 : ℝ) ^ (24 : ℤ) := by norm_num
  have hM' : M ≤ (2 : ℝ) ^ (26 : ℤ) := hM.trans (zpow_le_zpow (by norm_num))
  have nr : t.rot.a.toReal.conj.norm ≤ 1 + 1 / 2 ^ 16 := by rw [conj_norm]; exact h.norm_le
  have hsm : (3 : ℝ) / 2 ^ 150 ≤ (1 / 100) * (M / 2 ^ 24) := by
    have h1 : (3 : ℝ) / 2 ^ 150 ≤ (1 / 100) * ((2 : ℝ) ^ (-20 : ℤ) / 2 ^ 24) := by norm_num
    have h2 := div_le_div_of_nonneg_right hM0 (show (0 : ℝ) ≤ 2 ^ 24 by positivity)
    linarith only [h1, h2]
  have hP : t.rot.a.toReal.conj.norm * (-t.pos.toReal).norm ≤ (151 / 100) * M := by
    have := mul_le_mul nr (norm_coord h.pos.2.neg) (V2.norm_nonneg _) (by norm_num)
    linarith only [this, hM1]
  obtain ⟨w, w1, w2⟩ := round_turn h.inv_is (zero_sub32 h.pos.1) hP
    (by linarith only [hM', hM1, (by norm_num : (2 : ℝ) ^ (26 : ℤ) ≤ (2 : ℝ) ^ (125 : ℤ) / 16)])
  have w2' : V2.Within ((7 / 2) * (M / 2 ^ 24)) w (turn t.rot.a.toReal.conj (-t.pos.toReal)) :=
    ⟨w2.1.trans (by linarith only [hsm, hM1]), w2.2.trans (by linarith only [hsm, hM1])⟩
  have cn : (turn t.rot.a.toReal.conj (-t.pos.toReal)).norm ≤ (151 / 100) * M := by rw [turn_norm]; exact hP
  have b1 := abs_add_le (w.x - (turn t.rot.a.toReal.conj (-t.pos.toReal)).x) (turn t.rot.a.toReal.conj (-t.pos.toReal)).x
  have b2 := abs_add_le (w.y - (turn t.rot.a.toReal.conj (-t.pos.toReal)).y) (turn t.rot.a.toReal.conj (-t.pos.toReal)).y
  rw [sub_add_cancel] at b1 b2
  have wc : w.Coord (2 * M) := ⟨by linarith only [b1, w2'.1, (V2.abs_x_le_norm _).trans cn, hM1],
    by linarith only [b2, w2'.2, (V2.abs_y_le_norm _).trans cn, hM1]⟩
  have pI : (Invertible.inverse t).pos.Is w := by
    show (V2.divV (t.rot.inverse.rotate (0 - t.pos)) t.scale).Is w
    rw [h.scale]; exact one_divV w1
  have rI : (Invertible.inverse t).rot.a.Is t.rot.a.toReal.conj := h.inv_is
  have hI : (Invertible.inverse t).Rigid32 (2 * M) (1 / 2 ^ 16) := by
    refine ⟨⟨by rw [pI.toReal]; exact pI, by rw [pI.toReal]; exact wc⟩, by rw [rI.toReal]; exact rI, ?_, ?_⟩
    · rw [rI.toReal]
      have := h.unit
      unfold NearUnit at this ⊢
      simpa only [V2.conj, neg_mul_neg] using this
    · show t.scale.recip = _
      rw [h.scale, one_recip]
  obtain ⟨u, u1, u2⟩ := C90_f32_apply hI (by linarith only [hM, hbig, hM1]) (hM0.trans (by linarith only [hM1]))
    (p := p) ⟨hp.1, hp.2.mono (by linarith only [hM1])⟩
  unfold Transform2d.exact at u2
  rw [pI.toReal, rI.toReal] at u2
  have e1 : (turn t.rot.a.toReal.conj p.toReal + w) - t.exactBack p.toReal = w - turn t.rot.a.toReal.conj (-t.pos.toReal) := by
    unfold Transform2d.exactBack
    rw [turn_sub, turn_neg]; ext <;> simp
  have w3 := within_add u2 (show (turn t.rot.a.toReal.conj p.toReal + w - t.exactBack p.toReal).Coord ((7 / 2) * (M / 2 ^ 24)) by
    rw [e1]; exact w2') rfl
  exact ⟨u, u1, w3.1.trans (by linarith only [hM1]), w3.2.trans (by linarith only [hM1])⟩

/-- the rounded product of two nearly unit rotors is nearly unit -/
theorem near_product {rA rB z : V2 ℝ} (uA : NearUnit (1 / 2 ^ 18) rA) (uB : NearUnit (1 / 2 ^ 18) rB)
    (z2' : |z.x - (turn rA rB).x| ≤ (226 / 100) / 2 ^ 24) (z3' : |z.y - (turn rA rB).y| ≤ (226 / 100) / 2 ^ 24)
    (gn : (turn rA rB).norm ≤ 1 + 1 / 2 ^ 16) : NearUnit (1 / 2 ^ 16) z := by
  unfold NearUnit at *
  set g := turn rA rB with hg
  have e1 : g.x * g.x + g.y * g.y = (rA.x * rA.x + rA.y * rA.y) * (rB.x * rB.x + rB.y * rB.y) := by
    rw [hg]; simp only [turn]; ring
  have e2 : z.x * z.x + z.y * z.y - 1 = (((rA.x * rA.x + rA.y * rA.y - 1) + (rB.x * rB.x + rB.y * rB.y - 1)) +
      (rA.x * rA.x + rA.y * rA.y - 1) * (rB.x * rB.x + rB.y * rB.y - 1)) + ((z.x - g.x) * (z.x + g.x) +
      (z.y - g.y) * (z.y + g.y)) := by
    have : z.x * z.x + z.y * z.y - 1 = (g.x * g.x + g.y * g.y - 1) + ((z.x - g.x) * (z.x + g.x) +
      (z.y - g.y) * (z.y + g.y)) := by ring
    rw [this, e1]; ring
  rw [e2]
  have gx := g.abs_x_le_norm.trans gn
  have gy := g.abs_y_le_norm.trans gn
  have zx : |z.x + g.x| ≤ 201 / 100 := by
    have h1 := abs_add_le (z.x - g.x) (2 * g.x)
    rw [show z.x - g.x + 2 * g.x = z.x + g.x by ring, abs_mul, abs_two] at h1
    linarith only [h1, z2', gx]
  have zy : |z.y + g.y| ≤ 201 / 100 := by
    have h1 := abs_add_le (z.y - g.y) (2 * g.y)
    rw [show z.y - g.y + 2 * g.y = z.y + g.y by ring, abs_mul, abs_two] at h1
    linarith only [h1, z3', gy]
  have m1 := mul_le_mul z2' zx (abs_nonneg _) (by positivity)
  have m2 := mul_le_mul z3' zy (abs_nonneg _) (by positivity)
  have m3 := mul_le_mul uA uB (abs_nonneg _) (by positivity)
  rw [← abs_mul] at m1 m2 m3
  refine (abs_add_le _ _).trans ?_
  have t1 := abs_add_le ((rA.x * rA.x + rA.y * rA.y - 1) + (rB.x * rB.x + rB.y * rB.y - 1))
    ((rA.x * rA.x + rA.y * rA.y - 1) * (rB.x * rB.x + rB.y * rB.y - 1))
  have t2 := abs_add_le (rA.x * rA.x + rA.y * rA.y - 1) (rB.x * rB.x + rB.y * rB.y - 1)
  have t3 := abs_add_le ((z.x - g.x) * (z.x + g.x)) ((z.y - g.y) * (z.y + g.y))
  linarith only [t1, t2, t3, m1, m2, m3, uA, uB]

/-- `compose`: one application of the composition and two applications in a row both give the exact result up to
the rounding. -/
theorem C90_f32_compose (ha : a.Rigid32 M (1 / 2 ^ 18)) (hb : b.Rigid32 M (1 / 2 ^ 18)) (hM : M ≤ (2 : ℝ) ^ (24 : ℤ))
    (hM0 : (2 : ℝ) ^ (-20 : ℤ) ≤ M) {p : V2 F32} (hp : p.Bounded32 M) :
    ∃ u v, (apply (Composable.compose a b) p).Is u ∧ (apply a (apply b p)).Is v ∧
      V2.Within (40 * (M / 2 ^ 24)) u (a.exact (b.exact p.toReal)) ∧
      V2.Within (40 * (M / 2 ^ 24)) v (a.exact (b.exact p.toReal)) := by
  have hM1 : 0 < M := lt_of_lt_of_le (two_zpow_pos _) hM0
  have hbig : (2 : ℝ) ^ (26 : ℤ) = 4 * (2 : ℝ) ^ (24 : ℤ) := by norm_num
  have hM' : M ≤ (2 : ℝ) ^ (26 : ℤ) := hM.trans (zpow_le_zpow (by norm_num))
  have ha' := ha.mono le_rfl (show (1 : ℝ) / 2 ^ 18 ≤ 1 / 2 ^ 16 by norm_num)
  have hb' := hb.mono le_rfl (show (1 : ℝ) / 2 ^ 18 ≤ 1 / 2 ^ 16 by norm_num)
  have hMp : M ≤ M + M / 2 ^ 20 := by linarith only [hM1, (by positivity : 0 < M / 2 ^ 20)]
  -- in a row
  obtain ⟨v, v1, v2, v3, -⟩ := turn_point hb' hM' hM0 hp.1 (hp.2.mono hMp)
  obtain ⟨w, w1, -, w3, -⟩ := turn_point (M := 4 * M) (ha'.mono (by linarith only [hM1]) le_rfl) (by linarith only [hM, hbig])
    (hM0.trans (by linarith only [hM1])) v1 (v2.mono (by linarith only [hM1]))
  have d1 := coord_turn ha'.norm_le (show (v - b.exact p.toReal : V2 ℝ).Coord (6 * (M / 2 ^ 24)) from v3)
  have e1 : turn a.rot.a.toReal (v - b.exact p.toReal) = (turn a.rot.a.toReal v + a.pos.toReal) - a.exact (b.exact p.toReal) := by
    conv_rhs => unfold Transform2d.exact
    rw [turn_sub]; ext <;> simp [Transform2d.exact]
  rw [e1] at d1
  have r1 := within_add w3 d1 rfl
  -- the composition
  set ra := a.rot.a.toReal with hra
  set rb := b.rot.a.toReal with hrb
  obtain ⟨s, s1, s2, s3, -⟩ := turn_point ha' hM' hM0 hb.pos.1 (hb.pos.2.mono hMp)
  have nA : ra.norm ≤ 1 + 1 / 2 ^ 18 := by have := (abs_le.1 (ha.unit.norm (by norm_num))).2; linarith
  have nB : rb.norm ≤ 1 + 1 / 2 ^ 18 := by have := (abs_le.1 (hb.unit.norm (by norm_num))).2; linarith
  have hP : ra.norm * rb.norm ≤ 1 + 1 / 2 ^ 16 := by
    have := mul_le_mul nA nB rb.norm_nonneg (by norm_num)
    linarith only [this]
  obtain ⟨z, z1, z2, z3⟩ := round_turn ha.rot hb.rot hP (by norm_num)
  set g := turn ra rb with hg
  have z2' : |z.x - g.x| ≤ (226 / 100) / 2 ^ 24 := z2.trans (by norm_num)
  have z3' : |z.y - g.y| ≤ (226 / 100) / 2 ^ 24 := z3.trans (by norm_num)
  have gn : g.norm ≤ 1 + 1 / 2 ^ 16 := by rw [hg, turn_norm]; exact hP
  have zC : (Composable.compose a b).rot.a.Is z := z1
  have sC : (Composable.compose a b).pos.Is s := s1
  have hC : (Composable.compose a b).Rigid32 (4 * M) (1 / 2 ^ 16) := by
    refine ⟨⟨by rw [sC.toReal]; exact sC, by rw [sC.toReal]; exact s2.mono (by linarith only [hM1])⟩,
      by rw [zC.toReal]; exact zC, ?_, ?_⟩
    · rw [zC.toReal]
      exact near_product ha.unit hb.unit z2' z3' gn
    · show V2.mulV a.scale b.scale = _
      rw [ha.scale, hb.scale, one_mulV_one]
  obtain ⟨u, u1, u2⟩ := C90_f32_apply hC (by linarith only [hM, hbig]) (hM0.trans (by linarith only [hM1]))
    (p := p) ⟨hp.1, hp.2.mono (by linarith only [hM1])⟩
  unfold Transform2d.exact at u2
  rw [sC.toReal, zC.toReal] at u2
  have zn : (z - g).norm ≤ (3 / 2) * ((226 / 100) / 2 ^ 24) := norm_coord ⟨z2', z3'⟩
  have d2 : (turn (z - g) p.toReal).norm ≤ (6 : ℝ) * (M / 2 ^ 24) := by
    rw [turn_norm]
    have := mul_le_mul zn (norm_coord hp.2) (V2.norm_nonneg _) (by positivity)
    linarith only [this, hM1]
  have e2 : (turn z p.toReal + s) - a.exact (b.exact p.toReal) = turn (z - g) p.toReal + (s - (turn ra b.pos.toReal + a.pos.toReal)) := by
    rw [hg]
    ext <;> simp only [Transform2d.exact, turn, add_x, add_y, sub_x, sub_y] <;> ring
  have d3 : (turn z p.toReal + s - a.exact (b.exact p.toReal)).Coord (6 * (M / 2 ^ 24) + 6 * (M / 2 ^ 24)) := by
    rw [e2]
    exact ⟨(abs_add_le _ _).trans (add_le_add ((V2.abs_x_le_norm _).trans d2) s3.1),
      (abs_add_le _ _).trans (add_le_add ((V2.abs_y_le_norm _).trans d2) s3.2)⟩
  have r2 := within_add u2 d3 rfl
  exact ⟨u, w, u1, w1, ⟨r2.1.trans (by linarith only [hM1]), r2.2.trans (by linarith only [hM1])⟩,
    r1.1.trans (by linarith only [hM1]), r1.2.trans (by linarith only [hM1])⟩

/-! ## repeated rotation -/

theorem drift_step {k : ℕ} (hk : k + 1 ≤ 2 ^ 14) {w' : V2 F32} {w P : V2 ℝ} (hw : w'.Is w)
    (h1 : (w - P).norm ≤ k / 2 ^ 22 * P.norm) (h2 : 1 - k / 2 ^ 16 ≤ P.norm) (h3 : P.norm ≤ 1 + 2 * (k / 2 ^ 16))
    {r : Rotor2d F32} (hr : r.a.Is r.a.toReal) (hu : NearUnit (1 / 2 ^ 16) r.a.toReal) :
    ∃ z, ((Rotor2d.mk w').mulR r).a.Is z ∧
      (z - turn P r.a.toReal).norm ≤ ((k + 1 : ℕ) : ℝ) / 2 ^ 22 * (turn P r.a.toReal).norm ∧
      1 - ((k + 1 : ℕ) : ℝ) / 2 ^ 16 ≤ (turn P r.a.toReal).norm ∧
      (turn P r.a.toReal).norm ≤ 1 + 2 * (((k + 1 : ℕ) : ℝ) / 2 ^ 16) := by
  have hk0 : (0 : ℝ) ≤ k := Nat.cast_nonneg k
  have hk1 : (k : ℝ) + 1 ≤ 2 ^ 14 := by exact_mod_cast hk
  have hkE : (k : ℝ) / 2 ^ 22 ≤ 1 / 2 ^ 8 := by linarith only [hk1]
  have hke : (k : ℝ) / 2 ^ 16 ≤ 1 / 4 := by linarith only [hk1]
  push_cast
  set q := r.a.toReal with hq
  have hn := abs_le.1 (hu.norm (by norm_num))
  have qn1 : q.norm ≤ 1 + 1 / 2 ^ 16 := by linarith only [hn.2]
  have qn0 : 1 - 1 / 2 ^ 16 ≤ q.norm := by linarith only [hn.1]
  have q0 := q.norm_nonneg
  have P0 := P.norm_nonneg
  have tn : (turn P q).norm = P.norm * q.norm := turn_norm _ _
  have wP : w.norm ≤ (1 + 1 / 2 ^ 8) * P.norm := by
    have a1 := V2.norm_add_le' P (w - P)
    rw [show P + (w - P) = w by ext <;> simp] at a1
    have := mul_le_mul_of_nonneg_right hkE P0
    linarith only [a1, h1, this]
  have hPq : w.norm * q.norm ≤ (1 + 1 / 2 ^ 8) * (P.norm * q.norm) := by
    have := mul_le_mul_of_nonneg_right wP q0
    linarith only [this]
  have low : (1 : ℝ) / 2 ≤ P.norm * q.norm := by
    have := mul_le_mul (show (3 : ℝ) / 4 ≤ P.norm by linarith only [h2, hke])
      (show (2 : ℝ) / 3 ≤ q.norm by linarith only [qn0]) (by norm_num) P0
    linarith only [this]
  have high : P.norm * q.norm ≤ 2 := by
    have := mul_le_mul (show P.norm ≤ 3 / 2 by linarith only [h3, hke])
      (show q.norm ≤ 4 / 3 by linarith only [qn1]) q0 (by norm_num)
    linarith only [this]
  obtain ⟨z, z1, z2⟩ := round_turn hw hr hPq (by
    have : (4 : ℝ) ≤ (2 : ℝ) ^ (125 : ℤ) := by norm_num
    linarith only [this, high])
  refine ⟨z, z1, ?_, ?_, ?_⟩
  · have hz : (z - turn w q).norm ≤ (3 / 2) * ((9 / 4) * ((1 + 1 / 2 ^ 8) * (P.norm * q.norm) / 2 ^ 24) + 3 / 2 ^ 150) :=
      norm_coord z2
    have a1 := V2.norm_add_le' (z - turn w q) (turn (w - P) q)
    rw [turn_norm, show z - turn w q + turn (w - P) q = z - turn P q by
      ext <;> simp only [turn, add_x, add_y, sub_x, sub_y] <;> ring] at a1
    have a2 := mul_le_mul_of_nonneg_right h1 q0
    have hsm : (3 : ℝ) / 2 ^ 150 ≤ (1 / 100) * (P.norm * q.norm / 2 ^ 24) := by
      have h1 : (3 : ℝ) / 2 ^ 150 ≤ (1 / 100) * ((1 / 2) / 2 ^ 24) := by norm_num
      linarith only [h1, low]
    rw [tn]
    linarith only [a1, a2, hz, hsm, low]
  · rw [tn]
    have := mul_le_mul_of_nonneg_left qn0 P0
    have h4 : P.norm * (1 / 2 ^ 16) ≤ (1 + 2 * (k / 2 ^ 16)) * (1 / 2 ^ 16) := mul_le_mul_of_nonneg_right h3 (by positivity)
    by_cases hP : P.norm ≤ 1
    · linarith only [this, h2, hP]
    · have hP : 1 < P.norm := not_le.1 hP
      have := mul_le_mul hP.le qn0 (by norm_num) P0
      have h5 : (0 : ℝ) ≤ k / 2 ^ 16 := by positivity
      linarith only [this, h5]
  · rw [tn]
    have := mul_le_mul h3 qn1 q0 (by positivity)
    refine this.trans ?_
    have h5 : (1 + 2 * ((k : ℝ) / 2 ^ 16)) * (1 + 1 / 2 ^ 16) = 1 + 2 * (k / 2 ^ 16) + 1 / 2 ^ 16 + 2 * (k / 2 ^ 16) * (1 / 2 ^ 16) := by ring
    have h6 : 2 * ((k : ℝ) / 2 ^ 16) * (1 / 2 ^ 16) ≤ 1 * (1 / 2 ^ 16) :=
      mul_le_mul_of_nonneg_right (by linarith only [hke]) (by positivity)
    rw [h5]
    linarith only [h6]

theorem drift_from : ∀ (rs : List (Rotor2d F32)) {k : ℕ}, k + rs.length ≤ 2 ^ 14 → ∀ {w' : V2 F32} {w P : V2 ℝ}, w'.Is w →
    (w - P).norm ≤ k / 2 ^ 22 * P.norm → 1 - k / 2 ^ 16 ≤ P.norm → P.norm ≤ 1 + 2 * (k / 2 ^ 16) →
    (∀ r ∈ rs, r.a.Is r.a.toReal ∧ NearUnit (1 / 2 ^ 16) r.a.toReal) →
    ∃ z, (rs.foldl Rotor2d.mulR ⟨w'⟩).a.Is z ∧
      (z - rs.foldl (fun P r => turn P r.a.toReal) P).norm ≤
        ((k + rs.length : ℕ) : ℝ) / 2 ^ 22 * (rs.foldl (fun P r => turn P r.a.toReal) P).norm := by
  intro rs
  induction rs with
  | nil => intro k _ w' w P hw h1 _ _ _; exact ⟨w, hw, by simpa using h1⟩
  | cons r rs ih =>
    intro k hk w' w P hw h1 h2 h3 h
    rw [List.length_cons] at hk
    obtain ⟨z, z1, z2, z3, z4⟩ := drift_step (by omega) hw h1 h2 h3 (h r (by simp)).1 (h r (by simp)).2
    obtain ⟨y, y1, y2⟩ := ih (k := k + 1) (by omega) z1 z2 z3 z4 (fun r hr => h r (List.mem_cons_of_mem _ hr))
    refine ⟨y, y1, ?_⟩
    rw [List.length_cons, List.foldl_cons, show k + (rs.length + 1) = k + 1 + rs.length by omega]
    exact y2

/-- A rotation that is updated by multiplication up to 16384 times: the accumulated f32 rotor differs from the exact
product of the factors by at most `n / 2^22` of its length. -/
theorem C90_f32_rotor_drift (rs : List (Rotor2d F32)) (hn : rs.length ≤ 2 ^ 14)
    (h : ∀ r ∈ rs, r.a.Is r.a.toReal ∧ NearUnit (1 / 2 ^ 16) r.a.toReal) :
    ∃ z, (rs.foldl Rotor2d.mulR Rotor2d.identity).a.Is z ∧
      (z - rs.foldl (fun P r => turn P r.a.toReal) ⟨1, 0⟩).norm ≤
        (rs.length : ℝ) / 2 ^ 22 * (rs.foldl (fun P r => turn P r.a.toReal) ⟨1, 0⟩).norm := by
  have hone : (⟨1, 0⟩ : V2 ℝ).norm = 1 := by simp [V2.norm]
  have h0 : ((⟨1, 0⟩ : V2 ℝ) - ⟨1, 0⟩).norm = 0 := by simp [V2.norm]
  obtain ⟨z, z1, z2⟩ := drift_from rs (k := 0) (by simpa using hn) (w' := ⟨1, 0⟩) (w := ⟨1, 0⟩) (P := ⟨1, 0⟩)
    ⟨is_one, is_zero⟩ (by rw [h0]; simp) (by simp [hone]) (by simp [hone]) h
  exact ⟨z, z1, by simpa using z2⟩

/-! ## translations -/

theorem translate_back {x t : ℝ} {x' t' : F32} (hx : F32.Is x' x) (ht : F32.Is t' t) (h1 : |x| ≤ M) (h2 : |t| ≤ M)
    (hM : M ≤ (2 : ℝ) ^ (120 : ℤ)) : ∃ u, F32.Is (x' + t' - t') u ∧ |u - x| ≤ 4 * (M / 2 ^ 24) := by
  have hM1 : 0 ≤ M := (abs_nonneg _).trans h1
  have hbig : (2 : ℝ) ^ (120 : ℤ) ≤ (2 : ℝ) ^ (126 : ℤ) / 16 := by norm_num
  have a1 := abs_add_le x t
  obtain ⟨w, w1, w2⟩ := F32.round_add hx ht (by linarith only [a1, h1, h2, hM, hbig, hM1])
  have a2 := abs_add_le (w - (x + t)) x
  rw [show w - (x + t) + x = w - t by ring] at a2
  obtain ⟨u, u1, u2⟩ := F32.round_sub w1 ht (by linarith only [a1, a2, w2, h1, h2, hM, hbig, hM1])
  have a3 := abs_add_le (u - (w - t)) (w - (x + t))
  rw [show u - (w - t) + (w - (x + t)) = u - x by ring] at a3
  exact ⟨u, u1, by linarith only [a1, a2, a3, u2, w2, h1, h2, hM1]⟩

/-- `Vec2` and `Translate2d` as transformations: `unapply` undoes `apply` up to four units in the last place of `M`. -/
theorem C90_f32_translations {t p : V2 F32} (ht : t.Bounded32 M) (hp : p.Bounded32 M) (hM : M ≤ (2 : ℝ) ^ (120 : ℤ)) :
    ∃ u, (unapply t (apply t p : V2 F32)).Is u ∧ (unapply (Translate2d.mk t) (apply (Translate2d.mk t) p : V2 F32)).Is u ∧
      V2.Within (4 * (M / 2 ^ 24)) u p.toReal := by
  obtain ⟨x, x1, x2⟩ := translate_back hp.1.1 ht.1.1 hp.2.1 ht.2.1 hM
  obtain ⟨y, y1, y2⟩ := translate_back hp.1.2 ht.1.2 hp.2.2 ht.2.2 hM
  exact ⟨⟨x, y⟩, ⟨x1, y1⟩, ⟨x1, y1⟩, x2, y2⟩

end

end Auburn
