import Verif.Ieee.RectEpa

/-!
# EPA on a rectangle that contains the origin, in binary32 (library lemmas)

The search ends after at most two iterations on a side of the rectangle.
-/

set_option linter.unusedSectionVars false
set_option synthInstance.maxSize 1000

namespace Auburn

open F32 V2

/-- values of the corners of the rectangle: `ξ s`, `η s` are the distances of the sides from the origin,
`w`, `h` the computed width and height -/
structure RectVals (X Y : Bool → F32) (ξ η : Bool → ℝ) (w h N : ℝ) : Prop where
  x : ∀ s, F32.Is (X s) (sgn s * ξ s)
  y : ∀ s, F32.Is (Y s) (sgn s * η s)
  xl : ∀ s, (2 : ℝ) ^ (-23 : ℤ) ≤ ξ s
  yl : ∀ s, (2 : ℝ) ^ (-23 : ℤ) ≤ η s
  xu : ∀ s, ξ s ≤ N
  yu : ∀ s, η s ≤ N
  hN : N ≤ (2 : ℝ) ^ (30 : ℤ)
  wx : ∀ s, F32.Is (X s - X (!s)) (sgn s * w)
  hy : ∀ s, F32.Is (Y s - Y (!s)) (sgn s * h)
  w1 : |w - (ξ true + ξ false)| ≤ (ξ true + ξ false) / 2 ^ 24
  h1 : |h - (η true + η false)| ≤ (η true + η false) / 2 ^ 24
  wle : ∀ s, ξ s ≤ w
  hle : ∀ s, η s ≤ h

theorem sub_swap {a b : F32} {x y w : ℝ} (ha : F32.Is a x) (hb : F32.Is b y) (h : F32.Is (a - b) w) :
    F32.Is (b - a) (-w) := by
  obtain ⟨z, e⟩ := sub_eq ha hb
  obtain ⟨z', e'⟩ := sub_eq hb ha
  rw [e] at h
  rw [e']
  by_cases h0 : x = y
  · subst h0
    rw [sub_self] at h ⊢
    have := h.unique (is_ofReal representable_zero)
    subst this
    rw [neg_zero]; exact is_ofReal representable_zero
  · have n1 : x - y ≠ 0 := sub_ne_zero.2 h0
    have n2 : y - x ≠ 0 := sub_ne_zero.2 (Ne.symm h0)
    have ab : |y - x| = |x - y| := abs_sub_comm _ _
    rcases ofReal_cases z (x - y) with ⟨hlt, s, k, r, hs, _⟩ | ⟨_, _, r⟩
    · rcases ofReal_cases z' (y - x) with ⟨_, s', k', r', hs', _⟩ | ⟨hb, _, _⟩
      · rw [r] at h
        have hw := h.unique ⟨_, _, _, rfl, rfl⟩
        refine ⟨s', _, k', r', ?_⟩
        rw [hw, hs n1, hs' n2, ab]
        rcases lt_or_gt_of_ne n1 with hl | hl
        · rw [show decide (x - y < 0) = true from decide_eq_true hl,
            show decide (y - x < 0) = false from decide_eq_false (by linarith)]; simp
        · rw [show decide (x - y < 0) = false from decide_eq_false (by linarith),
            show decide (y - x < 0) = true from decide_eq_true (by linarith)]; simp
      · rw [ab] at hb; linarith
    · rw [r] at h
      obtain ⟨_, _, _, hh, _⟩ := h
      cases hh

/-- two numbers of opposite sign: the computed difference -/
theorem diff_vals {X : Bool → F32} (hX : ∀ s, Sgd s (-23) 30 (X s)) :
    ∃ (ξ : Bool → ℝ) (w : ℝ), (∀ s, F32.Is (X s) (sgn s * ξ s)) ∧ (∀ s, (2 : ℝ) ^ (-23 : ℤ) ≤ ξ s) ∧
      (∀ s, ξ s ≤ (2 : ℝ) ^ (30 : ℤ)) ∧ (∀ s, F32.Is (X s - X (!s)) (sgn s * w)) ∧
      |w - (ξ true + ξ false)| ≤ (ξ true + ξ false) / 2 ^ 24 ∧ ∀ s, ξ s ≤ w := by
  choose ξ h1 h2 h3 using hX
  have p : ∀ s, 0 < ξ s := fun s => lt_of_lt_of_le (two_zpow_pos _) (h2 s)
  have h1' := h1
  have b : (2 : ℝ) ^ (30 : ℤ) ≤ (2 : ℝ) ^ (126 : ℤ) := zpow_le_zpow (by norm_num)
  have ht := h1 true
  have hf := h1 false
  rw [sgn_true, one_mul] at ht
  rw [sgn_false, neg_one_mul] at hf
  have e : ξ true - -ξ false = ξ true + ξ false := by ring
  have hp : 0 < ξ true + ξ false := add_pos (p _) (p _)
  obtain ⟨w, w1, w2⟩ := round_sub ht hf (by
    rw [e, abs_of_pos hp]; linarith [h3 true, h3 false])
  rw [e, abs_of_pos hp] at w2
  have w3 := sub_swap ht hf w1
  refine ⟨ξ, w, h1', h2, h3, ?_, w2, ?_⟩
  · intro s
    cases s
    · rw [sgn_false, neg_one_mul]; exact w3
    · rw [sgn_true, one_mul]; exact w1
  · -- monotonicity of rounding
    obtain ⟨z, ez⟩ := sub_eq ht hf
    rw [e] at ez
    rw [ez] at w1
    have key : ∀ s, F32.Is (X s) (sgn s * ξ s) → ξ s ≤ ξ true + ξ false → ξ s ≤ w := by
      intro s hs hle
      have hr : Representable (ξ s) := by
        have := hs.representable
        cases s
        · rw [sgn_false, neg_one_mul] at this; simpa using this.neg
        · rw [sgn_true, one_mul] at this; exact this
      have hm := rnd_mono (p s).le hle
      rw [rnd_of_representable (p s).le hr] at hm
      rcases ofReal_cases z (ξ true + ξ false) with ⟨_, s', k, r, hs', _⟩ | ⟨_, _, r⟩
      · rw [r] at w1
        have hw := w1.unique ⟨_, _, _, rfl, rfl⟩
        rw [hw, hs' hp.ne', decide_eq_false (not_lt.2 hp.le), sval_false, abs_of_pos hp]
        exact hm
      · rw [r] at w1
        obtain ⟨_, _, _, hh, _⟩ := w1
        cases hh
    intro s
    refine key s (h1' s) ?_
    cases s <;> linarith [p true, p false]

theorem InsideRect.vals {X Y : Bool → F32} (hR : InsideRect X Y) :
    ∃ ξ η w h, RectVals X Y ξ η w h ((2 : ℝ) ^ (30 : ℤ)) := by
  obtain ⟨ξ, w, a1, a2, a3, a4, a5, a6⟩ := diff_vals hR.x
  obtain ⟨η, h, b1, b2, b3, b4, b5, b6⟩ := diff_vals hR.y
  exact ⟨ξ, η, w, h, a1, b1, a2, b2, a3, b3, le_refl _, a4, b4, a5, b5, a6, b6⟩

section
variable [env : F32Env]
variable {S : V2 F32 → V2 F32} {X Y : Bool → F32} {ξ η : Bool → ℝ} {w h N : ℝ}

namespace RectVals

/-- a smaller common bound -/
theorem bound (R : RectVals X Y ξ η w h N) {M : ℝ} (hx : ∀ s, ξ s ≤ M) (hy : ∀ s, η s ≤ M)
    (hM : M ≤ (2 : ℝ) ^ (30 : ℤ)) : RectVals X Y ξ η w h M :=
  ⟨R.x, R.y, R.xl, R.yl, hx, hy, hM, R.wx, R.hy, R.w1, R.h1, R.wle, R.hle⟩

theorem xp (R : RectVals X Y ξ η w h N) (s : Bool) : 0 < ξ s := lt_of_lt_of_le (two_zpow_pos _) (R.xl s)
theorem yp (R : RectVals X Y ξ η w h N) (s : Bool) : 0 < η s := lt_of_lt_of_le (two_zpow_pos _) (R.yl s)
theorem wp (R : RectVals X Y ξ η w h N) : 0 < w := lt_of_lt_of_le (R.xp true) (R.wle true)
theorem hp (R : RectVals X Y ξ η w h N) : 0 < h := lt_of_lt_of_le (R.yp true) (R.hle true)
theorem N0 (R : RectVals X Y ξ η w h N) : (2 : ℝ) ^ (-23 : ℤ) ≤ N := (R.xl true).trans (R.xu true)

theorem wx' (R : RectVals X Y ξ η w h N) (s : Bool) : F32.Is (X (!s) - X s) (-(sgn s * w)) := by
  have := R.wx (!s)
  rwa [Bool.not_not, sgn_not, neg_mul] at this
theorem hy' (R : RectVals X Y ξ η w h N) (s : Bool) : F32.Is (Y (!s) - Y s) (-(sgn s * h)) := by
  have := R.hy (!s)
  rwa [Bool.not_not, sgn_not, neg_mul] at this

theorem edgeC_zero {N ξ : ℝ} (s : Bool) (h1 : (2 : ℝ) ^ (-23 : ℤ) ≤ ξ) (h2 : ξ ≤ N) : EdgeC N (sgn s * ξ) 0 := by
  have p : 0 < ξ := lt_of_lt_of_le (two_zpow_pos _) h1
  have e : |sgn s * ξ| = ξ := by rw [abs_mul, abs_sgn, one_mul, abs_of_pos p]
  refine ⟨by rwa [e], ?_, ?_, by rwa [e], Or.inl rfl⟩
  · rw [abs_zero]; have : 0 < N := p.trans_le h2; positivity
  · rw [add_zero, e]; linarith

theorem edgeC_full {N w : ℝ} {ξ : Bool → ℝ} (s : Bool) (h1 : ∀ s, (2 : ℝ) ^ (-23 : ℤ) ≤ ξ s) (h2 : ∀ s, ξ s ≤ N)
    (hw : |w - (ξ true + ξ false)| ≤ (ξ true + ξ false) / 2 ^ 24) (hle : ∀ s, ξ s ≤ w) :
    EdgeC N (sgn s * ξ s) (-(sgn s * w)) := by
  have p : ∀ s, 0 < ξ s := fun s => lt_of_lt_of_le (two_zpow_pos _) (h1 s)
  have wp := (p true).trans_le (hle true)
  have e : |sgn s * ξ s| = ξ s := by rw [abs_mul, abs_sgn, one_mul, abs_of_pos (p s)]
  have e2 : |-(sgn s * w)| = w := by rw [abs_neg, abs_mul, abs_sgn, one_mul, abs_of_pos wp]
  have ss : sgn s * sgn s = 1 := by rw [sgn_mul]; simp
  have a1 := h2 true
  have a2 := h2 false
  have b1 := p true
  have b2 := p false
  rw [abs_le] at hw
  refine ⟨by rw [e]; exact h2 s, ?_, ?_, by rw [e]; exact h1 s, Or.inr ⟨?_, ?_⟩⟩
  · rw [e2]; linarith [hw.2]
  · rw [show sgn s * ξ s + -(sgn s * w) = sgn s * (ξ s - w) by ring, abs_mul, abs_sgn, one_mul, abs_le]
    cases s <;> constructor <;> linarith [hw.1, hw.2]
  · rw [show sgn s * ξ s * -(sgn s * w) = -(sgn s * sgn s) * (ξ s * w) by ring, ss]
    have := mul_pos (p s) wp
    linarith
  · rw [e, e2]; exact hle s

/-! ### distances of the edges -/

theorem edgeT_x (ax ay : ℝ) {w : ℝ} (hw : w ≠ 0) : edgeT ax ay w 0 * w = -ax := by
  unfold edgeT; field_simp; ring

theorem edgeT_y (ax ay : ℝ) {h : ℝ} (hh : h ≠ 0) : edgeT ax ay 0 h * h = -ay := by
  unfold edgeT; field_simp; ring

/-- computed squared distance of the side `x = X s` -/
theorem distX (R : RectVals X Y ξ η w h N) (s : Bool) :
    ∃ d, F32.Is (edgeDistSq (⟨X s, Y !s⟩ : V2 F32) ⟨X s, Y s⟩) d ∧
      d ≤ (ξ s + 64 * (N / 2 ^ 24)) ^ 2 ∧ ξ s ^ 2 * (1 - 2 / 2 ^ 24) ≤ d := by
  have c1 := edgeC_zero s (R.xl s) (R.xu s)
  have c2 := edgeC_full (!s) R.yl R.yu R.h1 R.hle
  have hw := sub_self' (R.x s)
  have hh := R.hy s
  rw [sgn_not, neg_mul, neg_mul, neg_neg] at c2
  have hy := R.y (!s)
  rw [sgn_not, neg_mul] at hy
  have hne : sgn s * h ≠ 0 := by
    have := R.hp.ne'
    cases s <;> simpa
  obtain ⟨d, d1, d2, d3, d4, d5, d6⟩ := edge_round (a := ⟨X s, Y !s⟩) (b := ⟨X s, Y s⟩) (R.x s) hy hw hh R.hN R.N0 c1 c2 (Or.inr hne)
  refine ⟨d, d1, d4 (ξ s) (R.xp s).le (by linarith [R.xu s, R.xp s]) ?_, ?_⟩
  · rw [edgeT_y _ _ hne, mul_zero, add_zero, neg_neg, neg_add_cancel]
    have ss : sgn s * sgn s = 1 := by rw [sgn_mul]; simp
    have : (sgn s * ξ s) ^ 2 = (sgn s * sgn s) * ξ s ^ 2 := by ring
    rw [this, ss]; linarith
  · have := d5 rfl
    have ss : sgn s * sgn s = 1 := by rw [sgn_mul]; simp
    have e : (sgn s * ξ s) ^ 2 = (sgn s * sgn s) * ξ s ^ 2 := by ring
    rwa [e, ss, one_mul] at this

/-- computed squared distance of the side `y = Y s` -/
theorem distY (R : RectVals X Y ξ η w h N) (s : Bool) :
    ∃ d, F32.Is (edgeDistSq (⟨X s, Y s⟩ : V2 F32) ⟨X !s, Y s⟩) d ∧
      d ≤ (η s + 64 * (N / 2 ^ 24)) ^ 2 ∧ η s ^ 2 * (1 - 2 / 2 ^ 24) ≤ d := by
  have c1 := edgeC_zero s (R.yl s) (R.yu s)
  have c2 := edgeC_full s R.xl R.xu R.w1 R.wle
  have hh := sub_self' (R.y s)
  have hw := R.wx' s
  have hne : -(sgn s * w) ≠ 0 := by
    have := R.wp.ne'
    cases s <;> simpa
  obtain ⟨d, d1, d2, d3, d4, d5, d6⟩ := edge_round (a := ⟨X s, Y s⟩) (b := ⟨X !s, Y s⟩) (R.x s) (R.y s) hw hh R.hN R.N0 c2 c1 (Or.inl hne)
  refine ⟨d, d1, d4 (η s) (R.yp s).le (by linarith [R.yu s, R.yp s]) ?_, ?_⟩
  · rw [edgeT_x _ _ hne, mul_zero, add_zero, add_neg_cancel]
    have ss : sgn s * sgn s = 1 := by rw [sgn_mul]; simp
    have : (sgn s * η s) ^ 2 = (sgn s * sgn s) * η s ^ 2 := by ring
    rw [this, ss]; linarith
  · have := d6 rfl
    have ss : sgn s * sgn s = 1 := by rw [sgn_mul]; simp
    have e : (sgn s * η s) ^ 2 = (sgn s * sgn s) * η s ^ 2 := by ring
    rwa [e, ss, one_mul] at this

/-- computed squared distance of a diagonal -/
theorem distD (R : RectVals X Y ξ η w h N) (ρ π : Bool) :
    ∃ d, F32.Is (edgeDistSq (⟨X !π, Y ρ⟩ : V2 F32) ⟨X π, Y !ρ⟩) d ∧
      ∀ P, 0 ≤ P → P ≤ 2 * N → (ξ (!π) * h - η ρ * w) ^ 2 ≤ P ^ 2 * (w * w + h * h) →
        d ≤ (P + 64 * (N / 2 ^ 24)) ^ 2 := by
  have c1 := edgeC_full (!π) R.xl R.xu R.w1 R.wle
  have c2 := edgeC_full ρ R.yl R.yu R.h1 R.hle
  have hw := R.wx' (!π)
  rw [Bool.not_not] at hw
  have hh := R.hy' ρ
  have hne : -(sgn (!π) * w) ≠ 0 := by
    have := R.wp.ne'
    cases π <;> simpa
  obtain ⟨d, d1, d2, d3, d4, d5, d6⟩ := edge_round (a := ⟨X !π, Y ρ⟩) (b := ⟨X π, Y !ρ⟩) (R.x _) (R.y _) hw hh R.hN R.N0 c1 c2 (Or.inl hne)
  refine ⟨d, d1, fun P h0 h1 hP => d4 P h0 h1 ?_⟩
  have hD : 0 < w * w + h * h := by
    have := mul_pos R.wp R.wp
    have := mul_pos R.hp R.hp
    linarith
  have key : ∀ ax ay w' h' : ℝ, w' * w' + h' * h' = w * w + h * h →
      (ax + edgeT ax ay w' h' * w') ^ 2 + (ay + edgeT ax ay w' h' * h') ^ 2 = (ax * h' - ay * w') ^ 2 / (w * w + h * h) := by
    intro ax ay w' h' e
    have hD' : w' * w' + h' * h' ≠ 0 := by rw [e]; exact hD.ne'
    rw [← e]
    unfold edgeT
    rw [eq_div_iff hD']
    obtain ⟨r, hr⟩ : ∃ r, r = (-ax * w' + -ay * h') / (w' * w' + h' * h') := ⟨_, rfl⟩
    rw [← hr]
    rw [eq_div_iff hD'] at hr
    linear_combination (r * (w' * w' + h' * h') + ax * w' + ay * h') * hr
  have s1 : ∀ s, sgn s * sgn s = 1 := fun s => by rw [sgn_mul]; simp
  rw [key _ _ _ _ (by
    have := s1 (!π)
    have := s1 ρ
    calc _ = (sgn (!π) * sgn (!π)) * (w * w) + (sgn ρ * sgn ρ) * (h * h) := by ring
      _ = _ := by rw [s1, s1]; ring), div_le_iff₀ hD]
  refine le_trans (le_of_eq ?_) hP
  calc _ = (sgn (!π) * sgn (!π)) * (sgn ρ * sgn ρ) * (ξ (!π) * h - η ρ * w) ^ 2 := by ring
    _ = _ := by rw [s1, s1]; ring

/-- how far the origin is on the right side of the diagonal -/
def F1 (ξ η : Bool → ℝ) (w h : ℝ) (ρ π : Bool) : ℝ := ξ (!ρ) * h - η π * w
def F2 (ξ η : Bool → ℝ) (w h : ℝ) (ρ π : Bool) : ℝ := η (!π) * w - ξ ρ * h

theorem F12 (R : RectVals X Y ξ η w h N) (ρ π : Bool) :
    |F1 ξ η w h ρ π - F2 ξ η w h ρ π| ≤ 3 * (w * h / 2 ^ 24) := by
  have e : F1 ξ η w h ρ π - F2 ξ η w h ρ π = (ξ true + ξ false - w) * h - (η true + η false - h) * w := by
    unfold F1 F2
    cases ρ <;> cases π <;> simp <;> ring
  have a := abs_le.1 R.w1
  have b := abs_le.1 R.h1
  have x1 := R.xp true
  have x2 := R.xp false
  have y1 := R.yp true
  have y2 := R.yp false
  have wp := R.wp
  have hp := R.hp
  have a1 : |ξ true + ξ false - w| ≤ 3 / 2 * (w / 2 ^ 24) := by rw [abs_le]; constructor <;> linarith
  have b1 : |η true + η false - h| ≤ 3 / 2 * (h / 2 ^ 24) := by rw [abs_le]; constructor <;> linarith
  rw [e]
  refine (abs_sub _ _).trans ?_
  rw [abs_mul, abs_mul, abs_of_pos wp, abs_of_pos hp]
  have := mul_le_mul_of_nonneg_right a1 hp.le
  have := mul_le_mul_of_nonneg_right b1 wp.le
  linarith

theorem distD_le (R : RectVals X Y ξ η w h N) (ρ π : Bool) {e : ℝ}
    (he0 : 0 ≤ e) (heN : e ≤ N / 2)
    (h1 : -(e * max w h) ≤ F1 ξ η w h ρ π) (h2 : -(e * max w h) ≤ F2 ξ η w h ρ π) :
    ∃ d, F32.Is (edgeDistSq (⟨X !π, Y ρ⟩ : V2 F32) ⟨X π, Y !ρ⟩) d ∧
      d ≤ (ξ (!ρ) + e + 71 * (N / 2 ^ 24)) ^ 2 ∧ d ≤ (η (!π) + e + 71 * (N / 2 ^ 24)) ^ 2 := by
  obtain ⟨d, d1, d2⟩ := R.distD ρ π
  have wp := R.wp
  have hp := R.hp
  have a := abs_le.1 R.w1
  have b := abs_le.1 R.h1
  have u1 := R.xu true
  have u2 := R.xu false
  have u3 := R.yu true
  have u4 := R.yu false
  have x1 := R.xp true
  have x2 := R.xp false
  have y1 := R.yp true
  have y2 := R.yp false
  have hN : 0 < N := x1.trans_le u1
  have wN : w ≤ 7 / 3 * N := by linarith
  have hhN : h ≤ 7 / 3 * N := by linarith
  have f12 := abs_le.1 (R.F12 ρ π)
  set m := max w h with hm
  have m1 : w ≤ m := le_max_left _ _
  have m2 : h ≤ m := le_max_right _ _
  have m3 : m * m ≤ w * w + h * h := by
    rcases max_choice w h with k | k <;> rw [hm, k] <;> nlinarith
  have mp : 0 < m := wp.trans_le m1
  have whm : w * h ≤ 7 / 3 * N * m := mul_le_mul wN m2 hp.le (by positivity)
  -- both bounds on the side value
  have key : ∀ Q : ℝ, 0 ≤ Q → Q ≤ N → (F1 ξ η w h ρ π ≤ Q * m ∨ F2 ξ η w h ρ π ≤ Q * m) →
      d ≤ (Q + e + 71 * (N / 2 ^ 24)) ^ 2 := by
    intro Q q0 q1 hQ
    have hC : |ξ (!π) * h - η ρ * w| ≤ (Q + e + 7 * (N / 2 ^ 24)) * m := by
      have hor : ξ (!π) * h - η ρ * w = F1 ξ η w h ρ π ∨ -(ξ (!π) * h - η ρ * w) = F2 ξ η w h ρ π := by
        unfold F1 F2
        cases ρ <;> cases π <;> simp
      have em : 0 ≤ e * m := by positivity
      have qm : 0 ≤ Q * m := by positivity
      have nm : 0 ≤ N * m := by positivity
      have l : (Q + e + 7 * (N / 2 ^ 24)) * m = Q * m + e * m + 7 * (N * m) / 2 ^ 24 := by ring
      have whm' : w * h ≤ 7 / 3 * (N * m) := by linarith
      rw [l, abs_le]
      rcases hor with k | k <;> rcases hQ with k' | k' <;> constructor <;> linarith [f12.1, f12.2]
    have hle : Q + e + 7 * (N / 2 ^ 24) ≤ 2 * N := by linarith
    have hnn : 0 ≤ Q + e + 7 * (N / 2 ^ 24) := by positivity
    refine (d2 (Q + e + 7 * (N / 2 ^ 24)) hnn hle ?_).trans (le_of_eq (by ring))
    rw [← sq_abs]
    refine (pow_le_pow_left₀ (abs_nonneg _) hC 2).trans ?_
    rw [mul_pow]
    refine mul_le_mul_of_nonneg_left ?_ (sq_nonneg _)
    rw [sq]; exact m3
  refine ⟨d, d1, key _ (R.xp _).le (R.xu _) (Or.inl ?_), key _ (R.yp _).le (R.yu _) (Or.inr ?_)⟩
  · have k1 := mul_pos (R.yp π) wp
    have k2 := mul_le_mul_of_nonneg_left m2 (R.xp (!ρ)).le
    unfold F1; linarith
  · have k1 := mul_pos (R.xp ρ) hp
    have k2 := mul_le_mul_of_nonneg_left m1 (R.yp (!π)).le
    unfold F2; linarith

/-- the computed cross product of the diagonal -/
theorem cross_round (R : RectVals X Y ξ η w h N) (σ τ : Bool) :
    ∃ c, F32.Is ((⟨X σ, Y τ⟩ - ⟨X !σ, Y !τ⟩ : V2 F32).cross (-⟨X !σ, Y !τ⟩)) c ∧
      |c - sgn σ * sgn τ * (w * η (!τ) - h * ξ (!σ))| ≤ 5 * (w * h / 2 ^ 24) ∧ |c| ≤ (2 : ℝ) ^ (63 : ℤ) := by
  have wp := R.wp
  have hp := R.hp
  have xp := R.xp (!σ)
  have yp := R.yp (!τ)
  have s1 : ∀ s, sgn s * sgn s = 1 := fun s => by rw [sgn_mul]; simp
  have a := abs_le.1 R.w1
  have b := abs_le.1 R.h1
  have N30 := R.hN
  have wN : w ≤ 4 * (2 : ℝ) ^ (30 : ℤ) := by linarith [R.xu true, R.xu false, R.xp true, R.xp false]
  have hN : h ≤ 4 * (2 : ℝ) ^ (30 : ℤ) := by linarith [R.yu true, R.yu false, R.yp true, R.yp false]
  have lo : (2 : ℝ) ^ (-126 : ℤ) ≤ (2 : ℝ) ^ (-23 : ℤ) * (2 : ℝ) ^ (-23 : ℤ) := by
    rw [← zpow_add₀ (by norm_num)]; exact zpow_le_zpow (by norm_num)
  have hi : 4 * (2 : ℝ) ^ (30 : ℤ) * (2 : ℝ) ^ (30 : ℤ) = (2 : ℝ) ^ (62 : ℤ) := by norm_num
  have aux : ∀ {A B : F32} {s t : Bool} {p q : ℝ}, F32.Is A (sgn s * p) → F32.Is B (sgn t * q) →
      (2 : ℝ) ^ (-23 : ℤ) ≤ p → (2 : ℝ) ^ (-23 : ℤ) ≤ q → p ≤ 4 * (2 : ℝ) ^ (30 : ℤ) → q ≤ (2 : ℝ) ^ (30 : ℤ) →
      ∃ m, F32.Is (A * B) m ∧ |m - sgn s * sgn t * (p * q)| ≤ p * q / 2 ^ 24 ∧ p * q ≤ (2 : ℝ) ^ (62 : ℤ) := by
    intro A B s t p q hA hB p1 q1 p2 q2
    have pp : 0 < p := lt_of_lt_of_le (two_zpow_pos _) p1
    have qp : 0 < q := lt_of_lt_of_le (two_zpow_pos _) q1
    have e : |sgn s * p * (sgn t * q)| = p * q := by
      rw [abs_mul, abs_mul, abs_mul, abs_sgn, abs_sgn, one_mul, one_mul, abs_of_pos pp, abs_of_pos qp]
    have h1 : p * q ≤ (2 : ℝ) ^ (62 : ℤ) := by
      rw [← hi]; exact mul_le_mul p2 q2 qp.le (by positivity)
    have h2 : (2 : ℝ) ^ (-126 : ℤ) ≤ p * q := lo.trans (mul_le_mul p1 q1 (two_zpow_pos _).le pp.le)
    have h3 : (2 : ℝ) ^ (62 : ℤ) ≤ (2 : ℝ) ^ (126 : ℤ) := zpow_le_zpow (by norm_num)
    obtain ⟨m, m1, _, m3, _⟩ := round_mul hA hB (by rw [e]; linarith [two_zpow_pos 126])
    rw [e] at m3
    refine ⟨m, m1, ?_, h1⟩
    have := m3 h2
    rwa [show sgn s * sgn t * (p * q) = sgn s * p * (sgn t * q) by ring]
  have hyn := is_neg (R.y (!τ))
  have hxn := is_neg (R.x (!σ))
  rw [sgn_not, neg_mul, neg_neg] at hyn hxn
  obtain ⟨m, m1, m2, m3⟩ := aux (R.wx σ) hyn ((R.xl true).trans (R.wle true)) (R.yl _) wN ((R.yu _).trans N30)
  obtain ⟨n, n1, n2, n3⟩ := aux (R.hy τ) hxn ((R.yl true).trans (R.hle true)) (R.xl _) hN ((R.xu _).trans N30)
  have k1 : w * η (!τ) ≤ w * h := mul_le_mul_of_nonneg_left (R.hle _) wp.le
  have k2 : h * ξ (!σ) ≤ w * h := by rw [mul_comm]; exact mul_le_mul_of_nonneg_right (R.wle _) hp.le
  have k3 := mul_pos wp yp
  have k4 := mul_pos hp xp
  have n2' : |n - sgn σ * sgn τ * (h * ξ (!σ))| ≤ h * ξ (!σ) / 2 ^ 24 := by
    rwa [mul_comm (sgn σ)]
  have bm : |m| ≤ 2 * (w * η (!τ)) := by
    have := abs_add_le (m - sgn σ * sgn τ * (w * η (!τ))) (sgn σ * sgn τ * (w * η (!τ)))
    rw [sub_add_cancel, abs_mul (sgn σ * sgn τ), abs_mul (sgn σ), abs_sgn, abs_sgn, one_mul, one_mul,
      abs_of_pos k3] at this
    linarith
  have bn : |n| ≤ 2 * (h * ξ (!σ)) := by
    have := abs_add_le (n - sgn σ * sgn τ * (h * ξ (!σ))) (sgn σ * sgn τ * (h * ξ (!σ)))
    rw [sub_add_cancel, abs_mul (sgn σ * sgn τ), abs_mul (sgn σ), abs_sgn, abs_sgn, one_mul, one_mul,
      abs_of_pos k4] at this
    linarith
  have bmn : |m - n| ≤ 2 * (w * η (!τ)) + 2 * (h * ξ (!σ)) := (abs_sub _ _).trans (by linarith)
  have hh3 : (2 : ℝ) ^ (62 : ℤ) * 4 ≤ (2 : ℝ) ^ (126 : ℤ) := by norm_num
  obtain ⟨c, c1, c2⟩ := round_sub m1 n1 (by linarith [two_zpow_pos 126])
  have t1 : |m - n - sgn σ * sgn τ * (w * η (!τ) - h * ξ (!σ))| ≤ w * η (!τ) / 2 ^ 24 + h * ξ (!σ) / 2 ^ 24 := by
    rw [show m - n - sgn σ * sgn τ * (w * η (!τ) - h * ξ (!σ)) =
      (m - sgn σ * sgn τ * (w * η (!τ))) - (n - sgn σ * sgn τ * (h * ξ (!σ))) by ring]
    exact (abs_sub _ _).trans (by linarith)
  have t2 : |m - n| ≤ 5 / 4 * (w * h) + 5 / 4 * (w * h) := by
    have := abs_add_le (m - n - sgn σ * sgn τ * (w * η (!τ) - h * ξ (!σ))) (sgn σ * sgn τ * (w * η (!τ) - h * ξ (!σ)))
    rw [sub_add_cancel, abs_mul (sgn σ * sgn τ), abs_mul (sgn σ), abs_sgn, abs_sgn, one_mul, one_mul] at this
    have k : |w * η (!τ) - h * ξ (!σ)| ≤ w * h := by
      rw [abs_le]; constructor <;> linarith
    linarith
  refine ⟨c, c1, ?_, ?_⟩
  · have := abs_add_le (c - (m - n)) (m - n - sgn σ * sgn τ * (w * η (!τ) - h * ξ (!σ)))
    rw [sub_add_sub_cancel] at this
    linarith
  · have := abs_add_le (c - (m - n)) (m - n)
    rw [sub_add_cancel] at this
    have e : (2 : ℝ) ^ (63 : ℤ) = 2 * (2 : ℝ) ^ (62 : ℤ) := by norm_num
    rw [e]
    have t3 := abs_add_le (m - n - sgn σ * sgn τ * (w * η (!τ) - h * ξ (!σ))) (sgn σ * sgn τ * (w * η (!τ) - h * ξ (!σ)))
    rw [sub_add_cancel, abs_mul (sgn σ * sgn τ), abs_mul (sgn σ), abs_sgn, abs_sgn, one_mul, one_mul] at t3
    have k : |w * η (!τ) - h * ξ (!σ)| ≤ (2 : ℝ) ^ (62 : ℤ) := by
      rw [abs_le]; constructor <;> linarith
    linarith [two_zpow_pos 62]

/-- the search for the third corner ends on the right side of the diagonal, up to rounding -/
theorem side_of_gjk (R : RectVals X Y ξ η w h N) {σ τ ρ π : Bool} (ho : OffDiag σ τ ρ π)
    (hbig : 1 ≤ w ∨ 1 ≤ h)
    (hor : directionTooSmall ((⟨X σ, Y τ⟩ - ⟨X !σ, Y !τ⟩ : V2 F32).crossAba (-⟨X !σ, Y !τ⟩)) ∨
        ∃ κ, Sgd κ (-57) 63 ((⟨X σ, Y τ⟩ - ⟨X !σ, Y !τ⟩ : V2 F32).cross (-⟨X !σ, Y !τ⟩)) ∧
          ρ = ((!τ) == κ) ∧ π = (σ == κ)) :
    -(32 * (N / 2 ^ 24) * max w h) ≤ F1 ξ η w h ρ π ∧ -(32 * (N / 2 ^ 24) * max w h) ≤ F2 ξ η w h ρ π := by
  obtain ⟨c, c1, c2, c3⟩ := R.cross_round σ τ
  have wp := R.wp
  have hp := R.hp
  have a := abs_le.1 R.w1
  have b := abs_le.1 R.h1
  have wN : w ≤ 7 / 3 * N := by linarith [R.xu true, R.xu false, R.xp true, R.xp false]
  have hN : h ≤ 7 / 3 * N := by linarith [R.yu true, R.yu false, R.yp true, R.yp false]
  have f12 := abs_le.1 (R.F12 ρ π)
  have N0 : 0 < N := (R.xp true).trans_le (R.xu true)
  set m := max w h with hm
  have m1 : w ≤ m := le_max_left _ _
  have m2 : h ≤ m := le_max_right _ _
  have whm : w * h ≤ 7 / 3 * N * m := mul_le_mul wN m2 hp.le (by positivity)
  have whm' : w * h ≤ 7 / 3 * (N * m) := by linarith
  have mp : 0 < m := wp.trans_le m1
  have nm : 0 < N * m := mul_pos N0 mp
  have l : 32 * (N / 2 ^ 24) * m = 32 * (N * m) / 2 ^ 24 := by ring
  rw [l]
  have fin : (-(28 * (N * m) / 2 ^ 24 - 3 * (w * h) / 2 ^ 24) ≤ F1 ξ η w h ρ π ∨
      -(28 * (N * m) / 2 ^ 24 - 3 * (w * h) / 2 ^ 24) ≤ F2 ξ η w h ρ π) →
      -(32 * (N * m) / 2 ^ 24) ≤ F1 ξ η w h ρ π ∧ -(32 * (N * m) / 2 ^ 24) ≤ F2 ξ η w h ρ π := by
    have := mul_pos wp hp
    rintro (k | k) <;> constructor <;> linarith [f12.1, f12.2]
  apply fin
  rcases hor with hs | ⟨κ, hκ, rfl, rfl⟩
  · -- too small
    have hc : |c| ≤ (2 : ℝ) ^ (-22 : ℤ) := by
      by_contra hcc
      push Not at hcc
      have sc := c1.sgd hcc.le c3
      obtain ⟨k, hk⟩ : ∃ k, Sgd k (-22) 63 ((⟨X σ, Y τ⟩ - ⟨X !σ, Y !τ⟩ : V2 F32).cross (-⟨X !σ, Y !τ⟩)) := ⟨_, sc⟩
      have hb : 7 / 3 * (2 : ℝ) ^ (30 : ℤ) ≤ (2 : ℝ) ^ (32 : ℤ) := by norm_num
      have h30 := R.hN
      have aw : |sgn σ * w| = w := by rw [abs_mul, abs_sgn, one_mul, abs_of_pos wp]
      have ah : |sgn τ * h| = h := by rw [abs_mul, abs_sgn, one_mul, abs_of_pos hp]
      have one : (2 : ℝ) ^ (0 : ℤ) = 1 := by norm_num
      have bw : Bdd 32 (X σ - X !σ) := ⟨_, R.wx σ, by rw [aw]; linarith⟩
      have bh : Bdd 32 (Y τ - Y !τ) := ⟨_, R.hy τ, by rw [ah]; linarith⟩
      rcases hbig with g | g
      · have sw : Sgd (X σ - X !σ).bit 0 32 (X σ - X !σ) := (R.wx σ).sgd (by rw [aw, one]; exact g) (by rw [aw]; linarith)
        exact not_tooSmall_y' (bh.neg.mul hk.bdd (by norm_num) (by norm_num))
          (sw.mul hk (by norm_num) (by norm_num)) (by norm_num) hs
      · have sh : Sgd (Y τ - Y !τ).bit 0 32 (Y τ - Y !τ) := (R.hy τ).sgd (by rw [ah, one]; exact g) (by rw [ah]; linarith)
        exact not_tooSmall_x' (sh.neg.mul hk (by norm_num) (by norm_num))
          (bw.mul hk.bdd (by norm_num) (by norm_num)) (by norm_num) hs
    have hc' : |c| ≤ 4 / 2 ^ 24 := hc.trans (by norm_num)
    have hm1 : 1 ≤ m := by
      rcases hbig with g | g
      · exact g.trans m1
      · exact g.trans m2
    have hmN : m ≤ 7 / 3 * N := max_le wN hN
    have hnm : 3 / 7 ≤ N * m := by
      have : 3 / 7 * m ≤ N * m := mul_le_mul_of_nonneg_right (by linarith) mp.le
      linarith
    have hF : |F1 ξ η w h ρ π| ≤ 5 * (w * h / 2 ^ 24) + 4 / 2 ^ 24 ∨ |F2 ξ η w h ρ π| ≤ 5 * (w * h / 2 ^ 24) + 4 / 2 ^ 24 := by
      have k := abs_sub (c) (c - sgn σ * sgn τ * (w * η (!τ) - h * ξ (!σ)))
      rw [sub_sub_cancel, abs_mul, abs_mul, abs_sgn, abs_sgn, one_mul, one_mul] at k
      have k' : |w * η (!τ) - h * ξ (!σ)| ≤ 5 * (w * h / 2 ^ 24) + 4 / 2 ^ 24 := by linarith
      rw [abs_le] at k' ⊢
      rw [abs_le]
      unfold F1 F2
      rcases ho with ⟨rfl, rfl⟩ | ⟨rfl, rfl⟩
      · cases ρ <;> cases τ <;> simp at k' ⊢ <;> first
          | (left; constructor <;> linarith [k'.1, k'.2])
          | (right; constructor <;> linarith [k'.1, k'.2])
      · cases σ <;> cases π <;> simp at k' ⊢ <;> first
          | (left; constructor <;> linarith [k'.1, k'.2])
          | (right; constructor <;> linarith [k'.1, k'.2])
    have := mul_pos wp hp
    rcases hF with k | k
    · left; linarith [(abs_le.1 k).1]
    · right; linarith [(abs_le.1 k).1]
  · obtain ⟨mm, q1, q2, _⟩ := hκ
    have e := c1.unique q1
    have : 0 < mm := lt_of_lt_of_le (two_zpow_pos _) q2
    have c2 := abs_le.1 c2
    rw [e] at c2
    unfold F1 F2
    have := mul_pos wp hp
    revert c2
    cases σ <;> cases τ <;> cases κ <;> simp <;> intro c2 c2' <;> first | (left; linarith) | (right; linarith)

end RectVals

end

end Auburn
