import Verif.Ieee.RectGjk

/-!
# EPA on a rectangle in binary32 (library lemmas)
-/

set_option linter.unusedSectionVars false
set_option synthInstance.maxSize 1000

namespace Auburn

open F32 V2

/-- zero, or not tiny -/
def Zero126 (x : ℝ) : Prop := x = 0 ∨ (2 : ℝ) ^ (-126 : ℤ) ≤ x

/-- a sum of two products which are not negative: relative error `3u` -/
theorem dot_round {a b c d : F32} {x y p q : ℝ} (ha : F32.Is a x) (hb : F32.Is b y) (hc : F32.Is c p)
    (hd : F32.Is d q) (h1 : Zero126 (x * y)) (h2 : Zero126 (p * q))
    (h3 : x * y ≤ (2 : ℝ) ^ (100 : ℤ)) (h4 : p * q ≤ (2 : ℝ) ^ (100 : ℤ)) :
    ∃ s, F32.Is (a * b + c * d) s ∧ 0 ≤ s ∧ |s - (x * y + p * q)| ≤ 3 * ((x * y + p * q) / 2 ^ 24) := by
  have nn : ∀ {t : ℝ}, Zero126 t → 0 ≤ t := by
    rintro t (h | h)
    · exact h.ge
    · exact (two_zpow_pos _).le.trans h
  have big : (2 : ℝ) ^ (100 : ℤ) ≤ (2 : ℝ) ^ (126 : ℤ) := zpow_le_zpow (by norm_num)
  have aux : ∀ {a b : F32} {x y : ℝ}, F32.Is a x → F32.Is b y → Zero126 (x * y) →
      x * y ≤ (2 : ℝ) ^ (100 : ℤ) → ∃ w, F32.Is (a * b) w ∧ 0 ≤ w ∧ |w - x * y| ≤ x * y / 2 ^ 24 := by
    intro a b x y ha hb h hle
    rcases h with h | h
    · refine ⟨0, ?_, le_refl _, by rw [h]; simp⟩
      have := is_mul ha hb (by rw [h]; exact representable_zero)
      rwa [h] at this
    · have h0 : 0 < x * y := lt_of_lt_of_le (two_zpow_pos _) h
      obtain ⟨w, w1, _, w3, w4⟩ := round_mul ha hb (by rw [abs_of_pos h0]; linarith)
      rw [abs_of_pos h0] at w3
      exact ⟨w, w1, w4 h0.le, w3 h⟩
  obtain ⟨v, v1, v2, v3⟩ := aux ha hb h1 h3
  obtain ⟨w, w1, w2, w3⟩ := aux hc hd h2 h4
  have n1 := nn h1
  have n2 := nn h2
  rw [abs_le] at v3 w3
  obtain ⟨s, s1, s2⟩ := round_add v1 w1 (by
    rw [abs_of_nonneg (add_nonneg v2 w2)]; linarith)
  rw [abs_of_nonneg (add_nonneg v2 w2)] at s2
  rw [abs_le] at s2
  refine ⟨s, s1, by linarith, ?_⟩
  rw [abs_le]; constructor <;> linarith

theorem sq_le_of_close {x y px py P e : ℝ} (hx : |x - px| ≤ e) (hy : |y - py| ≤ e)
    (hP : 0 ≤ P) (he : 0 ≤ e) (h : px ^ 2 + py ^ 2 ≤ P ^ 2) : x ^ 2 + y ^ 2 ≤ (P + 3 / 2 * e) ^ 2 := by
  have h1 : |x| ≤ |px| + e := by
    have := abs_add_le (x - px) px
    rw [sub_add_cancel] at this; linarith
  have h2 : |y| ≤ |py| + e := by
    have := abs_add_le (y - py) py
    rw [sub_add_cancel] at this; linarith
  have h3 : |px| + |py| ≤ 3 / 2 * P := by
    refine abs_le_of_sq_le_sq' ?_ (by positivity) |>.2
    have := sq_nonneg (|px| - |py|)
    have e1 := sq_abs px
    have e2 := sq_abs py
    nlinarith
  have h4 : x ^ 2 ≤ (|px| + e) ^ 2 := by
    rw [← sq_abs x]; exact pow_le_pow_left₀ (abs_nonneg _) h1 2
  have h5 : y ^ 2 ≤ (|py| + e) ^ 2 := by
    rw [← sq_abs y]; exact pow_le_pow_left₀ (abs_nonneg _) h2 2
  have e1 := sq_abs px
  have e2 := sq_abs py
  have := mul_le_mul_of_nonneg_left h3 he
  nlinarith

/-- the quotient: absolute error `7u` for `0 ≤ n ≤ d` -/
theorem ratio_error {n d n' d' t : ℝ} (hn0 : 0 ≤ n) (hd0 : 0 < d) (hnd : n ≤ d)
    (hn : |n' - n| ≤ 3 * (n / 2 ^ 24)) (hd : |d' - d| ≤ 3 * (d / 2 ^ 24))
    (ht : |t - n' / d'| ≤ |n' / d'| / 2 ^ 24 + 1 / 2 ^ 150) :
    |t - n / d| ≤ 8 / 2 ^ 24 ∧ 0 < d' ∧ |n' / d'| ≤ 2 := by
  rw [abs_le] at hn hd
  have hd' : 0 < d' := by linarith
  have hn' : 0 ≤ n' := by linarith
  have r0 : n / d ≤ 1 := (div_le_one hd0).2 hnd
  have r1 : n' / d' ≤ n / d + 13 / 2 / 2 ^ 24 := by
    rw [div_add' _ _ _ hd0.ne', div_le_div_iff₀ hd' hd0]
    have k1 := mul_le_mul_of_nonneg_left hd.1 hn0
    have k2 := mul_le_mul_of_nonneg_left hd.1 hd0.le
    have k3 := mul_le_mul_of_nonneg_right hn.2 hd0.le
    have k4 := mul_le_mul_of_nonneg_right hnd hd0.le
    have k5 := mul_nonneg hd0.le hd0.le
    linarith
  have r2 : n / d - 13 / 2 / 2 ^ 24 ≤ n' / d' := by
    rw [div_sub' hd0.ne', div_le_div_iff₀ hd0 hd']
    have k1 := mul_le_mul_of_nonneg_left hd.2 hn0
    have k2 := mul_le_mul_of_nonneg_left hd.1 hd0.le
    have k3 := mul_le_mul_of_nonneg_right hn.1 hd0.le
    have k4 := mul_le_mul_of_nonneg_right hnd hd0.le
    have k5 := mul_nonneg hd0.le hd0.le
    linarith
  have r3 : |n' / d'| ≤ 2 := by
    rw [abs_of_nonneg (div_nonneg hn' hd'.le)]
    have : (13 : ℝ) / 2 / 2 ^ 24 ≤ 1 := by norm_num
    linarith
  refine ⟨?_, hd', r3⟩
  rw [abs_of_nonneg (div_nonneg hn' hd'.le), abs_le] at ht
  have : (1 : ℝ) / 2 ^ 150 ≤ 1 / 4 / 2 ^ 24 := by norm_num
  rw [abs_le]
  constructor <;> linarith [ht.1, ht.2]

section
variable [env : F32Env]

/-- lerp of one coordinate: `a + t * w` with an approximate `t` -/
theorem lerp_round {a t w : F32} {ax tv wv t0 N : ℝ} (ha : F32.Is a ax) (ht : F32.Is t tv)
    (hw : F32.Is w wv) (hN : 0 < N) (hN1 : N ≤ (2 : ℝ) ^ (30 : ℤ)) (hN2 : (2 : ℝ) ^ (-23 : ℤ) ≤ N) (hwv : |wv| ≤ 2 * N * (1 + 1 / 2 ^ 24))
    (hmid : |ax + t0 * wv| ≤ N * (1 + 1 / 2 ^ 20)) (h0 : 0 ≤ t0) (h1 : t0 ≤ 1)
    (htt : |tv - t0| ≤ 8 / 2 ^ 24) :
    ∃ p, F32.Is (a + t * w) p ∧ |p - (ax + t0 * wv)| ≤ 21 * (N / 2 ^ 24) ∧ (wv = 0 → p = ax) := by
  have ht2 : |tv| ≤ 2 := by
    rw [abs_le] at htt ⊢
    constructor <;> linarith
  have hpw : |tv * wv| ≤ 5 * N := by
    rw [abs_mul]
    have := mul_le_mul ht2 hwv (abs_nonneg _) (by norm_num)
    linarith
  have hb : (2 : ℝ) ^ (30 : ℤ) ≤ (2 : ℝ) ^ (126 : ℤ) / 100 := by norm_num
  have hs : (1 : ℝ) / 2 ^ 150 ≤ N / 2 ^ 50 := by
    refine le_trans ?_ (div_le_div_of_nonneg_right hN2 (by norm_num))
    norm_num
  obtain ⟨m, m1, m2, -, -⟩ := round_mul ht hw (hpw.trans (by linarith))
  have e1 : |tv * wv - t0 * wv| ≤ 17 * (N / 2 ^ 24) := by
    rw [← sub_mul, abs_mul]
    have := mul_le_mul htt hwv (abs_nonneg _) (by norm_num)
    linarith
  have e2 : |m - t0 * wv| ≤ 39 / 2 * (N / 2 ^ 24) := by
    have hpw' : |tv * wv| ≤ 9 / 4 * N := by
      have k : |t0 * wv| ≤ 2 * N * (1 + 1 / 2 ^ 24) := by
        rw [abs_mul, abs_of_nonneg h0]
        exact (mul_le_of_le_one_left (abs_nonneg _) h1).trans hwv
      have := abs_add_le (tv * wv - t0 * wv) (t0 * wv)
      rw [sub_add_cancel] at this
      linarith
    have := abs_add_le (m - tv * wv) (tv * wv - t0 * wv)
    rw [sub_add_sub_cancel] at this
    linarith
  have e3 : |ax + m| ≤ N * (1 + 1 / 2 ^ 18) := by
    have := abs_add_le (ax + t0 * wv) (m - t0 * wv)
    rw [show ax + t0 * wv + (m - t0 * wv) = ax + m by ring] at this
    linarith
  obtain ⟨p, p1, p2⟩ := round_add ha m1 (by linarith)
  refine ⟨p, p1, ?_, ?_⟩
  · have k1 : |ax + m| / 2 ^ 24 ≤ N * (1 + 1 / 2 ^ 18) / 2 ^ 24 := div_le_div_of_nonneg_right e3 (by norm_num)
    have := abs_add_le (p - (ax + m)) (m - t0 * wv)
    rw [show p - (ax + m) + (m - t0 * wv) = p - (ax + t0 * wv) by ring] at this
    linarith
  · intro hz
    subst hz
    have hm : m = 0 := m1.unique (mul_zero' ht hw)
    subst hm
    refine p1.unique ?_
    have := is_add ha m1 (by rw [add_zero]; exact ha.representable)
    rwa [add_zero] at this

/-- one coordinate of an edge: parallel to the axis, or the origin lies between the end points -/
structure EdgeC (N ax w : ℝ) : Prop where
  le : |ax| ≤ N
  wle : |w| ≤ 2 * N * (1 + 1 / 2 ^ 24)
  ble : |ax + w| ≤ N * (1 + 1 / 2 ^ 20)
  lo : (2 : ℝ) ^ (-23 : ℤ) ≤ |ax|
  sgn : w = 0 ∨ (ax * w < 0 ∧ |ax| ≤ |w|)

theorem EdgeC.prod {N ax w : ℝ} (h : EdgeC N ax w) (hN : N ≤ (2 : ℝ) ^ (30 : ℤ)) :
    Zero126 (-ax * w) ∧ -ax * w ≤ (2 : ℝ) ^ (100 : ℤ) ∧ Zero126 (w * w) ∧ w * w ≤ (2 : ℝ) ^ (100 : ℤ) ∧
      -ax * w ≤ w * w := by
  have hb : (2 : ℝ) ^ (31 : ℤ) * (2 : ℝ) ^ (32 : ℤ) ≤ (2 : ℝ) ^ (100 : ℤ) := by norm_num
  have b1 : |ax| ≤ (2 : ℝ) ^ (31 : ℤ) := h.le.trans (hN.trans (zpow_le_zpow (by norm_num)))
  have b2 : |w| ≤ (2 : ℝ) ^ (32 : ℤ) := by
    have e : (2 : ℝ) ^ (32 : ℤ) = 4 * (2 : ℝ) ^ (30 : ℤ) := by norm_num
    have h0 := abs_nonneg ax
    have := h.wle
    have := h.le
    rw [e]; linarith
  have hb' : (2 : ℝ) ^ (32 : ℤ) * (2 : ℝ) ^ (32 : ℤ) ≤ (2 : ℝ) ^ (100 : ℤ) := by norm_num
  have c1 : -ax * w ≤ (2 : ℝ) ^ (100 : ℤ) := by
    refine (le_abs_self _).trans ?_
    rw [abs_mul, abs_neg]
    exact (mul_le_mul b1 b2 (abs_nonneg _) (two_zpow_pos _).le).trans hb
  have c2 : w * w ≤ (2 : ℝ) ^ (100 : ℤ) := by
    refine (le_abs_self _).trans ?_
    rw [abs_mul]
    exact (mul_le_mul b2 b2 (abs_nonneg _) (two_zpow_pos _).le).trans hb'
  have h2 := h.lo
  rcases h.sgn with h0 | ⟨h1, h3⟩
  · subst h0
    refine ⟨Or.inl (by ring), c1, Or.inl (by ring), c2, by linarith⟩
  · have e1 : -ax * w = |ax| * |w| := by
      rw [← abs_mul, abs_of_neg h1]; ring
    have e2 : w * w = |w| * |w| := by rw [abs_mul_abs_self]
    have hs : (2 : ℝ) ^ (-126 : ℤ) ≤ (2 : ℝ) ^ (-23 : ℤ) * (2 : ℝ) ^ (-23 : ℤ) := by
      rw [← zpow_add₀ (by norm_num)]; exact zpow_le_zpow (by norm_num)
    have h4 := h2.trans h3
    have z := (two_zpow_pos (-23)).le
    refine ⟨Or.inr ?_, c1, Or.inr ?_, c2, ?_⟩
    · rw [e1]; exact hs.trans (mul_le_mul h2 h4 z (abs_nonneg _))
    · rw [e2]; exact hs.trans (mul_le_mul h4 h4 z (abs_nonneg _))
    · rw [e1, e2]; exact mul_le_mul_of_nonneg_right h3 (abs_nonneg _)

theorem EdgeC.mid {N ax w t : ℝ} (h : EdgeC N ax w) (h0 : 0 ≤ t) (h1 : t ≤ 1) :
    |ax + t * w| ≤ N * (1 + 1 / 2 ^ 20) := by
  have a := h.le
  have b := h.ble
  have n := (abs_nonneg ax).trans a
  rw [abs_le] at a b
  have e : ax + t * w = (1 - t) * ax + t * (ax + w) := by ring
  have p1 := mul_le_mul_of_nonneg_left b.1 h0
  have p2 := mul_le_mul_of_nonneg_left b.2 h0
  have p3 := mul_le_mul_of_nonneg_left a.1 (sub_nonneg.2 h1)
  have p4 := mul_le_mul_of_nonneg_left a.2 (sub_nonneg.2 h1)
  have p5 := mul_nonneg (sub_nonneg.2 h1) n
  rw [e, abs_le]
  constructor <;> linarith

/-- parameter of the point of the edge closest to the origin -/
noncomputable def edgeT (ax ay w h : ℝ) : ℝ := (-ax * w + -ay * h) / (w * w + h * h)

/-- the computed squared distance of an edge -/
theorem edge_round {a b : V2 F32} {ax ay w h N : ℝ} (ha : F32.Is a.x ax) (ha' : F32.Is a.y ay)
    (hw : F32.Is (b.x - a.x) w) (hh : F32.Is (b.y - a.y) h) (hN1 : N ≤ (2 : ℝ) ^ (30 : ℤ))
    (hN2 : (2 : ℝ) ^ (-23 : ℤ) ≤ N) (cx : EdgeC N ax w) (cy : EdgeC N ay h) (hne : w ≠ 0 ∨ h ≠ 0) :
    ∃ d, F32.Is (edgeDistSq a b) d ∧ 0 ≤ d ∧ d ≤ (2 : ℝ) ^ (80 : ℤ) ∧
      (∀ P, 0 ≤ P → P ≤ 2 * N → (ax + edgeT ax ay w h * w) ^ 2 + (ay + edgeT ax ay w h * h) ^ 2 ≤ P ^ 2 →
        d ≤ (P + 64 * (N / 2 ^ 24)) ^ 2) ∧
      (w = 0 → ax ^ 2 * (1 - 2 / 2 ^ 24) ≤ d) ∧ (h = 0 → ay ^ 2 * (1 - 2 / 2 ^ 24) ≤ d) := by
  obtain ⟨x1, x2, x3, x4, x5⟩ := cx.prod hN1
  obtain ⟨y1, y2, y3, y4, y5⟩ := cy.prod hN1
  have hN : 0 < N := lt_of_lt_of_le (two_zpow_pos _) hN2
  obtain ⟨n', n1, n2, n3⟩ := dot_round (is_neg ha) hw (is_neg ha') hh x1 y1 x2 y2
  obtain ⟨d', d1, d2, d3⟩ := dot_round hw hw hh hh x3 y3 x4 y4
  have nn : ∀ {t : ℝ}, Zero126 t → 0 ≤ t := by
    rintro t (h | h)
    · exact h.ge
    · exact (two_zpow_pos _).le.trans h
  have hn0 := add_nonneg (nn x1) (nn y1)
  have hd0 : 0 < w * w + h * h := by
    rcases hne with h0 | h0
    · have := mul_self_pos.2 h0; have := mul_self_nonneg h; linarith
    · have := mul_self_pos.2 h0; have := mul_self_nonneg w; linarith
  have hnd := add_le_add x5 y5
  have hd' : 0 < d' := by rw [abs_le] at d3; linarith
  have hr : |n' / d'| ≤ 3 * (2 : ℝ) ^ (126 : ℤ) := by
    rw [abs_of_nonneg (div_nonneg n2 hd'.le), div_le_iff₀ hd']
    rw [abs_le] at d3 n3
    have k : (2 : ℝ) ≤ 3 * (2 : ℝ) ^ (126 : ℤ) := by norm_num
    have := mul_le_mul_of_nonneg_right k hd'.le
    linarith
  obtain ⟨t, t1, t2⟩ := round_div n1 d1 hd'.ne' hr
  obtain ⟨t3, -, -⟩ := ratio_error hn0 hd0 hnd n3 d3 t2
  have t0a : 0 ≤ edgeT ax ay w h := div_nonneg hn0 hd0.le
  have t0b : edgeT ax ay w h ≤ 1 := (div_le_one hd0).2 hnd
  change |t - edgeT ax ay w h| ≤ _ at t3
  generalize edgeT ax ay w h = t0 at *
  -- the clamp
  obtain ⟨tc, c1, c2⟩ : ∃ tc, F32.Is
      (let t := V2.dot (-a) (b - a) / V2.dot (b - a) (b - a)
       let t := if t < 0 then 0 else t
       if t > 1 then 1 else t : F32) tc ∧ |tc - t0| ≤ 8 / 2 ^ 24 := by
    have t1 : F32.Is (V2.dot (-a) (b - a) / V2.dot (b - a) (b - a)) t := t1
    rw [abs_le] at t3
    show ∃ tc, F32.Is (if (if V2.dot (-a) (b - a) / V2.dot (b - a) (b - a) < 0 then (0 : F32) else
      V2.dot (-a) (b - a) / V2.dot (b - a) (b - a)) > 1 then (1 : F32) else
      (if V2.dot (-a) (b - a) / V2.dot (b - a) (b - a) < 0 then (0 : F32) else
      V2.dot (-a) (b - a) / V2.dot (b - a) (b - a))) tc ∧ _
    by_cases k1 : V2.dot (-a) (b - a) / V2.dot (b - a) (b - a) < 0
    · rw [if_pos k1, if_neg (by show ¬ (1 : F32) < 0; rw [lt_iff is_one is_zero]; norm_num)]
      rw [lt_iff t1 is_zero] at k1
      exact ⟨0, is_zero, by rw [abs_le]; constructor <;> linarith⟩
    · rw [if_neg k1]
      by_cases k2 : V2.dot (-a) (b - a) / V2.dot (b - a) (b - a) > 1
      · rw [if_pos k2]
        rw [gt_iff_lt, lt_iff is_one t1] at k2
        exact ⟨1, is_one, by rw [abs_le]; constructor <;> linarith⟩
      · rw [if_neg k2]
        exact ⟨t, t1, abs_le.2 t3⟩
  obtain ⟨p, p1, p2, p3⟩ := lerp_round ha c1 hw hN hN1 hN2 cx.wle (cx.mid t0a t0b) t0a t0b c2
  obtain ⟨q, q1, q2, q3⟩ := lerp_round ha' c1 hh hN hN1 hN2 cy.wle (cy.mid t0a t0b) t0a t0b c2
  have m1 := cx.mid t0a t0b
  have m2 := cy.mid t0a t0b
  have hs : (1 : ℝ) / 2 ^ 150 ≤ (N / 2 ^ 24) ^ 2 / 2 ^ 20 := by
    have k : (2 : ℝ) ^ (-23 : ℤ) / 2 ^ 24 ≤ N / 2 ^ 24 := div_le_div_of_nonneg_right hN2 (by norm_num)
    have k2 := pow_le_pow_left₀ (by positivity) k 2
    refine le_trans ?_ (div_le_div_of_nonneg_right k2 (by norm_num))
    norm_num
  have hNN : N * N ≤ (2 : ℝ) ^ (60 : ℤ) := by
    refine (mul_le_mul hN1 hN1 hN.le (two_zpow_pos _).le).trans (le_of_eq ?_)
    rw [← zpow_add₀ (by norm_num)]; norm_num
  have b : ∀ {p m : ℝ}, |p - m| ≤ 21 * (N / 2 ^ 24) → |m| ≤ N * (1 + 1 / 2 ^ 20) → p * p ≤ 2 * (N * N) := by
    intro p m h1 h2
    have h3 : |p| ≤ N * (1 + 1 / 2 ^ 18) := by
      have := abs_add_le (p - m) m
      rw [sub_add_cancel] at this; linarith
    have h4 := mul_le_mul h3 h3 (abs_nonneg _) (by positivity)
    rw [abs_mul_abs_self] at h4
    have := mul_pos hN hN
    linarith
  have bp := b p2 m1
  have bq := b q2 m2
  have hbig : 4 * (2 : ℝ) ^ (60 : ℤ) ≤ (2 : ℝ) ^ (126 : ℤ) := by norm_num
  have np := mul_self_nonneg p
  have nq := mul_self_nonneg q
  obtain ⟨v, v1, v2, v3, v4⟩ := round_mul p1 p1 (by rw [abs_of_nonneg np]; linarith)
  obtain ⟨z, z1, z2, z3, z4⟩ := round_mul q1 q1 (by rw [abs_of_nonneg nq]; linarith)
  rw [abs_of_nonneg np] at v2
  rw [abs_of_nonneg nq] at z2
  have v2 := abs_le.1 v2
  have z2 := abs_le.1 z2
  have v4 := v4 np
  have z4 := z4 nq
  have h150 : (1 : ℝ) / 2 ^ 150 ≤ 1 := by norm_num
  have hone : (1 : ℝ) ≤ (2 : ℝ) ^ (60 : ℤ) := by norm_num
  obtain ⟨d, e1, e2⟩ := round_add v1 z1 (by
    rw [abs_of_nonneg (add_nonneg v4 z4)]; linarith [v2.2, z2.2])
  rw [abs_of_nonneg (add_nonneg v4 z4)] at e2
  have e2 := abs_le.1 e2
  refine ⟨d, e1, by linarith [e2.1], ?_, ?_, ?_, ?_⟩
  · have : 10 * (2 : ℝ) ^ (60 : ℤ) ≤ (2 : ℝ) ^ (80 : ℤ) := by norm_num
    linarith [e2.2, v2.2, z2.2]
  · intro P hP hP2 hPP
    have k1 := sq_le_of_close p2 q2 hP (by positivity) hPP
    have k2 : d ≤ (p * p + q * q) * (1 + 4 / 2 ^ 24) + 4 * (1 / 2 ^ 150) := by linarith [e2.2, v2.2, z2.2]
    have k3 : p * p + q * q ≤ (P + 3 / 2 * (21 * (N / 2 ^ 24))) ^ 2 := by linarith
    have k4 : P + 3 / 2 * (21 * (N / 2 ^ 24)) ≤ 21 / 10 * N := by linarith
    have k5 : 0 ≤ P + 3 / 2 * (21 * (N / 2 ^ 24)) := by positivity
    have k6 := mul_le_mul_of_nonneg_left k4 k5
    have k7 : P + 64 * (N / 2 ^ 24) = (P + 3 / 2 * (21 * (N / 2 ^ 24))) + 65 / 2 * (N / 2 ^ 24) := by ring
    have k8 : 0 ≤ (P + 3 / 2 * (21 * (N / 2 ^ 24))) * N := by positivity
    rw [k7]
    generalize P + 3 / 2 * (21 * (N / 2 ^ 24)) = Q at *
    have k9 : (Q + 65 / 2 * (N / 2 ^ 24)) ^ 2 = Q ^ 2 + 65 * (Q * N) / 2 ^ 24 + (65 / 2) ^ 2 * (N / 2 ^ 24) ^ 2 := by ring
    rw [k9]
    generalize (N / 2 ^ 24) ^ 2 = R at *
    have k10 : 0 ≤ R := by linarith
    generalize (1 : ℝ) / 2 ^ 150 = ε at *
    have k11 : Q * (21 / 10 * N) = 21 / 10 * (Q * N) := by ring
    rw [k11] at k6
    have k12 : Q * Q = Q ^ 2 := by ring
    linarith
  · intro h0
    have := p3 h0
    subst this
    have l1 := cx.lo
    have l2 := mul_le_mul l1 l1 (two_zpow_pos _).le (abs_nonneg _)
    rw [abs_mul_abs_self] at l2
    have l3 : (1 : ℝ) / 2 ^ 150 ≤ ((2 : ℝ) ^ (-23 : ℤ) * (2 : ℝ) ^ (-23 : ℤ)) / 2 ^ 60 := by norm_num
    have l4 : (1 : ℝ) / 2 ^ 150 ≤ p * p / 2 ^ 60 := l3.trans (div_le_div_of_nonneg_right l2 (by norm_num))
    have l5 : p ^ 2 = p * p := by ring
    rw [l5]
    linarith [e2.1, v2.1]
  · intro h0
    have := q3 h0
    subst this
    have l1 := cy.lo
    have l2 := mul_le_mul l1 l1 (two_zpow_pos _).le (abs_nonneg _)
    rw [abs_mul_abs_self] at l2
    have l3 : (1 : ℝ) / 2 ^ 150 ≤ ((2 : ℝ) ^ (-23 : ℤ) * (2 : ℝ) ^ (-23 : ℤ)) / 2 ^ 60 := by norm_num
    have l4 : (1 : ℝ) / 2 ^ 150 ≤ q * q / 2 ^ 60 := l3.trans (div_le_div_of_nonneg_right l2 (by norm_num))
    have l5 : q ^ 2 = q * q := by ring
    rw [l5]
    linarith [e2.1, z2.1]

/-! ## the closest edge -/

theorem ltInf_of_is {a : F32} {x : ℝ} (h : F32.Is a x) : FloatExtra.ltInf a = true := by
  obtain ⟨s, m, hm, rfl, rfl⟩ := h
  exact decide_eq_true rfl

theorem closestLoop_f32 (es : List (V2 F32 × V2 F32)) (i : Nat) (s : ClosestEdge F32) {c : F32} {x : ℝ}
    (hs : s.dist = some c) (hc : F32.Is c x) (hes : ∀ e ∈ es, ∃ d, F32.Is (edgeDistSq e.1 e.2) d) :
    ∃ r c' y, closestLoop es i s = r ∧ r.dist = some c' ∧ F32.Is c' y ∧ y ≤ x ∧
      (∀ e ∈ es, ∀ d, F32.Is (edgeDistSq e.1 e.2) d → y ≤ d) ∧
      ((r = s) ∨ ∃ j, ∃ hj : j < es.length, r.index = i + j ∧ r.a = es[j].1 ∧ r.b = es[j].2 ∧
        c' = edgeDistSq es[j].1 es[j].2) := by
  induction es generalizing i s c x with
  | nil => exact ⟨s, c, x, rfl, hs, hc, le_refl _, by simp, Or.inl rfl⟩
  | cons e es ih =>
    obtain ⟨d, hd⟩ := hes e (by simp)
    by_cases hlt : edgeDistSq e.1 e.2 < c
    · have hstep : closestStep s i e = ⟨i, e.1, e.2, some (edgeDistSq e.1 e.2)⟩ := by
        unfold closestStep
        simp only [hs, decide_eq_true hlt, if_true]
      rw [lt_iff hd hc] at hlt
      obtain ⟨r, c', y, r1, r2, r3, r4, r5, r6⟩ := ih (i + 1) ⟨i, e.1, e.2, some (edgeDistSq e.1 e.2)⟩ rfl hd
        (fun e' h => hes e' (List.mem_cons_of_mem _ h))
      refine ⟨r, c', y, by rw [closestLoop, hstep]; exact r1, r2, r3, by linarith, ?_, ?_⟩
      · intro e' he' d' hd'
        rcases List.mem_cons.1 he' with rfl | h
        · rwa [hd'.unique hd]
        · exact r5 e' h d' hd'
      · right
        rcases r6 with rfl | ⟨j, hj, r6, r7, r8, r9⟩
        · refine ⟨0, by simp, rfl, rfl, rfl, ?_⟩
          simpa using r2.symm
        · exact ⟨j + 1, by simpa using hj, by rw [r6]; omega, r7, r8, r9⟩
    · have hstep : closestStep s i e = s := by
        unfold closestStep
        simp only [hs, decide_eq_false hlt, Bool.false_eq_true, if_false]
      rw [lt_iff hd hc, not_lt] at hlt
      obtain ⟨r, c', y, r1, r2, r3, r4, r5, r6⟩ := ih (i + 1) s hs hc
        (fun e' h => hes e' (List.mem_cons_of_mem _ h))
      refine ⟨r, c', y, by rw [closestLoop, hstep]; exact r1, r2, r3, r4, ?_, ?_⟩
      · intro e' he' d' hd'
        rcases List.mem_cons.1 he' with rfl | h
        · rw [hd'.unique hd]; linarith
        · exact r5 e' h d' hd'
      · rcases r6 with rfl | ⟨j, hj, r6, r7, r8, r9⟩
        · exact Or.inl rfl
        · exact Or.inr ⟨j + 1, by simpa using hj, by rw [r6]; omega, r7, r8, r9⟩

/-- `find_closest_edge` returns an edge of least computed distance -/
theorem findClosest_f32 (pts : List (V2 F32)) (e0 : V2 F32 × V2 F32) (es : List (V2 F32 × V2 F32))
    (hp : closedEdges pts = e0 :: es) (hes : ∀ e ∈ e0 :: es, ∃ d, F32.Is (edgeDistSq e.1 e.2) d) :
    ∃ j, ∃ hj : j < (e0 :: es).length, (findClosestEdge pts).index = j ∧
      (findClosestEdge pts).a = (e0 :: es)[j].1 ∧ (findClosestEdge pts).b = (e0 :: es)[j].2 ∧
      ∀ e ∈ e0 :: es, ∀ d d', F32.Is (edgeDistSq (e0 :: es)[j].1 (e0 :: es)[j].2) d →
        F32.Is (edgeDistSq e.1 e.2) d' → d ≤ d' := by
  obtain ⟨d, hd⟩ := hes e0 (by simp)
  have hstep : closestStep (⟨0, V2.nan, V2.nan, none⟩ : ClosestEdge F32) 0 e0 =
      ⟨0, e0.1, e0.2, some (edgeDistSq e0.1 e0.2)⟩ := by
    unfold closestStep
    simp only [ltInf_of_is hd, if_true]
  obtain ⟨r, c', y, r1, r2, r3, r4, r5, r6⟩ := closestLoop_f32 es 1 ⟨0, e0.1, e0.2, some (edgeDistSq e0.1 e0.2)⟩ rfl hd
    (fun e' h => hes e' (List.mem_cons_of_mem _ h))
  have hr : findClosestEdge pts = r := by
    unfold findClosestEdge
    rw [hp, closestLoop, hstep, r1]
  rw [hr]
  rcases r6 with rfl | ⟨j, hj, r6, r7, r8, r9⟩
  · refine ⟨0, by simp, rfl, rfl, rfl, ?_⟩
    have hc : edgeDistSq e0.1 e0.2 = c' := by simpa using r2
    intro e he d1 d2 h1 h2
    rcases List.mem_cons.1 he with rfl | he
    · exact (h1.unique h2).le
    · have : d1 = y := h1.unique (by show F32.Is (edgeDistSq e0.1 e0.2) y; rw [hc]; exact r3)
      rw [this]; exact r5 e he d2 h2
  · refine ⟨j + 1, by simpa using hj, by rw [r6]; omega, r7, r8, ?_⟩
    intro e he d1 d2 h1 h2
    have : d1 = y := h1.unique (by
      show F32.Is (edgeDistSq es[j].1 es[j].2) y
      rw [← r9]; exact r3)
    rw [this]
    rcases List.mem_cons.1 he with rfl | he
    · rw [h2.unique hd]; exact r4
    · exact r5 e he d2 h2

end

end Auburn
