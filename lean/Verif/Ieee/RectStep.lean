import Verif.Ieee.RectPush

/-!
# EPA on a rectangle that contains the origin, in binary32: the iterations (library lemmas)
-/

set_option linter.unusedSectionVars false
set_option synthInstance.maxSize 1000

namespace Auburn

open F32 V2

section
variable [env : F32Env]

theorem is_factor_up : ∃ κ : ℝ, F32.Is (1 + FloatExtra.tol : F32) κ ∧ 1 ≤ κ ∧ κ ≤ 102 / 100 := by
  obtain ⟨t, ht, h1⟩ := ofReal_near (z := false) (x := (1 / 100 : ℝ)) (m := 0) (by norm_num)
    (by norm_num) (by rw [abs_of_pos (by norm_num)]; norm_num)
  have h1 := abs_le.1 h1
  norm_num at h1
  have ht' : F32.Is (FloatExtra.tol : F32) t := ht
  obtain ⟨κ, hκ, h2⟩ := round_add is_one ht' (by
    have : (1 : ℝ) ≤ (2 : ℝ) ^ (126 : ℤ) := by norm_num
    rw [abs_le]; constructor <;> linarith)
  have h3 : |1 + t| ≤ 2 := by rw [abs_le]; constructor <;> linarith
  have h2 := abs_le.1 h2
  refine ⟨κ, hκ, ?_, ?_⟩ <;> linarith

theorem is_factor_down : ∃ κ : ℝ, F32.Is (1 - FloatExtra.tol : F32) κ ∧ 989 / 1000 ≤ κ ∧ κ ≤ 1 := by
  obtain ⟨t, ht, h1⟩ := ofReal_near (z := false) (x := (1 / 100 : ℝ)) (m := 0) (by norm_num)
    (by norm_num) (by rw [abs_of_pos (by norm_num)]; norm_num)
  have h1 := abs_le.1 h1
  norm_num at h1
  have ht' : F32.Is (FloatExtra.tol : F32) t := ht
  obtain ⟨κ, hκ, h2⟩ := round_sub is_one ht' (by
    have : (1 : ℝ) ≤ (2 : ℝ) ^ (126 : ℤ) := by norm_num
    rw [abs_le]; constructor <;> linarith)
  have h3 : |1 - t| ≤ 995 / 1000 := by rw [abs_le]; constructor <;> linarith
  have h2 := abs_le.1 h2
  refine ⟨κ, hκ, ?_, ?_⟩ <;> linarith

/-- a number is not sufficiently better than itself -/
theorem not_better_self {f g : F32} {r : ℝ} (hf : F32.Is f r) (hg : F32.Is g r) (h0 : 0 < r) : ¬ sufficientlyBetter f g FloatExtra.tol := by
  obtain ⟨κ, hκ, k1, k2⟩ := is_factor_up
  unfold sufficientlyBetter
  rw [if_pos (by show (0 : F32) < g; rw [lt_iff is_zero hg]; exact h0)]
  intro h
  have h : g * (1 + FloatExtra.tol) < f := h
  obtain ⟨z, e⟩ := mul_eq hg hκ
  have hle : r ≤ r * κ := le_mul_of_one_le_right h0.le k1
  have hp : 0 < r * κ := lt_of_lt_of_le h0 hle
  have hm := rnd_mono h0.le hle
  rw [rnd_of_representable h0.le hf.representable] at hm
  rw [e] at h
  rcases ofReal_cases z (r * κ) with ⟨_, s, k, q, hs, _⟩ | ⟨_, _, q⟩
  · rw [q, lt_iff ⟨_, _, _, rfl, rfl⟩ hf, hs hp.ne', decide_eq_false (not_lt.2 hp.le), sval_false,
      abs_of_pos hp] at h
    linarith
  · rw [q, decide_eq_false (not_lt.2 hp.le)] at h
    obtain ⟨_, _, _, rfl, _⟩ := hf
    cases h

/-- half as much again is sufficiently better -/
theorem better_half {f g : F32} {r q : ℝ} (hf : F32.Is f r) (hg : F32.Is g q)
    (h0 : (2 : ℝ) ^ (-46 : ℤ) ≤ r) (h1 : |q| ≤ (2 : ℝ) ^ (100 : ℤ)) (hq : 3 / 2 * q ≤ r) :
    sufficientlyBetter f g FloatExtra.tol := by
  have hr : 0 < r := lt_of_lt_of_le (two_zpow_pos _) h0
  have hb : (2 : ℝ) ^ (100 : ℤ) * 2 ≤ (2 : ℝ) ^ (126 : ℤ) := by norm_num
  have hs : (1 : ℝ) / 2 ^ 150 ≤ r / 2 ^ 50 := by
    refine le_trans ?_ (div_le_div_of_nonneg_right h0 (by norm_num))
    norm_num
  unfold sufficientlyBetter
  by_cases hq0 : 0 < q
  · rw [if_pos (by show (0 : F32) < g; rw [lt_iff is_zero hg]; exact hq0)]
    obtain ⟨κ, hκ, k1, k2⟩ := is_factor_up
    rw [abs_of_pos hq0] at h1
    have p1 := mul_le_mul_of_nonneg_left k2 hq0.le
    have p0 : 0 < q * κ := mul_pos hq0 (by linarith)
    obtain ⟨m, m1, m2, _⟩ := round_mul hg hκ (by rw [abs_of_pos p0]; linarith)
    rw [abs_of_pos p0] at m2
    have m2 := abs_le.1 m2
    show g * (1 + FloatExtra.tol) < f
    rw [lt_iff m1 hf]
    linarith [m2.2]
  · rw [if_neg (by show ¬ (0 : F32) < g; rw [lt_iff is_zero hg]; exact hq0)]
    push Not at hq0
    obtain ⟨κ, hκ, k1, k2⟩ := is_factor_down
    obtain ⟨m, m1, _, _, m4⟩ := mul_bdd (u := 100) (u' := 0) hg hκ h1 (by
      rw [abs_le]; constructor <;> norm_num <;> linarith) (by norm_num) (by norm_num)
    have m5 := m4 (by
      have := mul_nonneg (neg_nonneg.2 hq0) (by linarith : (0 : ℝ) ≤ κ)
      linarith)
    show g * (1 - FloatExtra.tol) < f
    rw [lt_iff m1 hf]
    linarith

/-- the returned coordinate -/
theorem push_coord {f q n : F32} {r Q h ξ : ℝ} {t : Bool} (hf : F32.Is f r) (hq : F32.Is q Q)
    (hn : F32.Is n (sgn t * h)) (hr : |r - ξ * h| ≤ ξ * h / 2 ^ 24) (hQ : |Q - h * h| ≤ h * h / 2 ^ 24)
    (x1 : (2 : ℝ) ^ (-23 : ℤ) ≤ ξ) (x2 : ξ ≤ (2 : ℝ) ^ (30 : ℤ)) (h1 : (2 : ℝ) ^ (-23 : ℤ) ≤ h)
    (h2 : h ≤ (2 : ℝ) ^ (32 : ℤ)) :
    (∃ c, F32.Is (-f / q) c) ∧ ∃ x, F32.Is (-f / q * n) x ∧ |x + sgn t * ξ| ≤ 8 * (ξ / 2 ^ 24) := by
  have xp : 0 < ξ := lt_of_lt_of_le (two_zpow_pos _) x1
  have hp : 0 < h := lt_of_lt_of_le (two_zpow_pos _) h1
  have p1 := mul_pos xp hp
  have p2 := mul_pos hp hp
  have hr := abs_le.1 hr
  have hQ := abs_le.1 hQ
  have Qp : 0 < Q := by linarith
  have rp : 0 < r := by linarith
  -- the exact quotient
  have e0 : ξ / h * (h * h) = ξ * h := by field_simp
  have g0 : 0 < ξ / h := div_pos xp hp
  have d1 : r / Q ≤ ξ / h * (1 + 9 / 4 / 2 ^ 24) := by
    rw [div_le_iff₀ Qp]
    have k := mul_le_mul_of_nonneg_left hQ.1 g0.le
    have e : ξ / h * (1 + 9 / 4 / 2 ^ 24) * Q = ξ / h * Q + 9 / 4 / 2 ^ 24 * (ξ / h * Q) := by ring
    have k2 : ξ * h * (1 - 1 / 2 ^ 24) ≤ ξ / h * Q := by
      have : ξ / h * (Q - h * h) = ξ / h * Q - ξ * h := by rw [mul_sub, e0]
      rw [this] at k
      have : ξ / h * -(h * h / 2 ^ 24) = -(ξ * h / 2 ^ 24) := by rw [← e0]; ring
      linarith
    rw [e]
    linarith [hr.2]
  have d2 : ξ / h * (1 - 9 / 4 / 2 ^ 24) ≤ r / Q := by
    rw [le_div_iff₀ Qp]
    have k := mul_le_mul_of_nonneg_left hQ.2 g0.le
    have e : ξ / h * (1 - 9 / 4 / 2 ^ 24) * Q = ξ / h * Q - 9 / 4 / 2 ^ 24 * (ξ / h * Q) := by ring
    have k2 : ξ / h * Q ≤ ξ * h * (1 + 1 / 2 ^ 24) := by
      have : ξ / h * (Q - h * h) = ξ / h * Q - ξ * h := by rw [mul_sub, e0]
      rw [this] at k
      have : ξ / h * (h * h / 2 ^ 24) = ξ * h / 2 ^ 24 := by rw [← e0]; ring
      linarith
    have k3 : 0 < ξ / h * Q := mul_pos g0 Qp
    have k4 : ξ * h * (1 - 1 / 2 ^ 24) ≤ ξ / h * Q := by
      have k := mul_le_mul_of_nonneg_left hQ.1 g0.le
      have : ξ / h * (Q - h * h) = ξ / h * Q - ξ * h := by rw [mul_sub, e0]
      rw [this] at k
      have : ξ / h * -(h * h / 2 ^ 24) = -(ξ * h / 2 ^ 24) := by rw [← e0]; ring
      linarith
    rw [e]
    linarith [hr.1]
  have g1 : (2 : ℝ) ^ (-55 : ℤ) ≤ ξ / h := by
    rw [le_div_iff₀ hp]
    refine le_trans (mul_le_mul_of_nonneg_left h2 (two_zpow_pos _).le) (le_trans (le_of_eq ?_) x1)
    norm_num
  have g2 : ξ / h ≤ (2 : ℝ) ^ (53 : ℤ) := by
    rw [div_le_iff₀ hp]
    refine le_trans x2 (le_trans (le_of_eq ?_) (mul_le_mul_of_nonneg_left h1 (two_zpow_pos _).le))
    norm_num
  have hs : (1 : ℝ) / 2 ^ 150 ≤ ξ / h / 2 ^ 60 := by
    refine le_trans ?_ (div_le_div_of_nonneg_right g1 (by norm_num))
    norm_num
  have hs2 : (1 : ℝ) / 2 ^ 150 ≤ ξ / 2 ^ 60 := by
    refine le_trans ?_ (div_le_div_of_nonneg_right x1 (by norm_num))
    norm_num
  have hb : (2 : ℝ) ^ (53 : ℤ) * 4 ≤ (2 : ℝ) ^ (126 : ℤ) := by norm_num
  have rq : 0 < r / Q := div_pos rp Qp
  have hneg : |-r / Q| = r / Q := by rw [neg_div, abs_neg, abs_of_pos rq]
  obtain ⟨c, c1, c2⟩ := round_div (is_neg hf) hq Qp.ne' (by rw [hneg]; linarith)
  rw [hneg, neg_div] at c2
  have c2 := abs_le.1 c2
  have c3 : |c + ξ / h| ≤ 4 * (ξ / h / 2 ^ 24) := by
    rw [abs_le]; constructor <;> linarith [c2.1, c2.2]
  refine ⟨⟨c, c1⟩, ?_⟩
  have e1 : ξ / h * h = ξ := by field_simp
  have c4 : |c * h + ξ| ≤ 4 * (ξ / 2 ^ 24) := by
    rw [← e1, ← add_mul, abs_mul, abs_of_pos hp]
    refine (mul_le_mul_of_nonneg_right c3 hp.le).trans (le_of_eq ?_)
    rw [e1]
    calc 4 * (ξ / h / 2 ^ 24) * h = 4 * (ξ / h * h / 2 ^ 24) := by ring
      _ = _ := by rw [e1]
  have c5 : |c * (sgn t * h)| ≤ 2 * ξ := by
    have : c * (sgn t * h) = sgn t * (c * h) := by ring
    rw [this, abs_mul, abs_sgn, one_mul]
    have := abs_sub (c * h + ξ) ξ
    rw [add_sub_cancel_right, abs_of_pos xp] at this
    linarith
  have hb2 : (2 : ℝ) ^ (30 : ℤ) * 2 ≤ (2 : ℝ) ^ (126 : ℤ) := by norm_num
  obtain ⟨x, y1, y2, _⟩ := round_mul c1 hn (by linarith [two_zpow_pos 126])
  refine ⟨x, y1, ?_⟩
  have : x + sgn t * ξ = (x - c * (sgn t * h)) + sgn t * (c * h + ξ) := by ring
  rw [this]
  refine (abs_add_le _ _).trans ?_
  rw [abs_mul, abs_sgn, one_mul]
  linarith

/-! ## the iterations -/

variable {S : V2 F32 → V2 F32} {X Y : Bool → F32} {ξ η : Bool → ℝ} {w h N : ℝ}

/-- the answer for a side `x = X s`: the move of the origin back through that side -/
def PushX (ξ : Bool → ℝ) (s : Bool) (v : V2 F32) : Prop :=
  ∃ x, F32.Is v.x x ∧ F32.Is v.y 0 ∧ |x + sgn s * ξ s| ≤ 8 * (ξ s / 2 ^ 24)
def PushY (η : Bool → ℝ) (s : Bool) (v : V2 F32) : Prop :=
  ∃ y, F32.Is v.x 0 ∧ F32.Is v.y y ∧ |y + sgn s * η s| ≤ 8 * (η s / 2 ^ 24)

/-- a product of two numbers of the same sign -/
theorem prod_same {A B : F32} {s : Bool} {p q : ℝ} (hA : F32.Is A (sgn s * p)) (hB : F32.Is B (sgn s * q))
    (p1 : (2 : ℝ) ^ (-23 : ℤ) ≤ p) (q1 : (2 : ℝ) ^ (-23 : ℤ) ≤ q) (p2 : p ≤ (2 : ℝ) ^ (32 : ℤ))
    (q2 : q ≤ (2 : ℝ) ^ (32 : ℤ)) :
    ∃ m, F32.Is (A * B) m ∧ |m - p * q| ≤ p * q / 2 ^ 24 ∧ (2 : ℝ) ^ (-46 : ℤ) ≤ p * q ∧
      p * q ≤ (2 : ℝ) ^ (64 : ℤ) ∧ 0 < m := by
  have pp : 0 < p := lt_of_lt_of_le (two_zpow_pos _) p1
  have qp : 0 < q := lt_of_lt_of_le (two_zpow_pos _) q1
  have ss : sgn s * sgn s = 1 := by rw [sgn_mul]; simp
  have e : sgn s * p * (sgn s * q) = p * q := by
    calc _ = (sgn s * sgn s) * (p * q) := by ring
      _ = _ := by rw [ss, one_mul]
  have h1 : p * q ≤ (2 : ℝ) ^ (64 : ℤ) := by
    rw [show (64 : ℤ) = 32 + 32 by norm_num, zpow_add₀ (by norm_num)]
    exact mul_le_mul p2 q2 qp.le (two_zpow_pos _).le
  have h2 : (2 : ℝ) ^ (-46 : ℤ) ≤ p * q := by
    rw [show (-46 : ℤ) = -23 + -23 by norm_num, zpow_add₀ (by norm_num)]
    exact mul_le_mul p1 q1 (two_zpow_pos _).le pp.le
  have pq := mul_pos pp qp
  have h3 : (2 : ℝ) ^ (64 : ℤ) ≤ (2 : ℝ) ^ (126 : ℤ) := zpow_le_zpow (by norm_num)
  have h4 : (2 : ℝ) ^ (-126 : ℤ) ≤ (2 : ℝ) ^ (-46 : ℤ) := zpow_le_zpow (by norm_num)
  obtain ⟨m, m1, _, m3, _⟩ := round_mul hA hB (by rw [e, abs_of_pos pq]; linarith [two_zpow_pos 126])
  rw [e, abs_of_pos pq] at m3
  have m3 := m3 (h4.trans h2)
  refine ⟨m, m1, m3, h2, h1, ?_⟩
  linarith [(abs_le.1 m3).1]

/-- a sum of two products of any sign -/
theorem dot_any {a b c d : F32} {x y p q : ℝ} (ha : F32.Is a x) (hb : F32.Is b y) (hc : F32.Is c p)
    (hd : F32.Is d q) (h1 : (2 : ℝ) ^ (-126 : ℤ) ≤ |x * y|) (h2 : (2 : ℝ) ^ (-126 : ℤ) ≤ |p * q|)
    (h3 : |x * y| ≤ (2 : ℝ) ^ (64 : ℤ)) (h4 : |p * q| ≤ (2 : ℝ) ^ (64 : ℤ)) :
    ∃ s, F32.Is (a * b + c * d) s ∧ |s - (x * y + p * q)| ≤ 3 * ((|x * y| + |p * q|) / 2 ^ 24) := by
  have hbig : (2 : ℝ) ^ (64 : ℤ) * 4 ≤ (2 : ℝ) ^ (126 : ℤ) := by norm_num
  obtain ⟨m, m1, _, m2, _⟩ := round_mul ha hb (by linarith [two_zpow_pos 126])
  obtain ⟨n, n1, _, n2, _⟩ := round_mul hc hd (by linarith [two_zpow_pos 126])
  have m2 := m2 h1
  have n2 := n2 h2
  have t1 : |m + n - (x * y + p * q)| ≤ |x * y| / 2 ^ 24 + |p * q| / 2 ^ 24 := by
    rw [show m + n - (x * y + p * q) = (m - x * y) + (n - p * q) by ring]
    exact (abs_add_le _ _).trans (add_le_add m2 n2)
  have t2 : |m + n| ≤ 2 * (|x * y| + |p * q|) := by
    have := abs_add_le (m + n - (x * y + p * q)) (x * y + p * q)
    rw [sub_add_cancel] at this
    have := abs_add_le (x * y) (p * q)
    linarith [abs_nonneg (x * y), abs_nonneg (p * q)]
  have t3 : |m + n| ≤ 3 / 2 * (|x * y| + |p * q|) := by
    have := abs_add_le (m + n - (x * y + p * q)) (x * y + p * q)
    rw [sub_add_cancel] at this
    have := abs_add_le (x * y) (p * q)
    linarith [abs_nonneg (x * y), abs_nonneg (p * q)]
  obtain ⟨s, s1, s2⟩ := round_add m1 n1 (by linarith [two_zpow_pos 126])
  refine ⟨s, s1, ?_⟩
  have := abs_add_le (s - (m + n)) (m + n - (x * y + p * q))
  rw [sub_add_sub_cancel] at this
  linarith

theorem is_add_zero {a b : F32} {x : ℝ} (ha : F32.Is a x) (hb : F32.Is b 0) : F32.Is (a + b) x := by
  have := is_add ha hb (by rw [add_zero]; exact ha.representable)
  rwa [add_zero] at this

theorem is_zero_add {a b : F32} {x : ℝ} (ha : F32.Is a x) (hb : F32.Is b 0) : F32.Is (b + a) x := by
  have := is_add hb ha (by rw [zero_add]; exact ha.representable)
  rwa [zero_add] at this

namespace RectVals

theorem w32 (R : RectVals X Y ξ η w h N) : w ≤ (2 : ℝ) ^ (32 : ℤ) := by
  have a := abs_le.1 R.w1
  have e : (2 : ℝ) ^ (32 : ℤ) = 4 * (2 : ℝ) ^ (30 : ℤ) := by norm_num
  rw [e]
  linarith [R.xu true, R.xu false, R.xp true, R.xp false, R.hN, a.2]
theorem h32 (R : RectVals X Y ξ η w h N) : h ≤ (2 : ℝ) ^ (32 : ℤ) := by
  have a := abs_le.1 R.h1
  have e : (2 : ℝ) ^ (32 : ℤ) = 4 * (2 : ℝ) ^ (30 : ℤ) := by norm_num
  rw [e]
  linarith [R.yu true, R.yu false, R.yp true, R.yp false, R.hN, a.2]
theorem x32 (R : RectVals X Y ξ η w h N) (s : Bool) : ξ s ≤ (2 : ℝ) ^ (32 : ℤ) := (R.wle s).trans R.w32
theorem y32 (R : RectVals X Y ξ η w h N) (s : Bool) : η s ≤ (2 : ℝ) ^ (32 : ℤ) := (R.hle s).trans R.h32
theorem wl (R : RectVals X Y ξ η w h N) : (2 : ℝ) ^ (-23 : ℤ) ≤ w := (R.xl true).trans (R.wle true)
theorem hl (R : RectVals X Y ξ η w h N) : (2 : ℝ) ^ (-23 : ℤ) ≤ h := (R.yl true).trans (R.hle true)

/-- the search ends on a side `x = X s` -/
theorem stopX (R : RectVals X Y ξ η w h N) (hS : Corners S X Y) (s : Bool) (n : Nat) (pts : List (V2 F32))
    (ha : (findClosestEdge pts).a = ⟨X s, Y !s⟩) (hb : (findClosestEdge pts).b = ⟨X s, Y s⟩) :
    ∃ v, epa S (n + 1) pts = .ok v ∧ PushX ξ s v := by
  have nx := R.hy s
  have ny := is_neg (sub_self' (R.x s))
  rw [neg_zero] at ny
  have hSn := hS (⟨Y s - Y (!s), -(X s - X s)⟩ : V2 F32) _ _ nx ny
  have bx : (Y s - Y (!s)).bit = s := by
    have hp := R.hp
    have : Sgd s (-23) 32 (Y s - Y (!s)) := ⟨h, nx, R.hl, R.h32⟩
    exact this.bit
  rw [show (⟨Y s - Y (!s), -(X s - X s)⟩ : V2 F32).x.bit = s from bx] at hSn
  obtain ⟨r, r1, r2, _, r4, r5⟩ := prod_same (R.x s) nx (R.xl s) R.hl (R.x32 s) R.h32
  obtain ⟨Q, Q1, Q2, _, _, _⟩ := prod_same nx nx R.hl R.hl R.h32 R.h32
  have fit : F32.Is (V2.dot (S ⟨Y s - Y (!s), -(X s - X s)⟩) ⟨Y s - Y (!s), -(X s - X s)⟩) r := by
    rw [hSn]; exact is_add_zero r1 (mul_zero' (R.y _) ny)
  have ftb : F32.Is (V2.dot (⟨X s, Y !s⟩ : V2 F32) ⟨Y s - Y (!s), -(X s - X s)⟩) r :=
    is_add_zero r1 (mul_zero' (R.y _) ny)
  have nn : F32.Is (V2.dot (⟨Y s - Y (!s), -(X s - X s)⟩ : V2 F32) ⟨Y s - Y (!s), -(X s - X s)⟩) Q :=
    is_add_zero Q1 (mul_zero' ny ny)
  have hnb := not_better_self fit ftb r5
  obtain ⟨⟨c, c1⟩, x, x1, x2⟩ := push_coord fit nn nx r2 Q2 (R.xl s) ((R.xu s).trans R.hN) R.hl R.h32
  refine ⟨V2.scale (-(V2.dot (S ⟨Y s - Y (!s), -(X s - X s)⟩) ⟨Y s - Y (!s), -(X s - X s)⟩) /
    V2.dot (⟨Y s - Y (!s), -(X s - X s)⟩ : V2 F32) ⟨Y s - Y (!s), -(X s - X s)⟩) ⟨Y s - Y (!s), -(X s - X s)⟩, ?_, ?_⟩
  · rw [epa, ha, hb]
    exact if_pos hnb
  · exact ⟨x, x1, mul_zero' c1 ny, x2⟩

/-- the search ends on a side `y = Y s` -/
theorem stopY (R : RectVals X Y ξ η w h N) (hS : Corners S X Y) (s : Bool) (n : Nat) (pts : List (V2 F32))
    (ha : (findClosestEdge pts).a = ⟨X s, Y s⟩) (hb : (findClosestEdge pts).b = ⟨X !s, Y s⟩) :
    ∃ v, epa S (n + 1) pts = .ok v ∧ PushY η s v := by
  have ny := is_neg (R.wx' s)
  rw [neg_neg] at ny
  have nx := sub_self' (R.y s)
  have hSn := hS (⟨Y s - Y s, -(X (!s) - X s)⟩ : V2 F32) _ _ nx ny
  have bx : (-(X (!s) - X s)).bit = s := by
    have : Sgd s (-23) 32 (-(X (!s) - X s)) := ⟨w, ny, R.wl, R.w32⟩
    exact this.bit
  rw [show (⟨Y s - Y s, -(X (!s) - X s)⟩ : V2 F32).y.bit = s from bx] at hSn
  obtain ⟨r, r1, r2, _, r4, r5⟩ := prod_same (R.y s) ny (R.yl s) R.wl (R.y32 s) R.w32
  obtain ⟨Q, Q1, Q2, _, _, _⟩ := prod_same ny ny R.wl R.wl R.w32 R.w32
  have fit : F32.Is (V2.dot (S ⟨Y s - Y s, -(X (!s) - X s)⟩) ⟨Y s - Y s, -(X (!s) - X s)⟩) r := by
    rw [hSn]; exact is_zero_add r1 (mul_zero' (R.x _) nx)
  have ftb : F32.Is (V2.dot (⟨X s, Y s⟩ : V2 F32) ⟨Y s - Y s, -(X (!s) - X s)⟩) r :=
    is_zero_add r1 (mul_zero' (R.x _) nx)
  have nn : F32.Is (V2.dot (⟨Y s - Y s, -(X (!s) - X s)⟩ : V2 F32) ⟨Y s - Y s, -(X (!s) - X s)⟩) Q :=
    is_zero_add Q1 (mul_zero' nx nx)
  have hnb := not_better_self fit ftb r5
  obtain ⟨⟨c, c1⟩, x, x1, x2⟩ := push_coord fit nn ny r2 Q2 (R.yl s) ((R.yu s).trans R.hN) R.wl R.w32
  refine ⟨V2.scale (-(V2.dot (S ⟨Y s - Y s, -(X (!s) - X s)⟩) ⟨Y s - Y s, -(X (!s) - X s)⟩) /
    V2.dot (⟨Y s - Y s, -(X (!s) - X s)⟩ : V2 F32) ⟨Y s - Y s, -(X (!s) - X s)⟩) ⟨Y s - Y s, -(X (!s) - X s)⟩, ?_, ?_⟩
  · rw [epa, ha, hb]
    exact if_pos hnb
  · exact ⟨x, mul_zero' c1 nx, x1, x2⟩

/-- from the diagonal the fourth corner is found -/
theorem stepD (R : RectVals X Y ξ η w h N) (hS : Corners S X Y) (ρ π : Bool) (n : Nat) (pts : List (V2 F32))
    (ha : (findClosestEdge pts).a = ⟨X !π, Y ρ⟩) (hb : (findClosestEdge pts).b = ⟨X π, Y !ρ⟩)
    (hi : (findClosestEdge pts).index + 1 ≤ pts.length) :
    epa S (n + 1) pts = epa S n (pts.insertIdx ((findClosestEdge pts).index + 1) ⟨X !ρ, Y !π⟩) := by
  have nx : F32.Is (Y (!ρ) - Y ρ) (sgn (!ρ) * h) := by
    have := R.hy' ρ; rwa [sgn_not, neg_mul]
  have ny : F32.Is (-(X π - X (!π))) (sgn (!π) * w) := by
    have := is_neg (R.wx π); rwa [sgn_not, neg_mul]
  have hSn := hS (⟨Y (!ρ) - Y ρ, -(X π - X (!π))⟩ : V2 F32) _ _ nx ny
  have b1 : (Y (!ρ) - Y ρ).bit = !ρ := by
    have : Sgd (!ρ) (-23) 32 (Y (!ρ) - Y ρ) := ⟨h, nx, R.hl, R.h32⟩
    exact this.bit
  have b2 : (-(X π - X (!π))).bit = !π := by
    have : Sgd (!π) (-23) 32 (-(X π - X (!π))) := ⟨w, ny, R.wl, R.w32⟩
    exact this.bit
  rw [show (⟨Y (!ρ) - Y ρ, -(X π - X (!π))⟩ : V2 F32).x.bit = !ρ from b1,
    show (⟨Y (!ρ) - Y ρ, -(X π - X (!π))⟩ : V2 F32).y.bit = !π from b2] at hSn
  have hbetter : sufficientlyBetter (V2.dot (⟨X !ρ, Y !π⟩ : V2 F32) ⟨Y (!ρ) - Y ρ, -(X π - X (!π))⟩)
      (V2.dot (⟨X !π, Y ρ⟩ : V2 F32) ⟨Y (!ρ) - Y ρ, -(X π - X (!π))⟩) FloatExtra.tol := by
    obtain ⟨m, m1, m2, m3, m4, m5⟩ := prod_same (R.x (!ρ)) nx (R.xl _) R.hl (R.x32 _) R.h32
    obtain ⟨k, k1, k2, k3, k4, k5⟩ := prod_same (R.y (!π)) ny (R.yl _) R.wl (R.y32 _) R.w32
    have hbig : (2 : ℝ) ^ (64 : ℤ) * 4 ≤ (2 : ℝ) ^ (100 : ℤ) := by norm_num
    have hbig' : (2 : ℝ) ^ (100 : ℤ) ≤ (2 : ℝ) ^ (126 : ℤ) := zpow_le_zpow (by norm_num)
    have m2 := abs_le.1 m2
    have k2 := abs_le.1 k2
    have lo46 := two_zpow_pos (-46)
    obtain ⟨r, r1, r2⟩ := round_add m1 k1 (by
      rw [abs_of_pos (add_pos m5 k5)]; linarith [two_zpow_pos 126])
    rw [abs_of_pos (add_pos m5 k5)] at r2
    have r2 := abs_le.1 r2
    have wp := R.wp
    have hp := R.hp
    have s2 : ∀ (s t : Bool) (p q : ℝ), 0 < p → 0 < q → |sgn s * p * (sgn t * q)| = p * q := by
      intro s t p q h1 h2
      rw [abs_mul, abs_mul, abs_mul, abs_sgn, abs_sgn, one_mul, one_mul, abs_of_pos h1, abs_of_pos h2]
    have a1 := s2 (!π) (!ρ) _ _ (R.xp (!π)) hp
    have a2 := s2 ρ (!π) _ _ (R.yp ρ) wp
    have lo : (2 : ℝ) ^ (-126 : ℤ) ≤ (2 : ℝ) ^ (-23 : ℤ) * (2 : ℝ) ^ (-23 : ℤ) := by
      rw [← zpow_add₀ (by norm_num)]; exact zpow_le_zpow (by norm_num)
    have hi : (2 : ℝ) ^ (32 : ℤ) * (2 : ℝ) ^ (32 : ℤ) = (2 : ℝ) ^ (64 : ℤ) := by
      rw [← zpow_add₀ (by norm_num)]; norm_num
    obtain ⟨g, g1, g2⟩ := dot_any (R.x (!π)) nx (R.y ρ) ny
      (by rw [a1]; exact lo.trans (mul_le_mul (R.xl _) R.hl (two_zpow_pos _).le (R.xp _).le))
      (by rw [a2]; exact lo.trans (mul_le_mul (R.yl _) R.wl (two_zpow_pos _).le (R.yp _).le))
      (by rw [a1, ← hi]; exact mul_le_mul (R.x32 _) R.h32 hp.le (two_zpow_pos _).le)
      (by rw [a2, ← hi]; exact mul_le_mul (R.y32 _) R.w32 wp.le (two_zpow_pos _).le)
    rw [a1, a2] at g2
    have wh := mul_pos wp hp
    have b1 : ξ (!π) * h ≤ w * h := mul_le_mul_of_nonneg_right (R.wle _) hp.le
    have b2 : η ρ * w ≤ w * h := by rw [mul_comm w]; exact mul_le_mul_of_nonneg_right (R.hle _) wp.le
    have b3 := mul_pos (R.xp (!π)) hp
    have b4 := mul_pos (R.yp ρ) wp
    have b5 := mul_pos (R.xp ρ) hp
    have b6 := mul_pos (R.yp π) wp
    have b7 : w * h ≤ 2 * (ξ ρ * h + ξ (!ρ) * h) := by
      have := abs_le.1 R.w1
      have x1 := R.xp true
      have x2 := R.xp false
      have e : w ≤ 2 * (ξ ρ + ξ (!ρ)) := by cases ρ <;> simp <;> linarith [this.2]
      have := mul_le_mul_of_nonneg_right e hp.le
      linarith
    have f12 := abs_le.1 (R.F12 ρ π)
    have g3 : |g| ≤ (2 : ℝ) ^ (100 : ℤ) := by
      have := abs_add_le (g - (sgn (!π) * ξ (!π) * (sgn (!ρ) * h) + sgn ρ * η ρ * (sgn (!π) * w)))
        (sgn (!π) * ξ (!π) * (sgn (!ρ) * h) + sgn ρ * η ρ * (sgn (!π) * w))
      rw [sub_add_cancel] at this
      have t := abs_add_le (sgn (!π) * ξ (!π) * (sgn (!ρ) * h)) (sgn ρ * η ρ * (sgn (!π) * w))
      rw [a1, a2] at t
      have c1 : ξ (!π) * h ≤ (2 : ℝ) ^ (64 : ℤ) := by
        rw [← hi]; exact mul_le_mul (R.x32 _) R.h32 hp.le (two_zpow_pos _).le
      have c2 : η ρ * w ≤ (2 : ℝ) ^ (64 : ℤ) := by
        rw [← hi]; exact mul_le_mul (R.y32 _) R.w32 wp.le (two_zpow_pos _).le
      linarith
    have gF : g ≤ F1 ξ η w h ρ π + 9 * (w * h / 2 ^ 24) ∧ g ≤ F2 ξ η w h ρ π + 9 * (w * h / 2 ^ 24) := by
      have g2 := abs_le.1 g2
      have hF : sgn (!π) * ξ (!π) * (sgn (!ρ) * h) + sgn ρ * η ρ * (sgn (!π) * w) = F1 ξ η w h ρ π ∨
          sgn (!π) * ξ (!π) * (sgn (!ρ) * h) + sgn ρ * η ρ * (sgn (!π) * w) = F2 ξ η w h ρ π := by
        unfold F1 F2
        cases ρ <;> cases π <;> simp <;> first | (left; linarith) | (right; linarith)
      rcases hF with e | e <;> rw [e] at g2 <;> constructor <;> linarith [f12.1, f12.2, g2.2]
    refine better_half r1 g1 ?_ g3 ?_
    · linarith [r2.1, m2.1]
    · obtain ⟨gF1, gF2⟩ := gF
      unfold F1 at gF1
      unfold F2 at gF2
      linarith [r2.1, m2.1, k2.1]
  rw [epa, ha, hb]
  show (if ¬ sufficientlyBetter (V2.dot (S ⟨Y (!ρ) - Y ρ, -(X π - X (!π))⟩) ⟨Y (!ρ) - Y ρ, -(X π - X (!π))⟩)
      (V2.dot (⟨X !π, Y ρ⟩ : V2 F32) ⟨Y (!ρ) - Y ρ, -(X π - X (!π))⟩) FloatExtra.tol then _ else _) = _
  rw [hSn, if_neg (not_not.2 hbetter), if_pos hi]
  show epa S n (pts.insertIdx _ (S ⟨Y (!ρ) - Y ρ, -(X π - X (!π))⟩)) = _
  rw [hSn]

end RectVals

end

end Auburn
