import Verif.Ieee.BoxBoxProps
import Verif.Ieee.RectApart

/-!
# C84: two separated boxes in binary32

The model run on IEEE-754 binary32 (`F32`) for two axis-aligned boxes of arbitrary binary32 size at an
arbitrary binary32 offset that are apart by at least `M / 2^20` along an axis, where `M` bounds the half
sizes and the offset.
-/

set_option linter.unusedSectionVars false
set_option synthInstance.maxSize 1000

namespace Auburn

open F32 V2 ExtremePoint2d Transformation2d

/-! ## specification -/

/-- `v` is finite and close to a shortest vector `w` that brings `X` into contact with `Y`: each
coordinate is right up to `e` plus the part `κ` of the distance, and the length is right up to `e` plus the
part `κ^2` of the distance -/
def Bridges (e κ : ℝ) (v : V2 F32) (X Y : Set (V2 ℝ)) : Prop :=
  ∃ x w, v.Is x ∧ V2.Within (e + κ * V2.norm w) x w ∧ |V2.norm x - V2.norm w| ≤ e + κ ^ 2 * V2.norm w ∧
    Touch (shift w X) Y ∧ ∀ u, Touch (shift u X) Y → V2.norm w ≤ V2.norm u

/-- the boxes are apart by at least `M / 2^20` along one axis (sum of the half sizes `W`, offset `p`), and
on the other axis (`H`, `q`) they are apart as well, or not so thin that `H^2` times the gap disappears in
rounding -/
def ApartAlong (M W p H q : ℝ) : Prop :=
  M / 2 ^ 20 ≤ |p| - W ∧ (|q| ≤ H + M / 2 ^ 20 → M / 2 ^ 20 ≤ H ∧ 1 / 2 ^ 22 ≤ H ^ 2 * (|p| - W))

/-! ## boxes as sets -/

theorem gap_cases {h p : ℝ} (h0 : 0 ≤ h) :
    (h < p ∧ axisGap h p = p - h) ∨ (p < -h ∧ axisGap h p = p + h) ∨ (|p| ≤ h ∧ axisGap h p = 0) := by
  let _ := realFloat true 0
  have := realFloat_exact true 0
  exact axisGap_cases h0

theorem box_gap_touch {h k T : V2 ℝ} (hx : 0 ≤ h.x) (hy : 0 ≤ h.y) (kx : 0 ≤ k.x) (ky : 0 ≤ k.y) :
    Touch (shift ⟨axisGap (h.x + k.x) T.x, axisGap (h.y + k.y) T.y⟩ (Region.pts (Box2d.mk h)))
      (shift T (Region.pts (Box2d.mk k))) := by
  have key : ∀ {A B t : ℝ}, 0 ≤ A → 0 ≤ B → ∃ y, |y| ≤ A ∧ |y + axisGap (A + B) t - t| ≤ B := by
    intro A B t a0 b0
    rcases gap_cases (p := t) (add_nonneg a0 b0) with ⟨h1, e⟩ | ⟨h1, e⟩ | ⟨h1, e⟩
    · refine ⟨A, by rw [abs_of_nonneg a0], ?_⟩
      rw [e, show A + (t - (A + B)) - t = -B by ring, abs_neg, abs_of_nonneg b0]
    · refine ⟨-A, by rw [abs_neg, abs_of_nonneg a0], ?_⟩
      rw [e, show -A + (t + (A + B)) - t = B by ring, abs_of_nonneg b0]
    · rw [e]
      rcases h1.lt_or_eq with h1 | h1
      · obtain ⟨y, y1, y2⟩ := interval_touch a0 b0 h1
        exact ⟨y, y1, by rwa [add_zero]⟩
      · rcases abs_cases t with ⟨h2, _⟩ | ⟨h2, _⟩
        · refine ⟨A, by rw [abs_of_nonneg a0], ?_⟩
          rw [show A + 0 - t = -B by linarith, abs_neg, abs_of_nonneg b0]
        · refine ⟨-A, by rw [abs_neg, abs_of_nonneg a0], ?_⟩
          rw [show -A + 0 - t = B by linarith, abs_of_nonneg b0]
  obtain ⟨x, x1, x2⟩ := key hx kx (t := T.x)
  obtain ⟨y, y1, y2⟩ := key hy ky (t := T.y)
  refine ⟨_, ⟨⟨x, y⟩, ⟨x1, y1⟩, rfl⟩, ⟨_, _⟩, ⟨x2, y2⟩, ?_⟩
  ext
  · simp only [V2.add_x]; ring
  · simp only [V2.add_y]; ring

theorem box_gap_least {h k T u : V2 ℝ} (hx : 0 ≤ h.x) (hy : 0 ≤ h.y) (kx : 0 ≤ k.x) (ky : 0 ≤ k.y)
    (hu : Touch (shift u (Region.pts (Box2d.mk h))) (shift T (Region.pts (Box2d.mk k)))) :
    V2.norm ⟨axisGap (h.x + k.x) T.x, axisGap (h.y + k.y) T.y⟩ ≤ V2.norm u := by
  obtain ⟨_, ⟨p, ⟨p1, p2⟩, rfl⟩, q, ⟨q1, q2⟩, e⟩ := hu
  have p1 : |p.x| ≤ h.x := p1
  have p2 : |p.y| ≤ h.y := p2
  have q1 : |q.x| ≤ k.x := q1
  have q2 : |q.y| ≤ k.y := q2
  have key : ∀ {A B t v a b : ℝ}, 0 ≤ A → 0 ≤ B → |a| ≤ A → |b| ≤ B → a + v = b + t →
      axisGap (A + B) t ^ 2 ≤ v ^ 2 := by
    intro A B t v a b a0 b0 h1 h2 h3
    have h1 := abs_le.1 h1
    have h2 := abs_le.1 h2
    rcases gap_cases (p := t) (add_nonneg a0 b0) with ⟨h4, e⟩ | ⟨h4, e⟩ | ⟨h4, e⟩ <;> rw [e]
    · apply pow_le_pow_left₀ <;> linarith
    · rw [← neg_sq, ← neg_sq v]
      apply pow_le_pow_left₀ <;> linarith
    · rw [zero_pow (by norm_num)]; positivity
  have ex := congrArg V2.x e
  have ey := congrArg V2.y e
  simp only [V2.add_x, V2.add_y] at ex ey
  unfold V2.norm
  exact Real.sqrt_le_sqrt (add_le_add (key hx kx p1 q1 ex) (key hy ky p2 q2 ey))

theorem norm_close [env : F32Env] (x w : V2 ℝ) : |V2.norm x - V2.norm w| ≤ |x.x - w.x| + |x.y - w.y| := by
  have h1 : V2.norm x ≤ V2.norm w + (|x.x - w.x| + |x.y - w.y|) := by
    have a := V2.norm_add_le w (x - w)
    rw [show w + (x - w) = x by ext <;> simp] at a
    have b := V2.norm_le_add (x - w)
    simp only [V2.sub_x, V2.sub_y] at b
    linarith
  have h2 : V2.norm w ≤ V2.norm x + (|x.x - w.x| + |x.y - w.y|) := by
    have a := V2.norm_add_le x (w - x)
    rw [show x + (w - x) = w by ext <;> simp] at a
    have b := V2.norm_le_add (w - x)
    simp only [V2.sub_x, V2.sub_y] at b
    rw [abs_sub_comm w.x, abs_sub_comm w.y] at b
    linarith
  rw [abs_le]; constructor <;> linarith

/-- a vector with a small second coordinate -/
theorem norm_flat {a b κ : ℝ} (hb : |b| ≤ κ * |a|) : V2.norm ⟨a, b⟩ ≤ |a| * (1 + κ ^ 2 / 2) := by
  unfold V2.norm
  rw [Real.sqrt_le_left (by positivity)]
  simp only
  have h1 : b ^ 2 ≤ (κ * |a|) ^ 2 := by
    rw [← sq_abs b]; exact pow_le_pow_left₀ (abs_nonneg _) hb 2
  have h2 : |a| ^ 2 = a ^ 2 := sq_abs a
  have h3 : 0 ≤ a ^ 2 * (κ ^ 2 / 2) ^ 2 := by positivity
  nlinarith

theorem norm_swap (a b : ℝ) : V2.norm ⟨a, b⟩ = V2.norm ⟨b, a⟩ := by
  unfold V2.norm; simp only; rw [add_comm]

section
variable [env : F32Env]

/-- one coordinate is near and one across -/
theorem near_side {ha hb t ka kb s : F32} {A B T C D Q M : ℝ} (hA : F32.Is ha A) (hB : F32.Is hb B)
    (hT : F32.Is t T) (hC : F32.Is ka C) (hD : F32.Is kb D) (hQ : F32.Is s Q)
    (a0 : 0 ≤ A) (b0 : 0 ≤ B) (aM : A ≤ M) (bM : B ≤ M) (tM : |T| ≤ M)
    (c0 : 0 ≤ C) (d0 : 0 ≤ D) (cM : C ≤ M) (dM : D ≤ M) (qM : |Q| ≤ M) (M1 : 1 ≤ M)
    (hM : M ≤ (2 : ℝ) ^ (28 : ℤ)) (hG : ApartAlong M (A + B) T (C + D) Q) :
    ∃ m y1 y2, NearSide (cornerC ha hb t t.bit) (cornerC ka kb s s.bit) (cornerC ka kb s (!s.bit))
        t.bit s.bit m y1 y2 (4 * M) ∧
      |m - (|T| - (A + B))| ≤ 6 * (M / 2 ^ 24) ∧ |y1 - (sgn s.bit * (C + D) - Q)| ≤ 6 * (M / 2 ^ 24) := by
  obtain ⟨x, x1, x2, _⟩ := corner_val hA hB hT a0 b0 aM bM tM hM t.bit
  obtain ⟨y1, u1, u2, _⟩ := corner_val hC hD hQ c0 d0 cM dM qM hM s.bit
  obtain ⟨y2, v1, v2, v3⟩ := corner_val hC hD hQ c0 d0 cM dM qM hM (!s.bit)
  obtain ⟨g1, g2⟩ := hG
  have bT := bit_value hT
  have bQ := bit_value hQ
  have aT : |T| = sgn t.bit * T := by
    rw [← abs_of_nonneg bT, abs_mul, abs_sgn, one_mul]
  have aQ : |Q| = sgn s.bit * Q := by
    rw [← abs_of_nonneg bQ, abs_mul, abs_sgn, one_mul]
  generalize t.bit = ς at *
  generalize s.bit = τ at *
  have ss : sgn ς * sgn ς = 1 := by rw [sgn_mul]; simp
  have e1 : sgn (!ς) * -(sgn ς * x) = x := by rw [sgn_not]; linear_combination x * ss
  have hm : |-(sgn ς * x) - (|T| - (A + B))| ≤ 6 * (M / 2 ^ 24) := by
    rw [aT]
    have : -(sgn ς * x) - (sgn ς * T - (A + B)) = -(sgn ς * (x - (sgn ς * (A + B) - T))) := by
      linear_combination (-(A + B)) * ss
    rw [this, abs_neg, abs_mul, abs_sgn, one_mul]; exact x2
  set m := -(sgn ς * x) with hmd
  have hm' := abs_le.1 hm
  have u2' := abs_le.1 u2
  have v2' := abs_le.1 v2
  have qM' := abs_le.1 qM
  refine ⟨m, y1, y2, ⟨by rw [e1]; exact x1, u1, v1, ?_, ?_, ?_, ?_, by linarith, ?_, ?_, ?_⟩, hm, u2⟩
  · have : (2 : ℝ) ^ (-23 : ℤ) = 1 / 2 ^ 23 := by norm_num
    rw [this]; linarith
  · linarith
  · rw [abs_le]
    cases τ <;> simp only [sgn_true, sgn_false, one_mul, neg_mul] at * <;> constructor <;> linarith
  · rw [abs_le]
    rw [sgn_not] at v2'
    cases τ <;> simp only [sgn_true, sgn_false, one_mul, neg_mul] at * <;> constructor <;> linarith
  · have : (2 : ℝ) ^ (30 : ℤ) = 4 * (2 : ℝ) ^ (28 : ℤ) := by norm_num
    rw [this]; linarith
  · exact v3 (by rw [sgn_not]; linarith)
  · intro h0
    have hq : |Q| ≤ C + D + M / 2 ^ 20 := by
      rw [aQ]
      cases τ <;> simp only [sgn_true, sgn_false, one_mul, neg_mul] at * <;> linarith
    obtain ⟨k1, k2⟩ := g2 hq
    have k3 : 5 / 4 * (C + D) ≤ |y1| + |y2| := by
      have := abs_sub y1 y2
      rw [sgn_not] at v2'
      have w1 := le_abs_self (y1 - y2)
      have w2 := neg_abs_le (y1 - y2)
      cases τ <;> simp only [sgn_true, sgn_false, one_mul, neg_mul] at * <;> linarith
    have k4 : 5 / 8 * (|T| - (A + B)) ≤ m := by linarith
    have k5 := pow_le_pow_left₀ (by linarith) k3 2
    have k6 := mul_le_mul k5 k4 (by linarith) (by positivity)
    have k7 : (5 / 4 * (C + D)) ^ 2 * (5 / 8 * (|T| - (A + B))) = 125 / 128 * ((C + D) ^ 2 * (|T| - (A + B))) := by ring
    rw [k7] at k6
    have e23 : (2 : ℝ) ^ (-23 : ℤ) = 1 / 2 ^ 23 := by norm_num
    rw [e23]; linarith

/-- the answer in real numbers -/
theorem near_bridge {p q : F32} {ς τ : Bool} {m y1 M W H T Q κ : ℝ} (hn : NearAns κ ς τ m y1 (4 * M) p q)
    (W0 : 0 ≤ W) (H0 : 0 ≤ H) (M1 : 1 ≤ M) (κ0 : 0 ≤ κ) (κ1 : κ ≤ 1)
    (hς : 0 ≤ sgn ς * T) (hτ : 0 ≤ sgn τ * Q) (hg : M / 2 ^ 20 ≤ |T| - W)
    (hm : |m - (|T| - W)| ≤ 6 * (M / 2 ^ 24)) (hy : |y1 - (sgn τ * H - Q)| ≤ 6 * (M / 2 ^ 24)) :
    ∃ x y, F32.Is p x ∧ F32.Is q y ∧
      |x - axisGap W T| ≤ M / 2 ^ 16 + κ * V2.norm ⟨axisGap W T, axisGap H Q⟩ ∧
      |y - axisGap H Q| ≤ M / 2 ^ 16 + κ * V2.norm ⟨axisGap W T, axisGap H Q⟩ ∧
      |V2.norm ⟨x, y⟩ - V2.norm ⟨axisGap W T, axisGap H Q⟩| ≤
        M / 2 ^ 16 + κ ^ 2 * V2.norm ⟨axisGap W T, axisGap H Q⟩ := by
  obtain ⟨y, n1, n2, n3⟩ := hn
  have aT : |T| = sgn ς * T := by rw [← abs_of_nonneg hς, abs_mul, abs_sgn, one_mul]
  have aQ : |Q| = sgn τ * Q := by rw [← abs_of_nonneg hτ, abs_mul, abs_sgn, one_mul]
  have hm' := abs_le.1 hm
  have hy' := abs_le.1 hy
  have gx : axisGap W T = sgn ς * (|T| - W) := by
    rcases gap_cases (p := T) W0 with ⟨h1, e⟩ | ⟨h1, e⟩ | ⟨h1, e⟩
    · rw [e]; cases ς <;> simp only [sgn_true, sgn_false, one_mul, neg_mul] at * <;> linarith
    · rw [e]; cases ς <;> simp only [sgn_true, sgn_false, one_mul, neg_mul] at * <;> linarith
    · have : 0 < M / 2 ^ 20 := by positivity
      linarith
  have nx : |sgn ς * m - axisGap W T| ≤ 6 * (M / 2 ^ 24) := by
    rw [gx, ← mul_sub, abs_mul, abs_sgn, one_mul]; exact hm
  set w : V2 ℝ := ⟨axisGap W T, axisGap H Q⟩ with hw
  have w0 := V2.norm_nonneg w
  have κw := mul_nonneg κ0 w0
  have κw2 := mul_nonneg (sq_nonneg κ) w0
  have M0 : 0 < M / 2 ^ 24 := by positivity
  refine ⟨sgn ς * m, y, n1, n2, by linarith, ?_⟩
  have gxa : |axisGap W T| = |T| - W := by
    rw [gx, abs_mul, abs_sgn, one_mul, abs_of_nonneg]
    have : 0 < M / 2 ^ 20 := by positivity
    linarith
  rcases n3 with ⟨h0, rfl⟩ | ⟨h0, h1⟩
  · have ny : |-y1 - axisGap H Q| ≤ 12 * (M / 2 ^ 24) := by
      rcases gap_cases (p := Q) H0 with ⟨h1, e⟩ | ⟨h1, e⟩ | ⟨h1, e⟩
      · rw [e, abs_le]
        cases τ <;> simp only [sgn_true, sgn_false, one_mul, neg_mul] at * <;> constructor <;> linarith
      · rw [e, abs_le]
        cases τ <;> simp only [sgn_true, sgn_false, one_mul, neg_mul] at * <;> constructor <;> linarith
      · rw [e, abs_le]
        rw [aQ] at h1
        cases τ <;> simp only [sgn_true, sgn_false, one_mul, neg_mul] at * <;> constructor <;> linarith
    refine ⟨by linarith, ?_⟩
    have := norm_close ⟨sgn ς * m, -y1⟩ w
    simp only [hw] at this ⊢
    linarith
  · have gy : |axisGap H Q| ≤ 6 * (M / 2 ^ 24) := by
      have hq : |Q| ≤ H + 6 * (M / 2 ^ 24) := by
        rw [aQ]
        cases τ <;> simp only [sgn_true, sgn_false, one_mul, neg_mul] at * <;> linarith
      have hq := abs_le.1 hq
      rcases gap_cases (p := Q) H0 with ⟨h1, e⟩ | ⟨h1, e⟩ | ⟨h1, e⟩
      · rw [e, abs_le]; constructor <;> linarith
      · rw [e, abs_le]; constructor <;> linarith
      · rw [e, abs_zero]; linarith
    have wx : |T| - W ≤ V2.norm w := by rw [← gxa]; exact abs_le_norm_x w
    have mw : m ≤ V2.norm w + 6 * (M / 2 ^ 24) := by linarith
    have m0 : 0 < m := by linarith
    have km : κ * m ≤ κ * V2.norm w + 6 * (M / 2 ^ 24) := by
      have := mul_le_mul_of_nonneg_left mw κ0
      have := mul_le_mul_of_nonneg_right κ1 (by linarith : 0 ≤ 6 * (M / 2 ^ 24))
      linarith
    have hyb : |y - axisGap H Q| ≤ κ * m + 134 * (M / 2 ^ 24) := by
      have := abs_sub y (axisGap H Q)
      linarith
    refine ⟨by linarith, ?_⟩
    -- split the second coordinate into a part of the first and a small rest
    obtain ⟨b, b1, b2⟩ : ∃ b, |b| ≤ κ * m ∧ |y - b| ≤ 128 * (M / 2 ^ 24) := by
      have km0 := mul_nonneg κ0 m0.le
      rcases le_total |y| (κ * m) with h | h
      · exact ⟨y, h, by rw [sub_self, abs_zero]; linarith⟩
      · rcases le_total 0 y with h2 | h2
        · rw [abs_of_nonneg h2] at h h1
          exact ⟨κ * m, by rw [abs_of_nonneg km0], by rw [abs_of_nonneg (by linarith)]; linarith⟩
        · rw [abs_of_nonpos h2] at h h1
          exact ⟨-(κ * m), by rw [abs_neg, abs_of_nonneg km0], by rw [abs_of_nonpos (by linarith)]; linarith⟩
    have am : |sgn ς * m| = m := by rw [abs_mul, abs_sgn, one_mul, abs_of_pos m0]
    have f1 : V2.norm ⟨sgn ς * m, b⟩ ≤ m * (1 + κ ^ 2 / 2) := by
      have := norm_flat (a := sgn ς * m) (b := b) (κ := κ) (by rw [am]; exact b1)
      rwa [am] at this
    have f2 := abs_le.1 (norm_close ⟨sgn ς * m, y⟩ ⟨sgn ς * m, b⟩)
    simp only [sub_self, abs_zero, zero_add] at f2
    have f3 : m ≤ V2.norm ⟨sgn ς * m, y⟩ := by
      have := abs_le_norm_x ⟨sgn ς * m, y⟩
      simp only at this
      linarith
    have f4 : V2.norm w ≤ |T| - W + 6 * (M / 2 ^ 24) := by
      have := V2.norm_le_add w
      simp only [hw] at this ⊢
      rw [gxa] at this
      linarith
    have κ2 : κ ^ 2 ≤ 1 := by nlinarith
    have f5 : m * (κ ^ 2 / 2) ≤ κ ^ 2 * V2.norm w + 6 * (M / 2 ^ 24) := by
      have a1 := mul_le_mul_of_nonneg_left mw (sq_nonneg κ)
      have a2 := mul_le_mul_of_nonneg_right κ2 (by linarith : 0 ≤ 6 * (M / 2 ^ 24))
      have a3 := mul_nonneg (sq_nonneg κ) m0.le
      linarith
    rw [abs_le]
    constructor <;> linarith

theorem initialDirection_far {t : V2 F32} {T : V2 ℝ} (ht : t.Is T) (hx : |T.x| ≤ (2 : ℝ) ^ (28 : ℤ))
    (hy : |T.y| ≤ (2 : ℝ) ^ (28 : ℤ)) (hf : 1 / 2 ^ 22 ≤ T.x ^ 2 + T.y ^ 2) : initialDirection t = t := by
  apply if_neg
  have b : ∀ {z : ℝ}, |z| ≤ (2 : ℝ) ^ (28 : ℤ) → |z * z| ≤ (2 : ℝ) ^ (56 : ℤ) := by
    intro z hz
    rw [abs_mul, show (56 : ℤ) = 28 + 28 by norm_num, zpow_add₀ (by norm_num)]
    exact mul_le_mul hz hz (abs_nonneg _) (two_zpow_pos _).le
  have big : (2 : ℝ) ^ (56 : ℤ) * 8 ≤ (2 : ℝ) ^ (126 : ℤ) := by norm_num
  have p56 := two_zpow_pos 56
  have bx := b hx
  have by' := b hy
  obtain ⟨x, x1, x2, _, x4⟩ := round_mul ht.1 ht.1 (by linarith)
  obtain ⟨y, y1, y2, _, y4⟩ := round_mul ht.2 ht.2 (by linarith)
  have x4 := x4 (mul_self_nonneg _)
  have y4 := y4 (mul_self_nonneg _)
  have sx := mul_self_nonneg T.x
  have sy := mul_self_nonneg T.y
  rw [abs_of_nonneg sx] at x2 bx
  rw [abs_of_nonneg sy] at y2 by'
  have x2 := abs_le.1 x2
  have y2 := abs_le.1 y2
  have sm : (1 : ℝ) / 2 ^ 150 ≤ 1 / 2 ^ 40 := by norm_num
  have one : (1 : ℝ) ≤ (2 : ℝ) ^ (56 : ℤ) := by norm_num
  have sum : |x + y| ≤ 3 * (2 : ℝ) ^ (126 : ℤ) := by
    rw [abs_of_nonneg (by linarith)]; linarith
  obtain ⟨z, z1, z2⟩ := round_add x1 y1 sum
  rw [abs_of_nonneg (by linarith : 0 ≤ x + y)] at z2
  have z2 := abs_le.1 z2
  intro h
  have h : t.x * t.x + t.y * t.y < FloatExtra.epsilon := h
  rw [lt_iff z1 is_eps_f32] at h
  have e1 : T.x ^ 2 = T.x * T.x := sq _
  have e2 : T.y ^ 2 = T.y * T.y := sq _
  rw [e1, e2] at hf
  linarith

/-- the vector `v` against the exact gap `g` -/
def GapAns (e κ : ℝ) (v : V2 F32) (g : V2 ℝ) : Prop :=
  ∃ x, v.Is x ∧ V2.Within (e + κ * V2.norm g) x g ∧ |V2.norm x - V2.norm g| ≤ e + κ ^ 2 * V2.norm g

/-- the exact gap between two boxes -/
noncomputable def boxGap (h k T : V2 ℝ) : V2 ℝ := ⟨axisGap (h.x + k.x) T.x, axisGap (h.y + k.y) T.y⟩

theorem apart_gap (a b : Box2d F32) (t : V2 F32) {h k T : V2 ℝ} {M : ℝ} (hh : a.halfsize.Is h)
    (hk : b.halfsize.Is k) (ht : t.Is T) (hR : BoxRange M h k T) (hf : 1 / 2 ^ 22 ≤ T.x ^ 2 + T.y ^ 2)
    (hg : ApartAlong M (h.x + k.x) T.x (h.y + k.y) T.y ∨ ApartAlong M (h.y + k.y) T.y (h.x + k.x) T.x) :
    collidesRel a b t = .ok false ∧ penetratesRel a b t = .ok none ∧
    (∃ v, distanceToRel a b t = .ok (some v) ∧ GapAns (M / 2 ^ 16) (1 / 2 ^ 10) v (boxGap h k T)) ∧
    ∃ v, sdfvRel a b t = .ok (false, v) ∧ GapAns (M / 2 ^ 16) (1 / 8) v (boxGap h k T) := by
  have hd := initialDirection_far ht (hR.tx.trans hR.M28) (hR.ty.trans hR.M28) hf
  have W0 := add_nonneg hR.hx.1 hR.kx.1
  have H0 := add_nonneg hR.hy.1 hR.ky.1
  have main : ∃ v v', (sdfvMinkowski false false (extremePoint (LocalMinkowskiDiff2d.mk a b t)) t = .ok (false, V2.nan) ∧
      sdfvMinkowski true false (extremePoint (LocalMinkowskiDiff2d.mk a b t)) t = .ok (false, V2.nan) ∧
      sdfvMinkowski false true (extremePoint (LocalMinkowskiDiff2d.mk a b t)) t = .ok (false, v) ∧
      sdfvMinkowski true true (extremePoint (LocalMinkowskiDiff2d.mk a b t)) t = .ok (false, v')) ∧
      GapAns (M / 2 ^ 16) (1 / 2 ^ 10) v (boxGap h k T) ∧ GapAns (M / 2 ^ 16) (1 / 8) v' (boxGap h k T) := by
    rcases hg with hg | hg
    · obtain ⟨m, y1, y2, n, n1, n2⟩ := near_side hh.1 hk.1 ht.1 hh.2 hk.2 ht.2 hR.hx.1 hR.kx.1 hR.hx.2 hR.kx.2
        hR.tx hR.hy.1 hR.ky.1 hR.hy.2 hR.ky.2 hR.ty hR.M1 hR.M28 hg
      obtain ⟨o1, o2, ⟨v, o3, o4⟩, v', o5, o6⟩ := apartX (corners_box a b t) ht.1 ht.2 rfl rfl n
      obtain ⟨x, y, i1, i2, i3, i4, i5⟩ := near_bridge o4 W0 H0 hR.M1 (by norm_num) (by norm_num)
        (bit_value ht.1) (bit_value ht.2) hg.1 n1 n2
      obtain ⟨x', y', j1, j2, j3, j4, j5⟩ := near_bridge o6 W0 H0 hR.M1 (by norm_num) (by norm_num)
        (bit_value ht.1) (bit_value ht.2) hg.1 n1 n2
      exact ⟨v, v', ⟨o1, o2, o3, o5⟩, ⟨⟨x, y⟩, ⟨i1, i2⟩, ⟨i3, i4⟩, i5⟩, ⟨x', y'⟩, ⟨j1, j2⟩, ⟨j3, j4⟩, j5⟩
    · obtain ⟨m, y1, y2, n, n1, n2⟩ := near_side hh.2 hk.2 ht.2 hh.1 hk.1 ht.1 hR.hy.1 hR.ky.1 hR.hy.2 hR.ky.2
        hR.ty hR.hx.1 hR.kx.1 hR.hx.2 hR.kx.2 hR.tx hR.M1 hR.M28 hg
      obtain ⟨o1, o2, ⟨v, o3, o4⟩, v', o5, o6⟩ := apartY (corners_box a b t) ht.1 ht.2 rfl rfl n
      obtain ⟨x, y, i1, i2, i3, i4, i5⟩ := near_bridge o4 H0 W0 hR.M1 (by norm_num) (by norm_num)
        (bit_value ht.2) (bit_value ht.1) hg.1 n1 n2
      obtain ⟨x', y', j1, j2, j3, j4, j5⟩ := near_bridge o6 H0 W0 hR.M1 (by norm_num) (by norm_num)
        (bit_value ht.2) (bit_value ht.1) hg.1 n1 n2
      rw [norm_swap (axisGap (h.y + k.y) T.y)] at i3 i4 i5 j3 j4 j5
      rw [norm_swap x] at i5
      rw [norm_swap x'] at j5
      exact ⟨v, v', ⟨o1, o2, o3, o5⟩, ⟨⟨y, x⟩, ⟨i2, i1⟩, ⟨i4, i3⟩, i5⟩, ⟨y', x'⟩, ⟨j2, j1⟩, ⟨j4, j3⟩, j5⟩
  obtain ⟨v, v', ⟨o1, o2, o3, o5⟩, b1, b2⟩ := main
  refine ⟨?_, ?_, ⟨v, ?_, b1⟩, v', ?_, b2⟩
  · show (sdfvMinkowski false false _ (initialDirection t)).map _ = _
    rw [hd, o1]; rfl
  · show (sdfvMinkowski true false _ (initialDirection t)).map _ = _
    rw [hd, o2]; rfl
  · show (sdfvMinkowski false true _ (initialDirection t)).map _ = _
    rw [hd, o3]; rfl
  · show sdfvMinkowski true true _ (initialDirection t) = _
    rw [hd]; exact o5

/-- as sets -/
theorem GapAns.bridges {e κ : ℝ} {v : V2 F32} {h k T : V2 ℝ} (hg : GapAns e κ v (boxGap h k T))
    (hx : 0 ≤ h.x) (hy : 0 ≤ h.y) (kx : 0 ≤ k.x) (ky : 0 ≤ k.y) :
    Bridges e κ v (Region.pts (Box2d.mk h)) (shift T (Region.pts (Box2d.mk k))) := by
  obtain ⟨x, x1, x2, x3⟩ := hg
  exact ⟨x, _, x1, x2, x3, box_gap_touch hx hy kx ky, fun u hu => box_gap_least hx hy kx ky hu⟩

/-- Box2d v Box2d in binary32, boxes that are apart -/
theorem C84_f32_apart (a b : Box2d F32) (t : V2 F32) {h k T : V2 ℝ} {M : ℝ} (hh : a.halfsize.Is h)
    (hk : b.halfsize.Is k) (ht : t.Is T) (hR : BoxRange M h k T) (hf : 1 / 2 ^ 22 ≤ T.x ^ 2 + T.y ^ 2)
    (hg : ApartAlong M (h.x + k.x) T.x (h.y + k.y) T.y ∨ ApartAlong M (h.y + k.y) T.y (h.x + k.x) T.x) :
    collidesRel a b t = .ok false ∧ penetratesRel a b t = .ok none ∧
    (∃ v, distanceToRel a b t = .ok (some v) ∧
      Bridges (M / 2 ^ 16) (1 / 2 ^ 10) v (Region.pts (Box2d.mk h)) (shift T (Region.pts (Box2d.mk k)))) ∧
    ∃ v, sdfvRel a b t = .ok (false, v) ∧
      Bridges (M / 2 ^ 16) (1 / 8) v (Region.pts (Box2d.mk h)) (shift T (Region.pts (Box2d.mk k))) := by
  obtain ⟨o1, o2, ⟨v, o3, o4⟩, v', o5, o6⟩ := apart_gap a b t hh hk ht hR hf hg
  exact ⟨o1, o2, ⟨v, o3, o4.bridges hR.hx.1 hR.hy.1 hR.kx.1 hR.ky.1⟩, v', o5,
    o6.bridges hR.hx.1 hR.hy.1 hR.kx.1 hR.ky.1⟩

/-- a case that meets the hypotheses: a gap of 1 along x, overlapping along y; `M = 7` -/
example : ∃ (a b : Box2d F32) (t : V2 F32) (h k T : V2 ℝ), a.halfsize.Is h ∧ b.halfsize.Is k ∧ t.Is T ∧
    BoxRange 7 h k T ∧ T = ⟨7, -1⟩ ∧ h = ⟨3, 1⟩ ∧ k = ⟨3, 3⟩ ∧ 1 / 2 ^ 22 ≤ T.x ^ 2 + T.y ^ 2 ∧
    ApartAlong 7 (h.x + k.x) T.x (h.y + k.y) T.y := by
  have h3 : F32.Is (ofReal false 3) 3 := is_ofReal (by
    have := representable_int 3 (by norm_num)
    norm_num at this ⊢; exact this)
  have h7 : F32.Is (ofReal false 7) 7 := is_ofReal (by
    have := representable_int 7 (by norm_num)
    norm_num at this ⊢; exact this)
  refine ⟨⟨⟨ofReal false 3, 1⟩⟩, ⟨⟨ofReal false 3, ofReal false 3⟩⟩, ⟨ofReal false 7, -1⟩, ⟨3, 1⟩, ⟨3, 3⟩, ⟨7, -1⟩,
    ⟨h3, is_one⟩, ⟨h3, h3⟩, ⟨h7, is_neg is_one⟩, ⟨?_, ?_, ?_, ?_, ?_, ?_, ?_, ?_⟩, rfl, rfl, rfl, ?_, ?_, ?_⟩ <;>
    norm_num [abs_of_pos]

end

end Auburn
