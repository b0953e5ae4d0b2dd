import Verif.Ieee.BoxBox

/-!
# C83: two boxes in binary32

The model run on IEEE-754 binary32 (`F32`) for two axis-aligned boxes of arbitrary binary32 size at an
arbitrary binary32 offset.  `M` bounds the half sizes and the offset.  If the boxes overlap by at least
`M / 2^20` along both axes, all four queries give the right answer without a panic, and the vectors are
right up to rounding.
-/

set_option linter.unusedSectionVars false
set_option synthInstance.maxSize 1000

namespace Auburn

open F32 V2 ExtremePoint2d Transformation2d

/-! ## specification -/

/-- `v` is finite, parallel to an axis, and within `e` (in each coordinate) of an exact vector `w` that
moves `X` out of `Y` such that they just touch; if `P`, no vector that moves `X` out of `Y` is shorter
than `w` by more than `κ` -/
def PushesOut (e κ : ℝ) (P : Prop) (v : V2 F32) (X Y : Set (V2 ℝ)) : Prop :=
  ∃ x w, v.Is x ∧ (x.x = 0 ∨ x.y = 0) ∧ V2.Within e x w ∧ TouchingAfter w X Y ∧
    (P → ∀ u, Separable (shift u X) Y → V2.norm w ≤ V2.norm u + κ)

/-- the half sizes are nonnegative, they and the offset are bounded by `M`, and `1 ≤ M ≤ 2^28` -/
structure BoxRange (M : ℝ) (h k T : V2 ℝ) : Prop where
  hx : 0 ≤ h.x ∧ h.x ≤ M
  hy : 0 ≤ h.y ∧ h.y ≤ M
  kx : 0 ≤ k.x ∧ k.x ≤ M
  ky : 0 ≤ k.y ∧ k.y ≤ M
  tx : |T.x| ≤ M
  ty : |T.y| ≤ M
  M1 : 1 ≤ M
  M28 : M ≤ (2 : ℝ) ^ (28 : ℤ)

/-! ## boxes as sets -/

/-- a line that separates two boxes leaves them apart along an axis -/
theorem box_separable {h k u T : V2 ℝ} (hx : 0 ≤ h.x) (hy : 0 ≤ h.y) (kx : 0 ≤ k.x) (ky : 0 ≤ k.y)
    (hs : Separable (shift u (Region.pts (Box2d.mk h))) (shift T (Region.pts (Box2d.mk k)))) :
    h.x + k.x ≤ |T.x - u.x| ∨ h.y + k.y ≤ |T.y - u.y| := by
  obtain ⟨n, n0, hn⟩ := hs
  by_contra hc
  push Not at hc
  obtain ⟨c1, c2⟩ := hc
  obtain ⟨σ, s1, s2⟩ : ∃ σ : ℝ, (σ = 1 ∨ σ = -1) ∧ σ * n.x = |n.x| := by
    rcases le_total 0 n.x with h | h
    · exact ⟨1, Or.inl rfl, by rw [abs_of_nonneg h, one_mul]⟩
    · exact ⟨-1, Or.inr rfl, by rw [abs_of_nonpos h, neg_one_mul]⟩
  obtain ⟨τ, t1, t2⟩ : ∃ σ : ℝ, (σ = 1 ∨ σ = -1) ∧ σ * n.y = |n.y| := by
    rcases le_total 0 n.y with h | h
    · exact ⟨1, Or.inl rfl, by rw [abs_of_nonneg h, one_mul]⟩
    · exact ⟨-1, Or.inr rfl, by rw [abs_of_nonpos h, neg_one_mul]⟩
  have sa : ∀ {σ x : ℝ}, (σ = 1 ∨ σ = -1) → 0 ≤ x → |σ * x| ≤ x := by
    rintro σ x (rfl | rfl) h
    · rw [one_mul, abs_of_nonneg h]
    · rw [neg_one_mul, abs_neg, abs_of_nonneg h]
  have key := hn (⟨σ * h.x, τ * h.y⟩ + u) ⟨_, ⟨sa s1 hx, sa t1 hy⟩, rfl⟩
    (⟨-(σ * k.x), -(τ * k.y)⟩ + T) ⟨_, ⟨by rw [abs_neg]; exact sa s1 kx, by rw [abs_neg]; exact sa t1 ky⟩, rfl⟩
  simp only [V2.dot, V2.add_x, V2.add_y] at key
  have e1 : |n.x| * (h.x + k.x) + |n.y| * (h.y + k.y) ≤ n.x * (T.x - u.x) + n.y * (T.y - u.y) := by
    rw [← s2, ← t2]; linarith
  have e2 : n.x * (T.x - u.x) ≤ |n.x| * |T.x - u.x| := by rw [← abs_mul]; exact le_abs_self _
  have e3 : n.y * (T.y - u.y) ≤ |n.y| * |T.y - u.y| := by rw [← abs_mul]; exact le_abs_self _
  have f1 : 0 ≤ |n.x| * (h.x + k.x - |T.x - u.x|) := mul_nonneg (abs_nonneg _) (by linarith)
  have f2 : 0 ≤ |n.y| * (h.y + k.y - |T.y - u.y|) := mul_nonneg (abs_nonneg _) (by linarith)
  have g1 : |n.x| * (h.x + k.x - |T.x - u.x|) = 0 := by linarith
  have g2 : |n.y| * (h.y + k.y - |T.y - u.y|) = 0 := by linarith
  apply n0
  refine V2.ext ?_ ?_
  · rcases mul_eq_zero.1 g1 with e | e
    · exact abs_eq_zero.1 e
    · linarith
  · rcases mul_eq_zero.1 g2 with e | e
    · exact abs_eq_zero.1 e
    · linarith

theorem abs_le_norm_x (u : V2 ℝ) : |u.x| ≤ V2.norm u := by
  unfold V2.norm
  rw [← Real.sqrt_sq_eq_abs]
  exact Real.sqrt_le_sqrt (by nlinarith [sq_nonneg u.y])
theorem abs_le_norm_y (u : V2 ℝ) : |u.y| ≤ V2.norm u := by
  unfold V2.norm
  rw [← Real.sqrt_sq_eq_abs]
  exact Real.sqrt_le_sqrt (by nlinarith [sq_nonneg u.x])

/-- a vector that moves one box out of the other is at least as long as the smaller overlap -/
theorem box_push_least {h k u T : V2 ℝ} (hx : 0 ≤ h.x) (hy : 0 ≤ h.y) (kx : 0 ≤ k.x) (ky : 0 ≤ k.y)
    (hs : Separable (shift u (Region.pts (Box2d.mk h))) (shift T (Region.pts (Box2d.mk k)))) :
    h.x + k.x - |T.x| ≤ V2.norm u ∨ h.y + k.y - |T.y| ≤ V2.norm u := by
  rcases box_separable hx hy kx ky hs with h | h
  · left
    have := abs_sub T.x u.x
    linarith [abs_le_norm_x u]
  · right
    have := abs_sub T.y u.y
    linarith [abs_le_norm_y u]

/-- two intervals that overlap share a point -/
theorem interval_touch {A B T : ℝ} (a0 : 0 ≤ A) (b0 : 0 ≤ B) (h : |T| < A + B) :
    ∃ y, |y| ≤ A ∧ |y - T| ≤ B := by
  have hp : 0 < A + B := (abs_nonneg T).trans_lt h
  refine ⟨T * (A / (A + B)), ?_, ?_⟩
  · rw [abs_mul, abs_of_nonneg (div_nonneg a0 hp.le), mul_div_assoc', div_le_iff₀ hp]
    nlinarith
  · have : T * (A / (A + B)) - T = -(T * (B / (A + B))) := by field_simp; ring
    rw [this, abs_neg, abs_mul, abs_of_nonneg (div_nonneg b0 hp.le), mul_div_assoc', div_le_iff₀ hp]
    nlinarith

theorem box_push_x {h k T : V2 ℝ} (hx : 0 ≤ h.x) (hy : 0 ≤ h.y) (kx : 0 ≤ k.x) (ky : 0 ≤ k.y)
    (ho : |T.y| < h.y + k.y) (s : Bool) :
    TouchingAfter ⟨-(sgn s * (h.x + k.x - sgn s * T.x)), 0⟩ (Region.pts (Box2d.mk h))
      (shift T (Region.pts (Box2d.mk k))) := by
  obtain ⟨y, y1, y2⟩ := interval_touch hy ky ho
  have ss : sgn s * sgn s = 1 := by rw [sgn_mul]; simp
  constructor
  · refine ⟨⟨T.x - sgn s * k.x, y⟩, ⟨⟨sgn s * h.x, y⟩, ⟨?_, y1⟩, ?_⟩, ⟨-(sgn s * k.x), y - T.y⟩, ⟨?_, y2⟩, ?_⟩
    · rw [abs_mul, abs_sgn, one_mul, abs_of_nonneg hx]
    · ext
      · simp only [V2.add_x]; linear_combination (-T.x) * ss
      · simp only [V2.add_y]; ring
    · rw [abs_neg, abs_mul, abs_sgn, one_mul, abs_of_nonneg kx]
    · ext
      · simp only [V2.add_x]; ring
      · simp only [V2.add_y]; ring
  · refine ⟨⟨sgn s, 0⟩, fun h => ?_, ?_⟩
    · have := congrArg V2.x h
      simp only [V2.zero_x] at this
      rw [this] at ss; norm_num at ss
    · rintro _ ⟨p, ⟨p1, _⟩, rfl⟩ _ ⟨q, ⟨q1, _⟩, rfl⟩
      simp only [V2.dot, V2.add_x, V2.add_y]
      have p1 : |p.x| ≤ h.x := p1
      have q1 : |q.x| ≤ k.x := q1
      have p1 := abs_le.1 p1
      have q1 := abs_le.1 q1
      cases s <;> simp only [sgn_true, sgn_false] <;> linarith

theorem box_push_y {h k T : V2 ℝ} (hx : 0 ≤ h.x) (hy : 0 ≤ h.y) (kx : 0 ≤ k.x) (ky : 0 ≤ k.y)
    (ho : |T.x| < h.x + k.x) (s : Bool) :
    TouchingAfter ⟨0, -(sgn s * (h.y + k.y - sgn s * T.y))⟩ (Region.pts (Box2d.mk h))
      (shift T (Region.pts (Box2d.mk k))) := by
  obtain ⟨y, y1, y2⟩ := interval_touch hx kx ho
  have ss : sgn s * sgn s = 1 := by rw [sgn_mul]; simp
  constructor
  · refine ⟨⟨y, T.y - sgn s * k.y⟩, ⟨⟨y, sgn s * h.y⟩, ⟨y1, ?_⟩, ?_⟩, ⟨y - T.x, -(sgn s * k.y)⟩, ⟨y2, ?_⟩, ?_⟩
    · rw [abs_mul, abs_sgn, one_mul, abs_of_nonneg hy]
    · ext
      · simp only [V2.add_x]; ring
      · simp only [V2.add_y]; linear_combination (-T.y) * ss
    · rw [abs_neg, abs_mul, abs_sgn, one_mul, abs_of_nonneg ky]
    · ext
      · simp only [V2.add_x]; ring
      · simp only [V2.add_y]; ring
  · refine ⟨⟨0, sgn s⟩, fun h => ?_, ?_⟩
    · have := congrArg V2.y h
      simp only [V2.zero_y] at this
      rw [this] at ss; norm_num at ss
    · rintro _ ⟨p, ⟨_, p1⟩, rfl⟩ _ ⟨q, ⟨_, q1⟩, rfl⟩
      simp only [V2.dot, V2.add_x, V2.add_y]
      have p1 : |p.y| ≤ h.y := p1
      have q1 : |q.y| ≤ k.y := q1
      have p1 := abs_le.1 p1
      have q1 := abs_le.1 q1
      cases s <;> simp only [sgn_true, sgn_false] <;> linarith

section
variable [env : F32Env]

/-! ## overlapping boxes -/

/-- Box2d v Box2d in binary32, boxes that overlap -/
theorem C83_f32_overlap (a b : Box2d F32) (t : V2 F32) {h k T : V2 ℝ} {M : ℝ} (hh : a.halfsize.Is h)
    (hk : b.halfsize.Is k) (ht : t.Is T) (hR : BoxRange M h k T)
    (hx : M / 2 ^ 20 ≤ h.x + k.x - |T.x|) (hy : M / 2 ^ 20 ≤ h.y + k.y - |T.y|) :
    collidesRel a b t = .ok true ∧ distanceToRel a b t = .ok none ∧
    ∃ v, penetratesRel a b t = .ok (some v) ∧ sdfvRel a b t = .ok (true, v) ∧
      PushesOut (M / 2 ^ 18) (M / 2 ^ 15) (1 ≤ h.x + k.x ∨ 1 ≤ h.y + k.y) v (Region.pts (Box2d.mk h))
        (shift T (Region.pts (Box2d.mk k))) := by
  have M1 := hR.M1
  have M0 : 0 < M := by linarith
  have M28 : M ≤ 2 ^ 28 := by exact_mod_cast hR.M28
  have cx := corner_inside hh.1 hk.1 ht.1 hR.hx.1 hR.kx.1 hR.hx.2 hR.kx.2 hR.tx hR.M28 M1 (by linarith)
  have cy := corner_inside hh.2 hk.2 ht.2 hR.hy.1 hR.ky.1 hR.hy.2 hR.ky.2 hR.ty hR.M28 M1 (by linarith)
  have hM30 : 4 * M ≤ (2 : ℝ) ^ (30 : ℤ) := by
    have : (2 : ℝ) ^ (30 : ℤ) = 4 * 2 ^ 28 := by norm_num
    rw [this]; linarith
  have hI : InsideRect (cornerC a.halfsize.x b.halfsize.x t.x) (cornerC a.halfsize.y b.halfsize.y t.y) := by
    constructor
    · intro s
      obtain ⟨m, m1, m2, m3, _⟩ := cx s
      exact ⟨m, m1, m2, m3.trans hM30⟩
    · intro s
      obtain ⟨m, m1, m2, m3, _⟩ := cy s
      exact ⟨m, m1, m2, m3.trans hM30⟩
  obtain ⟨ξ, η, w, g, R⟩ := hI.vals
  have unq : ∀ {c : F32} {s : Bool} {x y : ℝ}, F32.Is c (sgn s * x) → F32.Is c (sgn s * y) → x = y := by
    intro c s x y h1 h2
    have := h1.unique h2
    cases s <;> simpa using this
  have vx : ∀ s, ξ s ≤ 4 * M ∧ |ξ s - (h.x + k.x - sgn s * T.x)| ≤ 6 * (M / 2 ^ 24) := by
    intro s
    obtain ⟨m, m1, m2, m3, m4⟩ := cx s
    rw [unq (R.x s) m1]; exact ⟨m3, m4⟩
  have vy : ∀ s, η s ≤ 4 * M ∧ |η s - (h.y + k.y - sgn s * T.y)| ≤ 6 * (M / 2 ^ 24) := by
    intro s
    obtain ⟨m, m1, m2, m3, m4⟩ := cy s
    rw [unq (R.y s) m1]; exact ⟨m3, m4⟩
  have R := R.bound (fun s => (vx s).1) (fun s => (vy s).1) hM30
  obtain ⟨q1, q2, v, q3, q4, q5, q6⟩ := hI.answers R (corners_box a b t)
    (startDir_box ht (hR.tx.trans hR.M28) (hR.ty.trans hR.M28))
  refine ⟨?_, ?_, v, ?_, ?_, ?_⟩
  · show (sdfvMinkowski false false _ (initialDirection t)).map _ = _
    rw [q1]; rfl
  · show (sdfvMinkowski false true _ (initialDirection t)).map _ = _
    rw [q2]; rfl
  · show (sdfvMinkowski true false _ (initialDirection t)).map _ = _
    rw [q3]; rfl
  · exact q4
  have hxo : |T.x| < h.x + k.x := by linarith [div_pos M0 (by norm_num : (0 : ℝ) < 2 ^ 21)]
  have hyo : |T.y| < h.y + k.y := by linarith [div_pos M0 (by norm_num : (0 : ℝ) < 2 ^ 21)]
  -- the exact push for a side
  have px : ∀ s, PushX ξ s v → (1 ≤ h.x + k.x ∨ 1 ≤ h.y + k.y → ∀ r, ξ s ≤ ξ r + 105 * (4 * M / 2 ^ 24) ∧ ξ s ≤ η r + 105 * (4 * M / 2 ^ 24)) →
      PushesOut (M / 2 ^ 18) (M / 2 ^ 15) (1 ≤ h.x + k.x ∨ 1 ≤ h.y + k.y) v (Region.pts (Box2d.mk h))
        (shift T (Region.pts (Box2d.mk k))) := by
    rintro s ⟨x, x1, x2, x3⟩ hm
    have x3 := abs_le.1 x3
    have e1 := abs_le.1 (vx s).2
    have e2 := (vx s).1
    refine ⟨⟨x, 0⟩, ⟨-(sgn s * (h.x + k.x - sgn s * T.x)), 0⟩, ⟨x1, x2⟩, Or.inr rfl, ⟨?_, ?_⟩,
      box_push_x hR.hx.1 hR.hy.1 hR.kx.1 hR.ky.1 hyo s, fun hP u hu => ?_⟩
    · simp only
      rw [abs_le]
      cases s <;> simp only [sgn_true, sgn_false, one_mul, neg_mul, neg_neg] at * <;> constructor <;> linarith
    · simp only [sub_self, abs_zero]; positivity
    · have hm := hm hP
      have hw : V2.norm ⟨-(sgn s * (h.x + k.x - sgn s * T.x)), 0⟩ = |h.x + k.x - sgn s * T.x| := by
        unfold V2.norm
        rw [← Real.sqrt_sq_eq_abs]
        congr 1
        have : sgn s * sgn s = 1 := by rw [sgn_mul]; simp
        linear_combination (h.x + k.x - sgn s * T.x) ^ 2 * this
      have hpos : 0 ≤ h.x + k.x - sgn s * T.x := by
        have := abs_lt.1 hxo
        cases s <;> simp only [sgn_true, sgn_false, one_mul, neg_mul] <;> linarith
      rw [hw, abs_of_nonneg hpos]
      rcases box_push_least hR.hx.1 hR.hy.1 hR.kx.1 hR.ky.1 hu with hu | hu
      · rcases le_total 0 T.x with h0 | h0
        · rw [abs_of_nonneg h0] at hu
          have e3 := abs_le.1 (vx true).2
          rw [sgn_true, one_mul] at e3
          linarith [(hm true).1]
        · rw [abs_of_nonpos h0] at hu
          have e3 := abs_le.1 (vx false).2
          rw [sgn_false, neg_one_mul] at e3
          linarith [(hm false).1]
      · rcases le_total 0 T.y with h0 | h0
        · rw [abs_of_nonneg h0] at hu
          have e3 := abs_le.1 (vy true).2
          rw [sgn_true, one_mul] at e3
          linarith [(hm true).2]
        · rw [abs_of_nonpos h0] at hu
          have e3 := abs_le.1 (vy false).2
          rw [sgn_false, neg_one_mul] at e3
          linarith [(hm false).2]
  have py : ∀ s, PushY η s v → (1 ≤ h.x + k.x ∨ 1 ≤ h.y + k.y → ∀ r, η s ≤ ξ r + 105 * (4 * M / 2 ^ 24) ∧ η s ≤ η r + 105 * (4 * M / 2 ^ 24)) →
      PushesOut (M / 2 ^ 18) (M / 2 ^ 15) (1 ≤ h.x + k.x ∨ 1 ≤ h.y + k.y) v (Region.pts (Box2d.mk h))
        (shift T (Region.pts (Box2d.mk k))) := by
    rintro s ⟨x, x2, x1, x3⟩ hm
    have x3 := abs_le.1 x3
    have e1 := abs_le.1 (vy s).2
    have e2 := (vy s).1
    refine ⟨⟨0, x⟩, ⟨0, -(sgn s * (h.y + k.y - sgn s * T.y))⟩, ⟨x2, x1⟩, Or.inl rfl, ⟨?_, ?_⟩,
      box_push_y hR.hx.1 hR.hy.1 hR.kx.1 hR.ky.1 hxo s, fun hP u hu => ?_⟩
    · simp only [sub_self, abs_zero]; positivity
    · simp only
      rw [abs_le]
      cases s <;> simp only [sgn_true, sgn_false, one_mul, neg_mul, neg_neg] at * <;> constructor <;> linarith
    · have hm := hm hP
      have hw : V2.norm ⟨0, -(sgn s * (h.y + k.y - sgn s * T.y))⟩ = |h.y + k.y - sgn s * T.y| := by
        unfold V2.norm
        rw [← Real.sqrt_sq_eq_abs]
        congr 1
        have : sgn s * sgn s = 1 := by rw [sgn_mul]; simp
        linear_combination (h.y + k.y - sgn s * T.y) ^ 2 * this
      have hpos : 0 ≤ h.y + k.y - sgn s * T.y := by
        have := abs_lt.1 hyo
        cases s <;> simp only [sgn_true, sgn_false, one_mul, neg_mul] <;> linarith
      rw [hw, abs_of_nonneg hpos]
      rcases box_push_least hR.hx.1 hR.hy.1 hR.kx.1 hR.ky.1 hu with hu | hu
      · rcases le_total 0 T.x with h0 | h0
        · rw [abs_of_nonneg h0] at hu
          have e3 := abs_le.1 (vx true).2
          rw [sgn_true, one_mul] at e3
          linarith [(hm true).1]
        · rw [abs_of_nonpos h0] at hu
          have e3 := abs_le.1 (vx false).2
          rw [sgn_false, neg_one_mul] at e3
          linarith [(hm false).1]
      · rcases le_total 0 T.y with h0 | h0
        · rw [abs_of_nonneg h0] at hu
          have e3 := abs_le.1 (vy true).2
          rw [sgn_true, one_mul] at e3
          linarith [(hm true).2]
        · rw [abs_of_nonpos h0] at hu
          have e3 := abs_le.1 (vy false).2
          rw [sgn_false, neg_one_mul] at e3
          linarith [(hm false).2]
  have big : 1 ≤ h.x + k.x ∨ 1 ≤ h.y + k.y → 1 ≤ w ∨ 1 ≤ g := by
    rintro (h1 | h1)
    · left
      have a1 := abs_le.1 R.w1
      have e1 := abs_le.1 (vx true).2
      have e2 := abs_le.1 (vx false).2
      rw [sgn_true, one_mul] at e1
      rw [sgn_false, neg_one_mul] at e2
      linarith [R.xp true, R.xp false, abs_nonneg T.x, hx]
    · right
      have a1 := abs_le.1 R.h1
      have e1 := abs_le.1 (vy true).2
      have e2 := abs_le.1 (vy false).2
      rw [sgn_true, one_mul] at e1
      rw [sgn_false, neg_one_mul] at e2
      linarith [R.yp true, R.yp false, abs_nonneg T.y, hy]
  by_cases hP : 1 ≤ h.x + k.x ∨ 1 ≤ h.y + k.y
  · rcases q6 (big hP) with ⟨s, s1, s2⟩ | ⟨s, s1, s2⟩
    · exact px s s1 fun _ => s2
    · exact py s s1 fun _ => s2
  · rcases q5 with ⟨s, s1⟩ | ⟨s, s1⟩
    · exact px s s1 fun h => absurd h hP
    · exact py s s1 fun h => absurd h hP

/-- a case that meets the hypotheses: sizes and offset that are not powers of two, `M = 3` -/
example : ∃ (a b : Box2d F32) (t : V2 F32) (h k T : V2 ℝ), a.halfsize.Is h ∧ b.halfsize.Is k ∧ t.Is T ∧
    BoxRange 3 h k T ∧ T = ⟨3, -1⟩ ∧ h = ⟨3, 1⟩ ∧ k = ⟨1, 3⟩ ∧
    3 / 2 ^ 20 ≤ h.x + k.x - |T.x| ∧ 3 / 2 ^ 20 ≤ h.y + k.y - |T.y| ∧ (1 ≤ h.x + k.x ∨ 1 ≤ h.y + k.y) := by
  have h3 : F32.Is (ofReal false 3) 3 := is_ofReal (by
    have := representable_int 3 (by norm_num)
    norm_num at this ⊢; exact this)
  refine ⟨⟨⟨ofReal false 3, 1⟩⟩, ⟨⟨1, ofReal false 3⟩⟩, ⟨ofReal false 3, -1⟩, ⟨3, 1⟩, ⟨1, 3⟩, ⟨3, -1⟩,
    ⟨h3, is_one⟩, ⟨is_one, h3⟩, ⟨h3, is_neg is_one⟩, ⟨?_, ?_, ?_, ?_, ?_, ?_, ?_, ?_⟩, rfl, rfl, rfl, ?_, ?_, ?_⟩ <;>
    norm_num [abs_of_pos]

end

end Auburn
