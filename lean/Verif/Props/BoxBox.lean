import Verif.Props.Distance

/-!
# C45: axis-aligned boxes
-/

set_option linter.unusedSectionVars false
set_option synthInstance.maxSize 1000

namespace Auburn

open V2 ExtremePoint2d Transformation2d Auburn.Invertible Composable

section
variable {K : Type} [Field K] [LinearOrder K] [IsStrictOrderedRing K] [FloatExtra K]
  [ExactFloat K] {M : Set (V2 K)} {S : V2 K → V2 K}

/-- the first point found is already the nearest -/
theorem gjkDistance_nearest {q : V2 K} (hS : ∀ d, IsExtreme M d (S d))
    (hq : ∀ m ∈ M, lengthSq q ≤ q.dot m) (n : Nat) :
    gjkDistance S (n + 1) (-q) q [q] = .ok (false, -q) := by
  have h1 : (S (-q)).dot (-q) ≤ -lengthSq q := by
    have := hq _ (hS (-q)).1
    rw [dot_comm, neg_dot]; linarith
  have h2 : (S (-q)).dot (-q) ≤ 0 := h1.trans (neg_nonpos.2 (lengthSq_nonneg q))
  have h3 : (S (-q)).dot (-q) ≤ q.dot (-q) := by
    have e : q.dot (-q) = -lengthSq q := by simp only [dot_def, lengthSq_def, neg_x, neg_y]; ring
    rw [e]; exact h1
  simp only [gjkDistance, if_pos (And.intro h2 h3), distanceToOrigin]

/-- the search meets a wall orthogonal to `g` and finds the gap vector `g` -/
theorem gjkDistance_wall {g : V2 K} (hg : g ≠ 0) {α β : K} (hαβ : α * β < 0)
    (hS : ∀ d, IsExtreme M d (S d)) (hwall : ∀ m ∈ M, g.dot m ≤ -lengthSq g)
    (ha : S (-(-g + scale β g.perp)) = -g + scale α g.perp)
    (hsmall : (1 / 2 ^ 23 : K) ^ 2 ≤ (β - α) ^ 4 * lengthSq g ^ 3) (n : Nat) :
    gjkDistance S (n + 2) (-(-g + scale β g.perp)) (-g + scale β g.perp) [-g + scale β g.perp] =
      .ok (false, g) := by
  have hL := lengthSq_pos.2 hg
  set L := lengthSq g with hLd
  have hβ : β ≠ 0 := by rintro rfl; simp at hαβ
  have hne : β - α ≠ 0 := by
    intro h
    have : β = α := by linarith
    rw [this] at hαβ; nlinarith [mul_self_nonneg α]
  have hLx : L = g.x * g.x + g.y * g.y := by rw [hLd, lengthSq_def]
  have e1 : (-g + scale α g.perp).dot (-(-g + scale β g.perp)) = -L - α * β * L := by
    rw [hLx]; simp [dot_def, perp]; ring
  have e2 : (-g + scale β g.perp).dot (-(-g + scale β g.perp)) = -L - β * β * L := by
    rw [hLx]; simp [dot_def, perp]; ring
  have h1 : ¬ ((-g + scale α g.perp).dot (-(-g + scale β g.perp)) ≤ 0 ∧
      (-g + scale α g.perp).dot (-(-g + scale β g.perp)) ≤
      (-g + scale β g.perp).dot (-(-g + scale β g.perp))) := by
    rintro ⟨_, h⟩
    rw [e1, e2] at h
    have := mul_neg_of_neg_of_pos hαβ hL
    have := mul_pos (mul_self_pos.2 hβ) hL
    linarith
  have e3 : ((-g + scale β g.perp) - (-g + scale α g.perp)).dot (-(-g + scale α g.perp)) =
      (α * α - α * β) * L := by
    rw [hLx]; simp [dot_def, perp]; ring
  have h3 : ((-g + scale β g.perp) - (-g + scale α g.perp)).dot (-(-g + scale α g.perp)) ≥ 0 := by
    rw [e3]
    refine mul_nonneg ?_ hL.le
    nlinarith [mul_self_nonneg α]
  have e4 : ((-g + scale β g.perp) - (-g + scale α g.perp)).crossAba (-(-g + scale α g.perp)) =
      scale ((β - α) ^ 2 * L) g := by
    rw [hLx]
    ext <;> simp [crossAba, V2.cross, perp] <;> ring
  have h4 : ¬ directionTooSmall (scale ((β - α) ^ 2 * L) g) := by
    unfold directionTooSmall
    rw [lengthSq_scale, ExactFloat.epsilon_eq, not_lt, ← hLd]
    calc (1 / 2 ^ 23 : K) * (1 / 2 ^ 23) = (1 / 2 ^ 23) ^ 2 := by ring
      _ ≤ _ := hsmall
      _ = _ := by ring
  have hk : 0 < (β - α) ^ 2 * L := by positivity
  rw [gjkDistance]
  simp only [ha, if_neg h1, addPoint, if_pos h3, e4, Bool.false_eq_true, if_false, overrideDir,
    if_neg h4]
  set k := (β - α) ^ 2 * L with hkd
  have h5 : (S (scale k g)).dot (scale k g) ≤ -(k * L) := by
    have := hwall _ (hS (scale k g)).1
    rw [dot_scale, dot_comm]
    have := mul_le_mul_of_nonneg_left this hk.le
    linarith
  have h6 : (S (scale k g)).dot (scale k g) ≤ 0 := by
    have := mul_pos hk hL
    linarith
  have h7 : (S (scale k g)).dot (scale k g) ≤ (-g + scale α g.perp).dot (scale k g) := by
    refine h5.trans (le_of_eq ?_)
    rw [hLx]; simp [dot_def, perp]; ring
  rw [gjkDistance]
  simp only [if_pos (And.intro h6 h7), distanceToOrigin]
  have e5 : ((-g + scale β g.perp) - (-g + scale α g.perp)).dot
      ((-g + scale β g.perp) - (-g + scale α g.perp)) = (β - α) ^ 2 * L := by
    rw [hLx]; simp [dot_def, perp]; ring
  rw [dot_comm, e3, e5]
  have et : (α * α - α * β) * L / ((β - α) ^ 2 * L) = -α / (β - α) := by
    have : L ≠ 0 := hL.ne'
    field_simp; ring
  rw [et]
  have hα : α ≠ 0 := by rintro rfl; simp at hαβ
  have ht : 0 < -α / (β - α) ∧ -α / (β - α) < 1 := by
    rcases lt_or_gt_of_ne hα with h | h
    · have hb : 0 < β := by
        by_contra hb; push Not at hb; nlinarith
      refine ⟨div_pos (by linarith) (by linarith), (div_lt_one (by linarith)).2 (by linarith)⟩
    · have hb : β < 0 := by
        by_contra hb; push Not at hb; nlinarith
      refine ⟨div_pos_of_neg_of_neg (by linarith) (by linarith), ?_⟩
      rw [div_lt_one_of_neg (by linarith)]; linarith
  rw [if_neg (not_le.2 ht.1), if_neg (not_le.2 ht.2)]
  simp only [Except.ok.injEq, Prod.mk.injEq, true_and]
  ext <;> simp [perp] <;> field_simp <;> ring

/-! ## the difference of two axis-aligned boxes -/

/-- the support point of the difference, per axis -/
theorem boxS_x (a b : Box2d K) (p d : V2 K) :
    (0 < d.x → (extremePoint (LocalMinkowskiDiff2d.mk a b p) d).x =
      a.halfsize.x + b.halfsize.x - p.x) ∧
    (d.x < 0 → (extremePoint (LocalMinkowskiDiff2d.mk a b p) d).x =
      -(a.halfsize.x + b.halfsize.x) - p.x) := by
  constructor
  · intro h
    have h' : -d.x < 0 := by linarith
    simp [extremePoint, apply, unapplyNormal, ExactFloat.signum_pos _ h, ExactFloat.signum_neg _ h']
    ring
  · intro h
    have h' : 0 < -d.x := by linarith
    simp [extremePoint, apply, unapplyNormal, ExactFloat.signum_neg _ h, ExactFloat.signum_pos _ h']
    ring

theorem boxS_y (a b : Box2d K) (p d : V2 K) :
    (0 < d.y → (extremePoint (LocalMinkowskiDiff2d.mk a b p) d).y =
      a.halfsize.y + b.halfsize.y - p.y) ∧
    (d.y < 0 → (extremePoint (LocalMinkowskiDiff2d.mk a b p) d).y =
      -(a.halfsize.y + b.halfsize.y) - p.y) := by
  constructor
  · intro h
    have h' : -d.y < 0 := by linarith
    simp [extremePoint, apply, unapplyNormal, ExactFloat.signum_pos _ h, ExactFloat.signum_neg _ h']
    ring
  · intro h
    have h' : 0 < -d.y := by linarith
    simp [extremePoint, apply, unapplyNormal, ExactFloat.signum_neg _ h, ExactFloat.signum_pos _ h']
    ring

theorem box_diff_mem {a b : Box2d K} {p m : V2 K}
    (hm : m ∈ minkDiff (Region.pts a) (placed p b)) :
    |m.x + p.x| ≤ a.halfsize.x + b.halfsize.x ∧ |m.y + p.y| ≤ a.halfsize.y + b.halfsize.y := by
  obtain ⟨u, ⟨h1, h2⟩, _, ⟨w, ⟨h3, h4⟩, rfl⟩, rfl⟩ := hm
  have e1 : (u - apply p w).x + p.x = u.x - w.x := by simp [apply]; ring
  have e2 : (u - apply p w).y + p.y = u.y - w.y := by simp [apply]; ring
  rw [e1, e2]
  exact ⟨(abs_sub _ _).trans (add_le_add h1 h3), (abs_sub _ _).trans (add_le_add h2 h4)⟩

/-- per-axis gap between two intervals with centre distance `p` and half sizes adding up to `h` -/
def axisGap (h p : K) : K := if h < p then p - h else if p < -h then p + h else 0

theorem axisGap_cases {h p : K} (h0 : 0 ≤ h) :
    (h < p ∧ axisGap h p = p - h) ∨ (p < -h ∧ axisGap h p = p + h) ∨
      (|p| ≤ h ∧ axisGap h p = 0) := by
  unfold axisGap
  split_ifs with h1 h2
  · exact Or.inl ⟨h1, rfl⟩
  · exact Or.inr (Or.inl ⟨h2, rfl⟩)
  · exact Or.inr (Or.inr ⟨abs_le.2 ⟨by linarith, by linarith⟩, rfl⟩)

/-- an interval `{m | |m + p| ≤ h}` lies beyond its gap -/
theorem axisGap_wall {h p m : K} (h0 : 0 ≤ h) (hm : |m + p| ≤ h) :
    axisGap h p * m ≤ -(axisGap h p * axisGap h p) := by
  obtain ⟨h1, h2⟩ := abs_le.1 hm
  rcases axisGap_cases (p := p) h0 with ⟨h3, e⟩ | ⟨h3, e⟩ | ⟨h3, e⟩ <;> rw [e]
  · nlinarith
  · nlinarith
  · simp

theorem distanceToRel_box (a b : Box2d K) (p v : V2 K) (hp : (1 / 2 ^ 23 : K) ≤ lengthSq p)
    (h : gjkDistance (extremePoint (LocalMinkowskiDiff2d.mk a b p)) iterationLimit
      (-(extremePoint (LocalMinkowskiDiff2d.mk a b p) p)) (extremePoint (LocalMinkowskiDiff2d.mk a b p) p)
      [extremePoint (LocalMinkowskiDiff2d.mk a b p) p] = .ok (false, v)) :
    distanceToRel a b p = .ok (some v) := by
  have hd : initialDirection (applyOrigin p) = p := by
    unfold initialDirection
    rw [ExactFloat.epsilon_eq, if_neg]
    · rfl
    · exact not_lt.2 hp
  show Except.map _ (gjkDistance _ iterationLimit
    (-(extremePoint _ (initialDirection (applyOrigin p)))) (extremePoint _ (initialDirection (applyOrigin p)))
      [extremePoint _ (initialDirection (applyOrigin p))]) = _
  rw [hd, h]; rfl

/-- Axis-aligned boxes with a gap: `distance_to` is exactly the vector of per-axis gaps.
`eps ≤ |p|²` and `eps ≤ h² gap` exclude only configurations below the resolution of the search
directions (`h` is the summed half size along the facing sides). -/
theorem C45_distance_to (a b : Box2d K) (p : V2 K)
    (ha : 0 ≤ a.halfsize.x ∧ 0 ≤ a.halfsize.y) (hb : 0 ≤ b.halfsize.x ∧ 0 ≤ b.halfsize.y)
    (hp : (1 / 2 ^ 23 : K) ≤ lengthSq p)
    (hgap : a.halfsize.x + b.halfsize.x < |p.x| ∨ a.halfsize.y + b.halfsize.y < |p.y|)
    (hx : |p.y| < a.halfsize.y + b.halfsize.y → (1 / 2 ^ 23 : K) ≤
      (a.halfsize.y + b.halfsize.y) ^ 2 * |axisGap (a.halfsize.x + b.halfsize.x) p.x|)
    (hy : |p.x| < a.halfsize.x + b.halfsize.x → (1 / 2 ^ 23 : K) ≤
      (a.halfsize.x + b.halfsize.x) ^ 2 * |axisGap (a.halfsize.y + b.halfsize.y) p.y|) :
    distanceToRel a b p = .ok (some ⟨axisGap (a.halfsize.x + b.halfsize.x) p.x,
      axisGap (a.halfsize.y + b.halfsize.y) p.y⟩) := by
  apply distanceToRel_box a b p _ hp
  have hS := (convexPair_box_box a b p ha hb ⟨1, zero_le_one, similarity_vec2 p⟩).support
  set S := extremePoint (LocalMinkowskiDiff2d.mk a b p) with hSd
  have hBx : ∀ d : V2 K, |(S d).x + p.x| ≤ a.halfsize.x + b.halfsize.x := fun d =>
    (box_diff_mem (hS d).1).1
  have hBy : ∀ d : V2 K, |(S d).y + p.y| ≤ a.halfsize.y + b.halfsize.y := fun d =>
    (box_diff_mem (hS d).1).2
  have sx := boxS_x a b p
  have sy := boxS_y a b p
  rw [← hSd] at sx sy
  have hX0 : 0 ≤ a.halfsize.x + b.halfsize.x := add_nonneg ha.1 hb.1
  have hY0 : 0 ≤ a.halfsize.y + b.halfsize.y := add_nonneg ha.2 hb.2
  set X := a.halfsize.x + b.halfsize.x with hX
  set Y := a.halfsize.y + b.halfsize.y with hY
  set gx := axisGap X p.x with hgx
  set gy := axisGap Y p.y with hgy
  have hM : ∀ m ∈ minkDiff (Region.pts a) (placed p b), gx * m.x ≤ -(gx * gx) ∧
      gy * m.y ≤ -(gy * gy) := fun m hm =>
    ⟨axisGap_wall hX0 (box_diff_mem hm).1, axisGap_wall hY0 (box_diff_mem hm).2⟩
  -- the first point
  have q0x : X ≤ |p.x| → (S p).x = -gx := by
    intro h
    rcases axisGap_cases (p := p.x) hX0 with ⟨h3, e⟩ | ⟨h3, e⟩ | ⟨h3, e⟩
    · rw [(sx p).1 (by linarith), hgx, e]; ring
    · rw [(sx p).2 (by linarith), hgx, e]; ring
    · have h4 : |p.x| = X := le_antisymm h3 h
      rw [hgx, e]
      rcases lt_trichotomy p.x 0 with h5 | h5 | h5
      · rw [(sx p).2 h5, ← h4, abs_of_neg h5]; ring
      · have h6 := hBx p
        rw [← h4, h5, add_zero, abs_zero] at h6
        rw [abs_eq_zero.1 (le_antisymm h6 (abs_nonneg _))]; ring
      · rw [(sx p).1 h5, ← h4, abs_of_pos h5]; ring
  have q0y : Y ≤ |p.y| → (S p).y = -gy := by
    intro h
    rcases axisGap_cases (p := p.y) hY0 with ⟨h3, e⟩ | ⟨h3, e⟩ | ⟨h3, e⟩
    · rw [(sy p).1 (by linarith), hgy, e]; ring
    · rw [(sy p).2 (by linarith), hgy, e]; ring
    · have h4 : |p.y| = Y := le_antisymm h3 h
      rw [hgy, e]
      rcases lt_trichotomy p.y 0 with h5 | h5 | h5
      · rw [(sy p).2 h5, ← h4, abs_of_neg h5]; ring
      · have h6 := hBy p
        rw [← h4, h5, add_zero, abs_zero] at h6
        rw [abs_eq_zero.1 (le_antisymm h6 (abs_nonneg _))]; ring
      · rw [(sy p).1 h5, ← h4, abs_of_pos h5]; ring
  have nearest : S p = -⟨gx, gy⟩ → gjkDistance S iterationLimit (-(S p)) (S p) [S p] =
      .ok (false, ⟨gx, gy⟩) := by
    intro h
    have := gjkDistance_nearest (q := S p) hS (by
      intro m hm
      rw [h]
      obtain ⟨h1, h2⟩ := hM m hm
      simp only [lengthSq_def, dot_def, neg_x, neg_y]
      linarith) 19
    rw [h, neg_neg] at this
    rw [h, neg_neg]; exact this
  by_cases h1 : X ≤ |p.x|
  · by_cases h2 : Y ≤ |p.y|
    · exact nearest (V2.ext (q0x h1) (q0y h2))
    · -- gap along x only
      push Not at h2
      have hgy0 : gy = 0 := by
        rcases axisGap_cases (p := p.y) hY0 with ⟨h3, e⟩ | ⟨h3, e⟩ | ⟨h3, e⟩
        · have := le_abs_self p.y; linarith
        · have := neg_abs_le p.y; linarith
        · exact e
      have hXlt : X < |p.x| := hgap.resolve_right (not_lt.2 h2.le)
      have hgxs : (0 < gx ∧ 0 < p.x ∧ gx = p.x - X) ∨ (gx < 0 ∧ p.x < 0 ∧ gx = p.x + X) := by
        rcases axisGap_cases (p := p.x) hX0 with ⟨h3, e⟩ | ⟨h3, e⟩ | ⟨h3, e⟩
        · exact Or.inl ⟨by rw [hgx, e]; linarith, by linarith, e⟩
        · exact Or.inr ⟨by rw [hgx, e]; linarith, by linarith, e⟩
        · exact absurd h3 (not_le.2 hXlt)
      have hgx0 : gx ≠ 0 := by rcases hgxs with h | h <;> [exact h.1.ne'; exact h.1.ne]
      by_cases hy0 : (S p).y = 0
      · refine nearest (V2.ext (q0x h1) ?_)
        rw [hy0]; simp [hgy0]
      obtain ⟨hyl, hyu⟩ := abs_lt.1 h2
      obtain ⟨hql, hqu⟩ := abs_le.1 (hBy p)
      -- the second point
      have ax : (S (-(S p))).x = -gx := by
        have e : (-(S p)).x = gx := by rw [neg_x, q0x h1, neg_neg]
        rcases hgxs with ⟨h3, _, h4⟩ | ⟨h3, _, h4⟩
        · rw [(sx _).1 (by rw [e]; exact h3), h4]; ring
        · rw [(sx _).2 (by rw [e]; exact h3), h4]; ring
      have ay : ((S p).y * (S (-(S p))).y < 0) ∧ Y ^ 2 ≤ ((S p).y - (S (-(S p))).y) ^ 2 := by
        rcases lt_or_gt_of_ne hy0 with h3 | h3
        · have hpy : p.y ≤ 0 := by
            by_contra h4; push Not at h4
            have := (sy p).1 h4; linarith
          rw [(sy (-(S p))).1 (by rw [neg_y]; linarith)]
          refine ⟨mul_neg_of_neg_of_pos h3 (by linarith), ?_⟩
          nlinarith
        · have hpy : 0 ≤ p.y := by
            by_contra h4; push Not at h4
            have := (sy p).2 h4; linarith
          rw [(sy (-(S p))).2 (by rw [neg_y]; linarith)]
          refine ⟨mul_neg_of_pos_of_neg h3 (by linarith), ?_⟩
          nlinarith
      have eq0 : S p = -⟨gx, gy⟩ + scale ((S p).y / gx) (V2.perp ⟨gx, gy⟩) := by
        ext
        · simp [perp, q0x h1, hgy0]
        · simp [perp, hgy0]; field_simp
      have eqa : S (-(S p)) = -⟨gx, gy⟩ + scale ((S (-(S p))).y / gx) (V2.perp ⟨gx, gy⟩) := by
        ext
        · simp [perp, ax, hgy0]
        · simp [perp, hgy0]; field_simp
      have hg0 : (⟨gx, gy⟩ : V2 K) ≠ 0 := fun h => hgx0 (congrArg V2.x h)
      have hab : (S (-(S p))).y / gx * ((S p).y / gx) < 0 := by
        rw [div_mul_div_comm, mul_comm]
        exact div_neg_of_neg_of_pos ay.1 (mul_self_pos.2 hgx0)
      have := gjkDistance_wall (g := ⟨gx, gy⟩) hg0 hab hS (by
          intro m hm
          simp only [dot_def, lengthSq_def]
          obtain ⟨h1, h2⟩ := hM m hm
          linarith) (by rw [← eq0]; exact eqa) (by
          have e : ((S p).y / gx - (S (-(S p))).y / gx) ^ 4 * lengthSq (⟨gx, gy⟩ : V2 K) ^ 3 =
              (((S p).y - (S (-(S p))).y) ^ 2 * |gx|) ^ 2 := by
            rw [mul_pow, sq_abs, lengthSq_def, hgy0]
            field_simp; ring
          rw [e]
          refine pow_le_pow_left₀ (by positivity) ((hx h2).trans ?_) 2
          exact mul_le_mul_of_nonneg_right ay.2 (abs_nonneg _)) 18
      rw [← eq0] at this
      exact this
  · push Not at h1
    have hYlt : Y < |p.y| := hgap.resolve_left (not_lt.2 h1.le)
    have h2 : Y ≤ |p.y| := hYlt.le
    have hgx0 : gx = 0 := by
      rcases axisGap_cases (p := p.x) hX0 with ⟨h3, e⟩ | ⟨h3, e⟩ | ⟨h3, e⟩
      · have := le_abs_self p.x; linarith
      · have := neg_abs_le p.x; linarith
      · exact e
    have hgys : (0 < gy ∧ 0 < p.y ∧ gy = p.y - Y) ∨ (gy < 0 ∧ p.y < 0 ∧ gy = p.y + Y) := by
      rcases axisGap_cases (p := p.y) hY0 with ⟨h3, e⟩ | ⟨h3, e⟩ | ⟨h3, e⟩
      · exact Or.inl ⟨by rw [hgy, e]; linarith, by linarith, e⟩
      · exact Or.inr ⟨by rw [hgy, e]; linarith, by linarith, e⟩
      · exact absurd h3 (not_le.2 hYlt)
    have hgy0 : gy ≠ 0 := by rcases hgys with h | h <;> [exact h.1.ne'; exact h.1.ne]
    by_cases hx0 : (S p).x = 0
    · refine nearest (V2.ext ?_ (q0y h2))
      rw [hx0]; simp [hgx0]
    obtain ⟨hxl, hxu⟩ := abs_lt.1 h1
    obtain ⟨hql, hqu⟩ := abs_le.1 (hBx p)
    have ay : (S (-(S p))).y = -gy := by
      have e : (-(S p)).y = gy := by rw [neg_y, q0y h2, neg_neg]
      rcases hgys with ⟨h3, _, h4⟩ | ⟨h3, _, h4⟩
      · rw [(sy _).1 (by rw [e]; exact h3), h4]; ring
      · rw [(sy _).2 (by rw [e]; exact h3), h4]; ring
    have ax : ((S p).x * (S (-(S p))).x < 0) ∧ X ^ 2 ≤ ((S p).x - (S (-(S p))).x) ^ 2 := by
      rcases lt_or_gt_of_ne hx0 with h3 | h3
      · have hpx : p.x ≤ 0 := by
          by_contra h4; push Not at h4
          have := (sx p).1 h4; linarith
        rw [(sx (-(S p))).1 (by rw [neg_x]; linarith)]
        refine ⟨mul_neg_of_neg_of_pos h3 (by linarith), ?_⟩
        nlinarith
      · have hpx : 0 ≤ p.x := by
          by_contra h4; push Not at h4
          have := (sx p).2 h4; linarith
        rw [(sx (-(S p))).2 (by rw [neg_x]; linarith)]
        refine ⟨mul_neg_of_pos_of_neg h3 (by linarith), ?_⟩
        nlinarith
    have eq0 : S p = -⟨gx, gy⟩ + scale (-(S p).x / gy) (V2.perp ⟨gx, gy⟩) := by
      ext
      · simp [perp, hgx0]; field_simp
      · simp [perp, q0y h2, hgx0]
    have eqa : S (-(S p)) = -⟨gx, gy⟩ + scale (-(S (-(S p))).x / gy) (V2.perp ⟨gx, gy⟩) := by
      ext
      · simp [perp, hgx0]; field_simp
      · simp [perp, ay, hgx0]
    have hg0 : (⟨gx, gy⟩ : V2 K) ≠ 0 := fun h => hgy0 (congrArg V2.y h)
    have hab : -(S (-(S p))).x / gy * (-(S p).x / gy) < 0 := by
      rw [div_mul_div_comm, mul_comm, neg_mul_neg]
      exact div_neg_of_neg_of_pos ax.1 (mul_self_pos.2 hgy0)
    have := gjkDistance_wall (g := ⟨gx, gy⟩) hg0 hab hS (by
        intro m hm
        simp only [dot_def, lengthSq_def]
        obtain ⟨h1, h2⟩ := hM m hm
        linarith) (by rw [← eq0]; exact eqa) (by
        have e : (-(S p).x / gy - -(S (-(S p))).x / gy) ^ 4 * lengthSq (⟨gx, gy⟩ : V2 K) ^ 3 =
            (((S p).x - (S (-(S p))).x) ^ 2 * |gy|) ^ 2 := by
          rw [mul_pow, sq_abs, lengthSq_def, hgx0]
          field_simp; ring
        rw [e]
        refine pow_le_pow_left₀ (by positivity) ((hy h1).trans ?_) 2
        exact mul_le_mul_of_nonneg_right ax.2 (abs_nonneg _)) 18
    rw [← eq0] at this
    exact this

/-- The per-axis gap is the vector a user expects: it brings the boxes into contact and no shorter
vector does. -/
theorem axisGap_shortest (a b : Box2d K) (p : V2 K)
    (ha : 0 ≤ a.halfsize.x ∧ 0 ≤ a.halfsize.y) (hb : 0 ≤ b.halfsize.x ∧ 0 ≤ b.halfsize.y)
    (w : V2 K) (hw : Touch (shift w (Region.pts a)) (placed p b)) :
    |axisGap (a.halfsize.x + b.halfsize.x) p.x| ≤ |w.x| ∧
      |axisGap (a.halfsize.y + b.halfsize.y) p.y| ≤ |w.y| := by
  obtain ⟨h1, h2⟩ := box_diff_mem (shift_touch_iff.1 hw)
  have key : ∀ {h q m : K}, 0 ≤ h → |-m + q| ≤ h → |axisGap h q| ≤ |m| := by
    intro h q m h0 hm
    obtain ⟨h3, h4⟩ := abs_le.1 hm
    rcases axisGap_cases (p := q) h0 with ⟨h5, e⟩ | ⟨h5, e⟩ | ⟨h5, e⟩ <;> rw [e]
    · rw [abs_of_pos (by linarith), abs_of_pos (by linarith)]; linarith
    · rw [abs_of_neg (by linarith), abs_of_neg (by linarith)]; linarith
    · rw [abs_zero]; exact abs_nonneg _
  exact ⟨key (add_nonneg ha.1 hb.1) h1, key (add_nonneg ha.2 hb.2) h2⟩

/-- C45 against the specification: for axis-aligned boxes with a gap, `distance_to` returns a vector
that brings them into contact, and every vector that does is at least as long in each coordinate
(so also in length): the shortest vector, which in general (C44) need not be found. -/
theorem C45_distance_to_shortest (a b : Box2d K) (p : V2 K)
    (ha : 0 ≤ a.halfsize.x ∧ 0 ≤ a.halfsize.y) (hb : 0 ≤ b.halfsize.x ∧ 0 ≤ b.halfsize.y)
    (hp : (1 / 2 ^ 23 : K) ≤ lengthSq p)
    (hgap : a.halfsize.x + b.halfsize.x < |p.x| ∨ a.halfsize.y + b.halfsize.y < |p.y|)
    (hx : |p.y| < a.halfsize.y + b.halfsize.y → (1 / 2 ^ 23 : K) ≤
      (a.halfsize.y + b.halfsize.y) ^ 2 * |axisGap (a.halfsize.x + b.halfsize.x) p.x|)
    (hy : |p.x| < a.halfsize.x + b.halfsize.x → (1 / 2 ^ 23 : K) ≤
      (a.halfsize.x + b.halfsize.x) ^ 2 * |axisGap (a.halfsize.y + b.halfsize.y) p.y|) :
    ∃ v, distanceToRel a b p = .ok (some v) ∧ Touch (shift v (Region.pts a)) (placed p b) ∧
      ∀ w, Touch (shift w (Region.pts a)) (placed p b) →
        |v.x| ≤ |w.x| ∧ |v.y| ≤ |w.y| ∧ lengthSq v ≤ lengthSq w := by
  have hd := C45_distance_to a b p ha hb hp hgap hx hy
  refine ⟨_, hd, C43_distance_to_contact
    (convexPair_box_box a b p ha hb ⟨1, zero_le_one, similarity_vec2 p⟩) _ hd, fun w hw => ?_⟩
  obtain ⟨h1, h2⟩ := axisGap_shortest a b p ha hb w hw
  refine ⟨h1, h2, ?_⟩
  simp only [lengthSq_def]
  have := mul_self_le_mul_self (abs_nonneg _) h1
  have := mul_self_le_mul_self (abs_nonneg _) h2
  simp only [abs_mul_abs_self] at *
  linarith

end

section
attribute [local instance] ratFloat
attribute [local instance] ratFloat_exact

/-- concrete case of `C45_distance_to`: gap along `x` only -/
example : distanceToRel (⟨⟨1, 2⟩⟩ : Box2d ℚ) (⟨⟨3, 1⟩⟩ : Box2d ℚ) (⟨-6, 1⟩ : V2 ℚ) =
    .ok (some ⟨-2, 0⟩) := by
  have := C45_distance_to (⟨⟨1, 2⟩⟩ : Box2d ℚ) (⟨⟨3, 1⟩⟩ : Box2d ℚ) (⟨-6, 1⟩ : V2 ℚ)
    (by norm_num) (by norm_num) (by norm_num [lengthSq_def]) (by norm_num)
    (by norm_num [axisGap]) (by norm_num [axisGap])
  rw [this]; norm_num [axisGap]

/-- concrete case: gap along both axes (nearest corners) -/
example : distanceToRel (⟨⟨1, 2⟩⟩ : Box2d ℚ) (⟨⟨3, 1⟩⟩ : Box2d ℚ) (⟨7, -5⟩ : V2 ℚ) =
    .ok (some ⟨3, -2⟩) := by
  have := C45_distance_to (⟨⟨1, 2⟩⟩ : Box2d ℚ) (⟨⟨3, 1⟩⟩ : Box2d ℚ) (⟨7, -5⟩ : V2 ℚ)
    (by norm_num) (by norm_num) (by norm_num [lengthSq_def]) (by norm_num)
    (by norm_num [axisGap]) (by norm_num [axisGap])
  rw [this]; norm_num [axisGap]

end
end Auburn
