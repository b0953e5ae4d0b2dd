import Verif.Lib.GjkNoisy

/-!
# Crossings of a ray by a closed polygon (library lemmas for C98)

The signed number of times a closed polygon crosses a ray.  Replacing an edge `a b` by `a p`, `p b` with `p` strictly to
the right of `a b` never lowers it, and as long as it is positive the ray meets an edge.  No convexity is needed.
-/

set_option linter.unusedSectionVars false
set_option synthInstance.maxSize 1000

namespace Auburn
open V2

section
variable {w a b c p o u : V2 ℝ}

open Classical in
/-- how the edge from `a` to `b` crosses the ray from the origin along `w`: `1` to the left, `-1` to the right -/
noncomputable def crossing (w a b : V2 ℝ) : ℤ :=
  if w.cross a < 0 then (if 0 ≤ w.cross b then (if 0 ≤ a.cross b then 1 else 0) else 0)
  else (if w.cross b < 0 then (if 0 ≤ b.cross a then -1 else 0) else 0)

/-- the three cross products of three points, seen along `w` -/
theorem cross_three (w a b p : V2 ℝ) :
    w.cross a * p.cross b + w.cross p * b.cross a + w.cross b * a.cross p = 0 := by
  simp only [cross_def]; ring

theorem right_iff (a b p : V2 ℝ) : (p - a).cross (b - a) = p.cross b + a.cross p - a.cross b := by
  simp only [cross_def, sub_x, sub_y]; ring

theorem cross_antisymm (a b : V2 ℝ) : b.cross a = -a.cross b := by simp only [cross_def]; ring

/-- **Adding a point on the right of an edge does not lower the number of crossings.** -/
theorem crossing_insert (w : V2 ℝ) (h : 0 < (p - a).cross (b - a)) : crossing w a b ≤ crossing w a p + crossing w p b := by
  rw [right_iff] at h
  have key := cross_three w a b p
  have ab := cross_antisymm a b
  have ap := cross_antisymm a p
  have pb := cross_antisymm p b
  unfold crossing
  by_cases ha : w.cross a < 0 <;> by_cases hb : w.cross b < 0 <;> by_cases hp : w.cross p < 0
  · simp only [ha, hb, hp, if_true, not_le.2 hb, not_le.2 hp, if_false]; norm_num
  · simp only [ha, hb, hp, if_true, not_le.2 hb, if_false, not_lt.1 hp]
    split_ifs with h1 h2 <;> norm_num
    have hp := not_lt.1 hp
    have h1 := not_le.1 h1
    nlinarith
  · simp only [ha, hb, hp, if_true, if_false, not_lt.1 hb, not_le.2 hp]
    split_ifs with h1 h2 <;> norm_num
    nlinarith
  · simp only [ha, hb, hp, if_true, if_false, not_lt.1 hb, not_lt.1 hp]
    split_ifs with h1 h2 <;> norm_num
    nlinarith
  · simp only [ha, hb, hp, if_true, if_false, not_le.2 hb, not_le.2 hp]
    split_ifs with h1 h2 <;> norm_num
    nlinarith
  · simp only [ha, hb, hp, if_true, if_false]
    split_ifs with h1 h2 <;> norm_num
    nlinarith
  · simp only [ha, hb, hp, if_true, if_false, not_lt.1 hb]
    split_ifs with h1 h2 <;> norm_num
    nlinarith
  · simp only [ha, hb, hp, if_false]; norm_num

/-- a crossing to the left meets the ray -/
theorem crossing_pos (h : 0 < crossing w a b) :
    ∃ t s : ℝ, 0 ≤ t ∧ t ≤ 1 ∧ 0 ≤ s ∧ a + scale t (b - a) = scale s w ∧ a ≠ b := by
  unfold crossing at h
  by_cases ha : w.cross a < 0
  · rw [if_pos ha] at h
    by_cases hb : 0 ≤ w.cross b
    · rw [if_pos hb] at h
      by_cases hc : 0 ≤ a.cross b
      · have hd : 0 < w.cross b - w.cross a := by linarith
        refine ⟨-w.cross a / (w.cross b - w.cross a), a.cross b / (w.cross b - w.cross a),
          div_nonneg (by linarith) hd.le, (div_le_one hd).2 (by linarith), div_nonneg hc hd.le, ?_, ?_⟩
        · ext
          · simp only [add_x, scale_x, sub_x]
            rw [div_mul_eq_mul_div, div_mul_eq_mul_div, add_div' _ _ _ hd.ne', div_left_inj' hd.ne']
            simp only [cross_def]; ring
          · simp only [add_y, scale_y, sub_y]
            rw [div_mul_eq_mul_div, div_mul_eq_mul_div, add_div' _ _ _ hd.ne', div_left_inj' hd.ne']
            simp only [cross_def]; ring
        · rintro rfl; linarith
      · rw [if_neg hc] at h; exact absurd h (by norm_num)
    · rw [if_neg hb] at h; exact absurd h (by norm_num)
  · rw [if_neg ha] at h
    split_ifs at h <;> exact absurd h (by norm_num)

/-- an edge that keeps the origin on its left is crossed to the left only -/
theorem crossing_nonneg (h : 0 < a.cross b) : 0 ≤ crossing w a b := by
  have := cross_antisymm a b
  unfold crossing
  split_ifs <;> first | linarith | norm_num

theorem crossing_one (h : 0 < a.cross b) (ha : w.cross a < 0) (hb : 0 ≤ w.cross b) : crossing w a b = 1 := by
  unfold crossing
  rw [if_pos ha, if_pos hb, if_pos h.le]

/-- the number of crossings of the ray from `o` along `w` -/
noncomputable def crossings (o w : V2 ℝ) (es : List (V2 ℝ × V2 ℝ)) : ℤ :=
  (es.map fun e => crossing w (e.1 - o) (e.2 - o)).sum

/-- the polygon goes around `o` -/
def Around (o : V2 ℝ) (es : List (V2 ℝ × V2 ℝ)) : Prop := ∀ w, lengthSq w = 1 → 0 < crossings o w es

theorem crossings_insert {E1 E2 : List (V2 ℝ × V2 ℝ)} (h : 0 < (p - a).cross (b - a)) :
    crossings o w (E1 ++ (a, b) :: E2) ≤ crossings o w (E1 ++ (a, p) :: (p, b) :: E2) := by
  unfold crossings
  simp only [List.map_append, List.map_cons, List.sum_append, List.sum_cons]
  have := crossing_insert (a := a - o) (b := b - o) (p := p - o) w (by
    have e1 : p - o - (a - o) = p - a := by ext <;> simp
    have e2 : b - o - (a - o) = b - a := by ext <;> simp
    rw [e1, e2]; exact h)
  linarith

theorem Around.insert {E1 E2 : List (V2 ℝ × V2 ℝ)} (hA : Around o (E1 ++ (a, b) :: E2)) (h : 0 < (p - a).cross (b - a)) :
    Around o (E1 ++ (a, p) :: (p, b) :: E2) := fun w hw => lt_of_lt_of_le (hA w hw) (crossings_insert h)

/-- the triangle goes around the points inside -/
theorem around_triangle (h1 : 0 < (a - o).cross (b - o)) (h2 : 0 < (b - o).cross (c - o)) (h3 : 0 < (c - o).cross (a - o)) :
    Around o [(a, b), (b, c), (c, a)] := by
  intro w hw
  unfold crossings
  simp only [List.map_cons, List.map_nil, List.sum_cons, List.sum_nil, add_zero]
  generalize a - o = a at *
  generalize b - o = b at *
  generalize c - o = c at *
  have key : w.cross a * b.cross c + w.cross b * c.cross a + w.cross c * a.cross b = 0 := by
    simp only [cross_def]; ring
  have n1 := crossing_nonneg (w := w) h1
  have n2 := crossing_nonneg (w := w) h2
  have n3 := crossing_nonneg (w := w) h3
  have hneg : ¬ (w.cross a < 0 ∧ w.cross b < 0 ∧ w.cross c < 0) := by
    rintro ⟨x, y, z⟩
    have := mul_neg_of_neg_of_pos x h2
    have := mul_neg_of_neg_of_pos y h3
    have := mul_neg_of_neg_of_pos z h1
    linarith
  have hpos : ¬ (0 ≤ w.cross a ∧ 0 ≤ w.cross b ∧ 0 ≤ w.cross c) := by
    rintro ⟨x, y, z⟩
    have q1 := mul_nonneg x h2.le
    have q2 := mul_nonneg y h3.le
    have q3 := mul_nonneg z h1.le
    have x0 : w.cross a = 0 := by
      have : w.cross a * b.cross c = 0 := by linarith
      exact (mul_eq_zero.1 this).resolve_right h2.ne'
    have y0 : w.cross b = 0 := by
      have : w.cross b * c.cross a = 0 := by linarith
      exact (mul_eq_zero.1 this).resolve_right h3.ne'
    have := frame_cross w a b
    rw [hw, x0, y0] at this
    linarith
  by_cases ha : w.cross a < 0 <;> by_cases hb : w.cross b < 0 <;> by_cases hc : w.cross c < 0
  · exact absurd ⟨ha, hb, hc⟩ hneg
  · rw [crossing_one h2 hb (not_lt.1 hc)]; linarith
  · rw [crossing_one h1 ha (not_lt.1 hb)]; linarith
  · rw [crossing_one h1 ha (not_lt.1 hb)]; linarith
  · rw [crossing_one h3 hc (not_lt.1 ha)]; linarith
  · rw [crossing_one h2 hb (not_lt.1 hc)]; linarith
  · rw [crossing_one h3 hc (not_lt.1 ha)]; linarith
  · exact absurd ⟨not_lt.1 ha, not_lt.1 hb, not_lt.1 hc⟩ hpos

theorem crossings_pos {es : List (V2 ℝ × V2 ℝ)} (h : 0 < crossings o w es) : ∃ e ∈ es, 0 < crossing w (e.1 - o) (e.2 - o) := by
  by_contra hcon
  push Not at hcon
  unfold crossings at h
  have : (es.map fun e => crossing w (e.1 - o) (e.2 - o)).sum ≤ 0 := by
    clear h
    induction es with
    | nil => simp
    | cons e es ih =>
      rw [List.map_cons, List.sum_cons]
      have h1 := hcon e List.mem_cons_self
      have h2 := ih fun e he => hcon e (List.mem_cons_of_mem _ he)
      linarith
  omega

/-- **A polygon around a point near the origin, all of whose edges stay away from the origin, reaches as far in every
direction.** -/
theorem Around.reach {es : List (V2 ℝ × V2 ℝ)} (hA : Around o es) {r s : ℝ} (hs : 0 < s) (hsr : s < r) (ho : lengthSq o < s ^ 2)
    (hr : ∀ e ∈ es, e.1 ≠ e.2 → ∀ t : ℝ, 0 ≤ t → t ≤ 1 → r ^ 2 ≤ lengthSq (e.1 + scale t (e.2 - e.1)))
    (hu : lengthSq u = 1) : ∃ e ∈ es, s ≤ u.dot e.1 ∨ s ≤ u.dot e.2 := by
  have hou : u.dot o < s := by
    have h1 := dot_sq_le u o
    rw [hu, one_mul] at h1
    exact lt_of_pow_lt_pow_left₀ 2 hs.le (lt_of_le_of_lt h1 ho)
  -- the direction from `o` to the point at distance `s`
  obtain ⟨q, hq⟩ : ∃ q, q = scale s u - o := ⟨_, rfl⟩
  have hq0 : 0 < lengthSq q := by
    rcases (lengthSq_nonneg q).lt_or_eq with h | h
    · exact h
    · exfalso
      have h0 : q = 0 := lengthSq_eq_zero.1 h.symm
      have h1 : u.dot q = s - u.dot o := by rw [hq, dot_sub, dot_scale, dot_self, hu, mul_one]
      rw [h0] at h1
      simp only [dot_def, zero_x, zero_y, mul_zero, add_zero] at h1
      have h2 : u.dot o = u.x * o.x + u.y * o.y := dot_def u o
      linarith
  obtain ⟨l, hl, hl2⟩ : ∃ l : ℝ, 0 < l ∧ l ^ 2 = lengthSq q := ⟨Real.sqrt (lengthSq q), Real.sqrt_pos.2 hq0, Real.sq_sqrt hq0.le⟩
  have hw : lengthSq (scale (1 / l) q) = 1 := by
    rw [lengthSq_scale, ← hl2, div_pow, one_pow, one_div_mul_cancel (by positivity)]
  obtain ⟨e, he, hc⟩ := crossings_pos (hA _ hw)
  obtain ⟨t, k, t0, t1, k0, e1, hne⟩ := crossing_pos hc
  have hne' : e.1 ≠ e.2 := fun h => hne (by rw [h])
  have hfar := hr e he hne' t t0 t1
  -- the crossing point
  have ec : e.1 + scale t (e.2 - e.1) = o + scale (k / l) q := by
    have e2 : e.2 - o - (e.1 - o) = e.2 - e.1 := by ext <;> simp
    rw [e2] at e1
    have ex := congrArg V2.x e1
    have ey := congrArg V2.y e1
    simp only [add_x, add_y, sub_x, sub_y, scale_x, scale_y] at ex ey
    ext
    · simp only [add_x, sub_x, scale_x]
      have : k / l * q.x = k * (1 / l * q.x) := by ring
      rw [this]; linarith
    · simp only [add_y, sub_y, scale_y]
      have : k / l * q.y = k * (1 / l * q.y) := by ring
      rw [this]; linarith
  have hk : 1 ≤ k / l := by
    by_contra hcon
    push Not at hcon
    have hk0 : 0 ≤ k / l := div_nonneg k0 hl.le
    -- inside the disc
    have hin : lengthSq (o + scale (k / l) q) ≤ s ^ 2 := by
      have h1 : lengthSq (o + scale (k / l) q) = (1 - k / l) * lengthSq o + k / l * lengthSq (scale s u) -
          k / l * (1 - k / l) * lengthSq q := by
        rw [hq]; simp only [lengthSq_def, add_x, add_y, sub_x, sub_y, scale_x, scale_y]; ring
      rw [h1, lengthSq_scale, hu, mul_one]
      have h2 := mul_le_mul_of_nonneg_left ho.le (show 0 ≤ 1 - k / l by linarith)
      have h3 := mul_nonneg (mul_nonneg hk0 (show 0 ≤ 1 - k / l by linarith)) hq0.le
      linarith
    rw [ec] at hfar
    have := pow_lt_pow_left₀ hsr hs.le two_ne_zero
    linarith
  -- the crossing point is beyond
  have hbeyond : s ≤ u.dot (e.1 + scale t (e.2 - e.1)) := by
    rw [ec, dot_add, dot_scale, hq, dot_sub, dot_scale, dot_self, hu, mul_one]
    have := mul_le_mul_of_nonneg_right hk (show 0 ≤ s - u.dot o by linarith)
    linarith
  rw [dot_add, dot_scale, dot_sub] at hbeyond
  refine ⟨e, he, ?_⟩
  by_contra hcon
  push Not at hcon
  have h1 := mul_le_mul_of_nonneg_left hcon.1.le (show 0 ≤ 1 - t by linarith)
  have h2 := mul_le_mul_of_nonneg_left hcon.2.le t0
  rcases eq_or_lt_of_le t0 with h0 | h0
  · rw [← h0] at hbeyond
    linarith [hcon.1]
  · have h3 := mul_lt_mul_of_pos_left hcon.2 h0
    linarith

end
end Auburn
