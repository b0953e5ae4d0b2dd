import Verif.Lib.Gjk

/-!
# One step of the simplex search (library lemmas, exact arithmetic)
-/

set_option linter.unusedSectionVars false
set_option synthInstance.maxSize 1000

namespace Auburn

open V2

section
variable {K : Type} [Field K] [LinearOrder K] [IsStrictOrderedRing K]
variable {M : Set (V2 K)}

/-- three points case: the foot of the origin on the old edge is a point of `M` whose distance is
bounded by the length of the new direction -/
theorem EdgeInv.near {L : List (V2 K)} {d b c a : V2 K} (h : EdgeInv M L d b c) (hM : Convex K M)
    (ha : 0 < d.dot a) : ∃ m ∈ M, lengthSq m ^ 3 ≤ lengthSq (outNormal a b c) := by
  refine ⟨_, h.foot hM, ?_⟩
  have hD := lengthSq_pos.2 h.hd
  have hH := h.height ha
  obtain ⟨c1, _, _, _, c5⟩ := h.coords a
  have hlen : d.dot b ^ 2 ≤ (d.cross b - d.cross c) ^ 2 := by
    have h1 := h.len
    have h2 := frame_lengthSq d (b - c)
    rw [dot_sub, cross_sub, h.perp, sub_self] at h2
    nlinarith
  have hβ : d.dot b ^ 2 ≤ (d.dot a - d.dot b) ^ 2 := by
    have := h.le
    nlinarith
  have e1 : lengthSq (scale (d.dot b / lengthSq d) d) = d.dot b ^ 2 / lengthSq d := by
    rw [lengthSq_scale]; field_simp
  rw [e1, div_pow, div_le_iff₀ (pow_pos hD 3)]
  have e2 : lengthSq (outNormal a b c) * lengthSq d ^ 3 =
      (lengthSq d * lengthSq (b - a)) * (lengthSq d * (b - a).cross (c - a)) ^ 2 := by
    rw [outNormal_lengthSq]; ring
  rw [e2, c1, c5]
  have q1 : d.dot b ^ 2 ≤ (d.dot a - d.dot b) ^ 2 + (d.cross a - d.cross b) ^ 2 := by
    have := sq_nonneg (d.cross a - d.cross b); linarith
  have q0 := sq_nonneg (d.dot b)
  calc (d.dot b ^ 2) ^ 3 = d.dot b ^ 2 * (d.dot b ^ 2 * d.dot b ^ 2) := by ring
    _ ≤ ((d.dot a - d.dot b) ^ 2 + (d.cross a - d.cross b) ^ 2) *
        ((d.dot a - d.dot b) ^ 2 * (d.cross b - d.cross c) ^ 2) :=
      mul_le_mul q1 (mul_le_mul hβ hlen q0 (sq_nonneg _)) (mul_nonneg q0 q0)
        (add_nonneg (sq_nonneg _) (sq_nonneg _))
    _ = _ := by ring

/-- three points case: when the origin is strictly inside both new edges it is a point of `M` -/
theorem EdgeInv.capture {L : List (V2 K)} {d b c a : V2 K} (h : EdgeInv M L d b c)
    (hM : Convex K M) (haM : a ∈ M) (ha : 0 < d.dot a)
    (h1 : (outNormal a b c).dot (-a) < 0) (h2 : (outNormal a c b).dot (-a) < 0) :
    (0 : V2 K) ∈ M := by
  obtain ⟨σ, hσ, hlat⟩ := h.orient
  have hH := h.height ha
  have hD := lengthSq_pos.2 h.hd
  have hD2 : 0 < lengthSq d ^ 2 := pow_pos hD 2
  have hyx : 0 < σ * d.cross c - σ * d.cross b := sub_pos.2 hlat.2.2
  have e1 : lengthSq d ^ 2 * (outNormal a b c).dot (-a) = (d.dot a - d.dot b) *
      (σ * d.cross c - σ * d.cross b) *
        (-d.dot b * (σ * d.cross a) + d.dot a * (σ * d.cross b)) := by
    rw [h.side a]
    linear_combination (-((d.dot a - d.dot b) * ((d.cross c - d.cross b) *
      (-d.dot b * d.cross a + d.dot a * d.cross b)))) * hσ
  have e2 : lengthSq d ^ 2 * (outNormal a c b).dot (-a) = -((d.dot a - d.dot b) *
      (σ * d.cross c - σ * d.cross b) *
        (-d.dot b * (σ * d.cross a) + d.dot a * (σ * d.cross c))) := by
    rw [h.symm.side a, ← h.perp]
    linear_combination ((d.dot a - d.dot b) * ((d.cross c - d.cross b) *
      (-d.dot b * d.cross a + d.dot a * d.cross c))) * hσ
  have hpos := mul_pos hH hyx
  set X := -d.dot b * (σ * d.cross a) + d.dot a * (σ * d.cross b) with hX
  set Y := -d.dot b * (σ * d.cross a) + d.dot a * (σ * d.cross c) with hY
  have x0 : X < 0 := by
    by_contra hn
    have q1 := mul_nonneg hpos.le (not_lt.1 hn)
    have q2 := mul_neg_of_pos_of_neg hD2 h1
    linarith
  have y0 : 0 < Y := by
    by_contra hn
    have q1 := mul_nonpos_of_nonneg_of_nonpos hpos.le (not_lt.1 hn)
    have q2 := mul_neg_of_pos_of_neg hD2 h2
    linarith
  have hβ : 0 ≤ -d.dot b := by linarith [h.le]
  have hα := ha
  -- weights
  have hYX : 0 < Y - X := by linarith
  have hp : (Y / (Y - X)) • b + (-X / (Y - X)) • c ∈ M :=
    hM h.bM h.cM (div_nonneg y0.le hYX.le) (div_nonneg (by linarith) hYX.le)
      (by rw [← add_div, ← sub_eq_add_neg]; exact div_self hYX.ne')
  have h0 := hM hp haM (div_nonneg hα.le hH.le) (div_nonneg hβ hH.le)
    (by rw [← add_div, ← sub_eq_add_neg]; exact div_self hH.ne')
  have hσ0 : σ ≠ 0 := by rintro rfl; simp at hσ
  have e : (d.dot a / (d.dot a - d.dot b)) • ((Y / (Y - X)) • b + (-X / (Y - X)) • c) +
      (-d.dot b / (d.dot a - d.dot b)) • a = 0 := by
    apply frame_zero h.hd
    · rw [dot_add, dot_smul, dot_add, dot_smul, dot_smul, dot_smul, ← h.perp]
      field_simp
      ring
    · apply mul_left_cancel₀ hσ0
      rw [mul_zero, cross_add, smul_eq_scale, cross_scale, cross_add, smul_eq_scale, cross_scale,
        smul_eq_scale, cross_scale, smul_eq_scale, cross_scale]
      have hXY : Y - X = d.dot a * (σ * d.cross c - σ * d.cross b) := by rw [hX, hY]; ring
      have hne : σ * d.cross c - σ * d.cross b ≠ 0 := hyx.ne'
      have e3 : d.dot a / (d.dot a - d.dot b) *
          (Y / (Y - X) * d.cross b + -X / (Y - X) * d.cross c) =
          (Y * d.cross b - X * d.cross c) /
            ((d.dot a - d.dot b) * (σ * d.cross c - σ * d.cross b)) := by
        rw [hXY]; field_simp; ring
      have hne2 : d.cross c - d.cross b ≠ 0 := by
        intro h0
        exact hne (by rw [← mul_sub, h0, mul_zero])
      rw [e3, hX, hY]
      field_simp
      ring
  rwa [e] at h0

/-! ## two points -/

theorem crossAba_dot (a b v : V2 K) : (a.crossAba b).dot v = a.cross b * a.cross v := by
  simp only [V2.crossAba, dot_def, cross_def]; ring
theorem crossAba_lengthSq (a b : V2 K) :
    lengthSq (a.crossAba b) = lengthSq a * a.cross b ^ 2 := by
  simp only [V2.crossAba, lengthSq_def, cross_def]; ring

theorem cross_le_sq {a b : V2 K} (h : a.dot b ≤ 0) :
    (b - a).cross (-a) ^ 2 ≤ lengthSq (b - a) ^ 2 := by
  have e : (b - a).cross (-a) ^ 2 = lengthSq a * lengthSq b - a.dot b ^ 2 := by
    simp only [cross_def, lengthSq_def, dot_def, sub_x, sub_y, neg_x, neg_y]; ring
  have e2 : lengthSq (b - a) = lengthSq a + lengthSq b - 2 * a.dot b := by
    simp only [lengthSq_def, dot_def, sub_x, sub_y]; ring
  rw [e, e2]
  have h1 := lengthSq_nonneg a
  have h2 := lengthSq_nonneg b
  nlinarith [sq_nonneg (a.dot b), mul_nonneg h1 h2, mul_nonneg h1 (neg_nonneg.2 h),
    mul_nonneg h2 (neg_nonneg.2 h), sq_nonneg (lengthSq a), sq_nonneg (lengthSq b)]

/-- two points case: the foot of the origin on the segment -/
theorem near_two {a b : V2 K} (hM : Convex K M) (ha : a ∈ M) (hb : b ∈ M) (hab : a.dot b < 0) :
    ∃ m ∈ M, lengthSq m ^ 3 ≤ lengthSq ((b - a).crossAba (-a)) := by
  have hA := lengthSq_nonneg a
  have hB := lengthSq_nonneg b
  have e2 : lengthSq (b - a) = lengthSq a + lengthSq b - 2 * a.dot b := by
    simp only [lengthSq_def, dot_def, sub_x, sub_y]; ring
  have hQ : 0 < lengthSq (b - a) := by rw [e2]; linarith
  have hm : ((lengthSq b - a.dot b) / lengthSq (b - a)) • a +
      ((lengthSq a - a.dot b) / lengthSq (b - a)) • b ∈ M :=
    hM ha hb (div_nonneg (by linarith) hQ.le) (div_nonneg (by linarith) hQ.le)
      (by rw [← add_div, div_eq_one_iff_eq hQ.ne', e2]; ring)
  refine ⟨_, hm, ?_⟩
  have e3 : lengthSq (((lengthSq b - a.dot b) / lengthSq (b - a)) • a +
      ((lengthSq a - a.dot b) / lengthSq (b - a)) • b) =
      (b - a).cross (-a) ^ 2 / lengthSq (b - a) := by
    have : ((lengthSq b - a.dot b) / lengthSq (b - a)) • a +
      ((lengthSq a - a.dot b) / lengthSq (b - a)) • b = scale (1 / lengthSq (b - a))
        (scale (lengthSq b - a.dot b) a + scale (lengthSq a - a.dot b) b) := by
      ext <;> simp <;> ring
    rw [this, lengthSq_scale, div_pow, one_pow, div_mul_eq_mul_div, one_mul,
      div_eq_div_iff (pow_pos hQ 2).ne' hQ.ne']
    simp only [cross_def, lengthSq_def, dot_def, sub_x, sub_y, neg_x, neg_y, add_x, add_y,
      scale_x, scale_y]; ring
  rw [e3, crossAba_lengthSq, div_pow, div_le_iff₀ (pow_pos hQ 3)]
  have h1 := cross_le_sq hab.le
  have h0 := sq_nonneg ((b - a).cross (-a))
  calc ((b - a).cross (-a) ^ 2) ^ 3 = (b - a).cross (-a) ^ 2 *
        ((b - a).cross (-a) ^ 2 * (b - a).cross (-a) ^ 2) := by ring
    _ ≤ (b - a).cross (-a) ^ 2 * (lengthSq (b - a) ^ 2 * lengthSq (b - a) ^ 2) :=
      mul_le_mul_of_nonneg_left (mul_le_mul h1 h1 h0 (sq_nonneg _)) h0
    _ = _ := by ring

theorem edge_two {a b : V2 K} (haM : IsExtreme M (-b) a) (hb : b ∈ M) (hPb : PInv M b)
    (ha : 0 < (-b).dot a) (hne : (b - a).crossAba (-a) ≠ 0) :
    EdgeInv M [a, b] ((b - a).crossAba (-a)) a b := by
  rw [neg_dot] at ha
  have hba : b.dot a = a.dot b := dot_comm b a
  have hA := lengthSq_nonneg a
  have hB := lengthSq_nonneg b
  have hab : a ≠ b := by rintro rfl; rw [dot_self] at ha; linarith
  have hperp : ((b - a).crossAba (-a)).dot a = ((b - a).crossAba (-a)).dot b := by
    have h : ((b - a).crossAba (-a)).dot (b - a) = 0 := by
      rw [crossAba_dot, cross_self, mul_zero]
    rw [dot_sub] at h; linarith
  have hval : ((b - a).crossAba (-a)).dot a = -(b - a).cross (-a) ^ 2 := by
    rw [crossAba_dot, cross_neg]; ring
  refine ⟨hne, hperp, ?_, ?_, ?_, hab, ?_, haM.1, hb, ?_, ?_, ⟨-b, haM.2, by rw [neg_dot]; linarith⟩,
    hPb⟩
  · rw [hval]; have := sq_nonneg ((b - a).cross (-a)); linarith
  · rw [sub_dot, dot_self]; linarith
  · rw [sub_dot, dot_self]; linarith
  · rw [hval, crossAba_lengthSq, neg_sq, lengthSq_sub_comm a b]
    have h1 := cross_le_sq (a := a) (b := b) (by linarith)
    have := mul_le_mul_of_nonneg_right h1 (sq_nonneg ((b - a).cross (-a)))
    linarith [this]
  · intro e he
    rcases List.mem_cons.1 he with rfl | he
    · exact haM.1
    · rw [List.mem_singleton.1 he]; exact hb
  · intro e he
    rcases List.mem_cons.1 he with rfl | he
    · exact ⟨le_refl _, fun _ => ⟨0, le_refl _, zero_le_one, by ext <;> simp⟩⟩
    · rw [List.mem_singleton.1 he]
      exact ⟨hperp.symm.le, fun _ => ⟨1, zero_le_one, le_refl _, by ext <;> simp⟩⟩

/-- the direction vanishes: the origin lies on the segment, and the override keeps the invariant -/
theorem edge_two_zero {a b : V2 K} (haM : IsExtreme M (-b) a) (hb : b ∈ M) (hPb : PInv M b)
    (ha : 0 < (-b).dot a) (hz : (b - a).crossAba (-a) = 0) :
    EdgeInv M [a, b] (-b).perp a b := by
  rw [neg_dot] at ha
  have hba : b.dot a = a.dot b := dot_comm b a
  have hA := lengthSq_nonneg a
  have hB := lengthSq_nonneg b
  have hab : a ≠ b := by rintro rfl; rw [dot_self] at ha; linarith
  have hQ : 0 < lengthSq (b - a) := lengthSq_pos.2 (sub_ne_zero.2 hab.symm)
  have hc : (b - a).cross (-a) = 0 := by
    have h1 := crossAba_lengthSq (b - a) (-a)
    rw [hz, (lengthSq_eq_zero (a := (0 : V2 K))).2 rfl] at h1
    exact pow_eq_zero_iff (by norm_num) |>.1 ((mul_eq_zero.1 h1.symm).resolve_left hQ.ne')
  have h1 : (-b).perp.dot a = 0 := by
    rw [← hc]; simp only [cross_def, dot_def, sub_x, sub_y, neg_x, neg_y, perp_x, perp_y]; ring
  have h2 : (-b).perp.dot b = 0 := by
    simp only [dot_def, neg_x, neg_y, perp_x, perp_y]; ring
  have hd : (-b).perp ≠ 0 := by
    rw [← lengthSq_pos]
    have : lengthSq (-b).perp = lengthSq b := by
      simp only [lengthSq_def, neg_x, neg_y, perp_x, perp_y]; ring
    rw [this]; exact lengthSq_pos.2 hPb.ne_zero
  refine ⟨hd, h1.trans h2.symm, h1.le, ?_, ?_, hab, ?_, haM.1, hb, ?_, ?_,
    ⟨-b, haM.2, by rw [neg_dot]; linarith⟩, hPb⟩
  · rw [sub_dot, dot_self]; linarith
  · rw [sub_dot, dot_self]; linarith
  · rw [h1]
    have := mul_nonneg (lengthSq_nonneg (a - b)) (lengthSq_nonneg (-b).perp)
    linarith
  · intro e he
    rcases List.mem_cons.1 he with rfl | he
    · exact haM.1
    · rw [List.mem_singleton.1 he]; exact hb
  · intro e he
    rcases List.mem_cons.1 he with rfl | he
    · exact ⟨le_refl _, fun _ => ⟨0, le_refl _, zero_le_one, by ext <;> simp⟩⟩
    · rw [List.mem_singleton.1 he]
      exact ⟨by rw [h1, h2], fun _ => ⟨1, zero_le_one, le_refl _, by ext <;> simp⟩⟩

/-! ## the invariant of the search -/

/-- invariant of the search: `L` lists the visited points -/
inductive GInv (M : Set (V2 K)) : List (V2 K) → V2 K → List (V2 K) → Prop
  | start (d) (hd : d ≠ 0) : GInv M [] d []
  | point (b) (hb : b ∈ M) (hP : PInv M b) : GInv M [b] (-b) [b]
  | edge (L d b c) (h : EdgeInv M L d b c) : GInv M L d [b, c]

theorem GInv.dir_ne {L : List (V2 K)} {d pts} (h : GInv M L d pts) : d ≠ 0 := by
  cases h with
  | start d hd => exact hd
  | point b hb hP => exact neg_ne_zero.2 hP.ne_zero
  | edge L d b c h => exact h.hd

theorem GInv.visited {L : List (V2 K)} {d pts} (h : GInv M L d pts) : ∀ e ∈ L, d.dot e ≤ 0 := by
  cases h with
  | start d hd => simp
  | point b hb hP =>
    intro e he
    rw [List.mem_singleton.1 he, neg_dot, dot_self]
    have := lengthSq_nonneg b; linarith
  | edge L d b c h => intro e he; exact (h.below e he).1.trans h.le

theorem GInv.length {L : List (V2 K)} {d pts} (h : GInv M L d pts) : pts.length ≤ 2 := by
  cases h <;> simp

/-- what one step of the search achieves -/
structure StepOk (M : Set (V2 K)) (L : List (V2 K)) (d : V2 K) (r : AddResult K) : Prop where
  hit : r.collides = true → (0 : V2 K) ∈ M
  near : r.collides = false → ∃ m ∈ M, lengthSq m ^ 3 ≤ lengthSq r.dir ∨ lengthSq m = lengthSq r.dir
  next : r.collides = false → r.dir ≠ 0 → GInv M L r.dir r.pts
  zero : r.collides = false → r.dir = 0 → GInv M L d.perp r.pts

variable [FloatExtra K]

theorem GInv.step {L : List (V2 K)} {d : V2 K} {pts} (h : GInv M L d pts) (hM : Convex K M)
    {a : V2 K} (haM : IsExtreme M d a) (ha : 0 < a.dot d) :
    ∃ r, addPoint pts a = .ok r ∧ StepOk M (a :: L) d r := by
  rw [dot_comm] at ha
  cases h with
  | start d hd =>
    have hP : PInv M a := ⟨d, haM.2, ha⟩
    exact ⟨⟨false, -a, [a]⟩, rfl, by simp,
      fun _ => ⟨a, haM.1, Or.inr (lengthSq_neg a).symm⟩, fun _ _ => .point a haM.1 hP,
      fun _ h => absurd h (neg_ne_zero.2 hP.ne_zero)⟩
  | point b hb hP =>
    have h1 : a.dot b < 0 := by rw [neg_dot, dot_comm] at ha; linarith
    have h2 : (b - a).dot (-a) ≥ 0 := by
      rw [dot_neg, sub_dot, dot_self, dot_comm b a]
      have := lengthSq_nonneg a
      show 0 ≤ _
      linarith
    refine ⟨⟨false, (b - a).crossAba (-a), [a, b]⟩, ?_, ?_⟩
    · simp only [addPoint]; rw [if_pos h2]
    · refine ⟨by simp, fun _ => ?_, fun _ h => .edge _ _ _ _ (edge_two haM hb hP ha h),
        fun _ h => .edge _ _ _ _ (edge_two_zero haM hb hP ha h)⟩
      obtain ⟨m, hm, h3⟩ := near_two hM haM.1 hb h1
      exact ⟨m, hm, Or.inl h3⟩
  | edge L d b c h =>
    have eq1 : (b - a).crossF32 ((b - a).cross (c - a)) = outNormal a b c := rfl
    simp only [addPoint, acPerp_eq, eq1]
    by_cases s1 : 0 ≤ (outNormal a b c).dot (-a)
    · obtain ⟨h1, h2⟩ := h.step haM ha s1
      refine ⟨⟨false, outNormal a b c, [a, b]⟩, ?_, ?_⟩
      · rw [if_pos (show sameDirection _ _ from s1), if_pos (show sameDirection _ _ from h2)]
      · refine ⟨by simp, fun _ => ?_, fun _ _ => .edge _ _ _ _ h1,
          fun _ h' => absurd h' (h.normal_ne ha).2.2⟩
        obtain ⟨m, hm, h3⟩ := h.near hM ha
        exact ⟨m, hm, Or.inl h3⟩
    · rw [if_neg (show ¬ sameDirection _ _ from s1)]
      have ha' : 0 < d.dot a := ha
      by_cases s2 : 0 ≤ (outNormal a c b).dot (-a)
      · obtain ⟨h1, h2⟩ := h.symm.step haM ha s2
        refine ⟨⟨false, outNormal a c b, [a, c]⟩, ?_, ?_⟩
        · rw [if_pos (show sameDirection _ _ from s2)]
        · refine ⟨by simp, fun _ => ?_, fun _ _ => .edge _ _ _ _ h1,
            fun _ h' => absurd h' (h.symm.normal_ne ha).2.2⟩
          obtain ⟨m, hm, h3⟩ := h.symm.near hM ha
          exact ⟨m, hm, Or.inl h3⟩
      · refine ⟨⟨true, V2.nan, [a, b, c]⟩, ?_, ?_⟩
        · rw [if_neg (show ¬ sameDirection _ _ from s2)]
        · exact ⟨fun _ => h.capture hM haM.1 ha (not_le.1 s1) (not_le.1 s2), by simp, by simp,
            by simp⟩

end
end Auburn
