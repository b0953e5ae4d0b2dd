import Verif.Props.Tier0

/-!
# Geometry of the simplex search (library lemmas, exact arithmetic)

`d.dot v` and `d.cross v` are used as coordinates of `v` in the frame of the search direction `d`.
-/

set_option linter.unusedSectionVars false
set_option synthInstance.maxSize 1000

namespace Auburn

open V2

section
variable {K : Type} [Field K] [LinearOrder K] [IsStrictOrderedRing K]

theorem cross_def (a b : V2 K) : a.cross b = a.x * b.y - a.y * b.x := rfl
theorem cross_sub (a b c : V2 K) : a.cross (b - c) = a.cross b - a.cross c := by
  simp only [cross_def, sub_x, sub_y]; ring
theorem sub_cross (a b c : V2 K) : (a - b).cross c = a.cross c - b.cross c := by
  simp only [cross_def, sub_x, sub_y]; ring
theorem cross_neg (a b : V2 K) : a.cross (-b) = -a.cross b := by
  simp only [cross_def, neg_x, neg_y]; ring
theorem cross_self (a : V2 K) : a.cross a = 0 := by simp only [cross_def]; ring
theorem cross_add (a b c : V2 K) : a.cross (b + c) = a.cross b + a.cross c := by
  simp only [cross_def, add_x, add_y]; ring
theorem cross_scale (s : K) (a b : V2 K) : a.cross (scale s b) = s * a.cross b := by
  simp only [cross_def, scale_x, scale_y]; ring
theorem cross_anti (a b : V2 K) : a.cross b = -b.cross a := by
  simp only [cross_def]; ring

theorem frame_dot (d v w : V2 K) :
    lengthSq d * v.dot w = d.dot v * d.dot w + d.cross v * d.cross w := by
  simp only [lengthSq_def, dot_def, cross_def]; ring
theorem frame_cross (d v w : V2 K) :
    lengthSq d * v.cross w = d.dot v * d.cross w - d.cross v * d.dot w := by
  simp only [lengthSq_def, dot_def, cross_def]; ring
theorem frame_lengthSq (d v : V2 K) :
    lengthSq d * lengthSq v = d.dot v ^ 2 + d.cross v ^ 2 := by
  simp only [lengthSq_def, dot_def, cross_def]; ring
theorem frame_zero {d v : V2 K} (hd : d ≠ 0) (h1 : d.dot v = 0) (h2 : d.cross v = 0) : v = 0 := by
  have h := frame_lengthSq d v
  rw [h1, h2] at h
  have h3 := (lengthSq_pos.2 hd).ne'
  have : lengthSq v = 0 := by
    rcases mul_eq_zero.1 (h.trans (by ring)) with h | h
    · exact absurd h h3
    · exact h
  exact lengthSq_eq_zero.1 this
theorem frame_ext {d v w : V2 K} (hd : d ≠ 0) (h1 : d.dot v = d.dot w)
    (h2 : d.cross v = d.cross w) : v = w := by
  have : v - w = 0 := frame_zero hd (by rw [dot_sub, h1, sub_self]) (by rw [cross_sub, h2, sub_self])
  exact sub_eq_zero.1 this

/-- the outward normal of edge `ab` as the code computes it: away from `c` -/
def outNormal (a b c : V2 K) : V2 K := (b - a).crossF32 ((b - a).cross (c - a))

theorem outNormal_dot (a b c v : V2 K) :
    (outNormal a b c).dot v = -((b - a).cross (c - a) * (b - a).cross v) := by
  simp only [outNormal, V2.crossF32, dot_def, cross_def, sub_x, sub_y]; ring

theorem outNormal_lengthSq (a b c : V2 K) :
    lengthSq (outNormal a b c) = lengthSq (b - a) * (b - a).cross (c - a) ^ 2 := by
  simp only [outNormal, V2.crossF32, lengthSq_def, cross_def, sub_x, sub_y]; ring

/-- `ac_perp` is the same expression with `b` and `c` exchanged -/
theorem acPerp_eq (a b c : V2 K) :
    crossSV ((b - a).cross (c - a)) (c - a) = outNormal a c b := by
  ext <;> simp only [outNormal, V2.crossF32, crossSV, cross_def, sub_x, sub_y] <;> ring

/-! ## scalar core -/

/-- new edge from an old edge `b, c` at height `-β` with lateral coordinates `x ≤ 0 ≤ y` and a new
point at height `α > 0`, lateral `z`, when the origin is not inside the new edge -/
theorem scalar_core {α β x z : K} (hα : 0 < α) (hβ : 0 ≤ β) (hx : x ≤ 0)
    (hb : ¬ (β = 0 ∧ x = 0)) (h : 0 ≤ β * z + α * x) :
    0 < β ∧ 0 ≤ z ∧ 0 ≤ z - x := by
  have hβ' : 0 < β := by
    rcases hβ.lt_or_eq with h1 | h1
    · exact h1
    · rw [← h1, zero_mul, zero_add] at h
      have : x = 0 := le_antisymm hx (by
        by_contra hn
        have := mul_neg_of_pos_of_neg hα (not_le.1 hn)
        linarith)
      exact absurd ⟨h1.symm, this⟩ hb
  have hz : 0 ≤ z := by
    by_contra hn
    have := mul_neg_of_pos_of_neg hβ' (not_le.1 hn)
    have := mul_nonpos_of_nonneg_of_nonpos hα.le hx
    linarith
  exact ⟨hβ', hz, by linarith⟩

/-! ## the edge invariant -/

variable {M : Set (V2 K)}

/-- what is known of a point `p` of the simplex: it is extreme in a direction in which it lies beyond
the origin -/
def PInv (M : Set (V2 K)) (p : V2 K) : Prop :=
  ∃ u : V2 K, (∀ m ∈ M, u.dot m ≤ u.dot p) ∧ 0 < u.dot p

theorem PInv.ne_zero {p : V2 K} (h : PInv M p) : p ≠ 0 := by
  rintro rfl
  obtain ⟨u, _, h⟩ := h
  simp at h

/-- the search direction `d` is orthogonal to the edge `b c` and points to the origin, which
projects into the edge; the edge is at least as long as its distance from the origin; all visited
points `L` are behind the edge -/
structure EdgeInv (M : Set (V2 K)) (L : List (V2 K)) (d b c : V2 K) : Prop where
  hd : d ≠ 0
  perp : d.dot b = d.dot c
  le : d.dot b ≤ 0
  pb : (c - b).dot b ≤ 0
  pc : (b - c).dot c ≤ 0
  ne : b ≠ c
  len : d.dot b ^ 2 ≤ lengthSq (b - c) * lengthSq d
  bM : b ∈ M
  cM : c ∈ M
  LM : ∀ e ∈ L, e ∈ M
  below : ∀ e ∈ L, d.dot e ≤ d.dot b ∧ (d.dot e = d.dot b → ∃ t, 0 ≤ t ∧ t ≤ 1 ∧
    e = b + scale t (c - b))
  Pb : PInv M b
  Pc : PInv M c

theorem EdgeInv.symm {L : List (V2 K)} {d b c : V2 K} (h : EdgeInv M L d b c) :
    EdgeInv M L d c b := by
  refine ⟨h.hd, h.perp.symm, h.perp ▸ h.le, h.pc, h.pb, h.ne.symm, ?_, h.cM, h.bM, h.LM, ?_,
    h.Pc, h.Pb⟩
  · rw [← h.perp, lengthSq_sub_comm]; exact h.len
  · intro e he
    obtain ⟨h1, h2⟩ := h.below e he
    refine ⟨h.perp ▸ h1, fun h3 => ?_⟩
    obtain ⟨t, h4, h5, h6⟩ := h2 (h3.trans h.perp.symm)
    refine ⟨1 - t, by linarith, by linarith, ?_⟩
    rw [h6]; ext <;> simp <;> ring

/-- lateral coordinates of the two ends are on both sides of the origin -/
theorem EdgeInv.lateral {L : List (V2 K)} {d b c : V2 K} (h : EdgeInv M L d b c) :
    (d.cross b ≤ 0 ∧ 0 ≤ d.cross c ∧ d.cross b < d.cross c) ∨
    (d.cross c ≤ 0 ∧ 0 ≤ d.cross b ∧ d.cross c < d.cross b) := by
  have hD := lengthSq_pos.2 h.hd
  have e1 := frame_dot d (c - b) b
  have e2 := frame_dot d (b - c) c
  rw [dot_sub, cross_sub, h.perp, sub_self, zero_mul, zero_add] at e1
  rw [dot_sub, cross_sub, h.perp, sub_self, zero_mul, zero_add] at e2
  have i1 : (d.cross c - d.cross b) * d.cross b ≤ 0 := by
    rw [← e1]; exact mul_nonpos_of_nonneg_of_nonpos hD.le h.pb
  have i2 : (d.cross b - d.cross c) * d.cross c ≤ 0 := by
    rw [← e2]; exact mul_nonpos_of_nonneg_of_nonpos hD.le h.pc
  have hne : d.cross b ≠ d.cross c := fun h' => h.ne (frame_ext h.hd h.perp h')
  rcases lt_or_gt_of_ne hne with hlt | hlt
  · left
    refine ⟨?_, ?_, hlt⟩
    · by_contra hn
      have := mul_pos (sub_pos.2 hlt) (not_le.1 hn)
      linarith
    · by_contra hn
      have := mul_pos_of_neg_of_neg (sub_neg.2 hlt) (not_le.1 hn)
      linarith
  · right
    refine ⟨?_, ?_, hlt⟩
    · by_contra hn
      have := mul_pos (sub_pos.2 hlt) (not_le.1 hn)
      linarith
    · by_contra hn
      have := mul_pos_of_neg_of_neg (sub_neg.2 hlt) (not_le.1 hn)
      linarith

/-- all products of the step in frame coordinates -/
theorem EdgeInv.coords {L : List (V2 K)} {d b c : V2 K} (h : EdgeInv M L d b c) (a : V2 K) :
    lengthSq d * (b - a).cross (c - a) =
      (d.dot a - d.dot b) * (d.cross b - d.cross c) ∧
    lengthSq d * (b - a).cross (-a) = -d.dot b * d.cross a + d.dot a * d.cross b ∧
    lengthSq d * (b - a).dot (-a) = (d.dot a - d.dot b) * d.dot a +
      d.cross a * (d.cross a - d.cross b) ∧
    lengthSq d * (a - b).dot b = (d.dot a - d.dot b) * d.dot b +
      (d.cross a - d.cross b) * d.cross b ∧
    lengthSq d * lengthSq (b - a) = (d.dot a - d.dot b) ^ 2 + (d.cross a - d.cross b) ^ 2 := by
  refine ⟨?_, ?_, ?_, ?_, ?_⟩
  · rw [frame_cross, dot_sub, dot_sub, cross_sub, cross_sub, h.perp]; ring
  · rw [frame_cross, dot_sub, cross_sub, cross_neg, dot_neg]; ring
  · rw [frame_dot, dot_sub, cross_sub, cross_neg, dot_neg]; ring
  · rw [frame_dot, dot_sub, cross_sub]
  · rw [frame_lengthSq, dot_sub, cross_sub]; ring

/-- `0 ≤ outNormal · (-a)` in frame coordinates -/
theorem EdgeInv.side {L : List (V2 K)} {d b c : V2 K} (h : EdgeInv M L d b c) (a : V2 K) :
    lengthSq d ^ 2 * (outNormal a b c).dot (-a) = (d.dot a - d.dot b) *
      ((d.cross c - d.cross b) * (-d.dot b * d.cross a + d.dot a * d.cross b)) := by
  obtain ⟨h1, h2, _⟩ := h.coords a
  rw [outNormal_dot]
  calc lengthSq d ^ 2 * -((b - a).cross (c - a) * (b - a).cross (-a))
      = -((lengthSq d * (b - a).cross (c - a)) * (lengthSq d * (b - a).cross (-a))) := by ring
    _ = _ := by rw [h1, h2]; ring

/-- the foot of the origin on the edge is a point of the convex set -/
theorem EdgeInv.foot {L : List (V2 K)} {d b c : V2 K} (h : EdgeInv M L d b c) (hM : Convex K M) :
    scale (d.dot b / lengthSq d) d ∈ M := by
  have key : ∀ {b c : V2 K}, EdgeInv M L d b c →
      (d.cross b ≤ 0 ∧ 0 ≤ d.cross c ∧ d.cross b < d.cross c) →
      scale (d.dot b / lengthSq d) d ∈ M := by
    intro b c h hl
    obtain ⟨h1, h2, h3⟩ := hl
    have hpos : 0 < d.cross c - d.cross b := sub_pos.2 h3
    have e : scale (d.dot b / lengthSq d) d =
        (d.cross c / (d.cross c - d.cross b)) • b + (-d.cross b / (d.cross c - d.cross b)) • c := by
      apply frame_ext h.hd
      · rw [dot_scale, dot_add, dot_smul, dot_smul, dot_self, ← h.perp,
          div_mul_cancel₀ _ (lengthSq_pos.2 h.hd).ne']
        field_simp
        ring
      · rw [cross_scale, cross_self, cross_add, smul_eq_scale, smul_eq_scale, cross_scale,
          cross_scale]
        field_simp
        ring
    rw [e]
    exact hM h.bM h.cM (div_nonneg h2 hpos.le) (div_nonneg (by linarith) hpos.le)
      (by field_simp; ring)
  rcases h.lateral with hl | hl
  · exact key h hl
  · have := key h.symm hl
    rwa [← h.perp] at this

theorem EdgeInv.height {L : List (V2 K)} {d b c a : V2 K} (h : EdgeInv M L d b c)
    (ha : 0 < d.dot a) : 0 < d.dot a - d.dot b := by have := h.le; linarith

/-- a choice of orientation for which the lateral coordinate increases from `b` to `c` -/
theorem EdgeInv.orient {L : List (V2 K)} {d b c : V2 K} (h : EdgeInv M L d b c) :
    ∃ σ : K, σ * σ = 1 ∧ σ * d.cross b ≤ 0 ∧ 0 ≤ σ * d.cross c ∧
      σ * d.cross b < σ * d.cross c := by
  rcases h.lateral with ⟨h1, h2, h3⟩ | ⟨h1, h2, h3⟩
  · exact ⟨1, by ring, by linarith, by linarith, by linarith⟩
  · exact ⟨-1, by ring, by linarith, by linarith, by linarith⟩

/-- frame coordinates for the branch towards edge `ab` -/
theorem EdgeInv.branch {L : List (V2 K)} {d b c a : V2 K} (h : EdgeInv M L d b c) {σ : K}
    (hσ : σ * σ = 1) (hlat : σ * d.cross b ≤ 0 ∧ 0 ≤ σ * d.cross c ∧ σ * d.cross b < σ * d.cross c)
    (ha : 0 < d.dot a) (hside : 0 ≤ (outNormal a b c).dot (-a)) :
    0 ≤ -d.dot b * (σ * d.cross a) + d.dot a * (σ * d.cross b) ∧ 0 < -d.dot b ∧
      0 ≤ σ * d.cross a ∧ 0 ≤ σ * d.cross a - σ * d.cross b := by
  have hH := h.height ha
  have hyx : 0 < σ * d.cross c - σ * d.cross b := sub_pos.2 hlat.2.2
  have e : lengthSq d ^ 2 * (outNormal a b c).dot (-a) = (d.dot a - d.dot b) *
      ((σ * d.cross c - σ * d.cross b) *
        (-d.dot b * (σ * d.cross a) + d.dot a * (σ * d.cross b))) := by
    rw [h.side a]
    linear_combination (-((d.dot a - d.dot b) * ((d.cross c - d.cross b) *
      (-d.dot b * d.cross a + d.dot a * d.cross b)))) * hσ
  have hD := lengthSq_pos.2 h.hd
  have h0 : 0 ≤ -d.dot b * (σ * d.cross a) + d.dot a * (σ * d.cross b) := by
    by_contra hn
    have := mul_neg_of_pos_of_neg hH (mul_neg_of_pos_of_neg hyx (not_le.1 hn))
    rw [← e] at this
    have h2 : 0 ≤ lengthSq d ^ 2 * (outNormal a b c).dot (-a) :=
      mul_nonneg (sq_nonneg _) hside
    linarith
  have hb : ¬ (-d.dot b = 0 ∧ σ * d.cross b = 0) := by
    rintro ⟨h1, h2⟩
    have hσ0 : σ ≠ 0 := by rintro rfl; simp at hσ
    exact h.Pb.ne_zero (frame_zero h.hd (by linarith) ((mul_eq_zero.1 h2).resolve_left hσ0))
  obtain ⟨h1, h2, h3⟩ := scalar_core ha (by have := h.le; linarith) hlat.1 hb h0
  exact ⟨h0, h1, h2, h3⟩

/-- the new normal in frame coordinates: `outNormal` is a positive multiple of
`(z - x, -(α + β))` -/
theorem EdgeInv.normal {L : List (V2 K)} {d b c : V2 K} (h : EdgeInv M L d b c) (a e : V2 K) :
    lengthSq d ^ 2 * (outNormal a b c).dot (e - b) =
      (d.dot a - d.dot b) * (d.cross c - d.cross b) *
      ((d.cross a - d.cross b) * (d.dot e - d.dot b) -
        (d.dot a - d.dot b) * (d.cross e - d.cross b)) := by
  have h1 : lengthSq d * (b - a).cross (c - a) =
      (d.dot a - d.dot b) * (d.cross b - d.cross c) := (h.coords a).1
  have h2 : lengthSq d * (b - a).cross (e - b) =
      (d.dot b - d.dot a) * (d.cross e - d.cross b) -
        (d.cross b - d.cross a) * (d.dot e - d.dot b) := by
    rw [frame_cross, dot_sub, dot_sub, cross_sub, cross_sub]
  rw [outNormal_dot]
  calc lengthSq d ^ 2 * -((b - a).cross (c - a) * (b - a).cross (e - b))
      = -((lengthSq d * (b - a).cross (c - a)) * (lengthSq d * (b - a).cross (e - b))) := by ring
    _ = _ := by rw [h1, h2]; ring

/-- sign of the new normal on visited points -/
theorem below_core {α β x y z ε w p q : K} (hα : 0 < α) (hβ : 0 < β) (hxy : x < y)
    (hz : 0 ≤ z - x) (h0 : 0 ≤ β * z + α * x)
    (hε : ε ≤ -β) (hεw : ε = -β → x ≤ w)
    (hb : 0 < p * -β + q * x) (hc : q * (y - x) ≤ 0)
    (he : p * (ε + β) + q * (w - x) ≤ 0) :
    (z - x) * (ε + β) - (α + β) * (w - x) ≤ 0 ∧
    ((z - x) * (ε + β) - (α + β) * (w - x) = 0 → ε = -β ∧ w = x) := by
  have hq : q ≤ 0 := by
    by_contra hn
    have := mul_pos (not_le.1 hn) (sub_pos.2 hxy)
    linarith
  have hH : 0 < α + β := by linarith
  rcases le_or_gt x w with hw | hw
  · have h1 : (z - x) * (ε + β) ≤ 0 := mul_nonpos_of_nonneg_of_nonpos hz (by linarith)
    have h2 : 0 ≤ (α + β) * (w - x) := mul_nonneg hH.le (by linarith)
    refine ⟨by linarith, fun h => ?_⟩
    have h3 : (α + β) * (w - x) = 0 := by linarith
    have h4 : (z - x) * (ε + β) = 0 := by linarith
    have hwx : w = x := by
      rcases mul_eq_zero.1 h3 with h | h
      · linarith
      · linarith
    refine ⟨?_, hwx⟩
    rcases mul_eq_zero.1 h4 with h5 | h5
    · by_contra hne
      have h7 : ε + β < 0 := by
        rcases hε.lt_or_eq with h | h
        · linarith
        · exact absurd h hne
      have hzx : z = x := by linarith
      rw [hzx] at h0
      have hx0 : 0 ≤ x := by
        by_contra hn
        have := mul_neg_of_pos_of_neg hH (not_le.1 hn)
        linarith
      have h6 : q * x ≤ 0 := mul_nonpos_of_nonpos_of_nonneg hq hx0
      rw [hwx, sub_self, mul_zero, add_zero] at he
      have hp : p < 0 := by
        by_contra hn
        have := mul_nonneg (not_lt.1 hn) hβ.le
        linarith
      have := mul_pos_of_neg_of_neg hp h7
      linarith
    · linarith
  · have hε' : ε + β < 0 := by
      rcases hε.lt_or_eq with h | h
      · linarith
      · have := hεw h; linarith
    have hq' : q < 0 := by
      rcases hq.lt_or_eq with h | h
      · exact h
      · exfalso
        rw [h] at hb he
        have hp : p < 0 := by
          by_contra hn
          have := mul_nonneg (not_lt.1 hn) hβ.le
          linarith
        have := mul_pos_of_neg_of_neg hp hε'
        linarith
    have h1 : (α + β) * p * β < -q * (z - x) * β := by
      have h2 := mul_pos hb hH
      have h3 : 0 ≤ -q * (β * z + α * x) := mul_nonneg (by linarith) h0
      nlinarith
    have h1' : (α + β) * p < -q * (z - x) := lt_of_mul_lt_mul_right h1 hβ.le
    have h2 : -q * ((z - x) * (ε + β) - (α + β) * (w - x)) < 0 := by
      have h3 := mul_pos_of_neg_of_neg (sub_neg.2 h1') hε'
      have h4 := mul_nonneg hH.le (sub_nonneg.2 he)
      nlinarith
    have h3 : (z - x) * (ε + β) - (α + β) * (w - x) < 0 := by
      by_contra hn
      have := mul_nonneg (neg_nonneg.2 hq) (not_lt.1 hn)
      linarith
    exact ⟨h3.le, fun h => absurd h h3.ne⟩

/-- the normal of a proper triangle edge does not vanish -/
theorem EdgeInv.normal_ne {L : List (V2 K)} {d b c a : V2 K} (h : EdgeInv M L d b c)
    (ha : 0 < d.dot a) : a ≠ b ∧ (b - a).cross (c - a) ≠ 0 ∧ outNormal a b c ≠ 0 := by
  have hH := h.height ha
  have hab : a ≠ b := by rintro rfl; linarith [h.le]
  have habc : (b - a).cross (c - a) ≠ 0 := by
    intro h0
    have h1 := (h.coords a).1
    rw [h0, mul_zero] at h1
    rcases mul_eq_zero.1 h1.symm with h2 | h2
    · linarith
    · exact h.ne (frame_ext h.hd h.perp (by linarith))
  refine ⟨hab, habc, fun h0 => ?_⟩
  have h1 := outNormal_lengthSq a b c
  rw [h0, (lengthSq_eq_zero (a := (0 : V2 K))).2 rfl] at h1
  rcases mul_eq_zero.1 h1.symm with h2 | h2
  · exact hab (sub_eq_zero.1 (lengthSq_eq_zero.1 h2)).symm
  · exact habc (pow_eq_zero_iff (by norm_num) |>.1 h2)

theorem outNormal_perp (a b c : V2 K) : (outNormal a b c).dot a = (outNormal a b c).dot b := by
  have h : (outNormal a b c).dot (b - a) = 0 := by
    rw [outNormal_dot, cross_self, mul_zero, neg_zero]
  rw [dot_sub] at h; linarith

/-- **Step**: a new support point `a` in front of the edge, with the origin on the outer side of
`ab`, gives a new edge with the same invariant. -/
theorem EdgeInv.step {L : List (V2 K)} {d b c a : V2 K} (h : EdgeInv M L d b c)
    (haM : IsExtreme M d a) (ha : 0 < d.dot a) (hside : 0 ≤ (outNormal a b c).dot (-a)) :
    EdgeInv M (a :: L) (outNormal a b c) a b ∧ 0 ≤ (b - a).dot (-a) := by
  obtain ⟨σ, hσ, hlat⟩ := h.orient
  obtain ⟨h0, hβ, hz, hzx⟩ := h.branch hσ hlat ha hside
  obtain ⟨hab, habc, hn⟩ := h.normal_ne ha
  have hH := h.height ha
  have hD := lengthSq_pos.2 h.hd
  have hD2 : 0 < lengthSq d ^ 2 := pow_pos hD 2
  obtain ⟨c1, c2, c3, c4, c5⟩ := h.coords a
  have hdot : 0 ≤ (b - a).dot (-a) := by
    have : 0 ≤ lengthSq d * (b - a).dot (-a) := by
      rw [c3]
      have e : d.cross a * (d.cross a - d.cross b) =
          σ * d.cross a * (σ * d.cross a - σ * d.cross b) := by
        linear_combination (-(d.cross a * (d.cross a - d.cross b))) * hσ
      rw [e]
      exact add_nonneg (mul_nonneg hH.le ha.le) (mul_nonneg hz hzx)
    exact nonneg_of_mul_nonneg_right this hD
  have hdot2 : (a - b).dot b ≤ 0 := by
    have : lengthSq d * (a - b).dot b ≤ 0 := by
      rw [c4]
      have e : (d.cross a - d.cross b) * d.cross b =
          (σ * d.cross a - σ * d.cross b) * (σ * d.cross b) := by
        linear_combination (-((d.cross a - d.cross b) * d.cross b)) * hσ
      rw [e]
      have h1 : (d.dot a - d.dot b) * d.dot b ≤ 0 :=
        mul_nonpos_of_nonneg_of_nonpos hH.le h.le
      have h2 := mul_nonpos_of_nonneg_of_nonpos hzx hlat.1
      linarith
    by_contra hn'
    have := mul_pos hD (not_le.1 hn')
    linarith
  refine ⟨⟨hn, outNormal_perp a b c, ?_, ?_, hdot2, hab, ?_, haM.1, h.bM, ?_, ?_,
    ⟨d, haM.2, ha⟩, h.Pb⟩, hdot⟩
  · rw [dot_neg] at hside; linarith
  · rw [dot_neg] at hdot; linarith
  · -- len
    have e1 : (outNormal a b c).dot a = (b - a).cross (c - a) * (b - a).cross (-a) := by
      rw [outNormal_dot, cross_neg]; ring
    rw [e1, outNormal_lengthSq, mul_pow, lengthSq_sub_comm a b]
    have h2 : (b - a).cross (-a) ^ 2 ≤ lengthSq (b - a) ^ 2 := by
      have h3 : lengthSq d ^ 2 * (b - a).cross (-a) ^ 2 ≤ lengthSq d ^ 2 * lengthSq (b - a) ^ 2 := by
        have e2 : lengthSq d ^ 2 * (b - a).cross (-a) ^ 2 =
            (-d.dot b * (σ * d.cross a) + d.dot a * (σ * d.cross b)) ^ 2 := by
          rw [← mul_pow, c2]
          linear_combination (-((-d.dot b * d.cross a + d.dot a * d.cross b) ^ 2)) * hσ
        have e3 : lengthSq d ^ 2 * lengthSq (b - a) ^ 2 =
            ((d.dot a - d.dot b) ^ 2 + (σ * d.cross a - σ * d.cross b) ^ 2) ^ 2 := by
          rw [← mul_pow, c5]
          have : (d.cross a - d.cross b) ^ 2 = (σ * d.cross a - σ * d.cross b) ^ 2 := by
            linear_combination (-(d.cross a - d.cross b) ^ 2) * hσ
          rw [this]
        rw [e2, e3]
        apply pow_le_pow_left₀ h0
        have h4 : -d.dot b * (σ * d.cross a) ≤
            (d.dot a - d.dot b) * (σ * d.cross a - σ * d.cross b) :=
          mul_le_mul (by linarith) (by linarith [hlat.1]) hz hH.le
        have h5 : d.dot a * (σ * d.cross b) ≤ 0 :=
          mul_nonpos_of_nonneg_of_nonpos ha.le hlat.1
        nlinarith [sq_nonneg ((d.dot a - d.dot b) - (σ * d.cross a - σ * d.cross b)),
          sq_nonneg (d.dot a - d.dot b), sq_nonneg (σ * d.cross a - σ * d.cross b)]
      exact le_of_mul_le_mul_left h3 hD2
    calc (b - a).cross (c - a) ^ 2 * (b - a).cross (-a) ^ 2
        ≤ (b - a).cross (c - a) ^ 2 * lengthSq (b - a) ^ 2 :=
          mul_le_mul_of_nonneg_left h2 (sq_nonneg _)
      _ = _ := by ring
  · intro e he
    rcases List.mem_cons.1 he with rfl | he
    · exact haM.1
    · exact h.LM e he
  · intro e he
    rcases List.mem_cons.1 he with rfl | he
    · exact ⟨le_refl _, fun _ => ⟨0, le_refl _, zero_le_one, by ext <;> simp⟩⟩
    obtain ⟨u, hu1, hu2⟩ := h.Pb
    have fd : ∀ v, lengthSq d * u.dot v = d.dot u * d.dot v + σ * d.cross u * (σ * d.cross v) := by
      intro v
      rw [frame_dot]
      linear_combination (-(d.cross u * d.cross v)) * hσ
    have mul_le : ∀ m ∈ M, d.dot u * (d.dot m - d.dot b) +
        σ * d.cross u * (σ * d.cross m - σ * d.cross b) ≤ 0 := by
      intro m hm
      have h1 := mul_le_mul_of_nonneg_left (hu1 m hm) hD.le
      rw [fd, fd] at h1
      linarith
    obtain ⟨b1, b2⟩ := h.below e he
    have hb0 : 0 < d.dot u * -(-d.dot b) + σ * d.cross u * (σ * d.cross b) := by
      have h1 := mul_pos hD hu2
      rw [fd] at h1
      linarith
    have hεw : d.dot e = -(-d.dot b) → σ * d.cross b ≤ σ * d.cross e := by
      intro h1
      obtain ⟨t, t0, t1, he⟩ := b2 (by linarith)
      rw [he, cross_add, cross_scale, cross_sub]
      have := mul_nonneg t0 (sub_nonneg.2 hlat.2.2.le)
      linarith
    have hc' := mul_le c h.cM
    have he' := mul_le e (h.LM e he)
    rw [h.perp, sub_self, mul_zero, zero_add] at hc'
    obtain ⟨r1, r2⟩ := below_core (α := d.dot a) (β := -d.dot b) (x := σ * d.cross b)
      (y := σ * d.cross c) (z := σ * d.cross a) (ε := d.dot e) (w := σ * d.cross e)
      (p := d.dot u) (q := σ * d.cross u) ha hβ hlat.2.2 hzx h0 (by linarith) hεw hb0
      hc' (by linarith)
    have en : lengthSq d ^ 2 * (outNormal a b c).dot (e - b) =
        (d.dot a - d.dot b) * (σ * d.cross c - σ * d.cross b) *
        ((σ * d.cross a - σ * d.cross b) * (d.dot e + -d.dot b) -
          (d.dot a + -d.dot b) * (σ * d.cross e - σ * d.cross b)) := by
      rw [h.normal a e]
      linear_combination (-((d.dot a - d.dot b) * (d.cross c - d.cross b) *
      ((d.cross a - d.cross b) * (d.dot e - d.dot b) -
        (d.dot a - d.dot b) * (d.cross e - d.cross b)))) * hσ
    have hpos : 0 < (d.dot a - d.dot b) * (σ * d.cross c - σ * d.cross b) :=
      mul_pos hH (sub_pos.2 hlat.2.2)
    rw [outNormal_perp]
    constructor
    · have h1 : (outNormal a b c).dot (e - b) ≤ 0 := by
        by_contra hn'
        have h2 := mul_pos hD2 (not_le.1 hn')
        have h3 := mul_nonpos_of_nonneg_of_nonpos hpos.le r1
        linarith
      rw [dot_sub] at h1; linarith
    · intro h1
      have h2 : (outNormal a b c).dot (e - b) = 0 := by rw [dot_sub]; linarith
      rw [h2, mul_zero] at en
      obtain ⟨h3, h4⟩ := r2 ((mul_eq_zero.1 en.symm).resolve_left hpos.ne')
      have hσ0 : σ ≠ 0 := by rintro rfl; simp at hσ
      have : e = b := frame_ext h.hd (by linarith) (mul_left_cancel₀ hσ0 h4)
      refine ⟨1, zero_le_one, le_refl _, ?_⟩
      rw [this]; ext <;> simp

end
end Auburn
