import Verif.Lib.GjkExact

/-!
# How fast the search converges

For an edge `b c` of the simplex with supporting lines at `b` and `c` (normals `ub`, `uc`), the part of the convex set
beyond the edge lies in the triangle formed by the edge and the two lines.  Every step of the search cuts the area of
this triangle by four, whatever the shape: so the number of steps is logarithmic in (size / depth), for shapes with any
number of corners and for round shapes.
-/

set_option linter.unusedSectionVars false
set_option synthInstance.maxSize 1000

namespace Auburn
open V2

section
variable {K : Type} [Field K] [LinearOrder K] [IsStrictOrderedRing K]
variable {M : Set (V2 K)} {L : List (V2 K)} {d b c a ub uc : V2 K}

/-- how much the lines at `b` and `c` close over the edge -/
def closing (d b c ub uc : V2 K) : K := uc.dot (c - b) * d.dot ub + ub.dot (b - c) * d.dot uc

theorem closing_symm (d b c ub uc : V2 K) : closing d c b uc ub = closing d b c ub uc := by
  unfold closing; ring

/-- `M` has supporting lines at both ends of the edge, they do not open up beyond the edge -/
structure Wedge (M : Set (V2 K)) (d b c ub uc : V2 K) : Prop where
  supb : ∀ m ∈ M, ub.dot m ≤ ub.dot b
  supc : ∀ m ∈ M, uc.dot m ≤ uc.dot c
  posb : 0 < ub.dot b
  posc : 0 < uc.dot c
  sb : 0 < ub.dot (b - c)
  sc : 0 < uc.dot (c - b)
  close : 0 ≤ closing d b c ub uc

theorem Wedge.symm (h : Wedge M d b c ub uc) : Wedge M d c b uc ub :=
  ⟨h.supc, h.supb, h.posc, h.posb, h.sc, h.sb, by rw [closing_symm]; exact h.close⟩

/-- the closing of the lines over the next edge -/
theorem closing_next (hperp : d.dot b = d.dot c) (u : V2 K) :
    closing (outNormal a b c) a b d u = d.dot (a - b) * u.dot (b - c) * lengthSq (a - b) := by
  unfold closing
  rw [outNormal_dot, outNormal_dot]
  have h0 : d.x * b.x + d.y * b.y = d.x * c.x + d.y * c.y := hperp
  simp only [dot_def, cross_def, lengthSq_def, sub_x, sub_y]
  linear_combination (-(((a.x - b.x) * (a.x - b.x) + (a.y - b.y) * (a.y - b.y)) *
    ((a.x - b.x) * u.x + (a.y - b.y) * u.y))) * h0

/-- the new point `a` in the triangle over the edge -/
theorem cut_identity (hd : d ≠ 0) (hperp : d.dot b = d.dot c) :
    lengthSq d * (uc.dot (c - b) * ub.dot (b - a) + ub.dot (b - c) * uc.dot (c - a)) =
      lengthSq d * (ub.dot (b - c) * uc.dot (c - b)) - d.dot (a - b) * closing d b c ub uc := by
  have hD := lengthSq_pos.2 hd
  have e1 := frame_dot d ub (b - c)
  have e2 := frame_dot d uc (c - b)
  have e3 := frame_dot d ub (b - a)
  have e4 := frame_dot d uc (c - a)
  simp only [dot_sub, cross_sub, hperp, sub_self, mul_zero, zero_add] at e1 e2 e3 e4
  have e5 : d.dot (a - b) = d.dot a - d.dot c := by rw [dot_sub, hperp]
  refine mul_left_cancel₀ hD.ne' ?_
  unfold closing
  simp only [dot_sub] at e1 e2 e3 e4 e5 ⊢
  generalize lengthSq d = D at *
  generalize d.cross ub = Ub at *
  generalize d.cross uc = Uc at *
  generalize ub.dot b = bb at *
  generalize ub.dot c = bc at *
  generalize ub.dot a = ba at *
  generalize uc.dot b = cb at *
  generalize uc.dot c = cc at *
  generalize uc.dot a = ca at *
  rw [hperp]
  have g1 : D * (D * ((cc - cb) * (bb - ba) + (bb - bc) * (cc - ca))) =
    (D * (cc - cb)) * (D * (bb - ba)) + (D * (bb - bc)) * (D * (cc - ca)) := by ring
  have g2 : D * (D * ((bb - bc) * (cc - cb)) - (d.dot a - d.dot c) * ((cc - cb) * d.dot ub + (bb - bc) * d.dot uc)) =
    (D * (bb - bc)) * (D * (cc - cb)) - (d.dot a - d.dot c) * ((D * (cc - cb)) * d.dot ub + (D * (bb - bc)) * d.dot uc) := by
    ring
  rw [g1, g2, e1, e2, e3, e4]
  ring

theorem EdgeInv.cut (h : EdgeInv M L d b c) (w : Wedge M d b c ub uc) (haM : a ∈ M) :
    lengthSq d * (uc.dot (c - b) * ub.dot (b - a)) ≤
      lengthSq d * (ub.dot (b - c) * uc.dot (c - b)) - d.dot (a - b) * closing d b c ub uc := by
  have e := cut_identity (ub := ub) (uc := uc) (a := a) h.hd h.perp
  have h1 : 0 ≤ ub.dot (b - c) * uc.dot (c - a) := by
    refine mul_nonneg w.sb.le ?_
    rw [dot_sub]; linarith [w.supc a haM]
  have h2 := mul_nonneg (lengthSq_pos.2 h.hd).le h1
  linarith only [e, h2]

/-- the supporting lines of the next edge -/
theorem EdgeInv.nextWedge (h : EdgeInv M L d b c) (haM : IsExtreme M d a) (ha : 0 < d.dot a)
    (hside : 0 ≤ (outNormal a b c).dot (-a)) (supb : ∀ m ∈ M, ub.dot m ≤ ub.dot b) (posb : 0 < ub.dot b) :
    Wedge M (outNormal a b c) a b d ub := by
  have hH := h.height ha
  have hs : 0 ≤ ub.dot (b - c) := by rw [dot_sub]; linarith [supb c h.cM]
  refine ⟨haM.2, supb, ha, posb, by rw [dot_sub]; exact hH, ?_, ?_⟩
  · have h0 : 0 ≤ ub.dot (b - a) := by rw [dot_sub]; linarith [supb a haM.1]
    refine lt_of_le_of_ne h0 fun h1 => ?_
    obtain ⟨hab, habc, hn⟩ := h.normal_ne ha
    set n := outNormal a b c with hndef
    have np : n.dot a = n.dot b := outNormal_perp a b c
    have hN := lengthSq_pos.2 hn
    -- `ub` is parallel to the normal of the edge `a b`
    have hab' : n.cross (b - a) ≠ 0 := by
      intro h2
      have : b - a = 0 := frame_zero hn (by rw [dot_sub, np, sub_self]) h2
      exact hab (sub_eq_zero.1 this).symm
    have e1 := frame_dot n ub (b - a)
    rw [← h1, mul_zero, dot_sub, np, sub_self, mul_zero, zero_add] at e1
    have hc0 : n.cross ub = 0 := by
      rcases mul_eq_zero.1 e1.symm with h2 | h2
      · exact h2
      · exact absurd h2 hab'
    have e2 := frame_dot n ub (b - c)
    have e3 := frame_dot n ub b
    rw [hc0, zero_mul, add_zero] at e2 e3
    have hnc : 0 < n.dot (b - c) := by
      have e4 : n.dot (b - c) = (b - a).cross (c - a) ^ 2 := by
        rw [hndef, outNormal_dot]
        simp only [cross_def, sub_x, sub_y]; ring
      rw [e4]; positivity
    have hnb : n.dot b ≤ 0 := by
      rw [← np]; rw [dot_neg] at hside; linarith
    have k1 : 0 ≤ n.dot ub := by
      have : 0 ≤ n.dot ub * n.dot (b - c) := by rw [← e2]; exact mul_nonneg hN.le hs
      exact nonneg_of_mul_nonneg_left this hnc
    have k2 := mul_nonpos_of_nonneg_of_nonpos k1 hnb
    have k3 := mul_pos hN posb
    rw [e3] at k3
    linarith
  · rw [closing_next h.perp]
    refine mul_nonneg (mul_nonneg ?_ hs) (lengthSq_nonneg _)
    rw [dot_sub]; exact hH.le

/-- twice the area of the triangle over the edge is at most `A` -/
def Narrow (A : K) (d b c ub uc : V2 K) : Prop :=
  (ub.dot (b - c) * uc.dot (c - b)) ^ 2 * (lengthSq (c - b) * lengthSq d) ≤ (A * closing d b c ub uc) ^ 2

theorem Narrow.symm {A : K} (h : Narrow A d b c ub uc) : Narrow A d c b uc ub := by
  unfold Narrow at *
  rw [closing_symm, lengthSq_sub_comm]
  calc _ = (ub.dot (b - c) * uc.dot (c - b)) ^ 2 * (lengthSq (c - b) * lengthSq d) := by ring
    _ ≤ _ := h

/-- what the next triangle's area comes to -/
theorem EdgeInv.narrow_next (h : EdgeInv M L d b c) {A : K}
    (key : (d.dot (a - b) * ub.dot (b - a)) ^ 2 * lengthSq (c - b) ≤ (A * ub.dot (b - c)) ^ 2 * lengthSq d) :
    Narrow A (outNormal a b c) a b d ub := by
  have hD := lengthSq_pos.2 h.hd
  unfold Narrow
  rw [closing_next h.perp, outNormal_lengthSq, lengthSq_sub_comm b a]
  obtain ⟨c1, -⟩ := h.coords a
  have e := frame_lengthSq d (c - b)
  rw [dot_sub, cross_sub, h.perp, sub_self] at e
  have hh : d.dot (a - b) = d.dot a - d.dot b := dot_sub _ _ _
  rw [← hh] at c1
  set H := d.dot (a - b)
  set P := lengthSq (a - b)
  set X := (b - a).cross (c - a)
  set W := d.cross b - d.cross c with hW
  have eW : lengthSq d * lengthSq (c - b) = W ^ 2 := by rw [e, hW]; ring
  have eX : lengthSq d * X ^ 2 = H ^ 2 * lengthSq (c - b) := by
    refine mul_left_cancel₀ hD.ne' ?_
    calc lengthSq d * (lengthSq d * X ^ 2) = (lengthSq d * X) ^ 2 := by ring
      _ = H ^ 2 * W ^ 2 := by rw [c1]; ring
      _ = _ := by rw [← eW]; ring
  refine le_of_mul_le_mul_left ?_ hD
  have k := mul_le_mul_of_nonneg_left key (show 0 ≤ H ^ 2 * P ^ 2 by positivity)
  calc lengthSq d * ((H * ub.dot (b - a)) ^ 2 * (P * (P * X ^ 2)))
      = (H * ub.dot (b - a)) ^ 2 * P ^ 2 * (lengthSq d * X ^ 2) := by ring
    _ = H ^ 2 * P ^ 2 * ((H * ub.dot (b - a)) ^ 2 * lengthSq (c - b)) := by rw [eX]; ring
    _ ≤ _ := k
    _ = _ := by ring

/-- **Rate**: a step divides the area by four. -/
theorem EdgeInv.quarter (h : EdgeInv M L d b c) (w : Wedge M d b c ub uc) {A : K}
    (hκ : 0 < closing d b c ub uc) (hN : Narrow A d b c ub uc) (haM : IsExtreme M d a) (ha : 0 < d.dot a) :
    Narrow (A / 4) (outNormal a b c) a b d ub := by
  have hD := lengthSq_pos.2 h.hd
  have ht : 0 ≤ ub.dot (b - a) := by rw [dot_sub]; linarith [w.supb a haM.1]
  refine h.narrow_next ?_
  have hc := h.cut w haM.1
  unfold Narrow at hN
  have hH : 0 < d.dot (a - b) := by rw [dot_sub]; exact h.height ha
  set H := d.dot (a - b)
  set s := ub.dot (b - c)
  set t := uc.dot (c - b)
  set s' := ub.dot (b - a)
  set κ := closing d b c ub uc
  set D := lengthSq d
  set E := lengthSq (c - b)
  have hs : 0 < s := w.sb
  have htt : 0 < t := w.sc
  have hE : 0 ≤ E := lengthSq_nonneg _
  -- 4 κ H s' ≤ D s² t
  have h1 : 4 * κ * (H * s') ≤ D * s ^ 2 * t := by
    refine le_of_mul_le_mul_left ?_ (mul_pos hD htt)
    have h2 : 4 * κ * H * (D * (t * s')) ≤ 4 * κ * H * (D * (s * t) - H * κ) :=
      mul_le_mul_of_nonneg_left hc (by positivity)
    have h3 := sq_nonneg (D * (s * t) - 2 * (H * κ))
    calc D * t * (4 * κ * (H * s')) = 4 * κ * H * (D * (t * s')) := by ring
      _ ≤ _ := h2
      _ ≤ (D * (s * t)) ^ 2 := by linarith only [h3]
      _ = _ := by ring
  have h4 : (4 * κ * (H * s')) ^ 2 ≤ (D * s ^ 2 * t) ^ 2 := pow_le_pow_left₀ (by positivity) h1 2
  have h5 := mul_le_mul_of_nonneg_right h4 hE
  have h6 := mul_le_mul_of_nonneg_left hN (show 0 ≤ D * s ^ 2 by positivity)
  refine le_of_mul_le_mul_left ?_ (show 0 < 16 * κ ^ 2 by positivity)
  calc 16 * κ ^ 2 * ((H * s') ^ 2 * E) = (4 * κ * (H * s')) ^ 2 * E := by ring
    _ ≤ _ := h5
    _ = D * s ^ 2 * ((s * t) ^ 2 * (E * D)) := by ring
    _ ≤ _ := h6
    _ = _ := by ring

/-- the first triangle is not larger than the square of the diameter -/
theorem EdgeInv.firstArea (h : EdgeInv M L d b c) (w : Wedge M d b c ub uc) {Q : K} (hQ : 0 ≤ Q)
    (hdiam : ∀ m ∈ M, ∀ m' ∈ M, lengthSq (m - m') ≤ Q) (haM : IsExtreme M d a) (ha : 0 < d.dot a) :
    Narrow Q (outNormal a b c) a b d ub := by
  have hD := lengthSq_pos.2 h.hd
  have ht : 0 ≤ ub.dot (b - a) := by rw [dot_sub]; linarith [w.supb a haM.1]
  refine h.narrow_next ?_
  have hc := h.cut w haM.1
  have hH : 0 < d.dot (a - b) := by rw [dot_sub]; exact h.height ha
  have hs' : ub.dot (b - a) ≤ ub.dot (b - c) := by
    have h1 := mul_nonneg hH.le w.close
    have h2 : lengthSq d * uc.dot (c - b) * ub.dot (b - a) ≤ lengthSq d * uc.dot (c - b) * ub.dot (b - c) := by
      linarith only [hc, h1]
    exact le_of_mul_le_mul_left h2 (mul_pos hD w.sc)
  have hHQ : d.dot (a - b) ^ 2 ≤ lengthSq d * Q :=
    (dot_sq_le d (a - b)).trans (mul_le_mul_of_nonneg_left (hdiam a haM.1 b h.bM) hD.le)
  have hE := hdiam c h.cM b h.bM
  have h1 : ub.dot (b - a) ^ 2 ≤ ub.dot (b - c) ^ 2 := pow_le_pow_left₀ ht hs' 2
  calc (d.dot (a - b) * ub.dot (b - a)) ^ 2 * lengthSq (c - b)
      = d.dot (a - b) ^ 2 * ub.dot (b - a) ^ 2 * lengthSq (c - b) := by ring
    _ ≤ (lengthSq d * Q) * ub.dot (b - c) ^ 2 * Q :=
      mul_le_mul (mul_le_mul hHQ h1 (sq_nonneg _) (by positivity)) hE (lengthSq_nonneg _) (by positivity)
    _ = _ := by ring

/-- where the origin is, seen from the two lines -/
theorem wedge_identity (hd : d ≠ 0) (hperp : d.dot b = d.dot c) :
    lengthSq d * (ub.dot (b - c) * uc.dot (c - b)) =
      lengthSq d * (uc.dot (c - b) * ub.dot b + ub.dot (b - c) * uc.dot c) - d.dot b * closing d b c ub uc := by
  have hD := lengthSq_pos.2 hd
  have e := cut_identity (ub := ub) (uc := uc) (a := 0) hd hperp
  simp only [sub_zero, zero_sub, dot_neg] at e
  linarith only [e]

/-- **Depth**: over an edge with the disc of radius `δ` beyond it the triangle has area at least `δ²`. -/
theorem EdgeInv.depth [FloatExtra K] [ExactFloat K] [ExactSqrt K] {δ A : K} (hδ : 0 < δ) (hA : 0 ≤ A)
    (hDisc : HasDisc M δ) (h : EdgeInv M L d b c) (w : Wedge M d b c ub uc) (hκ : 0 < closing d b c ub uc)
    (hN : Narrow A d b c ub uc) : 2 * δ ^ 2 ≤ A := by
  have hD := lengthSq_pos.2 h.hd
  have hub : ub ≠ 0 := by rintro rfl; have := w.posb; simp at this
  have huc : uc ≠ 0 := by rintro rfl; have := w.posc; simp at this
  obtain ⟨sb, -, -⟩ := hDisc.support hδ.le hub w.supb
  obtain ⟨sc, -, -⟩ := hDisc.support hδ.le huc w.supc
  have id := wedge_identity (ub := ub) (uc := uc) h.hd h.perp
  have hβ : d.dot b * closing d b c ub uc ≤ 0 := mul_nonpos_of_nonpos_of_nonneg h.le hκ.le
  have hs := w.sb
  have ht := w.sc
  have e1 : ub.dot (b - c) ≤ ub.length * (c - b).length := by
    have := V2.neg_length_le_dot ub (c - b)
    have e : ub.dot (b - c) = -(ub.dot (c - b)) := by rw [dot_sub, dot_sub]; ring
    rw [e]; linarith
  have e2 : uc.dot (c - b) ≤ uc.length * (c - b).length := V2.dot_le_length uc (c - b)
  have e3 : d.dot ub ≤ d.length * ub.length := V2.dot_le_length d ub
  have e4 : d.dot uc ≤ d.length * uc.length := V2.dot_le_length d uc
  have lE := V2.length_sq (c - b)
  have lD := V2.length_sq d
  have lE0 := V2.length_nonneg (c - b)
  have lD0 := V2.length_pos.2 h.hd
  unfold Narrow at hN
  have hκdef : closing d b c ub uc = uc.dot (c - b) * d.dot ub + ub.dot (b - c) * d.dot uc := rfl
  rw [← lE, ← lD] at hN
  set s := ub.dot (b - c)
  set t := uc.dot (c - b)
  set κ := closing d b c ub uc
  have lub := V2.length_pos.2 hub
  have luc := V2.length_pos.2 huc
  set U := ub.length
  set V := uc.length
  set l := d.length
  set ε := (c - b).length
  have hst : 0 < s * t := mul_pos hs ht
  -- the origin is `δ` inside both lines
  have k1 : δ * (t * U + s * V) ≤ s * t := by
    refine le_of_mul_le_mul_left ?_ hD
    have q1 := mul_le_mul_of_nonneg_left sb ht.le
    have q2 := mul_le_mul_of_nonneg_left sc hs.le
    have q3 := mul_le_mul_of_nonneg_left (add_le_add q1 q2) hD.le
    calc lengthSq d * (δ * (t * U + s * V)) = lengthSq d * (t * (δ * U) + s * (δ * V)) := by ring
      _ ≤ _ := q3
      _ ≤ _ := by linarith only [id, hβ]
  have k2 : κ ≤ l * (t * U + s * V) := by
    rw [hκdef]
    have q1 := mul_le_mul_of_nonneg_left e3 ht.le
    have q2 := mul_le_mul_of_nonneg_left e4 hs.le
    linarith only [q1, q2]
  have k3 : δ * κ ≤ l * (s * t) := by
    have q1 := mul_le_mul_of_nonneg_left k2 hδ.le
    have q2 := mul_le_mul_of_nonneg_left k1 lD0.le
    linarith only [q1, q2]
  have k4 : 2 * δ ≤ ε := by
    refine le_of_mul_le_mul_right ?_ hst
    have q1 := mul_le_mul_of_nonneg_left e1 (mul_nonneg hδ.le ht.le)
    have q2 := mul_le_mul_of_nonneg_left e2 (mul_nonneg hδ.le hs.le)
    have q3 := mul_le_mul_of_nonneg_left k1 lE0
    linarith only [q1, q2, q3]
  have k5 : 2 * δ * (δ * κ) ≤ ε * (l * (s * t)) := mul_le_mul k4 k3 (by positivity) lE0
  have k6 : (2 * δ * (δ * κ)) ^ 2 ≤ (A * κ) ^ 2 := by
    refine (pow_le_pow_left₀ (by positivity) k5 2).trans ?_
    calc (ε * (l * (s * t))) ^ 2 = (s * t) ^ 2 * (ε ^ 2 * l ^ 2) := by ring
      _ ≤ _ := hN
  have k7 : 2 * δ * (δ * κ) ≤ A * κ := (pow_le_pow_iff_left₀ (by positivity) (by positivity) (by norm_num)).1 k6
  refine le_of_mul_le_mul_right ?_ hκ
  calc 2 * δ ^ 2 * κ = 2 * δ * (δ * κ) := by ring
    _ ≤ _ := k7

/-! ## the potential -/

/-- after `k` points: how small the triangle over the edge has become -/
def Pot (M : Set (V2 K)) (Q : K) (k : Nat) (d : V2 K) (pts : List (V2 K)) : Prop :=
  (pts = [] ∧ k = 0) ∨ (∃ b, pts = [b] ∧ k = 1) ∨
    ∃ b c, pts = [b, c] ∧ (k = 2 ∨ ∃ ub uc, Wedge M d b c ub uc ∧
      (k = 3 ∨ 0 < closing d b c ub uc ∧ ∃ j, k = j + 4 ∧ Narrow (Q / 4 ^ j) d b c ub uc))

theorem EdgeInv.pot {Q : K} {k : Nat} (hQ : 0 ≤ Q) (hdiam : ∀ m ∈ M, ∀ m' ∈ M, lengthSq (m - m') ≤ Q)
    (h : EdgeInv M L d b c) (hP : Pot M Q k d [b, c]) (haM : IsExtreme M d a) (ha : 0 < d.dot a)
    (hside : 0 ≤ (outNormal a b c).dot (-a)) : Pot M Q (k + 1) (outNormal a b c) [a, b] := by
  right; right
  refine ⟨a, b, rfl, ?_⟩
  right
  rcases hP with ⟨h1, -⟩ | ⟨_, h1, -⟩ | ⟨b', c', h1, hP⟩
  · simp at h1
  · simp at h1
  simp only [List.cons.injEq, and_true] at h1
  obtain ⟨rfl, rfl⟩ := h1
  rcases hP with rfl | ⟨ub, uc, w, hP⟩
  · obtain ⟨u, hu1, hu2⟩ := h.Pb
    exact ⟨d, u, h.nextWedge haM ha hside hu1 hu2, Or.inl rfl⟩
  · refine ⟨d, ub, h.nextWedge haM ha hside w.supb w.posb, Or.inr ⟨?_, ?_⟩⟩
    · rw [closing_next h.perp]
      have hH : 0 < d.dot (a - b) := by rw [dot_sub]; exact h.height ha
      exact mul_pos (mul_pos hH w.sb) (lengthSq_pos.2 (sub_ne_zero.2 (h.normal_ne ha).1))
    · rcases hP with rfl | ⟨hκ, j, rfl, hN⟩
      · refine ⟨0, rfl, ?_⟩
        rw [pow_zero, div_one]
        exact h.firstArea w hQ hdiam haM ha
      · refine ⟨j + 1, by omega, ?_⟩
        have e : Q / 4 ^ (j + 1) = Q / 4 ^ j / 4 := by rw [pow_succ, div_div]
        rw [e]
        exact h.quarter w hκ hN haM ha

theorem Pot.symm {Q : K} {k : Nat} (hP : Pot M Q k d [b, c]) : Pot M Q k d [c, b] := by
  rcases hP with ⟨h1, -⟩ | ⟨_, h1, -⟩ | ⟨b', c', h1, hP⟩
  · simp at h1
  · simp at h1
  simp only [List.cons.injEq, and_true] at h1
  obtain ⟨rfl, rfl⟩ := h1
  refine Or.inr (Or.inr ⟨c, b, rfl, ?_⟩)
  rcases hP with rfl | ⟨ub, uc, w, hP⟩
  · exact Or.inl rfl
  · refine Or.inr ⟨uc, ub, w.symm, ?_⟩
    rcases hP with rfl | ⟨hκ, j, rfl, hN⟩
    · exact Or.inl rfl
    · exact Or.inr ⟨by rw [closing_symm]; exact hκ, j, rfl, hN.symm⟩

variable [FloatExtra K] [ExactFloat K]

/-- one step keeps the potential -/
theorem GInv.pot {Q : K} {k : Nat} {pts : List (V2 K)} (hQ : 0 ≤ Q)
    (hdiam : ∀ m ∈ M, ∀ m' ∈ M, lengthSq (m - m') ≤ Q)
    (h : GInv M L d pts) (hP : Pot M Q k d pts) (haM : IsExtreme M d a) (ha : 0 < a.dot d)
    {r : AddResult K} (hr : addPoint pts a = .ok r) (hc : r.collides = false) :
    Pot M Q (k + 1) r.dir r.pts := by
  rw [dot_comm] at ha
  cases h with
  | start d hd =>
    simp only [addPoint, Except.ok.injEq] at hr
    subst hr
    rcases hP with ⟨-, rfl⟩ | ⟨_, h1, -⟩ | ⟨b', c', h1, hP⟩
    · exact Or.inr (Or.inl ⟨a, rfl, rfl⟩)
    · simp at h1
    · simp at h1
  | point b hb hPb =>
    have h2 : (b - a).dot (-a) ≥ 0 := by
      rw [dot_neg, sub_dot, dot_self]
      rw [neg_dot] at ha
      have := lengthSq_nonneg a
      show 0 ≤ _
      linarith
    simp only [addPoint] at hr
    rw [if_pos h2] at hr
    simp only [Except.ok.injEq] at hr
    subst hr
    rcases hP with ⟨h1, -⟩ | ⟨_, -, rfl⟩ | ⟨b', c', h1, hP⟩
    · simp at h1
    · exact Or.inr (Or.inr ⟨a, b, rfl, Or.inl rfl⟩)
    · simp at h1
  | edge L d b c h =>
    have eq1 : (b - a).crossF32 ((b - a).cross (c - a)) = outNormal a b c := rfl
    simp only [addPoint, acPerp_eq, eq1] at hr
    by_cases s1 : 0 ≤ (outNormal a b c).dot (-a)
    · obtain ⟨-, h2⟩ := h.step haM ha s1
      rw [if_pos (show sameDirection _ _ from s1), if_pos (show sameDirection _ _ from h2)] at hr
      simp only [Except.ok.injEq] at hr
      subst hr
      exact h.pot hQ hdiam hP haM ha s1
    · rw [if_neg (show ¬ sameDirection _ _ from s1)] at hr
      by_cases s2 : 0 ≤ (outNormal a c b).dot (-a)
      · rw [if_pos (show sameDirection _ _ from s2)] at hr
        simp only [Except.ok.injEq] at hr
        subst hr
        exact h.symm.pot hQ hdiam hP.symm haM ha s2
      · rw [if_neg (show ¬ sameDirection _ _ from s2)] at hr
        simp only [Except.ok.injEq] at hr
        subst hr
        simp at hc

/-- the potential runs out -/
theorem Pot.bound [ExactSqrt K] {δ Q : K} {j : Nat} {pts : List (V2 K)} (hδ : 0 < δ) (hQ : 0 ≤ Q)
    (hDisc : HasDisc M δ) (h : GInv M L d pts) (hP : Pot M Q (j + 4) d pts) : 2 * δ ^ 2 ≤ Q / 4 ^ j := by
  rcases hP with ⟨-, h1⟩ | ⟨_, -, h1⟩ | ⟨b, c, rfl, h1 | ⟨ub, uc, w, h1 | ⟨hκ, i, hi, hN⟩⟩⟩
  · omega
  · omega
  · omega
  · omega
  · cases h with
    | edge L d b c h =>
      obtain rfl : i = j := by omega
      exact h.depth hδ (by positivity) hDisc w hκ hN

/-- the search of `collides` finds every overlap that is not too flat -/
theorem gjkCollide_rate [ExactSqrt K] {δ Q : K} {S : V2 K → V2 K} (hδ : 0 < δ) (hQ : 0 ≤ Q) (hM : Convex K M)
    (hDisc : HasDisc M δ) (hS : ∀ d, IsExtreme M d (S d))
    (hdiam : ∀ m ∈ M, ∀ m' ∈ M, lengthSq (m - m') ≤ Q) :
    ∀ (n j k : Nat) (L : List (V2 K)) (d : V2 K) (pts : List (V2 K)), GInv M L d pts → Pot M Q k d pts →
      k + n = j + 4 → Q / 4 ^ j < 2 * δ ^ 2 →
      ∀ r, gjkCollide S n d pts = .ok r → r.1 = true := by
  intro n
  induction n with
  | zero =>
    intro j k L d pts hI hP hk hj r hr
    obtain rfl : k = j + 4 := by omega
    exact absurd (hP.bound hδ hQ hDisc hI) (not_le.2 hj)
  | succ n ih =>
    intro j k L d pts hI hP hk hj r hr
    simp only [gjkCollide] at hr
    have h1 : ¬ (S d).dot d ≤ 0 := by
      intro h
      obtain ⟨s1, _, _⟩ := hDisc.support hδ.le hI.dir_ne (hS d).2
      rw [dot_comm] at h
      have := mul_pos hδ (V2.length_pos.2 hI.dir_ne)
      linarith
    rw [if_neg h1] at hr
    obtain ⟨q, hq, hok⟩ := hI.step hM (hS d) (not_le.1 h1)
    rw [hq] at hr
    simp only at hr
    by_cases h2 : q.collides = true ∨ directionTooSmall q.dir
    · rw [if_pos h2] at hr
      simp only [Except.ok.injEq] at hr
      subst hr
      rfl
    · rw [if_neg h2] at hr
      have hc : q.collides = false := by
        cases hc : q.collides with
        | true => exact absurd (Or.inl hc) h2
        | false => rfl
      have hI' := hok.next hc (not_tooSmall_ne fun h => h2 (Or.inr h))
      exact ih j (k + 1) _ _ _ hI' (hI.pot hQ hdiam hP (hS d) (not_le.1 h1) hq hc) (by omega) hj r hr

/-- the search of `penetrates` finds every overlap with a margin that is not too flat -/
theorem gjkPenetrate_rate [ExactSqrt K] {δ R Q : K} {S : V2 K → V2 K} (hδ : 0 < δ) (hQ : 0 ≤ Q) (hDisc : HasDisc M δ)
    (hR : ∀ m ∈ M, m.length ≤ R) (hε : 1 / 2 ^ 23 * R ≤ δ ^ 4) (hM : Convex K M)
    (hS : ∀ d, IsExtreme M d (S d)) (hdiam : ∀ m ∈ M, ∀ m' ∈ M, lengthSq (m - m') ≤ Q) :
    ∀ (n j k : Nat) (L : List (V2 K)) (d : V2 K) (pts : List (V2 K)), GInv M L d pts → Pot M Q k d pts →
      LongEdge δ pts → k + n = j + 4 → Q / 4 ^ j < 2 * δ ^ 2 →
      ∀ r, gjkPenetrate S n d pts = .ok r → r.1 = true := by
  have hRδ : δ ≤ R := by
    have h1 : (⟨1, 0⟩ : V2 K) ≠ 0 := by
      intro h; have := congrArg V2.x h; simp at this
    obtain ⟨_, _, s2'⟩ := hDisc.support hδ.le h1 (hS ⟨1, 0⟩).2
    refine le_trans ?_ (hR _ (hS ⟨1, 0⟩).1)
    rw [← V2.length_sq] at s2'
    exact (pow_le_pow_iff_left₀ hδ.le (V2.length_nonneg _) (by norm_num)).1 s2'
  have hεδ : (1 / 2 ^ 23 : K) ≤ δ ^ 3 := by
    have h1 : (1 / 2 ^ 23 : K) * δ ≤ δ ^ 3 * δ := by
      calc (1 / 2 ^ 23 : K) * δ ≤ 1 / 2 ^ 23 * R := mul_le_mul_of_nonneg_left hRδ (by positivity)
        _ ≤ δ ^ 4 := hε
        _ = δ ^ 3 * δ := by ring
    exact le_of_mul_le_mul_right h1 hδ
  have hpos : ∀ d : V2 K, d ≠ 0 → ¬ (S d).dot d ≤ 0 := by
    intro d hd h
    obtain ⟨s1, _, _⟩ := hDisc.support hδ.le hd (hS d).2
    rw [dot_comm] at h
    have := mul_pos hδ (V2.length_pos.2 hd)
    linarith
  intro n
  induction n with
  | zero =>
    intro j k L d pts hI hP hlong hk hj r hr
    obtain rfl : k = j + 4 := by omega
    exact absurd (hP.bound hδ hQ hDisc hI) (not_le.2 hj)
  | succ n ih =>
    intro j k L d pts hI hP hlong hk hj r hr
    have h1 := hpos d hI.dir_ne
    obtain ⟨q, hq, hok⟩ := hI.step hM (hS d) (not_le.1 h1)
    cases hc : q.collides with
    | true => exact penetrate_hit h1 hq hc hr
    | false =>
      have hP' := hI.pot hQ hdiam hP (hS d) (not_le.1 h1) hq hc
      simp only [gjkPenetrate] at hr
      rw [if_neg h1, hq] at hr
      simp only at hr
      rw [if_neg (by simp [hc])] at hr
      have hfin : ¬ directionTooSmall q.dir → LongEdge δ q.pts → r.1 = true := by
        intro h4 g2
        have e0 : overrideDir d q.dir = q.dir := if_neg h4
        rw [e0] at hr
        exact ih j (k + 1) _ _ _ (hok.next hc (not_tooSmall_ne h4)) hP' g2 (by omega) hj r hr
      cases hI with
      | start d hd =>
        simp only [addPoint, Except.ok.injEq] at hq
        subst hq
        refine hfin (fun h4 => ?_) (by intro b c h; simp at h)
        have h5 : lengthSq (-(S d)) < FloatExtra.epsilon * FloatExtra.epsilon := h4
        obtain ⟨_, _, s3⟩ := hDisc.support hδ.le hd (hS d).2
        rw [ExactFloat.epsilon_eq, ← sq, lengthSq_neg] at h5
        have h6 : δ < 1 / 2 ^ 23 :=
          lt_of_pow_lt_pow_left₀ 2 (by positivity) (s3.trans_lt h5)
        have h7 : δ ^ 3 ≤ δ := by
          have : δ ≤ 1 := h6.le.trans (by norm_num)
          calc δ ^ 3 ≤ δ ^ 1 := pow_le_pow_of_le_one hδ.le this (by norm_num)
            _ = δ := pow_one δ
        linarith
      | point b hb hPb =>
        have ha : 0 < (-b).dot (S (-b)) := by rw [dot_comm]; exact not_le.1 h1
        have h2 : (b - S (-b)).dot (-(S (-b))) ≥ 0 := by
          rw [dot_neg, sub_dot, dot_self]
          rw [neg_dot] at ha
          have := lengthSq_nonneg (S (-b))
          show 0 ≤ _
          linarith
        simp only [addPoint] at hq
        rw [if_pos h2] at hq
        simp only [Except.ok.injEq] at hq
        by_cases h4 : directionTooSmall q.dir
        · -- the override; the next iteration captures
          have hk1 : k = 1 := by
            rcases hP with ⟨h, -⟩ | ⟨_, -, h⟩ | ⟨_, _, h, -⟩
            · simp at h
            · exact h
            · simp at h
          obtain ⟨m, rfl⟩ : ∃ m, n = m + 1 := ⟨n - 1, by omega⟩
          have e0 : overrideDir (-b) q.dir = (-b).perp := if_pos h4
          rw [e0] at hr
          have e1 : q.pts = [S (-b), b] := by rw [← hq]
          have e2 : directionTooSmall ((b - S (-b)).crossAba (-(S (-b)))) := by
            rw [← hq] at h4; exact h4
          rw [e1] at hr
          obtain ⟨q2, hq2, hc2, _⟩ := capture_after_override hδ hDisc hR hε (hS (-b)) hPb e2
            (hS (-b).perp)
          exact penetrate_hit (hpos _ (perp_ne (neg_ne_zero.2 hPb.ne_zero))) hq2 hc2 hr
        · refine hfin h4 ?_
          rw [← hq]
          intro u v huv
          simp only [List.cons.injEq, and_true] at huv
          obtain ⟨rfl, rfl⟩ := huv
          obtain ⟨_, _, s3⟩ := hDisc.support hδ.le (neg_ne_zero.2 hPb.ne_zero) (hS (-b)).2
          have e2 : lengthSq (S (-b) - b) = lengthSq (S (-b)) + lengthSq b +
              2 * (-b).dot (S (-b)) := by
            simp only [lengthSq_def, dot_def, sub_x, sub_y, neg_x, neg_y]; ring
          rw [e2]
          have := lengthSq_nonneg b
          linarith
      | edge L d b c h =>
        have ha : 0 < d.dot (S d) := by rw [dot_comm]; exact not_le.1 h1
        have hlen := hlong b c rfl
        obtain ⟨k1, k2⟩ := h.not_small hδ hεδ hDisc hlen (hS d) ha
        obtain ⟨k3, k4⟩ := h.symm.not_small hδ hεδ hDisc (by rwa [lengthSq_sub_comm]) (hS d) ha
        have eq1 : (b - S d).crossF32 ((b - S d).cross (c - S d)) = outNormal (S d) b c := rfl
        simp only [addPoint, acPerp_eq, eq1] at hq
        have hL1 : LongEdge δ [S d, b] := by
          intro u v huv
          simp only [List.cons.injEq, and_true] at huv
          obtain ⟨rfl, rfl⟩ := huv
          exact k2
        have hL2 : LongEdge δ [S d, c] := by
          intro u v huv
          simp only [List.cons.injEq, and_true] at huv
          obtain ⟨rfl, rfl⟩ := huv
          exact k4
        split_ifs at hq <;> simp only [Except.ok.injEq] at hq <;> subst hq
        · exact hfin k1 hL1
        · exact hfin k3 hL2
        · exact hfin k3 hL2
        · simp at hc

end
end Auburn
