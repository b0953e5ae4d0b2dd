import Verif.Ieee.DeepProps
import Verif.Lib.EpaStart

/-!
# The closest edge found on binary32 (library lemmas for C98)
-/

set_option linter.unusedSectionVars false
set_option synthInstance.maxSize 1000

namespace Auburn

open F32 V2 ExtremePoint2d Transformation2d

/-! ## arithmetic -/

/-- the parameter of the foot on an edge of length `w` -/
theorem param_arith {w m R num den t : ℝ} (hw : 0 < w) (hm : |m| ≤ R * w) (hnum : |num - m| ≤ R * w / 2 ^ 21)
    (hden : |den - w ^ 2| ≤ (5 / 2 ^ 24) * w ^ 2) (ht : |t - num / den| ≤ |num / den| / 2 ^ 24 + 1 / 2 ^ 150) :
    |t - m / w ^ 2| * w ≤ R / 2 ^ 20 + w / 2 ^ 149 := by
  have hw2 : 0 < w ^ 2 := by positivity
  have d1 := (abs_le.1 hden).1
  have hd0 : 0 < den := by linarith
  have hR : 0 ≤ R := by
    have := (abs_nonneg m).trans hm
    exact nonneg_of_mul_nonneg_left this hw
  -- the exact quotient
  have k1 : |num / den - m / w ^ 2| * w ≤ R * (14 / 2 ^ 24) := by
    have e : num / den - m / w ^ 2 = (num - m + m / w ^ 2 * (w ^ 2 - den)) / den := by
      field_simp
      ring
    have h1 : |m / w ^ 2 * (w ^ 2 - den)| ≤ R * w * (5 / 2 ^ 24) := by
      rw [abs_mul, abs_sub_comm, abs_div, abs_of_pos hw2]
      have := mul_le_mul_of_nonneg_left hden (show 0 ≤ |m| / w ^ 2 by positivity)
      have e2 : |m| / w ^ 2 * (5 / 2 ^ 24 * w ^ 2) = |m| * (5 / 2 ^ 24) := by field_simp
      rw [e2] at this
      have h3 := mul_le_mul_of_nonneg_right hm (show (0 : ℝ) ≤ 5 / 2 ^ 24 by positivity)
      linarith
    have h2 : |num - m + m / w ^ 2 * (w ^ 2 - den)| ≤ R * w * (13 / 2 ^ 24) := by
      refine (abs_add_le _ _).trans ?_
      have e3 : R * w / 2 ^ 21 = R * w * (8 / 2 ^ 24) := by ring
      rw [e3] at hnum
      linarith
    rw [e, abs_div, abs_of_pos hd0, div_mul_eq_mul_div, div_le_iff₀ hd0]
    have h3 := mul_le_mul_of_nonneg_right h2 hw.le
    have h4 : 13 / 14 * w ^ 2 ≤ den := by linarith
    have h5 := mul_le_mul_of_nonneg_left h4 (show 0 ≤ R * (14 / 2 ^ 24) by positivity)
    have e4 : R * w * (13 / 2 ^ 24) * w = R * (14 / 2 ^ 24) * (13 / 14 * w ^ 2) := by ring
    linarith
  have k2 : |m / w ^ 2| * w ≤ R := by
    rw [abs_div, abs_of_pos hw2, div_mul_eq_mul_div, div_le_iff₀ hw2]
    have := mul_le_mul_of_nonneg_right hm hw.le
    linarith
  have k3 : |num / den| * w ≤ R * (1 + 14 / 2 ^ 24) := by
    have h1 := abs_add_le (num / den - m / w ^ 2) (m / w ^ 2)
    rw [sub_add_cancel] at h1
    have := mul_le_mul_of_nonneg_right h1 hw.le
    linarith
  have k4 := mul_le_mul_of_nonneg_right ht hw.le
  have k5 := abs_add_le (t - num / den) (num / den - m / w ^ 2)
  rw [sub_add_sub_cancel] at k5
  have k6 := mul_le_mul_of_nonneg_right k5 hw.le
  have hw0 : 0 ≤ w / 2 ^ 150 := by positivity
  have e5 : (|num / den| / 2 ^ 24 + 1 / 2 ^ 150) * w = |num / den| * w / 2 ^ 24 + w / 2 ^ 150 := by ring
  have e6 : w / 2 ^ 149 = 2 * (w / 2 ^ 150) := by ring
  rw [e5] at k4
  rw [e6]
  linarith

/-- the parameter put into `[0, 1]` -/
noncomputable def clamp01 (t : ℝ) : ℝ := if 1 < (if t < 0 then 0 else t) then 1 else (if t < 0 then 0 else t)

theorem clamp01_mem (t : ℝ) : 0 ≤ clamp01 t ∧ clamp01 t ≤ 1 := by
  unfold clamp01
  split_ifs <;> constructor <;> linarith

theorem clamp01_lip (t s : ℝ) : |clamp01 t - clamp01 s| ≤ |t - s| := by
  have h1 := le_abs_self (t - s)
  have h2 := neg_abs_le (t - s)
  have h3 := abs_nonneg (t - s)
  unfold clamp01
  split_ifs <;> rw [abs_le] <;> constructor <;> linarith

theorem clamp01_near {s : ℝ} (t : ℝ) (h0 : 0 ≤ s) (h1 : s ≤ 1) : |clamp01 t - t| ≤ |s - t| := by
  have h2 := le_abs_self (s - t)
  have h3 := neg_abs_le (s - t)
  have h4 := abs_nonneg (s - t)
  unfold clamp01
  split_ifs <;> rw [abs_le] <;> constructor <;> linarith

/-- the foot is the closest point of the edge -/
theorem foot_closest {a E : V2 ℝ} {s : ℝ} (hE : 0 < E.norm) (h0 : 0 ≤ s) (h1 : s ≤ 1) :
    (a + V2.scale (clamp01 (-a.dot E / E.norm ^ 2)) E).norm ≤ (a + V2.scale s E).norm := by
  obtain ⟨t, ht⟩ : ∃ t, t = -a.dot E / E.norm ^ 2 := ⟨_, rfl⟩
  have hQ : 0 < E.norm ^ 2 := by positivity
  have ht2 : t * E.norm ^ 2 = -a.dot E := by rw [ht, div_mul_cancel₀ _ hQ.ne']
  have key : ∀ r : ℝ, (a + V2.scale r E).norm ^ 2 = a.norm ^ 2 - t ^ 2 * E.norm ^ 2 + (r - t) ^ 2 * E.norm ^ 2 := by
    intro r
    have e1 : (a + V2.scale r E).norm ^ 2 = a.norm ^ 2 + 2 * r * a.dot E + r ^ 2 * E.norm ^ 2 := by
      simp only [V2.norm_sq_lengthSq, lengthSq_def, dot_def, add_x, add_y, scale_x, scale_y]; ring
    rw [e1]
    linear_combination (2 * r) * ht2
  rw [← ht]
  refine le_of_sq (V2.norm_nonneg _) ?_
  rw [key, key]
  have h2 := pow_le_pow_left₀ (abs_nonneg _) (clamp01_near t h0 h1) 2
  rw [sq_abs, sq_abs] at h2
  have := mul_le_mul_of_nonneg_right h2 hQ.le
  linarith

section
variable [env : F32Env]
variable {W : Set (V2 ℝ)} {M : ℝ}

/-- a vertex of the polygon of EPA -/
structure EPt (W : Set (V2 ℝ)) (M : ℝ) (p' : V2 F32) (p : V2 ℝ) : Prop where
  is : p'.Is p
  pt : NearPt False W M p
  far : M / 64 ≤ p.norm

theorem EPt.norm_le (hM : 0 < M) {p' : V2 F32} {p : V2 ℝ} (h : EPt W M p' p) : p.norm ≤ 6 * M := by
  obtain ⟨c1, c2⟩ := h.pt.coord
  refine V2.norm_le (by positivity) ?_
  have r1 := pow_le_pow_left₀ (abs_nonneg _) c1 2
  have r2 := pow_le_pow_left₀ (abs_nonneg _) c2 2
  rw [sq_abs] at r1 r2
  have r3 : 0 < M ^ 2 := by positivity
  rw [mul_pow] at *
  rw [dot_def]
  linarith

theorem is_clamp {t' : F32} {t : ℝ} (h : F32.Is t' t) :
    F32.Is (if (if t' < 0 then 0 else t') > 1 then 1 else (if t' < 0 then 0 else t')) (clamp01 t) := by
  have h0 : t' < 0 ↔ t < 0 := lt_iff h is_zero
  have h1 : F32.Is (if t' < 0 then 0 else t') (if t < 0 then 0 else t) := by
    by_cases hc : t < 0
    · rw [if_pos (h0.2 hc), if_pos hc]; exact is_zero
    · rw [if_neg (fun h => hc (h0.1 h)), if_neg hc]; exact h
  have h2 : (if t' < 0 then 0 else t') > 1 ↔ 1 < (if t < 0 then 0 else t) := lt_iff is_one h1
  unfold clamp01
  by_cases hc : 1 < (if t < 0 then 0 else t)
  · rw [if_pos (h2.2 hc), if_pos hc]; exact is_one
  · rw [if_neg (fun h => hc (h2.1 h)), if_neg hc]; exact h1

/-- the computed difference of the ends of an edge that is not tiny -/
theorem edge_diff {a' b' : V2 F32} {a b : V2 ℝ} (hsc : Scale32 M) (ha : EPt W M a' a) (hb : EPt W M b' b)
    (hl : M / 2 ^ 13 ≤ (b - a).norm) :
    ∃ e, (b' - a').Is e ∧ Apx (1 / 2 ^ 24) e (b - a) ∧ (2 : ℝ) ^ (-60 : ℤ) ≤ e.l1 := by
  have hM := hsc.pos
  have h1 := V2.norm_sub_le' b a
  have h2 := ha.norm_le hM
  have h3 := hb.norm_le hM
  have h4 := hsc.hi
  obtain ⟨e, e1, e2⟩ := fl_sub hb.is ha.is (show (b - a).norm ≤ (2 : ℝ) ^ (125 : ℤ) by
    have : (12 : ℝ) * 2 ^ 26 ≤ (2 : ℝ) ^ (125 : ℤ) := by norm_num
    linarith)
  refine ⟨e, e1, e2, ?_⟩
  have h5 := e2.le_norm
  have h6 := V2.norm_le_add e
  have h7 : (1 : ℝ) / 2 ^ 16 / 2 ^ 13 ≤ M / 2 ^ 13 := div_le_div_of_nonneg_right hsc.lo (by positivity)
  have h8 : (2 : ℝ) ^ (-60 : ℤ) ≤ (1 - 1 / 2 ^ 24) * (1 / 2 ^ 16 / 2 ^ 13) := by norm_num
  have h9 : (1 - 1 / 2 ^ 24) * (1 / 2 ^ 16 / 2 ^ 13) ≤ (1 - 1 / 2 ^ 24) * (b - a).norm :=
    mul_le_mul_of_nonneg_left (h7.trans hl) (by norm_num)
  exact h8.trans (h9.trans (h5.trans h6))

theorem edge_coord {m x y z w : ℝ} (hx : |x| ≤ 4 * m) (hy : |y| ≤ 4 * m) (hw : w ≤ 12 * m) (hz : |z - (x - y)| ≤ 1 / 2 ^ 24 * w) :
    |z| ≤ 9 * m := by
  have h2 := abs_add_le (z - (x - y)) (x - y)
  rw [sub_add_cancel] at h2
  have h3 := abs_sub x y
  linarith [abs_nonneg x]

/-- the normal EPA computes for an edge that is not tiny -/
theorem edge_normal {a' b' : V2 F32} {a b : V2 ℝ} {k : ℤ} (hsc : Scale32 M) (hk : 0 ≤ k) (hM : M ≤ (2 : ℝ) ^ k)
    (ha : EPt W M a' a) (hb : EPt W M b' b) (hl : M / 2 ^ 13 ≤ (b - a).norm) :
    ∃ e n, (b' - a').Is e ∧ Apx (1 / 2 ^ 24) e (b - a) ∧ n = ⟨e.y, -e.x⟩ ∧ (b' - a').perpRight.Is n ∧ DirB k n ∧
      n.l1 ≤ 18 * M ∧ (2 : ℝ) ^ (-60 : ℤ) ≤ n.l1 := by
  have hM1 := hsc.pos
  obtain ⟨e, e1, e2, e3⟩ := edge_diff hsc ha hb hl
  have hE : (b - a).norm ≤ 12 * M := (V2.norm_sub_le' b a).trans (by linarith [ha.norm_le hM1, hb.norm_le hM1])
  have e2' : (e - (b - a)).norm ≤ 1 / 2 ^ 24 * (b - a).norm := e2
  have ex : |e.x| ≤ 9 * M := edge_coord hb.pt.coord.1 ha.pt.coord.1 hE ((V2.abs_x_le_norm (e - (b - a))).trans e2')
  have ey : |e.y| ≤ 9 * M := edge_coord hb.pt.coord.2 ha.pt.coord.2 hE ((V2.abs_y_le_norm (e - (b - a))).trans e2')
  have hB : 9 * M ≤ (2 : ℝ) ^ (3 * k + 10) := by
    have h1 : (2 : ℝ) ^ (k + 4) ≤ (2 : ℝ) ^ (3 * k + 10) := zpow_le_zpow (by omega)
    have h2 : (2 : ℝ) ^ (k + 4) = 16 * (2 : ℝ) ^ k := by rw [zpow_add₀ (by norm_num)]; norm_num; ring
    linarith
  refine ⟨e, _, e1, e2, rfl, ⟨e1.2, is_neg e1.1⟩, ⟨ey.trans hB, ?_⟩, ?_, ?_⟩
  · show |-e.x| ≤ _
    rw [abs_neg]; exact ex.trans hB
  · show |e.y| + |-e.x| ≤ _
    rw [abs_neg]; linarith
  · show _ ≤ |e.y| + |-e.x|
    rw [abs_neg, add_comm]; exact e3

/-- the root of a computed square -/
theorem root_near {p D μ : ℝ} (hp : 0 ≤ p) (hμ : 1 / 2 ^ 60 ≤ μ) (hpm : p / 2 ^ 24 ≤ 20 * μ)
    (h : |D - p ^ 2| ≤ 9 / 4 * (p ^ 2 / 2 ^ 24) + 3 / 2 ^ 150) :
    Real.sqrt D ≤ p + 64 * μ ∧ p ≤ Real.sqrt D + 64 * μ := by
  have hμ0 : 0 < μ := lt_of_lt_of_le (by positivity) hμ
  have h1 : p ^ 2 / 2 ^ 24 ≤ 20 * (μ * p) := by
    have := mul_le_mul_of_nonneg_left hpm hp
    have e : p * (p / 2 ^ 24) = p ^ 2 / 2 ^ 24 := by ring
    rw [e] at this
    linarith
  have h2 : 3 / 2 ^ 150 ≤ μ ^ 2 := by
    have := pow_le_pow_left₀ (by positivity) hμ 2
    refine le_trans (by norm_num) this
  obtain ⟨a1, a2⟩ := abs_le.1 h
  have h3 : 0 ≤ μ * p := mul_nonneg hμ0.le hp
  constructor
  · refine Real.sqrt_le_iff.2 ⟨by linarith, ?_⟩
    have e : (p + 64 * μ) ^ 2 = p ^ 2 + 128 * (μ * p) + 4096 * μ ^ 2 := by ring
    have : 0 < μ ^ 2 := by positivity
    rw [e]; linarith
  · by_cases hc : p ≤ 64 * μ
    · have := Real.sqrt_nonneg D
      linarith
    · push Not at hc
      have := Real.le_sqrt_of_sq_le (x := p - 64 * μ) (y := D) (by
        have e : (p - 64 * μ) ^ 2 = p ^ 2 - 128 * (μ * p) + 4096 * μ ^ 2 := by ring
        have h4 := mul_lt_mul_of_pos_left hc hμ0
        have e2 : μ * (64 * μ) = 64 * μ ^ 2 := by ring
        rw [e2] at h4
        rw [e]; linarith)
      linarith

/-- one coordinate of the foot -/
theorem foot_coord {a' e' t' : F32} {a e t m : ℝ} (hm0 : 1 / 2 ^ 16 ≤ m) (hm : m ≤ 2 ^ 26) (ha : F32.Is a' a)
    (he : F32.Is e' e) (ht : F32.Is t' t) (t0 : 0 ≤ t) (t1 : t ≤ 1) (hA : |a| ≤ 4 * m) (hE : |e| ≤ 9 * m) :
    ∃ z, F32.Is (a' + t' * e') z ∧ |z - (a + t * e)| ≤ 24 * (m / 2 ^ 24) := by
  have ht' : |t * e| ≤ |e| := by
    rw [abs_mul, abs_of_nonneg t0]
    have := mul_le_mul_of_nonneg_right t1 (abs_nonneg e)
    linarith
  have big : (2 : ℝ) ^ 31 ≤ 3 * (2 : ℝ) ^ (126 : ℤ) := by norm_num
  obtain ⟨p, p1, p2, -⟩ := F32.round_mul ht he (by linarith)
  have hμ : 0 < m / 2 ^ 24 := by positivity
  have p3 : |p - t * e| ≤ 9 * (m / 2 ^ 24) + 1 / 2 ^ 150 := by
    have : |t * e| / 2 ^ 24 ≤ 9 * m / 2 ^ 24 := div_le_div_of_nonneg_right (ht'.trans hE) (by positivity)
    have e : 9 * m / 2 ^ 24 = 9 * (m / 2 ^ 24) := by ring
    linarith
  have tiny : (1 : ℝ) / 2 ^ 150 ≤ 1 / 10 * (m / 2 ^ 24) := by
    have : (1 : ℝ) / 2 ^ 16 / 2 ^ 24 ≤ m / 2 ^ 24 := div_le_div_of_nonneg_right hm0 (by positivity)
    have : (1 : ℝ) / 2 ^ 150 ≤ 1 / 10 * (1 / 2 ^ 16 / 2 ^ 24) := by norm_num
    linarith
  have sum : |a + p| ≤ 14 * m := by
    have h1 := abs_add_le a p
    have h2 := abs_add_le (t * e) (p - t * e)
    rw [add_sub_cancel] at h2
    have h3 : m / 2 ^ 24 ≤ m / 16 := div_le_div_of_nonneg_left (by linarith) (by norm_num) (by norm_num)
    linarith
  obtain ⟨z, z1, z2⟩ := F32.round_add ha p1 (by linarith)
  refine ⟨z, z1, ?_⟩
  have z3 : |a + p| / 2 ^ 24 ≤ 14 * (m / 2 ^ 24) := by
    have : |a + p| / 2 ^ 24 ≤ 14 * m / 2 ^ 24 := div_le_div_of_nonneg_right sum (by positivity)
    have e : 14 * m / 2 ^ 24 = 14 * (m / 2 ^ 24) := by ring
    linarith
  have h4 := abs_add_le (z - (a + p)) (p - t * e)
  have e2 : z - (a + p) + (p - t * e) = z - (a + t * e) := by ring
  rw [e2] at h4
  linarith

/-- what `find_closest_edge` computes for an edge -/
theorem edge_dist {a' b' : V2 F32} {a b : V2 ℝ} (hsc : Scale32 M) (ha : EPt W M a' a) (hb : EPt W M b' b)
    (hlong : M / 2 ^ 13 ≤ (b - a).norm) :
    ∃ D, F32.Is (edgeDistSq a' b') D ∧
      (∀ s : ℝ, 0 ≤ s → s ≤ 1 → Real.sqrt D ≤ (a + V2.scale s (b - a)).norm + M / 2 ^ 16) ∧
      |a.cross b| ≤ (Real.sqrt D + M / 2 ^ 16) * (b - a).norm := by
  have hM := hsc.pos
  have hi := hsc.hi
  have hlo := hsc.lo
  obtain ⟨e, e1, e2, hl⟩ := edge_diff hsc ha hb hlong
  have na := ha.norm_le hM
  have nb := hb.norm_le hM
  have fa := ha.far
  have hE : (b - a).norm ≤ 12 * M := (V2.norm_sub_le' b a).trans (by linarith)
  have he := e2.norm_le
  have he' := e2.le_norm
  -- the length of the edge
  have le : 1 / 2 ^ 61 ≤ e.norm := by
    have h1 := e.l1_le_norm
    have h2 : (3 / 2 : ℝ) * (1 / 2 ^ 61) ≤ (2 : ℝ) ^ (-60 : ℤ) := by norm_num
    have h3 := h2.trans (hl.trans h1)
    linarith only [h3]
  obtain ⟨w, hw⟩ : ∃ w, w = (b - a).norm := ⟨_, rfl⟩
  rw [← hw] at hE he he'
  have hwlo : 1 / 2 ^ 62 ≤ w := by
    have h0 : 0 ≤ w := by rw [hw]; exact V2.norm_nonneg _
    linarith
  have hw0 : 0 < w := lt_of_lt_of_le (by positivity) hwlo
  -- the numerator
  obtain ⟨num, u1, u2⟩ := fl_dot ha.is.neg e1 (Apx.refl (-a)) e2 (le_refl _) (by positivity) (by norm_num)
    (by
      rw [V2.norm_neg', ← hw]
      refine le_trans ?_ (mul_le_mul (show (1 : ℝ) / 2 ^ 22 ≤ a.norm by linarith) hwlo (by positivity) a.norm_nonneg)
      norm_num)
    (by
      rw [V2.norm_neg', ← hw]
      refine (mul_le_mul (show a.norm ≤ 2 ^ 30 by linarith) (show w ≤ 2 ^ 30 by linarith) hw0.le (by positivity)).trans ?_
      norm_num)
  rw [V2.norm_neg', ← hw] at u2
  have u3 : |num - (-a).dot (b - a)| ≤ 6 * M * w / 2 ^ 21 :=
    u2.trans (div_le_div_of_nonneg_right (mul_le_mul_of_nonneg_right na hw0.le) (by positivity))
  have u4 : |(-a).dot (b - a)| ≤ 6 * M * w := by
    have := dot_le_norm (-a) (b - a)
    rw [V2.norm_neg', ← hw] at this
    exact this.trans (mul_le_mul_of_nonneg_right na hw0.le)
  -- the denominator
  have hP : |e.x * e.x| + |e.y * e.y| = e.norm ^ 2 := by
    rw [abs_mul_self, abs_mul_self, V2.norm_sq', dot_def]
  have he14 : e.norm ≤ 13 * M := by linarith
  obtain ⟨den, v1, v2⟩ := round_dot e1 e1 hP.le (by
    have : e.norm ≤ 2 ^ 30 := by linarith
    refine (pow_le_pow_left₀ e.norm_nonneg this 2).trans (by norm_num))
  rw [← V2.norm_sq'] at v2
  have hw2 : 0 < w ^ 2 := by positivity
  have sq1 : e.norm ^ 2 ≤ (1 + 2001 / 1000 / 2 ^ 24) * w ^ 2 := by
    have := pow_le_pow_left₀ e.norm_nonneg he 2
    rw [mul_pow] at this
    refine this.trans (mul_le_mul_of_nonneg_right (by norm_num) hw2.le)
  have sq2 : (1 - 2001 / 1000 / 2 ^ 24) * w ^ 2 ≤ e.norm ^ 2 := by
    have := pow_le_pow_left₀ (mul_nonneg (by norm_num) hw0.le) he' 2
    rw [mul_pow] at this
    refine le_trans (mul_le_mul_of_nonneg_right (by norm_num) hw2.le) this
  have tiny : (3 : ℝ) / 2 ^ 150 ≤ 7 / 10 / 2 ^ 24 * w ^ 2 := by
    have h1 : (1 - 1 / 2 ^ 24 * 2) * (1 / 2 ^ 61) ≤ w := by
      have : (1 + 1 / 2 ^ 24) * ((1 - 1 / 2 ^ 24 * 2) * (1 / 2 ^ 61)) ≤ (1 : ℝ) / 2 ^ 61 := by norm_num
      have h2 := this.trans (le.trans he)
      exact le_of_mul_le_mul_left h2 (by norm_num)
    have h2 := pow_le_pow_left₀ (by norm_num) h1 2
    refine le_trans ?_ (mul_le_mul_of_nonneg_left h2 (by norm_num))
    norm_num
  have v3 : |den - w ^ 2| ≤ 5 / 2 ^ 24 * w ^ 2 := by
    obtain ⟨c1, c2⟩ := abs_le.1 v2
    rw [abs_le]
    constructor <;> linarith
  have d0 : w ^ 2 / 2 ≤ den := by
    have := (abs_le.1 v3).1
    linarith
  have dpos : 0 < den := by linarith
  -- the quotient
  obtain ⟨t, t1, t2⟩ := F32.round_div u1 v1 dpos.ne' (by
    rw [abs_div, abs_of_pos dpos, div_le_iff₀ dpos]
    have h1 : |num| ≤ 7 * M * w := by
      have := abs_add_le ((-a).dot (b - a)) (num - (-a).dot (b - a))
      rw [add_sub_cancel] at this
      have h0 : 0 < M * w := by positivity
      linarith
    have h2 : 7 * M * w ≤ 7 * 2 ^ 26 * w := mul_le_mul_of_nonneg_right (by linarith) hw0.le
    have h3 : w ≤ 2 ^ 63 * (w ^ 2 / 2) := by
      have := mul_le_mul_of_nonneg_right hwlo hw0.le
      linarith
    have h4 : w ≤ 2 ^ 63 * den := h3.trans (mul_le_mul_of_nonneg_left d0 (by positivity))
    have h5 : (7 * 2 ^ 26 * 2 ^ 63 : ℝ) ≤ 3 * (2 : ℝ) ^ (126 : ℤ) := by norm_num
    have h6 := mul_le_mul_of_nonneg_right h5 dpos.le
    linarith)
  have key := param_arith hw0 u4 u3 v3 t2
  have hneg : (-a).dot (b - a) = -a.dot (b - a) := by simp only [dot_def, neg_x, neg_y]; ring
  rw [hneg, hw] at key
  -- the parameter in `[0, 1]`
  have c1 := is_clamp t1
  obtain ⟨c2, c3⟩ := clamp01_mem t
  have c4 := clamp01_lip t (-a.dot (b - a) / (b - a).norm ^ 2)
  obtain ⟨τ, hτ⟩ : ∃ τ, τ = clamp01 t := ⟨_, rfl⟩
  rw [← hτ] at c1 c2 c3 c4
  have key2 : |τ - clamp01 (-a.dot (b - a) / (b - a).norm ^ 2)| * w ≤ 97 * (M / 2 ^ 24) := by
    have h1 := mul_le_mul_of_nonneg_right c4 hw0.le
    rw [← hw] at key h1 ⊢
    have h2 : w / 2 ^ 149 ≤ M / 2 ^ 24 := by linarith
    have e : 6 * M / 2 ^ 20 = 96 * (M / 2 ^ 24) := by ring
    rw [e] at key
    linarith
  -- the foot
  have e2' : (e - (b - a)).norm ≤ 1 / 2 ^ 24 * w := by rw [hw]; exact e2
  have hex : |e.x| ≤ 9 * M := edge_coord hb.pt.coord.1 ha.pt.coord.1 hE ((V2.abs_x_le_norm (e - (b - a))).trans e2')
  have hey : |e.y| ≤ 9 * M := edge_coord hb.pt.coord.2 ha.pt.coord.2 hE ((V2.abs_y_le_norm (e - (b - a))).trans e2')
  obtain ⟨X, X1, X2⟩ := foot_coord hlo hi ha.is.1 e1.1 c1 c2 c3 ha.pt.coord.1 hex
  obtain ⟨Y, Y1, Y2⟩ := foot_coord hlo hi ha.is.2 e1.2 c1 c2 c3 ha.pt.coord.2 hey
  have hμ : 0 < M / 2 ^ 24 := by positivity
  have near : ((⟨X, Y⟩ : V2 ℝ) - (a + V2.scale τ (b - a))).norm ≤ 60 * (M / 2 ^ 24) := by
    have s1 : ((⟨X, Y⟩ : V2 ℝ) - (a + V2.scale τ e)).norm ≤ 48 * (M / 2 ^ 24) := by
      refine (V2.norm_le_add _).trans ?_
      have ex : ((⟨X, Y⟩ : V2 ℝ) - (a + V2.scale τ e)).x = X - (a.x + τ * e.x) := rfl
      have ey : ((⟨X, Y⟩ : V2 ℝ) - (a + V2.scale τ e)).y = Y - (a.y + τ * e.y) := rfl
      rw [ex, ey]; linarith
    have s2 : (V2.scale τ (e - (b - a))).norm ≤ 12 * (M / 2 ^ 24) := by
      rw [V2.norm_scale, abs_of_nonneg c2]
      unfold Apx at e2
      rw [← hw] at e2
      have h1 := mul_le_mul c3 e2 (V2.norm_nonneg _) (by norm_num)
      have h2 : 1 * (1 / 2 ^ 24 * w) ≤ 12 * (M / 2 ^ 24) := by linarith
      exact h1.trans h2
    have s3 := V2.norm_add_le' ((⟨X, Y⟩ : V2 ℝ) - (a + V2.scale τ e)) (V2.scale τ (e - (b - a)))
    have ee : (⟨X, Y⟩ : V2 ℝ) - (a + V2.scale τ e) + V2.scale τ (e - (b - a)) = ⟨X, Y⟩ - (a + V2.scale τ (b - a)) := by
      ext <;> simp only [add_x, add_y, sub_x, sub_y, scale_x, scale_y] <;> ring
    rw [ee] at s3
    linarith
  have size : (a + V2.scale τ (b - a)).norm ≤ 18 * M := by
    have h1 := V2.norm_add_le' a (V2.scale τ (b - a))
    rw [V2.norm_scale, abs_of_nonneg c2, ← hw] at h1
    have h2 := mul_le_mul c3 hE hw0.le (by norm_num)
    linarith
  have sizeP : (⟨X, Y⟩ : V2 ℝ).norm ≤ 19 * M := by
    have h1 := V2.norm_add_le' ((⟨X, Y⟩ : V2 ℝ) - (a + V2.scale τ (b - a))) (a + V2.scale τ (b - a))
    rw [sub_add_cancel] at h1
    linarith
  have hPP : |X * X| + |Y * Y| = (⟨X, Y⟩ : V2 ℝ).norm ^ 2 := by
    rw [abs_mul_self, abs_mul_self, V2.norm_sq', dot_def]
  obtain ⟨D, D1, D2⟩ := round_dot (a := ⟨a'.x + _, a'.y + _⟩) (b := ⟨a'.x + _, a'.y + _⟩) (v := ⟨X, Y⟩) (w := ⟨X, Y⟩)
    ⟨X1, Y1⟩ ⟨X1, Y1⟩ hPP.le (by
    have : (⟨X, Y⟩ : V2 ℝ).norm ≤ 2 ^ 31 := by linarith
    refine (pow_le_pow_left₀ (V2.norm_nonneg _) this 2).trans (by norm_num))
  rw [← V2.norm_sq'] at D2
  obtain ⟨r1, r2⟩ := root_near (V2.norm_nonneg _) (μ := M / 2 ^ 24) (by
      have : (1 : ℝ) / 2 ^ 16 / 2 ^ 24 ≤ M / 2 ^ 24 := div_le_div_of_nonneg_right hlo (by positivity)
      exact le_trans (by norm_num) this) (by
      have : (⟨X, Y⟩ : V2 ℝ).norm / 2 ^ 24 ≤ 19 * M / 2 ^ 24 := div_le_div_of_nonneg_right sizeP (by positivity)
      have e : 19 * M / 2 ^ 24 = 19 * (M / 2 ^ 24) := by ring
      linarith) D2
  have n1 := V2.norm_add_le' ((⟨X, Y⟩ : V2 ℝ) - (a + V2.scale τ (b - a))) (a + V2.scale τ (b - a))
  have n2 := V2.norm_sub_le' (⟨X, Y⟩ : V2 ℝ) (⟨X, Y⟩ - (a + V2.scale τ (b - a)))
  rw [sub_add_cancel] at n1
  rw [sub_sub_cancel] at n2
  have e16 : M / 2 ^ 16 = 256 * (M / 2 ^ 24) := by ring
  refine ⟨D, D1, fun s s0 s1 => ?_, ?_⟩
  · have g1 := foot_closest (a := a) (E := b - a) (s := s) (by rw [← hw]; exact hw0) s0 s1
    have g2 : (a + V2.scale τ (b - a)).norm ≤
        (a + V2.scale (clamp01 (-a.dot (b - a) / (b - a).norm ^ 2)) (b - a)).norm + 97 * (M / 2 ^ 24) := by
      generalize clamp01 (-a.dot (b - a) / (b - a).norm ^ 2) = σ at key2
      have h1 := V2.norm_add_le' (a + V2.scale σ (b - a)) (V2.scale (τ - σ) (b - a))
      rw [V2.norm_scale, ← hw] at h1
      have ee : a + V2.scale σ (b - a) + V2.scale (τ - σ) (b - a) = a + V2.scale τ (b - a) := by
        ext <;> simp only [add_x, add_y, scale_x, scale_y] <;> ring
      rw [ee] at h1
      linarith
    rw [e16]
    linarith
  · have g1 : a.cross b = (a + V2.scale τ (b - a)).cross (b - a) := by
      simp only [cross_def, add_x, add_y, sub_x, sub_y, scale_x, scale_y]; ring
    have g2 := cross_le_norm (a + V2.scale τ (b - a)) (b - a)
    rw [g1, e16]
    refine g2.trans (mul_le_mul_of_nonneg_right ?_ (V2.norm_nonneg _))
    linarith

end
end Auburn
