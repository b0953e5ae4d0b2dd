import Verif.Ieee.RectStep

/-!
# GJK on a rectangle that is apart from the origin along one axis, in binary32 (library lemmas)
-/

set_option linter.unusedSectionVars false
set_option synthInstance.maxSize 1000

namespace Auburn

open F32 V2

section
variable [env : F32Env]

/-- a negative number is not sufficiently better than itself -/
theorem not_better_self_neg {f g : F32} {r : ℝ} (hf : F32.Is f r) (hg : F32.Is g r) (h0 : r < 0)
    (h1 : -(2 : ℝ) ^ (126 : ℤ) ≤ r) : ¬ sufficientlyBetter f g FloatExtra.tol := by
  obtain ⟨κ, hκ, k1, k2⟩ := is_factor_down
  unfold sufficientlyBetter
  rw [if_neg (by show ¬ (0 : F32) < g; rw [lt_iff is_zero hg]; exact not_lt.2 h0.le)]
  intro h
  have h : g * (1 - FloatExtra.tol) < f := h
  obtain ⟨z, e⟩ := mul_eq hg hκ
  have hp : r * κ < 0 := mul_neg_of_neg_of_pos h0 (by linarith)
  have hle : -(r * κ) ≤ -r := by nlinarith
  have hm := rnd_mono (by linarith : (0 : ℝ) ≤ -(r * κ)) hle
  rw [rnd_of_representable (by linarith : (0 : ℝ) ≤ -r) hf.representable.neg] at hm
  rw [e] at h
  rcases ofReal_cases z (r * κ) with ⟨_, s, k, q, hs, _⟩ | ⟨_, q1, q⟩
  · rw [q, lt_iff ⟨_, _, _, rfl, rfl⟩ hf, hs hp.ne, decide_eq_true hp, sval_true, abs_of_neg hp] at h
    linarith
  · exfalso
    rename_i q0
    rw [abs_of_neg hp] at q0
    have : (2 : ℝ) ^ (126 : ℤ) < 2 ^ (128 : ℤ) := by norm_num
    linarith

/-- rounding keeps the sign -/
theorem round_sgn {z s : Bool} {p : ℝ} (p0 : 0 ≤ p) (hp : p ≤ (2 : ℝ) ^ (126 : ℤ)) :
    ∃ r, F32.Is (ofReal z (sgn s * p)) (sgn s * r) ∧ 0 ≤ r ∧ |r - p| ≤ p / 2 ^ 24 + 1 / 2 ^ 150 ∧
      ((2 : ℝ) ^ (-126 : ℤ) ≤ p → |r - p| ≤ p / 2 ^ 24) := by
  have ea : |sgn s * p| = p := by rw [abs_mul, abs_sgn, one_mul, abs_of_nonneg p0]
  obtain ⟨w, w1, w2, w3, _⟩ := round_any (z := z) (x := sgn s * p) (by rw [ea]; linarith [two_zpow_pos 126])
  obtain ⟨w', v1, _, v3, v4⟩ := ofReal_bdd (z := z) (x := sgn s * p) (u := 126) (by rw [ea]; exact hp)
    (by norm_num) (by norm_num)
  obtain rfl := w1.unique v1
  rw [ea] at w2 w3
  have ss : sgn s * sgn s = 1 := by rw [sgn_mul]; simp
  have ew : sgn s * (sgn s * w) = w := by rw [← mul_assoc, ss, one_mul]
  have ed : |sgn s * w - p| = |w - sgn s * p| := by
    have : sgn s * w - p = sgn s * (w - sgn s * p) := by linear_combination p * ss
    rw [this, abs_mul, abs_sgn, one_mul]
  refine ⟨sgn s * w, by rw [ew]; exact w1, ?_, by rw [ed]; exact w2, fun h => by rw [ed]; exact w3 h⟩
  cases s
  · rw [sgn_false] at *; linarith [v4 (by linarith)]
  · rw [sgn_true] at *; linarith [v3 (by linarith)]

/-- a product of two numbers of known signs -/
theorem prodR {a b : F32} {s t : Bool} {p q : ℝ} (ha : F32.Is a (sgn s * p)) (hb : F32.Is b (sgn t * q))
    (p0 : 0 ≤ p) (q0 : 0 ≤ q) (hpq : p * q ≤ (2 : ℝ) ^ (126 : ℤ)) :
    ∃ r, F32.Is (a * b) (sgn (s == t) * r) ∧ 0 ≤ r ∧ |r - p * q| ≤ p * q / 2 ^ 24 + 1 / 2 ^ 150 ∧
      ((2 : ℝ) ^ (-126 : ℤ) ≤ p * q → |r - p * q| ≤ p * q / 2 ^ 24) := by
  obtain ⟨z, e⟩ := mul_eq ha hb
  rw [e, show sgn s * p * (sgn t * q) = sgn (s == t) * (p * q) by rw [← sgn_mul]; ring]
  exact round_sgn (mul_nonneg p0 q0) hpq

/-- what the four searches return on a set apart from the origin: either the second point repeats the
first (`A`), or the edge of the first two points is nearest (`B`) -/
structure ApartA (S : V2 F32 → V2 F32) (d a1 : V2 F32) : Prop where
  s1 : S d = a1
  big : ¬ directionTooSmall (-a1)
  s2 : S (-a1) = a1
  fit : ∃ r, F32.Is (a1.dot (-a1)) r ∧ r < 0 ∧ -(2 : ℝ) ^ (126 : ℤ) ≤ r

structure ApartB (S : V2 F32 → V2 F32) (d a1 a2 e w : V2 F32) (f1 f2 : ℝ) : Prop where
  s1 : S d = a1
  big : ¬ directionTooSmall (-a1)
  s2 : S (-a1) = a2
  fit1 : F32.Is (a1.dot (-a1)) f1
  fit2 : F32.Is (a2.dot (-a1)) f2
  add : addPoint [a1] a2 = .ok ⟨false, e, [a2, a1]⟩
  big2 : ¬ directionTooSmall e
  fit3 : ∃ r, F32.Is ((S e).dot e) r ∧ F32.Is (a2.dot e) r ∧ r < 0 ∧ -(2 : ℝ) ^ (126 : ℤ) ≤ r
  dist : distanceToOrigin [a2, a1] = .ok w

theorem ApartA.answers {S : V2 F32 → V2 F32} {d a1 : V2 F32} (h : ApartA S d a1) :
    sdfvMinkowski false false S d = .ok (false, V2.nan) ∧ sdfvMinkowski true false S d = .ok (false, V2.nan) ∧
    sdfvMinkowski false true S d = .ok (false, -a1) ∧ sdfvMinkowski true true S d = .ok (false, -a1) := by
  obtain ⟨s1, big, s2, r, r1, r2, r3⟩ := h
  have p1 : addPoint [] a1 = .ok ⟨false, -a1, [a1]⟩ := rfl
  have o2 : ∀ d : V2 F32, overrideDir d (-a1) = -a1 := fun d => if_neg big
  have n0 : a1.dot (-a1) ≤ 0 := by rw [le_iff r1 is_zero]; exact r2.le
  have n1 : a1.dot (-a1) ≤ a1.dot (-a1) := by rw [le_iff r1 r1]
  have n2 := not_better_self_neg r1 r1 r2 r3
  have it : iterationLimit = 20 := rfl
  refine ⟨?_, ?_, ?_, ?_⟩
  · show gjkCollide S 20 d [] = _
    rw [gjkCollide, s1]
    by_cases h0 : a1.dot d ≤ 0
    · simp only [if_pos h0]
    · simp only [if_neg h0, p1, Bool.false_eq_true, false_or, if_neg big]
      rw [gjkCollide, s2]
      simp only [if_pos n0]
  · show gjkPenetrate S 20 d [] = _
    rw [gjkPenetrate, s1]
    by_cases h0 : a1.dot d ≤ 0
    · simp only [if_pos h0]
    · simp only [if_neg h0, p1, Bool.false_eq_true, if_false, o2]
      rw [gjkPenetrate, s2]
      simp only [if_pos n0]
  · show (match addPoint [] (S d) with
      | .error e => (.error e : Except Panic (Bool × V2 F32))
      | .ok r => gjkDistance S iterationLimit r.dir (S d) r.pts) = _
    rw [s1, p1, it]
    show gjkDistance S 20 _ _ _ = _
    rw [gjkDistance, s2]
    simp only [n0, n1, and_self, if_true]
    rfl
  · show (match addPoint [] (S d) with
      | .error e => (.error e : Except Panic (Bool × V2 F32))
      | .ok r => gjkFull S iterationLimit true r.dir (S d) r.pts) = _
    rw [s1, p1, it]
    show gjkFull S 20 true _ _ _ = _
    rw [gjkFull, s2]
    simp only [n0, n2, not_false_eq_true, and_self, if_true]
    rfl

theorem ApartB.answers {S : V2 F32 → V2 F32} {d a1 a2 e w : V2 F32} {f1 f2 : ℝ} (h : ApartB S d a1 a2 e w f1 f2) :
    sdfvMinkowski false false S d = .ok (false, V2.nan) ∧ sdfvMinkowski true false S d = .ok (false, V2.nan) ∧
    (∃ v, sdfvMinkowski false true S d = .ok (false, v) ∧ (v = w ∨ v = -a1 ∧ f2 ≤ f1)) ∧
    ∃ v, sdfvMinkowski true true S d = .ok (false, v) ∧
      (v = w ∨ v = -a1 ∧ ¬ sufficientlyBetter (a2.dot (-a1)) (a1.dot (-a1)) FloatExtra.tol) := by
  obtain ⟨s1, big, s2, g1, g2, add, big2, ⟨r, r1, r2, r3, r4⟩, dist⟩ := h
  have p1 : addPoint [] a1 = .ok ⟨false, -a1, [a1]⟩ := rfl
  have o2 : ∀ d : V2 F32, overrideDir d (-a1) = -a1 := fun d => if_neg big
  have o3 : ∀ d : V2 F32, overrideDir d e = e := fun d => if_neg big2
  have n0 : (S e).dot e ≤ 0 := by rw [le_iff r1 is_zero]; exact r3.le
  have n1 : (S e).dot e ≤ a2.dot e := by rw [le_iff r1 r2]
  have n2 := not_better_self_neg r1 r2 r3 r4
  have it : iterationLimit = 20 := rfl
  refine ⟨?_, ?_, ?_, ?_⟩
  · show gjkCollide S 20 d [] = _
    rw [gjkCollide, s1]
    by_cases h0 : a1.dot d ≤ 0
    · simp only [if_pos h0]
    · simp only [if_neg h0, p1, Bool.false_eq_true, false_or, if_neg big]
      rw [gjkCollide, s2]
      by_cases h0 : a2.dot (-a1) ≤ 0
      · simp only [if_pos h0]
      · simp only [if_neg h0, add, Bool.false_eq_true, false_or, if_neg big2]
        rw [gjkCollide]
        simp only [if_pos n0]
  · show gjkPenetrate S 20 d [] = _
    rw [gjkPenetrate, s1]
    by_cases h0 : a1.dot d ≤ 0
    · simp only [if_pos h0]
    · simp only [if_neg h0, p1, Bool.false_eq_true, if_false, o2]
      rw [gjkPenetrate, s2]
      by_cases h0 : a2.dot (-a1) ≤ 0
      · simp only [if_pos h0]
      · simp only [if_neg h0, add, Bool.false_eq_true, if_false, o3]
        rw [gjkPenetrate]
        simp only [if_pos n0]
  · have e0 : sdfvMinkowski false true S d = gjkDistance S 20 (-a1) a1 [a1] := by
      show (match addPoint [] (S d) with
        | .error e => (.error e : Except Panic (Bool × V2 F32))
        | .ok r => gjkDistance S iterationLimit r.dir (S d) r.pts) = _
      rw [s1, p1, it]
    rw [e0, gjkDistance, s2]
    by_cases h0 : a2.dot (-a1) ≤ 0 ∧ a2.dot (-a1) ≤ a1.dot (-a1)
    · refine ⟨-a1, ?_, Or.inr ⟨rfl, ?_⟩⟩
      · simp only [h0, and_self, if_true]; rfl
      · rw [← le_iff g2 g1]; exact h0.2
    · refine ⟨w, ?_, Or.inl rfl⟩
      simp only [if_neg h0, add, Bool.false_eq_true, if_false, o3]
      rw [gjkDistance]
      simp only [n0, n1, and_self, if_true, dist]
  · have e0 : sdfvMinkowski true true S d = gjkFull S 20 true (-a1) a1 [a1] := by
      show (match addPoint [] (S d) with
        | .error e => (.error e : Except Panic (Bool × V2 F32))
        | .ok r => gjkFull S iterationLimit true r.dir (S d) r.pts) = _
      rw [s1, p1, it]
    rw [e0, gjkFull, s2]
    by_cases h0 : a2.dot (-a1) ≤ 0 ∧ ¬ sufficientlyBetter (a2.dot (-a1)) (a1.dot (-a1)) FloatExtra.tol
    · refine ⟨-a1, ?_, Or.inr ⟨rfl, h0.2⟩⟩
      rw [if_pos h0]; rfl
    · refine ⟨w, ?_, Or.inl rfl⟩
      simp only [if_neg h0, add, Bool.false_eq_true, false_and, if_false, o3]
      rw [gjkFull]
      simp only [n0, n2, not_false_eq_true, and_self, if_true, dist]

/-- the values of the near coordinate `A` and of the two ends `U`, `V` of the near side -/
structure NearSide (A U V : F32) (ς τ : Bool) (m y1 y2 N : ℝ) : Prop where
  a : F32.Is A (sgn (!ς) * m)
  u : F32.Is U y1
  v : F32.Is V y2
  ml : (2 : ℝ) ^ (-23 : ℤ) ≤ m
  mu : m ≤ N
  y1u : |y1| ≤ N
  y2u : |y2| ≤ N
  N1 : 1 ≤ N
  N30 : N ≤ (2 : ℝ) ^ (30 : ℤ)
  far : 0 ≤ sgn (!τ) * y2
  wide : 0 ≤ sgn τ * y1 → 3 / 2 * (2 : ℝ) ^ (-23 : ℤ) ≤ (|y1| + |y2|) ^ 2 * m

variable {A U V : F32} {ς τ : Bool} {m y1 y2 N : ℝ}

theorem bool_ne {a b : Bool} (h : ¬ a = b) : a = !b := by cases a <;> cases b <;> simp_all

theorem sgn_abs {s : Bool} {y : ℝ} (h : 0 ≤ sgn s * y) : y = sgn s * |y| := by
  cases s
  · rw [sgn_false] at *; rw [abs_of_nonpos (by linarith)]; ring
  · rw [sgn_true] at *; rw [abs_of_nonneg (by linarith)]; ring

namespace NearSide

theorem m0 (n : NearSide A U V ς τ m y1 y2 N) : 0 < m := lt_of_lt_of_le (two_zpow_pos _) n.ml

theorem sqN (n : NearSide A U V ς τ m y1 y2 N) {p q : ℝ} (p0 : 0 ≤ p) (q0 : 0 ≤ q) (hp : p ≤ N) (hq : q ≤ N) :
    p * q ≤ (2 : ℝ) ^ (60 : ℤ) := by
  rw [show (60 : ℤ) = 30 + 30 by norm_num, zpow_add₀ (by norm_num)]
  exact mul_le_mul (hp.trans n.N30) (hq.trans n.N30) q0 (two_zpow_pos _).le

/-- the square of the near coordinate -/
theorem sqA (n : NearSide A U V ς τ m y1 y2 N) :
    ∃ r, F32.Is (A * -A) (-r) ∧ |r - m * m| ≤ m * m / 2 ^ 24 ∧ 1 / 2 ^ 46 ≤ m * m ∧ m * m ≤ (2 : ℝ) ^ (60 : ℤ) ∧ 0 < r := by
  have ml := n.ml
  have mm : (2 : ℝ) ^ (-46 : ℤ) ≤ m * m := by
    rw [show (-46 : ℤ) = -23 + -23 by norm_num, zpow_add₀ (by norm_num)]
    exact mul_le_mul ml ml (two_zpow_pos _).le n.m0.le
  have mu := n.sqN n.m0.le n.m0.le n.mu n.mu
  have h1 : (2 : ℝ) ^ (60 : ℤ) ≤ (2 : ℝ) ^ (126 : ℤ) := zpow_le_zpow (by norm_num)
  have h2 : (2 : ℝ) ^ (-126 : ℤ) ≤ (2 : ℝ) ^ (-46 : ℤ) := zpow_le_zpow (by norm_num)
  have na := is_neg n.a
  rw [← neg_mul, ← sgn_not] at na
  obtain ⟨r, r1, r2, _, r4⟩ := prodR n.a na n.m0.le n.m0.le (mu.trans h1)
  have r4 := r4 (h2.trans mm)
  have e : ((!ς) == !!ς) = false := by cases ς <;> rfl
  rw [e, sgn_false, neg_one_mul] at r1
  have hn : (2 : ℝ) ^ (-46 : ℤ) = 1 / 2 ^ 46 := by norm_num
  rw [hn] at mm
  refine ⟨r, r1, r4, mm, mu, ?_⟩
  have := (abs_le.1 r4).1
  have : (0 : ℝ) < 1 / 2 ^ 46 := by norm_num
  linarith

/-- the first point repeated: fitness is negative -/
theorem fit1 (n : NearSide A U V ς τ m y1 y2 N) :
    ∃ f r, F32.Is (A * -A + U * -U) f ∧ F32.Is (A * -A) (-r) ∧ |r - m * m| ≤ m * m / 2 ^ 24 ∧
      1 / 2 ^ 46 ≤ m * m ∧ m * m ≤ (2 : ℝ) ^ (60 : ℤ) ∧
      (∃ k, 0 ≤ k ∧ |k - y1 * y1| ≤ y1 * y1 / 2 ^ 24 + 1 / 2 ^ 150 ∧ |f + (r + k)| ≤ (r + k) / 2 ^ 24) ∧
      f < 0 ∧ -(2 : ℝ) ^ (126 : ℤ) ≤ f := by
  obtain ⟨r, r1, r2, r3, r4, r5⟩ := n.sqA
  have yy := n.sqN (abs_nonneg y1) (abs_nonneg y1) n.y1u n.y1u
  have ey : |y1| * |y1| = y1 * y1 := abs_mul_abs_self y1
  have hb := bit_value n.u
  have hu := n.u
  rw [sgn_abs hb] at hu
  have hv := is_neg hu
  rw [← neg_mul, ← sgn_not] at hv
  have h1 : (2 : ℝ) ^ (60 : ℤ) ≤ (2 : ℝ) ^ (126 : ℤ) := zpow_le_zpow (by norm_num)
  have h2 : (2 : ℝ) ^ (60 : ℤ) * 16 ≤ (2 : ℝ) ^ (126 : ℤ) := by norm_num
  obtain ⟨k, k1, k2, k3, _⟩ := prodR hu hv (abs_nonneg _) (abs_nonneg _) (yy.trans h1)
  have e : (U.bit == !U.bit) = false := by cases U.bit <;> rfl
  rw [e, sgn_false, neg_one_mul] at k1
  rw [ey] at k3 yy
  have r2' := abs_le.1 r2
  have k3' := abs_le.1 k3
  have e2 : |-r + -k| = r + k := by rw [← neg_add, abs_neg, abs_of_pos (by linarith)]
  have hy0 := mul_self_nonneg y1
  have small : (1 : ℝ) / 2 ^ 150 ≤ 1 / 2 ^ 46 := by norm_num
  have b60 := two_zpow_pos 60
  have rk : r + k ≤ (2 : ℝ) ^ (60 : ℤ) * 8 := by linarith
  obtain ⟨f, f1, f2⟩ := round_add r1 k1 (by rw [e2]; linarith)
  rw [e2] at f2
  have f2' := abs_le.1 f2
  refine ⟨f, r, f1, r1, r2, r3, r4, ⟨k, k2, k3, ?_⟩, ?_, ?_⟩
  · rwa [show f + (r + k) = f - (-r + -k) by ring]
  · linarith
  · linarith

/-- the other end of the near side against the first -/
theorem fit2 (n : NearSide A U V ς τ m y1 y2 N) (hb : 0 ≤ sgn τ * y1) {r : ℝ} (hr : F32.Is (A * -A) (-r))
    (r2 : |r - m * m| ≤ m * m / 2 ^ 24) (r3 : 1 / 2 ^ 46 ≤ m * m) (r4 : m * m ≤ (2 : ℝ) ^ (60 : ℤ)) :
    ∃ f k, F32.Is (A * -A + V * -U) f ∧ 0 ≤ k ∧ |f - (k - r)| ≤ |k - r| / 2 ^ 24 := by
  have yy := n.sqN (abs_nonneg y2) (abs_nonneg y1) n.y2u n.y1u
  have hu := n.u
  rw [sgn_abs hb] at hu
  have hu := is_neg hu
  rw [← neg_mul, ← sgn_not] at hu
  have hv := n.v
  rw [sgn_abs n.far] at hv
  have h1 : (2 : ℝ) ^ (60 : ℤ) ≤ (2 : ℝ) ^ (126 : ℤ) := zpow_le_zpow (by norm_num)
  have h2 : (2 : ℝ) ^ (60 : ℤ) * 16 ≤ (2 : ℝ) ^ (126 : ℤ) := by norm_num
  obtain ⟨k, k1, k2, k3, _⟩ := prodR hv hu (abs_nonneg _) (abs_nonneg _) (yy.trans h1)
  rw [beq_self_eq_true, sgn_true, one_mul] at k1
  have k3 := abs_le.1 k3
  have r2 := abs_le.1 r2
  have small : (1 : ℝ) / 2 ^ 150 ≤ 1 / 2 ^ 46 := by norm_num
  have b60 := two_zpow_pos 60
  obtain ⟨f, f1, f2⟩ := round_add hr k1 (by rw [abs_le]; constructor <;> linarith)
  rw [show -r + k = k - r by ring] at f2
  exact ⟨f, k, f1, k2, f2⟩

theorem stop_dist {m r k j f1 f2 : ℝ} (m0 : 0 < m) (hm : 1 / 2 ^ 46 ≤ m * m) (hr : |r - m * m| ≤ m * m / 2 ^ 24)
    (hk0 : 0 ≤ k) (hk : |k - y1 * y1| ≤ y1 * y1 / 2 ^ 24 + 1 / 2 ^ 150) (h1 : |f1 + (r + k)| ≤ (r + k) / 2 ^ 24)
    (hj : 0 ≤ j) (h2 : |f2 - (j - r)| ≤ |j - r| / 2 ^ 24) (hs : f2 ≤ f1) : |y1| ≤ 1 / 2 ^ 10 * m := by
  have hr := abs_le.1 hr
  have hk := abs_le.1 hk
  have h1 := abs_le.1 h1
  have e : |j - r| ≤ j + r := by rw [abs_le]; constructor <;> linarith
  have h2 := abs_le.1 (h2.trans (div_le_div_of_nonneg_right e (by norm_num)))
  have small : (1 : ℝ) / 2 ^ 150 ≤ 1 / 2 ^ 46 / 2 ^ 30 := by norm_num
  have key : y1 * y1 ≤ m * m / 2 ^ 20 := by linarith
  apply abs_le_of_sq_le_sq _ (by positivity)
  linarith

theorem stop_full {m r k j f1 f2 κ w : ℝ} (m0 : 0 < m) (hm : 1 / 2 ^ 46 ≤ m * m)
    (hr : |r - m * m| ≤ m * m / 2 ^ 24) (hk0 : 0 ≤ k)
    (hk : |k - y1 * y1| ≤ y1 * y1 / 2 ^ 24 + 1 / 2 ^ 150) (h1 : |f1 + (r + k)| ≤ (r + k) / 2 ^ 24)
    (hj : 0 ≤ j) (h2 : |f2 - (j - r)| ≤ |j - r| / 2 ^ 24) (k1 : 989 / 1000 ≤ κ) (k2 : κ ≤ 1)
    (hw : |w - f1 * κ| ≤ |f1 * κ| / 2 ^ 24 + 1 / 2 ^ 150) (hs : f2 ≤ w) : |y1| ≤ 1 / 8 * m := by
  have hr := abs_le.1 hr
  have hk := abs_le.1 hk
  have h1 := abs_le.1 h1
  have e : |j - r| ≤ j + r := by rw [abs_le]; constructor <;> linarith
  have h2 := abs_le.1 (h2.trans (div_le_div_of_nonneg_right e (by norm_num)))
  have small : (1 : ℝ) / 2 ^ 150 ≤ 1 / 2 ^ 46 / 2 ^ 30 := by norm_num
  have f0 : f1 < 0 := by linarith
  have a1 : |f1 * κ| ≤ -f1 := by
    rw [abs_mul, abs_of_neg f0, abs_of_pos (by linarith)]
    exact mul_le_of_le_one_right (by linarith) k2
  have a2 : f1 * κ ≤ 989 / 1000 * f1 := by
    have := mul_le_mul_of_nonpos_left k1 f0.le
    linarith
  have hw := abs_le.1 (hw.trans (add_le_add_left (div_le_div_of_nonneg_right a1 (by norm_num : (0 : ℝ) ≤ 2 ^ 24)) _))
  have key : y1 * y1 ≤ m * m / 64 := by linarith
  apply abs_le_of_sq_le_sq _ (by positivity)
  linarith

/-- the near side as an edge -/
structure SideEdge (A H : F32) (ς τ : Bool) (m h : ℝ) : Prop where
  is : F32.Is H (sgn τ * h)
  pos : 0 < h
  hu : h ≤ (2 : ℝ) ^ (32 : ℤ)
  hm : 4 / 3 * (2 : ℝ) ^ (-23 : ℤ) ≤ h * h * m
  m0 : 0 < m
  mu : m ≤ (2 : ℝ) ^ (30 : ℤ)

theorem edge (n : NearSide A U V ς τ m y1 y2 N) (hb : 0 ≤ sgn τ * y1) :
    ∃ h, SideEdge A (U - V) ς τ m h ∧ |h - (|y1| + |y2|)| ≤ (|y1| + |y2|) / 2 ^ 24 := by
  have hu := n.u
  rw [sgn_abs hb] at hu
  have hv := n.v
  rw [sgn_abs n.far, sgn_not] at hv
  have a1 := abs_nonneg y1
  have a2 := abs_nonneg y2
  have b1 := n.y1u.trans n.N30
  have b2 := n.y2u.trans n.N30
  have hB : (2 : ℝ) ^ (32 : ℤ) = 4 * (2 : ℝ) ^ (30 : ℤ) := by norm_num
  have hB' : (2 : ℝ) ^ (30 : ℤ) * 4 ≤ (2 : ℝ) ^ (126 : ℤ) := by norm_num
  have e1 : sgn τ * |y1| - -sgn τ * |y2| = sgn τ * (|y1| + |y2|) := by ring
  have e2 : |sgn τ * (|y1| + |y2|)| = |y1| + |y2| := by
    rw [abs_mul, abs_sgn, one_mul, abs_of_nonneg (by linarith)]
  obtain ⟨z, e⟩ := sub_eq hu hv
  obtain ⟨w, w1, w2⟩ := round_sub hu hv (by rw [e1, e2]; linarith)
  rw [e1, e2] at w2
  have ss : sgn τ * sgn τ = 1 := by rw [sgn_mul]; simp
  have ew : sgn τ * (sgn τ * w) = w := by rw [← mul_assoc, ss, one_mul]
  have ed : |sgn τ * w - (|y1| + |y2|)| ≤ (|y1| + |y2|) / 2 ^ 24 := by
    have : sgn τ * w - (|y1| + |y2|) = sgn τ * (w - sgn τ * (|y1| + |y2|)) := by
      linear_combination (|y1| + |y2|) * ss
    rw [this, abs_mul, abs_sgn, one_mul]; exact w2
  have ed' := abs_le.1 ed
  have wide := n.wide hb
  have m0 := n.m0
  have p0 : 0 < |y1| + |y2| := by
    by_contra hc
    have : |y1| + |y2| = 0 := by linarith
    rw [this] at wide
    have := two_zpow_pos (-23)
    linarith
  have h0 : 0 < sgn τ * w := by linarith
  refine ⟨sgn τ * w, ⟨by rw [ew]; exact w1, h0, by rw [hB]; linarith, ?_, m0, n.mu.trans n.N30⟩, ed⟩
  have k1 : (|y1| + |y2|) * (1 - 1 / 2 ^ 24) ≤ sgn τ * w := by linarith
  have k2 := mul_le_mul k1 k1 (by positivity) h0.le
  have k3 := mul_le_mul_of_nonneg_right k2 m0.le
  have k4 : (|y1| + |y2|) * (1 - 1 / 2 ^ 24) * ((|y1| + |y2|) * (1 - 1 / 2 ^ 24)) * m =
    (1 - 1 / 2 ^ 24) ^ 2 * ((|y1| + |y2|) ^ 2 * m) := by ring
  rw [k4] at k3
  have k5 := mul_le_mul_of_nonneg_left wide (by positivity : (0 : ℝ) ≤ (1 - 1 / 2 ^ 24) ^ 2)
  have k6 : (8 : ℝ) / 9 ≤ (1 - 1 / 2 ^ 24) ^ 2 := by norm_num
  have k7 := mul_le_mul_of_nonneg_right k6 (by have := two_zpow_pos (-23); positivity : (0 : ℝ) ≤ 3 / 2 * (2 : ℝ) ^ (-23 : ℤ))
  linarith

/-- the direction from the near side to the origin, and its product with the near coordinate -/
theorem SideEdge.dir {H : F32} {h : ℝ} (E : SideEdge A H ς τ m h) {P G c : F32} {s : Bool}
    (ha : F32.Is A (sgn (!ς) * m)) (hP : F32.Is P (sgn s * h))
    (hc : ∀ r, F32.Is (H * -A) r → F32.Is c (sgn (s == τ) * r)) (hG : G = P * c) :
    ∃ q, F32.Is G (sgn ς * q) ∧ (2 : ℝ) ^ (-23 : ℤ) ≤ q ∧ q ≤ (2 : ℝ) ^ (95 : ℤ) ∧
      ∃ g, F32.Is (A * G) g ∧ g < 0 ∧ -(2 : ℝ) ^ (126 : ℤ) ≤ g := by
  obtain ⟨E1, h0, hu, hm, m0, mu⟩ := E
  have na := is_neg ha
  rw [← neg_mul, ← sgn_not, Bool.not_not] at na
  have b1 : h * m ≤ (2 : ℝ) ^ (62 : ℤ) := by
    rw [show (62 : ℤ) = 32 + 30 by norm_num, zpow_add₀ (by norm_num)]
    exact mul_le_mul hu mu m0.le (two_zpow_pos _).le
  have b2 : (2 : ℝ) ^ (-55 : ℤ) ≤ h * m := by
    by_contra hcon
    push Not at hcon
    have := mul_lt_mul_of_pos_left hcon h0
    have k := mul_le_mul_of_nonneg_right hu (two_zpow_pos (-55)).le
    rw [← zpow_add₀ (by norm_num)] at k
    norm_num at k hm this
    linarith
  have c1 : (2 : ℝ) ^ (62 : ℤ) ≤ (2 : ℝ) ^ (126 : ℤ) := zpow_le_zpow (by norm_num)
  have c2 : (2 : ℝ) ^ (-126 : ℤ) ≤ (2 : ℝ) ^ (-55 : ℤ) := zpow_le_zpow (by norm_num)
  obtain ⟨r, r1, r0, _, r3⟩ := prodR E1 na h0.le m0.le (b1.trans c1)
  have r3 := abs_le.1 (r3 (c2.trans b2))
  have cc := hc _ r1
  have es : sgn (s == τ) * (sgn (τ == ς) * r) = sgn (s == ς) * r := by
    rw [← mul_assoc, sgn_mul]; congr 1; cases s <;> cases τ <;> cases ς <;> rfl
  rw [es] at cc
  have hp := mul_pos h0 m0
  have d1 : h * r ≤ (2 : ℝ) ^ (95 : ℤ) * (3 / 4) := by
    have k1 : r ≤ (2 : ℝ) ^ (62 : ℤ) * (3 / 2) := by linarith
    have := mul_le_mul hu k1 r0 (two_zpow_pos _).le
    refine this.trans (le_of_eq ?_)
    norm_num
  have d2 : 5 / 4 * (2 : ℝ) ^ (-23 : ℤ) ≤ h * r := by
    have k1 : h * m * (1 - 1 / 2 ^ 24) ≤ r := by linarith
    have k2 := mul_le_mul_of_nonneg_left k1 h0.le
    have := two_zpow_pos (-23)
    have k3 : h * (h * m * (1 - 1 / 2 ^ 24)) = h * h * m * (1 - 1 / 2 ^ 24) := by ring
    rw [k3] at k2
    have k4 := mul_le_mul_of_nonneg_right hm (by norm_num : (0 : ℝ) ≤ 1 - 1 / 2 ^ 24)
    linarith
  have c3 : (2 : ℝ) ^ (95 : ℤ) ≤ (2 : ℝ) ^ (126 : ℤ) := zpow_le_zpow (by norm_num)
  have c4 : (2 : ℝ) ^ (-126 : ℤ) ≤ (2 : ℝ) ^ (-23 : ℤ) := zpow_le_zpow (by norm_num)
  have z23 := two_zpow_pos (-23)
  have z95 := two_zpow_pos 95
  have hr1 : h * r ≤ (2 : ℝ) ^ (95 : ℤ) := by linarith
  have e23 : (2 : ℝ) ^ (-23 : ℤ) = 1 / 2 ^ 23 := by norm_num
  have hr2 : (2 : ℝ) ^ (-23 : ℤ) ≤ h * r := by rw [e23] at *; linarith
  obtain ⟨q, q1, q0, _, q3⟩ := prodR hP cc h0.le r0 (hr1.trans c3)
  have q3 := abs_le.1 (q3 (c4.trans hr2))
  have es2 : (s == (s == ς)) = ς := by cases s <;> cases ς <;> rfl
  rw [es2, ← hG] at q1
  have ql : (2 : ℝ) ^ (-23 : ℤ) ≤ q := by rw [e23] at *; linarith
  have qu : q ≤ (2 : ℝ) ^ (95 : ℤ) := by linarith
  refine ⟨q, q1, ql, qu, ?_⟩
  have m23 : (2 : ℝ) ^ (-87 : ℤ) ≤ m := by
    by_contra hcon
    push Not at hcon
    have h64 : h * h ≤ (2 : ℝ) ^ (64 : ℤ) := by
      rw [show (64 : ℤ) = 32 + 32 by norm_num, zpow_add₀ (by norm_num)]
      exact mul_le_mul hu hu h0.le (two_zpow_pos _).le
    have k1 := mul_le_mul h64 hcon.le m0.le (two_zpow_pos _).le
    rw [← zpow_add₀ (by norm_num)] at k1
    norm_num at k1 hm
    linarith
  have mq : m * q ≤ (2 : ℝ) ^ (125 : ℤ) := by
    rw [show (125 : ℤ) = 30 + 95 by norm_num, zpow_add₀ (by norm_num)]
    exact mul_le_mul mu qu q0 (two_zpow_pos _).le
  have mq' : (2 : ℝ) ^ (-110 : ℤ) ≤ m * q := by
    rw [show (-110 : ℤ) = -87 + -23 by norm_num, zpow_add₀ (by norm_num)]
    exact mul_le_mul m23 ql (two_zpow_pos _).le m0.le
  have c5 : (2 : ℝ) ^ (126 : ℤ) = 2 * (2 : ℝ) ^ (125 : ℤ) := by norm_num
  have c6 : (2 : ℝ) ^ (-126 : ℤ) ≤ (2 : ℝ) ^ (-110 : ℤ) := zpow_le_zpow (by norm_num)
  obtain ⟨g, g1, g0, _, g3⟩ := prodR ha q1 m0.le q0 (by linarith [two_zpow_pos 125])
  have g3 := abs_le.1 (g3 (c6.trans mq'))
  have e3 : ((!ς) == ς) = false := by cases ς <;> rfl
  rw [e3, sgn_false, neg_one_mul] at g1
  refine ⟨-g, g1, ?_, ?_⟩
  · linarith [two_zpow_pos (-110)]
  · linarith [two_zpow_pos 125]

/-- the quotient of two approximations -/
theorem quot_error {k l p h tv : ℝ} (p0 : 0 ≤ p) (h0 : 0 < h) (hp : p ≤ h * (1 + 2 / 2 ^ 24))
    (hk : |k - p * h| ≤ p * h / 2 ^ 24 + h * h / 2 ^ 30) (hl : |l - h * h| ≤ h * h / 2 ^ 24)
    (ht : |tv - k / l| ≤ |k / l| / 2 ^ 24 + 1 / 2 ^ 150) :
    |tv - p / h| ≤ 5 / 2 ^ 24 := by
  have hh := mul_pos h0 h0
  have hk := abs_le.1 hk
  have hl := abs_le.1 hl
  have l0 : 0 < l := by linarith
  have ph : p * h ≤ h * h * (1 + 2 / 2 ^ 24) := by
    have := mul_le_mul_of_nonneg_right hp h0.le
    linarith
  have ph0 := mul_nonneg p0 h0.le
  have r0 : p / h = (p * h) / (h * h) := by field_simp
  have r1 : k / l ≤ p / h + 3 / 2 ^ 24 := by
    rw [r0, div_add' _ _ _ hh.ne', div_le_div_iff₀ l0 hh]
    have k1 := mul_le_mul_of_nonneg_left hl.1 ph0
    have k2 := mul_le_mul_of_nonneg_left hl.1 hh.le
    have k3 := mul_le_mul_of_nonneg_right hk.2 hh.le
    have k4 := mul_le_mul_of_nonneg_right ph hh.le
    have k5 := mul_nonneg hh.le hh.le
    linarith
  have r2 : p / h - 3 / 2 ^ 24 ≤ k / l := by
    rw [r0, div_sub' hh.ne', div_le_div_iff₀ hh l0]
    have k1 := mul_le_mul_of_nonneg_left hl.2 ph0
    have k2 := mul_le_mul_of_nonneg_left hl.1 hh.le
    have k3 := mul_le_mul_of_nonneg_right hk.1 hh.le
    have k4 := mul_le_mul_of_nonneg_right ph hh.le
    have k5 := mul_nonneg hh.le hh.le
    linarith
  have r3 : p / h ≤ 1 + 2 / 2 ^ 24 := by rw [div_le_iff₀ h0]; linarith
  have r4 : 0 ≤ p / h := div_nonneg p0 h0.le
  have r5 : |k / l| ≤ 3 / 2 := by
    rw [abs_le]; constructor <;> linarith
  have ht := abs_le.1 (ht.trans (add_le_add_left (div_le_div_of_nonneg_right r5 (by norm_num : (0 : ℝ) ≤ 2 ^ 24)) _))
  have : (1 : ℝ) / 2 ^ 150 ≤ 1 / 4 / 2 ^ 24 := by norm_num
  rw [abs_le]
  constructor <;> linarith [ht.1, ht.2]

/-- the parameter of the nearest point of the near side -/
theorem SideEdge.param {H Z V : F32} {h y2 : ℝ} (E : SideEdge A H ς τ m h) (ha : F32.Is A (sgn (!ς) * m))
    (hZ : F32.Is Z 0) (hV : F32.Is V (sgn (!τ) * |y2|)) (hp : |y2| ≤ h * (1 + 2 / 2 ^ 24)) :
    ∃ tv, F32.Is ((-A * Z + -V * H) / (Z * Z + H * H)) tv ∧ |tv - |y2| / h| ≤ 5 / 2 ^ 24 := by
  obtain ⟨E1, h0, hu, hm, m0, mu⟩ := E
  have nV := is_neg hV
  rw [← neg_mul, ← sgn_not, Bool.not_not] at nV
  have hh : h * h ≤ (2 : ℝ) ^ (64 : ℤ) := by
    rw [show (64 : ℤ) = 32 + 32 by norm_num, zpow_add₀ (by norm_num)]
    exact mul_le_mul hu hu h0.le (two_zpow_pos _).le
  have hh0 := mul_pos h0 h0
  have hl : (2 : ℝ) ^ (-53 : ℤ) ≤ h * h := by
    by_contra hcon
    push Not at hcon
    have k1 := mul_le_mul hcon.le mu m0.le (two_zpow_pos _).le
    rw [← zpow_add₀ (by norm_num)] at k1
    norm_num at k1 hm
    linarith
  have yh : |y2| * h ≤ h * h * (1 + 2 / 2 ^ 24) := by
    have := mul_le_mul_of_nonneg_right hp h0.le
    linarith
  have y0 := abs_nonneg y2
  have yh0 := mul_nonneg y0 h0.le
  have c1 : (2 : ℝ) ^ (64 : ℤ) * 4 ≤ (2 : ℝ) ^ (126 : ℤ) := by norm_num
  have c2 : (2 : ℝ) ^ (-126 : ℤ) ≤ (2 : ℝ) ^ (-53 : ℤ) := zpow_le_zpow (by norm_num)
  have c3 : (1 : ℝ) / 2 ^ 150 ≤ h * h / 2 ^ 30 :=
    le_trans (by norm_num) (div_le_div_of_nonneg_right hl (by norm_num))
  obtain ⟨k, k1, k0, k2, _⟩ := prodR nV E1 y0 h0.le (by linarith)
  obtain ⟨l, l1, l0, _, l2⟩ := prodR E1 E1 h0.le h0.le (by linarith [two_zpow_pos 64])
  have l2 := l2 (c2.trans hl)
  rw [beq_self_eq_true, sgn_true, one_mul] at k1 l1
  have n1 := is_zero_add k1 (mul_zero' (is_neg ha) hZ)
  have d1 := is_zero_add l1 (mul_zero' hZ hZ)
  have l2' := abs_le.1 l2
  have lp : 0 < l := by linarith
  have k2' := abs_le.1 k2
  have hkl : |k / l| ≤ 3 * (2 : ℝ) ^ (126 : ℤ) := by
    have : k / l ≤ 2 := by rw [div_le_iff₀ lp]; linarith
    rw [abs_of_nonneg (div_nonneg k0 lp.le)]
    refine this.trans ?_
    norm_num
  obtain ⟨tv, t1, t2⟩ := round_div n1 d1 lp.ne' hkl
  refine ⟨tv, t1, quot_error y0 h0 hp ?_ l2 t2⟩
  rw [abs_le]; constructor <;> linarith

/-- the coordinate of the nearest point along the near side is small -/
theorem SideEdge.along {H V t : F32} {h tv : ℝ} (E : SideEdge A H ς τ m h) (hV : F32.Is V (sgn (!τ) * |y2|))
    (h1 : |h - (|y1| + |y2|)| ≤ (|y1| + |y2|) / 2 ^ 24) (N1 : 1 ≤ N) (hN1 : |y1| ≤ N) (hN2 : |y2| ≤ N)
    (N30 : N ≤ (2 : ℝ) ^ (30 : ℤ))
    (ht : F32.Is t tv) (htt : |tv - |y2| / h| ≤ 5 / 2 ^ 24) :
    (tv ≤ 0 → |y2| ≤ 32 * (N / 2 ^ 24)) ∧ (1 ≤ tv → |y1| ≤ 32 * (N / 2 ^ 24)) ∧
      ∃ y, F32.Is (-V - t * H) y ∧ |y| ≤ 32 * (N / 2 ^ 24) := by
  obtain ⟨E1, h0, hu, hm, m0, mu⟩ := E
  have h1 := abs_le.1 h1
  have htt' := abs_le.1 htt
  have y0 := abs_nonneg y1
  have y0' := abs_nonneg y2
  have hN : h ≤ 2 * N * (1 + 1 / 2 ^ 24) := by linarith
  have eh : |y2| / h * h = |y2| := by field_simp
  refine ⟨fun h0' => ?_, fun h1' => ?_, ?_⟩
  · have : |y2| / h ≤ 5 / 2 ^ 24 := by linarith
    have := mul_le_mul_of_nonneg_right this h0.le
    rw [eh] at this
    linarith
  · have : 1 - 5 / 2 ^ 24 ≤ |y2| / h := by linarith
    have := mul_le_mul_of_nonneg_right this h0.le
    rw [eh] at this
    linarith
  · have nV := is_neg hV
    rw [← neg_mul, ← sgn_not, Bool.not_not] at nV
    have tw : |tv * h - (|y2|)| ≤ 5 / 2 ^ 24 * h := by
      have : tv * h - |y2| = (tv - |y2| / h) * h := by rw [sub_mul, eh]
      rw [this, abs_mul, abs_of_pos h0]
      exact mul_le_mul_of_nonneg_right htt h0.le
    have tw' := abs_le.1 tw
    have e1 : tv * (sgn τ * h) = sgn τ * (tv * h) := by ring
    have e2 : |tv * (sgn τ * h)| ≤ 2 * N := by
      rw [e1, abs_mul, abs_sgn, one_mul, abs_le]; constructor <;> linarith
    have b : (2 : ℝ) ^ (30 : ℤ) * 8 ≤ (2 : ℝ) ^ (126 : ℤ) := by norm_num
    obtain ⟨w, w1, w2, _⟩ := round_mul ht E1 (by linarith [two_zpow_pos 30])
    have w2 := abs_le.1 (w2.trans (add_le_add_left (div_le_div_of_nonneg_right e2 (by norm_num : (0 : ℝ) ≤ 2 ^ 24)) _))
    have sm : (1 : ℝ) / 2 ^ 150 ≤ N / 2 ^ 24 := by
      refine le_trans ?_ (div_le_div_of_nonneg_right N1 (by norm_num)); norm_num
    rw [e1] at w2
    have e3 : |sgn τ * |y2| - w| ≤ 14 * (N / 2 ^ 24) := by
      rw [abs_le]
      cases τ <;> simp only [sgn_true, sgn_false, one_mul, neg_mul] at * <;> constructor <;> linarith
    obtain ⟨y, y1, y2⟩ := round_sub nV w1 (by linarith [two_zpow_pos 30])
    refine ⟨y, y1, ?_⟩
    have y2 := abs_le.1 (y2.trans (div_le_div_of_nonneg_right e3 (by norm_num)))
    have e3 := abs_le.1 e3
    rw [abs_le]; constructor <;> linarith

end NearSide

/-- the answer of a distance query: exact along the gap; across it, exact outside the near side, and
small next to it -/
def NearAns (κ : ℝ) (ς τ : Bool) (m y1 N : ℝ) (p q : F32) : Prop :=
  ∃ y, F32.Is p (sgn ς * m) ∧ F32.Is q y ∧
    ((sgn τ * y1 ≤ 0 ∧ y = -y1) ∨ (0 ≤ sgn τ * y1 ∧ |y| ≤ κ * m + 32 * (N / 2 ^ 24)))

namespace NearSide

theorem bddA (n : NearSide A U V ς τ m y1 y2 N) : Sgd ς (-23) 30 (-A) := by
  have na := is_neg n.a
  rw [← neg_mul, ← sgn_not, Bool.not_not] at na
  exact ⟨m, na, n.ml, n.mu.trans n.N30⟩

theorem bddU (n : NearSide A U V ς τ m y1 y2 N) : Bdd 30 U := ⟨_, n.u, n.y1u.trans n.N30⟩

theorem negA (n : NearSide A U V ς τ m y1 y2 N) : F32.Is (-A) (sgn ς * m) := by
  have na := is_neg n.a
  rwa [← neg_mul, ← sgn_not, Bool.not_not] at na

/-- the answer with the first corner -/
theorem first_small (n : NearSide A U V ς τ m y1 y2 N) (hb : 0 ≤ sgn τ * y1) {κ : ℝ} (hy : |y1| ≤ κ * m) :
    NearAns κ ς τ m y1 N (-A) (-U) := by
  refine ⟨-y1, n.negA, is_neg n.u, Or.inr ⟨hb, ?_⟩⟩
  rw [abs_neg]
  have := n.N1
  have : 0 ≤ 32 * (N / 2 ^ 24) := by positivity
  linarith

/-- stopping at the first corner -/
theorem stops (n : NearSide A U V ς τ m y1 y2 N) (hb : 0 ≤ sgn τ * y1) {F G : F32}
    (hF : F = A * -A + U * -U) (hG : G = A * -A + V * -U) :
    ∃ f g, F32.Is F f ∧ F32.Is G g ∧ (g ≤ f → |y1| ≤ 1 / 2 ^ 10 * m) ∧
      (¬ sufficientlyBetter G F FloatExtra.tol → |y1| ≤ 1 / 8 * m) := by
  subst hF hG
  obtain ⟨f, r, f1, r1, r2, r3, r4, ⟨k, k0, k1, k2⟩, f0, f126⟩ := n.fit1
  obtain ⟨g, j, g1, j0, g2⟩ := n.fit2 hb r1 r2 r3 r4
  refine ⟨f, g, f1, g1, fun h => stop_dist n.m0 r3 r2 k0 k1 k2 j0 g2 h, fun h => ?_⟩
  obtain ⟨κ, hκ, κ1, κ2⟩ := is_factor_down
  unfold sufficientlyBetter at h
  rw [if_neg (by show ¬ (0 : F32) < _; rw [lt_iff is_zero f1]; exact not_lt.2 f0.le)] at h
  have b : |f * κ| ≤ 3 * (2 : ℝ) ^ (126 : ℤ) := by
    rw [abs_mul, abs_of_neg f0, abs_of_pos (by linarith)]
    have := mul_le_of_le_one_right (by linarith : 0 ≤ -f) κ2
    linarith [two_zpow_pos 126]
  obtain ⟨w, w1, w2, _⟩ := round_mul f1 hκ b
  have h : ¬ ((A * -A + U * -U) * (1 - FloatExtra.tol) < A * -A + V * -U) := h
  rw [lt_iff w1 g1] at h
  exact stop_full n.m0 r3 r2 k0 k1 k2 j0 g2 κ1 κ2 w2 (not_lt.1 h)

theorem isZ (n : NearSide A U V ς τ m y1 y2 N) : F32.Is (A - A) 0 := sub_self' n.a

/-- the nearest point of the near side -/
theorem nearest (n : NearSide A U V ς τ m y1 y2 N) (hb : 0 ≤ sgn τ * y1) {t : F32}
    (ht : t = (-A * (A - A) + -V * (U - V)) / ((A - A) * (A - A) + (U - V) * (U - V))) {κ : ℝ} (hκ : 0 ≤ κ) :
    ∃ w z : F32, NearAns κ ς τ m y1 N w z ∧
      ((t ≤ 0 ∧ w = -A ∧ z = -V) ∨ (¬ t ≤ 0 ∧ 1 ≤ t ∧ w = -A ∧ z = -U) ∨
        (¬ t ≤ 0 ∧ ¬ 1 ≤ t ∧ w = -A - t * (A - A) ∧ z = -V - t * (U - V))) := by
  obtain ⟨h, E, h1⟩ := n.edge hb
  have hv := n.v
  rw [sgn_abs n.far] at hv
  have h1' := abs_le.1 h1
  have y0 := abs_nonneg y1
  have y0' := abs_nonneg y2
  obtain ⟨tv, t1, t2⟩ := E.param n.a n.isZ hv (by linarith)
  rw [← ht] at t1
  obtain ⟨a1, a2, y, a3, a4⟩ := E.along hv h1 n.N1 n.y1u n.y2u n.N30 t1 t2
  have km : 0 ≤ κ * m := mul_nonneg hκ n.m0.le
  by_cases c1 : t ≤ 0
  · refine ⟨-A, -V, ⟨-y2, n.negA, is_neg n.v, Or.inr ⟨hb, ?_⟩⟩, Or.inl ⟨c1, rfl, rfl⟩⟩
    rw [le_iff t1 is_zero] at c1
    rw [abs_neg]; linarith [a1 c1]
  by_cases c2 : 1 ≤ t
  · refine ⟨-A, -U, ⟨-y1, n.negA, is_neg n.u, Or.inr ⟨hb, ?_⟩⟩, Or.inr (Or.inl ⟨c1, c2, rfl, rfl⟩)⟩
    rw [le_iff is_one t1] at c2
    rw [abs_neg]; linarith [a2 c2]
  · refine ⟨_, _, ⟨y, ?_, a3, Or.inr ⟨hb, by linarith⟩⟩, Or.inr (Or.inr ⟨c1, c2, rfl, rfl⟩)⟩
    have := is_sub n.negA (mul_zero' t1 n.isZ) (by rw [sub_zero]; exact n.negA.representable)
    rwa [sub_zero] at this

/-- the product that decides the region of the edge is not negative -/
theorem region (n : NearSide A U V ς τ m y1 y2 N) (hb : 0 ≤ sgn τ * y1) :
    (0 : F32) ≤ (A - A) * -A + (U - V) * -V := by
  obtain ⟨h, E, h1⟩ := n.edge hb
  have hv := is_neg n.v
  rw [sgn_abs n.far, ← neg_mul, ← sgn_not, Bool.not_not] at hv
  have b := mul_le_mul E.hu (n.y2u.trans n.N30) (abs_nonneg _) (two_zpow_pos _).le
  rw [← zpow_add₀ (by norm_num)] at b
  obtain ⟨k, k1, k0, _⟩ := prodR E.is hv E.pos.le (abs_nonneg _) (b.trans (zpow_le_zpow (by norm_num)))
  rw [beq_self_eq_true, sgn_true, one_mul] at k1
  have := is_zero_add k1 (zero_mul' n.isZ (is_neg n.a))
  rw [le_iff is_zero this]; exact k0

end NearSide

variable {S : V2 F32 → V2 F32} {X Y : Bool → F32}

/-- a rectangle apart from the origin along the x axis -/
theorem apartX (hS : Corners S X Y) {d : V2 F32} {dx dy : ℝ} (hdx : F32.Is d.x dx) (hdy : F32.Is d.y dy)
    (hς : d.x.bit = ς) (hτ : d.y.bit = τ) (n : NearSide (X ς) (Y τ) (Y (!τ)) ς τ m y1 y2 N) :
    sdfvMinkowski false false S d = .ok (false, V2.nan) ∧ sdfvMinkowski true false S d = .ok (false, V2.nan) ∧
    (∃ v, sdfvMinkowski false true S d = .ok (false, v) ∧ NearAns (1 / 2 ^ 10) ς τ m y1 N v.x v.y) ∧
    ∃ v, sdfvMinkowski true true S d = .ok (false, v) ∧ NearAns (1 / 8) ς τ m y1 N v.x v.y := by
  have s1 : S d = ⟨X ς, Y τ⟩ := by rw [hS d _ _ hdx hdy, hς, hτ]
  have big : ¬ directionTooSmall (-⟨X ς, Y τ⟩ : V2 F32) := not_tooSmall_x' (d := ⟨-X ς, -Y τ⟩) n.bddA n.bddU.neg (by norm_num)
  have s2 : S (-⟨X ς, Y τ⟩) = ⟨X ς, Y (!(Y τ).bit)⟩ := by
    have := hS ⟨-X ς, -Y τ⟩ _ _ (is_neg n.a) (is_neg n.u)
    rw [bit_neg n.u, n.bddA.bit] at this
    exact this
  by_cases hbit : (Y τ).bit = τ
  · rw [hbit] at s2
    have hb : 0 ≤ sgn τ * y1 := by have := bit_value n.u; rwa [hbit] at this
    obtain ⟨f, g, f1, g1, st1, st2⟩ := n.stops hb rfl rfl
    obtain ⟨h, E, h1⟩ := n.edge hb
    -- the new direction
    obtain ⟨q, q1, q2, q3, r, r1, r2, r3⟩ := E.dir (P := -(Y τ - Y (!τ)))
      (c := (X ς - X ς) * -Y (!τ) - (Y τ - Y (!τ)) * -X ς) (s := !τ) n.a
      (by have := is_neg E.is; rwa [← neg_mul, ← sgn_not] at this)
      (fun r hr => by
        have e : ((!τ) == τ) = false := by cases τ <;> rfl
        rw [e, sgn_false, neg_one_mul]
        exact is_zero_add (is_neg hr) (zero_mul' n.isZ (is_neg n.v))) rfl
    set e : V2 F32 := (⟨X ς, Y τ⟩ - ⟨X ς, Y (!τ)⟩ : V2 F32).crossAba (-⟨X ς, Y (!τ)⟩) with he
    have ex : F32.Is e.x (sgn ς * q) := q1
    have ey : F32.Is e.y 0 := by
      obtain ⟨k, hk⟩ : ∃ k, F32.Is ((X ς - X ς) * -Y (!τ) - (Y τ - Y (!τ)) * -X ς) k := by
        obtain ⟨r, hr⟩ : ∃ r, F32.Is ((Y τ - Y (!τ)) * -X ς) r := by
          have b := mul_le_mul E.hu E.mu E.m0.le (two_zpow_pos _).le
          rw [← zpow_add₀ (by norm_num)] at b
          obtain ⟨k, k1, _⟩ := prodR E.is n.negA E.pos.le E.m0.le (b.trans (zpow_le_zpow (by norm_num)))
          exact ⟨_, k1⟩
        exact ⟨_, is_zero_add (is_neg hr) (zero_mul' n.isZ (is_neg n.v))⟩
      exact zero_mul' n.isZ hk
    have ebig : ¬ directionTooSmall e := not_tooSmall_x' (d := e) (v := 0) ⟨q, ex, q2, q3⟩ ⟨0, ey, by simp⟩ (by norm_num)
    have s3 : S e = ⟨X ς, Y e.y.bit⟩ := by
      have : e.x.bit = ς := Sgd.bit ⟨q, ex, q2, q3⟩
      rw [hS e _ _ ex ey, this]
    have yv : ∃ y, F32.Is (Y e.y.bit) y := by
      by_cases hh : e.y.bit = τ
      · rw [hh]; exact ⟨_, n.u⟩
      · rw [bool_ne hh]; exact ⟨_, n.v⟩
    obtain ⟨yv, hyv⟩ := yv
    have add : addPoint [(⟨X ς, Y τ⟩ : V2 F32)] ⟨X ς, Y (!τ)⟩ = .ok ⟨false, e, [⟨X ς, Y (!τ)⟩, ⟨X ς, Y τ⟩]⟩ :=
      if_pos (n.region hb)
    obtain ⟨w, z, na, hw⟩ := n.nearest hb rfl (le_refl (0 : ℝ))
    have dist : distanceToOrigin [(⟨X ς, Y (!τ)⟩ : V2 F32), ⟨X ς, Y τ⟩] = .ok ⟨w, z⟩ := by
      rcases hw with ⟨c1, rfl, rfl⟩ | ⟨c1, c2, rfl, rfl⟩ | ⟨c1, c2, rfl, rfl⟩
      · exact if_pos c1
      · exact (if_neg c1).trans (if_pos c2)
      · exact (if_neg c1).trans (if_neg c2)
    have B : ApartB S d ⟨X ς, Y τ⟩ ⟨X ς, Y (!τ)⟩ e ⟨w, z⟩ f g := ⟨s1, big, s2, f1, g1, add, ebig,
      ⟨r, by rw [s3]; exact is_add_zero r1 (mul_zero' hyv ey), is_add_zero r1 (mul_zero' n.v ey), r2, r3⟩, dist⟩
    have wk : ∀ {κ : ℝ}, 0 ≤ κ → NearAns κ ς τ m y1 N w z := by
      intro κ hκ
      obtain ⟨y, n1, n2, n3⟩ := na
      refine ⟨y, n1, n2, n3.imp_right fun h => ⟨h.1, h.2.trans ?_⟩⟩
      have := mul_nonneg hκ n.m0.le
      linarith
    obtain ⟨o1, o2, ⟨v, o3, o4⟩, v', o5, o6⟩ := B.answers
    refine ⟨o1, o2, ⟨v, o3, ?_⟩, v', o5, ?_⟩
    · rcases o4 with rfl | ⟨rfl, h⟩
      · exact wk (by positivity)
      · exact n.first_small hb (st1 h)
    · rcases o6 with rfl | ⟨rfl, h⟩
      · exact wk (by positivity)
      · exact n.first_small hb (st2 h)
  · have hbit : (!(Y τ).bit) = τ := by rw [bool_ne hbit, Bool.not_not]
    rw [hbit] at s2
    have hb : sgn τ * y1 ≤ 0 := by
      have := bit_value n.u
      rw [show (Y τ).bit = !τ by rw [← hbit, Bool.not_not, hbit], sgn_not] at this
      linarith
    obtain ⟨f, r, f1, _, _, _, _, _, f0, f126⟩ := n.fit1
    obtain ⟨o1, o2, o3, o4⟩ := ApartA.answers (S := S) (d := d) (a1 := ⟨X ς, Y τ⟩) ⟨s1, big, s2, f, f1, f0, f126⟩
    exact ⟨o1, o2, ⟨_, o3, -y1, n.negA, is_neg n.u, Or.inl ⟨hb, rfl⟩⟩, _, o4, -y1, n.negA, is_neg n.u, Or.inl ⟨hb, rfl⟩⟩

/-- a rectangle apart from the origin along the y axis -/
theorem apartY (hS : Corners S X Y) {d : V2 F32} {dx dy : ℝ} (hdx : F32.Is d.x dx) (hdy : F32.Is d.y dy)
    (hς : d.y.bit = ς) (hτ : d.x.bit = τ) (n : NearSide (Y ς) (X τ) (X (!τ)) ς τ m y1 y2 N) :
    sdfvMinkowski false false S d = .ok (false, V2.nan) ∧ sdfvMinkowski true false S d = .ok (false, V2.nan) ∧
    (∃ v, sdfvMinkowski false true S d = .ok (false, v) ∧ NearAns (1 / 2 ^ 10) ς τ m y1 N v.y v.x) ∧
    ∃ v, sdfvMinkowski true true S d = .ok (false, v) ∧ NearAns (1 / 8) ς τ m y1 N v.y v.x := by
  have s1 : S d = ⟨X τ, Y ς⟩ := by rw [hS d _ _ hdx hdy, hς, hτ]
  have big : ¬ directionTooSmall (-⟨X τ, Y ς⟩ : V2 F32) := not_tooSmall_y' (d := ⟨-X τ, -Y ς⟩) n.bddU.neg n.bddA (by norm_num)
  have s2 : S (-⟨X τ, Y ς⟩) = ⟨X (!(X τ).bit), Y ς⟩ := by
    have := hS ⟨-X τ, -Y ς⟩ _ _ (is_neg n.u) (is_neg n.a)
    rw [bit_neg n.u, n.bddA.bit] at this
    exact this
  by_cases hbit : (X τ).bit = τ
  · rw [hbit] at s2
    have hb : 0 ≤ sgn τ * y1 := by have := bit_value n.u; rwa [hbit] at this
    obtain ⟨f, g, f1, g1, st1, st2⟩ := n.stops hb (F := X τ * -X τ + Y ς * -Y ς)
      (G := X (!τ) * -X τ + Y ς * -Y ς) (F32.add_comm' _ _) (F32.add_comm' _ _)
    obtain ⟨h, E, h1⟩ := n.edge hb
    -- the new direction
    obtain ⟨q, q1, q2, q3, r, r1, r2, r3⟩ := E.dir (P := X τ - X (!τ))
      (c := (X τ - X (!τ)) * -Y ς - (Y ς - Y ς) * -X (!τ)) (s := τ) n.a E.is
      (fun r hr => by
        rw [beq_self_eq_true, sgn_true, one_mul]
        have := is_neg (zero_mul' n.isZ (is_neg n.v))
        rw [neg_zero] at this
        exact is_add_zero hr this) rfl
    set e : V2 F32 := (⟨X τ, Y ς⟩ - ⟨X (!τ), Y ς⟩ : V2 F32).crossAba (-⟨X (!τ), Y ς⟩) with he
    have ey : F32.Is e.y (sgn ς * q) := q1
    have ex : F32.Is e.x 0 := by
      obtain ⟨k, hk⟩ : ∃ k, F32.Is ((X τ - X (!τ)) * -Y ς - (Y ς - Y ς) * -X (!τ)) k := by
        obtain ⟨r, hr⟩ : ∃ r, F32.Is ((X τ - X (!τ)) * -Y ς) r := by
          have b := mul_le_mul E.hu E.mu E.m0.le (two_zpow_pos _).le
          rw [← zpow_add₀ (by norm_num)] at b
          obtain ⟨k, k1, _⟩ := prodR E.is n.negA E.pos.le E.m0.le (b.trans (zpow_le_zpow (by norm_num)))
          exact ⟨_, k1⟩
        have := is_neg (zero_mul' n.isZ (is_neg n.v))
        rw [neg_zero] at this
        exact ⟨_, is_add_zero hr this⟩
      have := is_neg n.isZ
      rw [neg_zero] at this
      exact zero_mul' this hk
    have ebig : ¬ directionTooSmall e := not_tooSmall_y' (d := e) (v := 0) ⟨0, ex, by simp⟩ ⟨q, ey, q2, q3⟩ (by norm_num)
    have s3 : S e = ⟨X e.x.bit, Y ς⟩ := by
      have : e.y.bit = ς := Sgd.bit ⟨q, ey, q2, q3⟩
      rw [hS e _ _ ex ey, this]
    have xv : ∃ y, F32.Is (X e.x.bit) y := by
      by_cases hh : e.x.bit = τ
      · rw [hh]; exact ⟨_, n.u⟩
      · rw [bool_ne hh]; exact ⟨_, n.v⟩
    obtain ⟨xv, hxv⟩ := xv
    have add : addPoint [(⟨X τ, Y ς⟩ : V2 F32)] ⟨X (!τ), Y ς⟩ = .ok ⟨false, e, [⟨X (!τ), Y ς⟩, ⟨X τ, Y ς⟩]⟩ := by
      have := n.region hb
      rw [F32.add_comm'] at this
      exact if_pos this
    obtain ⟨w, z, na, hw⟩ := n.nearest hb
      (t := (-X (!τ) * (X τ - X (!τ)) + -Y ς * (Y ς - Y ς)) / ((X τ - X (!τ)) * (X τ - X (!τ)) + (Y ς - Y ς) * (Y ς - Y ς)))
      (by rw [F32.add_comm', F32.add_comm' ((X τ - X (!τ)) * (X τ - X (!τ)))]) (le_refl (0 : ℝ))
    have dist : distanceToOrigin [(⟨X (!τ), Y ς⟩ : V2 F32), ⟨X τ, Y ς⟩] = .ok ⟨z, w⟩ := by
      rcases hw with ⟨c1, rfl, rfl⟩ | ⟨c1, c2, rfl, rfl⟩ | ⟨c1, c2, rfl, rfl⟩
      · exact if_pos c1
      · exact (if_neg c1).trans (if_pos c2)
      · exact (if_neg c1).trans (if_neg c2)
    have B : ApartB S d ⟨X τ, Y ς⟩ ⟨X (!τ), Y ς⟩ e ⟨z, w⟩ f g := ⟨s1, big, s2, f1, g1, add, ebig,
      ⟨r, by rw [s3]; exact is_zero_add r1 (mul_zero' hxv ex), is_zero_add r1 (mul_zero' n.v ex), r2, r3⟩, dist⟩
    have wk : ∀ {κ : ℝ}, 0 ≤ κ → NearAns κ ς τ m y1 N w z := by
      intro κ hκ
      obtain ⟨y, n1, n2, n3⟩ := na
      refine ⟨y, n1, n2, n3.imp_right fun h => ⟨h.1, h.2.trans ?_⟩⟩
      have := mul_nonneg hκ n.m0.le
      linarith
    obtain ⟨o1, o2, ⟨v, o3, o4⟩, v', o5, o6⟩ := B.answers
    refine ⟨o1, o2, ⟨v, o3, ?_⟩, v', o5, ?_⟩
    · rcases o4 with rfl | ⟨rfl, h⟩
      · exact wk (by positivity)
      · exact n.first_small hb (st1 h)
    · rcases o6 with rfl | ⟨rfl, h⟩
      · exact wk (by positivity)
      · exact n.first_small hb (st2 h)
  · have hbit : (!(X τ).bit) = τ := by rw [bool_ne hbit, Bool.not_not]
    rw [hbit] at s2
    have hb : sgn τ * y1 ≤ 0 := by
      have := bit_value n.u
      rw [show (X τ).bit = !τ by rw [← hbit, Bool.not_not, hbit], sgn_not] at this
      linarith
    obtain ⟨f, r, f1, _, _, _, _, _, f0, f126⟩ := n.fit1
    rw [F32.add_comm'] at f1
    obtain ⟨o1, o2, o3, o4⟩ := ApartA.answers (S := S) (d := d) (a1 := ⟨X τ, Y ς⟩) ⟨s1, big, s2, f, f1, f0, f126⟩
    exact ⟨o1, o2, ⟨_, o3, -y1, n.negA, is_neg n.u, Or.inl ⟨hb, rfl⟩⟩, _, o4, -y1, n.negA, is_neg n.u, Or.inl ⟨hb, rfl⟩⟩

end

end Auburn
