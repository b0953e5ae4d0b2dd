import Verif.Ieee.GjkDist

/-!
# Rounding errors of binary32 operations over the whole range (library lemmas)

The standard model of floating point arithmetic, with `u = 2^-24`: every sum and difference has
relative error at most `u` (also when it is subnormal: then it is exact), every product and quotient
at most `u` relative plus `2^-150` absolute, every square root at most `u` relative.
-/

set_option linter.unusedSectionVars false

namespace Auburn

open F32 V2

/-- a rounded real, no overflow: relative error `2^-24` plus half of the least subnormal -/
theorem round_any {z : Bool} {x : ℝ} (hx : |x| ≤ 3 * (2 : ℝ) ^ (126 : ℤ)) :
    ∃ w, F32.Is (ofReal z x) w ∧ |w - x| ≤ |x| / 2 ^ 24 + 1 / 2 ^ 150 ∧
      ((2 : ℝ) ^ (-126 : ℤ) ≤ |x| → |w - x| ≤ |x| / 2 ^ 24) ∧ (0 ≤ x → 0 ≤ w) := by
  by_cases h0 : x = 0
  · subst h0
    exact ⟨0, is_ofReal representable_zero, by norm_num, by norm_num, fun _ => le_refl _⟩
  have hpos : 0 < |x| := abs_pos.2 h0
  have hrel : (2 : ℝ) ^ (-126 : ℤ) ≤ |x| → |rnd (|x|) - (|x|)| ≤ |x| / 2 ^ 24 := by
    intro h
    refine (abs_rnd_sub_le_rel h).trans (le_of_eq ?_)
    norm_num; ring
  have herr : |rnd (|x|) - (|x|)| ≤ |x| / 2 ^ 24 + 1 / 2 ^ 150 := by
    by_cases h : (2 : ℝ) ^ (-126 : ℤ) ≤ |x|
    · refine (hrel h).trans ?_
      have : (0 : ℝ) < 1 / 2 ^ 150 := by positivity
      linarith
    · push Not at h
      have hu : ulpExp |x| = -149 := by
        unfold ulpExp
        have h1 := (log_bounds hpos).1.trans_lt h
        have h2 := (zpow_lt_zpow_iff_right₀ (by norm_num : (1 : ℝ) < 2)).1 h1
        omega
      refine (abs_rnd_sub_le _).trans ?_
      rw [hu]
      have e : 1 / 2 * (2 : ℝ) ^ (-149 : ℤ) = 1 / 2 ^ 150 := by norm_num
      rw [e]
      have : 0 ≤ |x| / 2 ^ 24 := by positivity
      linarith
  rcases ofReal_cases z x with ⟨_, s, h, e, hs, _⟩ | ⟨hbig, _, _⟩
  · refine ⟨_, ⟨s, _, _, e, rfl⟩, ?_⟩
    rw [hs h0]
    by_cases hx0 : x < 0
    · rw [decide_eq_true hx0, sval_true]
      rw [abs_of_neg hx0] at herr hrel ⊢
      rw [show -rnd (-x) - x = -(rnd (-x) - -x) by ring, abs_neg]
      exact ⟨herr, hrel, fun h => absurd hx0 (not_lt.2 h)⟩
    · rw [decide_eq_false hx0, sval_false]
      rw [abs_of_nonneg (not_lt.1 hx0)] at herr hrel ⊢
      exact ⟨herr, hrel, fun h => rnd_nonneg h⟩
  · exfalso
    have h3 := (abs_le.1 herr).2
    have h6 : 3 * (2 : ℝ) ^ (126 : ℤ) + 3 * (2 : ℝ) ^ (126 : ℤ) / 2 ^ 24 + 1 / 2 ^ 150
        < 2 ^ (128 : ℤ) := by norm_num
    have h7 : |x| / 2 ^ 24 ≤ 3 * (2 : ℝ) ^ (126 : ℤ) / 2 ^ 24 :=
      div_le_div_of_nonneg_right hx (by positivity)
    linarith

/-- every representable number is a multiple of the least subnormal -/
theorem Representable.multiple {x : ℝ} (h : Representable x) :
    ∃ n : ℤ, x = n * (2 : ℝ) ^ (-149 : ℤ) := by
  obtain ⟨m, e, rfl, _, he, _⟩ := h
  obtain ⟨k, hk⟩ := Int.eq_ofNat_of_zero_le (show 0 ≤ e + 149 by omega)
  refine ⟨m * 2 ^ k, ?_⟩
  rw [show e = (k : ℤ) + -149 by omega, zpow_add₀ (by norm_num), zpow_natCast]
  push_cast; ring

/-- a small sum of representable numbers is representable -/
theorem representable_add_small {x y : ℝ} (hx : Representable x) (hy : Representable y)
    (h : |x + y| < (2 : ℝ) ^ (-126 : ℤ)) : Representable (x + y) := by
  obtain ⟨m, rfl⟩ := hx.multiple
  obtain ⟨n, rfl⟩ := hy.multiple
  rw [← add_mul] at h ⊢
  have e : ((m : ℝ) + n) = ((m + n : ℤ) : ℝ) := by push_cast; ring
  rw [e] at h ⊢
  refine ⟨m + n, -149, rfl, ?_, le_refl _, by norm_num⟩
  rw [abs_mul, abs_of_pos (two_zpow_pos _),
    show (-126 : ℤ) = 23 + -149 by norm_num, zpow_add₀ (by norm_num)] at h
  have h2 := lt_of_mul_lt_mul_right h (two_zpow_pos _).le
  have h3 : |m + n| < 2 ^ 23 := by
    rw [← Int.cast_abs] at h2
    have e3 : (2 : ℝ) ^ (23 : ℤ) = ((2 ^ 23 : ℤ) : ℝ) := by push_cast; norm_num
    rw [e3] at h2
    exact_mod_cast h2
  refine h3.trans (by norm_num)

namespace F32

theorem round_add {a b : F32} {x y : ℝ} (ha : Is a x) (hb : Is b y)
    (h : |x + y| ≤ 3 * (2 : ℝ) ^ (126 : ℤ)) :
    ∃ w, Is (a + b) w ∧ |w - (x + y)| ≤ |x + y| / 2 ^ 24 := by
  obtain ⟨z, e⟩ := add_eq ha hb
  by_cases hs : |x + y| < (2 : ℝ) ^ (-126 : ℤ)
  · refine ⟨x + y, is_add ha hb (representable_add_small ha.representable hb.representable hs), ?_⟩
    rw [sub_self, abs_zero]; positivity
  · obtain ⟨w, h1, _, h2, _⟩ := round_any (z := z) h
    exact ⟨w, by rw [e]; exact h1, h2 (not_lt.1 hs)⟩

theorem round_sub {a b : F32} {x y : ℝ} (ha : Is a x) (hb : Is b y)
    (h : |x - y| ≤ 3 * (2 : ℝ) ^ (126 : ℤ)) :
    ∃ w, Is (a - b) w ∧ |w - (x - y)| ≤ |x - y| / 2 ^ 24 := by
  rw [sub_eq_add_neg] at h ⊢
  exact round_add ha (is_neg hb) h

theorem round_mul {a b : F32} {x y : ℝ} (ha : Is a x) (hb : Is b y)
    (h : |x * y| ≤ 3 * (2 : ℝ) ^ (126 : ℤ)) :
    ∃ w, Is (a * b) w ∧ |w - x * y| ≤ |x * y| / 2 ^ 24 + 1 / 2 ^ 150 ∧
      ((2 : ℝ) ^ (-126 : ℤ) ≤ |x * y| → |w - x * y| ≤ |x * y| / 2 ^ 24) ∧ (0 ≤ x * y → 0 ≤ w) := by
  obtain ⟨z, e⟩ := mul_eq ha hb
  rw [e]; exact round_any h

theorem round_div {a b : F32} {x y : ℝ} (ha : Is a x) (hb : Is b y) (hy : y ≠ 0)
    (h : |x / y| ≤ 3 * (2 : ℝ) ^ (126 : ℤ)) :
    ∃ w, Is (a / b) w ∧ |w - x / y| ≤ |x / y| / 2 ^ 24 + 1 / 2 ^ 150 := by
  obtain ⟨z, e⟩ := div_eq ha hb hy
  rw [e]
  obtain ⟨w, h1, h2, _⟩ := round_any (z := z) h
  exact ⟨w, h1, h2⟩

/-- the square root is never subnormal: relative error only -/
theorem round_sqrt {a : F32} {x : ℝ} (ha : Is a x) (hx : 0 ≤ x) :
    ∃ w, Is (sqrt a) w ∧ |w - Real.sqrt x| ≤ Real.sqrt x / 2 ^ 24 ∧ 0 ≤ w := by
  obtain ⟨s, m, hm, rfl, rfl⟩ := ha
  by_cases h0 : m = 0
  · subst h0
    have e : sqrt (fin s 0 hm) = ofMag s 0 (le_refl 0) := if_pos rfl
    have hz : sval s 0 = 0 := by cases s <;> simp
    refine ⟨0, ?_, by rw [hz]; simp, le_refl _⟩
    rw [e]
    have := is_ofMag (s := s) (le_refl 0) representable_zero
    rwa [hz] at this
  · have hs : s = false := by
      cases s
      · rfl
      · exfalso
        rw [sval_true] at hx
        exact h0 (le_antisymm (by linarith) hm.1)
    subst hs
    rw [sval_false] at hx ⊢
    have e : sqrt (fin false m hm) = ofMag false (Real.sqrt m) (Real.sqrt_nonneg m) := by
      show (if m = 0 then _ else if (false = true) then _ else _) = _
      rw [if_neg h0, if_neg (by simp)]
    have hpos : 0 < m := lt_of_le_of_ne hx (Ne.symm h0)
    have hsp : 0 < Real.sqrt m := Real.sqrt_pos.2 hpos
    have hge : (2 : ℝ) ^ (-126 : ℤ) ≤ Real.sqrt m := by
      obtain ⟨n, hn⟩ := hm.2.multiple
      have hn1 : (1 : ℝ) ≤ n := by
        have : (0 : ℝ) < n := by
          by_contra hcon
          push Not at hcon
          have := mul_nonpos_of_nonpos_of_nonneg hcon (two_zpow_pos (-149)).le
          linarith
        exact_mod_cast this
      refine Real.le_sqrt_of_sq_le ?_
      rw [hn]
      have h1 : (2 : ℝ) ^ (-149 : ℤ) ≤ n * (2 : ℝ) ^ (-149 : ℤ) :=
        le_mul_of_one_le_left (two_zpow_pos _).le hn1
      refine le_trans ?_ h1
      norm_num
    have hle : Real.sqrt m ≤ (2 : ℝ) ^ (64 : ℤ) := by
      refine Real.sqrt_le_iff.2 ⟨(two_zpow_pos _).le, ?_⟩
      refine (hm.2.lt).le.trans ?_
      norm_num
    obtain ⟨w, h1, _, h2, h3⟩ := round_any (z := false) (x := Real.sqrt m) (by
      rw [abs_of_pos hsp]
      refine hle.trans ?_
      norm_num)
    have hr := h2 (by rw [abs_of_pos hsp]; exact hge)
    rw [abs_of_pos hsp] at hr
    refine ⟨w, ?_, hr, h3 hsp.le⟩
    rw [e]
    have e2 : ofReal false (Real.sqrt m) = ofMag false (Real.sqrt m) (Real.sqrt_nonneg m) := by
      unfold ofReal
      rw [if_neg hsp.ne']
      congr 1
      · exact decide_eq_false (not_lt.2 hsp.le)
      · exact abs_of_pos hsp
    rw [← e2]; exact h1

end F32

/-- the coordinates of a vector whose length can be computed without overflow or underflow -/
def V2.Mid (v : V2 ℝ) : Prop :=
  |v.x| ≤ (2 : ℝ) ^ (63 : ℤ) ∧ |v.y| ≤ (2 : ℝ) ^ (63 : ℤ) ∧
    ((2 : ℝ) ^ (-63 : ℤ) ≤ |v.x| ∨ (2 : ℝ) ^ (-63 : ℤ) ≤ |v.y|)

theorem sum_error {X Y p q s : ℝ} (hX : 0 ≤ X) (hY : 0 ≤ Y)
    (hp : |p - X| ≤ X / 2 ^ 24) (hq : |q - Y| ≤ Y / 2 ^ 24 + 1 / 2 ^ 150)
    (hm : (2 : ℝ) ^ (-126 : ℤ) ≤ X) (hs : |s - (p + q)| ≤ |p + q| / 2 ^ 24) :
    |s - (X + Y)| ≤ (7 / 2) * ((X + Y) / 2 ^ 24) := by
  have hm' : (1 : ℝ) / 2 ^ 150 ≤ X / 2 ^ 24 := by
    rw [le_div_iff₀ (by positivity)]
    refine le_trans (le_of_eq ?_) hm
    norm_num
  rw [abs_le] at hp hq hs
  have h1 : |p + q| ≤ (1 + 1 / 4) * (X + Y) := by
    rw [abs_le]
    constructor <;> linarith [hp.1, hp.2, hq.1, hq.2]
  rw [abs_le]
  constructor <;> linarith [hp.1, hp.2, hq.1, hq.2, hs.1, hs.2]

theorem sqrt_error {S s w : ℝ} (hS : 0 ≤ S) (hs : |s - S| ≤ (7 / 2) * (S / 2 ^ 24))
    (hw : |w - Real.sqrt s| ≤ Real.sqrt s / 2 ^ 24) :
    |w - Real.sqrt S| ≤ 3 * (Real.sqrt S / 2 ^ 24) := by
  have hs0 : 0 ≤ s := by
    rw [abs_le] at hs; linarith [hs.1]
  have a1 := Real.sqrt_nonneg s
  have a2 := Real.sqrt_nonneg S
  have b1 := Real.mul_self_sqrt hs0
  have b2 := Real.mul_self_sqrt hS
  generalize Real.sqrt s = r at *
  generalize Real.sqrt S = R at *
  rw [abs_le] at hs
  have hr1 : r ≤ (1 + 15 / (8 * 2 ^ 24)) * R := by
    refine abs_le_of_sq_le_sq' ?_ (by positivity) |>.2
    have : (1 + 15 / (8 * 2 ^ 24)) ^ 2 * (R * R) - r * r ≥ 0 := by
      rw [b1, b2]; linarith [hs.2]
    nlinarith
  have hr2 : (1 - 15 / (8 * 2 ^ 24)) * R ≤ r := by
    refine abs_le_of_sq_le_sq' ?_ a1 |>.2
    have : r * r - (1 - 15 / (8 * 2 ^ 24)) ^ 2 * (R * R) ≥ 0 := by
      rw [b1, b2]; linarith [hs.1]
    nlinarith
  rw [abs_le] at hw ⊢
  constructor <;> linarith [hw.1, hw.2]

section
variable [env : F32Env]

/-- the computed length of a vector of moderate size: relative error at most `3 * 2^-24` -/
theorem round_length {a : V2 F32} {v : V2 ℝ} (ha : a.Is v) (hv : v.Mid) :
    ∃ w, F32.Is a.length w ∧
      |w - Real.sqrt (v.x ^ 2 + v.y ^ 2)| ≤ 3 * (Real.sqrt (v.x ^ 2 + v.y ^ 2) / 2 ^ 24) ∧ 0 ≤ w := by
  obtain ⟨h1, h2, h3⟩ := hv
  have big : ∀ t : ℝ, |t| ≤ (2 : ℝ) ^ (63 : ℤ) → |t * t| ≤ (2 : ℝ) ^ (126 : ℤ) := by
    intro t ht
    rw [abs_mul]
    refine (mul_le_mul ht ht (abs_nonneg _) (two_zpow_pos _).le).trans (le_of_eq ?_)
    rw [← zpow_add₀ (by norm_num)]; norm_num
  have small : ∀ t : ℝ, (2 : ℝ) ^ (-63 : ℤ) ≤ |t| → (2 : ℝ) ^ (-126 : ℤ) ≤ |t * t| := by
    intro t ht
    rw [abs_mul]
    refine le_trans (le_of_eq ?_) (mul_le_mul ht ht (two_zpow_pos _).le (abs_nonneg _))
    rw [← zpow_add₀ (by norm_num)]; norm_num
  have hp126 := two_zpow_pos 126
  obtain ⟨p, p1, p2, p3, p4⟩ := F32.round_mul ha.1 ha.1 ((big _ h1).trans (by linarith))
  obtain ⟨q, q1, q2, q3, q4⟩ := F32.round_mul ha.2 ha.2 ((big _ h2).trans (by linarith))
  have hX : 0 ≤ v.x * v.x := mul_self_nonneg _
  have hY : 0 ≤ v.y * v.y := mul_self_nonneg _
  have b1 := big _ h1
  have b2 := big _ h2
  rw [abs_of_nonneg hX] at p2 p3 b1
  rw [abs_of_nonneg hY] at q2 q3 b2
  have sx := small v.x
  have sy := small v.y
  rw [abs_of_nonneg hX] at sx
  rw [abs_of_nonneg hY] at sy
  have hsum : |p + q| ≤ 3 * (2 : ℝ) ^ (126 : ℤ) := by
    have h150 : (1 : ℝ) / 2 ^ 150 ≤ (2 : ℝ) ^ (126 : ℤ) / 4 := by norm_num
    rw [abs_of_nonneg (add_nonneg (p4 hX) (q4 hY))]
    rw [abs_le] at p2 q2
    linarith [p2.2, q2.2]
  obtain ⟨s, s1, s2⟩ := F32.round_add p1 q1 hsum
  have es : v.x ^ 2 + v.y ^ 2 = v.x * v.x + v.y * v.y := by ring
  have hs : |s - (v.x * v.x + v.y * v.y)| ≤ (7 / 2) * ((v.x * v.x + v.y * v.y) / 2 ^ 24) := by
    rcases h3 with h3 | h3
    · exact sum_error hX hY (p3 (sx h3)) q2 (sx h3) s2
    · have s2' : |s - (q + p)| ≤ |q + p| / 2 ^ 24 := by rwa [add_comm q p]
      have := sum_error hY hX (q3 (sy h3)) p2 (sy h3) s2'
      rwa [add_comm (v.y * v.y)] at this
  have hs0 : 0 ≤ s := by
    rw [abs_le] at hs; linarith [hs.1]
  obtain ⟨w, w1, w2, w3⟩ := F32.round_sqrt s1 hs0
  refine ⟨w, w1, ?_, w3⟩
  rw [es]
  exact sqrt_error (add_nonneg hX hY) hs w2

end

end Auburn
