import Verif.Ieee.Rep

/-!
# The binary32 model rounds to nearest, ties to even

Adequacy of the trusted definition `rnd`, against the definition of `Representable` only: no
representable number is closer, and a tie is broken towards an even significand.
-/

namespace Auburn

/-- no representable number lies strictly between two neighbouring multiples of the unit in the last
place -/
theorem no_representable_between {x y : ℝ} (hx : 0 < x) (hy : Representable y)
    (h1 : (⌊x / (2 : ℝ) ^ ulpExp x⌋ : ℝ) * (2 : ℝ) ^ ulpExp x < y)
    (h2 : y < ((⌊x / (2 : ℝ) ^ ulpExp x⌋ : ℝ) + 1) * (2 : ℝ) ^ ulpExp x) : False := by
  obtain ⟨m, e, rfl, hm, he1, he2⟩ := hy
  have hp := two_zpow_pos (ulpExp x)
  rcases le_or_gt (ulpExp x) e with hle | hlt
  · obtain ⟨k, hk⟩ := Int.eq_ofNat_of_zero_le (show 0 ≤ e - ulpExp x by omega)
    have e1 : (m : ℝ) * (2 : ℝ) ^ e = ((m * 2 ^ k : ℤ) : ℝ) * (2 : ℝ) ^ ulpExp x := by
      rw [show e = (k : ℤ) + ulpExp x by omega, zpow_add₀ (by norm_num)]
      push_cast
      rw [zpow_natCast, mul_assoc]
    rw [e1] at h1 h2
    have a1 := lt_of_mul_lt_mul_right h1 hp.le
    have a2 := lt_of_mul_lt_mul_right h2 hp.le
    have a3 : ⌊x / (2 : ℝ) ^ ulpExp x⌋ < m * 2 ^ k := by exact_mod_cast a1
    have a4 : m * 2 ^ k < ⌊x / (2 : ℝ) ^ ulpExp x⌋ + 1 := by exact_mod_cast a2
    omega
  · have hn : -149 < ulpExp x := by omega
    have b1 : ((2 ^ 23 : ℤ) : ℝ) ≤ x / (2 : ℝ) ^ ulpExp x := by
      rw [le_div_iff₀ hp]
      refine le_trans (le_of_eq ?_) (ulp_le hx hn)
      rw [zpow_add₀ (by norm_num)]; push_cast; rw [mul_comm]; norm_num
    have b2 : (2 ^ 23 : ℤ) ≤ ⌊x / (2 : ℝ) ^ ulpExp x⌋ := Int.le_floor.2 b1
    have b3 : ((2 ^ 23 : ℤ) : ℝ) ≤ (⌊x / (2 : ℝ) ^ ulpExp x⌋ : ℝ) := by exact_mod_cast b2
    have b4 := mul_le_mul_of_nonneg_right b3 hp.le
    have b5 : (m : ℝ) < ((2 ^ 24 : ℤ) : ℝ) := by
      exact_mod_cast lt_of_le_of_lt (le_abs_self m) hm
    have b6 : (m : ℝ) * (2 : ℝ) ^ e < ((2 ^ 24 : ℤ) : ℝ) * (2 : ℝ) ^ e :=
      mul_lt_mul_of_pos_right b5 (two_zpow_pos e)
    have b7 : ((2 ^ 24 : ℤ) : ℝ) * (2 : ℝ) ^ e ≤ ((2 ^ 23 : ℤ) : ℝ) * (2 : ℝ) ^ ulpExp x := by
      have : (2 : ℝ) ^ (e + 1) ≤ (2 : ℝ) ^ ulpExp x := zpow_le_zpow (by omega)
      rw [zpow_add₀ (by norm_num), zpow_one] at this
      push_cast
      linarith
    exact lt_irrefl _ (h1.trans (b6.trans_le (b7.trans b4)))

/-- the two neighbouring multiples, and which of them is chosen -/
theorem rnd_cases (x : ℝ) : ∃ n : ℤ, n = ⌊x / (2 : ℝ) ^ ulpExp x⌋ ∧
    (n : ℝ) * (2 : ℝ) ^ ulpExp x ≤ x ∧ x < ((n : ℝ) + 1) * (2 : ℝ) ^ ulpExp x ∧
    ((rnd x = n * (2 : ℝ) ^ ulpExp x ∧
        (x - n * (2 : ℝ) ^ ulpExp x < ((n : ℝ) + 1) * (2 : ℝ) ^ ulpExp x - x ∨
          x - n * (2 : ℝ) ^ ulpExp x = ((n : ℝ) + 1) * (2 : ℝ) ^ ulpExp x - x ∧ Even n)) ∨
      (rnd x = ((n : ℝ) + 1) * (2 : ℝ) ^ ulpExp x ∧
        (((n : ℝ) + 1) * (2 : ℝ) ^ ulpExp x - x < x - n * (2 : ℝ) ^ ulpExp x ∨
          x - n * (2 : ℝ) ^ ulpExp x = ((n : ℝ) + 1) * (2 : ℝ) ^ ulpExp x - x ∧ Even (n + 1)))) := by
  have hp := two_zpow_pos (ulpExp x)
  have e : x = x / (2 : ℝ) ^ ulpExp x * (2 : ℝ) ^ ulpExp x := by field_simp
  have h1 := Int.floor_le (x / (2 : ℝ) ^ ulpExp x)
  have h2 := Int.lt_floor_add_one (x / (2 : ℝ) ^ ulpExp x)
  have h3 := Int.floor_add_fract (x / (2 : ℝ) ^ ulpExp x)
  have k1 := mul_le_mul_of_nonneg_right h1 hp.le
  have k2 := mul_lt_mul_of_pos_right h2 hp
  rw [← e] at k1 k2
  refine ⟨_, rfl, k1, k2, ?_⟩
  have ex : x = ⌊x / (2 : ℝ) ^ ulpExp x⌋ * (2 : ℝ) ^ ulpExp x +
      Int.fract (x / (2 : ℝ) ^ ulpExp x) * (2 : ℝ) ^ ulpExp x := by
    rw [← add_mul, h3]; exact e
  unfold rnd roundEven
  generalize ⌊x / (2 : ℝ) ^ ulpExp x⌋ = n at *
  generalize Int.fract (x / (2 : ℝ) ^ ulpExp x) = f at *
  generalize (2 : ℝ) ^ ulpExp x = u at *
  have hf : ∀ c : ℝ, f < c → f * u < c * u := fun c h => mul_lt_mul_of_pos_right h hp
  have hf' : ∀ c : ℝ, c < f → c * u < f * u := fun c h => mul_lt_mul_of_pos_right h hp
  split_ifs with c1 c2 c3
  · have := hf _ c1
    exact Or.inl ⟨rfl, Or.inl (by linarith)⟩
  · have := hf' _ c2
    refine Or.inr ⟨by push_cast; ring, Or.inl (by linarith)⟩
  · have : f = 1 / 2 := le_antisymm (not_lt.1 c2) (not_lt.1 c1)
    rw [this] at ex
    exact Or.inl ⟨rfl, Or.inr ⟨by linarith, c3⟩⟩
  · have : f = 1 / 2 := le_antisymm (not_lt.1 c2) (not_lt.1 c1)
    rw [this] at ex
    refine Or.inr ⟨by push_cast; ring, Or.inr ⟨by linarith, ?_⟩⟩
    rw [Int.not_even_iff_odd] at c3
    exact c3.add_one

/-- **nearest**: no representable number is closer to `x` than `rnd x` -/
theorem rnd_nearest {x y : ℝ} (hx : 0 ≤ x) (hy : Representable y) : |rnd x - x| ≤ |y - x| := by
  rcases hx.eq_or_lt with rfl | hx
  · rw [rnd_zero, sub_zero, abs_zero]; exact abs_nonneg _
  obtain ⟨n, hn, h1, h2, h3⟩ := rnd_cases x
  have hb := fun a b => no_representable_between hx hy a b
  rw [← hn] at hb
  have hout : y ≤ n * (2 : ℝ) ^ ulpExp x ∨ ((n : ℝ) + 1) * (2 : ℝ) ^ ulpExp x ≤ y := by
    by_contra hcon
    push Not at hcon
    exact hb hcon.1 hcon.2
  have key : min (x - n * (2 : ℝ) ^ ulpExp x) (((n : ℝ) + 1) * (2 : ℝ) ^ ulpExp x - x) ≤ |y - x| := by
    rcases hout with h | h
    · refine (min_le_left _ _).trans ?_
      rw [abs_of_nonpos (by linarith)]; linarith
    · refine (min_le_right _ _).trans ?_
      rw [abs_of_nonneg (by linarith)]; linarith
  refine le_trans (le_of_eq ?_) key
  rcases h3 with ⟨e, h | ⟨h, _⟩⟩ | ⟨e, h | ⟨h, _⟩⟩
  · rw [e, abs_of_nonpos (by linarith), min_eq_left h.le]; ring
  · rw [e, abs_of_nonpos (by linarith), min_eq_left h.le]; ring
  · rw [e, abs_of_nonneg (by linarith), min_eq_right h.le]
  · rw [e, abs_of_nonneg (by linarith), min_eq_right h.ge]

/-- **ties to even**: if another representable number is equally close, the significand of `rnd x` in
units of the last place is even -/
theorem rnd_tie {x y : ℝ} (hx : 0 < x) (hy : Representable y) (hne : y ≠ rnd x)
    (h : |y - x| = |rnd x - x|) : ∃ m : ℤ, Even m ∧ rnd x = m * (2 : ℝ) ^ ulpExp x := by
  obtain ⟨n, hn, h1, h2, h3⟩ := rnd_cases x
  have hb := fun a b => no_representable_between hx hy a b
  rw [← hn] at hb
  have hp := two_zpow_pos (ulpExp x)
  have hout : y ≤ n * (2 : ℝ) ^ ulpExp x ∨ ((n : ℝ) + 1) * (2 : ℝ) ^ ulpExp x ≤ y := by
    by_contra hcon
    push Not at hcon
    exact hb hcon.1 hcon.2
  rcases h3 with ⟨e, h' | ⟨_, hev⟩⟩ | ⟨e, h' | ⟨_, hev⟩⟩
  · exfalso
    rw [e] at h hne
    rw [abs_of_nonpos (by linarith : (n : ℝ) * (2 : ℝ) ^ ulpExp x - x ≤ 0)] at h
    rcases hout with ho | ho
    · rw [abs_of_nonpos (by linarith)] at h
      exact hne (by linarith)
    · rw [abs_of_nonneg (by linarith)] at h
      linarith
  · exact ⟨n, hev, e⟩
  · exfalso
    rw [e] at h hne
    rw [abs_of_nonneg (by linarith : 0 ≤ ((n : ℝ) + 1) * (2 : ℝ) ^ ulpExp x - x)] at h
    rcases hout with ho | ho
    · rw [abs_of_nonpos (by linarith)] at h
      linarith
    · rw [abs_of_nonneg (by linarith)] at h
      exact hne (by linarith)
  · exact ⟨n + 1, hev, by rw [e]; push_cast; ring⟩

namespace F32

/-- the four correctly rounded operations: the result of a finite operation that does not overflow is
the exact result rounded by `rnd`, hence a nearest representable number -/
theorem correctly_rounded {c : F32} {t x : ℝ} {z : Bool} (hc : Is c t)
    (h : c = ofReal z x) {y : ℝ} (hy : Representable y) : |t - x| ≤ |y - x| := by
  rw [h] at hc
  by_cases h0 : x = 0
  · subst h0
    have e : t = 0 := by
      have := is_ofReal (z := z) representable_zero
      exact hc.unique this
    rw [e, sub_zero, abs_zero]; exact abs_nonneg _
  · unfold ofReal at hc
    rw [if_neg h0] at hc
    unfold ofMag at hc
    split_ifs at hc with hr
    · obtain ⟨s, m, hm, e1, e2⟩ := hc
      injection e1 with e3 e4
      subst e3; subst e4
      rcases lt_or_gt_of_ne h0 with hneg | hpos
      · rw [decide_eq_true hneg, sval_true] at e2
        have k := rnd_nearest (abs_nonneg x) hy.neg
        rw [abs_of_neg hneg] at k e2
        rw [← e2]
        have e5 : -rnd (-x) - x = -(rnd (-x) - -x) := by ring
        have e6 : -y - -x = -(y - x) := by ring
        rw [e5, abs_neg]; rw [e6, abs_neg] at k
        exact k
      · rw [decide_eq_false (not_lt.2 hpos.le), sval_false] at e2
        have k := rnd_nearest (abs_nonneg x) hy
        rw [abs_of_pos hpos] at k e2
        rw [← e2]; exact k
    · obtain ⟨s, m, hm, e1, e2⟩ := hc
      exact absurd e1 (by simp)

/-- finite sums are correctly rounded -/
theorem add_nearest {a b : F32} {x y t : ℝ} (ha : Is a x) (hb : Is b y)
    (hc : Is (a + b) t) {w : ℝ} (hw : Representable w) : |t - (x + y)| ≤ |w - (x + y)| := by
  obtain ⟨z, e⟩ := add_eq ha hb
  exact correctly_rounded hc e hw

/-- finite products are correctly rounded -/
theorem mul_nearest {a b : F32} {x y t : ℝ} (ha : Is a x) (hb : Is b y)
    (hc : Is (a * b) t) {w : ℝ} (hw : Representable w) : |t - x * y| ≤ |w - x * y| := by
  obtain ⟨z, e⟩ := mul_eq ha hb
  exact correctly_rounded hc e hw

/-- finite quotients are correctly rounded -/
theorem div_nearest {a b : F32} {x y t : ℝ} (ha : Is a x) (hb : Is b y) (h : y ≠ 0)
    (hc : Is (a / b) t) {w : ℝ} (hw : Representable w) : |t - x / y| ≤ |w - x / y| := by
  obtain ⟨z, e⟩ := div_eq ha hb h
  exact correctly_rounded hc e hw

/-- finite differences are correctly rounded -/
theorem sub_nearest {a b : F32} {x y t : ℝ} (ha : Is a x) (hb : Is b y)
    (hc : Is (a - b) t) {w : ℝ} (hw : Representable w) : |t - (x - y)| ≤ |w - (x - y)| := by
  obtain ⟨z, e⟩ := sub_eq ha hb
  exact correctly_rounded hc e hw

/-- square roots are correctly rounded -/
theorem sqrt_nearest {a : F32} {x t : ℝ} (ha : Is a x) (hx : 0 < x)
    (hc : Is (F32.sqrt a) t) {w : ℝ} (hw : Representable w) :
    |t - Real.sqrt x| ≤ |w - Real.sqrt x| := by
  obtain ⟨s, m, hm, rfl, rfl⟩ := ha
  have hs : s = false := by
    cases s
    · rfl
    · rw [sval_true] at hx; linarith [hm.1]
  subst hs
  rw [sval_false] at *
  have hr : Real.sqrt m ≠ 0 := (Real.sqrt_pos.2 hx).ne'
  refine correctly_rounded (z := false) hc ?_ hw
  unfold F32.sqrt ofReal
  simp only [Bool.false_eq_true, if_false]
  rw [if_neg hx.ne', if_neg hr]
  congr 1
  · exact (decide_eq_false (not_lt.2 (Real.sqrt_nonneg m))).symm
  · exact (abs_of_nonneg (Real.sqrt_nonneg m)).symm

/-- overflow threshold: a magnitude is rounded to an infinity exactly from the midpoint between the
largest finite number `(2 ^ 24 - 1) * 2 ^ 104` and `2 ^ 128` on -/
theorem rnd_overflow_iff {x : ℝ} (hx : 0 ≤ x) :
    (2 : ℝ) ^ (128 : ℤ) ≤ rnd x ↔ ((2 : ℝ) ^ 25 - 1) * (2 : ℝ) ^ (103 : ℤ) ≤ x := by
  constructor
  · intro h
    by_contra hcon
    push Not at hcon
    have h128 : ((2 : ℝ) ^ 24 - 1) * (2 : ℝ) ^ (104 : ℤ) = 2 ^ (128 : ℤ) - 2 ^ (104 : ℤ) := by
      norm_num
    have hrep : Representable (((2 : ℝ) ^ 24 - 1) * (2 : ℝ) ^ (104 : ℤ)) :=
      ⟨2 ^ 24 - 1, 104, by push_cast; ring, by norm_num, by norm_num, by norm_num⟩
    have hn := rnd_nearest hx hrep
    have hxlt : x < (2 : ℝ) ^ (128 : ℤ) := hcon.trans (by norm_num)
    rw [abs_of_nonneg (by linarith)] at hn
    rcases le_total x (((2 : ℝ) ^ 24 - 1) * (2 : ℝ) ^ (104 : ℤ)) with hle | hle
    · rw [abs_of_nonneg (by linarith)] at hn
      have := rnd_mono hx hle
      rw [rnd_of_representable (by positivity) hrep] at this
      have h3 : ((2 : ℝ) ^ 24 - 1) * (2 : ℝ) ^ (104 : ℤ) < (2 : ℝ) ^ (128 : ℤ) := by norm_num
      linarith
    · rw [abs_of_nonpos (by linarith)] at hn
      norm_num at hn hcon h
      linarith
  · intro h
    have hmid : (2 : ℝ) ^ (128 : ℤ) ≤ rnd (((2 : ℝ) ^ 25 - 1) * (2 : ℝ) ^ (103 : ℤ)) := by
      have hl : Int.log 2 (((2 : ℝ) ^ 25 - 1) * (2 : ℝ) ^ (103 : ℤ)) = 127 := by
        refine le_antisymm ?_ ?_
        · have := (Int.lt_zpow_iff_log_lt (b := 2) (by norm_num) (x := 128)
            (r := ((2 : ℝ) ^ 25 - 1) * (2 : ℝ) ^ (103 : ℤ)) (by norm_num)).1 (by norm_num)
          omega
        · exact (Int.zpow_le_iff_le_log (b := 2) (by norm_num) (by norm_num)).1 (by norm_num)
      have hu : ulpExp (((2 : ℝ) ^ 25 - 1) * (2 : ℝ) ^ (103 : ℤ)) = 104 := by
        unfold ulpExp; rw [hl]; norm_num
      have hq : ((2 : ℝ) ^ 25 - 1) * (2 : ℝ) ^ (103 : ℤ) / (2 : ℝ) ^ (104 : ℤ) =
          ((2 ^ 24 - 1 : ℤ) : ℝ) + 1 / 2 := by norm_num
      have hfl : ⌊((2 ^ 24 - 1 : ℤ) : ℝ) + 1 / 2⌋ = 2 ^ 24 - 1 := by
        rw [Int.floor_intCast_add]; norm_num
      have hfr : Int.fract (((2 ^ 24 - 1 : ℤ) : ℝ) + 1 / 2) = 1 / 2 := by
        rw [Int.fract, hfl]; ring
      unfold rnd roundEven
      rw [hu, hq, hfr, hfl]
      norm_num [show ¬ Even (16777215 : ℤ) by decide]
    exact hmid.trans (rnd_mono (by norm_num) h)

end F32

end Auburn
