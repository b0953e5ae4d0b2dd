import Verif.Ieee.Binary32

/-!
# Computing with binary32 values: `F32.Is a x` — `a` is finite and its value is the real `x`
-/

set_option linter.unusedSectionVars false

namespace Auburn

/-! ## Representable numbers -/

theorem Representable.neg {x : ℝ} (h : Representable x) : Representable (-x) := by
  obtain ⟨m, e, h1, h2, h3, h4⟩ := h
  exact ⟨-m, e, by rw [h1]; push_cast; ring, by rwa [abs_neg], h3, h4⟩

theorem Representable.abs {x : ℝ} (h : Representable x) : Representable |x| := by
  rcases abs_choice x with e | e <;> rw [e]
  · exact h
  · exact h.neg

theorem representable_abs_iff {x : ℝ} : Representable |x| ↔ Representable x := by
  refine ⟨fun h => ?_, fun h => h.abs⟩
  rcases abs_choice x with e | e <;> rw [e] at h
  · exact h
  · simpa using h.neg

theorem representable_zero : Representable 0 :=
  ⟨0, 0, by simp, by norm_num, by norm_num, by norm_num⟩

/-- `m * 2^e` with a significand of at most 24 bits -/
theorem representable_scaled (m e : ℤ) (hm : |m| ≤ 2 ^ 24) (h1 : -149 ≤ e) (h2 : e ≤ 103) :
    Representable (m * (2 : ℝ) ^ e) := by
  rcases hm.lt_or_eq with hlt | heq
  · exact ⟨m, e, rfl, hlt, h1, by omega⟩
  · have hp : (2 : ℝ) ^ (e + 1) = 2 * (2 : ℝ) ^ e := by
      rw [zpow_add₀ (by norm_num), zpow_one, mul_comm]
    rcases abs_choice m with h | h
    · refine ⟨2 ^ 23, e + 1, ?_, by norm_num, by omega, by omega⟩
      rw [hp, show m = 2 ^ 24 by omega]; push_cast; ring
    · refine ⟨-2 ^ 23, e + 1, ?_, by norm_num, by omega, by omega⟩
      rw [hp, show m = -2 ^ 24 by omega]; push_cast; ring

theorem representable_int (n : ℤ) (h : |n| ≤ 2 ^ 24) : Representable (n : ℝ) := by
  have := representable_scaled n 0 h (by norm_num) (by norm_num)
  simpa using this

theorem Representable.lt {x : ℝ} (h : Representable x) : x < (2 : ℝ) ^ (128 : ℤ) := by
  obtain ⟨m, e, h1, h2, h3, h4⟩ := h
  have hp := two_zpow_pos e
  have hm : (m : ℝ) < ((2 ^ 24 : ℤ) : ℝ) := by exact_mod_cast (abs_lt.1 h2).2
  have hm' : (m : ℝ) < (2 : ℝ) ^ (24 : ℤ) := by
    refine hm.trans_eq ?_
    push_cast; norm_num
  rw [h1]
  calc (m : ℝ) * (2 : ℝ) ^ e < (2 : ℝ) ^ (24 : ℤ) * (2 : ℝ) ^ e :=
        mul_lt_mul_of_pos_right hm' hp
    _ ≤ (2 : ℝ) ^ (24 : ℤ) * (2 : ℝ) ^ (104 : ℤ) :=
        mul_le_mul_of_nonneg_left (zpow_le_zpow h4) (two_zpow_pos _).le
    _ = (2 : ℝ) ^ (128 : ℤ) := by rw [← zpow_add₀ (by norm_num)]; norm_num

namespace F32

@[simp] theorem sval_false (m : ℝ) : sval false m = m := rfl
@[simp] theorem sval_true (m : ℝ) : sval true m = -m := rfl
theorem sval_not (s : Bool) (m : ℝ) : sval (!s) m = -sval s m := by cases s <;> simp
theorem abs_sval (s : Bool) {m : ℝ} (h : 0 ≤ m) : |sval s m| = m := by
  cases s <;> simp [abs_of_nonneg h]
theorem sval_xor (s t : Bool) (a b : ℝ) : sval (s ^^ t) (a * b) = sval s a * sval t b := by
  cases s <;> cases t <;> simp
theorem sval_xor_div (s t : Bool) (a b : ℝ) : sval (s ^^ t) (a / b) = sval s a / sval t b := by
  cases s <;> cases t <;> simp [neg_div, div_neg]

/-- `a` is finite and its value is `x` -/
def Is (a : F32) (x : ℝ) : Prop := ∃ s m h, a = fin s m h ∧ sval s m = x

theorem Is.representable {a : F32} {x : ℝ} (h : Is a x) : Representable x := by
  obtain ⟨s, m, hm, _, rfl⟩ := h
  cases s
  · exact hm.2
  · exact hm.2.neg

theorem Is.unique {a : F32} {x y : ℝ} (h : Is a x) (h' : Is a y) : x = y := by
  obtain ⟨s, m, hm, rfl, rfl⟩ := h
  obtain ⟨s', m', hm', e, rfl⟩ := h'
  injection e with e1 e2
  rw [e1, e2]

theorem is_ofMag {s : Bool} {x : ℝ} (hx : 0 ≤ x) (hr : Representable x) :
    Is (ofMag s x hx) (sval s x) := by
  have e := rnd_of_representable hx hr
  unfold ofMag
  rw [dif_pos (by rw [e]; exact hr.lt)]
  exact ⟨s, _, _, rfl, by rw [e]⟩

theorem is_ofReal {z : Bool} {x : ℝ} (hr : Representable x) : Is (ofReal z x) x := by
  unfold ofReal
  by_cases h : x = 0
  · rw [if_pos h]; exact ⟨z, 0, _, rfl, by rw [h]; cases z <;> simp⟩
  · rw [if_neg h]
    have := is_ofMag (s := decide (x < 0)) (abs_nonneg x) hr.abs
    convert this using 1
    by_cases hx : x < 0
    · simp [hx, abs_of_neg hx]
    · simp [hx, abs_of_nonneg (not_lt.1 hx)]

theorem is_neg {a : F32} {x : ℝ} (h : Is a x) : Is (-a) (-x) := by
  obtain ⟨s, m, hm, rfl, rfl⟩ := h
  exact ⟨!s, m, hm, rfl, sval_not s m⟩

/-- addition of finite numbers is the rounded sum -/
theorem add_eq {a b : F32} {x y : ℝ} (ha : Is a x) (hb : Is b y) :
    ∃ z, a + b = ofReal z (x + y) := by
  obtain ⟨s, m, hm, rfl, rfl⟩ := ha
  obtain ⟨t, n, hn, rfl, rfl⟩ := hb
  exact ⟨_, rfl⟩

theorem sub_eq {a b : F32} {x y : ℝ} (ha : Is a x) (hb : Is b y) :
    ∃ z, a - b = ofReal z (x - y) := by
  obtain ⟨z, e⟩ := add_eq ha (is_neg hb)
  exact ⟨z, by rw [sub_eq_add_neg, ← e]; rfl⟩

/-- the difference of two non-negative-signed numbers is `+0` if it is zero -/
theorem abs_sub_eq {a b : F32} {x y : ℝ} (h : 0 ≤ x ∧ Representable x)
    (ha : a = fin false x h) (hb : Is b y) : a - b = ofReal false (x - y) := by
  obtain ⟨t, n, hn, rfl, rfl⟩ := hb
  subst ha
  show ofReal (false && !t) (sval false x + sval (!t) n) = _
  rw [sval_not]; simp [sub_eq_add_neg]

theorem mul_eq {a b : F32} {x y : ℝ} (ha : Is a x) (hb : Is b y) :
    ∃ z, a * b = ofReal z (x * y) := by
  obtain ⟨s, m, hm, rfl, rfl⟩ := ha
  obtain ⟨t, n, hn, rfl, rfl⟩ := hb
  refine ⟨s ^^ t, ?_⟩
  show ofMag (s ^^ t) (m * n) (mul_nonneg hm.1 hn.1) = _
  rw [← sval_xor]
  unfold ofReal
  have h0 : 0 ≤ m * n := mul_nonneg hm.1 hn.1
  by_cases h : m * n = 0
  · rw [if_pos (by rw [h]; cases (s ^^ t) <;> simp)]
    unfold ofMag
    rw [dif_pos (by rw [h, rnd_zero]; exact two_zpow_pos _)]
    congr 1
    rw [h, rnd_zero]
  · have hne : sval (s ^^ t) (m * n) ≠ 0 := by
      cases (s ^^ t)
      · exact h
      · simpa using h
    rw [if_neg hne]
    have hpos : 0 < m * n := lt_of_le_of_ne h0 (Ne.symm h)
    have e1 : decide (sval (s ^^ t) (m * n) < 0) = (s ^^ t) := by
      cases (s ^^ t)
      · exact decide_eq_false (not_lt.2 h0)
      · exact decide_eq_true (neg_lt_zero.2 hpos)
    congr 1
    · exact e1.symm
    · exact (abs_sval _ h0).symm

theorem div_eq {a b : F32} {x y : ℝ} (ha : Is a x) (hb : Is b y) (hy : y ≠ 0) :
    ∃ z, a / b = ofReal z (x / y) := by
  obtain ⟨s, m, hm, rfl, rfl⟩ := ha
  obtain ⟨t, n, hn, rfl, rfl⟩ := hb
  have hn0 : n ≠ 0 := by rintro rfl; apply hy; cases t <;> simp
  refine ⟨s ^^ t, ?_⟩
  show (if n = 0 then (if m = 0 then nan else inf (s ^^ t)) else
    ofMag (s ^^ t) (m / n) (div_nonneg hm.1 hn.1)) = _
  rw [if_neg hn0, ← sval_xor_div]
  unfold ofReal
  have h0 : 0 ≤ m / n := div_nonneg hm.1 hn.1
  by_cases h : m / n = 0
  · rw [if_pos (by rw [h]; cases (s ^^ t) <;> simp)]
    unfold ofMag
    rw [dif_pos (by rw [h, rnd_zero]; exact two_zpow_pos _)]
    congr 1
    rw [h, rnd_zero]
  · have hne : sval (s ^^ t) (m / n) ≠ 0 := by
      cases (s ^^ t)
      · exact h
      · simpa using h
    rw [if_neg hne]
    have hpos : 0 < m / n := lt_of_le_of_ne h0 (Ne.symm h)
    have e1 : decide (sval (s ^^ t) (m / n) < 0) = (s ^^ t) := by
      cases (s ^^ t)
      · exact decide_eq_false (not_lt.2 h0)
      · exact decide_eq_true (neg_lt_zero.2 hpos)
    congr 1
    · exact e1.symm
    · exact (abs_sval _ h0).symm

theorem is_add {a b : F32} {x y : ℝ} (ha : Is a x) (hb : Is b y) (h : Representable (x + y)) :
    Is (a + b) (x + y) := by
  obtain ⟨z, e⟩ := add_eq ha hb; rw [e]; exact is_ofReal h
theorem is_sub {a b : F32} {x y : ℝ} (ha : Is a x) (hb : Is b y) (h : Representable (x - y)) :
    Is (a - b) (x - y) := by
  obtain ⟨z, e⟩ := sub_eq ha hb; rw [e]; exact is_ofReal h
theorem is_mul {a b : F32} {x y : ℝ} (ha : Is a x) (hb : Is b y) (h : Representable (x * y)) :
    Is (a * b) (x * y) := by
  obtain ⟨z, e⟩ := mul_eq ha hb; rw [e]; exact is_ofReal h
theorem is_div {a b : F32} {x y : ℝ} (ha : Is a x) (hb : Is b y) (hy : y ≠ 0)
    (h : Representable (x / y)) : Is (a / b) (x / y) := by
  obtain ⟨z, e⟩ := div_eq ha hb hy; rw [e]; exact is_ofReal h

theorem is_zero : Is 0 0 := is_ofReal representable_zero
theorem is_one : Is 1 1 := is_ofReal (by simpa using representable_int 1 (by norm_num))

theorem lt_iff {a b : F32} {x y : ℝ} (ha : Is a x) (hb : Is b y) : a < b ↔ x < y := by
  obtain ⟨s, m, hm, rfl, rfl⟩ := ha
  obtain ⟨t, n, hn, rfl, rfl⟩ := hb
  exact Iff.rfl

theorem le_iff {a b : F32} {x y : ℝ} (ha : Is a x) (hb : Is b y) : a ≤ b ↔ x ≤ y := by
  obtain ⟨s, m, hm, rfl, rfl⟩ := ha
  obtain ⟨t, n, hn, rfl, rfl⟩ := hb
  exact (le_iff_lt_or_eq (a := sval s m) (b := sval t n)).symm

theorem eq_iff {a b : F32} {x y : ℝ} (ha : Is a x) (hb : Is b y) : F32.eq a b ↔ x = y := by
  obtain ⟨s, m, hm, rfl, rfl⟩ := ha
  obtain ⟨t, n, hn, rfl, rfl⟩ := hb
  exact Iff.rfl

/-! ## Rounded results -/

/-- what a rounded real can be: finite with the rounded magnitude and the same sign, or an infinity
of the same sign -/
theorem ofReal_cases (z : Bool) (x : ℝ) :
    (rnd |x| < (2 : ℝ) ^ (128 : ℤ) ∧ ∃ s h, ofReal z x = fin s (rnd |x|) h ∧
      (x ≠ 0 → s = decide (x < 0)) ∧ (x = 0 → s = z)) ∨
    ((2 : ℝ) ^ (128 : ℤ) ≤ rnd |x| ∧ x ≠ 0 ∧ ofReal z x = inf (decide (x < 0))) := by
  unfold ofReal
  by_cases h : x = 0
  · subst h
    refine Or.inl ⟨by rw [abs_zero, rnd_zero]; exact two_zpow_pos _, z, ?_, ?_, ?_, ?_⟩
    · rw [abs_zero, rnd_zero]; exact ⟨le_refl _, representable_zero⟩
    · rw [if_pos rfl]; congr 1; rw [abs_zero, rnd_zero]
    · intro h; exact absurd rfl h
    · intro _; rfl
  · rw [if_neg h]
    unfold ofMag
    by_cases hlt : rnd |x| < (2 : ℝ) ^ (128 : ℤ)
    · refine Or.inl ⟨hlt, _, _, by rw [dif_pos hlt], fun _ => rfl, fun h' => absurd h' h⟩
    · refine Or.inr ⟨not_lt.1 hlt, h, by rw [dif_neg hlt]⟩

theorem isSignNeg_ofReal [F32Env] (x : ℝ) :
    FloatExtra.isSignNeg (ofReal false x) = decide (x < 0) := by
  rcases ofReal_cases false x with ⟨_, s, h, e, h1, h2⟩ | ⟨_, _, e⟩
  · rw [e]
    show s = decide (x < 0)
    by_cases hx : x = 0
    · rw [h2 hx]; simp [hx]
    · exact h1 hx
  · rw [e]; rfl

end F32

end Auburn
