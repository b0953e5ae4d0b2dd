import Verif.Ieee.BallProps

/-!
# C61 in binary32: vectors with finite components are approximately equal to themselves
-/

set_option linter.unusedSectionVars false

namespace Auburn

open F32 V2

section
variable [env : F32Env]

/-- nothing of value zero is greater than a square -/
theorem zero_not_gt_sq {z : F32} (hz : F32.Is z 0) (tol : F32) : ¬ z > tol * tol := by
  intro h
  have h : tol * tol < z := h
  by_cases hn : tol = .nan
  · subst hn
    have e : F32.nan * F32.nan = F32.nan := rfl
    rw [e] at h
    obtain ⟨s, m, g, rfl, -⟩ := hz
    exact h
  · rcases sq_shape hn with e | ⟨m, g, e⟩
    · rw [e] at h
      obtain ⟨s, m, g, rfl, -⟩ := hz
      cases (h : false = true)
    · rw [e] at h
      have := (lt_iff (⟨false, m, g, rfl, rfl⟩ : F32.Is (F32.fin false m g) m) hz).1 h
      exact absurd g.1 (not_le.2 this)

/-- zero divided by something that is not zero nor NaN is zero -/
theorem zero_div_shape {z m : F32} (hz : F32.Is z 0) (hm : m = .inf false ∨ ∃ x g, m = .fin false x g)
    (h0 : FloatExtra.feq m 0 = false) : F32.Is (z / m) 0 := by
  rcases hm with rfl | ⟨x, g, rfl⟩
  · obtain ⟨s, n, g, rfl, -⟩ := hz
    have e : F32.fin s n g / F32.inf false = F32.ofMag (s ^^ false) 0 (le_refl 0) := rfl
    rw [e]
    obtain ⟨h', e'⟩ : ∃ h', F32.ofMag (s ^^ false) 0 (le_refl 0) = F32.fin (s ^^ false) 0 h' := by
      rw [F32.ofMag]
      have : rnd 0 = 0 := rnd_of_representable (le_refl 0) representable_zero
      simp only [this]
      rw [dif_pos (by positivity)]
      exact ⟨⟨le_refl 0, representable_zero⟩, rfl⟩
    rw [e']
    exact ⟨_, 0, h', rfl, by cases s <;> simp⟩
  · have hx : F32.Is (F32.fin false x g) x := ⟨false, x, g, rfl, rfl⟩
    have hx0 : x ≠ 0 := by
      rintro rfl
      exact absurd ((F32.eq_iff hx is_zero).2 rfl) (of_decide_eq_false h0)
    have := is_div hz hx hx0 (by rw [zero_div]; exact representable_zero)
    rwa [zero_div] at this

theorem is_self_sub {a : F32} {x : ℝ} (h : F32.Is a x) : F32.Is (a - a) 0 := by
  have := is_sub h h (by rw [sub_self]; exact representable_zero)
  rwa [sub_self] at this

theorem zero_mul_zero {a b : F32} (ha : F32.Is a 0) (hb : F32.Is b 0) : F32.Is (a * b) 0 := by
  have := is_mul ha hb (by rw [mul_zero]; exact representable_zero)
  rwa [mul_zero] at this

theorem zero_add_zero32 {a b : F32} (ha : F32.Is a 0) (hb : F32.Is b 0) : F32.Is (a + b) 0 := by
  have := is_add ha hb (by rw [add_zero]; exact representable_zero)
  rwa [add_zero] at this

theorem is_not_nan {a : F32} {x : ℝ} (h : F32.Is a x) : FloatExtra.isNan a = false ∧ FloatExtra.isInfinite a = false := by
  obtain ⟨s, m, g, rfl, -⟩ := h; exact ⟨rfl, rfl⟩

theorem is_ne_nan {a : F32} {x : ℝ} (h : F32.Is a x) : a ≠ .nan := by
  obtain ⟨s, m, g, rfl, -⟩ := h; exact fun h => by cases h

theorem fmax_self (a : F32) : FloatExtra.fmax a a = a := by
  rcases a with _ | s | ⟨s, m, g⟩
  · rfl
  · show (if F32.inf s < F32.inf s then F32.inf s else F32.inf s) = _; simp
  · show (if F32.fin s m g < F32.fin s m g then F32.fin s m g else F32.fin s m g) = _; simp

/-- A vector with finite components is approximately equal to itself, for every tolerance (also zero, infinite or NaN),
although its squared length may overflow or underflow. -/
theorem C61_f32_refl (a : V2 F32) (x y : ℝ) (hx : F32.Is a.x x) (hy : F32.Is a.y y) (tol : F32) :
    approxEqTolV2 a a tol = true := by
  unfold approxEqTolV2
  have hs : V2.lengthSq a = .inf false ∨ ∃ m g, V2.lengthSq a = .fin false m g :=
    add_shape (sq_shape (is_ne_nan hx)) (sq_shape (is_ne_nan hy))
  simp only [fmax_self]
  have ex : (a - a).x = a.x - a.x := rfl
  have ey : (a - a).y = a.y - a.y := rfl
  have zx := is_self_sub hx
  have zy := is_self_sub hy
  by_cases h0 : FloatExtra.feq (V2.lengthSq a) 0 = true
  · rw [if_pos h0]
  · have h0' : FloatExtra.feq (V2.lengthSq a) 0 = false := by simpa using h0
    rw [if_neg h0, ex, ey, (is_not_nan zx).1, (is_not_nan zx).2, (is_not_nan zy).1, (is_not_nan zy).2]
    simp only [Bool.or_self, Bool.false_eq_true, if_false]
    have he : F32.Is (V2.lengthSq (a - a)) 0 := zero_add_zero32 (zero_mul_zero zx zx) (zero_mul_zero zy zy)
    rw [if_neg (zero_not_gt_sq (zero_div_shape he hs h0') tol),
      if_neg (zero_not_gt_sq (zero_mul_zero zx (zero_div_shape zx hs h0')) tol),
      if_neg (zero_not_gt_sq (zero_mul_zero zy (zero_div_shape zy hs h0')) tol)]

/-- the same for three components -/
theorem C61_f32_refl_v3 (a : V3 F32) (x y z : ℝ) (hx : F32.Is a.x x) (hy : F32.Is a.y y) (hz : F32.Is a.z z)
    (tol : F32) : approxEqTolV3 a a tol = true := by
  unfold approxEqTolV3
  have hs : V3.lengthSq a = .inf false ∨ ∃ m g, V3.lengthSq a = .fin false m g :=
    add_shape (add_shape (sq_shape (is_ne_nan hx)) (sq_shape (is_ne_nan hy))) (sq_shape (is_ne_nan hz))
  simp only [fmax_self]
  have ex : (a - a).x = a.x - a.x := rfl
  have ey : (a - a).y = a.y - a.y := rfl
  have ez : (a - a).z = a.z - a.z := rfl
  have zx := is_self_sub hx
  have zy := is_self_sub hy
  have zz := is_self_sub hz
  by_cases h0 : FloatExtra.feq (V3.lengthSq a) 0 = true
  · rw [if_pos h0]
  · have h0' : FloatExtra.feq (V3.lengthSq a) 0 = false := by simpa using h0
    rw [if_neg h0, ex, ey, ez, (is_not_nan zx).1, (is_not_nan zx).2, (is_not_nan zy).1, (is_not_nan zy).2,
      (is_not_nan zz).1, (is_not_nan zz).2]
    simp only [Bool.or_self, Bool.false_eq_true, if_false]
    have he : F32.Is (V3.lengthSq (a - a)) 0 :=
      zero_add_zero32 (zero_add_zero32 (zero_mul_zero zx zx) (zero_mul_zero zy zy)) (zero_mul_zero zz zz)
    rw [if_neg (zero_not_gt_sq (zero_div_shape he hs h0') tol),
      if_neg (zero_not_gt_sq (zero_mul_zero zx (zero_div_shape zx hs h0')) tol),
      if_neg (zero_not_gt_sq (zero_mul_zero zy (zero_div_shape zy hs h0')) tol),
      if_neg (zero_not_gt_sq (zero_mul_zero zz (zero_div_shape zz hs h0')) tol)]

/-- Finding: vectors shorter than about `2^-75` are approximately equal to each other whatever their directions, for
every tolerance, because their squared lengths underflow to zero: `(2^-80, 0)` and `(-2^-80, 0)`. -/
theorem C61_f32_underflow_finding (tol : F32) : ∃ a b : V2 F32, F32.Is a.x ((2 : ℝ) ^ (-80 : ℤ)) ∧ F32.Is a.y 0 ∧
    F32.Is b.x (-(2 : ℝ) ^ (-80 : ℤ)) ∧ F32.Is b.y 0 ∧ approxEqTolV2 a b tol = true := by
  have hr : Representable ((2 : ℝ) ^ (-80 : ℤ)) := ⟨1, -80, by simp, by norm_num, by norm_num, by norm_num⟩
  have hp : F32.Is (F32.ofReal false ((2 : ℝ) ^ (-80 : ℤ))) ((2 : ℝ) ^ (-80 : ℤ)) := is_ofReal hr
  have hn : F32.Is (-(F32.ofReal false ((2 : ℝ) ^ (-80 : ℤ)))) (-(2 : ℝ) ^ (-80 : ℤ)) := is_neg hp
  have hsq : ∀ a : F32, ∀ x : ℝ, F32.Is a x → x ^ 2 = (2 : ℝ) ^ (-160 : ℤ) → F32.Is (a * a) 0 := by
    intro a x ha hx
    obtain ⟨z, e⟩ := mul_eq ha ha
    rw [e, show x * x = (2 : ℝ) ^ (-160 : ℤ) by rw [← hx]; ring]
    exact ofReal_tiny (by rw [abs_of_pos (two_zpow_pos _)]; norm_num)
  refine ⟨⟨_, 0⟩, ⟨_, 0⟩, hp, is_zero, hn, is_zero, ?_⟩
  have h1 := zero_add_zero32 (hsq _ _ hp (by norm_num)) (zero_mul_zero is_zero is_zero)
  have h2 := zero_add_zero32 (hsq _ _ hn (by norm_num)) (zero_mul_zero is_zero is_zero)
  have h3 := is_fmax h1 h2
  rw [max_self] at h3
  unfold approxEqTolV2
  exact if_pos (decide_eq_true ((F32.eq_iff h3 is_zero).2 rfl))

end

end Auburn
