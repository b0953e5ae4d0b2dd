import Verif.Ieee.Rep
import Verif.Model.Utils
import Verif.Model.Detect2d

/-!
# Properties of the model run on IEEE-754 binary32 (with rounding, overflow, NaN, signed zeros)

`env` is an arbitrary choice of what the platform leaves open (sign of NaN, `sin`, `cos`, `atan2`).
-/

set_option linter.unusedSectionVars false

namespace Auburn

open F32 Transformation2d ExtremePoint2d

section
variable [env : F32Env]

/-- all components finite, with the given real values -/
def V2.IsF (a : V2 F32) (x y : ℝ) : Prop := F32.Is a.x x ∧ F32.Is a.y y

/-! ## C60, C61: approx_eq -/

theorem sub_nan (a : F32) : a - F32.nan = F32.nan := by cases a <;> rfl
theorem nan_sub (a : F32) : F32.nan - a = F32.nan := by cases a <;> rfl

/-- NaN is approximately equal to nothing, whatever the tolerance -/
theorem C60_f32_nan (a tol : F32) :
    approxEqTol F32.nan a tol = false ∧ approxEqTol a F32.nan tol = false := by
  constructor
  · unfold approxEqTol; rw [nan_sub]; rfl
  · unfold approxEqTol; rw [sub_nan]; rfl

/-- Finding: an infinity is approximately equal to nothing — not even to itself, although the code
has a branch for infinite errors which compares with `==` (`∞ - ∞` is NaN, not infinite). -/
theorem C60_f32_infinity_finding (s : Bool) (a tol : F32) :
    approxEqTol (F32.inf s) a tol = false ∧ approxEqTol a (F32.inf s) tol = false := by
  have key : ∀ x y : F32, (x = .inf s ∨ y = .inf s) → approxEqTol x y tol = false := by
    intro x y hxy
    unfold approxEqTol
    rcases x with _ | s₁ | ⟨s₁, m₁, h₁⟩ <;> rcases y with _ | s₂ | ⟨s₂, m₂, h₂⟩
    · rfl
    · rfl
    · rfl
    · rfl
    · by_cases h : s₁ = !s₂
      · have e : F32.inf s₁ - F32.inf s₂ = F32.inf s₁ := if_pos h
        rw [e]
        show decide (F32.eq (F32.inf s₁) (F32.inf s₂)) = false
        refine decide_eq_false ?_
        show ¬ s₁ = s₂
        rw [h]; cases s₂ <;> simp
      · have e : F32.inf s₁ - F32.inf s₂ = F32.nan := if_neg h
        rw [e]; rfl
    · have e : F32.inf s₁ - F32.fin s₂ m₂ h₂ = F32.inf s₁ := rfl
      rw [e]
      exact decide_eq_false (fun h => h)
    · rfl
    · have e : F32.fin s₁ m₁ h₁ - F32.inf s₂ = F32.inf (!s₂) := rfl
      rw [e]
      exact decide_eq_false (fun h => h)
    · rcases hxy with h | h <;> exact absurd h (by simp)
  exact ⟨key _ _ (Or.inl rfl), key _ _ (Or.inr rfl)⟩

/-- every finite number is approximately equal to itself for every positive tolerance, with the
default tolerance in particular -/
theorem C60_f32_refl (a : F32) (x : ℝ) (ha : F32.Is a x) :
    (∀ tol t, F32.Is tol t → 0 < t → approxEqTol a a tol = true) ∧ approxEq a a = true := by
  have key : ∀ tol t, F32.Is tol t → 0 < t → approxEqTol a a tol = true := by
    intro tol t ht h0
    have hsub : F32.Is (a - a) 0 := by
      have := is_sub ha ha (by rw [sub_self]; exact representable_zero)
      rwa [sub_self] at this
    obtain ⟨s, m, hm, e, hv⟩ := hsub
    have hm0 : m = 0 := by cases s <;> simpa using hv
    subst hm0
    unfold approxEqTol
    rw [e]
    show (if (false = true) then _ else if (false = true) then _ else
      if (decide (F32.eq a 0) || decide (F32.eq a 0)) = true then _ else _) = true
    rw [if_neg (by simp), if_neg (by simp)]
    by_cases hx : x = 0
    · rw [if_pos (by simp [F32.eq_iff ha is_zero, hx])]
      refine decide_eq_true ?_
      exact (lt_iff (a := F32.fin false 0 hm) ⟨false, 0, hm, rfl, rfl⟩ ht).2 h0
    · rw [if_neg (by simp [F32.eq_iff ha is_zero, hx]), if_neg]
      have hd : F32.Is (F32.fin s 0 hm / a) (0 / x) := is_div ⟨s, 0, hm, rfl, hv⟩ ha hx (by
        rw [zero_div]; exact representable_zero)
      rw [zero_div] at hd
      obtain ⟨s', m', hm', e', hv'⟩ := hd
      have hm0 : m' = 0 := by cases s' <;> simpa using hv'
      subst hm0
      simp only [e']
      show ¬ (tol < F32.fin false 0 hm')
      rw [lt_iff ht (⟨false, 0, hm', rfl, rfl⟩ : F32.Is (F32.fin false 0 hm') 0)]
      linarith
  refine ⟨key, ?_⟩
  have hpos : (0 : ℝ) < 1 / 10 ^ 6 := by norm_num
  rcases ofReal_cases false (1 / 10 ^ 6 : ℝ) with ⟨h1, s, h, e, h2, _⟩ | ⟨h1, _, _⟩
  · refine key _ (rnd |1 / 10 ^ 6|) ⟨s, _, h, e, ?_⟩ ?_
    · rw [h2 hpos.ne', decide_eq_false (not_lt.2 hpos.le)]; rfl
    · rw [abs_of_pos hpos]
      have h3 := rnd_mono (x := (2 : ℝ) ^ (-20 : ℤ)) (y := 1 / 10 ^ 6) (two_zpow_pos _).le
        (by norm_num)
      rw [rnd_of_representable (two_zpow_pos _).le
        ⟨1, -20, by simp, by norm_num, by norm_num, by norm_num⟩] at h3
      exact lt_of_lt_of_le (two_zpow_pos _) h3
  · exfalso
    have h3 := rnd_mono (x := 1 / 10 ^ 6) (y := 1) hpos.le (by norm_num)
    rw [rnd_of_representable zero_le_one (by simpa using representable_int 1 (by norm_num))] at h3
    rw [abs_of_pos hpos] at h1
    have : (1 : ℝ) < (2 : ℝ) ^ (128 : ℤ) := by norm_num
    linarith

/-- Finding: a vector of NaNs is approximately equal to the zero vector (`f32::max` ignores NaN, so
the magnitude is 0 and the early return says true). -/
theorem C61_f32_nan_zero_finding (tol : F32) :
    approxEqTolV2 (⟨F32.nan, F32.nan⟩ : V2 F32) 0 tol = true := by
  have h0 : F32.Is ((0 : V2 F32).lengthSq) 0 := by
    have hz : F32.Is ((0 : F32) * 0) 0 := by
      have := is_mul is_zero is_zero (by rw [mul_zero]; exact representable_zero)
      rwa [mul_zero] at this
    have := is_add hz hz (by rw [add_zero]; exact representable_zero)
    rwa [add_zero] at this
  unfold approxEqTolV2
  have e : FloatExtra.fmax (V2.lengthSq (⟨F32.nan, F32.nan⟩ : V2 F32)) (V2.lengthSq 0) =
      V2.lengthSq (0 : V2 F32) := rfl
  simp only [e]
  rw [if_pos]
  exact decide_eq_true ((F32.eq_iff h0 is_zero).2 rfl)

/-- NaN components are noticed whenever the other vector is not (numerically) zero -/
theorem C61_f32_nan (a b : V2 F32) (tol : F32) (ha : a.x = .nan ∨ a.y = .nan) :
    FloatExtra.feq (V2.lengthSq b) 0 = false →
      approxEqTolV2 a b tol = false ∧ approxEqTolV2 b a tol = false := by
  intro hb
  have hmul : ∀ x : F32, F32.nan * x = F32.nan := by intro x; cases x <;> rfl
  have hadd : ∀ x : F32, x + F32.nan = F32.nan := by intro x; cases x <;> rfl
  have hadd' : ∀ x : F32, F32.nan + x = F32.nan := by intro x; cases x <;> rfl
  have hl : V2.lengthSq a = F32.nan := by
    show a.x * a.x + a.y * a.y = _
    rcases ha with h | h <;> rw [h, hmul]
    · exact hadd' _
    · exact hadd _
  have hm1 : FloatExtra.fmax (V2.lengthSq a) (V2.lengthSq b) = V2.lengthSq b := by rw [hl]; rfl
  have hm2 : FloatExtra.fmax (V2.lengthSq b) (V2.lengthSq a) = V2.lengthSq b := by
    rw [hl]
    rcases V2.lengthSq b with _ | _ | _ <;> rfl
  have hn1 : (FloatExtra.isNan (a - b).x || FloatExtra.isNan (a - b).y) = true := by
    show (FloatExtra.isNan (a.x - b.x) || FloatExtra.isNan (a.y - b.y)) = true
    rcases ha with h | h <;> rw [h, nan_sub]
    · rfl
    · exact Bool.or_true _
  have hn2 : (FloatExtra.isNan (b - a).x || FloatExtra.isNan (b - a).y) = true := by
    show (FloatExtra.isNan (b.x - a.x) || FloatExtra.isNan (b.y - a.y)) = true
    rcases ha with h | h <;> rw [h, sub_nan]
    · rfl
    · exact Bool.or_true _
  constructor
  · unfold approxEqTolV2
    simp only [hm1, hb, hn1, if_true, Bool.false_eq_true, if_false]
  · unfold approxEqTolV2
    simp only [hm2, hb, hn2, if_true, Bool.false_eq_true, if_false]

/-- the same for three components -/
theorem C61_f32_nan_v3 (a b : V3 F32) (tol : F32) (ha : a.x = .nan ∨ a.y = .nan ∨ a.z = .nan) :
    FloatExtra.feq (V3.lengthSq b) 0 = false →
      approxEqTolV3 a b tol = false ∧ approxEqTolV3 b a tol = false := by
  intro hb
  have hmul : ∀ x : F32, F32.nan * x = F32.nan := by intro x; cases x <;> rfl
  have hadd : ∀ x : F32, x + F32.nan = F32.nan := by intro x; cases x <;> rfl
  have hadd' : ∀ x : F32, F32.nan + x = F32.nan := by intro x; cases x <;> rfl
  have hl : V3.lengthSq a = F32.nan := by
    show a.x * a.x + a.y * a.y + a.z * a.z = _
    rcases ha with h | h | h <;> rw [h, hmul]
    · rw [hadd', hadd']
    · rw [hadd, hadd']
    · exact hadd _
  have hm1 : FloatExtra.fmax (V3.lengthSq a) (V3.lengthSq b) = V3.lengthSq b := by rw [hl]; rfl
  have hm2 : FloatExtra.fmax (V3.lengthSq b) (V3.lengthSq a) = V3.lengthSq b := by
    rw [hl]
    rcases V3.lengthSq b with _ | _ | _ <;> rfl
  have hn1 : (FloatExtra.isNan (a - b).x || FloatExtra.isNan (a - b).y || FloatExtra.isNan (a - b).z) = true := by
    show (FloatExtra.isNan (a.x - b.x) || FloatExtra.isNan (a.y - b.y) || FloatExtra.isNan (a.z - b.z)) = true
    have e : FloatExtra.isNan F32.nan = true := rfl
    rcases ha with h | h | h <;> rw [h, nan_sub, e] <;> simp
  have hn2 : (FloatExtra.isNan (b - a).x || FloatExtra.isNan (b - a).y || FloatExtra.isNan (b - a).z) = true := by
    show (FloatExtra.isNan (b.x - a.x) || FloatExtra.isNan (b.y - a.y) || FloatExtra.isNan (b.z - a.z)) = true
    have e : FloatExtra.isNan F32.nan = true := rfl
    rcases ha with h | h | h <;> rw [h, sub_nan, e] <;> simp
  constructor
  · unfold approxEqTolV3
    simp only [hm1, hb, hn1, if_true, Bool.false_eq_true, if_false]
  · unfold approxEqTolV3
    simp only [hm2, hb, hn2, if_true, Bool.false_eq_true, if_false]

/-- the case `b = (1, 0, 0)` -/
example (y z tol : F32) : approxEqTolV3 (⟨.nan, y, z⟩ : V3 F32) ⟨1, 0, 0⟩ tol = false := by
  refine (C61_f32_nan_v3 _ _ tol (Or.inl rfl) ?_).1
  have hz : F32.Is ((0 : F32) * 0) 0 := by
    have := is_mul is_zero is_zero (by rw [mul_zero]; exact representable_zero)
    rwa [mul_zero] at this
  have r1 : Representable (1 : ℝ) := is_one.representable
  have h1 : F32.Is ((1 : F32) * 1) 1 := by
    have := is_mul is_one is_one (by rw [mul_one]; exact r1)
    rwa [mul_one] at this
  have h2 := is_add h1 hz (by rw [add_zero]; exact r1)
  rw [add_zero] at h2
  have h3 := is_add h2 hz (by rw [add_zero]; exact r1)
  rw [add_zero] at h3
  exact decide_eq_false fun h => one_ne_zero ((F32.eq_iff h3 is_zero).1 h)

/-! ## C62: lerp -/

/-! ### infinite components of vectors -/

theorem inf_error {x y : F32} (h : FloatExtra.isInfinite (x - y) = true) : FloatExtra.feq x y = false := by
  refine decide_eq_false ?_
  rcases x with _ | s₁ | ⟨s₁, m₁, h₁⟩ <;> rcases y with _ | s₂ | ⟨s₂, m₂, h₂⟩ <;> try exact fun h => h
  · intro e
    have e : s₁ = s₂ := e
    subst e
    have : F32.inf s₁ - F32.inf s₁ = F32.nan := if_neg (by cases s₁ <;> simp)
    rw [this] at h
    exact absurd h (by simp [FloatExtra.isInfinite])
  · intro e
    have e : F32.sval s₁ m₁ = F32.sval s₂ m₂ := e
    have hz := is_sub (⟨_, _, _, rfl, rfl⟩ : F32.Is (F32.fin s₁ m₁ h₁) (F32.sval s₁ m₁))
      (⟨_, _, _, rfl, rfl⟩ : F32.Is (F32.fin s₂ m₂ h₂) (F32.sval s₂ m₂)) (by rw [e, sub_self]; exact representable_zero)
    obtain ⟨s, m, hm, e', _⟩ := hz
    rw [e'] at h
    exact absurd h (by simp [FloatExtra.isInfinite])

theorem ofMag_shape (x : ℝ) (hx : 0 ≤ x) : F32.ofMag false x hx = .inf false ∨ ∃ m g, F32.ofMag false x hx = .fin false m g := by
  by_cases h : rnd x < (2 : ℝ) ^ (128 : ℤ)
  · exact Or.inr ⟨rnd x, _, dif_pos h⟩
  · exact Or.inl (dif_neg h)

/-- a number that is not NaN has a square that is not NaN, not `-∞` and not negative -/
theorem sq_shape {x : F32} (h : x ≠ .nan) : x * x = .inf false ∨ ∃ m g, x * x = .fin false m g := by
  rcases x with _ | s | ⟨s, m, g⟩
  · exact absurd rfl h
  · left; show F32.inf (s ^^ s) = _; simp
  · have e : F32.fin s m g * F32.fin s m g = F32.ofMag (s ^^ s) (m * m) (mul_nonneg g.1 g.1) := rfl
    rw [e, Bool.xor_self]
    exact ofMag_shape _ _

theorem inf_add_shape {y : F32} (h : y = .inf false ∨ ∃ m g, y = .fin false m g) :
    F32.inf false + y = .inf false ∧ y + F32.inf false = .inf false := by
  rcases h with rfl | ⟨m, g, rfl⟩
  · exact ⟨rfl, rfl⟩
  · exact ⟨rfl, rfl⟩

theorem add_shape {x y : F32} (h : x = .inf false ∨ ∃ m g, x = .fin false m g)
    (h' : y = .inf false ∨ ∃ m g, y = .fin false m g) : x + y = .inf false ∨ ∃ m g, x + y = .fin false m g := by
  rcases h with rfl | ⟨m, g, rfl⟩
  · exact Or.inl (inf_add_shape h').1
  rcases h' with rfl | ⟨m', g', rfl⟩
  · exact Or.inl rfl
  have e : F32.fin false m g + F32.fin false m' g' = F32.ofReal false (m + m') := rfl
  rw [e]
  unfold F32.ofReal
  split
  · exact Or.inr ⟨0, ⟨le_refl 0, representable_zero⟩, rfl⟩
  · rw [decide_eq_false (not_lt.2 (add_nonneg g.1 g'.1))]
    exact ofMag_shape _ _

theorem inf_sq (s : Bool) : F32.inf s * F32.inf s = .inf false := by show F32.inf (s ^^ s) = _; simp

theorem feq_inf_zero (s : Bool) : FloatExtra.feq (F32.inf s) 0 = false := by
  refine decide_eq_false ?_
  obtain ⟨t, m, g, e, _⟩ := is_zero
  rw [e]; exact fun h => h

theorem fmax_inf (x : F32) : FloatExtra.feq (FloatExtra.fmax (F32.inf false) x) 0 = false ∧
    FloatExtra.feq (FloatExtra.fmax x (F32.inf false)) 0 = false := by
  have h0 := feq_inf_zero false
  rcases x with _ | s | ⟨s, m, g⟩
  · exact ⟨h0, h0⟩
  · constructor
    · show FloatExtra.feq (if F32.inf false < F32.inf s then F32.inf s else F32.inf false) 0 = false
      split <;> exact feq_inf_zero _
    · show FloatExtra.feq (if F32.inf s < F32.inf false then F32.inf false else F32.inf s) 0 = false
      split <;> exact feq_inf_zero _
  · constructor
    · show FloatExtra.feq (if F32.inf false < F32.fin s m g then F32.fin s m g else F32.inf false) 0 = false
      rw [if_neg (fun h => by cases (h : false = true))]; exact h0
    · show FloatExtra.feq (if F32.fin s m g < F32.inf false then F32.inf false else F32.fin s m g) 0 = false
      rw [if_pos (show F32.fin s m g < F32.inf false from (rfl : false = false))]; exact h0

/-- an infinite operand makes the difference NaN or infinite -/
theorem inf_sub_shape (s : Bool) (y : F32) : (FloatExtra.isNan (F32.inf s - y) = true ∨ FloatExtra.isInfinite (F32.inf s - y) = true) ∧
    (FloatExtra.isNan (y - F32.inf s) = true ∨ FloatExtra.isInfinite (y - F32.inf s) = true) := by
  rcases y with _ | t | ⟨t, m, g⟩
  · exact ⟨Or.inl rfl, Or.inl rfl⟩
  · constructor
    · show FloatExtra.isNan (if s = !t then F32.inf s else F32.nan) = true ∨
        FloatExtra.isInfinite (if s = !t then F32.inf s else F32.nan) = true
      split
      · exact Or.inr rfl
      · exact Or.inl rfl
    · show FloatExtra.isNan (if t = !s then F32.inf t else F32.nan) = true ∨
        FloatExtra.isInfinite (if t = !s then F32.inf t else F32.nan) = true
      split
      · exact Or.inr rfl
      · exact Or.inl rfl
  · exact ⟨Or.inr rfl, Or.inr rfl⟩

/-- Finding: a vector with an infinite component (and none that is NaN) is approximately equal to nothing, in
particular not to itself, in either order and for every tolerance. -/
theorem C61_f32_infinity_finding (a b : V2 F32) (tol : F32) (hx : a.x ≠ .nan) (hy : a.y ≠ .nan)
    (h : (∃ s, a.x = .inf s) ∨ ∃ s, a.y = .inf s) :
    approxEqTolV2 a b tol = false ∧ approxEqTolV2 b a tol = false ∧ approxEqTolV2 a a tol = false := by
  have hl : V2.lengthSq a = .inf false := by
    show a.x * a.x + a.y * a.y = _
    rcases h with ⟨s, h⟩ | ⟨s, h⟩
    · rw [h, inf_sq]; exact (inf_add_shape (sq_shape hy)).1
    · rw [h, inf_sq]; exact (inf_add_shape (sq_shape hx)).2
  have key : ∀ u v : V2 F32, (u = a ∨ v = a) → approxEqTolV2 u v tol = false := by
    intro u v huv
    have hm : FloatExtra.feq (FloatExtra.fmax (V2.lengthSq u) (V2.lengthSq v)) 0 = false := by
      rcases huv with rfl | rfl
      · rw [hl]; exact (fmax_inf _).1
      · rw [hl]; exact (fmax_inf _).2
    have he : (FloatExtra.isNan (u.x - v.x) = true ∨ FloatExtra.isInfinite (u.x - v.x) = true) ∨
        FloatExtra.isNan (u.y - v.y) = true ∨ FloatExtra.isInfinite (u.y - v.y) = true := by
      rcases huv with rfl | rfl <;> rcases h with ⟨s, h⟩ | ⟨s, h⟩ <;> rw [h]
      · exact Or.inl (inf_sub_shape _ _).1
      · exact Or.inr (inf_sub_shape _ _).1
      · exact Or.inl (inf_sub_shape _ _).2
      · exact Or.inr (inf_sub_shape _ _).2
    unfold approxEqTolV2
    simp only [hm, Bool.false_eq_true, if_false]
    show (if (FloatExtra.isNan (u.x - v.x) || FloatExtra.isNan (u.y - v.y)) = true then false
      else if (FloatExtra.isInfinite (u.x - v.x) || FloatExtra.isInfinite (u.y - v.y)) = true then
        (FloatExtra.feq u.x v.x && FloatExtra.feq u.y v.y) else _) = false
    split
    · rfl
    rename_i hn
    rw [Bool.or_eq_true] at hn
    rw [if_pos (by rw [Bool.or_eq_true]; tauto)]
    have : FloatExtra.isInfinite (u.x - v.x) = true ∨ FloatExtra.isInfinite (u.y - v.y) = true := by tauto
    rcases this with h | h <;> rw [inf_error h] <;> simp
  exact ⟨key _ _ (Or.inl rfl), key _ _ (Or.inr rfl), key _ _ (Or.inl rfl)⟩

/-- the same for three components -/
theorem C61_f32_infinity_v3_finding (a b : V3 F32) (tol : F32) (hx : a.x ≠ .nan) (hy : a.y ≠ .nan) (hz : a.z ≠ .nan)
    (h : (∃ s, a.x = .inf s) ∨ (∃ s, a.y = .inf s) ∨ ∃ s, a.z = .inf s) :
    approxEqTolV3 a b tol = false ∧ approxEqTolV3 b a tol = false ∧ approxEqTolV3 a a tol = false := by
  have hl : V3.lengthSq a = .inf false := by
    show a.x * a.x + a.y * a.y + a.z * a.z = _
    rcases h with ⟨s, h⟩ | ⟨s, h⟩ | ⟨s, h⟩
    · rw [h, inf_sq, (inf_add_shape (sq_shape hy)).1]; exact (inf_add_shape (sq_shape hz)).1
    · rw [h, inf_sq, (inf_add_shape (sq_shape hx)).2]; exact (inf_add_shape (sq_shape hz)).1
    · rw [h, inf_sq]; exact (inf_add_shape (add_shape (sq_shape hx) (sq_shape hy))).2
  have key : ∀ u v : V3 F32, (u = a ∨ v = a) → approxEqTolV3 u v tol = false := by
    intro u v huv
    have hm : FloatExtra.feq (FloatExtra.fmax (V3.lengthSq u) (V3.lengthSq v)) 0 = false := by
      rcases huv with rfl | rfl
      · rw [hl]; exact (fmax_inf _).1
      · rw [hl]; exact (fmax_inf _).2
    have he : (FloatExtra.isNan (u.x - v.x) = true ∨ FloatExtra.isInfinite (u.x - v.x) = true) ∨
        (FloatExtra.isNan (u.y - v.y) = true ∨ FloatExtra.isInfinite (u.y - v.y) = true) ∨
        FloatExtra.isNan (u.z - v.z) = true ∨ FloatExtra.isInfinite (u.z - v.z) = true := by
      rcases huv with rfl | rfl <;> rcases h with ⟨s, h⟩ | ⟨s, h⟩ | ⟨s, h⟩ <;> rw [h]
      · exact Or.inl (inf_sub_shape _ _).1
      · exact Or.inr (Or.inl (inf_sub_shape _ _).1)
      · exact Or.inr (Or.inr (inf_sub_shape _ _).1)
      · exact Or.inl (inf_sub_shape _ _).2
      · exact Or.inr (Or.inl (inf_sub_shape _ _).2)
      · exact Or.inr (Or.inr (inf_sub_shape _ _).2)
    unfold approxEqTolV3
    simp only [hm, Bool.false_eq_true, if_false]
    show (if (FloatExtra.isNan (u.x - v.x) || FloatExtra.isNan (u.y - v.y) || FloatExtra.isNan (u.z - v.z)) = true then false
      else if (FloatExtra.isInfinite (u.x - v.x) || FloatExtra.isInfinite (u.y - v.y) || FloatExtra.isInfinite (u.z - v.z)) = true then
        (FloatExtra.feq u.x v.x && FloatExtra.feq u.y v.y && FloatExtra.feq u.z v.z) else _) = false
    split
    · rfl
    rename_i hn
    rw [Bool.or_eq_true, Bool.or_eq_true] at hn
    rw [if_pos (by rw [Bool.or_eq_true, Bool.or_eq_true]; tauto)]
    have : FloatExtra.isInfinite (u.x - v.x) = true ∨ FloatExtra.isInfinite (u.y - v.y) = true ∨
        FloatExtra.isInfinite (u.z - v.z) = true := by tauto
    rcases this with h | h | h <;> rw [inf_error h] <;> simp
  exact ⟨key _ _ (Or.inl rfl), key _ _ (Or.inr rfl), key _ _ (Or.inl rfl)⟩

example : ∃ a : V3 F32, a.x = .inf true ∧ a.y ≠ .nan ∧ a.z ≠ .nan ∧ approxEqTolV3 a a 1 = false :=
  ⟨⟨.inf true, 1, 0⟩, rfl, by obtain ⟨s, m, h, e, _⟩ := is_one; rw [e]; simp, by obtain ⟨s, m, h, e, _⟩ := is_zero; rw [e]; simp,
    (C61_f32_infinity_v3_finding ⟨.inf true, 1, 0⟩ 0 1 (by simp) (by obtain ⟨s, m, h, e, _⟩ := is_one; rw [e]; simp)
      (by obtain ⟨s, m, h, e, _⟩ := is_zero; rw [e]; simp) (Or.inl ⟨true, rfl⟩)).2.2⟩

/-- Finding: with rounding `lerp(a, b, 1)` need not be `b`: `lerp(-1, 2^-30, 1) = 0`. -/
theorem C62_f32_lerp_finding :
    ∃ a b : F32, F32.Is a (-1) ∧ F32.Is b ((2 : ℝ) ^ (-30 : ℤ)) ∧ F32.Is (lerp a b 1) 0 := by
  have r1 : Representable (-1) := by simpa using representable_int (-1) (by norm_num)
  have r2 : Representable ((2 : ℝ) ^ (-30 : ℤ)) :=
    ⟨1, -30, by simp, by norm_num, by norm_num, by norm_num⟩
  have ha : F32.Is (F32.ofReal false (-1)) (-1) := is_ofReal r1
  have hb : F32.Is (F32.ofReal false ((2 : ℝ) ^ (-30 : ℤ))) ((2 : ℝ) ^ (-30 : ℤ)) := is_ofReal r2
  refine ⟨_, _, ha, hb, ?_⟩
  have hrnd : rnd |(2 : ℝ) ^ (-30 : ℤ) - -1| = 1 := by
    have e : |(2 : ℝ) ^ (-30 : ℤ) - -1| = 1 + (2 : ℝ) ^ (-30 : ℤ) := by
      rw [abs_of_pos (by norm_num)]; ring
    rw [e]
    have hlog : Int.log 2 (1 + (2 : ℝ) ^ (-30 : ℤ)) = 0 := by
      have hp : (0 : ℝ) < 1 + (2 : ℝ) ^ (-30 : ℤ) := by norm_num
      have h1 := (log_bounds hp).1
      have h2 := (log_bounds hp).2
      have k1 : (2 : ℝ) ^ Int.log 2 (1 + (2 : ℝ) ^ (-30 : ℤ)) < (2 : ℝ) ^ (1 : ℤ) :=
        h1.trans_lt (by norm_num)
      have k2 : (2 : ℝ) ^ (0 : ℤ) < (2 : ℝ) ^ (Int.log 2 (1 + (2 : ℝ) ^ (-30 : ℤ)) + 1) :=
        lt_trans (by norm_num) h2
      have := (zpow_lt_zpow_iff_right₀ (by norm_num : (1 : ℝ) < 2)).1 k1
      have := (zpow_lt_zpow_iff_right₀ (by norm_num : (1 : ℝ) < 2)).1 k2
      omega
    have hulp : ulpExp (1 + (2 : ℝ) ^ (-30 : ℤ)) = -23 := by
      unfold ulpExp; rw [hlog]; norm_num
    unfold rnd
    rw [hulp]
    have hq : (1 + (2 : ℝ) ^ (-30 : ℤ)) / (2 : ℝ) ^ (-23 : ℤ) = 2 ^ 23 + 1 / 2 ^ 7 := by norm_num
    have hre : roundEven (2 ^ 23 + 1 / 2 ^ 7) = 2 ^ 23 := by
      have h1 := roundEven_le_add (2 ^ 23 + 1 / 2 ^ 7)
      have h2 := sub_le_roundEven (2 ^ 23 + 1 / 2 ^ 7)
      have h3 : (roundEven (2 ^ 23 + 1 / 2 ^ 7) : ℝ) < ((2 ^ 23 + 1 : ℤ) : ℝ) := by
        refine h1.trans_lt ?_; push_cast; norm_num
      have h4 : ((2 ^ 23 - 1 : ℤ) : ℝ) < (roundEven (2 ^ 23 + 1 / 2 ^ 7) : ℝ) := by
        refine lt_of_lt_of_le ?_ h2; push_cast; norm_num
      have h5 : roundEven (2 ^ 23 + 1 / 2 ^ 7) < 2 ^ 23 + 1 := by exact_mod_cast h3
      have h6 : 2 ^ 23 - 1 < roundEven (2 ^ 23 + 1 / 2 ^ 7) := by exact_mod_cast h4
      omega
    rw [hq, hre]; push_cast; norm_num
  have hsub : F32.Is (F32.ofReal false ((2 : ℝ) ^ (-30 : ℤ)) - F32.ofReal false (-1)) 1 := by
    obtain ⟨z, e⟩ := sub_eq hb ha
    rw [e]
    rcases ofReal_cases z ((2 : ℝ) ^ (-30 : ℤ) - -1) with ⟨_, s, h, e', h2, _⟩ | ⟨h1, _, _⟩
    · refine ⟨s, _, h, e', ?_⟩
      rw [h2 (by norm_num), hrnd, decide_eq_false (by norm_num)]; rfl
    · rw [hrnd] at h1; norm_num at h1
  have hmul : F32.Is (1 * (F32.ofReal false ((2 : ℝ) ^ (-30 : ℤ)) - F32.ofReal false (-1)))
      (1 * 1) := is_mul is_one hsub (by
        rw [mul_one]; simpa using representable_int 1 (by norm_num))
  have := is_add ha hmul (by rw [mul_one, neg_add_cancel]; exact representable_zero)
  rw [mul_one, neg_add_cancel] at this
  exact this

/-- What holds with rounding: `lerp(a, b, 0) = a` for all finite `a`, `b` whose difference does not
overflow. -/
theorem C62_f32_lerp_zero (a b : F32) (x d : ℝ) (ha : F32.Is a x)
    (hd : F32.Is (b - a) d) : F32.Is (lerp a b 0) x := by
  have h0 := is_mul is_zero hd (by rw [zero_mul]; exact representable_zero)
  rw [zero_mul] at h0
  have := is_add ha h0 (by rw [add_zero]; exact ha.representable)
  rwa [add_zero] at this

/-! ## C21: Box2d v Point -/

theorem isSignNeg_abs_sub {a b : F32} {x y : ℝ} (ha : F32.Is a x) (hb : F32.Is b y) :
    FloatExtra.isSignNeg (FloatExtra.abs a - b) = decide (|x| < y) := by
  obtain ⟨s, m, hm, rfl, rfl⟩ := ha
  have e : FloatExtra.abs (F32.fin s m hm) = F32.fin false m hm := rfl
  rw [e, abs_sub_eq hm rfl hb, isSignNeg_ofReal, F32.abs_sval s hm.1]
  simp

/-- Box2d v Point on binary32: for all finite inputs the collision flag is *exactly* whether the
point is strictly inside the box — no rounding error, however close to the boundary. -/
theorem C21_f32_box_point_collides (a : Box2d F32) (pt : Point F32) (rel : V2 F32)
    (hx hy x y : ℝ) (ha : a.halfsize.IsF hx hy) (hr : rel.IsF x y) :
    ∃ c, collidesRel a pt rel = .ok c ∧ (c = true ↔ |x| < hx ∧ |y| < hy) := by
  refine ⟨(boxPoint false false a.halfsize rel).1, rfl, ?_⟩
  have h1 := isSignNeg_abs_sub hr.1 ha.1
  have h2 := isSignNeg_abs_sub hr.2 ha.2
  unfold boxPoint
  simp only [h1, h2, decide_eq_true_eq]
  by_cases hc : |x| < hx ∧ |y| < hy
  · rw [if_pos hc]; simp [hc]
  · rw [if_neg hc]; simp [hc]

/-- Finding: with a NaN coordinate the answer is whatever the sign bit of the NaN is. -/
theorem C21_f32_nan_finding (a : Box2d F32) (pt : Point F32) :
    collidesRel a pt (⟨F32.nan, F32.nan⟩ : V2 F32) = .ok env.nanSign := by
  have h : (boxPoint false false a.halfsize (⟨F32.nan, F32.nan⟩ : V2 F32)).1 = env.nanSign := by
    unfold boxPoint
    have e1 : FloatExtra.abs (F32.nan) = F32.nan := rfl
    simp only [e1, nan_sub]
    have e2 : FloatExtra.isSignNeg F32.nan = env.nanSign := rfl
    simp only [e2, and_self]
    cases env.nanSign <;> rfl
  show Except.ok (boxPoint false false a.halfsize (⟨F32.nan, F32.nan⟩ : V2 F32)).1 = _
  rw [h]

/-! ## C24: Point v Point -/

/-- Points collide on binary32 exactly if the offset is zero (of either sign). -/
theorem C24_f32_point_point (a b : Point F32) (rel : V2 F32) (x y : ℝ) (hr : rel.IsF x y) :
    ∃ c, collidesRel a b rel = .ok c ∧ (c = true ↔ x = 0 ∧ y = 0) := by
  refine ⟨_, rfl, ?_⟩
  show (decide (F32.eq rel.x 0) && decide (F32.eq rel.y 0)) = true ↔ _
  rw [Bool.and_eq_true, decide_eq_true_eq, decide_eq_true_eq, F32.eq_iff hr.1 is_zero,
    F32.eq_iff hr.2 is_zero]

/-! ## C12, C13: bounding boxes -/

theorem is_abs {a : F32} {x : ℝ} (h : F32.Is a x) :
    F32.Is (FloatExtra.abs a) |x| := by
  obtain ⟨s, m, hm, rfl, rfl⟩ := h
  exact ⟨false, m, hm, rfl, by rw [F32.abs_sval s hm.1]; rfl⟩

theorem is_fmax {a b : F32} {x y : ℝ} (ha : F32.Is a x) (hb : F32.Is b y) :
    F32.Is (FloatExtra.fmax a b) (max x y) := by
  have hl := lt_iff ha hb
  obtain ⟨s, m, hm, rfl, rfl⟩ := ha
  obtain ⟨t, n, hn, rfl, rfl⟩ := hb
  show F32.Is (if F32.fin s m hm < F32.fin t n hn then F32.fin t n hn else F32.fin s m hm) _
  by_cases h : sval s m < sval t n
  · rw [if_pos (hl.2 h), max_eq_right h.le]; exact ⟨_, _, _, rfl, rfl⟩
  · rw [if_neg (fun h' => h (hl.1 h')), max_eq_left (not_lt.1 h)]; exact ⟨_, _, _, rfl, rfl⟩

/-- `cover` is computed without rounding. -/
theorem C13_f32_cover (b : Box2d F32) (p : V2 F32) (hx hy x y : ℝ) (hb : b.halfsize.IsF hx hy)
    (hp : p.IsF x y) :
    (b.cover p).halfsize.IsF (max hx |x|) (max hy |y|) :=
  ⟨is_fmax hb.1 (is_abs hp.1), is_fmax hb.2 (is_abs hp.2)⟩

/-- `Poly2d::symmetric_bounding_box` is computed without rounding: for finite vertices the result is
finite, contains every vertex, and every centred box containing the vertices contains it. -/
theorem C12_f32_bounding_box_poly (s : Poly2d F32)
    (hs : ∀ p ∈ s.points, ∃ x y, p.IsF x y) :
    ∃ hx hy, s.boundingBox.halfsize.IsF hx hy ∧ 0 ≤ hx ∧ 0 ≤ hy ∧
      (∀ p ∈ s.points, ∀ x y, p.IsF x y → |x| ≤ hx ∧ |y| ≤ hy) ∧
      ∀ kx ky, 0 ≤ kx → 0 ≤ ky →
        (∀ p ∈ s.points, ∀ x y, p.IsF x y → |x| ≤ kx ∧ |y| ≤ ky) → hx ≤ kx ∧ hy ≤ ky := by
  have key : ∀ (l : List (V2 F32)) (b : Box2d F32) (hx hy : ℝ), b.halfsize.IsF hx hy →
      (∀ p ∈ l, ∃ x y, p.IsF x y) →
      ∃ hx' hy', (l.foldl Box2d.cover b).halfsize.IsF hx' hy' ∧ hx ≤ hx' ∧ hy ≤ hy' ∧
        (∀ p ∈ l, ∀ x y, p.IsF x y → |x| ≤ hx' ∧ |y| ≤ hy') ∧
        ∀ kx ky, hx ≤ kx → hy ≤ ky → (∀ p ∈ l, ∀ x y, p.IsF x y → |x| ≤ kx ∧ |y| ≤ ky) →
          hx' ≤ kx ∧ hy' ≤ ky := by
    intro l
    induction l with
    | nil => intro b hx hy hb _; exact ⟨hx, hy, hb, le_refl _, le_refl _, by simp, by simp_all⟩
    | cons p l ih =>
      intro b hx hy hb hl
      obtain ⟨x, y, hp⟩ := hl p (by simp)
      have hc := C13_f32_cover b p hx hy x y hb hp
      obtain ⟨hx', hy', h1, h2, h3, h4, h5⟩ := ih _ _ _ hc (fun q hq => hl q (by simp [hq]))
      refine ⟨hx', hy', h1, (le_max_left _ _).trans h2, (le_max_left _ _).trans h3, ?_, ?_⟩
      · intro q hq x' y' hq'
        rcases List.mem_cons.1 hq with rfl | hq
        · rw [hq'.1.unique hp.1, hq'.2.unique hp.2]
          exact ⟨(le_max_right _ _).trans h2, (le_max_right _ _).trans h3⟩
        · exact h4 q hq x' y' hq'
      · intro kx ky hk1 hk2 hk
        have hpk := hk p (by simp) x y hp
        exact h5 kx ky (max_le hk1 hpk.1) (max_le hk2 hpk.2)
          (fun q hq => hk q (by simp [hq]))
  obtain ⟨hx, hy, h1, h2, h3, h4, h5⟩ := key s.points ⟨⟨0, 0⟩⟩ 0 0 ⟨is_zero, is_zero⟩ hs
  exact ⟨hx, hy, h1, h2, h3, h4, h5⟩

/-! ## C10: Poly2d extreme points -/

theorem F32.lt_trans {a b c : F32} (h1 : a < b) (h2 : b < c) : a < c := by
  rcases a with _ | s | ⟨s, m, hm⟩ <;> rcases b with _ | t | ⟨t, n, hn⟩ <;>
    rcases c with _ | r | ⟨r, k, hk⟩
  all_goals first
    | exact h1.elim
    | exact h2.elim
    | skip
  · exact ⟨h1.1, h2.2⟩
  · exact h1.1
  · exact ⟨h1, h2⟩
  · exact h1
  · exact h2.2
  · have h2' : t = true := h2
    have h1' : t = false := h1
    rw [h1'] at h2'; exact absurd h2' (by simp)
  · exact h2
  · exact _root_.lt_trans (a := sval s m) (b := sval t n) (c := sval r k) h1 h2

/-- On binary32, with any rounding, overflow or NaN in the scores, no vertex of the polygon has a
*computed* score greater than that of the returned point; if the returned point is not a vertex then
no vertex' computed score exceeds `f32::MIN`. -/
theorem C10_f32_poly_extreme (s : Poly2d F32) (d : V2 F32) :
    (extremePoint s d ∈ s.points ∧ ∀ q ∈ s.points, ¬ d.dot (extremePoint s d) < d.dot q) ∨
    (extremePoint s d = 0 ∧ ∀ q ∈ s.points, ¬ FloatExtra.f32Min < d.dot q) := by
  have key : ∀ (l : List (V2 F32)) (acc : F32 × V2 F32),
      (l.foldl (Poly2d.extremeStep d) acc = acc ∧ ∀ q ∈ l, ¬ acc.1 < d.dot q) ∨
      ((l.foldl (Poly2d.extremeStep d) acc).2 ∈ l ∧
        (l.foldl (Poly2d.extremeStep d) acc).1 = d.dot (l.foldl (Poly2d.extremeStep d) acc).2 ∧
        acc.1 < (l.foldl (Poly2d.extremeStep d) acc).1 ∧
        ∀ q ∈ l, ¬ (l.foldl (Poly2d.extremeStep d) acc).1 < d.dot q) := by
    intro l
    induction l with
    | nil => intro acc; exact Or.inl ⟨rfl, by simp⟩
    | cons p l ih =>
      intro acc
      rw [List.foldl_cons]
      by_cases hs : d.dot p > acc.1
      · have e : Poly2d.extremeStep d acc p = (d.dot p, p) := by simp [Poly2d.extremeStep, hs]
        rw [e]
        refine Or.inr ?_
        rcases ih (d.dot p, p) with ⟨h1, h2⟩ | ⟨h1, h2, h3, h4⟩
        · rw [h1]
          refine ⟨by simp, rfl, hs, ?_⟩
          intro q hq
          rcases List.mem_cons.1 hq with rfl | hq
          · intro hlt
            have := F32.lt_trans hs hlt
            rcases hd : d.dot q with _ | t | ⟨t, n, hn⟩ <;> simp only [hd] at hlt
            · exact hlt
            · have := hlt.1.symm.trans hlt.2
              exact absurd this (by simp)
            · exact _root_.lt_irrefl (sval t n) hlt
          · exact h2 q hq
        · refine ⟨List.mem_cons_of_mem _ h1, h2, F32.lt_trans hs h3, ?_⟩
          intro q hq
          rcases List.mem_cons.1 hq with rfl | hq
          · intro hlt
            have := F32.lt_trans h3 hlt
            simp only at this
            rcases hd : d.dot q with _ | t | ⟨t, n, hn⟩ <;> rw [hd] at this
            · exact this
            · have := this.1.symm.trans this.2
              exact absurd this (by simp)
            · exact _root_.lt_irrefl (sval t n) this
          · exact h4 q hq
      · have e : Poly2d.extremeStep d acc p = acc := by simp [Poly2d.extremeStep, hs]
        rw [e]
        rcases ih acc with ⟨h1, h2⟩ | ⟨h1, h2, h3, h4⟩
        · refine Or.inl ⟨h1, ?_⟩
          intro q hq
          rcases List.mem_cons.1 hq with rfl | hq
          · exact hs
          · exact h2 q hq
        · refine Or.inr ⟨List.mem_cons_of_mem _ h1, h2, h3, ?_⟩
          intro q hq
          rcases List.mem_cons.1 hq with rfl | hq
          · intro hlt; exact hs (F32.lt_trans h3 hlt)
          · exact h4 q hq
  rcases key s.points (FloatExtra.f32Min, 0) with ⟨h1, h2⟩ | ⟨h1, h2, h3, h4⟩
  · refine Or.inr ⟨?_, h2⟩
    show (s.points.foldl (Poly2d.extremeStep d) (FloatExtra.f32Min, 0)).2 = 0
    rw [h1]
  · refine Or.inl ⟨h1, ?_⟩
    intro q hq
    show ¬ d.dot (s.points.foldl (Poly2d.extremeStep d) (FloatExtra.f32Min, 0)).2 < _
    rw [← h2]
    exact h4 q hq

end

/-! ## Non-vacuity -/

/-- finite values exist in abundance: every integer up to 2^24 -/
theorem is_int (n : ℤ) (h : |n| ≤ 2 ^ 24) : F32.Is (F32.ofReal false n) n :=
  is_ofReal (representable_int n h)

/-- a point one half unit in the last place inside: box (1,1), point `(1 - 2^-24, 0)` -/
example [F32Env] :
    collidesRel (⟨⟨1, 1⟩⟩ : Box2d F32) (Point.mk : Point F32)
      (⟨F32.ofReal false (1 - (2 : ℝ) ^ (-24 : ℤ)), 0⟩ : V2 F32) = .ok true := by
  have hr : Representable (1 - (2 : ℝ) ^ (-24 : ℤ)) :=
    ⟨2 ^ 24 - 1, -24, by push_cast; norm_num, by norm_num, by norm_num, by norm_num⟩
  obtain ⟨c, h1, h2⟩ := C21_f32_box_point_collides (⟨⟨1, 1⟩⟩ : Box2d F32) Point.mk
    ⟨F32.ofReal false (1 - (2 : ℝ) ^ (-24 : ℤ)), 0⟩ 1 1 _ 0 ⟨is_one, is_one⟩ ⟨is_ofReal hr, is_zero⟩
  rw [h1, h2.2]
  rw [abs_of_pos (by norm_num), abs_zero]
  norm_num

end Auburn
