import Verif.Ieee.Rep

/-!
# Special values of the binary32 model

The rules of IEEE-754 for NaN, infinities and signed zeros, each stated for all operands.  With
`Ieee/Nearest` (every finite result is the nearest binary32 number, ties to even) they determine the
arithmetic; nothing here is about the crate.
-/

set_option linter.unusedSectionVars false

namespace Auburn

namespace F32

/-- an infinity of either sign -/
def Inf' (a : F32) : Prop := ∃ s, a = inf s

/-- NaN is contagious -/
theorem special_nan (a : F32) : a + nan = nan ∧ nan + a = nan ∧ a * nan = nan ∧ nan * a = nan ∧
    a / nan = nan ∧ nan / a = nan ∧ a - nan = nan ∧ nan - a = nan ∧ -nan = nan ∧ sqrt nan = nan := by
  refine ⟨?_, rfl, ?_, rfl, ?_, rfl, ?_, rfl, rfl, rfl⟩ <;> cases a <;> rfl

theorem special_mul_comm (a b : F32) : a * b = b * a := by
  rcases a with _ | s | ⟨s, x, hx⟩ <;> rcases b with _ | t | ⟨t, y, hy⟩ <;> first | rfl | skip
  · show inf (s ^^ t) = inf (t ^^ s)
    rw [Bool.xor_comm]
  · show (open Classical in if y = 0 then nan else inf (s ^^ t)) = (open Classical in if y = 0 then nan else inf (t ^^ s))
    rw [Bool.xor_comm]
  · show (open Classical in if x = 0 then nan else inf (s ^^ t)) = (open Classical in if x = 0 then nan else inf (t ^^ s))
    rw [Bool.xor_comm]
  · show ofMag (s ^^ t) (x * y) (mul_nonneg hx.1 hy.1) = ofMag (t ^^ s) (y * x) (mul_nonneg hy.1 hx.1)
    congr 1
    · rw [Bool.xor_comm]
    · rw [mul_comm]

theorem special_add_comm (a b : F32) : a + b = b + a := by
  rcases a with _ | s | ⟨s, x, hx⟩ <;> rcases b with _ | t | ⟨t, y, hy⟩ <;> first | rfl | skip
  · cases s <;> cases t <;> rfl
  · show ofReal (s && t) (sval s x + sval t y) = ofReal (t && s) (sval t y + sval s x)
    rw [Bool.and_comm, add_comm]

theorem is_fin {s : Bool} {m : ℝ} {h : 0 ≤ m ∧ Representable m} {x : ℝ} (hx : Is (fin s m h) x) : sval s m = x := by
  obtain ⟨s', m', h', e, hs⟩ := hx
  cases e; exact hs

/-- zero times infinity -/
theorem special_zero_mul_inf (a : F32) (ha : Is a 0) (t : Bool) : a * inf t = nan ∧ inf t * a = nan := by
  have h : a * inf t = nan := by
    rcases a with _ | s | ⟨s, x, hx⟩
    · rfl
    · obtain ⟨_, _, _, e, _⟩ := ha; cases e
    · have hs := is_fin ha
      have x0 : x = 0 := by cases s <;> simpa using hs
      show (open Classical in if x = 0 then nan else inf (s ^^ t)) = nan
      rw [if_pos x0]
  exact ⟨h, by rw [special_mul_comm, h]⟩

/-- a nonzero finite number times infinity: the infinity with the sign of the product -/
theorem special_mul_inf (a : F32) {x : ℝ} (ha : Is a x) (hx : x ≠ 0) (t : Bool) :
    a * inf t = inf (xor (decide (x < 0)) t) ∧ inf t * a = inf (xor (decide (x < 0)) t) := by
  have h : a * inf t = inf (xor (decide (x < 0)) t) := by
    obtain ⟨s, m, hm, rfl, rfl⟩ := ha
    have m0 : m ≠ 0 := by rintro rfl; cases s <;> simp at hx
    have mp := lt_of_le_of_ne hm.1 (Ne.symm m0)
    show (open Classical in if m = 0 then nan else inf (s ^^ t)) = _
    rw [if_neg m0]
    cases s
    · have : ¬ sval false m < 0 := by simp; exact mp.le
      rw [decide_eq_false this]
    · have : sval true m < 0 := by simp; exact mp
      rw [decide_eq_true this]
  exact ⟨h, by rw [special_mul_comm, h]⟩

/-- infinities among themselves -/
theorem special_inf (s t : Bool) : inf s * inf t = inf (xor s t) ∧ inf s / inf t = nan ∧
    inf s + inf s = inf s ∧ inf s - inf s = nan ∧ inf s + inf (!s) = nan ∧ -inf s = inf (!s) ∧
    sqrt (inf false) = inf false ∧ sqrt (inf true) = nan := by
  refine ⟨rfl, rfl, ?_, ?_, ?_, rfl, rfl, rfl⟩ <;> cases s <;> rfl

/-- infinity and a finite number -/
theorem special_inf_fin (a : F32) {x : ℝ} (ha : Is a x) (s : Bool) : inf s + a = inf s ∧ a + inf s = inf s ∧
    inf s - a = inf s ∧ a - inf s = inf (!s) ∧ Is (a / inf s) 0 ∧ Inf' (inf s / a) := by
  obtain ⟨t, m, hm, rfl, rfl⟩ := ha
  refine ⟨rfl, rfl, rfl, rfl, ?_, _, rfl⟩
  have h := is_ofMag (s := t ^^ s) (le_refl 0) representable_zero
  have e : sval (t ^^ s) 0 = 0 := by cases t <;> cases s <;> simp
  rw [e] at h
  exact h

/-- division by zero -/
theorem special_div_zero (a b : F32) {x : ℝ} (ha : Is a x) (hb : Is b 0) :
    (x = 0 → a / b = nan) ∧ (x ≠ 0 → Inf' (a / b)) := by
  obtain ⟨s, m, hm, rfl, rfl⟩ := ha
  obtain ⟨t, n, hn, rfl, hn0⟩ := hb
  have n0 : n = 0 := by cases t <;> simpa using hn0
  have e : fin s m hm / fin t n hn = (open Classical in if m = 0 then nan else inf (s ^^ t)) := by
    show (open Classical in if n = 0 then (if m = 0 then nan else inf (s ^^ t)) else _) = _
    rw [if_pos n0]
  rw [e]
  constructor
  · intro h
    have : m = 0 := by cases s <;> simpa using h
    rw [if_pos this]
  · intro h
    have : m ≠ 0 := by rintro rfl; cases s <;> simp at h
    rw [if_neg this]; exact ⟨_, rfl⟩

/-- the square root of a negative number -/
theorem special_sqrt_neg (a : F32) {x : ℝ} (ha : Is a x) (hx : x < 0) : sqrt a = nan := by
  obtain ⟨s, m, hm, rfl, rfl⟩ := ha
  have hs : s = true := by cases s; · simp at hx; linarith [hm.1]
                           · rfl
  subst hs
  have m0 : m ≠ 0 := by rintro rfl; simp at hx
  show (open Classical in if m = 0 then _ else nan) = nan
  rw [if_neg m0]

/-- opposite numbers add up to positive zero -/
theorem special_zero_sum (a b : F32) {x : ℝ} (ha : Is a x) (hb : Is b (-x)) (hx : x ≠ 0) :
    a + b = 0 := by
  obtain ⟨s, m, hm, rfl, rfl⟩ := ha
  obtain ⟨t, n, hn, rfl, h⟩ := hb
  have hst : (s && t) = false := by
    cases s <;> cases t <;> simp at *
    have h1 := hm.1
    have h2 := hn.1
    apply hx; linarith
  show ofReal (s && t) (sval s m + sval t n) = ofReal false 0
  rw [hst, h, add_neg_cancel]

/-- comparison with NaN and infinities -/
theorem special_cmp (a : F32) : ¬ a < nan ∧ ¬ nan < a ∧ ¬ a ≤ nan ∧ ¬ nan ≤ a ∧ ¬ F32.eq nan a ∧ ¬ F32.eq a nan ∧
    ¬ a < inf true ∧ ¬ inf false < a := by
  refine ⟨?_, id, ?_, ?_, ?_, ?_, ?_, ?_⟩ <;> rcases a with _ | s | ⟨s, x, hx⟩ <;>
    first
      | exact id
      | exact fun h => h.elim id id
      | (intro h; exact absurd h.1 (by decide))
      | (intro h; exact absurd h.2 (by decide))
      | (intro h; exact Bool.noConfusion h)

theorem special_cmp_fin (a : F32) {x : ℝ} (ha : Is a x) : a < inf false ∧ inf true < a ∧ inf true < inf false ∧
    ¬ inf false < a ∧ ¬ a < inf true ∧ ¬ F32.eq a (inf true) ∧ ¬ F32.eq (inf false) a := by
  obtain ⟨t, m, hm, rfl, rfl⟩ := ha
  refine ⟨rfl, rfl, ⟨rfl, rfl⟩, ?_, ?_, id, id⟩ <;> exact fun h => Bool.noConfusion h

section
variable [env : F32Env]

/-- `max` and `min` ignore a NaN -/
theorem special_max_nan (a : F32) : FloatExtra.fmax nan a = a ∧ FloatExtra.fmax a nan = a ∧
    FloatExtra.fmin nan a = a ∧ FloatExtra.fmin a nan = a := by
  refine ⟨rfl, ?_, rfl, ?_⟩ <;> cases a <;> rfl

/-- `max` and `min` of finite numbers -/
theorem special_max (a b : F32) {x y : ℝ} (ha : Is a x) (hb : Is b y) :
    Is (FloatExtra.fmax a b) (max x y) ∧ Is (FloatExtra.fmin a b) (min x y) := by
  have e : FloatExtra.fmax a b = (if a < b then b else a) ∧ FloatExtra.fmin a b = (if b < a then b else a) := by
    obtain ⟨s, m, hm, rfl, _⟩ := ha
    obtain ⟨t, n, hn, rfl, _⟩ := hb
    exact ⟨rfl, rfl⟩
  rw [e.1, e.2]
  constructor
  · by_cases h : a < b
    · rw [if_pos h, max_eq_right ((lt_iff ha hb).1 h).le]; exact hb
    · rw [if_neg h, max_eq_left (not_lt.1 (fun h' => h ((lt_iff ha hb).2 h')))]; exact ha
  · by_cases h : b < a
    · rw [if_pos h, min_eq_right ((lt_iff hb ha).1 h).le]; exact hb
    · rw [if_neg h, min_eq_left (not_lt.1 (fun h' => h ((lt_iff hb ha).2 h')))]; exact ha

/-- `signum`, `abs` and the classification -/
theorem special_signum (s : Bool) (a : F32) {x : ℝ} (ha : Is a x) : FloatExtra.signum (inf s) = (if s then -1 else 1) ∧
    FloatExtra.signum nan = nan ∧ (0 < x → FloatExtra.signum a = 1) ∧ (x < 0 → FloatExtra.signum a = -1) ∧
    FloatExtra.abs (inf s) = inf false ∧ FloatExtra.abs nan = nan ∧ Is (FloatExtra.abs a) |x| ∧
    FloatExtra.isNan a = false ∧ FloatExtra.isNan nan = true ∧ FloatExtra.isNan (inf s) = false ∧
    FloatExtra.isFinite a = true ∧ FloatExtra.isFinite nan = false ∧ FloatExtra.isFinite (inf s) = false ∧
    FloatExtra.isInfinite a = false ∧ FloatExtra.isInfinite nan = false ∧ FloatExtra.isInfinite (inf s) = true := by
  obtain ⟨t, m, hm, rfl, rfl⟩ := ha
  refine ⟨rfl, rfl, ?_, ?_, rfl, rfl, ?_, rfl, rfl, rfl, rfl, rfl, rfl, rfl, rfl, rfl⟩
  · intro h
    cases t
    · rfl
    · simp at h; linarith [hm.1]
  · intro h
    cases t
    · simp at h; linarith [hm.1]
    · rfl
  · exact ⟨false, m, hm, rfl, by rw [abs_sval _ hm.1]; simp⟩

end

end F32

end Auburn
