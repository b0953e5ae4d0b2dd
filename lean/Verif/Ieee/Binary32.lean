import Verif.Model.Vec
import Mathlib.Data.Int.Log
import Mathlib.Analysis.Real.Sqrt
import Mathlib.Analysis.Real.Pi.Bounds

/-!
# Tier 1: IEEE-754 binary32

A value-level model of Rust's `f32`: NaN (one value; payloads are not modelled and the sign of a NaN
is a parameter), two infinities, signed zeros, subnormal and normal numbers.  Every arithmetic
operation is the exact real operation followed by rounding to nearest, ties to even, with gradual
underflow and overflow to infinity, and the IEEE rules for the signs of zeros.
Nothing here depends on the crate.
-/

set_option linter.unusedSectionVars false

namespace Auburn

/-- the finite values of binary32: `m * 2^e` with a 24 bit significand, `-149 ≤ e ≤ 104` -/
def Representable (x : ℝ) : Prop :=
  ∃ m e : ℤ, x = m * (2 : ℝ) ^ e ∧ |m| < 2 ^ 24 ∧ -149 ≤ e ∧ e ≤ 104

/-- round to the nearest integer, ties to even -/
noncomputable def roundEven (y : ℝ) : ℤ :=
  if Int.fract y < 1 / 2 then ⌊y⌋
  else if 1 / 2 < Int.fract y then ⌊y⌋ + 1
  else if Even ⌊y⌋ then ⌊y⌋ else ⌊y⌋ + 1

/-- exponent of the unit in the last place at `x > 0` (never below that of the subnormals) -/
noncomputable def ulpExp (x : ℝ) : ℤ := max (-149) (Int.log 2 x - 23)

/-- a magnitude rounded to 24 significant bits (unbounded above) -/
noncomputable def rnd (x : ℝ) : ℝ := roundEven (x / (2 : ℝ) ^ ulpExp x) * (2 : ℝ) ^ ulpExp x

/-! ## Rounding -/

theorem roundEven_intCast (n : ℤ) : roundEven (n : ℝ) = n := by
  unfold roundEven
  rw [if_pos (by rw [Int.fract_intCast]; norm_num), Int.floor_intCast]

theorem roundEven_le_add (y : ℝ) : (roundEven y : ℝ) ≤ y + 1 / 2 := by
  have h1 := Int.floor_le y
  have h2 := Int.floor_add_fract y
  unfold roundEven
  split_ifs <;> push_cast <;> linarith

theorem sub_le_roundEven (y : ℝ) : y - 1 / 2 ≤ (roundEven y : ℝ) := by
  have h1 := Int.floor_le y
  have h2 := Int.floor_add_fract y
  have h3 := Int.fract_lt_one y
  unfold roundEven
  split_ifs <;> push_cast <;> linarith

theorem roundEven_mono {x y : ℝ} (h : x ≤ y) : roundEven x ≤ roundEven y := by
  have hf := Int.floor_mono h
  rcases hf.lt_or_eq with hlt | heq
  · have h1 : roundEven x ≤ ⌊x⌋ + 1 := by unfold roundEven; split_ifs <;> omega
    have h2 : ⌊y⌋ ≤ roundEven y := by unfold roundEven; split_ifs <;> omega
    omega
  · have h1 := Int.floor_add_fract x
    have h2 := Int.floor_add_fract y
    have h3 : Int.fract x ≤ Int.fract y := by rw [heq] at h1; linarith
    unfold roundEven
    rw [heq]
    split_ifs <;> first | omega | linarith

theorem roundEven_nonneg {x : ℝ} (h : 0 ≤ x) : 0 ≤ roundEven x := by
  have := roundEven_mono h
  rwa [show (0 : ℝ) = ((0 : ℤ) : ℝ) by simp, roundEven_intCast] at this

theorem roundEven_le_int {x : ℝ} {n : ℤ} (h : x ≤ n) : roundEven x ≤ n := by
  have := roundEven_mono h
  rwa [roundEven_intCast] at this

theorem int_le_roundEven {x : ℝ} {n : ℤ} (h : (n : ℝ) ≤ x) : n ≤ roundEven x := by
  have := roundEven_mono h
  rwa [roundEven_intCast] at this

theorem two_zpow_pos (e : ℤ) : (0 : ℝ) < (2 : ℝ) ^ e := zpow_pos (by norm_num) e

theorem zpow_le_zpow {a b : ℤ} (h : a ≤ b) : (2 : ℝ) ^ a ≤ (2 : ℝ) ^ b :=
  zpow_le_zpow_right₀ (by norm_num) h

theorem log_bounds {x : ℝ} (h : 0 < x) :
    (2 : ℝ) ^ Int.log 2 x ≤ x ∧ x < (2 : ℝ) ^ (Int.log 2 x + 1) := by
  have h1 := Int.zpow_log_le_self (b := 2) (by norm_num) h
  have h2 := Int.lt_zpow_succ_log_self (b := 2) (by norm_num) x
  exact ⟨by exact_mod_cast h1, by exact_mod_cast h2⟩

theorem lt_ulp {x : ℝ} (h : 0 < x) : x < (2 : ℝ) ^ (ulpExp x + 24) := by
  refine (log_bounds h).2.trans_le (zpow_le_zpow ?_)
  have := le_max_right (-149) (Int.log 2 x - 23)
  unfold ulpExp; omega

theorem ulp_le {x : ℝ} (h : 0 < x) (hn : -149 < ulpExp x) : (2 : ℝ) ^ (ulpExp x + 23) ≤ x := by
  refine le_trans (zpow_le_zpow ?_) (log_bounds h).1
  unfold ulpExp at *
  omega

theorem neg_le_ulpExp (x : ℝ) : -149 ≤ ulpExp x := le_max_left _ _

theorem ulpExp_mono {x y : ℝ} (hx : 0 < x) (h : x ≤ y) : ulpExp x ≤ ulpExp y := by
  unfold ulpExp
  have := Int.log_mono_right (b := 2) hx h
  omega

theorem rnd_zero : rnd 0 = 0 := by
  unfold rnd
  rw [zero_div, show (0 : ℝ) = ((0 : ℤ) : ℝ) by simp, roundEven_intCast]; simp

theorem rnd_nonneg {x : ℝ} (h : 0 ≤ x) : 0 ≤ rnd x := by
  unfold rnd
  refine mul_nonneg ?_ (two_zpow_pos _).le
  exact_mod_cast roundEven_nonneg (div_nonneg h (two_zpow_pos _).le)

theorem rnd_le_ulp {x : ℝ} (h : 0 < x) : rnd x ≤ (2 : ℝ) ^ (ulpExp x + 24) := by
  have hp := two_zpow_pos (ulpExp x)
  have h1 : x / (2 : ℝ) ^ ulpExp x ≤ ((2 ^ 24 : ℤ) : ℝ) := by
    rw [div_le_iff₀ hp]
    refine (lt_ulp h).le.trans (le_of_eq ?_)
    rw [zpow_add₀ (by norm_num)]; push_cast; rw [mul_comm]; norm_num
  have h2 := roundEven_le_int h1
  unfold rnd
  rw [zpow_add₀ (by norm_num), mul_comm]
  refine mul_le_mul_of_nonneg_left ?_ hp.le
  have : (roundEven (x / (2 : ℝ) ^ ulpExp x) : ℝ) ≤ ((2 ^ 24 : ℤ) : ℝ) := by exact_mod_cast h2
  refine this.trans (le_of_eq ?_)
  push_cast; norm_num

theorem ulp_le_rnd {x : ℝ} (h : 0 < x) (hn : -149 < ulpExp x) :
    (2 : ℝ) ^ (ulpExp x + 23) ≤ rnd x := by
  have hp := two_zpow_pos (ulpExp x)
  have h1 : ((2 ^ 23 : ℤ) : ℝ) ≤ x / (2 : ℝ) ^ ulpExp x := by
    rw [le_div_iff₀ hp]
    refine le_trans (le_of_eq ?_) (ulp_le h hn)
    rw [zpow_add₀ (by norm_num)]; push_cast; rw [mul_comm]; norm_num
  have h2 := int_le_roundEven h1
  unfold rnd
  rw [zpow_add₀ (by norm_num), mul_comm]
  refine mul_le_mul_of_nonneg_right ?_ hp.le
  have : ((2 ^ 23 : ℤ) : ℝ) ≤ (roundEven (x / (2 : ℝ) ^ ulpExp x) : ℝ) := by exact_mod_cast h2
  refine le_trans (le_of_eq ?_) this
  push_cast; norm_num

/-- rounding is monotone -/
theorem rnd_mono {x y : ℝ} (hx : 0 ≤ x) (h : x ≤ y) : rnd x ≤ rnd y := by
  rcases hx.eq_or_lt with rfl | hx
  · rw [rnd_zero]; exact rnd_nonneg h
  have hy := hx.trans_le h
  rcases (ulpExp_mono hx h).lt_or_eq with hlt | heq
  · have hn : -149 < ulpExp y := lt_of_le_of_lt (neg_le_ulpExp x) hlt
    exact (rnd_le_ulp hx).trans ((zpow_le_zpow (by omega)).trans (ulp_le_rnd hy hn))
  · unfold rnd
    rw [heq]
    refine mul_le_mul_of_nonneg_right ?_ (two_zpow_pos _).le
    exact_mod_cast roundEven_mono (div_le_div_of_nonneg_right h (two_zpow_pos _).le)

/-- representable magnitudes are not changed -/
theorem rnd_of_representable {x : ℝ} (hx : 0 ≤ x) (h : Representable x) : rnd x = x := by
  rcases hx.eq_or_lt with rfl | hx
  · exact rnd_zero
  obtain ⟨m, e, hxe, hm, he1, he2⟩ := h
  have hpe := two_zpow_pos e
  have hm0 : 0 < m := by
    have : (0 : ℝ) < m := by
      by_contra hcon
      push Not at hcon
      have := mul_nonpos_of_nonpos_of_nonneg hcon hpe.le
      linarith
    exact_mod_cast this
  rw [abs_of_pos hm0] at hm
  have hE : ulpExp x ≤ e := by
    have h1 : (2 : ℝ) ^ Int.log 2 x < (2 : ℝ) ^ (e + 24) := by
      refine (log_bounds hx).1.trans_lt ?_
      rw [hxe, zpow_add₀ (by norm_num), mul_comm]
      refine mul_lt_mul_of_pos_left ?_ hpe
      have : (m : ℝ) < ((2 ^ 24 : ℤ) : ℝ) := by exact_mod_cast hm
      refine this.trans_eq ?_
      push_cast; norm_num
    have h2 := (zpow_lt_zpow_iff_right₀ (by norm_num : (1 : ℝ) < 2)).1 h1
    unfold ulpExp; omega
  obtain ⟨k, hk⟩ := Int.eq_ofNat_of_zero_le (show 0 ≤ e - ulpExp x by omega)
  have hq : x / (2 : ℝ) ^ ulpExp x = ((m * 2 ^ k : ℤ) : ℝ) := by
    rw [div_eq_iff (two_zpow_pos _).ne']
    conv_lhs => rw [hxe]
    rw [show e = (k : ℤ) + ulpExp x by omega, zpow_add₀ (by norm_num)]
    push_cast
    rw [zpow_natCast, mul_assoc]
  unfold rnd
  rw [hq, roundEven_intCast, ← hq, div_mul_cancel₀ _ (two_zpow_pos _).ne']

/-- a rounded magnitude below `2^128` is representable -/
theorem representable_rnd {x : ℝ} (hx : 0 ≤ x) (h : rnd x < (2 : ℝ) ^ (128 : ℤ)) :
    Representable (rnd x) := by
  rcases hx.eq_or_lt with rfl | hx
  · rw [rnd_zero]; exact ⟨0, 0, by simp, by norm_num, by norm_num, by norm_num⟩
  have hE := neg_le_ulpExp x
  have hle := rnd_le_ulp hx
  have hM0 := roundEven_nonneg (div_nonneg hx.le (two_zpow_pos (ulpExp x)).le)
  have hM1 : roundEven (x / (2 : ℝ) ^ ulpExp x) ≤ 2 ^ 24 := by
    refine roundEven_le_int ?_
    rw [div_le_iff₀ (two_zpow_pos _)]
    refine (lt_ulp hx).le.trans (le_of_eq ?_)
    rw [zpow_add₀ (by norm_num)]; push_cast; rw [mul_comm]; norm_num
  rcases hM1.lt_or_eq with hlt | heq
  · refine ⟨_, ulpExp x, rfl, by rw [abs_of_nonneg hM0]; exact hlt, hE, ?_⟩
    by_contra hcon
    push Not at hcon
    have h1 := ulp_le_rnd hx (by omega)
    have h2 := (zpow_lt_zpow_iff_right₀ (by norm_num : (1 : ℝ) < 2)).1 (h1.trans_lt h)
    omega
  · have hval : rnd x = ((2 ^ 23 : ℤ) : ℝ) * (2 : ℝ) ^ (ulpExp x + 1) := by
      unfold rnd
      rw [heq, zpow_add₀ (by norm_num)]; push_cast; ring
    refine ⟨2 ^ 23, ulpExp x + 1, hval, by norm_num, by omega, ?_⟩
    have h1 : (2 : ℝ) ^ (ulpExp x + 24) < (2 : ℝ) ^ (128 : ℤ) := by
      refine lt_of_eq_of_lt ?_ h
      rw [hval, show ulpExp x + 24 = 23 + (ulpExp x + 1) by ring,
        zpow_add₀ (by norm_num : (2 : ℝ) ≠ 0) 23]
      push_cast; norm_num
    have h2 := (zpow_lt_zpow_iff_right₀ (by norm_num : (1 : ℝ) < 2)).1 h1
    omega

/-- the error of rounding is at most half a unit in the last place -/
theorem abs_rnd_sub_le (x : ℝ) : |rnd x - x| ≤ 1 / 2 * (2 : ℝ) ^ ulpExp x := by
  have hp := two_zpow_pos (ulpExp x)
  have h1 := roundEven_le_add (x / (2 : ℝ) ^ ulpExp x)
  have h2 := sub_le_roundEven (x / (2 : ℝ) ^ ulpExp x)
  have e : x = x / (2 : ℝ) ^ ulpExp x * (2 : ℝ) ^ ulpExp x := by field_simp
  have e2 : rnd x - x = (roundEven (x / (2 : ℝ) ^ ulpExp x) - x / (2 : ℝ) ^ ulpExp x) *
      (2 : ℝ) ^ ulpExp x := by
    rw [sub_mul, ← e]; rfl
  rw [e2, abs_mul, abs_of_pos hp]
  refine mul_le_mul_of_nonneg_right (abs_le.2 ⟨by linarith, by linarith⟩) hp.le

/-- relative error in the normal range -/
theorem abs_rnd_sub_le_rel {x : ℝ} (hx : (2 : ℝ) ^ (-126 : ℤ) ≤ x) :
    |rnd x - x| ≤ (2 : ℝ) ^ (-24 : ℤ) * x := by
  have h0 : 0 < x := lt_of_lt_of_le (two_zpow_pos _) hx
  refine (abs_rnd_sub_le x).trans ?_
  have h1 : (2 : ℝ) ^ (ulpExp x + 23) ≤ x := by
    have hl : -126 ≤ Int.log 2 x := by
      by_contra hcon
      push Not at hcon
      have := (log_bounds h0).2.trans_le (zpow_le_zpow (show Int.log 2 x + 1 ≤ -126 by omega))
      linarith
    refine le_trans (zpow_le_zpow ?_) (log_bounds h0).1
    unfold ulpExp; omega
  rw [zpow_add₀ (by norm_num)] at h1
  have h2 : (2 : ℝ) ^ (-24 : ℤ) * ((2 : ℝ) ^ ulpExp x * (2 : ℝ) ^ (23 : ℤ)) ≤
      (2 : ℝ) ^ (-24 : ℤ) * x := mul_le_mul_of_nonneg_left h1 (two_zpow_pos _).le
  refine le_trans (le_of_eq ?_) h2
  rw [show (2 : ℝ) ^ (-24 : ℤ) * ((2 : ℝ) ^ ulpExp x * (2 : ℝ) ^ (23 : ℤ)) =
    (2 : ℝ) ^ ulpExp x * ((2 : ℝ) ^ (-24 : ℤ) * (2 : ℝ) ^ (23 : ℤ)) by ring]
  rw [← zpow_add₀ (by norm_num)]; norm_num
  ring

/-! ## Values -/

/-- a binary32 value: NaN, an infinity, or a finite number given by sign bit and magnitude (so `-0`
is `fin true 0`) -/
inductive F32 where
  | nan
  | inf (neg : Bool)
  | fin (neg : Bool) (mag : ℝ) (h : 0 ≤ mag ∧ Representable mag)

namespace F32

/-- value of a finite number -/
def sval (neg : Bool) (mag : ℝ) : ℝ := if neg then -mag else mag

/-- the result of rounding the non-negative magnitude `x` with the given sign; overflow to infinity -/
noncomputable def ofMag (neg : Bool) (x : ℝ) (hx : 0 ≤ x) : F32 :=
  open Classical in
  if h : rnd x < (2 : ℝ) ^ (128 : ℤ) then fin neg (rnd x) ⟨rnd_nonneg hx, representable_rnd hx h⟩
  else inf neg

/-- round a real number to nearest; `zeroNeg` is the sign of the result if the number is exactly 0 -/
noncomputable def ofReal (zeroNeg : Bool) (x : ℝ) : F32 :=
  open Classical in
  if x = 0 then fin zeroNeg 0 ⟨le_refl 0, 0, 0, by simp, by norm_num, by norm_num, by norm_num⟩
  else ofMag (decide (x < 0)) |x| (abs_nonneg x)

/-- `-x` flips the sign bit -/
def neg : F32 → F32
  | nan => nan
  | inf s => inf (!s)
  | fin s m h => fin (!s) m h

/-- addition: `∞ - ∞` is NaN; an exact zero sum is `-0` only for `(-0) + (-0)` -/
noncomputable def add : F32 → F32 → F32
  | nan, _ => nan
  | _, nan => nan
  | inf s, inf t => if s = t then inf s else nan
  | inf s, fin _ _ _ => inf s
  | fin _ _ _, inf t => inf t
  | fin s a _, fin t b _ => ofReal (s && t) (sval s a + sval t b)

/-- multiplication: the sign is the exclusive or; `0 * ∞` is NaN -/
noncomputable def mul : F32 → F32 → F32
  | nan, _ => nan
  | _, nan => nan
  | inf s, inf t => inf (s ^^ t)
  | inf s, fin t b _ => open Classical in if b = 0 then nan else inf (s ^^ t)
  | fin s a _, inf t => open Classical in if a = 0 then nan else inf (s ^^ t)
  | fin s a ha, fin t b hb => ofMag (s ^^ t) (a * b) (mul_nonneg ha.1 hb.1)

/-- division: `0 / 0` and `∞ / ∞` are NaN, `x / 0` is infinite, `x / ∞` is zero -/
noncomputable def div : F32 → F32 → F32
  | nan, _ => nan
  | _, nan => nan
  | inf _, inf _ => nan
  | inf s, fin t _ _ => inf (s ^^ t)
  | fin s _ _, inf t => ofMag (s ^^ t) 0 (le_refl 0)
  | fin s a ha, fin t b hb => open Classical in
    if b = 0 then (if a = 0 then nan else inf (s ^^ t))
    else ofMag (s ^^ t) (a / b) (div_nonneg ha.1 hb.1)

/-- square root: `√-0 = -0`, NaN for negative numbers -/
noncomputable def sqrt : F32 → F32
  | nan => nan
  | inf s => if s then nan else inf false
  | fin s a _ => open Classical in
    if a = 0 then ofMag s 0 (le_refl 0)
    else if s then nan else ofMag false (Real.sqrt a) (Real.sqrt_nonneg a)

/-- `<`: false if a NaN is involved; the zeros are equal -/
def lt : F32 → F32 → Prop
  | nan, _ => False
  | _, nan => False
  | inf s, inf t => s = true ∧ t = false
  | inf s, fin _ _ _ => s = true
  | fin _ _ _, inf t => t = false
  | fin s a _, fin t b _ => sval s a < sval t b

/-- `==`: false if a NaN is involved; the zeros are equal -/
def eq : F32 → F32 → Prop
  | inf s, inf t => s = t
  | fin s a _, fin t b _ => sval s a = sval t b
  | _, _ => False

noncomputable instance : Add F32 := ⟨add⟩
instance : Neg F32 := ⟨neg⟩
noncomputable instance : Sub F32 := ⟨fun a b => add a (neg b)⟩
noncomputable instance : Mul F32 := ⟨mul⟩
noncomputable instance : Div F32 := ⟨div⟩
instance : LT F32 := ⟨lt⟩
instance : LE F32 := ⟨fun a b => lt a b ∨ eq a b⟩
noncomputable instance (a b : F32) : Decidable (eq a b) := Classical.dec _
noncomputable instance : DecidableLT F32 := fun _ _ => Classical.dec _
noncomputable instance : DecidableLE F32 := fun _ _ => Classical.dec _
noncomputable instance : Zero F32 := ⟨ofReal false 0⟩
noncomputable instance : One F32 := ⟨ofReal false 1⟩

end F32

/-- the parts of `f32` which the standard or the platform leaves open -/
class F32Env where
  /-- sign bit of a NaN -/
  nanSign : Bool
  sin : F32 → F32
  cos : F32 → F32
  atan2 : F32 → F32 → F32
  /-- tie rule and out-of-range behaviour of `round_to_i32` -/
  roundI32 : F32 → ℤ

/-- the `FloatExtra` operations of binary32 -/
noncomputable instance f32Float [env : F32Env] : FloatExtra F32 where
  abs
    | .nan => .nan
    | .inf _ => .inf false
    | .fin _ m h => .fin false m h
  fmax a b := match a, b with
    | .nan, b => b
    | a, .nan => a
    | a, b => if a < b then b else a
  fmin a b := match a, b with
    | .nan, b => b
    | a, .nan => a
    | a, b => if b < a then b else a
  signum
    | .nan => .nan
    | .inf s => if s then F32.neg 1 else 1
    | .fin s _ _ => if s then F32.neg 1 else 1
  sqrt := F32.sqrt
  sin := env.sin
  cos := env.cos
  atan2 := env.atan2
  ofInt n := F32.ofReal false n
  roundI32 := env.roundI32
  pi := F32.ofReal false Real.pi
  nan := .nan
  isNan
    | .nan => true
    | _ => false
  isInfinite
    | .inf _ => true
    | _ => false
  isFinite
    | .fin _ _ _ => true
    | _ => false
  isSignNeg
    | .nan => env.nanSign
    | .inf s => s
    | .fin s _ _ => s
  feq a b := decide (F32.eq a b)
  ltInf a := decide (a < F32.inf false)
  epsilon := F32.ofReal false (1 / 2 ^ 23)
  tol := F32.ofReal false (1 / 100)
  approxTol := F32.ofReal false (1 / 10 ^ 6)
  f32Min := F32.ofReal false (-(2 ^ 128 - 2 ^ 104))
  half := F32.ofReal false (1 / 2)
  two := F32.ofReal false 2

end Auburn
