import Verif.Ieee.Rep
import Mathlib.Data.Rat.Floor

/-!
# Computing in binary32

`F32` is a type over the reals and cannot be evaluated.  `QF` is its computable twin with rational
magnitudes; `Rel` relates the two and is preserved by every operation used by GJK and EPA (`Ieee/EvalGjk`), so
a run of the model on concrete binary32 numbers can be computed by the kernel and transferred to `F32`.
-/

set_option linter.unusedSectionVars false

namespace Auburn

/-! ## rounding rational numbers -/

/-- `2^e` -/
def pow2 : ℤ → ℚ
  | .ofNat n => ((2 ^ n : ℕ) : ℚ)
  | .negSucc n => 1 / ((2 ^ (n + 1) : ℕ) : ℚ)

theorem pow2_cast (e : ℤ) : ((pow2 e : ℚ) : ℝ) = (2 : ℝ) ^ e := by
  cases e with
  | ofNat n => simp [pow2]
  | negSucc n => simp [pow2, zpow_negSucc]

/-- exponent of the leading bit -/
def log2Q (x : ℚ) : ℤ :=
  let e : ℤ := (Nat.log2 x.num.toNat : ℤ) - Nat.log2 x.den
  if pow2 e ≤ x then e else e - 1

theorem log2Q_eq {x : ℚ} (hx : 0 < x) : log2Q x = Int.log 2 (x : ℝ) := by
  have hn : 0 < x.num := Rat.num_pos.2 hx
  have hn0 : x.num.toNat ≠ 0 := by omega
  have hnr : ((x.num.toNat : ℕ) : ℝ) = (x.num : ℝ) := by
    have : ((x.num.toNat : ℕ) : ℤ) = x.num := Int.toNat_of_nonneg hn.le
    exact_mod_cast this
  have xe : (x : ℝ) = (x.num.toNat : ℝ) / (x.den : ℝ) := by
    rw [hnr]; exact Rat.cast_def x
  set a := Nat.log2 x.num.toNat with ha
  set b := Nat.log2 x.den with hb
  have a1 : (2 : ℝ) ^ (a : ℤ) ≤ (x.num.toNat : ℝ) := by
    rw [zpow_natCast]; exact_mod_cast Nat.log2_self_le hn0
  have a2 : (x.num.toNat : ℝ) < (2 : ℝ) ^ ((a : ℤ) + 1) := by
    have := Nat.lt_log2_self (n := x.num.toNat)
    rw [← ha] at this
    rw [show (a : ℤ) + 1 = ((a + 1 : ℕ) : ℤ) by push_cast; rfl, zpow_natCast]; exact_mod_cast this
  have b1 : (2 : ℝ) ^ (b : ℤ) ≤ (x.den : ℝ) := by
    rw [zpow_natCast]; exact_mod_cast Nat.log2_self_le x.den_nz
  have b2 : (x.den : ℝ) < (2 : ℝ) ^ ((b : ℤ) + 1) := by
    have := Nat.lt_log2_self (n := x.den)
    rw [← hb] at this
    rw [show (b : ℤ) + 1 = ((b + 1 : ℕ) : ℤ) by push_cast; rfl, zpow_natCast]; exact_mod_cast this
  have d0 : (0 : ℝ) < x.den := by exact_mod_cast x.den_pos
  have xr : (0 : ℝ) < x := by exact_mod_cast hx
  have up : (x : ℝ) < (2 : ℝ) ^ ((a : ℤ) - b + 1) := by
    rw [xe, div_lt_iff₀ d0]
    refine a2.trans_le ?_
    have : (2 : ℝ) ^ ((a : ℤ) + 1) = (2 : ℝ) ^ ((a : ℤ) - b + 1) * (2 : ℝ) ^ (b : ℤ) := by
      rw [← zpow_add₀ (by norm_num)]; congr 1; ring
    rw [this]
    exact mul_le_mul_of_nonneg_left b1 (two_zpow_pos _).le
  have lo : (2 : ℝ) ^ ((a : ℤ) - b - 1) ≤ x := by
    rw [xe, le_div_iff₀ d0]
    refine le_trans ?_ a1
    have : (2 : ℝ) ^ (a : ℤ) = (2 : ℝ) ^ ((a : ℤ) - b - 1) * (2 : ℝ) ^ ((b : ℤ) + 1) := by
      rw [← zpow_add₀ (by norm_num)]; congr 1; ring
    rw [this]
    exact mul_le_mul_of_nonneg_left b2.le (two_zpow_pos _).le
  have uniq : ∀ e : ℤ, (2 : ℝ) ^ e ≤ x → (x : ℝ) < (2 : ℝ) ^ (e + 1) → e = Int.log 2 (x : ℝ) := by
    intro e h1 h2
    obtain ⟨l1, l2⟩ := log_bounds xr
    have m1 := (zpow_lt_zpow_iff_right₀ (by norm_num : (1 : ℝ) < 2)).1 (h1.trans_lt l2)
    have m2 := (zpow_lt_zpow_iff_right₀ (by norm_num : (1 : ℝ) < 2)).1 (l1.trans_lt h2)
    omega
  unfold log2Q
  simp only [← ha, ← hb]
  have hc : pow2 ((a : ℤ) - b) ≤ x ↔ (2 : ℝ) ^ ((a : ℤ) - b) ≤ (x : ℝ) := by
    rw [← pow2_cast]; exact_mod_cast Iff.rfl
  split
  · rename_i h
    exact uniq _ (hc.1 h) up
  · rename_i h
    refine uniq _ lo ?_
    have := not_le.1 (fun h' => h (hc.2 h'))
    rwa [sub_add_cancel]

/-- round to the nearest integer, ties to even -/
def roundEvenQ (y : ℚ) : ℤ :=
  let f := y.floor
  let r := y - f
  if r < 1 / 2 then f else if 1 / 2 < r then f + 1 else if f % 2 = 0 then f else f + 1

theorem roundEvenQ_eq (y : ℚ) : roundEvenQ y = roundEven (y : ℝ) := by
  have hf : ⌊(y : ℝ)⌋ = y.floor := by rw [Rat.floor_cast]; rfl
  have hr : Int.fract (y : ℝ) = ((y - y.floor : ℚ) : ℝ) := by
    rw [← Int.self_sub_floor, hf]; push_cast; rfl
  unfold roundEvenQ roundEven
  rw [hf, hr]
  have e1 : ((y - y.floor : ℚ) : ℝ) < 1 / 2 ↔ (y - y.floor : ℚ) < 1 / 2 := by
    rw [show (1 / 2 : ℝ) = ((1 / 2 : ℚ) : ℝ) by norm_num]; exact_mod_cast Iff.rfl
  have e2 : 1 / 2 < ((y - y.floor : ℚ) : ℝ) ↔ 1 / 2 < (y - y.floor : ℚ) := by
    rw [show (1 / 2 : ℝ) = ((1 / 2 : ℚ) : ℝ) by norm_num]; exact_mod_cast Iff.rfl
  have e3 : Even y.floor ↔ y.floor % 2 = 0 := Int.even_iff
  simp only [e1, e2, e3]

/-- a magnitude rounded to 24 significant bits -/
def rndQ (x : ℚ) : ℚ :=
  let u := pow2 (max (-149) (log2Q x - 23))
  roundEvenQ (x / u) * u

theorem rndQ_eq {x : ℚ} (hx : 0 ≤ x) : ((rndQ x : ℚ) : ℝ) = rnd (x : ℝ) := by
  rcases hx.eq_or_lt with rfl | hx
  · have : roundEvenQ 0 = 0 := by
      rw [roundEvenQ_eq]; simpa using roundEven_intCast 0
    simp only [rndQ, zero_div, this]
    rw [Rat.cast_zero, rnd_zero]; simp
  · unfold rndQ rnd ulpExp
    rw [log2Q_eq hx]
    push_cast
    rw [pow2_cast, roundEvenQ_eq]
    push_cast
    rw [pow2_cast]

/-! ## values -/

/-- binary32 with rational magnitudes -/
inductive QF where
  | nan
  | inf (neg : Bool)
  | fin (neg : Bool) (mag : ℚ)
  deriving DecidableEq

namespace QF

def sval (neg : Bool) (mag : ℚ) : ℚ := if neg then -mag else mag

/-- round a magnitude -/
def ofMag (neg : Bool) (x : ℚ) : QF := if rndQ x < pow2 128 then fin neg (rndQ x) else inf neg

/-- round a rational number -/
def ofRat (zeroNeg : Bool) (x : ℚ) : QF := if x = 0 then fin zeroNeg 0 else ofMag (decide (x < 0)) |x|

def neg : QF → QF
  | nan => nan
  | inf s => inf (!s)
  | fin s m => fin (!s) m

def add : QF → QF → QF
  | nan, _ => nan
  | _, nan => nan
  | inf s, inf t => if s = t then inf s else nan
  | inf s, fin _ _ => inf s
  | fin _ _, inf t => inf t
  | fin s a, fin t b => ofRat (s && t) (sval s a + sval t b)

def mul : QF → QF → QF
  | nan, _ => nan
  | _, nan => nan
  | inf s, inf t => inf (s ^^ t)
  | inf s, fin t b => if b = 0 then nan else inf (s ^^ t)
  | fin s a, inf t => if a = 0 then nan else inf (s ^^ t)
  | fin s a, fin t b => ofMag (s ^^ t) (a * b)

def div : QF → QF → QF
  | nan, _ => nan
  | _, nan => nan
  | inf _, inf _ => nan
  | inf s, fin t _ => inf (s ^^ t)
  | fin s _, inf t => ofMag (s ^^ t) 0
  | fin s a, fin t b =>
    if b = 0 then (if a = 0 then nan else inf (s ^^ t)) else ofMag (s ^^ t) (a / b)

def ltb : QF → QF → Bool
  | nan, _ => false
  | _, nan => false
  | inf s, inf t => s && !t
  | inf s, fin _ _ => s
  | fin _ _, inf t => !t
  | fin s a, fin t b => decide (sval s a < sval t b)

def eqb : QF → QF → Bool
  | inf s, inf t => s == t
  | fin s a, fin t b => decide (sval s a = sval t b)
  | _, _ => false

instance : Add QF := ⟨add⟩
instance : Neg QF := ⟨neg⟩
instance : Sub QF := ⟨fun a b => add a (neg b)⟩
instance : Mul QF := ⟨mul⟩
instance : Div QF := ⟨div⟩
instance : LT QF := ⟨fun a b => ltb a b = true⟩
instance : LE QF := ⟨fun a b => (ltb a b || eqb a b) = true⟩
instance : DecidableLT QF := fun a b => inferInstanceAs (Decidable (ltb a b = true))
instance : DecidableLE QF := fun a b => inferInstanceAs (Decidable ((ltb a b || eqb a b) = true))
instance : Zero QF := ⟨fin false 0⟩
instance : One QF := ⟨fin false 1⟩

end QF

/-- the operations of `FloatExtra` that GJK and EPA on polygons and boxes use; the others are not computed -/
instance qfFloat : FloatExtra QF where
  abs
    | .nan => .nan
    | .inf _ => .inf false
    | .fin _ m => .fin false m
  fmax a b := match a, b with
    | .nan, b => b
    | a, .nan => a
    | a, b => if a < b then b else a
  fmin a b := match a, b with
    | .nan, b => b
    | a, .nan => a
    | a, b => if b < a then b else a
  signum
    | .nan => .nan
    | .inf s => if s then QF.neg 1 else 1
    | .fin s _ => if s then QF.neg 1 else 1
  sqrt _ := .nan
  sin _ := .nan
  cos _ := .nan
  atan2 _ _ := .nan
  ofInt n := QF.ofRat false n
  roundI32 _ := 0
  pi := .nan
  nan := .nan
  isNan
    | .nan => true
    | _ => false
  isInfinite
    | .inf _ => true
    | _ => false
  isFinite
    | .fin _ _ => true
    | _ => false
  isSignNeg
    | .nan => false
    | .inf s => s
    | .fin s _ => s
  feq a b := QF.eqb a b
  ltInf a := QF.ltb a (QF.inf false)
  epsilon := QF.ofRat false (1 / 2 ^ 23)
  tol := QF.ofRat false (1 / 100)
  approxTol := QF.ofRat false (1 / 10 ^ 6)
  f32Min := QF.ofRat false (-(2 ^ 128 - 2 ^ 104))
  half := QF.ofRat false (1 / 2)
  two := QF.ofRat false 2

/-- the same value -/
inductive Rel : QF → F32 → Prop
  | nan : Rel .nan .nan
  | inf (s : Bool) : Rel (.inf s) (.inf s)
  | fin (s : Bool) (q : ℚ) (m : ℝ) (h : 0 ≤ m ∧ Representable m) (e : (q : ℝ) = m) : Rel (.fin s q) (.fin s m h)

namespace Rel

theorem nonneg {s : Bool} {q : ℚ} {a : F32} (h : Rel (.fin s q) a) : 0 ≤ q := by
  cases h with
  | fin _ _ m h e => exact_mod_cast e ▸ h.1

theorem ofMag {s : Bool} {x : ℚ} {y : ℝ} (hy : 0 ≤ y) (e : (x : ℝ) = y) : Rel (QF.ofMag s x) (F32.ofMag s y hy) := by
  have hx : 0 ≤ x := by exact_mod_cast e ▸ hy
  have h1 : rndQ x < pow2 128 ↔ rnd y < (2 : ℝ) ^ (128 : ℤ) := by
    rw [← e, ← rndQ_eq hx, ← pow2_cast]; exact_mod_cast Iff.rfl
  unfold QF.ofMag F32.ofMag
  by_cases h : rndQ x < pow2 128
  · rw [if_pos h, dif_pos (h1.1 h)]
    exact .fin _ _ _ _ (by rw [rndQ_eq hx, e])
  · rw [if_neg h, dif_neg (fun h' => h (h1.2 h'))]
    exact .inf s

theorem ofRat {z : Bool} {x : ℚ} {y : ℝ} (e : (x : ℝ) = y) : Rel (QF.ofRat z x) (F32.ofReal z y) := by
  unfold QF.ofRat F32.ofReal
  have h0 : x = 0 ↔ y = 0 := by rw [← e]; exact_mod_cast Iff.rfl
  have h1 : x < 0 ↔ y < 0 := by rw [← e]; exact_mod_cast Iff.rfl
  by_cases h : x = 0
  · rw [if_pos h, if_pos (h0.1 h)]
    exact .fin _ _ _ _ (by simp)
  · rw [if_neg h, if_neg (fun h' => h (h0.2 h'))]
    have : decide (x < 0) = decide (y < 0) := by simp only [h1]
    rw [this]
    exact Rel.ofMag _ (by rw [← e]; push_cast; rfl)

theorem sval {s : Bool} {q : ℚ} {m : ℝ} (e : (q : ℝ) = m) : ((QF.sval s q : ℚ) : ℝ) = F32.sval s m := by
  cases s <;> simp [QF.sval, F32.sval, e]

theorem neg {a : QF} {a' : F32} (h : Rel a a') : Rel (-a) (-a') := by
  cases h with
  | nan => exact .nan
  | inf s => exact .inf _
  | fin s q m h e => exact .fin _ _ _ _ e

theorem add {a b : QF} {a' b' : F32} (h : Rel a a') (g : Rel b b') : Rel (a + b) (a' + b') := by
  cases h with
  | nan => exact .nan
  | inf s => cases g with
    | nan => exact .nan
    | inf t =>
      show Rel (if s = t then .inf s else .nan) (if s = t then .inf s else .nan)
      split
      · exact .inf s
      · exact .nan
    | fin t q m h e => exact .inf s
  | fin s q m h e => cases g with
    | nan => exact .nan
    | inf t => exact .inf t
    | fin t q' m' h' e' =>
      exact Rel.ofRat (by push_cast; rw [Rel.sval e, Rel.sval e'])

theorem sub {a b : QF} {a' b' : F32} (h : Rel a a') (g : Rel b b') : Rel (a - b) (a' - b') := h.add g.neg

theorem zero_iff {q : ℚ} {m : ℝ} (e : (q : ℝ) = m) : q = 0 ↔ m = 0 := by rw [← e]; exact_mod_cast Iff.rfl

theorem mul {a b : QF} {a' b' : F32} (h : Rel a a') (g : Rel b b') : Rel (a * b) (a' * b') := by
  cases h with
  | nan => exact .nan
  | inf s => cases g with
    | nan => exact .nan
    | inf t => exact .inf _
    | fin t q m h e =>
      show Rel (if q = 0 then .nan else .inf (s ^^ t)) (open Classical in if m = 0 then .nan else .inf (s ^^ t))
      by_cases hq : q = 0
      · rw [if_pos hq, if_pos ((zero_iff e).1 hq)]; exact .nan
      · rw [if_neg hq, if_neg (fun h' => hq ((zero_iff e).2 h'))]; exact .inf _
  | fin s q m h e => cases g with
    | nan => exact .nan
    | inf t =>
      show Rel (if q = 0 then .nan else .inf (s ^^ t)) (open Classical in if m = 0 then .nan else .inf (s ^^ t))
      by_cases hq : q = 0
      · rw [if_pos hq, if_pos ((zero_iff e).1 hq)]; exact .nan
      · rw [if_neg hq, if_neg (fun h' => hq ((zero_iff e).2 h'))]; exact .inf _
    | fin t q' m' h' e' => exact Rel.ofMag (mul_nonneg h.1 h'.1) (by push_cast; rw [e, e'])

theorem div {a b : QF} {a' b' : F32} (h : Rel a a') (g : Rel b b') : Rel (a / b) (a' / b') := by
  cases h with
  | nan => exact .nan
  | inf s => cases g with
    | nan => exact .nan
    | inf t => exact .nan
    | fin t q m h e => exact .inf _
  | fin s q m h e => cases g with
    | nan => exact .nan
    | inf t => exact Rel.ofMag (le_refl 0) (by simp)
    | fin t q' m' h' e' =>
      show Rel (if q' = 0 then (if q = 0 then .nan else .inf (s ^^ t)) else QF.ofMag (s ^^ t) (q / q'))
        (open Classical in if m' = 0 then (if m = 0 then .nan else .inf (s ^^ t)) else F32.ofMag (s ^^ t) (m / m') _)
      by_cases hq : q' = 0
      · rw [if_pos hq, if_pos ((zero_iff e').1 hq)]
        by_cases hq : q = 0
        · rw [if_pos hq, if_pos ((zero_iff e).1 hq)]; exact .nan
        · rw [if_neg hq, if_neg (fun h' => hq ((zero_iff e).2 h'))]; exact .inf _
      · rw [if_neg hq, if_neg (fun h' => hq ((zero_iff e').2 h'))]
        exact Rel.ofMag _ (by push_cast; rw [e, e'])

theorem lt {a b : QF} {a' b' : F32} (h : Rel a a') (g : Rel b b') : a < b ↔ a' < b' := by
  show QF.ltb a b = true ↔ F32.lt a' b'
  cases h with
  | nan => simp [QF.ltb, F32.lt]
  | inf s => cases g with
    | nan => simp [QF.ltb, F32.lt]
    | inf t => simp [QF.ltb, F32.lt]
    | fin t q m h e => simp [QF.ltb, F32.lt]
  | fin s q m h e => cases g with
    | nan => simp [QF.ltb, F32.lt]
    | inf t => simp [QF.ltb, F32.lt]
    | fin t q' m' h' e' =>
      simp only [QF.ltb, F32.lt, decide_eq_true_eq, ← Rel.sval e, ← Rel.sval e']
      exact_mod_cast Iff.rfl

theorem eqv {a b : QF} {a' b' : F32} (h : Rel a a') (g : Rel b b') : QF.eqb a b = true ↔ F32.eq a' b' := by
  cases h with
  | nan => simp [QF.eqb, F32.eq]
  | inf s => cases g with
    | nan => simp [QF.eqb, F32.eq]
    | inf t => simp [QF.eqb, F32.eq]
    | fin t q m h e => simp [QF.eqb, F32.eq]
  | fin s q m h e => cases g with
    | nan => simp [QF.eqb, F32.eq]
    | inf t => simp [QF.eqb, F32.eq]
    | fin t q' m' h' e' =>
      simp only [QF.eqb, F32.eq, decide_eq_true_eq, ← Rel.sval e, ← Rel.sval e']
      exact_mod_cast Iff.rfl

theorem le {a b : QF} {a' b' : F32} (h : Rel a a') (g : Rel b b') : a ≤ b ↔ a' ≤ b' := by
  show (QF.ltb a b || QF.eqb a b) = true ↔ (F32.lt a' b' ∨ F32.eq a' b')
  rw [Bool.or_eq_true, ← h.eqv g]
  exact or_congr (h.lt g) Iff.rfl

theorem zero : Rel 0 0 := by
  have := Rel.ofRat (z := false) (x := 0) (y := 0) (by simp)
  have e : QF.ofRat false 0 = 0 := rfl
  rwa [e] at this

theorem one : Rel 1 1 := by
  have := Rel.ofRat (z := false) (x := 1) (y := 1) (by simp)
  have e : QF.ofRat false 1 = 1 := by decide +kernel
  rwa [e] at this

section
variable [env : F32Env]

theorem signum {a : QF} {a' : F32} (h : Rel a a') : Rel (FloatExtra.signum a) (FloatExtra.signum a') := by
  cases h with
  | nan => exact .nan
  | inf s => cases s
             · exact Rel.one
             · exact Rel.one.neg
  | fin s q m h e => cases s
                     · exact Rel.one
                     · exact Rel.one.neg

theorem eps : Rel FloatExtra.epsilon FloatExtra.epsilon := Rel.ofRat (by push_cast; rfl)
theorem tol : Rel FloatExtra.tol FloatExtra.tol := Rel.ofRat (by push_cast; rfl)
theorem f32Min : Rel FloatExtra.f32Min FloatExtra.f32Min := Rel.ofRat (by push_cast; rfl)
theorem two : Rel FloatExtra.two FloatExtra.two := Rel.ofRat (by push_cast; rfl)

theorem ltInf {a : QF} {a' : F32} (h : Rel a a') : FloatExtra.ltInf a = FloatExtra.ltInf a' := by
  have := h.lt (Rel.inf false)
  show QF.ltb a (QF.inf false) = decide (a' < F32.inf false)
  by_cases g : a < QF.inf false
  · rw [decide_eq_true (this.1 g)]; exact g
  · rw [decide_eq_false (fun g' => g (this.2 g'))]; exact Bool.eq_false_iff.2 g

end

end Rel

end Auburn
