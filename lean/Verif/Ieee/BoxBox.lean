import Verif.Ieee.RectAnswer
import Verif.Ieee.ColliderProps
import Verif.Props.BoxBox

/-!
# Two boxes in binary32: the computed Minkowski difference (library lemmas)
-/

set_option linter.unusedSectionVars false
set_option synthInstance.maxSize 1000

namespace Auburn

open F32 V2 ExtremePoint2d Transformation2d

section
variable [env : F32Env]

/-- `±1` -/
noncomputable def sgF (s : Bool) : F32 := if s then 1 else F32.neg 1

theorem is_sgF (s : Bool) : F32.Is (sgF s) (sgn s) := by
  cases s
  · have := is_neg is_one
    rw [sgn_false]; exact this
  · rw [sgn_true]; exact is_one

theorem signum_bit {a : F32} {x : ℝ} (h : F32.Is a x) : FloatExtra.signum a = sgF a.bit := by
  obtain ⟨s, m, hm, rfl, rfl⟩ := h
  cases s <;> rfl

/-- one coordinate of the corners of the computed Minkowski difference of two boxes -/
noncomputable def cornerC (ha hb t : F32) (s : Bool) : F32 := sgF s * ha - (sgF (!s) * hb + t)

/-- the support function of two boxes with a translation is that of a rectangle -/
theorem corners_box (a b : Box2d F32) (t : V2 F32) :
    Corners (extremePoint (LocalMinkowskiDiff2d.mk a b t))
      (cornerC a.halfsize.x b.halfsize.x t.x) (cornerC a.halfsize.y b.halfsize.y t.y) := by
  intro d x y hx hy
  show (⟨FloatExtra.signum d.x * a.halfsize.x - (FloatExtra.signum (-d.x) * b.halfsize.x + t.x),
    FloatExtra.signum d.y * a.halfsize.y - (FloatExtra.signum (-d.y) * b.halfsize.y + t.y)⟩ : V2 F32) = _
  rw [signum_bit hx, signum_bit hy, signum_bit (is_neg hx), signum_bit (is_neg hy), bit_neg hx, bit_neg hy]
  rfl

/-- value of a corner coordinate, up to rounding -/
theorem corner_val {ha hb t : F32} {A B T M : ℝ} (hA : F32.Is ha A) (hB : F32.Is hb B) (hT : F32.Is t T)
    (a0 : 0 ≤ A) (b0 : 0 ≤ B) (aM : A ≤ M) (bM : B ≤ M) (tM : |T| ≤ M) (hM : M ≤ (2 : ℝ) ^ (28 : ℤ)) (s : Bool) :
    ∃ x, F32.Is (cornerC ha hb t s) x ∧ |x - (sgn s * (A + B) - T)| ≤ 6 * (M / 2 ^ 24) ∧
      (sgn s * T ≤ 0 → 0 ≤ sgn s * x) := by
  have hM' : M ≤ 2 ^ 28 := by exact_mod_cast hM
  have big : (4 : ℝ) * 2 ^ 28 ≤ 3 * (2 : ℝ) ^ (126 : ℤ) := by norm_num
  have t1 := abs_le.1 tM
  have p1 : F32.Is (sgF s * ha) (sgn s * A) := by
    refine is_mul (is_sgF s) hA ?_
    cases s
    · rw [sgn_false, neg_one_mul]; exact hA.representable.neg
    · rw [sgn_true, one_mul]; exact hA.representable
  have p2 : F32.Is (sgF (!s) * hb) (sgn (!s) * B) := by
    refine is_mul (is_sgF _) hB ?_
    cases s
    · simp only [Bool.not_false, sgn_true, one_mul]; exact hB.representable
    · simp only [Bool.not_true, sgn_false, neg_one_mul]; exact hB.representable.neg
  rw [sgn_not, neg_mul] at p2
  have e1 : |-(sgn s * B) + T| ≤ 2 * M := by
    cases s <;> simp only [sgn_true, sgn_false, one_mul, neg_mul, neg_neg] <;> rw [abs_le] <;> constructor <;> linarith
  obtain ⟨y, y1, y2⟩ := F32.round_add p2 hT (by linarith)
  have y2' := abs_le.1 (y2.trans (div_le_div_of_nonneg_right e1 (by norm_num)))
  have e1' := abs_le.1 e1
  have e2 : |sgn s * A - y| ≤ 4 * M := by
    cases s <;> simp only [sgn_true, sgn_false, one_mul, neg_mul, neg_neg] at * <;> rw [abs_le] <;> constructor <;> linarith
  obtain ⟨x, x1, x2⟩ := F32.round_sub p1 y1 (by linarith)
  have x2' := abs_le.1 (x2.trans (div_le_div_of_nonneg_right e2 (by norm_num)))
  refine ⟨x, x1, ?_, ?_⟩
  · rw [abs_le]
    constructor <;> linarith
  · intro h0
    have y2 := abs_le.1 y2
    have x2 := abs_le.1 x2
    have sy : sgn s * y ≤ 0 := by
      cases s <;> simp only [sgn_true, sgn_false, one_mul, neg_mul, neg_neg] at *
      · have : 0 ≤ B + T := by linarith
        rw [abs_of_nonneg this] at y2; linarith [y2.1]
      · have : -B + T ≤ 0 := by linarith
        rw [abs_of_nonpos this] at y2; linarith [y2.2]
    cases s <;> simp only [sgn_true, sgn_false, one_mul, neg_mul, neg_neg] at *
    · have : -A - y ≤ 0 := by linarith
      rw [abs_of_nonpos this] at x2; linarith [x2.2]
    · have : 0 ≤ A - y := by linarith
      rw [abs_of_nonneg this] at x2; linarith [x2.1]

/-- the first direction of the search -/
theorem startDir_box {t : V2 F32} {T : V2 ℝ} (ht : t.Is T) (hx : |T.x| ≤ (2 : ℝ) ^ (28 : ℤ))
    (hy : |T.y| ≤ (2 : ℝ) ^ (28 : ℤ)) : StartDir (initialDirection t) := by
  have m : (2 : ℝ) ^ (28 : ℤ) ≤ (2 : ℝ) ^ (30 : ℤ) := by norm_num
  unfold initialDirection
  split
  · exact ⟨1, 0, is_one, is_zero, by norm_num, by norm_num, Or.inl (by norm_num)⟩
  · rename_i hlt
    refine ⟨T.x, T.y, ht.1, ht.2, hx.trans m, hy.trans m, ?_⟩
    by_contra hc
    push Not at hc
    have bx : Bdd (-13) t.x := ⟨_, ht.1, hc.1.le⟩
    have bY : Bdd (-13) t.y := ⟨_, ht.2, hc.2.le⟩
    obtain ⟨z, z1, z2⟩ := (bx.mul bx (by norm_num) (by norm_num)).add (bY.mul bY (by norm_num) (by norm_num))
      (by norm_num) (by norm_num)
    apply hlt
    show t.x * t.x + t.y * t.y < _
    rw [lt_iff z1 is_eps_f32]
    have := (abs_le.1 z2).2
    norm_num at this ⊢
    linarith

/-- one coordinate of overlapping boxes -/
theorem corner_inside {ha hb t : F32} {A B T M : ℝ} (hA : F32.Is ha A) (hB : F32.Is hb B) (hT : F32.Is t T)
    (a0 : 0 ≤ A) (b0 : 0 ≤ B) (aM : A ≤ M) (bM : B ≤ M) (tM : |T| ≤ M) (hM : M ≤ (2 : ℝ) ^ (28 : ℤ)) (h1 : 1 ≤ M)
    (hd : M / 2 ^ 21 ≤ A + B - |T|) (s : Bool) :
    ∃ m, F32.Is (cornerC ha hb t s) (sgn s * m) ∧ (2 : ℝ) ^ (-23 : ℤ) ≤ m ∧ m ≤ 4 * M ∧
      |m - (A + B - sgn s * T)| ≤ 6 * (M / 2 ^ 24) := by
  obtain ⟨x, x1, x2, _⟩ := corner_val hA hB hT a0 b0 aM bM tM hM s
  have tM := abs_le.1 tM
  have T1 := le_abs_self T
  have T2 := neg_abs_le T
  have ss : sgn s * (sgn s * x) = x := by rw [← mul_assoc, sgn_mul]; simp
  have n : (2 : ℝ) ^ (-23 : ℤ) = 1 / 2 ^ 23 := by norm_num
  refine ⟨sgn s * x, by rwa [ss], ?_, ?_, ?_⟩ <;>
    (have x2 := abs_le.1 x2
     try rw [n]
     try rw [abs_le]
     cases s <;> simp only [sgn_true, sgn_false, one_mul, neg_mul, neg_neg] at *
     all_goals (first | linarith | (constructor <;> linarith)))

end

end Auburn
