import Verif.Ieee.SignedZero

/-!
# Signs through binary32 operations

Rounding to nearest is symmetric, so signs can be moved through products exactly and through sums up to the sign of a
zero result.
-/

set_option linter.unusedSectionVars false

namespace Auburn

namespace Zr

theorem nn (a : F32) : - -a = a := by
  cases a <;> simp [Neg.neg, F32.neg]

theorem neg_ofMag (s : Bool) (x : ℝ) (hx : 0 ≤ x) : -(F32.ofMag s x hx) = F32.ofMag (!s) x hx := by
  unfold F32.ofMag
  split <;> rfl

theorem ac (a b : F32) : a + b = b + a := by
  show F32.add a b = F32.add b a
  cases a <;> cases b <;> simp [F32.add, Bool.and_comm, _root_.add_comm]
  · rename_i s t
    by_cases h : s = t
    · subst h; simp
    · rw [if_neg h, if_neg (Ne.symm h)]

theorem mc (a b : F32) : a * b = b * a := by
  show F32.mul a b = F32.mul b a
  cases a <;> cases b <;> simp [F32.mul, Bool.xor_comm, _root_.mul_comm]

theorem nm (a b : F32) : -a * b = -(a * b) := by
  cases a with
  | nan => rfl
  | inf s => cases b with
    | nan => rfl
    | inf t => show F32.inf (!s ^^ t) = F32.inf (!(s ^^ t)); rw [Bool.not_xor]
    | fin t b hb =>
      show (open Classical in if b = 0 then F32.nan else .inf (!s ^^ t)) = F32.neg (open Classical in if b = 0 then F32.nan else .inf (s ^^ t))
      split
      · rfl
      · show F32.inf (!s ^^ t) = F32.inf (!(s ^^ t)); rw [Bool.not_xor]
  | fin s a ha => cases b with
    | nan => rfl
    | inf t =>
      show (open Classical in if a = 0 then F32.nan else .inf (!s ^^ t)) = F32.neg (open Classical in if a = 0 then F32.nan else .inf (s ^^ t))
      split
      · rfl
      · show F32.inf (!s ^^ t) = F32.inf (!(s ^^ t)); rw [Bool.not_xor]
    | fin t b hb =>
      show F32.ofMag (!s ^^ t) (a * b) (mul_nonneg ha.1 hb.1) = -(F32.ofMag (s ^^ t) (a * b) (mul_nonneg ha.1 hb.1))
      rw [neg_ofMag, Bool.not_xor]

theorem mn (a b : F32) : a * -b = -(a * b) := by rw [mc, nm, mc]

/-- the sum of the opposites, up to the sign of a zero -/
theorem na (a b : F32) : Zr (-(a + b)) (-a + -b) := by
  cases a with
  | nan => exact .nan
  | inf s => cases b with
    | nan => exact .nan
    | inf t =>
      show Zr (F32.neg (if s = t then .inf s else .nan)) (if (!s) = (!t) then .inf (!s) else .nan)
      by_cases h : s = t
      · subst h; rw [if_pos rfl, if_pos rfl]; exact .inf _
      · rw [if_neg h, if_neg (by simpa using h)]; exact .nan
    | fin t b hb => exact .inf _
  | fin s a ha => cases b with
    | nan => exact .nan
    | inf t => exact .inf _
    | fin t b hb =>
      have e : ∀ (s : Bool) (a : ℝ), F32.sval (!s) a = -F32.sval s a := by
        intro s a; cases s <;> simp [F32.sval]
      show Zr (-(F32.ofReal (s && t) (F32.sval s a + F32.sval t b))) (F32.ofReal (!s && !t) (F32.sval (!s) a + F32.sval (!t) b))
      rw [e, e]
      generalize F32.sval s a = x
      generalize F32.sval t b = y
      unfold F32.ofReal
      by_cases h : x + y = 0
      · rw [if_pos h, if_pos (by linarith)]
        exact .fin _ _ _ _ _ _ rfl (.inr rfl)
      · rw [if_neg h, if_neg (fun h' => h (by linarith)), neg_ofMag]
        refine .ofMag _ _ ?_ (.inl ?_)
        · rw [← abs_neg]; congr 1; ring
        · rcases lt_or_gt_of_ne h with k | k
          · simp [k]; linarith
          · rw [decide_eq_false (by linarith), decide_eq_true (by linarith)]; rfl

theorem negZero : Zr (-(0 : F32)) 0 := by
  show Zr (F32.neg (F32.ofReal false 0)) (F32.ofReal false 0)
  unfold F32.ofReal
  rw [if_pos rfl]
  exact .fin _ _ _ _ _ _ rfl (.inr rfl)

end Zr

end Auburn
