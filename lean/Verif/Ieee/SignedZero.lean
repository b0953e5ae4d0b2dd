import Verif.Ieee.Special

/-!
# Signed zeros: the relation `Zr`

`-0 == +0`, so `==` (and the derived `PartialEq` of vectors, shapes and transforms) identifies values that the
operations can tell apart.  `Zr` relates `x` and `y` if they are the same or both zero; every operation except
division by a zero, `signum` and the sign bit respects it.
-/

set_option linter.unusedSectionVars false

namespace Auburn

/-- the same value, or two zeros of possibly different sign -/
inductive Zr : F32 → F32 → Prop
  | nan : Zr .nan .nan
  | inf (s : Bool) : Zr (.inf s) (.inf s)
  | fin (s t : Bool) (a b : ℝ) (ha : 0 ≤ a ∧ Representable a) (hb : 0 ≤ b ∧ Representable b) (e : a = b)
      (h : s = t ∨ a = 0) : Zr (.fin s a ha) (.fin t b hb)

namespace Zr

theorem refl : ∀ x : F32, Zr x x
  | .nan => .nan
  | .inf s => .inf s
  | .fin s a h => .fin s s a a h h rfl (.inl rfl)

theorem symm {x y : F32} (h : Zr x y) : Zr y x := by
  cases h with
  | nan => exact .nan
  | inf s => exact .inf s
  | fin s t a b ha hb e h =>
    subst e
    exact .fin _ _ _ _ _ _ rfl (h.imp Eq.symm id)

/-- `==` values are related -/
theorem of_eq {x y : F32} (h : F32.eq x y) : Zr x y := by
  cases x with
  | nan => exact h.elim
  | inf s => cases y with
    | nan => exact h.elim
    | inf t => have : s = t := h; subst this; exact .inf s
    | fin t b hb => exact h.elim
  | fin s a ha => cases y with
    | nan => exact h.elim
    | inf t => exact h.elim
    | fin t b hb =>
      have h : F32.sval s a = F32.sval t b := h
      have a0 := ha.1
      have b0 := hb.1
      cases s <;> cases t <;> simp only [F32.sval, if_true, if_false, Bool.false_eq_true] at h
      · exact .fin _ _ _ _ _ _ h (.inl rfl)
      · exact .fin _ _ _ _ _ _ (by linarith) (.inr (by linarith))
      · exact .fin _ _ _ _ _ _ (by linarith) (.inr (by linarith))
      · exact .fin _ _ _ _ _ _ (by linarith) (.inl rfl)

/-- related values that are not NaN are `==` -/
theorem eq {x y : F32} (h : Zr x y) (hn : x ≠ .nan) : F32.eq x y := by
  cases h with
  | nan => exact absurd rfl hn
  | inf s => exact rfl
  | fin s t a b ha hb e h =>
    subst e
    show F32.sval s a = F32.sval t a
    rcases h with rfl | rfl
    · rfl
    · cases s <;> cases t <;> simp [F32.sval]

/-- related values are the same, or `==` -/
theorem iff {x y : F32} : Zr x y ↔ x = y ∨ F32.eq x y := by
  constructor
  · intro h
    by_cases hn : x = .nan
    · subst hn; cases h; exact .inl rfl
    · exact .inr (h.eq hn)
  · rintro (rfl | h)
    · exact .refl _
    · exact .of_eq h

theorem ofMag {s t : Bool} {x y : ℝ} (hx : 0 ≤ x) (hy : 0 ≤ y) (e : x = y) (h : s = t ∨ x = 0) :
    Zr (F32.ofMag s x hx) (F32.ofMag t y hy) := by
  subst e
  rcases h with rfl | rfl
  · exact .refl _
  · unfold F32.ofMag
    have : rnd 0 < (2 : ℝ) ^ (128 : ℤ) := by rw [rnd_zero]; positivity
    rw [dif_pos this, dif_pos this]
    exact .fin _ _ _ _ _ _ rfl (.inr rnd_zero)

theorem ofReal {z w : Bool} {x y : ℝ} (e : x = y) : Zr (F32.ofReal z x) (F32.ofReal w y) := by
  subst e
  unfold F32.ofReal
  split
  · exact .fin _ _ _ _ _ _ rfl (.inr rfl)
  · exact .refl _

theorem sval {s t : Bool} {a b : ℝ} (e : a = b) (h : s = t ∨ a = 0) : F32.sval s a = F32.sval t b := by
  subst e
  rcases h with rfl | rfl
  · rfl
  · cases s <;> cases t <;> simp [F32.sval]

variable {a a' b b' : F32}

theorem neg (h : Zr a a') : Zr (-a) (-a') := by
  cases h with
  | nan => exact .nan
  | inf s => exact .inf _
  | fin s t a b ha hb e h => exact .fin _ _ _ _ _ _ e (h.imp (fun h => by rw [h]) id)

theorem add (h : Zr a a') (g : Zr b b') : Zr (a + b) (a' + b') := by
  cases h with
  | nan => exact .nan
  | inf s => cases g with
    | nan => exact .nan
    | inf t => exact .refl _
    | fin _ _ _ _ _ _ _ _ => exact .inf s
  | fin s t a b ha hb e h => cases g with
    | nan => exact .nan
    | inf t => exact .inf t
    | fin s' t' a' b' ha' hb' e' h' => exact .ofReal (by rw [Zr.sval e h, Zr.sval e' h'])

theorem sub (h : Zr a a') (g : Zr b b') : Zr (a - b) (a' - b') := h.add g.neg

theorem mul (h : Zr a a') (g : Zr b b') : Zr (a * b) (a' * b') := by
  cases h with
  | nan => exact .nan
  | inf s => cases g with
    | nan => exact .nan
    | inf t => exact .refl _
    | fin s' t' a' b' ha' hb' e' h' =>
      subst e'
      show Zr (open Classical in if a' = 0 then .nan else .inf (s ^^ s')) (open Classical in if a' = 0 then .nan else .inf (s ^^ t'))
      by_cases c : a' = 0
      · rw [if_pos c, if_pos c]; exact .nan
      · rw [if_neg c, if_neg c, h'.resolve_right c]; exact .inf _
  | fin s t a b ha hb e h =>
    subst e
    cases g with
    | nan => exact .nan
    | inf u =>
      show Zr (open Classical in if a = 0 then .nan else .inf (s ^^ u)) (open Classical in if a = 0 then .nan else .inf (t ^^ u))
      by_cases c : a = 0
      · rw [if_pos c, if_pos c]; exact .nan
      · rw [if_neg c, if_neg c, h.resolve_right c]; exact .inf _
    | fin s' t' a' b' ha' hb' e' h' =>
      subst e'
      refine .ofMag (mul_nonneg ha.1 ha'.1) (mul_nonneg hb.1 hb'.1) rfl ?_
      rcases h with rfl | rfl
      · rcases h' with rfl | rfl
        · exact .inl rfl
        · right; simp
      · right; simp

/-- a square does not depend on the sign of a zero at all -/
theorem sq (h : Zr a a') : a * a = a' * a' := by
  cases h with
  | nan => rfl
  | inf s => rfl
  | fin s t a b ha hb e h =>
    subst e
    rcases h with rfl | rfl
    · rfl
    · cases s <;> cases t <;> rfl

/-- division by the same number -/
theorem divR (h : Zr a a') (c : F32) : Zr (a / c) (a' / c) := by
  cases h with
  | nan => exact .nan
  | inf s => exact .refl _
  | fin s t a b ha hb e h =>
    subst e
    cases c with
    | nan => exact .nan
    | inf u => exact Zr.ofMag (le_refl 0) (le_refl 0) rfl (.inr rfl)
    | fin u c hc =>
      show Zr (open Classical in if c = 0 then (if a = 0 then .nan else .inf (s ^^ u)) else F32.ofMag (s ^^ u) (a / c) _)
        (open Classical in if c = 0 then (if a = 0 then .nan else .inf (t ^^ u)) else F32.ofMag (t ^^ u) (a / c) _)
      by_cases k : c = 0
      · rw [if_pos k, if_pos k]
        by_cases k : a = 0
        · rw [if_pos k, if_pos k]; exact .nan
        · rw [if_neg k, if_neg k, h.resolve_right k]; exact .inf _
      · rw [if_neg k, if_neg k]
        refine .ofMag _ _ rfl ?_
        rcases h with rfl | rfl
        · exact .inl rfl
        · right; simp

/-- related values that are not zero are the same -/
theorem same (h : Zr a a') (h0 : ¬ F32.eq a 0) : a = a' := by
  cases h with
  | nan => rfl
  | inf s => rfl
  | fin s t a b ha hb e h =>
    subst e
    have : a ≠ 0 := by
      rintro rfl
      apply h0
      show F32.eq (.fin s 0 ha) (F32.ofReal false 0)
      unfold F32.ofReal
      rw [if_pos rfl]
      cases s <;> simp [F32.eq, F32.sval]
    rw [h.resolve_right this]

/-- division by a number that is not zero -/
theorem div (h : Zr a a') (g : Zr b b') (h0 : ¬ F32.eq b 0) : Zr (a / b) (a' / b') := by
  rw [← g.same h0]; exact h.divR b

theorem lt (h : Zr a a') (g : Zr b b') : a < b ↔ a' < b' := by
  show F32.lt a b ↔ F32.lt a' b'
  cases h with
  | nan => simp [F32.lt]
  | inf s => cases g with
    | nan => simp [F32.lt]
    | inf t => rfl
    | fin _ _ _ _ _ _ _ _ => simp [F32.lt]
  | fin s t a b ha hb e h => cases g with
    | nan => simp [F32.lt]
    | inf t => simp [F32.lt]
    | fin s' t' a' b' ha' hb' e' h' => simp only [F32.lt, Zr.sval e h, Zr.sval e' h']

theorem eqv (h : Zr a a') (g : Zr b b') : F32.eq a b ↔ F32.eq a' b' := by
  cases h with
  | nan => simp [F32.eq]
  | inf s => cases g with
    | nan => simp [F32.eq]
    | inf t => rfl
    | fin _ _ _ _ _ _ _ _ => simp [F32.eq]
  | fin s t a b ha hb e h => cases g with
    | nan => simp [F32.eq]
    | inf t => simp [F32.eq]
    | fin s' t' a' b' ha' hb' e' h' => simp only [F32.eq, Zr.sval e h, Zr.sval e' h']

theorem le (h : Zr a a') (g : Zr b b') : a ≤ b ↔ a' ≤ b' := or_congr (h.lt g) (h.eqv g)

theorem trans {c : F32} (h : Zr a b) (g : Zr b c) : Zr a c := by
  rcases Zr.iff.1 h with rfl | h
  · exact g
  · rcases Zr.iff.1 g with rfl | g
    · exact .of_eq h
    · exact .of_eq (((Zr.refl a).eqv (.of_eq g)).1 h)

section
variable [env : F32Env]

theorem sqrt (h : Zr a a') : Zr (FloatExtra.sqrt a) (FloatExtra.sqrt a') := by
  show Zr (F32.sqrt a) (F32.sqrt a')
  cases h with
  | nan => exact .nan
  | inf s => exact .refl _
  | fin s t a b ha hb e h =>
    subst e
    rcases h with rfl | rfl
    · exact .refl _
    · unfold F32.sqrt
      dsimp only
      rw [if_pos rfl, if_pos rfl]
      exact Zr.ofMag (le_refl 0) (le_refl 0) rfl (.inr rfl)

theorem abs (h : Zr a a') : FloatExtra.abs a = FloatExtra.abs a' := by
  cases h with
  | nan => rfl
  | inf s => rfl
  | fin s t a b ha hb e h => subst e; rfl

theorem fmax (h : Zr a a') (g : Zr b b') : Zr (FloatExtra.fmax a b) (FloatExtra.fmax a' b') := by
  have hl := h.lt g
  cases h with
  | nan => exact g
  | inf s => cases g with
    | nan => exact .inf s
    | inf t => exact .refl _
    | fin s' t' a' b' ha' hb' e' h' =>
      show Zr (if F32.inf s < _ then _ else _) (if F32.inf s < _ then _ else _)
      simp only [hl]
      split
      · exact .fin _ _ _ _ _ _ e' h'
      · exact .inf s
  | fin s t a b ha hb e h => cases g with
    | nan => exact .fin _ _ _ _ _ _ e h
    | inf u =>
      show Zr (if _ < F32.inf u then _ else _) (if _ < F32.inf u then _ else _)
      simp only [hl]
      split
      · exact .inf u
      · exact .fin _ _ _ _ _ _ e h
    | fin s' t' a' b' ha' hb' e' h' =>
      show Zr (if F32.fin s a ha < F32.fin s' a' ha' then _ else _) (if F32.fin t b hb < F32.fin t' b' hb' then _ else _)
      simp only [hl]
      split
      · exact .fin _ _ _ _ _ _ e' h'
      · exact .fin _ _ _ _ _ _ e h

theorem zero : Zr 0 0 := .refl _
theorem one : Zr 1 1 := .refl _
theorem eps : Zr FloatExtra.epsilon FloatExtra.epsilon := .refl _
theorem tol : Zr FloatExtra.tol FloatExtra.tol := .refl _
theorem f32Min : Zr FloatExtra.f32Min FloatExtra.f32Min := .refl _

theorem ltInf (h : Zr a a') : FloatExtra.ltInf a = FloatExtra.ltInf a' := by
  show decide (a < F32.inf false) = decide (a' < F32.inf false)
  simp only [h.lt (Zr.inf false)]

theorem isFinite (h : Zr a a') : FloatExtra.isFinite a = FloatExtra.isFinite a' := by
  cases h <;> rfl

end

end Zr

end Auburn
