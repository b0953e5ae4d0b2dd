import Verif.Lib.EpaMargin

/-!
# The search of `sdfv` (library lemmas, exact arithmetic)
-/

set_option linter.unusedSectionVars false
set_option synthInstance.maxSize 1000

namespace Auburn

open V2

section
variable {K : Type} [Field K] [LinearOrder K] [IsStrictOrderedRing K] [FloatExtra K]
  [ExactFloat K] {M : Set (V2 K)} {S : V2 K → V2 K}

theorem gjkFull_separates (hS : ∀ d, IsExtreme M d (S d)) :
    ∀ (n : Nat) (p : Bool) (d l : V2 K) (pts : List (V2 K)) r, gjkFull S n p d l pts = .ok r →
      r.1 = true → r.2 ≠ 0 → Separates M r.2 := by
  intro n
  induction n with
  | zero =>
    intro p d l pts r hr ht
    simp only [gjkFull] at hr
    split at hr
    · cases hr
    · simp only [Except.ok.injEq] at hr
      subst hr; simp at ht
  | succ n ih =>
    intro p d l pts r hr ht h0
    simp only [gjkFull] at hr
    generalize (if (S d).dot d ≤ 0 then false else p) = p' at hr
    split at hr
    · split at hr
      · cases hr
      · simp only [Except.ok.injEq] at hr
        subst hr; simp at ht
    · split at hr
      · cases hr
      · split at hr
        · cases hr
        · split at hr
          · split at hr
            · cases hr
            · split at hr
              · cases hr
              · next hv =>
                simp only [Except.ok.injEq] at hr
                subst hr
                exact epa_separates hS _ _ _ hv h0
          · exact ih _ _ _ _ _ hr ht h0

theorem epa_error : ∀ (n : Nat) (pts : List (V2 K)), epa S n pts ≠ .error .collidedAfterImpossible := by
  intro n
  induction n with
  | zero => intro pts h; simp [epa] at h
  | succ n ih =>
    intro pts h
    simp only [epa] at h
    split_ifs at h
    · exact ih _ h
    · cases h

/-- every direction has a support point beyond the origin -/
def Surrounds (S : V2 K → V2 K) : Prop := ∀ d : V2 K, d ≠ 0 → 0 < (S d).dot d

theorem addPoint_error {pts : List (V2 K)} {a : V2 K} {e : Panic} (h : addPoint pts a = .error e) :
    e = .unreachable := by
  match pts with
  | [] => simp [addPoint] at h
  | [b] => simp only [addPoint] at h; split_ifs at h
  | [b, c] => simp only [addPoint] at h; split_ifs at h
  | _ :: _ :: _ :: _ => simp only [addPoint, Except.error.injEq] at h; exact h.symm

theorem enforceCcw_error {pts : List (V2 K)} {e : Panic} (h : enforceCcw pts = .error e) :
    e = .assertFailed := by
  unfold enforceCcw at h
  split at h
  · split_ifs at h
  · simp only [Except.error.injEq] at h; exact h.symm

theorem gjkFull_no_panic (hpos : Surrounds S) :
    ∀ (n : Nat) (d l : V2 K) (pts : List (V2 K)), d ≠ 0 → pts ≠ [] →
      gjkFull S n true d l pts ≠ .error .collidedAfterImpossible := by
  intro n
  induction n with
  | zero =>
    intro d l pts _ _ h
    simp only [gjkFull] at h
    split at h
    · next e he =>
      unfold distanceToOrigin at he
      split at he
      · cases he
      · simp only at he
        split_ifs at he
      · cases he; cases h
    · cases h
  | succ n ih =>
    intro d l pts hd hp h
    have h1 : ¬ (S d).dot d ≤ 0 := not_le.2 (hpos d hd)
    simp only [gjkFull, h1, false_and, if_false] at h
    split at h
    · next e he =>
      rw [addPoint_error he] at h; cases h
    · next q hq =>
      simp only [Bool.true_eq_false, and_false, if_false] at h
      split at h
      · split at h
        · next e he => rw [enforceCcw_error he] at h; cases h
        · next pts' hp' =>
          split at h
          · next e he => cases h; exact epa_error _ _ he
          · cases h
      · refine ih _ _ _ (overrideDir_ne hd) ?_ h
        intro h0
        have : q.pts ≠ [] := by
          match pts, hq with
          | [], hq => simp only [addPoint, Except.ok.injEq] at hq; subst hq; simp
          | [b], hq =>
            simp only [addPoint] at hq
            split_ifs at hq <;> simp only [Except.ok.injEq] at hq <;> subst hq <;> simp
          | [b, c], hq =>
            simp only [addPoint] at hq
            split_ifs at hq <;> simp only [Except.ok.injEq] at hq <;> subst hq <;> simp
          | _ :: _ :: _ :: _, hq => simp [addPoint] at hq
        exact this h0

theorem gjkPenetrate_mono : ∀ (n : Nat) (d : V2 K) (pts : List (V2 K)) v,
    gjkPenetrate S n d pts = .ok (true, v) → gjkPenetrate S (n + 1) d pts = .ok (true, v) := by
  intro n
  induction n with
  | zero => intro d pts v h; simp [gjkPenetrate] at h
  | succ n ih =>
    intro d pts v h
    rw [gjkPenetrate] at h ⊢
    by_cases h1 : (S d).dot d ≤ 0
    · rw [if_pos h1] at h; simp at h
    · rw [if_neg h1] at h ⊢
      cases hq : addPoint pts (S d) with
      | error e => rw [hq] at h; cases h
      | ok q =>
        rw [hq] at h
        simp only at h ⊢
        by_cases hc : q.collides = true
        · rw [if_pos hc] at h ⊢; exact h
        · rw [if_neg hc] at h ⊢
          exact ih _ _ _ h

theorem gjkFull_of_penetrate (hpos : Surrounds S) :
    ∀ (n : Nat) (d l : V2 K) (pts : List (V2 K)) v, d ≠ 0 →
      gjkPenetrate S n d pts = .ok (true, v) → gjkFull S n true d l pts = .ok (true, v) := by
  intro n
  induction n with
  | zero => intro d l pts v _ h; simp [gjkPenetrate] at h
  | succ n ih =>
    intro d l pts v hd h
    have h1 : ¬ (S d).dot d ≤ 0 := not_le.2 (hpos d hd)
    simp only [gjkFull, h1, false_and, if_false]
    rw [gjkPenetrate] at h
    rw [if_neg h1] at h
    cases hq : addPoint pts (S d) with
    | error e => rw [hq] at h; cases h
    | ok q =>
      rw [hq] at h
      simp only [Bool.true_eq_false, and_false, if_false] at h ⊢
      by_cases hc : q.collides = true
      · rw [if_pos hc] at h ⊢; exact h
      · rw [if_neg hc] at h ⊢
        exact ih _ _ _ _ (overrideDir_ne hd) h

theorem HasDisc.surrounds [ExactSqrt K] {δ : K} (hδ : 0 < δ) (hD : HasDisc M δ)
    (hS : ∀ d, IsExtreme M d (S d)) : Surrounds S := by
  intro d hd
  have := (hD.support hδ.le hd (hS d).2).1
  have := mul_pos hδ (V2.length_pos.2 hd)
  rw [dot_comm]; linarith

/-- without square roots -/
theorem HasDisc.surrounds' {δ : K} (hδ : 0 < δ) (hD : HasDisc M δ)
    (hS : ∀ d, IsExtreme M d (S d)) : Surrounds S := by
  intro d hd
  by_contra hn
  refine hD.not_oneSide hδ ⟨d, hd, fun m hm => ?_⟩
  have := (hS d).2 m hm
  rw [dot_comm] at hn
  linarith

end
end Auburn
