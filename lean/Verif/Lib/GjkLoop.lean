import Verif.Lib.GjkStep

/-!
# The search loops (library lemmas, exact arithmetic)
-/

set_option linter.unusedSectionVars false
set_option synthInstance.maxSize 1000

namespace Auburn

open V2

section
variable {K : Type} [Field K] [LinearOrder K] [IsStrictOrderedRing K] [FloatExtra K]
  [ExactFloat K] {M : Set (V2 K)} {S : V2 K → V2 K}

/-- `M` comes within `ε^(1/3)` of the origin -/
def NearOrigin (M : Set (V2 K)) : Prop := ∃ m ∈ M, lengthSq m ^ 3 < (1 / 2 ^ 23 : K) ^ 2

/-- some line through the origin has `M` on one side -/
def OneSide (M : Set (V2 K)) : Prop := ∃ n : V2 K, n ≠ 0 ∧ ∀ m ∈ M, n.dot m ≤ 0

/-- `k` different values of the support function -/
def ManySupport (S : V2 K → V2 K) (k : Nat) : Prop :=
  ∃ L : List (V2 K), L.Nodup ∧ L.length = k ∧ ∀ e ∈ L, ∃ d, d ≠ 0 ∧ e = S d

theorem nearOrigin_of_zero (h : (0 : V2 K) ∈ M) : NearOrigin M :=
  ⟨0, h, by simp [lengthSq_def]⟩

theorem StepOk.nearOrigin {L : List (V2 K)} {d : V2 K} {r : AddResult K} (h : StepOk M L d r)
    (hc : r.collides = false) (hs : directionTooSmall r.dir) : NearOrigin M := by
  obtain ⟨m, hm, h1⟩ := h.near hc
  refine ⟨m, hm, ?_⟩
  have h2 : lengthSq r.dir < (1 / 2 ^ 23 : K) ^ 2 := by
    have : lengthSq r.dir < FloatExtra.epsilon * FloatExtra.epsilon := hs
    rwa [ExactFloat.epsilon_eq, ← sq] at this
  rcases h1 with h1 | h1
  · exact h1.trans_lt h2
  · rw [h1]
    have h3 := lengthSq_nonneg r.dir
    have h4 : lengthSq r.dir < 1 := h2.trans_le (by
      rw [div_pow, one_pow, div_le_one (by positivity)]; norm_num)
    calc lengthSq r.dir ^ 3 ≤ lengthSq r.dir ^ 1 :=
          pow_le_pow_of_le_one h3 h4.le (by norm_num)
      _ < _ := by rw [pow_one]; exact h2

theorem not_tooSmall_ne {d : V2 K} (h : ¬ directionTooSmall d) : d ≠ 0 := by
  rintro rfl
  apply h
  show lengthSq (0 : V2 K) < _
  rw [ExactFloat.epsilon_eq, (lengthSq_eq_zero (a := (0 : V2 K))).2 rfl]
  positivity

theorem perp_ne {d : V2 K} (h : d ≠ 0) : d.perp ≠ 0 := by
  rw [← lengthSq_pos] at h ⊢
  have : lengthSq d.perp = lengthSq d := by simp only [lengthSq_def, perp_x, perp_y]; ring
  rw [this]; exact h

theorem overrideDir_ne {d n : V2 K} (h : d ≠ 0) : overrideDir d n ≠ 0 := by
  unfold overrideDir
  split_ifs with h1
  · exact perp_ne h
  · exact not_tooSmall_ne h1

theorem GInv.fresh {L : List (V2 K)} {d : V2 K} {pts} (h : GInv M L d pts) (hL : L.Nodup)
    {a : V2 K} (ha : 0 < a.dot d) : (a :: L).Nodup := by
  refine List.nodup_cons.2 ⟨fun hm => ?_, hL⟩
  have := h.visited a hm
  rw [dot_comm] at this
  linarith

theorem gjkCollide_spec (hM : Convex K M) (hS : ∀ d, IsExtreme M d (S d)) :
    ∀ (n : Nat) (L : List (V2 K)) (d : V2 K) (pts : List (V2 K)), GInv M L d pts → L.Nodup →
      (∀ e ∈ L, ∃ d, d ≠ 0 ∧ e = S d) → ∀ r, gjkCollide S n d pts = .ok r →
      (r.1 = true → NearOrigin M) ∧
      (r.1 = false → OneSide M ∨ ManySupport S (L.length + n)) := by
  intro n
  induction n with
  | zero =>
    intro L d pts _ hL hLS r hr
    simp only [gjkCollide, Except.ok.injEq] at hr
    subst hr
    exact ⟨by simp, fun _ => Or.inr ⟨L, hL, rfl, hLS⟩⟩
  | succ n ih =>
    intro L d pts hI hL hLS r hr
    simp only [gjkCollide] at hr
    by_cases h1 : (S d).dot d ≤ 0
    · rw [if_pos h1] at hr
      simp only [Except.ok.injEq] at hr
      subst hr
      refine ⟨by simp, fun _ => Or.inl ⟨d, hI.dir_ne, fun m hm => ?_⟩⟩
      rw [dot_comm] at h1
      exact ((hS d).2 m hm).trans h1
    · rw [if_neg h1] at hr
      obtain ⟨q, hq, hok⟩ := hI.step hM (hS d) (not_le.1 h1)
      rw [hq] at hr
      simp only at hr
      by_cases h2 : q.collides = true ∨ directionTooSmall q.dir
      · rw [if_pos h2] at hr
        simp only [Except.ok.injEq] at hr
        subst hr
        refine ⟨fun _ => ?_, by simp⟩
        cases hc : q.collides with
        | true => exact nearOrigin_of_zero (hok.hit hc)
        | false => exact hok.nearOrigin hc (h2.resolve_left (by simp [hc]))
      · rw [if_neg h2] at hr
        have hc : q.collides = false := by
          cases hc : q.collides with
          | true => exact absurd (Or.inl hc) h2
          | false => rfl
        have hI' := hok.next hc (not_tooSmall_ne fun h => h2 (Or.inr h))
        obtain ⟨r1, r2⟩ := ih _ _ _ hI' (hI.fresh hL (not_le.1 h1)) (by
          intro e he
          rcases List.mem_cons.1 he with rfl | he
          · exact ⟨d, hI.dir_ne, rfl⟩
          · exact hLS e he) r hr
        refine ⟨r1, fun h => ?_⟩
        have e : L.length + (n + 1) = (S d :: L).length + n := by simp; omega
        rw [e]; exact r2 h

theorem epa_ok' (S : V2 K → V2 K) (n : Nat) (pts : List (V2 K)) (h : pts.length = 3) :
    ∃ v, epa S n pts = .ok v := epa_ok S n pts (by omega)

theorem gjkPenetrate_spec (hM : Convex K M) (hS : ∀ d, IsExtreme M d (S d)) :
    ∀ (n : Nat) (L : List (V2 K)) (d : V2 K) (pts : List (V2 K)), d ≠ 0 → pts.length ≤ 2 →
      (NearOrigin M ∨ GInv M L d pts ∧ L.Nodup ∧ (∀ e ∈ L, ∃ d, d ≠ 0 ∧ e = S d)) →
      ∀ r, gjkPenetrate S n d pts = .ok r →
      (r.1 = true → NearOrigin M) ∧
      (r.1 = false → OneSide M ∨ NearOrigin M ∨ ManySupport S (L.length + n)) := by
  intro n
  induction n with
  | zero =>
    intro L d pts _ _ hI r hr
    simp only [gjkPenetrate, Except.ok.injEq] at hr
    subst hr
    refine ⟨by simp, fun _ => Or.inr ?_⟩
    rcases hI with h | ⟨_, hL, hLS⟩
    · exact Or.inl h
    · exact Or.inr ⟨L, hL, rfl, hLS⟩
  | succ n ih =>
    intro L d pts hd hlen hI r hr
    simp only [gjkPenetrate] at hr
    by_cases h1 : (S d).dot d ≤ 0
    · rw [if_pos h1] at hr
      simp only [Except.ok.injEq] at hr
      subst hr
      refine ⟨by simp, fun _ => Or.inl ⟨d, hd, fun m hm => ?_⟩⟩
      rw [dot_comm] at h1
      exact ((hS d).2 m hm).trans h1
    · rw [if_neg h1] at hr
      rcases hI with hN | ⟨hI, hL, hLS⟩
      · -- already near
        obtain ⟨q, hq, h3, h2⟩ := addPoint_ok pts (S d) hlen
        rw [hq] at hr
        simp only at hr
        cases hc : q.collides with
        | true => exact ⟨fun _ => hN, fun _ => Or.inr (Or.inl hN)⟩
        | false =>
          exact ⟨fun _ => hN, fun _ => Or.inr (Or.inl hN)⟩
      · obtain ⟨q, hq, hok⟩ := hI.step hM (hS d) (not_le.1 h1)
        rw [hq] at hr
        simp only at hr
        cases hc : q.collides with
        | true =>
          have hz := nearOrigin_of_zero (hok.hit hc)
          exact ⟨fun _ => hz, fun _ => Or.inr (Or.inl hz)⟩
        | false =>
          rw [if_neg (by simp [hc])] at hr
          obtain ⟨q', hq', h3, h2⟩ := addPoint_ok pts (S d) hI.length
          rw [hq] at hq'
          cases hq'
          by_cases h4 : directionTooSmall q.dir
          · have hz := hok.nearOrigin hc h4
            exact ⟨fun _ => hz, fun _ => Or.inr (Or.inl hz)⟩
          · have hI' := hok.next hc (not_tooSmall_ne h4)
            have e0 : overrideDir d q.dir = q.dir := if_neg h4
            rw [e0] at hr
            obtain ⟨r1, r2⟩ := ih (S d :: L) _ _ hI'.dir_ne (h2 hc).2
              (Or.inr ⟨hI', hI.fresh hL (not_le.1 h1), by
                intro e he
                rcases List.mem_cons.1 he with rfl | he
                · exact ⟨d, hI.dir_ne, rfl⟩
                · exact hLS e he⟩) r hr
            refine ⟨r1, fun h => ?_⟩
            have e : L.length + (n + 1) = (S d :: L).length + n := by simp; omega
            rw [e]; exact r2 h

end
end Auburn
