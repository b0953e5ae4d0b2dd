import Verif.Lib.GjkGuard

/-!
# The distance searches: no panic, a hit means contact, and what the distance is worth
(library lemmas, exact arithmetic)

`Resolved G` says that no search direction computed from points with `G` is shorter than `2^-23`
without being zero.
-/

set_option linter.unusedSectionVars false
set_option synthInstance.maxSize 1000

namespace Auburn

open V2

section
variable {K : Type} [Field K] [LinearOrder K] [IsStrictOrderedRing K] [FloatExtra K]
  [ExactFloat K] {M : Set (V2 K)} {S : V2 K → V2 K}

/-- states of the distance searches; `possible` is the flag `collision_possible`, the fourth
argument the newest point -/
inductive FInv (M : Set (V2 K)) : Bool → V2 K → V2 K → List (V2 K) → Prop
  | one (c : V2 K) : c ∈ M → FInv M true (-c) c [c]
  | t1 (possible : Bool) (b c d : V2 K) : T1 M b c d →
      ((∃ x ∈ M, d.dot x < 0) ∨ b = 0 ∨ possible = true) → FInv M possible d b [b, c]
  | t2 (possible : Bool) (b c : V2 K) : T2 M b c → FInv M possible (-b) b [b, c]

theorem neg_dot' (a b : V2 K) : (-a).dot b = -a.dot b := by
  rw [dot_comm, dot_neg, dot_comm b]

/-- one step of a distance search -/
theorem FInv.step {possible possible' : Bool} {d l a : V2 K} {pts : List (V2 K)}
    (h : FInv M possible d l pts) (hM : Convex K M) (ha : IsExtreme M d a)
    (hprog : d.dot l < d.dot a) (hpos : 0 < d.dot a → possible' = possible)
    (hlow : possible' = false → OneSide M) {r : AddResult K} (hr : addPoint pts a = .ok r)
    (hsmall : r.collides = false → directionTooSmall r.dir → r.dir = 0) :
    (r.collides = true → possible' = true ∧ (0 : V2 K) ∈ M ∧ r.pts.length = 3) ∧
    (r.collides = false → FInv M possible' (overrideDir d r.dir) a r.pts) := by
  -- a direction that is not zero is kept
  have hkeep : r.collides = false → r.dir ≠ 0 → overrideDir d r.dir = r.dir :=
    fun hc h0 => if_neg fun h1 => h0 (hsmall hc h1)
  cases h with
  | one _ hc =>
    have hca : l.dot a < l.dot l := by rw [neg_dot', neg_dot'] at hprog; linarith
    have hc0 : l ≠ 0 := by
      rintro rfl
      rw [dot_zero, dot_comm, dot_zero] at hca
      exact lt_irrefl _ hca
    have hac : a ≠ l := by rintro rfl; exact lt_irrefl _ hca
    simp only [addPoint] at hr
    split_ifs at hr with h1
    · simp only [Except.ok.injEq] at hr
      subst hr
      refine ⟨fun hc => (by cases hc), fun hcol => ?_⟩
      by_cases h2 : (l - a).cross (-a) = 0
      · -- the origin is on the segment
        have h3 : (l - a).crossAba (-a) = 0 := by
          rw [← lengthSq_eq_zero, crossAba_lengthSq, h2]; ring
        have h4 : directionTooSmall (0 : V2 K) := by
          by_contra hn
          exact not_tooSmall_ne hn rfl
        have e : overrideDir (-l) ((l - a).crossAba (-a)) = (-l).perp := by
          rw [h3]; exact if_pos h4
        rw [e]
        have h5 : l.cross a = 0 := by
          have : (l - a).cross (-a) = -l.cross a := by
            simp only [cross_def, sub_x, sub_y, neg_x, neg_y]; ring
          rw [this] at h2
          linarith
        have d1 : ((-l).perp).dot l = 0 := by
          simp only [dot_def, perp_x, perp_y, neg_x, neg_y]; ring
        have d2 : ((-l).perp).dot a = 0 := by
          have : ((-l).perp).dot a = -l.cross a := by
            simp only [dot_def, cross_def, perp_x, perp_y, neg_x, neg_y]; ring
          rw [this, h5, neg_zero]
        refine .t1 _ _ _ _ (T1.start hc ha hca h1 (perp_ne (neg_ne_zero.2 hc0))
          (d2.trans d1.symm) d2.le) (Or.inr ?_)
        by_cases hf : 0 < (-l).dot a
        · exact Or.inr (hpos hf)
        · left
          rw [neg_dot'] at hf
          have e1 := frame_dot l a a
          rw [h5, mul_zero, add_zero] at e1
          have h6 : 0 ≤ a.dot a - l.dot a := by
            rw [dot_neg, dot_comm, dot_sub, dot_comm a l] at h1; linarith
          have hL := lengthSq_pos.2 hc0
          have h7 := mul_nonneg hL.le h6
          rw [mul_sub, e1] at h7
          have h8 : l.dot a = 0 := by
            by_contra hn
            have h9 : 0 < l.dot a := lt_of_le_of_ne (by linarith) (Ne.symm hn)
            have := mul_pos h9 (show 0 < lengthSq l - l.dot a by rw [← dot_self]; linarith)
            linarith
          exact frame_zero hc0 h8 h5
      · have h3 : (l - a).crossAba (-a) ≠ 0 := by
          rw [← lengthSq_pos, crossAba_lengthSq]
          exact mul_pos (lengthSq_pos.2 (sub_ne_zero.2 hac.symm)) (by positivity)
        rw [hkeep rfl h3]
        have d0 : ((l - a).crossAba (-a)).dot (l - a) = 0 := by
          rw [crossAba_dot, cross_self, mul_zero]
        have d1 : ((l - a).crossAba (-a)).dot a < 0 := by
          have e : (l - a).cross a = -(l - a).cross (-a) := by rw [cross_neg]; ring
          rw [crossAba_dot, e]
          have := mul_self_pos.2 h2
          linarith
        rw [dot_sub] at d0
        exact .t1 _ _ _ _ (T1.start hc ha hca h1 h3 (by linarith) d1.le)
          (Or.inl ⟨a, ha.1, d1⟩)
    · simp only [Except.ok.injEq] at hr
      subst hr
      refine ⟨fun hc => (by cases hc), fun _ => ?_⟩
      have ha0 : -a ≠ 0 := by
        intro h0
        apply h1
        show 0 ≤ _
        rw [h0, dot_zero]
      rw [hkeep rfl ha0]
      refine .t2 _ _ _ ⟨ha.1, hc, not_le.1 h1, fun x hx => ?_⟩
      have := ha.2 x hx
      rw [neg_dot', neg_dot'] at this
      linarith
  | t1 _ _ c _ hT hz =>
    simp only [addPoint, acPerp_eq, sameDirection] at hr
    have hD := hprog
    split_ifs at hr with h1 h2 h2
    · simp only [Except.ok.injEq] at hr
      subst hr
      refine ⟨fun hc => (by cases hc), fun _ => ?_⟩
      obtain ⟨t, z⟩ := Guard.next hT.hd hT.perp hT.le hT.ne hT.bM hT.cM hT.gb ha hD h1
      have e : overrideDir d ((l - a).crossF32 ((l - a).cross (c - a))) = outNormal a l c :=
        hkeep rfl t.hd
      rw [e]
      exact .t1 _ _ _ _ t (Or.inl z)
    · simp only [Except.ok.injEq] at hr
      subst hr
      refine ⟨fun hc => (by cases hc), fun _ => ?_⟩
      have h3 := hT.prov.not_bad hT.hd hT.perp hT.le hT.ne hT.bM hT.cM ha.1 hD hT.gb h1
        (not_le.1 h2)
      obtain ⟨t, z⟩ := Guard.next hT.hd hT.perp.symm (hT.perp ▸ hT.le) hT.ne.symm hT.cM hT.bM hT.gc
        ha (hT.perp ▸ hD) h3
      have e : overrideDir d (outNormal a c l) = outNormal a c l := hkeep rfl t.hd
      rw [e]
      exact .t1 _ _ _ _ t (Or.inl z)
    · simp only [Except.ok.injEq] at hr
      subst hr
      refine ⟨fun hc => (by cases hc), fun _ => ?_⟩
      obtain ⟨t, z⟩ := Guard.next hT.hd hT.perp.symm (hT.perp ▸ hT.le) hT.ne.symm hT.cM hT.bM hT.gc
        ha (hT.perp ▸ hD) h2
      have e : overrideDir d (outNormal a c l) = outNormal a c l := hkeep rfl t.hd
      rw [e]
      exact .t1 _ _ _ _ t (Or.inl z)
    · simp only [Except.ok.injEq] at hr
      subst hr
      refine ⟨fun _ => ?_, fun hc => (by cases hc)⟩
      have h1 := not_le.1 h1
      have h2 := not_le.1 h2
      obtain ⟨hf, h0⟩ := hT.capture hM ha.1 hD h1 h2
      refine ⟨?_, h0, rfl⟩
      cases hp : possible' with
      | true => rfl
      | false =>
        exfalso
        have hz' : (∃ x ∈ M, d.dot x < 0) ∨ l = 0 := by
          rcases hz with hz | hz | hz
          · exact Or.inl hz
          · exact Or.inr hz
          · rw [hpos hf, hz] at hp
            cases hp
        exact hT.no_capture (hlow hp) ha.1 hz' hD h1 h2
  | t2 _ _ c hT =>
    have hba : l.dot a < l.dot l := by rw [neg_dot', neg_dot'] at hprog; linarith
    obtain ⟨s1, s2, s3⟩ := hT.step ha hba
    simp only [addPoint, acPerp_eq, sameDirection] at hr
    have h1 : (((l - a).crossF32 ((l - a).cross (c - a))).dot (-a) ≥ 0) := s1.le
    rw [if_pos h1] at hr
    split_ifs at hr with h2
    · simp only [Except.ok.injEq] at hr
      subst hr
      refine ⟨fun hc => (by cases hc), fun _ => ?_⟩
      obtain ⟨t, z⟩ := s2 h2
      have e : overrideDir (-l) ((l - a).crossF32 ((l - a).cross (c - a))) = outNormal a l c :=
        hkeep rfl t.hd
      rw [e]
      exact .t1 _ _ _ _ t (Or.inl z)
    · simp only [Except.ok.injEq] at hr
      subst hr
      refine ⟨fun hc => (by cases hc), fun _ => ?_⟩
      obtain ⟨t, z⟩ := s3 (not_le.1 h2)
      have e : overrideDir (-l) (outNormal a c l) = outNormal a c l := hkeep rfl t.hd
      rw [e]
      exact .t1 _ _ _ _ t (Or.inl z)

/-- the direction of a state is not zero unless the search is at its first point, the origin -/
theorem FInv.below {possible : Bool} {d l : V2 K} {pts : List (V2 K)} (h : FInv M possible d l pts) :
    d.dot l ≤ 0 ∧ (d = 0 → pts = [0]) := by
  cases h with
  | one _ _ =>
    refine ⟨?_, fun h0 => by rw [neg_eq_zero.1 h0]⟩
    rw [neg_dot']
    have : 0 ≤ l.dot l := lengthSq_nonneg l
    linarith
  | t1 _ _ c _ hT _ => exact ⟨hT.le, fun h0 => absurd h0 hT.hd⟩
  | t2 _ _ c hT =>
    refine ⟨?_, fun h0 => ?_⟩
    · rw [neg_dot']
      have : 0 ≤ l.dot l := lengthSq_nonneg l
      linarith
    · exfalso
      have := hT.past
      rw [h0, dot_zero] at this
      exact lt_irrefl _ this

/-- if the search is not stopped, the new point is strictly further in the search direction -/
theorem better_lt {f h : K} (hh : h ≤ 0)
    (hb : ¬ (f ≤ 0 ∧ ¬ sufficientlyBetter f h FloatExtra.tol)) : h < f := by
  by_cases hf : f ≤ 0
  · have hb : sufficientlyBetter f h FloatExtra.tol := by
      by_contra hn
      exact hb ⟨hf, hn⟩
    unfold sufficientlyBetter at hb
    rw [if_neg (not_lt.2 hh)] at hb
    have ht : (0 : K) ≤ FloatExtra.tol := by rw [ExactFloat.tol_eq]; norm_num
    have := mul_nonpos_of_nonpos_of_nonneg hh ht
    have hb' : h * (1 - FloatExtra.tol) < f := hb
    linarith
  · linarith [not_le.1 hf]

/-- directions computed from points with `G` are not mistaken for zero -/
def Resolved (G : V2 K → Prop) : Prop :=
  ∀ (pts : List (V2 K)) (a : V2 K) (r : AddResult K), (∀ p ∈ pts, G p) → G a →
    addPoint pts a = .ok r →
    (∀ p ∈ r.pts, G p) ∧ (r.collides = false → directionTooSmall r.dir → r.dir = 0)

theorem resolved_grid {N : Nat} (h0 : 0 < N) (hN : N ≤ 203) : Resolved (OnGrid (K := K) N) :=
  fun _ _ _ hp ha hr => addPoint_grid h0 hN hp ha hr

/-- explicit condition: any three of the points, or two and the origin, are collinear or span a
triangle that is not tiny; no point is tiny -/
theorem resolved_of_triangles {G : V2 K → Prop}
    (h1 : ∀ u, G u → u ≠ 0 → (1 / 2 ^ 23 : K) ^ 2 ≤ lengthSq u)
    (h3 : ∀ u v w, G u → G v → (G w ∨ w = 0) → (v - u).cross (w - u) ≠ 0 →
      (1 / 2 ^ 23 : K) ^ 2 ≤ lengthSq (v - u) * (v - u).cross (w - u) ^ 2) : Resolved G := by
  have hsm : ∀ v : V2 K, directionTooSmall v ↔ lengthSq v < (1 / 2 ^ 23 : K) ^ 2 := by
    intro v
    unfold directionTooSmall
    rw [ExactFloat.epsilon_eq, ← sq]
  have hone : ∀ u : V2 K, G u → directionTooSmall (-u) → -u = 0 := by
    intro u hu h
    rw [hsm, lengthSq_neg] at h
    by_contra hn
    have := h1 u hu (neg_ne_zero.1 hn)
    linarith
  have htri : ∀ u v w : V2 K, G u → G v → G w →
      directionTooSmall (outNormal u v w) → outNormal u v w = 0 := by
    intro u v w hu hv hw h
    rw [hsm, outNormal_lengthSq] at h
    by_cases h0 : (v - u).cross (w - u) = 0
    · rw [← lengthSq_eq_zero, outNormal_lengthSq, h0]; ring
    · have := h3 u v w hu hv (Or.inl hw) h0
      linarith
  intro pts a r hp ha hr
  match pts, hp with
  | [], _ =>
    simp only [addPoint, Except.ok.injEq] at hr
    subst hr
    exact ⟨by simpa using ha, fun _ => hone a ha⟩
  | [b], hp =>
    have hb := hp b (by simp)
    simp only [addPoint] at hr
    split_ifs at hr
    · simp only [Except.ok.injEq] at hr
      subst hr
      refine ⟨by simpa using ⟨ha, hb⟩, fun _ h => ?_⟩
      simp only at h ⊢
      rw [hsm, crossAba_lengthSq] at h
      by_cases h0 : (b - a).cross (-a) = 0
      · rw [← lengthSq_eq_zero, crossAba_lengthSq, h0]; ring
      · have := h3 a b 0 ha hb (Or.inr rfl) (by rwa [zero_sub])
        rw [zero_sub] at this
        linarith
    · simp only [Except.ok.injEq] at hr
      subst hr
      exact ⟨by simpa using ⟨ha, hb⟩, fun _ => hone a ha⟩
  | [b, c], hp =>
    have hb := hp b (by simp)
    have hc := hp c (by simp)
    have eq1 : (b - a).crossF32 ((b - a).cross (c - a)) = outNormal a b c := rfl
    simp only [addPoint, acPerp_eq, eq1] at hr
    split_ifs at hr <;> simp only [Except.ok.injEq] at hr <;> subst hr
    · exact ⟨by simpa using ⟨ha, hb⟩, fun _ => htri a b c ha hb hc⟩
    · exact ⟨by simpa using ⟨ha, hc⟩, fun _ => htri a c b ha hc hb⟩
    · exact ⟨by simpa using ⟨ha, hc⟩, fun _ => htri a c b ha hc hb⟩
    · exact ⟨by simpa using ⟨ha, hb, hc⟩, by simp⟩
  | _ :: _ :: _ :: _, _ => simp [addPoint] at hr

/-- `sdfv`'s search: no panic after "no longer possible", a hit means contact -/
theorem gjkFull_resolved {G : V2 K → Prop} (hR : Resolved G) (hM : Convex K M)
    (hS : ∀ d, IsExtreme M d (S d)) (hG : ∀ d, G (S d)) :
    ∀ (n : Nat) (possible : Bool) (d l : V2 K) (pts : List (V2 K)), FInv M possible d l pts →
      (possible = false → OneSide M) → (∀ p ∈ pts, G p) →
      gjkFull S n possible d l pts ≠ .error .collidedAfterImpossible ∧
      ∀ v, gjkFull S n possible d l pts = .ok (true, v) → (0 : V2 K) ∈ M := by
  intro n
  induction n with
  | zero =>
    intro possible d l pts hI _ _
    simp only [gjkFull]
    have : ∃ v, distanceToOrigin pts = .ok v := by
      cases hI <;> simp only [distanceToOrigin] <;> (try split_ifs) <;> exact ⟨_, rfl⟩
    obtain ⟨v, hv⟩ := this
    rw [hv]
    exact ⟨by simp, by simp⟩
  | succ n ih =>
    intro possible d l pts hI hlow hpG
    have hdist : ∃ v, distanceToOrigin pts = .ok v := by
      cases hI <;> simp only [distanceToOrigin] <;> (try split_ifs) <;> exact ⟨_, rfl⟩
    rw [gjkFull]
    by_cases h1 : (S d).dot d ≤ 0 ∧ ¬ sufficientlyBetter ((S d).dot d) (l.dot d) FloatExtra.tol
    · obtain ⟨v, hv⟩ := hdist
      simp only [if_pos h1, hv]
      exact ⟨by simp, by simp⟩
    · simp only [if_neg h1]
      have hprog : d.dot l < d.dot (S d) := by
        have := better_lt (by rw [dot_comm]; exact hI.below.1) h1
        rwa [dot_comm l, dot_comm (S d)] at this
      set possible' := if (S d).dot d ≤ 0 then false else possible with hp'
      have hd0 : d ≠ 0 := by
        rintro rfl
        rw [dot_comm, dot_zero, dot_comm, dot_zero] at hprog
        exact lt_irrefl _ hprog
      have hlow' : possible' = false → OneSide M := by
        intro h
        by_cases hf : (S d).dot d ≤ 0
        · exact ⟨d, hd0, fun m hm => ((hS d).2 m hm).trans (by rw [dot_comm]; exact hf)⟩
        · rw [hp', if_neg hf] at h
          exact hlow h
      have hpos : 0 < d.dot (S d) → possible' = possible := by
        intro h
        rw [hp', if_neg (by rw [dot_comm]; exact not_le.2 h)]
      cases hq : addPoint pts (S d) with
      | error e =>
        have := addPoint_error hq
        subst this
        exact ⟨by simp, by simp⟩
      | ok r =>
        obtain ⟨g1, g2⟩ := hR _ _ _ hpG (hG d) hq
        obtain ⟨s1, s2⟩ := hI.step hM (hS d) hprog hpos hlow' hq g2
        simp only
        cases hc : r.collides with
        | true =>
          obtain ⟨c1, c2, _⟩ := s1 hc
          simp only [c1]
          simp only [Bool.true_eq_false, and_false, if_false, if_true]
          refine ⟨?_, fun _ _ => c2⟩
          cases he : enforceCcw r.pts with
          | error e => have := enforceCcw_error he; subst this; simp
          | ok p' =>
            simp only
            cases hp : epa S iterationLimit p' with
            | error e =>
              simp only [ne_eq, Except.error.injEq]
              rintro rfl
              exact epa_error _ _ hp
            | ok v => simp
        | false =>
          simp only [Bool.false_eq_true, false_and, if_false]
          exact ih possible' _ _ _ (s2 hc) hlow' g1

/-- `distance_to`'s search: "colliding" means contact -/
theorem gjkDistance_resolved {G : V2 K → Prop} (hR : Resolved G) (hM : Convex K M)
    (hS : ∀ d, IsExtreme M d (S d)) (hG : ∀ d, G (S d)) :
    ∀ (n : Nat) (d l : V2 K) (pts : List (V2 K)), FInv M true d l pts →
      (∀ p ∈ pts, G p) →
      ∀ v, gjkDistance S n d l pts = .ok (true, v) → (0 : V2 K) ∈ M := by
  intro n
  induction n with
  | zero =>
    intro d l pts hI _ v h
    simp only [gjkDistance] at h
    split at h <;> cases h
  | succ n ih =>
    intro d l pts hI hpG v h
    rw [gjkDistance] at h
    by_cases h1 : (S d).dot d ≤ 0 ∧ (S d).dot d ≤ l.dot d
    · simp only [if_pos h1] at h
      split at h <;> cases h
    · simp only [if_neg h1] at h
      have hprog : d.dot l < d.dot (S d) := by
        rw [dot_comm d l, dot_comm d (S d)]
        by_cases hf : (S d).dot d ≤ 0
        · by_contra hn
          exact h1 ⟨hf, not_lt.1 hn⟩
        · have := hI.below.1
          rw [dot_comm] at this
          linarith [not_le.1 hf]
      cases hq : addPoint pts (S d) with
      | error e => rw [hq] at h; cases h
      | ok r =>
        rw [hq] at h
        simp only at h
        obtain ⟨g1, g2⟩ := hR _ _ _ hpG (hG d) hq
        obtain ⟨s1, s2⟩ := hI.step (possible' := true) hM (hS d) hprog (fun _ => rfl)
          (fun h => (by cases h)) hq g2
        cases hc : r.collides with
        | true => exact (s1 hc).2.1
        | false =>
          simp only [hc, Bool.false_eq_true, if_false] at h
          exact ih _ _ _ (s2 hc) g1 v h

end
end Auburn
