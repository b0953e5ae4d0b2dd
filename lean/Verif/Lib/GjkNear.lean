import Verif.Lib.GjkNoPanic

/-!
# What the distance searches find (library lemmas, exact arithmetic)

For a set that does not contain the origin: no point is visited twice, and when the search stops the
closest point of the last edge is a closest point of the set, unless it is an endpoint of the edge.
-/

set_option linter.unusedSectionVars false
set_option synthInstance.maxSize 1000

namespace Auburn

open V2

section
variable {K : Type} [Field K] [LinearOrder K] [IsStrictOrderedRing K]
variable {M : Set (V2 K)} {d p q a : V2 K} {L : List (V2 K)}

/-- `p` is the support point of some direction -/
def Sup (M : Set (V2 K)) (p : V2 K) : Prop := ∃ u : V2 K, u ≠ 0 ∧ ∀ x ∈ M, u.dot x ≤ u.dot p

/-- what is known of an endpoint `p` of an edge `p q` with direction `d`, all visited points being
below the edge -/
def End (M : Set (V2 K)) (L : List (V2 K)) (p q d : V2 K) : Prop :=
  ((∃ u : V2 K, (∀ x ∈ M, u.dot x ≤ u.dot p) ∧ 0 < u.dot p) ∧
    ∀ e ∈ L, d.dot e = d.dot p → 0 ≤ (e - p).dot (q - p)) ∨
  ∃ u : V2 K, u ≠ 0 ∧ (∀ x ∈ M, u.dot x ≤ u.dot p) ∧ u.dot p ≤ 0

theorem Sup.end (h : Sup M p) (hL : ∀ e ∈ L, d.dot e = d.dot p → 0 ≤ (e - p).dot (q - p)) :
    End M L p q d := by
  obtain ⟨u, hu, hs⟩ := h
  rcases lt_or_ge 0 (u.dot p) with h1 | h1
  · exact Or.inl ⟨⟨u, hs, h1⟩, hL⟩
  · exact Or.inr ⟨u, hu, hs, h1⟩

/-- visited points stay below the edge -/
theorem End.below (hd : d ≠ 0) (hperp : d.dot p = d.dot q) (hle : d.dot p ≤ 0) (hne : p ≠ q)
    (hq : q ∈ M) (hg : Guard M p q d) (ha : a ∈ M)
    (hD : d.dot p < d.dot a) (hb : 0 ≤ (outNormal a p q).dot (-a)) (h0 : p ≠ 0)
    (hLM : ∀ e ∈ L, e ∈ M) (hL : ∀ e ∈ L, d.dot e ≤ d.dot p) (hend : End M L p q d) :
    (∀ e ∈ L, (outNormal a p q).dot e ≤ (outNormal a p q).dot p) ∧
    End M L p a (outNormal a p q) := by
  obtain ⟨τ, px, qx, h, ax, f, k⟩ := StepCoords.exists hd hperp hne a
  have hle' := hle
  have hD' := hD
  rw [k.hh] at hle' hD'
  rw [k.hf] at hD'
  have hb' := hb
  rw [(k.beyond hd hD').1] at hb'
  have hLd := lengthSq_pos.2 hd
  have hcpos : 0 < (f - h) * (px - qx) := mul_pos (by linarith) (by linarith [k.right])
  have hn : ∀ e : V2 K, lengthSq d ^ 2 * ((outNormal a p q).dot e - (outNormal a p q).dot p) =
      (f - h) * (px - qx) * ((f - h) * (τ * d.cross e - px) + (px - ax) * (d.dot e - h)) := by
    intro e
    have := k.normal (e - p)
    rw [dot_sub (outNormal a p q), dot_sub d, cross_sub d, mul_sub τ, k.hpx, k.hh] at this
    exact this
  have hsgn : ∀ e : V2 K, (f - h) * (τ * d.cross e - px) + (px - ax) * (d.dot e - h) ≤ 0 →
      (outNormal a p q).dot e ≤ (outNormal a p q).dot p := by
    intro e he
    have e1 := hn e
    by_contra hc
    have h1 := mul_pos (pow_pos hLd 2) (show 0 < (outNormal a p q).dot e - (outNormal a p q).dot p by
      linarith [not_le.1 hc])
    rw [e1] at h1
    have := mul_nonpos_of_nonneg_of_nonpos hcpos.le he
    linarith
  have hsgn' : ∀ e : V2 K, (f - h) * (τ * d.cross e - px) + (px - ax) * (d.dot e - h) < 0 →
      (outNormal a p q).dot e ≠ (outNormal a p q).dot p := by
    intro e he h1
    have e1 := hn e
    rw [h1, sub_self, mul_zero] at e1
    have := mul_neg_of_pos_of_neg hcpos he
    linarith
  -- the support inequality of `u` in coordinates
  have hsup : ∀ u e : V2 K, u.dot e ≤ u.dot p →
      (τ * d.cross u) * (τ * d.cross e - px) + d.dot u * (d.dot e - h) ≤ 0 := by
    intro u e hu
    have e1 := k.dot u (e - p)
    rw [dot_sub u, dot_sub d, cross_sub d, mul_sub τ, k.hpx, k.hh] at e1
    have := mul_nonpos_of_nonneg_of_nonpos hLd.le (show u.dot e - u.dot p ≤ 0 by linarith)
    linarith
  have hp0 : ¬ (px = 0 ∧ h = 0) := by
    rintro ⟨h1, h2⟩
    have h3 := k.hpx
    rw [h1] at h3
    have hτ0 : τ ≠ 0 := by
      intro h0
      have := k.hτ
      rw [h0] at this
      simp at this
    exact h0 (frame_zero hd (k.hh.trans h2) ((mul_eq_zero.1 h3).resolve_left hτ0))
  -- a support direction with nonnegative height
  have hgood : ∀ u : V2 K, u ≠ 0 → (∀ x ∈ M, u.dot x ≤ u.dot p) → 0 ≤ d.dot u →
      ∀ e ∈ L, (outNormal a p q).dot e ≤ (outNormal a p q).dot p := by
    intro u hu0 hu hv e he
    apply hsgn
    obtain ⟨hU, hUa⟩ := k.low hd (hu q hq) (hu a ha)
    have he' := hsup u e (hu e (hLM e he))
    have hey := hL e he
    rw [k.hh] at hey
    generalize hU' : τ * d.cross u = U at *
    generalize hV' : d.dot u = V at *
    generalize τ * d.cross e = ex at *
    generalize d.dot e = ey at *
    have hVD : 0 ≤ V * (f - h) := mul_nonneg hv (by linarith)
    rcases hU.eq_or_lt with h1 | h1
    · exfalso
      rw [← h1, zero_mul, zero_add] at hUa
      have h2 : V = 0 := (mul_eq_zero.1 (le_antisymm hUa hVD)).resolve_right (by linarith)
      exact k.ne_zero hd hu0 (hU'.trans h1.symm) (hV'.trans h2)
    · by_contra hn
      have i1 := mul_pos h1 (not_le.1 hn)
      have i2 := mul_nonneg_of_nonpos_of_nonpos hUa (show ey - h ≤ 0 by linarith)
      have i3 := mul_nonpos_of_nonneg_of_nonpos (show 0 ≤ f - h by linarith) he'
      linarith
  -- a support direction below the origin
  have hlowdir : ∀ u : V2 K, u ≠ 0 → (∀ x ∈ M, u.dot x ≤ u.dot p) → u.dot p ≤ 0 → 0 ≤ px →
      0 ≤ d.dot u := by
    intro u hu0 hu hup hpx
    by_contra hv
    obtain ⟨hU, hUa⟩ := k.low hd (hu q hq) (hu a ha)
    have e1 := k.dot u p
    rw [k.hpx, k.hh] at e1
    have h1 := mul_nonpos_of_nonneg_of_nonpos hLd.le hup
    rw [e1] at h1
    have h2 : 0 ≤ d.dot u * h := mul_nonneg_of_nonpos_of_nonpos (not_le.1 hv).le hle'
    have h3 : 0 ≤ τ * d.cross u * px := mul_nonneg hU hpx
    have h4 : h = 0 := (mul_eq_zero.1 (show d.dot u * h = 0 by linarith)).resolve_left
      (not_le.1 hv).ne
    have h5 : 0 ≤ f * px := mul_nonneg (by linarith) hpx
    rw [h4, zero_mul] at hb'
    exact hp0 ⟨(mul_eq_zero.1 (show f * px = 0 by linarith)).resolve_left (by linarith), h4⟩
  rcases hg with hg | ⟨u, hu0, hu, hup, huv⟩
  swap
  · rw [dot_comm] at huv
    exact ⟨hgood u hu0 hu huv, Or.inr ⟨u, hu0, hu, hup⟩⟩
  have hpx : 0 ≤ px := (k.projP hd).1 hg
  rcases hend with ⟨⟨u, hu, hup⟩, heq⟩ | ⟨u, hu0, hu, hup⟩
  swap
  · exact ⟨hgood u hu0 hu (hlowdir u hu0 hu hup hpx), Or.inr ⟨u, hu0, hu, hup⟩⟩
  -- `p` was found in front of the origin
  have hstrict : ∀ e ∈ L, e = p ∨
      (f - h) * (τ * d.cross e - px) + (px - ax) * (d.dot e - h) < 0 := by
    intro e he
    obtain ⟨hU, hUa⟩ := k.low hd (hu q hq) (hu a ha)
    have he' := hsup u e (hu e (hLM e he))
    have hey := hL e he
    rw [k.hh] at hey
    rcases hey.eq_or_lt with h1 | h1
    · -- on the line of the edge
      have h2 := heq e he (h1.trans k.hh.symm)
      have e1 := k.dot (e - p) (q - p)
      rw [dot_sub d, dot_sub d, cross_sub d, cross_sub d, mul_sub τ, mul_sub τ, k.hh, k.hqh, k.hpx,
        k.hqx, h1, sub_self, zero_mul, zero_add] at e1
      have h3 := mul_nonneg hLd.le h2
      rw [e1] at h3
      have h4 : τ * d.cross e ≤ px := by
        by_contra hn
        have := mul_neg_of_pos_of_neg (show 0 < τ * d.cross e - px by linarith [not_le.1 hn])
          (show qx - px < 0 by linarith [k.right])
        linarith
      rcases h4.eq_or_lt with h5 | h5
      · left
        have hτ0 : τ ≠ 0 := by
          intro h0
          have := k.hτ
          rw [h0] at this
          simp at this
        refine frame_ext hd (h1.trans k.hh.symm) (mul_left_cancel₀ hτ0 (h5.trans k.hpx.symm))
      · right
        rw [h1, sub_self, mul_zero, add_zero]
        exact mul_neg_of_pos_of_neg (by linarith) (by linarith)
    · right
      have e1 := k.dot u p
      rw [k.hpx, k.hh] at e1
      have h2 := mul_pos hLd hup
      rw [e1] at h2
      generalize hU' : τ * d.cross u = U at *
      generalize hV' : d.dot u = V at *
      generalize τ * d.cross e = ex at *
      generalize d.dot e = ey at *
      rcases hU.eq_or_lt with h3 | h3
      · exfalso
        rw [← h3, zero_mul, zero_add] at hUa he'
        have h4 : V ≤ 0 := by
          by_contra hn
          have := mul_pos (not_le.1 hn) (show 0 < f - h by linarith)
          linarith
        have h5 : V ≠ 0 := by
          rintro rfl
          rw [← h3] at h2
          linarith
        have := mul_pos_of_neg_of_neg (lt_of_le_of_ne h4 h5) (show ey - h < 0 by linarith)
        linarith
      · by_contra hn
        have i1 := mul_nonneg h3.le (not_lt.1 hn)
        have i2 := mul_nonneg_of_nonpos_of_nonpos hUa (show ey - h ≤ 0 by linarith)
        have i3 := mul_nonpos_of_nonneg_of_nonpos (show 0 ≤ f - h by linarith) he'
        have i4 : (U * (ax - px) + V * (f - h)) * (ey - h) = 0 := by linarith
        have i5 : U * (ax - px) + V * (f - h) = 0 :=
          (mul_eq_zero.1 i4).resolve_right (by linarith)
        have i6 := mul_nonneg h3.le hb'
        have i7 := mul_pos (show 0 < f - h by linarith) h2
        have i8 : h * (U * (ax - px) + V * (f - h)) = 0 := by rw [i5, mul_zero]
        linarith
  refine ⟨fun e he => ?_, Or.inl ⟨⟨u, hu, hup⟩, fun e he h1 => ?_⟩⟩
  · rcases hstrict e he with h1 | h1
    · rw [h1]
    · exact hsgn e h1.le
  · rcases hstrict e he with h2 | h2
    · rw [h2, sub_self, dot_comm, dot_zero]
    · exact absurd h1 (hsgn' e h2)

/-- the new point as an endpoint -/
theorem End.new {n : V2 K} (hd : d ≠ 0) (ha : IsExtreme M d a) (hD : d.dot p < d.dot a) (hn : n ≠ 0)
    (hnp : n.dot a = n.dot p) (hL : ∀ e ∈ L, d.dot e ≤ d.dot p) : End M (a :: L) a p n := by
  refine Sup.end ⟨d, hd, ha.2⟩ fun e he h1 => ?_
  rcases List.mem_cons.1 he with rfl | he
  · rw [sub_self, dot_comm, dot_zero]
  · have hx : (e - a).cross (p - a) = 0 := by
      have := frame_cross n (e - a) (p - a)
      rw [dot_sub n, dot_sub n, h1, hnp, sub_self, zero_mul, mul_zero, sub_zero] at this
      exact (mul_eq_zero.1 this).resolve_left (lengthSq_pos.2 hn).ne'
    have e1 : lengthSq (p - a) * d.dot (e - a) = (e - a).dot (p - a) * d.dot (p - a) := by
      have : lengthSq (p - a) * d.dot (e - a) - (e - a).dot (p - a) * d.dot (p - a) =
          (e - a).cross (p - a) * d.cross (p - a) := by
        simp only [lengthSq_def, dot_def, cross_def, sub_x, sub_y]; ring
      rw [hx, zero_mul] at this
      linarith
    have h2 := hL e he
    have h3 : d.dot (p - a) < 0 := by rw [dot_sub]; linarith
    have h4 : d.dot (e - a) < 0 := by rw [dot_sub]; linarith
    by_contra hc
    have i1 := mul_pos_of_neg_of_neg (not_le.1 hc) h3
    have i2 := mul_nonpos_of_nonneg_of_nonpos (lengthSq_nonneg (p - a)) h4.le
    linarith

end

section
variable {K : Type} [Field K] [LinearOrder K] [IsStrictOrderedRing K] [FloatExtra K]
  [ExactFloat K] {M : Set (V2 K)} {S : V2 K → V2 K}

/-- what is known of the visited points when the simplex is an edge -/
structure Seen (M : Set (V2 K)) (L : List (V2 K)) (b c d : V2 K) : Prop where
  below : ∀ e ∈ L, d.dot e ≤ d.dot b
  eb : End M L b c d
  ec : End M L c b d

/-- states of the distance searches, with the list of visited points -/
inductive DInv (M : Set (V2 K)) : List (V2 K) → V2 K → V2 K → List (V2 K) → Prop
  | one (c : V2 K) : Sup M c → c ∈ M → DInv M [c] (-c) c [c]
  | t1 (L : List (V2 K)) (b c d : V2 K) : T1 M b c d → Seen M L b c d → DInv M L d b [b, c]
  | t2 (b c : V2 K) : Sup M b → Sup M c → T2 M b c → DInv M [b, c] (-b) b [b, c]

/-- no visited point is above the newest one -/
theorem DInv.below {L : List (V2 K)} {d l : V2 K} {pts : List (V2 K)} (h : DInv M L d l pts) :
    d.dot l ≤ 0 ∧ ∀ e ∈ L, d.dot e ≤ d.dot l := by
  cases h with
  | one _ _ _ =>
    refine ⟨?_, fun e he => by rw [List.mem_singleton.1 he]⟩
    rw [neg_dot']
    have : 0 ≤ l.dot l := lengthSq_nonneg l
    linarith
  | t1 _ _ c _ hT hs => exact ⟨hT.le, hs.below⟩
  | t2 _ c _ _ hT =>
    have : 0 ≤ l.dot l := lengthSq_nonneg l
    refine ⟨by rw [neg_dot']; linarith, fun e he => ?_⟩
    have h1 := hT.past
    rw [dot_neg, dot_comm, dot_sub] at h1
    rcases List.mem_cons.1 he with rfl | he
    · exact le_rfl
    · rw [List.mem_singleton.1 he, neg_dot', neg_dot']
      linarith

/-- one step -/
theorem DInv.step {L : List (V2 K)} {d l a : V2 K} {pts : List (V2 K)}
    (h : DInv M L d l pts) (h0 : (0 : V2 K) ∉ M) (hLM : ∀ e ∈ L, e ∈ M) (ha : IsExtreme M d a)
    (hprog : d.dot l < d.dot a) {r : AddResult K} (hr : addPoint pts a = .ok r)
    (hsmall : r.collides = false → directionTooSmall r.dir → r.dir = 0)
    (hcol : r.collides = false) : DInv M (a :: L) (overrideDir d r.dir) a r.pts := by
  have hkeep : r.dir ≠ 0 → overrideDir d r.dir = r.dir :=
    fun h0 => if_neg fun h1 => h0 (hsmall hcol h1)
  have hd0 : d ≠ 0 := by
    rintro rfl
    rw [dot_comm, dot_zero, dot_comm, dot_zero] at hprog
    exact lt_irrefl _ hprog
  have hsa : Sup M a := ⟨d, hd0, ha.2⟩
  cases h with
  | one _ hs hc =>
    have hca : l.dot a < l.dot l := by rw [neg_dot', neg_dot'] at hprog; linarith
    have hl0 : l ≠ 0 := fun h => hd0 (by rw [h, neg_zero])
    have hac : a ≠ l := by rintro rfl; exact lt_irrefl _ hca
    simp only [addPoint] at hr
    split_ifs at hr with h1
    · simp only [Except.ok.injEq] at hr
      subst hr
      have key : ∀ n : V2 K, n ≠ 0 → n.dot a = n.dot l → n.dot a ≤ 0 →
          DInv M [a, l] n a [a, l] := by
        intro n hn hp hle
        have hb : ∀ x ∈ [a, l], n.dot x ≤ n.dot a := by
          intro e he
          rcases List.mem_cons.1 he with rfl | he
          · exact le_rfl
          · rw [List.mem_singleton.1 he, hp]
        refine .t1 _ _ _ _ (T1.start hc ha hca h1 hn hp hle) ⟨hb, hsa.end ?_, hs.end ?_⟩
        · intro e he _
          rcases List.mem_cons.1 he with rfl | he
          · rw [sub_self, dot_comm, dot_zero]
          · rw [List.mem_singleton.1 he]; exact lengthSq_nonneg _
        · intro e he _
          rcases List.mem_cons.1 he with rfl | he
          · exact lengthSq_nonneg _
          · rw [List.mem_singleton.1 he, sub_self, dot_comm, dot_zero]
      by_cases h2 : (l - a).cross (-a) = 0
      · have h3 : (l - a).crossAba (-a) = 0 := by
          rw [← lengthSq_eq_zero, crossAba_lengthSq, h2]; ring
        have h4 : directionTooSmall (0 : V2 K) := by
          by_contra hn
          exact not_tooSmall_ne hn rfl
        have e : overrideDir (-l) ((l - a).crossAba (-a)) = (-l).perp := by
          rw [h3]; exact if_pos h4
        rw [e]
        have h5 : l.cross a = 0 := by
          have : (l - a).cross (-a) = -l.cross a := by
            simp only [cross_def, sub_x, sub_y, neg_x, neg_y]; ring
          rw [this] at h2
          linarith
        have d1 : ((-l).perp).dot l = 0 := by
          simp only [dot_def, perp_x, perp_y, neg_x, neg_y]; ring
        have d2 : ((-l).perp).dot a = 0 := by
          have : ((-l).perp).dot a = -l.cross a := by
            simp only [dot_def, cross_def, perp_x, perp_y, neg_x, neg_y]; ring
          rw [this, h5, neg_zero]
        exact key _ (perp_ne (neg_ne_zero.2 hl0)) (d2.trans d1.symm) d2.le
      · have h3 : (l - a).crossAba (-a) ≠ 0 := by
          rw [← lengthSq_pos, crossAba_lengthSq]
          exact mul_pos (lengthSq_pos.2 (sub_ne_zero.2 hac.symm)) (by positivity)
        rw [hkeep h3]
        have d0 : ((l - a).crossAba (-a)).dot (l - a) = 0 := by
          rw [crossAba_dot, cross_self, mul_zero]
        have d1 : ((l - a).crossAba (-a)).dot a < 0 := by
          have e : (l - a).cross a = -(l - a).cross (-a) := by rw [cross_neg]; ring
          rw [crossAba_dot, e]
          have := mul_self_pos.2 h2
          linarith
        rw [dot_sub] at d0
        exact key _ h3 (by linarith) d1.le
    · simp only [Except.ok.injEq] at hr
      subst hr
      have ha0 : -a ≠ 0 := by
        intro h0
        apply h1
        show 0 ≤ _
        rw [h0, dot_zero]
      rw [hkeep ha0]
      refine .t2 _ _ hsa hs ⟨ha.1, hc, not_le.1 h1, fun x hx => ?_⟩
      have := ha.2 x hx
      rw [neg_dot', neg_dot'] at this
      linarith
  | t1 _ _ c _ hT hs =>
    have key : ∀ p q : V2 K, d.dot p = d.dot q → d.dot p ≤ 0 → p ≠ q → p ∈ M → q ∈ M →
        Guard M p q d → d.dot p < d.dot a → 0 ≤ (outNormal a p q).dot (-a) → End M L p q d →
        (∀ e ∈ L, d.dot e ≤ d.dot p) →
        r.dir = outNormal a p q → r.pts = [a, p] →
        DInv M (a :: L) (overrideDir d r.dir) a r.pts := by
      intro p q hpq hle hne hp hq hg hD hb he hbl hdir hpts
      obtain ⟨t, _⟩ := Guard.next hT.hd hpq hle hne hp hq hg ha hD hb
      obtain ⟨s1, s2⟩ := End.below hT.hd hpq hle hne hq hg ha.1 hD hb
        (fun h => h0 (h ▸ hp)) hLM hbl he
      have e : overrideDir d r.dir = outNormal a p q := by
        rw [hkeep (by rw [hdir]; exact t.hd), hdir]
      rw [e, hpts]
      refine .t1 _ _ _ _ t ⟨?_, End.new hT.hd ha hD t.hd t.perp hbl, ?_⟩
      · intro x hx
        rcases List.mem_cons.1 hx with rfl | hx
        · exact le_rfl
        · rw [t.perp]; exact s1 x hx
      · rcases s2 with ⟨hu, hx⟩ | hu
        · refine Or.inl ⟨hu, fun x hx' h1 => ?_⟩
          rcases List.mem_cons.1 hx' with rfl | hx'
          · exact lengthSq_nonneg _
          · exact hx x hx' h1
        · exact Or.inr hu
    have hbl := hs.below
    have hbl' : ∀ e ∈ L, d.dot e ≤ d.dot c := fun e he => hT.perp ▸ hs.below e he
    simp only [addPoint, acPerp_eq, sameDirection] at hr
    split_ifs at hr with h1 h2 h2
    · simp only [Except.ok.injEq] at hr
      subst hr
      exact key l c hT.perp hT.le hT.ne hT.bM hT.cM hT.gb hprog h1 hs.eb hbl rfl rfl
    · simp only [Except.ok.injEq] at hr
      subst hr
      have h3 := hT.prov.not_bad hT.hd hT.perp hT.le hT.ne hT.bM hT.cM ha.1 hprog hT.gb h1
        (not_le.1 h2)
      exact key c l hT.perp.symm (hT.perp ▸ hT.le) hT.ne.symm hT.cM hT.bM hT.gc (hT.perp ▸ hprog)
        h3 hs.ec hbl' rfl rfl
    · simp only [Except.ok.injEq] at hr
      subst hr
      exact key c l hT.perp.symm (hT.perp ▸ hT.le) hT.ne.symm hT.cM hT.bM hT.gc (hT.perp ▸ hprog)
        h2 hs.ec hbl' rfl rfl
    · simp only [Except.ok.injEq] at hr
      subst hr
      cases hcol
  | t2 _ c hsb hsc hT =>
    have hba : l.dot a < l.dot l := by rw [neg_dot', neg_dot'] at hprog; linarith
    obtain ⟨s1, s2, s3⟩ := hT.step ha hba
    have key : ∀ p q : V2 K, Sup M p → T1 M a p (outNormal a p q) →
        (p = l ∧ q = c ∨ p = c ∧ q = l) → r.dir = outNormal a p q → r.pts = [a, p] →
        DInv M [a, l, c] (overrideDir (-l) r.dir) a r.pts := by
      intro p q hsp t hpq hdir hpts
      have e : overrideDir (-l) r.dir = outNormal a p q := by
        rw [hkeep (by rw [hdir]; exact t.hd), hdir]
      rw [e, hpts]
      have hq : (outNormal a p q).dot q < (outNormal a p q).dot p := by
        have h1 : (outNormal a p q).dot (q - a) = -((p - a).cross (q - a) * (p - a).cross (q - a)) :=
          outNormal_dot a p q (q - a)
        have h2 : (p - a).cross (q - a) ≠ 0 := by
          intro h2
          apply t.hd
          rw [← lengthSq_eq_zero, outNormal_lengthSq, h2]; ring
        have h3 := mul_self_pos.2 h2
        rw [dot_sub, t.perp] at h1
        linarith
      have hmem : ∀ x ∈ [a, l, c], x = a ∨ x = p ∨ x = q := by
        intro x hx
        simp only [List.mem_cons, List.not_mem_nil, or_false] at hx
        rcases hpq with ⟨rfl, rfl⟩ | ⟨rfl, rfl⟩
        · exact hx
        · tauto
      refine .t1 _ _ _ _ t ⟨?_, hsa.end ?_, hsp.end ?_⟩
      · intro x hx
        rcases hmem x hx with rfl | rfl | rfl
        · exact le_rfl
        · exact t.perp.ge
        · rw [t.perp]; exact hq.le
      · intro x hx h1
        rcases hmem x hx with rfl | rfl | rfl
        · rw [sub_self, dot_comm, dot_zero]
        · exact lengthSq_nonneg _
        · rw [t.perp] at h1; exact absurd h1 hq.ne
      · intro x hx h1
        rcases hmem x hx with rfl | rfl | rfl
        · exact lengthSq_nonneg _
        · rw [sub_self, dot_comm, dot_zero]
        · exact absurd h1 hq.ne
    simp only [addPoint, acPerp_eq, sameDirection] at hr
    have h1 : (((l - a).crossF32 ((l - a).cross (c - a))).dot (-a) ≥ 0) := s1.le
    rw [if_pos h1] at hr
    split_ifs at hr with h2
    · simp only [Except.ok.injEq] at hr
      subst hr
      exact key l c hsb (s2 h2).1 (Or.inl ⟨rfl, rfl⟩) rfl rfl
    · simp only [Except.ok.injEq] at hr
      subst hr
      exact key c l hsc (s3 (not_le.1 h2)).1 (Or.inr ⟨rfl, rfl⟩) rfl rfl

/-- no point of `M` is closer to the origin than `κ` times the length of `v` -/
def Nearest (M : Set (V2 K)) (κ : K) (v : V2 K) : Prop :=
  ∀ x ∈ M, κ ^ 2 * lengthSq v ≤ lengthSq x

theorem nearest_of_dir {κ : K} {d v : V2 K} {h : K} (hd : d ≠ 0) (hκ : 0 ≤ κ) (hle : h ≤ 0)
    (hv : lengthSq d * lengthSq v = h ^ 2) (hx : ∀ x ∈ M, d.dot x ≤ κ * h) : Nearest M κ v := by
  intro x hxM
  have hL := lengthSq_pos.2 hd
  have h1 := hx x hxM
  have h2 := dot_sq_le d x
  have h3 : κ * h ≤ 0 := mul_nonpos_of_nonneg_of_nonpos hκ hle
  have h4 : (κ * h) ^ 2 ≤ d.dot x ^ 2 := by
    have := mul_nonneg (show 0 ≤ κ * h - d.dot x by linarith)
      (show 0 ≤ -(κ * h) - d.dot x by linarith)
    linarith
  by_contra hn
  have h5 := mul_lt_mul_of_pos_left (not_le.1 hn) hL
  have h6 : lengthSq d * (κ ^ 2 * lengthSq v) = (κ * h) ^ 2 := by
    rw [mul_pow, ← hv]; ring
  linarith

/-- what is returned when the search stops -/
theorem DInv.stop {L : List (V2 K)} {d l : V2 K} {pts : List (V2 K)} (h : DInv M L d l pts)
    (h0 : (0 : V2 K) ∉ M) {κ : K} (hκ : 0 ≤ κ) (hx : ∀ x ∈ M, d.dot x ≤ κ * d.dot l) {v : V2 K}
    (hv : distanceToOrigin pts = .ok v) :
    Nearest M κ v ∨ ∃ p q, p ∈ pts ∧ q ∈ pts ∧ v = -p ∧ p ≠ q ∧ d ≠ 0 ∧ d.dot p = d.dot l ∧
      d.dot q = d.dot l ∧ d.dot l ≤ 0 ∧ 0 ≤ p.dot (q - p) := by
  have single : ∀ b : V2 K, b ∈ M → d = -b → l = b → v = -b → Nearest M κ v := by
    rintro b hb rfl rfl rfl
    have hb0 : l ≠ 0 := by rintro rfl; exact h0 hb
    refine nearest_of_dir (neg_ne_zero.2 hb0) hκ (h := (-l).dot l) ?_ ?_ hx
    · rw [neg_dot']
      have : 0 ≤ l.dot l := lengthSq_nonneg l
      linarith
    · rw [neg_dot', lengthSq_neg, dot_self]; ring
  cases h with
  | one _ _ hl =>
    simp only [distanceToOrigin, Except.ok.injEq] at hv
    exact Or.inl (single l hl rfl rfl hv.symm)
  | t1 _ _ c _ hT hs =>
    -- the origin projects inside the edge, or the endpoint is low
    have hv' := hv
    simp only [distanceToOrigin] at hv
    have hcl : c - l ≠ 0 := sub_ne_zero.2 hT.ne.symm
    have hpos : 0 < (c - l).dot (c - l) := lengthSq_pos.2 hcl
    have hfoot : ∀ p : V2 K, v = -p → d.dot p = d.dot l → (c - l).dot p = 0 → Nearest M κ v := by
      rintro p rfl hp1 hp2
      refine nearest_of_dir hT.hd hκ hT.le ?_ hx
      have e1 := frame_dot d (c - l) p
      rw [hp2, mul_zero, dot_sub d, hT.perp, sub_self, zero_mul, zero_add] at e1
      have hcr : d.cross (c - l) ≠ 0 := by
        intro h3
        exact hcl (frame_zero hT.hd (by rw [dot_sub, hT.perp, sub_self]) h3)
      have hcv : d.cross p = 0 := (mul_eq_zero.1 e1.symm).resolve_left hcr
      rw [lengthSq_neg, frame_lengthSq, hp1, hcv]; ring
    split_ifs at hv with h1 h2
    · simp only [Except.ok.injEq] at hv
      have h3 : (-l).dot (c - l) ≤ 0 := by
        by_contra hn
        have := div_pos (not_le.1 hn) hpos
        linarith
      rcases hT.gb with hg | hg
      · left
        refine hfoot l hv.symm rfl ?_
        rw [dot_comm] at h3
        rw [dot_neg] at hg h3
        linarith
      · refine Or.inr ⟨l, c, by simp, by simp, hv.symm, hT.ne, hT.hd, rfl, hT.perp.symm, hT.le, ?_⟩
        rw [neg_dot'] at h3
        linarith
    · simp only [Except.ok.injEq] at hv
      have h3 : (c - l).dot (c - l) ≤ (-l).dot (c - l) := by
        have := (le_div_iff₀ hpos).1 h2
        linarith
      rcases hT.gc with hg | hg
      · left
        refine hfoot c hv.symm hT.perp.symm ?_
        have e1 : (c - l).dot c = (c - l).dot (c - l) - (-l).dot (c - l) := by
          simp only [dot_def, sub_x, sub_y, neg_x, neg_y]; ring
        have e2 : (l - c).dot (-c) = (c - l).dot c := by
          simp only [dot_def, sub_x, sub_y, neg_x, neg_y]; ring
        rw [e2] at hg
        linarith
      · refine Or.inr ⟨c, l, by simp, by simp, hv.symm, hT.ne.symm, hT.hd, hT.perp.symm, rfl, hT.le,
          ?_⟩
        have e1 : c.dot (l - c) = (-l).dot (c - l) - (c - l).dot (c - l) := by
          simp only [dot_def, sub_x, sub_y, neg_x, neg_y]; ring
        linarith
    · simp only [Except.ok.injEq] at hv
      left
      refine hfoot (l + scale ((-l).dot (c - l) / (c - l).dot (c - l)) (c - l)) ?_ ?_ ?_
      · rw [← hv]; ext <;> simp <;> ring
      · rw [dot_add, dot_scale, dot_sub d, hT.perp, sub_self, mul_zero, add_zero]
      · rw [dot_add (c - l), dot_scale, div_mul_cancel₀ _ hpos.ne', neg_dot', dot_comm l]; ring
  | t2 _ c _ _ hT =>
    simp only [distanceToOrigin] at hv
    have ht : (-l).dot (c - l) / (c - l).dot (c - l) ≤ 0 := by
      apply div_nonpos_of_nonpos_of_nonneg
      · have := hT.past
        rw [dot_comm] at this
        exact this.le
      · exact lengthSq_nonneg _
    rw [if_pos ht] at hv
    simp only [Except.ok.injEq] at hv
    exact Or.inl (single l hT.bM rfl rfl hv.symm)

/-- `v` leads to an end of a boundary edge of `M` (up to `κ`), and no point of that edge is nearer to
the origin -/
def EdgeEnd (M : Set (V2 K)) (S : V2 K → V2 K) (κ : K) (v : V2 K) : Prop :=
  ∃ n u : V2 K, n ≠ 0 ∧ (∃ d, d ≠ 0 ∧ v = -S d) ∧ (∃ d, d ≠ 0 ∧ u = -S d) ∧ u ≠ v ∧
    n.dot u = n.dot v ∧ 0 ≤ n.dot v ∧ (∀ x ∈ M, κ * n.dot v ≤ n.dot (-x)) ∧ 0 ≤ v.dot (u - v)

/-- a nearest vector, or the difference of two extreme points -/
def NearestOrCorner (M : Set (V2 K)) (S : V2 K → V2 K) (κ : K) (v : V2 K) : Prop :=
  Nearest M κ v ∨ EdgeEnd M S κ v

theorem DInv.fresh {L : List (V2 K)} {d l a : V2 K} {pts} (h : DInv M L d l pts) (hL : L.Nodup)
    (ha : d.dot l < d.dot a) : (a :: L).Nodup :=
  List.nodup_cons.2 ⟨fun hm => by have := h.below.2 a hm; linarith, hL⟩

theorem DInv.result {L : List (V2 K)} {d l : V2 K} {pts} (h : DInv M L d l pts)
    (h0 : (0 : V2 K) ∉ M) {κ : K} (hκ : 0 ≤ κ) (hx : ∀ x ∈ M, d.dot x ≤ κ * d.dot l) {v : V2 K}
    (hv : distanceToOrigin pts = .ok v) (hp : ∀ p ∈ pts, ∃ d, d ≠ 0 ∧ p = S d) :
    NearestOrCorner M S κ v := by
  rcases h.stop h0 hκ hx hv with h1 | ⟨p, q, hpp, hq, rfl, hne, hd, e1, e2, hle, h1⟩
  · exact Or.inl h1
  · obtain ⟨dp, hdp, ep⟩ := hp p hpp
    obtain ⟨dq, hdq, eq⟩ := hp q hq
    refine Or.inr ⟨d, -q, hd, ⟨dp, hdp, by rw [ep]⟩, ⟨dq, hdq, by rw [eq]⟩,
      fun h => hne (neg_injective h).symm, ?_, ?_, fun x hxM => ?_, ?_⟩
    · rw [dot_neg, dot_neg, e1, e2]
    · rw [dot_neg, e1]; linarith
    · have := hx x hxM
      rw [dot_neg, dot_neg, e1]; linarith
    · have e3 : (-p).dot (-q - -p) = p.dot (q - p) := by
        simp only [dot_def, sub_x, sub_y, neg_x, neg_y]; ring
      rw [e3]; exact h1

/-- where a search stopped: a state with `I`, and no point of `M` is more than the tolerance beyond -/
def StopAt (M : Set (V2 K)) (S : V2 K → V2 K) (I : V2 K → V2 K → List (V2 K) → Prop) (κ : K)
    (v : V2 K) : Prop :=
  ∃ L d l pts, DInv M L d l pts ∧ I d l pts ∧ (∀ p ∈ pts, ∃ d, d ≠ 0 ∧ p = S d) ∧
    (∀ x ∈ M, d.dot x ≤ κ * d.dot l) ∧ distanceToOrigin pts = .ok v

/-- `I` is kept by the steps of the search -/
def Kept (M : Set (V2 K)) (S : V2 K → V2 K) (I : V2 K → V2 K → List (V2 K) → Prop) : Prop :=
  ∀ L d l pts r, DInv M L d l pts → I d l pts → d.dot l < d.dot (S d) →
    addPoint pts (S d) = .ok r → r.collides = false → (directionTooSmall r.dir → r.dir = 0) →
    I (overrideDir d r.dir) (S d) r.pts

theorem gjkDistance_trace {I : V2 K → V2 K → List (V2 K) → Prop} (hK : Kept M S I) {G : V2 K → Prop} (hR : Resolved G) (h0 : (0 : V2 K) ∉ M)
    (hS : ∀ d, IsExtreme M d (S d)) (hG : ∀ d, G (S d)) :
    ∀ (n : Nat) (L : List (V2 K)) (d l : V2 K) (pts : List (V2 K)), DInv M L d l pts → I d l pts →
      L.Nodup → (∀ e ∈ L, ∃ d, d ≠ 0 ∧ e = S d) → (∀ p ∈ pts, G p) →
      (∀ p ∈ pts, ∃ d, d ≠ 0 ∧ p = S d) →
      ∀ v, gjkDistance S n d l pts = .ok (false, v) →
        StopAt M S I 1 v ∨ ManySupport S (L.length + n) := by
  intro n
  induction n with
  | zero =>
    intro L d l pts hI hJ hL hLS _ _ v _
    exact Or.inr ⟨L, hL, rfl, hLS⟩
  | succ n ih =>
    intro L d l pts hI hJ hL hLS hpG hpS v h
    rw [gjkDistance] at h
    by_cases h1 : (S d).dot d ≤ 0 ∧ (S d).dot d ≤ l.dot d
    · simp only [if_pos h1] at h
      split at h
      · cases h
      · next w hw =>
        simp only [Except.ok.injEq, Prod.mk.injEq, true_and] at h
        subst h
        refine Or.inl ⟨_, _, _, _, hI, hJ, hpS, fun x hx => ?_, hw⟩
        rw [one_mul]
        refine ((hS d).2 x hx).trans ?_
        rw [dot_comm, dot_comm d l]
        exact h1.2
    · simp only [if_neg h1] at h
      have hprog : d.dot l < d.dot (S d) := by
        rw [dot_comm d l, dot_comm d (S d)]
        by_cases hf : (S d).dot d ≤ 0
        · by_contra hn
          exact h1 ⟨hf, not_lt.1 hn⟩
        · have := hI.below.1
          rw [dot_comm] at this
          linarith [not_le.1 hf]
      have hd0 : d ≠ 0 := by
        rintro rfl
        rw [dot_comm, dot_zero, dot_comm, dot_zero] at hprog
        exact lt_irrefl _ hprog
      cases hq : addPoint pts (S d) with
      | error e => rw [hq] at h; cases h
      | ok r =>
        rw [hq] at h
        simp only at h
        obtain ⟨g1, g2⟩ := hR _ _ _ hpG (hG d) hq
        cases hc : r.collides with
        | true =>
          simp only [hc, if_true] at h
          split_ifs at h
          cases h
        | false =>
          simp only [hc, Bool.false_eq_true, if_false] at h
          have hLM : ∀ e ∈ L, e ∈ M := by
            intro e he
            obtain ⟨d', _, rfl⟩ := hLS e he
            exact (hS d').1
          have := ih (S d :: L) _ _ _ (hI.step h0 hLM (hS d) hprog hq g2 hc)
            (hK _ _ _ _ _ hI hJ hprog hq hc (g2 hc)) (hI.fresh hL hprog)
            (by
              intro e he
              rcases List.mem_cons.1 he with rfl | he
              · exact ⟨d, hd0, rfl⟩
              · exact hLS e he) g1
            (by
              intro p hp
              rcases addPoint_pts_sub hq p hp with rfl | hp
              · exact ⟨d, hd0, rfl⟩
              · exact hpS p hp) v h
          have e : L.length + (n + 1) = (S d :: L).length + n := by simp; omega
          rw [e]; exact this

theorem gjkFull_trace {I : V2 K → V2 K → List (V2 K) → Prop} (hK : Kept M S I) {G : V2 K → Prop} (hR : Resolved G) (h0 : (0 : V2 K) ∉ M)
    (hS : ∀ d, IsExtreme M d (S d)) (hG : ∀ d, G (S d)) :
    ∀ (n : Nat) (possible : Bool) (L : List (V2 K)) (d l : V2 K) (pts : List (V2 K)),
      DInv M L d l pts → I d l pts →
      L.Nodup → (∀ e ∈ L, ∃ d, d ≠ 0 ∧ e = S d) → (∀ p ∈ pts, G p) →
      (∀ p ∈ pts, ∃ d, d ≠ 0 ∧ p = S d) →
      ∀ v, gjkFull S n possible d l pts = .ok (false, v) →
        StopAt M S I (1 - FloatExtra.tol) v ∨ ManySupport S (L.length + n) := by
  intro n
  induction n with
  | zero =>
    intro possible L d l pts hI hJ hL hLS _ _ v _
    exact Or.inr ⟨L, hL, rfl, hLS⟩
  | succ n ih =>
    intro possible L d l pts hI hJ hL hLS hpG hpS v h
    rw [gjkFull] at h
    by_cases h1 : (S d).dot d ≤ 0 ∧ ¬ sufficientlyBetter ((S d).dot d) (l.dot d) FloatExtra.tol
    · simp only [if_pos h1] at h
      split at h
      · cases h
      · next w hw =>
        simp only [Except.ok.injEq, Prod.mk.injEq, true_and] at h
        subst h
        refine Or.inl ⟨_, _, _, _, hI, hJ, hpS, fun x hx => ?_, hw⟩
        refine ((hS d).2 x hx).trans ?_
        have h2 := h1.2
        unfold sufficientlyBetter at h2
        rw [if_neg (not_lt.2 (by rw [dot_comm]; exact hI.below.1))] at h2
        rw [dot_comm, dot_comm d l]
        have h3 := not_lt.1 h2
        linarith
    · simp only [if_neg h1] at h
      have hprog : d.dot l < d.dot (S d) := by
        have := better_lt (by rw [dot_comm]; exact hI.below.1) h1
        rwa [dot_comm l, dot_comm (S d)] at this
      have hd0 : d ≠ 0 := by
        rintro rfl
        rw [dot_comm, dot_zero, dot_comm, dot_zero] at hprog
        exact lt_irrefl _ hprog
      generalize (if (S d).dot d ≤ 0 then false else possible) = possible' at h
      cases hq : addPoint pts (S d) with
      | error e => rw [hq] at h; cases h
      | ok r =>
        rw [hq] at h
        simp only at h
        obtain ⟨g1, g2⟩ := hR _ _ _ hpG (hG d) hq
        cases hc : r.collides with
        | true =>
          simp only [hc, if_true, true_and] at h
          split_ifs at h
          split at h
          · cases h
          · split at h <;> cases h
        | false =>
          simp only [hc, Bool.false_eq_true, false_and, if_false] at h
          have hLM : ∀ e ∈ L, e ∈ M := by
            intro e he
            obtain ⟨d', _, rfl⟩ := hLS e he
            exact (hS d').1
          have := ih possible' (S d :: L) _ _ _ (hI.step h0 hLM (hS d) hprog hq g2 hc)
            (hK _ _ _ _ _ hI hJ hprog hq hc (g2 hc)) (hI.fresh hL hprog)
            (by
              intro e he
              rcases List.mem_cons.1 he with rfl | he
              · exact ⟨d, hd0, rfl⟩
              · exact hLS e he) g1
            (by
              intro p hp
              rcases addPoint_pts_sub hq p hp with rfl | hp
              · exact ⟨d, hd0, rfl⟩
              · exact hpS p hp) v h
          have e : L.length + (n + 1) = (S d :: L).length + n := by simp; omega
          rw [e]; exact this

theorem StopAt.near {I : V2 K → V2 K → List (V2 K) → Prop} {κ : K} {v : V2 K}
    (h : StopAt M S I κ v) (h0 : (0 : V2 K) ∉ M) (hκ : 0 ≤ κ) : NearestOrCorner M S κ v := by
  obtain ⟨L, d, l, pts, hI, _, hp, hx, hv⟩ := h
  exact hI.result h0 hκ hx hv hp

theorem gjkDistance_near {G : V2 K → Prop} (hR : Resolved G) (h0 : (0 : V2 K) ∉ M)
    (hS : ∀ d, IsExtreme M d (S d)) (hG : ∀ d, G (S d)) (n : Nat) (L : List (V2 K)) (d l : V2 K)
    (pts : List (V2 K)) (hI : DInv M L d l pts) (hL : L.Nodup)
    (hLS : ∀ e ∈ L, ∃ d, d ≠ 0 ∧ e = S d) (hpG : ∀ p ∈ pts, G p)
    (hpS : ∀ p ∈ pts, ∃ d, d ≠ 0 ∧ p = S d) (v : V2 K)
    (h : gjkDistance S n d l pts = .ok (false, v)) :
    NearestOrCorner M S 1 v ∨ ManySupport S (L.length + n) :=
  (gjkDistance_trace (I := fun _ _ _ => True) (fun _ _ _ _ _ _ _ _ _ _ _ => trivial) hR h0 hS hG n L
    d l pts hI trivial hL hLS hpG hpS v h).imp_left fun h => h.near h0 zero_le_one

theorem gjkFull_near {G : V2 K → Prop} (hR : Resolved G) (h0 : (0 : V2 K) ∉ M)
    (hS : ∀ d, IsExtreme M d (S d)) (hG : ∀ d, G (S d)) (n : Nat) (possible : Bool)
    (L : List (V2 K)) (d l : V2 K) (pts : List (V2 K)) (hI : DInv M L d l pts) (hL : L.Nodup)
    (hLS : ∀ e ∈ L, ∃ d, d ≠ 0 ∧ e = S d) (hpG : ∀ p ∈ pts, G p)
    (hpS : ∀ p ∈ pts, ∃ d, d ≠ 0 ∧ p = S d) (v : V2 K)
    (h : gjkFull S n possible d l pts = .ok (false, v)) :
    NearestOrCorner M S (1 - FloatExtra.tol) v ∨ ManySupport S (L.length + n) :=
  (gjkFull_trace (I := fun _ _ _ => True) (fun _ _ _ _ _ _ _ _ _ _ _ => trivial) hR h0 hS hG n
    possible L d l pts hI trivial hL hLS hpG hpS v h).imp_left
    fun h => h.near h0 (by rw [ExactFloat.tol_eq]; norm_num)

/-- at an end of an edge where the foot of the perpendicular lies at or before that end, the stop
condition gives a nearest point -/
def EndsOk (M : Set (V2 K)) (pts : List (V2 K)) : Prop :=
  ∀ p ∈ pts, ∀ q ∈ pts, p ≠ q → 0 < p.dot (q - p) → Nearest M 1 (-p)

theorem DInv.nearest {L : List (V2 K)} {d l : V2 K} {pts : List (V2 K)} {κ : K} {v : V2 K}
    (hI : DInv M L d l pts) (h0 : (0 : V2 K) ∉ M) (hκ : 0 ≤ κ) (hκ1 : κ ≤ 1)
    (hx : ∀ x ∈ M, d.dot x ≤ κ * d.dot l) (hv : distanceToOrigin pts = .ok v)
    (hE : EndsOk M pts) : Nearest M κ v := by
  rcases hI.stop h0 hκ hx hv with h1 | ⟨p, q, hpp, hq, rfl, hne, hd, e1, e2, hle, h1⟩
  · exact h1
  rcases h1.eq_or_lt with h1 | h1
  · refine nearest_of_dir hd hκ (h := d.dot l) hle ?_ hx
    have e3 := frame_dot d p (q - p)
    have e4 : d.dot (q - p) = 0 := by rw [dot_sub, e1, e2, sub_self]
    rw [← h1, mul_zero, e4, mul_zero, zero_add] at e3
    have hcr : d.cross (q - p) ≠ 0 := fun h3 => hne (sub_eq_zero.1 (frame_zero hd e4 h3)).symm
    have hcv : d.cross p = 0 := (mul_eq_zero.1 e3.symm).resolve_right hcr
    rw [lengthSq_neg, frame_lengthSq, e1, hcv]; ring
  · intro x hxM
    have := hE p hpp q hq hne h1 x hxM
    rw [one_pow, one_mul] at this
    have h3 : κ ^ 2 ≤ 1 := pow_le_one₀ hκ hκ1
    have := mul_le_mul_of_nonneg_right h3 (lengthSq_nonneg (-p))
    linarith

theorem StopAt.nearest {I : V2 K → V2 K → List (V2 K) → Prop} {κ : K} {v : V2 K}
    (h : StopAt M S I κ v) (h0 : (0 : V2 K) ∉ M) (hκ : 0 ≤ κ) (hκ1 : κ ≤ 1)
    (hE : ∀ d l pts, I d l pts → EndsOk M pts) : Nearest M κ v := by
  obtain ⟨L, d, l, pts, hI, hJ, hp, hx, hv⟩ := h
  exact hI.nearest h0 hκ hκ1 hx hv (hE d l pts hJ)

end
end Auburn
