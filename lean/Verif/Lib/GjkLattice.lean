import Verif.Lib.GjkRate

/-!
# The simplex search on lattice coordinates, for any number of vertices

A triangle of lattice points that is not flat has an area that is not small.  So the triangle over the current edge,
whose area falls by four with each step (`Lib/GjkRate`), cannot contain another lattice point after a few steps: the
search ends before its iteration limit, whatever the number of vertices.
-/

set_option linter.unusedSectionVars false
set_option synthInstance.maxSize 1000

namespace Auburn
open V2

section
variable {K : Type} [Field K] [LinearOrder K] [IsStrictOrderedRing K]
variable {M : Set (V2 K)} {L : List (V2 K)} {d b c a ub uc : V2 K}

/-- the next point spans with the edge a triangle inside the one formed by the supporting lines -/
theorem EdgeInv.area_le (h : EdgeInv M L d b c) (w : Wedge M d b c ub uc) {A : K}
    (hκ : 0 < closing d b c ub uc) (hN : Narrow A d b c ub uc) (haM : IsExtreme M d a) (ha : 0 < d.dot a) :
    (b - a).cross (c - a) ^ 2 ≤ A ^ 2 := by
  have hD := lengthSq_pos.2 h.hd
  have hc := h.cut w haM.1
  have ht : 0 ≤ ub.dot (b - a) := by rw [dot_sub]; linarith [w.supb a haM.1]
  have hH : 0 < d.dot (a - b) := by rw [dot_sub]; exact h.height ha
  unfold Narrow at hN
  obtain ⟨c1, -⟩ := h.coords a
  have e := frame_lengthSq d (c - b)
  rw [dot_sub, cross_sub, h.perp, sub_self] at e
  have hh : d.dot (a - b) = d.dot a - d.dot b := dot_sub _ _ _
  rw [← hh] at c1
  have htt : 0 < uc.dot (c - b) := w.sc
  have hs : 0 < ub.dot (b - c) := w.sb
  have hE : 0 ≤ lengthSq (c - b) := lengthSq_nonneg _
  set H := d.dot (a - b)
  set s := ub.dot (b - c)
  set t := uc.dot (c - b)
  set κ := closing d b c ub uc
  set D := lengthSq d
  set E := lengthSq (c - b)
  set X := (b - a).cross (c - a)
  set W := d.cross b - d.cross c with hW
  have eW : D * E = W ^ 2 := by rw [e, hW]; ring
  have eX : D * X ^ 2 = H ^ 2 * E := by
    refine mul_left_cancel₀ hD.ne' ?_
    calc D * (D * X ^ 2) = (D * X) ^ 2 := by ring
      _ = H ^ 2 * W ^ 2 := by rw [c1]; ring
      _ = _ := by rw [← eW]; ring
  have h1 : H * κ ≤ D * (s * t) := by
    have : 0 ≤ D * (t * ub.dot (b - a)) := mul_nonneg hD.le (mul_nonneg htt.le ht)
    linarith only [hc, this]
  have h2 : (H * κ) ^ 2 ≤ (D * (s * t)) ^ 2 := pow_le_pow_left₀ (mul_nonneg hH.le hκ.le) h1 2
  have h3 := mul_le_mul_of_nonneg_right h2 hE
  have h4 := mul_le_mul_of_nonneg_left hN hD.le
  refine le_of_mul_le_mul_left ?_ (mul_pos hD (pow_pos hκ 2))
  calc D * κ ^ 2 * X ^ 2 = (D * X ^ 2) * κ ^ 2 := by ring
    _ = (H * κ) ^ 2 * E := by rw [eX]; ring
    _ ≤ _ := h3
    _ = D * ((s * t) ^ 2 * (E * D)) := by ring
    _ ≤ _ := h4
    _ = _ := by ring

/-- the triangles of the lattice -/
def CoarseTriangles (G : V2 K → Prop) (g : K) : Prop :=
  ∀ a b c, G a → G b → G c → (b - a).cross (c - a) ≠ 0 → g ^ 2 ≤ (b - a).cross (c - a) ^ 2

/-- when the potential has run out on a lattice, the set lies on one side of the origin -/
theorem Pot.oneSide {G : V2 K → Prop} {g Q : K} {j : Nat} {pts : List (V2 K)} (hQ : 0 ≤ Q)
    (hG : CoarseTriangles G g) (h : GInv M L d pts) (hP : Pot M Q (j + 4) d pts) (hj : Q / 4 ^ j < g)
    (hpts : ∀ p ∈ pts, G p) (haM : IsExtreme M d a) (haG : G a) : d.dot a ≤ 0 := by
  by_contra hn
  have ha := not_le.1 hn
  rcases hP with ⟨-, h1⟩ | ⟨_, -, h1⟩ | ⟨b, c, rfl, h1 | ⟨ub, uc, w, h1 | ⟨hκ, i, hi, hN⟩⟩⟩
  · omega
  · omega
  · omega
  · omega
  · cases h with
    | edge L d b c h =>
      obtain rfl : i = j := by omega
      have h2 := h.area_le w hκ hN haM ha
      have h3 := hG a b c haG (hpts b (by simp)) (hpts c (by simp)) (h.normal_ne ha).2.1
      have h4 : (0 : K) ≤ Q / 4 ^ i := by positivity
      have h5 : (Q / 4 ^ i) ^ 2 < g ^ 2 := pow_lt_pow_left₀ hj h4 (by norm_num)
      linarith

variable [FloatExtra K] [ExactFloat K] {S : V2 K → V2 K}

/-- points of a simplex come from the earlier ones and the new one -/
theorem addPoint_pred {G : V2 K → Prop} {pts : List (V2 K)} (hp : ∀ p ∈ pts, G p) (ha : G a) {r : AddResult K}
    (hr : addPoint pts a = .ok r) : ∀ p ∈ r.pts, G p := by
  match pts, hp with
  | [], _ =>
    simp only [addPoint, Except.ok.injEq] at hr
    subst hr
    simpa using ha
  | [b], hp =>
    have hb := hp b (by simp)
    simp only [addPoint] at hr
    split_ifs at hr <;> simp only [Except.ok.injEq] at hr <;> subst hr <;> simp [ha, hb]
  | [b, c], hp =>
    have hb := hp b (by simp)
    have hc := hp c (by simp)
    simp only [addPoint] at hr
    split_ifs at hr <;> simp only [Except.ok.injEq] at hr <;> subst hr <;> simp [ha, hb, hc]
  | _ :: _ :: _ :: _, _ => simp [addPoint] at hr

/-- the potential when `penetrates` replaces a zero direction -/
theorem GInv.pot_override {Q : K} {k : Nat} {pts : List (V2 K)} (h : GInv M L d pts) (hP : Pot M Q k d pts)
    (haM : IsExtreme M d a) (ha : 0 < a.dot d) {r : AddResult K} (hr : addPoint pts a = .ok r)
    (hc : r.collides = false) (hz : r.dir = 0) (e : V2 K) : Pot M Q (k + 1) e r.pts := by
  rw [dot_comm] at ha
  cases h with
  | start d hd =>
    simp only [addPoint, Except.ok.injEq] at hr
    subst hr
    have : a = 0 := neg_eq_zero.1 hz
    rw [this, dot_zero] at ha
    exact absurd ha (lt_irrefl _)
  | point b hb hPb =>
    have hk : k = 1 := by
      rcases hP with ⟨h1, -⟩ | ⟨_, -, h1⟩ | ⟨_, _, h1, -⟩
      · simp at h1
      · exact h1
      · simp at h1
    have h2 : (b - a).dot (-a) ≥ 0 := by
      rw [dot_neg, sub_dot, dot_self]
      rw [neg_dot] at ha
      have := lengthSq_nonneg a
      show 0 ≤ _
      linarith
    simp only [addPoint] at hr
    rw [if_pos h2] at hr
    simp only [Except.ok.injEq] at hr
    subst hr
    exact Or.inr (Or.inr ⟨a, b, rfl, Or.inl (by omega)⟩)
  | edge L d b c h =>
    exfalso
    have n1 := (h.normal_ne ha).2.2
    have n2 := (h.symm.normal_ne ha).2.2
    have eq1 : (b - a).crossF32 ((b - a).cross (c - a)) = outNormal a b c := rfl
    simp only [addPoint, acPerp_eq, eq1] at hr
    split_ifs at hr <;> simp only [Except.ok.injEq] at hr <;> subst hr
    · exact n1 hz
    · exact n2 hz
    · exact n2 hz
    · simp at hc

/-- `collides` on a lattice: a negative answer is right -/
theorem gjkCollide_lattice {G : V2 K → Prop} {g Q : K} (hQ : 0 ≤ Q) (hG : CoarseTriangles G g)
    (hM : Convex K M) (hS : ∀ d, IsExtreme M d (S d)) (hSG : ∀ d, G (S d))
    (hdiam : ∀ m ∈ M, ∀ m' ∈ M, lengthSq (m - m') ≤ Q) :
    ∀ (n j k : Nat) (L : List (V2 K)) (d : V2 K) (pts : List (V2 K)), GInv M L d pts → Pot M Q k d pts →
      (∀ p ∈ pts, G p) → k + n = j + 4 → Q / 4 ^ j < g →
      ∀ r, gjkCollide S n d pts = .ok r → r.1 = false → OneSide M := by
  intro n
  induction n with
  | zero =>
    intro j k L d pts hI hP hp hk hj r hr _
    obtain rfl : k = j + 4 := by omega
    refine ⟨d, hI.dir_ne, fun m hm => ((hS d).2 m hm).trans ?_⟩
    exact hP.oneSide hQ hG hI hj hp (hS d) (hSG d)
  | succ n ih =>
    intro j k L d pts hI hP hp hk hj r hr hf
    simp only [gjkCollide] at hr
    by_cases h1 : (S d).dot d ≤ 0
    · refine ⟨d, hI.dir_ne, fun m hm => ((hS d).2 m hm).trans ?_⟩
      rwa [dot_comm] at h1
    rw [if_neg h1] at hr
    obtain ⟨q, hq, hok⟩ := hI.step hM (hS d) (not_le.1 h1)
    rw [hq] at hr
    simp only at hr
    by_cases h2 : q.collides = true ∨ directionTooSmall q.dir
    · rw [if_pos h2] at hr
      simp only [Except.ok.injEq] at hr
      subst hr
      simp at hf
    · rw [if_neg h2] at hr
      have hc : q.collides = false := by
        cases hc : q.collides with
        | true => exact absurd (Or.inl hc) h2
        | false => rfl
      have hI' := hok.next hc (not_tooSmall_ne fun h => h2 (Or.inr h))
      exact ih j (k + 1) _ _ _ hI' (hI.pot hQ hdiam hP (hS d) (not_le.1 h1) hq hc)
        (addPoint_pred hp (hSG d) hq) (by omega) hj r hr hf

/-- `collides` on a fine enough lattice: a positive answer is right -/
theorem gjkCollide_grid {N : Nat} (h0 : 0 < N) (hN : N ≤ 203) (hM : Convex K M)
    (hS : ∀ d, IsExtreme M d (S d)) (hG : ∀ d, OnGrid N (S d)) :
    ∀ (n : Nat) (L : List (V2 K)) (d : V2 K) (pts : List (V2 K)), GInv M L d pts → (∀ p ∈ pts, OnGrid N p) →
      ∀ r, gjkCollide S n d pts = .ok r → r.1 = true → (0 : V2 K) ∈ M := by
  intro n
  induction n with
  | zero =>
    intro L d pts _ _ r hr hf
    simp only [gjkCollide, Except.ok.injEq] at hr
    subst hr
    simp at hf
  | succ n ih =>
    intro L d pts hI hp r hr hf
    simp only [gjkCollide] at hr
    by_cases h1 : (S d).dot d ≤ 0
    · rw [if_pos h1] at hr
      simp only [Except.ok.injEq] at hr
      subst hr
      simp at hf
    rw [if_neg h1] at hr
    obtain ⟨q, hq, hok⟩ := hI.step hM (hS d) (not_le.1 h1)
    obtain ⟨g1, g2⟩ := addPoint_grid h0 hN hp (hG d) hq
    rw [hq] at hr
    simp only at hr
    cases hc : q.collides with
    | true => exact hok.hit hc
    | false =>
      by_cases h2 : directionTooSmall q.dir
      · obtain ⟨m, hm, hm2⟩ := hok.near hc
        rw [g2 hc h2, (lengthSq_eq_zero (a := (0 : V2 K))).2 rfl] at hm2
        have : m = 0 := by
          rw [← lengthSq_eq_zero]
          rcases hm2 with h | h
          · exact pow_eq_zero_iff (n := 3) (by norm_num) |>.1 (le_antisymm h (pow_nonneg (lengthSq_nonneg m) 3))
          · exact h
        rwa [this] at hm
      · rw [if_neg (by
          rintro (h | h)
          · rw [hc] at h; cases h
          · exact h2 h)] at hr
        exact ih _ _ _ (hok.next hc (not_tooSmall_ne h2)) g1 r hr hf

theorem coarse_grid {N : Nat} (h0 : 0 < N) : CoarseTriangles (OnGrid (K := K) N) (1 / N ^ 2) := by
  rintro a b c ⟨i, j, rfl⟩ ⟨k, l, rfl⟩ ⟨m, n, rfl⟩ h
  have hN : (0 : K) < N := by exact_mod_cast h0
  have e : ((⟨k / N, l / N⟩ : V2 K) - ⟨i / N, j / N⟩).cross (⟨m / N, n / N⟩ - ⟨i / N, j / N⟩) =
      (((k - i) * (n - j) - (l - j) * (m - i) : ℤ) : K) / N ^ 2 := by
    simp only [cross_def, sub_x, sub_y]; push_cast; field_simp
  rw [e] at h ⊢
  have h1 : ((k - i) * (n - j) - (l - j) * (m - i) : ℤ) ≠ 0 := by
    intro h'; rw [h'] at h; simp at h
  have h2 : (1 : ℤ) ≤ ((k - i) * (n - j) - (l - j) * (m - i)) ^ 2 := by
    have := sq_pos_of_ne_zero h1; omega
  have h3 : (1 : K) ≤ (((k - i) * (n - j) - (l - j) * (m - i) : ℤ) : K) ^ 2 := by exact_mod_cast h2
  rw [div_pow, div_pow, one_pow]
  exact div_le_div_of_nonneg_right h3 (by positivity)

/-- `penetrates` on a fine enough lattice: a negative answer is right -/
theorem gjkPenetrate_lattice {N : Nat} (h0 : 0 < N) (hN : N ≤ 203) {Q : K} (hQ : 0 ≤ Q)
    (hM : Convex K M) (hS : ∀ d, IsExtreme M d (S d)) (hG : ∀ d, OnGrid N (S d))
    (hdiam : ∀ m ∈ M, ∀ m' ∈ M, lengthSq (m - m') ≤ Q) :
    ∀ (n j k : Nat) (L : List (V2 K)) (d : V2 K) (pts : List (V2 K)), GInv M L d pts → Pot M Q k d pts →
      (∀ p ∈ pts, OnGrid N p) → k + n = j + 4 → Q / 4 ^ j < 1 / N ^ 2 →
      ∀ r, gjkPenetrate S n d pts = .ok r → r.1 = false → OneSide M := by
  have hNp : (0 : K) < N := by exact_mod_cast h0
  intro n
  induction n with
  | zero =>
    intro j k L d pts hI hP hp hk hj r hr _
    obtain rfl : k = j + 4 := by omega
    refine ⟨d, hI.dir_ne, fun m hm => ((hS d).2 m hm).trans ?_⟩
    exact hP.oneSide hQ (coarse_grid h0) hI hj hp (hS d) (hG d)
  | succ n ih =>
    intro j k L d pts hI hP hp hk hj r hr hf
    simp only [gjkPenetrate] at hr
    by_cases h1 : (S d).dot d ≤ 0
    · refine ⟨d, hI.dir_ne, fun m hm => ((hS d).2 m hm).trans ?_⟩
      rwa [dot_comm] at h1
    rw [if_neg h1] at hr
    obtain ⟨q, hq, hok⟩ := hI.step hM (hS d) (not_le.1 h1)
    obtain ⟨g1, g2⟩ := addPoint_grid h0 hN hp (hG d) hq
    rw [hq] at hr
    simp only at hr
    cases hc : q.collides with
    | true =>
      rw [if_pos hc] at hr
      exfalso
      split at hr
      · cases hr
      · split at hr
        · cases hr
        · simp only [Except.ok.injEq] at hr
          subst hr
          simp at hf
    | false =>
      rw [if_neg (by simp [hc])] at hr
      unfold overrideDir at hr
      by_cases h4 : directionTooSmall q.dir
      · rw [if_pos h4] at hr
        have hz := g2 hc h4
        exact ih j (k + 1) _ _ _ (hok.zero hc hz)
          (hI.pot_override hP (hS d) (not_le.1 h1) hq hc hz _) g1 (by omega) hj r hr hf
      · rw [if_neg h4] at hr
        exact ih j (k + 1) _ _ _ (hok.next hc (not_tooSmall_ne h4))
          (hI.pot hQ hdiam hP (hS d) (not_le.1 h1) hq hc) g1 (by omega) hj r hr hf

end
end Auburn
