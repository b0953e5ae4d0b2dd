import Verif.Ieee.NoisyEpa

/-!
# The points GJK keeps on binary32, and the vectors made from them (library lemmas for C86)
-/

set_option linter.unusedSectionVars false
set_option synthInstance.maxSize 1000

namespace Auburn

open F32 V2 ExtremePoint2d Transformation2d

section
variable [env : F32Env]
variable {g lo : Prop} {k : ℤ} {M : ℝ} {W : Set (V2 ℝ)} {S : V2 F32 → V2 F32}

/-! ## the loops: what reaches EPA, what reaches the distance computation -/

theorem Pts.ptB {pts : List (V2 F32)} (h : Pts g W M pts) (hM : M ≤ (2 : ℝ) ^ k) : ∀ q ∈ pts, PtB k q := by
  intro q hq
  obtain ⟨p, p1, p2⟩ := h q hq
  exact PtB.of_is p1 p2.coord hM

theorem Pts.step {pts : List (V2 F32)} {a : V2 F32} {p : V2 ℝ} {r : AddResult F32} (h : Pts g W M pts)
    (ha : a.Is p) (hp : NearPt g W M p) (hr : ∀ q ∈ r.pts, q = a ∨ q ∈ pts) : Pts g W M r.pts := by
  intro q hq
  rcases hr q hq with rfl | h'
  · exact ⟨p, ha, hp⟩
  · exact h q h'

theorem enforceCcw_mem {pts pts' : List (V2 F32)} (h : enforceCcw pts = .ok pts') : ∀ q ∈ pts', q ∈ pts := by
  unfold enforceCcw at h
  split at h
  · split at h <;> · rw [Except.ok.injEq] at h; subst h; intro q; simp <;> tauto
  · simp at h

theorem DiB.override {d' e : V2 F32} {d : V2 ℝ} (hd : d'.Is d) (hD : DirB k d)
    (hl : lo → (2 : ℝ) ^ (-60 : ℤ) ≤ d.l1) (he : DiB k e) :
    ∃ d2, (overrideDir d' e).Is d2 ∧ DirB k d2 ∧ (lo → (2 : ℝ) ^ (-60 : ℤ) ≤ d2.l1) := by
  by_cases h : lo
  · obtain ⟨d2, h1, h2, h3⟩ := override_ok hd hD (hl h) he
    exact ⟨d2, h1, h2, fun _ => h3⟩
  · unfold overrideDir
    split
    · refine ⟨d.perp, hd.perp, ⟨?_, hD.1⟩, fun h' => absurd h' h⟩
      show |-d.y| ≤ _
      rw [abs_neg]; exact hD.2
    · obtain ⟨d2, h1, h2⟩ := he.is
      exact ⟨d2, h1, h2, fun h' => absurd h' h⟩

theorem penetrate_true (hG : NoisyGrid g lo k W M S) (hk : 0 ≤ k) (hk2 : k ≤ 26) (hM : M ≤ (2 : ℝ) ^ k)
    (v : V2 F32) : ∀ (n : Nat) (d' : V2 F32) (d : V2 ℝ) (pts : List (V2 F32)),
    d'.Is d → DirB k d → (lo → (2 : ℝ) ^ (-60 : ℤ) ≤ d.l1) → Pts g W M pts → pts.length ≤ 2 →
    gjkPenetrate S n d' pts = .ok (true, v) → ∃ pts', Pts g W M pts' ∧ epa S iterationLimit pts' = .ok v := by
  intro n
  induction n with
  | zero => intro d' d pts _ _ _ _ _ h; simp [gjkPenetrate] at h
  | succ n ih =>
    intro d' d pts hd hD hlo hp hlen h
    by_cases hf : (S d').dot d' ≤ 0
    · simp [gjkPenetrate, if_pos hf] at h
    · obtain ⟨p, p1, p2⟩ := hG d' d hd hD hlo
      obtain ⟨r, e, h1, h2, h3, h4⟩ := addPoint_bdd hk hk2 (hp.ptB hM) hlen (PtB.of_is p1 p2.coord hM)
      simp only [gjkPenetrate, if_neg hf, e] at h
      by_cases hc : r.collides = true
      · rw [if_pos hc] at h
        cases hcc : enforceCcw r.pts with
        | error _ => rw [hcc] at h; simp at h
        | ok pts' =>
          rw [hcc] at h
          cases he : epa S iterationLimit pts' with
          | error _ => simp only [he] at h; simp at h
          | ok v' =>
            simp only [he, Except.ok.injEq, Prod.mk.injEq, true_and] at h
            exact ⟨pts', fun q hq => hp.step p1 p2 h1 q (enforceCcw_mem hcc q hq), by rw [he, h]⟩
      · rw [if_neg hc] at h
        obtain ⟨l2, db⟩ := h3 (by simpa using hc)
        obtain ⟨d2, i2, b2, l0⟩ := DiB.override hd hD hlo db
        exact ih _ d2 r.pts i2 b2 l0 (hp.step p1 p2 h1) l2 h

theorem full_true (hG : NoisyGrid g lo k W M S) (hk : 0 ≤ k) (hk2 : k ≤ 26) (hM : M ≤ (2 : ℝ) ^ k)
    (v : V2 F32) : ∀ (n : Nat) (b : Bool) (d' : V2 F32) (d : V2 ℝ) (last : V2 F32) (pts : List (V2 F32)),
    d'.Is d → DirB k d → (lo → (2 : ℝ) ^ (-60 : ℤ) ≤ d.l1) → Pts g W M pts → pts.length ≤ 2 →
    gjkFull S n b d' last pts = .ok (true, v) → ∃ pts', Pts g W M pts' ∧ epa S iterationLimit pts' = .ok v := by
  intro n
  induction n with
  | zero =>
    intro b d' d last pts _ _ _ _ _ h
    simp only [gjkFull] at h
    split at h <;> simp at h
  | succ n ih =>
    intro b d' d last pts hd hD hlo hp hlen h
    simp only [gjkFull] at h
    split at h
    · split at h <;> simp at h
    · obtain ⟨p, p1, p2⟩ := hG d' d hd hD hlo
      obtain ⟨r, e, h1, h2, h3, h4⟩ := addPoint_bdd hk hk2 (hp.ptB hM) hlen (PtB.of_is p1 p2.coord hM)
      rw [e] at h
      generalize (if (S d').dot d' ≤ 0 then false else b) = b' at h
      dsimp only at h
      split at h
      · simp at h
      · by_cases hc : r.collides = true
        · rw [if_pos hc] at h
          cases hcc : enforceCcw r.pts with
          | error _ => rw [hcc] at h; simp at h
          | ok pts' =>
            rw [hcc] at h
            cases he : epa S iterationLimit pts' with
            | error _ => simp only [he] at h; simp at h
            | ok v' =>
              simp only [he, Except.ok.injEq, Prod.mk.injEq, true_and] at h
              exact ⟨pts', fun q hq => hp.step p1 p2 h1 q (enforceCcw_mem hcc q hq), by rw [he, h]⟩
        · rw [if_neg hc] at h
          obtain ⟨l2, db⟩ := h3 (by simpa using hc)
          obtain ⟨d2, i2, b2, l0⟩ := DiB.override hd hD hlo db
          exact ih _ _ d2 _ r.pts i2 b2 l0 (hp.step p1 p2 h1) l2 h

theorem distance_pts (hG : NoisyGrid g lo k W M S) (hk : 0 ≤ k) (hk2 : k ≤ 26) (hM : M ≤ (2 : ℝ) ^ k)
    (v : V2 F32) : ∀ (n : Nat) (d' : V2 F32) (d : V2 ℝ) (last : V2 F32) (pts : List (V2 F32)),
    d'.Is d → DirB k d → (lo → (2 : ℝ) ^ (-60 : ℤ) ≤ d.l1) → Pts g W M pts → pts.length ≤ 2 →
    gjkDistance S n d' last pts = .ok (false, v) → ∃ pts', Pts g W M pts' ∧ distanceToOrigin pts' = .ok v := by
  intro n
  induction n with
  | zero =>
    intro d' d last pts _ _ _ hp _ h
    simp only [gjkDistance] at h
    cases hc : distanceToOrigin pts with
    | error _ => rw [hc] at h; simp at h
    | ok v' =>
      rw [hc, Except.ok.injEq, Prod.mk.injEq] at h
      exact ⟨pts, hp, by rw [hc, h.2]⟩
  | succ n ih =>
    intro d' d last pts hd hD hlo hp hlen h
    simp only [gjkDistance] at h
    split at h
    · cases hc : distanceToOrigin pts with
      | error _ => rw [hc] at h; simp at h
      | ok v' =>
        rw [hc, Except.ok.injEq, Prod.mk.injEq] at h
        exact ⟨pts, hp, by rw [hc, h.2]⟩
    · obtain ⟨p, p1, p2⟩ := hG d' d hd hD hlo
      obtain ⟨r, e, h1, h2, h3, h4⟩ := addPoint_bdd hk hk2 (hp.ptB hM) hlen (PtB.of_is p1 p2.coord hM)
      rw [e] at h
      dsimp only at h
      by_cases hc : r.collides = true
      · rw [if_pos hc] at h
        split at h <;> simp at h
      · rw [if_neg hc] at h
        obtain ⟨l2, db⟩ := h3 (by simpa using hc)
        obtain ⟨d2, i2, b2, l0⟩ := DiB.override hd hD hlo db
        exact ih _ d2 _ r.pts i2 b2 l0 (hp.step p1 p2 h1) l2 h

theorem full_pts (hG : NoisyGrid g lo k W M S) (hk : 0 ≤ k) (hk2 : k ≤ 26) (hM : M ≤ (2 : ℝ) ^ k)
    (v : V2 F32) : ∀ (n : Nat) (b : Bool) (d' : V2 F32) (d : V2 ℝ) (last : V2 F32) (pts : List (V2 F32)),
    d'.Is d → DirB k d → (lo → (2 : ℝ) ^ (-60 : ℤ) ≤ d.l1) → Pts g W M pts → pts.length ≤ 2 →
    gjkFull S n b d' last pts = .ok (false, v) → ∃ pts', Pts g W M pts' ∧ distanceToOrigin pts' = .ok v := by
  intro n
  induction n with
  | zero =>
    intro b d' d last pts _ _ _ hp _ h
    simp only [gjkFull] at h
    cases hc : distanceToOrigin pts with
    | error _ => rw [hc] at h; simp at h
    | ok v' =>
      rw [hc, Except.ok.injEq, Prod.mk.injEq] at h
      exact ⟨pts, hp, by rw [hc, h.2]⟩
  | succ n ih =>
    intro b d' d last pts hd hD hlo hp hlen h
    simp only [gjkFull] at h
    split at h
    · cases hc : distanceToOrigin pts with
      | error _ => rw [hc] at h; simp at h
      | ok v' =>
        rw [hc, Except.ok.injEq, Prod.mk.injEq] at h
        exact ⟨pts, hp, by rw [hc, h.2]⟩
    · obtain ⟨p, p1, p2⟩ := hG d' d hd hD hlo
      obtain ⟨r, e, h1, h2, h3, h4⟩ := addPoint_bdd hk hk2 (hp.ptB hM) hlen (PtB.of_is p1 p2.coord hM)
      rw [e] at h
      generalize (if (S d').dot d' ≤ 0 then false else b) = b' at h
      dsimp only at h
      split at h
      · simp at h
      · by_cases hc : r.collides = true
        · rw [if_pos hc] at h
          cases hcc : enforceCcw r.pts with
          | error _ => rw [hcc] at h; simp at h
          | ok pts' =>
            rw [hcc] at h
            cases he : epa S iterationLimit pts' with
            | error _ => simp only [he] at h; simp at h
            | ok v' => simp only [he] at h; simp at h
        · rw [if_neg hc] at h
          obtain ⟨l2, db⟩ := h3 (by simpa using hc)
          obtain ⟨d2, i2, b2, l0⟩ := DiB.override hd hD hlo db
          exact ih _ _ d2 _ r.pts i2 b2 l0 (hp.step p1 p2 h1) l2 h

/-! ## the distance computation -/

/-- one coordinate of `-a - t * (b - a)` -/
theorem lerp_coord {a b t : F32} {x y τ z : ℝ} (hM : M ≤ (2 : ℝ) ^ (26 : ℤ)) (hM0 : (2 : ℝ) ^ (-20 : ℤ) ≤ M)
    (ha : F32.Is a x) (hb : F32.Is b y) (ht : F32.Is t τ) (hx : |x| ≤ 4 * M) (hy : |y| ≤ 4 * M) (h0 : 0 ≤ τ)
    (h1 : τ ≤ 1) (hz : F32.Is (-a - t * (b - a)) z) : |z + ((1 - τ) * x + τ * y)| ≤ 24 * (M / 2 ^ 24) := by
  have hM1 : 0 < M := lt_of_lt_of_le (two_zpow_pos _) hM0
  have hbig2 : (2 : ℝ) ^ (26 : ℤ) ≤ (2 : ℝ) ^ (126 : ℤ) / 16 := by norm_num
  have ht' : (1 : ℝ) / 2 ^ 150 ≤ (1 / 16) * (M / 2 ^ 24) := by
    have h1 : (1 : ℝ) / 2 ^ 150 ≤ (1 / 16) * ((2 : ℝ) ^ (-20 : ℤ) / 2 ^ 24) := by norm_num
    have h2 := div_le_div_of_nonneg_right hM0 (show (0 : ℝ) ≤ 2 ^ 24 by positivity)
    linarith
  have d0 : |y - x| ≤ 8 * M := (abs_sub _ _).trans (by linarith)
  obtain ⟨d, d1, d2⟩ := F32.round_sub hb ha (by linarith)
  have hμ : 0 < M / 2 ^ 24 := by positivity
  have hμM : M / 2 ^ 24 ≤ M / 128 := div_le_div_of_nonneg_left hM1.le (by norm_num) (by norm_num)
  have d3 : |d - (y - x)| ≤ 8 * (M / 2 ^ 24) := by
    have : |y - x| / 2 ^ 24 ≤ 8 * M / 2 ^ 24 := div_le_div_of_nonneg_right d0 (by positivity)
    have e : 8 * M / 2 ^ 24 = 8 * (M / 2 ^ 24) := by ring
    linarith
  have d4 : |d| ≤ 8 * M + M / 16 := by
    have := abs_add_le (y - x) (d - (y - x))
    rw [add_sub_cancel] at this
    linarith
  have m0 : |τ * d| ≤ 8 * M + M / 16 := by
    rw [abs_mul, abs_of_nonneg h0]
    have := mul_le_mul_of_nonneg_right h1 (abs_nonneg d)
    linarith
  obtain ⟨m, m1, m2, -⟩ := F32.round_mul ht d1 (by linarith)
  have m3 : |m - τ * d| ≤ (8 + 1 / 8) * (M / 2 ^ 24) := by
    have : |τ * d| / 2 ^ 24 ≤ (8 * M + M / 16) / 2 ^ 24 := div_le_div_of_nonneg_right m0 (by positivity)
    have e : (8 * M + M / 16) / 2 ^ 24 = (8 + 1 / 16) * (M / 2 ^ 24) := by ring
    linarith
  have m4 : |m - τ * (y - x)| ≤ (16 + 1 / 8) * (M / 2 ^ 24) := by
    have h2 : |τ * d - τ * (y - x)| ≤ 8 * (M / 2 ^ 24) := by
      rw [← mul_sub, abs_mul, abs_of_nonneg h0]
      have := mul_le_mul_of_nonneg_right h1 (abs_nonneg (d - (y - x)))
      linarith
    have := abs_add_le (m - τ * d) (τ * d - τ * (y - x))
    rw [sub_add_sub_cancel] at this
    linarith
  -- the convex combination
  have c0 : |(1 - τ) * x + τ * y| ≤ 4 * M := by
    refine (abs_add_le _ _).trans ?_
    rw [abs_mul, abs_mul, abs_of_nonneg h0, abs_of_nonneg (by linarith : 0 ≤ 1 - τ)]
    have := mul_le_mul_of_nonneg_left hx (by linarith : 0 ≤ 1 - τ)
    have := mul_le_mul_of_nonneg_left hy h0
    linarith
  have c1 : |-x - m + ((1 - τ) * x + τ * y)| ≤ (16 + 1 / 8) * (M / 2 ^ 24) := by
    have e : -x - m + ((1 - τ) * x + τ * y) = -(m - τ * (y - x)) := by ring
    rw [e, abs_neg]; exact m4
  have c2 : |-x - m| ≤ 5 * M := by
    have := abs_add_le (-x - m + ((1 - τ) * x + τ * y)) (-((1 - τ) * x + τ * y))
    rw [add_neg_cancel_right, abs_neg] at this
    linarith
  obtain ⟨z', z1, z2⟩ := F32.round_sub (is_neg ha) m1 (by linarith)
  have ez : z = z' := hz.unique z1
  rw [ez]
  have z3 : |z' - (-x - m)| ≤ 5 * (M / 2 ^ 24) := by
    have : |-x - m| / 2 ^ 24 ≤ 5 * M / 2 ^ 24 := div_le_div_of_nonneg_right c2 (by positivity)
    have e : 5 * M / 2 ^ 24 = 5 * (M / 2 ^ 24) := by ring
    linarith
  have := abs_add_le (z' - (-x - m)) (-x - m + ((1 - τ) * x + τ * y))
  rw [show z' - (-x - m) + (-x - m + ((1 - τ) * x + τ * y)) = z' + ((1 - τ) * x + τ * y) by ring] at this
  linarith

/-- the vector ends next to a point of the set -/
def Reaches (W : Set (V2 ℝ)) (δ : ℝ) (x : V2 ℝ) : Prop := ∃ w ∈ W, V2.norm (w + x) ≤ δ

theorem reaches_of_within (hM1 : 0 < M) {x w : V2 ℝ} (hw : w ∈ W) (h1 : |w.x + x.x| ≤ 46 * (M / 2 ^ 24))
    (h2 : |w.y + x.y| ≤ 46 * (M / 2 ^ 24)) : Reaches W (M / 2 ^ 17) x := by
  refine ⟨w, hw, ?_⟩
  have h := V2.norm_le_add (w + x)
  have e : M / 2 ^ 17 = 128 * (M / 2 ^ 24) := by ring
  have : 0 < M / 2 ^ 24 := by positivity
  have h1 : |(w + x).x| ≤ _ := h1
  have h2 : |(w + x).y| ≤ _ := h2
  linarith

theorem distance_reaches (hW : Convex ℝ W) (hM : M ≤ (2 : ℝ) ^ (26 : ℤ)) (hM0 : (2 : ℝ) ^ (-20 : ℤ) ≤ M)
    {pts : List (V2 F32)} (hp : Pts g W M pts) {v : V2 F32} {x : V2 ℝ} (hv : distanceToOrigin pts = .ok v)
    (hx : v.Is x) : Reaches W (M / 2 ^ 17) x := by
  have hM1 : 0 < M := lt_of_lt_of_le (two_zpow_pos _) hM0
  have hμ : 0 < M / 2 ^ 24 := by positivity
  have single : ∀ a ∈ pts, v = -a → Reaches W (M / 2 ^ 17) x := by
    intro a ha e
    obtain ⟨p, p1, p2⟩ := hp a ha
    obtain ⟨w, hw, w1, w2⟩ := p2.near
    rw [e] at hx
    have e1 : x.x = -p.x := hx.1.unique p1.neg.1
    have e2 : x.y = -p.y := hx.2.unique p1.neg.2
    refine reaches_of_within hM1 hw ?_ ?_
    · rw [e1, ← sub_eq_add_neg, abs_sub_comm]; linarith
    · rw [e2, ← sub_eq_add_neg, abs_sub_comm]; linarith
  rcases pts with _ | ⟨a, _ | ⟨b, _ | ⟨e, l⟩⟩⟩
  · simp [distanceToOrigin] at hv
  · simp only [distanceToOrigin, Except.ok.injEq] at hv
    exact single a (by simp) hv.symm
  · simp only [distanceToOrigin] at hv
    generalize ht : (-a).dot (b - a) / (b - a).dot (b - a) = t at hv
    by_cases h1 : t ≤ 0
    · rw [if_pos h1, Except.ok.injEq] at hv
      exact single a (by simp) hv.symm
    rw [if_neg h1] at hv
    by_cases h2 : t ≥ 1
    · rw [if_pos h2, Except.ok.injEq] at hv
      exact single b (by simp) hv.symm
    rw [if_neg h2, Except.ok.injEq] at hv
    rcases t with _ | s | ⟨s, m, hm⟩
    · exfalso
      have : v.x = nan := by
        rw [← hv]
        show (-a).x - nan * (b - a).x = nan
        rw [(special_nan _).2.2.2.1, (special_nan _).2.2.2.2.2.2.1]
      have h3 := hx.1
      rw [this] at h3
      exact not_is_nan h3
    · exfalso
      cases s
      · exact h2 (Or.inl (special_cmp_fin 1 is_one).1)
      · exact h1 (Or.inl (special_cmp_fin 0 is_zero).2.1)
    · have hτ : F32.Is (fin s m hm) (sval s m) := ⟨s, m, hm, rfl, rfl⟩
      rw [le_iff hτ is_zero] at h1
      have h2 : ¬ (1 : F32) ≤ fin s m hm := h2
      rw [le_iff is_one hτ] at h2
      push Not at h1 h2
      obtain ⟨p, p1, p2⟩ := hp a (by simp)
      obtain ⟨q, q1, q2⟩ := hp b (by simp)
      obtain ⟨w, hw, w1, w2⟩ := p2.near
      obtain ⟨w', hw', w1', w2'⟩ := q2.near
      generalize sval s m = τ at hτ h1 h2
      rw [← hv] at hx
      have c1 := lerp_coord hM hM0 p1.1 q1.1 hτ p2.coord.1 q2.coord.1 h1.le h2.le hx.1
      have c2 := lerp_coord hM hM0 p1.2 q1.2 hτ p2.coord.2 q2.coord.2 h1.le h2.le hx.2
      have hmix := hW hw hw' (by linarith : 0 ≤ 1 - τ) h1.le (by ring)
      have comb : ∀ {a b c d z : ℝ}, |z + ((1 - τ) * a + τ * b)| ≤ 24 * (M / 2 ^ 24) → |a - c| ≤ 22 * (M / 2 ^ 24) →
          |b - d| ≤ 22 * (M / 2 ^ 24) → |(1 - τ) * c + τ * d + z| ≤ 46 * (M / 2 ^ 24) := by
        intro a b c d z h3 h4 h5
        have e : (1 - τ) * c + τ * d + z = (z + ((1 - τ) * a + τ * b)) + -((1 - τ) * (a - c) + τ * (b - d)) := by ring
        rw [e]
        refine (abs_add_le _ _).trans ?_
        rw [abs_neg]
        have h6 := abs_add_le ((1 - τ) * (a - c)) (τ * (b - d))
        rw [abs_mul, abs_mul, abs_of_nonneg h1.le, abs_of_nonneg (by linarith : 0 ≤ 1 - τ)] at h6
        have := mul_le_mul_of_nonneg_left h4 (by linarith : 0 ≤ 1 - τ)
        have := mul_le_mul_of_nonneg_left h5 h1.le
        linarith
      exact reaches_of_within hM1 hmix (comb c1 w1 w1') (comb c2 w2 w2')
  · simp [distanceToOrigin] at hv

end

end Auburn
