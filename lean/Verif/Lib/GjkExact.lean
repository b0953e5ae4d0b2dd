import Verif.Lib.GjkLoop

/-!
# Exactness of the `penetrates` search: grid coordinates, and overlaps with a margin
(library lemmas, exact arithmetic)
-/

set_option linter.unusedSectionVars false
set_option synthInstance.maxSize 1000

namespace Auburn

open V2

section
variable {K : Type} [Field K] [LinearOrder K] [IsStrictOrderedRing K] [FloatExtra K]
  [ExactFloat K] {M : Set (V2 K)} {S : V2 K → V2 K}

/-! ## no tiny non-zero directions -/

/-- `v` has coordinates that are multiples of `1/N` -/
def OnGrid (N : Nat) (v : V2 K) : Prop := ∃ i j : ℤ, v = ⟨i / N, j / N⟩

theorem cubic_not_small {N : Nat} (h0 : 0 < N) (hN : N ≤ 203) {v : V2 K} {i j : ℤ}
    (hv : v = ⟨i / (N : K) ^ 3, j / (N : K) ^ 3⟩) (hs : directionTooSmall v) : v = 0 := by
  have h1 : lengthSq v < FloatExtra.epsilon * FloatExtra.epsilon := hs
  have hNpos : (0 : K) < N := by exact_mod_cast h0
  rw [hv, ExactFloat.epsilon_eq, lengthSq_def] at h1
  simp only at h1
  have h2 : ((i ^ 2 + j ^ 2 : ℤ) : K) < 1 := by
    have e : (i : K) / (N : K) ^ 3 * (i / (N : K) ^ 3) + j / (N : K) ^ 3 * (j / (N : K) ^ 3) =
        ((i ^ 2 + j ^ 2 : ℤ) : K) / (N : K) ^ 6 := by
      push_cast; field_simp
    rw [e, div_lt_iff₀ (by positivity)] at h1
    refine h1.trans_le ?_
    have h3 : (N : K) ^ 6 ≤ 2 ^ 46 := by
      have : (N : K) ≤ 203 := by exact_mod_cast hN
      calc (N : K) ^ 6 ≤ 203 ^ 6 := pow_le_pow_left₀ hNpos.le this 6
        _ ≤ 2 ^ 46 := by norm_num
    calc (1 / 2 ^ 23 * (1 / 2 ^ 23) : K) * N ^ 6 ≤ (1 / 2 ^ 23 * (1 / 2 ^ 23)) * 2 ^ 46 :=
          mul_le_mul_of_nonneg_left h3 (by positivity)
      _ = 1 := by norm_num
  have h3 : i ^ 2 + j ^ 2 < 1 := by exact_mod_cast h2
  have hi : i = 0 := by nlinarith [sq_nonneg i, sq_nonneg j]
  have hj : j = 0 := by nlinarith [sq_nonneg i, sq_nonneg j]
  rw [hv, hi, hj]; ext <;> simp

theorem grid_cross {N : Nat} (h0 : 0 < N) {u v w : V2 K} (hu : OnGrid N u) (hv : OnGrid N v)
    (hw : OnGrid N w) : ∃ i j : ℤ, (u - w).crossAba (v - w) = ⟨i / (N : K) ^ 3, j / (N : K) ^ 3⟩ := by
  obtain ⟨a, b, rfl⟩ := hu
  obtain ⟨c, d, rfl⟩ := hv
  obtain ⟨e, f, rfl⟩ := hw
  have hN : (N : K) ≠ 0 := by exact_mod_cast h0.ne'
  refine ⟨-(b - f) * ((a - e) * (d - f) - (b - f) * (c - e)),
    (a - e) * ((a - e) * (d - f) - (b - f) * (c - e)), ?_⟩
  ext <;> simp only [V2.crossAba, cross_def, sub_x, sub_y] <;> push_cast <;> field_simp

theorem outNormal_eq_crossAba (a b c : V2 K) :
    outNormal a b c = -((b - a).crossAba (c - a)) := by
  ext <;> simp only [outNormal, V2.crossF32, V2.crossAba, cross_def, sub_x, sub_y, neg_x, neg_y] <;>
    ring

theorem directionTooSmall_neg {v : V2 K} : directionTooSmall (-v) ↔ directionTooSmall v := by
  unfold directionTooSmall; rw [lengthSq_neg]

theorem addPoint_grid {N : Nat} (h0 : 0 < N) (hN : N ≤ 203) {pts : List (V2 K)} {a : V2 K}
    (hp : ∀ p ∈ pts, OnGrid N p) (ha : OnGrid N a) {r : AddResult K}
    (hr : addPoint pts a = .ok r) :
    (∀ p ∈ r.pts, OnGrid N p) ∧ (r.collides = false → directionTooSmall r.dir → r.dir = 0) := by
  have gz : OnGrid (K := K) N 0 := ⟨0, 0, by ext <;> simp⟩
  have hc : ∀ u v w : V2 K, OnGrid N u → OnGrid N v → OnGrid N w →
      directionTooSmall ((u - w).crossAba (v - w)) → (u - w).crossAba (v - w) = 0 := by
    intro u v w hu hv hw h
    obtain ⟨i, j, e⟩ := grid_cross h0 hu hv hw
    exact cubic_not_small h0 hN e h
  have hone : ∀ u : V2 K, OnGrid N u → directionTooSmall (-u) → -u = 0 := by
    intro u ⟨i, j, hu⟩ h
    have hN0 : (N : K) ≠ 0 := by exact_mod_cast h0.ne'
    have : -u = ⟨((-i * N ^ 2 : ℤ) : K) / (N : K) ^ 3, ((-j * N ^ 2 : ℤ) : K) / (N : K) ^ 3⟩ := by
      rw [hu]; ext <;> simp only [neg_x, neg_y] <;> push_cast <;> field_simp
    exact cubic_not_small h0 hN this h
  match pts, hp with
  | [], _ =>
    simp only [addPoint, Except.ok.injEq] at hr
    subst hr
    exact ⟨by simpa using ha, fun _ => hone a ha⟩
  | [b], hp =>
    have hb := hp b (by simp)
    simp only [addPoint] at hr
    split_ifs at hr
    · simp only [Except.ok.injEq] at hr
      subst hr
      refine ⟨by simpa using ⟨ha, hb⟩, fun _ h => ?_⟩
      have := hc b 0 a hb gz ha
      rw [zero_sub] at this
      exact this h
    · simp only [Except.ok.injEq] at hr
      subst hr
      exact ⟨by simpa using ⟨ha, hb⟩, fun _ => hone a ha⟩
  | [b, c], hp =>
    have hb := hp b (by simp)
    have hc' := hp c (by simp)
    have eq1 : (b - a).crossF32 ((b - a).cross (c - a)) = outNormal a b c := rfl
    simp only [addPoint, acPerp_eq, eq1] at hr
    have k1 : directionTooSmall (outNormal a b c) → outNormal a b c = 0 := by
      rw [outNormal_eq_crossAba, directionTooSmall_neg, neg_eq_zero]; exact hc b c a hb hc' ha
    have k2 : directionTooSmall (outNormal a c b) → outNormal a c b = 0 := by
      rw [outNormal_eq_crossAba, directionTooSmall_neg, neg_eq_zero]; exact hc c b a hc' hb ha
    split_ifs at hr <;> simp only [Except.ok.injEq] at hr <;> subst hr
    · exact ⟨by simpa using ⟨ha, hb⟩, fun _ => k1⟩
    · exact ⟨by simpa using ⟨ha, hc'⟩, fun _ => k2⟩
    · exact ⟨by simpa using ⟨ha, hc'⟩, fun _ => k2⟩
    · exact ⟨by simpa using ⟨ha, hb, hc'⟩, by simp⟩
  | _ :: _ :: _ :: _, _ => simp [addPoint] at hr

/-- On grid coordinates the search of `penetrates` is exact up to the iteration limit. -/
theorem gjkPenetrate_grid {N : Nat} (h0 : 0 < N) (hN : N ≤ 203) (hM : Convex K M)
    (hS : ∀ d, IsExtreme M d (S d)) (hG : ∀ d, OnGrid N (S d)) :
    ∀ (n : Nat) (L : List (V2 K)) (d : V2 K) (pts : List (V2 K)), GInv M L d pts → L.Nodup →
      (∀ e ∈ L, ∃ d, d ≠ 0 ∧ e = S d) → (∀ p ∈ pts, OnGrid N p) →
      ∀ r, gjkPenetrate S n d pts = .ok r →
      (r.1 = true → (0 : V2 K) ∈ M) ∧
      (r.1 = false → OneSide M ∨ ManySupport S (L.length + n)) := by
  intro n
  induction n with
  | zero =>
    intro L d pts _ hL hLS _ r hr
    simp only [gjkPenetrate, Except.ok.injEq] at hr
    subst hr
    exact ⟨by simp, fun _ => Or.inr ⟨L, hL, rfl, hLS⟩⟩
  | succ n ih =>
    intro L d pts hI hL hLS hpG r hr
    simp only [gjkPenetrate] at hr
    by_cases h1 : (S d).dot d ≤ 0
    · rw [if_pos h1] at hr
      simp only [Except.ok.injEq] at hr
      subst hr
      refine ⟨by simp, fun _ => Or.inl ⟨d, hI.dir_ne, fun m hm => ?_⟩⟩
      rw [dot_comm] at h1
      exact ((hS d).2 m hm).trans h1
    · rw [if_neg h1] at hr
      obtain ⟨q, hq, hok⟩ := hI.step hM (hS d) (not_le.1 h1)
      obtain ⟨g1, g2⟩ := addPoint_grid h0 hN hpG (hG d) hq
      rw [hq] at hr
      simp only at hr
      cases hc : q.collides with
      | true =>
        have hz := hok.hit hc
        rw [if_pos hc] at hr
        refine ⟨fun _ => hz, fun hf => ?_⟩
        exfalso
        split at hr
        · cases hr
        · split at hr
          · cases hr
          · simp only [Except.ok.injEq] at hr
            subst hr
            simp at hf
      | false =>
        rw [if_neg (by simp [hc])] at hr
        have hI' : GInv M (S d :: L) (overrideDir d q.dir) q.pts := by
          unfold overrideDir
          split_ifs with h4
          · exact hok.zero hc (g2 hc h4)
          · exact hok.next hc (not_tooSmall_ne h4)
        obtain ⟨r1, r2⟩ := ih (S d :: L) _ _ hI' (hI.fresh hL (not_le.1 h1)) (by
            intro e he
            rcases List.mem_cons.1 he with rfl | he
            · exact ⟨d, hI.dir_ne, rfl⟩
            · exact hLS e he) g1 r hr
        refine ⟨r1, fun h => ?_⟩
        have e : L.length + (n + 1) = (S d :: L).length + n := by simp; omega
        rw [e]; exact r2 h

/-! ## overlaps with a margin -/

/-- `M` contains the disc of radius `δ` around the origin -/
def HasDisc (M : Set (V2 K)) (δ : K) : Prop := ∀ v : V2 K, lengthSq v ≤ δ ^ 2 → v ∈ M

theorem HasDisc.support [ExactSqrt K] {δ : K} (h : HasDisc M δ) (h0 : 0 ≤ δ) {u p : V2 K}
    (hu : u ≠ 0) (hp : ∀ m ∈ M, u.dot m ≤ u.dot p) :
    δ * u.length ≤ u.dot p ∧ δ ^ 2 * lengthSq u ≤ u.dot p ^ 2 ∧ δ ^ 2 ≤ lengthSq p := by
  have hl := V2.length_pos.2 hu
  have h1 := hp (scale (δ / u.length) u) (h _ (by
    rw [lengthSq_scale, div_pow, V2.length_sq, div_mul_cancel₀ _ (lengthSq_pos.2 hu).ne']))
  rw [dot_scale, dot_self, ← V2.length_sq] at h1
  have e : δ / u.length * u.length ^ 2 = δ * u.length := by field_simp
  rw [e] at h1
  have h2 : δ ^ 2 * lengthSq u ≤ u.dot p ^ 2 := by
    rw [← V2.length_sq, ← mul_pow]
    exact pow_le_pow_left₀ (mul_nonneg h0 hl.le) h1 2
  refine ⟨h1, h2, ?_⟩
  have h3 := dot_sq_le u p
  have h4 := lengthSq_pos.2 hu
  have : lengthSq u * δ ^ 2 ≤ lengthSq u * lengthSq p := by linarith
  exact le_of_mul_le_mul_left this h4

theorem HasDisc.not_oneSide {δ : K} (h : HasDisc M δ) (h0 : 0 < δ) : ¬ OneSide M := by
  rintro ⟨n, hn, hs⟩
  have hN := lengthSq_pos.2 hn
  have hden : 0 < 1 + lengthSq n := by linarith
  have h1 := hs (scale (δ / (1 + lengthSq n)) n) (h _ (by
    rw [lengthSq_scale, div_pow, div_mul_eq_mul_div, div_le_iff₀ (by positivity)]
    have : lengthSq n ≤ (1 + lengthSq n) ^ 2 := by nlinarith
    nlinarith [sq_nonneg δ]))
  rw [dot_scale, dot_self] at h1
  have := mul_pos (div_pos h0 hden) hN
  linarith

/-- the state right after an override in the two points case: the next point captures the origin -/
theorem capture_after_override [ExactSqrt K] {δ R : K} (hδ : 0 < δ) (hD : HasDisc M δ)
    (hR : ∀ m ∈ M, m.length ≤ R) (hε : 1 / 2 ^ 23 * R ≤ δ ^ 4)
    {a b p : V2 K} (haM : IsExtreme M (-b) a) (hPb : PInv M b)
    (hs : directionTooSmall ((b - a).crossAba (-a))) (hp : IsExtreme M (-b).perp p) :
    ∃ r, addPoint [a, b] p = .ok r ∧ r.collides = true ∧ r.pts = [p, a, b] := by
  have hb0 := hPb.ne_zero
  have hnb : -b ≠ 0 := neg_ne_zero.2 hb0
  have hlb := V2.length_pos.2 hb0
  have hlen : ∀ v : V2 K, lengthSq v = lengthSq b → v.length = b.length := by
    intro v h
    have h1 := V2.length_sq v
    rw [h, ← V2.length_sq b] at h1
    exact (pow_left_inj₀ (V2.length_nonneg v) (V2.length_nonneg b) (by norm_num)).1 h1
  have hlen1 := hlen (-b) (lengthSq_neg b)
  have hlen2 := hlen (-b).perp (by
      simp only [lengthSq_def, neg_x, neg_y, perp_x, perp_y]; ring)
  obtain ⟨s1, _, s1'⟩ := hD.support hδ.le hnb haM.2
  obtain ⟨s2, _, s2'⟩ := hD.support hδ.le (perp_ne hnb) hp.2
  rw [hlen1] at s1
  rw [hlen2] at s2
  have hbδ' : δ ^ 2 ≤ lengthSq b := by
    obtain ⟨u, hu1, hu2⟩ := hPb
    have hu0 : u ≠ 0 := by rintro rfl; simp at hu2
    exact (hD.support hδ.le hu0 hu1).2.2
  have hbδ : δ ≤ b.length := by
    rw [← V2.length_sq] at hbδ'
    exact (pow_le_pow_iff_left₀ hδ.le hlb.le (by norm_num)).1 hbδ'
  have hRδ : δ ≤ R := by
    refine le_trans ?_ (hR p hp.1)
    rw [← V2.length_sq] at s2'
    exact (pow_le_pow_iff_left₀ hδ.le (V2.length_nonneg p) (by norm_num)).1 s2'
  have hεδ : (1 / 2 ^ 23 : K) ≤ δ ^ 3 := by
    have h1 : (1 / 2 ^ 23 : K) * δ ≤ δ ^ 3 * δ := by
      calc (1 / 2 ^ 23 : K) * δ ≤ 1 / 2 ^ 23 * R := mul_le_mul_of_nonneg_left hRδ (by positivity)
        _ ≤ δ ^ 4 := hε
        _ = δ ^ 3 * δ := by ring
    exact le_of_mul_le_mul_right h1 hδ
  set κ := a.cross b with hκ
  set g := (-b).dot a with hg
  set α := (-b).perp.dot p with hα
  set ζ := b.dot p with hζ
  have eα : p.cross b = α := by
    rw [hα]; simp only [cross_def, dot_def, neg_x, neg_y, perp_x, perp_y]; ring
  have eP : lengthSq b * p.cross a = -(ζ * κ) - α * g := by
    rw [hζ, hκ, hα, hg]
    simp only [cross_def, dot_def, neg_x, neg_y, perp_x, perp_y, lengthSq_def]; ring
  have eT : (a - p).cross (b - p) = κ + p.cross a - α := by
    rw [← eα, hκ]; simp only [cross_def, sub_x, sub_y]; ring
  -- bound on κ
  have hκ1 : 2 * δ * |κ| < 1 / 2 ^ 23 := by
    have h1 : lengthSq ((b - a).crossAba (-a)) < FloatExtra.epsilon * FloatExtra.epsilon := hs
    have e1 : (b - a).cross (-a) = κ := by
      rw [hκ]; simp only [cross_def, sub_x, sub_y, neg_x, neg_y]; ring
    rw [crossAba_lengthSq, e1, ExactFloat.epsilon_eq, ← sq] at h1
    have e2 : lengthSq (b - a) = lengthSq a + lengthSq b + 2 * g := by
      rw [hg]; simp only [lengthSq_def, dot_def, sub_x, sub_y, neg_x, neg_y]; ring
    have hgδ : δ ^ 2 ≤ g := by nlinarith
    have h2 : (2 * δ) ^ 2 ≤ lengthSq (b - a) := by rw [e2]; nlinarith
    have h3 : (2 * δ * |κ|) ^ 2 < (1 / 2 ^ 23) ^ 2 := by
      rw [mul_pow, sq_abs]
      exact (mul_le_mul_of_nonneg_right h2 (sq_nonneg κ)).trans_lt h1
    exact lt_of_pow_lt_pow_left₀ 2 (by positivity) h3
  have hκ0 := abs_nonneg κ
  have hαb : δ * b.length ≤ α := s2
  have hαpos : 0 < α := (mul_pos hδ hlb).trans_le hαb
  have hζκ : 2 * δ * |ζ * κ| ≤ b.length * δ ^ 4 := by
    have h1 : |ζ| ≤ b.length * R := by
      rw [abs_le]
      have h2 := V2.dot_le_length b p
      have h3 := V2.neg_length_le_dot b p
      have h4 := mul_le_mul_of_nonneg_left (hR p hp.1) hlb.le
      constructor <;> linarith
    rw [abs_mul]
    have hbR : 0 ≤ b.length * R := (abs_nonneg ζ).trans h1
    calc 2 * δ * (|ζ| * |κ|) = |ζ| * (2 * δ * |κ|) := by ring
      _ ≤ b.length * R * (1 / 2 ^ 23) := mul_le_mul h1 hκ1.le (by positivity) hbR
      _ = b.length * (1 / 2 ^ 23 * R) := by ring
      _ ≤ _ := mul_le_mul_of_nonneg_left hε hlb.le
  have hαg : δ ^ 3 * b.length ≤ α * g := by
    have h1 : (δ * b.length) * (δ * b.length) ≤ α * g :=
      mul_le_mul hαb s1 (by positivity) hαpos.le
    have h2 : δ ^ 2 * b.length * δ ≤ δ ^ 2 * b.length * b.length :=
      mul_le_mul_of_nonneg_left hbδ (by positivity)
    calc δ ^ 3 * b.length = δ ^ 2 * b.length * δ := by ring
      _ ≤ δ ^ 2 * b.length * b.length := h2
      _ = (δ * b.length) * (δ * b.length) := by ring
      _ ≤ _ := h1
  have hPa : p.cross a < 0 := by
    by_contra hn
    have h1 := mul_nonneg (lengthSq_nonneg b) (not_lt.1 hn)
    rw [eP] at h1
    have h2 := neg_abs_le (ζ * κ)
    have h3 : 2 * δ * (δ ^ 3 * b.length) ≤ b.length * δ ^ 4 := by
      have : 2 * δ * (δ ^ 3 * b.length) ≤ 2 * δ * |ζ * κ| :=
        mul_le_mul_of_nonneg_left (by linarith) (by linarith)
      linarith
    have h4 : 0 < b.length * δ ^ 4 := by positivity
    have h5 : 2 * δ * (δ ^ 3 * b.length) = 2 * (b.length * δ ^ 4) := by ring
    rw [h5] at h3
    linarith
  have hκα : κ < α := by
    have h1 := le_abs_self κ
    have h2 : 2 * δ * |κ| < δ ^ 3 := hκ1.trans_le hεδ
    have h3 : 2 * |κ| < δ ^ 2 := by
      by_contra hn
      have h4 := mul_le_mul_of_nonneg_left (not_lt.1 hn) hδ.le
      have h5 : δ * δ ^ 2 = δ ^ 3 := by ring
      have h6 : δ * (2 * |κ|) = 2 * δ * |κ| := by ring
      rw [h5, h6] at h4
      linarith
    have h4 : δ ^ 2 ≤ δ * b.length := by rw [sq]; exact mul_le_mul_of_nonneg_left hbδ hδ.le
    linarith
  have hT : (a - p).cross (b - p) < 0 := by rw [eT]; linarith
  have c1 : (outNormal p a b).dot (-p) < 0 := by
    rw [outNormal_dot]
    have : (a - p).cross (-p) = p.cross a := by
      simp only [cross_def, sub_x, sub_y, neg_x, neg_y]; ring
    rw [this]
    have := mul_pos_of_neg_of_neg hT hPa
    linarith
  have c2 : (outNormal p b a).dot (-p) < 0 := by
    rw [outNormal_dot, cross_anti (b - p) (a - p)]
    have : (b - p).cross (-p) = α := by
      rw [← eα]; simp only [cross_def, sub_x, sub_y, neg_x, neg_y]; ring
    rw [this]
    have := mul_neg_of_neg_of_pos hT hαpos
    linarith
  have eq1 : (a - p).crossF32 ((a - p).cross (b - p)) = outNormal p a b := rfl
  refine ⟨⟨true, V2.nan, [p, a, b]⟩, ?_, rfl, rfl⟩
  simp only [addPoint, acPerp_eq, eq1]
  rw [if_neg (show ¬ sameDirection _ _ from not_le.2 c1),
    if_neg (show ¬ sameDirection _ _ from not_le.2 c2)]

/-- with a margin the direction in the three points case is never too small -/
theorem EdgeInv.not_small [ExactSqrt K] {δ : K} (hδ : 0 < δ) (hδε : 1 / 2 ^ 23 ≤ δ ^ 3)
    (hD : HasDisc M δ) {L : List (V2 K)} {d b c a : V2 K} (h : EdgeInv M L d b c)
    (hlong : δ ^ 2 ≤ lengthSq (b - c)) (haM : IsExtreme M d a) (ha : 0 < d.dot a) :
    ¬ directionTooSmall (outNormal a b c) ∧ δ ^ 2 ≤ lengthSq (a - b) := by
  have hdd := lengthSq_pos.2 h.hd
  obtain ⟨_, s1, _⟩ := hD.support hδ.le h.hd haM.2
  obtain ⟨c1, _, _, _, c5⟩ := h.coords a
  have hH : d.dot a ^ 2 ≤ (d.dot a - d.dot b) ^ 2 := by
    have := h.le; nlinarith
  have hab : δ ^ 2 ≤ lengthSq (b - a) := by
    have : lengthSq d * δ ^ 2 ≤ lengthSq d * lengthSq (b - a) := by
      rw [c5]
      have := sq_nonneg (d.cross a - d.cross b)
      linarith
    exact le_of_mul_le_mul_left this hdd
  refine ⟨fun hs => ?_, by rw [lengthSq_sub_comm]; exact hab⟩
  have h1 : lengthSq (outNormal a b c) < FloatExtra.epsilon * FloatExtra.epsilon := hs
  rw [ExactFloat.epsilon_eq, ← sq, outNormal_lengthSq] at h1
  have habc : δ ^ 4 ≤ (b - a).cross (c - a) ^ 2 := by
    have h2 : lengthSq d ^ 2 * δ ^ 4 ≤ lengthSq d ^ 2 * (b - a).cross (c - a) ^ 2 := by
      rw [← mul_pow, c1, mul_pow]
      have e := frame_lengthSq d (b - c)
      rw [dot_sub, cross_sub, h.perp, sub_self] at e
      have h3 : lengthSq d * δ ^ 2 ≤ (d.cross b - d.cross c) ^ 2 := by
        have := mul_le_mul_of_nonneg_left hlong hdd.le
        nlinarith
      have h4 : lengthSq d * δ ^ 2 ≤ (d.dot a - d.dot b) ^ 2 := by linarith
      calc lengthSq d ^ 2 * δ ^ 4 = (lengthSq d * δ ^ 2) * (lengthSq d * δ ^ 2) := by ring
        _ ≤ _ := mul_le_mul h4 h3 (by positivity) (sq_nonneg _)
    exact le_of_mul_le_mul_left h2 (pow_pos hdd 2)
  have h5 : (δ ^ 3) ^ 2 ≤ lengthSq (b - a) * (b - a).cross (c - a) ^ 2 := by
    calc (δ ^ 3) ^ 2 = δ ^ 2 * δ ^ 4 := by ring
      _ ≤ _ := mul_le_mul hab habc (by positivity) (lengthSq_nonneg _)
  have h6 : (1 / 2 ^ 23 : K) ^ 2 ≤ (δ ^ 3) ^ 2 := pow_le_pow_left₀ (by positivity) hδε 2
  linarith

/-- the simplex edge is at least `δ` long -/
def LongEdge (δ : K) (pts : List (V2 K)) : Prop :=
  ∀ b c, pts = [b, c] → δ ^ 2 ≤ lengthSq (b - c)

theorem penetrate_hit {n : Nat} {d : V2 K} {pts : List (V2 K)} {q : AddResult K}
    (h1 : ¬ (S d).dot d ≤ 0) (hq : addPoint pts (S d) = .ok q) (hc : q.collides = true)
    {r} (hr : gjkPenetrate S (n + 1) d pts = .ok r) : r.1 = true := by
  simp only [gjkPenetrate] at hr
  rw [if_neg h1, hq] at hr
  simp only at hr
  rw [if_pos hc] at hr
  split at hr
  · cases hr
  · split at hr
    · cases hr
    · simp only [Except.ok.injEq] at hr
      subst hr; rfl

/-- An overlap with margin `δ` is found, unless the iteration limit is reached. -/
theorem gjkPenetrate_margin [ExactSqrt K] {δ R : K} (hδ : 0 < δ) (hD : HasDisc M δ)
    (hR : ∀ m ∈ M, m.length ≤ R) (hε : 1 / 2 ^ 23 * R ≤ δ ^ 4) (hM : Convex K M)
    (hS : ∀ d, IsExtreme M d (S d)) :
    ∀ (n : Nat) (L : List (V2 K)) (d : V2 K) (pts : List (V2 K)), GInv M L d pts → L.Nodup →
      (∀ e ∈ L, ∃ d, d ≠ 0 ∧ e = S d) → LongEdge δ pts →
      (pts.length = 2 ∨ 3 ≤ n + pts.length) →
      ∀ r, gjkPenetrate S n d pts = .ok r → r.1 = true ∨ ManySupport S (L.length + n) := by
  have hRδ : δ ≤ R := by
    have h1 : (⟨1, 0⟩ : V2 K) ≠ 0 := by
      intro h; have := congrArg V2.x h; simp at this
    obtain ⟨_, _, s2'⟩ := hD.support hδ.le h1 (hS ⟨1, 0⟩).2
    refine le_trans ?_ (hR _ (hS ⟨1, 0⟩).1)
    rw [← V2.length_sq] at s2'
    exact (pow_le_pow_iff_left₀ hδ.le (V2.length_nonneg _) (by norm_num)).1 s2'
  have hεδ : (1 / 2 ^ 23 : K) ≤ δ ^ 3 := by
    have h1 : (1 / 2 ^ 23 : K) * δ ≤ δ ^ 3 * δ := by
      calc (1 / 2 ^ 23 : K) * δ ≤ 1 / 2 ^ 23 * R := mul_le_mul_of_nonneg_left hRδ (by positivity)
        _ ≤ δ ^ 4 := hε
        _ = δ ^ 3 * δ := by ring
    exact le_of_mul_le_mul_right h1 hδ
  have hpos : ∀ d : V2 K, d ≠ 0 → ¬ (S d).dot d ≤ 0 := by
    intro d hd h
    obtain ⟨s1, _, _⟩ := hD.support hδ.le hd (hS d).2
    rw [dot_comm] at h
    have := mul_pos hδ (V2.length_pos.2 hd)
    linarith
  intro n
  induction n with
  | zero =>
    intro L d pts _ hL hLS _ _ r hr
    exact Or.inr ⟨L, hL, rfl, hLS⟩
  | succ n ih =>
    intro L d pts hI hL hLS hlong hn r hr
    have h1 := hpos d hI.dir_ne
    obtain ⟨q, hq, hok⟩ := hI.step hM (hS d) (not_le.1 h1)
    cases hc : q.collides with
    | true => exact Or.inl (penetrate_hit h1 hq hc hr)
    | false =>
      simp only [gjkPenetrate] at hr
      rw [if_neg h1, hq] at hr
      simp only at hr
      rw [if_neg (by simp [hc])] at hr
      have hfin : GInv M (S d :: L) (overrideDir d q.dir) q.pts → LongEdge δ q.pts →
          (q.pts.length = 2 ∨ 3 ≤ n + q.pts.length) →
          r.1 = true ∨ ManySupport S (L.length + (n + 1)) := by
        intro g1 g2 g3
        rcases ih _ _ _ g1 (hI.fresh hL (not_le.1 h1)) (by
            intro e he
            rcases List.mem_cons.1 he with rfl | he
            · exact ⟨d, hI.dir_ne, rfl⟩
            · exact hLS e he) g2 g3 r hr with h | h
        · exact Or.inl h
        · refine Or.inr ?_
          have e : L.length + (n + 1) = (S d :: L).length + n := by simp; omega
          rw [e]; exact h
      have hnext : ¬ directionTooSmall q.dir → GInv M (S d :: L) (overrideDir d q.dir) q.pts := by
        intro h4
        have e0 : overrideDir d q.dir = q.dir := if_neg h4
        rw [e0]; exact hok.next hc (not_tooSmall_ne h4)
      cases hI with
      | start d hd =>
        simp only [addPoint, Except.ok.injEq] at hq
        subst hq
        refine hfin (hnext fun h4 => ?_) (by intro b c h; simp at h) (by simp at hn ⊢; omega)
        have h5 : lengthSq (-(S d)) < FloatExtra.epsilon * FloatExtra.epsilon := h4
        obtain ⟨_, _, s3⟩ := hD.support hδ.le hd (hS d).2
        rw [ExactFloat.epsilon_eq, ← sq, lengthSq_neg] at h5
        have h6 : δ < 1 / 2 ^ 23 :=
          lt_of_pow_lt_pow_left₀ 2 (by positivity) (s3.trans_lt h5)
        have h7 : δ ^ 3 ≤ δ := by
          have : δ ≤ 1 := h6.le.trans (by norm_num)
          calc δ ^ 3 ≤ δ ^ 1 := pow_le_pow_of_le_one hδ.le this (by norm_num)
            _ = δ := pow_one δ
        linarith
      | point b hb hP =>
        have ha : 0 < (-b).dot (S (-b)) := by rw [dot_comm]; exact not_le.1 h1
        have h2 : (b - S (-b)).dot (-(S (-b))) ≥ 0 := by
          rw [dot_neg, sub_dot, dot_self]
          rw [neg_dot] at ha
          have := lengthSq_nonneg (S (-b))
          show 0 ≤ _
          linarith
        simp only [addPoint] at hq
        rw [if_pos h2] at hq
        simp only [Except.ok.injEq] at hq
        by_cases h4 : directionTooSmall q.dir
        · -- the override; the next iteration captures
          left
          obtain ⟨m, rfl⟩ : ∃ m, n = m + 1 := ⟨n - 1, by simp at hn; omega⟩
          have e0 : overrideDir (-b) q.dir = (-b).perp := if_pos h4
          rw [e0] at hr
          have e1 : q.pts = [S (-b), b] := by rw [← hq]
          have e2 : directionTooSmall ((b - S (-b)).crossAba (-(S (-b)))) := by
            rw [← hq] at h4; exact h4
          rw [e1] at hr
          obtain ⟨q2, hq2, hc2, _⟩ := capture_after_override hδ hD hR hε (hS (-b)) hP e2
            (hS (-b).perp)
          exact penetrate_hit (hpos _ (perp_ne (neg_ne_zero.2 hP.ne_zero))) hq2 hc2 hr
        · refine hfin (hnext h4) ?_ (Or.inl (by rw [← hq]; rfl))
          rw [← hq]
          intro u v huv
          simp only [List.cons.injEq, and_true] at huv
          obtain ⟨rfl, rfl⟩ := huv
          obtain ⟨_, _, s3⟩ := hD.support hδ.le (neg_ne_zero.2 hP.ne_zero) (hS (-b)).2
          have e2 : lengthSq (S (-b) - b) = lengthSq (S (-b)) + lengthSq b +
              2 * (-b).dot (S (-b)) := by
            simp only [lengthSq_def, dot_def, sub_x, sub_y, neg_x, neg_y]; ring
          rw [e2]
          have := lengthSq_nonneg b
          linarith
      | edge L d b c h =>
        have ha : 0 < d.dot (S d) := by rw [dot_comm]; exact not_le.1 h1
        have hlen := hlong b c rfl
        obtain ⟨k1, k2⟩ := h.not_small hδ hεδ hD hlen (hS d) ha
        obtain ⟨k3, k4⟩ := h.symm.not_small hδ hεδ hD (by rwa [lengthSq_sub_comm]) (hS d) ha
        have eq1 : (b - S d).crossF32 ((b - S d).cross (c - S d)) = outNormal (S d) b c := rfl
        simp only [addPoint, acPerp_eq, eq1] at hq
        have hL1 : LongEdge δ [S d, b] := by
          intro u v huv
          simp only [List.cons.injEq, and_true] at huv
          obtain ⟨rfl, rfl⟩ := huv
          exact k2
        have hL2 : LongEdge δ [S d, c] := by
          intro u v huv
          simp only [List.cons.injEq, and_true] at huv
          obtain ⟨rfl, rfl⟩ := huv
          exact k4
        split_ifs at hq <;> simp only [Except.ok.injEq] at hq <;> subst hq
        · exact hfin (hnext k1) hL1 (Or.inl rfl)
        · exact hfin (hnext k3) hL2 (Or.inl rfl)
        · exact hfin (hnext k3) hL2 (Or.inl rfl)
        · simp at hc

end
end Auburn
