import Verif.Ieee.NoisyGjk
import Verif.Ieee.Special

/-!
# The vectors computed by GJK and EPA on binary32 (library lemmas for C86)
-/

set_option linter.unusedSectionVars false
set_option synthInstance.maxSize 1000

namespace Auburn

open F32 V2 ExtremePoint2d Transformation2d

/-! ## arithmetic -/

theorem push_arith {M l nx ny Q f den q vx vy : ℝ} (hM0 : (2 : ℝ) ^ (-20 : ℤ) ≤ M)
    (hQ : Q = nx * nx + ny * ny) (hl : l = |nx| + |ny|) (hl9 : l ≤ 18 * M) (hl0 : (2 : ℝ) ^ (-60 : ℤ) ≤ l)
    (hf : |f| ≤ 5 * M * l) (hden : |den - Q| ≤ (9 / 4) * (Q / 2 ^ 24) + 3 / 2 ^ 150)
    (hq : |q - -f / den| ≤ |-f / den| / 2 ^ 24 + 1 / 2 ^ 150)
    (hvx : |vx - q * nx| ≤ |q * nx| / 2 ^ 24 + 1 / 2 ^ 150)
    (hvy : |vy - q * ny| ≤ |q * ny| / 2 ^ 24 + 1 / 2 ^ 150) :
    |nx * vx + ny * vy + f| ≤ 25 * (M / 2 ^ 24) * l := by
  have hM1 : 0 < M := lt_of_lt_of_le (two_zpow_pos _) hM0
  have hl1 : 0 < l := lt_of_lt_of_le (two_zpow_pos _) hl0
  have sx := abs_mul_abs_self nx
  have sy := abs_mul_abs_self ny
  have ax := abs_nonneg nx
  have ay := abs_nonneg ny
  have hQ1 : l * l ≤ 2 * Q := by rw [hQ, hl]; nlinarith [mul_self_nonneg (|nx| - |ny|)]
  have hQ2 : Q ≤ l * l := by rw [hQ, hl]; nlinarith [mul_nonneg ax ay]
  have hQs : (2 : ℝ) ^ (-121 : ℤ) ≤ Q := by
    have h1 := mul_le_mul hl0 hl0 (two_zpow_pos _).le hl1.le
    have h2 : (2 : ℝ) ^ (-60 : ℤ) * (2 : ℝ) ^ (-60 : ℤ) = 2 * (2 : ℝ) ^ (-121 : ℤ) := by norm_num
    linarith
  have hQ0 : 0 < Q := lt_of_lt_of_le (two_zpow_pos _) hQs
  have ht1 : (3 : ℝ) / 2 ^ 150 ≤ (1 / 8) * (Q / 2 ^ 24) := by
    have h1 : (3 : ℝ) / 2 ^ 150 ≤ (1 / 8) * ((2 : ℝ) ^ (-121 : ℤ) / 2 ^ 24) := by norm_num
    have h2 := div_le_div_of_nonneg_right hQs (show (0 : ℝ) ≤ 2 ^ 24 by positivity)
    linarith
  have hden2 : |den - Q| ≤ (19 / 8) * (Q / 2 ^ 24) := by linarith
  have d1 := (abs_le.1 hden2).1
  have hd0 : 0 < den := by linarith
  -- the ratio
  obtain ⟨ρ, hρ⟩ : ∃ ρ, ρ = Q / den := ⟨_, rfl⟩
  have hρ1 : |ρ - 1| ≤ (5 / 2) / 2 ^ 24 := by
    rw [hρ, div_sub_one hd0.ne', abs_div, abs_of_pos hd0, div_le_iff₀ hd0, abs_sub_comm]
    refine hden2.trans ?_
    linarith
  have hρ0 : 0 < ρ := by rw [hρ]; positivity
  have hρ2 : ρ ≤ 1 + 1 / 64 := by linarith [(abs_le.1 hρ1).2]
  have fa := abs_nonneg f
  have e1 : |q * Q + f * ρ| ≤ |f| * ρ / 2 ^ 24 + Q / 2 ^ 150 := by
    have e : q * Q + f * ρ = (q - -f / den) * Q := by rw [hρ]; ring
    rw [e, abs_mul, abs_of_pos hQ0]
    refine (mul_le_mul_of_nonneg_right hq hQ0.le).trans (le_of_eq ?_)
    rw [abs_div, abs_neg, abs_of_pos hd0, hρ]; ring
  have ht2 : (1 : ℝ) / 2 ^ 150 ≤ (1 / 2048) * (M / 2 ^ 24) / 2 ^ 64 := by
    have h1 : (1 : ℝ) / 2 ^ 150 ≤ (1 / 2048) * ((2 : ℝ) ^ (-20 : ℤ) / 2 ^ 24) / 2 ^ 64 := by norm_num
    have h2 := div_le_div_of_nonneg_right hM0 (show (0 : ℝ) ≤ 2 ^ 24 by positivity)
    linarith
  have e2 : Q / 2 ^ 150 ≤ (1 / 64) * (M / 2 ^ 24) * l := by
    have h1 : Q ≤ 18 * M * l := hQ2.trans (mul_le_mul_of_nonneg_right hl9 hl1.le)
    have h2 : Q / 2 ^ 150 ≤ 18 * M * l / 2 ^ 150 := div_le_div_of_nonneg_right h1 (by positivity)
    have h3 : 18 * M * l / 2 ^ 150 = M * l * (18 / 2 ^ 150) := by ring
    have h4 : (1 / 64) * (M / 2 ^ 24) * l = M * l * ((1 / 64) / 2 ^ 24) := by ring
    have h5 : (18 : ℝ) / 2 ^ 150 ≤ (1 / 64) / 2 ^ 24 := by norm_num
    rw [h4]
    rw [h3] at h2
    exact h2.trans (mul_le_mul_of_nonneg_left h5 (by positivity))
  have e3 : |f * ρ - f| ≤ |f| * ((5 / 2) / 2 ^ 24) := by
    have e : f * ρ - f = f * (ρ - 1) := by ring
    rw [e, abs_mul]
    exact mul_le_mul_of_nonneg_left hρ1 fa
  have e4 : |f| * ρ ≤ |f| * (1 + 1 / 64) := mul_le_mul_of_nonneg_left hρ2 fa
  have e5 : |q * Q + f| ≤ (29 / 8) * (|f| / 2 ^ 24) + (1 / 64) * (M / 2 ^ 24) * l := by
    have := abs_add_le (q * Q + f * ρ) (f - f * ρ)
    rw [show q * Q + f * ρ + (f - f * ρ) = q * Q + f by ring, abs_sub_comm f] at this
    have h1 : |f| * ρ / 2 ^ 24 ≤ |f| * (1 + 1 / 64) / 2 ^ 24 := div_le_div_of_nonneg_right e4 (by positivity)
    have h2 : |f| / 2 ^ 24 ≥ 0 := by positivity
    linarith
  have hMl : 0 < M * l := by positivity
  have hf' : |f| / 2 ^ 24 ≤ 5 * (M / 2 ^ 24 * l) := by
    have : 5 * (M / 2 ^ 24 * l) = 5 * M * l / 2 ^ 24 := by ring
    rw [this]; exact div_le_div_of_nonneg_right hf (by positivity)
  have hMu : 0 < M / 2 ^ 24 * l := by positivity
  have e6 : |q * Q| ≤ 6 * (M * l) := by
    have := abs_add_le (q * Q + f) (-f)
    rw [add_neg_cancel_right, abs_neg] at this
    have h1 : M / 2 ^ 24 * l ≤ M * l / 2 ^ 20 := by
      have : M / 2 ^ 24 * l = M * l / 2 ^ 24 := by ring
      rw [this]
      exact div_le_div_of_nonneg_left hMl.le (by positivity) (by norm_num)
    linarith
  have e7 : |nx * vx + ny * vy - q * Q| ≤ |q * Q| / 2 ^ 24 + l * (1 / 2 ^ 150) := by
    have e : nx * vx + ny * vy - q * Q = nx * (vx - q * nx) + ny * (vy - q * ny) := by rw [hQ]; ring
    rw [e]
    refine (abs_add_le _ _).trans ?_
    rw [abs_mul nx, abs_mul ny]
    have h1 := mul_le_mul_of_nonneg_left hvx ax
    have h2 := mul_le_mul_of_nonneg_left hvy ay
    refine (add_le_add h1 h2).trans (le_of_eq ?_)
    rw [abs_mul q nx, abs_mul q ny, abs_mul q Q, abs_of_pos hQ0, hQ, ← sx, ← sy, hl]
    ring
  have e8 : l * (1 / 2 ^ 150) ≤ (1 / 64) * (M / 2 ^ 24) * l := by
    have : (1 : ℝ) / 2 ^ 150 ≤ (1 / 64) * (M / 2 ^ 24) := by
      have : 0 < M / 2 ^ 24 := by positivity
      linarith
    have := mul_le_mul_of_nonneg_left this hl1.le
    linarith
  have e9 : |q * Q| / 2 ^ 24 ≤ 6 * (M / 2 ^ 24 * l) := by
    have : 6 * (M / 2 ^ 24 * l) = 6 * (M * l) / 2 ^ 24 := by ring
    rw [this]; exact div_le_div_of_nonneg_right e6 (by positivity)
  have e10 := abs_add_le (nx * vx + ny * vy - q * Q) (q * Q + f)
  rw [show nx * vx + ny * vy - q * Q + (q * Q + f) = nx * vx + ny * vy + f by ring] at e10
  linarith

/-! ## the closest edge -/

section
variable [env : F32Env]

theorem closestLoop_edge (es : List (V2 F32 × V2 F32)) (i : Nat) (s : ClosestEdge F32) :
    ((closestLoop es i s).a, (closestLoop es i s).b) = (s.a, s.b) ∨
      ((closestLoop es i s).a, (closestLoop es i s).b) ∈ es := by
  induction es generalizing i s with
  | nil => exact Or.inl rfl
  | cons e es ih =>
    have hstep : ((closestStep s i e).a, (closestStep s i e).b) = (s.a, s.b) ∨
        ((closestStep s i e).a, (closestStep s i e).b) = e := by
      unfold closestStep
      dsimp only
      split_ifs
      · exact Or.inr rfl
      · exact Or.inl rfl
    rcases ih (i + 1) (closestStep s i e) with h | h
    · rcases hstep with h' | h'
      · exact Or.inl (h.trans h')
      · refine Or.inr ?_
        have e1 : ((closestLoop (e :: es) i s).a, (closestLoop (e :: es) i s).b) = e := h.trans h'
        exact List.mem_cons.2 (Or.inl e1)
    · exact Or.inr (List.mem_cons_of_mem _ h)

theorem closestEdge_pts (pts : List (V2 F32)) :
    ((findClosestEdge pts).a = V2.nan ∧ (findClosestEdge pts).b = V2.nan) ∨
      ((findClosestEdge pts).a ∈ pts ∧ (findClosestEdge pts).b ∈ pts) := by
  rcases closestLoop_edge (closedEdges pts) 0 ⟨0, V2.nan, V2.nan, none⟩ with h | h
  · exact Or.inl ⟨congrArg Prod.fst h, congrArg Prod.snd h⟩
  · refine Or.inr ?_
    have h' := List.of_mem_zip h
    refine ⟨h'.1, ?_⟩
    rcases List.mem_append.1 h'.2 with h2 | h2
    · exact List.mem_of_mem_tail h2
    · exact List.mem_of_mem_take h2

theorem not_is_nan {x : ℝ} : ¬ F32.Is (nan : F32) x := by
  rintro ⟨s, m, h, e, _⟩
  cases e

variable {k : ℤ} {M : ℝ} {W : Set (V2 ℝ)} {S : V2 F32 → V2 F32}

/-- the normal of an edge between two computed points -/
theorem normal_grid (hk : 0 ≤ k) (hM : M ≤ (2 : ℝ) ^ k) (hk2 : k ≤ 26) (hM1 : 0 < M) {a b : V2 F32} {p q : V2 ℝ} (ha : a.Is p) (hb : b.Is q)
    (hp : NearPt True W M p) (hq : NearPt True W M q) :
    ∃ n : V2 ℝ, (b - a).perpRight.Is n ∧ DirB k n ∧ n.l1 ≤ 18 * M ∧ (n = 0 ∨ (2 : ℝ) ^ (-60 : ℤ) ≤ n.l1) := by
  have hbig : M ≤ (2 : ℝ) ^ (26 : ℤ) := hM.trans (zpow_le_zpow hk2)
  have hbig2 : (2 : ℝ) ^ (26 : ℤ) ≤ (2 : ℝ) ^ (126 : ℤ) / 16 := by norm_num
  have key : ∀ {u v : F32} {x y : ℝ}, F32.Is u x → F32.Is v y → |x| ≤ 4 * M → |y| ≤ 4 * M → Gr x → Gr y →
      ∃ z, F32.Is (u - v) z ∧ |z| ≤ 9 * M ∧ Gr z := by
    intro u v x y hu hv hx hy gx gy
    have h1 : |x - y| ≤ 8 * M := (abs_sub _ _).trans (by linarith)
    obtain ⟨z, z1, z2, z3⟩ := F32.gr_sub hu hv gx gy (by linarith [abs_nonneg x])
    refine ⟨z, z1, ?_, z3⟩
    have := abs_add_le (x - y) (z - (x - y))
    rw [add_sub_cancel] at this
    have h3 : |x - y| / 2 ^ 24 ≤ 8 * M / 2 ^ 24 := div_le_div_of_nonneg_right h1 (by positivity)
    linarith
  obtain ⟨zx, x1, x2, x3⟩ := key hb.1 ha.1 hq.coord.1 hp.coord.1 (hq.gr trivial).1 (hp.gr trivial).1
  obtain ⟨zy, y1, y2, y3⟩ := key hb.2 ha.2 hq.coord.2 hp.coord.2 (hq.gr trivial).2 (hp.gr trivial).2
  have hB : 9 * M ≤ (2 : ℝ) ^ (3 * k + 10) := by
    have h1 : (2 : ℝ) ^ (k + 4) ≤ (2 : ℝ) ^ (3 * k + 10) := zpow_le_zpow (by omega)
    have h2 : (2 : ℝ) ^ (k + 4) = 16 * (2 : ℝ) ^ k := by rw [zpow_add₀ (by norm_num)]; norm_num; ring
    linarith
  refine ⟨⟨zy, -zx⟩, ⟨y1, is_neg x1⟩, ⟨y2.trans hB, ?_⟩, ?_, ?_⟩
  · show |-zx| ≤ _
    rw [abs_neg]; exact x2.trans hB
  · show |zy| + |-zx| ≤ _
    rw [abs_neg]; linarith
  · by_cases h0 : zy = 0 ∧ zx = 0
    · left
      rw [h0.1, h0.2, neg_zero]; rfl
    · right
      show _ ≤ |zy| + |-zx|
      rw [abs_neg]
      have big : ∀ z : ℝ, Gr z → z ≠ 0 → (2 : ℝ) ^ (-60 : ℤ) ≤ |z| := by
        rintro z ⟨m, rfl⟩ h
        rw [abs_mul, abs_of_pos (two_zpow_pos _)]
        have hm : m ≠ 0 := by rintro rfl; simp at h
        have : (1 : ℝ) ≤ |(m : ℝ)| := by
          rw [← Int.cast_abs]; exact_mod_cast Int.one_le_abs hm
        have := mul_le_mul_of_nonneg_right this (two_zpow_pos (-60)).le
        linarith
      by_cases hz : zy = 0
      · have := big zx x3 (fun h => h0 ⟨hz, h⟩)
        linarith [abs_nonneg zy]
      · have := big zy y3 hz
        linarith [abs_nonneg zx]

/-- the origin leaves the set when moved by `-x` (up to `δ`) -/
def PushOut (W : Set (V2 ℝ)) (δ : ℝ) (x : V2 ℝ) : Prop :=
  ∃ n : V2 ℝ, n ≠ 0 ∧ ∀ w ∈ W, n.dot (w + x) ≤ δ * n.norm

/-- the last step of EPA -/
theorem epa_stop (hS : Noisy k W M S) (hk2 : k ≤ 26)
    (hM : M ≤ (2 : ℝ) ^ k) (hM0 : (2 : ℝ) ^ (-20 : ℤ) ≤ M) {n' v : V2 F32} {n x : V2 ℝ} (hn : n'.Is n)
    (hD : DirB k n) (hl18 : n.l1 ≤ 18 * M) (hl : (2 : ℝ) ^ (-60 : ℤ) ≤ n.l1)
    (hv : V2.scale (-(S n').dot n' / n'.dot n') n' = v) (hx : v.Is x) : PushOut W (M / 2 ^ 17) x := by
  obtain ⟨p, p1, p2, p3⟩ := hS n' n hn hD hl
  have hM1 : 0 < M := lt_of_lt_of_le (two_zpow_pos _) hM0
  have hbig : M ≤ (2 : ℝ) ^ (26 : ℤ) := hM.trans (zpow_le_zpow hk2)
  have hl1 : 0 < n.l1 := lt_of_lt_of_le (two_zpow_pos _) hl
  have hP : |p.x * n.x| + |p.y * n.y| ≤ 4 * M * n.l1 := by
    rw [abs_mul, abs_mul]
    have h1 := mul_le_mul_of_nonneg_right p2.1 (abs_nonneg n.x)
    have h2 := mul_le_mul_of_nonneg_right p2.2 (abs_nonneg n.y)
    unfold V2.l1
    linarith
  have hMl : M * n.l1 ≤ 18 * ((2 : ℝ) ^ (26 : ℤ) * (2 : ℝ) ^ (26 : ℤ)) := by
    have h1 := mul_le_mul_of_nonneg_left hl18 hM1.le
    have h2 := mul_le_mul hbig hbig hM1.le (two_zpow_pos _).le
    linarith
  have hP2 : 4 * M * n.l1 ≤ (2 : ℝ) ^ (125 : ℤ) := by
    have : 4 * (18 * ((2 : ℝ) ^ (26 : ℤ) * (2 : ℝ) ^ (26 : ℤ))) ≤ (2 : ℝ) ^ (125 : ℤ) := by norm_num
    linarith
  obtain ⟨f, f1, f2⟩ := round_dot p1 hn hP hP2
  have ax := abs_nonneg n.x
  have ay := abs_nonneg n.y
  have hQ0 : |n.x * n.x| + |n.y * n.y| = n.x * n.x + n.y * n.y := by
    rw [abs_mul_self, abs_mul_self]
  have hQl : n.x * n.x + n.y * n.y ≤ n.l1 * n.l1 := by
    have h1 := abs_mul_abs_self n.x
    have h2 := abs_mul_abs_self n.y
    unfold V2.l1
    nlinarith [mul_nonneg ax ay]
  have hQb : n.x * n.x + n.y * n.y ≤ (2 : ℝ) ^ (125 : ℤ) := by
    have h1 := mul_le_mul_of_nonneg_right hl18 hl1.le
    have : 18 * (18 * ((2 : ℝ) ^ (26 : ℤ) * (2 : ℝ) ^ (26 : ℤ))) ≤ (2 : ℝ) ^ (125 : ℤ) := by norm_num
    linarith
  obtain ⟨den, den1, den2⟩ := round_dot hn hn (P := n.x * n.x + n.y * n.y) hQ0.le hQb
  -- sizes
  have hμ : 0 < M / 2 ^ 24 * n.l1 := by positivity
  have h3 : (3 : ℝ) / 2 ^ 150 ≤ M / 2 ^ 24 * n.l1 := by
    have h4 : (2 : ℝ) ^ (-20 : ℤ) / 2 ^ 24 * (2 : ℝ) ^ (-60 : ℤ) ≤ M / 2 ^ 24 * n.l1 :=
      mul_le_mul (div_le_div_of_nonneg_right hM0 (by positivity)) hl (two_zpow_pos _).le (by positivity)
    have h5 : (3 : ℝ) / 2 ^ 150 ≤ (2 : ℝ) ^ (-20 : ℤ) / 2 ^ 24 * (2 : ℝ) ^ (-60 : ℤ) := by norm_num
    exact h5.trans h4
  have f3 : |f - p.dot n| ≤ 10 * (M / 2 ^ 24 * n.l1) := by
    have e : 4 * M * n.l1 / 2 ^ 24 = 4 * (M / 2 ^ 24 * n.l1) := by ring
    rw [e] at f2
    linarith
  have hpn : |p.dot n| ≤ 4 * M * n.l1 := by
    rw [dot_def]; exact (abs_add_le _ _).trans hP
  have f4 : |f| ≤ 5 * M * n.l1 := by
    have h1 := abs_add_le (p.dot n) (f - p.dot n)
    rw [add_sub_cancel] at h1
    have h2 : 10 * (M / 2 ^ 24 * n.l1) ≤ M * n.l1 := by
      have : 10 * (M / 2 ^ 24 * n.l1) = M * n.l1 * (10 / 2 ^ 24) := by ring
      rw [this]
      have : (10 : ℝ) / 2 ^ 24 ≤ 1 := by norm_num
      have := mul_le_mul_of_nonneg_left this (show 0 ≤ M * n.l1 by positivity)
      linarith
    linarith
  -- the quotient
  have hQ1 : n.l1 * n.l1 ≤ 2 * (n.x * n.x + n.y * n.y) := by
    have h1 := abs_mul_abs_self n.x
    have h2 := abs_mul_abs_self n.y
    unfold V2.l1
    nlinarith [mul_self_nonneg (|n.x| - |n.y|)]
  have hQs : (2 : ℝ) ^ (-121 : ℤ) ≤ n.x * n.x + n.y * n.y := by
    have h1 := mul_le_mul hl hl (two_zpow_pos _).le hl1.le
    have h2 : (2 : ℝ) ^ (-60 : ℤ) * (2 : ℝ) ^ (-60 : ℤ) = 2 * (2 : ℝ) ^ (-121 : ℤ) := by norm_num
    linarith
  have den2' : |den - (n.x * n.x + n.y * n.y)| ≤ (9 / 4) * ((n.x * n.x + n.y * n.y) / 2 ^ 24) + 3 / 2 ^ 150 := den2
  obtain ⟨Q, hQ⟩ : ∃ Q, Q = n.x * n.x + n.y * n.y := ⟨_, rfl⟩
  rw [← hQ] at den2' hQs hQ1 hQb
  have hden : Q / 2 ≤ den := by
    have h4 := (abs_le.1 den2').1
    have h5 : (3 : ℝ) / 2 ^ 150 ≤ (2 : ℝ) ^ (-121 : ℤ) / 4 := by norm_num
    have h6 : 0 < Q := lt_of_lt_of_le (two_zpow_pos _) hQs
    have h7 : (3 : ℝ) / 2 ^ 150 ≤ Q / 4 := h5.trans (div_le_div_of_nonneg_right hQs (by norm_num))
    linarith only [h4, h6, h7]
  have hQ0 : 0 < Q := lt_of_lt_of_le (two_zpow_pos _) hQs
  have hden0 : 0 < den := by linarith
  have hfd : |-f / den| ≤ 20 * ((2 : ℝ) ^ (26 : ℤ) * (2 : ℝ) ^ (60 : ℤ)) := by
    rw [abs_div, abs_neg, abs_of_pos hden0, div_le_iff₀ hden0]
    refine f4.trans ?_
    have h4 : 5 * M ≤ 5 * (2 : ℝ) ^ (26 : ℤ) := by linarith
    have h5 := mul_le_mul_of_nonneg_right h4 hl1.le
    have h6 : n.l1 ≤ (2 : ℝ) ^ (60 : ℤ) * (n.l1 * n.l1) := by
      have h7 : 1 ≤ (2 : ℝ) ^ (60 : ℤ) * n.l1 := by
        have := mul_le_mul_of_nonneg_left hl (two_zpow_pos 60).le
        have e : (2 : ℝ) ^ (60 : ℤ) * (2 : ℝ) ^ (-60 : ℤ) = 1 := by norm_num
        linarith
      have := mul_le_mul_of_nonneg_right h7 hl1.le
      linarith
    have h8 : n.l1 ≤ (2 : ℝ) ^ (60 : ℤ) * (4 * den) :=
      h6.trans (mul_le_mul_of_nonneg_left (by linarith) (two_zpow_pos _).le)
    have h9 := mul_le_mul_of_nonneg_left h8 (show 0 ≤ 5 * (2 : ℝ) ^ (26 : ℤ) by positivity)
    have e : 5 * (2 : ℝ) ^ (26 : ℤ) * ((2 : ℝ) ^ (60 : ℤ) * (4 * den)) =
      20 * ((2 : ℝ) ^ (26 : ℤ) * (2 : ℝ) ^ (60 : ℤ)) * den := by ring
    linarith
  obtain ⟨q, q1, q2⟩ := F32.round_div (is_neg f1) den1 hden0.ne' (by
    have : 20 * ((2 : ℝ) ^ (26 : ℤ) * (2 : ℝ) ^ (60 : ℤ)) ≤ 3 * (2 : ℝ) ^ (126 : ℤ) := by norm_num
    linarith)
  have hq : |q| ≤ 41 * ((2 : ℝ) ^ (26 : ℤ) * (2 : ℝ) ^ (60 : ℤ)) := by
    have h1 := abs_add_le (-f / den) (q - -f / den)
    rw [add_sub_cancel] at h1
    have h2 : |-f / den| / 2 ^ 24 ≤ |-f / den| := div_le_self (abs_nonneg _) (by norm_num)
    have h4 : (1 : ℝ) / 2 ^ 150 ≤ ((2 : ℝ) ^ (26 : ℤ) * (2 : ℝ) ^ (60 : ℤ)) := by norm_num
    linarith
  have comp : ∀ c : ℝ, |c| ≤ n.l1 → |q * c| ≤ 3 * (2 : ℝ) ^ (126 : ℤ) := by
    intro c hc
    rw [abs_mul]
    have h1 : |c| ≤ 18 * (2 : ℝ) ^ (26 : ℤ) := by linarith
    have h2 := mul_le_mul hq h1 (abs_nonneg _) (by positivity)
    have h3 : 41 * ((2 : ℝ) ^ (26 : ℤ) * (2 : ℝ) ^ (60 : ℤ)) * (18 * (2 : ℝ) ^ (26 : ℤ)) ≤ 3 * (2 : ℝ) ^ (126 : ℤ) := by norm_num
    linarith
  obtain ⟨vx, vx1, vx2, _⟩ := F32.round_mul q1 hn.1 (comp n.x (by unfold V2.l1; linarith))
  obtain ⟨vy, vy1, vy2, _⟩ := F32.round_mul q1 hn.2 (comp n.y (by unfold V2.l1; linarith))
  have ex : x = ⟨vx, vy⟩ := by
    rw [← hv] at hx
    exact V2.ext (hx.1.unique vx1) (hx.2.unique vy1)
  have key := push_arith (l := n.l1) hM0 hQ rfl hl18 hl f4 den2' q2 vx2 vy2
  refine ⟨n, V2.ne_zero_of_l1 hl, fun w hw => ?_⟩
  have h4 := p3 w hw
  have e1 : n.dot (w + x) = n.dot w + (n.x * vx + n.y * vy) := by rw [ex]; simp only [dot_def, V2.add_x, V2.add_y]; ring
  have h5 := (abs_le.1 key).2
  have h6 := (abs_le.1 f3).1
  rw [dot_comm n p] at h4
  have h7 : n.dot (w + x) ≤ 59 * (M / 2 ^ 24) * n.l1 := by rw [e1]; linarith
  have h8 := mul_le_mul_of_nonneg_left n.l1_le_norm (show 0 ≤ 59 * (M / 2 ^ 24) by positivity)
  have h9 : 59 * (M / 2 ^ 24) * (3 / 2 * n.norm) ≤ M / 2 ^ 17 * n.norm := by
    rw [← mul_assoc]
    refine mul_le_mul_of_nonneg_right ?_ n.norm_nonneg
    have : M / 2 ^ 17 = 128 * (M / 2 ^ 24) := by ring
    rw [this]
    have : 0 < M / 2 ^ 24 := by positivity
    linarith
  linarith

/-- computed points -/
def Pts (g : Prop) (W : Set (V2 ℝ)) (M : ℝ) (pts : List (V2 F32)) : Prop := ∀ q ∈ pts, ∃ p, q.Is p ∧ NearPt g W M p

theorem not_better_nan (b t : F32) : ¬ sufficientlyBetter (nan : F32) b t := by
  unfold sufficientlyBetter
  split_ifs
  · exact (special_cmp _).1
  · exact (special_cmp _).1

theorem dot_nan (v : V2 F32) : v.dot (V2.nan.perpRight) = (nan : F32) := by
  show v.x * nan + v.y * -nan = nan
  rw [(special_nan _).2.2.1, (special_nan _).2.1]

/-- the vector EPA reports pushes the origin out, up to rounding -/
theorem epa_sound (hS : Noisy k W M S) (hG : NoisyGrid True False k W M S) (hk : 0 ≤ k) (hk2 : k ≤ 26)
    (hM : M ≤ (2 : ℝ) ^ k) (hM0 : (2 : ℝ) ^ (-20 : ℤ) ≤ M) {v : V2 F32} {x : V2 ℝ} (hx : v.Is x) (hx0 : x ≠ 0) :
    ∀ (i : Nat) (pts : List (V2 F32)), Pts True W M pts → epa S i pts = .ok v → PushOut W (M / 2 ^ 17) x := by
  have hM1 : 0 < M := lt_of_lt_of_le (two_zpow_pos _) hM0
  intro i
  induction i with
  | zero =>
    intro pts _ h
    exfalso
    simp only [epa, Except.ok.injEq] at h
    rw [← h] at hx
    exact hx0 (V2.ext (hx.1.unique is_zero) (hx.2.unique is_zero))
  | succ i ih =>
    intro pts hp h
    simp only [epa] at h
    rcases closestEdge_pts pts with ⟨ha, hb⟩ | ⟨ha, hb⟩
    · exfalso
      have en : ((findClosestEdge pts).b - (findClosestEdge pts).a).perpRight = (V2.nan : V2 F32).perpRight := by
        rw [ha, hb]; rfl
      rw [en, dot_nan, dot_nan, if_pos (not_better_nan _ _), Except.ok.injEq] at h
      rw [← h] at hx
      exact not_is_nan hx.1
    · obtain ⟨p, p1, p2⟩ := hp _ ha
      obtain ⟨q, q1, q2⟩ := hp _ hb
      obtain ⟨n, n1, n2, n3, n4⟩ := normal_grid hk hM hk2 hM1 p1 q1 p2 q2
      generalize ((findClosestEdge pts).b - (findClosestEdge pts).a).perpRight = n' at h n1
      by_cases hb : sufficientlyBetter ((S n').dot n') ((findClosestEdge pts).a.dot n') FloatExtra.tol
      · rw [if_neg (not_not.2 hb)] at h
        split at h
        · refine ih _ ?_ h
          intro z hz
          rcases List.eq_or_mem_of_mem_insertIdx hz with rfl | hz
          · exact hG n' n n1 n2 False.elim
          · exact hp z hz
        · simp at h
      · rw [if_pos hb, Except.ok.injEq] at h
        rcases n4 with rfl | hl
        · exfalso
          obtain ⟨s, s1, s2⟩ := hG n' 0 n1 n2 False.elim
          have z0 : Representable (0 : ℝ) := is_zero.representable
          have hmul : ∀ {u w : F32} {y : ℝ}, F32.Is u y → F32.Is w 0 → F32.Is (u * w) 0 := fun hu hw => by
            have := is_mul hu hw (by rw [mul_zero]; exact z0)
            rwa [mul_zero] at this
          have hadd : ∀ {u w : F32}, F32.Is u 0 → F32.Is w 0 → F32.Is (u + w) 0 := fun hu hw => by
            have := is_add hu hw (by rw [add_zero]; exact z0)
            rwa [add_zero] at this
          have hf : F32.Is (-(S n').dot n') 0 := by
            have := is_neg (hadd (hmul s1.1 n1.1) (hmul s1.2 n1.2))
            rwa [neg_zero] at this
          have hd : F32.Is (n'.dot n') 0 := hadd (hmul n1.1 n1.1) (hmul n1.2 n1.2)
          have hq := (special_div_zero _ _ hf hd).1 rfl
          rw [hq] at h
          rw [← h] at hx
          exact not_is_nan hx.1
        · exact epa_stop hS hk2 hM hM0 n1 n2 n3 hl h hx

end

end Auburn
