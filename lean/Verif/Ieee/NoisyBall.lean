import Verif.Ieee.Noisy

/-!
# The rounded extreme point of a ball, and of a pair (library lemmas for C86)
-/

set_option linter.unusedSectionVars false
set_option synthInstance.maxSize 1000

namespace Auburn

open F32 V2 ExtremePoint2d Transformation2d

/-- rounding error of the normalised vector, one coordinate -/
theorem unit_coord {N w ρ x c : ℝ} (hN : 0 < N) (hN2 : N ≤ (2 : ℝ) ^ (62 : ℤ))
    (hw : |w - N| ≤ 3 * (N / 2 ^ 24)) (hρ : |ρ - 1 / w| ≤ |1 / w| / 2 ^ 24 + 1 / 2 ^ 150)
    (hx : |x| ≤ N) (hc : |c - ρ * x| ≤ |ρ * x| / 2 ^ 24 + 1 / 2 ^ 150) :
    |c - x / N| ≤ (11 / 2) / 2 ^ 24 ∧ |c| ≤ 1 + 1 / 8 := by
  have hw1 := (abs_le.1 hw).1
  have hw2 := (abs_le.1 hw).2
  have hw0 : 0 < w := by linarith
  -- the reciprocal, relative to 1 / N
  obtain ⟨f, hf⟩ : ∃ f, f = ρ * N := ⟨_, rfl⟩
  have hf1 : |f - 1| ≤ (17 / 4) / 2 ^ 24 := by
    have e0 : |1 / w| = 1 / w := abs_of_pos (by positivity)
    rw [e0] at hρ
    have h1 : |N / w - 1| ≤ (25 / 8) / 2 ^ 24 := by
      rw [div_sub_one hw0.ne', abs_div, abs_of_pos hw0, div_le_iff₀ hw0, abs_sub_comm]
      refine hw.trans ?_
      linarith
    have h2 : |f - N / w| ≤ (N / w) / 2 ^ 24 + N / 2 ^ 150 := by
      have e : f - N / w = (ρ - 1 / w) * N := by rw [hf]; ring
      rw [e, abs_mul, abs_of_pos hN]
      refine (mul_le_mul_of_nonneg_right hρ hN.le).trans (le_of_eq ?_)
      ring
    have h3 : N / 2 ^ 150 ≤ (2 : ℝ) ^ (62 : ℤ) / 2 ^ 150 := div_le_div_of_nonneg_right hN2 (by positivity)
    have h4 : (2 : ℝ) ^ (62 : ℤ) / 2 ^ 150 ≤ (1 / 64) / 2 ^ 24 := by norm_num
    rw [abs_le] at h1 h2 ⊢
    constructor <;> linarith [h1.1, h1.2, h2.1, h2.2]
  -- the unit vector
  have hy : |x / N| ≤ 1 := by rw [abs_div, abs_of_pos hN, div_le_one hN]; exact hx
  obtain ⟨y, hyd⟩ : ∃ y, y = x / N := ⟨_, rfl⟩
  rw [← hyd] at hy ⊢
  have hρx : ρ * x = f * y := by rw [hf, hyd]; field_simp
  rw [hρx] at hc
  have hf2 : |f * y - y| ≤ (17 / 4) / 2 ^ 24 := by
    have e : f * y - y = (f - 1) * y := by ring
    rw [e, abs_mul]
    exact (mul_le_mul hf1 hy (abs_nonneg _) (by positivity)).trans (by norm_num)
  have hfy : |f * y| ≤ 1 + (17 / 4) / 2 ^ 24 := by
    have := abs_add_le y (f * y - y)
    rw [add_sub_cancel] at this
    linarith
  have ht : (1 : ℝ) / 2 ^ 150 ≤ (1 / 64) / 2 ^ 24 := by norm_num
  have hc2 : |c - y| ≤ (11 / 2) / 2 ^ 24 := by
    have := abs_add_le (c - f * y) (f * y - y)
    rw [sub_add_sub_cancel] at this
    linarith
  have hc3 : |c| ≤ 1 + 1 / 8 := by
    have := abs_add_le y (c - y)
    rw [add_sub_cancel] at this
    linarith
  exact ⟨hc2, hc3⟩

/-- the same times the radius -/
theorem ball_coord {y c p r : ℝ} (hc2 : |c - y| ≤ (11 / 2) / 2 ^ 24) (hc3 : |c| ≤ 1 + 1 / 8)
    (hr : 0 ≤ r) (hp : |p - r * c| ≤ |r * c| / 2 ^ 24 + 1 / 2 ^ 150) :
    |p - r * y| ≤ 7 * (r / 2 ^ 24) + 1 / 2 ^ 150 := by
  have hrc : |r * c| ≤ (9 / 8) * r := by
    rw [abs_mul, abs_of_nonneg hr]
    have := mul_le_mul_of_nonneg_left hc3 hr
    linarith
  have hrc2 : |r * c - r * y| ≤ (11 / 2) * (r / 2 ^ 24) := by
    rw [← mul_sub, abs_mul, abs_of_nonneg hr]
    refine (mul_le_mul_of_nonneg_left hc2 hr).trans (le_of_eq ?_)
    ring
  have := abs_add_le (p - r * c) (r * c - r * y)
  rw [sub_add_sub_cancel] at this
  linarith [show |r * c| / 2 ^ 24 ≤ (9 / 8) * r / 2 ^ 24 from div_le_div_of_nonneg_right hrc (by positivity)]

section
variable [env : F32Env]

/-- the rounded extreme point of a ball, in a direction that is not tiny -/
theorem ball_extreme {b : Ball F32} {M : ℝ} (hb : b.Bounded32 M) (hM : M ≤ (2 : ℝ) ^ (17 : ℤ))
    {d' : V2 F32} {d : V2 ℝ} (hd : d'.Is d) (hB : DirB 17 d) (hl : (2 : ℝ) ^ (-61 : ℤ) ≤ d.l1) :
    ∃ p, (extremePoint b d').Is p ∧ 0 < d.norm ∧
      |p.x - b.radius.toReal * (d.x / d.norm)| ≤ 7 * (M / 2 ^ 24) + 1 / 2 ^ 150 ∧
      |p.y - b.radius.toReal * (d.y / d.norm)| ≤ 7 * (M / 2 ^ 24) + 1 / 2 ^ 150 := by
  obtain ⟨hr, hr0, hrM⟩ := hb
  have b1 : |d.x| ≤ (2 : ℝ) ^ (61 : ℤ) := hB.1
  have b2 : |d.y| ≤ (2 : ℝ) ^ (61 : ℤ) := hB.2
  have e61 : (2 : ℝ) ^ (63 : ℤ) = 4 * (2 : ℝ) ^ (61 : ℤ) := by norm_num
  have e62 : (2 : ℝ) ^ (62 : ℤ) = 2 * (2 : ℝ) ^ (61 : ℤ) := by norm_num
  have p61 := two_zpow_pos 61
  have hmid : d.Mid := by
    refine ⟨by linarith, by linarith, ?_⟩
    by_contra hcon
    push Not at hcon
    have : (2 : ℝ) ^ (-61 : ℤ) = 4 * (2 : ℝ) ^ (-63 : ℤ) := by norm_num
    have p63 := two_zpow_pos (-63)
    unfold V2.l1 at hl
    linarith [hcon.1, hcon.2]
  obtain ⟨w, w1, w2, w3⟩ := round_length hd hmid
  change |w - d.norm| ≤ 3 * (d.norm / 2 ^ 24) at w2
  have hN0 : 0 < d.norm := by
    have h1 := d.norm_nonneg
    rcases h1.lt_or_eq with h | h
    · exact h
    · exfalso
      have hx := d.abs_x_le_norm
      have hy := d.abs_y_le_norm
      have := two_zpow_pos (-61)
      unfold V2.l1 at hl
      linarith
  have hN1 : (2 : ℝ) ^ (-62 : ℤ) ≤ d.norm := by
    have hx := d.abs_x_le_norm
    have hy := d.abs_y_le_norm
    have : (2 : ℝ) ^ (-61 : ℤ) = 2 * (2 : ℝ) ^ (-62 : ℤ) := by norm_num
    unfold V2.l1 at hl
    linarith
  have hN2 : d.norm ≤ (2 : ℝ) ^ (62 : ℤ) := by
    have := d.norm_le_add
    linarith
  have hw1 := (abs_le.1 w2).1
  have hw0 : 0 < w := by linarith
  have hw4 : (2 : ℝ) ^ (-63 : ℤ) ≤ w := by
    have : (2 : ℝ) ^ (-62 : ℤ) = 2 * (2 : ℝ) ^ (-63 : ℤ) := by norm_num
    linarith
  have hinv : 1 / w ≤ (2 : ℝ) ^ (63 : ℤ) := by
    rw [div_le_iff₀ hw0]
    refine le_trans (le_of_eq ?_) (mul_le_mul_of_nonneg_left hw4 (two_zpow_pos 63).le)
    norm_num
  have hp : (2 : ℝ) ^ (126 : ℤ) = (2 : ℝ) ^ (63 : ℤ) * (2 : ℝ) ^ (63 : ℤ) := by norm_num
  have hbig : (2 : ℝ) ^ (63 : ℤ) ≤ (2 : ℝ) ^ (126 : ℤ) := zpow_le_zpow (by norm_num)
  have p126 := two_zpow_pos 126
  obtain ⟨ρ, r1, r2⟩ := F32.round_div is_one w1 hw0.ne' (by
    rw [abs_of_pos (by positivity)]; linarith)
  have hρN : |ρ| ≤ 2 * (2 : ℝ) ^ (63 : ℤ) := by
    have h1 := abs_add_le (1 / w) (ρ - 1 / w)
    rw [add_sub_cancel] at h1
    have h2 : |1 / w| = 1 / w := abs_of_pos (by positivity)
    rw [h2] at h1 r2
    have h3 : (1 : ℝ) / 2 ^ 150 ≤ 1 / 4 * (2 : ℝ) ^ (63 : ℤ) := by norm_num
    linarith
  have hρ0 : 0 < ρ := by
    have h2 : |1 / w| = 1 / w := abs_of_pos (by positivity)
    rw [h2] at r2
    have h1 := (abs_le.1 r2).1
    have hw2 := (abs_le.1 w2).2
    have hw5 : w ≤ (2 : ℝ) ^ (63 : ℤ) := by linarith
    have h3 : (2 : ℝ) ^ (-63 : ℤ) ≤ 1 / w := by
      rw [le_div_iff₀ hw0]
      refine (mul_le_mul_of_nonneg_left hw5 (two_zpow_pos _).le).trans (le_of_eq ?_)
      norm_num
    have h4 : (1 : ℝ) / 2 ^ 150 ≤ 1 / 4 * (2 : ℝ) ^ (-63 : ℤ) := by norm_num
    have := two_zpow_pos (-63)
    linarith
  have hfin : FloatExtra.isFinite (1 / d'.length) ∧ 1 / d'.length > 0 := by
    constructor
    · obtain ⟨s, m, hm, e, _⟩ := r1
      rw [e]; rfl
    · show (0 : F32) < 1 / d'.length
      rw [lt_iff is_zero r1]; exact hρ0
  have big : ∀ x : ℝ, |x| ≤ (2 : ℝ) ^ (61 : ℤ) → |ρ * x| ≤ 3 * (2 : ℝ) ^ (126 : ℤ) := by
    intro x hx
    rw [abs_mul]
    have h1 := mul_le_mul hρN hx (abs_nonneg _) (by positivity)
    have h2 : 2 * (2 : ℝ) ^ (63 : ℤ) * (2 : ℝ) ^ (61 : ℤ) ≤ 3 * (2 : ℝ) ^ (126 : ℤ) := by norm_num
    linarith
  obtain ⟨cx, cx1, cx2, -, -⟩ := F32.round_mul r1 hd.1 (big _ b1)
  obtain ⟨cy, cy1, cy2, -, -⟩ := F32.round_mul r1 hd.2 (big _ b2)
  obtain ⟨ux, vx⟩ := unit_coord hN0 hN2 w2 r2 d.abs_x_le_norm cx2
  obtain ⟨uy, vy⟩ := unit_coord hN0 hN2 w2 r2 d.abs_y_le_norm cy2
  have small : ∀ c : ℝ, |c| ≤ 1 + 1 / 8 → |b.radius.toReal * c| ≤ 3 * (2 : ℝ) ^ (126 : ℤ) := by
    intro c hc
    rw [abs_mul, abs_of_nonneg hr0]
    have h1 := mul_le_mul (hrM.trans hM) hc (abs_nonneg _) (by positivity)
    have h2 : (2 : ℝ) ^ (17 : ℤ) * (1 + 1 / 8) ≤ 3 * (2 : ℝ) ^ (126 : ℤ) := by norm_num
    linarith
  obtain ⟨px, px1, px2, -, -⟩ := F32.round_mul hr cx1 (small _ vx)
  obtain ⟨py, py1, py2, -, -⟩ := F32.round_mul hr cy1 (small _ vy)
  have hu : b.radius.toReal / 2 ^ 24 ≤ M / 2 ^ 24 := div_le_div_of_nonneg_right hrM (by positivity)
  refine ⟨⟨px, py⟩, ?_, hN0, (ball_coord ux vx hr0 px2).trans (by linarith),
    (ball_coord uy vy hr0 py2).trans (by linarith)⟩
  show (V2.scale b.radius d'.normalizeOrZero).Is _
  unfold V2.normalizeOrZero
  simp only
  rw [if_pos hfin]
  exact ⟨px1, py1⟩

theorem noisy_ball {b : Ball F32} {M : ℝ} (hb : b.Bounded32 M) (hM : M ≤ (2 : ℝ) ^ (17 : ℤ))
    (hM0 : (2 : ℝ) ^ (-20 : ℤ) ≤ M) : NoisyShape 17 b (Region.pts (Ball.mk b.radius.toReal)) M := by
  intro d' d hd hB hl
  obtain ⟨p, p1, hN, px, py⟩ := ball_extreme hb hM hd hB hl
  have hM1 : 0 < M := lt_of_lt_of_le (two_zpow_pos _) hM0
  have ht : (1 : ℝ) / 2 ^ 150 ≤ M / 2 ^ 24 := by
    have : (1 : ℝ) / 2 ^ 150 ≤ (2 : ℝ) ^ (-20 : ℤ) / 2 ^ 24 := by norm_num
    exact this.trans (div_le_div_of_nonneg_right hM0 (by positivity))
  obtain ⟨_, hr0, hrM⟩ := hb
  have unit : ∀ x : ℝ, |x| ≤ d.norm → |b.radius.toReal * (x / d.norm)| ≤ M := by
    intro x hx
    rw [abs_mul, abs_of_nonneg hr0, abs_div, abs_of_pos hN]
    have h1 : |x| / d.norm ≤ 1 := (div_le_one hN).2 hx
    have := mul_le_mul hrM h1 (by positivity) hM1.le
    linarith
  refine ⟨p, p1, ⟨?_, ?_⟩, ?_⟩
  · have h1 := unit _ d.abs_x_le_norm
    have h2 := abs_add_le (b.radius.toReal * (d.x / d.norm)) (p.x - b.radius.toReal * (d.x / d.norm))
    rw [add_sub_cancel] at h2
    linarith
  · have h1 := unit _ d.abs_y_le_norm
    have h2 := abs_add_le (b.radius.toReal * (d.y / d.norm)) (p.y - b.radius.toReal * (d.y / d.norm))
    rw [add_sub_cancel] at h2
    linarith
  · rintro q ⟨_, hq⟩
    have hq : lengthSq q ≤ b.radius.toReal ^ 2 := hq
    rw [lengthSq_def] at hq
    -- Cauchy-Schwarz
    have hcs : d.dot q ≤ d.norm * b.radius.toReal := by
      rw [dot_def]
      refine abs_le_of_sq_le_sq' ?_ (mul_nonneg hN.le hr0) |>.2
      have e := d.norm_sq
      have : (d.norm * b.radius.toReal) ^ 2 = (d.x ^ 2 + d.y ^ 2) * b.radius.toReal ^ 2 := by
        rw [mul_pow, sq d.norm, e]
      rw [this]
      have h2 := mul_le_mul_of_nonneg_left hq (show 0 ≤ d.x ^ 2 + d.y ^ 2 by positivity)
      nlinarith [sq_nonneg (d.x * q.y - d.y * q.x)]
    have hex : d.x * (b.radius.toReal * (d.x / d.norm)) + d.y * (b.radius.toReal * (d.y / d.norm)) =
        d.norm * b.radius.toReal := by
      have e := d.norm_sq
      field_simp
      rw [sq d.norm, e]
    have hdp : |d.dot p - (d.x * (b.radius.toReal * (d.x / d.norm)) +
        d.y * (b.radius.toReal * (d.y / d.norm)))| ≤ (7 * (M / 2 ^ 24) + 1 / 2 ^ 150) * d.l1 := by
      have := dot_le_l1 (d := d) (p := ⟨p.x - b.radius.toReal * (d.x / d.norm),
        p.y - b.radius.toReal * (d.y / d.norm)⟩) ⟨px, py⟩
      refine le_trans (le_of_eq ?_) this
      congr 1
      rw [dot_def, dot_def]; ring
    have h3 := (abs_le.1 hdp).1
    have h4 : (7 * (M / 2 ^ 24) + 1 / 2 ^ 150) * d.l1 ≤ 9 * (M / 2 ^ 24) * d.l1 :=
      mul_le_mul_of_nonneg_right (by linarith [show 0 < M / 2 ^ 24 by positivity]) d.l1_nonneg
    linarith

/-! ## pairs -/

theorem grid_ball {b : Ball F32} {M : ℝ} (hb : b.Bounded32 M) (hM : M ≤ (2 : ℝ) ^ (17 : ℤ))
    (hM0 : (2 : ℝ) ^ (-20 : ℤ) ≤ M) : GridShape False True 17 b (Region.pts (Ball.mk b.radius.toReal)) M := by
  intro d' d hd hB hl
  obtain ⟨p, p1, p2, _⟩ := noisy_ball hb hM hM0 d' d hd hB (hl trivial)
  obtain ⟨p', p1', hN, px, py⟩ := ball_extreme hb hM hd hB (hl trivial)
  have ht : (1 : ℝ) / 2 ^ 150 ≤ M / 2 ^ 24 := by
    have : (1 : ℝ) / 2 ^ 150 ≤ (2 : ℝ) ^ (-20 : ℤ) / 2 ^ 24 := by norm_num
    exact this.trans (div_le_div_of_nonneg_right hM0 (by positivity))
  refine ⟨p', p1', ?_, False.elim, ⟨b.radius.toReal * (d.x / d.norm), b.radius.toReal * (d.y / d.norm)⟩, ?_, ?_, ?_⟩
  · have e : p = p' := V2.ext (p1.1.unique p1'.1) (p1.2.unique p1'.2)
    rw [← e]; exact p2
  · refine ⟨hb.2.1, ?_⟩
    show lengthSq _ ≤ b.radius.toReal ^ 2
    rw [lengthSq_def]
    have e := d.norm_sq
    have h1 : (b.radius.toReal * (d.x / d.norm)) ^ 2 + (b.radius.toReal * (d.y / d.norm)) ^ 2 =
        b.radius.toReal ^ 2 * ((d.x ^ 2 + d.y ^ 2) / (d.norm * d.norm)) := by field_simp
    refine le_of_eq ?_
    simp only
    rw [← sq, ← sq, h1, e, div_self, mul_one]
    rw [← e]; positivity
  · show |p'.x - b.radius.toReal * (d.x / d.norm)| ≤ _
    linarith
  · show |p'.y - b.radius.toReal * (d.y / d.norm)| ≤ _
    linarith

/-- the computed support function of a set, directions that are not tiny -/
def Noisy (k : ℤ) (W : Set (V2 ℝ)) (M : ℝ) (S : V2 F32 → V2 F32) : Prop :=
  ∀ (d' : V2 F32) (d : V2 ℝ), d'.Is d → DirB k d → (2 : ℝ) ^ (-60 : ℤ) ≤ d.l1 →
    ∃ p, (S d').Is p ∧ p.Coord (4 * M) ∧ ∀ w ∈ W, d.dot w ≤ d.dot p + 24 * (M / 2 ^ 24) * d.l1

/-- a computed vertex: next to a point of the set (and on the grid, if `g`) -/
structure NearPt (g : Prop) (W : Set (V2 ℝ)) (M : ℝ) (p : V2 ℝ) : Prop where
  coord : p.Coord (4 * M)
  gr : g → p.Gr
  near : ∃ w ∈ W, V2.Within (22 * (M / 2 ^ 24)) p w

/-- the computed support function of a set, all finite directions (that are not tiny, if `lo`) -/
def NoisyGrid (g lo : Prop) (k : ℤ) (W : Set (V2 ℝ)) (M : ℝ) (S : V2 F32 → V2 F32) : Prop :=
  ∀ (d' : V2 F32) (d : V2 ℝ), d'.Is d → DirB k d → (lo → (2 : ℝ) ^ (-60 : ℤ) ≤ d.l1) → ∃ p, (S d').Is p ∧ NearPt g W M p

theorem DirB.neg {k : ℤ} {d : V2 ℝ} (h : DirB k d) : DirB k (-d) := V2.Coord.neg h

section
variable {A B : Type} [ExtremePoint2d A F32] [ExtremePoint2d B F32] {a : A} {b : B}
  {X Y : Set (V2 ℝ)} {rel : V2 F32} {k : ℤ} {M : ℝ}

/-- one coordinate of `a - (b + t)` in binary32 -/
theorem diff_coord {a b t : F32} {x y r M : ℝ} (ha : F32.Is a x) (hb : F32.Is b y) (ht : F32.Is t r)
    (hM : M ≤ (2 : ℝ) ^ (26 : ℤ)) (hx : |x| ≤ M + M / 2 ^ 20) (hy : |y| ≤ M + M / 2 ^ 20) (hr : |r| ≤ M) :
    ∃ z, F32.Is (a - (b + t)) z ∧ |z - (x - (y + r))| ≤ 6 * (M / 2 ^ 24) ∧ |z| ≤ 4 * M ∧
      (Gr x → Gr y → Gr r → Gr z) := by
  have hM0 : 0 ≤ M := (abs_nonneg _).trans hr
  have hbig : (2 : ℝ) ^ (26 : ℤ) ≤ (2 : ℝ) ^ (126 : ℤ) / 16 := by norm_num
  have h1 := abs_add_le y r
  obtain ⟨s, s1, s2⟩ := F32.round_add hb ht (by linarith)
  have h2 := abs_add_le (y + r) (s - (y + r))
  rw [add_sub_cancel] at h2
  have h3 := abs_sub x s
  obtain ⟨z, z1, z2⟩ := F32.round_sub ha s1 (by linarith)
  have h4 := abs_add_le (x - s) (z - (x - s))
  rw [add_sub_cancel] at h4
  have h5 := abs_add_le (z - (x - s)) ((y + r) - s)
  rw [show z - (x - s) + (y + r - s) = z - (x - (y + r)) by ring, abs_sub_comm (y + r) s] at h5
  refine ⟨z, z1, by linarith, by linarith, fun gx gy gr => ?_⟩
  obtain ⟨s', s1', _, gs⟩ := F32.gr_add hb ht gy gr (by linarith)
  rw [s1'.unique s1] at gs
  obtain ⟨z', z1', _, gz⟩ := F32.gr_sub ha s1 gx gs (by linarith)
  rwa [z1'.unique z1] at gz

theorem noisy_pair (hA : NoisyShape k a X M) (hB : NoisyShape k b Y M) (hr : rel.Bounded32 M)
    (hM : M ≤ (2 : ℝ) ^ (26 : ℤ)) :
    Noisy k (minkDiff X (shift rel.toReal Y)) M (extremePoint (LocalMinkowskiDiff2d.mk a b rel)) := by
  intro d' d hd hD hl
  have hl : (2 : ℝ) ^ (-61 : ℤ) ≤ d.l1 := (zpow_le_zpow (by norm_num)).trans hl
  obtain ⟨p, p1, p2, p3⟩ := hA d' d hd hD hl
  obtain ⟨q, q1, q2, q3⟩ := hB (-d') (-d) hd.neg hD.neg (by rwa [V2.l1_neg])
  obtain ⟨zx, x1, x2, x3, _⟩ := diff_coord p1.1 q1.1 hr.1.1 hM p2.1 q2.1 hr.2.1
  obtain ⟨zy, y1, y2, y3, _⟩ := diff_coord p1.2 q1.2 hr.1.2 hM p2.2 q2.2 hr.2.2
  refine ⟨⟨zx, zy⟩, ⟨x1, y1⟩, ⟨x3, y3⟩, ?_⟩
  rintro _ ⟨x, hx, _, ⟨y, hy, rfl⟩, rfl⟩
  have h1 := p3 x hx
  have h2 := q3 y hy
  rw [neg_dot, neg_dot, V2.l1_neg] at h2
  have h3 := dot_le_l1 (d := d) (p := ⟨zx - (p.x - (q.x + rel.toReal.x)), zy - (p.y - (q.y + rel.toReal.y))⟩)
    ⟨x2, y2⟩
  have e : d.dot ⟨zx - (p.x - (q.x + rel.toReal.x)), zy - (p.y - (q.y + rel.toReal.y))⟩ =
      d.dot ⟨zx, zy⟩ - (d.dot p - (d.dot q + d.dot rel.toReal)) := by
    simp only [dot_def]; ring
  rw [e] at h3
  have h4 := (abs_le.1 h3).1
  rw [dot_sub, dot_add]
  linarith

theorem noisyGrid_pair {g lo : Prop} (hA : GridShape g lo k a X M) (hB : GridShape g lo k b Y M)
    (hr : rel.Bounded32 M) (hg : g → rel.toReal.Gr) (hM : M ≤ (2 : ℝ) ^ (26 : ℤ)) :
    NoisyGrid g lo k (minkDiff X (shift rel.toReal Y)) M (extremePoint (LocalMinkowskiDiff2d.mk a b rel)) := by
  intro d' d hd hD hlo
  have hlo : lo → (2 : ℝ) ^ (-61 : ℤ) ≤ d.l1 := fun h => (zpow_le_zpow (by norm_num)).trans (hlo h)
  obtain ⟨p, p1, p2, p3, pw, pX, px, py⟩ := hA d' d hd hD hlo
  obtain ⟨q, q1, q2, q3, qw, qY, qx, qy⟩ := hB (-d') (-d) hd.neg hD.neg (fun h => by rw [V2.l1_neg]; exact hlo h)
  obtain ⟨zx, x1, x2, x3, x4⟩ := diff_coord p1.1 q1.1 hr.1.1 hM p2.1 q2.1 hr.2.1
  obtain ⟨zy, y1, y2, y3, y4⟩ := diff_coord p1.2 q1.2 hr.1.2 hM p2.2 q2.2 hr.2.2
  refine ⟨⟨zx, zy⟩, ⟨x1, y1⟩, ⟨x3, y3⟩, fun h => ⟨x4 (p3 h).1 (q3 h).1 (hg h).1, y4 (p3 h).2 (q3 h).2 (hg h).2⟩,
    pw - (qw + rel.toReal), ⟨pw, pX, _, ⟨qw, qY, rfl⟩, rfl⟩, ?_, ?_⟩
  · have e : zx - (pw.x - (qw.x + rel.toReal.x)) = (zx - (p.x - (q.x + rel.toReal.x))) + ((p.x - pw.x) - (q.x - qw.x)) := by ring
    show |zx - (pw.x - (qw.x + rel.toReal.x))| ≤ _
    rw [e]
    have h1 := abs_add_le (zx - (p.x - (q.x + rel.toReal.x))) ((p.x - pw.x) - (q.x - qw.x))
    have h2 := abs_sub (p.x - pw.x) (q.x - qw.x)
    linarith
  · have e : zy - (pw.y - (qw.y + rel.toReal.y)) = (zy - (p.y - (q.y + rel.toReal.y))) + ((p.y - pw.y) - (q.y - qw.y)) := by ring
    show |zy - (pw.y - (qw.y + rel.toReal.y))| ≤ _
    rw [e]
    have h1 := abs_add_le (zy - (p.y - (q.y + rel.toReal.y))) ((p.y - pw.y) - (q.y - qw.y))
    have h2 := abs_sub (p.y - pw.y) (q.y - qw.y)
    linarith

end

end

end Auburn
