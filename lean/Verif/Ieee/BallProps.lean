import Verif.Ieee.Rounding
import Verif.Ieee.DistProps
import Verif.Props.Direct

/-!
# C77: balls in binary32, over (almost) the whole range

The model run on IEEE-754 binary32 (`F32`), with rounding.  `L` is the exact distance of the centres,
`R` the exact sum of the radii.  The flag is right unless `L` and `R` agree to 21 bits; the signed
distance is off by at most `(L + R) / 2^21`, the vector by at most `(L + R) / 2^19` per coordinate.
-/

set_option linter.unusedSectionVars false
set_option synthInstance.maxSize 1000

namespace Auburn

open F32 V2 ExtremePoint2d Transformation2d

/-! ## specification -/

/-- Euclidean length of a real vector -/
noncomputable def V2.norm (v : V2 ℝ) : ℝ := Real.sqrt (v.x ^ 2 + v.y ^ 2)

/-- the closed disc of radius `r` around `c` -/
def disc (c : V2 ℝ) (r : ℝ) : Set (V2 ℝ) := {p | (p.x - c.x) ^ 2 + (p.y - c.y) ^ 2 ≤ r ^ 2}

/-- an answer (flag, vector) of a query about two discs whose centres have distance `L` and whose
radii sum to `R`: the flag is right unless `L` and `R` agree to 21 bits (for coincident centres it
is true), the vector is finite and within `(L + R) / 2^19` (each coordinate) of an exact least move
of the first disc to touching contact -/
def DiscAnswer (c : Bool) (v : V2 F32) (L R : ℝ) (X Y : Set (V2 ℝ)) : Prop :=
  (L ≤ (1 - 1 / 2 ^ 21) * R → c = true) ∧ (L = 0 → c = true) ∧
  (0 < L → (1 + 1 / 2 ^ 21) * R ≤ L → c = false) ∧
  ∃ x w, v.Is x ∧ ResolvesLeast (decide (L < R)) w X Y ∧ V2.Within ((L + R) / 2 ^ 19) x w

/-- offsets for which the length is computed without overflow or harmful underflow: zero, or both
coordinates at most `2^62` and one of them at least `2^-62` in magnitude -/
def V2.Moderate (v : V2 ℝ) : Prop :=
  v = 0 ∨ (|v.x| ≤ (2 : ℝ) ^ (62 : ℤ) ∧ |v.y| ≤ (2 : ℝ) ^ (62 : ℤ) ∧
    ((2 : ℝ) ^ (-62 : ℤ) ≤ |v.x| ∨ (2 : ℝ) ^ (-62 : ℤ) ≤ |v.y|))

/-! ## library -/

theorem V2.norm_nonneg (v : V2 ℝ) : 0 ≤ v.norm := Real.sqrt_nonneg _
theorem V2.norm_sq (v : V2 ℝ) : v.norm * v.norm = v.x ^ 2 + v.y ^ 2 :=
  Real.mul_self_sqrt (by positivity)
theorem V2.abs_x_le_norm (v : V2 ℝ) : |v.x| ≤ v.norm := by
  rw [← Real.sqrt_sq_eq_abs]
  exact Real.sqrt_le_sqrt (by nlinarith [sq_nonneg v.y])
theorem V2.abs_y_le_norm (v : V2 ℝ) : |v.y| ≤ v.norm := by
  rw [← Real.sqrt_sq_eq_abs]
  exact Real.sqrt_le_sqrt (by nlinarith [sq_nonneg v.x])
theorem V2.norm_zero : (0 : V2 ℝ).norm = 0 := by
  show Real.sqrt ((0 : ℝ) ^ 2 + (0 : ℝ) ^ 2) = 0
  norm_num
theorem V2.norm_le_add (v : V2 ℝ) : v.norm ≤ |v.x| + |v.y| := by
  refine Real.sqrt_le_iff.2 ⟨by positivity, ?_⟩
  have h1 := sq_abs v.x
  have h2 := sq_abs v.y
  have h3 := mul_nonneg (abs_nonneg v.x) (abs_nonneg v.y)
  nlinarith

/-- the length hardly changes when the coordinates are rounded -/
theorem norm_rounded {d e : V2 ℝ} (hx : |e.x - d.x| ≤ |d.x| / 2 ^ 24)
    (hy : |e.y - d.y| ≤ |d.y| / 2 ^ 24) : |e.norm - d.norm| ≤ d.norm / 2 ^ 24 := by
  have key : ∀ s : ℝ, 0 ≤ s → ∀ a b : ℝ, |a| ≤ s * |b| → a ^ 2 ≤ s ^ 2 * b ^ 2 := by
    intro s hs a b h
    rw [← sq_abs a, ← sq_abs b, ← mul_pow]
    exact pow_le_pow_left₀ (abs_nonneg _) h 2
  have up : ∀ a b : ℝ, |a - b| ≤ |b| / 2 ^ 24 → |a| ≤ (1 + 1 / 2 ^ 24) * |b| := by
    intro a b h
    have := abs_add_le (a - b) b
    rw [sub_add_cancel] at this
    linarith
  have down : ∀ a b : ℝ, |a - b| ≤ |b| / 2 ^ 24 → |(1 - 1 / 2 ^ 24) * b| ≤ 1 * |a| := by
    intro a b h
    rw [abs_mul, abs_of_nonneg (by norm_num : (0 : ℝ) ≤ 1 - 1 / 2 ^ 24)]
    have := abs_sub_abs_le_abs_sub b a
    rw [abs_sub_comm] at this
    linarith
  have u1 := key _ (by norm_num) _ _ (up _ _ hx)
  have u2 := key _ (by norm_num) _ _ (up _ _ hy)
  have d1 := key _ (by norm_num) _ _ (down _ _ hx)
  have d2 := key _ (by norm_num) _ _ (down _ _ hy)
  have e1 := e.norm_sq
  have e2 := d.norm_sq
  have e3 := e.norm_nonneg
  have e4 := d.norm_nonneg
  have h1 : e.norm ≤ (1 + 1 / 2 ^ 24) * d.norm := by
    refine abs_le_of_sq_le_sq' ?_ (by positivity) |>.2
    have : (1 + 1 / 2 ^ 24) ^ 2 * (d.norm * d.norm) - e.norm * e.norm ≥ 0 := by
      rw [e1, e2]; linarith
    nlinarith
  have h2 : (1 - 1 / 2 ^ 24) * d.norm ≤ e.norm := by
    refine abs_le_of_sq_le_sq' ?_ e3 |>.2
    have : e.norm * e.norm - (1 - 1 / 2 ^ 24) ^ 2 * (d.norm * d.norm) ≥ 0 := by
      rw [e1, e2]; linarith
    nlinarith
  rw [abs_le]
  constructor <;> linarith

/-- quotient of perturbed quantities -/
theorem quot_error {L R l r N : ℝ} (hL : 0 < L) (hR : 0 ≤ R) (hl : |l - L| ≤ 5 * (L / 2 ^ 24))
    (hr : |r - R| ≤ R / 2 ^ 24) (hN : |N - (l - r)| ≤ |l - r| / 2 ^ 24) :
    0 < l ∧ |N - (L - R)| ≤ 7 * ((L + R) / 2 ^ 24) ∧
      |N / l - (L - R) / L| ≤ 13 * ((L + R) / L / 2 ^ 24) := by
  have hl' := abs_le.1 hl
  have hr' := abs_le.1 hr
  have hlp : 0 < l := by linarith [hl'.1]
  have h1 : |l - r| ≤ (1 + 1 / 2) * (L + R) := by
    rw [abs_le]; constructor <;> linarith [hl'.1, hl'.2, hr'.1, hr'.2]
  have hN' := abs_le.1 hN
  have he : |N - (L - R)| ≤ 7 * ((L + R) / 2 ^ 24) := by
    rw [abs_le]; constructor <;> linarith [hl'.1, hl'.2, hr'.1, hr'.2, hN'.1, hN'.2]
  refine ⟨hlp, he, ?_⟩
  have e1 : N / l - (L - R) / L = ((N - (L - R)) * L + (L - R) * (L - l)) / (l * L) := by
    field_simp; ring
  rw [e1, abs_div, abs_of_pos (mul_pos hlp hL), div_le_iff₀ (mul_pos hlp hL)]
  have e2 : 13 * ((L + R) / L / 2 ^ 24) * (l * L) = 13 * ((L + R) / 2 ^ 24) * l := by field_simp
  rw [e2]
  refine (abs_add_le _ _).trans ?_
  rw [abs_mul, abs_mul, abs_of_pos hL]
  have b1 : |N - (L - R)| * L ≤ 7 * ((L + R) / 2 ^ 24) * L := mul_le_mul_of_nonneg_right he hL.le
  have b2 : |L - R| ≤ L + R := by rw [abs_le]; constructor <;> linarith
  have b3 : |L - l| ≤ 5 * (L / 2 ^ 24) := by rw [abs_sub_comm]; exact hl
  have b4 : |L - R| * |L - l| ≤ (L + R) * (5 * (L / 2 ^ 24)) :=
    mul_le_mul b2 b3 (abs_nonneg _) (by linarith)
  have b5 : (L + R) * ((1 - 1 / 2 ^ 20) * L) ≤ (L + R) * l :=
    mul_le_mul_of_nonneg_left (by linarith [hl'.1]) (by linarith)
  have b6 : 0 ≤ (L + R) * L := mul_nonneg (by linarith) hL.le
  nlinarith

/-- one coordinate of the vector -/
theorem coord_error {L R Q q t e d w : ℝ} (hL : (2 : ℝ) ^ (-63 : ℤ) ≤ L) (hR : 0 ≤ R)
    (hQ : |Q - (L - R) / L| ≤ 13 * ((L + R) / L / 2 ^ 24))
    (hq : |q - Q| ≤ |Q| / 2 ^ 24 + 1 / 2 ^ 150) (hd : |d| ≤ L) (he : |e - d| ≤ |d| / 2 ^ 24)
    (ht : t = q * e) (hw : |w - t| ≤ |t| / 2 ^ 24 + 1 / 2 ^ 150) :
    |t| ≤ 3 * (L + R) ∧ |w - (L - R) / L * d| ≤ (L + R) / 2 ^ 19 := by
  have hL0 : 0 < L := lt_of_lt_of_le (two_zpow_pos _) hL
  have hρ : 1 ≤ (L + R) / L := by rw [le_div_iff₀ hL0]; linarith
  have hρL : (L + R) / L * L = L + R := by field_simp
  have h0 : |(L - R) / L| ≤ (L + R) / L := by
    rw [abs_div, abs_of_pos hL0]
    refine div_le_div_of_nonneg_right ?_ hL0.le
    rw [abs_le]; constructor <;> linarith
  generalize (L + R) / L = ρ at *
  generalize (L - R) / L = κ at *
  have h150 : (1 : ℝ) / 2 ^ 150 ≤ (1 / 2 ^ 24) * L :=
    le_trans (by norm_num) (mul_le_mul_of_nonneg_left hL (by norm_num))
  have h150' : (1 : ℝ) / 2 ^ 150 ≤ 1 / 2 ^ 24 := by norm_num
  have hQ1 : |Q| ≤ (1 + 1 / 2) * ρ := by
    have := abs_add_le (Q - κ) κ
    rw [sub_add_cancel] at this
    linarith
  have hq1 : |q - κ| ≤ 16 * (ρ / 2 ^ 24) := by
    have := abs_add_le (q - Q) (Q - κ)
    rw [sub_add_sub_cancel] at this
    linarith
  have hq2 : |q| ≤ (1 + 1 / 2) * ρ := by
    have := abs_add_le (q - κ) κ
    rw [sub_add_cancel] at this
    linarith
  have he1 : |e| ≤ (1 + 1 / 16) * L := by
    have := abs_add_le (e - d) d
    rw [sub_add_cancel] at this
    linarith
  have htb : |t| ≤ 2 * (L + R) := by
    rw [ht, abs_mul]
    refine (mul_le_mul hq2 he1 (abs_nonneg _) (by linarith)).trans ?_
    nlinarith
  refine ⟨by linarith, ?_⟩
  have h1 : |q * e - κ * d| ≤ 18 * ((L + R) / 2 ^ 24) := by
    have e1 : q * e - κ * d = (q - κ) * e + κ * (e - d) := by ring
    rw [e1]
    refine (abs_add_le _ _).trans ?_
    rw [abs_mul, abs_mul]
    have b1 : |q - κ| * |e| ≤ 16 * (ρ / 2 ^ 24) * ((1 + 1 / 16) * L) :=
      mul_le_mul hq1 he1 (abs_nonneg _) (by positivity)
    have b2 : |κ| * |e - d| ≤ ρ * (L / 2 ^ 24) :=
      mul_le_mul h0 (he.trans (by linarith)) (abs_nonneg _) (by linarith)
    nlinarith
  have h2 := abs_add_le (w - t) (q * e - κ * d)
  rw [← ht, sub_add_sub_cancel] at h2
  rw [← ht] at h1
  linarith

theorem ball_pts_disc {r : ℝ} (h : 0 ≤ r) : Region.pts (⟨r⟩ : Ball ℝ) = disc 0 r := by
  ext p
  constructor
  · rintro ⟨_, hp⟩
    rw [lengthSq_def] at hp
    show (p.x - 0) ^ 2 + (p.y - 0) ^ 2 ≤ r ^ 2
    linarith
  · intro hp
    refine ⟨h, ?_⟩
    have hp : (p.x - 0) ^ 2 + (p.y - 0) ^ 2 ≤ r ^ 2 := hp
    rw [lengthSq_def]
    show p.x * p.x + p.y * p.y ≤ r ^ 2
    linarith

theorem thick_disc (c : V2 ℝ) (r : ℝ) : thick {c} r = disc c r := by
  let _ := realFloat true 0
  have := realFloat_exact true 0
  have := realFloat_sqrt true 0
  ext p
  rw [mem_thick_singleton, lengthSq_def]
  show (p.x - c.x) * (p.x - c.x) + (p.y - c.y) * (p.y - c.y) ≤ r ^ 2 ↔
    (p.x - c.x) ^ 2 + (p.y - c.y) ^ 2 ≤ r ^ 2
  rw [pow_two (p.x - c.x), pow_two (p.y - c.y)]

theorem minkDiff_disc (p q : V2 ℝ) (r s : ℝ) :
    minkDiff (disc p r) (disc q s) = minkDiff (disc 0 r) (disc (q + -p) s) := by
  ext x
  constructor
  · rintro ⟨a, ha, b, hb, rfl⟩
    refine ⟨a - p, ?_, b - p, ?_, by ext <;> simp⟩
    · show (a.x - p.x - 0) ^ 2 + (a.y - p.y - 0) ^ 2 ≤ r ^ 2
      rw [sub_zero, sub_zero]; exact ha
    · show (b.x - p.x - (q.x + -p.x)) ^ 2 + (b.y - p.y - (q.y + -p.y)) ^ 2 ≤ s ^ 2
      have hb : (b.x - q.x) ^ 2 + (b.y - q.y) ^ 2 ≤ s ^ 2 := hb
      rw [show b.x - p.x - (q.x + -p.x) = b.x - q.x by ring,
        show b.y - p.y - (q.y + -p.y) = b.y - q.y by ring]
      exact hb
  · rintro ⟨a, ha, b, hb, rfl⟩
    refine ⟨a + p, ?_, b + p, ?_, by ext <;> simp⟩
    · show (a.x + p.x - p.x) ^ 2 + (a.y + p.y - p.y) ^ 2 ≤ r ^ 2
      have ha : (a.x - 0) ^ 2 + (a.y - 0) ^ 2 ≤ r ^ 2 := ha
      rw [sub_zero, sub_zero] at ha
      rw [add_sub_cancel_right, add_sub_cancel_right]; exact ha
    · show (b.x + p.x - q.x) ^ 2 + (b.y + p.y - q.y) ^ 2 ≤ s ^ 2
      have hb : (b.x - (q.x + -p.x)) ^ 2 + (b.y - (q.y + -p.y)) ^ 2 ≤ s ^ 2 := hb
      rw [show b.x + p.x - q.x = b.x - (q.x + -p.x) by ring,
        show b.y + p.y - q.y = b.y - (q.y + -p.y) by ring]
      exact hb

/-- resolving depends on the differences only -/
theorem resolves_congr {c : Bool} {w : V2 ℝ} {A B A' B' : Set (V2 ℝ)}
    (h : minkDiff A B = minkDiff A' B') (hr : ResolvesLeast c w A B) : ResolvesLeast c w A' B' := by
  let _ := realFloat true 0
  have := realFloat_exact true 0
  obtain ⟨⟨h1, h2⟩, h3, h4⟩ := hr
  rw [shift_touch_iff, h, ← shift_touch_iff] at h1
  rw [shift_separable_iff, h, ← shift_separable_iff] at h2
  refine ⟨⟨h1, h2⟩, fun hc u hu => h3 hc u ?_, fun hc u hu => h4 hc u ?_⟩
  · rwa [shift_separable_iff, h, ← shift_separable_iff]
  · rwa [shift_touch_iff, h, ← shift_touch_iff]

/-- the exact vector for two discs -/
theorem disc_resolves (p q : V2 ℝ) {ra rb : ℝ} (ha : 0 ≤ ra) (hb : 0 ≤ rb) (hne : q + -p ≠ 0) :
    ResolvesLeast (decide ((q + -p).norm < ra + rb))
      (V2.scale (((q + -p).norm - (ra + rb)) / (q + -p).norm) (q + -p)) (disc p ra) (disc q rb) := by
  let _ := realFloat true 0
  have := realFloat_exact true 0
  have := realFloat_sqrt true 0
  have hl : ∀ v : V2 ℝ, v.length = v.norm := by
    intro v
    show Real.sqrt (v.x * v.x + v.y * v.y) = Real.sqrt (v.x ^ 2 + v.y ^ 2)
    rw [pow_two, pow_two]
  have h := ballDelta_resolves ha hb (q + -p)
  rcases ballDelta_cases (ra + rb) (q + -p) with ⟨_, e⟩ | ⟨h0, _⟩
  · rw [e, hl, thick_disc, thick_disc] at h
    have h := resolves_congr (minkDiff_disc p q ra rb).symm h
    convert h using 1
    have hne' : (q + -p).norm ≠ 0 := by
      rw [← hl]; exact (V2.length_pos.2 hne).ne'
    ext <;> simp <;> field_simp
  · exact absurd h0 hne

theorem disc_resolves_zero (p : V2 ℝ) {ra rb : ℝ} (ha : 0 ≤ ra) (hb : 0 ≤ rb) :
    ResolvesLeast (decide (0 < ra + rb)) ⟨ra + rb, 0⟩ (disc p ra) (disc p rb) := by
  let _ := realFloat true 0
  have := realFloat_exact true 0
  have := realFloat_sqrt true 0
  have h := ballDelta_resolves ha hb (0 : V2 ℝ)
  rcases ballDelta_cases (ra + rb) (0 : V2 ℝ) with ⟨h0, _⟩ | ⟨_, e⟩
  · exact absurd rfl h0
  · rw [e, thick_disc, thick_disc] at h
    have h := resolves_congr (A' := disc p ra) (B' := disc p rb) (by
      rw [minkDiff_disc p p]
      congr 2
      ext <;> simp) h
    have ev : V2.scale (0 - (ra + rb)) (⟨-1, 0⟩ : V2 ℝ) = ⟨ra + rb, 0⟩ := by ext <;> simp
    rw [ev] at h
    by_cases hR : 0 < ra + rb
    · rwa [decide_eq_true hR]
    · have : ra + rb = 0 := by linarith
      rw [decide_eq_false hR]
      refine ⟨h.1, by simp, ?_⟩
      intro _ u _
      rw [this, lengthSq_def, lengthSq_def]
      simp only [mul_zero, add_zero]
      exact add_nonneg (mul_self_nonneg _) (mul_self_nonneg _)

section
variable [env : F32Env]

/-- the kernel of the ball queries in binary32: `d'` holds the offset `d` up to one rounding, `r'` the
radius `R` up to one rounding -/
theorem ballDelta_f32 {r' : F32} {d' : V2 F32} {ra rb r : ℝ} {p q e : V2 ℝ}
    (ha : 0 ≤ ra) (hb : 0 ≤ rb) (hR : ra + rb ≤ (2 : ℝ) ^ (61 : ℤ)) (hr' : F32.Is r' r)
    (hr : |r - (ra + rb)| ≤ (ra + rb) / 2 ^ 24) (hd' : d'.Is e)
    (hx : |e.x - (q + -p).x| ≤ |(q + -p).x| / 2 ^ 24)
    (hy : |e.y - (q + -p).y| ≤ |(q + -p).y| / 2 ^ 24) (hm : (q + -p).Moderate) :
    ∃ c v s t, ballDelta r' d' = (c, v) ∧
      DiscAnswer c v (q + -p).norm (ra + rb) (disc p ra) (disc q rb) ∧
      d'.length - r' = s ∧ F32.Is s t ∧
      |t - ((q + -p).norm - (ra + rb))| ≤ ((q + -p).norm + (ra + rb)) / 2 ^ 21 := by
  have hR0 : 0 ≤ ra + rb := by linarith
  have hrb : |r| ≤ (2 : ℝ) ^ (62 : ℤ) := by
    have h61 : (2 : ℝ) ^ (62 : ℤ) = 2 * (2 : ℝ) ^ (61 : ℤ) := by norm_num
    have := abs_le.1 hr
    rw [abs_le]; constructor <;> linarith [this.1, this.2]
  have dist := disc_resolves p q ha hb
  have dist0 : q + -p = 0 → ResolvesLeast (decide (0 < ra + rb)) ⟨ra + rb, 0⟩ (disc p ra) (disc q rb) := by
    intro h
    have hpq : q = p := by
      have h1 := congrArg V2.x h
      have h2 := congrArg V2.y h
      have h1 : q.x + -p.x = 0 := h1
      have h2 : q.y + -p.y = 0 := h2
      ext <;> linarith
    rw [hpq]; exact disc_resolves_zero p ha hb
  generalize q + -p = d at *
  generalize ra + rb = R at *
  rcases hm with rfl | ⟨m1, m2, m3⟩
  · -- coincident centres
    rw [V2.norm_zero]
    have ex : e.x = 0 := by
      have : |e.x - 0| ≤ |(0 : ℝ)| / 2 ^ 24 := hx
      simpa using this
    have ey : e.y = 0 := by
      have : |e.y - 0| ≤ |(0 : ℝ)| / 2 ^ 24 := hy
      simpa using this
    have hdx : F32.Is d'.x 0 := by have := hd'.1; rwa [ex] at this
    have hdy : F32.Is d'.y 0 := by have := hd'.2; rwa [ey] at this
    have hl : F32.Is d'.length 0 := by
      have h1 := is_mul hdx hdx (by rw [mul_zero]; exact representable_zero)
      have h2 := is_mul hdy hdy (by rw [mul_zero]; exact representable_zero)
      have h3 := is_add h1 h2 (by rw [mul_zero, add_zero]; exact representable_zero)
      rw [mul_zero, add_zero] at h3
      obtain ⟨w, w1, w2, _⟩ := F32.round_sqrt h3 (le_refl _)
      rw [Real.sqrt_zero, zero_div, sub_zero] at w2
      have : w = 0 := by simpa using w2
      rw [this] at w1; exact w1
    obtain ⟨t, t1, t2⟩ := F32.round_sub hl hr' (by
      rw [zero_sub, abs_neg]; refine hrb.trans ?_; norm_num)
    refine ⟨true, V2.scale r' V2.unitX, _, t, ?_, ⟨fun _ => rfl, fun _ => rfl, fun h => ?_, ?_⟩, rfl, t1, ?_⟩
    · unfold ballDelta
      rw [if_neg]
      rw [gt_iff_lt, lt_iff is_zero hl]
      exact lt_irrefl _
    · exact absurd h (lt_irrefl _)
    · have hv : (V2.scale r' V2.unitX).Is (⟨r, 0⟩ : V2 ℝ) := by
        constructor
        · have := is_mul hr' is_one (by rw [mul_one]; exact hr'.representable)
          rw [mul_one] at this; exact this
        · have := is_mul hr' is_zero (by rw [mul_zero]; exact representable_zero)
          rw [mul_zero] at this; exact this
      refine ⟨_, _, hv, dist0 rfl, ?_, ?_⟩
      · show |r - R| ≤ _
        refine hr.trans ?_
        linarith
      · show |(0 : ℝ) - 0| ≤ _
        rw [sub_zero, abs_zero]; positivity
    · have a1 := abs_le.1 hr
      have a2 := abs_le.1 t2
      have a3 : |0 - r| ≤ (1 + 1 / 2) * R := by
        rw [zero_sub, abs_neg, abs_le]; constructor <;> linarith [a1.1, a1.2]
      rw [abs_le]; constructor <;> linarith [a1.1, a1.2, a2.1, a2.2]
  · -- different centres
    have hmul63 : (2 : ℝ) ^ (63 : ℤ) = 2 * (2 : ℝ) ^ (62 : ℤ) := by norm_num
    have hmul62 : (2 : ℝ) ^ (-62 : ℤ) = 2 * (2 : ℝ) ^ (-63 : ℤ) := by norm_num
    have hne : d ≠ 0 := by
      rintro rfl
      have h0 : (2 : ℝ) ^ (-62 : ℤ) ≤ 0 := by
        rcases m3 with h | h
        · have : (2 : ℝ) ^ (-62 : ℤ) ≤ |(0 : ℝ)| := h
          rwa [abs_zero] at this
        · have : (2 : ℝ) ^ (-62 : ℤ) ≤ |(0 : ℝ)| := h
          rwa [abs_zero] at this
      exact absurd h0 (not_le.2 (two_zpow_pos _))
    have hLn := V2.norm_nonneg d
    have hL : (2 : ℝ) ^ (-63 : ℤ) ≤ d.norm := by
      have hp := two_zpow_pos (-63)
      rcases m3 with h | h
      · have := h.trans (V2.abs_x_le_norm d); linarith
      · have := h.trans (V2.abs_y_le_norm d); linarith
    have hLpos : 0 < d.norm := lt_of_lt_of_le (two_zpow_pos _) hL
    have hLub : d.norm ≤ (2 : ℝ) ^ (63 : ℤ) := (V2.norm_le_add d).trans (by linarith)
    have hmid : e.Mid := by
      have up : ∀ a b : ℝ, |a - b| ≤ |b| / 2 ^ 24 → |b| ≤ (2 : ℝ) ^ (62 : ℤ) →
          |a| ≤ (2 : ℝ) ^ (63 : ℤ) := by
        intro a b h1 h2
        have := abs_add_le (a - b) b
        rw [sub_add_cancel] at this
        linarith
      have down : ∀ a b : ℝ, |a - b| ≤ |b| / 2 ^ 24 → (2 : ℝ) ^ (-62 : ℤ) ≤ |b| →
          (2 : ℝ) ^ (-63 : ℤ) ≤ |a| := by
        intro a b h1 h2
        have := abs_sub_abs_le_abs_sub b a
        rw [abs_sub_comm] at this
        have hp := two_zpow_pos (-63)
        linarith
      exact ⟨up _ _ hx m1, up _ _ hy m2, m3.imp (down _ _ hx) (down _ _ hy)⟩
    obtain ⟨l, l1, l2, l3⟩ := round_length hd' hmid
    have hn := norm_rounded hx hy
    have hll : |l - d.norm| ≤ 5 * (d.norm / 2 ^ 24) := by
      have l2 : |l - e.norm| ≤ 3 * (e.norm / 2 ^ 24) := l2
      have a1 := abs_le.1 l2
      have a2 := abs_le.1 hn
      rw [abs_le]; constructor <;> linarith [a1.1, a1.2, a2.1, a2.2]
    have hlub : |l - r| ≤ (2 : ℝ) ^ (64 : ℤ) := by
      have a1 := abs_le.1 hll
      have a2 := abs_le.1 hrb
      have : (2 : ℝ) ^ (64 : ℤ) = 4 * (2 : ℝ) ^ (62 : ℤ) := by norm_num
      rw [abs_le]; constructor <;> linarith [a1.1, a1.2, a2.1, a2.2]
    obtain ⟨N, N1, N2⟩ := F32.round_sub l1 hr' (hlub.trans (by norm_num))
    obtain ⟨lp, eN, eQ⟩ := quot_error hLpos hR0 hll hr N2
    have hρ : (d.norm + R) / d.norm ≤ (2 : ℝ) ^ (125 : ℤ) := by
      rw [div_le_iff₀ hLpos]
      have h1 : (2 : ℝ) ^ (125 : ℤ) * (2 : ℝ) ^ (-63 : ℤ) ≤ (2 : ℝ) ^ (125 : ℤ) * d.norm :=
        mul_le_mul_of_nonneg_left hL (two_zpow_pos _).le
      have h2 : (2 : ℝ) ^ (125 : ℤ) * (2 : ℝ) ^ (-63 : ℤ) = 2 * (2 : ℝ) ^ (61 : ℤ) := by norm_num
      have h3 : (4 : ℝ) ≤ (2 : ℝ) ^ (125 : ℤ) := by norm_num
      have h4 : 4 * d.norm ≤ (2 : ℝ) ^ (125 : ℤ) * d.norm := mul_le_mul_of_nonneg_right h3 hLn
      linarith
    have hρ0 : 0 ≤ (d.norm + R) / d.norm := div_nonneg (by linarith) hLn
    have hκ : |(d.norm - R) / d.norm| ≤ (d.norm + R) / d.norm := by
      rw [abs_div, abs_of_pos hLpos]
      refine div_le_div_of_nonneg_right ?_ hLn
      rw [abs_le]; constructor <;> linarith
    have hQb : |N / l| ≤ 3 * (2 : ℝ) ^ (126 : ℤ) := by
      have := abs_add_le (N / l - (d.norm - R) / d.norm) ((d.norm - R) / d.norm)
      rw [sub_add_cancel] at this
      have h126 : (2 : ℝ) ^ (126 : ℤ) = 2 * (2 : ℝ) ^ (125 : ℤ) := by norm_num
      linarith
    obtain ⟨k, k1, k2⟩ := F32.round_div N1 l1 lp.ne' hQb
    have tx := fun w => coord_error (t := k * e.x) (w := w) hL hR0 eQ k2 (V2.abs_x_le_norm d) hx rfl
    have ty := fun w => coord_error (t := k * e.y) (w := w) hL hR0 eQ k2 (V2.abs_y_le_norm d) hy rfl
    have big : 3 * (d.norm + R) ≤ 3 * (2 : ℝ) ^ (126 : ℤ) := by
      have : (2 : ℝ) ^ (63 : ℤ) + (2 : ℝ) ^ (61 : ℤ) ≤ (2 : ℝ) ^ (126 : ℤ) := by norm_num
      linarith
    have h0 : ∀ t : ℝ, |t - t| ≤ |t| / 2 ^ 24 + 1 / 2 ^ 150 := by
      intro t; rw [sub_self, abs_zero]; positivity
    obtain ⟨wx, x1, x2, _⟩ := F32.round_mul k1 hd'.1 ((tx _ (h0 _)).1.trans big)
    obtain ⟨wy, y1, y2, _⟩ := F32.round_mul k1 hd'.2 ((ty _ (h0 _)).1.trans big)
    refine ⟨decide (d'.length < r'), V2.scale ((d'.length - r') / d'.length) d', _, N, ?_,
      ⟨fun h => ?_, fun h => absurd h hLpos.ne', fun _ h => ?_, ⟨wx, wy⟩, _, ⟨x1, y1⟩,
        dist hne, (tx _ x2).2, (ty _ y2).2⟩, rfl, N1, ?_⟩
    · unfold ballDelta
      rw [if_pos ((lt_iff is_zero l1).2 lp)]
    · refine decide_eq_true ((lt_iff l1 hr').2 ?_)
      have a1 := abs_le.1 hll
      have a2 := abs_le.1 hr
      linarith [a1.2, a2.1]
    · refine decide_eq_false ?_
      rw [lt_iff l1 hr', not_lt]
      have a1 := abs_le.1 hll
      have a2 := abs_le.1 hr
      linarith [a1.1, a2.2]
    · linarith

/-! ## C77: the queries -/

/-- what all the ball queries together say, for centres at distance `L`, radii of sum `R`, and the
exact discs `X` and `Y`: no panic, the four vector queries agree, the answer is a `DiscAnswer`, and
the signed distance is finite and off by at most `(L + R) / 2^21` -/
def DiscQueries (col : Except Panic Bool) (pen dist : Except Panic (Option (V2 F32)))
    (both : Except Panic (Bool × V2 F32)) (signed : Except Panic F32) (L R : ℝ)
    (X Y : Set (V2 ℝ)) : Prop :=
  ∃ c v s t, col = .ok c ∧ pen = .ok (if c then some v else none) ∧
    dist = .ok (if c then none else some v) ∧ both = .ok (c, v) ∧ DiscAnswer c v L R X Y ∧
    signed = .ok s ∧ F32.Is s t ∧ |t - (L - R)| ≤ (L + R) / 2 ^ 21

/-- Ball v Ball in binary32: finite radii (sum at most `2^61`), offset zero or of moderate size,
whatever transformation provides the offset. -/
theorem C77_f32_ball_ball {T : Type} [Transformation2d T F32] (a b : Ball F32) (rel : T)
    {ra rb : ℝ} {δ : V2 ℝ} (ha : F32.Is a.radius ra) (hb : F32.Is b.radius rb) (ha0 : 0 ≤ ra)
    (hb0 : 0 ≤ rb) (hR : ra + rb ≤ (2 : ℝ) ^ (61 : ℤ)) (hrel : (applyOrigin rel : V2 F32).Is δ)
    (hδ : δ.Moderate) :
    DiscQueries (collidesRel a b rel) (penetratesRel a b rel) (distanceToRel a b rel)
      (sdfvRel a b rel) (SdfRel2d.sdfRel a b rel) δ.norm (ra + rb) (disc 0 ra) (disc δ rb) := by
  have e0 : δ + -0 = δ := by ext <;> simp
  obtain ⟨r, r1, r2⟩ := F32.round_add ha hb (by
    rw [abs_of_nonneg (by linarith)]; refine hR.trans ?_; norm_num)
  rw [abs_of_nonneg (by linarith : 0 ≤ ra + rb)] at r2
  have hz : ∀ t : ℝ, |t - t| ≤ |t| / 2 ^ 24 := by
    intro t; rw [sub_self, abs_zero]; positivity
  obtain ⟨c, v, s, t, h1, h2, h3, h4, h5⟩ := ballDelta_f32 (p := 0) (q := δ) ha0 hb0 hR r1 r2 hrel
    (by rw [e0]; exact hz _) (by rw [e0]; exact hz _) (by rw [e0]; exact hδ)
  rw [e0] at h2 h5
  refine ⟨c, v, s, t, ?_, ?_, ?_, ?_, h2, ?_, h4, h5⟩
  · show Except.ok (ballDelta (a.radius + b.radius) (applyOrigin rel)).1 = _
    rw [h1]
  · show Except.ok (if (ballDelta (a.radius + b.radius) (applyOrigin rel)).1 then
      some (ballDelta (a.radius + b.radius) (applyOrigin rel)).2 else none) = _
    rw [h1]
  · show Except.ok (if (ballDelta (a.radius + b.radius) (applyOrigin rel)).1 then
      none else some (ballDelta (a.radius + b.radius) (applyOrigin rel)).2) = _
    rw [h1]
  · show Except.ok (ballDelta (a.radius + b.radius) (applyOrigin rel)) = _
    rw [h1]
  · rw [← h3]; rfl

/-- Ball v Point in binary32. -/
theorem C77_f32_ball_point {T : Type} [Transformation2d T F32] (a : Ball F32) (b : Point F32) (rel : T)
    {ra : ℝ} {δ : V2 ℝ} (ha : F32.Is a.radius ra) (ha0 : 0 ≤ ra)
    (hR : ra ≤ (2 : ℝ) ^ (61 : ℤ)) (hrel : (applyOrigin rel : V2 F32).Is δ) (hδ : δ.Moderate) :
    DiscQueries (collidesRel a b rel) (penetratesRel a b rel) (distanceToRel a b rel)
      (sdfvRel a b rel) (SdfRel2d.sdfRel a b rel) δ.norm ra (disc 0 ra) {δ} := by
  have e0 : δ + -0 = δ := by ext <;> simp
  have ed : disc δ 0 = {δ} := by
    ext p
    constructor
    · intro hp
      have hp : (p.x - δ.x) ^ 2 + (p.y - δ.y) ^ 2 ≤ 0 ^ 2 := hp
      have h1 : (p.x - δ.x) ^ 2 = 0 := by nlinarith [sq_nonneg (p.x - δ.x), sq_nonneg (p.y - δ.y)]
      have h2 : (p.y - δ.y) ^ 2 = 0 := by nlinarith [sq_nonneg (p.x - δ.x), sq_nonneg (p.y - δ.y)]
      rw [pow_eq_zero_iff (by norm_num)] at h1 h2
      show p = δ
      ext <;> linarith
    · intro hp
      rw [show p = δ from hp]
      show (δ.x - δ.x) ^ 2 + (δ.y - δ.y) ^ 2 ≤ 0 ^ 2
      simp
  have hz : ∀ t : ℝ, |t - t| ≤ |t| / 2 ^ 24 := by
    intro t; rw [sub_self, abs_zero]; positivity
  obtain ⟨c, v, s, t, h1, h2, h3, h4, h5⟩ := ballDelta_f32 (p := 0) (q := δ) (rb := 0) ha0 (le_refl _)
    (by rwa [add_zero]) ha (by rw [add_zero, sub_self, abs_zero]; positivity) hrel
    (by rw [e0]; exact hz _) (by rw [e0]; exact hz _) (by rw [e0]; exact hδ)
  rw [e0, add_zero] at h2 h5
  rw [ed] at h2
  refine ⟨c, v, s, t, ?_, ?_, ?_, ?_, h2, ?_, h4, h5⟩
  · show Except.ok (ballDelta a.radius (applyOrigin rel)).1 = _
    rw [h1]
  · show Except.ok (if (ballDelta a.radius (applyOrigin rel)).1 then
      some (ballDelta a.radius (applyOrigin rel)).2 else none) = _
    rw [h1]
  · show Except.ok (if (ballDelta a.radius (applyOrigin rel)).1 then
      none else some (ballDelta a.radius (applyOrigin rel)).2) = _
    rw [h1]
  · show Except.ok (ballDelta a.radius (applyOrigin rel)) = _
    rw [h1]
  · rw [← h3]; rfl

/-- the same through colliders placed at `p` and `q`, in world space: the difference of the positions
is rounded once more -/
theorem C77_f32_colliders (a b : Ball F32) (p' q' : V2 F32) {ra rb : ℝ} {p q : V2 ℝ}
    (ha : F32.Is a.radius ra) (hb : F32.Is b.radius rb) (ha0 : 0 ≤ ra) (hb0 : 0 ≤ rb)
    (hR : ra + rb ≤ (2 : ℝ) ^ (61 : ℤ)) (hp : p'.Is p) (hq : q'.Is q) (hd : (q - p).Moderate) :
    DiscQueries (collides ⟨a, p'⟩ ⟨b, q'⟩) (penetrates ⟨a, p'⟩ ⟨b, q'⟩) (distanceTo ⟨a, p'⟩ ⟨b, q'⟩)
      (sdfv ⟨a, p'⟩ ⟨b, q'⟩) (sdf ⟨a, p'⟩ ⟨b, q'⟩) (q - p).norm (ra + rb) (disc p ra) (disc q rb) ∧
    DiscQueries (collides ⟨a, Translate2d.mk p'⟩ ⟨b, Translate2d.mk q'⟩)
      (penetrates ⟨a, Translate2d.mk p'⟩ ⟨b, Translate2d.mk q'⟩)
      (distanceTo ⟨a, Translate2d.mk p'⟩ ⟨b, Translate2d.mk q'⟩)
      (sdfv ⟨a, Translate2d.mk p'⟩ ⟨b, Translate2d.mk q'⟩)
      (sdf ⟨a, Translate2d.mk p'⟩ ⟨b, Translate2d.mk q'⟩)
      (q - p).norm (ra + rb) (disc p ra) (disc q rb) := by
  have e0 : q - p = q + -p := by ext <;> simp [sub_eq_add_neg]
  rw [e0] at hd ⊢
  obtain ⟨r, r1, r2⟩ := F32.round_add ha hb (by
    rw [abs_of_nonneg (by linarith)]; refine hR.trans ?_; norm_num)
  rw [abs_of_nonneg (by linarith : 0 ≤ ra + rb)] at r2
  have hbd : |q.x + -p.x| ≤ (2 : ℝ) ^ (62 : ℤ) ∧ |q.y + -p.y| ≤ (2 : ℝ) ^ (62 : ℤ) := by
    rcases hd with h | ⟨h1, h2, _⟩
    · have h1 : q.x + -p.x = 0 := congrArg V2.x h
      have h2 : q.y + -p.y = 0 := congrArg V2.y h
      rw [h1, h2, abs_zero]
      exact ⟨(two_zpow_pos _).le, (two_zpow_pos _).le⟩
    · exact ⟨h1, h2⟩
  have h62 : (2 : ℝ) ^ (62 : ℤ) ≤ 3 * (2 : ℝ) ^ (126 : ℤ) := by norm_num
  obtain ⟨ex, x1, x2⟩ := F32.round_add hq.1 (is_neg hp.1) (hbd.1.trans h62)
  obtain ⟨ey, y1, y2⟩ := F32.round_add hq.2 (is_neg hp.2) (hbd.2.trans h62)
  have hd' : (q' + -p').Is (⟨ex, ey⟩ : V2 ℝ) := ⟨x1, y1⟩
  obtain ⟨c, v, s, t, h1, h2, h3, h4, h5⟩ := ballDelta_f32 (p := p) (q := q) ha0 hb0 hR r1 r2 hd'
    x2 y2 hd
  have main : DiscQueries (collidesRel a b (q' + -p')) (penetratesRel a b (q' + -p'))
      (distanceToRel a b (q' + -p')) (sdfvRel a b (q' + -p')) (SdfRel2d.sdfRel a b (q' + -p'))
      (q + -p).norm (ra + rb) (disc p ra) (disc q rb) := by
    refine ⟨c, v, s, t, ?_, ?_, ?_, ?_, h2, ?_, h4, h5⟩
    · show Except.ok (ballDelta (a.radius + b.radius) (q' + -p')).1 = _
      rw [h1]
    · show Except.ok (if (ballDelta (a.radius + b.radius) (q' + -p')).1 then
        some (ballDelta (a.radius + b.radius) (q' + -p')).2 else none) = _
      rw [h1]
    · show Except.ok (if (ballDelta (a.radius + b.radius) (q' + -p')).1 then
        none else some (ballDelta (a.radius + b.radius) (q' + -p')).2) = _
      rw [h1]
    · show Except.ok (ballDelta (a.radius + b.radius) (q' + -p')) = _
      rw [h1]
    · rw [← h3]; rfl
  exact ⟨main, main⟩

/-! ### what the vector is good for -/

theorem V2.norm_eq_length (v : V2 ℝ) : v.norm = (@V2.length ℝ _ _ (realFloat true 0) v) := by
  show Real.sqrt (v.x ^ 2 + v.y ^ 2) = Real.sqrt (v.x * v.x + v.y * v.y)
  rw [pow_two, pow_two]

theorem V2.norm_add_le (v w : V2 ℝ) : (v + w).norm ≤ v.norm + w.norm := by
  let _ := realFloat true 0
  have := realFloat_exact true 0
  have := realFloat_sqrt true 0
  rw [norm_eq_length, norm_eq_length, norm_eq_length]
  exact length_add_le v w

theorem V2.norm_neg (v : V2 ℝ) : (-v).norm = v.norm := by
  show Real.sqrt ((-v.x) ^ 2 + (-v.y) ^ 2) = Real.sqrt (v.x ^ 2 + v.y ^ 2)
  rw [neg_sq, neg_sq]

theorem mem_disc {c p : V2 ℝ} {r : ℝ} (hr : 0 ≤ r) : p ∈ disc c r ↔ (p - c).norm ≤ r :=
  ⟨fun h => Real.sqrt_le_iff.2 ⟨hr, h⟩, fun h => (Real.sqrt_le_iff.1 h).2⟩

/-- discs in touching contact after a move: the centres are then at distance `ra + rb` exactly -/
theorem touching_discs {p q w : V2 ℝ} {ra rb : ℝ} (ha : 0 ≤ ra) (hb : 0 ≤ rb)
    (h : TouchingAfter w (disc p ra) (disc q rb)) : (q - p - w).norm = ra + rb := by
  obtain ⟨⟨z, ⟨y, hy, rfl⟩, hz⟩, n, hn, hsep⟩ := h
  rw [mem_disc ha] at hy
  rw [mem_disc hb] at hz
  refine le_antisymm ?_ ?_
  · have h1 := V2.norm_add_le (y - p) (-(y + w - q))
    rw [V2.norm_neg] at h1
    have e : y - p + -(y + w - q) = q - p - w := by ext <;> simp <;> ring
    rw [e] at h1
    linarith
  · let _ := realFloat true 0
    have := realFloat_exact true 0
    have := realFloat_sqrt true 0
    have hl : 0 < n.norm := by
      rw [V2.norm_eq_length]; exact V2.length_pos.2 hn
    have hns : n.norm * n.norm = n.dot n := by rw [n.norm_sq]; show _ = n.x * n.x + n.y * n.y; ring
    have unit : ∀ s : ℝ, 0 ≤ s → (V2.scale (s / n.norm) n).norm = s := by
      intro s hs
      have h1 := (V2.scale (s / n.norm) n).norm_sq
      have h2 := n.norm_sq
      have h3 : (V2.scale (s / n.norm) n).x ^ 2 + (V2.scale (s / n.norm) n).y ^ 2 = s * s := by
        show (s / n.norm * n.x) ^ 2 + (s / n.norm * n.y) ^ 2 = s * s
        have : (s / n.norm * n.x) ^ 2 + (s / n.norm * n.y) ^ 2 =
            s * s / (n.norm * n.norm) * (n.x ^ 2 + n.y ^ 2) := by field_simp
        rw [this, ← h2]; field_simp
      rw [h3] at h1
      have h4 := (V2.scale (s / n.norm) n).norm_nonneg
      nlinarith [h1, h4, hs]
    have h1 := hsep (p + V2.scale (ra / n.norm) n + w) ⟨p + V2.scale (ra / n.norm) n, by
      rw [mem_disc ha]
      have e : p + V2.scale (ra / n.norm) n - p = V2.scale (ra / n.norm) n := by ext <;> simp
      rw [e, unit _ ha], rfl⟩ (q + -(V2.scale (rb / n.norm) n)) (by
      rw [mem_disc hb]
      have e : q + -(V2.scale (rb / n.norm) n) - q = -(V2.scale (rb / n.norm) n) := by ext <;> simp
      rw [e, V2.norm_neg, unit _ hb])
    have h2 := V2.dot_le_length n (q - p - w)
    rw [← V2.norm_eq_length, ← V2.norm_eq_length] at h2
    have e2 : n.dot (q - p - w) = n.dot q - n.dot p - n.dot w := by
      show n.x * (q.x - p.x - w.x) + n.y * (q.y - p.y - w.y) = _
      show _ = (n.x * q.x + n.y * q.y) - (n.x * p.x + n.y * p.y) - (n.x * w.x + n.y * w.y)
      ring
    have e3 : ∀ (c u : V2 ℝ) (s : ℝ), n.dot (c + V2.scale (s / n.norm) n + u) =
        n.dot c + s * n.norm + n.dot u := by
      intro c u s
      have : n.dot (c + V2.scale (s / n.norm) n + u) = n.dot c + s / n.norm * n.dot n + n.dot u := by
        show n.x * (c.x + s / n.norm * n.x + u.x) + n.y * (c.y + s / n.norm * n.y + u.y) = _
        show _ = (n.x * c.x + n.y * c.y) + s / n.norm * (n.x * n.x + n.y * n.y) +
          (n.x * u.x + n.y * u.y)
        ring
      rw [this, ← hns]; field_simp
    have e4 : n.dot (q + -(V2.scale (rb / n.norm) n)) = n.dot q - rb * n.norm := by
      have : n.dot (q + -(V2.scale (rb / n.norm) n)) = n.dot q - rb / n.norm * n.dot n := by
        show n.x * (q.x + -(rb / n.norm * n.x)) + n.y * (q.y + -(rb / n.norm * n.y)) = _
        show _ = (n.x * q.x + n.y * q.y) - rb / n.norm * (n.x * n.x + n.y * n.y)
        ring
      rw [this, ← hns]; field_simp
    rw [e3, e4] at h1
    rw [e2] at h2
    have h3 : (ra + rb) * n.norm ≤ (q - p - w).norm * n.norm := by
      rw [mul_comm (q - p - w).norm]; linarith
    exact le_of_mul_le_mul_right h3 hl

/-- The vector resolves: after moving the first ball by the returned vector, the centres are at
distance `ra + rb` up to `(L + R) / 2^18`. -/
theorem C77_f32_resolved {c : Bool} {v : V2 F32} {p q : V2 ℝ} {ra rb : ℝ} (ha : 0 ≤ ra) (hb : 0 ≤ rb)
    (h : DiscAnswer c v (q - p).norm (ra + rb) (disc p ra) (disc q rb)) :
    ∃ x, v.Is x ∧
      |(q - (p + x)).norm - (ra + rb)| ≤ ((q - p).norm + (ra + rb)) / 2 ^ 18 := by
  obtain ⟨_, _, _, x, w, h1, ⟨h2, _⟩, h3⟩ := h
  refine ⟨x, h1, ?_⟩
  have hT := touching_discs ha hb h2
  have e1 : q - (p + x) = (q - p - w) + (w - x) := by ext <;> simp <;> ring
  have e2 : q - p - w = (q - (p + x)) + -(w - x) := by ext <;> simp <;> ring
  have t1 := V2.norm_add_le (q - p - w) (w - x)
  have t2 := V2.norm_add_le (q - (p + x)) (-(w - x))
  rw [← e1] at t1
  rw [← e2, V2.norm_neg] at t2
  have t3 : (w - x).norm ≤ ((q - p).norm + (ra + rb)) / 2 ^ 18 := by
    refine (V2.norm_le_add _).trans ?_
    have h4 : |(w - x).x| ≤ ((q - p).norm + (ra + rb)) / 2 ^ 19 := by
      rw [show (w - x).x = w.x - x.x from rfl, abs_sub_comm]; exact h3.1
    have h5 : |(w - x).y| ≤ ((q - p).norm + (ra + rb)) / 2 ^ 19 := by
      rw [show (w - x).y = w.y - x.y from rfl, abs_sub_comm]; exact h3.2
    have n1 := (q - p).norm_nonneg
    linarith
  rw [hT] at t1 t2
  rw [abs_le]
  constructor <;> linarith

/-! ### outside the moderate range -/

/-- a magnitude below half of the least subnormal rounds to zero -/
theorem ofReal_tiny {z : Bool} {x : ℝ} (hx : |x| < (2 : ℝ) ^ (-151 : ℤ)) : F32.Is (ofReal z x) 0 := by
  obtain ⟨w, h1, h2, _⟩ := round_any (z := z) (x := x) (hx.le.trans (by norm_num))
  obtain ⟨n, hn⟩ := h1.representable.multiple
  have h3 : |w| < (2 : ℝ) ^ (-149 : ℤ) := by
    have := abs_add_le (w - x) x
    rw [sub_add_cancel] at this
    have e : (2 : ℝ) ^ (-149 : ℤ) = 4 * (2 : ℝ) ^ (-151 : ℤ) := by norm_num
    have e2 : (1 : ℝ) / 2 ^ 150 = 2 * (2 : ℝ) ^ (-151 : ℤ) := by norm_num
    have hp := two_zpow_pos (-151)
    rw [e]
    rw [e2] at h2
    clear e e2 hn
    generalize (2 : ℝ) ^ (-151 : ℤ) = X at *
    linarith
  have h4 : n = 0 := by
    by_contra hne
    have : (1 : ℝ) ≤ |(n : ℝ)| := by
      rw [← Int.cast_abs]; exact_mod_cast Int.one_le_abs hne
    rw [hn, abs_mul, abs_of_pos (two_zpow_pos _)] at h3
    have h5 := mul_le_mul_of_nonneg_right this (two_zpow_pos (-149)).le
    linarith
  rw [hn, h4] at h1
  simpa using h1

/-- Finding (underflow): two balls of radius `2^-100` whose centres are `2^-80` apart — half a million
radii — are reported as colliding: the squared offset underflows to zero and the code takes the
branch for coincident centres. -/
theorem C77_f32_underflow_finding :
    ∃ (a : Ball F32) (rel : V2 F32), F32.Is a.radius ((2 : ℝ) ^ (-100 : ℤ)) ∧
      rel.Is ⟨(2 : ℝ) ^ (-80 : ℤ), 0⟩ ∧ collidesRel a a rel = .ok true ∧
      ¬ Touch (disc 0 ((2 : ℝ) ^ (-100 : ℤ))) (disc ⟨(2 : ℝ) ^ (-80 : ℤ), 0⟩ ((2 : ℝ) ^ (-100 : ℤ))) := by
  have hr : F32.Is (ofReal false ((2 : ℝ) ^ (-100 : ℤ))) ((2 : ℝ) ^ (-100 : ℤ)) :=
    is_ofReal (representable_pow _ (by norm_num) (by norm_num))
  have hd : F32.Is (ofReal false ((2 : ℝ) ^ (-80 : ℤ))) ((2 : ℝ) ^ (-80 : ℤ)) :=
    is_ofReal (representable_pow _ (by norm_num) (by norm_num))
  refine ⟨⟨ofReal false ((2 : ℝ) ^ (-100 : ℤ))⟩, ⟨ofReal false ((2 : ℝ) ^ (-80 : ℤ)), 0⟩, hr,
    ⟨hd, is_zero⟩, ?_, ?_⟩
  · show Except.ok (ballDelta _ (⟨ofReal false ((2 : ℝ) ^ (-80 : ℤ)), 0⟩ : V2 F32)).1 = _
    have hl : F32.Is (⟨ofReal false ((2 : ℝ) ^ (-80 : ℤ)), 0⟩ : V2 F32).length 0 := by
      obtain ⟨z, e⟩ := mul_eq hd hd
      have h1 : F32.Is (ofReal false ((2 : ℝ) ^ (-80 : ℤ)) * ofReal false ((2 : ℝ) ^ (-80 : ℤ))) 0 := by
        rw [e]; exact ofReal_tiny (by rw [abs_of_pos (by positivity)]; norm_num)
      have h2 := is_mul is_zero is_zero (by rw [mul_zero]; exact representable_zero)
      have h3 := is_add h1 h2 (by rw [mul_zero, add_zero]; exact representable_zero)
      rw [mul_zero, add_zero] at h3
      obtain ⟨w, w1, w2, _⟩ := F32.round_sqrt h3 (le_refl _)
      rw [Real.sqrt_zero, zero_div, sub_zero] at w2
      have : w = 0 := by simpa using w2
      rw [this] at w1; exact w1
    unfold ballDelta
    rw [if_neg]
    rw [gt_iff_lt, lt_iff is_zero hl]
    exact lt_irrefl _
  · rintro ⟨z, h1, h2⟩
    have h1 : (z.x - 0) ^ 2 + (z.y - 0) ^ 2 ≤ ((2 : ℝ) ^ (-100 : ℤ)) ^ 2 := h1
    have h2 : (z.x - (2 : ℝ) ^ (-80 : ℤ)) ^ 2 + (z.y - 0) ^ 2 ≤ ((2 : ℝ) ^ (-100 : ℤ)) ^ 2 := h2
    have p1 := two_zpow_pos (-100)
    have b1 : z.x ≤ (2 : ℝ) ^ (-100 : ℤ) := by
      refine (abs_le_of_sq_le_sq' (?_ : z.x ^ 2 ≤ _) p1.le).2
      nlinarith [sq_nonneg z.y]
    have b2 : -((2 : ℝ) ^ (-100 : ℤ)) ≤ z.x - (2 : ℝ) ^ (-80 : ℤ) := by
      refine (abs_le_of_sq_le_sq' (?_ : (z.x - (2 : ℝ) ^ (-80 : ℤ)) ^ 2 ≤ _) p1.le).1
      nlinarith [sq_nonneg z.y]
    have : 2 * (2 : ℝ) ^ (-100 : ℤ) < (2 : ℝ) ^ (-80 : ℤ) := by norm_num
    linarith

/-- a real of magnitude `2^128` or more becomes an infinity -/
theorem ofReal_huge {z : Bool} {x : ℝ} (hx : (2 : ℝ) ^ (128 : ℤ) ≤ x) : ofReal z x = .inf false := by
  have hp : 0 < x := lt_of_lt_of_le (two_zpow_pos _) hx
  have hge : (2 : ℝ) ^ (128 : ℤ) ≤ rnd |x| := by
    rw [abs_of_pos hp]
    refine le_trans ?_ (rnd_mono (two_zpow_pos _).le hx)
    have e : Int.log 2 ((2 : ℝ) ^ (128 : ℤ)) = 128 := by
      have := Int.log_zpow (R := ℝ) (b := 2) (by norm_num) 128
      exact_mod_cast this
    have hu : ulpExp ((2 : ℝ) ^ (128 : ℤ)) = 105 := by unfold ulpExp; rw [e]; norm_num
    have := ulp_le_rnd (two_zpow_pos 128) (by rw [hu]; norm_num)
    rw [hu] at this
    exact this
  rcases ofReal_cases z x with ⟨h, _⟩ | ⟨_, _, e⟩
  · exact absurd h (not_lt.2 hge)
  · rw [e, decide_eq_false (not_lt.2 hp.le)]

/-- Finding (overflow): for centres `2^64` apart the reported distance is a vector of NaNs, although
all inputs (and the true distance) are finite and well inside the range of `f32`. -/
theorem C77_f32_overflow_finding :
    ∃ (a : Ball F32) (rel : V2 F32), F32.Is a.radius 1 ∧ rel.Is ⟨(2 : ℝ) ^ (64 : ℤ), 0⟩ ∧
      distanceToRel a a rel = .ok (some ⟨.nan, .nan⟩) := by
  have hd : F32.Is (ofReal false ((2 : ℝ) ^ (64 : ℤ))) ((2 : ℝ) ^ (64 : ℤ)) :=
    is_ofReal (representable_pow _ (by norm_num) (by norm_num))
  refine ⟨⟨1⟩, ⟨ofReal false ((2 : ℝ) ^ (64 : ℤ)), 0⟩, is_one, ⟨hd, is_zero⟩, ?_⟩
  have hl : (⟨ofReal false ((2 : ℝ) ^ (64 : ℤ)), 0⟩ : V2 F32).length = .inf false := by
    obtain ⟨z, e⟩ := mul_eq hd hd
    have h1 : ofReal false ((2 : ℝ) ^ (64 : ℤ)) * ofReal false ((2 : ℝ) ^ (64 : ℤ)) = .inf false := by
      rw [e]; exact ofReal_huge (by norm_num)
    have h2 := is_mul is_zero is_zero (by rw [mul_zero]; exact representable_zero)
    show F32.sqrt (ofReal false ((2 : ℝ) ^ (64 : ℤ)) * ofReal false ((2 : ℝ) ^ (64 : ℤ)) + 0 * 0) = _
    rw [h1]
    obtain ⟨s, m, hm, e2, _⟩ := h2
    rw [e2]
    rfl
  have h1 : F32.Is (1 + 1 : F32) (1 + 1) := is_add is_one is_one (by
    have := representable_int 2 (by norm_num)
    norm_num at this ⊢; exact this)
  obtain ⟨s, m, hm, e1, e2⟩ := h1
  show Except.ok (if (ballDelta (1 + 1) (⟨ofReal false ((2 : ℝ) ^ (64 : ℤ)), 0⟩ : V2 F32)).1 then none
    else some (ballDelta (1 + 1) (⟨ofReal false ((2 : ℝ) ^ (64 : ℤ)), 0⟩ : V2 F32)).2) = _
  unfold ballDelta
  simp only [hl]
  have hpos : (F32.inf false) > (0 : F32) := by
    obtain ⟨s, m, hm, e, _⟩ := is_zero
    rw [e]; rfl
  rw [if_pos hpos]
  have hnl : ¬ (F32.inf false < (1 + 1 : F32)) := by
    rw [e1]; exact Bool.false_ne_true
  simp only [decide_eq_false hnl]
  have hN : (F32.inf false - (1 + 1 : F32)) / F32.inf false = .nan := by rw [e1]; rfl
  rw [hN]
  have hn : ∀ x : F32, F32.nan * x = F32.nan := by intro x; cases x <;> rfl
  simp only [V2.scale, hn]
  rfl

/-- Finding (NaN): a ball at a NaN position collides with every ball and every point. -/
theorem C77_f32_nan_finding (a b : Ball F32) (pt : Point F32) (rel : V2 F32)
    (h : rel.x = .nan ∨ rel.y = .nan) :
    collidesRel a b rel = .ok true ∧ collidesRel a pt rel = .ok true := by
  have hn : ∀ x : F32, F32.nan * x = F32.nan := by intro x; cases x <;> rfl
  have hadd : ∀ x : F32, x + F32.nan = F32.nan := by intro x; cases x <;> rfl
  have hadd' : ∀ x : F32, F32.nan + x = F32.nan := by intro x; cases x <;> rfl
  have hl : rel.length = .nan := by
    show F32.sqrt (rel.x * rel.x + rel.y * rel.y) = _
    rcases h with h | h <;> rw [h, hn]
    · rw [hadd']; rfl
    · rw [hadd]; rfl
  have key : ∀ r : F32, (ballDelta r rel).1 = true := by
    intro r
    unfold ballDelta
    rw [hl, if_neg]
    intro hlt
    have hlt : F32.lt 0 F32.nan := hlt
    obtain ⟨s, m, hm, e, _⟩ := is_zero
    rw [e] at hlt
    exact hlt
  constructor
  · show Except.ok (ballDelta _ rel).1 = _
    rw [key]
  · show Except.ok (ballDelta _ rel).1 = _
    rw [key]

/-! ### examples -/

/-- balls of radius 1 at (0,0) and (1/3 rounded, 3): the hypotheses hold and the answer is "apart" -/
example : ∃ (a : Ball F32) (q' : V2 F32) (x : ℝ), F32.Is a.radius 1 ∧ q'.Is ⟨x, 3⟩ ∧
    |x - 1 / 3| ≤ 1 / 2 ^ 25 ∧
    collides ⟨a, (0 : V2 F32)⟩ ⟨a, q'⟩ = .ok false ∧
    ∃ v y, distanceTo ⟨a, (0 : V2 F32)⟩ ⟨a, q'⟩ = .ok (some v) ∧ v.Is y ∧
      |((⟨x, 3⟩ : V2 ℝ) - (0 + y)).norm - 2| ≤ 6 / 2 ^ 18 := by
  obtain ⟨x, hx1, hx2, _⟩ := round_any (z := false) (x := 1 / 3) (by
    rw [abs_of_pos (by norm_num)]; norm_num)
  rw [abs_of_pos (by norm_num : (0 : ℝ) < 1 / 3)] at hx2
  have hx : |x - 1 / 3| ≤ 1 / 2 ^ 25 := hx2.trans (by norm_num)
  have hxb := abs_le.1 hx
  have h3 : F32.Is (ofReal false 3) 3 := is_ofReal (by
    have := representable_int 3 (by norm_num)
    norm_num at this ⊢; exact this)
  have eq0 : (⟨x, 3⟩ : V2 ℝ) - 0 = ⟨x, 3⟩ := by ext <;> simp
  have hn1 : (3 : ℝ) ≤ (⟨x, 3⟩ : V2 ℝ).norm := by
    have := (⟨x, 3⟩ : V2 ℝ).abs_y_le_norm
    have h : |(3 : ℝ)| ≤ (⟨x, 3⟩ : V2 ℝ).norm := this
    rwa [abs_of_pos (by norm_num)] at h
  have hn2 : (⟨x, 3⟩ : V2 ℝ).norm ≤ 4 := by
    refine ((⟨x, 3⟩ : V2 ℝ).norm_le_add).trans ?_
    show |x| + |(3 : ℝ)| ≤ 4
    rw [abs_of_pos (by norm_num : (0 : ℝ) < 3), abs_of_nonneg (by linarith [hxb.1])]
    linarith [hxb.2]
  obtain ⟨⟨c, v, s, t, k1, _, k3, _, k5, _⟩, _⟩ := C77_f32_colliders (⟨1⟩ : Ball F32) ⟨1⟩ 0
    ⟨ofReal false (1 / 3), ofReal false 3⟩ (ra := 1) (rb := 1) (p := 0) (q := ⟨x, 3⟩) is_one is_one
    (by norm_num) (by norm_num) (by norm_num) V2.Is.zero ⟨hx1, h3⟩ (by
      rw [eq0]
      refine Or.inr ⟨?_, ?_, Or.inr ?_⟩
      · show |x| ≤ _
        rw [abs_of_nonneg (by linarith [hxb.1])]
        have : (4 : ℝ) ≤ (2 : ℝ) ^ (62 : ℤ) := by norm_num
        linarith [hxb.2]
      · show |(3 : ℝ)| ≤ _
        norm_num
      · show _ ≤ |(3 : ℝ)|
        norm_num)
  have hc : c = false := k5.2.2.1 (by rw [eq0]; linarith) (by rw [eq0]; linarith)
  subst hc
  obtain ⟨y, y1, y2⟩ := C77_f32_resolved (by norm_num) (by norm_num) k5
  refine ⟨⟨1⟩, ⟨ofReal false (1 / 3), ofReal false 3⟩, x, is_one, ⟨hx1, h3⟩, hx, k1, v, y, k3, y1, ?_⟩
  have e2 : (1 : ℝ) + 1 = 2 := by norm_num
  rw [e2, eq0] at y2
  refine y2.trans ?_
  linarith

end
end Auburn
