import Verif.Ieee.NoisyBall

/-!
# GJK and EPA on binary32 without exactness assumptions (library lemmas for C86)
-/

set_option linter.unusedSectionVars false
set_option synthInstance.maxSize 1000

namespace Auburn

open F32 V2 ExtremePoint2d Transformation2d

/-- `A` and `B` are separated by a line, up to an overlap of `δ` across it -/
def SeparableUpTo (δ : ℝ) (A B : Set (V2 ℝ)) : Prop :=
  ∃ n : V2 ℝ, n ≠ 0 ∧ ∀ a ∈ A, ∀ b ∈ B, n.dot a ≤ n.dot b + δ * n.norm

/-- some point of `A` is within `δ` of some point of `B` -/
def MeetUpTo (δ : ℝ) (A B : Set (V2 ℝ)) : Prop := ∃ a ∈ A, ∃ b ∈ B, V2.norm (a - b) ≤ δ

theorem V2.l1_le_norm (v : V2 ℝ) : v.l1 ≤ (3 / 2) * v.norm := by
  refine abs_le_of_sq_le_sq' ?_ (mul_nonneg (by norm_num) v.norm_nonneg) |>.2
  have e := v.norm_sq
  unfold V2.l1
  have h1 := sq_abs v.x
  have h2 := sq_abs v.y
  rw [mul_pow, sq v.norm, e]
  nlinarith [sq_nonneg (|v.x| - |v.y|), sq_nonneg v.x, sq_nonneg v.y]

theorem V2.ne_zero_of_l1 {v : V2 ℝ} (h : (2 : ℝ) ^ (-60 : ℤ) ≤ v.l1) : v ≠ 0 := by
  rintro rfl
  have : (0 : V2 ℝ).l1 = 0 := by show |(0 : ℝ)| + |(0 : ℝ)| = 0; simp
  rw [this] at h
  linarith [two_zpow_pos (-60)]

section
variable [env : F32Env]

/-- the search keeps asking: the first `n` extreme points all lie strictly beyond the origin and no
simplex encloses it (`next` picks the next direction) -/
def Runs (next : V2 F32 → V2 F32 → V2 F32) (S : V2 F32 → V2 F32) : Nat → V2 F32 → List (V2 F32) → Prop
  | 0, _, _ => True
  | n + 1, d, pts => ¬ (S d).dot d ≤ 0 ∧
      ∃ r, addPoint pts (S d) = .ok r ∧ r.collides = false ∧ Runs next S n (next d r.dir) r.pts

/-- a finite point with coordinates at most `2^(k+2)` -/
def PtB (k : ℤ) (v : V2 F32) : Prop := F32.Bdd (k + 2) v.x ∧ F32.Bdd (k + 2) v.y
/-- a finite direction with coordinates at most `2^(3k+10)` -/
def DiB (k : ℤ) (v : V2 F32) : Prop := F32.Bdd (3 * k + 10) v.x ∧ F32.Bdd (3 * k + 10) v.y

theorem DiB.is {k : ℤ} {v : V2 F32} (h : DiB k v) : ∃ d, v.Is d ∧ DirB k d := by
  obtain ⟨⟨x, h1, h2⟩, ⟨y, h3, h4⟩⟩ := h
  exact ⟨⟨x, y⟩, ⟨h1, h3⟩, h2, h4⟩
theorem DiB.of_is {k : ℤ} {v : V2 F32} {d : V2 ℝ} (h : v.Is d) (hd : DirB k d) : DiB k v :=
  ⟨⟨_, h.1, hd.1⟩, ⟨_, h.2, hd.2⟩⟩
theorem PtB.of_is {k : ℤ} {M : ℝ} {v : V2 F32} {p : V2 ℝ} (h : v.Is p) (hp : p.Coord (4 * M))
    (hM : M ≤ (2 : ℝ) ^ k) : PtB k v := by
  have e : (2 : ℝ) ^ (k + 2) = 4 * (2 : ℝ) ^ k := by rw [zpow_add₀ (by norm_num)]; norm_num; ring
  exact ⟨⟨_, h.1, hp.1.trans (by linarith)⟩, ⟨_, h.2, hp.2.trans (by linarith)⟩⟩

theorem F32.Bdd.cast {u u' : ℤ} {a : F32} (h : F32.Bdd u a) (e : u = u') : F32.Bdd u' a := e ▸ h

variable {k : ℤ} {M : ℝ}

theorem PtB.neg {v : V2 F32} (h : PtB k v) : PtB k (-v) := ⟨h.1.neg, h.2.neg⟩
theorem PtB.dir {v : V2 F32} (h : PtB k v) (hk : 0 ≤ k) : DiB k v :=
  ⟨h.1.mono (by omega), h.2.mono (by omega)⟩
theorem DiB.perp {v : V2 F32} (h : DiB k v) : DiB k v.perp := ⟨h.2.neg, h.1⟩

theorem PtB.sub {v w : V2 F32} (h : PtB k v) (h' : PtB k w) (hk : 0 ≤ k) (hk2 : k ≤ 26) :
    F32.Bdd (k + 3) (v - w).x ∧ F32.Bdd (k + 3) (v - w).y := by
  have e : max (k + 2) (k + 2) + 1 = k + 3 := by rw [max_self]; ring
  have h1 := h.1.sub h'.1 (by omega) (by omega)
  have h2 := h.2.sub h'.2 (by omega) (by omega)
  rw [e] at h1 h2
  exact ⟨h1, h2⟩

theorem bdd_cross {v w : V2 F32} {i j : ℤ} (hv : F32.Bdd i v.x ∧ F32.Bdd i v.y)
    (hw : F32.Bdd j w.x ∧ F32.Bdd j w.y) (h1 : 0 ≤ i) (h2 : 0 ≤ j) (h3 : i + j ≤ 120) :
    F32.Bdd (i + j + 1) (v.cross w) :=
  ((hv.1.mul hw.2 (by omega) (by omega)).sub (hv.2.mul hw.1 (by omega) (by omega)) (by omega)
    (by omega)).cast (by omega)

/-- one simplex step: no panic, nothing but the given points is kept, the new direction is finite -/
theorem addPoint_bdd (hk : 0 ≤ k) (hk2 : k ≤ 26) {pts : List (V2 F32)} {a : V2 F32}
    (hp : ∀ q ∈ pts, PtB k q) (hl : pts.length ≤ 2) (ha : PtB k a) :
    ∃ r, addPoint pts a = .ok r ∧ (∀ q ∈ r.pts, q = a ∨ q ∈ pts) ∧ r.pts ≠ [] ∧
      (r.collides = false → r.pts.length ≤ 2 ∧ DiB k r.dir) ∧ (r.collides = true → r.pts.length = 3) := by
  rcases pts with _ | ⟨b, _ | ⟨c, _ | ⟨e, l⟩⟩⟩
  · exact ⟨_, rfl, by simp, by simp, fun _ => ⟨by simp, ha.neg.dir hk⟩, by simp⟩
  · have hb := hp b (by simp)
    by_cases h : (b - a).dot (-a) ≥ 0
    · refine ⟨⟨false, (b - a).crossAba (-a), [a, b]⟩, ?_, by simp, by simp, fun _ => ⟨by simp, ?_⟩, by simp⟩
      · simp only [addPoint, if_pos h]
      · have h1 := hb.sub ha hk hk2
        have h2 := bdd_cross h1 (ha.neg) (by omega) (by omega) (by omega)
        exact ⟨(h1.2.neg.mul h2 (by omega) (by omega)).mono (by omega),
          (h1.1.mul h2 (by omega) (by omega)).mono (by omega)⟩
    · refine ⟨⟨false, -a, [a, b]⟩, ?_, by simp, by simp, fun _ => ⟨by simp, ha.neg.dir hk⟩, by simp⟩
      simp only [addPoint, if_neg h]
  · have hb := hp b (by simp)
    have hc := hp c (by simp)
    have h1 := hb.sub ha hk hk2
    have h2 := hc.sub ha hk hk2
    have h3 := bdd_cross h1 h2 (by omega) (by omega) (by omega)
    have d1 : DiB k ((b - a).crossF32 ((b - a).cross (c - a))) :=
      ⟨(h1.2.mul h3 (by omega) (by omega)).mono (by omega),
        (h1.1.neg.mul h3 (by omega) (by omega)).mono (by omega)⟩
    have d2 : DiB k (crossSV ((b - a).cross (c - a)) (c - a)) :=
      ⟨(h3.neg.mul h2.2 (by omega) (by omega)).mono (by omega),
        (h3.mul h2.1 (by omega) (by omega)).mono (by omega)⟩
    by_cases e1 : sameDirection ((b - a).crossF32 ((b - a).cross (c - a))) (-a)
    · by_cases e2 : sameDirection (b - a) (-a)
      · refine ⟨⟨false, _, [a, b]⟩, ?_, by simp, by simp, fun _ => ⟨by simp, d1⟩, by simp⟩
        simp only [addPoint, if_pos e1, if_pos e2]; rfl
      · refine ⟨⟨false, _, [a, c]⟩, ?_, by simp, by simp, fun _ => ⟨by simp, d2⟩, by simp⟩
        simp only [addPoint, if_pos e1, if_neg e2]; rfl
    · by_cases e2 : sameDirection (crossSV ((b - a).cross (c - a)) (c - a)) (-a)
      · refine ⟨⟨false, _, [a, c]⟩, ?_, by simp, by simp, fun _ => ⟨by simp, d2⟩, by simp⟩
        simp only [addPoint, if_neg e1, if_pos e2]; rfl
      · refine ⟨⟨true, V2.nan, [a, b, c]⟩, ?_, by simp, by simp, by simp, by simp⟩
        simp only [addPoint, if_neg e1, if_neg e2]
  · simp at hl

/-- a direction that passes the size test is not tiny -/
theorem l1_of_lengthSq {d' : V2 F32} {d : V2 ℝ} {c : F32} (hd : d'.Is d) (hc : F32.Is c (1 / 2 ^ 46) ∨ F32.Is c (1 / 2 ^ 23))
    (h : ¬ d'.lengthSq < c) : (2 : ℝ) ^ (-60 : ℤ) ≤ d.l1 := by
  by_contra hcon
  push Not at hcon
  have hx : |d.x| ≤ (2 : ℝ) ^ (-60 : ℤ) := by have := abs_nonneg d.y; unfold V2.l1 at hcon; linarith
  have hy : |d.y| ≤ (2 : ℝ) ^ (-60 : ℤ) := by have := abs_nonneg d.x; unfold V2.l1 at hcon; linarith
  have hP := coord_mul (d := d) (p := d) ⟨hx, hy⟩ ⟨hx, hy⟩ (two_zpow_pos _).le
  obtain ⟨s, s1, s2⟩ := round_dot hd hd hP (by norm_num)
  apply h
  have s1 : F32.Is d'.lengthSq s := s1
  have h3 : d.dot d ≤ 2 * ((2 : ℝ) ^ (-60 : ℤ) * (2 : ℝ) ^ (-60 : ℤ)) := by
    rw [dot_def]
    have := le_abs_self (d.x * d.x)
    have := le_abs_self (d.y * d.y)
    linarith
  have h4 := (abs_le.1 s2).2
  have h5 : 2 * ((2 : ℝ) ^ (-60 : ℤ) * (2 : ℝ) ^ (-60 : ℤ)) +
      (9 / 4 * (2 * ((2 : ℝ) ^ (-60 : ℤ) * (2 : ℝ) ^ (-60 : ℤ)) / 2 ^ 24) + 3 / 2 ^ 150) < 1 / 2 ^ 46 := by norm_num
  generalize 2 * ((2 : ℝ) ^ (-60 : ℤ) * (2 : ℝ) ^ (-60 : ℤ)) = P at h3 h4 h5
  have h6 : s < 1 / 2 ^ 46 := by linarith only [h3, h4, h5]
  rcases hc with hc | hc
  · rw [lt_iff s1 hc]; exact h6
  · rw [lt_iff s1 hc]
    have : (1 : ℝ) / 2 ^ 46 < 1 / 2 ^ 23 := by norm_num
    linarith

theorem l1_of_not_small {d' : V2 F32} {d : V2 ℝ} (hd : d'.Is d) (h : ¬ directionTooSmall d') :
    (2 : ℝ) ^ (-60 : ℤ) ≤ d.l1 := l1_of_lengthSq hd (Or.inl (by
      have := is_epsilon_sq (env := env); norm_num at this ⊢; exact this)) h

/-- a computed support value that is not positive: the direction separates, up to rounding -/
theorem sep_of_fitness {W : Set (V2 ℝ)} {S : V2 F32 → V2 F32} (hS : Noisy k W M S) (hk2 : k ≤ 26)
    (hM : M ≤ (2 : ℝ) ^ k) (hM0 : (2 : ℝ) ^ (-20 : ℤ) ≤ M) {d' : V2 F32} {d : V2 ℝ} (hd : d'.Is d)
    (hD : DirB k d) (hl : (2 : ℝ) ^ (-60 : ℤ) ≤ d.l1) (h : (S d').dot d' ≤ 0) :
    ∃ n : V2 ℝ, n ≠ 0 ∧ ∀ w ∈ W, n.dot w ≤ M / 2 ^ 18 * n.norm := by
  obtain ⟨p, p1, p2, p3⟩ := hS d' d hd hD hl
  have hM1 : 0 < M := lt_of_lt_of_le (two_zpow_pos _) hM0
  have hP : |p.x * d.x| + |p.y * d.y| ≤ 4 * M * d.l1 := by
    rw [abs_mul, abs_mul]
    have h1 := mul_le_mul_of_nonneg_right p2.1 (abs_nonneg d.x)
    have h2 := mul_le_mul_of_nonneg_right p2.2 (abs_nonneg d.y)
    unfold V2.l1
    linarith
  have hP2 : 4 * M * d.l1 ≤ (2 : ℝ) ^ (125 : ℤ) := by
    have h1 : d.l1 ≤ 2 * (2 : ℝ) ^ (88 : ℤ) := by
      have : (2 : ℝ) ^ (3 * k + 10) ≤ (2 : ℝ) ^ (88 : ℤ) := zpow_le_zpow (by omega)
      have h1 := hD.1
      have h2 := hD.2
      unfold V2.l1
      linarith
    have h2 : M ≤ (2 : ℝ) ^ (26 : ℤ) := hM.trans (zpow_le_zpow hk2)
    have := mul_le_mul h2 h1 d.l1_nonneg (two_zpow_pos _).le
    have h3 : 4 * ((2 : ℝ) ^ (26 : ℤ) * (2 * (2 : ℝ) ^ (88 : ℤ))) ≤ (2 : ℝ) ^ (125 : ℤ) := by norm_num
    linarith
  obtain ⟨s, s1, s2⟩ := round_dot p1 hd hP hP2
  rw [le_iff s1 is_zero] at h
  refine ⟨d, V2.ne_zero_of_l1 hl, fun w hw => ?_⟩
  have h1 := p3 w hw
  rw [dot_comm d p] at h1
  have h2 := (abs_le.1 s2).1
  have h3 : (2 : ℝ) ^ (-20 : ℤ) * (2 : ℝ) ^ (-60 : ℤ) / 2 ^ 24 ≤ M * d.l1 / 2 ^ 24 :=
    div_le_div_of_nonneg_right (mul_le_mul hM0 hl (two_zpow_pos _).le hM1.le) (by positivity)
  have h4 : (3 : ℝ) / 2 ^ 150 ≤ (2 : ℝ) ^ (-20 : ℤ) * (2 : ℝ) ^ (-60 : ℤ) / 2 ^ 24 := by norm_num
  have h5 : d.dot w ≤ 34 * (M / 2 ^ 24) * d.l1 := by
    have e : 4 * M * d.l1 / 2 ^ 24 = 4 * (M / 2 ^ 24 * d.l1) := by ring
    have e2 : M * d.l1 / 2 ^ 24 = M / 2 ^ 24 * d.l1 := by ring
    rw [e] at h2
    rw [e2] at h3
    linarith
  have h6 := mul_le_mul_of_nonneg_left d.l1_le_norm (show 0 ≤ 34 * (M / 2 ^ 24) by positivity)
  have h7 : 34 * (M / 2 ^ 24) * (3 / 2 * d.norm) ≤ M / 2 ^ 18 * d.norm := by
    rw [← mul_assoc]
    refine mul_le_mul_of_nonneg_right ?_ d.norm_nonneg
    have : M / 2 ^ 18 = 64 * (M / 2 ^ 24) := by ring
    rw [this]
    have : 0 < M / 2 ^ 24 := by positivity
    linarith
  linarith

/-! ## the loops: a negative answer -/

variable {W : Set (V2 ℝ)} {S : V2 F32 → V2 F32}

/-- separated from the origin, up to rounding -/
def OriginOut (W : Set (V2 ℝ)) (δ : ℝ) : Prop :=
  ∃ n : V2 ℝ, n ≠ 0 ∧ ∀ w ∈ W, n.dot w ≤ δ * n.norm

theorem pts_bdd {pts : List (V2 F32)} {a : V2 F32} {r : AddResult F32} (hp : ∀ q ∈ pts, PtB k q) (ha : PtB k a)
    (h : ∀ q ∈ r.pts, q = a ∨ q ∈ pts) : ∀ q ∈ r.pts, PtB k q := by
  intro q hq
  rcases h q hq with rfl | h
  · exact ha
  · exact hp q h

theorem collide_false (hS : Noisy k W M S) (hk : 0 ≤ k) (hk2 : k ≤ 26) (hM : M ≤ (2 : ℝ) ^ k)
    (hM0 : (2 : ℝ) ^ (-20 : ℤ) ≤ M) (v : V2 F32) : ∀ (n : Nat) (d' : V2 F32) (d : V2 ℝ) (pts : List (V2 F32)),
    d'.Is d → DirB k d → (2 : ℝ) ^ (-60 : ℤ) ≤ d.l1 → (∀ q ∈ pts, PtB k q) → pts.length ≤ 2 →
    gjkCollide S n d' pts = .ok (false, v) → OriginOut W (M / 2 ^ 18) ∨ Runs (fun _ e => e) S n d' pts := by
  intro n
  induction n with
  | zero => intro d' d pts _ _ _ _ _ _; exact Or.inr trivial
  | succ n ih =>
    intro d' d pts hd hD hl hp hlen h
    by_cases hf : (S d').dot d' ≤ 0
    · exact Or.inl (sep_of_fitness hS hk2 hM hM0 hd hD hl hf)
    · obtain ⟨p, p1, p2, _⟩ := hS d' d hd hD hl
      have ha := PtB.of_is p1 p2 hM
      obtain ⟨r, e, h1, h2, h3, h4⟩ := addPoint_bdd hk hk2 hp hlen ha
      simp only [gjkCollide, if_neg hf, e] at h
      by_cases hc : r.collides = true ∨ directionTooSmall r.dir
      · rw [if_pos hc] at h
        simp at h
      · rw [if_neg hc] at h
        push Not at hc
        have hcf : r.collides = false := by simpa using hc.1
        obtain ⟨l2, db⟩ := h3 hcf
        obtain ⟨d2, i2, b2⟩ := db.is
        rcases ih r.dir d2 r.pts i2 b2 (l1_of_not_small i2 hc.2) (pts_bdd hp ha h1) l2 h with h | h
        · exact Or.inl h
        · exact Or.inr ⟨hf, r, e, hcf, h⟩

/-- the next direction of the other three loops -/
theorem override_ok {d' e : V2 F32} {d : V2 ℝ} (hd : d'.Is d) (hD : DirB k d) (hl : (2 : ℝ) ^ (-60 : ℤ) ≤ d.l1)
    (he : DiB k e) : ∃ d2, (overrideDir d' e).Is d2 ∧ DirB k d2 ∧ (2 : ℝ) ^ (-60 : ℤ) ≤ d2.l1 := by
  unfold overrideDir
  by_cases h : directionTooSmall e
  · rw [if_pos h]
    refine ⟨d.perp, hd.perp, ⟨?_, hD.1⟩, ?_⟩
    · show |-d.y| ≤ _
      rw [abs_neg]; exact hD.2
    · refine hl.trans (le_of_eq ?_)
      show |d.x| + |d.y| = |-d.y| + |d.x|
      rw [abs_neg, add_comm]
  · rw [if_neg h]
    obtain ⟨d2, i2, b2⟩ := he.is
    exact ⟨d2, i2, b2, l1_of_not_small i2 h⟩

theorem penetrate_false (hS : Noisy k W M S) (hk : 0 ≤ k) (hk2 : k ≤ 26) (hM : M ≤ (2 : ℝ) ^ k)
    (hM0 : (2 : ℝ) ^ (-20 : ℤ) ≤ M) (v : V2 F32) : ∀ (n : Nat) (d' : V2 F32) (d : V2 ℝ) (pts : List (V2 F32)),
    d'.Is d → DirB k d → (2 : ℝ) ^ (-60 : ℤ) ≤ d.l1 → (∀ q ∈ pts, PtB k q) → pts.length ≤ 2 →
    gjkPenetrate S n d' pts = .ok (false, v) → OriginOut W (M / 2 ^ 18) ∨ Runs overrideDir S n d' pts := by
  intro n
  induction n with
  | zero => intro d' d pts _ _ _ _ _ _; exact Or.inr trivial
  | succ n ih =>
    intro d' d pts hd hD hl hp hlen h
    by_cases hf : (S d').dot d' ≤ 0
    · exact Or.inl (sep_of_fitness hS hk2 hM hM0 hd hD hl hf)
    · obtain ⟨p, p1, p2, _⟩ := hS d' d hd hD hl
      have ha := PtB.of_is p1 p2 hM
      obtain ⟨r, e, h1, h2, h3, h4⟩ := addPoint_bdd hk hk2 hp hlen ha
      simp only [gjkPenetrate, if_neg hf, e] at h
      by_cases hc : r.collides = true
      · rw [if_pos hc] at h
        split at h
        · simp at h
        · split at h <;> simp at h
      · rw [if_neg hc] at h
        have hcf : r.collides = false := by simpa using hc
        obtain ⟨l2, db⟩ := h3 hcf
        obtain ⟨d2, i2, b2, hl2⟩ := override_ok hd hD hl db
        rcases ih _ d2 r.pts i2 b2 hl2 (pts_bdd hp ha h1) l2 h with h | h
        · exact Or.inl h
        · exact Or.inr ⟨hf, r, e, hcf, h⟩

theorem distance_false (hS : Noisy k W M S) (hk : 0 ≤ k) (hk2 : k ≤ 26) (hM : M ≤ (2 : ℝ) ^ k)
    (hM0 : (2 : ℝ) ^ (-20 : ℤ) ≤ M) (v : V2 F32) : ∀ (n : Nat) (d' : V2 F32) (d : V2 ℝ) (last : V2 F32)
    (pts : List (V2 F32)),
    d'.Is d → DirB k d → (2 : ℝ) ^ (-60 : ℤ) ≤ d.l1 → (∀ q ∈ pts, PtB k q) → pts.length ≤ 2 →
    gjkDistance S n d' last pts = .ok (false, v) → OriginOut W (M / 2 ^ 18) ∨ Runs overrideDir S n d' pts := by
  intro n
  induction n with
  | zero => intro d' d last pts _ _ _ _ _ _; exact Or.inr trivial
  | succ n ih =>
    intro d' d last pts hd hD hl hp hlen h
    by_cases hf : (S d').dot d' ≤ 0
    · exact Or.inl (sep_of_fitness hS hk2 hM hM0 hd hD hl hf)
    · obtain ⟨p, p1, p2, _⟩ := hS d' d hd hD hl
      have ha := PtB.of_is p1 p2 hM
      obtain ⟨r, e, h1, h2, h3, h4⟩ := addPoint_bdd hk hk2 hp hlen ha
      simp only [gjkDistance, hf, false_and, if_false, e] at h
      by_cases hc : r.collides = true
      · rw [if_pos hc] at h
        split at h <;> simp at h
      · rw [if_neg hc] at h
        have hcf : r.collides = false := by simpa using hc
        obtain ⟨l2, db⟩ := h3 hcf
        obtain ⟨d2, i2, b2, hl2⟩ := override_ok hd hD hl db
        rcases ih _ d2 _ r.pts i2 b2 hl2 (pts_bdd hp ha h1) l2 h with h | h
        · exact Or.inl h
        · exact Or.inr ⟨hf, r, e, hcf, h⟩

theorem full_false (hS : Noisy k W M S) (hk : 0 ≤ k) (hk2 : k ≤ 26) (hM : M ≤ (2 : ℝ) ^ k)
    (hM0 : (2 : ℝ) ^ (-20 : ℤ) ≤ M) (v : V2 F32) : ∀ (n : Nat) (b : Bool) (d' : V2 F32) (d : V2 ℝ) (last : V2 F32)
    (pts : List (V2 F32)),
    d'.Is d → DirB k d → (2 : ℝ) ^ (-60 : ℤ) ≤ d.l1 → (∀ q ∈ pts, PtB k q) → pts.length ≤ 2 →
    gjkFull S n b d' last pts = .ok (false, v) → OriginOut W (M / 2 ^ 18) ∨ Runs overrideDir S n d' pts := by
  intro n
  induction n with
  | zero => intro b d' d last pts _ _ _ _ _ _; exact Or.inr trivial
  | succ n ih =>
    intro b d' d last pts hd hD hl hp hlen h
    by_cases hf : (S d').dot d' ≤ 0
    · exact Or.inl (sep_of_fitness hS hk2 hM hM0 hd hD hl hf)
    · obtain ⟨p, p1, p2, _⟩ := hS d' d hd hD hl
      have ha := PtB.of_is p1 p2 hM
      obtain ⟨r, e, h1, h2, h3, h4⟩ := addPoint_bdd hk hk2 hp hlen ha
      simp only [gjkFull, hf, false_and, if_false, e] at h
      by_cases hc : r.collides = true
      · rw [hc] at h
        split at h
        · simp at h
        · simp only [if_true] at h
          split at h
          · simp at h
          · split at h <;> simp at h
      · have hcf : r.collides = false := by simpa using hc
        simp only [hcf, Bool.false_eq_true, false_and, if_false] at h
        obtain ⟨l2, db⟩ := h3 hcf
        obtain ⟨d2, i2, b2, hl2⟩ := override_ok hd hD hl db
        rcases ih _ _ d2 _ r.pts i2 b2 hl2 (pts_bdd hp ha h1) l2 h with h | h
        · exact Or.inl h
        · exact Or.inr ⟨hf, r, e, hcf, h⟩

end

end Auburn
