import Verif.Ieee.Signed
import Verif.Ieee.BallProps
import Verif.Ieee.GjkProps
import Verif.Ieee.GjkDist

/-!
# Rounded support functions (library lemmas for C86)

Nothing here assumes that an intermediate result is exact.  `u = 2^-24`.
-/

set_option linter.unusedSectionVars false
set_option synthInstance.maxSize 1000

namespace Auburn

open F32 V2 ExtremePoint2d Transformation2d

/-- `|x| + |y|` -/
def V2.l1 (v : V2 ℝ) : ℝ := |v.x| + |v.y|

theorem V2.l1_nonneg (v : V2 ℝ) : 0 ≤ v.l1 := add_nonneg (abs_nonneg _) (abs_nonneg _)
theorem V2.l1_neg (v : V2 ℝ) : (-v).l1 = v.l1 := by
  show |-v.x| + |-v.y| = _
  rw [abs_neg, abs_neg]; rfl

/-- both coordinates at most `B` in magnitude -/
def V2.Coord (B : ℝ) (v : V2 ℝ) : Prop := |v.x| ≤ B ∧ |v.y| ≤ B

theorem V2.Coord.neg {B : ℝ} {v : V2 ℝ} (h : v.Coord B) : (-v).Coord B := by
  refine ⟨?_, ?_⟩
  · show |-v.x| ≤ B
    rw [abs_neg]; exact h.1
  · show |-v.y| ≤ B
    rw [abs_neg]; exact h.2

theorem V2.Coord.mono {B C : ℝ} {v : V2 ℝ} (h : v.Coord B) (hBC : B ≤ C) : v.Coord C :=
  ⟨h.1.trans hBC, h.2.trans hBC⟩

/-- `|d · p| ≤ B |d|₁` -/
theorem dot_le_l1 {d p : V2 ℝ} {B : ℝ} (h : p.Coord B) : |d.dot p| ≤ B * d.l1 := by
  rw [dot_def]
  refine (abs_add_le _ _).trans ?_
  rw [abs_mul, abs_mul]
  have h1 := mul_le_mul_of_nonneg_left h.1 (abs_nonneg d.x)
  have h2 := mul_le_mul_of_nonneg_left h.2 (abs_nonneg d.y)
  unfold V2.l1
  linarith

/-- an integer multiple of `2^-60` -/
def Gr (x : ℝ) : Prop := ∃ n : ℤ, x = n * (2 : ℝ) ^ (-60 : ℤ)
def V2.Gr (v : V2 ℝ) : Prop := Auburn.Gr v.x ∧ Auburn.Gr v.y

theorem Gr.neg {x : ℝ} (h : Gr x) : Gr (-x) := by
  obtain ⟨n, rfl⟩ := h
  exact ⟨-n, by push_cast; ring⟩
theorem Gr.add {x y : ℝ} (h : Gr x) (h' : Gr y) : Gr (x + y) := by
  obtain ⟨n, rfl⟩ := h
  obtain ⟨m, rfl⟩ := h'
  exact ⟨n + m, by push_cast; ring⟩
theorem Gr.zero : Gr 0 := ⟨0, by simp⟩
theorem V2.Gr.neg {v : V2 ℝ} (h : v.Gr) : (-v).Gr := ⟨Auburn.Gr.neg h.1, Auburn.Gr.neg h.2⟩

theorem Gr.ge {x : ℝ} (h : Gr x) (h0 : x ≠ 0) : (2 : ℝ) ^ (-60 : ℤ) ≤ |x| := by
  obtain ⟨n, rfl⟩ := h
  exact GZ.ge ⟨n, rfl, le_refl _⟩ h0

/-- rounding keeps multiples of `2^-60` -/
theorem gr_of_is {z : Bool} {x w : ℝ} (hx : Gr x) (h : F32.Is (ofReal z x) w)
    (he : |w - x| ≤ |x| / 2 ^ 24) : Gr w := by
  by_cases hs : |x| < (2 : ℝ) ^ (-36 : ℤ)
  · obtain ⟨n, rfl⟩ := hx
    have hn : |n| ≤ 2 ^ 24 := by
      rw [abs_mul, abs_of_pos (two_zpow_pos _), show (-36 : ℤ) = 24 + -60 by norm_num,
        zpow_add₀ (by norm_num)] at hs
      have h2 := lt_of_mul_lt_mul_right hs (two_zpow_pos _).le
      rw [← Int.cast_abs] at h2
      have e3 : (2 : ℝ) ^ (24 : ℤ) = ((2 ^ 24 : ℤ) : ℝ) := by push_cast; norm_num
      rw [e3] at h2
      exact (Int.cast_lt.1 h2).le
    have hr := representable_scaled n (-60) hn (by norm_num) (by norm_num)
    rw [(h.unique (is_ofReal hr))]
    exact ⟨n, rfl⟩
  · push Not at hs
    obtain ⟨m, e, rfl, hm, he1, _⟩ := h.representable
    have hw : (2 : ℝ) ^ (-37 : ℤ) ≤ |(m : ℝ) * (2 : ℝ) ^ e| := by
      have h1 : |x| - |(m : ℝ) * (2 : ℝ) ^ e| ≤ |x| / 2 ^ 24 := by
        refine le_trans ?_ he
        rw [abs_sub_comm]; exact abs_sub_abs_le_abs_sub _ _
      have h2 : (2 : ℝ) ^ (-36 : ℤ) = 2 * (2 : ℝ) ^ (-37 : ℤ) := by norm_num
      have h3 : |x| / 2 ^ 24 ≤ |x| / 2 := div_le_div_of_nonneg_left (abs_nonneg _) (by norm_num) (by norm_num)
      linarith
    have he2 : -61 < e := by
      by_contra hcon
      push Not at hcon
      have h1 : (2 : ℝ) ^ e ≤ (2 : ℝ) ^ (-61 : ℤ) := zpow_le_zpow hcon
      have h2 : |(m : ℝ)| < 2 ^ 24 := by rw [← Int.cast_abs]; exact_mod_cast hm
      rw [abs_mul, abs_of_pos (two_zpow_pos e)] at hw
      have h3 : |(m : ℝ)| * (2 : ℝ) ^ e < 2 ^ 24 * (2 : ℝ) ^ (-61 : ℤ) :=
        mul_lt_mul h2 h1 (two_zpow_pos _) (by positivity)
      have h4 : (2 : ℝ) ^ 24 * (2 : ℝ) ^ (-61 : ℤ) = (2 : ℝ) ^ (-37 : ℤ) := by norm_num
      linarith
    obtain ⟨k, hk⟩ := Int.eq_ofNat_of_zero_le (show 0 ≤ e + 60 by omega)
    refine ⟨m * 2 ^ k, ?_⟩
    rw [show e = (k : ℤ) + -60 by omega, zpow_add₀ (by norm_num), zpow_natCast]
    push_cast; ring

namespace F32

theorem gr_add {a b : F32} {x y : ℝ} (ha : Is a x) (hb : Is b y) (gx : Gr x) (gy : Gr y)
    (h : |x + y| ≤ 3 * (2 : ℝ) ^ (126 : ℤ)) :
    ∃ w, Is (a + b) w ∧ |w - (x + y)| ≤ |x + y| / 2 ^ 24 ∧ Gr w := by
  obtain ⟨w, h1, h2⟩ := round_add ha hb h
  obtain ⟨z, e⟩ := add_eq ha hb
  exact ⟨w, h1, h2, gr_of_is (z := z) (gx.add gy) (by rw [← e]; exact h1) h2⟩

theorem gr_sub {a b : F32} {x y : ℝ} (ha : Is a x) (hb : Is b y) (gx : Gr x) (gy : Gr y)
    (h : |x - y| ≤ 3 * (2 : ℝ) ^ (126 : ℤ)) :
    ∃ w, Is (a - b) w ∧ |w - (x - y)| ≤ |x - y| / 2 ^ 24 ∧ Gr w := by
  rw [sub_eq_add_neg] at h ⊢
  exact gr_add ha (is_neg hb) gx gy.neg h

end F32

/-- rounded dot product -/
theorem round_dot {a b : V2 F32} {v w : V2 ℝ} (ha : a.Is v) (hb : b.Is w) {P : ℝ}
    (h1 : |v.x * w.x| + |v.y * w.y| ≤ P) (hP : P ≤ (2 : ℝ) ^ (125 : ℤ)) :
    ∃ s, F32.Is (a.dot b) s ∧ |s - v.dot w| ≤ (9 / 4) * (P / 2 ^ 24) + 3 / 2 ^ 150 := by
  have hp126 : (2 : ℝ) ^ (126 : ℤ) = 2 * (2 : ℝ) ^ (125 : ℤ) := by norm_num
  have hbig : (1 : ℝ) ≤ (2 : ℝ) ^ (125 : ℤ) := one_le_zpow₀ (by norm_num) (by norm_num)
  have a1 := abs_nonneg (v.x * w.x)
  have a2 := abs_nonneg (v.y * w.y)
  obtain ⟨p, p1, p2, -, -⟩ := F32.round_mul ha.1 hb.1 (by linarith)
  obtain ⟨q, q1, q2, -, -⟩ := F32.round_mul ha.2 hb.2 (by linarith)
  have ht : (0 : ℝ) < 1 / 2 ^ 150 := by positivity
  have ht1 : (1 : ℝ) / 2 ^ 150 ≤ 1 / 2 ^ 26 := by norm_num
  have e1 : |p + q| ≤ |v.x * w.x| + |v.y * w.y| + (|p - v.x * w.x| + |q - v.y * w.y|) := by
    have := abs_add_le (v.x * w.x) (p - v.x * w.x)
    have := abs_add_le (v.y * w.y) (q - v.y * w.y)
    have := abs_add_le p q
    simp only [add_sub_cancel] at *
    linarith
  obtain ⟨s, s1, s2⟩ := F32.round_add p1 q1 (by linarith)
  refine ⟨s, s1, ?_⟩
  have e2 : |s - v.dot w| ≤ |s - (p + q)| + (|p - v.x * w.x| + |q - v.y * w.y|) := by
    rw [dot_def]
    have := abs_add_le (s - (p + q)) ((p - v.x * w.x) + (q - v.y * w.y))
    have := abs_add_le (p - v.x * w.x) (q - v.y * w.y)
    have e : s - (v.x * w.x + v.y * w.y) = (s - (p + q)) + ((p - v.x * w.x) + (q - v.y * w.y)) := by ring
    rw [e]; linarith
  linarith

theorem V2.Within.refl {e : ℝ} (he : 0 ≤ e) {p : V2 ℝ} : V2.Within e p p := by
  refine ⟨?_, ?_⟩ <;> rw [sub_self, abs_zero] <;> exact he

section
variable [env : F32Env]

/-- search directions stay below this bound when the coordinates are below `2^k` -/
def DirB (k : ℤ) (d : V2 ℝ) : Prop := d.Coord ((2 : ℝ) ^ (3 * k + 10))

/-- the extreme point in a direction that is not tiny: nearly farthest in that direction -/
def NoisyShape {S : Type} [ExtremePoint2d S F32] (k : ℤ) (s : S) (X : Set (V2 ℝ)) (M : ℝ) : Prop :=
  ∀ (d' : V2 F32) (d : V2 ℝ), d'.Is d → DirB k d → (2 : ℝ) ^ (-61 : ℤ) ≤ d.l1 →
    ∃ p, (extremePoint s d').Is p ∧ p.Coord (M + M / 2 ^ 20) ∧
      ∀ q ∈ X, d.dot q ≤ d.dot p + 9 * (M / 2 ^ 24) * d.l1

/-- the extreme point in any finite direction (not a tiny one, if `lo`): next to a point of the shape
(and on the grid, if `g`) -/
def GridShape {S : Type} [ExtremePoint2d S F32] (g lo : Prop) (k : ℤ) (s : S) (X : Set (V2 ℝ)) (M : ℝ) : Prop :=
  ∀ (d' : V2 F32) (d : V2 ℝ), d'.Is d → DirB k d → (lo → (2 : ℝ) ^ (-61 : ℤ) ≤ d.l1) →
    ∃ p, (extremePoint s d').Is p ∧ p.Coord (M + M / 2 ^ 20) ∧ (g → p.Gr) ∧
      ∃ q ∈ X, V2.Within (8 * (M / 2 ^ 24)) p q

/-- finite coordinates, at most `M` in magnitude -/
def V2.Bounded32 (M : ℝ) (v : V2 F32) : Prop := v.Is v.toReal ∧ v.toReal.Coord M

/-- a box with finite non-negative half sizes, at most `M` -/
def Box2d.Bounded32 (M : ℝ) (b : Box2d F32) : Prop :=
  b.halfsize.Bounded32 M ∧ 0 ≤ b.halfsize.x.toReal ∧ 0 ≤ b.halfsize.y.toReal
/-- a non-empty polygon with finite vertices, coordinates at most `M` -/
def Poly2d.Bounded32 (M : ℝ) (p : Poly2d F32) : Prop :=
  p.points ≠ [] ∧ ∀ v ∈ p.points, v.Bounded32 M
/-- a ball with finite non-negative radius at most `M` -/
def Ball.Bounded32 (M : ℝ) (b : Ball F32) : Prop :=
  F32.Is b.radius b.radius.toReal ∧ 0 ≤ b.radius.toReal ∧ b.radius.toReal ≤ M

theorem V2.Bounded32.nonneg {M : ℝ} {v : V2 F32} (h : v.Bounded32 M) : 0 ≤ M :=
  (abs_nonneg _).trans h.2.1

theorem box_extreme {b : Box2d F32} {M : ℝ} (hb : b.Bounded32 M) {d' : V2 F32} {d : V2 ℝ} (hd : d'.Is d) :
    ∃ p, (extremePoint b d').Is p ∧ p.Coord M ∧ IsExtreme (Region.pts b.toReal) d p ∧
      (b.halfsize.toReal.Gr → p.Gr) := by
  obtain ⟨⟨hg, hc⟩, hx, hy⟩ := hb
  obtain ⟨σ, hσ, s1, a1⟩ := is_signum hd.1
  obtain ⟨τ, hτ, s2, a2⟩ := is_signum hd.2
  have e1 : |σ| = 1 := by rcases hσ with rfl | rfl <;> simp
  have e2 : |τ| = 1 := by rcases hτ with rfl | rfl <;> simp
  have r1 : Representable (σ * b.halfsize.toReal.x) := by
    rcases hσ with rfl | rfl
    · rw [one_mul]; exact hg.1.representable
    · rw [neg_one_mul]; exact hg.1.representable.neg
  have r2 : Representable (τ * b.halfsize.toReal.y) := by
    rcases hτ with rfl | rfl
    · rw [one_mul]; exact hg.2.representable
    · rw [neg_one_mul]; exact hg.2.representable.neg
  have k1 : |σ * b.halfsize.toReal.x| = b.halfsize.toReal.x := by
    rw [abs_mul, e1, one_mul, abs_of_nonneg (show 0 ≤ b.halfsize.toReal.x from hx)]
  have k2 : |τ * b.halfsize.toReal.y| = b.halfsize.toReal.y := by
    rw [abs_mul, e2, one_mul, abs_of_nonneg (show 0 ≤ b.halfsize.toReal.y from hy)]
  have hx' := (le_abs_self _).trans hc.1
  have hy' := (le_abs_self _).trans hc.2
  refine ⟨⟨σ * b.halfsize.toReal.x, τ * b.halfsize.toReal.y⟩, ⟨is_mul s1 hg.1 r1, is_mul s2 hg.2 r2⟩,
    ⟨k1.trans_le hx', k2.trans_le hy'⟩, ⟨⟨k1.le, k2.le⟩, ?_⟩, ?_⟩
  · rintro q ⟨h1, h2⟩
    have h1 : |q.x| ≤ b.halfsize.toReal.x := h1
    have h2 : |q.y| ≤ b.halfsize.toReal.y := h2
    have e1 : d.x * (σ * b.halfsize.toReal.x) = |d.x| * b.halfsize.toReal.x := by rw [← a1]; ring
    have e2 : d.y * (τ * b.halfsize.toReal.y) = |d.y| * b.halfsize.toReal.y := by rw [← a2]; ring
    rw [dot_def, dot_def]
    simp only [e1, e2]
    have m1 : d.x * q.x ≤ |d.x| * b.halfsize.toReal.x :=
      (le_abs_self _).trans (by rw [abs_mul]; exact mul_le_mul_of_nonneg_left h1 (abs_nonneg _))
    have m2 : d.y * q.y ≤ |d.y| * b.halfsize.toReal.y :=
      (le_abs_self _).trans (by rw [abs_mul]; exact mul_le_mul_of_nonneg_left h2 (abs_nonneg _))
    linarith
  · rintro ⟨g1, g2⟩
    refine ⟨?_, ?_⟩
    · show Gr (σ * b.halfsize.toReal.x)
      rcases hσ with rfl | rfl
      · rwa [one_mul]
      · rw [neg_one_mul]; exact g1.neg
    · show Gr (τ * b.halfsize.toReal.y)
      rcases hτ with rfl | rfl
      · rwa [one_mul]
      · rw [neg_one_mul]; exact g2.neg

theorem noisy_box {b : Box2d F32} {M : ℝ} (hb : b.Bounded32 M) (k : ℤ) :
    NoisyShape k b (Region.pts b.toReal) M := by
  intro d' d hd _ _
  have hM := hb.1.nonneg
  obtain ⟨p, p1, p2, p3, _⟩ := box_extreme hb hd
  refine ⟨p, p1, p2.mono (by linarith [show 0 ≤ M / 2 ^ 20 by positivity]), fun q hq => ?_⟩
  have := p3.2 q hq
  have h2 : 0 ≤ 9 * (M / 2 ^ 24) * d.l1 := mul_nonneg (by positivity) d.l1_nonneg
  linarith

theorem grid_box {b : Box2d F32} {M : ℝ} (hb : b.Bounded32 M) {g lo : Prop} (hg : g → b.halfsize.toReal.Gr) (k : ℤ) :
    GridShape g lo k b (Region.pts b.toReal) M := by
  intro d' d hd _ _
  have hM := hb.1.nonneg
  obtain ⟨p, p1, p2, p3, p4⟩ := box_extreme hb hd
  exact ⟨p, p1, p2.mono (by linarith [show 0 ≤ M / 2 ^ 20 by positivity]), fun h => p4 (hg h), p, p3.1,
    V2.Within.refl (by positivity)⟩

theorem coord_mul {d p : V2 ℝ} {B C : ℝ} (hd : d.Coord B) (hp : p.Coord C) (hB : 0 ≤ B) :
    |d.x * p.x| + |d.y * p.y| ≤ 2 * (B * C) := by
  rw [abs_mul, abs_mul]
  have h1 := mul_le_mul hd.1 hp.1 (abs_nonneg _) hB
  have h2 := mul_le_mul hd.2 hp.2 (abs_nonneg _) hB
  linarith

theorem poly_extreme {P : Poly2d F32} {M : ℝ} {k : ℤ} (hP : P.Bounded32 M) (hk : k ≤ 26) (hM : M ≤ (2 : ℝ) ^ k)
    {d' : V2 F32} {d : V2 ℝ} (hd : d'.Is d) (hB : DirB k d) :
    extremePoint P d' ∈ P.points ∧ ∀ q ∈ Region.pts P.toReal,
      d.dot q ≤ d.dot (extremePoint P d').toReal + (9 / 2) * (M / 2 ^ 24) * d.l1 + 6 / 2 ^ 150 := by
  obtain ⟨hne, hg⟩ := hP
  have hM0 : 0 ≤ M := by
    obtain ⟨v, hv⟩ := List.exists_mem_of_ne_nil _ hne
    exact (hg v hv).nonneg
  have hP1 : ∀ v ∈ P.points, |d.x * v.toReal.x| + |d.y * v.toReal.y| ≤ M * d.l1 := by
    intro v hv
    rw [abs_mul, abs_mul]
    have h1 := mul_le_mul_of_nonneg_left (hg v hv).2.1 (abs_nonneg d.x)
    have h2 := mul_le_mul_of_nonneg_left (hg v hv).2.2 (abs_nonneg d.y)
    unfold V2.l1
    linarith
  have hP2 : M * d.l1 ≤ (2 : ℝ) ^ (125 : ℤ) := by
    have h1 : d.l1 ≤ 2 * (2 : ℝ) ^ (88 : ℤ) := by
      have : (2 : ℝ) ^ (3 * k + 10) ≤ (2 : ℝ) ^ (88 : ℤ) := zpow_le_zpow (by omega)
      have h1 := hB.1
      have h2 := hB.2
      unfold V2.l1
      linarith
    have h2 : M ≤ (2 : ℝ) ^ (26 : ℤ) := hM.trans (zpow_le_zpow hk)
    refine (mul_le_mul h2 h1 d.l1_nonneg (two_zpow_pos _).le).trans ?_
    norm_num
  have hscore : ∀ v ∈ P.points, ∃ s, F32.Is (d'.dot v) s ∧
      |s - d.dot v.toReal| ≤ (9 / 4) * (M * d.l1 / 2 ^ 24) + 3 / 2 ^ 150 := fun v hv =>
    round_dot hd (hg v hv).1 (hP1 v hv) hP2
  have hbig : ∀ v ∈ P.points, (FloatExtra.f32Min : F32) < d'.dot v := by
    intro v hv
    obtain ⟨s, h1, h2⟩ := hscore v hv
    rw [lt_iff is_f32Min h1]
    have h3 : |d.dot v.toReal| ≤ M * d.l1 := dot_le_l1 (hg v hv).2
    have h4 := neg_abs_le (d.dot v.toReal)
    have h5 := (abs_le.1 h2).1
    have h6 : (2 : ℝ) ^ (125 : ℤ) + (9 / 4 * ((2 : ℝ) ^ (125 : ℤ) / 2 ^ 24) + 3 / 2 ^ 150) < 2 ^ 128 - 2 ^ 104 := by
      norm_num
    have h7 : M * d.l1 / 2 ^ 24 ≤ (2 : ℝ) ^ (125 : ℤ) / 2 ^ 24 := div_le_div_of_nonneg_right hP2 (by positivity)
    linarith
  obtain ⟨v₀, hv₀⟩ := List.exists_mem_of_ne_nil _ hne
  obtain ⟨hmem, hmax⟩ : extremePoint P d' ∈ P.points ∧
      ∀ q ∈ P.points, ¬ d'.dot (extremePoint P d') < d'.dot q := by
    rcases C10_f32_poly_extreme P d' with h | ⟨_, h⟩
    · exact h
    · exact absurd (hbig v₀ hv₀) (h v₀ hv₀)
  refine ⟨hmem, fun q hq => ?_⟩
  obtain ⟨s₀, h1, h2⟩ := hscore _ hmem
  have hsub : convexHull ℝ {x | x ∈ P.points.map V2.toReal} ⊆
      {x | d.dot x ≤ d.dot (extremePoint P d').toReal + (9 / 2) * (M / 2 ^ 24) * d.l1 + 6 / 2 ^ 150} := by
    refine convexHull_min ?_ ?_
    · intro x hx
      obtain ⟨v, hv, rfl⟩ := List.mem_map.1 hx
      obtain ⟨s, h3, h4⟩ := hscore v hv
      have := hmax v hv
      rw [lt_iff h1 h3] at this
      push Not at this
      rw [abs_le] at h2 h4
      show d.dot v.toReal ≤ _
      have e : M * d.l1 / 2 ^ 24 = M / 2 ^ 24 * d.l1 := by ring
      rw [e] at h2 h4
      linarith [h2.1, h2.2, h4.1, h4.2]
    · intro x hx y hy a b ha hb hab
      show d.dot (a • x + b • y) ≤ _
      rw [dot_add, dot_smul, dot_smul]
      have h1 : a * d.dot x ≤ a * _ := mul_le_mul_of_nonneg_left hx ha
      have h2 : b * d.dot y ≤ b * _ := mul_le_mul_of_nonneg_left hy hb
      refine (add_le_add h1 h2).trans (le_of_eq ?_)
      rw [← add_mul, hab, one_mul]
  exact hsub hq

theorem noisy_poly {P : Poly2d F32} {M : ℝ} {k : ℤ} (hP : P.Bounded32 M) (hk : k ≤ 26) (hM : M ≤ (2 : ℝ) ^ k)
    (hM0 : (2 : ℝ) ^ (-20 : ℤ) ≤ M) : NoisyShape k P (Region.pts P.toReal) M := by
  intro d' d hd hB hl
  obtain ⟨hmem, h⟩ := poly_extreme hP hk hM hd hB
  have hM1 : 0 < M := lt_of_lt_of_le (two_zpow_pos _) hM0
  refine ⟨_, (hP.2 _ hmem).1, (hP.2 _ hmem).2.mono (by linarith [show 0 ≤ M / 2 ^ 20 by positivity]),
    fun q hq => ?_⟩
  have h1 := h q hq
  have h2 : (2 : ℝ) ^ (-20 : ℤ) * (2 : ℝ) ^ (-61 : ℤ) ≤ M * d.l1 :=
    mul_le_mul hM0 hl (two_zpow_pos _).le hM1.le
  have h3 : (6 : ℝ) / 2 ^ 150 ≤ (2 : ℝ) ^ (-20 : ℤ) * (2 : ℝ) ^ (-61 : ℤ) / 2 ^ 24 := by norm_num
  have h4 : (2 : ℝ) ^ (-20 : ℤ) * (2 : ℝ) ^ (-61 : ℤ) / 2 ^ 24 ≤ M * d.l1 / 2 ^ 24 :=
    div_le_div_of_nonneg_right h2 (by positivity)
  have e : M * d.l1 / 2 ^ 24 = M / 2 ^ 24 * d.l1 := by ring
  rw [e] at h4
  have h5 : 0 ≤ M / 2 ^ 24 * d.l1 := by have := d.l1_nonneg; positivity
  linarith

theorem grid_poly {P : Poly2d F32} {M : ℝ} {k : ℤ} (hP : P.Bounded32 M) (hk : k ≤ 26) (hM : M ≤ (2 : ℝ) ^ k)
    {g lo : Prop} (hg : g → ∀ v ∈ P.points, v.toReal.Gr) : GridShape g lo k P (Region.pts P.toReal) M := by
  intro d' d hd hB _
  obtain ⟨hmem, _⟩ := poly_extreme hP hk hM hd hB
  have hM := (hP.2 _ hmem).nonneg
  exact ⟨_, (hP.2 _ hmem).1, (hP.2 _ hmem).2.mono (by linarith [show 0 ≤ M / 2 ^ 20 by positivity]),
    fun h => hg h _ hmem, _, subset_convexHull ℝ _ (List.mem_map_of_mem hmem), V2.Within.refl (by positivity)⟩

end

end Auburn
