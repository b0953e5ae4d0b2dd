import Verif.Ieee.RoundedProps
import Verif.Ieee.Nearest

/-!
# C78, C79 through colliders

Two colliders placed at `p` and `q` (vectors or `Translate2d`): the only additional error is the rounding
of the offset `q - p`, so the answers are those of C78 / C79 for an offset `δ` that agrees with `q - p`
to 24 bits in each coordinate.  For Box2d v Point a reported collision is always a true one.
-/

set_option linter.unusedSectionVars false
set_option synthInstance.maxSize 1000

namespace Auburn

open F32 V2 ExtremePoint2d Transformation2d

/-! ## specification -/

/-- `δ` is the offset from `p` to `q` with each coordinate correct to 24 bits -/
def OffsetClose (δ p q : V2 ℝ) : Prop := RelClose δ.x (q.x - p.x) ∧ RelClose δ.y (q.y - p.y)

/-- multiples of `2^-62` of magnitude at most `2^60` -/
def Coarse (x : ℝ) : Prop := (∃ m : ℤ, x = m * (2 : ℝ) ^ (-62 : ℤ)) ∧ |x| ≤ (2 : ℝ) ^ (60 : ℤ)

/-! ## library -/

theorem Coarse.zero_or_le {x : ℝ} (h : ∃ m : ℤ, x = m * (2 : ℝ) ^ (-62 : ℤ)) :
    x = 0 ∨ (2 : ℝ) ^ (-62 : ℤ) ≤ |x| := by
  obtain ⟨m, rfl⟩ := h
  by_cases h0 : m = 0
  · left; simp [h0]
  · right
    rw [abs_mul, abs_of_pos (two_zpow_pos (-62))]
    have : (1 : ℝ) ≤ |(m : ℝ)| := by exact_mod_cast Int.one_le_abs h0
    exact le_mul_of_one_le_left (two_zpow_pos (-62)).le this

section
variable [env : F32Env]

/-- rounding a multiple of `2^-62` gives a multiple of `2^-62` -/
theorem multiple_of_nearest {x t : ℝ} {c : F32} {z : Bool} (hc : F32.Is c t) (e : c = ofReal z x)
    (hm : ∃ m : ℤ, x = m * (2 : ℝ) ^ (-62 : ℤ)) : ∃ m : ℤ, t = m * (2 : ℝ) ^ (-62 : ℤ) := by
  obtain ⟨m, hm⟩ := hm
  by_cases hs : |m| ≤ 2 ^ 24
  · have hr : Representable x := by
      rw [hm]; exact representable_scaled m (-62) hs (by norm_num) (by norm_num)
    have := correctly_rounded hc e hr
    rw [sub_self, abs_zero] at this
    have : t = x := by
      have := abs_nonpos_iff.1 this
      linarith
    exact ⟨m, this.trans hm⟩
  · push Not at hs
    have hm0 : m ≠ 0 := by rintro rfl; simp at hs
    have hx0 : x ≠ 0 := by
      rw [hm]
      exact mul_ne_zero (by exact_mod_cast hm0) (two_zpow_pos _).ne'
    have hax : (2 : ℝ) ^ (-38 : ℤ) ≤ |x| := by
      rw [hm, abs_mul, abs_of_pos (two_zpow_pos (-62))]
      have h1 : ((2 : ℝ) ^ 24) ≤ |(m : ℝ)| := by exact_mod_cast hs.le
      have := mul_le_mul_of_nonneg_right h1 (two_zpow_pos (-62)).le
      refine le_trans (le_of_eq ?_) this
      norm_num
    have hu : -62 ≤ ulpExp |x| := by
      have := (Int.zpow_le_iff_le_log (b := 2) (by norm_num) (abs_pos.2 hx0)).1
        (show ((2 : ℕ) : ℝ) ^ (-38 : ℤ) ≤ |x| by exact_mod_cast hax)
      unfold ulpExp; omega
    rw [e] at hc
    unfold ofReal at hc
    rw [if_neg hx0] at hc
    unfold ofMag at hc
    split_ifs at hc with hr
    · obtain ⟨s, k, hk, e1, e2⟩ := hc
      injection e1 with e3 e4
      obtain ⟨n, hn⟩ := Int.eq_ofNat_of_zero_le (show 0 ≤ ulpExp |x| - -62 by omega)
      have hval : rnd |x| = ((roundEven (|x| / (2 : ℝ) ^ ulpExp |x|) * 2 ^ n : ℤ) : ℝ) *
          (2 : ℝ) ^ (-62 : ℤ) := by
        unfold rnd
        conv_lhs => rw [show ulpExp |x| = (n : ℤ) + -62 by omega]
        rw [zpow_add₀ (by norm_num : (2 : ℝ) ≠ 0), zpow_natCast]
        rw [show ulpExp |x| = (n : ℤ) + -62 by omega, zpow_add₀ (by norm_num : (2 : ℝ) ≠ 0),
          zpow_natCast]
        push_cast; ring
      rw [← e4, hval] at e2
      cases s
      · rw [sval_false] at e2
        exact ⟨_, e2.symm⟩
      · rw [sval_true] at e2
        exact ⟨-(roundEven (|x| / (2 : ℝ) ^ ulpExp |x|) * 2 ^ n), by rw [← e2]; push_cast; ring⟩
    · obtain ⟨s, k, hk, e1, e2⟩ := hc
      exact absurd e1 (by simp)

/-- the offset of two colliders placed at vectors -/
theorem offset_f32 {p' q' : V2 F32} {p q : V2 ℝ} (hp : p'.Is p) (hq : q'.Is q)
    (bd : |q.x - p.x| ≤ (2 : ℝ) ^ (125 : ℤ) ∧ |q.y - p.y| ≤ (2 : ℝ) ^ (125 : ℤ)) :
    ∃ δ : V2 ℝ, (q' + -p').Is δ ∧ OffsetClose δ p q ∧
      |δ.x| ≤ (2 : ℝ) ^ (126 : ℤ) ∧ |δ.y| ≤ (2 : ℝ) ^ (126 : ℤ) := by
  have h1 : (2 : ℝ) ^ (125 : ℤ) ≤ 3 * (2 : ℝ) ^ (126 : ℤ) := by norm_num
  have h2 : (2 : ℝ) ^ (126 : ℤ) = 2 * (2 : ℝ) ^ (125 : ℤ) := by norm_num
  obtain ⟨ex, x1, x2⟩ := F32.round_add hq.1 (is_neg hp.1)
    (by rw [← sub_eq_add_neg]; exact bd.1.trans h1)
  obtain ⟨ey, y1, y2⟩ := F32.round_add hq.2 (is_neg hp.2)
    (by rw [← sub_eq_add_neg]; exact bd.2.trans h1)
  rw [← sub_eq_add_neg] at x2 y2
  have key : ∀ t w : ℝ, |t - w| ≤ |w| / 2 ^ 24 → |w| ≤ (2 : ℝ) ^ (125 : ℤ) →
      |t| ≤ (2 : ℝ) ^ (126 : ℤ) := by
    intro t w h3 h4
    have h5 := abs_le.1 h3
    have h6 := abs_le.1 h4
    have h7 := abs_nonneg w
    rw [h2, abs_le]; constructor <;> linarith [h5.1, h5.2, h6.1, h6.2]
  exact ⟨⟨ex, ey⟩, ⟨x1, y1⟩, ⟨x2, y2⟩, key _ _ x2 bd.1, key _ _ y2 bd.2⟩

/-- rounding never makes a number that is at least a representable bound smaller than the bound -/
theorem bound_of_rounded {a b : F32} {x y t h : ℝ} (ha : F32.Is a x) (hb : F32.Is b y)
    (hc : F32.Is (a + b) t) (hr : Representable h) (hle : h ≤ |x + y|) : h ≤ |t| := by
  by_contra hcon
  push Not at hcon
  have ht := abs_lt.1 hcon
  have h1 := add_nearest ha hb hc hr
  have h2 := add_nearest ha hb hc hr.neg
  rcases le_total 0 (x + y) with h0 | h0
  · rw [abs_of_nonneg h0] at hle
    rw [abs_of_nonpos (by linarith [ht.2]), abs_of_nonpos (by linarith)] at h1
    linarith [ht.2]
  · rw [abs_of_nonpos h0] at hle
    rw [abs_of_nonneg (by linarith [ht.1]), abs_of_nonneg (by linarith)] at h2
    linarith [ht.1]

/-! ## Box2d v Point -/

/-- the queries about a box at `p` and a point at `q`, in world space -/
def BoxPointQueries (col : Except Panic Bool) (pen dist : Except Panic (Option (V2 F32)))
    (both : Except Panic (Bool × V2 F32)) (h p q : V2 ℝ) : Prop :=
  ∃ c v δ, col = .ok c ∧ both = .ok (c, v) ∧ pen = .ok (if c then some v else none) ∧
    dist = .ok (if c then none else some v) ∧
    OffsetClose δ p q ∧ BoxPointAnswer c v h δ ∧
    (c = true → |q.x - p.x| < h.x ∧ |q.y - p.y| < h.y) ∧
    (|q.x - p.x| < (1 - 1 / 2 ^ 23) * h.x → |q.y - p.y| < (1 - 1 / 2 ^ 23) * h.y → c = true)

/-- Box2d v Point as colliders in binary32: a collision is reported only if the point is strictly
inside, and it is reported for all points inside up to the last bits; the vector is that of C78 for the
rounded offset -/
theorem C78_f32_colliders (a : Box2d F32) (pt : Point F32) (p' q' : V2 F32) {h p q : V2 ℝ}
    (hh : a.halfsize.Is h) (hp : p'.Is p) (hq : q'.Is q) (hx : 0 ≤ h.x) (hy : 0 ≤ h.y)
    (bh : h.x ≤ (2 : ℝ) ^ (126 : ℤ) ∧ h.y ≤ (2 : ℝ) ^ (126 : ℤ))
    (bd : |q.x - p.x| ≤ (2 : ℝ) ^ (125 : ℤ) ∧ |q.y - p.y| ≤ (2 : ℝ) ^ (125 : ℤ)) :
    BoxPointQueries (collides ⟨a, p'⟩ ⟨pt, q'⟩) (penetrates ⟨a, p'⟩ ⟨pt, q'⟩)
      (distanceTo ⟨a, p'⟩ ⟨pt, q'⟩) (sdfv ⟨a, p'⟩ ⟨pt, q'⟩) h p q ∧
    BoxPointQueries (collides ⟨a, Translate2d.mk p'⟩ ⟨pt, Translate2d.mk q'⟩)
      (penetrates ⟨a, Translate2d.mk p'⟩ ⟨pt, Translate2d.mk q'⟩)
      (distanceTo ⟨a, Translate2d.mk p'⟩ ⟨pt, Translate2d.mk q'⟩)
      (sdfv ⟨a, Translate2d.mk p'⟩ ⟨pt, Translate2d.mk q'⟩) h p q := by
  obtain ⟨δ, d1, d2, d3⟩ := offset_f32 hp hq bd
  obtain ⟨c, v, k1, k2, k3, k4, k5⟩ := C78_f32_box_point a pt (q' + -p') hh d1 hx hy bh d3
  have main : BoxPointQueries (collidesRel a pt (q' + -p')) (penetratesRel a pt (q' + -p'))
      (distanceToRel a pt (q' + -p')) (sdfvRel a pt (q' + -p')) h p q := by
    refine ⟨c, v, δ, k1, k2, k3, k4, d2, k5, fun hc => ?_, fun h1 h2 => k5.1.2 ?_⟩
    · have hin := k5.1.1 hc
      constructor
      · by_contra hcon
        have := bound_of_rounded hq.1 (is_neg hp.1) d1.1 hh.1.representable
          (by rw [← sub_eq_add_neg]; exact not_lt.1 hcon)
        exact absurd hin.1 (not_lt.2 this)
      · by_contra hcon
        have := bound_of_rounded hq.2 (is_neg hp.2) d1.2 hh.2.representable
          (by rw [← sub_eq_add_neg]; exact not_lt.1 hcon)
        exact absurd hin.2 (not_lt.2 this)
    · have key : ∀ t w b : ℝ, RelClose t w → |w| < (1 - 1 / 2 ^ 23) * b → 0 ≤ b → |t| < b := by
        intro t w b e1 e2 e3
        have e4 : |t| ≤ |t - w| + |w| := by
          have := abs_add_le (t - w) w
          rwa [sub_add_cancel] at this
        have e5 : |t - w| ≤ |w| / 2 ^ 24 := e1
        have e6 : b * (1 / 2 ^ 23) = b / 2 ^ 23 := by ring
        have hw := abs_nonneg w
        norm_num at e2 e5
        rcases e3.eq_or_lt with rfl | hb
        · simp at e2; linarith
        · linarith
      exact ⟨key _ _ _ d2.1 h1 hx, key _ _ _ d2.2 h2 hy⟩
  exact ⟨main, main⟩

/-! ## RoundedBox2d v Point and Box2d v Ball -/

/-- for coarse coordinates the rounded offset is in the range of C79 -/
theorem coarse_range {h p q : V2 ℝ} {r : ℝ} {p' q' : V2 F32} (hp : p'.Is p) (hq : q'.Is q)
    (ch : Coarse h.x ∧ Coarse h.y) (cp : Coarse p.x ∧ Coarse p.y) (cq : Coarse q.x ∧ Coarse q.y)
    (hx : 0 ≤ h.x) (hy : 0 ≤ h.y) (hr : 0 ≤ r) (br : r ≤ (2 : ℝ) ^ (61 : ℤ)) :
    ∃ δ : V2 ℝ, (q' + -p').Is δ ∧ OffsetClose δ p q ∧ RoundedRange h δ r := by
  have h125 : 2 * (2 : ℝ) ^ (60 : ℤ) ≤ (2 : ℝ) ^ (125 : ℤ) := by norm_num
  have h62 : 4 * (2 : ℝ) ^ (60 : ℤ) = (2 : ℝ) ^ (62 : ℤ) := by norm_num
  have h126 : (2 : ℝ) ^ (62 : ℤ) ≤ (2 : ℝ) ^ (126 : ℤ) := by norm_num
  have h61 : (2 : ℝ) ^ (61 : ℤ) ≤ (2 : ℝ) ^ (126 : ℤ) := by norm_num
  have b60 := two_zpow_pos 60
  have key : ∀ x y : ℝ, Coarse x → Coarse y → |x - y| ≤ 2 * (2 : ℝ) ^ (60 : ℤ) := by
    intro x y h1 h2
    have e1 := abs_le.1 h1.2
    have e2 := abs_le.1 h2.2
    rw [abs_le]; constructor <;> linarith [e1.1, e1.2, e2.1, e2.2]
  have kx := key _ _ cq.1 cp.1
  have ky := key _ _ cq.2 cp.2
  obtain ⟨δ, d1, d2, d3, d4⟩ := offset_f32 hp hq ⟨kx.trans h125, ky.trans h125⟩
  have mult : ∀ {a b : F32} {x y t : ℝ}, F32.Is a x → F32.Is b y → F32.Is (a + -b) t → Coarse x →
      Coarse y → ∃ m : ℤ, t = m * (2 : ℝ) ^ (-62 : ℤ) := by
    intro a b x y t ha hb ht hx hy
    obtain ⟨z, e⟩ := add_eq ha (is_neg hb)
    obtain ⟨⟨m, hm⟩, _⟩ := hx
    obtain ⟨⟨n, hn⟩, _⟩ := hy
    exact multiple_of_nearest ht e ⟨m - n, by rw [hm, hn]; push_cast; ring⟩
  have small : ∀ {t w b : ℝ}, RelClose t w → |w| ≤ 2 * (2 : ℝ) ^ (60 : ℤ) → 0 ≤ b →
      b ≤ (2 : ℝ) ^ (60 : ℤ) → |(|t| - b)| ≤ (2 : ℝ) ^ (62 : ℤ) := by
    intro t w b e1 e2 e3 e4
    have e5 : |t| ≤ |t - w| + |w| := by
      have := abs_add_le (t - w) w
      rwa [sub_add_cancel] at this
    have e6 : |t - w| ≤ |w| / 2 ^ 24 := e1
    have e7 := abs_nonneg t
    have e8 := abs_nonneg w
    rw [← h62, abs_le]; constructor <;> linarith
  have diff : ∀ {t b : ℝ}, (∃ m : ℤ, t = m * (2 : ℝ) ^ (-62 : ℤ)) → Coarse b →
      ∃ m : ℤ, |t| - b = m * (2 : ℝ) ^ (-62 : ℤ) := by
    rintro t b ⟨m, rfl⟩ ⟨⟨n, rfl⟩, _⟩
    refine ⟨|m| - n, ?_⟩
    rw [abs_mul, abs_of_pos (two_zpow_pos (-62))]
    push_cast; ring
  have bhx : h.x ≤ (2 : ℝ) ^ (60 : ℤ) := (le_abs_self _).trans ch.1.2
  have bhy : h.y ≤ (2 : ℝ) ^ (60 : ℤ) := (le_abs_self _).trans ch.2.2
  have m1 := Coarse.zero_or_le (diff (mult hq.1 hp.1 d1.1 cq.1 cp.1) ch.1)
  have m2 := Coarse.zero_or_le (diff (mult hq.2 hp.2 d1.2 cq.2 cp.2) ch.2)
  refine ⟨δ, d1, d2, ⟨hx, by linarith⟩, ⟨hy, by linarith⟩, ⟨hr, by linarith⟩, d3, d4, ?_⟩
  rcases m1 with m1 | m1
  · exact Or.inl (by linarith)
  rcases m2 with m2 | m2
  · exact Or.inr (Or.inl (by linarith))
  exact Or.inr (Or.inr ⟨Or.inr ⟨small d2.1 kx hx bhx, small d2.2 ky hy bhy, Or.inl m1⟩, br⟩)

/-- RoundedBox2d v Point as colliders in binary32: the answers are those of C79 for the offset rounded
to 24 bits -/
theorem C79_f32_rounded_colliders (a : RoundedBox2d F32) (pt : Point F32) (p' q' : V2 F32)
    {h p q : V2 ℝ} {r : ℝ} (hh : a.halfsize.Is h) (hr : F32.Is a.radius r) (hp : p'.Is p)
    (hq : q'.Is q) (ch : Coarse h.x ∧ Coarse h.y) (cp : Coarse p.x ∧ Coarse p.y)
    (cq : Coarse q.x ∧ Coarse q.y) (hx : 0 ≤ h.x) (hy : 0 ≤ h.y) (hr0 : 0 ≤ r)
    (br : r ≤ (2 : ℝ) ^ (61 : ℤ)) :
    ∃ δ s, OffsetClose δ p q ∧ BoxSignedDist h δ s ∧
      RoundedQueries (collides ⟨a, p'⟩ ⟨pt, q'⟩) (penetrates ⟨a, p'⟩ ⟨pt, q'⟩)
        (distanceTo ⟨a, p'⟩ ⟨pt, q'⟩) (sdfv ⟨a, p'⟩ ⟨pt, q'⟩) s r
        (|δ.x| = h.x ∧ |δ.y| < h.y) (Region.pts (RoundedBox2d.mk h r)) {δ} ∧
      RoundedQueries (collides ⟨a, Translate2d.mk p'⟩ ⟨pt, Translate2d.mk q'⟩)
        (penetrates ⟨a, Translate2d.mk p'⟩ ⟨pt, Translate2d.mk q'⟩)
        (distanceTo ⟨a, Translate2d.mk p'⟩ ⟨pt, Translate2d.mk q'⟩)
        (sdfv ⟨a, Translate2d.mk p'⟩ ⟨pt, Translate2d.mk q'⟩) s r
        (|δ.x| = h.x ∧ |δ.y| < h.y) (Region.pts (RoundedBox2d.mk h r)) {δ} := by
  obtain ⟨δ, d1, d2, d3⟩ := coarse_range hp hq ch cp cq hx hy hr0 br
  obtain ⟨s, k1, k2⟩ := C79_f32_rounded_box_point a pt (q' + -p') hh hr d1 d3
  exact ⟨δ, s, d2, k1, k2, k2⟩

/-- Box2d v Ball as colliders in binary32 -/
theorem C79_f32_box_ball_colliders (a : Box2d F32) (b : Ball F32) (p' q' : V2 F32)
    {h p q : V2 ℝ} {r : ℝ} (hh : a.halfsize.Is h) (hr : F32.Is b.radius r) (hp : p'.Is p)
    (hq : q'.Is q) (ch : Coarse h.x ∧ Coarse h.y) (cp : Coarse p.x ∧ Coarse p.y)
    (cq : Coarse q.x ∧ Coarse q.y) (hx : 0 ≤ h.x) (hy : 0 ≤ h.y) (hr0 : 0 ≤ r)
    (br : r ≤ (2 : ℝ) ^ (61 : ℤ)) :
    ∃ δ s, OffsetClose δ p q ∧ BoxSignedDist h δ s ∧
      RoundedQueries (collides ⟨a, p'⟩ ⟨b, q'⟩) (penetrates ⟨a, p'⟩ ⟨b, q'⟩)
        (distanceTo ⟨a, p'⟩ ⟨b, q'⟩) (sdfv ⟨a, p'⟩ ⟨b, q'⟩) s r
        (|δ.x| = h.x ∧ |δ.y| < h.y) (Region.pts (Box2d.mk h)) (disc δ r) ∧
      RoundedQueries (collides ⟨a, Translate2d.mk p'⟩ ⟨b, Translate2d.mk q'⟩)
        (penetrates ⟨a, Translate2d.mk p'⟩ ⟨b, Translate2d.mk q'⟩)
        (distanceTo ⟨a, Translate2d.mk p'⟩ ⟨b, Translate2d.mk q'⟩)
        (sdfv ⟨a, Translate2d.mk p'⟩ ⟨b, Translate2d.mk q'⟩) s r
        (|δ.x| = h.x ∧ |δ.y| < h.y) (Region.pts (Box2d.mk h)) (disc δ r) := by
  obtain ⟨δ, d1, d2, d3⟩ := coarse_range hp hq ch cp cq hx hy hr0 br
  obtain ⟨s, k1, k2⟩ := C79_f32_box_ball a b (q' + -p') hh hr d1 d3
  exact ⟨δ, s, d2, k1, k2, k2⟩

/-! ### example -/

/-- the unit box at `(1, 0)` and a ball of radius 1 at `(4, 0)`: all hypotheses hold (here the offset is
exact) -/
example : ∃ (a : Box2d F32) (b : Ball F32) (p' q' : V2 F32), a.halfsize.Is ⟨1, 1⟩ ∧
    F32.Is b.radius 1 ∧ p'.Is ⟨1, 0⟩ ∧ q'.Is ⟨4, 0⟩ ∧ Coarse 1 ∧ Coarse 0 ∧ Coarse 4 := by
  have h4 : F32.Is (ofReal false 4) 4 := is_ofReal (by
    have := representable_int 4 (by norm_num)
    norm_num at this ⊢; exact this)
  have cz : ∀ n : ℤ, |(n : ℝ)| ≤ (2 : ℝ) ^ (60 : ℤ) → Coarse (n : ℝ) := fun n hn =>
    ⟨⟨n * 2 ^ 62, by push_cast; norm_num; ring⟩, hn⟩
  refine ⟨⟨⟨1, 1⟩⟩, ⟨1⟩, ⟨1, 0⟩, ⟨ofReal false 4, 0⟩, ⟨is_one, is_one⟩, is_one, ⟨is_one, is_zero⟩,
    ⟨h4, is_zero⟩, ?_, ?_, ?_⟩
  · have := cz 1 (by norm_num); simpa using this
  · have := cz 0 (by norm_num); simpa using this
  · have := cz 4 (by norm_num [abs_of_pos]); simpa using this

end
end Auburn
