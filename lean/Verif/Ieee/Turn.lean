import Verif.Ieee.PosStep
import Verif.Ieee.NoisyProps

/-!
# Rotated shapes on binary32 (library lemmas for C88)

`Rotor2d` in f32 is a complex number close to the unit circle, not exactly on it.  The placed shape is
therefore taken as the exact image under multiplication by that complex number.
-/

set_option linter.unusedSectionVars false
set_option synthInstance.maxSize 1000

namespace Auburn

open F32 V2 ExtremePoint2d Transformation2d

/-- complex multiplication: `p` turned by `r` (a rotation if `r` has length 1) -/
def turn (r p : V2 ℝ) : V2 ℝ := ⟨r.x * p.x - r.y * p.y, r.x * p.y + r.y * p.x⟩
/-- the opposite turn -/
def V2.conj (r : V2 ℝ) : V2 ℝ := ⟨r.x, -r.y⟩
/-- the set turned by `r` and then moved by `t` -/
def moved (r t : V2 ℝ) (X : Set (V2 ℝ)) : Set (V2 ℝ) := {z | ∃ p ∈ X, z = turn r p + t}

theorem turn_dot (r p d : V2 ℝ) : d.dot (turn r p) = (turn r.conj d).dot p := by
  simp only [dot_def, turn, V2.conj]; ring
theorem turn_norm (r p : V2 ℝ) : (turn r p).norm = r.norm * p.norm := by
  unfold V2.norm
  rw [← Real.sqrt_mul (by positivity)]
  congr 1
  simp only [turn]; ring
theorem conj_norm (r : V2 ℝ) : r.conj.norm = r.norm := by
  unfold V2.norm V2.conj
  congr 1
  simp only; ring
theorem turn_sub (r p q : V2 ℝ) : turn r (p - q) = turn r p - turn r q := by
  ext <;> simp only [turn, sub_x, sub_y] <;> ring
theorem turn_add (r p q : V2 ℝ) : turn r (p + q) = turn r p + turn r q := by
  ext <;> simp only [turn, add_x, add_y] <;> ring
theorem turn_neg (r p : V2 ℝ) : turn r (-p) = -turn r p := by
  ext <;> simp only [turn, neg_x, neg_y] <;> ring
theorem turn_scale (r p : V2 ℝ) (s : ℝ) : turn r (V2.scale s p) = V2.scale s (turn r p) := by
  ext <;> simp only [turn, V2.scale] <;> ring
theorem turn_turn (r s p : V2 ℝ) : turn r (turn s p) = turn (turn r s) p := by
  ext <;> simp only [turn] <;> ring

theorem convex_diff_moved {X Y : Set (V2 ℝ)} (hX : Convex ℝ X) (hY : Convex ℝ Y) (r t : V2 ℝ) :
    Convex ℝ (minkDiff X (moved r t Y)) := by
  rintro _ ⟨p, hp, _, ⟨q, hq, rfl⟩, rfl⟩ _ ⟨p', hp', _, ⟨q', hq', rfl⟩, rfl⟩ u v hu hv huv
  refine ⟨u • p + v • p', hX hp hp' hu hv huv, _, ⟨u • q + v • q', hY hq hq' hu hv huv, rfl⟩, ?_⟩
  have e : t = V2.scale u t + V2.scale v t := by
    have h1 : ∀ x : ℝ, u * x + v * x = x := fun x => by rw [← add_mul, huv, one_mul]
    ext <;> simp only [V2.scale, add_x, add_y]
    · exact (h1 _).symm
    · exact (h1 _).symm
  rw [turn_add]
  conv_rhs => rw [e]
  simp only [smul_eq_scale, turn_scale]
  ext <;> simp only [V2.scale, add_x, add_y, sub_x, sub_y] <;> ring

/-- nearly unit length, with slack `e` -/
def NearUnit (e : ℝ) (r : V2 ℝ) : Prop := |r.x * r.x + r.y * r.y - 1| ≤ e

theorem NearUnit.norm {e : ℝ} {r : V2 ℝ} (h : NearUnit e r) (he : e ≤ 1 / 2) : |r.norm - 1| ≤ e := by
  have h1 := r.norm_sq
  have h0 := r.norm_nonneg
  have h2 : (r.norm - 1) * (r.norm + 1) = r.x * r.x + r.y * r.y - 1 := by rw [← sq, ← sq, ← h1]; ring
  unfold NearUnit at h
  rw [← h2, abs_mul, abs_of_nonneg (show 0 ≤ r.norm + 1 by linarith)] at h
  have h3 := abs_nonneg (r.norm - 1)
  nlinarith

theorem norm_coord {v : V2 ℝ} {C : ℝ} (h : v.Coord C) : v.norm ≤ (3 / 2) * C := by
  have hC : 0 ≤ C := (abs_nonneg _).trans h.1
  refine V2.norm_le (by positivity) ?_
  have q1 : v.x * v.x ≤ C * C := by
    rw [← abs_mul_abs_self]; exact mul_le_mul h.1 h.1 (abs_nonneg _) hC
  have q2 : v.y * v.y ≤ C * C := by
    rw [← abs_mul_abs_self]; exact mul_le_mul h.2 h.2 (abs_nonneg _) hC
  have q3 := mul_nonneg hC hC
  rw [dot_def]
  have e3 : (3 / 2 * C) ^ 2 = (9 / 4) * (C * C) := by ring
  rw [e3]; linarith
theorem coord_norm {v : V2 ℝ} : v.Coord v.norm := ⟨v.abs_x_le_norm, v.abs_y_le_norm⟩

section
variable [env : F32Env]

/-- rounded turn -/
theorem round_turn {r' p' : V2 F32} {r p : V2 ℝ} (hr : r'.Is r) (hp : p'.Is p) {P : ℝ}
    (h1 : r.norm * p.norm ≤ P) (hP : P ≤ (2 : ℝ) ^ (125 : ℤ)) :
    ∃ z, ((Rotor2d.mk r').rotate p').Is z ∧ V2.Within ((9 / 4) * (P / 2 ^ 24) + 3 / 2 ^ 150) z (turn r p) := by
  have hs : (V2.mk p'.y p'.x).Is ⟨p.y, p.x⟩ := ⟨hp.2, hp.1⟩
  have en : (⟨p.y, p.x⟩ : V2 ℝ).norm = p.norm := by unfold V2.norm; congr 1; ring
  have b1 := abs_cross_le_norm r ⟨p.y, p.x⟩
  have b2 := abs_dot_le_norm r ⟨p.y, p.x⟩
  rw [en] at b1 b2
  obtain ⟨x, x1, x2⟩ := round_cross hr hs (b1.trans h1) hP
  obtain ⟨y, y1, y2⟩ := round_dot hr hs (b2.trans h1) hP
  exact ⟨⟨x, y⟩, ⟨x1, y1⟩, x2, y2⟩

theorem gr_mul {a b : F32} {x y : ℝ} (ha : F32.Is a x) (hb : F32.Is b y) (g : Gr (x * y))
    (h : |x * y| ≤ 3 * (2 : ℝ) ^ (126 : ℤ)) : ∃ w, F32.Is (a * b) w ∧ Gr w ∧ |w| ≤ 2 * |x * y| := by
  obtain ⟨w, h1, -, h3, -⟩ := F32.round_mul ha hb h
  obtain ⟨z, e⟩ := F32.mul_eq ha hb
  have key : |w - x * y| ≤ |x * y| / 2 ^ 24 := by
    by_cases h0 : x * y = 0
    · have h4 : F32.Is (a * b) (x * y) := is_mul ha hb (by rw [h0]; exact representable_zero)
      rw [h1.unique h4, sub_self, abs_zero]; positivity
    · exact h3 (le_trans (zpow_le_zpow (by norm_num)) (g.ge h0))
  refine ⟨w, h1, gr_of_is (z := z) g (by rw [← e]; exact h1) key, ?_⟩
  have h5 := abs_add_le (x * y) (w - x * y)
  rw [add_sub_cancel] at h5
  have := abs_nonneg (x * y)
  linarith

/-- all products of coordinates on the grid -/
def ProdGr (r p : V2 ℝ) : Prop := Gr (r.x * p.x) ∧ Gr (r.y * p.y) ∧ Gr (r.x * p.y) ∧ Gr (r.y * p.x)

theorem gr_turn {r' p' : V2 F32} {r p z : V2 ℝ} (hr : r'.Is r) (hp : p'.Is p)
    (h1 : r.norm * p.norm ≤ (2 : ℝ) ^ (124 : ℤ)) (g : ProdGr r p) (hz : ((Rotor2d.mk r').rotate p').Is z) : z.Gr := by
  obtain ⟨g1, g2, g3, g4⟩ := g
  have en : (⟨p.y, p.x⟩ : V2 ℝ).norm = p.norm := by unfold V2.norm; congr 1; ring
  have b1 := abs_cross_le_norm r ⟨p.y, p.x⟩
  have b2 := abs_dot_le_norm r ⟨p.y, p.x⟩
  rw [en] at b1 b2
  simp only at b1 b2
  have e : (2 : ℝ) ^ (126 : ℤ) = 4 * (2 : ℝ) ^ (124 : ℤ) := by norm_num
  have a1 := abs_nonneg (r.x * p.x)
  have a2 := abs_nonneg (r.y * p.y)
  have a3 := abs_nonneg (r.x * p.y)
  have a4 := abs_nonneg (r.y * p.x)
  obtain ⟨w1, i1, k1, m1⟩ := gr_mul hr.1 hp.1 g1 (by linarith)
  obtain ⟨w2, i2, k2, m2⟩ := gr_mul hr.2 hp.2 g2 (by linarith)
  obtain ⟨w3, i3, k3, m3⟩ := gr_mul hr.1 hp.2 g3 (by linarith)
  obtain ⟨w4, i4, k4, m4⟩ := gr_mul hr.2 hp.1 g4 (by linarith)
  have s1 := abs_sub w1 w2
  have s2 := abs_add_le w3 w4
  obtain ⟨x, x1, _, x3⟩ := F32.gr_sub i1 i2 k1 k2 (by linarith)
  obtain ⟨y, y1, _, y3⟩ := F32.gr_add i3 i4 k3 k4 (by linarith)
  exact ⟨by rw [hz.1.unique x1]; exact x3, by rw [hz.2.unique y1]; exact y3⟩

/-- a placement of f32 data without scaling: finite position of magnitude at most `M`, rotation of nearly unit
length (slack `e`), scale one -/
structure Transform2d.Rigid32 (M e : ℝ) (t : Transform2d F32) : Prop where
  pos : t.pos.Bounded32 M
  rot : t.rot.a.Is t.rot.a.toReal
  unit : NearUnit e t.rot.a.toReal
  scale : t.scale = V2.one

/-- the points of a shape are bounded, too -/
theorem NoisyShape.coord {S : Type} [ExtremePoint2d S F32] {k : ℤ} {s : S} {Y : Set (V2 ℝ)} {M : ℝ}
    (h : NoisyShape k s Y M) (hk : 0 ≤ k) (hM : 0 ≤ M) : ∀ y ∈ Y, y.Coord (M + M / 2 ^ 19) := by
  have h1 : (1 : ℝ) ≤ (2 : ℝ) ^ (3 * k + 10) := one_le_zpow₀ (by norm_num) (by omega)
  have h61 : (2 : ℝ) ^ (-61 : ℤ) ≤ 1 := by norm_num
  have key : ∀ (d' : V2 F32) (d : V2 ℝ), d'.Is d → |d.x| ≤ 1 → |d.y| ≤ 1 → d.l1 = 1 →
      ∀ y ∈ Y, d.dot y ≤ M + M / 2 ^ 19 := by
    intro d' d hd hx hy hl y hy'
    obtain ⟨p, -, p2, p3⟩ := h d' d hd ⟨hx.trans h1, hy.trans h1⟩ (by rw [hl]; exact h61)
    have h2 := p3 y hy'
    have h3 := (le_abs_self _).trans (dot_le_l1 (d := d) p2)
    rw [hl] at h2 h3
    linarith
  have m1 : F32.Is (-1 : F32) (-1) := is_neg is_one
  intro y hy
  refine ⟨abs_le.2 ⟨?_, ?_⟩, abs_le.2 ⟨?_, ?_⟩⟩
  · have := key ⟨-1, 0⟩ ⟨-1, 0⟩ ⟨m1, is_zero⟩ (by norm_num) (by norm_num) (by norm_num [V2.l1]) y hy
    rw [dot_def] at this
    simp only at this
    linarith
  · have := key ⟨1, 0⟩ ⟨1, 0⟩ ⟨is_one, is_zero⟩ (by norm_num) (by norm_num) (by norm_num [V2.l1]) y hy
    rw [dot_def] at this
    simp only at this
    linarith
  · have := key ⟨0, -1⟩ ⟨0, -1⟩ ⟨is_zero, m1⟩ (by norm_num) (by norm_num) (by norm_num [V2.l1]) y hy
    rw [dot_def] at this
    simp only at this
    linarith
  · have := key ⟨0, 1⟩ ⟨0, 1⟩ ⟨is_zero, is_one⟩ (by norm_num) (by norm_num) (by norm_num [V2.l1]) y hy
    rw [dot_def] at this
    simp only at this
    linarith

end

end Auburn
