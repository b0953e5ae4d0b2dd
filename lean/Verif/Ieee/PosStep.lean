import Verif.Ieee.PosGeom
import Verif.Ieee.RectGjk

/-!
# One GJK step on binary32 while the origin is far away (library lemmas for C87)
-/

set_option linter.unusedSectionVars false
set_option synthInstance.maxSize 1000

namespace Auburn

open F32 V2 ExtremePoint2d Transformation2d

/-- `v` is `V`, up to a relative error `e` -/
def Apx (e : ℝ) (v V : V2 ℝ) : Prop := (v - V).norm ≤ e * V.norm

theorem Apx.refl (v : V2 ℝ) : Apx 0 v v := by
  unfold Apx; rw [sub_self, V2.norm_zero, zero_mul]

theorem Apx.norm_le {e : ℝ} {v V : V2 ℝ} (h : Apx e v V) : v.norm ≤ (1 + e) * V.norm := by
  have := V2.norm_add_le' (v - V) V
  rw [sub_add_cancel] at this
  unfold Apx at h
  linarith

theorem Apx.le_norm {e : ℝ} {v V : V2 ℝ} (h : Apx e v V) : (1 - e) * V.norm ≤ v.norm := by
  have := V2.norm_sub_le' v (v - V)
  rw [sub_sub_cancel] at this
  unfold Apx at h
  linarith

theorem Apx.dot {e e' : ℝ} {v V w W : V2 ℝ} (h : Apx e v V) (h' : Apx e' w W) :
    |v.dot w - V.dot W| ≤ (e + e' + e * e') * (V.norm * W.norm) := by
  have e1 : v.dot w - V.dot W = (v - V).dot w + V.dot (w - W) := by
    simp only [dot_def, sub_x, sub_y]; ring
  rw [e1]
  refine (abs_add_le _ _).trans ?_
  have h1 := dot_le_norm (v - V) w
  have h2 := dot_le_norm V (w - W)
  have h3 := mul_le_mul h h'.norm_le w.norm_nonneg ((v - V).norm_nonneg.trans h)
  have h4 := mul_le_mul_of_nonneg_left h' V.norm_nonneg
  linarith

theorem Apx.cross {e e' : ℝ} {v V w W : V2 ℝ} (h : Apx e v V) (h' : Apx e' w W) :
    |v.cross w - V.cross W| ≤ (e + e' + e * e') * (V.norm * W.norm) := by
  have e1 : v.cross w - V.cross W = (v - V).cross w + V.cross (w - W) := by
    simp only [cross_def, sub_x, sub_y]; ring
  rw [e1]
  refine (abs_add_le _ _).trans ?_
  have h1 := cross_le_norm (v - V) w
  have h2 := cross_le_norm V (w - W)
  have h3 := mul_le_mul h h'.norm_le w.norm_nonneg ((v - V).norm_nonneg.trans h)
  have h4 := mul_le_mul_of_nonneg_left h' V.norm_nonneg
  linarith

/-- rounded cross product -/
theorem round_cross {a b : V2 F32} {v w : V2 ℝ} (ha : a.Is v) (hb : b.Is w) {P : ℝ}
    (h1 : |v.x * w.y| + |v.y * w.x| ≤ P) (hP : P ≤ (2 : ℝ) ^ (125 : ℤ)) :
    ∃ s, F32.Is (a.cross b) s ∧ |s - v.cross w| ≤ (9 / 4) * (P / 2 ^ 24) + 3 / 2 ^ 150 := by
  have hp126 : (2 : ℝ) ^ (126 : ℤ) = 2 * (2 : ℝ) ^ (125 : ℤ) := by norm_num
  have hbig : (1 : ℝ) ≤ (2 : ℝ) ^ (125 : ℤ) := one_le_zpow₀ (by norm_num) (by norm_num)
  have a1 := abs_nonneg (v.x * w.y)
  have a2 := abs_nonneg (v.y * w.x)
  obtain ⟨p, p1, p2, -, -⟩ := F32.round_mul ha.1 hb.2 (by linarith)
  obtain ⟨q, q1, q2, -, -⟩ := F32.round_mul ha.2 hb.1 (by linarith)
  have ht : (0 : ℝ) < 1 / 2 ^ 150 := by positivity
  have ht1 : (1 : ℝ) / 2 ^ 150 ≤ 1 / 2 ^ 26 := by norm_num
  have e1 : |p - q| ≤ |v.x * w.y| + |v.y * w.x| + (|p - v.x * w.y| + |q - v.y * w.x|) := by
    have := abs_add_le (v.x * w.y) (p - v.x * w.y)
    have := abs_add_le (v.y * w.x) (q - v.y * w.x)
    have := abs_sub p q
    simp only [add_sub_cancel] at *
    linarith
  obtain ⟨s, s1, s2⟩ := F32.round_sub p1 q1 (by linarith)
  refine ⟨s, s1, ?_⟩
  have e2 : |s - v.cross w| ≤ |s - (p - q)| + (|p - v.x * w.y| + |q - v.y * w.x|) := by
    rw [cross_def]
    have := abs_add_le (s - (p - q)) ((p - v.x * w.y) - (q - v.y * w.x))
    have := abs_sub (p - v.x * w.y) (q - v.y * w.x)
    have e : s - (v.x * w.y - v.y * w.x) = (s - (p - q)) + ((p - v.x * w.y) - (q - v.y * w.x)) := by ring
    rw [e]; linarith
  linarith

/-- the noise, all in all -/
theorem noise_bound {e e' Q s x y : ℝ} (he : 0 ≤ e) (he' : 0 ≤ e') (h5 : e + e' ≤ 5 / 2 ^ 24)
    (hQ : 1 / 2 ^ 100 ≤ Q) (h1 : |s - x| ≤ 9 / 4 * ((1 + e) * (1 + e') * Q / 2 ^ 24) + 3 / 2 ^ 150)
    (h2 : |x - y| ≤ (e + e' + e * e') * Q) : |s - y| ≤ Q / 2 ^ 21 := by
  have hQ0 : 0 < Q := lt_of_lt_of_le (by positivity) hQ
  have h3 : |s - y| ≤ |s - x| + |x - y| := by
    have := abs_add_le (s - x) (x - y)
    rwa [sub_add_sub_cancel] at this
  have h4 : e * e' ≤ 1 / 2 ^ 40 := by
    have : e ≤ 1 / 2 ^ 20 := by linarith
    have : e' ≤ 1 / 2 ^ 20 := by linarith
    refine (mul_le_mul ‹e ≤ _› ‹e' ≤ _› he' (by positivity)).trans (by norm_num)
  have h6 : (e + e' + e * e') * Q ≤ (5 / 2 ^ 24 + 1 / 2 ^ 40) * Q := mul_le_mul_of_nonneg_right (by linarith) hQ0.le
  have h7 : (1 + e) * (1 + e') ≤ 1 + 1 / 2 ^ 20 := by
    have : (1 + e) * (1 + e') = 1 + (e + e') + e * e' := by ring
    rw [this]; linarith
  have h8 : (1 + e) * (1 + e') * Q / 2 ^ 24 ≤ (1 + 1 / 2 ^ 20) * Q / 2 ^ 24 :=
    div_le_div_of_nonneg_right (mul_le_mul_of_nonneg_right h7 hQ0.le) (by positivity)
  linarith

theorem fl_dot {v' w' : V2 F32} {v V w W : V2 ℝ} {e e' : ℝ} (hv : v'.Is v) (hw : w'.Is w) (h : Apx e v V)
    (h' : Apx e' w W) (he : 0 ≤ e) (he' : 0 ≤ e') (h5 : e + e' ≤ 5 / 2 ^ 24)
    (hlo : 1 / 2 ^ 100 ≤ V.norm * W.norm) (hhi : V.norm * W.norm ≤ (2 : ℝ) ^ (124 : ℤ)) :
    ∃ s, F32.Is (v'.dot w') s ∧ |s - V.dot W| ≤ V.norm * W.norm / 2 ^ 21 := by
  have hP : |v.x * w.x| + |v.y * w.y| ≤ (1 + e) * (1 + e') * (V.norm * W.norm) := by
    refine (abs_dot_le_norm v w).trans ?_
    have := mul_le_mul h.norm_le h'.norm_le w.norm_nonneg (mul_nonneg (by linarith) V.norm_nonneg)
    linarith
  have h2 : (1 + e) * (1 + e') ≤ 2 := by
    have a1 : 1 + e ≤ 1 + 1 / 2 ^ 20 := by linarith
    have a2 : 1 + e' ≤ 1 + 1 / 2 ^ 20 := by linarith
    exact (mul_le_mul a1 a2 (by linarith) (by norm_num)).trans (by norm_num)
  have h3 : (1 + e) * (1 + e') * (V.norm * W.norm) ≤ (2 : ℝ) ^ (125 : ℤ) := by
    have := mul_le_mul h2 hhi (mul_nonneg V.norm_nonneg W.norm_nonneg) (by norm_num)
    refine this.trans (by norm_num)
  obtain ⟨s, s1, s2⟩ := round_dot hv hw hP h3
  exact ⟨s, s1, noise_bound he he' h5 hlo s2 (h.dot h')⟩

theorem fl_cross {v' w' : V2 F32} {v V w W : V2 ℝ} {e e' : ℝ} (hv : v'.Is v) (hw : w'.Is w) (h : Apx e v V)
    (h' : Apx e' w W) (he : 0 ≤ e) (he' : 0 ≤ e') (h5 : e + e' ≤ 5 / 2 ^ 24)
    (hlo : 1 / 2 ^ 100 ≤ V.norm * W.norm) (hhi : V.norm * W.norm ≤ (2 : ℝ) ^ (124 : ℤ)) :
    ∃ s, F32.Is (v'.cross w') s ∧ |s - V.cross W| ≤ V.norm * W.norm / 2 ^ 21 := by
  have hP : |v.x * w.y| + |v.y * w.x| ≤ (1 + e) * (1 + e') * (V.norm * W.norm) := by
    refine (abs_cross_le_norm v w).trans ?_
    have := mul_le_mul h.norm_le h'.norm_le w.norm_nonneg (mul_nonneg (by linarith) V.norm_nonneg)
    linarith
  have h2 : (1 + e) * (1 + e') ≤ 2 := by
    have a1 : 1 + e ≤ 1 + 1 / 2 ^ 20 := by linarith
    have a2 : 1 + e' ≤ 1 + 1 / 2 ^ 20 := by linarith
    exact (mul_le_mul a1 a2 (by linarith) (by norm_num)).trans (by norm_num)
  have h3 : (1 + e) * (1 + e') * (V.norm * W.norm) ≤ (2 : ℝ) ^ (125 : ℤ) := by
    have := mul_le_mul h2 hhi (mul_nonneg V.norm_nonneg W.norm_nonneg) (by norm_num)
    refine this.trans (by norm_num)
  obtain ⟨s, s1, s2⟩ := round_cross hv hw hP h3
  exact ⟨s, s1, noise_bound he he' h5 hlo s2 (h.cross h')⟩

theorem V2.norm_le_of_abs {v w : V2 ℝ} {e : ℝ} (he : 0 ≤ e) (hx : |v.x| ≤ e * |w.x|) (hy : |v.y| ≤ e * |w.y|) :
    v.norm ≤ e * w.norm := by
  refine V2.norm_le (mul_nonneg he w.norm_nonneg) ?_
  rw [mul_pow, V2.norm_sq', dot_def, dot_def]
  have h1 := pow_le_pow_left₀ (abs_nonneg _) hx 2
  have h2 := pow_le_pow_left₀ (abs_nonneg _) hy 2
  rw [mul_pow, sq_abs, sq_abs] at h1 h2
  linarith

/-- rounded difference -/
theorem fl_sub {v' w' : V2 F32} {v w : V2 ℝ} (hv : v'.Is v) (hw : w'.Is w)
    (h : (v - w).norm ≤ (2 : ℝ) ^ (125 : ℤ)) : ∃ e, (v' - w').Is e ∧ Apx (1 / 2 ^ 24) e (v - w) := by
  have h126 : (2 : ℝ) ^ (125 : ℤ) ≤ 3 * (2 : ℝ) ^ (126 : ℤ) := by norm_num
  obtain ⟨x, x1, x2⟩ := F32.round_sub hv.1 hw.1 ((V2.abs_x_le_norm (v - w)).trans (h.trans h126))
  obtain ⟨y, y1, y2⟩ := F32.round_sub hv.2 hw.2 ((V2.abs_y_le_norm (v - w)).trans (h.trans h126))
  refine ⟨⟨x, y⟩, ⟨x1, y1⟩, V2.norm_le_of_abs (by positivity) ?_ ?_⟩
  · refine x2.trans (le_of_eq ?_)
    show |v.x - w.x| / 2 ^ 24 = 1 / 2 ^ 24 * |v.x - w.x|
    ring
  · refine y2.trans (le_of_eq ?_)
    show |v.y - w.y| / 2 ^ 24 = 1 / 2 ^ 24 * |v.y - w.y|
    ring

/-- a rounded multiple `s n` of a vector that is itself rounded -/
theorem fl_scale {d' : V2 F32} {p1 q1 p2 q2 : F32} {x1 y1 x2 y2 s : ℝ} {n N : V2 ℝ} (e1 : d' = ⟨p1 * q1, p2 * q2⟩)
    (i1 : F32.Is p1 x1) (j1 : F32.Is q1 y1) (i2 : F32.Is p2 x2) (j2 : F32.Is q2 y2)
    (m1 : x1 * y1 = s * n.x) (m2 : x2 * y2 = s * n.y) (hn : Apx (1 / 2 ^ 24) n N)
    (hlo : 1 / 2 ^ 100 ≤ |s| * N.norm) (hhi : |s| * N.norm ≤ (2 : ℝ) ^ (124 : ℤ)) :
    ∃ d, d'.Is d ∧ Apx (3 / 2 ^ 24) d (V2.scale s N) := by
  have hnn := hn.norm_le
  have hs := abs_nonneg s
  have hb : |s| * n.norm ≤ (1 + 1 / 2 ^ 24) * (|s| * N.norm) := by
    have := mul_le_mul_of_nonneg_left hnn hs
    linarith
  have hb' : |s| * n.norm ≤ 3 * (2 : ℝ) ^ (126 : ℤ) := by
    have : (2 : ℝ) ^ (126 : ℤ) = 4 * (2 : ℝ) ^ (124 : ℤ) := by norm_num
    rw [this]
    have := two_zpow_pos 124
    linarith
  have b1 : |x1 * y1| ≤ |s| * n.norm := by
    rw [m1, abs_mul]; exact mul_le_mul_of_nonneg_left (V2.abs_x_le_norm n) hs
  have b2 : |x2 * y2| ≤ |s| * n.norm := by
    rw [m2, abs_mul]; exact mul_le_mul_of_nonneg_left (V2.abs_y_le_norm n) hs
  obtain ⟨a, a1, a2, -, -⟩ := F32.round_mul i1 j1 (b1.trans hb')
  obtain ⟨b, c1, c2, -, -⟩ := F32.round_mul i2 j2 (b2.trans hb')
  subst e1
  refine ⟨⟨a, b⟩, ⟨a1, c1⟩, ?_⟩
  unfold Apx
  rw [V2.norm_scale]
  have k1 : ((⟨a, b⟩ : V2 ℝ) - V2.scale s n).norm ≤ 1 / 2 ^ 24 * (|s| * n.norm) + 2 / 2 ^ 150 := by
    obtain ⟨r, er⟩ : ∃ r : V2 ℝ, r = (⟨a, b⟩ : V2 ℝ) - V2.scale s n := ⟨_, rfl⟩
    rw [← er]
    have rx : |r.x| ≤ |s * n.x| / 2 ^ 24 + 1 / 2 ^ 150 := by
      rw [er, ← m1]
      show |a - s * n.x| ≤ _
      rw [← m1]; exact a2
    have ry : |r.y| ≤ |s * n.y| / 2 ^ 24 + 1 / 2 ^ 150 := by
      rw [er, ← m2]
      show |b - s * n.y| ≤ _
      rw [← m2]; exact c2
    rw [abs_mul] at rx ry
    have h1 := n.norm_sq
    have h0 : 0 ≤ |s| * n.norm := mul_nonneg hs n.norm_nonneg
    refine V2.norm_le (by positivity) ?_
    have g1 := pow_le_pow_left₀ (abs_nonneg _) rx 2
    have g2 := pow_le_pow_left₀ (abs_nonneg _) ry 2
    rw [sq_abs] at g1 g2
    rw [dot_def]
    have g3 := V2.abs_x_le_norm n
    have g4 := V2.abs_y_le_norm n
    have g5 := mul_le_mul_of_nonneg_left g3 hs
    have g6 := mul_le_mul_of_nonneg_left g4 hs
    have g7 : (|s| * |n.x|) ^ 2 + (|s| * |n.y|) ^ 2 = (|s| * n.norm) ^ 2 := by
      rw [mul_pow, mul_pow, mul_pow, sq_abs n.x, sq_abs n.y, sq n.norm, h1]; ring
    generalize |s| * |n.x| = X at *
    generalize |s| * |n.y| = Y at *
    generalize |s| * n.norm = N' at *
    have et : (2 : ℝ) / 2 ^ 150 = 2 * (1 / 2 ^ 150) := by ring
    have ht : (0 : ℝ) ≤ 1 / 2 ^ 150 := by positivity
    rw [et]
    generalize (1 : ℝ) / 2 ^ 150 = t at *
    have t1 := mul_le_mul_of_nonneg_right g5 ht
    have t2 := mul_le_mul_of_nonneg_right g6 ht
    have t3 := mul_nonneg ht ht
    have h8 : (X / 2 ^ 24 + t) ^ 2 + (Y / 2 ^ 24 + t) ^ 2 =
      (X ^ 2 + Y ^ 2) / 2 ^ 48 + 2 * (X * t + Y * t) / 2 ^ 24 + 2 * (t * t) := by ring
    have h9 : (1 / 2 ^ 24 * N' + 2 * t) ^ 2 = N' ^ 2 / 2 ^ 48 + 4 * (N' * t) / 2 ^ 24 + 4 * (t * t) := by ring
    rw [h9]
    rw [g7] at h8
    linarith only [g1, g2, h8, t1, t2, t3]
  have k2 : (V2.scale s n - V2.scale s N).norm ≤ |s| * (1 / 2 ^ 24 * N.norm) := by
    rw [show V2.scale s n - V2.scale s N = V2.scale s (n - N) by ext <;> simp <;> ring, V2.norm_scale]
    exact mul_le_mul_of_nonneg_left hn hs
  have k3 := V2.norm_add_le' ((⟨a, b⟩ : V2 ℝ) - V2.scale s n) (V2.scale s n - V2.scale s N)
  rw [sub_add_sub_cancel] at k3
  linarith

/-- a direction of length at least `2^-22` passes the size test -/
theorem not_small_of_norm [F32Env] {d' : V2 F32} {d : V2 ℝ} (hd : d'.Is d) (h : 1 / 2 ^ 22 ≤ d.norm) :
    ¬ directionTooSmall d' := by
  have hor : (1 : ℝ) / 2 ^ 23 ≤ |d.x| ∨ (1 : ℝ) / 2 ^ 23 ≤ |d.y| := by
    by_contra hcon
    push Not at hcon
    have := V2.norm_le_add d
    linarith
  have e46 : (2 : ℝ) ^ (-46 : ℤ) = 1 / 2 ^ 23 * (1 / 2 ^ 23) := by norm_num
  have big : ∀ {a : F32} {x : ℝ}, F32.Is a x → 1 / 2 ^ 23 ≤ |x| → BigNN ((2 : ℝ) ^ (-46 : ℤ)) (a * a) := by
    intro a x ha hx
    obtain ⟨z, e⟩ := mul_eq ha ha
    rw [e]
    refine bigNN_ofReal ?_ (by norm_num) (by norm_num)
    rw [e46, ← abs_mul_abs_self x]
    exact mul_le_mul hx hx (by positivity) (abs_nonneg _)
  have q : BigNN ((2 : ℝ) ^ (-46 : ℤ)) (d'.x * d'.x + d'.y * d'.y) := by
    rcases hor with h | h
    · exact (big hd.1 h).add (bigNN_mul_self hd.2) (by norm_num) (by norm_num)
    · rw [F32.add_comm']
      exact (big hd.2 h).add (bigNN_mul_self hd.1) (by norm_num) (by norm_num)
  intro h
  have h : d'.x * d'.x + d'.y * d'.y < FloatExtra.epsilon * FloatExtra.epsilon := h
  rcases q with ⟨x, x1, x2⟩ | q
  · rw [lt_iff x1 is_epsSq_f32] at h; linarith
  · rw [q] at h
    obtain ⟨_, _, _, e, _⟩ := is_epsSq_f32
    rw [e] at h
    exact absurd h (by intro h; cases h)

/-! ## the step -/

theorem Apx.perp {e : ℝ} {v V : V2 ℝ} (h : Apx e v V) : Apx e v.perp V.perp := by
  unfold Apx at h ⊢
  rw [V2.norm_perp, show v.perp - V.perp = (v - V).perp by ext <;> (simp; try ring), V2.norm_perp]
  exact h

theorem Apx.neg {e : ℝ} {v V : V2 ℝ} (h : Apx e v V) : Apx e (-v) (-V) := by
  unfold Apx at h ⊢
  rw [V2.norm_neg', show -v - -V = -(v - V) by ext <;> simp <;> ring, V2.norm_neg']
  exact h

section
variable [env : F32Env]
variable {g R : ℝ} {Z : Set (V2 ℝ)}

/-- a computed point: in `Z`, at most `R` away -/
def InZ (Z : Set (V2 ℝ)) (R : ℝ) (a' : V2 F32) (a : V2 ℝ) : Prop := a'.Is a ∧ a ∈ Z ∧ a.norm ≤ R

/-- the states of the search while the origin is far away -/
inductive Good (g R : ℝ) (Z : Set (V2 ℝ)) : V2 F32 → List (V2 F32) → Prop
  | none (d' : V2 F32) : Good g R Z d' []
  | one (b' : V2 F32) (b : V2 ℝ) : InZ Z R b' b → Good g R Z (-b') [b']
  | two (b' c' d' : V2 F32) (b c d : V2 ℝ) (σ l : ℝ) : InZ Z R b' b → InZ Z R c' c → d'.Is d →
      Edge g b c d σ l → Good g R Z d' [b', c']

theorem mkEdge {a b d : V2 ℝ} {s : ℝ} (h1 : 0 ≤ a.dot (a - b)) (h2 : 0 ≤ b.dot (b - a))
    (h3 : 99 / 100 * g ≤ (b - a).norm) (h4 : 0 < s * a.cross b) (h5 : Apx (3 / 2 ^ 24) d (V2.scale s (b - a).perp)) :
    ∃ σ l, Edge g a b d σ l := by
  have hs : s ≠ 0 := by rintro rfl; simp at h4
  have hL := (b - a).norm_nonneg
  have hdir : ∀ σ : ℝ, |s| * σ = s → (d - V2.scale (|s| * σ) (b - a).perp).norm ≤ |s| * (b - a).norm / 2 ^ 21 := by
    intro σ e
    rw [e]
    unfold Apx at h5
    rw [V2.norm_scale, V2.norm_perp] at h5
    have : 0 ≤ |s| * (b - a).norm := mul_nonneg (abs_nonneg _) hL
    linarith
  rcases lt_or_gt_of_ne hs with h | h
  · refine ⟨-1, |s|, h1, h2, h3, Or.inr rfl, abs_pos.2 hs, ?_, hdir _ (by rw [abs_of_neg h]; ring)⟩
    by_contra hcon
    push Not at hcon
    have : s * a.cross b ≤ 0 := mul_nonpos_of_nonpos_of_nonneg h.le (by linarith)
    linarith
  · refine ⟨1, |s|, h1, h2, h3, Or.inl rfl, abs_pos.2 hs, ?_, hdir _ (by rw [abs_of_pos h]; ring)⟩
    rw [one_mul]
    by_contra hcon
    push Not at hcon
    have : s * a.cross b ≤ 0 := mul_nonpos_of_nonneg_of_nonpos h.le hcon
    linarith

/-- the direction of a new edge passes the size test -/
theorem edge_not_small {d' : V2 F32} {d N : V2 ℝ} {s : ℝ} (hd : d'.Is d) (h : Apx (3 / 2 ^ 24) d (V2.scale s N))
    (hs : 1 / 2 ^ 21 ≤ |s| * N.norm) : ¬ directionTooSmall d' := by
  refine not_small_of_norm hd ?_
  have := h.le_norm
  rw [V2.norm_scale] at this
  linarith

/-- sizes -/
theorem InZ.sizes (hZ : FarSet g R Z) (hR : R ≤ 2 ^ 29) (hg : 1 / 80 ≤ g) {a' : V2 F32} {a : V2 ℝ} (h : InZ Z R a' a) :
    1 / 80 ≤ a.norm ∧ a.norm ≤ 2 ^ 29 := ⟨hg.trans (hZ.far a h.2.1), h.2.2.trans hR⟩

theorem diff_sizes (hR : R ≤ 2 ^ 29) {a b : V2 ℝ} (ha : a.norm ≤ R) (hb : b.norm ≤ R) :
    (b - a).norm ≤ 2 ^ 30 ∧ (b - a).norm ≤ 2 * R := by
  have := V2.norm_sub_le' b a
  constructor <;> linarith

/-- the sum of the simplex step: two points -/
theorem good_one (hZ : FarSet g R Z) (hR : R ≤ 2 ^ 29) (hg : 1 / 80 ≤ g) {a' b' : V2 F32} {a b : V2 ℝ}
    (ha : InZ Z R a' a) (hb : InZ Z R b' b) (hfit : ¬ a'.dot (-b') ≤ 0) :
    ∃ r, addPoint [b'] a' = .ok r ∧ r.collides = false ∧ ¬ directionTooSmall r.dir ∧ Good g R Z r.dir r.pts := by
  obtain ⟨sa, sa'⟩ := ha.sizes hZ hR hg
  obtain ⟨sb, sb'⟩ := hb.sizes hZ hR hg
  obtain ⟨t1, t2⟩ := diff_sizes hR ha.2.2 hb.2.2
  have hg0 := hZ.pos
  have hrat := hZ.ratio
  have hsub := fl_sub hb.1 ha.1 (t1.trans (by norm_num))
  obtain ⟨e, e1, e2⟩ := hsub
  have nA := a.norm_nonneg
  -- the fitness
  have f1 : a.dot b ≤ a.norm * b.norm / 2 ^ 21 := by
    obtain ⟨s, s1, s2⟩ := fl_dot ha.1 hb.1.neg (Apx.refl a) (Apx.refl (-b)) (le_refl _) (le_refl _) (by norm_num)
      (by rw [V2.norm_neg']; exact le_trans (by norm_num) (mul_le_mul sa sb (by positivity) nA))
      (by rw [V2.norm_neg']; exact (mul_le_mul sa' sb' b.norm_nonneg (by positivity)).trans (by norm_num))
    rw [le_iff s1 is_zero] at hfit
    push Not at hfit
    rw [V2.norm_neg', dot_neg] at s2
    have := (abs_le.1 s2).2
    linarith
  obtain ⟨p1, p2, p3, p4⟩ := edge_first hZ ha.2.1 hb.2.1 ha.2.2 hb.2.2 f1
  have p0 : 0 < (b - a).norm := hg0.trans_le p1
  have lo : 1 / 2 ^ 100 ≤ (b - a).norm * (-a).norm := by
    rw [V2.norm_neg']
    exact le_trans (by norm_num) (mul_le_mul (hg.trans p1) sa (by positivity) p0.le)
  have hi : (b - a).norm * (-a).norm ≤ (2 : ℝ) ^ (124 : ℤ) := by
    rw [V2.norm_neg']
    exact (mul_le_mul t1 sa' nA (by positivity)).trans (by norm_num)
  -- the first test
  obtain ⟨s, s1, s2⟩ := fl_dot e1 ha.1.neg e2 (Apx.refl (-a)) (by positivity) (le_refl _) (by norm_num) lo hi
  have htest : (b' - a').dot (-a') ≥ 0 := by
    show (0 : F32) ≤ _
    rw [le_iff is_zero s1]
    have q1 : (b - a).dot (-a) = a.dot (a - b) := by simp only [dot_def, sub_x, sub_y, neg_x, neg_y]; ring
    rw [q1, V2.norm_neg'] at s2
    have q2 := (abs_le.1 s2).1
    have q3 : (b - a).norm * a.norm ≤ 800 * g * a.norm := mul_le_mul_of_nonneg_right (by linarith) nA
    have q4 : 0 ≤ g * a.norm := by positivity
    linarith
  -- the cross product
  obtain ⟨C, c1, c2⟩ := fl_cross e1 ha.1.neg e2 (Apx.refl (-a)) (by positivity) (le_refl _) (by norm_num) lo hi
  have q1 : (b - a).cross (-a) = a.cross b := by simp only [cross_def, sub_x, sub_y, neg_x, neg_y]; ring
  rw [q1, V2.norm_neg'] at c2
  have q3 : (b - a).norm * a.norm ≤ (b - a).norm * (400 * g) := mul_le_mul_of_nonneg_left (ha.2.2.trans hrat) p0.le
  have q4 : 0 < g * (b - a).norm := by positivity
  have c3 : |C - a.cross b| ≤ g * (b - a).norm / 2 := by linarith
  have c4 : g * (b - a).norm / 2 ≤ |C| := by
    have := abs_sub_abs_le_abs_sub (a.cross b) C
    rw [abs_sub_comm] at this
    linarith
  have c5 : 0 < C * a.cross b := by
    rcases le_or_gt 0 (a.cross b) with h0 | h0
    · rw [abs_of_nonneg h0] at p4
      have := (abs_le.1 c3).1
      exact mul_pos (by linarith) (by linarith)
    · rw [abs_of_neg h0] at p4
      have := (abs_le.1 c3).2
      exact mul_pos_of_neg_of_neg (by linarith) h0
  have c6 : |C| ≤ 2 ^ 60 := by
    have h1 := abs_sub_abs_le_abs_sub C (a.cross b)
    have h2 := cross_le_norm a b
    have h3 := mul_le_mul sa' sb' b.norm_nonneg (by positivity)
    have h4 : g * (b - a).norm ≤ 2 ^ 29 * 2 ^ 30 :=
      mul_le_mul ((hZ.far a ha.2.1).trans sa') t1 p0.le (by positivity)
    have h5 : (2 : ℝ) ^ 29 * 2 ^ 29 + 2 ^ 29 * 2 ^ 30 ≤ 2 ^ 60 := by norm_num
    linarith
  have big : 1 / 2 ^ 21 ≤ |C| * (b - a).perp.norm := by
    rw [V2.norm_perp]
    have h1 : 1 / 80 * (1 / 80) ≤ g * (b - a).norm := mul_le_mul hg (hg.trans p1) (by positivity) hg0.le
    have h2 : 1 / 80 * (1 / 80) / 2 ≤ |C| := by linarith
    exact le_trans (by norm_num) (mul_le_mul h2 (hg.trans p1) (by positivity) (abs_nonneg C))
  obtain ⟨d, d1, d2⟩ := fl_scale (d' := (b' - a').crossAba (-a')) (s := C) (n := e.perp) (N := (b - a).perp)
    rfl (is_neg e1.2) c1 e1.1 c1 (by rw [perp_x]; ring) (by rw [perp_y]; ring) e2.perp
    (le_trans (by norm_num) big)
    (by rw [V2.norm_perp]; exact (mul_le_mul c6 t1 p0.le (by positivity)).trans (by norm_num))
  refine ⟨⟨false, (b' - a').crossAba (-a'), [a', b']⟩, ?_, rfl, edge_not_small d1 d2 big, ?_⟩
  · simp only [addPoint, if_pos htest]
  · have h0 : 0 ≤ g / 2 * a.norm := by positivity
    obtain ⟨σ, l, hE⟩ := mkEdge (g := g) (h0.trans p2) p3 (by linarith) c5 d2
    exact .two _ _ _ a b d σ l ha hb d1 hE

/-- on which side of an edge the origin is, as computed -/
theorem side_test (hZ : FarSet g R Z) (hR : R ≤ 2 ^ 29) (hg : 1 / 80 ≤ g) {a' d' : V2 F32} {a b P : V2 ℝ} {s : ℝ}
    (ha : InZ Z R a' a) (hP : d'.Is P) (hA : Apx (3 / 2 ^ 24) P (V2.scale s (b - a).perp))
    (lo : 1 / 2 ^ 21 ≤ |s| * (b - a).norm) (hi : |s| * (b - a).norm ≤ 2 ^ 92) :
    ∃ t, F32.Is (d'.dot (-a')) t ∧ |t - s * a.cross b| ≤ |s| * ((b - a).norm * a.norm / 2 ^ 21) := by
  obtain ⟨sa, sa'⟩ := ha.sizes hZ hR hg
  have e1 : (V2.scale s (b - a).perp).norm * (-a).norm = |s| * (b - a).norm * a.norm := by
    rw [V2.norm_scale, V2.norm_perp, V2.norm_neg']
  obtain ⟨t, t1, t2⟩ := fl_dot hP ha.1.neg hA (Apx.refl (-a)) (by positivity) (le_refl _) (by norm_num)
    (by rw [e1]; exact le_trans (by norm_num) (mul_le_mul lo sa (by positivity) (le_trans (by positivity) lo)))
    (by rw [e1]; exact (mul_le_mul hi sa' a.norm_nonneg (by positivity)).trans (by norm_num))
  refine ⟨t, t1, ?_⟩
  have e2 : (V2.scale s (b - a).perp).dot (-a) = s * a.cross b := by
    simp only [dot_def, cross_def, scale_x, scale_y, perp_x, perp_y, sub_x, sub_y, neg_x, neg_y]; ring
  rw [e2, e1] at t2
  linarith

/-- three points: never a collision -/
theorem good_two (hZ : FarSet g R Z) (hR : R ≤ 2 ^ 29) (hg : 1 / 80 ≤ g) {a' b' c' d' : V2 F32} {a b c d : V2 ℝ}
    {σ l : ℝ} (ha : InZ Z R a' a) (hb : InZ Z R b' b) (hc : InZ Z R c' c) (hd : d'.Is d) (hE : Edge g b c d σ l)
    (hlo : 1 / 2 ^ 62 ≤ d.norm) (hhi : d.norm ≤ 2 ^ 90) (hfit : ¬ a'.dot d' ≤ 0) :
    ∃ r, addPoint [b', c'] a' = .ok r ∧ r.collides = false ∧ ¬ directionTooSmall r.dir ∧ Good g R Z r.dir r.pts := by
  obtain ⟨sa, sa'⟩ := ha.sizes hZ hR hg
  have hg0 := hZ.pos
  have hrat := hZ.ratio
  have nA := a.norm_nonneg
  have hσa : |σ| = 1 := by rcases hE.sign with h | h <;> rw [h] <;> norm_num
  have hσ : σ * σ = 1 := by rcases hE.sign with h | h <;> rw [h] <;> norm_num
  -- the fitness
  have f1 : -(a.norm * d.norm / 2 ^ 21) ≤ a.dot d := by
    obtain ⟨s, s1, s2⟩ := fl_dot ha.1 hd (Apx.refl a) (Apx.refl d) (le_refl _) (le_refl _) (by norm_num)
      (le_trans (by norm_num) (mul_le_mul sa hlo (by positivity) nA))
      ((mul_le_mul sa' hhi d.norm_nonneg (by positivity)).trans (by norm_num))
    rw [le_iff s1 is_zero] at hfit
    push Not at hfit
    have := (abs_le.1 s2).2
    linarith
  obtain ⟨b1, b2, b3⟩ := hE.step hZ ha.2.1 hb.2.1 hc.2.1 ha.2.2 hb.2.2 f1
  obtain ⟨c1, -, c3⟩ := hE.swap.step hZ ha.2.1 hc.2.1 hb.2.1 ha.2.2 hc.2.2 f1
  obtain ⟨tb, tb2⟩ := diff_sizes hR ha.2.2 hb.2.2
  obtain ⟨tc, tc2⟩ := diff_sizes hR ha.2.2 hc.2.2
  have pb : 0 < (b - a).norm := lt_of_lt_of_le (by positivity) b1
  have pc : 0 < (c - a).norm := lt_of_lt_of_le (by positivity) c1
  have lb : 1 / 81 ≤ (b - a).norm := by linarith
  have lc : 1 / 81 ≤ (c - a).norm := by linarith
  obtain ⟨e, e1, e2⟩ := fl_sub hb.1 ha.1 (tb.trans (by norm_num))
  obtain ⟨f, f1', f2⟩ := fl_sub hc.1 ha.1 (tc.trans (by norm_num))
  -- the orientation
  obtain ⟨D, D1, D2⟩ := fl_cross e1 f1' e2 f2 (by positivity) (by positivity) (by norm_num)
    (le_trans (by norm_num) (mul_le_mul lb lc (by positivity) pb.le))
    ((mul_le_mul tb tc pc.le (by positivity)).trans (by norm_num))
  have hbc : (b - a).norm * (c - a).norm ≤ 640000 * g ^ 2 := by
    have h1 : (b - a).norm ≤ 800 * g := by linarith
    have h2 : (c - a).norm ≤ 800 * g := by linarith
    have := mul_le_mul h1 h2 pc.le (by positivity)
    linarith
  have hg2 : 0 < g ^ 2 := by positivity
  have D3 : g ^ 2 / 2 ≤ σ * D := by
    have h1 : |σ * D - σ * (b - a).cross (c - a)| ≤ (b - a).norm * (c - a).norm / 2 ^ 21 := by
      rw [← mul_sub, abs_mul, hσa, one_mul]; exact D2
    have := (abs_le.1 h1).1
    linarith
  have hDa : |D| = σ * D := by
    rw [← abs_of_pos (show 0 < σ * D by linarith), abs_mul, hσa, one_mul]
  have hD : D = σ * |D| := by rw [hDa, ← mul_assoc, hσ, one_mul]
  have D0 : 0 < |D| := by rw [hDa]; linarith
  have g80 : 1 / 80 * (1 / 80) ≤ g ^ 2 := by rw [sq]; exact mul_le_mul hg hg (by positivity) hg0.le
  have D4 : 1 / 80 * (1 / 80) / 2 ≤ |D| := by rw [hDa]; linarith
  have D5 : |D| ≤ 2 ^ 61 := by
    have h1 := abs_sub_abs_le_abs_sub D ((b - a).cross (c - a))
    have h2 := cross_le_norm (b - a) (c - a)
    have h3 := mul_le_mul tb tc pc.le (by positivity)
    have h4 : (2 : ℝ) ^ 30 * 2 ^ 30 + 2 ^ 30 * 2 ^ 30 / 2 ^ 21 ≤ 2 ^ 61 := by norm_num
    linarith
  have bigb : 1 / 2 ^ 21 ≤ |-D| * (b - a).norm := by
    rw [abs_neg]
    exact le_trans (by norm_num) (mul_le_mul D4 lb (by positivity) D0.le)
  have bigc : 1 / 2 ^ 21 ≤ |D| * (c - a).norm :=
    le_trans (by norm_num) (mul_le_mul D4 lc (by positivity) D0.le)
  have hib : |-D| * (b - a).norm ≤ 2 ^ 92 := by
    rw [abs_neg]
    exact (mul_le_mul D5 tb pb.le (by positivity)).trans (by norm_num)
  have hic : |D| * (c - a).norm ≤ 2 ^ 92 := (mul_le_mul D5 tc pc.le (by positivity)).trans (by norm_num)
  -- the two normals
  obtain ⟨P, P1, P2⟩ := fl_scale (d' := (b' - a').crossF32 ((b' - a').cross (c' - a'))) (s := -D) (n := e.perp)
    (N := (b - a).perp) rfl e1.2 D1 (is_neg e1.1) D1 (by rw [perp_x]; ring) (by rw [perp_y]; ring) e2.perp
    (by rw [V2.norm_perp]; exact le_trans (by norm_num) bigb) (by rw [V2.norm_perp]; exact hib.trans (by norm_num))
  obtain ⟨Q, Q1, Q2⟩ := fl_scale (d' := crossSV ((b' - a').cross (c' - a')) (c' - a')) (s := D) (n := f.perp)
    (N := (c - a).perp) rfl (is_neg D1) f1'.2 D1 f1'.1 (by rw [perp_x]; ring) (by rw [perp_y]) f2.perp
    (by rw [V2.norm_perp]; exact le_trans (by norm_num) bigc) (by rw [V2.norm_perp]; exact hic.trans (by norm_num))
  obtain ⟨t, t1, t2⟩ := side_test hZ hR hg ha P1 P2 bigb hib
  obtain ⟨w, w1, w2⟩ := side_test hZ hR hg ha Q1 Q2 bigc hic
  -- what the tests say
  have xb : t - -D * a.cross b = t + |D| * (σ * a.cross b) := by rw [hD, abs_mul, hσa, one_mul, abs_abs]; ring
  have xc : w - D * a.cross c = w - |D| * (σ * a.cross c) := by rw [hD, abs_mul, hσa, one_mul, abs_abs]; ring
  rw [xb, abs_neg] at t2
  rw [xc] at w2
  have qb : (b - a).norm * a.norm ≤ (b - a).norm * (400 * g) := mul_le_mul_of_nonneg_left (ha.2.2.trans hrat) pb.le
  have qc : (c - a).norm * a.norm ≤ (c - a).norm * (400 * g) := mul_le_mul_of_nonneg_left (ha.2.2.trans hrat) pc.le
  have gb : 0 < g * (b - a).norm := by positivity
  have gc : 0 < g * (c - a).norm := by positivity
  have testB : 0 ≤ t → σ * a.cross b ≤ (b - a).norm * a.norm / 2 ^ 21 := by
    intro h
    have := (abs_le.1 t2).2
    exact le_of_mul_le_mul_left (by linarith) D0
  have testB' : t < 0 → 0 ≤ σ * a.cross b := by
    intro h
    by_contra hcon
    push Not at hcon
    have h1 : σ * a.cross b ≤ (b - a).norm * a.norm / 2 ^ 21 := hcon.le.trans (by positivity)
    obtain ⟨-, -, h2⟩ := b3 h1
    have h3 : |D| * (-(σ * a.cross b)) < |D| * ((b - a).norm * a.norm / 2 ^ 21) := by
      have := (abs_le.1 t2).1
      linarith
    have h4 := lt_of_mul_lt_mul_left h3 D0.le
    linarith
  have testC : 0 ≤ w → -σ * a.cross c ≤ (c - a).norm * a.norm / 2 ^ 21 := by
    intro h
    have := (abs_le.1 w2).2
    exact le_of_mul_le_mul_left (by linarith) D0
  have testC' : w < 0 → 0 ≤ -(σ * a.cross c) := by
    intro h
    by_contra hcon
    push Not at hcon
    have h1 : -σ * a.cross c ≤ (c - a).norm * a.norm / 2 ^ 21 := by
      have : 0 ≤ (c - a).norm * a.norm / 2 ^ 21 := by positivity
      linarith
    obtain ⟨-, -, h2⟩ := c3 h1
    have h3 : |D| * (σ * a.cross c) < |D| * ((c - a).norm * a.norm / 2 ^ 21) := by
      have := (abs_le.1 w2).1
      linarith
    have h4 := lt_of_mul_lt_mul_left h3 D0.le
    linarith
  have h0 : 0 ≤ g / 2 * a.norm := by positivity
  by_cases E1 : sameDirection ((b' - a').crossF32 ((b' - a').cross (c' - a'))) (-a')
  · have ht : 0 ≤ t := by
      have E1' : (0 : F32) ≤ ((b' - a').crossF32 ((b' - a').cross (c' - a'))).dot (-a') := E1
      rwa [le_iff is_zero t1] at E1'
    obtain ⟨k1, k2, k3⟩ := b3 (testB ht)
    have E2 : sameDirection (b' - a') (-a') := by
      obtain ⟨s, s1, s2⟩ := fl_dot e1 ha.1.neg e2 (Apx.refl (-a)) (by positivity) (le_refl _) (by norm_num)
        (by rw [V2.norm_neg']; exact le_trans (by norm_num) (mul_le_mul lb sa (by positivity) pb.le))
        (by rw [V2.norm_neg']; exact (mul_le_mul tb sa' nA (by positivity)).trans (by norm_num))
      show (0 : F32) ≤ _
      rw [le_iff is_zero s1]
      have q1 : (b - a).dot (-a) = a.dot (a - b) := by simp only [dot_def, sub_x, sub_y, neg_x, neg_y]; ring
      rw [q1, V2.norm_neg'] at s2
      have q2 := (abs_le.1 s2).1
      have q3 : (b - a).norm * a.norm ≤ 800 * g * a.norm := mul_le_mul_of_nonneg_right (by linarith) nA
      have q4 : 0 ≤ g * a.norm := by positivity
      linarith
    refine ⟨⟨false, (b' - a').crossF32 ((b' - a').cross (c' - a')), [a', b']⟩, ?_, rfl,
      edge_not_small P1 P2 (by rw [V2.norm_perp]; exact bigb), ?_⟩
    · simp only [addPoint, if_pos E1, if_pos E2]
    · have hs : 0 < -D * a.cross b := by
        have : -D * a.cross b = |D| * (-(σ * a.cross b)) := by rw [hD, abs_mul, hσa, one_mul, abs_abs]; ring
        rw [this]
        exact mul_pos D0 (by linarith)
      obtain ⟨σ', l', hE'⟩ := mkEdge (g := g) (h0.trans k1) k2.le b1 hs P2
      exact .two _ _ _ a b P σ' l' ha hb P1 hE'
  · have ht : t < 0 := by
      by_contra hcon
      push Not at hcon
      apply E1
      show (0 : F32) ≤ _
      rwa [le_iff is_zero t1]
    by_cases E2 : sameDirection (crossSV ((b' - a').cross (c' - a')) (c' - a')) (-a')
    · have hw : 0 ≤ w := by
        have E2' : (0 : F32) ≤ (crossSV ((b' - a').cross (c' - a')) (c' - a')).dot (-a') := E2
        rwa [le_iff is_zero w1] at E2'
      obtain ⟨k1, k2, k3⟩ := c3 (testC hw)
      refine ⟨⟨false, crossSV ((b' - a').cross (c' - a')) (c' - a'), [a', c']⟩, ?_, rfl,
        edge_not_small Q1 Q2 (by rw [V2.norm_perp]; exact bigc), ?_⟩
      · simp only [addPoint, if_neg E1, if_pos E2]
      · have hs : 0 < D * a.cross c := by
          have : D * a.cross c = |D| * (σ * a.cross c) := by rw [hD, abs_mul, hσa, one_mul, abs_abs]; ring
          rw [this]
          exact mul_pos D0 (by linarith)
        obtain ⟨σ', l', hE'⟩ := mkEdge (g := g) (h0.trans k1) k2.le c1 hs Q2
        exact .two _ _ _ a c Q σ' l' ha hc Q1 hE'
    · have hw : w < 0 := by
        by_contra hcon
        push Not at hcon
        apply E2
        show (0 : F32) ≤ _
        rwa [le_iff is_zero w1]
      exact (hE.outside hZ ha.2.1 hb.2.1 hc.2.1 (testB' ht) (testC' hw)).elim

end

end Auburn
