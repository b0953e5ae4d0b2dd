import Verif.Ieee.PosProps
import Verif.Lib.GjkNoisy

/-!
# GJK on binary32 finds every deep overlap within 16 steps (library lemmas for C97)
-/

set_option linter.unusedSectionVars false
set_option synthInstance.maxSize 1000

namespace Auburn

open F32 V2 ExtremePoint2d Transformation2d

theorem V2.norm_sq_lengthSq (v : V2 ℝ) : v.norm ^ 2 = lengthSq v := V2.norm_sq' v
theorem V2.norm_unit {d : V2 ℝ} (h : lengthSq d = 1) : d.norm = 1 := by
  have := d.norm_sq_lengthSq
  rw [h] at this
  exact (pow_eq_one_iff_of_nonneg d.norm_nonneg (by norm_num)).1 this

/-- the direction `n` is that of the unit vector `d`, up to an angle of about `ε` -/
def DirNear (ε : ℝ) (n d : V2 ℝ) : Prop := ∃ l : ℝ, 0 < l ∧ (n - V2.scale l d).norm ≤ ε * l

section
variable {W : Set (V2 ℝ)} {M δ η : ℝ}

theorem dot_le_norm' (v w : V2 ℝ) : v.dot w ≤ v.norm * w.norm := (le_abs_self _).trans (dot_le_norm v w)

/-- nearly extreme for a computed direction, hence for the exact one -/
theorem ext_of_near {n d a : V2 ℝ} {ε : ℝ} (hM : 0 < M) (h0 : 0 ≤ ε) (hε : ε ≤ 1 / 2 ^ 12) (hd : lengthSq d = 1) (hn : DirNear ε n d)
    (hW : ∀ m ∈ W, m.norm ≤ 6 * M) (ha : a.norm ≤ 6 * M)
    (he : ∀ m ∈ W, n.dot m ≤ n.dot a + 24 * (M / 2 ^ 24) * n.l1) :
    ∀ m ∈ W, d.dot m ≤ d.dot a + (37 * (M / 2 ^ 24) + 12 * M * ε) := by
  intro m hm
  obtain ⟨l, hl, hn⟩ := hn
  have hun := V2.norm_unit hd
  have n1 : n.norm ≤ (1 + ε) * l := by
    have := V2.norm_add_le' (n - V2.scale l d) (V2.scale l d)
    rw [sub_add_cancel, V2.norm_scale, hun, abs_of_pos hl] at this
    linarith
  have e1 := he m hm
  have q1 := dot_le_norm (n - V2.scale l d) m
  have q2 := dot_le_norm (n - V2.scale l d) a
  rw [sub_dot, scale_dot] at q1 q2
  have q1' := (abs_le.1 q1).1
  have q2' := (abs_le.1 q2).2
  have hel : 0 ≤ ε * l := by positivity
  have q3 := mul_le_mul hn (hW m hm) m.norm_nonneg hel
  have q4 := mul_le_mul hn ha a.norm_nonneg hel
  have hμ : 0 ≤ M / 2 ^ 24 := by positivity
  have q5 : 24 * (M / 2 ^ 24) * n.l1 ≤ 37 * (M / 2 ^ 24) * l := by
    have r1 := n.l1_le_norm
    have r2 : n.norm ≤ (1 + 1 / 2 ^ 12) * l := n1.trans (mul_le_mul_of_nonneg_right (by linarith) hl.le)
    have r3 : n.l1 ≤ 37 / 24 * l := by linarith
    have := mul_le_mul_of_nonneg_left r3 (show 0 ≤ 24 * (M / 2 ^ 24) by positivity)
    linarith
  refine le_of_mul_le_mul_left ?_ hl
  linarith

theorem NPt.norm_le {p : V2 ℝ} (hM : 0 < M) (h : NPt W (M / 32) η p) : p.norm ≤ 6 * M := by
  refine V2.norm_le (by linarith) ?_
  have := h.size
  rw [show 192 * (M / 32) = 6 * M by ring] at this
  exact this

/-- the exact outward normal of the next edge and the computed multiple of it -/
theorem next_dir {τ : ℝ} {d b c a : V2 ℝ} {w s : ℝ} (h : NStep W δ η τ d b c a w (b - a).norm)
    (hs : 0 < s * (b - a).cross (c - a)) :
    V2.scale (-s) (b - a).perp = V2.scale (|s| * (b - a).norm) (nextUnit d b c a w (b - a).norm) := by
  have hp := h.next_pos
  have hw0 := h.w0
  have hX : |s| * (b - a).cross (c - a) = s * (d.dot (a - b) * w) := by
    have h1 : |(b - a).cross (c - a)| = d.dot (a - b) * w := by
      rw [← abs_of_pos (mul_pos h.H0 h.e.w0)]
      exact (sq_eq_sq_iff_abs_eq_abs _ _).1 h.cross_sq
    rw [← h1]
    rcases lt_or_gt_of_ne (show s ≠ 0 by rintro rfl; simp at hs) with h0 | h0
    · have : (b - a).cross (c - a) < 0 := by
        by_contra hc
        push Not at hc
        have := mul_nonpos_of_nonpos_of_nonneg h0.le hc
        linarith
      rw [abs_of_neg h0, abs_of_neg this]; ring
    · have : 0 < (b - a).cross (c - a) := by
        by_contra hc
        push Not at hc
        have := mul_nonpos_of_nonneg_of_nonpos h0.le hc
        linarith
      rw [abs_of_pos h0, abs_of_pos this]
  have key : ∀ y : ℝ, -s * -y = |s| * (b - a).norm * (1 / (d.dot (a - b) * w * (b - a).norm) * (y * (b - a).cross (c - a))) := by
    intro y
    rw [show |s| * (b - a).norm * (1 / (d.dot (a - b) * w * (b - a).norm) * (y * (b - a).cross (c - a))) =
      (|s| * (b - a).cross (c - a)) * (b - a).norm * y / (d.dot (a - b) * w * (b - a).norm) by ring, hX,
      eq_div_iff hp.ne']
    ring
  have ex : (V2.scale (-s) (b - a).perp).x = -s * -(b - a).y := rfl
  have ey : (V2.scale (-s) (b - a).perp).y = -s * (b - a).x := rfl
  have fx : (V2.scale (|s| * (b - a).norm) (nextUnit d b c a w (b - a).norm)).x = |s| * (b - a).norm *
      (1 / (d.dot (a - b) * w * (b - a).norm) * ((b - a).y * (b - a).cross (c - a))) := rfl
  have fy : (V2.scale (|s| * (b - a).norm) (nextUnit d b c a w (b - a).norm)).y = |s| * (b - a).norm *
      (1 / (d.dot (a - b) * w * (b - a).norm) * (-(b - a).x * (b - a).cross (c - a))) := rfl
  ext
  · rw [ex, fx, key]
  · rw [ey, fy, ← key, neg_neg]

end

section
variable [env : F32Env]
variable {W : Set (V2 ℝ)} {M : ℝ}

/-- a computed point of the search -/
def Pt32 (W : Set (V2 ℝ)) (M : ℝ) (a' : V2 F32) (a : V2 ℝ) : Prop := a'.Is a ∧ NPt W (M / 32) (M / 2 ^ 18) a

/-- `M`: the scale of the coordinates -/
structure Scale32 (M : ℝ) : Prop where
  lo : 1 / 2 ^ 16 ≤ M
  hi : M ≤ 2 ^ 26

theorem Scale32.pos (h : Scale32 M) : 0 < M := lt_of_lt_of_le (by positivity) h.lo

theorem Scale32.delta (h : Scale32 M) : 1 / 2 ^ 21 ≤ M / 32 := by
  have := h.lo
  linarith

theorem Pt32.norm (h : Scale32 M) {a' : V2 F32} {a : V2 ℝ} (ha : Pt32 W M a' a) : a.norm ≤ 6 * M ∧ a.norm ≤ 2 ^ 29 := by
  have := ha.2.norm_le h.pos
  have := h.hi
  exact ⟨‹_›, by linarith⟩

theorem Pt32.diff (h : Scale32 M) {a' b' : V2 F32} {a b : V2 ℝ} (ha : Pt32 W M a' a) (hb : Pt32 W M b' b) :
    (b - a).norm ≤ 12 * M ∧ (b - a).norm ≤ 2 ^ 30 := by
  have h1 := V2.norm_sub_le' b a
  have h2 := ha.norm h
  have h3 := hb.norm h
  constructor <;> linarith

/-- the distance of a new point from the old ones -/
theorem new_dist {d b c a : V2 ℝ} {w : ℝ} {k : Nat} (hsc : Scale32 M) (hI : NInv W (M / 32) (M / 2 ^ 18) k d b c w)
    (hD : Deep W (M / 32)) (hext : ∀ m ∈ W, d.dot m ≤ d.dot a + M / 32 / 10) :
    89 / 100 * (M / 32) ≤ d.dot (a - b) ∧ 89 / 100 * (M / 32) ≤ (b - a).norm := by
  have hM := hsc.pos
  have h1 := disc_height (show 0 < M / 32 by positivity) hD hI.1.unit hext
  have h2 : 89 / 100 * (M / 32) ≤ d.dot (a - b) := by
    rw [dot_sub]
    have := hI.1.le
    linarith
  refine ⟨h2, h2.trans ?_⟩
  have := dot_le_norm' d (a - b)
  rw [V2.norm_unit hI.1.unit, one_mul] at this
  rw [show (b - a).norm = (a - b).norm by rw [← V2.norm_neg' (a - b)]; congr 1; ext <;> simp]
  exact this

/-- one candidate for the next edge -/
theorem side_step {d b c a : V2 ℝ} {w s : ℝ} {k : Nat} (hsc : Scale32 M) (hk : k ≤ 100)
    (hI : NInv W (M / 32) (M / 2 ^ 18) k d b c w) (hD : Deep W (M / 32)) {a' : V2 F32} (ha : Pt32 W M a' a)
    (hext : ∀ m ∈ W, d.dot m ≤ d.dot a + M / 32 / 10)
    (hs : 0 < s * (b - a).cross (c - a)) (hlo : 6 / 10 * (M / 32) ^ 2 ≤ |s|) (hhi : |s| ≤ 2 ^ 62)
    (hw1 : (b - a).norm ≤ 2 ^ 30) {n' : V2 F32} {n : V2 ℝ} (hn : n'.Is n)
    (hA : Apx (3 / 2 ^ 24) n (V2.scale (-s) (b - a).perp)) :
    DirNear (1 / 2 ^ 12) n (nextUnit d b c a w (b - a).norm) ∧ (M / 32) ^ 3 / 4 ≤ n.norm ∧
      (sameDirection n' (-a') → NInv W (M / 32) (M / 2 ^ 18) (k + 1) (nextUnit d b c a w (b - a).norm) a b (b - a).norm ∧
        (M / 32) ^ 2 / 4 ≤ (b - a).dot (-a)) := by
  have hM := hsc.pos
  obtain ⟨H1, H2⟩ := new_dist hsc hI hD hext
  have hw0 : 0 < (b - a).norm := lt_of_lt_of_le (by positivity) H2
  have hδ : 0 < M / 32 := by positivity
  have hη : 0 < M / 2 ^ 18 := by positivity
  have hr : 8192 * (M / 2 ^ 18) ≤ M / 32 := by
    have : 8192 * (M / 2 ^ 18) = M / 32 := by ring
    rw [this]
  have hw2 : (b - a).norm ^ 2 = lengthSq (b - a) := V2.norm_sq_lengthSq _
  have st : NStep W (M / 32) (M / 2 ^ 18) (M / 32 / 8 + k * (M / 2 ^ 18)) d b c a w (b - a).norm :=
    ⟨hI.1, hδ, hη, hr, hD, ha.2, hext, hw0, hw2⟩
  have e1 := next_dir st hs
  have hun := V2.norm_unit st.next_unit
  have hs0 : 0 < |s| := lt_of_lt_of_le (by positivity) hlo
  have hl : 0 < |s| * (b - a).norm := mul_pos hs0 hw0
  have hnorm : (V2.scale (-s) (b - a).perp).norm = |s| * (b - a).norm := by
    rw [V2.norm_scale, V2.norm_perp, abs_neg]
  have hbig : 48 / 100 * (M / 32) ^ 3 ≤ |s| * (b - a).norm := by
    have := mul_le_mul hlo H2 (by positivity) hs0.le
    have h3 : 0 < (M / 32) ^ 3 := by positivity
    have e : 6 / 10 * (M / 32) ^ 2 * (89 / 100 * (M / 32)) = 534 / 1000 * (M / 32) ^ 3 := by ring
    rw [e] at this
    linarith
  have hbig' : 1 / 2 ^ 70 ≤ |s| * (b - a).norm := by
    refine le_trans ?_ hbig
    have h3 := pow_le_pow_left₀ (by positivity) hsc.delta 3
    refine le_trans ?_ (mul_le_mul_of_nonneg_left h3 (by norm_num))
    norm_num
  refine ⟨⟨_, hl, ?_⟩, ?_, fun hdir => ?_⟩
  · rw [← e1]
    unfold Apx at hA
    rw [hnorm] at hA
    refine hA.trans (mul_le_mul_of_nonneg_right (by norm_num) hl.le)
  · have := hA.le_norm
    rw [hnorm] at this
    have h3 : 0 < (M / 32) ^ 3 := by positivity
    linarith
  · refine hI.next hk hδ hη hr hD ha.2 hext hw0 hw2 ?_
    obtain ⟨n6, n29⟩ := ha.norm hsc
    -- |a| is not tiny: the disc is below it
    have ha0 : 9 / 10 * (M / 32) ≤ a.norm := by
      have h1 := disc_height hδ hD hI.1.unit hext
      have := dot_le_norm' d a
      rw [V2.norm_unit hI.1.unit, one_mul] at this
      linarith
    have ha1 : 1 / 2 ^ 22 ≤ a.norm := by
      have := hsc.delta
      linarith
    obtain ⟨t, t1, t2⟩ := fl_dot hn ha.1.neg hA (Apx.refl (-a)) (by positivity) (le_refl _) (by norm_num)
      (by
        rw [hnorm, V2.norm_neg']
        exact le_trans (by norm_num) (mul_le_mul hbig' ha1 (by positivity) hl.le))
      (by
        rw [hnorm, V2.norm_neg']
        exact (mul_le_mul (mul_le_mul hhi hw1 hw0.le (by positivity)) n29 a.norm_nonneg (by positivity)).trans (by norm_num))
    have ht : 0 ≤ t := by
      have h' : (0 : F32) ≤ n'.dot (-a') := hdir
      rwa [le_iff is_zero t1] at h'
    rw [e1, V2.norm_scale, hun, mul_one, abs_of_pos hl, V2.norm_neg', scale_dot, dot_neg] at t2
    have t3 := (abs_le.1 t2).2
    have t4 : |s| * (b - a).norm * a.norm / 2 ^ 21 ≤ |s| * (b - a).norm * (M / 2 ^ 18) := by
      have := mul_le_mul_of_nonneg_left n6 hl.le
      have e : |s| * (b - a).norm * (M / 2 ^ 18) = |s| * (b - a).norm * (8 * M) / 2 ^ 21 := by ring
      rw [e]
      refine div_le_div_of_nonneg_right (this.trans ?_) (by positivity)
      exact mul_le_mul_of_nonneg_left (by linarith) hl.le
    refine le_of_mul_le_mul_left ?_ hl
    linarith

/-- the states of the search (`k`: the number of points asked for so far) -/
inductive NState (W : Set (V2 ℝ)) (M : ℝ) : Nat → V2 F32 → List (V2 F32) → Prop
  | none (d' : V2 F32) : NState W M 0 d' []
  | one (b' : V2 F32) (b u : V2 ℝ) : Pt32 W M b' b → lengthSq u = 1 → (∀ m ∈ W, u.dot m ≤ u.dot b + M / 2 ^ 18) →
      NState W M 1 (-b') [b']
  | two (k : Nat) (b' c' d' : V2 F32) (b c d n : V2 ℝ) (w : ℝ) : Pt32 W M b' b → Pt32 W M c' c → d'.Is n →
      DirNear (1 / 2 ^ 12) n d → NInv W (M / 32) (M / 2 ^ 18) k d b c w → NState W M k d' [b', c']

theorem sign_of_close {x y : ℝ} (h : |x - y| < |y|) : 0 < x * y := by
  rcases lt_trichotomy y 0 with h0 | h0 | h0
  · rw [abs_of_neg h0] at h
    have := (abs_lt.1 h).2
    exact mul_pos_of_neg_of_neg (by linarith) h0
  · rw [h0, abs_zero] at h
    exact absurd h (not_lt.2 (abs_nonneg _))
  · rw [abs_of_pos h0] at h
    have := (abs_lt.1 h).1
    exact mul_pos (by linarith) h0

/-- three points -/
theorem noisy_two {d b c a : V2 ℝ} {w : ℝ} {k : Nat} (hsc : Scale32 M) (hk : k ≤ 100)
    (hI : NInv W (M / 32) (M / 2 ^ 18) k d b c w) (hD : Deep W (M / 32)) {a' b' c' : V2 F32} (ha : Pt32 W M a' a)
    (hb : Pt32 W M b' b) (hc : Pt32 W M c' c) (hext : ∀ m ∈ W, d.dot m ≤ d.dot a + M / 32 / 10) :
    ∃ r, addPoint [b', c'] a' = .ok r ∧ (r.collides = true ∨ r.collides = false ∧ NState W M (k + 1) r.dir r.pts ∧
      ∃ n, r.dir.Is n ∧ (M / 32) ^ 3 / 4 ≤ n.norm) := by
  have hM := hsc.pos
  have hδ : 0 < M / 32 := by positivity
  have hδl := hsc.delta
  obtain ⟨H1, H2⟩ := new_dist hsc hI hD hext
  obtain ⟨-, H3⟩ := new_dist hsc hI.symm hD hext
  obtain ⟨tb2, tb⟩ := ha.diff hsc hb
  obtain ⟨tc2, tc⟩ := ha.diff hsc hc
  have pb : 0 < (b - a).norm := lt_of_lt_of_le (by positivity) H2
  have pc : 0 < (c - a).norm := lt_of_lt_of_le (by positivity) H3
  have lb : 1 / 2 ^ 22 ≤ (b - a).norm := by linarith
  have lc : 1 / 2 ^ 22 ≤ (c - a).norm := by linarith
  obtain ⟨e, e1, e2⟩ := fl_sub hb.1 ha.1 (tb.trans (by norm_num))
  obtain ⟨f, f1, f2⟩ := fl_sub hc.1 ha.1 (tc.trans (by norm_num))
  obtain ⟨D, D1, D2⟩ := fl_cross e1 f1 e2 f2 (by positivity) (by positivity) (by norm_num)
    (le_trans (by norm_num) (mul_le_mul lb lc (by positivity) pb.le))
    ((mul_le_mul tb tc pc.le (by positivity)).trans (by norm_num))
  have hr : 8192 * (M / 2 ^ 18) ≤ M / 32 := le_of_eq (by ring)
  have st : NStep W (M / 32) (M / 2 ^ 18) (M / 32 / 8 + k * (M / 2 ^ 18)) d b c a w (b - a).norm :=
    ⟨hI.1, hδ, by positivity, hr, hD, ha.2, hext, pb, V2.norm_sq_lengthSq _⟩
  have X1 : |(b - a).cross (c - a)| = d.dot (a - b) * w := by
    rw [← abs_of_pos (mul_pos st.H0 st.e.w0)]
    exact (sq_eq_sq_iff_abs_eq_abs _ _).1 st.cross_sq
  have X2 : 712 / 1000 * (M / 32) ^ 2 ≤ |(b - a).cross (c - a)| := by
    rw [X1]
    have := mul_le_mul H1 st.e.wlo (by positivity) st.H0.le
    have e : 89 / 100 * (M / 32) * (8 / 10 * (M / 32)) = 712 / 1000 * (M / 32) ^ 2 := by ring
    rwa [e] at this
  have D3 : |D - (b - a).cross (c - a)| ≤ 8 / 100 * (M / 32) ^ 2 := by
    refine D2.trans ?_
    have := mul_le_mul tb2 tc2 pc.le (by positivity)
    have e : 12 * M * (12 * M) = 147456 * (M / 32) ^ 2 := by ring
    rw [e] at this
    have h0 : 0 < (M / 32) ^ 2 := by positivity
    linarith
  have hδ2 : 0 < (M / 32) ^ 2 := by positivity
  have D4 : 0 < D * (b - a).cross (c - a) := sign_of_close (by linarith)
  have D5 : 6 / 10 * (M / 32) ^ 2 ≤ |D| := by
    have := abs_sub_abs_le_abs_sub ((b - a).cross (c - a)) D
    rw [abs_sub_comm] at this
    linarith
  have D6 : |D| ≤ 2 ^ 62 := by
    have h1 := abs_sub_abs_le_abs_sub D ((b - a).cross (c - a))
    have h2 := cross_le_norm (b - a) (c - a)
    have h3 := mul_le_mul tb tc pc.le (by positivity)
    have h4 : (2 : ℝ) ^ 30 * 2 ^ 30 + 2 ^ 30 * 2 ^ 30 / 2 ^ 21 ≤ 2 ^ 62 := by norm_num
    linarith
  have D0 : 0 < |D| := lt_of_lt_of_le (by positivity) D5
  have D7 : 1 / 2 ^ 44 ≤ |D| := by
    refine le_trans ?_ D5
    have h3 := pow_le_pow_left₀ (by positivity) hδl 2
    refine le_trans ?_ (mul_le_mul_of_nonneg_left h3 (by norm_num))
    norm_num
  have bigb : 1 / 2 ^ 100 ≤ |-D| * (b - a).perp.norm := by
    rw [abs_neg, V2.norm_perp]
    exact le_trans (by norm_num) (mul_le_mul D7 lb (by positivity) D0.le)
  have bigc : 1 / 2 ^ 100 ≤ |D| * (c - a).perp.norm := by
    rw [V2.norm_perp]
    exact le_trans (by norm_num) (mul_le_mul D7 lc (by positivity) D0.le)
  obtain ⟨P, P1, P2⟩ := fl_scale (d' := (b' - a').crossF32 ((b' - a').cross (c' - a'))) (s := -D) (n := e.perp)
    (N := (b - a).perp) rfl e1.2 D1 (is_neg e1.1) D1 (by rw [perp_x]; ring) (by rw [perp_y]; ring) e2.perp bigb
    (by rw [V2.norm_perp, abs_neg]; exact (mul_le_mul D6 tb pb.le (by positivity)).trans (by norm_num))
  obtain ⟨Q, Q1, Q2⟩ := fl_scale (d' := crossSV ((b' - a').cross (c' - a')) (c' - a')) (s := D) (n := f.perp)
    (N := (c - a).perp) rfl (is_neg D1) f1.2 D1 f1.1 (by rw [perp_x]; ring) (by rw [perp_y]) f2.perp bigc
    (by rw [V2.norm_perp]; exact (mul_le_mul D6 tc pc.le (by positivity)).trans (by norm_num))
  obtain ⟨r1, r2, r3⟩ := side_step hsc hk hI hD ha hext D4 D5 D6 tb P1 P2
  obtain ⟨s1, s2, s3⟩ := side_step (s := -D) hsc hk hI.symm hD ha hext
    (by rw [show (c - a).cross (b - a) = -(b - a).cross (c - a) by simp only [cross_def]; ring]; linarith)
    (by rwa [abs_neg]) (by rwa [abs_neg]) tc Q1 (by rw [neg_neg]; exact Q2)
  by_cases E1 : sameDirection ((b' - a').crossF32 ((b' - a').cross (c' - a'))) (-a')
  · obtain ⟨I1, g1⟩ := r3 E1
    have E2 : sameDirection (b' - a') (-a') := by
      have ha0 : 9 / 10 * (M / 32) ≤ a.norm := by
        have h1 := disc_height hδ hD hI.1.unit hext
        have := dot_le_norm' d a
        rw [V2.norm_unit hI.1.unit, one_mul] at this
        linarith
      have ha1 : 1 / 2 ^ 22 ≤ a.norm := by linarith
      obtain ⟨n6, n29⟩ := ha.norm hsc
      obtain ⟨s, s1, s2⟩ := fl_dot e1 ha.1.neg e2 (Apx.refl (-a)) (by positivity) (le_refl _) (by norm_num)
        (by rw [V2.norm_neg']; exact le_trans (by norm_num) (mul_le_mul lb ha1 (by positivity) pb.le))
        (by rw [V2.norm_neg']; exact (mul_le_mul tb n29 a.norm_nonneg (by positivity)).trans (by norm_num))
      show (0 : F32) ≤ _
      rw [le_iff is_zero s1]
      rw [V2.norm_neg'] at s2
      have q2 := (abs_le.1 s2).1
      have q3 := mul_le_mul tb2 n6 a.norm_nonneg (by positivity)
      have e : 12 * M * (6 * M) = 73728 * (M / 32) ^ 2 := by ring
      rw [e] at q3
      linarith
    refine ⟨⟨false, (b' - a').crossF32 ((b' - a').cross (c' - a')), [a', b']⟩, ?_, Or.inr ⟨rfl, ?_, P, P1, r2⟩⟩
    · simp only [addPoint, if_pos E1, if_pos E2]
    · exact .two _ _ _ _ a b _ P _ ha hb P1 r1 I1
  · by_cases E2 : sameDirection (crossSV ((b' - a').cross (c' - a')) (c' - a')) (-a')
    · obtain ⟨I1, g1⟩ := s3 E2
      refine ⟨⟨false, crossSV ((b' - a').cross (c' - a')) (c' - a'), [a', c']⟩, ?_, Or.inr ⟨rfl, ?_, Q, Q1, s2⟩⟩
      · simp only [addPoint, if_neg E1, if_pos E2]
      · exact .two _ _ _ _ a c _ Q _ ha hc Q1 s1 I1
    · refine ⟨⟨true, V2.nan, [a', b', c']⟩, ?_, Or.inl rfl⟩
      simp only [addPoint, if_neg E1, if_neg E2]

/-- the unit normal of `V`, on the side given by `σ` -/
theorem unit_normal {V : V2 ℝ} {σ : ℝ} (hV : 0 < V.norm) (hσ : σ * σ = 1) :
    lengthSq (V2.scale (σ / V.norm) V.perp) = 1 := by
  rw [lengthSq_scale, div_pow, V2.norm_sq_lengthSq, sq, hσ]
  have : lengthSq V.perp = lengthSq V := by simp only [lengthSq_def, perp_x, perp_y]; ring
  rw [this]
  have h : lengthSq V ≠ 0 := by rw [← V2.norm_sq_lengthSq]; positivity
  exact one_div_mul_cancel h

/-- a product direction that passes the size test is not made of tiny factors -/
theorem factor_of_not_small {e' : V2 F32} {C' : F32} {e V : V2 ℝ} {C : ℝ} (he : e'.Is e) (hC : F32.Is C' C)
    (hA : Apx (1 / 2 ^ 24) e V) (h : ¬ directionTooSmall (⟨-e'.y * C', e'.x * C'⟩ : V2 F32)) : 1 / 2 ^ 100 ≤ |C| * V.norm := by
  by_contra hcon
  push Not at hcon
  have h1 : |C| * e.norm ≤ 1 / 2 ^ 99 := by
    have := mul_le_mul_of_nonneg_left hA.norm_le (abs_nonneg C)
    have h0 : 0 ≤ |C| * V.norm := mul_nonneg (abs_nonneg _) V.norm_nonneg
    have h2 : (1 + 1 / 2 ^ 24) * (|C| * V.norm) ≤ 2 * (1 / 2 ^ 100) := mul_le_mul (by norm_num) hcon.le h0 (by norm_num)
    have h3 : (2 : ℝ) * (1 / 2 ^ 100) = 1 / 2 ^ 99 := by norm_num
    rw [h3] at h2
    linarith
  have b1 : |-e.y * C| ≤ 1 / 2 ^ 99 := by
    rw [abs_mul, abs_neg, mul_comm]
    exact (mul_le_mul_of_nonneg_left (V2.abs_y_le_norm e) (abs_nonneg _)).trans h1
  have b2 : |e.x * C| ≤ 1 / 2 ^ 99 := by
    rw [abs_mul, mul_comm]
    exact (mul_le_mul_of_nonneg_left (V2.abs_x_le_norm e) (abs_nonneg _)).trans h1
  have hb : (1 : ℝ) / 2 ^ 99 ≤ 3 * (2 : ℝ) ^ (126 : ℤ) := by norm_num
  obtain ⟨x, x1, x2, -, -⟩ := F32.round_mul (is_neg he.2) hC (b1.trans hb)
  obtain ⟨y, y1, y2, -, -⟩ := F32.round_mul he.1 hC (b2.trans hb)
  have h2 := l1_of_not_small (d' := ⟨-e'.y * C', e'.x * C'⟩) (d := ⟨x, y⟩) ⟨x1, y1⟩ h
  have key : ∀ {u v : ℝ}, |v| ≤ 1 / 2 ^ 99 → |u - v| ≤ |v| / 2 ^ 24 + 1 / 2 ^ 150 → |u| ≤ 1 / 2 ^ 90 := by
    intro u v hv hu
    have h3 := abs_add_le (u - v) v
    rw [sub_add_cancel] at h3
    have h4 : (1 : ℝ) / 2 ^ 99 / 2 ^ 24 + 1 / 2 ^ 150 + 1 / 2 ^ 99 ≤ 1 / 2 ^ 90 := by norm_num
    have h5 : |v| / 2 ^ 24 ≤ 1 / 2 ^ 99 / 2 ^ 24 := div_le_div_of_nonneg_right hv (by positivity)
    linarith only [h3, h4, h5, hu, hv]
  have k1 := key b1 x2
  have k2 := key b2 y2
  have k3 : (1 : ℝ) / 2 ^ 90 + 1 / 2 ^ 90 < (2 : ℝ) ^ (-60 : ℤ) := by norm_num
  have h2 : (2 : ℝ) ^ (-60 : ℤ) ≤ |x| + |y| := h2
  exact absurd (h2.trans (add_le_add k1 k2)) (not_le.2 k3)

/-- two points -/
theorem noisy_one {u a b : V2 ℝ} (hsc : Scale32 M) (hD : Deep W (M / 32)) (hW : ∀ m ∈ W, m.norm ≤ 6 * M)
    {a' b' : V2 F32} (ha : Pt32 W M a' a) (hb : Pt32 W M b' b) (hu : lengthSq u = 1)
    (eu : ∀ m ∈ W, u.dot m ≤ u.dot b + M / 2 ^ 18) (he : ∀ m ∈ W, (-b).dot m ≤ (-b).dot a + 24 * (M / 2 ^ 24) * (-b).l1) :
    ∃ r, addPoint [b'] a' = .ok r ∧ r.collides = false ∧ (¬ directionTooSmall r.dir → NState W M 2 r.dir r.pts) ∧
      (8 ≤ M → directionTooSmall r.dir → NState W M 2 (-b').perp r.pts) := by
  have hM := hsc.pos
  have hδ : 0 < M / 32 := by positivity
  have hη : 0 < M / 2 ^ 18 := by positivity
  have hδl := hsc.delta
  have hr : 8192 * (M / 2 ^ 18) ≤ M / 32 := le_of_eq (by ring)
  obtain ⟨n6, n29⟩ := ha.norm hsc
  obtain ⟨b6, b29⟩ := hb.norm hsc
  obtain ⟨t2, t1⟩ := ha.diff hsc hb
  -- the length of `b`
  have hb0 : 9 / 10 * (M / 32) ≤ b.norm := by
    have h1 := disc_height hδ hD hu eu
    have := dot_le_norm' u b
    rw [V2.norm_unit hu, one_mul] at this
    linarith
  have hb1 : 0 < b.norm := lt_of_lt_of_le (by positivity) hb0
  have hu1 : lengthSq (V2.scale (1 / b.norm) (-b)) = 1 := by
    rw [lengthSq_scale, div_pow, V2.norm_sq_lengthSq, one_pow]
    have : lengthSq (-b) = lengthSq b := by simp only [lengthSq_def, neg_x, neg_y]; ring
    rw [this]
    exact one_div_mul_cancel (by rw [← V2.norm_sq_lengthSq]; positivity)
  have eb : -b = V2.scale b.norm (V2.scale (1 / b.norm) (-b)) := by
    have : ∀ x : ℝ, x = b.norm * (1 / b.norm * x) := fun x => by
      rw [← mul_assoc, mul_one_div_cancel hb1.ne', one_mul]
    ext
    · exact this _
    · exact this _
  have hext : ∀ m ∈ W, (V2.scale (1 / b.norm) (-b)).dot m ≤ (V2.scale (1 / b.norm) (-b)).dot a + M / 2 ^ 18 := by
    intro m hm
    have h1 := ext_of_near hM (le_refl 0) (by positivity) hu1 ⟨b.norm, hb1, by rw [← eb, sub_self, V2.norm_zero, zero_mul]⟩
      hW n6 he m hm
    have e : M / 2 ^ 18 = 64 * (M / 2 ^ 24) := by ring
    rw [e]
    have : 0 < M / 2 ^ 24 := by positivity
    linarith
  have hX : ∀ m ∈ W, lengthSq m ≤ (192 * (M / 32)) ^ 2 := by
    intro m hm
    rw [← V2.norm_sq_lengthSq, show 192 * (M / 32) = 6 * M by ring]
    exact pow_le_pow_left₀ m.norm_nonneg (hW m hm) 2
  have start := fun (d : V2 ℝ) => NInv.start (d := d) hδ hη hr hD hX hb.2 hu eu ha.2 hb1 hu1 eb hext
    (V2.norm_sq_lengthSq (b - a)) (b - a).norm_nonneg
  obtain ⟨w1, w2, -, -⟩ := start 0
  have hw0 : 0 < (b - a).norm := lt_of_lt_of_le (by positivity) w1
  have lw : 1 / 2 ^ 21 ≤ (b - a).norm := by linarith
  have ha0 : 9 / 10 * (M / 32) ≤ a.norm := by
    have h1 := disc_height hδ hD hu1 hext
    have := dot_le_norm' (V2.scale (1 / b.norm) (-b)) a
    rw [V2.norm_unit hu1, one_mul] at this
    linarith
  have ha1 : 1 / 2 ^ 22 ≤ a.norm := by linarith
  obtain ⟨e, e1, e2⟩ := fl_sub hb.1 ha.1 (t1.trans (by norm_num))
  have lo : 1 / 2 ^ 100 ≤ (b - a).norm * (-a).norm := by
    rw [V2.norm_neg']
    exact le_trans (by norm_num) (mul_le_mul lw ha1 (by positivity) hw0.le)
  have hi : (b - a).norm * (-a).norm ≤ (2 : ℝ) ^ (124 : ℤ) := by
    rw [V2.norm_neg']
    exact (mul_le_mul t1 n29 a.norm_nonneg (by positivity)).trans (by norm_num)
  obtain ⟨s, s1, s2⟩ := fl_dot e1 ha.1.neg e2 (Apx.refl (-a)) (by positivity) (le_refl _) (by norm_num) lo hi
  have htest : (b' - a').dot (-a') ≥ 0 := by
    show (0 : F32) ≤ _
    rw [le_iff is_zero s1]
    rw [V2.norm_neg'] at s2
    have q2 := (abs_le.1 s2).1
    have q3 := mul_le_mul t2 n6 a.norm_nonneg (by positivity)
    have e : 12 * M * (6 * M) = 73728 * (M / 32) ^ 2 := by ring
    rw [e] at q3
    have : 0 < (M / 32) ^ 2 := by positivity
    linarith
  obtain ⟨C, c1, c2⟩ := fl_cross e1 ha.1.neg e2 (Apx.refl (-a)) (by positivity) (le_refl _) (by norm_num) lo hi
  rw [V2.norm_neg'] at c2
  have c3 : |C - (b - a).cross (-a)| ≤ (b - a).norm * (48 * (M / 2 ^ 24)) := by
    refine c2.trans ?_
    have := mul_le_mul_of_nonneg_left n6 hw0.le
    have e : (b - a).norm * (48 * (M / 2 ^ 24)) = (b - a).norm * (6 * M) / 2 ^ 21 := by ring
    rw [e]
    exact div_le_div_of_nonneg_right this (by positivity)
  have cup : |C| ≤ 2 ^ 62 := by
    have h1 := abs_sub_abs_le_abs_sub C ((b - a).cross (-a))
    have h2 := cross_le_norm (b - a) (-a)
    rw [V2.norm_neg'] at h2
    have h3 := mul_le_mul t1 n29 a.norm_nonneg (by positivity)
    have h4 : (2 : ℝ) ^ 30 * 2 ^ 29 + 2 ^ 30 * 2 ^ 29 / 2 ^ 21 ≤ 2 ^ 62 := by norm_num
    linarith
  have hmul := fun (h : 1 / 2 ^ 100 ≤ |C| * (b - a).norm) =>
    fl_scale (d' := (b' - a').crossAba (-a')) (s := C) (n := e.perp) (N := (b - a).perp)
      rfl (is_neg e1.2) c1 e1.1 c1 (by rw [perp_x]; ring) (by rw [perp_y]; ring) e2.perp
      (by rw [V2.norm_perp]; exact h)
      (by rw [V2.norm_perp]; exact (mul_le_mul cup t1 hw0.le (by positivity)).trans (by norm_num))
  -- the unit normals of the edge
  have side : ∀ σ : ℝ, (V2.scale (σ / (b - a).norm) (b - a).perp).dot a * (b - a).norm = -σ * (b - a).cross (-a) := by
    intro σ
    rw [scale_dot, div_mul_eq_mul_div, div_mul_cancel₀ _ hw0.ne']
    simp only [dot_def, cross_def, perp_x, perp_y, neg_x, neg_y]; ring
  have level : ∀ σ : ℝ, (V2.scale (σ / (b - a).norm) (b - a).perp).dot a =
      (V2.scale (σ / (b - a).norm) (b - a).perp).dot b := by
    intro σ
    rw [scale_dot, scale_dot]
    congr 1
    simp only [dot_def, perp_x, perp_y, sub_x, sub_y]; ring
  refine ⟨⟨false, (b' - a').crossAba (-a'), [a', b']⟩, by simp only [addPoint, if_pos htest], rfl, fun hs => ?_,
    fun hM8 hs => ?_⟩
  · have hbig := factor_of_not_small e1 c1 e2 hs
    obtain ⟨n, i, hA⟩ := hmul hbig
    have hC : C ≠ 0 := by
      rintro rfl
      rw [abs_zero, zero_mul] at hbig
      have : (0 : ℝ) < 1 / 2 ^ 100 := by positivity
      linarith
    have hC0 := abs_pos.2 hC
    have hσ : C / |C| * (C / |C|) = 1 := by
      rw [div_mul_div_comm, abs_mul_abs_self]
      exact div_self (mul_self_ne_zero.2 hC)
    have hl : 0 < |C| * (b - a).norm := mul_pos hC0 hw0
    have e3 : V2.scale C (b - a).perp =
        V2.scale (|C| * (b - a).norm) (V2.scale (C / |C| / (b - a).norm) (b - a).perp) := by
      have : ∀ x : ℝ, C * x = |C| * (b - a).norm * (C / |C| / (b - a).norm * x) := by
        intro x
        field_simp
      ext
      · exact this _
      · exact this _
    refine .two 2 _ _ _ a b (V2.scale (C / |C| / (b - a).norm) (b - a).perp) n _ ha hb i ⟨_, hl, ?_⟩
      ((start _).2.2.2 (unit_normal hw0 hσ) (level _) ?_)
    · rw [← e3]
      unfold Apx at hA
      rw [V2.norm_scale, V2.norm_perp] at hA
      exact hA.trans (mul_le_mul_of_nonneg_right (by norm_num) hl.le)
    · refine le_of_mul_le_mul_right ?_ hw0
      rw [side]
      have h1 : |C / |C| * (C - (b - a).cross (-a))| ≤ (b - a).norm * (48 * (M / 2 ^ 24)) := by
        rw [abs_mul, abs_div, abs_abs, div_self hC0.ne', one_mul]
        exact c3
      have h2 := (abs_le.1 h1).2
      have h3 : C / |C| * C = |C| := by
        rw [div_mul_eq_mul_div, ← abs_mul_abs_self, mul_div_assoc, div_self hC0.ne', mul_one]
      rw [mul_sub, h3] at h2
      have e4 : M / 2 ^ 18 * (b - a).norm = (b - a).norm * (64 * (M / 2 ^ 24)) := by ring
      have h4 : 0 < (b - a).norm * (M / 2 ^ 24) := by positivity
      rw [e4]
      linarith
  · -- the size of the cross product
    have hsmall : |C| * (b - a).norm ≤ 1 / 2 ^ 21 := by
      by_cases h : 1 / 2 ^ 100 ≤ |C| * (b - a).norm
      · obtain ⟨n, i, hA⟩ := hmul h
        by_contra hcon
        push Not at hcon
        refine not_small_of_norm i ?_ hs
        have := hA.le_norm
        rw [V2.norm_scale, V2.norm_perp] at this
        linarith
      · push Not at h
        have : (1 : ℝ) / 2 ^ 100 ≤ 1 / 2 ^ 21 := by norm_num
        linarith
    have hw1 : 47 / 100 ≤ (b - a).norm := by linarith
    have hcr : |(b - a).cross (-a)| ≤ (b - a).norm * (64 * (M / 2 ^ 24)) := by
      have h1 := abs_sub_abs_le_abs_sub ((b - a).cross (-a)) C
      rw [abs_sub_comm] at h1
      have h2 : |C| ≤ (b - a).norm * (16 * (M / 2 ^ 24)) := by
        have h3 : |C| * (47 / 100) ≤ 1 / 2 ^ 21 := (mul_le_mul_of_nonneg_left hw1 (abs_nonneg C)).trans hsmall
        have h4 : 47 / 100 * (16 * (8 / 2 ^ 24)) ≤ (b - a).norm * (16 * (M / 2 ^ 24)) :=
          mul_le_mul hw1 (by linarith) (by positivity) hw0.le
        linarith
      linarith
    have hσ : (-1 : ℝ) * -1 = 1 := by norm_num
    -- the foot on the edge
    obtain ⟨t, et⟩ : ∃ t, t = (b - a).dot b / (b - a).norm := ⟨_, rfl⟩
    have ht : t * (b - a).norm = (b - a).dot b := by rw [et, div_mul_cancel₀ _ hw0.ne']
    have ecr : (b - a).cross b = -(b - a).cross (-a) := by
      simp only [cross_def, sub_x, sub_y, neg_x, neg_y]; ring
    have hpy : (t * (b - a).norm) ^ 2 + (b - a).cross (-a) ^ 2 = (b.norm * (b - a).norm) ^ 2 := by
      rw [ht, ← neg_sq ((b - a).cross (-a)), ← ecr, mul_pow, V2.norm_sq_lengthSq, V2.norm_sq_lengthSq]
      simp only [dot_def, cross_def, lengthSq_def, sub_x, sub_y]; ring
    have htp : 0 < t := by
      have h1 := disc_height hδ hD hu1 hext
      have h2 : b.norm * (V2.scale (1 / b.norm) (-b)).dot a = -b.dot a := by
        rw [← scale_dot, ← eb, neg_dot]
      have h3 : 0 < -b.dot a := by
        rw [← h2]
        exact mul_pos hb1 (by linarith)
      have h4 : (b - a).dot b = b.norm ^ 2 - b.dot a := by
        rw [V2.norm_sq_lengthSq]; simp only [dot_def, lengthSq_def, sub_x, sub_y]; ring
      rw [et, h4]
      have h5 : 0 < b.norm ^ 2 := by positivity
      exact div_pos (by linarith) hw0
    have ht2 : 8 / 10 * (M / 32) ≤ t := by
      refine le_of_sq htp.le ?_
      refine le_of_mul_le_mul_right ?_ (show 0 < (b - a).norm ^ 2 by positivity)
      have h1 := pow_le_pow_left₀ (abs_nonneg _) hcr 2
      rw [sq_abs] at h1
      have h2 := pow_le_pow_left₀ (by positivity) hb0 2
      have h3 := mul_le_mul_of_nonneg_right h2 (show 0 ≤ (b - a).norm ^ 2 by positivity)
      have e4 : ((b - a).norm * (64 * (M / 2 ^ 24))) ^ 2 = (b - a).norm ^ 2 * (M / 32) ^ 2 / 8192 ^ 2 := by ring
      rw [e4] at h1
      have h5 : 0 < (b - a).norm ^ 2 * (M / 32) ^ 2 := by positivity
      rw [mul_pow, mul_pow] at hpy
      rw [mul_pow] at h3 ⊢
      linarith
    refine .two 2 _ _ _ a b (V2.scale (-1 / (b - a).norm) (b - a).perp) _ _ ha hb hb.1.neg.perp ⟨t, htp, ?_⟩
      ((start _).2.2.2 (unit_normal hw0 hσ) (level _) ?_)
    · have e5 : (-b).perp - V2.scale t (V2.scale (-1 / (b - a).norm) (b - a).perp) =
          V2.scale (-(b - a).cross (-a) / (b - a).norm ^ 2) (b - a) := by
        have hn := V2.norm_sq_lengthSq (b - a)
        have hn2 : (b - a).norm ^ 2 ≠ 0 := by positivity
        have et2 : t * (-1 / (b - a).norm) = -(b - a).dot b / (b - a).norm ^ 2 := by
          rw [et]; field_simp
        have key : ∀ x y z : ℝ, x * (b - a).norm ^ 2 = -(b - a).dot b * y + -(b - a).cross (-a) * z →
            x - t * (-1 / (b - a).norm * y) = -(b - a).cross (-a) / (b - a).norm ^ 2 * z := by
          intro x y z h
          rw [← mul_assoc, et2, sub_eq_iff_eq_add, div_mul_eq_mul_div, div_mul_eq_mul_div, ← add_div, eq_div_iff hn2, h]
          ring
        ext
        · refine key _ _ _ ?_
          rw [hn]
          simp only [dot_def, cross_def, lengthSq_def, perp_x, sub_x, sub_y, neg_x, neg_y]; ring
        · refine key _ _ _ ?_
          rw [hn]
          simp only [dot_def, cross_def, lengthSq_def, perp_y, sub_x, sub_y, neg_x, neg_y]; ring
      rw [e5, V2.norm_scale, abs_div, abs_neg, abs_of_pos (show 0 < (b - a).norm ^ 2 by positivity)]
      have h1 : |(b - a).cross (-a)| / (b - a).norm ^ 2 * (b - a).norm = |(b - a).cross (-a)| / (b - a).norm := by
        field_simp
      rw [h1, div_le_iff₀ hw0]
      refine hcr.trans ?_
      rw [mul_comm]
      refine mul_le_mul_of_nonneg_right ?_ hw0.le
      linarith
    · refine le_of_mul_le_mul_right ?_ hw0
      rw [side]
      have := le_abs_self ((b - a).cross (-a))
      have e4 : M / 2 ^ 18 * (b - a).norm = (b - a).norm * (64 * (M / 2 ^ 24)) := by ring
      rw [e4]
      linarith

/-- one step from any state -/
theorem nstate_add {d a : V2 ℝ} {k : Nat} (hsc : Scale32 M) (hk : k ≤ 100) (hD : Deep W (M / 32))
    (hW : ∀ m ∈ W, m.norm ≤ 6 * M) {a' d' : V2 F32} {pts : List (V2 F32)} (hst : NState W M k d' pts) (hd : d'.Is d)
    (hd0 : 0 < d.norm) (ha : Pt32 W M a' a) (he : ∀ m ∈ W, d.dot m ≤ d.dot a + 24 * (M / 2 ^ 24) * d.l1) :
    ∃ r, addPoint pts a' = .ok r ∧ (r.collides = true ∨ r.collides = false ∧
      (¬ directionTooSmall r.dir → NState W M (k + 1) r.dir r.pts) ∧
      (8 ≤ M → directionTooSmall r.dir → NState W M (k + 1) d'.perp r.pts)) := by
  have hM := hsc.pos
  obtain ⟨n6, n29⟩ := ha.norm hsc
  cases hst with
  | none =>
    -- the unit vector along `d`
    have hu : lengthSq (V2.scale (1 / d.norm) d) = 1 := by
      rw [lengthSq_scale, div_pow, V2.norm_sq_lengthSq, one_pow]
      exact one_div_mul_cancel (by rw [← V2.norm_sq_lengthSq]; positivity)
    have eb : d = V2.scale d.norm (V2.scale (1 / d.norm) d) := by
      have : ∀ x : ℝ, x = d.norm * (1 / d.norm * x) := fun x => by
        rw [← mul_assoc, mul_one_div_cancel hd0.ne', one_mul]
      ext
      · exact this _
      · exact this _
    have hext : ∀ m ∈ W, (V2.scale (1 / d.norm) d).dot m ≤ (V2.scale (1 / d.norm) d).dot a + M / 2 ^ 18 := by
      intro m hm
      have h1 := ext_of_near hM (le_refl 0) (by positivity) hu ⟨d.norm, hd0, by rw [← eb, sub_self, V2.norm_zero, zero_mul]⟩
        hW n6 he m hm
      have e : M / 2 ^ 18 = 64 * (M / 2 ^ 24) := by ring
      rw [e]
      have : 0 < M / 2 ^ 24 := by positivity
      linarith
    have hst : NState W M 1 (-a') [a'] := .one a' a _ ha hu hext
    refine ⟨⟨false, -a', [a']⟩, rfl, Or.inr ⟨rfl, fun _ => hst, fun _ h => absurd h ?_⟩⟩
    refine not_small_of_norm ha.1.neg ?_
    rw [V2.norm_neg']
    have hδ : 0 < M / 32 := by positivity
    have h1 := disc_height hδ hD hu hext
    have h2 := dot_le_norm' (V2.scale (1 / d.norm) d) a
    rw [V2.norm_unit hu, one_mul] at h2
    have := hsc.delta
    linarith
  | one b' b u hb hu eu =>
    have e : d = -b := V2.ext (hd.1.unique hb.1.neg.1) (hd.2.unique hb.1.neg.2)
    subst e
    obtain ⟨r, h1, h2, h3, h4⟩ := noisy_one hsc hD hW ha hb hu eu he
    exact ⟨r, h1, Or.inr ⟨h2, h3, h4⟩⟩
  | two _ b' c' _ b c v n w hb hc hn hnear hI =>
    have e : d = n := V2.ext (hd.1.unique hn.1) (hd.2.unique hn.2)
    subst e
    have hext : ∀ m ∈ W, v.dot m ≤ v.dot a + M / 32 / 10 := by
      intro m hm
      have h1 := ext_of_near hM (by positivity) (le_refl _) hI.1.unit hnear hW n6 he m hm
      linarith
    obtain ⟨r, h1, h2 | ⟨h2, h3, n', h4, h5⟩⟩ := noisy_two hsc hk hI hD ha hb hc hext
    · exact ⟨r, h1, Or.inl h2⟩
    · refine ⟨r, h1, Or.inr ⟨h2, fun _ => h3, fun hM8 hs => absurd hs (not_small_of_norm h4 ?_)⟩⟩
      refine le_trans ?_ h5
      have h6 : (1 : ℝ) / 4 ≤ M / 32 := by linarith
      have h7 := pow_le_pow_left₀ (by norm_num) h6 3
      linarith

theorem NState.bound {k : Nat} {d' : V2 F32} {pts : List (V2 F32)} (h : NState W M k d' pts) (hM : 0 < M) :
    k < 16 ∧ pts.length ≤ 2 := by
  cases h with
  | none => exact ⟨by norm_num, by simp⟩
  | one => exact ⟨by norm_num, by simp⟩
  | two _ b' c' _ b c v n w hb hc hn hnear hI =>
    exact ⟨hI.bound (by positivity) (by positivity) (le_of_eq (by ring)), by simp⟩

/-! ## the loops -/

variable {k : ℤ} {S : V2 F32 → V2 F32}

/-- what is known of the support function: nearly extreme points, next to points of the set -/
structure DeepSupport (k : ℤ) (W : Set (V2 ℝ)) (M : ℝ) (S : V2 F32 → V2 F32) : Prop where
  noisy : Noisy k W M S
  near : NoisyGrid False True k W M S

theorem DeepSupport.pt (hS : DeepSupport k W M S) (hM : 0 < M) {d' : V2 F32} {d : V2 ℝ} (hd : d'.Is d) (hD : DirB k d)
    (hl : (2 : ℝ) ^ (-60 : ℤ) ≤ d.l1) :
    ∃ p, Pt32 W M (S d') p ∧ p.Coord (4 * M) ∧ ∀ m ∈ W, d.dot m ≤ d.dot p + 24 * (M / 2 ^ 24) * d.l1 := by
  obtain ⟨p, p1, p2, p3⟩ := hS.noisy d' d hd hD hl
  obtain ⟨q, q1, q2⟩ := hS.near d' d hd hD (fun _ => hl)
  have e : q = p := V2.ext (q1.1.unique p1.1) (q1.2.unique p1.2)
  subst e
  obtain ⟨x, hx, x1, x2⟩ := q2.near
  refine ⟨q, ⟨p1, ?_, x, hx, ?_⟩, p2, p3⟩
  · obtain ⟨c1, c2⟩ := p2
    have r1 : q.x * q.x ≤ 16 * (M * M) := by
      rw [← abs_mul_abs_self]
      have := mul_le_mul c1 c1 (abs_nonneg _) (by positivity)
      linarith
    have r2 : q.y * q.y ≤ 16 * (M * M) := by
      rw [← abs_mul_abs_self]
      have := mul_le_mul c2 c2 (abs_nonneg _) (by positivity)
      linarith
    have r3 := mul_pos hM hM
    have e : (192 * (M / 32)) ^ 2 = 36 * (M * M) := by ring
    rw [lengthSq_def, e]; linarith
  · have e : M / 2 ^ 18 = 64 * (M / 2 ^ 24) := by ring
    rw [lengthSq_def, e]
    have h1 := pow_le_pow_left₀ (abs_nonneg _) x1 2
    have h2 := pow_le_pow_left₀ (abs_nonneg _) x2 2
    rw [sq_abs] at h1 h2
    have r3 : 0 < (M / 2 ^ 24) ^ 2 := by positivity
    rw [mul_pow] at *
    have e1 : (q - x).x * (q - x).x = (q.x - x.x) ^ 2 := by rw [sub_x]; ring
    have e2 : (q - x).y * (q - x).y = (q.y - x.y) ^ 2 := by rw [sub_y]; ring
    rw [e1, e2]
    linarith

/-- the points of the set are not far away -/
theorem DeepSupport.size (hS : DeepSupport k W M S) (hM : 0 < M) (hk : 0 ≤ k) : ∀ m ∈ W, m.norm ≤ 6 * M := by
  intro m hm
  have h1 : (1 : ℝ) ≤ (2 : ℝ) ^ (3 * k + 10) := one_le_zpow₀ (by norm_num) (by omega)
  have h60 : (2 : ℝ) ^ (-60 : ℤ) ≤ 1 := by norm_num
  have hμ : 0 < M / 2 ^ 24 := by positivity
  have key : ∀ (d' : V2 F32) (d : V2 ℝ), d'.Is d → |d.x| ≤ 1 → |d.y| ≤ 1 → d.l1 = 1 →
      d.dot m ≤ 4 * M + 24 * (M / 2 ^ 24) := by
    intro d' d hd hx hy hl
    obtain ⟨p, -, p2, p3⟩ := hS.pt hM hd ⟨hx.trans h1, hy.trans h1⟩ (by rw [hl]; exact h60)
    have := p3 m hm
    have h2 := (le_abs_self _).trans (dot_le_l1 (d := d) (p := p) p2)
    rw [hl] at *
    linarith
  have one : F32.Is (1 : F32) 1 := is_one
  have zero : F32.Is (0 : F32) 0 := is_zero
  have k1 := key ⟨1, 0⟩ ⟨1, 0⟩ ⟨one, zero⟩ (by simp) (by simp) (by simp [V2.l1])
  have k2 := key ⟨-1, 0⟩ ⟨-1, 0⟩ ⟨is_neg one, zero⟩ (by simp) (by simp) (by simp [V2.l1])
  have k3 := key ⟨0, 1⟩ ⟨0, 1⟩ ⟨zero, one⟩ (by simp) (by simp) (by simp [V2.l1])
  have k4 := key ⟨0, -1⟩ ⟨0, -1⟩ ⟨zero, is_neg one⟩ (by simp) (by simp) (by simp [V2.l1])
  simp only [dot_def] at k1 k2 k3 k4
  have bx : |m.x| ≤ 417 / 100 * M := abs_le.2 ⟨by linarith, by linarith⟩
  have bY : |m.y| ≤ 417 / 100 * M := abs_le.2 ⟨by linarith, by linarith⟩
  refine V2.norm_le (by linarith) ?_
  have r1 := pow_le_pow_left₀ (abs_nonneg _) bx 2
  have r2 := pow_le_pow_left₀ (abs_nonneg _) bY 2
  rw [sq_abs, mul_pow] at r1 r2
  have r3 : 0 < M ^ 2 := by positivity
  rw [dot_def, mul_pow]
  linarith

/-- the origin is well inside: no direction separates -/
theorem not_out_of_disc (hM : 0 < M) (hD : Deep W (M / 32)) : ¬ OriginOut W (M / 2 ^ 17) := by
  rintro ⟨n, n0, hn⟩
  have hl : 0 < n.norm := by
    rcases n.norm_nonneg.lt_or_eq with h | h
    · exact h
    · exfalso
      apply n0
      have := n.norm_sq_lengthSq
      rw [← h] at this
      exact lengthSq_eq_zero.1 (by rw [← this]; norm_num)
  obtain ⟨x, hx, h⟩ := hD (V2.scale (1 / n.norm) n) (by
    rw [lengthSq_scale, div_pow, ← V2.norm_sq_lengthSq, one_pow, one_div_mul_cancel (by positivity)])
  have h1 := hn x hx
  rw [scale_dot, one_div, inv_mul_eq_div, le_div_iff₀ hl] at h
  have h2 := le_of_mul_le_mul_right (h.trans h1) hl
  linarith

/-- one step of the loops -/
theorem nstate_step {j : Nat} (hS : DeepSupport k W M S) (hsc : Scale32 M) (hk : 0 ≤ k) (hk2 : k ≤ 26) (hM : M ≤ (2 : ℝ) ^ k)
    (hD : Deep W (M / 32)) {d' : V2 F32} {d : V2 ℝ} {pts : List (V2 F32)} (hst : NState W M j d' pts) (hd : d'.Is d)
    (hB : DirB k d) (hl : (2 : ℝ) ^ (-60 : ℤ) ≤ d.l1) (hp : ∀ q ∈ pts, PtB k q) :
    ¬ (S d').dot d' ≤ 0 ∧ ∃ r, addPoint pts (S d') = .ok r ∧ (r.collides = true ∨ r.collides = false ∧
      (¬ directionTooSmall r.dir → NState W M (j + 1) r.dir r.pts) ∧
      (8 ≤ M → directionTooSmall r.dir → NState W M (j + 1) d'.perp r.pts) ∧ DiB k r.dir ∧ ∀ q ∈ r.pts, PtB k q) := by
  have hM1 := hsc.pos
  have hM0 : (2 : ℝ) ^ (-20 : ℤ) ≤ M := le_trans (by norm_num) hsc.lo
  obtain ⟨a, ha, hc, he⟩ := hS.pt hM1 hd hB hl
  obtain ⟨n1, -⟩ := dir_norm hk2 hB hl
  have hb := hst.bound hM1
  refine ⟨fun hf => ?_, ?_⟩
  · have := sep_of_fitness hS.noisy hk2 hM hM0 hd hB hl hf
    exact not_out_of_disc hM1 hD (OriginOut.mono this (div_le_div_of_nonneg_left hM1.le (by norm_num) (by norm_num)))
  · have haB := PtB.of_is ha.1 hc hM
    obtain ⟨r, e, h⟩ := nstate_add hsc (by omega) hD (hS.size hM1 hk) hst hd (lt_of_lt_of_le (by positivity) n1) ha he
    obtain ⟨r', e', b1, b2, b3, -⟩ := addPoint_bdd hk hk2 hp hb.2 haB
    rw [e] at e'
    cases e'
    refine ⟨r, e, h.imp id fun ⟨h1, h2, h3⟩ => ⟨h1, h2, h3, (b3 h1).2, pts_bdd hp haB b1⟩⟩

/-- **`collides` finds it.** -/
theorem collide_deep (hS : DeepSupport k W M S) (hsc : Scale32 M) (hk : 0 ≤ k) (hk2 : k ≤ 26) (hM : M ≤ (2 : ℝ) ^ k)
    (hD : Deep W (M / 32)) : ∀ (n j : Nat) (d' : V2 F32) (d : V2 ℝ) (pts : List (V2 F32)), 16 ≤ n + j →
    NState W M j d' pts → d'.Is d → DirB k d → (2 : ℝ) ^ (-60 : ℤ) ≤ d.l1 → (∀ q ∈ pts, PtB k q) →
    gjkCollide S n d' pts = .ok (true, V2.nan) := by
  intro n
  induction n with
  | zero => intro j d' d pts hn hst _ _ _ _; have := (hst.bound hsc.pos).1; omega
  | succ n ih =>
    intro j d' d pts hn hst hd hB hl hp
    obtain ⟨hf, r, e, h⟩ := nstate_step hS hsc hk hk2 hM hD hst hd hB hl hp
    simp only [gjkCollide, if_neg hf, e]
    by_cases hc : r.collides = true ∨ directionTooSmall r.dir
    · rw [if_pos hc]
    · rw [if_neg hc]
      push Not at hc
      rcases h with h | ⟨h1, h2, -, h4, h5⟩
      · exact absurd h hc.1
      · obtain ⟨d2, i2, b2⟩ := h4.is
        exact ih (j + 1) r.dir d2 r.pts (by omega) (h2 hc.2) i2 b2 (l1_of_not_small i2 hc.2) h5

/-- **The other loops never use up 16 steps.** -/
theorem not_runs_deep (hS : DeepSupport k W M S) (hsc : Scale32 M) (h8 : 8 ≤ M) (hk : 0 ≤ k) (hk2 : k ≤ 26) (hM : M ≤ (2 : ℝ) ^ k)
    (hD : Deep W (M / 32)) : ∀ (n j : Nat) (d' : V2 F32) (d : V2 ℝ) (pts : List (V2 F32)), 16 ≤ n + j →
    NState W M j d' pts → d'.Is d → DirB k d → (2 : ℝ) ^ (-60 : ℤ) ≤ d.l1 → (∀ q ∈ pts, PtB k q) →
    ¬ Runs overrideDir S n d' pts := by
  intro n
  induction n with
  | zero => intro j d' d pts hn hst _ _ _ _; have := (hst.bound hsc.pos).1; omega
  | succ n ih =>
    rintro j d' d pts hn hst hd hB hl hp ⟨-, r, e, hc, hrun⟩
    obtain ⟨-, r', e', h⟩ := nstate_step hS hsc hk hk2 hM hD hst hd hB hl hp
    rw [e] at e'
    cases e'
    rcases h with h | ⟨-, h2, h3, h4, h5⟩
    · rw [hc] at h; cases h
    · obtain ⟨d2, i2, b2, l2⟩ := override_ok hd hB hl h4
      refine ih (j + 1) _ d2 r.pts (by omega) ?_ i2 b2 l2 h5 hrun
      unfold overrideDir
      by_cases hs : directionTooSmall r.dir
      · rw [if_pos hs]; exact h3 h8 hs
      · rw [if_neg hs]; exact h2 hs

end
end Auburn
