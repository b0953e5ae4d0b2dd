import Verif.Ieee.EpaDeep

/-!
# The polygon of EPA on binary32, deep overlaps (library lemmas for C98)
-/

set_option linter.unusedSectionVars false
set_option synthInstance.maxSize 1000

namespace Auburn

open F32 V2 ExtremePoint2d Transformation2d

section
variable [env : F32Env]
variable {W : Set (V2 ℝ)} {M : ℝ}

/-! ## the triangle that encloses the origin -/

/-- a rejected candidate for the next edge: the origin is not beyond it -/
theorem side_out {d b c a : V2 ℝ} {w s : ℝ} {k : Nat} (hsc : Scale32 M)
    (hI : NInv W (M / 32) (M / 2 ^ 18) k d b c w) (hD : Deep W (M / 32)) {a' : V2 F32} (ha : Pt32 W M a' a)
    (hext : ∀ m ∈ W, d.dot m ≤ d.dot a + M / 32 / 10)
    (hs : 0 < s * (b - a).cross (c - a)) (hlo : 6 / 10 * (M / 32) ^ 2 ≤ |s|) (hhi : |s| ≤ 2 ^ 62)
    (hw1 : (b - a).norm ≤ 2 ^ 30) {n' : V2 F32} {n : V2 ℝ} (hn : n'.Is n)
    (hA : Apx (3 / 2 ^ 24) n (V2.scale (-s) (b - a).perp)) (hdir : ¬ sameDirection n' (-a')) :
    -(M / 2 ^ 18) ≤ (nextUnit d b c a w (b - a).norm).dot a := by
  have hM := hsc.pos
  obtain ⟨H1, H2⟩ := new_dist hsc hI hD hext
  have hw0 : 0 < (b - a).norm := lt_of_lt_of_le (by positivity) H2
  have hδ : 0 < M / 32 := by positivity
  have hη : 0 < M / 2 ^ 18 := by positivity
  have hr : 8192 * (M / 2 ^ 18) ≤ M / 32 := le_of_eq (by ring)
  have hw2 : (b - a).norm ^ 2 = lengthSq (b - a) := V2.norm_sq_lengthSq _
  have st : NStep W (M / 32) (M / 2 ^ 18) (M / 32 / 8 + k * (M / 2 ^ 18)) d b c a w (b - a).norm :=
    ⟨hI.1, hδ, hη, hr, hD, ha.2, hext, hw0, hw2⟩
  have e1 := next_dir st hs
  have hun := V2.norm_unit st.next_unit
  have hs0 : 0 < |s| := lt_of_lt_of_le (by positivity) hlo
  have hl : 0 < |s| * (b - a).norm := mul_pos hs0 hw0
  have hnorm : (V2.scale (-s) (b - a).perp).norm = |s| * (b - a).norm := by
    rw [V2.norm_scale, V2.norm_perp, abs_neg]
  have hbig : 48 / 100 * (M / 32) ^ 3 ≤ |s| * (b - a).norm := by
    have := mul_le_mul hlo H2 (by positivity) hs0.le
    have h3 : 0 < (M / 32) ^ 3 := by positivity
    have e : 6 / 10 * (M / 32) ^ 2 * (89 / 100 * (M / 32)) = 534 / 1000 * (M / 32) ^ 3 := by ring
    rw [e] at this
    linarith
  have hbig' : 1 / 2 ^ 70 ≤ |s| * (b - a).norm := by
    refine le_trans ?_ hbig
    have h3 := pow_le_pow_left₀ (by positivity) hsc.delta 3
    refine le_trans ?_ (mul_le_mul_of_nonneg_left h3 (by norm_num))
    norm_num
  obtain ⟨n6, n29⟩ := ha.norm hsc
  have ha0 : 9 / 10 * (M / 32) ≤ a.norm := by
    have h1 := disc_height hδ hD hI.1.unit hext
    have := dot_le_norm' d a
    rw [V2.norm_unit hI.1.unit, one_mul] at this
    linarith
  have ha1 : 1 / 2 ^ 22 ≤ a.norm := by
    have := hsc.delta
    linarith
  obtain ⟨t, t1, t2⟩ := fl_dot hn ha.1.neg hA (Apx.refl (-a)) (by positivity) (le_refl _) (by norm_num)
    (by
      rw [hnorm, V2.norm_neg']
      exact le_trans (by norm_num) (mul_le_mul hbig' ha1 (by positivity) hl.le))
    (by
      rw [hnorm, V2.norm_neg']
      exact (mul_le_mul (mul_le_mul hhi hw1 hw0.le (by positivity)) n29 a.norm_nonneg (by positivity)).trans (by norm_num))
  have ht : t < 0 := by
    by_contra hc
    exact hdir ((le_iff is_zero t1).2 (not_lt.1 hc))
  rw [e1, V2.norm_scale, hun, mul_one, abs_of_pos hl, V2.norm_neg', scale_dot, dot_neg] at t2
  have t3 := (abs_le.1 t2).1
  have t4 : |s| * (b - a).norm * a.norm / 2 ^ 21 ≤ |s| * (b - a).norm * (M / 2 ^ 18) := by
    have := mul_le_mul_of_nonneg_left n6 hl.le
    have e : |s| * (b - a).norm * (M / 2 ^ 18) = |s| * (b - a).norm * (8 * M) / 2 ^ 21 := by ring
    rw [e]
    refine div_le_div_of_nonneg_right (this.trans ?_) (by positivity)
    exact mul_le_mul_of_nonneg_left (by linarith) hl.le
  refine le_of_mul_le_mul_left ?_ hl
  linarith

/-- three points that enclose the origin -/
theorem tri_start {d b c a : V2 ℝ} {w : ℝ} {k : Nat} (hsc : Scale32 M) (hk : k ≤ 100)
    (hI : NInv W (M / 32) (M / 2 ^ 18) k d b c w) (hD : Deep W (M / 32)) {a' b' c' : V2 F32} (ha : Pt32 W M a' a)
    (hb : Pt32 W M b' b) (hc : Pt32 W M c' c) (hext : ∀ m ∈ W, d.dot m ≤ d.dot a + M / 32 / 10) {r : AddResult F32}
    (hr : addPoint [b', c'] a' = .ok r) (hcol : r.collides = true) :
    r.pts = [a', b', c'] ∧ (M / 2 ^ 13 ≤ (b - a).norm ∧ M / 2 ^ 13 ≤ (c - b).norm ∧ M / 2 ^ 13 ≤ (a - c).norm) ∧ ∃ o D, lengthSq o ≤ (M / 32 / 4) ^ 2 ∧ InTri o a b c ∧
      F32.Is ((b' - a').cross (c' - a')) D ∧ 0 < D * (b - a).cross (c - a) := by
  have hM := hsc.pos
  have hδ : 0 < M / 32 := by positivity
  have hδl := hsc.delta
  obtain ⟨H1, H2⟩ := new_dist hsc hI hD hext
  obtain ⟨-, H3⟩ := new_dist hsc hI.symm hD hext
  obtain ⟨tb2, tb⟩ := ha.diff hsc hb
  obtain ⟨tc2, tc⟩ := ha.diff hsc hc
  have pb : 0 < (b - a).norm := lt_of_lt_of_le (by positivity) H2
  have pc : 0 < (c - a).norm := lt_of_lt_of_le (by positivity) H3
  have lb : 1 / 2 ^ 22 ≤ (b - a).norm := by linarith
  have lc : 1 / 2 ^ 22 ≤ (c - a).norm := by linarith
  obtain ⟨e, e1, e2⟩ := fl_sub hb.1 ha.1 (tb.trans (by norm_num))
  obtain ⟨f, f1, f2⟩ := fl_sub hc.1 ha.1 (tc.trans (by norm_num))
  obtain ⟨D, D1, D2⟩ := fl_cross e1 f1 e2 f2 (by positivity) (by positivity) (by norm_num)
    (le_trans (by norm_num) (mul_le_mul lb lc (by positivity) pb.le))
    ((mul_le_mul tb tc pc.le (by positivity)).trans (by norm_num))
  have hr8 : 8192 * (M / 2 ^ 18) ≤ M / 32 := le_of_eq (by ring)
  have st : NStep W (M / 32) (M / 2 ^ 18) (M / 32 / 8 + k * (M / 2 ^ 18)) d b c a w (b - a).norm :=
    ⟨hI.1, hδ, by positivity, hr8, hD, ha.2, hext, pb, V2.norm_sq_lengthSq _⟩
  have X1 : |(b - a).cross (c - a)| = d.dot (a - b) * w := by
    rw [← abs_of_pos (mul_pos st.H0 st.e.w0)]
    exact (sq_eq_sq_iff_abs_eq_abs _ _).1 st.cross_sq
  have X2 : 712 / 1000 * (M / 32) ^ 2 ≤ |(b - a).cross (c - a)| := by
    rw [X1]
    have := mul_le_mul H1 st.e.wlo (by positivity) st.H0.le
    have e : 89 / 100 * (M / 32) * (8 / 10 * (M / 32)) = 712 / 1000 * (M / 32) ^ 2 := by ring
    rwa [e] at this
  have D3 : |D - (b - a).cross (c - a)| ≤ 8 / 100 * (M / 32) ^ 2 := by
    refine D2.trans ?_
    have := mul_le_mul tb2 tc2 pc.le (by positivity)
    have e : 12 * M * (12 * M) = 147456 * (M / 32) ^ 2 := by ring
    rw [e] at this
    have h0 : 0 < (M / 32) ^ 2 := by positivity
    linarith
  have hδ2 : 0 < (M / 32) ^ 2 := by positivity
  have D4 : 0 < D * (b - a).cross (c - a) := sign_of_close (by linarith)
  have D5 : 6 / 10 * (M / 32) ^ 2 ≤ |D| := by
    have := abs_sub_abs_le_abs_sub ((b - a).cross (c - a)) D
    rw [abs_sub_comm] at this
    linarith
  have D6 : |D| ≤ 2 ^ 62 := by
    have h1 := abs_sub_abs_le_abs_sub D ((b - a).cross (c - a))
    have h2 := cross_le_norm (b - a) (c - a)
    have h3 := mul_le_mul tb tc pc.le (by positivity)
    have h4 : (2 : ℝ) ^ 30 * 2 ^ 30 + 2 ^ 30 * 2 ^ 30 / 2 ^ 21 ≤ 2 ^ 62 := by norm_num
    linarith
  have D0 : 0 < |D| := lt_of_lt_of_le (by positivity) D5
  have D7 : 1 / 2 ^ 44 ≤ |D| := by
    refine le_trans ?_ D5
    have h3 := pow_le_pow_left₀ (by positivity) hδl 2
    refine le_trans ?_ (mul_le_mul_of_nonneg_left h3 (by norm_num))
    norm_num
  have bigb : 1 / 2 ^ 100 ≤ |-D| * (b - a).perp.norm := by
    rw [abs_neg, V2.norm_perp]
    exact le_trans (by norm_num) (mul_le_mul D7 lb (by positivity) D0.le)
  have bigc : 1 / 2 ^ 100 ≤ |D| * (c - a).perp.norm := by
    rw [V2.norm_perp]
    exact le_trans (by norm_num) (mul_le_mul D7 lc (by positivity) D0.le)
  obtain ⟨P, P1, P2⟩ := fl_scale (d' := (b' - a').crossF32 ((b' - a').cross (c' - a'))) (s := -D) (n := e.perp)
    (N := (b - a).perp) rfl e1.2 D1 (is_neg e1.1) D1 (by rw [perp_x]; ring) (by rw [perp_y]; ring) e2.perp bigb
    (by rw [V2.norm_perp, abs_neg]; exact (mul_le_mul D6 tb pb.le (by positivity)).trans (by norm_num))
  obtain ⟨Q, Q1, Q2⟩ := fl_scale (d' := crossSV ((b' - a').cross (c' - a')) (c' - a')) (s := D) (n := f.perp)
    (N := (c - a).perp) rfl (is_neg D1) f1.2 D1 f1.1 (by rw [perp_x]; ring) (by rw [perp_y]) f2.perp bigc
    (by rw [V2.norm_perp]; exact (mul_le_mul D6 tc pc.le (by positivity)).trans (by norm_num))
  have r1 := side_out hsc hI hD ha hext D4 D5 D6 tb P1 P2
  have s1 := side_out (s := -D) hsc hI.symm hD ha hext
    (by rw [show (c - a).cross (b - a) = -(b - a).cross (c - a) by simp only [cross_def]; ring]; linarith)
    (by rwa [abs_neg]) (by rwa [abs_neg]) tc Q1 (by rw [neg_neg]; exact Q2)
  have E1 : ¬ sameDirection ((b' - a').crossF32 ((b' - a').cross (c' - a'))) (-a') := by
    intro h
    simp only [addPoint, if_pos h] at hr
    split at hr <;> · rw [Except.ok.injEq] at hr; rw [← hr] at hcol; cases hcol
  have E2 : ¬ sameDirection (crossSV ((b' - a').cross (c' - a')) (c' - a')) (-a') := by
    intro h
    simp only [addPoint, if_neg E1, if_pos h, Except.ok.injEq] at hr
    rw [← hr] at hcol; cases hcol
  simp only [addPoint, if_neg E1, if_neg E2, Except.ok.injEq] at hr
  obtain ⟨o, o1, o2⟩ := hI.center hk hδ (by positivity) hr8 hD ha.2 hext pb (V2.norm_sq_lengthSq _) pc
    (V2.norm_sq_lengthSq _) (r1 E1) (s1 E2)
  have ew : (c - b).norm = w := by
    have h1 := st.e.hw
    rw [← V2.norm_sq_lengthSq] at h1
    exact ((sq_eq_sq₀ st.e.w0.le (V2.norm_nonneg _)).1 h1).symm
  have eac : (a - c).norm = (c - a).norm := by rw [← V2.norm_neg']; congr 1; ext <;> simp
  have h13 : M / 2 ^ 13 ≤ 8 / 10 * (M / 32) := by
    have : M / 2 ^ 13 = 1 / 256 * (M / 32) := by ring
    rw [this]
    exact mul_le_mul_of_nonneg_right (by norm_num) hδ.le
  have h14 : 8 / 10 * (M / 32) ≤ 89 / 100 * (M / 32) := mul_le_mul_of_nonneg_right (by norm_num) hδ.le
  refine ⟨by rw [← hr], ⟨h13.trans (h14.trans H2), ?_, ?_⟩, o, D, o1, o2, D1, D4⟩
  · rw [ew]; exact h13.trans st.e.wlo
  · rw [eac]; exact h13.trans (h14.trans H3)

/-! ## the polygon -/

/-- far points around the origin, in counter-clockwise order, none next to its successor -/
structure Encloses (M : ℝ) (pts : List (V2 F32)) : Prop where
  far : ∀ q ∈ pts, ∃ p, q.Is p ∧ M / 64 ≤ p.norm
  long : ∀ e ∈ closedEdges (pts.map V2.toReal), M / 2 ^ 13 ≤ (e.2 - e.1).norm
  around : ∃ o, lengthSq o ≤ (M / 128) ^ 2 ∧ Around o (closedEdges (pts.map V2.toReal))

theorem NSup.far {u p : V2 ℝ} (h : NSup W (M / 32) u p) (hM : 0 < M) : M / 64 ≤ p.norm := by
  have h1 := dot_le_norm' u p
  have h2 : u.norm ≤ 1 := V2.norm_le (by norm_num) (by have := h.lu; rw [one_pow]; exact this)
  have h3 := mul_le_mul_of_nonneg_right h2 p.norm_nonneg
  have := h.pos
  linarith

theorem ring_tri {a b c o : V2 ℝ} {a' b' c' : V2 F32} {D : ℝ} (ha : a'.Is a) (hb : b'.Is b) (hc : c'.Is c)
    (fa : M / 64 ≤ a.norm) (fb : M / 64 ≤ b.norm) (fc : M / 64 ≤ c.norm)
    (hl : M / 2 ^ 13 ≤ (b - a).norm ∧ M / 2 ^ 13 ≤ (c - b).norm ∧ M / 2 ^ 13 ≤ (a - c).norm) (ho : lengthSq o ≤ (M / 32 / 4) ^ 2)
    (hT : InTri o a b c) (hD : F32.Is ((b' - a').cross (c' - a')) D) (hs : 0 < D * (b - a).cross (c - a)) :
    ∃ pts, enforceCcw [a', b', c'] = .ok pts ∧ Encloses M pts := by
  have ho' : lengthSq o ≤ (M / 128) ^ 2 := by
    rw [show M / 128 = M / 32 / 4 by ring]; exact ho
  have e : (b' - a').cross (c' - a') > 0 ↔ 0 < D := lt_iff is_zero hD
  simp only [enforceCcw]
  by_cases h0 : 0 < D
  · rw [if_pos (e.2 h0)]
    have h1 : 0 < (b - a).cross (c - a) := (mul_pos_iff_of_pos_left h0).1 hs
    have he : closedEdges ([a', b', c'].map V2.toReal) = [(a, b), (b, c), (c, a)] := by
      simp [closedEdges, ha.toReal, hb.toReal, hc.toReal]
    refine ⟨_, rfl, ?_, ?_, o, ho', ?_⟩
    · intro q hq
      simp only [List.mem_cons, List.not_mem_nil, or_false] at hq
      rcases hq with rfl | rfl | rfl
      exacts [⟨a, ha, fa⟩, ⟨b, hb, fb⟩, ⟨c, hc, fc⟩]
    · intro e h
      rw [he] at h
      simp only [List.mem_cons, List.not_mem_nil, or_false] at h
      rcases h with rfl | rfl | rfl
      exacts [hl.1, hl.2.1, hl.2.2]
    · have : closedEdges ([a', b', c'].map V2.toReal) = [(a, b), (b, c), (c, a)] := by
        simp [closedEdges, ha.toReal, hb.toReal, hc.toReal]
      rw [this]
      exact around_triangle ((mul_pos_iff_of_pos_left h1).1 hT.ab) ((mul_pos_iff_of_pos_left h1).1 hT.bc)
        ((mul_pos_iff_of_pos_left h1).1 hT.ca)
  · rw [if_neg (fun h => h0 (e.1 h))]
    have h1 : (b - a).cross (c - a) < 0 := by
      by_contra hcon
      have := mul_nonpos_of_nonpos_of_nonneg (not_lt.1 h0) (not_lt.1 hcon)
      linarith
    have neg : ∀ {x y : V2 ℝ}, 0 < (b - a).cross (c - a) * x.cross y → 0 < y.cross x := by
      intro x y h
      rw [cross_antisymm x y]
      by_contra hcon
      have := mul_nonpos_of_nonpos_of_nonneg h1.le (show 0 ≤ x.cross y by linarith)
      linarith
    have he : closedEdges ([a', c', b'].map V2.toReal) = [(a, c), (c, b), (b, a)] := by
      simp [closedEdges, ha.toReal, hb.toReal, hc.toReal]
    have flip : ∀ x y : V2 ℝ, (x - y).norm = (y - x).norm := fun x y => by
      rw [← V2.norm_neg']; congr 1; ext <;> simp
    refine ⟨_, rfl, ?_, ?_, o, ho', ?_⟩
    · intro q hq
      simp only [List.mem_cons, List.not_mem_nil, or_false] at hq
      rcases hq with rfl | rfl | rfl
      exacts [⟨a, ha, fa⟩, ⟨c, hc, fc⟩, ⟨b, hb, fb⟩]
    · intro e h
      rw [he] at h
      simp only [List.mem_cons, List.not_mem_nil, or_false] at h
      rcases h with rfl | rfl | rfl
      · rw [flip]; exact hl.2.2
      · rw [flip]; exact hl.2.1
      · rw [flip]; exact hl.1
    · have : closedEdges ([a', c', b'].map V2.toReal) = [(a, c), (c, b), (b, a)] := by
        simp [closedEdges, ha.toReal, hb.toReal, hc.toReal]
      rw [this]
      exact around_triangle (neg hT.ca) (neg hT.bc) (neg hT.ab)

/-- the polygon handed to EPA -/
theorem nstate_ring {d a : V2 ℝ} {k : Nat} (hsc : Scale32 M) (hk : k ≤ 100) (hD : Deep W (M / 32))
    (hW : ∀ m ∈ W, m.norm ≤ 6 * M) {a' d' : V2 F32} {pts : List (V2 F32)} (hst : NState W M k d' pts) (hd : d'.Is d)
    (ha : Pt32 W M a' a) (he : ∀ m ∈ W, d.dot m ≤ d.dot a + 24 * (M / 2 ^ 24) * d.l1)
    {r : AddResult F32} (hr : addPoint pts a' = .ok r) (hcol : r.collides = true) :
    ∃ pts', enforceCcw r.pts = .ok pts' ∧ Encloses M pts' := by
  have hM := hsc.pos
  cases hst with
  | none =>
    simp only [addPoint, Except.ok.injEq] at hr
    rw [← hr] at hcol; cases hcol
  | one b' b u hb hu eu =>
    simp only [addPoint] at hr
    split at hr <;> · rw [Except.ok.injEq] at hr; rw [← hr] at hcol; cases hcol
  | two _ b' c' _ b c v n w hb hc hn hnear hI =>
    have e : d = n := V2.ext (hd.1.unique hn.1) (hd.2.unique hn.2)
    subst e
    obtain ⟨n6, n29⟩ := ha.norm hsc
    have hext : ∀ m ∈ W, v.dot m ≤ v.dot a + M / 32 / 10 := by
      intro m hm
      have h1 := ext_of_near hM (by positivity) (le_refl _) hI.1.unit hnear hW n6 he m hm
      linarith
    obtain ⟨h1, hlong, o, D, o1, o2, D1, D2⟩ := tri_start hsc hk hI hD ha hb hc hext hr hcol
    rw [h1]
    have hu := hI.1.unit
    obtain ⟨-, ub, uc, sb, sc, -⟩ := hI
    refine ring_tri ha.1 hb.1 hc.1 ?_ (sb.far hM) (sc.far hM) hlong o1 o2 D1 D2
    have h2 := disc_height (by positivity) hD hu hext
    have := dot_le_norm' v a
    rw [V2.norm_unit hu, one_mul] at this
    linarith

/-! ## the loop -/

theorem closedEdges_mem32 {pts : List (V2 F32)} {p q : V2 F32} (h : (p, q) ∈ closedEdges pts) : p ∈ pts ∧ q ∈ pts := by
  have h' := List.of_mem_zip h
  refine ⟨h'.1, ?_⟩
  rcases List.mem_append.1 h'.2 with h2 | h2
  · exact List.mem_of_mem_tail h2
  · exact List.mem_of_mem_take h2

/-- a computed height -/
theorem fit_near {q' n' : V2 F32} {q n : V2 ℝ} (hsc : Scale32 M) (hq : q'.Is q) (hc : q.Coord (4 * M)) (hn : n'.Is n)
    (hl : (2 : ℝ) ^ (-60 : ℤ) ≤ n.l1) (hl18 : n.l1 ≤ 18 * M) :
    ∃ f, F32.Is (q'.dot n') f ∧ |f - q.dot n| ≤ 15 * (M / 2 ^ 24) * n.norm := by
  have hM := hsc.pos
  have hi := hsc.hi
  have hl1 : 0 < n.l1 := lt_of_lt_of_le (two_zpow_pos _) hl
  have hP : |q.x * n.x| + |q.y * n.y| ≤ 4 * M * n.l1 := by
    rw [abs_mul, abs_mul]
    have h1 := mul_le_mul_of_nonneg_right hc.1 (abs_nonneg n.x)
    have h2 := mul_le_mul_of_nonneg_right hc.2 (abs_nonneg n.y)
    unfold V2.l1
    linarith
  obtain ⟨f, f1, f2⟩ := round_dot hq hn hP (by
    have h1 := mul_le_mul (show 4 * M ≤ 2 ^ 28 by linarith) (show n.l1 ≤ 2 ^ 31 by linarith) hl1.le (by positivity)
    exact h1.trans (by norm_num))
  refine ⟨f, f1, f2.trans ?_⟩
  have h3 : (3 : ℝ) / 2 ^ 150 ≤ M / 2 ^ 24 * n.l1 := by
    have h4 : (1 : ℝ) / 2 ^ 16 / 2 ^ 24 * (2 : ℝ) ^ (-60 : ℤ) ≤ M / 2 ^ 24 * n.l1 :=
      mul_le_mul (div_le_div_of_nonneg_right hsc.lo (by positivity)) hl (two_zpow_pos _).le (by positivity)
    exact le_trans (by norm_num) h4
  have h5 := mul_le_mul_of_nonneg_left n.l1_le_norm (show 0 ≤ 10 * (M / 2 ^ 24) by positivity)
  have e : 4 * M * n.l1 / 2 ^ 24 = 4 * (M / 2 ^ 24 * n.l1) := by ring
  rw [e]
  linarith

/-- what one iteration of EPA knows -/
structure Facet (W : Set (V2 ℝ)) (M : ℝ) (a b p n : V2 ℝ) (f h : ℝ) : Prop where
  n0 : 1 / 2 ^ 61 ≤ n.norm
  wn : (b - a).norm ≤ 1001 / 1000 * n.norm
  nw : n.norm ≤ 1001 / 1000 * (b - a).norm
  big : n.norm ≤ 13 * M
  near : (n - ⟨(b - a).y, -(b - a).x⟩).norm ≤ 1 / 2 ^ 24 * (b - a).norm
  lenA : a.norm ≤ 6 * M
  lenP : p.norm ≤ 6 * M
  high : 524252 * (M / 2 ^ 24) * n.norm ≤ p.dot n
  f : |f - p.dot n| ≤ 15 * (M / 2 ^ 24) * n.norm
  h : |h - a.dot n| ≤ 15 * (M / 2 ^ 24) * n.norm

theorem Facet.off {a b p n : V2 ℝ} {f h : ℝ} (F : Facet W M a b p n f h) (hM : 0 < M) {q : V2 ℝ} {R : ℝ} (hq : q.norm ≤ R * M) (hR : 0 ≤ R) :
    |q.dot n - q.cross (b - a)| ≤ R * (M / 2 ^ 24) * (b - a).norm := by
  have e : q.dot n - q.cross (b - a) = q.dot (n - ⟨(b - a).y, -(b - a).x⟩) := by
    simp only [dot_def, cross_def, sub_x, sub_y]; ring
  rw [e]
  have h1 := dot_le_norm q (n - ⟨(b - a).y, -(b - a).x⟩)
  have h2 := mul_le_mul hq F.near (V2.norm_nonneg _) (by positivity)
  have e2 : R * M * (1 / 2 ^ 24 * (b - a).norm) = R * (M / 2 ^ 24) * (b - a).norm := by ring
  rw [e2] at h2
  exact h1.trans h2

theorem Facet.insert {a b p n : V2 ℝ} {f h : ℝ} (F : Facet W M a b p n f h) (hM : 0 < M) (hb : h ≤ 0 ∨ 1005 / 1000 * h ≤ f) :
    0 < (p - a).cross (b - a) := by
  have hμ : 0 < M / 2 ^ 24 := by positivity
  have hn : 0 < n.norm := lt_of_lt_of_le (by positivity) F.n0
  have hμn := mul_pos hμ hn
  have h1 := (abs_le.1 (F.off hM (q := p) F.lenP (by norm_num))).2
  have h2 := (abs_le.1 (F.off hM (q := a) F.lenA (by norm_num))).1
  have h3 := (abs_le.1 F.f)
  have h4 := (abs_le.1 F.h)
  have h5 := F.high
  have h6 := mul_le_mul_of_nonneg_left F.wn (show 0 ≤ 6 * (M / 2 ^ 24) by positivity)
  have e : (p - a).cross (b - a) = p.cross (b - a) - a.cross (b - a) := by simp only [cross_def, sub_x, sub_y]; ring
  rw [e]
  rcases hb with hb | hb <;> linarith

/-- a vertex that is inserted is not next to the ends of the edge -/
theorem Facet.long {a b p n : V2 ℝ} {f h : ℝ} (F : Facet W M a b p n f h) (hM : 0 < M) (hE : (b - a).norm ≤ 12 * M)
    (hb : h ≤ 0 ∨ 1005 / 1000 * h ≤ f) : M / 2 ^ 13 ≤ (p - a).norm ∧ M / 2 ^ 13 ≤ (b - p).norm := by
  have hμ : 0 < M / 2 ^ 24 := by positivity
  have hn : 0 < n.norm := lt_of_lt_of_le (by positivity) F.n0
  have hμn := mul_pos hμ hn
  have h3 := (abs_le.1 F.f)
  have h4 := (abs_le.1 F.h)
  have h5 := F.high
  have e13 : M / 2 ^ 13 = 2048 * (M / 2 ^ 24) := by ring
  have k1 : 2100 * (M / 2 ^ 24 * n.norm) ≤ p.dot n - a.dot n := by
    rcases hb with hb | hb <;> linarith
  have w0 := V2.norm_nonneg (b - a)
  have k2 : |(b - a).dot n| ≤ 13 * (M / 2 ^ 24 * n.norm) := by
    have e : (b - a).dot n = (b - a).dot (n - ⟨(b - a).y, -(b - a).x⟩) := by
      simp only [dot_def, sub_x, sub_y]; ring
    rw [e]
    have g1 := dot_le_norm (b - a) (n - ⟨(b - a).y, -(b - a).x⟩)
    have g2 := mul_le_mul hE F.near (V2.norm_nonneg _) (by positivity)
    have g3 := mul_le_mul_of_nonneg_left F.wn hμ.le
    have g4 : 12 * M * (1 / 2 ^ 24 * (b - a).norm) = 12 * (M / 2 ^ 24 * (b - a).norm) := by ring
    linarith
  have k3 := (abs_le.1 k2).2
  have e1 : (p - a).dot n = p.dot n - a.dot n := by simp only [dot_def, sub_x, sub_y]; ring
  have e2 : (b - p).dot n = (b - a).dot n - (p.dot n - a.dot n) := by simp only [dot_def, sub_x, sub_y]; ring
  have g1 := dot_le_norm' (p - a) n
  have g2 := (neg_le_abs _).trans (dot_le_norm (b - p) n)
  rw [e13]
  constructor
  · refine le_of_mul_le_mul_right ?_ hn
    linarith
  · refine le_of_mul_le_mul_right ?_ hn
    linarith

theorem Facet.deep {a b p n : V2 ℝ} {f h ρ x : ℝ} (F : Facet W M a b p n f h) (hM : 0 < M) (h0 : 0 < h)
    (hb : f ≤ 10102 / 10000 * h) (hx : x * n.norm ≤ (1 + 1 / 2 ^ 20) * f) (hx0 : 0 ≤ x)
    (hρ : |a.cross b| ≤ (ρ + M / 2 ^ 16) * (b - a).norm) :
    49 / 50 * x ≤ ρ - 289 * (M / 2 ^ 24) ∧ M / 128 < ρ - 257 * (M / 2 ^ 24) := by
  have hμ : 0 < M / 2 ^ 24 := by positivity
  have hn : 0 < n.norm := lt_of_lt_of_le (by positivity) F.n0
  have hw : 0 < (b - a).norm := by have := F.nw; linarith
  have h1 := (abs_le.1 (F.off hM (q := a) F.lenA (by norm_num))).2
  have h3 := (abs_le.1 F.f)
  have h4 := (abs_le.1 F.h)
  have h5 := F.high
  have e : a.cross b = a.cross (b - a) := by simp only [cross_def, sub_x, sub_y]; ring
  rw [e] at hρ
  have h6 := (le_abs_self _).trans hρ
  have h7 := mul_le_mul_of_nonneg_left F.nw (show 0 ≤ M / 2 ^ 24 by positivity)
  have h8 := mul_le_mul_of_nonneg_left F.wn (show 0 ≤ M / 2 ^ 24 by positivity)
  have h9 := mul_le_mul_of_nonneg_left F.wn hx0
  have hμw := mul_pos hμ hw
  have e16 : (ρ + M / 2 ^ 16) * (b - a).norm = ρ * (b - a).norm + 256 * (M / 2 ^ 24 * (b - a).norm) := by ring
  rw [e16] at h6
  have hs : h - 280 * (M / 2 ^ 24 * (b - a).norm) ≤ ρ * (b - a).norm := by linarith
  have hh : 517000 * (M / 2 ^ 24 * (b - a).norm) ≤ h := by linarith
  constructor
  · refine le_of_mul_le_mul_right ?_ hw
    have : 49 / 50 * x * (b - a).norm ≤ ρ * (b - a).norm - 289 * (M / 2 ^ 24 * (b - a).norm) := by linarith
    linarith
  · refine lt_of_mul_lt_mul_right ?_ hw.le
    have e128 : M / 128 * (b - a).norm = 131072 * (M / 2 ^ 24 * (b - a).norm) := by ring
    rw [e128]
    linarith

/-- the polygon reaches far in every direction -/
theorem ring_deep {pts : List (V2 F32)} (hM : 0 < M) (hp : ∀ q ∈ pts, ∃ p, EPt W M q p) (hE : Encloses M pts) {ρ : ℝ}
    (hρ : M / 128 < ρ - 257 * (M / 2 ^ 24))
    (hr : ∀ e ∈ closedEdges pts, ∀ t : ℝ, 0 ≤ t → t ≤ 1 →
      ρ ≤ (e.1.toReal + V2.scale t (e.2.toReal - e.1.toReal)).norm + M / 2 ^ 16) :
    Deep W (ρ - 289 * (M / 2 ^ 24)) := by
  intro u hu
  have hμ : 0 < M / 2 ^ 24 := by positivity
  obtain ⟨o, o1, o2⟩ := hE.around
  have e16 : M / 2 ^ 16 = 256 * (M / 2 ^ 24) := by ring
  have h128 : 0 < M / 128 := by positivity
  have key : ∃ q ∈ pts, ρ - 257 * (M / 2 ^ 24) ≤ u.dot q.toReal := by
    obtain ⟨e, he, h⟩ := o2.reach (r := ρ - 256 * (M / 2 ^ 24)) (s := ρ - 257 * (M / 2 ^ 24)) (by linarith) (by linarith)
      (lt_of_le_of_lt o1 (pow_lt_pow_left₀ hρ h128.le (by norm_num))) (fun e he hne t t0 t1 => by
        rw [closedEdges_map] at he
        obtain ⟨e', h1, rfl⟩ := List.mem_map.1 he
        have h2 := hr e' h1 t t0 t1
        rw [e16] at h2
        have h3 := pow_le_pow_left₀ (show 0 ≤ ρ - 256 * (M / 2 ^ 24) by linarith)
          (show ρ - 256 * (M / 2 ^ 24) ≤ (e'.1.toReal + V2.scale t (e'.2.toReal - e'.1.toReal)).norm by linarith) 2
        rw [V2.norm_sq_lengthSq] at h3
        exact h3) hu
    rw [closedEdges_map] at he
    obtain ⟨e', h1, rfl⟩ := List.mem_map.1 he
    obtain ⟨m1, m2⟩ := closedEdges_mem32 (p := e'.1) (q := e'.2) h1
    rcases h with h | h
    · exact ⟨_, m1, h⟩
    · exact ⟨_, m2, h⟩
  obtain ⟨q, hq, h⟩ := key
  obtain ⟨p, hp⟩ := hp q hq
  rw [hp.is.toReal] at h
  obtain ⟨x, hx, x1, x2⟩ := hp.pt.near
  refine ⟨x, hx, ?_⟩
  have h1 : (p - x).norm ≤ 32 * (M / 2 ^ 24) := by
    refine V2.norm_le (by positivity) ?_
    have r1 := pow_le_pow_left₀ (abs_nonneg _) x1 2
    have r2 := pow_le_pow_left₀ (abs_nonneg _) x2 2
    rw [sq_abs] at r1 r2
    have e : (p - x).dot (p - x) = (p.x - x.x) ^ 2 + (p.y - x.y) ^ 2 := by simp only [dot_def, sub_x, sub_y]; ring
    have r3 : 0 < (M / 2 ^ 24) ^ 2 := by positivity
    rw [e, mul_pow]
    rw [mul_pow] at r1 r2
    linarith
  have h2 := dot_le_norm' u (p - x)
  rw [V2.norm_unit hu, one_mul, dot_sub] at h2
  linarith

variable {k : ℤ} {S : V2 F32 → V2 F32}

/-- **EPA on binary32 reports a finite vector, and never one that is much longer than the overlap is deep.** -/
theorem epa_deep (hS : DeepSupport k W M S) (hsc : Scale32 M) (hk : 0 ≤ k) (hk2 : k ≤ 26)
    (hM : M ≤ (2 : ℝ) ^ k) (hD : Deep W (M / 32)) : ∀ (i : Nat) (pts : List (V2 F32)), Pts False W M pts → Encloses M pts →
    ∃ v x, epa S i pts = .ok v ∧ v.Is x ∧ Deep W (49 / 50 * x.norm) ∧ (x ≠ 0 → PushOut W (M / 2 ^ 17) x) := by
  have hM1 := hsc.pos
  have hμ : 0 < M / 2 ^ 24 := by positivity
  intro i
  induction i with
  | zero =>
    intro pts _ _
    refine ⟨0, 0, rfl, ⟨is_zero, is_zero⟩, fun u hu => ?_, fun h => absurd rfl h⟩
    obtain ⟨x, hx, h⟩ := hD u hu
    refine ⟨x, hx, ?_⟩
    rw [V2.norm_zero, mul_zero]
    have : 0 < M / 32 := by positivity
    linarith
  | succ i ih =>
    intro pts hP hE
    have hp : ∀ q ∈ pts, ∃ p, EPt W M q p := by
      intro q hq
      obtain ⟨p, p1, p2⟩ := hP q hq
      obtain ⟨p', p3, p4⟩ := hE.far q hq
      have e : p' = p := V2.ext (p3.1.unique p1.1) (p3.2.unique p1.2)
      subst e
      exact ⟨p', p3, p2, p4⟩
    have long : ∀ {a' b' : V2 F32} {a b : V2 ℝ}, (a', b') ∈ closedEdges pts → EPt W M a' a → EPt W M b' b →
        M / 2 ^ 13 ≤ (b - a).norm := by
      intro a' b' a b he ha hb
      have := hE.long (a'.toReal, b'.toReal) (by
        rw [closedEdges_map]; exact List.mem_map.2 ⟨(a', b'), he, rfl⟩)
      rw [ha.is.toReal, hb.is.toReal] at this
      exact this
    have cls : ∀ e ∈ closedEdges pts, ∃ D, F32.Is (edgeDistSq e.1 e.2) D := by
      rintro ⟨a', b'⟩ he
      obtain ⟨m1, m2⟩ := closedEdges_mem32 he
      obtain ⟨a, ha⟩ := hp a' m1
      obtain ⟨b, hb⟩ := hp b' m2
      obtain ⟨D, D1, -⟩ := edge_dist hsc ha hb (long he ha hb)
      exact ⟨D, D1⟩
    obtain ⟨o, o1, o2⟩ := hE.around
    have hex : ∃ e ∈ closedEdges pts, ∃ D, F32.Is (edgeDistSq e.1 e.2) D := by
      obtain ⟨e, he, -⟩ := o2.edge
      rw [closedEdges_map] at he
      obtain ⟨e', h1, -⟩ := List.mem_map.1 he
      exact ⟨e', h1, cls e' h1⟩
    obtain ⟨D, hidx, hDe, hmin⟩ := best_edge (fun e he => Or.inr (cls e he)) hex
    simp only [epa]
    generalize findClosestEdge pts = E at hidx hDe ⊢
    obtain ⟨idx, a', b', dd⟩ := E
    dsimp only at hidx hDe ⊢
    have hmem : (a', b') ∈ closedEdges pts := List.mem_of_getElem? hidx
    obtain ⟨m1, m2⟩ := closedEdges_mem32 hmem
    obtain ⟨a, ha⟩ := hp a' m1
    obtain ⟨b, hb⟩ := hp b' m2
    have hlong := long hmem ha hb
    obtain ⟨D', D1, D2, D3⟩ := edge_dist hsc ha hb hlong
    have eD := hDe.unique D1
    subst eD
    obtain ⟨e, n, e1, e2, en, n1, n2, n3, hl⟩ := edge_normal hsc hk hM ha hb hlong
    have nn : n.norm = e.norm := by rw [en]; unfold V2.norm; congr 1; show e.y ^ 2 + (-e.x) ^ 2 = _; ring
    generalize hn' : (b' - a').perpRight = n' at n1 ⊢
    obtain ⟨p, hpp, hpc, hpe⟩ := hS.pt hM1 n1 n2 hl
    obtain ⟨p0, q1, q2⟩ := hS.near n' n n1 n2 fun _ => hl
    have ep : p0 = p := V2.ext (q1.1.unique hpp.1.1) (q1.2.unique hpp.1.2)
    subst ep
    obtain ⟨f, f1, f2⟩ := fit_near hsc q1 hpc n1 hl n3
    obtain ⟨h, h1, h2⟩ := fit_near hsc ha.is ha.pt.coord n1 hl n3
    have hE12 : (b - a).norm ≤ 12 * M := by
      have := V2.norm_sub_le' b a
      have := ha.norm_le hM1
      have := hb.norm_le hM1
      linarith
    have nlo : 1 / 2 ^ 61 ≤ n.norm := by
      have h1 := n.l1_le_norm
      have h2 : (3 / 2 : ℝ) * (1 / 2 ^ 61) ≤ (2 : ℝ) ^ (-60 : ℤ) := by norm_num
      have h3 := h2.trans (hl.trans h1)
      linarith only [h3]
    have npos : 0 < n.norm := lt_of_lt_of_le (by positivity) nlo
    have w0 := V2.norm_nonneg (b - a)
    have u1 := e2.norm_le
    have u2 := e2.le_norm
    rw [← nn] at u1 u2
    have high : 524252 * (M / 2 ^ 24) * n.norm ≤ p0.dot n := by
      obtain ⟨m, hm, g⟩ := hD (V2.scale (1 / n.norm) n) (by
        rw [lengthSq_scale, div_pow, ← V2.norm_sq_lengthSq, one_pow, one_div_mul_cancel (by positivity)])
      rw [scale_dot, one_div, inv_mul_eq_div, le_div_iff₀ npos] at g
      have g2 := hpe m hm
      have g4 := mul_le_mul_of_nonneg_left n.l1_le_norm (show 0 ≤ 24 * (M / 2 ^ 24) by positivity)
      rw [dot_comm p0 n]
      have e32 : M / 32 * n.norm = 524288 * (M / 2 ^ 24) * n.norm := by ring
      rw [e32] at g
      linarith
    have F : Facet W M a b p0 n f h := by
      refine ⟨nlo, by linarith, by linarith, by linarith, ?_, ha.norm_le hM1, (hpp.norm hsc).1, high, f2, h2⟩
      have : (n - ⟨(b - a).y, -(b - a).x⟩).norm = (e - (b - a)).norm := by
        rw [en]; unfold V2.norm; congr 1
        show (e.y - (b - a).y) ^ 2 + (-e.x - -(b - a).x) ^ 2 = (e.x - (b - a).x) ^ 2 + (e.y - (b - a).y) ^ 2
        ring
      rw [this]; exact e2
    have flo := (abs_le.1 f2).1
    have hhi := hsc.hi
    have flo2 : 524237 * (M / 2 ^ 24) * n.norm ≤ f := by linarith
    have μlo : (1 : ℝ) / 2 ^ 40 ≤ M / 2 ^ 24 := by
      have : (1 : ℝ) / 2 ^ 16 / 2 ^ 24 ≤ M / 2 ^ 24 := div_le_div_of_nonneg_right hsc.lo (by positivity)
      exact le_trans (by norm_num) this
    have fn : 1 / 2 ^ 23 * n.norm ≤ f := by
      refine le_trans ?_ flo2
      exact mul_le_mul_of_nonneg_right (by linarith) npos.le
    have fpos : 1 / 2 ^ 100 ≤ f := by
      have := mul_le_mul_of_nonneg_left nlo (show (0 : ℝ) ≤ 1 / 2 ^ 23 by positivity)
      exact le_trans (by norm_num) (this.trans fn)
    have aN := dot_le_norm a n
    have pN := dot_le_norm p0 n
    have aN2 := mul_le_mul_of_nonneg_right F.lenA npos.le
    have pN2 := mul_le_mul_of_nonneg_right F.lenP npos.le
    have μM : M / 2 ^ 24 ≤ M / 100 := div_le_div_of_nonneg_left hM1.le (by norm_num) (by norm_num)
    have μMn := mul_le_mul_of_nonneg_right μM npos.le
    have Mn : M * n.norm ≤ 2 ^ 26 * n.norm := mul_le_mul_of_nonneg_right hhi npos.le
    have hbig : |h| ≤ 2 ^ 120 := by
      have g1 := abs_add_le (a.dot n) (h - a.dot n)
      rw [add_sub_cancel] at g1
      have g2 : n.norm ≤ 2 ^ 30 := by linarith [F.big]
      linarith
    obtain ⟨bet1, bet2⟩ := better_up f1 h1 fpos hbig
    by_cases hbet : sufficientlyBetter ((S n').dot n') (a'.dot n') FloatExtra.tol
    · rw [if_neg (not_not.2 hbet)]
      have hlen : idx + 1 ≤ pts.length := by
        obtain ⟨hlt, -⟩ := List.getElem?_eq_some_iff.1 hidx
        have : (closedEdges pts).length ≤ pts.length := by
          unfold closedEdges; rw [List.length_zip]; exact Nat.min_le_left _ _
        omega
      rw [if_pos hlen]
      have hidx' : (closedEdges (pts.map V2.toReal))[idx]? = some (a, b) := by
        rw [closedEdges_map, List.getElem?_map, hidx]
        show some (a'.toReal, b'.toReal) = _
        rw [ha.is.toReal, hb.is.toReal]
      obtain ⟨E1, E2, g1, g2⟩ := closedEdges_insert p0 hidx'
      refine ih _ ?_ ⟨?_, ?_, o, o1, ?_⟩
      · intro z hz
        rcases List.eq_or_mem_of_mem_insertIdx hz with rfl | hz
        · exact ⟨p0, q1, q2⟩
        · exact hP z hz
      · intro z hz
        rcases List.eq_or_mem_of_mem_insertIdx hz with rfl | hz
        · refine ⟨p0, q1, ?_⟩
          have g1 : 524252 * (M / 2 ^ 24) * n.norm ≤ p0.norm * n.norm := F.high.trans (dot_le_norm' p0 n)
          have g2 := le_of_mul_le_mul_right g1 npos
          linarith
        · exact hE.far z hz
      · intro z hz
        rw [List.map_insertIdx, q1.toReal, g2] at hz
        obtain ⟨l1, l2⟩ := F.long hM1 hE12 (bet1 hbet)
        have old := hE.long
        rw [g1] at old
        simp only [List.mem_append, List.mem_cons] at hz old
        rcases hz with hz | rfl | rfl | hz
        exacts [old z (Or.inl hz), l1, l2, old z (Or.inr (Or.inr hz))]
      · rw [List.map_insertIdx, q1.toReal, g2]
        rw [g1] at o2
        exact o2.insert (F.insert hM1 (bet1 hbet))
    · rw [if_pos hbet]
      obtain ⟨hpos, hfh⟩ := bet2 hbet
      have fhi := (abs_le.1 f2).2
      have pN' := le_abs_self (p0.dot n)
      obtain ⟨x, x1, x2⟩ := push_size n1 f1 nlo (by linarith [F.big]) fn (by linarith)
      refine ⟨_, x, rfl, x1, ?_, fun _ => epa_stop hS.noisy hk2 hM (le_trans (by norm_num) hsc.lo) n1 n2 n3 hl rfl x1⟩
      obtain ⟨k1, k2⟩ := F.deep hM1 hpos hfh x2 x.norm_nonneg D3
      have hdeep := ring_deep hM1 hp hE k2 (fun e he t t0 t1 => by
        obtain ⟨m1, m2⟩ := closedEdges_mem32 (p := e.1) (q := e.2) he
        obtain ⟨c, hc⟩ := hp _ m1
        obtain ⟨d, hd⟩ := hp _ m2
        rw [hc.is.toReal, hd.is.toReal]
        obtain ⟨De, g1, g2, -⟩ := edge_dist hsc hc hd (long he hc hd)
        exact (Real.sqrt_le_sqrt (hmin e he De g1)).trans (g2 t t0 t1))
      intro u hu
      obtain ⟨y, hy, g⟩ := hdeep u hu
      exact ⟨y, hy, k1.trans g⟩

end

end Auburn
