import Verif.Props.BoxBox

/-!
# C45: axis-aligned boxes, `penetrates` and `sdfv` of overlapping boxes
-/

set_option linter.unusedSectionVars false
set_option synthInstance.maxSize 1000

namespace Auburn

open V2 ExtremePoint2d Transformation2d Auburn.Invertible Composable

section
variable {K : Type} [Field K] [LinearOrder K] [IsStrictOrderedRing K] [FloatExtra K]
  [ExactFloat K] {M : Set (V2 K)} {S : V2 K → V2 K} {h p : V2 K}

/-- `S` is the support function of the rectangle `M` with half sizes `h` around `-p`, whose interior
contains the origin -/
structure RectSupport (M : Set (V2 K)) (S : V2 K → V2 K) (h p : V2 K) : Prop where
  sx : ∀ (e : K) (d : V2 K), e * e = 1 → 0 < e * d.x → (S d).x = e * h.x - p.x
  sy : ∀ (e : K) (d : V2 K), e * e = 1 → 0 < e * d.y → (S d).y = e * h.y - p.y
  ext : ∀ d, IsExtreme M d (S d)
  px : |p.x| < h.x
  py : |p.y| < h.y

/-- a corner of the rectangle -/
def Corner (h p q : V2 K) : Prop :=
  ∃ s u : K, s * s = 1 ∧ u * u = 1 ∧ q = ⟨s * h.x - p.x, u * h.y - p.y⟩

theorem unit_cases {s : K} (hs : s * s = 1) : s = 1 ∨ s = -1 := mul_self_eq_one_iff.1 hs

theorem RectSupport.corner (hR : RectSupport M S h p) {d : V2 K} (hx : d.x ≠ 0) (hy : d.y ≠ 0) :
    Corner h p (S d) := by
  have key : ∀ x : K, x ≠ 0 → ∃ e : K, e * e = 1 ∧ 0 < e * x := by
    intro x hx
    rcases lt_or_gt_of_ne hx with h1 | h1
    · exact ⟨-1, by ring, by linarith⟩
    · exact ⟨1, by ring, by linarith⟩
  obtain ⟨s, hs, hs'⟩ := key _ hx
  obtain ⟨u, hu, hu'⟩ := key _ hy
  exact ⟨s, u, hs, hu, V2.ext (hR.sx s d hs hs') (hR.sy u d hu hu')⟩

theorem RectSupport.surrounds (hR : RectSupport M S h p) : Surrounds S := by
  have key : ∀ {l q x y : K}, |q| < l → (∀ e : K, e * e = 1 → 0 < e * x → y = e * l - q) →
      0 ≤ y * x ∧ (x ≠ 0 → 0 < y * x) := by
    intro l q x y hq hy
    obtain ⟨h1, h2⟩ := abs_lt.1 hq
    rcases lt_trichotomy x 0 with h3 | h3 | h3
    · rw [hy (-1) (by ring) (by linarith)]
      have := mul_pos (show 0 < l + q by linarith) (neg_pos.2 h3)
      exact ⟨by linarith, fun _ => by linarith⟩
    · rw [h3, mul_zero]; exact ⟨le_rfl, fun h => absurd rfl h⟩
    · rw [hy 1 (by ring) (by linarith)]
      have := mul_pos (show 0 < l - q by linarith) h3
      exact ⟨by linarith, fun _ => by linarith⟩
  intro d hd
  obtain ⟨x1, x2⟩ := key hR.px (fun e => hR.sx e d)
  obtain ⟨y1, y2⟩ := key hR.py (fun e => hR.sy e d)
  rw [dot_def]
  by_cases hx : d.x = 0
  · have hy : d.y ≠ 0 := fun hy => hd (V2.ext hx hy)
    have := y2 hy; linarith
  · have := x2 hx; linarith

theorem corner_length {pts : List (V2 K)} (hn : pts.Nodup) (hc : ∀ q ∈ pts, Corner h p q) :
    pts.length ≤ 4 := by
  have hsub : pts ⊆ [⟨h.x - p.x, h.y - p.y⟩, ⟨h.x - p.x, -h.y - p.y⟩, ⟨-h.x - p.x, h.y - p.y⟩,
      ⟨-h.x - p.x, -h.y - p.y⟩] := by
    intro q hq
    obtain ⟨s, u, hs, hu, rfl⟩ := hc q hq
    rcases unit_cases hs with rfl | rfl <;> rcases unit_cases hu with rfl | rfl <;> simp
  exact (List.subperm_of_subset hn hsub).length_le

/-- EPA started on corners of a rectangle: the result is the push out of a nearest face, exactly. -/
theorem rect_epa (hR : RectSupport M S h p) : ∀ (n : Nat) (pts : List (V2 K)), EpaInv M S pts →
    (∀ q ∈ pts, Corner h p q) → 5 ≤ pts.length + n → ∀ v, epa S n pts = .ok v →
    (∃ s : K, s * s = 1 ∧ (v = ⟨p.x - s * h.x, 0⟩ ∨ v = ⟨0, p.y - s * h.y⟩)) ∧
      ∀ w, Separates M w → lengthSq v ≤ lengthSq w := by
  intro n
  induction n with
  | zero =>
    intro pts hI hc hl
    have := corner_length hI.nodup hc
    omega
  | succ n ih =>
    intro pts hI hc hl v hv
    obtain ⟨f1, f2⟩ := findClosestEdge_spec hI.ne
    simp only [epa] at hv
    set e := findClosestEdge pts with he
    have hab : (e.a, e.b) ∈ closedEdges pts := List.mem_of_getElem? f1
    have hcw := hI.ccw _ _ hab
    have hnz := normal_ne hcw.ne
    have hxe := hR.ext (e.b - e.a).perpRight
    obtain ⟨px1, px2⟩ := abs_lt.1 hR.px
    obtain ⟨py1, py2⟩ := abs_lt.1 hR.py
    have hge := edgeDistSq_ge e.a e.b
    have hmin : ∀ w, Separates M w → edgeDistSq e.a e.b ≤ lengthSq w := fun w hw =>
      hI.min_edge f2 hw
    have hc0 := hcw.nonneg
    obtain ⟨s1, u1, hs1, hu1, ea⟩ := hc _ (closedEdges_mem hab).1
    obtain ⟨s2, u2, hs2, hu2, eb⟩ := hc _ (closedEdges_mem hab).2
    set x := S (e.b - e.a).perpRight with hx
    have hX : 0 < h.x := by linarith
    have hY : 0 < h.y := by linarith
    have hpos : ∀ {s q l : K}, s * s = 1 → -l < q → q < l → 0 < s * (s * l - q) := by
      intro s q l hs h1 h2
      rcases unit_cases hs with rfl | rfl <;> linarith
    by_cases hsx : s1 = s2
    · -- a vertical face
      subst hsx
      have hu12 : u1 ≠ u2 := by
        rintro rfl; exact hcw.ne (ea.trans eb.symm)
      have hu2' : u2 = -u1 := by
        rcases unit_cases hu1 with rfl | rfl <;> rcases unit_cases hu2 with rfl | rfl <;>
          first | exact absurd rfl hu12 | ring
      subst hu2'
      have en : (e.b - e.a).perpRight = ⟨-(2 * u1 * h.y), 0⟩ := by
        rw [ea, eb]; ext <;> simp [perpRight]; ring
      have hcr : e.a.cross e.b = (s1 * h.x - p.x) * (-(2 * u1 * h.y)) := by
        rw [ea, eb]; simp only [V2.cross]; ring
      have hsn : 0 < s1 * (-(2 * u1 * h.y)) := by
        have h3 := hpos hs1 px1 px2
        rw [hcr] at hc0
        rcases unit_cases hs1 with rfl | rfl <;> rcases unit_cases hu1 with rfl | rfl <;>
          first
          | linarith
          | (exfalso; nlinarith)
      have hxx : x.x = s1 * h.x - p.x := by
        rw [hx]; exact hR.sx s1 _ hs1 (by rw [en]; exact hsn)
      have hfit : x.dot (e.b - e.a).perpRight = e.a.dot (e.b - e.a).perpRight := by
        rw [en, dot_def, dot_def, hxx, ea]; simp
      have hns : ¬ sufficientlyBetter (x.dot (e.b - e.a).perpRight)
          (e.a.dot (e.b - e.a).perpRight) FloatExtra.tol := by
        rw [hfit, dot_comm, normal_dot_left]
        obtain ⟨t0, t1⟩ := tol_bounds (K := K)
        have := mul_nonneg hc0 t0
        unfold sufficientlyBetter
        split_ifs with h0
        · rw [gt_iff_lt, not_lt]; linarith
        · have : e.a.cross e.b = 0 := le_antisymm (not_lt.1 h0) hc0
          rw [this]; simp
      rw [if_pos hns] at hv
      simp only [Except.ok.injEq] at hv
      have hne : (-(2 * u1 * h.y)) ≠ 0 := by rintro h0; rw [h0] at hsn; simp at hsn
      have hv' : v = ⟨p.x - s1 * h.x, 0⟩ := by
        rw [← hv, hfit, en, ea]
        generalize -(2 * u1 * h.y) = m at hne
        ext
        · simp only [dot_def, scale_x]; field_simp; ring
        · simp
      refine ⟨⟨s1, hs1, Or.inl hv'⟩, fun w hw => ?_⟩
      have h4 := hmin w hw
      have h5 : lengthSq v * lengthSq (e.b - e.a) ≤ edgeDistSq e.a e.b * lengthSq (e.b - e.a) := by
        refine le_trans (le_of_eq ?_) (hge.trans (le_of_eq (mul_comm _ _)))
        rw [hcr, hv', ← normal_lengthSq, en]; simp only [lengthSq_def]; ring
      have hL : 0 < lengthSq (e.b - e.a) := lengthSq_pos.2 (sub_ne_zero.2 hcw.ne.symm)
      exact (le_of_mul_le_mul_right h5 hL).trans h4
    · by_cases huy : u1 = u2
      · -- a horizontal face
        subst huy
        have hs2' : s2 = -s1 := by
          rcases unit_cases hs1 with rfl | rfl <;> rcases unit_cases hs2 with rfl | rfl <;>
            first | exact absurd rfl hsx | ring
        subst hs2'
        have en : (e.b - e.a).perpRight = ⟨0, 2 * s1 * h.x⟩ := by
          rw [ea, eb]; ext <;> simp [perpRight]; ring
        have hcr : e.a.cross e.b = (u1 * h.y - p.y) * (2 * s1 * h.x) := by
          rw [ea, eb]; simp only [V2.cross]; ring
        have hsn : 0 < u1 * (2 * s1 * h.x) := by
          have h3 := hpos hu1 py1 py2
          rw [hcr] at hc0
          rcases unit_cases hs1 with rfl | rfl <;> rcases unit_cases hu1 with rfl | rfl <;>
            first
            | linarith
            | (exfalso; nlinarith)
        have hxx : x.y = u1 * h.y - p.y := by
          rw [hx]; exact hR.sy u1 _ hu1 (by rw [en]; exact hsn)
        have hfit : x.dot (e.b - e.a).perpRight = e.a.dot (e.b - e.a).perpRight := by
          rw [en, dot_def, dot_def, hxx, ea]; simp
        have hns : ¬ sufficientlyBetter (x.dot (e.b - e.a).perpRight)
            (e.a.dot (e.b - e.a).perpRight) FloatExtra.tol := by
          rw [hfit, dot_comm, normal_dot_left]
          obtain ⟨t0, t1⟩ := tol_bounds (K := K)
          have := mul_nonneg hc0 t0
          unfold sufficientlyBetter
          split_ifs with h0
          · rw [gt_iff_lt, not_lt]; linarith
          · have : e.a.cross e.b = 0 := le_antisymm (not_lt.1 h0) hc0
            rw [this]; simp
        rw [if_pos hns] at hv
        simp only [Except.ok.injEq] at hv
        have hne : (2 * s1 * h.x) ≠ 0 := by rintro h0; rw [h0] at hsn; simp at hsn
        have hv' : v = ⟨0, p.y - u1 * h.y⟩ := by
          rw [← hv, hfit, en, ea]
          generalize 2 * s1 * h.x = m at hne
          ext
          · simp
          · simp only [dot_def, scale_y]; field_simp; ring
        refine ⟨⟨u1, hu1, Or.inr hv'⟩, fun w hw => ?_⟩
        have h4 := hmin w hw
        have h5 : lengthSq v * lengthSq (e.b - e.a) ≤ edgeDistSq e.a e.b * lengthSq (e.b - e.a) := by
          refine le_trans (le_of_eq ?_) (hge.trans (le_of_eq (mul_comm _ _)))
          rw [hcr, hv', ← normal_lengthSq, en]; simp only [lengthSq_def]; ring
        have hL : 0 < lengthSq (e.b - e.a) := lengthSq_pos.2 (sub_ne_zero.2 hcw.ne.symm)
        exact (le_of_mul_le_mul_right h5 hL).trans h4
      · -- a diagonal
        have hs2' : s2 = -s1 := by
          rcases unit_cases hs1 with rfl | rfl <;> rcases unit_cases hs2 with rfl | rfl <;>
            first | exact absurd rfl hsx | ring
        have hu2' : u2 = -u1 := by
          rcases unit_cases hu1 with rfl | rfl <;> rcases unit_cases hu2 with rfl | rfl <;>
            first | exact absurd rfl huy | ring
        subst hs2' hu2'
        have en : (e.b - e.a).perpRight = ⟨-(2 * u1 * h.y), 2 * s1 * h.x⟩ := by
          rw [ea, eb]; ext <;> simp [perpRight] <;> ring
        have hxx : x.x = -u1 * h.x - p.x := by
          rw [hx]; refine hR.sx (-u1) _ (by linarith) ?_
          rw [en]
          have : -u1 * -(2 * u1 * h.y) = 2 * (u1 * u1) * h.y := by ring
          simp only [this, hu1]; linarith
        have hxy : x.y = s1 * h.y - p.y := by
          rw [hx]; refine hR.sy s1 _ hs1 ?_
          rw [en]
          have : s1 * (2 * s1 * h.x) = 2 * (s1 * s1) * h.x := by ring
          simp only [this, hs1]; linarith
        have hfit : x.dot (e.b - e.a).perpRight = 4 * h.x * h.y + e.a.dot (e.b - e.a).perpRight := by
          rw [en, dot_def, dot_def, hxx, hxy, ea]
          linear_combination (2 * h.x * h.y) * hu1 + (2 * h.x * h.y) * hs1
        have hbt : e.a.dot (e.b - e.a).perpRight < 4 * h.x * h.y := by
          rw [en, dot_def, ea]
          have g1 : |2 * u1 * h.y * p.x| < 2 * h.y * h.x := by
            have : |u1| = 1 := by rcases unit_cases hu1 with rfl | rfl <;> simp
            rw [abs_mul, abs_mul, abs_mul, this, abs_of_pos hY, abs_of_pos (two_pos : (0 : K) < 2)]
            nlinarith [hR.px]
          have g2 : |2 * s1 * h.x * p.y| < 2 * h.x * h.y := by
            have : |s1| = 1 := by rcases unit_cases hs1 with rfl | rfl <;> simp
            rw [abs_mul, abs_mul, abs_mul, this, abs_of_pos hX, abs_of_pos (two_pos : (0 : K) < 2)]
            nlinarith [hR.py]
          have := (abs_lt.1 g1).2
          have := (abs_lt.1 g2).1
          simp only
          linarith
        have hq : 0 < h.x * h.y := mul_pos hX hY
        have hb0 : 0 ≤ e.a.dot (e.b - e.a).perpRight := by
          rw [dot_comm, normal_dot_left]; exact hc0
        have hsb : sufficientlyBetter (x.dot (e.b - e.a).perpRight)
            (e.a.dot (e.b - e.a).perpRight) FloatExtra.tol := by
          obtain ⟨t0, t1⟩ := tol_bounds (K := K)
          rw [hfit]
          unfold sufficientlyBetter
          split_ifs with h0
          · have := mul_le_mul_of_nonneg_left t1 hb0
            rw [gt_iff_lt]; linarith
          · have := mul_nonneg hb0 t0
            rw [gt_iff_lt]; linarith
        rw [if_neg (not_not.2 hsb)] at hv
        split_ifs at hv with hlen
        have hlt : e.a.cross e.b < e.a.cross x + x.cross e.b := by
          rw [← normal_dot, ← normal_dot_left, dot_comm _ x, hfit, dot_comm e.a]
          linarith
        have hxP : PInv M x := ⟨(e.b - e.a).perpRight, hxe.2, by
          rw [dot_comm, hfit]; linarith⟩
        refine ih _ (hI.insert f1 hlen hxe.1 hxP ⟨_, hnz, rfl⟩ hlt) ?_ ?_ v hv
        · intro q hq
          rcases List.eq_or_mem_of_mem_insertIdx hq with rfl | h1
          · refine hR.corner ?_ ?_ <;> rw [en]
            · exact neg_ne_zero.2 (mul_ne_zero (mul_ne_zero two_ne_zero
                (by rintro rfl; simp at hu1)) hY.ne')
            · exact mul_ne_zero (mul_ne_zero two_ne_zero (by rintro rfl; simp at hs1)) hX.ne'
          · exact hc q h1
        · rw [List.length_insertIdx_of_le_length (by omega)]; omega

set_option maxHeartbeats 1000000 in
/-- the search on a rectangle around the origin: the first two points are opposite corners, the third
one is a corner on the side of the origin, and the penetration algorithm starts from there -/
theorem rect_gjk (hR : RectSupport M S h p) (hpx : p.x ≠ 0) (hpy : p.y ≠ 0)
    (hq : (1 / 2 ^ 23 : K) ^ 2 ≤ (h.x - |p.x|) ^ 2 + (h.y - |p.y|) ^ 2)
    (hκ : h.x * |p.y| = h.y * |p.x| ∨ (1 / 2 ^ 23 : K) ^ 2 ≤
      16 * (h.x * |p.y| - h.y * |p.x|) ^ 2 * (h.x ^ 2 + h.y ^ 2)) :
    ∃ pts, EpaInv M S pts ∧ (∀ q ∈ pts, Corner h p q) ∧ pts.length = 3 ∧
      -(S p) ≠ 0 ∧ ∀ n,
      gjkPenetrate S (n + 2) (-(S p)) [S p] = (epa S iterationLimit pts).map (fun v => (true, v)) ∧
      gjkPenetrate S (n + 3) p [] = (epa S iterationLimit pts).map (fun v => (true, v)) := by
  have key : ∀ x : K, x ≠ 0 → ∃ e : K, e * e = 1 ∧ 0 < e * x ∧ |x| = e * x := by
    intro x hx
    rcases lt_or_gt_of_ne hx with h1 | h1
    · exact ⟨-1, by ring, by linarith, by rw [abs_of_neg h1]; ring⟩
    · exact ⟨1, by ring, by linarith, by rw [abs_of_pos h1]; ring⟩
  obtain ⟨s, hs, hsp, eax⟩ := key _ hpx
  obtain ⟨u, hu, hup, eay⟩ := key _ hpy
  have hpx' := hR.px
  have hpy' := hR.py
  rw [eax] at hq hκ hpx'
  rw [eay] at hq hκ hpy'
  have hX : 0 < h.x := hsp.trans hpx'
  have hY : 0 < h.y := hup.trans hpy'
  have hxy := mul_pos hX hY
  obtain ⟨q0, hq0⟩ : ∃ q : V2 K, q = ⟨s * h.x - p.x, u * h.y - p.y⟩ := ⟨_, rfl⟩
  obtain ⟨q1, hq1⟩ : ∃ q : V2 K, q = ⟨-s * h.x - p.x, -u * h.y - p.y⟩ := ⟨_, rfl⟩
  -- signs of the coordinates
  have x0 : s * q0.x = h.x - s * p.x := by rw [hq0]; linear_combination h.x * hs
  have y0 : u * q0.y = h.y - u * p.y := by rw [hq0]; linear_combination h.y * hu
  have x1 : s * q1.x = -(h.x + s * p.x) := by rw [hq1]; linear_combination -h.x * hs
  have y1 : u * q1.y = -(h.y + u * p.y) := by rw [hq1]; linear_combination -h.y * hu
  have dotf : ∀ a b : V2 K, a.dot b = (s * a.x) * (s * b.x) + (u * a.y) * (u * b.y) := by
    intro a b; rw [dot_def]
    linear_combination -(a.x * b.x) * hs - (a.y * b.y) * hu
  have crossf : ∀ a b : V2 K, s * u * a.cross b = (s * a.x) * (u * b.y) - (u * a.y) * (s * b.x) := by
    intro a b; rw [cross_def]; ring
  have e0 : S p = q0 := hq0 ▸ V2.ext (hR.sx s p hs hsp) (hR.sy u p hu hup)
  have e1 : S (-q0) = q1 := by
    rw [hq1]
    refine V2.ext (hR.sx (-s) _ (by linarith) ?_) (hR.sy (-u) _ (by linarith) ?_)
    · rw [neg_x]; linarith
    · rw [neg_y]; linarith
  -- step 1
  have d1 : ¬ q0.dot p ≤ 0 := by
    rw [dotf, x0, y0, not_le]
    have := mul_pos (sub_pos.2 hpx') hsp
    have := mul_pos (sub_pos.2 hpy') hup
    linarith
  have lq0 : lengthSq q0 = (h.x - s * p.x) ^ 2 + (h.y - u * p.y) ^ 2 := by
    rw [← dot_self, dotf, x0, y0]; ring
  have o1 : ¬ directionTooSmall (-q0) := by
    unfold directionTooSmall
    rw [lengthSq_neg, ExactFloat.epsilon_eq, not_lt, lq0]
    refine le_trans (le_of_eq ?_) hq; ring
  -- step 2
  have d2 : ¬ q1.dot (-q0) ≤ 0 := by
    rw [dotf, not_le]; simp only [neg_x, neg_y, mul_neg, x0, y0, x1, y1]
    have := mul_pos (sub_pos.2 hpx') (show 0 < h.x + s * p.x by linarith)
    have := mul_pos (sub_pos.2 hpy') (show 0 < h.y + u * p.y by linarith)
    linarith
  have d2' : (q0 - q1).dot (-q1) ≥ 0 := by
    rw [dotf, ge_iff_le]; simp only [neg_x, neg_y, sub_x, sub_y, mul_neg, mul_sub s, mul_sub u, x0, y0, x1, y1]
    have := mul_pos hX (show 0 < h.x + s * p.x by linarith)
    have := mul_pos hY (show 0 < h.y + u * p.y by linarith)
    linarith
  set κ := h.x * (u * p.y) - h.y * (s * p.x) with hκd
  have edir : (q0 - q1).crossAba (-q1) = ⟨-(4 * s * h.y * κ), 4 * u * h.x * κ⟩ := by
    have : (q0 - q1).cross (-q1) = 2 * (s * u) * κ := by
      simp only [cross_def, hq0, hq1, hκd, sub_x, sub_y, neg_x, neg_y]
      linear_combination -(2 * s * h.x * p.y) * hu + (2 * u * h.y * p.x) * hs
    simp only [crossAba, this]
    ext
    · simp only [hq0, hq1, sub_y]; linear_combination -(4 * s * h.y * κ) * hu
    · simp only [hq0, hq1, sub_x]; linear_combination (4 * u * h.x * κ) * hs
  -- the third direction
  obtain ⟨d, e, he, hd, hdx, hdy, heκ⟩ : ∃ (d : V2 K) (e : K), e * e = 1 ∧
      overrideDir (-q0) ((q0 - q1).crossAba (-q1)) = d ∧ 0 < (-s * e) * d.x ∧ 0 < (u * e) * d.y ∧
      0 ≤ e * κ := by
    by_cases hκ0 : κ = 0
    · refine ⟨(-q0).perp, -(s * u), by linear_combination (u * u) * hs + hu, ?_, ?_, ?_, ?_⟩
      · unfold overrideDir
        rw [if_pos]
        unfold directionTooSmall
        rw [edir, hκ0, ExactFloat.epsilon_eq, lengthSq_def]
        simp
      · simp only [perp, neg_y, neg_neg, neg_mul_neg]
        have : s * (s * u) * q0.y = u * q0.y := by linear_combination (u * q0.y) * hs
        rw [this, y0]; linarith
      · simp only [perp, neg_x]
        have : u * -(s * u) * -q0.x = s * q0.x := by linear_combination (s * q0.x) * hu
        rw [this, x0]; linarith
      · rw [hκ0]; simp
    · obtain ⟨e, he, hep, _⟩ := key κ hκ0
      refine ⟨(q0 - q1).crossAba (-q1), e, he, ?_, ?_, ?_, hep.le⟩
      · unfold overrideDir
        rw [if_neg]
        unfold directionTooSmall
        rw [edir, ExactFloat.epsilon_eq, not_lt, lengthSq_def]
        have := hκ.resolve_left (fun h0 => hκ0 (by rw [hκd, h0, sub_self]))
        refine le_trans (le_of_eq (by ring)) (this.trans (le_of_eq ?_))
        linear_combination -(16 * h.y ^ 2 * κ ^ 2) * hs - (16 * h.x ^ 2 * κ ^ 2) * hu
      · rw [edir]
        have : -s * e * -(4 * s * h.y * κ) = 4 * h.y * (e * κ) := by
          linear_combination (4 * e * h.y * κ) * hs
        simp only [this]
        have := mul_pos hY hep; linarith
      · rw [edir]
        have : u * e * (4 * u * h.x * κ) = 4 * h.x * (e * κ) := by
          linear_combination (4 * e * h.x * κ) * hu
        simp only [this]
        have := mul_pos hX hep; linarith
  obtain ⟨r, hr⟩ : ∃ q : V2 K, q = ⟨-s * e * h.x - p.x, u * e * h.y - p.y⟩ := ⟨_, rfl⟩
  have er : S d = r := hr ▸ V2.ext (hR.sx (-s * e) d (by linear_combination (e * e) * hs + he) hdx)
    (hR.sy (u * e) d (by linear_combination (e * e) * hu + he) hdy)
  have xr : s * r.x = -(e * h.x + s * p.x) := by rw [hr]; linear_combination -(e * h.x) * hs
  have yr : u * r.y = e * h.y - u * p.y := by rw [hr]; linear_combination (e * h.y) * hu
  have d3 : ¬ r.dot d ≤ 0 := by
    have h1 : r.dot d = (-e * (s * r.x)) * (-s * e * d.x) + (e * (u * r.y)) * (u * e * d.y) := by
      rw [dot_def]
      linear_combination (-(e * e) * (r.x * d.x)) * hs - (e * e * (r.y * d.y)) * hu -
        (r.x * d.x + r.y * d.y) * he
    rw [h1, not_le, xr, yr]
    have h2 : 0 < -e * -(e * h.x + s * p.x) := by
      rcases unit_cases he with rfl | rfl <;> linarith
    have h3 : 0 < e * (e * h.y - u * p.y) := by
      rcases unit_cases he with rfl | rfl <;> linarith
    have := mul_pos h2 hdx
    have := mul_pos h3 hdy
    linarith
  have hX' : 0 < h.x + s * p.x := by linarith
  have hY' : 0 < h.y + u * p.y := by linarith
  have hX0 : 0 < h.x - s * p.x := by linarith
  have hY0 : 0 < h.y - u * p.y := by linarith
  have abc : (q1 - r).cross (q0 - r) = s * u * e * (4 * h.x * h.y) := by
    simp only [cross_def, hq0, hq1, hr, sub_x, sub_y]
    linear_combination 0 * he
  have c1 : ¬ sameDirection ((q1 - r).crossF32 ((q1 - r).cross (q0 - r))) (-r) := by
    unfold sameDirection
    rw [ge_iff_le, not_le, abc]
    rcases unit_cases he with rfl | rfl
    · have : ((q1 - r).crossF32 (s * u * 1 * (4 * h.x * h.y))).dot (-r) =
          -(8 * (h.x * h.y) * (h.y * (h.x + s * p.x))) := by
        rw [hq1, hr]
        rcases unit_cases hs with rfl | rfl <;> rcases unit_cases hu with rfl | rfl <;>
          simp only [dot_def, crossF32, sub_x, sub_y, neg_x, neg_y] <;> ring
      rw [this]
      have := mul_pos hxy (mul_pos hY hX'); linarith
    · have : ((q1 - r).crossF32 (s * u * -1 * (4 * h.x * h.y))).dot (-r) =
          -(8 * (h.x * h.y) * (h.x * (h.y + u * p.y))) := by
        rw [hq1, hr]
        rcases unit_cases hs with rfl | rfl <;> rcases unit_cases hu with rfl | rfl <;>
          simp only [dot_def, crossF32, sub_x, sub_y, neg_x, neg_y] <;> ring
      rw [this]
      have := mul_pos hxy (mul_pos hX hY'); linarith
  have c2 : ¬ sameDirection (crossSV ((q1 - r).cross (q0 - r)) (q0 - r)) (-r) := by
    unfold sameDirection
    rw [ge_iff_le, not_le, abc]
    rcases unit_cases he with rfl | rfl
    · have : (crossSV (s * u * 1 * (4 * h.x * h.y)) (q0 - r)).dot (-r) =
          -(8 * (h.x * h.y) * (h.x * (h.y - u * p.y))) := by
        rw [hq0, hr]
        rcases unit_cases hs with rfl | rfl <;> rcases unit_cases hu with rfl | rfl <;>
          simp only [dot_def, crossSV, sub_x, sub_y, neg_x, neg_y] <;> ring
      rw [this]
      have := mul_pos hxy (mul_pos hX hY0); linarith
    · have : (crossSV (s * u * -1 * (4 * h.x * h.y)) (q0 - r)).dot (-r) =
          -(8 * (h.x * h.y) * (h.y * (h.x - s * p.x))) := by
        rw [hq0, hr]
        rcases unit_cases hs with rfl | rfl <;> rcases unit_cases hu with rfl | rfl <;>
          simp only [dot_def, crossSV, sub_x, sub_y, neg_x, neg_y] <;> ring
      rw [this]
      have := mul_pos hxy (mul_pos hY hX0); linarith
  have hd0 : d ≠ 0 := by rintro rfl; simp at hdx
  have hp0 : p ≠ 0 := by rintro rfl; exact hpx rfl
  have hnq0 : -q0 ≠ 0 := by
    intro h0; rw [h0] at d2; simp at d2
  have P : ∀ {d q : V2 K}, S d = q → ¬ q.dot d ≤ 0 → PInv M q := fun {d q} h1 h0 =>
    ⟨d, h1 ▸ (hR.ext d).2, by rw [dot_comm]; exact not_le.1 h0⟩
  have mem : ∀ {d q : V2 K}, S d = q → q ∈ M := fun {d q} h1 => h1 ▸ (hR.ext d).1
  have F1 : 0 < s * u * e * r.cross q1 := by
    have : s * u * e * r.cross q1 = e * (s * u * r.cross q1) := by ring
    rw [this, crossf, xr, yr, x1, y1]
    rcases unit_cases he with rfl | rfl
    · have := mul_pos hX' hY; nlinarith
    · have := mul_pos hX hY'; nlinarith
  have F2 : 0 < s * u * e * q0.cross r := by
    have : s * u * e * q0.cross r = e * (s * u * q0.cross r) := by ring
    rw [this, crossf, xr, yr, x0, y0]
    rcases unit_cases he with rfl | rfl
    · have := mul_pos hX hY0; nlinarith
    · have := mul_pos hX0 hY; nlinarith
  have F3 : 0 ≤ s * u * e * q1.cross q0 := by
    have : s * u * e * q1.cross q0 = e * (s * u * q1.cross q0) := by ring
    rw [this, crossf, x1, y1, x0, y0]
    have : e * (-(h.x + s * p.x) * (h.y - u * p.y) - -(h.y + u * p.y) * (h.x - s * p.x)) =
      2 * (e * κ) := by rw [hκd]; ring
    rw [this]; linarith
  have F4 : q1.dot q0 < 0 := by
    rw [dotf, x0, x1, y0, y1]
    have := mul_pos hX' hX0
    have := mul_pos hY' hY0
    linarith
  have C0 : Corner h p q0 := ⟨s, u, hs, hu, hq0⟩
  have C1 : Corner h p q1 := ⟨-s, -u, by linarith, by linarith, hq1⟩
  have Cr : Corner h p r := ⟨-s * e, u * e, by linear_combination (e * e) * hs + he,
    by linear_combination (e * e) * hu + he, hr⟩
  have hσ : (s * u * e) * (s * u * e) = 1 := by
    linear_combination (u * u * (e * e)) * hs + (e * e) * hu + he
  obtain ⟨pts, hccw, hI, hC, hlen⟩ : ∃ pts, enforceCcw [r, q1, q0] = .ok pts ∧ EpaInv M S pts ∧
      (∀ q ∈ pts, Corner h p q) ∧ pts.length = 3 := by
    simp only [enforceCcw, abc]
    rcases unit_cases hσ with h1 | h1
    · rw [h1] at F1 F2 F3
      rw [h1, if_pos (by linarith)]
      refine ⟨_, rfl, epaInv_triangle ?_ ?_ ?_ (by linarith) (by linarith) ?_, ?_, rfl⟩
      · intro q hq
        simp only [List.mem_cons, List.not_mem_nil, or_false] at hq
        rcases hq with rfl | rfl | rfl
        exacts [mem er, mem e1, mem e0]
      · intro q hq
        simp only [List.mem_cons, List.not_mem_nil, or_false] at hq
        rcases hq with rfl | rfl | rfl
        exacts [P er d3, P e1 d2, P e0 d1]
      · intro q hq
        simp only [List.mem_cons, List.not_mem_nil, or_false] at hq
        rcases hq with rfl | rfl | rfl
        exacts [⟨_, hd0, er.symm⟩, ⟨_, hnq0, e1.symm⟩, ⟨_, hp0, e0.symm⟩]
      · rw [one_mul] at F3
        rcases F3.lt_or_eq with h2 | h2
        · exact Or.inl h2
        · exact Or.inr ⟨h2.symm, F4⟩
      · intro q hq
        simp only [List.mem_cons, List.not_mem_nil, or_false] at hq
        rcases hq with rfl | rfl | rfl
        exacts [Cr, C1, C0]
    · rw [h1] at F1 F2 F3
      rw [h1, if_neg (by rw [gt_iff_lt, not_lt]; linarith)]
      have anti : ∀ a b : V2 K, a.cross b = -b.cross a := by
        intro a b; simp only [cross_def]; ring
      refine ⟨_, rfl, epaInv_triangle ?_ ?_ ?_ (by rw [anti]; linarith) (by rw [anti]; linarith) ?_,
        ?_, rfl⟩
      · intro q hq
        simp only [List.mem_cons, List.not_mem_nil, or_false] at hq
        rcases hq with rfl | rfl | rfl
        exacts [mem er, mem e0, mem e1]
      · intro q hq
        simp only [List.mem_cons, List.not_mem_nil, or_false] at hq
        rcases hq with rfl | rfl | rfl
        exacts [P er d3, P e0 d1, P e1 d2]
      · intro q hq
        simp only [List.mem_cons, List.not_mem_nil, or_false] at hq
        rcases hq with rfl | rfl | rfl
        exacts [⟨_, hd0, er.symm⟩, ⟨_, hp0, e0.symm⟩, ⟨_, hnq0, e1.symm⟩]
      · rw [neg_one_mul, ← anti] at F3
        rw [dot_comm] at F4
        rcases F3.lt_or_eq with h2 | h2
        · exact Or.inl h2
        · exact Or.inr ⟨h2.symm, F4⟩
      · intro q hq
        simp only [List.mem_cons, List.not_mem_nil, or_false] at hq
        rcases hq with rfl | rfl | rfl
        exacts [Cr, C0, C1]
  have o1' : overrideDir p (-q0) = -q0 := by unfold overrideDir; rw [if_neg o1]
  have run : ∀ n, gjkPenetrate S (n + 2) (-q0) [q0] =
      (epa S iterationLimit pts).map (fun v => (true, v)) := by
    intro n
    rw [gjkPenetrate]
    simp only [e1, if_neg d2, addPoint, if_pos d2', Bool.false_eq_true, if_false, hd]
    rw [gjkPenetrate]
    simp only [er, if_neg d3, addPoint, if_neg c1, if_neg c2, if_true, hccw]
    cases epa S iterationLimit pts <;> rfl
  refine ⟨pts, hI, hC, hlen, by rw [e0]; exact hnq0, fun n => ⟨by rw [e0]; exact run n, ?_⟩⟩
  rw [gjkPenetrate]
  simp only [e0, if_neg d1, addPoint, Bool.false_eq_true, if_false, o1']
  exact run n

/-- the support function of the difference of two overlapping boxes -/
theorem rectSupport_box (a b : Box2d K) (p : V2 K)
    (ha : 0 ≤ a.halfsize.x ∧ 0 ≤ a.halfsize.y) (hb : 0 ≤ b.halfsize.x ∧ 0 ≤ b.halfsize.y)
    (hx : |p.x| < a.halfsize.x + b.halfsize.x) (hy : |p.y| < a.halfsize.y + b.halfsize.y) :
    RectSupport (minkDiff (Region.pts a) (placed p b)) (extremePoint (LocalMinkowskiDiff2d.mk a b p))
      (a.halfsize + b.halfsize) p where
  sx e d he hd := by
    rcases unit_cases he with rfl | rfl
    · rw [(boxS_x a b p d).1 (by linarith), add_x]; ring
    · rw [(boxS_x a b p d).2 (by linarith), add_x]; ring
  sy e d he hd := by
    rcases unit_cases he with rfl | rfl
    · rw [(boxS_y a b p d).1 (by linarith), add_y]; ring
    · rw [(boxS_y a b p d).2 (by linarith), add_y]; ring
  ext := (convexPair_box_box a b p ha hb ⟨1, zero_le_one, similarity_vec2 p⟩).support
  px := hx
  py := hy

/-- the push that takes an interval of half size `h₁` out of one of half size `h₂` (`h = h₁ + h₂`)
whose centre is at `p`, away from that centre -/
def axisPush (h p : K) : K := if 0 < p then p - h else p + h

theorem axisPush_eq {h p s : K} (hs : s * s = 1) (hp : p ≠ 0) (hph : |p| < h)
    (hm : (p - s * h) ^ 2 ≤ axisPush h p ^ 2) : p - s * h = axisPush h p := by
  have h0 : 0 < h := (abs_nonneg p).trans_lt hph
  unfold axisPush at hm ⊢
  rcases unit_cases hs with rfl | rfl
  · split_ifs at hm ⊢ with h1
    · ring
    · have := lt_of_le_of_ne (not_lt.1 h1) hp
      nlinarith
  · split_ifs at hm ⊢ with h1
    · nlinarith
    · ring

theorem axisPush_abs {h p : K} (hph : |p| < h) : |axisPush h p| = h - |p| := by
  unfold axisPush
  split_ifs with h1
  · rw [abs_of_pos h1] at hph ⊢
    rw [abs_of_neg (by linarith)]; ring
  · rw [abs_of_nonpos (not_lt.1 h1)] at hph ⊢
    rw [abs_of_pos (by linarith)]; ring

theorem push_separable_x (a b : Box2d K) (p : V2 K) :
    Separable (shift ⟨axisPush (a.halfsize.x + b.halfsize.x) p.x, 0⟩ (Region.pts a)) (placed p b) := by
  refine shift_separable_iff.2 ?_
  unfold axisPush
  split_ifs with h1
  · refine ⟨⟨1, 0⟩, fun h => one_ne_zero (congrArg V2.x h), fun m hm => ?_⟩
    have := (abs_le.1 (box_diff_mem hm).1).2
    simp only [dot_def]; linarith
  · refine ⟨⟨-1, 0⟩, fun h => neg_ne_zero.2 one_ne_zero (congrArg V2.x h), fun m hm => ?_⟩
    have := (abs_le.1 (box_diff_mem hm).1).1
    simp only [dot_def]; linarith

theorem push_separable_y (a b : Box2d K) (p : V2 K) :
    Separable (shift ⟨0, axisPush (a.halfsize.y + b.halfsize.y) p.y⟩ (Region.pts a)) (placed p b) := by
  refine shift_separable_iff.2 ?_
  unfold axisPush
  split_ifs with h1
  · refine ⟨⟨0, 1⟩, fun h => one_ne_zero (congrArg V2.y h), fun m hm => ?_⟩
    have := (abs_le.1 (box_diff_mem hm).2).2
    simp only [dot_def]; linarith
  · refine ⟨⟨0, -1⟩, fun h => neg_ne_zero.2 one_ne_zero (congrArg V2.y h), fun m hm => ?_⟩
    have := (abs_le.1 (box_diff_mem hm).2).1
    simp only [dot_def]; linarith

/-- Axis-aligned overlapping boxes whose centres differ in both coordinates: `penetrates` and `sdfv`
return exactly the push along the axis of least overlap, away from the other box, and this is a
shortest vector that separates the boxes.

The last two hypotheses only exclude overlaps below the resolution of the search directions: a corner
of one box within `2^-23` of a corner of the other, and a centre off the diagonal of the difference
rectangle by a tiny amount. -/
theorem C45_penetrates (a b : Box2d K) (p : V2 K)
    (ha : 0 ≤ a.halfsize.x ∧ 0 ≤ a.halfsize.y) (hb : 0 ≤ b.halfsize.x ∧ 0 ≤ b.halfsize.y)
    (hx : |p.x| < a.halfsize.x + b.halfsize.x) (hy : |p.y| < a.halfsize.y + b.halfsize.y)
    (hpx : p.x ≠ 0) (hpy : p.y ≠ 0) (hp : (1 / 2 ^ 23 : K) ≤ lengthSq p)
    (hq : (1 / 2 ^ 23 : K) ^ 2 ≤
      (a.halfsize.x + b.halfsize.x - |p.x|) ^ 2 + (a.halfsize.y + b.halfsize.y - |p.y|) ^ 2)
    (hκ : (a.halfsize.x + b.halfsize.x) * |p.y| = (a.halfsize.y + b.halfsize.y) * |p.x| ∨
      (1 / 2 ^ 23 : K) ^ 2 ≤ 16 * ((a.halfsize.x + b.halfsize.x) * |p.y| -
        (a.halfsize.y + b.halfsize.y) * |p.x|) ^ 2 *
        ((a.halfsize.x + b.halfsize.x) ^ 2 + (a.halfsize.y + b.halfsize.y) ^ 2)) :
    ∃ v, penetratesRel a b p = .ok (some v) ∧ sdfvRel a b p = .ok (true, v) ∧
      ((v = ⟨axisPush (a.halfsize.x + b.halfsize.x) p.x, 0⟩ ∧
          a.halfsize.x + b.halfsize.x - |p.x| ≤ a.halfsize.y + b.halfsize.y - |p.y|) ∨
        (v = ⟨0, axisPush (a.halfsize.y + b.halfsize.y) p.y⟩ ∧
          a.halfsize.y + b.halfsize.y - |p.y| ≤ a.halfsize.x + b.halfsize.x - |p.x|)) ∧
      Separable (shift v (Region.pts a)) (placed p b) ∧
      ∀ w, Separable (shift w (Region.pts a)) (placed p b) → lengthSq v ≤ lengthSq w := by
  have hR := rectSupport_box a b p ha hb hx hy
  have hd : initialDirection (applyOrigin p) = p := by
    unfold initialDirection
    rw [ExactFloat.epsilon_eq, if_neg]
    · rfl
    · exact not_lt.2 hp
  obtain ⟨pts, hI, hC, hl, hne, run⟩ := rect_gjk hR hpx hpy hq hκ
  have run1 := (run 18).1
  have run2 := (run 17).2
  obtain ⟨o, ho⟩ := (C33_rel_no_panic a b p).2.1
  obtain ⟨r, hr, hro⟩ := penetratesRel_run ho
  rw [hd] at hr
  cases hv : epa (extremePoint (LocalMinkowskiDiff2d.mk a b p)) iterationLimit pts with
  | error e =>
    rw [hv] at run2
    have := hr.symm.trans run2
    cases this
  | ok v =>
    rw [hv] at run1 run2
    have hrv : r = (true, v) := by
      have := hr.symm.trans run2
      simpa [Except.map] using this
    rw [hrv] at hro
    simp only [if_true] at hro
    obtain ⟨⟨s, hs, hsv⟩, hmin⟩ := rect_epa hR iterationLimit pts hI hC
      (by rw [hl]; unfold iterationLimit; omega) v hv
    have hmin' : ∀ w, Separable (shift w (Region.pts a)) (placed p b) → lengthSq v ≤ lengthSq w :=
      fun w hw => hmin w (shift_separable_iff.1 hw)
    have mx := hmin' _ (push_separable_x a b p)
    have my := hmin' _ (push_separable_y a b p)
    simp only [lengthSq_def, mul_zero, add_zero, zero_add] at mx my
    have sq_abs_le : ∀ {x y : K}, x * x ≤ y * y → |x| ≤ |y| := fun h => by
      rw [← sq_le_sq, sq, sq]; exact h
    have hface : (v = ⟨axisPush (a.halfsize.x + b.halfsize.x) p.x, 0⟩ ∧
          a.halfsize.x + b.halfsize.x - |p.x| ≤ a.halfsize.y + b.halfsize.y - |p.y|) ∨
        (v = ⟨0, axisPush (a.halfsize.y + b.halfsize.y) p.y⟩ ∧
          a.halfsize.y + b.halfsize.y - |p.y| ≤ a.halfsize.x + b.halfsize.x - |p.x|) := by
      rcases hsv with hsv | hsv
      · left
        rw [hsv] at mx my
        simp only [mul_zero, add_zero] at mx my
        have e : p.x - s * (a.halfsize + b.halfsize).x = axisPush (a.halfsize.x + b.halfsize.x) p.x :=
          axisPush_eq hs hpx hx (by rw [sq, sq]; exact mx)
        refine ⟨by rw [hsv, e], ?_⟩
        rw [e] at my
        have := sq_abs_le my
        rwa [axisPush_abs hx, axisPush_abs hy] at this
      · right
        rw [hsv] at mx my
        simp only [mul_zero, zero_add] at mx my
        have e : p.y - s * (a.halfsize + b.halfsize).y = axisPush (a.halfsize.y + b.halfsize.y) p.y :=
          axisPush_eq hs hpy hy (by rw [sq, sq]; exact my)
        refine ⟨by rw [hsv, e], ?_⟩
        rw [e] at mx
        have := sq_abs_le mx
        rwa [axisPush_abs hx, axisPush_abs hy] at this
    refine ⟨v, by rw [ho, hro], ?_, hface, ?_, hmin'⟩
    · have hS : Surrounds (extremePoint (LocalMinkowskiDiff2d.mk a b p)) := by
        exact hR.surrounds
      show gjkFull _ iterationLimit true
        (-(extremePoint _ (initialDirection (applyOrigin p)))) (extremePoint _ (initialDirection (applyOrigin p)))
        [extremePoint _ (initialDirection (applyOrigin p))] = _
      rw [hd]
      exact gjkFull_of_penetrate hS iterationLimit _ _ _ v hne run1
    · rcases hface with ⟨h1, _⟩ | ⟨h1, _⟩ <;> rw [h1]
      · exact push_separable_x a b p
      · exact push_separable_y a b p

/-! ## grid versions: no resolution hypotheses -/

/-- a multiple of `1/N` -/
def GridNum (N : Nat) (x : K) : Prop := ∃ i : ℤ, x * N = i

theorem GridNum.add {N : Nat} {x y : K} (hx : GridNum N x) (hy : GridNum N y) :
    GridNum N (x + y) := by
  obtain ⟨i, hi⟩ := hx
  obtain ⟨j, hj⟩ := hy
  exact ⟨i + j, by push_cast; rw [← hi, ← hj]; ring⟩

theorem GridNum.sub {N : Nat} {x y : K} (hx : GridNum N x) (hy : GridNum N y) :
    GridNum N (x - y) := by
  obtain ⟨i, hi⟩ := hx
  obtain ⟨j, hj⟩ := hy
  exact ⟨i - j, by push_cast; rw [← hi, ← hj]; ring⟩

theorem GridNum.abs {N : Nat} {x : K} (hx : GridNum N x) : GridNum N |x| := by
  obtain ⟨i, hi⟩ := hx
  refine ⟨|i|, ?_⟩
  rw [Int.cast_abs, ← hi, abs_mul, abs_of_nonneg (Nat.cast_nonneg N : (0 : K) ≤ N)]

theorem GridNum.mul {N : Nat} {x y : K} (hx : GridNum N x) (hy : GridNum N y) :
    GridNum (N * N) (x * y) := by
  obtain ⟨i, hi⟩ := hx
  obtain ⟨j, hj⟩ := hy
  exact ⟨i * j, by push_cast; rw [← hi, ← hj]; ring⟩

/-- a nonzero multiple of `1/N` is at least `1/N` -/
theorem GridNum.ge {N : Nat} (h0 : 0 < N) {x : K} (hx : GridNum N x) (hne : x ≠ 0) :
    1 / (N : K) ≤ |x| := by
  have hN : (0 : K) < N := by exact_mod_cast h0
  obtain ⟨i, hi⟩ := hx
  have hi0 : i ≠ 0 := by
    rintro rfl
    rw [Int.cast_zero] at hi
    rcases mul_eq_zero.1 hi with h | h
    · exact hne h
    · exact hN.ne' h
  have h1 : (1 : K) ≤ |(i : K)| := by
    have : (1 : ℤ) ≤ |i| := Int.one_le_abs hi0
    rw [← Int.cast_abs]; exact_mod_cast this
  rw [← hi, abs_mul, abs_of_pos hN] at h1
  rw [div_le_iff₀ hN]; exact h1

theorem OnGrid.num {N : Nat} (h0 : 0 < N) {v : V2 K} (h : OnGrid N v) :
    GridNum N v.x ∧ GridNum N v.y := by
  have hN : (N : K) ≠ 0 := by exact_mod_cast h0.ne'
  obtain ⟨i, j, rfl⟩ := h
  exact ⟨⟨i, by simp only; field_simp⟩, ⟨j, by simp only; field_simp⟩⟩

/-- Axis-aligned boxes with half sizes and offset in multiples of `1/N`, `N ≤ 362`, overlapping, with
centres that differ in both coordinates: the exact least push, with no further hypotheses. -/
theorem C45_penetrates_grid (a b : Box2d K) (p : V2 K) {N : Nat} (h0 : 0 < N) (hN : N ≤ 362)
    (ga : OnGrid N a.halfsize) (gb : OnGrid N b.halfsize) (gp : OnGrid N p)
    (ha : 0 ≤ a.halfsize.x ∧ 0 ≤ a.halfsize.y) (hb : 0 ≤ b.halfsize.x ∧ 0 ≤ b.halfsize.y)
    (hx : |p.x| < a.halfsize.x + b.halfsize.x) (hy : |p.y| < a.halfsize.y + b.halfsize.y)
    (hpx : p.x ≠ 0) (hpy : p.y ≠ 0) :
    ∃ v, penetratesRel a b p = .ok (some v) ∧ sdfvRel a b p = .ok (true, v) ∧
      ((v = ⟨axisPush (a.halfsize.x + b.halfsize.x) p.x, 0⟩ ∧
          a.halfsize.x + b.halfsize.x - |p.x| ≤ a.halfsize.y + b.halfsize.y - |p.y|) ∨
        (v = ⟨0, axisPush (a.halfsize.y + b.halfsize.y) p.y⟩ ∧
          a.halfsize.y + b.halfsize.y - |p.y| ≤ a.halfsize.x + b.halfsize.x - |p.x|)) ∧
      Separable (shift v (Region.pts a)) (placed p b) ∧
      ∀ w, Separable (shift w (Region.pts a)) (placed p b) → lengthSq v ≤ lengthSq w := by
  obtain ⟨ax, ay⟩ := ga.num h0
  obtain ⟨bx, yb⟩ := gb.num h0
  obtain ⟨qx, qy⟩ := gp.num h0
  have hNp : (0 : K) < N := by exact_mod_cast h0
  have hN' : (N : K) ≤ 362 := by exact_mod_cast hN
  have hI : (1 / 362 : K) ≤ 1 / N := one_div_le_one_div_of_le hNp hN'
  have big : ∀ {x : K}, GridNum N x → x ≠ 0 → (1 / 362 : K) ≤ |x| := fun hx hne =>
    hI.trans (hx.ge h0 hne)
  have bigsq : ∀ {x : K}, GridNum N x → x ≠ 0 → (1 / 362 : K) ^ 2 ≤ x ^ 2 := fun hx hne => by
    exact (pow_le_pow_left₀ (by norm_num) (big hx hne) 2).trans (le_of_eq (sq_abs _))
  have hX := bigsq (ax.add bx) (((abs_nonneg _).trans_lt hx).ne')
  have hY := bigsq (ay.add yb) (((abs_nonneg _).trans_lt hy).ne')
  refine C45_penetrates a b p ha hb hx hy hpx hpy ?_ ?_ ?_
  · have := bigsq qx hpx
    have h2 := sq_nonneg p.y
    rw [lengthSq_def]
    have : (1 / 2 ^ 23 : K) ≤ (1 / 362) ^ 2 := by norm_num
    linarith [sq p.x, sq p.y]
  · have h1 := bigsq ((ax.add bx).sub qx.abs) (sub_pos.2 hx).ne'
    have h2 := sq_nonneg (a.halfsize.y + b.halfsize.y - |p.y|)
    have : (1 / 2 ^ 23 : K) ^ 2 ≤ (1 / 362) ^ 2 := by norm_num
    linarith
  · rw [or_iff_not_imp_left]
    intro hne
    have g := ((ax.add bx).mul qy.abs).sub ((ay.add yb).mul qx.abs)
    have h1 := g.ge (Nat.mul_pos h0 h0) (sub_ne_zero.2 hne)
    set κ := (a.halfsize.x + b.halfsize.x) * |p.y| - (a.halfsize.y + b.halfsize.y) * |p.x| with hκ
    have h2 : (1 / (362 * 362) : K) ≤ |κ| := by
      refine le_trans ?_ h1
      rw [Nat.cast_mul]
      refine one_div_le_one_div_of_le (mul_pos hNp hNp) ?_
      exact mul_le_mul hN' hN' hNp.le (by norm_num)
    have h3 : (1 / (362 * 362) : K) ^ 2 ≤ κ ^ 2 := by
      rw [← sq_abs κ]; exact pow_le_pow_left₀ (by norm_num) h2 2
    calc (1 / 2 ^ 23 : K) ^ 2 ≤ 16 * (1 / (362 * 362)) ^ 2 * ((1 / 362) ^ 2 + (1 / 362) ^ 2) := by
          norm_num
      _ ≤ _ := by
          refine mul_le_mul ?_ (add_le_add hX hY) (by positivity) (by positivity)
          linarith

/-- Axis-aligned boxes with half sizes and offset in multiples of `1/N`, `N ≤ 203`, with a gap:
`distance_to` is exactly the per-axis gap vector. -/
theorem C45_distance_to_grid (a b : Box2d K) (p : V2 K) {N : Nat} (h0 : 0 < N) (hN : N ≤ 203)
    (ga : OnGrid N a.halfsize) (gb : OnGrid N b.halfsize) (gp : OnGrid N p)
    (ha : 0 ≤ a.halfsize.x ∧ 0 ≤ a.halfsize.y) (hb : 0 ≤ b.halfsize.x ∧ 0 ≤ b.halfsize.y)
    (hgap : a.halfsize.x + b.halfsize.x < |p.x| ∨ a.halfsize.y + b.halfsize.y < |p.y|) :
    distanceToRel a b p = .ok (some ⟨axisGap (a.halfsize.x + b.halfsize.x) p.x,
      axisGap (a.halfsize.y + b.halfsize.y) p.y⟩) := by
  obtain ⟨ax, ay⟩ := ga.num h0
  obtain ⟨bx, yb⟩ := gb.num h0
  obtain ⟨qx, qy⟩ := gp.num h0
  have hNp : (0 : K) < N := by exact_mod_cast h0
  have hN' : (N : K) ≤ 203 := by exact_mod_cast hN
  have hI : (1 / 203 : K) ≤ 1 / N := one_div_le_one_div_of_le hNp hN'
  have big : ∀ {x : K}, GridNum N x → x ≠ 0 → (1 / 203 : K) ≤ |x| := fun hx hne =>
    hI.trans (hx.ge h0 hne)
  have bigsq : ∀ {x : K}, GridNum N x → x ≠ 0 → (1 / 203 : K) ^ 2 ≤ x ^ 2 := fun hx hne => by
    exact (pow_le_pow_left₀ (by norm_num) (big hx hne) 2).trans (le_of_eq (sq_abs _))
  have hgapn : ∀ {h q : K}, 0 ≤ h → GridNum N h → GridNum N q → h < |q| →
      (1 / 203 : K) ≤ |axisGap h q| := by
    intro h q h1 gh gq hlt
    rcases axisGap_cases (p := q) h1 with ⟨h2, e⟩ | ⟨h2, e⟩ | ⟨h2, e⟩
    · rw [e]; exact big (gq.sub gh) (by intro h0; linarith)
    · rw [e]; exact big (gq.add gh) (by intro h0; linarith)
    · exact absurd h2 (not_le.2 hlt)
  have fin : ∀ {h g : K}, (1 / 203 : K) ^ 2 ≤ h ^ 2 → (1 / 203 : K) ≤ |g| →
      (1 / 2 ^ 23 : K) ≤ h ^ 2 * |g| := by
    intro h g h1 h2
    calc (1 / 2 ^ 23 : K) ≤ (1 / 203) ^ 2 * (1 / 203) := by norm_num
      _ ≤ _ := mul_le_mul h1 h2 (by norm_num) (by positivity)
  have hX0 := add_nonneg ha.1 hb.1
  have hY0 := add_nonneg ha.2 hb.2
  refine C45_distance_to a b p ha hb ?_ hgap (fun h => ?_) (fun h => ?_)
  · have h1 : (1 / 2 ^ 23 : K) ≤ (1 / 203) ^ 2 := by norm_num
    rw [lengthSq_def]
    rcases hgap with h | h
    · have := bigsq qx (abs_pos.1 (hX0.trans_lt h))
      have h2 := sq_nonneg p.y
      linarith [sq p.x, sq p.y]
    · have := bigsq qy (abs_pos.1 (hY0.trans_lt h))
      have h2 := sq_nonneg p.x
      linarith [sq p.x, sq p.y]
  · exact fin (bigsq (ay.add yb) ((abs_nonneg _).trans_lt h).ne')
      (hgapn hX0 (ax.add bx) qx (hgap.resolve_right (not_lt.2 h.le)))
  · exact fin (bigsq (ax.add bx) ((abs_nonneg _).trans_lt h).ne')
      (hgapn hY0 (ay.add yb) qy (hgap.resolve_left (not_lt.2 h.le)))

end

section
attribute [local instance] ratFloat
attribute [local instance] ratFloat_exact

/-- concrete case: boxes overlapping by 1 along `x` and 2 along `y` -/
example : ∃ v, penetratesRel (⟨⟨1, 2⟩⟩ : Box2d ℚ) (⟨⟨1, 1⟩⟩ : Box2d ℚ) (⟨1, -1⟩ : V2 ℚ) = .ok (some v) ∧
    v = ⟨-1, 0⟩ := by
  obtain ⟨v, h1, _, h2, _⟩ := C45_penetrates_grid (⟨⟨1, 2⟩⟩ : Box2d ℚ) (⟨⟨1, 1⟩⟩ : Box2d ℚ)
    (⟨1, -1⟩ : V2 ℚ) (N := 1) (by norm_num) (by norm_num) ⟨1, 2, by ext <;> simp⟩
    ⟨1, 1, by ext <;> simp⟩ ⟨1, -1, by ext <;> simp⟩ (by norm_num) (by norm_num) (by norm_num)
    (by norm_num) (by norm_num) (by norm_num)
  refine ⟨v, h1, ?_⟩
  rcases h2 with ⟨h2, _⟩ | ⟨_, h2⟩
  · rw [h2]; norm_num [axisPush]
  · norm_num at h2

end
end Auburn
