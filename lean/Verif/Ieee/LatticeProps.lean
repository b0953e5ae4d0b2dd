import Verif.Lib.GjkLattice
import Verif.Ieee.GjkProps

/-!
# C96 in binary32: polygons with any number of vertices on the dyadic grid

C71 without its bound on the number of vertices.
-/

set_option linter.unusedSectionVars false
set_option synthInstance.maxSize 1000

namespace Auburn
open F32 V2 ExtremePoint2d Transformation2d

section
variable [env : F32Env] [FloatExtra ℝ] [ExactFloat ℝ]
variable {M : Set (V2 ℝ)} {V : List (V2 ℝ)} {S : V2 F32 → V2 F32} {k B : ℤ}

theorem coarse_dyadic : CoarseTriangles (fun p : V2 ℝ => p.GV k B) (((2 : ℝ) ^ k) ^ 2) := by
  rintro a b c ⟨⟨a1, ha1, -⟩, ⟨a2, ha2, -⟩⟩ ⟨⟨b1, hb1, -⟩, ⟨b2, hb2, -⟩⟩ ⟨⟨c1, hc1, -⟩, ⟨c2, hc2, -⟩⟩ h
  have e : (b - a).cross (c - a) =
      (((b1 - a1) * (c2 - a2) - (b2 - a2) * (c1 - a1) : ℤ) : ℝ) * ((2 : ℝ) ^ k) ^ 2 := by
    simp only [cross_def, sub_x, sub_y, ha1, ha2, hb1, hb2, hc1, hc2]; push_cast; ring
  rw [e] at h ⊢
  have h1 : ((b1 - a1) * (c2 - a2) - (b2 - a2) * (c1 - a1) : ℤ) ≠ 0 := by
    intro h'; rw [h'] at h; simp at h
  have h2 : (1 : ℤ) ≤ ((b1 - a1) * (c2 - a2) - (b2 - a2) * (c1 - a1)) ^ 2 := by
    have := sq_pos_of_ne_zero h1; omega
  have h3 : (1 : ℝ) ≤ (((b1 - a1) * (c2 - a2) - (b2 - a2) * (c1 - a1) : ℤ) : ℝ) ^ 2 := by exact_mod_cast h2
  rw [mul_pow]
  exact le_mul_of_one_le_left (by positivity) h3

theorem gjkCollide_f32_any (hB : B ≤ 32) (hk1 : -7 ≤ k) (hk2 : k ≤ 12) (hM : Convex ℝ M)
    (hS : Support32 k B M V S) {Q : ℝ} (hQ : 0 ≤ Q) (hdiam : ∀ m ∈ M, ∀ m' ∈ M, lengthSq (m - m') ≤ Q) :
    ∀ (n j i : Nat) (L : List (V2 ℝ)) (d' : V2 F32) (d : V2 ℝ) (pts' : List (V2 F32))
      (pts : List (V2 ℝ)), GInv M L d pts → Pot M Q i d pts → d'.Is d → DirOk B d →
      IsL pts' pts → (∀ p ∈ pts, p.GV k B) → i + n = j + 4 → Q / 4 ^ j < ((2 : ℝ) ^ k) ^ 2 →
      (gjkCollide S n d' pts' = .ok (true, V2.nan) ∧ (0 : V2 ℝ) ∈ M) ∨
      (gjkCollide S n d' pts' = .ok (false, V2.nan) ∧ OneSide M) := by
  intro n
  induction n with
  | zero =>
    intro j i L d' d pts' pts hI hP hd hok _ hg hij hj
    obtain rfl : i = j + 4 := by omega
    obtain ⟨a, -, -, hext, hga⟩ := hS d' d hd hok
    exact Or.inr ⟨rfl, d, hI.dir_ne, fun m hm => (hext.2 m hm).trans (hP.oneSide hQ coarse_dyadic hI hj hg hext hga)⟩
  | succ n ih =>
    intro j i L d' d pts' pts hI hP hd hok hl hg hij hj
    obtain ⟨a, haV, ha, hext, hga⟩ := hS d' d hd hok
    have hfit := (hok.dot hd ha hga (by omega) hk2).2
    simp only [gjkCollide]
    by_cases h1 : a.dot d ≤ 0
    · right
      rw [if_pos ((le_iff hfit is_zero).2 h1)]
      refine ⟨rfl, d, hI.dir_ne, fun m hm => ?_⟩
      rw [dot_comm] at h1
      exact (hext.2 m hm).trans h1
    · rw [if_neg (fun h => h1 ((le_iff hfit is_zero).1 h))]
      obtain ⟨q, hq, hstep⟩ := hI.step hM hext (not_le.1 h1)
      obtain ⟨q', hq', hc', hl', hg', hdir⟩ := addPoint_f32 hB hk1 hk2 hl hg ha hga hq
      rw [hq']
      simp only
      cases hc : q.collides with
      | true =>
        left
        rw [if_pos (Or.inl (by rw [hc', hc]))]
        exact ⟨rfl, hstep.hit hc⟩
      | false =>
        obtain ⟨hd2, hok2⟩ := hdir hc
        have hts := tooSmall_iff hok2 hd2
        by_cases hz : q.dir = 0
        · left
          rw [if_pos (Or.inr (hts.2 hz))]
          refine ⟨rfl, ?_⟩
          obtain ⟨m, hm, hm2⟩ := hstep.near hc
          rw [hz, (lengthSq_eq_zero (a := (0 : V2 ℝ))).2 rfl] at hm2
          have : m = 0 := by
            rw [← lengthSq_eq_zero]
            rcases hm2 with h | h
            · exact pow_eq_zero_iff (n := 3) (by norm_num) |>.1
                (le_antisymm h (pow_nonneg (lengthSq_nonneg m) 3))
            · exact h
          rwa [this] at hm
        · rw [if_neg (by
            rintro (h | h)
            · rw [hc', hc] at h; cases h
            · exact hz (hts.1 h))]
          exact ih j (i + 1) (a :: L) _ _ _ _ (hstep.next hc hz) (hI.pot hQ hdiam hP hext (not_le.1 h1) hq hc)
            hd2 hok2 hl' hg' (by omega) hj

theorem gjkPenetrate_f32_any (hB : B ≤ 32) (hk1 : -7 ≤ k) (hk2 : k ≤ 12) (hM : Convex ℝ M)
    (hS : Support32 k B M V S) {Q : ℝ} (hQ : 0 ≤ Q) (hdiam : ∀ m ∈ M, ∀ m' ∈ M, lengthSq (m - m') ≤ Q) :
    ∀ (n j i : Nat) (L : List (V2 ℝ)) (d' : V2 F32) (d : V2 ℝ) (pts' : List (V2 F32))
      (pts : List (V2 ℝ)), GInv M L d pts → Pot M Q i d pts → d'.Is d → DirOk B d →
      IsL pts' pts → (∀ p ∈ pts, p.GV k B) → i + n = j + 4 → Q / 4 ^ j < ((2 : ℝ) ^ k) ^ 2 →
      ((∃ v, gjkPenetrate S n d' pts' = .ok (true, v)) ∧ (0 : V2 ℝ) ∈ M) ∨
      (gjkPenetrate S n d' pts' = .ok (false, V2.nan) ∧ OneSide M) := by
  intro n
  induction n with
  | zero =>
    intro j i L d' d pts' pts hI hP hd hok _ hg hij hj
    obtain rfl : i = j + 4 := by omega
    obtain ⟨a, -, -, hext, hga⟩ := hS d' d hd hok
    exact Or.inr ⟨rfl, d, hI.dir_ne, fun m hm => (hext.2 m hm).trans (hP.oneSide hQ coarse_dyadic hI hj hg hext hga)⟩
  | succ n ih =>
    intro j i L d' d pts' pts hI hP hd hok hl hg hij hj
    obtain ⟨a, haV, ha, hext, hga⟩ := hS d' d hd hok
    have hfit := (hok.dot hd ha hga (by omega) hk2).2
    simp only [gjkPenetrate]
    by_cases h1 : a.dot d ≤ 0
    · right
      rw [if_pos ((le_iff hfit is_zero).2 h1)]
      refine ⟨rfl, d, hI.dir_ne, fun m hm => ?_⟩
      rw [dot_comm] at h1
      exact (hext.2 m hm).trans h1
    · rw [if_neg (fun h => h1 ((le_iff hfit is_zero).1 h))]
      obtain ⟨q, hq, hstep⟩ := hI.step hM hext (not_le.1 h1)
      obtain ⟨q', hq', hc', hl', hg', hdir⟩ := addPoint_f32 hB hk1 hk2 hl hg ha hga hq
      obtain ⟨q2, hq2, h3, h2⟩ := addPoint_ok pts' (S d') (by
        have := hl.length_eq; rw [this]; exact hI.length)
      rw [hq'] at hq2
      cases hq2
      rw [hq']
      simp only
      cases hc : q.collides with
      | true =>
        left
        have hct : q'.collides = true := by rw [hc', hc]
        rw [if_pos hct]
        refine ⟨?_, hstep.hit hc⟩
        have hlen3 := h3 hct
        obtain ⟨x, y, z, he⟩ := List.length_eq_three.1 hlen3
        rw [he]
        simp only [enforceCcw]
        split_ifs
        · obtain ⟨v, hv⟩ := epa_ok S iterationLimit [x, y, z] (by simp)
          simp only [hv]; exact ⟨v, rfl⟩
        · obtain ⟨v, hv⟩ := epa_ok S iterationLimit [x, z, y] (by simp)
          simp only [hv]; exact ⟨v, rfl⟩
      | false =>
        rw [if_neg (by rw [hc', hc]; simp)]
        obtain ⟨hd2, hok2⟩ := hdir hc
        have hts := tooSmall_iff hok2 hd2
        unfold overrideDir
        by_cases hz : q.dir = 0
        · rw [if_pos (hts.2 hz)]
          exact ih j (i + 1) (a :: L) _ _ _ _ (hstep.zero hc hz)
            (hI.pot_override hP hext (not_le.1 h1) hq hc hz _) hd.perp hok.perp hl' hg' (by omega) hj
        · rw [if_neg (fun h => hz (hts.1 h))]
          exact ih j (i + 1) (a :: L) _ _ _ _ (hstep.next hc hz) (hI.pot hQ hdiam hP hext (not_le.1 h1) hq hc)
            hd2 hok2 hl' hg' (by omega) hj

/-- a set with a grid support function is small -/
theorem Support32.diam (hS : Support32 k B M V S) (hB : B ≤ 32) :
    ∀ m ∈ M, ∀ m' ∈ M, lengthSq (m - m') ≤ 2 ^ 13 * ((2 : ℝ) ^ k) ^ 2 := by
  have hk := two_zpow_pos k
  have one : ∀ (d' : V2 F32) (d : V2 ℝ), d'.Is d → d.GV 0 1 → (∀ p : V2 ℝ, p.GV k B → d.dot p ≤ 32 * 2 ^ k) →
      ∀ m ∈ M, d.dot m ≤ 32 * 2 ^ k := by
    intro d' d hd hg hp m hm
    obtain ⟨p, -, -, hext, hga⟩ := hS d' d hd ⟨0, 1, hg, by omega, by norm_num, by norm_num⟩
    exact (hext.2 m hm).trans (hp p hga)
  have hb : ∀ {x : ℝ}, GZ k B x → |x| ≤ 32 * 2 ^ k := by
    intro x hx
    refine hx.abs_le.trans (mul_le_mul_of_nonneg_right ?_ hk.le)
    exact_mod_cast hB
  have g1 : GZ 0 1 (1 : ℝ) := ⟨1, by norm_num, by norm_num⟩
  have g0 : GZ 0 1 (0 : ℝ) := ⟨0, by norm_num, by norm_num⟩
  have box : ∀ m ∈ M, |m.x| ≤ 32 * 2 ^ k ∧ |m.y| ≤ 32 * 2 ^ k := by
    intro m hm
    have x1 := one ⟨1, 0⟩ ⟨1, 0⟩ ⟨is_one, is_zero⟩ ⟨g1, g0⟩
      (fun p hp => by simpa [dot_def] using (le_abs_self _).trans (hb hp.1)) m hm
    have x2 := one ⟨-1, 0⟩ ⟨-1, 0⟩ ⟨is_neg is_one, is_zero⟩ ⟨g1.neg, g0⟩
      (fun p hp => by simpa [dot_def] using (neg_le_abs _).trans (hb hp.1)) m hm
    have y1 := one ⟨0, 1⟩ ⟨0, 1⟩ ⟨is_zero, is_one⟩ ⟨g0, g1⟩
      (fun p hp => by simpa [dot_def] using (le_abs_self _).trans (hb hp.2)) m hm
    have y2 := one ⟨0, -1⟩ ⟨0, -1⟩ ⟨is_zero, is_neg is_one⟩ ⟨g0, g1.neg⟩
      (fun p hp => by simpa [dot_def] using (neg_le_abs _).trans (hb hp.2)) m hm
    simp only [dot_def] at x1 x2 y1 y2
    constructor <;> rw [abs_le] <;> constructor <;> linarith
  intro m hm m' hm'
  obtain ⟨a1, a2⟩ := box m hm
  obtain ⟨b1, b2⟩ := box m' hm'
  rw [abs_le] at a1 a2 b1 b2
  generalize (2 : ℝ) ^ k = g at *
  have q1 : (m.x - m'.x) ^ 2 ≤ (64 * g) ^ 2 := sq_le_sq' (by linarith) (by linarith)
  have q2 : (m.y - m'.y) ^ 2 ≤ (64 * g) ^ 2 := sq_le_sq' (by linarith) (by linarith)
  rw [lengthSq_def, sub_x, sub_y]
  linarith

end

section
variable [env : F32Env]

section
variable {A B : Type} [ExtremePoint2d A F32] [ExtremePoint2d B F32] {a : A} {b : B}
  {X Y : Set (V2 ℝ)} {VA VB : List (V2 ℝ)} {rel : V2 F32} {k na nb nr : ℤ}

/-- `pair_f32` for any number of vertices -/
theorem pair_f32_any [DefaultMinkowski A B] (cX : Convex ℝ X) (cY : Convex ℝ Y)
    (hA : Supp32 k na a X VA) (hB : Supp32 k nb b Y VB)
    (hr : rel.OnGrid32 k nr) (hn : na + nb + nr ≤ 32) (hna : 0 ≤ na) (hnb : 0 ≤ nb)
    (hk1 : -7 ≤ k) (hk2 : k ≤ 12) :
    AnswersExact (collidesRel a b rel) (penetratesRel a b rel) X (shift rel.toReal Y) := by
  let _ := realFloat true 0
  have := realFloat_exact true 0
  have hM := convex_diff_shift cX cY rel.toReal
  have hS := support32_pair hA hB hr hn hna hk1 hk2
  obtain ⟨d, hd, hd0, hok⟩ := initial_f32 hr (by omega) hk1 hk2
  have hdiam := hS.diam (le_refl _)
  have hk := two_zpow_pos k
  have hj : 2 ^ 13 * ((2 : ℝ) ^ k) ^ 2 / 4 ^ 16 < ((2 : ℝ) ^ k) ^ 2 := by
    rw [div_lt_iff₀ (by norm_num)]
    have : 0 < ((2 : ℝ) ^ k) ^ 2 := by positivity
    generalize ((2 : ℝ) ^ k) ^ 2 = x at *
    linarith
  constructor
  · have hrun : collidesRel a b rel = (gjkCollide (extremePoint (LocalMinkowskiDiff2d.mk a b rel))
        iterationLimit (initialDirection rel) []).map (·.1) := rfl
    rcases gjkCollide_f32_any (le_refl _) hk1 hk2 hM hS (by positivity) hdiam iterationLimit 16 0 [] _ d [] []
      (.start d hd0) (Or.inl ⟨rfl, rfl⟩) hd hok .nil (by simp) rfl hj with ⟨h1, h2⟩ | ⟨h1, h2⟩
    · refine ⟨true, by rw [hrun, h1]; rfl, fun _ => touch_iff.2 h2, by simp⟩
    · refine ⟨false, by rw [hrun, h1]; rfl, by simp, fun _ => separable_iff.2 h2⟩
  · have hrun : penetratesRel a b rel =
        (gjkPenetrate (extremePoint (LocalMinkowskiDiff2d.mk a b rel))
        iterationLimit (initialDirection rel) []).map fun r => if r.1 then some r.2 else none := rfl
    rcases gjkPenetrate_f32_any (le_refl _) hk1 hk2 hM hS (by positivity) hdiam iterationLimit 16 0 [] _ d [] []
      (.start d hd0) (Or.inl ⟨rfl, rfl⟩) hd hok .nil (by simp) rfl hj with ⟨⟨v, h1⟩, h2⟩ | ⟨h1, h2⟩
    · refine ⟨some v, by rw [hrun, h1]; rfl, fun _ => touch_iff.2 h2, by simp⟩
    · refine ⟨none, by rw [hrun, h1]; rfl, by simp, fun _ => separable_iff.2 h2⟩

end

/-- Poly2d v Poly2d on binary32, any number of vertices: units of `2^k` from 1/128 to 4096, sizes and offset together at
most 32 units. -/
theorem C96_f32_poly_poly (a b : Poly2d F32) (rel : V2 F32) {k na nb nr : ℤ} (ha : a.OnGrid32 k na)
    (hb : b.OnGrid32 k nb) (hr : rel.OnGrid32 k nr) (hn : na + nb + nr ≤ 32) (hk1 : -7 ≤ k) (hk2 : k ≤ 12) :
    AnswersExact (collidesRel a b rel) (penetratesRel a b rel) (Region.pts a.toReal)
      (shift rel.toReal (Region.pts b.toReal)) := by
  have h1 := ha.le
  have h2 := hb.le
  have h3 := hr.1.le
  exact pair_f32_any (convex_convexHull ℝ _) (convex_convexHull ℝ _)
    (supp32_poly (by omega) hk1 hk2 a ha) (supp32_poly (by omega) hk1 hk2 b hb) hr hn h1 h2 hk1 hk2

/-- Box2d v Poly2d and Poly2d v Box2d on binary32, any number of vertices. -/
theorem C96_f32_box_poly (a : Box2d F32) (b : Poly2d F32) (rel : V2 F32) {k na nb nr : ℤ}
    (ha : a.OnGrid32 k na) (hb : b.OnGrid32 k nb) (hr : rel.OnGrid32 k nr)
    (hn : na + nb + nr ≤ 32) (hk1 : -7 ≤ k) (hk2 : k ≤ 12) :
    AnswersExact (collidesRel a b rel) (penetratesRel a b rel) (Region.pts a.toReal)
      (shift rel.toReal (Region.pts b.toReal)) ∧
    AnswersExact (collidesRel b a rel) (penetratesRel b a rel) (Region.pts b.toReal)
      (shift rel.toReal (Region.pts a.toReal)) := by
  have h1 := ha.1.1.le
  have h2 := hb.le
  have h3 := hr.1.le
  have s1 := supp32_box (by omega) hk1 hk2 a ha
  have s2 := supp32_poly (by omega) hk1 hk2 b hb
  exact ⟨pair_f32_any (convex_box32 _) (convex_convexHull ℝ _) s1 s2 hr hn h1 h2 hk1 hk2,
    pair_f32_any (convex_convexHull ℝ _) (convex_box32 _) s2 s1 hr (by omega) h2 h1 hk1 hk2⟩

/-- a box or a polygon with any number of vertices on the grid -/
def Shape2d.OnGrid32Any (k B : ℤ) : Shape2d F32 → Prop
  | .ball _ => False
  | .box b => b.OnGrid32 k B
  | .poly p => p.OnGrid32 k B

theorem supp32_shape_any {k B : ℤ} (hB : B ≤ 32) (hk1 : -7 ≤ k) (hk2 : k ≤ 12) (s : Shape2d F32)
    (hs : s.OnGrid32Any k B) : 0 ≤ B ∧ Convex ℝ (Region.pts s.toReal) ∧
      ∃ V : List (V2 ℝ), Supp32 k B s (Region.pts s.toReal) V := by
  cases s with
  | ball b => exact hs.elim
  | box b => exact ⟨F32.OnGrid.le hs.1.1, convex_box32 _, boxCorners b.halfsize.toReal, supp32_box hB hk1 hk2 b hs⟩
  | poly p => exact ⟨Poly2d.OnGrid32.le hs, convex_convexHull ℝ _, p.points.map V2.toReal, supp32_poly hB hk1 hk2 p hs⟩

/-- Shape2d v Shape2d on binary32: boxes and polygons with any number of vertices. -/
theorem C96_f32_shape_shape (a b : Shape2d F32) (rel : V2 F32) {k na nb nr : ℤ}
    (ha : a.OnGrid32Any k na) (hb : b.OnGrid32Any k nb) (hr : rel.OnGrid32 k nr)
    (hn : na + nb + nr ≤ 32) (hna : na ≤ 32) (hnb : nb ≤ 32) (hk1 : -7 ≤ k) (hk2 : k ≤ 12) :
    AnswersExact (collidesRel a b rel) (penetratesRel a b rel) (Region.pts a.toReal)
      (shift rel.toReal (Region.pts b.toReal)) := by
  obtain ⟨h1, c1, V, s1⟩ := supp32_shape_any hna hk1 hk2 a ha
  obtain ⟨h2, c2, W, s2⟩ := supp32_shape_any hnb hk1 hk2 b hb
  exact pair_f32_any c1 c2 s1 s2 hr hn h1 h2 hk1 hk2

theorem answers_world {c : Except Panic Bool} {o : Except Panic (Option (V2 F32))} {X Y : Set (V2 ℝ)} {p q : V2 ℝ}
    (h : AnswersExact c o X (shift (q + -p) Y)) : AnswersExact c o (shift p X) (shift q Y) := by
  have hT : Touch X (shift (q + -p) Y) → Touch (shift p X) (shift q Y) := by
    rintro ⟨_, hx, y, hy, rfl⟩
    exact ⟨y + q, ⟨_, hx, by abel⟩, y, hy, rfl⟩
  have hS : Separable X (shift (q + -p) Y) → Separable (shift p X) (shift q Y) := by
    rintro ⟨n, hn, h⟩
    refine ⟨n, hn, ?_⟩
    rintro _ ⟨x, hx, rfl⟩ _ ⟨y, hy, rfl⟩
    have := h x hx _ ⟨y, hy, rfl⟩
    simp only [dot_add, dot_neg] at this ⊢
    linarith
  obtain ⟨⟨c, e1, k1, k2⟩, ⟨o, e2, k3, k4⟩⟩ := h
  exact ⟨⟨c, e1, fun h => hT (k1 h), fun h => hS (k2 h)⟩, ⟨o, e2, fun h => hT (k3 h), fun h => hS (k4 h)⟩⟩

/-- Colliders of the shape enum placed by `Vec2` or `Translate2d`: the answers are exact for the regions in world
space. -/
theorem C96_f32_colliders (a b : Shape2d F32) (p q : V2 F32) {k na nb np nq : ℤ}
    (ha : a.OnGrid32Any k na) (hb : b.OnGrid32Any k nb) (hp : p.OnGrid32 k np) (hq : q.OnGrid32 k nq)
    (hna : 0 ≤ na) (hnb : 0 ≤ nb) (hn : na + nb + np + nq ≤ 32) (hk1 : -7 ≤ k) (hk2 : k ≤ 12) :
    AnswersExact (collides ⟨a, p⟩ ⟨b, q⟩) (penetrates ⟨a, p⟩ ⟨b, q⟩)
      (shift p.toReal (Region.pts a.toReal)) (shift q.toReal (Region.pts b.toReal)) ∧
    AnswersExact (collides ⟨a, Translate2d.mk p⟩ ⟨b, Translate2d.mk q⟩)
      (penetrates ⟨a, Translate2d.mk p⟩ ⟨b, Translate2d.mk q⟩)
      (shift p.toReal (Region.pts a.toReal)) (shift q.toReal (Region.pts b.toReal)) := by
  have h3 := hp.1.le
  have h4 := hq.1.le
  have hd : (q + -p).Is (q.toReal + -p.toReal) :=
    hq.is.add hp.is.neg (hq.gv.add hp.gv.neg) (by omega) (by omega) (by omega)
  have hg := hd.onGrid (hq.gv.add hp.gv.neg)
  have key := C96_f32_shape_shape a b (q + -p) ha hb hg (by omega) (by omega) (by omega) hk1 hk2
  rw [hd.toReal] at key
  exact ⟨answers_world key, answers_world key⟩

/-- the hypotheses are met by two octagons (64 pairs of vertices) with integer vertices, one moved by (5, 4); the theorem
then gives the answer of the run -/
example : ∃ (a : Poly2d F32) (r : V2 F32), a.points.length = 8 ∧ a.OnGrid32 0 3 ∧ r.OnGrid32 0 5 ∧
    r.toReal = ⟨5, 4⟩ ∧ a.toReal = ⟨[⟨3, 1⟩, ⟨1, 3⟩, ⟨-1, 3⟩, ⟨-3, 1⟩, ⟨-3, -1⟩, ⟨-1, -3⟩, ⟨1, -3⟩, ⟨3, -1⟩]⟩ ∧
    collidesRel a a r = .ok false := by
  let f : ℤ → F32 := fun n => ofReal false ((n : ℝ) * 2 ^ (0 : ℤ))
  have mk : ∀ n : ℤ, |n| ≤ 5 → F32.Is (f n) (n * 2 ^ (0 : ℤ)) :=
    fun n hn => is_ofReal (representable_scaled n 0 (by omega) (by norm_num) (by norm_num))
  have hf : ∀ n B : ℤ, |n| ≤ B → B ≤ 5 → (f n).OnGrid 0 B := fun n B hn hB =>
    F32.Is.onGrid (mk n (hn.trans hB)) ⟨n, rfl, hn⟩
  have hv : ∀ n : ℤ, |n| ≤ 5 → (f n).toReal = n := fun n hn => by
    rw [F32.Is.toReal (mk n hn)]; norm_num
  let a : Poly2d F32 := ⟨[⟨f 3, f 1⟩, ⟨f 1, f 3⟩, ⟨f (-1), f 3⟩, ⟨f (-3), f 1⟩, ⟨f (-3), f (-1)⟩, ⟨f (-1), f (-3)⟩,
    ⟨f 1, f (-3)⟩, ⟨f 3, f (-1)⟩]⟩
  have ga : a.OnGrid32 0 3 := by
    refine ⟨by simp [a], fun v hv => ?_⟩
    simp only [a, List.mem_cons, List.not_mem_nil, or_false] at hv
    rcases hv with rfl | rfl | rfl | rfl | rfl | rfl | rfl | rfl <;>
      exact ⟨hf _ _ (by norm_num) (by norm_num), hf _ _ (by norm_num) (by norm_num)⟩
  have gr : (⟨f 5, f 4⟩ : V2 F32).OnGrid32 0 5 :=
    ⟨hf _ _ (by norm_num) (by norm_num), hf _ _ (by norm_num) (by norm_num)⟩
  have er : (⟨f 5, f 4⟩ : V2 F32).toReal = ⟨5, 4⟩ := by
    simp only [V2.toReal, hv 5 (by norm_num), hv 4 (by norm_num)]; norm_num
  have ea : a.toReal = ⟨[⟨3, 1⟩, ⟨1, 3⟩, ⟨-1, 3⟩, ⟨-3, 1⟩, ⟨-3, -1⟩, ⟨-1, -3⟩, ⟨1, -3⟩, ⟨3, -1⟩]⟩ := by
    simp only [a, Poly2d.toReal, V2.toReal, List.map, hv 3 (by norm_num), hv 1 (by norm_num), hv (-1) (by norm_num),
      hv (-3) (by norm_num)]
    norm_num
  refine ⟨a, ⟨f 5, f 4⟩, rfl, ga, gr, er, ea, ?_⟩
  have key := (C96_f32_poly_poly a a _ ga ga gr (by norm_num) (by norm_num) (by norm_num)).determined.2
  rw [ea, er] at key
  refine (key ?_).1
  -- the line x + y = 9/2 lies strictly between
  have hle : ∀ x ∈ Region.pts (⟨[⟨3, 1⟩, ⟨1, 3⟩, ⟨-1, 3⟩, ⟨-3, 1⟩, ⟨-3, -1⟩, ⟨-1, -3⟩, ⟨1, -3⟩, ⟨3, -1⟩]⟩ : Poly2d ℝ),
      |x.x + x.y| ≤ 4 := by
    have hsub : convexHull ℝ {x | x ∈ ([⟨3, 1⟩, ⟨1, 3⟩, ⟨-1, 3⟩, ⟨-3, 1⟩, ⟨-3, -1⟩, ⟨-1, -3⟩, ⟨1, -3⟩, ⟨3, -1⟩] :
        List (V2 ℝ))} ⊆ {p : V2 ℝ | |p.x + p.y| ≤ 4} := by
      refine convexHull_min ?_ ?_
      · intro x hx
        simp only [Set.mem_ofPred_eq, List.mem_cons, List.not_mem_nil, or_false] at hx ⊢
        rcases hx with rfl | rfl | rfl | rfl | rfl | rfl | rfl | rfl <;> norm_num [abs_le]
      · intro p hp q hq u v hu hv huv
        have h1 : |p.x + p.y| ≤ 4 := hp
        have h2 : |q.x + q.y| ≤ 4 := hq
        show |u * p.x + v * q.x + (u * p.y + v * q.y)| ≤ 4
        rw [abs_le] at h1 h2 ⊢
        constructor <;> nlinarith
    exact hsub
  rintro ⟨x, hx, y, hy, rfl⟩
  have h1 := hle _ hx
  have h2 := hle _ hy
  simp only [add_x, add_y] at h1
  rw [abs_le] at h1 h2
  linarith [h1.2, h2.1]

end
end Auburn
