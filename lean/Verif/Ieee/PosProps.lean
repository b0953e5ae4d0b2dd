import Verif.Ieee.PosStep
import Verif.Ieee.NoisyProps

/-!
# C87: positive answers on binary32

C86 shows that a negative answer of the search is right up to a tolerance.  Here: a positive answer
(`collides` true, `penetrates` some, `sdfv` with the flag) is only given when some point of the first
shape is within `M / 64` of the second one, although every product and difference is rounded.
-/

set_option linter.unusedSectionVars false
set_option synthInstance.maxSize 1000

namespace Auburn

open F32 V2 ExtremePoint2d Transformation2d

section
variable [env : F32Env]

/-! ## the loops -/

section
variable {g R : ℝ} {Z : Set (V2 ℝ)} {k : ℤ} {S : V2 F32 → V2 F32}

theorem Good.length {d' : V2 F32} {pts : List (V2 F32)} (h : Good g R Z d' pts) : pts.length ≤ 2 := by
  cases h <;> simp

theorem good_add (hZ : FarSet g R Z) (hR : R ≤ 2 ^ 29) (hg : 1 / 80 ≤ g) {a' d' : V2 F32} {a d : V2 ℝ}
    {pts : List (V2 F32)} (hG : Good g R Z d' pts) (hd : d'.Is d) (hlo : 1 / 2 ^ 62 ≤ d.norm)
    (hhi : d.norm ≤ 2 ^ 90) (ha : InZ Z R a' a) (hfit : ¬ a'.dot d' ≤ 0) :
    ∃ r, addPoint pts a' = .ok r ∧ r.collides = false ∧ ¬ directionTooSmall r.dir ∧ Good g R Z r.dir r.pts := by
  cases hG with
  | none =>
    refine ⟨⟨false, -a', [a']⟩, rfl, rfl, ?_, Good.one a' a ha⟩
    refine not_small_of_norm ha.1.neg ?_
    rw [V2.norm_neg']
    exact (le_trans (by norm_num) hg).trans (hZ.far a ha.2.1)
  | one b' b hb => exact good_one hZ hR hg ha hb hfit
  | two b' c' _ b c d0 σ l hb hc hd0 hE =>
    have e : d0 = d := V2.ext (hd0.1.unique hd.1) (hd0.2.unique hd.2)
    subst e
    exact good_two hZ hR hg ha hb hc hd hE hlo hhi hfit

theorem dir_norm (hk2 : k ≤ 26) {d : V2 ℝ} (hD : DirB k d) (hl : (2 : ℝ) ^ (-60 : ℤ) ≤ d.l1) :
    1 / 2 ^ 62 ≤ d.norm ∧ d.norm ≤ 2 ^ 90 := by
  constructor
  · have h1 := d.l1_le_norm
    have h2 : (3 / 2 : ℝ) * (1 / 2 ^ 62) ≤ (2 : ℝ) ^ (-60 : ℤ) := by norm_num
    have h3 := h2.trans (hl.trans h1)
    linarith only [h3]
  · have h1 := V2.norm_le_add d
    have h2 : (2 : ℝ) ^ (3 * k + 10) ≤ (2 : ℝ) ^ (88 : ℤ) := zpow_le_zpow (by omega)
    have h3 : (2 : ℝ) ^ (88 : ℤ) + (2 : ℝ) ^ (88 : ℤ) ≤ 2 ^ 90 := by norm_num
    exact h1.trans ((add_le_add (hD.1.trans h2) (hD.2.trans h2)).trans h3)

/-- extreme points of a set that stays away from the origin -/
def FarSupport (k : ℤ) (R : ℝ) (Z : Set (V2 ℝ)) (S : V2 F32 → V2 F32) : Prop :=
  ∀ (d' : V2 F32) (d : V2 ℝ), d'.Is d → DirB k d → (2 : ℝ) ^ (-60 : ℤ) ≤ d.l1 →
    PtB k (S d') ∧ ∃ p, InZ Z R (S d') p

/-- one step -/
theorem far_step (hZ : FarSet g R Z) (hR : R ≤ 2 ^ 29) (hg : 1 / 80 ≤ g) (hk : 0 ≤ k) (hk2 : k ≤ 26)
    (hS : FarSupport k R Z S) {d' : V2 F32} {d : V2 ℝ} {pts : List (V2 F32)} (hd : d'.Is d) (hD : DirB k d)
    (hl : (2 : ℝ) ^ (-60 : ℤ) ≤ d.l1) (hp : ∀ q ∈ pts, PtB k q) (hG : Good g R Z d' pts)
    (hfit : ¬ (S d').dot d' ≤ 0) :
    ∃ r d2, addPoint pts (S d') = .ok r ∧ r.collides = false ∧ ¬ directionTooSmall r.dir ∧
      Good g R Z r.dir r.pts ∧ r.dir.Is d2 ∧ DirB k d2 ∧ (2 : ℝ) ^ (-60 : ℤ) ≤ d2.l1 ∧ ∀ q ∈ r.pts, PtB k q := by
  obtain ⟨ha, p, hz⟩ := hS d' d hd hD hl
  obtain ⟨n1, n2⟩ := dir_norm hk2 hD hl
  obtain ⟨r, e, h1, h2, h3⟩ := good_add hZ hR hg hG hd n1 n2 hz hfit
  obtain ⟨r', e', b1, b2, b3, -⟩ := addPoint_bdd hk hk2 hp hG.length ha
  rw [e] at e'
  cases e'
  obtain ⟨l2, db⟩ := b3 h1
  obtain ⟨d2, i2, c2⟩ := db.is
  exact ⟨r, d2, e, h1, h2, h3, i2, c2, l1_of_not_small i2 h2, pts_bdd hp ha b1⟩

theorem collide_far (hZ : FarSet g R Z) (hR : R ≤ 2 ^ 29) (hg : 1 / 80 ≤ g) (hk : 0 ≤ k) (hk2 : k ≤ 26)
    (hS : FarSupport k R Z S) (v : V2 F32) : ∀ (n : Nat) (d' : V2 F32) (d : V2 ℝ) (pts : List (V2 F32)),
    d'.Is d → DirB k d → (2 : ℝ) ^ (-60 : ℤ) ≤ d.l1 → (∀ q ∈ pts, PtB k q) → Good g R Z d' pts →
    gjkCollide S n d' pts ≠ .ok (true, v) := by
  intro n
  induction n with
  | zero => intro d' d pts _ _ _ _ _ h; simp [gjkCollide] at h
  | succ n ih =>
    intro d' d pts hd hD hl hp hG h
    by_cases hf : (S d').dot d' ≤ 0
    · simp only [gjkCollide, if_pos hf] at h; simp at h
    · obtain ⟨r, d2, e, h1, h2, h3, i2, c2, l2, p2⟩ := far_step hZ hR hg hk hk2 hS hd hD hl hp hG hf
      simp only [gjkCollide, if_neg hf, e] at h
      rw [if_neg (by rw [h1]; simpa using h2)] at h
      exact ih _ d2 _ i2 c2 l2 p2 h3 h

theorem penetrate_far (hZ : FarSet g R Z) (hR : R ≤ 2 ^ 29) (hg : 1 / 80 ≤ g) (hk : 0 ≤ k) (hk2 : k ≤ 26)
    (hS : FarSupport k R Z S) (v : V2 F32) : ∀ (n : Nat) (d' : V2 F32) (d : V2 ℝ) (pts : List (V2 F32)),
    d'.Is d → DirB k d → (2 : ℝ) ^ (-60 : ℤ) ≤ d.l1 → (∀ q ∈ pts, PtB k q) → Good g R Z d' pts →
    gjkPenetrate S n d' pts ≠ .ok (true, v) := by
  intro n
  induction n with
  | zero => intro d' d pts _ _ _ _ _ h; simp [gjkPenetrate] at h
  | succ n ih =>
    intro d' d pts hd hD hl hp hG h
    by_cases hf : (S d').dot d' ≤ 0
    · simp only [gjkPenetrate, if_pos hf] at h; simp at h
    · obtain ⟨r, d2, e, h1, h2, h3, i2, c2, l2, p2⟩ := far_step hZ hR hg hk hk2 hS hd hD hl hp hG hf
      simp only [gjkPenetrate, if_neg hf, e, h1, Bool.false_eq_true, if_false, overrideDir, if_neg h2] at h
      exact ih _ d2 _ i2 c2 l2 p2 h3 h

/-- once a collision is excluded, the flag stays down -/
theorem full_impossible (v : V2 F32) : ∀ (n : Nat) (d' last : V2 F32) (pts : List (V2 F32)),
    gjkFull S n false d' last pts ≠ .ok (true, v) := by
  intro n
  induction n with
  | zero =>
    intro d' last pts h
    simp only [gjkFull] at h
    split at h <;> simp at h
  | succ n ih =>
    intro d' last pts h
    simp only [gjkFull] at h
    split at h
    · split at h <;> simp at h
    · split at h
      · simp at h
      · rename_i r _
        have e : (if (S d').dot d' ≤ 0 then false else false) = false := by split <;> rfl
        simp only [e] at h
        cases hc : r.collides
        · simp only [hc, Bool.false_eq_true, false_and, if_false] at h
          exact ih _ _ _ h
        · simp [hc] at h

theorem full_far (hZ : FarSet g R Z) (hR : R ≤ 2 ^ 29) (hg : 1 / 80 ≤ g) (hk : 0 ≤ k) (hk2 : k ≤ 26)
    (hS : FarSupport k R Z S) (v : V2 F32) : ∀ (n : Nat) (d' : V2 F32) (d : V2 ℝ) (last : V2 F32)
    (pts : List (V2 F32)),
    d'.Is d → DirB k d → (2 : ℝ) ^ (-60 : ℤ) ≤ d.l1 → (∀ q ∈ pts, PtB k q) → Good g R Z d' pts →
    gjkFull S n true d' last pts ≠ .ok (true, v) := by
  intro n
  induction n with
  | zero =>
    intro d' d last pts _ _ _ _ _ h
    simp only [gjkFull] at h
    split at h <;> simp at h
  | succ n ih =>
    intro d' d last pts hd hD hl hp hG h
    by_cases hf : (S d').dot d' ≤ 0
    · simp only [gjkFull, hf, if_true] at h
      split at h
      · split at h <;> simp at h
      · split at h
        · simp at h
        · rename_i r _
          cases hc : r.collides
          · simp only [hc, Bool.false_eq_true, false_and, if_false] at h
            exact full_impossible v _ _ _ _ h
          · simp [hc] at h
    · obtain ⟨r, d2, e, h1, h2, h3, i2, c2, l2, p2⟩ := far_step hZ hR hg hk hk2 hS hd hD hl hp hG hf
      simp only [gjkFull, hf, false_and, if_false, e, h1, Bool.false_eq_true, overrideDir, if_neg h2] at h
      exact ih _ d2 _ _ i2 c2 l2 p2 h3 h

end

/-! ## pairs of shapes -/

/-- a positive answer: the sets meet, up to `δ` -/
structure MetUpTo (δ : ℝ) (X Y : Set (V2 ℝ)) (collides : Except Panic Bool)
    (penetrates : Except Panic (Option (V2 F32))) (sdfv : Except Panic (Bool × V2 F32)) : Prop where
  collides : collides = .ok true → MeetUpTo δ X Y
  penetrates : ∀ v, penetrates = .ok (some v) → MeetUpTo δ X Y
  sdfv : ∀ v, sdfv = .ok (true, v) → MeetUpTo δ X Y

/-- the points within `e` of a convex set -/
theorem convex_fat {W : Set (V2 ℝ)} (hW : Convex ℝ W) (e : ℝ) :
    Convex ℝ {z : V2 ℝ | ∃ w ∈ W, (z - w).norm ≤ e} := by
  rintro x ⟨p, hp, h1⟩ y ⟨q, hq, h2⟩ u v hu hv huv
  refine ⟨u • p + v • q, hW hp hq hu hv huv, ?_⟩
  have e1 : u • x + v • y - (u • p + v • q) = V2.scale u (x - p) + V2.scale v (y - q) := by
    simp only [smul_eq_scale]
    ext <;> simp [V2.scale] <;> ring
  rw [e1]
  refine (V2.norm_add_le' _ _).trans ?_
  rw [V2.norm_scale, V2.norm_scale, abs_of_nonneg hu, abs_of_nonneg hv]
  have m1 := mul_le_mul_of_nonneg_left h1 hu
  have m2 := mul_le_mul_of_nonneg_left h2 hv
  have : u * e + v * e = e := by rw [← add_mul, huv, one_mul]
  linarith

theorem run_true {r : Except Panic (Bool × V2 F32)} (h : (r.map (·.1)) = .ok true) :
    ∃ v, r = .ok (true, v) := by
  rcases r with _ | ⟨_ | _, w⟩
  · cases h
  · cases h
  · exact ⟨w, rfl⟩

section
variable {A B T : Type} [ExtremePoint2d A F32] [ExtremePoint2d B F32] [DefaultMinkowski A B] [Transformation2d T F32]
  {a : A} {b : B} {X Y : Set (V2 ℝ)} {rel : T} {k : ℤ} {M : ℝ}

theorem run_met (hW : Convex ℝ (minkDiff X Y))
    (hG : NoisyGrid False True k (minkDiff X Y) M (extremePoint (LocalMinkowskiDiff2d.mk a b rel)))
    (hr : (applyOrigin rel : V2 F32).Bounded32 M) (hk : 0 ≤ k)
    (hk2 : k ≤ 26) (hM : M ≤ (2 : ℝ) ^ k) (hM1 : 1 ≤ M) :
    MetUpTo (M / 2 ^ 6) X Y (collidesRel a b rel) (penetratesRel a b rel) (sdfvRel a b rel) := by
  have hM' := hM.trans (zpow_le_zpow hk2)
  have hM0 : 0 < M := lt_of_lt_of_le one_pos hM1
  obtain ⟨d, d1, d2, d3⟩ := start_dir hk hM hr
  by_contra hcon
  have hno : ¬ MeetUpTo (M / 2 ^ 6) X Y := fun h => hcon ⟨fun _ => h, fun _ _ => h, fun _ _ => h⟩
  apply hcon
  clear hcon
  have hfar : ∀ w ∈ minkDiff X Y, M / 2 ^ 6 < w.norm := by
    rintro _ ⟨x, hx, y, hy, rfl⟩
    by_contra h
    push Not at h
    exact hno ⟨x, hx, y, hy, h⟩
  have hZ : FarSet (M / 2 ^ 6 - M / 2 ^ 18) (6 * M)
      {z : V2 ℝ | ∃ w ∈ minkDiff X Y, (z - w).norm ≤ M / 2 ^ 18} := by
    refine ⟨?_, ?_, convex_fat hW _, ?_⟩
    · have : M / 2 ^ 18 < M / 2 ^ 6 := div_lt_div_of_pos_left hM0 (by norm_num) (by norm_num)
      linarith
    · linarith
    · rintro z ⟨w, hw, h⟩
      have h1 := hfar w hw
      have h2 := V2.norm_sub_le' z (z - w)
      rw [sub_sub_cancel] at h2
      linarith
  have hS : FarSupport k (6 * M) {z : V2 ℝ | ∃ w ∈ minkDiff X Y, (z - w).norm ≤ M / 2 ^ 18}
      (extremePoint (LocalMinkowskiDiff2d.mk a b rel)) := by
    intro e' e he hD hl
    obtain ⟨p, p1, p2⟩ := hG e' e he hD (fun _ => hl)
    refine ⟨PtB.of_is p1 p2.coord hM, p, p1, ?_, ?_⟩
    · obtain ⟨w, hw, w1, w2⟩ := p2.near
      refine ⟨w, hw, ?_⟩
      have h1 := V2.norm_le_add (p - w)
      have w1 : |(p - w).x| ≤ 22 * (M / 2 ^ 24) := w1
      have w2 : |(p - w).y| ≤ 22 * (M / 2 ^ 24) := w2
      have e1 : M / 2 ^ 18 = 64 * (M / 2 ^ 24) := by ring
      have e2 : 0 ≤ M / 2 ^ 24 := by positivity
      rw [e1]
      linarith
    · refine V2.norm_le (by positivity) ?_
      obtain ⟨c1, c2⟩ := p2.coord
      have q1 : p.x * p.x ≤ 16 * (M * M) := by
        rw [← abs_mul_abs_self]
        have := mul_le_mul c1 c1 (abs_nonneg _) (by positivity)
        linarith
      have q2 : p.y * p.y ≤ 16 * (M * M) := by
        rw [← abs_mul_abs_self]
        have := mul_le_mul c2 c2 (abs_nonneg _) (by positivity)
        linarith
      have q3 := mul_pos hM0 hM0
      rw [dot_def]
      have e3 : (6 * M) ^ 2 = 36 * (M * M) := by ring
      rw [e3]; linarith
  have hR : 6 * M ≤ 2 ^ 29 := by
    have : (2 : ℝ) ^ (26 : ℤ) = 67108864 := by norm_num
    rw [this] at hM'
    linarith
  have hg : 1 / 80 ≤ M / 2 ^ 6 - M / 2 ^ 18 := by linarith
  obtain ⟨hp, p, hz⟩ := hS _ _ d1 d2 d3
  have p0 : (2 : ℝ) ^ (-60 : ℤ) ≤ (-p).l1 := by
    have h1 := hZ.far p hz.2.1
    have h2 := V2.norm_le_add p
    rw [V2.l1_neg]
    have h3 : (2 : ℝ) ^ (-60 : ℤ) ≤ 1 / 80 := by norm_num
    exact h3.trans (hg.trans (h1.trans h2))
  have pD : DirB k (-p) := by
    obtain ⟨e, e1, e2⟩ := (hp.neg.dir hk).is
    have : e = -p := V2.ext (e1.1.unique hz.1.neg.1) (e1.2.unique hz.1.neg.2)
    exact this ▸ e2
  refine ⟨fun h => ?_, fun v h => ?_, fun v h => ?_⟩
  · rw [collidesRel_run32] at h
    obtain ⟨v, h⟩ := run_true h
    exact absurd h (collide_far hZ hR hg hk hk2 hS v _ _ d [] d1 d2 d3 (by simp) (Good.none _))
  · rw [penetratesRel_run32] at h
    exact absurd (run_some h) (penetrate_far hZ hR hg hk hk2 hS v _ _ d [] d1 d2 d3 (by simp) (Good.none _))
  · rw [sdfvRel_run32] at h
    exact absurd h (full_far hZ hR hg hk hk2 hS v _ _ (-p) _ _ hz.1.neg pD p0
      (by intro q hq; rw [List.mem_singleton] at hq; subst hq; exact hp) (Good.one _ p hz))

end

section
variable {A B : Type} [ExtremePoint2d A F32] [ExtremePoint2d B F32] [DefaultMinkowski A B] {a : A} {b : B}
  {X Y : Set (V2 ℝ)} {rel : V2 F32} {k : ℤ} {M : ℝ}

theorem pair_met (cX : Convex ℝ X) (cY : Convex ℝ Y) (gA : GridShape False True k a X M)
    (gB : GridShape False True k b Y M) (hr : rel.Bounded32 M) (hk : 0 ≤ k)
    (hk2 : k ≤ 26) (hM : M ≤ (2 : ℝ) ^ k) (hM1 : 1 ≤ M) :
    MetUpTo (M / 2 ^ 6) X (shift rel.toReal Y) (collidesRel a b rel) (penetratesRel a b rel) (sdfvRel a b rel) :=
  run_met (convex_diff_shift cX cY rel.toReal) (noisyGrid_pair gA gB hr False.elim (hM.trans (zpow_le_zpow hk2)))
    hr hk hk2 hM hM1

end

/-! ## the property, relative form -/

section
variable {M : ℝ}

/-- Two polygons, any number of vertices. -/
theorem C87_f32_poly_poly (a b : Poly2d F32) (rel : V2 F32) (ha : a.Bounded32 M) (hb : b.Bounded32 M)
    (hr : rel.Bounded32 M) (hM1 : 1 ≤ M) (hM : M ≤ (2 : ℝ) ^ (26 : ℤ)) :
    MetUpTo (M / 2 ^ 6) (Region.pts a.toReal) (shift rel.toReal (Region.pts b.toReal))
      (collidesRel a b rel) (penetratesRel a b rel) (sdfvRel a b rel) :=
  pair_met (convex_convexHull ℝ _) (convex_convexHull ℝ _) (grid_poly ha (by norm_num) hM False.elim)
    (grid_poly hb (by norm_num) hM False.elim) hr (by norm_num) (by norm_num) hM hM1

/-- A box and a polygon. -/
theorem C87_f32_box_poly (a : Box2d F32) (b : Poly2d F32) (rel : V2 F32) (ha : a.Bounded32 M) (hb : b.Bounded32 M)
    (hr : rel.Bounded32 M) (hM1 : 1 ≤ M) (hM : M ≤ (2 : ℝ) ^ (26 : ℤ)) :
    MetUpTo (M / 2 ^ 6) (Region.pts a.toReal) (shift rel.toReal (Region.pts b.toReal))
      (collidesRel a b rel) (penetratesRel a b rel) (sdfvRel a b rel) :=
  pair_met (k := 26) (convex_box32 _) (convex_convexHull ℝ _) (grid_box ha False.elim _)
    (grid_poly hb (by norm_num) hM False.elim) hr (by norm_num) (by norm_num) hM hM1

/-- A polygon and a box. -/
theorem C87_f32_poly_box (a : Poly2d F32) (b : Box2d F32) (rel : V2 F32) (ha : a.Bounded32 M) (hb : b.Bounded32 M)
    (hr : rel.Bounded32 M) (hM1 : 1 ≤ M) (hM : M ≤ (2 : ℝ) ^ (26 : ℤ)) :
    MetUpTo (M / 2 ^ 6) (Region.pts a.toReal) (shift rel.toReal (Region.pts b.toReal))
      (collidesRel a b rel) (penetratesRel a b rel) (sdfvRel a b rel) :=
  pair_met (k := 26) (convex_convexHull ℝ _) (convex_box32 _) (grid_poly ha (by norm_num) hM False.elim)
    (grid_box hb False.elim _) hr (by norm_num) (by norm_num) hM hM1

/-- Two boxes. -/
theorem C87_f32_box_box (a b : Box2d F32) (rel : V2 F32) (ha : a.Bounded32 M) (hb : b.Bounded32 M)
    (hr : rel.Bounded32 M) (hM1 : 1 ≤ M) (hM : M ≤ (2 : ℝ) ^ (26 : ℤ)) :
    MetUpTo (M / 2 ^ 6) (Region.pts a.toReal) (shift rel.toReal (Region.pts b.toReal))
      (collidesRel a b rel) (penetratesRel a b rel) (sdfvRel a b rel) :=
  pair_met (k := 26) (convex_box32 _) (convex_box32 _) (grid_box ha False.elim _)
    (grid_box hb False.elim _) hr (by norm_num) (by norm_num) hM hM1

theorem noBall_shape {s : Shape2d F32} (hs : s.Bounded32 M) (hn : s.NoBall) (hM : M ≤ (2 : ℝ) ^ (26 : ℤ)) :
    Convex ℝ (Region.pts s.toReal) ∧ GridShape False True 26 s (Region.pts s.toReal) M := by
  cases s with
  | ball b => exact hn.elim
  | box b => exact ⟨convex_box32 _, grid_box (b := b) hs False.elim _⟩
  | poly p => exact ⟨convex_convexHull ℝ _, grid_poly (P := p) hs (by norm_num) hM False.elim⟩

/-- Two `Shape2d` that are boxes or polygons. -/
theorem C87_f32_shape_shape (a b : Shape2d F32) (rel : V2 F32) (ha : a.Bounded32 M) (hb : b.Bounded32 M)
    (na : a.NoBall) (nb : b.NoBall) (hr : rel.Bounded32 M) (hM1 : 1 ≤ M) (hM : M ≤ (2 : ℝ) ^ (26 : ℤ)) :
    MetUpTo (M / 2 ^ 6) (Region.pts a.toReal) (shift rel.toReal (Region.pts b.toReal))
      (collidesRel a b rel) (penetratesRel a b rel) (sdfvRel a b rel) := by
  obtain ⟨c1, g1⟩ := noBall_shape ha na hM
  obtain ⟨c2, g2⟩ := noBall_shape hb nb hM
  exact pair_met c1 c2 g1 g2 hr (by norm_num) (by norm_num) hM hM1

/-- A ball and a box, coordinates at most `2^17`. -/
theorem C87_f32_ball_box (a : Ball F32) (b : Box2d F32) (rel : V2 F32) (ha : a.Bounded32 M) (hb : b.Bounded32 M)
    (hr : rel.Bounded32 M) (hM1 : 1 ≤ M) (hM : M ≤ (2 : ℝ) ^ (17 : ℤ)) :
    MetUpTo (M / 2 ^ 6) (Region.pts (Ball.mk a.radius.toReal)) (shift rel.toReal (Region.pts b.toReal))
      (collidesRel a b rel) (penetratesRel a b rel) (sdfvRel a b rel) :=
  pair_met (@convex_ball ℝ _ _ _ (realFloat true 0) (realFloat_exact true 0) _) (convex_box32 _)
    (grid_ball ha hM ((by norm_num : (2 : ℝ) ^ (-20 : ℤ) ≤ 1).trans hM1)) (grid_box hb False.elim _) hr (by norm_num)
    (by norm_num) hM hM1

/-- Two `Shape2d` of any kind (with balls), coordinates at most `2^17`. -/
theorem C87_f32_any_shape (a b : Shape2d F32) (rel : V2 F32) (ha : a.Bounded32 M) (hb : b.Bounded32 M)
    (hr : rel.Bounded32 M) (hM1 : 1 ≤ M) (hM : M ≤ (2 : ℝ) ^ (17 : ℤ)) :
    MetUpTo (M / 2 ^ 6) (Region.pts a.toReal) (shift rel.toReal (Region.pts b.toReal))
      (collidesRel a b rel) (penetratesRel a b rel) (sdfvRel a b rel) := by
  have hM0 := (by norm_num : (2 : ℝ) ^ (-20 : ℤ) ≤ 1).trans hM1
  obtain ⟨c1, n1, g1⟩ := ball_shape ha hM0 hM
  obtain ⟨c2, n2, g2⟩ := ball_shape hb hM0 hM
  exact pair_met c1 c2 g1 g2 hr (by norm_num) (by norm_num) hM hM1

/-! ## colliders -/

theorem MetUpTo.placed {A B : Set (V2 ℝ)} {t p q : V2 ℝ} {col : Except Panic Bool}
    {pen : Except Panic (Option (V2 F32))} {sd : Except Panic (Bool × V2 F32)} (hM0 : 0 ≤ M)
    (h : MetUpTo (M / 2 ^ 6) A (shift t B) col pen sd) (ht : V2.Within (M / 2 ^ 24) t (q - p)) :
    MetUpTo (M / 2 ^ 5) (shift p A) (shift q B) col pen (sd.map fun r => (r.1, r.2)) := by
  have hle : M / 2 ^ 6 + 2 * (M / 2 ^ 24) ≤ M / 2 ^ 5 := by linarith
  have s1 : MeetUpTo (M / 2 ^ 6) A (shift t B) → MeetUpTo (M / 2 ^ 5) (shift p A) (shift q B) :=
    fun h => (h.placed ht).mono hle
  exact ⟨fun e => s1 (h.collides e), fun v e => s1 (h.penetrates v e), fun v e => s1 (h.sdfv v (sdfv_id e))⟩

/-- Polygons as colliders at positions `p`, `q` given as vectors or `Translate2d` (magnitude at most
`M / 3`): the rounding of the offset is included. -/
theorem C87_f32_poly_colliders (a b : Poly2d F32) (p q : V2 F32) (ha : a.Bounded32 M) (hb : b.Bounded32 M)
    (hp : p.Bounded32 (M / 3)) (hq : q.Bounded32 (M / 3)) (hM1 : 1 ≤ M) (hM : M ≤ (2 : ℝ) ^ (26 : ℤ)) :
    MetUpTo (M / 2 ^ 5) (shift p.toReal (Region.pts a.toReal)) (shift q.toReal (Region.pts b.toReal))
      (collides ⟨a, p⟩ ⟨b, q⟩) (penetrates ⟨a, p⟩ ⟨b, q⟩) (sdfv ⟨a, p⟩ ⟨b, q⟩) ∧
    MetUpTo (M / 2 ^ 5) (shift p.toReal (Region.pts a.toReal)) (shift q.toReal (Region.pts b.toReal))
      (collides ⟨a, Translate2d.mk p⟩ ⟨b, Translate2d.mk q⟩) (penetrates ⟨a, Translate2d.mk p⟩ ⟨b, Translate2d.mk q⟩)
      (sdfv ⟨a, Translate2d.mk p⟩ ⟨b, Translate2d.mk q⟩) := by
  obtain ⟨r1, r2, -⟩ := offset_bounded hp hq hM
  have h := (C87_f32_poly_poly a b (q + -p) ha hb r1 hM1 hM).placed (zero_le_one.trans hM1) r2
  exact ⟨h, h⟩

/-- The same for `Shape2d` colliders of any kind, coordinates at most `2^17`. -/
theorem C87_f32_shape_colliders (a b : Shape2d F32) (p q : V2 F32) (ha : a.Bounded32 M) (hb : b.Bounded32 M)
    (hp : p.Bounded32 (M / 3)) (hq : q.Bounded32 (M / 3)) (hM1 : 1 ≤ M) (hM : M ≤ (2 : ℝ) ^ (17 : ℤ)) :
    MetUpTo (M / 2 ^ 5) (shift p.toReal (Region.pts a.toReal)) (shift q.toReal (Region.pts b.toReal))
      (collides ⟨a, p⟩ ⟨b, q⟩) (penetrates ⟨a, p⟩ ⟨b, q⟩) (sdfv ⟨a, p⟩ ⟨b, q⟩) ∧
    MetUpTo (M / 2 ^ 5) (shift p.toReal (Region.pts a.toReal)) (shift q.toReal (Region.pts b.toReal))
      (collides ⟨a, Translate2d.mk p⟩ ⟨b, Translate2d.mk q⟩) (penetrates ⟨a, Translate2d.mk p⟩ ⟨b, Translate2d.mk q⟩)
      (sdfv ⟨a, Translate2d.mk p⟩ ⟨b, Translate2d.mk q⟩) := by
  obtain ⟨r1, r2, -⟩ := offset_bounded hp hq (hM.trans (zpow_le_zpow (by norm_num)))
  have h := (C87_f32_any_shape a b (q + -p) ha hb r1 hM1 hM).placed (zero_le_one.trans hM1) r2
  exact ⟨h, h⟩

end

end

end Auburn
