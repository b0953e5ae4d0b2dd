import Verif.Ieee.NoisyRate
import Verif.Ieee.TurnColliders

/-!
# C97: deep overlaps are always found on binary32

C86 shows that a negative answer is right up to a tolerance *or* the search used up its 20 steps.  Here the second
case is excluded for shapes that are deep in each other: when `M` bounds the coordinates and no direction separates the
shapes by a push shorter than `M / 32`, every query finds the overlap, whatever the number of vertices and with no
condition on the coordinates but their size.
-/

set_option linter.unusedSectionVars false
set_option synthInstance.maxSize 1000

namespace Auburn

open F32 V2 ExtremePoint2d Transformation2d

/-! ## the statement -/

/-- the sets overlap by at least `δ` in every direction: whatever the direction `n` in which one is pushed out of the
other, it has to be pushed by at least `δ` -/
def DeepBy (δ : ℝ) (X Y : Set (V2 ℝ)) : Prop := ∀ n : V2 ℝ, ∃ x ∈ X, ∃ y ∈ Y, δ * n.norm ≤ n.dot (x - y)

section
variable [env : F32Env]

/-- all the queries report the overlap (the last three when `far`) -/
structure FoundAll (far : Prop) (collides : Except Panic Bool) (penetrates distanceTo : Except Panic (Option (V2 F32)))
    (sdfv : Except Panic (Bool × V2 F32)) : Prop where
  collides : collides = .ok true
  penetrates : far → ∃ v, penetrates = .ok (some v)
  distanceTo : far → distanceTo = .ok none
  sdfv : far → ∃ v, sdfv = .ok (true, v)

end

section
variable {X Y : Set (V2 ℝ)} {δ ε : ℝ}

theorem DeepBy.mono (h : DeepBy δ X Y) (he : ε ≤ δ) : DeepBy ε X Y := fun n => by
  obtain ⟨x, hx, y, hy, h⟩ := h n
  exact ⟨x, hx, y, hy, (mul_le_mul_of_nonneg_right he n.norm_nonneg).trans h⟩

theorem DeepBy.deep (h : DeepBy δ X Y) : Deep (minkDiff X Y) δ := fun u hu => by
  obtain ⟨x, hx, y, hy, h⟩ := h u
  rw [V2.norm_unit hu, mul_one] at h
  exact ⟨x - y, ⟨x, hx, y, hy, rfl⟩, h⟩

/-- overlapping by a disc of radius `δ` -/
theorem OverlapBy.deepBy (hδ : 0 ≤ δ) (h : OverlapBy δ X Y) : DeepBy δ X Y := by
  intro n
  have hD : HasDisc (minkDiff X Y) δ := by
    let _ := realFloat true 0
    have := realFloat_exact true 0
    exact overlapBy_iff.1 h
  rcases n.norm_nonneg.lt_or_eq with hl | hl
  · obtain ⟨x, hx, y, hy, e⟩ := hD (V2.scale (δ / n.norm) n) (by
      rw [lengthSq_scale, div_pow, ← V2.norm_sq_lengthSq, div_mul_cancel₀ _ (by positivity)])
    refine ⟨x, hx, y, hy, ?_⟩
    rw [← e, dot_scale, dot_self, ← V2.norm_sq_lengthSq, sq, ← mul_assoc, div_mul_cancel₀ _ hl.ne']
  · obtain ⟨x, hx, y, hy, e⟩ := hD 0 (by simp only [lengthSq_def]; simp; positivity)
    refine ⟨x, hx, y, hy, ?_⟩
    rw [← e, ← hl, mul_zero]
    simp [dot_def]

/-- the rounded offset costs a little -/
theorem DeepBy.of_placed {t p q : V2 ℝ} (h : DeepBy δ (shift p X) (shift q Y)) (ht : V2.Within ε t (q - p)) :
    DeepBy (δ - 2 * ε) X (shift t Y) := by
  intro n
  obtain ⟨_, ⟨x, hx, rfl⟩, _, ⟨y, hy, rfl⟩, h⟩ := h n
  refine ⟨x, hx, _, ⟨y, hy, rfl⟩, ?_⟩
  have e : x - (y + t) = (x + p - (y + q)) - (t - (q - p)) := by ext <;> simp <;> ring
  rw [e, dot_sub]
  have h1 := (le_abs_self _).trans (dot_le_norm n (t - (q - p)))
  have h2 : (t - (q - p)).norm ≤ 2 * ε := by
    have := V2.norm_le_add (t - (q - p))
    have t1 : |(t - (q - p)).x| ≤ ε := ht.1
    have t2 : |(t - (q - p)).y| ≤ ε := ht.2
    linarith
  have h3 := mul_le_mul_of_nonneg_left h2 n.norm_nonneg
  linarith

end

section
variable [env : F32Env]

/-! ## the loops -/

section
variable {W : Set (V2 ℝ)} {M : ℝ} {k : ℤ} {S : V2 F32 → V2 F32}

/-- one step of the loops that override small directions -/
theorem deep_step {j : Nat} (hS : DeepSupport k W M S) (hsc : Scale32 M) (h8 : 8 ≤ M) (hk : 0 ≤ k) (hk2 : k ≤ 26)
    (hM : M ≤ (2 : ℝ) ^ k) (hD : Deep W (M / 32)) {d' : V2 F32} {d : V2 ℝ} {pts : List (V2 F32)} (hst : NState W M j d' pts)
    (hd : d'.Is d) (hB : DirB k d) (hl : (2 : ℝ) ^ (-60 : ℤ) ≤ d.l1) (hp : ∀ q ∈ pts, PtB k q) :
    ¬ (S d').dot d' ≤ 0 ∧ ∃ r, addPoint pts (S d') = .ok r ∧ (r.collides = true ∧ r.pts.length = 3 ∨ r.collides = false ∧
      ∃ d2, NState W M (j + 1) (overrideDir d' r.dir) r.pts ∧ (overrideDir d' r.dir).Is d2 ∧ DirB k d2 ∧
        (2 : ℝ) ^ (-60 : ℤ) ≤ d2.l1 ∧ ∀ q ∈ r.pts, PtB k q) := by
  obtain ⟨hf, r, e, h⟩ := nstate_step hS hsc hk hk2 hM hD hst hd hB hl hp
  obtain ⟨r', e', h3, -⟩ := addPoint_ok pts (S d') (hst.bound hsc.pos).2
  rw [e] at e'
  cases e'
  refine ⟨hf, r, e, ?_⟩
  rcases h with h | ⟨h1, h2, h4, h5, h6⟩
  · exact Or.inl ⟨h, h3 h⟩
  · obtain ⟨d2, i2, b2, l2⟩ := override_ok hd hB hl h5
    refine Or.inr ⟨h1, d2, ?_, i2, b2, l2, h6⟩
    unfold overrideDir
    by_cases hs : directionTooSmall r.dir
    · rw [if_pos hs]; exact h4 h8 hs
    · rw [if_neg hs]; exact h2 hs

theorem penetrate_deep (hS : DeepSupport k W M S) (hsc : Scale32 M) (h8 : 8 ≤ M) (hk : 0 ≤ k) (hk2 : k ≤ 26)
    (hM : M ≤ (2 : ℝ) ^ k) (hD : Deep W (M / 32)) : ∀ (n j : Nat) (d' : V2 F32) (d : V2 ℝ) (pts : List (V2 F32)), 16 ≤ n + j →
    NState W M j d' pts → d'.Is d → DirB k d → (2 : ℝ) ^ (-60 : ℤ) ≤ d.l1 → (∀ q ∈ pts, PtB k q) →
    ∃ v, gjkPenetrate S n d' pts = .ok (true, v) := by
  intro n
  induction n with
  | zero => intro j d' d pts hn hst _ _ _ _; have := (hst.bound hsc.pos).1; omega
  | succ n ih =>
    intro j d' d pts hn hst hd hB hl hp
    obtain ⟨hf, r, e, h⟩ := deep_step hS hsc h8 hk hk2 hM hD hst hd hB hl hp
    simp only [gjkPenetrate, if_neg hf, e]
    rcases h with ⟨h, h3⟩ | ⟨h, d2, s2, i2, b2, l2, p2⟩
    · obtain ⟨q, hq, hl⟩ := enforceCcw_ok r.pts h3
      obtain ⟨v, hv⟩ := epa_ok S iterationLimit q (by omega)
      rw [if_pos h, hq]
      simp only [hv]
      exact ⟨v, rfl⟩
    · rw [h, if_neg (by simp)]
      exact ih (j + 1) _ d2 _ (by omega) s2 i2 b2 l2 p2

theorem distance_deep (hS : DeepSupport k W M S) (hsc : Scale32 M) (h8 : 8 ≤ M) (hk : 0 ≤ k) (hk2 : k ≤ 26)
    (hM : M ≤ (2 : ℝ) ^ k) (hD : Deep W (M / 32)) : ∀ (n j : Nat) (d' l : V2 F32) (d : V2 ℝ) (pts : List (V2 F32)), 16 ≤ n + j →
    NState W M j d' pts → d'.Is d → DirB k d → (2 : ℝ) ^ (-60 : ℤ) ≤ d.l1 → (∀ q ∈ pts, PtB k q) →
    gjkDistance S n d' l pts = .ok (true, V2.nan) := by
  intro n
  induction n with
  | zero => intro j d' l d pts hn hst _ _ _ _; have := (hst.bound hsc.pos).1; omega
  | succ n ih =>
    intro j d' l d pts hn hst hd hB hl hp
    obtain ⟨hf, r, e, h⟩ := deep_step hS hsc h8 hk hk2 hM hD hst hd hB hl hp
    simp only [gjkDistance, if_neg (fun h => hf (And.left h)), e]
    rcases h with ⟨h, h3⟩ | ⟨h, d2, s2, i2, b2, l2, p2⟩
    · rw [if_pos h, if_pos h3]
    · rw [h, if_neg (by simp)]
      exact ih (j + 1) _ _ d2 _ (by omega) s2 i2 b2 l2 p2

theorem full_deep (hS : DeepSupport k W M S) (hsc : Scale32 M) (h8 : 8 ≤ M) (hk : 0 ≤ k) (hk2 : k ≤ 26)
    (hM : M ≤ (2 : ℝ) ^ k) (hD : Deep W (M / 32)) : ∀ (n j : Nat) (d' l : V2 F32) (d : V2 ℝ) (pts : List (V2 F32)), 16 ≤ n + j →
    NState W M j d' pts → d'.Is d → DirB k d → (2 : ℝ) ^ (-60 : ℤ) ≤ d.l1 → (∀ q ∈ pts, PtB k q) →
    ∃ v, gjkFull S n true d' l pts = .ok (true, v) := by
  intro n
  induction n with
  | zero => intro j d' l d pts hn hst _ _ _ _; have := (hst.bound hsc.pos).1; omega
  | succ n ih =>
    intro j d' l d pts hn hst hd hB hl hp
    obtain ⟨hf, r, e, h⟩ := deep_step hS hsc h8 hk hk2 hM hD hst hd hB hl hp
    simp only [gjkFull, if_neg (fun h => hf (And.left h)), e, if_neg hf]
    rcases h with ⟨h, h3⟩ | ⟨h, d2, s2, i2, b2, l2, p2⟩
    · obtain ⟨q, hq, hl⟩ := enforceCcw_ok r.pts h3
      obtain ⟨v, hv⟩ := epa_ok S iterationLimit q (by omega)
      rw [if_neg (by simp), if_pos h, hq]
      simp only [hv]
      exact ⟨v, rfl⟩
    · rw [h, if_neg (by simp), if_neg (by simp)]
      exact ih (j + 1) _ _ d2 _ (by omega) s2 i2 b2 l2 p2

end

/-! ## pairs of shapes -/

section
variable {A B T : Type} [ExtremePoint2d A F32] [ExtremePoint2d B F32] [DefaultMinkowski A B] [Transformation2d T F32]
  {a : A} {b : B} {X Y : Set (V2 ℝ)} {rel : T} {k : ℤ} {M : ℝ}

theorem run_deep (hS : DeepSupport k (minkDiff X Y) M (extremePoint (LocalMinkowskiDiff2d.mk a b rel)))
    (hr : (applyOrigin rel : V2 F32).Bounded32 M) (hk : 0 ≤ k) (hk2 : k ≤ 26) (hM : M ≤ (2 : ℝ) ^ k)
    (hM0 : 1 / 2 ^ 16 ≤ M) (hO : DeepBy (M / 32) X Y) :
    FoundAll (8 ≤ M) (collidesRel a b rel) (penetratesRel a b rel) (distanceToRel a b rel) (sdfvRel a b rel) := by
  have hsc : Scale32 M := ⟨hM0, (hM.trans (zpow_le_zpow hk2)).trans (by norm_num)⟩
  have hD := hO.deep
  obtain ⟨d, d1, d2, d3⟩ := start_dir hk hM hr
  have h20 : (2 : ℝ) ^ (-20 : ℤ) ≤ M := le_trans (by norm_num) hM0
  obtain ⟨p, p1, p2, p3, p4⟩ := start_point hS.noisy hk hM h20 d1 d2 d3
  have p4 : (2 : ℝ) ^ (-60 : ℤ) ≤ (-p).l1 := p4.resolve_left fun h => not_out_of_disc hsc.pos hD h.2
  have pts1 : ∀ q ∈ [extremePoint (LocalMinkowskiDiff2d.mk a b rel) (initialDirection (applyOrigin rel))], PtB k q := by
    intro q hq
    rw [List.mem_singleton] at hq
    subst hq
    exact PtB.of_is p1 p2 hM
  -- the state after the first point
  have hst : NState (minkDiff X Y) M 1 (-(extremePoint (LocalMinkowskiDiff2d.mk a b rel) (initialDirection (applyOrigin rel))))
      [extremePoint (LocalMinkowskiDiff2d.mk a b rel) (initialDirection (applyOrigin rel))] := by
    obtain ⟨-, r, e, h⟩ := nstate_step hS hsc hk hk2 hM hD (.none _) d1 d2 d3 (by simp)
    cases e
    rcases h with h | ⟨-, h, -⟩
    · cases h
    · refine h (not_small_of_norm p1.neg ?_)
      obtain ⟨x, hx, h1⟩ := (hS.pt hsc.pos d1 d2 d3)
      have hp := hx.1
      have e : x = p := V2.ext (hp.1.unique p1.1) (hp.2.unique p1.2)
      subst e
      have hl := V2.ne_zero_of_l1 d3
      have hn : 0 < d.norm := lt_of_lt_of_le (by positivity) (dir_norm hk2 d2 d3).1
      obtain ⟨m, hm, g⟩ := hD (V2.scale (1 / d.norm) d) (by
        rw [lengthSq_scale, div_pow, ← V2.norm_sq_lengthSq, one_pow, one_div_mul_cancel (by positivity)])
      rw [scale_dot, one_div, inv_mul_eq_div, le_div_iff₀ hn] at g
      have g2 := h1.2 m hm
      have g3 := dot_le_norm' d x
      have g4 := mul_le_mul_of_nonneg_left d.l1_le_norm (show 0 ≤ 24 * (M / 2 ^ 24) by have := hsc.pos; positivity)
      have g5 : M / 32 * d.norm ≤ (x.norm + 36 * (M / 2 ^ 24)) * d.norm := by linarith
      have g6 := le_of_mul_le_mul_right g5 hn
      rw [V2.norm_neg']
      have := hsc.delta
      linarith
  refine ⟨?_, fun h8 => ?_, fun h8 => ?_, fun h8 => ?_⟩
  · rw [collidesRel_run32, collide_deep hS hsc hk hk2 hM hD _ 0 _ d [] (by decide) (.none _) d1 d2 d3 (by simp)]
    rfl
  · obtain ⟨v, h⟩ := penetrate_deep hS hsc h8 hk hk2 hM hD iterationLimit 0 _ d [] (by decide) (.none _) d1 d2 d3 (by simp)
    rw [penetratesRel_run32, h]
    exact ⟨v, rfl⟩
  · rw [distanceToRel_run32, distance_deep hS hsc h8 hk hk2 hM hD iterationLimit 1 _ _ (-p) _ (by decide) hst p1.neg p3 p4 pts1]
    rfl
  · rw [sdfvRel_run32]
    exact full_deep hS hsc h8 hk hk2 hM hD iterationLimit 1 _ _ (-p) _ (by decide) hst p1.neg p3 p4 pts1

end

section
variable {A B : Type} [ExtremePoint2d A F32] [ExtremePoint2d B F32] [DefaultMinkowski A B] {a : A} {b : B}
  {X Y : Set (V2 ℝ)} {rel : V2 F32} {k : ℤ} {M : ℝ}

theorem pair_deep (nA : NoisyShape k a X M) (nB : NoisyShape k b Y M) (gA : GridShape False True k a X M)
    (gB : GridShape False True k b Y M) (hr : rel.Bounded32 M) (hk : 0 ≤ k) (hk2 : k ≤ 26) (hM : M ≤ (2 : ℝ) ^ k)
    (hM0 : 1 / 2 ^ 16 ≤ M) (hO : DeepBy (M / 32) X (shift rel.toReal Y)) :
    FoundAll (8 ≤ M) (collidesRel a b rel) (penetratesRel a b rel) (distanceToRel a b rel) (sdfvRel a b rel) :=
  have hM' := hM.trans (zpow_le_zpow hk2)
  run_deep ⟨noisy_pair nA nB hr hM', noisyGrid_pair gA gB hr False.elim hM'⟩ hr hk hk2 hM hM0 hO

end

/-! ## the property, relative form -/

section
variable {M : ℝ}

theorem low_scale (h : 1 / 2 ^ 16 ≤ M) : (2 : ℝ) ^ (-20 : ℤ) ≤ M := le_trans (by norm_num) h

/-- Two polygons, any number of vertices. -/
theorem C97_f32_poly_poly (a b : Poly2d F32) (rel : V2 F32) (ha : a.Bounded32 M) (hb : b.Bounded32 M)
    (hr : rel.Bounded32 M) (hM0 : 1 / 2 ^ 16 ≤ M) (hM : M ≤ (2 : ℝ) ^ (26 : ℤ))
    (hO : DeepBy (M / 32) (Region.pts a.toReal) (shift rel.toReal (Region.pts b.toReal))) :
    FoundAll (8 ≤ M) (collidesRel a b rel) (penetratesRel a b rel) (distanceToRel a b rel) (sdfvRel a b rel) :=
  pair_deep (noisy_poly ha (by norm_num) hM (low_scale hM0)) (noisy_poly hb (by norm_num) hM (low_scale hM0))
    (grid_poly ha (by norm_num) hM False.elim) (grid_poly hb (by norm_num) hM False.elim) hr (by norm_num) (by norm_num)
    hM hM0 hO

/-- A box and a polygon. -/
theorem C97_f32_box_poly (a : Box2d F32) (b : Poly2d F32) (rel : V2 F32) (ha : a.Bounded32 M) (hb : b.Bounded32 M)
    (hr : rel.Bounded32 M) (hM0 : 1 / 2 ^ 16 ≤ M) (hM : M ≤ (2 : ℝ) ^ (26 : ℤ))
    (hO : DeepBy (M / 32) (Region.pts a.toReal) (shift rel.toReal (Region.pts b.toReal))) :
    FoundAll (8 ≤ M) (collidesRel a b rel) (penetratesRel a b rel) (distanceToRel a b rel) (sdfvRel a b rel) :=
  pair_deep (k := 26) (noisy_box ha _) (noisy_poly hb (by norm_num) hM (low_scale hM0))
    (grid_box ha False.elim _) (grid_poly hb (by norm_num) hM False.elim) hr (by norm_num) (by norm_num)
    hM hM0 hO

/-- A polygon and a box. -/
theorem C97_f32_poly_box (a : Poly2d F32) (b : Box2d F32) (rel : V2 F32) (ha : a.Bounded32 M) (hb : b.Bounded32 M)
    (hr : rel.Bounded32 M) (hM0 : 1 / 2 ^ 16 ≤ M) (hM : M ≤ (2 : ℝ) ^ (26 : ℤ))
    (hO : DeepBy (M / 32) (Region.pts a.toReal) (shift rel.toReal (Region.pts b.toReal))) :
    FoundAll (8 ≤ M) (collidesRel a b rel) (penetratesRel a b rel) (distanceToRel a b rel) (sdfvRel a b rel) :=
  pair_deep (k := 26) (noisy_poly ha (by norm_num) hM (low_scale hM0)) (noisy_box hb _)
    (grid_poly ha (by norm_num) hM False.elim) (grid_box hb False.elim _) hr (by norm_num) (by norm_num)
    hM hM0 hO

/-- Two boxes. -/
theorem C97_f32_box_box (a b : Box2d F32) (rel : V2 F32) (ha : a.Bounded32 M) (hb : b.Bounded32 M)
    (hr : rel.Bounded32 M) (hM0 : 1 / 2 ^ 16 ≤ M) (hM : M ≤ (2 : ℝ) ^ (26 : ℤ))
    (hO : DeepBy (M / 32) (Region.pts a.toReal) (shift rel.toReal (Region.pts b.toReal))) :
    FoundAll (8 ≤ M) (collidesRel a b rel) (penetratesRel a b rel) (distanceToRel a b rel) (sdfvRel a b rel) :=
  pair_deep (k := 26) (noisy_box ha _) (noisy_box hb _)
    (grid_box ha False.elim _) (grid_box hb False.elim _) hr (by norm_num) (by norm_num) hM hM0 hO

/-- Two `Shape2d` that are boxes or polygons. -/
theorem C97_f32_shape_shape (a b : Shape2d F32) (rel : V2 F32) (ha : a.Bounded32 M) (hb : b.Bounded32 M)
    (na : a.NoBall) (nb : b.NoBall) (hr : rel.Bounded32 M) (hM0 : 1 / 2 ^ 16 ≤ M) (hM : M ≤ (2 : ℝ) ^ (26 : ℤ))
    (hO : DeepBy (M / 32) (Region.pts a.toReal) (shift rel.toReal (Region.pts b.toReal))) :
    FoundAll (8 ≤ M) (collidesRel a b rel) (penetratesRel a b rel) (distanceToRel a b rel) (sdfvRel a b rel) :=
  pair_deep (k := 26) (handled_shape ha na (by norm_num) hM (low_scale hM0)).noisy
    (handled_shape hb nb (by norm_num) hM (low_scale hM0)).noisy (noBall_shape ha na hM).2 (noBall_shape hb nb hM).2 hr
    (by norm_num) (by norm_num) hM hM0 hO

/-- A ball and a box, coordinates at most `2^17`. -/
theorem C97_f32_ball_box (a : Ball F32) (b : Box2d F32) (rel : V2 F32) (ha : a.Bounded32 M) (hb : b.Bounded32 M)
    (hr : rel.Bounded32 M) (hM0 : 1 / 2 ^ 16 ≤ M) (hM : M ≤ (2 : ℝ) ^ (17 : ℤ))
    (hO : DeepBy (M / 32) (Region.pts (Ball.mk a.radius.toReal)) (shift rel.toReal (Region.pts b.toReal))) :
    FoundAll (8 ≤ M) (collidesRel a b rel) (penetratesRel a b rel) (distanceToRel a b rel) (sdfvRel a b rel) :=
  pair_deep (noisy_ball ha hM (low_scale hM0)) (noisy_box hb _) (grid_ball ha hM (low_scale hM0)) (grid_box hb False.elim _) hr
    (by norm_num) (by norm_num) hM hM0 hO

/-- Two `Shape2d` of any kind (with balls), coordinates at most `2^17`. -/
theorem C97_f32_any_shape (a b : Shape2d F32) (rel : V2 F32) (ha : a.Bounded32 M) (hb : b.Bounded32 M)
    (hr : rel.Bounded32 M) (hM0 : 1 / 2 ^ 16 ≤ M) (hM : M ≤ (2 : ℝ) ^ (17 : ℤ))
    (hO : DeepBy (M / 32) (Region.pts a.toReal) (shift rel.toReal (Region.pts b.toReal))) :
    FoundAll (8 ≤ M) (collidesRel a b rel) (penetratesRel a b rel) (distanceToRel a b rel) (sdfvRel a b rel) := by
  obtain ⟨c1, n1, g1⟩ := ball_shape ha (low_scale hM0) hM
  obtain ⟨c2, n2, g2⟩ := ball_shape hb (low_scale hM0) hM
  exact pair_deep n1 n2 g1 g2 hr (by norm_num) (by norm_num) hM hM0 hO

/-! ## colliders -/

section
variable {A B : Type} [ExtremePoint2d A F32] [ExtremePoint2d B F32] [DefaultMinkowski A B] {a : A} {b : B}
  {X Y : Set (V2 ℝ)}

theorem FoundAll.map {f : Prop} {c : Except Panic Bool} {p d : Except Panic (Option (V2 F32))}
    {s : Except Panic (Bool × V2 F32)} (h : FoundAll f c p d s) (g : V2 F32 → V2 F32) :
    FoundAll f c p d (s.map fun r => (r.1, g r.2)) :=
  ⟨h.collides, h.penetrates, h.distanceTo, fun hf => by
    obtain ⟨v, e⟩ := h.sdfv hf
    exact ⟨g v, by rw [e]; rfl⟩⟩

/-- positions given as vectors or `Translate2d` -/
theorem placed_deep {k : ℤ} (nA : NoisyShape k a X M) (nB : NoisyShape k b Y M) (gA : GridShape False True k a X M)
    (gB : GridShape False True k b Y M) {p q : V2 F32} (hp : p.Bounded32 (M / 3)) (hq : q.Bounded32 (M / 3))
    (hk : 0 ≤ k) (hk2 : k ≤ 26) (hM : M ≤ (2 : ℝ) ^ k)
    (hM0 : 1 / 2 ^ 16 ≤ M) (hO : DeepBy (M / 31) (shift p.toReal X) (shift q.toReal Y)) :
    FoundAll (8 ≤ M) (collides ⟨a, p⟩ ⟨b, q⟩) (penetrates ⟨a, p⟩ ⟨b, q⟩) (distanceTo ⟨a, p⟩ ⟨b, q⟩) (sdfv ⟨a, p⟩ ⟨b, q⟩) ∧
    FoundAll (8 ≤ M) (collides ⟨a, Translate2d.mk p⟩ ⟨b, Translate2d.mk q⟩)
      (penetrates ⟨a, Translate2d.mk p⟩ ⟨b, Translate2d.mk q⟩) (distanceTo ⟨a, Translate2d.mk p⟩ ⟨b, Translate2d.mk q⟩)
      (sdfv ⟨a, Translate2d.mk p⟩ ⟨b, Translate2d.mk q⟩) := by
  obtain ⟨r1, r2, -⟩ := offset_bounded hp hq (hM.trans (zpow_le_zpow hk2))
  have hM1 : 0 < M := lt_of_lt_of_le (by positivity) hM0
  have h := (pair_deep nA nB gA gB r1 hk hk2 hM hM0 ((hO.of_placed r2).mono (by linarith))).map id
  exact ⟨h, h⟩

/-- the relative placement with a rotation -/
theorem turn_deep {k : ℤ} {rel : Transform2d F32} (nA : NoisyShape (k + 1) a X M) (nB : NoisyShape (k + 1) b Y M)
    (gA : GridShape False True (k + 1) a X M) (gB : GridShape False True (k + 1) b Y M) (hr : rel.Rigid32 M (1 / 2 ^ 16))
    (hk : 0 ≤ k) (hk2 : k ≤ 25) (hM : 2 * M ≤ (2 : ℝ) ^ k)
    (hM0 : 1 / 2 ^ 16 ≤ M) (hO : DeepBy (M / 16) X (rel.image Y)) :
    FoundAll (4 ≤ M) (collidesRel a b rel) (penetratesRel a b rel) (distanceToRel a b rel) (sdfvRel a b rel) := by
  have hM1 : 0 < M := lt_of_lt_of_le (by positivity) hM0
  have h1 : (2 : ℝ) ^ k ≤ (2 : ℝ) ^ (26 : ℤ) := zpow_le_zpow (by omega)
  have hM' : M ≤ (2 : ℝ) ^ (26 : ℤ) := by linarith
  have hM2 := low_scale hM0
  have h := run_deep (X := X) (Y := rel.image Y) (M := 2 * M)
    ⟨noisy_turn_pair (nA.anti (by omega)) nB hr hk (by omega) hM' hM2,
      noisyGrid_turn_pair (gA.anti (by omega)) gB hr False.elim hk (by omega) hM' hM2⟩ hr.origin hk (by omega) hM
    (by linarith) (by rw [show 2 * M / 32 = M / 16 by ring]; exact hO)
  exact ⟨h.1, fun h4 => h.2 (by linarith), fun h4 => h.3 (by linarith), fun h4 => h.4 (by linarith)⟩

theorem DeepBy.of_carry {δ ε : ℝ} {ta tb D : Transform2d F32} (h : DeepBy δ (ta.image X) (tb.image Y)) (hc : Carries ε ta tb D Y)
    (n1 : ta.rot.a.toReal.norm ≤ 1 + 1 / 2 ^ 18) (n2 : 1 - 1 / 2 ^ 18 ≤ ta.rot.a.toReal.norm) (hε : ε ≤ δ) :
    DeepBy (99 / 100 * (δ - ε)) X (D.image Y) := by
  intro n
  obtain ⟨_, ⟨x, hx, rfl⟩, _, ⟨y, hy, rfl⟩, h⟩ := h (turn ta.rot.a.toReal n)
  refine ⟨x, hx, _, ⟨y, hy, rfl⟩, ?_⟩
  have h2 := hc y hy
  set r := ta.rot.a.toReal
  set w := turn D.rot.a.toReal y + D.pos.toReal with hw
  have rpos : 0 < r.norm := lt_of_lt_of_le (by norm_num) n2
  have e : turn r x + ta.pos.toReal - (turn tb.rot.a.toReal y + tb.pos.toReal) = turn r (x - w) +
      (turn r w + ta.pos.toReal - (turn tb.rot.a.toReal y + tb.pos.toReal)) := by
    rw [turn_sub]; ext <;> simp <;> ring
  have e2 : (turn r n).dot (turn r (x - w)) = r.norm ^ 2 * n.dot (x - w) := by
    rw [V2.norm_sq_lengthSq]; simp only [dot_def, lengthSq_def, turn]; ring
  have h3 := (le_abs_self _).trans (dot_le_norm (turn r n) (turn r w + ta.pos.toReal - (turn tb.rot.a.toReal y + tb.pos.toReal)))
  have h4 := mul_le_mul_of_nonneg_left h2 (turn r n).norm_nonneg
  rw [e, dot_add, e2] at h
  rw [turn_norm] at h h4 h3
  have h5 : r.norm * ((δ - ε) * n.norm) ≤ r.norm * (r.norm * n.dot (x - w)) := by linarith
  have h6 := le_of_mul_le_mul_left h5 rpos
  have h7 : 0 ≤ (δ - ε) * n.norm := mul_nonneg (by linarith) n.norm_nonneg
  have h8 : 0 ≤ n.dot (x - w) := by
    by_contra hneg
    push Not at hneg
    have := mul_neg_of_pos_of_neg rpos hneg
    linarith
  have h9 := mul_le_mul_of_nonneg_right n1 h8
  linarith

/-- colliders with rotations -/
theorem turned_deep {k : ℤ} {ta tb : Transform2d F32} (nA : NoisyShape (k + 1) a X M) (nB : NoisyShape (k + 1) b Y M)
    (gA : GridShape False True (k + 1) a X M) (gB : GridShape False True (k + 1) b Y M)
    (hta : ta.Rigid32 (M / 4) (1 / 2 ^ 18)) (htb : tb.Rigid32 (M / 4) (1 / 2 ^ 18)) (hk : 0 ≤ k) (hk2 : k ≤ 25)
    (hM : 2 * M ≤ (2 : ℝ) ^ k) (hM0 : 1 / 2 ^ 16 ≤ M) (hO : DeepBy (M / 15) (ta.image X) (tb.image Y)) :
    FoundAll (4 ≤ M) (collides ⟨a, ta⟩ ⟨b, tb⟩) (penetrates ⟨a, ta⟩ ⟨b, tb⟩) (distanceTo ⟨a, ta⟩ ⟨b, tb⟩)
      (sdfv ⟨a, ta⟩ ⟨b, tb⟩) := by
  have hM1 : 0 < M := lt_of_lt_of_le (by positivity) hM0
  have h1 : (2 : ℝ) ^ k ≤ (2 : ℝ) ^ (26 : ℤ) := zpow_le_zpow (by omega)
  have hM' : M ≤ (2 : ℝ) ^ (26 : ℤ) := by linarith
  obtain ⟨d1, d2⟩ := delta_rigid hta htb hM' (low_scale hM0)
  have hY := nB.coord (by omega) hM1.le
  have hc : Carries (160 * (M / 2 ^ 24)) ta tb (deltaTransform ta tb) Y := fun y hy => d2 y (hY y hy)
  exact (turn_deep nA nB gA gB d1 hk hk2 hM hM0
    ((hO.of_carry hc (rot_norms hta).1 (rot_norms hta).2 (by linarith)).mono (by linarith))).map _

end

/-- Polygons as colliders at positions `p`, `q` given as vectors or `Translate2d` (magnitude at most
`M / 3`): the rounding of the offset is included. -/
theorem C97_f32_poly_colliders (a b : Poly2d F32) (p q : V2 F32) (ha : a.Bounded32 M) (hb : b.Bounded32 M)
    (hp : p.Bounded32 (M / 3)) (hq : q.Bounded32 (M / 3)) (hM0 : 1 / 2 ^ 16 ≤ M) (hM : M ≤ (2 : ℝ) ^ (26 : ℤ))
    (hO : DeepBy (M / 31) (shift p.toReal (Region.pts a.toReal)) (shift q.toReal (Region.pts b.toReal))) :
    FoundAll (8 ≤ M) (collides ⟨a, p⟩ ⟨b, q⟩) (penetrates ⟨a, p⟩ ⟨b, q⟩) (distanceTo ⟨a, p⟩ ⟨b, q⟩) (sdfv ⟨a, p⟩ ⟨b, q⟩) ∧
    FoundAll (8 ≤ M) (collides ⟨a, Translate2d.mk p⟩ ⟨b, Translate2d.mk q⟩)
      (penetrates ⟨a, Translate2d.mk p⟩ ⟨b, Translate2d.mk q⟩) (distanceTo ⟨a, Translate2d.mk p⟩ ⟨b, Translate2d.mk q⟩)
      (sdfv ⟨a, Translate2d.mk p⟩ ⟨b, Translate2d.mk q⟩) :=
  placed_deep (noisy_poly ha (by norm_num) hM (low_scale hM0)) (noisy_poly hb (by norm_num) hM (low_scale hM0))
    (grid_poly ha (by norm_num) hM False.elim) (grid_poly hb (by norm_num) hM False.elim) hp hq (by norm_num) (by norm_num)
    hM hM0 hO

/-- The same for `Shape2d` colliders that are boxes or polygons. -/
theorem C97_f32_shape_colliders (a b : Shape2d F32) (p q : V2 F32) (ha : a.Bounded32 M) (hb : b.Bounded32 M)
    (na : a.NoBall) (nb : b.NoBall)
    (hp : p.Bounded32 (M / 3)) (hq : q.Bounded32 (M / 3)) (hM0 : 1 / 2 ^ 16 ≤ M) (hM : M ≤ (2 : ℝ) ^ (26 : ℤ))
    (hO : DeepBy (M / 31) (shift p.toReal (Region.pts a.toReal)) (shift q.toReal (Region.pts b.toReal))) :
    FoundAll (8 ≤ M) (collides ⟨a, p⟩ ⟨b, q⟩) (penetrates ⟨a, p⟩ ⟨b, q⟩) (distanceTo ⟨a, p⟩ ⟨b, q⟩) (sdfv ⟨a, p⟩ ⟨b, q⟩) ∧
    FoundAll (8 ≤ M) (collides ⟨a, Translate2d.mk p⟩ ⟨b, Translate2d.mk q⟩)
      (penetrates ⟨a, Translate2d.mk p⟩ ⟨b, Translate2d.mk q⟩) (distanceTo ⟨a, Translate2d.mk p⟩ ⟨b, Translate2d.mk q⟩)
      (sdfv ⟨a, Translate2d.mk p⟩ ⟨b, Translate2d.mk q⟩) :=
  placed_deep (k := 26) (handled_shape ha na (by norm_num) hM (low_scale hM0)).noisy
    (handled_shape hb nb (by norm_num) hM (low_scale hM0)).noisy (noBall_shape ha na hM).2 (noBall_shape hb nb hM).2 hp hq
    (by norm_num) (by norm_num) hM hM0 hO

/-- The same for `Shape2d` colliders of any kind (with balls), coordinates at most `2^17`. -/
theorem C97_f32_any_shape_colliders (a b : Shape2d F32) (p q : V2 F32) (ha : a.Bounded32 M) (hb : b.Bounded32 M)
    (hp : p.Bounded32 (M / 3)) (hq : q.Bounded32 (M / 3)) (hM0 : 1 / 2 ^ 16 ≤ M) (hM : M ≤ (2 : ℝ) ^ (17 : ℤ))
    (hO : DeepBy (M / 31) (shift p.toReal (Region.pts a.toReal)) (shift q.toReal (Region.pts b.toReal))) :
    FoundAll (8 ≤ M) (collides ⟨a, p⟩ ⟨b, q⟩) (penetrates ⟨a, p⟩ ⟨b, q⟩) (distanceTo ⟨a, p⟩ ⟨b, q⟩) (sdfv ⟨a, p⟩ ⟨b, q⟩) ∧
    FoundAll (8 ≤ M) (collides ⟨a, Translate2d.mk p⟩ ⟨b, Translate2d.mk q⟩)
      (penetrates ⟨a, Translate2d.mk p⟩ ⟨b, Translate2d.mk q⟩) (distanceTo ⟨a, Translate2d.mk p⟩ ⟨b, Translate2d.mk q⟩)
      (sdfv ⟨a, Translate2d.mk p⟩ ⟨b, Translate2d.mk q⟩) := by
  obtain ⟨c1, n1, g1⟩ := ball_shape ha (low_scale hM0) hM
  obtain ⟨c2, n2, g2⟩ := ball_shape hb (low_scale hM0) hM
  exact placed_deep n1 n2 g1 g2 hp hq (by norm_num) (by norm_num) hM hM0 hO

/-! ## rotations -/

theorem two_scale {k : ℤ} (h : M ≤ (2 : ℝ) ^ k) : 2 * M ≤ (2 : ℝ) ^ (k + 1) := by
  rw [zpow_add₀ (by norm_num)]; linarith [zpow_one (2 : ℝ)]

/-- Two polygons, the second one rotated and moved by `rel`. -/
theorem C97_f32_poly_poly_turned (a b : Poly2d F32) (rel : Transform2d F32) (ha : a.Bounded32 M) (hb : b.Bounded32 M)
    (hr : rel.Rigid32 M (1 / 2 ^ 16)) (hM0 : 1 / 2 ^ 16 ≤ M) (hM : M ≤ (2 : ℝ) ^ (24 : ℤ))
    (hO : DeepBy (M / 16) (Region.pts a.toReal) (rel.image (Region.pts b.toReal))) :
    FoundAll (4 ≤ M) (collidesRel a b rel) (penetratesRel a b rel) (distanceToRel a b rel) (sdfvRel a b rel) :=
  have hM' : M ≤ (2 : ℝ) ^ (26 : ℤ) := hM.trans (zpow_le_zpow (by norm_num))
  turn_deep (k := 25) (noisy_poly ha (by norm_num) hM' (low_scale hM0)) (noisy_poly hb (by norm_num) hM' (low_scale hM0))
    (grid_poly ha (by norm_num) hM' False.elim) (grid_poly hb (by norm_num) hM' False.elim) hr (by norm_num) (by norm_num)
    (two_scale hM) hM0 hO

/-- Two boxes, the second one rotated and moved by `rel`. -/
theorem C97_f32_box_box_turned (a b : Box2d F32) (rel : Transform2d F32) (ha : a.Bounded32 M) (hb : b.Bounded32 M)
    (hr : rel.Rigid32 M (1 / 2 ^ 16)) (hM0 : 1 / 2 ^ 16 ≤ M) (hM : M ≤ (2 : ℝ) ^ (24 : ℤ))
    (hO : DeepBy (M / 16) (Region.pts a.toReal) (rel.image (Region.pts b.toReal))) :
    FoundAll (4 ≤ M) (collidesRel a b rel) (penetratesRel a b rel) (distanceToRel a b rel) (sdfvRel a b rel) :=
  turn_deep (k := 25) (noisy_box ha _) (noisy_box hb _) (grid_box ha False.elim _) (grid_box hb False.elim _) hr
    (by norm_num) (by norm_num) (two_scale hM) hM0 hO

/-- Two `Shape2d` that are boxes or polygons, the second one rotated and moved by `rel`. -/
theorem C97_f32_shape_shape_turned (a b : Shape2d F32) (rel : Transform2d F32) (ha : a.Bounded32 M) (hb : b.Bounded32 M)
    (na : a.NoBall) (nb : b.NoBall)
    (hr : rel.Rigid32 M (1 / 2 ^ 16)) (hM0 : 1 / 2 ^ 16 ≤ M) (hM : M ≤ (2 : ℝ) ^ (24 : ℤ))
    (hO : DeepBy (M / 16) (Region.pts a.toReal) (rel.image (Region.pts b.toReal))) :
    FoundAll (4 ≤ M) (collidesRel a b rel) (penetratesRel a b rel) (distanceToRel a b rel) (sdfvRel a b rel) :=
  have hM' : M ≤ (2 : ℝ) ^ (26 : ℤ) := hM.trans (zpow_le_zpow (by norm_num))
  turn_deep (k := 25) (handled_shape ha na (by norm_num) hM' (low_scale hM0)).noisy
    (handled_shape hb nb (by norm_num) hM' (low_scale hM0)).noisy (noBall_shape ha na hM').2 (noBall_shape hb nb hM').2 hr
    (by norm_num) (by norm_num) (two_scale hM) hM0 hO

/-- Two `Shape2d` of any kind (with balls), coordinates at most `2^15`. -/
theorem C97_f32_any_shape_turned (a b : Shape2d F32) (rel : Transform2d F32) (ha : a.Bounded32 M) (hb : b.Bounded32 M)
    (hr : rel.Rigid32 M (1 / 2 ^ 16)) (hM0 : 1 / 2 ^ 16 ≤ M) (hM : M ≤ (2 : ℝ) ^ (15 : ℤ))
    (hO : DeepBy (M / 16) (Region.pts a.toReal) (rel.image (Region.pts b.toReal))) :
    FoundAll (4 ≤ M) (collidesRel a b rel) (penetratesRel a b rel) (distanceToRel a b rel) (sdfvRel a b rel) := by
  have hM' : M ≤ (2 : ℝ) ^ (17 : ℤ) := hM.trans (zpow_le_zpow (by norm_num))
  obtain ⟨c1, n1, g1⟩ := ball_shape ha (low_scale hM0) hM'
  obtain ⟨c2, n2, g2⟩ := ball_shape hb (low_scale hM0) hM'
  exact turn_deep (k := 16) n1 n2 g1 g2 hr (by norm_num) (by norm_num) (two_scale hM) hM0 hO

/-- Two polygons as colliders with rotations, positions of magnitude at most `M / 4`, rotors with squared length within
`2^-18` of one: the rounding of the relative placement is included. -/
theorem C97_f32_poly_poly_turned_colliders (a b : Poly2d F32) (ta tb : Transform2d F32) (ha : a.Bounded32 M) (hb : b.Bounded32 M)
    (hta : ta.Rigid32 (M / 4) (1 / 2 ^ 18)) (htb : tb.Rigid32 (M / 4) (1 / 2 ^ 18))
    (hM0 : 1 / 2 ^ 16 ≤ M) (hM : M ≤ (2 : ℝ) ^ (24 : ℤ))
    (hO : DeepBy (M / 15) (ta.image (Region.pts a.toReal)) (tb.image (Region.pts b.toReal))) :
    FoundAll (4 ≤ M) (collides ⟨a, ta⟩ ⟨b, tb⟩) (penetrates ⟨a, ta⟩ ⟨b, tb⟩) (distanceTo ⟨a, ta⟩ ⟨b, tb⟩)
      (sdfv ⟨a, ta⟩ ⟨b, tb⟩) :=
  have hM' : M ≤ (2 : ℝ) ^ (26 : ℤ) := hM.trans (zpow_le_zpow (by norm_num))
  turned_deep (k := 25) (noisy_poly ha (by norm_num) hM' (low_scale hM0)) (noisy_poly hb (by norm_num) hM' (low_scale hM0))
    (grid_poly ha (by norm_num) hM' False.elim) (grid_poly hb (by norm_num) hM' False.elim) hta htb (by norm_num) (by norm_num)
    (two_scale hM) hM0 hO

/-- The same for two boxes. -/
theorem C97_f32_box_box_turned_colliders (a b : Box2d F32) (ta tb : Transform2d F32) (ha : a.Bounded32 M) (hb : b.Bounded32 M)
    (hta : ta.Rigid32 (M / 4) (1 / 2 ^ 18)) (htb : tb.Rigid32 (M / 4) (1 / 2 ^ 18))
    (hM0 : 1 / 2 ^ 16 ≤ M) (hM : M ≤ (2 : ℝ) ^ (24 : ℤ))
    (hO : DeepBy (M / 15) (ta.image (Region.pts a.toReal)) (tb.image (Region.pts b.toReal))) :
    FoundAll (4 ≤ M) (collides ⟨a, ta⟩ ⟨b, tb⟩) (penetrates ⟨a, ta⟩ ⟨b, tb⟩) (distanceTo ⟨a, ta⟩ ⟨b, tb⟩)
      (sdfv ⟨a, ta⟩ ⟨b, tb⟩) :=
  turned_deep (k := 25) (noisy_box ha _) (noisy_box hb _) (grid_box ha False.elim _) (grid_box hb False.elim _) hta htb
    (by norm_num) (by norm_num) (two_scale hM) hM0 hO

/-- The same for two `Shape2d` that are boxes or polygons. -/
theorem C97_f32_shape_shape_turned_colliders (a b : Shape2d F32) (ta tb : Transform2d F32) (ha : a.Bounded32 M)
    (hb : b.Bounded32 M) (na : a.NoBall) (nb : b.NoBall)
    (hta : ta.Rigid32 (M / 4) (1 / 2 ^ 18)) (htb : tb.Rigid32 (M / 4) (1 / 2 ^ 18))
    (hM0 : 1 / 2 ^ 16 ≤ M) (hM : M ≤ (2 : ℝ) ^ (24 : ℤ))
    (hO : DeepBy (M / 15) (ta.image (Region.pts a.toReal)) (tb.image (Region.pts b.toReal))) :
    FoundAll (4 ≤ M) (collides ⟨a, ta⟩ ⟨b, tb⟩) (penetrates ⟨a, ta⟩ ⟨b, tb⟩) (distanceTo ⟨a, ta⟩ ⟨b, tb⟩)
      (sdfv ⟨a, ta⟩ ⟨b, tb⟩) :=
  have hM' : M ≤ (2 : ℝ) ^ (26 : ℤ) := hM.trans (zpow_le_zpow (by norm_num))
  turned_deep (k := 25) (handled_shape ha na (by norm_num) hM' (low_scale hM0)).noisy
    (handled_shape hb nb (by norm_num) hM' (low_scale hM0)).noisy (noBall_shape ha na hM').2 (noBall_shape hb nb hM').2
    hta htb (by norm_num) (by norm_num) (two_scale hM) hM0 hO

/-- The same for two `Shape2d` of any kind (with balls), coordinates at most `2^15`. -/
theorem C97_f32_any_shape_turned_colliders (a b : Shape2d F32) (ta tb : Transform2d F32) (ha : a.Bounded32 M) (hb : b.Bounded32 M)
    (hta : ta.Rigid32 (M / 4) (1 / 2 ^ 18)) (htb : tb.Rigid32 (M / 4) (1 / 2 ^ 18))
    (hM0 : 1 / 2 ^ 16 ≤ M) (hM : M ≤ (2 : ℝ) ^ (15 : ℤ))
    (hO : DeepBy (M / 15) (ta.image (Region.pts a.toReal)) (tb.image (Region.pts b.toReal))) :
    FoundAll (4 ≤ M) (collides ⟨a, ta⟩ ⟨b, tb⟩) (penetrates ⟨a, ta⟩ ⟨b, tb⟩) (distanceTo ⟨a, ta⟩ ⟨b, tb⟩)
      (sdfv ⟨a, ta⟩ ⟨b, tb⟩) := by
  have hM' : M ≤ (2 : ℝ) ^ (17 : ℤ) := hM.trans (zpow_le_zpow (by norm_num))
  obtain ⟨c1, n1, g1⟩ := ball_shape ha (low_scale hM0) hM'
  obtain ⟨c2, n2, g2⟩ := ball_shape hb (low_scale hM0) hM'
  exact turned_deep (k := 16) n1 n2 g1 g2 hta htb (by norm_num) (by norm_num) (two_scale hM) hM0 hO

end

end

end Auburn
