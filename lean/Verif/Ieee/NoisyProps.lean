import Verif.Ieee.NoisyDist
import Verif.Ieee.BoxColliderProps

/-!
# C86: GJK and EPA on binary32, arbitrary boxes and polygons (and partly balls)

The exact theorems (C01-C09, ...) are about exact arithmetic, C71/C73 about a coarse grid and
C83/C84 about two boxes.  Here the shapes are arbitrary: boxes, polygons with any number of vertices
and, for the negative answers and the distances, balls, with arbitrary finite binary32 coordinates of
magnitude at most `M`.  The search computes with rounded arithmetic at every step.  The theorems say
that the answers stay geometrically valid up to `M / 2^17` (about 1/128 of a unit for coordinates
around 1000).
-/

set_option linter.unusedSectionVars false
set_option synthInstance.maxSize 1000

namespace Auburn

open F32 V2 ExtremePoint2d Transformation2d

/-! ## the statements -/

section
variable [env : F32Env]

/-- a reported push (finite, not zero) moves the first set off the second one, up to `δ` -/
structure PushUpTo (δ : ℝ) (X Y : Set (V2 ℝ)) (penetrates : Except Panic (Option (V2 F32)))
    (sdfv : Except Panic (Bool × V2 F32)) : Prop where
  penetrates : ∀ v x, penetrates = .ok (some v) → v.Is x → x ≠ 0 → SeparableUpTo δ (shift x X) Y
  sdfv : ∀ v x, sdfv = .ok (true, v) → v.Is x → x ≠ 0 → SeparableUpTo δ (shift x X) Y

/-- a reported distance vector (finite) moves the first set onto the second one, up to `δ` -/
structure BridgeUpTo (δ : ℝ) (X Y : Set (V2 ℝ)) (distanceTo : Except Panic (Option (V2 F32)))
    (sdfv : Except Panic (Bool × V2 F32)) : Prop where
  distanceTo : ∀ v x, distanceTo = .ok (some v) → v.Is x → MeetUpTo δ (shift x X) Y
  sdfv : ∀ v x, sdfv = .ok (false, v) → v.Is x → MeetUpTo δ (shift x X) Y

/-- the same, unless the sets already meet up to `δ` -/
structure BridgeUnlessMet (δ : ℝ) (X Y : Set (V2 ℝ)) (distanceTo : Except Panic (Option (V2 F32)))
    (sdfv : Except Panic (Bool × V2 F32)) : Prop where
  distanceTo : ∀ v x, distanceTo = .ok (some v) → v.Is x → MeetUpTo δ X Y ∨ MeetUpTo δ (shift x X) Y
  sdfv : ∀ v x, sdfv = .ok (false, v) → v.Is x → MeetUpTo δ X Y ∨ MeetUpTo δ (shift x X) Y

/-- a negative answer: the sets are separated by a line up to `δ`, or the search used up its 20 steps
(`U` for `collides`, `V` for `penetrates`, `V'` for `distance_to` and `sdfv`) -/
structure ApartUpTo (δ : ℝ) (X Y : Set (V2 ℝ)) (U V V' : Prop) (collides : Except Panic Bool)
    (penetrates distanceTo : Except Panic (Option (V2 F32))) (sdfv : Except Panic (Bool × V2 F32)) : Prop where
  collides : collides = .ok false → SeparableUpTo δ X Y ∨ U
  penetrates : penetrates = .ok none → SeparableUpTo δ X Y ∨ V
  distanceTo : ∀ v, distanceTo = .ok (some v) → SeparableUpTo δ X Y ∨ V'
  sdfv : ∀ v, sdfv = .ok (false, v) → SeparableUpTo δ X Y ∨ V'

section
variable {A B T : Type} [ExtremePoint2d A F32] [ExtremePoint2d B F32] [Transformation2d T F32]

/-- `collides` uses up its 20 steps -/
def CollideRunsOut (a : A) (b : B) (rel : T) : Prop :=
  Runs (fun _ e => e) (extremePoint (LocalMinkowskiDiff2d.mk a b rel)) 20 (initialDirection (applyOrigin rel)) []
/-- `penetrates` uses up its 20 steps -/
def PenetrateRunsOut (a : A) (b : B) (rel : T) : Prop :=
  Runs overrideDir (extremePoint (LocalMinkowskiDiff2d.mk a b rel)) 20 (initialDirection (applyOrigin rel)) []
/-- `distance_to` and `sdfv` use up their 20 steps -/
def DistanceRunsOut (a : A) (b : B) (rel : T) : Prop :=
  Runs overrideDir (extremePoint (LocalMinkowskiDiff2d.mk a b rel)) 20
    (-(extremePoint (LocalMinkowskiDiff2d.mk a b rel) (initialDirection (applyOrigin rel))))
    [extremePoint (LocalMinkowskiDiff2d.mk a b rel) (initialDirection (applyOrigin rel))]

end

/-! ## from the difference set to the two sets -/

theorem sepUpTo_of_out {δ : ℝ} {X Y : Set (V2 ℝ)} (h : OriginOut (minkDiff X Y) δ) : SeparableUpTo δ X Y := by
  obtain ⟨n, n0, hn⟩ := h
  refine ⟨n, n0, fun a ha b hb => ?_⟩
  have := hn _ ⟨a, ha, b, hb, rfl⟩
  rw [dot_sub] at this
  linarith

theorem sepUpTo_of_push {δ : ℝ} {X Y : Set (V2 ℝ)} {x : V2 ℝ} (h : PushOut (minkDiff X Y) δ x) :
    SeparableUpTo δ (shift x X) Y := by
  obtain ⟨n, n0, hn⟩ := h
  refine ⟨n, n0, ?_⟩
  rintro _ ⟨a, ha, rfl⟩ b hb
  have := hn _ ⟨a, ha, b, hb, rfl⟩
  rw [dot_add, dot_sub] at this
  rw [dot_add]
  linarith

theorem meet_of_reaches {δ : ℝ} {X Y : Set (V2 ℝ)} {x : V2 ℝ} (h : Reaches (minkDiff X Y) δ x) :
    MeetUpTo δ (shift x X) Y := by
  obtain ⟨_, ⟨a, ha, b, hb, rfl⟩, h⟩ := h
  refine ⟨a + x, ⟨a, ha, rfl⟩, b, hb, ?_⟩
  rwa [show a + x - b = a - b + x by ext <;> simp <;> ring]

theorem meet_of_reaches_zero {δ : ℝ} {X Y : Set (V2 ℝ)} (h : Reaches (minkDiff X Y) δ 0) :
    MeetUpTo δ X Y := by
  obtain ⟨_, ⟨a, ha, b, hb, rfl⟩, h⟩ := h
  refine ⟨a, ha, b, hb, ?_⟩
  rwa [add_zero] at h

theorem OriginOut.mono {W : Set (V2 ℝ)} {δ δ' : ℝ} (h : OriginOut W δ) (hd : δ ≤ δ') : OriginOut W δ' := by
  obtain ⟨n, n0, hn⟩ := h
  exact ⟨n, n0, fun w hw => (hn w hw).trans (mul_le_mul_of_nonneg_right hd n.norm_nonneg)⟩

/-! ## the start of the search -/

theorem start_dir {k : ℤ} {M : ℝ} (hk : 0 ≤ k) (hM : M ≤ (2 : ℝ) ^ k) {rel : V2 F32} (hr : rel.Bounded32 M) :
    ∃ d, (initialDirection rel).Is d ∧ DirB k d ∧ (2 : ℝ) ^ (-60 : ℤ) ≤ d.l1 := by
  have h1 : (1 : ℝ) ≤ (2 : ℝ) ^ (3 * k + 10) := one_le_zpow₀ (by norm_num) (by omega)
  have h2 : (2 : ℝ) ^ k ≤ (2 : ℝ) ^ (3 * k + 10) := zpow_le_zpow (by omega)
  unfold initialDirection
  by_cases h : rel.lengthSq < FloatExtra.epsilon
  · rw [if_pos h]
    refine ⟨⟨1, 0⟩, ⟨is_one, is_zero⟩, ⟨by simpa using h1, ?_⟩, ?_⟩
    · show |(0 : ℝ)| ≤ _
      rw [abs_zero]; linarith
    · show _ ≤ |(1 : ℝ)| + |(0 : ℝ)|
      norm_num
  · rw [if_neg h]
    exact ⟨_, hr.1, hr.2.mono (hM.trans h2), l1_of_lengthSq hr.1 (Or.inr is_epsilon) h⟩

variable {k : ℤ} {M : ℝ} {W : Set (V2 ℝ)} {S : V2 F32 → V2 F32}

/-- the first point: either it is a proper direction, or the origin is not inside -/
theorem start_point (hS : Noisy k W M S) (hk : 0 ≤ k) (hM : M ≤ (2 : ℝ) ^ k)
    (hM0 : (2 : ℝ) ^ (-20 : ℤ) ≤ M) {d' : V2 F32} {d : V2 ℝ} (hd : d'.Is d) (hD : DirB k d)
    (hl : (2 : ℝ) ^ (-60 : ℤ) ≤ d.l1) : ∃ p, (S d').Is p ∧ p.Coord (4 * M) ∧ DirB k (-p) ∧
      (p.l1 < (2 : ℝ) ^ (-60 : ℤ) ∧ OriginOut W (M / 2 ^ 17) ∨ (2 : ℝ) ^ (-60 : ℤ) ≤ (-p).l1) := by
  obtain ⟨p, p1, p2, p3⟩ := hS d' d hd hD hl
  have hM1 : 0 < M := lt_of_lt_of_le (two_zpow_pos _) hM0
  have hB : 4 * M ≤ (2 : ℝ) ^ (3 * k + 10) := by
    have h1 : (2 : ℝ) ^ (k + 2) ≤ (2 : ℝ) ^ (3 * k + 10) := zpow_le_zpow (by omega)
    have h2 : (2 : ℝ) ^ (k + 2) = 4 * (2 : ℝ) ^ k := by rw [zpow_add₀ (by norm_num)]; norm_num; ring
    linarith
  refine ⟨p, p1, p2, DirB.neg (p2.mono hB), ?_⟩
  rw [V2.l1_neg]
  by_cases h : (2 : ℝ) ^ (-60 : ℤ) ≤ p.l1
  · exact Or.inr h
  · push Not at h
    refine Or.inl ⟨h, d, V2.ne_zero_of_l1 hl, fun w hw => ?_⟩
    have h1 := p3 w hw
    have hx : |p.x| ≤ (2 : ℝ) ^ (-60 : ℤ) := by have := abs_nonneg p.y; unfold V2.l1 at h; linarith
    have hy : |p.y| ≤ (2 : ℝ) ^ (-60 : ℤ) := by have := abs_nonneg p.x; unfold V2.l1 at h; linarith
    have h2 := (le_abs_self _).trans (dot_le_l1 (d := d) (p := p) ⟨hx, hy⟩)
    have h3 : (2 : ℝ) ^ (-60 : ℤ) ≤ M / 2 ^ 24 := by
      have h4 := div_le_div_of_nonneg_right hM0 (show (0 : ℝ) ≤ 2 ^ 24 by positivity)
      have h5 : (2 : ℝ) ^ (-60 : ℤ) ≤ (2 : ℝ) ^ (-20 : ℤ) / 2 ^ 24 := by norm_num
      exact h5.trans h4
    have h4 := mul_le_mul_of_nonneg_right h3 d.l1_nonneg
    have h5 : d.dot w ≤ 25 * (M / 2 ^ 24) * d.l1 := by
      have h5 := h2.trans h4
      linarith only [h1, h5]
    have h6 := mul_le_mul_of_nonneg_left d.l1_le_norm (show 0 ≤ 25 * (M / 2 ^ 24) by positivity)
    have h7 : 25 * (M / 2 ^ 24) * (3 / 2 * d.norm) ≤ M / 2 ^ 17 * d.norm := by
      rw [← mul_assoc]
      refine mul_le_mul_of_nonneg_right ?_ d.norm_nonneg
      have : M / 2 ^ 17 = 128 * (M / 2 ^ 24) := by ring
      rw [this]
      have : 0 < M / 2 ^ 24 := by positivity
      linarith
    linarith

/-! ## pairs of shapes -/

section
variable {A B T : Type} [ExtremePoint2d A F32] [ExtremePoint2d B F32] [DefaultMinkowski A B] [Transformation2d T F32]
  {a : A} {b : B} {X Y : Set (V2 ℝ)} {rel : T}

theorem collidesRel_run32 : collidesRel a b rel =
    (gjkCollide (extremePoint (LocalMinkowskiDiff2d.mk a b rel)) iterationLimit (initialDirection (applyOrigin rel)) []).map
      (·.1) := rfl
theorem penetratesRel_run32 : penetratesRel a b rel =
    (gjkPenetrate (extremePoint (LocalMinkowskiDiff2d.mk a b rel)) iterationLimit (initialDirection (applyOrigin rel)) []).map
      fun r => if r.1 then some r.2 else none := rfl
theorem distanceToRel_run32 : distanceToRel a b rel =
    (gjkDistance (extremePoint (LocalMinkowskiDiff2d.mk a b rel)) iterationLimit
      (-(extremePoint (LocalMinkowskiDiff2d.mk a b rel) (initialDirection (applyOrigin rel))))
      (extremePoint (LocalMinkowskiDiff2d.mk a b rel) (initialDirection (applyOrigin rel)))
      [extremePoint (LocalMinkowskiDiff2d.mk a b rel) (initialDirection (applyOrigin rel))]).map
      fun r => if r.1 then none else some r.2 := rfl
theorem sdfvRel_run32 : sdfvRel a b rel =
    gjkFull (extremePoint (LocalMinkowskiDiff2d.mk a b rel)) iterationLimit true
      (-(extremePoint (LocalMinkowskiDiff2d.mk a b rel) (initialDirection (applyOrigin rel))))
      (extremePoint (LocalMinkowskiDiff2d.mk a b rel) (initialDirection (applyOrigin rel)))
      [extremePoint (LocalMinkowskiDiff2d.mk a b rel) (initialDirection (applyOrigin rel))] := rfl

theorem run_some {r : Except Panic (Bool × V2 F32)} {v : V2 F32}
    (h : (r.map fun r => if r.1 then some r.2 else none) = .ok (some v)) : r = .ok (true, v) := by
  rcases r with _ | ⟨_ | _, w⟩
  · cases h
  · cases h
  · cases h; rfl
theorem run_none {r : Except Panic (Bool × V2 F32)}
    (h : (r.map fun r => if r.1 then some r.2 else none) = .ok none) : ∃ v, r = .ok (false, v) := by
  rcases r with _ | ⟨_ | _, w⟩
  · cases h
  · exact ⟨w, rfl⟩
  · cases h
theorem run_dist {r : Except Panic (Bool × V2 F32)} {v : V2 F32}
    (h : (r.map fun r => if r.1 then none else some r.2) = .ok (some v)) : r = .ok (false, v) := by
  rcases r with _ | ⟨_ | _, w⟩
  · cases h
  · cases h; rfl
  · cases h
theorem run_false {r : Except Panic (Bool × V2 F32)} (h : (r.map (·.1)) = .ok false) :
    ∃ v, r = .ok (false, v) := by
  rcases r with _ | ⟨_ | _, w⟩
  · cases h
  · exact ⟨w, rfl⟩
  · cases h

theorem run_apart (hS : Noisy k (minkDiff X Y) M (extremePoint (LocalMinkowskiDiff2d.mk a b rel)))
    (hr : (applyOrigin rel : V2 F32).Bounded32 M) (hk : 0 ≤ k)
    (hk2 : k ≤ 26) (hM : M ≤ (2 : ℝ) ^ k) (hM0 : (2 : ℝ) ^ (-20 : ℤ) ≤ M) :
    ApartUpTo (M / 2 ^ 17) X Y (CollideRunsOut a b rel) (PenetrateRunsOut a b rel)
      (DistanceRunsOut a b rel) (collidesRel a b rel) (penetratesRel a b rel) (distanceToRel a b rel)
      (sdfvRel a b rel) := by
  have hM1 : 0 < M := lt_of_lt_of_le (two_zpow_pos _) hM0
  obtain ⟨d, d1, d2, d3⟩ := start_dir hk hM hr
  have hle : M / 2 ^ 18 ≤ M / 2 ^ 17 := div_le_div_of_nonneg_left hM1.le (by norm_num) (by norm_num)
  have fin : ∀ {R : Prop}, OriginOut (minkDiff X Y) (M / 2 ^ 18) ∨ R →
      SeparableUpTo (M / 2 ^ 17) X Y ∨ R := fun h =>
    h.imp (fun h => sepUpTo_of_out (h.mono hle)) id
  obtain ⟨p, p1, p2, p3, p4⟩ := start_point hS hk hM hM0 d1 d2 d3
  have pts1 : ∀ q ∈ [extremePoint (LocalMinkowskiDiff2d.mk a b rel) (initialDirection (applyOrigin rel))], PtB k q := by
    intro q hq
    rw [List.mem_singleton] at hq
    subst hq
    exact PtB.of_is p1 p2 hM
  refine ⟨fun h => ?_, fun h => ?_, fun v h => ?_, fun v h => ?_⟩
  · rw [collidesRel_run32] at h
    obtain ⟨v, h⟩ := run_false h
    exact fin (collide_false hS hk hk2 hM hM0 v _ _ d [] d1 d2 d3 (by simp) (by simp) h)
  · rw [penetratesRel_run32] at h
    obtain ⟨v, h⟩ := run_none h
    exact fin (penetrate_false hS hk hk2 hM hM0 v _ _ d [] d1 d2 d3 (by simp) (by simp) h)
  · rw [distanceToRel_run32] at h
    rcases p4 with ⟨_, p4⟩ | p4
    · exact Or.inl (sepUpTo_of_out p4)
    · exact fin (distance_false hS hk hk2 hM hM0 v _ _ (-p) _ _ p1.neg p3 p4 pts1 (by simp) (run_dist h))
  · rw [sdfvRel_run32] at h
    rcases p4 with ⟨_, p4⟩ | p4
    · exact Or.inl (sepUpTo_of_out p4)
    · exact fin (full_false hS hk hk2 hM hM0 v _ _ _ (-p) _ _ p1.neg p3 p4 pts1 (by simp) h)

theorem run_push (hS : Noisy k (minkDiff X Y) M (extremePoint (LocalMinkowskiDiff2d.mk a b rel)))
    (hG : NoisyGrid True False k (minkDiff X Y) M (extremePoint (LocalMinkowskiDiff2d.mk a b rel)))
    (hr : (applyOrigin rel : V2 F32).Bounded32 M) (hk : 0 ≤ k)
    (hk2 : k ≤ 26) (hM : M ≤ (2 : ℝ) ^ k) (hM0 : (2 : ℝ) ^ (-20 : ℤ) ≤ M) :
    PushUpTo (M / 2 ^ 17) X Y (penetratesRel a b rel) (sdfvRel a b rel) := by
  obtain ⟨d, d1, d2, d3⟩ := start_dir hk hM hr
  obtain ⟨p, p1, p2, p3, p4⟩ := start_point hS hk hM hM0 d1 d2 d3
  obtain ⟨q, q1, q2⟩ := hG _ _ d1 d2 False.elim
  constructor
  · intro v x h hx hx0
    rw [penetratesRel_run32] at h
    obtain ⟨pts, h1, h2⟩ := penetrate_true hG hk hk2 hM v _ _ d [] d1 d2 False.elim (fun _ h => by simp at h)
      (by simp) (run_some h)
    exact sepUpTo_of_push (epa_sound hS hG hk hk2 hM hM0 hx hx0 _ _ h1 h2)
  · intro v x h hx hx0
    rw [sdfvRel_run32] at h
    obtain ⟨pts, h1, h2⟩ := full_true hG hk hk2 hM v _ _ _ (-p) _ _ p1.neg p3 False.elim
      (fun z hz => by rw [List.mem_singleton] at hz; subst hz; exact ⟨q, q1, q2⟩) (by simp) h
    exact sepUpTo_of_push (epa_sound hS hG hk hk2 hM hM0 hx hx0 _ _ h1 h2)

theorem run_bridge (hW : Convex ℝ (minkDiff X Y)) (hS : Noisy k (minkDiff X Y) M (extremePoint (LocalMinkowskiDiff2d.mk a b rel)))
    (hG : NoisyGrid False False k (minkDiff X Y) M (extremePoint (LocalMinkowskiDiff2d.mk a b rel)))
    (hr : (applyOrigin rel : V2 F32).Bounded32 M) (hk : 0 ≤ k)
    (hk2 : k ≤ 26) (hM : M ≤ (2 : ℝ) ^ k) (hM0 : (2 : ℝ) ^ (-20 : ℤ) ≤ M) :
    BridgeUpTo (M / 2 ^ 17) X Y (distanceToRel a b rel) (sdfvRel a b rel) := by
  have hM' := hM.trans (zpow_le_zpow hk2)
  obtain ⟨d, d1, d2, d3⟩ := start_dir hk hM hr
  obtain ⟨p, p1, p2, p3, p4⟩ := start_point hS hk hM hM0 d1 d2 d3
  obtain ⟨q, q1, q2⟩ := hG _ _ d1 d2 False.elim
  constructor
  · intro v x h hx
    rw [distanceToRel_run32] at h
    obtain ⟨pts, h1, h2⟩ := distance_pts hG hk hk2 hM v _ _ (-p) _ _ p1.neg p3 False.elim
      (fun z hz => by rw [List.mem_singleton] at hz; subst hz; exact ⟨q, q1, q2⟩) (by simp) (run_dist h)
    exact meet_of_reaches (distance_reaches hW hM' hM0 h1 h2 hx)
  · intro v x h hx
    rw [sdfvRel_run32] at h
    obtain ⟨pts, h1, h2⟩ := full_pts hG hk hk2 hM v _ _ _ (-p) _ _ p1.neg p3 False.elim
      (fun z hz => by rw [List.mem_singleton] at hz; subst hz; exact ⟨q, q1, q2⟩) (by simp) h
    exact meet_of_reaches (distance_reaches hW hM' hM0 h1 h2 hx)

theorem run_bridge_met (hW : Convex ℝ (minkDiff X Y)) (hS : Noisy k (minkDiff X Y) M (extremePoint (LocalMinkowskiDiff2d.mk a b rel)))
    (hG : NoisyGrid False True k (minkDiff X Y) M (extremePoint (LocalMinkowskiDiff2d.mk a b rel)))
    (hr : (applyOrigin rel : V2 F32).Bounded32 M) (hk : 0 ≤ k)
    (hk2 : k ≤ 26) (hM : M ≤ (2 : ℝ) ^ k) (hM0 : (2 : ℝ) ^ (-20 : ℤ) ≤ M) :
    BridgeUnlessMet (M / 2 ^ 17) X Y (distanceToRel a b rel) (sdfvRel a b rel) := by
  have hM' := hM.trans (zpow_le_zpow hk2)
  have hM1 : 0 < M := lt_of_lt_of_le (two_zpow_pos _) hM0
  obtain ⟨d, d1, d2, d3⟩ := start_dir hk hM hr
  obtain ⟨p, p1, p2, p3, p4⟩ := start_point hS hk hM hM0 d1 d2 d3
  obtain ⟨q, q1, q2⟩ := hG _ _ d1 d2 (fun _ => d3)
  rcases p4 with ⟨p4, -⟩ | p4
  · have hmet : MeetUpTo (M / 2 ^ 17) X Y := by
      have e : p = q := V2.ext (p1.1.unique q1.1) (p1.2.unique q1.2)
      obtain ⟨w, hw, w1, w2⟩ := q2.near
      rw [← e] at w1 w2
      have h3 : (2 : ℝ) ^ (-60 : ℤ) ≤ M / 2 ^ 24 := by
        have h4 := div_le_div_of_nonneg_right hM0 (show (0 : ℝ) ≤ 2 ^ 24 by positivity)
        have h5 : (2 : ℝ) ^ (-60 : ℤ) ≤ (2 : ℝ) ^ (-20 : ℤ) / 2 ^ 24 := by norm_num
        exact h5.trans h4
      have ax := abs_nonneg p.x
      have ay := abs_nonneg p.y
      have px : |p.x| ≤ M / 2 ^ 24 := by
        refine le_trans ?_ (p4.le.trans h3)
        unfold V2.l1; linarith only [ay]
      have py : |p.y| ≤ M / 2 ^ 24 := by
        refine le_trans ?_ (p4.le.trans h3)
        unfold V2.l1; linarith only [ax]
      have hμ : 0 < M / 2 ^ 24 := by positivity
      refine meet_of_reaches_zero (reaches_of_within hM1 hw ?_ ?_)
      · have h1 := abs_sub p.x (p.x - w.x)
        rw [sub_sub_cancel] at h1
        show |w.x + 0| ≤ _
        rw [add_zero]
        linarith only [h1, w1, w2, px, py, hμ]
      · have h1 := abs_sub p.y (p.y - w.y)
        rw [sub_sub_cancel] at h1
        show |w.y + 0| ≤ _
        rw [add_zero]
        linarith only [h1, w1, w2, px, py, hμ]
    exact ⟨fun _ _ _ _ => Or.inl hmet, fun _ _ _ _ => Or.inl hmet⟩
  constructor
  · intro v x h hx
    rw [distanceToRel_run32] at h
    obtain ⟨pts, h1, h2⟩ := distance_pts hG hk hk2 hM v _ _ (-p) _ _ p1.neg p3 (fun _ => p4)
      (fun z hz => by rw [List.mem_singleton] at hz; subst hz; exact ⟨q, q1, q2⟩) (by simp) (run_dist h)
    exact Or.inr (meet_of_reaches (distance_reaches hW hM' hM0 h1 h2 hx))
  · intro v x h hx
    rw [sdfvRel_run32] at h
    obtain ⟨pts, h1, h2⟩ := full_pts hG hk hk2 hM v _ _ _ (-p) _ _ p1.neg p3 (fun _ => p4)
      (fun z hz => by rw [List.mem_singleton] at hz; subst hz; exact ⟨q, q1, q2⟩) (by simp) h
    exact Or.inr (meet_of_reaches (distance_reaches hW hM' hM0 h1 h2 hx))

end

section
variable {A B : Type} [ExtremePoint2d A F32] [ExtremePoint2d B F32] [DefaultMinkowski A B] {a : A} {b : B}
  {X Y : Set (V2 ℝ)} {rel : V2 F32}

theorem pair_apart (hA : NoisyShape k a X M) (hB : NoisyShape k b Y M) (hr : rel.Bounded32 M) (hk : 0 ≤ k)
    (hk2 : k ≤ 26) (hM : M ≤ (2 : ℝ) ^ k) (hM0 : (2 : ℝ) ^ (-20 : ℤ) ≤ M) :
    ApartUpTo (M / 2 ^ 17) X (shift rel.toReal Y) (CollideRunsOut a b rel) (PenetrateRunsOut a b rel)
      (DistanceRunsOut a b rel) (collidesRel a b rel) (penetratesRel a b rel) (distanceToRel a b rel)
      (sdfvRel a b rel) :=
  run_apart (noisy_pair hA hB hr (hM.trans (zpow_le_zpow hk2))) hr hk hk2 hM hM0

theorem pair_push (hA : NoisyShape k a X M) (hB : NoisyShape k b Y M) (gA : GridShape True False k a X M)
    (gB : GridShape True False k b Y M) (hr : rel.Bounded32 M) (hg : rel.toReal.Gr) (hk : 0 ≤ k)
    (hk2 : k ≤ 26) (hM : M ≤ (2 : ℝ) ^ k) (hM0 : (2 : ℝ) ^ (-20 : ℤ) ≤ M) :
    PushUpTo (M / 2 ^ 17) X (shift rel.toReal Y) (penetratesRel a b rel) (sdfvRel a b rel) :=
  run_push (noisy_pair hA hB hr (hM.trans (zpow_le_zpow hk2)))
    (noisyGrid_pair gA gB hr (fun _ => hg) (hM.trans (zpow_le_zpow hk2))) hr hk hk2 hM hM0

theorem pair_bridge (cX : Convex ℝ X) (cY : Convex ℝ Y) (hA : NoisyShape k a X M) (hB : NoisyShape k b Y M)
    (gA : GridShape False False k a X M) (gB : GridShape False False k b Y M) (hr : rel.Bounded32 M) (hk : 0 ≤ k)
    (hk2 : k ≤ 26) (hM : M ≤ (2 : ℝ) ^ k) (hM0 : (2 : ℝ) ^ (-20 : ℤ) ≤ M) :
    BridgeUpTo (M / 2 ^ 17) X (shift rel.toReal Y) (distanceToRel a b rel) (sdfvRel a b rel) :=
  run_bridge (convex_diff_shift cX cY rel.toReal) (noisy_pair hA hB hr (hM.trans (zpow_le_zpow hk2)))
    (noisyGrid_pair gA gB hr False.elim (hM.trans (zpow_le_zpow hk2))) hr hk hk2 hM hM0

theorem pair_bridge_met (cX : Convex ℝ X) (cY : Convex ℝ Y) (hA : NoisyShape k a X M) (hB : NoisyShape k b Y M)
    (gA : GridShape False True k a X M) (gB : GridShape False True k b Y M) (hr : rel.Bounded32 M) (hk : 0 ≤ k)
    (hk2 : k ≤ 26) (hM : M ≤ (2 : ℝ) ^ k) (hM0 : (2 : ℝ) ^ (-20 : ℤ) ≤ M) :
    BridgeUnlessMet (M / 2 ^ 17) X (shift rel.toReal Y) (distanceToRel a b rel) (sdfvRel a b rel) :=
  run_bridge_met (convex_diff_shift cX cY rel.toReal) (noisy_pair hA hB hr (hM.trans (zpow_le_zpow hk2)))
    (noisyGrid_pair gA gB hr False.elim (hM.trans (zpow_le_zpow hk2))) hr hk hk2 hM hM0

end

/-! ## the shapes -/

/-- every coordinate is an integer multiple of `2^-60` (for finite binary32 numbers: none is tiny) -/
def Box2d.Fine32 (b : Box2d F32) : Prop := b.halfsize.toReal.Gr
def Poly2d.Fine32 (p : Poly2d F32) : Prop := ∀ v ∈ p.points, v.toReal.Gr
def Shape2d.Fine32 : Shape2d F32 → Prop
  | .ball _ => False
  | .box b => b.Fine32
  | .poly p => p.Fine32
/-- finite coordinates of magnitude at most `M` -/
def Shape2d.Bounded32 (M : ℝ) : Shape2d F32 → Prop
  | .ball b => b.Bounded32 M
  | .box b => b.Bounded32 M
  | .poly p => p.Bounded32 M
def Shape2d.NoBall : Shape2d F32 → Prop
  | .ball _ => False
  | _ => True

/-- all three statements: `fine` is the side condition of the pushes -/
structure ValidUpTo (δ : ℝ) (X Y : Set (V2 ℝ)) (U V V' fine : Prop) (collides : Except Panic Bool)
    (penetrates distanceTo : Except Panic (Option (V2 F32))) (sdfv : Except Panic (Bool × V2 F32)) : Prop where
  apart : ApartUpTo δ X Y U V V' collides penetrates distanceTo sdfv
  bridge : BridgeUpTo δ X Y distanceTo sdfv
  push : fine → PushUpTo δ X Y penetrates sdfv

/-- a shape the search handles well -/
structure Handled {A : Type} [ExtremePoint2d A F32] (k : ℤ) (M : ℝ) (a : A) (X : Set (V2 ℝ)) (fine : Prop) : Prop where
  convex : Convex ℝ X
  noisy : NoisyShape k a X M
  near : GridShape False False k a X M
  grid : fine → GridShape True False k a X M

theorem handled_box {M : ℝ} {b : Box2d F32} (hb : b.Bounded32 M) (k : ℤ) :
    Handled k M b (Region.pts b.toReal) b.Fine32 :=
  ⟨convex_box32 _, noisy_box hb k, grid_box hb False.elim k, fun h => grid_box hb (fun _ => h) k⟩

theorem handled_poly {M : ℝ} {p : Poly2d F32} (hp : p.Bounded32 M) {k : ℤ} (hk : k ≤ 26) (hM : M ≤ (2 : ℝ) ^ k)
    (hM0 : (2 : ℝ) ^ (-20 : ℤ) ≤ M) : Handled k M p (Region.pts p.toReal) p.Fine32 :=
  ⟨convex_convexHull ℝ _, noisy_poly hp hk hM hM0, grid_poly hp hk hM False.elim,
    fun h => grid_poly hp hk hM (fun _ => h)⟩

theorem handled_shape {M : ℝ} {s : Shape2d F32} (hs : s.Bounded32 M) (hn : s.NoBall) {k : ℤ} (hk : k ≤ 26)
    (hM : M ≤ (2 : ℝ) ^ k) (hM0 : (2 : ℝ) ^ (-20 : ℤ) ≤ M) :
    Handled k M s (Region.pts s.toReal) s.Fine32 := by
  cases s with
  | ball b => exact hn.elim
  | box b =>
    obtain ⟨h1, h2, h3, h4⟩ := handled_box (b := b) hs k
    exact ⟨h1, h2, h3, h4⟩
  | poly p =>
    obtain ⟨h1, h2, h3, h4⟩ := handled_poly (p := p) hs hk hM hM0
    exact ⟨h1, h2, h3, h4⟩

theorem valid_pair {A B : Type} [ExtremePoint2d A F32] [ExtremePoint2d B F32] [DefaultMinkowski A B] {a : A} {b : B}
    {X Y : Set (V2 ℝ)} {fA fB : Prop} {rel : V2 F32} {M : ℝ} (hA : Handled 26 M a X fA) (hB : Handled 26 M b Y fB)
    (hr : rel.Bounded32 M) (hM0 : (2 : ℝ) ^ (-20 : ℤ) ≤ M) (hM : M ≤ (2 : ℝ) ^ (26 : ℤ)) :
    ValidUpTo (M / 2 ^ 17) X (shift rel.toReal Y) (CollideRunsOut a b rel) (PenetrateRunsOut a b rel)
      (DistanceRunsOut a b rel) (fA ∧ fB ∧ rel.toReal.Gr) (collidesRel a b rel) (penetratesRel a b rel)
      (distanceToRel a b rel) (sdfvRel a b rel) :=
  ⟨pair_apart hA.noisy hB.noisy hr (by norm_num) (by norm_num) hM hM0,
    pair_bridge hA.convex hB.convex hA.noisy hB.noisy hA.near hB.near hr (by norm_num) (by norm_num) hM hM0,
    fun h => pair_push hA.noisy hB.noisy (hA.grid h.1) (hB.grid h.2.1) hr h.2.2 (by norm_num) (by norm_num) hM hM0⟩

/-! ## the property, relative form -/

section
variable {M : ℝ}

/-- Two polygons, any number of vertices. -/
theorem C86_f32_poly_poly (a b : Poly2d F32) (rel : V2 F32) (ha : a.Bounded32 M) (hb : b.Bounded32 M)
    (hr : rel.Bounded32 M) (hM0 : (2 : ℝ) ^ (-20 : ℤ) ≤ M) (hM : M ≤ (2 : ℝ) ^ (26 : ℤ)) :
    ValidUpTo (M / 2 ^ 17) (Region.pts a.toReal) (shift rel.toReal (Region.pts b.toReal))
      (CollideRunsOut a b rel) (PenetrateRunsOut a b rel) (DistanceRunsOut a b rel)
      (a.Fine32 ∧ b.Fine32 ∧ rel.toReal.Gr) (collidesRel a b rel) (penetratesRel a b rel)
      (distanceToRel a b rel) (sdfvRel a b rel) :=
  valid_pair (handled_poly ha (by norm_num) hM hM0) (handled_poly hb (by norm_num) hM hM0) hr hM0 hM

/-- A box and a polygon. -/
theorem C86_f32_box_poly (a : Box2d F32) (b : Poly2d F32) (rel : V2 F32) (ha : a.Bounded32 M) (hb : b.Bounded32 M)
    (hr : rel.Bounded32 M) (hM0 : (2 : ℝ) ^ (-20 : ℤ) ≤ M) (hM : M ≤ (2 : ℝ) ^ (26 : ℤ)) :
    ValidUpTo (M / 2 ^ 17) (Region.pts a.toReal) (shift rel.toReal (Region.pts b.toReal))
      (CollideRunsOut a b rel) (PenetrateRunsOut a b rel) (DistanceRunsOut a b rel)
      (a.Fine32 ∧ b.Fine32 ∧ rel.toReal.Gr) (collidesRel a b rel) (penetratesRel a b rel)
      (distanceToRel a b rel) (sdfvRel a b rel) :=
  valid_pair (handled_box ha _) (handled_poly hb (by norm_num) hM hM0) hr hM0 hM

/-- A polygon and a box. -/
theorem C86_f32_poly_box (a : Poly2d F32) (b : Box2d F32) (rel : V2 F32) (ha : a.Bounded32 M) (hb : b.Bounded32 M)
    (hr : rel.Bounded32 M) (hM0 : (2 : ℝ) ^ (-20 : ℤ) ≤ M) (hM : M ≤ (2 : ℝ) ^ (26 : ℤ)) :
    ValidUpTo (M / 2 ^ 17) (Region.pts a.toReal) (shift rel.toReal (Region.pts b.toReal))
      (CollideRunsOut a b rel) (PenetrateRunsOut a b rel) (DistanceRunsOut a b rel)
      (a.Fine32 ∧ b.Fine32 ∧ rel.toReal.Gr) (collidesRel a b rel) (penetratesRel a b rel)
      (distanceToRel a b rel) (sdfvRel a b rel) :=
  valid_pair (handled_poly ha (by norm_num) hM hM0) (handled_box hb _) hr hM0 hM

/-- Two boxes (also when a half size is zero or tiny, which C83/C84 exclude). -/
theorem C86_f32_box_box (a b : Box2d F32) (rel : V2 F32) (ha : a.Bounded32 M) (hb : b.Bounded32 M)
    (hr : rel.Bounded32 M) (hM0 : (2 : ℝ) ^ (-20 : ℤ) ≤ M) (hM : M ≤ (2 : ℝ) ^ (26 : ℤ)) :
    ValidUpTo (M / 2 ^ 17) (Region.pts a.toReal) (shift rel.toReal (Region.pts b.toReal))
      (CollideRunsOut a b rel) (PenetrateRunsOut a b rel) (DistanceRunsOut a b rel)
      (a.Fine32 ∧ b.Fine32 ∧ rel.toReal.Gr) (collidesRel a b rel) (penetratesRel a b rel)
      (distanceToRel a b rel) (sdfvRel a b rel) :=
  valid_pair (handled_box ha _) (handled_box hb _) hr hM0 hM

/-- Two `Shape2d` that are boxes or polygons. -/
theorem C86_f32_shape_shape (a b : Shape2d F32) (rel : V2 F32) (ha : a.Bounded32 M) (hb : b.Bounded32 M)
    (na : a.NoBall) (nb : b.NoBall)
    (hr : rel.Bounded32 M) (hM0 : (2 : ℝ) ^ (-20 : ℤ) ≤ M) (hM : M ≤ (2 : ℝ) ^ (26 : ℤ)) :
    ValidUpTo (M / 2 ^ 17) (Region.pts a.toReal) (shift rel.toReal (Region.pts b.toReal))
      (CollideRunsOut a b rel) (PenetrateRunsOut a b rel) (DistanceRunsOut a b rel)
      (a.Fine32 ∧ b.Fine32 ∧ rel.toReal.Gr) (collidesRel a b rel) (penetratesRel a b rel)
      (distanceToRel a b rel) (sdfvRel a b rel) :=
  valid_pair (handled_shape ha na (by norm_num) hM hM0) (handled_shape hb nb (by norm_num) hM hM0) hr hM0 hM

/-- A ball and a box: negative answers and distances, coordinates at most `2^17`. -/
theorem C86_f32_ball_box (a : Ball F32) (b : Box2d F32) (rel : V2 F32) (ha : a.Bounded32 M) (hb : b.Bounded32 M)
    (hr : rel.Bounded32 M) (hM0 : (2 : ℝ) ^ (-20 : ℤ) ≤ M) (hM : M ≤ (2 : ℝ) ^ (17 : ℤ)) :
    ApartUpTo (M / 2 ^ 17) (Region.pts (Ball.mk a.radius.toReal)) (shift rel.toReal (Region.pts b.toReal))
      (CollideRunsOut a b rel) (PenetrateRunsOut a b rel) (DistanceRunsOut a b rel)
      (collidesRel a b rel) (penetratesRel a b rel) (distanceToRel a b rel) (sdfvRel a b rel) ∧
    BridgeUnlessMet (M / 2 ^ 17) (Region.pts (Ball.mk a.radius.toReal)) (shift rel.toReal (Region.pts b.toReal))
      (distanceToRel a b rel) (sdfvRel a b rel) :=
  ⟨pair_apart (noisy_ball ha hM hM0) (noisy_box hb _) hr (by norm_num) (by norm_num) hM hM0,
    pair_bridge_met (@convex_ball ℝ _ _ _ (realFloat true 0) (realFloat_exact true 0) _) (convex_box32 _) (noisy_ball ha hM hM0)
      (noisy_box hb _) (grid_ball ha hM hM0) (grid_box hb False.elim _) hr (by norm_num) (by norm_num) hM hM0⟩

theorem ball_shape {s : Shape2d F32} (hs : s.Bounded32 M) (hM0 : (2 : ℝ) ^ (-20 : ℤ) ≤ M)
    (hM : M ≤ (2 : ℝ) ^ (17 : ℤ)) : Convex ℝ (Region.pts s.toReal) ∧ NoisyShape 17 s (Region.pts s.toReal) M ∧
      GridShape False True 17 s (Region.pts s.toReal) M := by
  cases s with
  | ball b => exact ⟨@convex_ball ℝ _ _ _ (realFloat true 0) (realFloat_exact true 0) _, noisy_ball (b := b) hs hM hM0,
      grid_ball (b := b) hs hM hM0⟩
  | box b => exact ⟨convex_box32 _, noisy_box (b := b) hs _, grid_box (b := b) hs False.elim _⟩
  | poly p => exact ⟨convex_convexHull ℝ _, noisy_poly (P := p) hs (by norm_num) hM hM0,
      grid_poly (P := p) hs (by norm_num) hM False.elim⟩

/-- Two `Shape2d` of any kind (with balls): negative answers and distances, coordinates at most `2^17`. -/
theorem C86_f32_any_shape (a b : Shape2d F32) (rel : V2 F32) (ha : a.Bounded32 M) (hb : b.Bounded32 M)
    (hr : rel.Bounded32 M) (hM0 : (2 : ℝ) ^ (-20 : ℤ) ≤ M) (hM : M ≤ (2 : ℝ) ^ (17 : ℤ)) :
    ApartUpTo (M / 2 ^ 17) (Region.pts a.toReal) (shift rel.toReal (Region.pts b.toReal))
      (CollideRunsOut a b rel) (PenetrateRunsOut a b rel) (DistanceRunsOut a b rel)
      (collidesRel a b rel) (penetratesRel a b rel) (distanceToRel a b rel) (sdfvRel a b rel) ∧
    BridgeUnlessMet (M / 2 ^ 17) (Region.pts a.toReal) (shift rel.toReal (Region.pts b.toReal))
      (distanceToRel a b rel) (sdfvRel a b rel) := by
  obtain ⟨c1, n1, g1⟩ := ball_shape ha hM0 hM
  obtain ⟨c2, n2, g2⟩ := ball_shape hb hM0 hM
  exact ⟨pair_apart n1 n2 hr (by norm_num) (by norm_num) hM hM0,
    pair_bridge_met c1 c2 n1 n2 g1 g2 hr (by norm_num) (by norm_num) hM hM0⟩

end

/-! ## colliders -/

theorem SeparableUpTo.placed {δ ε : ℝ} {A B : Set (V2 ℝ)} {t p q : V2 ℝ} (h : SeparableUpTo δ A (shift t B))
    (ht : V2.Within ε t (q - p)) : SeparableUpTo (δ + 2 * ε) (shift p A) (shift q B) := by
  obtain ⟨n, n0, hn⟩ := h
  refine ⟨n, n0, ?_⟩
  rintro _ ⟨a, ha, rfl⟩ _ ⟨b, hb, rfl⟩
  have h1 := hn a ha _ ⟨b, hb, rfl⟩
  obtain ⟨t1, t2⟩ := ht
  have hε : 0 ≤ ε := (abs_nonneg _).trans t1
  have nx := n.abs_x_le_norm
  have ny := n.abs_y_le_norm
  have m1 : n.x * (t.x - (q - p).x) ≤ n.norm * ε :=
    (le_abs_self _).trans (by rw [abs_mul]; exact mul_le_mul nx t1 (abs_nonneg _) n.norm_nonneg)
  have m2 : n.y * (t.y - (q - p).y) ≤ n.norm * ε :=
    (le_abs_self _).trans (by rw [abs_mul]; exact mul_le_mul ny t2 (abs_nonneg _) n.norm_nonneg)
  simp only [dot_def, V2.add_x, V2.add_y, V2.sub_x, V2.sub_y] at h1 m1 m2 ⊢
  linarith

theorem MeetUpTo.placed {δ ε : ℝ} {A B : Set (V2 ℝ)} {t p q : V2 ℝ} (h : MeetUpTo δ A (shift t B))
    (ht : V2.Within ε t (q - p)) : MeetUpTo (δ + 2 * ε) (shift p A) (shift q B) := by
  obtain ⟨a, ha, _, ⟨b, hb, rfl⟩, h⟩ := h
  refine ⟨_, ⟨a, ha, rfl⟩, _, ⟨b, hb, rfl⟩, ?_⟩
  have e : a + p - (b + q) = (a - (b + t)) + (t - (q - p)) := by ext <;> simp <;> ring
  rw [e]
  have h1 := V2.norm_add_le (a - (b + t)) (t - (q - p))
  have h2 := V2.norm_le_add (t - (q - p))
  have t1 : |(t - (q - p)).x| ≤ ε := ht.1
  have t2 : |(t - (q - p)).y| ≤ ε := ht.2
  linarith

theorem SeparableUpTo.mono {δ δ' : ℝ} {A B : Set (V2 ℝ)} (h : SeparableUpTo δ A B) (hd : δ ≤ δ') :
    SeparableUpTo δ' A B := by
  obtain ⟨n, n0, hn⟩ := h
  exact ⟨n, n0, fun a ha b hb => (hn a ha b hb).trans
    (by linarith [mul_le_mul_of_nonneg_right hd n.norm_nonneg])⟩
theorem MeetUpTo.mono {δ δ' : ℝ} {A B : Set (V2 ℝ)} (h : MeetUpTo δ A B) (hd : δ ≤ δ') : MeetUpTo δ' A B := by
  obtain ⟨a, ha, b, hb, h⟩ := h
  exact ⟨a, ha, b, hb, h.trans hd⟩

/-- the offset of two positions -/
theorem offset_bounded {M : ℝ} {p' q' : V2 F32} (hp : p'.Bounded32 (M / 3)) (hq : q'.Bounded32 (M / 3))
    (hM : M ≤ (2 : ℝ) ^ (26 : ℤ)) : (q' + -p').Bounded32 M ∧
      V2.Within (M / 2 ^ 24) (q' + -p').toReal (q'.toReal - p'.toReal) ∧
      (p'.toReal.Gr → q'.toReal.Gr → (q' + -p').toReal.Gr) := by
  have hM0 : 0 ≤ M := by have := hp.nonneg; linarith
  have hb : (2 : ℝ) ^ (26 : ℤ) ≤ 3 * (2 : ℝ) ^ (126 : ℤ) := by norm_num
  have key : ∀ {u v : F32} {x y : ℝ}, F32.Is u x → F32.Is v y → |x| ≤ M / 3 → |y| ≤ M / 3 →
      ∃ z, F32.Is (v + -u) z ∧ |z| ≤ M ∧ |z - (y - x)| ≤ M / 2 ^ 24 ∧ (Gr x → Gr y → Gr z) := by
    intro u v x y hu hv hx hy
    have h1 : |y - x| ≤ 2 * M / 3 := (abs_sub _ _).trans (by linarith)
    obtain ⟨z, z1, z2⟩ := F32.round_add hv (is_neg hu) (by rw [← sub_eq_add_neg]; linarith)
    rw [← sub_eq_add_neg] at z2
    have h2 : |y - x| / 2 ^ 24 ≤ 2 * M / 3 / 2 ^ 24 := div_le_div_of_nonneg_right h1 (by positivity)
    refine ⟨z, z1, ?_, ?_, fun gx gy => ?_⟩
    · have := abs_add_le (y - x) (z - (y - x))
      rw [add_sub_cancel] at this
      linarith
    · have h3 : 2 * M / 3 / 2 ^ 24 ≤ M / 2 ^ 24 := div_le_div_of_nonneg_right (by linarith) (by positivity)
      linarith
    · obtain ⟨w, w1, _, w3⟩ := F32.gr_add hv (is_neg hu) gy gx.neg (by rw [← sub_eq_add_neg]; linarith)
      rwa [z1.unique w1]
  obtain ⟨zx, x1, x2, x3, x4⟩ := key hp.1.1 hq.1.1 hp.2.1 hq.2.1
  obtain ⟨zy, y1, y2, y3, y4⟩ := key hp.1.2 hq.1.2 hp.2.2 hq.2.2
  have hz : (q' + -p').Is ⟨zx, zy⟩ := ⟨x1, y1⟩
  have e : (q' + -p').toReal = ⟨zx, zy⟩ := hz.toReal
  unfold V2.Bounded32
  rw [e]
  exact ⟨⟨hz, x2, y2⟩, ⟨x3, y3⟩, fun g1 g2 => ⟨x4 g1.1 g2.1, y4 g1.2 g2.2⟩⟩

theorem sdfv_id {r : Except Panic (Bool × V2 F32)} {o : Bool × V2 F32}
    (h : (r.map fun r => (r.1, r.2)) = .ok o) : r = .ok o := by
  rcases r with _ | ⟨c, v⟩
  · cases h
  · exact h

/-- from the relative form to colliders -/
theorem ValidUpTo.placed {M : ℝ} {A B : Set (V2 ℝ)} {t p q : V2 ℝ} {U V V' f f' : Prop} {col : Except Panic Bool}
    {pen dist : Except Panic (Option (V2 F32))} {sd : Except Panic (Bool × V2 F32)} (hM0 : 0 ≤ M)
    (h : ValidUpTo (M / 2 ^ 17) A (shift t B) U V V' f col pen dist sd) (ht : V2.Within (M / 2 ^ 24) t (q - p))
    (hf : f' → f) : ValidUpTo (M / 2 ^ 16) (shift p A) (shift q B) U V V' f' col pen dist
      (sd.map fun r => (r.1, r.2)) := by
  have hle : M / 2 ^ 17 + 2 * (M / 2 ^ 24) ≤ M / 2 ^ 16 := by
    have e1 : M / 2 ^ 17 = 128 * (M / 2 ^ 24) := by ring
    have e2 : M / 2 ^ 16 = 256 * (M / 2 ^ 24) := by ring
    have : 0 ≤ M / 2 ^ 24 := by positivity
    rw [e1, e2]; linarith
  have s1 : SeparableUpTo (M / 2 ^ 17) A (shift t B) → SeparableUpTo (M / 2 ^ 16) (shift p A) (shift q B) :=
    fun h => (h.placed ht).mono hle
  have s2 : ∀ x, SeparableUpTo (M / 2 ^ 17) (shift x A) (shift t B) →
      SeparableUpTo (M / 2 ^ 16) (shift x (shift p A)) (shift q B) := fun x h => by
    rw [(shift_both x p q A B).1]; exact (h.placed ht).mono hle
  have s3 : ∀ x, MeetUpTo (M / 2 ^ 17) (shift x A) (shift t B) →
      MeetUpTo (M / 2 ^ 16) (shift x (shift p A)) (shift q B) := fun x h => by
    rw [(shift_both x p q A B).1]; exact (h.placed ht).mono hle
  obtain ⟨⟨a1, a2, a3, a4⟩, ⟨b1, b2⟩, hp⟩ := h
  refine ⟨⟨fun h => (a1 h).imp s1 id, fun h => (a2 h).imp s1 id, fun v h => (a3 v h).imp s1 id,
    fun v h => (a4 v (sdfv_id h)).imp s1 id⟩, ⟨fun v x h hx => s3 x (b1 v x h hx),
    fun v x h hx => s3 x (b2 v x (sdfv_id h) hx)⟩, fun h => ?_⟩
  obtain ⟨p1, p2⟩ := hp (hf h)
  exact ⟨fun v x h hx h0 => s2 x (p1 v x h hx h0), fun v x h hx h0 => s2 x (p2 v x (sdfv_id h) hx h0)⟩

section
variable {M : ℝ}

/-- Polygons as colliders at positions `p`, `q` given as vectors or `Translate2d` (magnitude at most
`M / 3`): the rounding of the offset is included. -/
theorem C86_f32_poly_colliders (a b : Poly2d F32) (p q : V2 F32) (ha : a.Bounded32 M) (hb : b.Bounded32 M)
    (hp : p.Bounded32 (M / 3)) (hq : q.Bounded32 (M / 3)) (hM0 : (2 : ℝ) ^ (-20 : ℤ) ≤ M)
    (hM : M ≤ (2 : ℝ) ^ (26 : ℤ)) :
    ValidUpTo (M / 2 ^ 16) (shift p.toReal (Region.pts a.toReal)) (shift q.toReal (Region.pts b.toReal))
      (CollideRunsOut a b (q + -p)) (PenetrateRunsOut a b (q + -p)) (DistanceRunsOut a b (q + -p))
      (a.Fine32 ∧ b.Fine32 ∧ p.toReal.Gr ∧ q.toReal.Gr) (collides ⟨a, p⟩ ⟨b, q⟩) (penetrates ⟨a, p⟩ ⟨b, q⟩)
      (distanceTo ⟨a, p⟩ ⟨b, q⟩) (sdfv ⟨a, p⟩ ⟨b, q⟩) ∧
    ValidUpTo (M / 2 ^ 16) (shift p.toReal (Region.pts a.toReal)) (shift q.toReal (Region.pts b.toReal))
      (CollideRunsOut a b (q + -p)) (PenetrateRunsOut a b (q + -p)) (DistanceRunsOut a b (q + -p))
      (a.Fine32 ∧ b.Fine32 ∧ p.toReal.Gr ∧ q.toReal.Gr) (collides ⟨a, Translate2d.mk p⟩ ⟨b, Translate2d.mk q⟩)
      (penetrates ⟨a, Translate2d.mk p⟩ ⟨b, Translate2d.mk q⟩) (distanceTo ⟨a, Translate2d.mk p⟩ ⟨b, Translate2d.mk q⟩)
      (sdfv ⟨a, Translate2d.mk p⟩ ⟨b, Translate2d.mk q⟩) := by
  have hM1 : 0 ≤ M := ((two_zpow_pos _).trans_le hM0).le
  obtain ⟨r1, r2, r3⟩ := offset_bounded hp hq hM
  have h := (C86_f32_poly_poly a b (q + -p) ha hb r1 hM0 hM).placed hM1 r2
    (f' := a.Fine32 ∧ b.Fine32 ∧ p.toReal.Gr ∧ q.toReal.Gr) (fun h => ⟨h.1, h.2.1, r3 h.2.2.1 h.2.2.2⟩)
  exact ⟨h, h⟩

/-- The same for `Shape2d` colliders that are boxes or polygons. -/
theorem C86_f32_shape_colliders (a b : Shape2d F32) (p q : V2 F32) (ha : a.Bounded32 M) (hb : b.Bounded32 M)
    (na : a.NoBall) (nb : b.NoBall)
    (hp : p.Bounded32 (M / 3)) (hq : q.Bounded32 (M / 3)) (hM0 : (2 : ℝ) ^ (-20 : ℤ) ≤ M)
    (hM : M ≤ (2 : ℝ) ^ (26 : ℤ)) :
    ValidUpTo (M / 2 ^ 16) (shift p.toReal (Region.pts a.toReal)) (shift q.toReal (Region.pts b.toReal))
      (CollideRunsOut a b (q + -p)) (PenetrateRunsOut a b (q + -p)) (DistanceRunsOut a b (q + -p))
      (a.Fine32 ∧ b.Fine32 ∧ p.toReal.Gr ∧ q.toReal.Gr) (collides ⟨a, p⟩ ⟨b, q⟩) (penetrates ⟨a, p⟩ ⟨b, q⟩)
      (distanceTo ⟨a, p⟩ ⟨b, q⟩) (sdfv ⟨a, p⟩ ⟨b, q⟩) ∧
    ValidUpTo (M / 2 ^ 16) (shift p.toReal (Region.pts a.toReal)) (shift q.toReal (Region.pts b.toReal))
      (CollideRunsOut a b (q + -p)) (PenetrateRunsOut a b (q + -p)) (DistanceRunsOut a b (q + -p))
      (a.Fine32 ∧ b.Fine32 ∧ p.toReal.Gr ∧ q.toReal.Gr) (collides ⟨a, Translate2d.mk p⟩ ⟨b, Translate2d.mk q⟩)
      (penetrates ⟨a, Translate2d.mk p⟩ ⟨b, Translate2d.mk q⟩) (distanceTo ⟨a, Translate2d.mk p⟩ ⟨b, Translate2d.mk q⟩)
      (sdfv ⟨a, Translate2d.mk p⟩ ⟨b, Translate2d.mk q⟩) := by
  have hM1 : 0 ≤ M := ((two_zpow_pos _).trans_le hM0).le
  obtain ⟨r1, r2, r3⟩ := offset_bounded hp hq hM
  have h := (C86_f32_shape_shape a b (q + -p) ha hb na nb r1 hM0 hM).placed hM1 r2
    (f' := a.Fine32 ∧ b.Fine32 ∧ p.toReal.Gr ∧ q.toReal.Gr) (fun h => ⟨h.1, h.2.1, r3 h.2.2.1 h.2.2.2⟩)
  exact ⟨h, h⟩

end

end

end Auburn
