import Verif.Lib.GjkLattice
import Verif.Props.World

/-!
# C96: shapes on a lattice — no overlap is missed, whatever the number of vertices

C38/C39 settle completeness for shapes with few vertices, C92 for overlaps that are not too flat.  On a lattice (all
coordinates multiples of `1/N`) neither restriction is needed: the answers are exact for polygons with any number of
vertices as long as the shapes are closer than `2^15` lattice units.
-/

set_option linter.unusedSectionVars false
set_option synthInstance.maxSize 1000

namespace Auburn
open V2 ExtremePoint2d Transformation2d

section
variable {K : Type} [Field K] [LinearOrder K] [IsStrictOrderedRing K] [FloatExtra K] [ExactFloat K]

/-- no two points of the sets are farther apart than `2^15` units of `1/N` -/
def WithinUnits (N : Nat) (X Y : Set (V2 K)) : Prop :=
  ∃ Q : K, Q < (2 ^ 15 / N) ^ 2 ∧ ∀ p ∈ X, ∀ q ∈ Y, lengthSq (p - q) ≤ Q

theorem WithinUnits.diam {N : Nat} (h0 : 0 < N) {X Y : Set (V2 K)} (h : WithinUnits N X Y) {p q : V2 K}
    (hp : p ∈ X) (hq : q ∈ Y) : ∃ Q : K, 0 ≤ Q ∧ (∀ j : Nat, 16 ≤ j → Q / 4 ^ j < 1 / N ^ 2) ∧
    ∀ m ∈ minkDiff X Y, ∀ m' ∈ minkDiff X Y, lengthSq (m - m') ≤ Q := by
  obtain ⟨Q, hQ, h⟩ := h
  have hQ0 : 0 ≤ Q := (lengthSq_nonneg _).trans (h p hp q hq)
  have hN : (0 : K) < N := by exact_mod_cast h0
  refine ⟨4 * Q, by linarith, fun j hj => ?_, ?_⟩
  · have h2 : (4 : K) ^ 16 ≤ 4 ^ j := pow_le_pow_right₀ (by norm_num) hj
    rw [div_lt_iff₀ (by positivity)]
    rw [div_pow, lt_div_iff₀ (by positivity)] at hQ
    have h3 : 1 / (N : K) ^ 2 * 4 ^ 16 ≤ 1 / (N : K) ^ 2 * 4 ^ j := mul_le_mul_of_nonneg_left h2 (by positivity)
    refine lt_of_lt_of_le ?_ h3
    rw [one_div, inv_mul_eq_div, lt_div_iff₀ (by positivity)]
    linarith
  · rintro m ⟨p, hp, q, hq, rfl⟩ m' ⟨p', hp', q', hq', rfl⟩
    have h1 := h p hp q hq
    have h2 := h p' hp' q' hq'
    have h3 := lengthSq_nonneg (p - q + (p' - q'))
    have e : lengthSq (p - q - (p' - q')) = 2 * lengthSq (p - q) + 2 * lengthSq (p' - q') -
        lengthSq (p - q + (p' - q')) := by
      simp only [lengthSq_def, add_x, add_y, sub_x, sub_y]; ring
    rw [e]; linarith

variable {A B T : Type} [Region A K] [Region B K] [ExtremePoint2d A K]
    [ExtremePoint2d B K] [Transformation2d T K] {a : A} {b : B} {rel : T} [DefaultMinkowski A B]

/-- `collides` finds every overlap of lattice shapes, and a negative answer means that a line separates them. -/
theorem C96_collides (h : ConvexPair (K := K) a b rel) {N : Nat} (h0 : 0 < N) (hG : GridPair a b rel N)
    (hW : WithinUnits N (Region.pts a) (placed rel b)) :
    ∃ c, collidesRel a b rel = .ok c ∧ (c = false → Separable (Region.pts a) (placed rel b)) ∧
      (Overlap (Region.pts a) (placed rel b) → c = true) := by
  obtain ⟨p, hp, q, hq, -⟩ := (h.support 0).1
  obtain ⟨Q, hQ0, hQ, hdiam⟩ := hW.diam h0 hp hq
  have hN : (0 : K) < N := by exact_mod_cast h0
  obtain ⟨c, hc⟩ := (C33_rel_no_panic a b rel).1
  have hc' : Except.map (·.1) (gjkCollide (extremePoint (LocalMinkowskiDiff2d.mk a b rel))
      iterationLimit (initialDirection (applyOrigin rel)) []) = .ok c := hc
  have hs : c = false → Separable (Region.pts a) (placed rel b) := by
    rintro rfl
    cases hr : gjkCollide (extremePoint (LocalMinkowskiDiff2d.mk a b rel))
        iterationLimit (initialDirection (applyOrigin rel)) [] with
    | error e => rw [hr] at hc'; cases hc'
    | ok r =>
      rw [hr] at hc'
      simp only [Except.map, Except.ok.injEq] at hc'
      exact separable_iff.2 (gjkCollide_lattice hQ0 (coarse_grid h0) h.convex h.support hG hdiam
        iterationLimit 16 0 [] _ [] (.start _ (initialDirection_ne _)) (Or.inl ⟨rfl, rfl⟩) (by simp) rfl
        (hQ 16 (le_refl _)) r hr hc')
  refine ⟨c, hc, hs, fun ho => ?_⟩
  cases c with
  | true => rfl
  | false => exact absurd ho (hs rfl).not_overlap

/-- On lattices with units of at least `1/203` all queries are exact: `collides` and `penetrates` answer positively only
for shapes that share a point and negatively only for shapes separated by a line. -/
theorem C96_exact (h : ConvexPair (K := K) a b rel) {N : Nat} (h0 : 0 < N) (hN : N ≤ 203) (hG : GridPair a b rel N)
    (hW : WithinUnits N (Region.pts a) (placed rel b)) :
    (∃ c, collidesRel a b rel = .ok c ∧ (c = true → Touch (Region.pts a) (placed rel b)) ∧
      (c = false → Separable (Region.pts a) (placed rel b))) ∧
    (∃ o, penetratesRel a b rel = .ok o ∧ (o.isSome → Touch (Region.pts a) (placed rel b)) ∧
      (o = none → Separable (Region.pts a) (placed rel b))) := by
  obtain ⟨p, hp, q, hq, -⟩ := (h.support 0).1
  obtain ⟨Q, hQ0, hQ, hdiam⟩ := hW.diam h0 hp hq
  constructor
  · obtain ⟨c, hc, h1, -⟩ := C96_collides h h0 hG hW
    refine ⟨c, hc, ?_, h1⟩
    rintro rfl
    have hc' : Except.map (·.1) (gjkCollide (extremePoint (LocalMinkowskiDiff2d.mk a b rel))
        iterationLimit (initialDirection (applyOrigin rel)) []) = .ok true := hc
    cases hr : gjkCollide (extremePoint (LocalMinkowskiDiff2d.mk a b rel))
        iterationLimit (initialDirection (applyOrigin rel)) [] with
    | error e => rw [hr] at hc'; cases hc'
    | ok r =>
      rw [hr] at hc'
      simp only [Except.map, Except.ok.injEq] at hc'
      exact touch_iff.2 (gjkCollide_grid h0 hN h.convex h.support hG iterationLimit [] _ []
        (.start _ (initialDirection_ne _)) (by simp) r hr hc')
  · obtain ⟨o, hc⟩ := (C33_rel_no_panic a b rel).2.1
    refine ⟨o, hc, ?_, ?_⟩
    · intro ho
      obtain ⟨v, rfl⟩ := Option.isSome_iff_exists.1 ho
      exact (C36_penetrates_grid h h0 hN hG).1 v hc
    · rintro rfl
      obtain ⟨r, hr, ho⟩ := penetratesRel_run hc
      have hf : r.1 = false := by
        cases h1 : r.1 with
        | true => rw [h1] at ho; simp at ho
        | false => rfl
      exact separable_iff.2 (gjkPenetrate_lattice h0 hN hQ0 h.convex h.support hG hdiam
        iterationLimit 16 0 [] _ [] (.start _ (initialDirection_ne _)) (Or.inl ⟨rfl, rfl⟩) (by simp) rfl
        (hQ 16 (le_refl _)) r hr hf)

/-- On an overlap, however small, all four queries report it. -/
theorem C96_overlap (h : ConvexPair (K := K) a b rel) {N : Nat} (h0 : 0 < N) (hN : N ≤ 203) (hG : GridPair a b rel N)
    (hW : WithinUnits N (Region.pts a) (placed rel b)) (hO : Overlap (Region.pts a) (placed rel b)) :
    collidesRel a b rel = .ok true ∧ (∃ v, penetratesRel a b rel = .ok (some v)) ∧
      distanceToRel a b rel = .ok none ∧ ∃ v, sdfvRel a b rel = .ok (true, v) := by
  obtain ⟨⟨c, hc, -, c2⟩, ⟨o, ho, -, o2⟩⟩ := C96_exact h h0 hN hG hW
  have hns : ¬ OneSide (minkDiff (Region.pts a) (placed rel b)) :=
    fun h' => (separable_iff.2 h').not_overlap hO
  obtain ⟨p, hp, q, hq, -⟩ := (h.support 0).1
  obtain ⟨Q, hQ0, hQ, hdiam⟩ := hW.diam h0 hp hq
  set S := extremePoint (LocalMinkowskiDiff2d.mk a b rel) with hS
  set d0 := initialDirection (applyOrigin rel) with hd0
  have hsur : Surrounds S := by
    intro d hd
    by_contra hn
    refine hns ⟨d, hd, fun m hm => ((h.support d).2 m hm).trans ?_⟩
    have := not_lt.1 hn
    rwa [dot_comm] at this
  have hPb : PInv (minkDiff (Region.pts a) (placed rel b)) (S d0) :=
    ⟨d0, (h.support d0).2, by have := hsur d0 (initialDirection_ne _); rwa [dot_comm] at this⟩
  have hne : -(S d0) ≠ 0 := neg_ne_zero.2 hPb.ne_zero
  have hI : GInv (minkDiff (Region.pts a) (placed rel b)) [S d0] (-(S d0)) [S d0] :=
    .point _ (h.support d0).1 hPb
  obtain ⟨r, hr⟩ := gjkPenetrate_ok S iterationLimit (-(S d0)) [S d0] (by simp)
  have h1 : r.1 = true := by
    cases h1 : r.1 with
    | true => rfl
    | false =>
      exact absurd (gjkPenetrate_lattice h0 hN hQ0 h.convex h.support hG hdiam iterationLimit 17 1 [S d0] _ _ hI
        (Or.inr (Or.inl ⟨_, rfl, rfl⟩)) (by intro p hp; rw [List.mem_singleton.1 hp]; exact hG _) rfl
        (hQ 17 (by norm_num)) r hr h1) hns
  have hr' : gjkPenetrate S iterationLimit (-(S d0)) [S d0] = .ok (true, r.2) := by rw [hr, ← h1]
  refine ⟨?_, ?_, ?_, ⟨r.2, ?_⟩⟩
  · cases c with
    | true => exact hc
    | false => exact absurd hO (c2 rfl).not_overlap
  · cases o with
    | some v => exact ⟨v, ho⟩
    | none => exact absurd hO (o2 rfl).not_overlap
  · obtain ⟨w, hw⟩ := gjkDistance_of_penetrate hsur iterationLimit _ (S d0) _ r.2 hne hr'
    show Except.map _ (gjkDistance _ iterationLimit _ _ _) = _
    rw [hw]; rfl
  · exact gjkFull_of_penetrate hsur iterationLimit _ (S d0) _ r.2 hne hr'

end

/-! ## polygons, boxes and the shape enum, placed by a `Vec2` -/

section
variable {K : Type} [Field K] [LinearOrder K] [IsStrictOrderedRing K] [FloatExtra K] [ExactFloat K]

/-- all vertices are multiples of `1/N` -/
def Poly2d.OnLattice (N : Nat) (p : Poly2d K) : Prop := ∀ v ∈ p.points, OnGrid N v
/-- boxes and polygons (with any number of vertices) whose coordinates are multiples of `1/N` -/
def Shape2d.OnLattice (N : Nat) : Shape2d K → Prop
  | .ball _ => False
  | .box b => OnGrid N b.halfsize
  | .poly p => p.OnLattice N

/-- what is claimed: both tests are exact, and all four queries report every overlap -/
structure LatticeExact (collides : Except Panic Bool) (penetrates : Except Panic (Option (V2 K)))
    (distance : Except Panic (Option (V2 K))) (sdfv : Except Panic (Bool × V2 K)) (X Y : Set (V2 K)) : Prop where
  collides_exact : ∃ c, collides = .ok c ∧ (c = true → Touch X Y) ∧ (c = false → Separable X Y)
  penetrates_exact : ∃ o, penetrates = .ok o ∧ (o.isSome → Touch X Y) ∧ (o = none → Separable X Y)
  overlap : Overlap X Y → collides = .ok true ∧ (∃ v, penetrates = .ok (some v)) ∧ distance = .ok none ∧
    ∃ v, sdfv = .ok (true, v)

theorem grid_sub {N : Nat} {u v : V2 K} (hu : OnGrid N u) (hv : OnGrid N v) : OnGrid N (u - v) := by
  obtain ⟨i, j, rfl⟩ := hu
  obtain ⟨k, l, rfl⟩ := hv
  exact ⟨i - k, j - l, by ext <;> simp [sub_div]⟩
theorem grid_add {N : Nat} {u v : V2 K} (hu : OnGrid N u) (hv : OnGrid N v) : OnGrid N (u + v) := by
  obtain ⟨i, j, rfl⟩ := hu
  obtain ⟨k, l, rfl⟩ := hv
  exact ⟨i + k, j + l, by ext <;> simp [add_div]⟩

theorem extreme_grid_box {N : Nat} (b : Box2d K) (h : OnGrid N b.halfsize) (d : V2 K) :
    OnGrid N (extremePoint b d) := by
  have sg : ∀ x : K, ∃ z : ℤ, (FloatExtra.signum x : K) = z := by
    intro x
    rcases lt_trichotomy x 0 with h | h | h
    · exact ⟨-1, by rw [ExactFloat.signum_neg x h]; simp⟩
    · rw [h]
      rcases ExactFloat.signum_zero (K := K) with h | h
      · exact ⟨1, by rw [h]; simp⟩
      · exact ⟨-1, by rw [h]; simp⟩
    · exact ⟨1, by rw [ExactFloat.signum_pos x h]; simp⟩
  obtain ⟨i, j, e⟩ := h
  obtain ⟨z1, hz1⟩ := sg d.x
  obtain ⟨z2, hz2⟩ := sg d.y
  refine ⟨z1 * i, z2 * j, ?_⟩
  ext
  · simp [extremePoint, e, hz1, mul_div_assoc]
  · simp [extremePoint, e, hz2, mul_div_assoc]

theorem extreme_grid_poly {N : Nat} (p : Poly2d K) (h : p.OnLattice N) (h0 : (0 : V2 K) ∈ Region.pts p) (d : V2 K) :
    OnGrid N (extremePoint p d) := h _ (C10_poly_extreme_vertex p h0 d)

theorem extreme_grid_shape [ExactSqrt K] {N : Nat} (s : Shape2d K) (hv : s.Valid) (h : s.OnLattice N) (d : V2 K) :
    OnGrid N (extremePoint s d) := by
  cases s with
  | ball b => exact h.elim
  | box b => exact extreme_grid_box b h d
  | poly p => exact extreme_grid_poly p h hv d

section
variable {A B : Type} [Region A K] [Region B K] [ExtremePoint2d A K]
    [ExtremePoint2d B K] {a : A} {b : B} [DefaultMinkowski A B]

theorem lattice_pair {N : Nat} (h0 : 0 < N) (hN : N ≤ 203) (t : V2 K) (h : ConvexPair (K := K) a b t)
    (ga : ∀ d : V2 K, OnGrid N (extremePoint a d)) (gb : ∀ d : V2 K, OnGrid N (extremePoint b d)) (gt : OnGrid N t)
    (hW : WithinUnits N (Region.pts a) (placed t b)) :
    LatticeExact (collidesRel a b t) (penetratesRel a b t) (distanceToRel a b t) (sdfvRel a b t)
      (Region.pts a) (placed t b) := by
  have hG : GridPair a b t N := fun d => grid_sub (ga d) (grid_add (gb _) gt)
  obtain ⟨h1, h2⟩ := C96_exact h h0 hN hG hW
  exact ⟨h1, h2, C96_overlap h h0 hN hG hW⟩
end

/-- Polygons with any number of vertices. -/
theorem C96_poly_poly (a b : Poly2d K) (t : V2 K) (ha : (0 : V2 K) ∈ Region.pts a) (hb : (0 : V2 K) ∈ Region.pts b)
    {N : Nat} (h0 : 0 < N) (hN : N ≤ 203) (ga : a.OnLattice N) (gb : b.OnLattice N) (gt : OnGrid N t)
    (hW : WithinUnits N (Region.pts a) (placed t b)) :
    LatticeExact (collidesRel a b t) (penetratesRel a b t) (distanceToRel a b t) (sdfvRel a b t)
      (Region.pts a) (placed t b) :=
  lattice_pair h0 hN t (convexPair_poly_poly a b t ha hb ⟨1, zero_le_one, similarity_vec2 t⟩)
    (extreme_grid_poly a ga ha) (extreme_grid_poly b gb hb) gt hW

/-- A box and a polygon with any number of vertices, either way round. -/
theorem C96_box_poly (a : Box2d K) (b : Poly2d K) (t : V2 K) (ha : 0 ≤ a.halfsize.x ∧ 0 ≤ a.halfsize.y)
    (hb : (0 : V2 K) ∈ Region.pts b) {N : Nat} (h0 : 0 < N) (hN : N ≤ 203) (ga : OnGrid N a.halfsize)
    (gb : b.OnLattice N) (gt : OnGrid N t) :
    (WithinUnits N (Region.pts a) (placed t b) →
      LatticeExact (collidesRel a b t) (penetratesRel a b t) (distanceToRel a b t) (sdfvRel a b t)
        (Region.pts a) (placed t b)) ∧
    (WithinUnits N (Region.pts b) (placed t a) →
      LatticeExact (collidesRel b a t) (penetratesRel b a t) (distanceToRel b a t) (sdfvRel b a t)
        (Region.pts b) (placed t a)) := by
  have hs : ∃ s : K, 0 ≤ s ∧ Similarity t s := ⟨1, zero_le_one, similarity_vec2 t⟩
  obtain ⟨h1, h2⟩ := convexPair_box_poly a b t ha hb hs
  exact ⟨lattice_pair h0 hN t h1 (extreme_grid_box a ga) (extreme_grid_poly b gb hb) gt,
    lattice_pair h0 hN t (h2 t hs) (extreme_grid_poly b gb hb) (extreme_grid_box a ga) gt⟩

/-- The shape enum. -/
theorem C96_shape2d [ExactSqrt K] (a b : Shape2d K) (t : V2 K) (ha : a.Valid) (hb : b.Valid)
    {N : Nat} (h0 : 0 < N) (hN : N ≤ 203) (ga : a.OnLattice N) (gb : b.OnLattice N) (gt : OnGrid N t)
    (hW : WithinUnits N (Region.pts a) (placed t b)) :
    LatticeExact (collidesRel a b t) (penetratesRel a b t) (distanceToRel a b t) (sdfvRel a b t)
      (Region.pts a) (placed t b) :=
  lattice_pair h0 hN t (convexPair_shape2d a b t ha hb ⟨1, zero_le_one, similarity_vec2 t⟩)
    (extreme_grid_shape a ha ga) (extreme_grid_shape b hb gb) gt hW

end

/-- the hypotheses are met by two 24-gons of radius 1000 whose corners overlap by a sliver (and there C38, C39 and C92
say nothing about `penetrates`) -/
example : let _ := ratFloat
    (0 : V2 ℚ) ∈ Region.pts gon24 ∧ gon24.OnLattice 1 ∧ OnGrid 1 (⟨1999, 1⟩ : V2 ℚ) ∧
      WithinUnits 1 (Region.pts gon24) (placed (⟨1999, 1⟩ : V2 ℚ) gon24) ∧
      collidesRel gon24 gon24 (⟨1999, 1⟩ : V2 ℚ) = .ok true := by
  intro _
  have := ratFloat_exact
  refine ⟨?_, ?_, ⟨1999, 1, by norm_num⟩, ⟨2 ^ 29, by norm_num, ?_⟩, by decide +kernel⟩
  · have h1 : (⟨1000, 0⟩ : V2 ℚ) ∈ Region.pts gon24 := subset_convexHull ℚ _ (by simp [gon24])
    have h2 : (⟨-1000, 0⟩ : V2 ℚ) ∈ Region.pts gon24 := subset_convexHull ℚ _ (by simp [gon24])
    have := (convex_poly gon24) h1 h2 (a := 1 / 2) (b := 1 / 2) (by norm_num) (by norm_num) (by norm_num)
    convert this using 1
    ext <;> norm_num
  · have hz : ∀ v ∈ gon24.points, v = ⟨(v.x.num : ℚ) / (1 : ℕ), (v.y.num : ℚ) / (1 : ℕ)⟩ := by decide +kernel
    exact fun v hv => ⟨_, _, hz v hv⟩
  · have hb : ∀ p ∈ Region.pts gon24, |p.x| ≤ 1000 ∧ |p.y| ≤ 1000 := by
      have hsub : convexHull ℚ {x | x ∈ gon24.points} ⊆ {p : V2 ℚ | |p.x| ≤ 1000 ∧ |p.y| ≤ 1000} := by
        refine convexHull_min ?_ ?_
        · have : ∀ v ∈ gon24.points, |v.x| ≤ 1000 ∧ |v.y| ≤ 1000 := by decide +kernel
          exact this
        · rintro p ⟨h1, h2⟩ q ⟨h3, h4⟩ u v hu hv huv
          rw [abs_le] at h1 h2 h3 h4
          constructor <;> rw [abs_le] <;> constructor <;> simp <;> nlinarith
      exact hsub
    rintro p hp _ ⟨q, hq, rfl⟩
    obtain ⟨h1, h2⟩ := hb p hp
    obtain ⟨h3, h4⟩ := hb q hq
    rw [abs_le] at h1 h2 h3 h4
    simp only [lengthSq_def, apply, sub_x, sub_y, add_x, add_y]
    nlinarith

end Auburn
