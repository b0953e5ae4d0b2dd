import Verif.Ieee.TurnPair

/-!
# C88: shapes rotated by a `Transform2d`, on binary32

C86 and C87 place the second shape by a translation.  Here it is placed by a `Transform2d` with a rotor of
nearly unit length (f32 rotors are never exactly unit) and scale one.  The answers of all four queries are valid up to
the rounding of the whole computation: search directions are rotated back and extreme points are rotated forward in
f32.
-/

set_option linter.unusedSectionVars false
set_option synthInstance.maxSize 1000

namespace Auburn

open F32 V2 ExtremePoint2d Transformation2d

section
variable [env : F32Env]

/-! ## the side condition of the pushes -/

/-- the products of the rotor's coordinates with the vertices' coordinates are multiples of `2^-60` -/
def Box2d.FineTurn (r : V2 ℝ) (b : Box2d F32) : Prop := ProdGr r b.halfsize.toReal
def Poly2d.FineTurn (r : V2 ℝ) (p : Poly2d F32) : Prop := ∀ v ∈ p.points, ProdGr r v.toReal
def Shape2d.FineTurn (r : V2 ℝ) : Shape2d F32 → Prop
  | .ball _ => False
  | .box b => b.FineTurn r
  | .poly p => p.FineTurn r

theorem box_corner {b : Box2d F32} {M : ℝ} (hb : b.Bounded32 M) {d' : V2 F32} {d : V2 ℝ} (hd : d'.Is d) :
    ∃ σ τ : ℝ, (σ = 1 ∨ σ = -1) ∧ (τ = 1 ∨ τ = -1) ∧
      (extremePoint b d').Is ⟨σ * b.halfsize.toReal.x, τ * b.halfsize.toReal.y⟩ := by
  obtain ⟨⟨hg, hc⟩, hx, hy⟩ := hb
  obtain ⟨σ, hσ, s1, a1⟩ := is_signum hd.1
  obtain ⟨τ, hτ, s2, a2⟩ := is_signum hd.2
  have r1 : Representable (σ * b.halfsize.toReal.x) := by
    rcases hσ with rfl | rfl
    · rw [one_mul]; exact hg.1.representable
    · rw [neg_one_mul]; exact hg.1.representable.neg
  have r2 : Representable (τ * b.halfsize.toReal.y) := by
    rcases hτ with rfl | rfl
    · rw [one_mul]; exact hg.2.representable
    · rw [neg_one_mul]; exact hg.2.representable.neg
  exact ⟨σ, τ, hσ, hτ, is_mul s1 hg.1 r1, is_mul s2 hg.2 r2⟩

theorem prod_sign {x y σ : ℝ} (hσ : σ = 1 ∨ σ = -1) (g : Gr (x * y)) : Gr (x * (σ * y)) := by
  rcases hσ with rfl | rfl
  · rwa [one_mul]
  · rw [show x * (-1 * y) = -(x * y) by ring]; exact g.neg

/-- what the pushes need from the second shape -/
def TurnGrid {B : Type} [ExtremePoint2d B F32] (k : ℤ) (r : V2 ℝ) (b : B) : Prop :=
  ∀ (e' : V2 F32) (e : V2 ℝ), e'.Is e → DirB k e → ProdGr r (extremePoint b e').toReal

theorem turnGrid_box {b : Box2d F32} {M : ℝ} (hb : b.Bounded32 M) {r : V2 ℝ} (h : b.FineTurn r) (k : ℤ) :
    TurnGrid k r b := by
  intro e' e he _
  obtain ⟨σ, τ, hσ, hτ, hp⟩ := box_corner hb he
  rw [hp.toReal]
  obtain ⟨g1, g2, g3, g4⟩ := h
  exact ⟨prod_sign hσ g1, prod_sign hτ g2, prod_sign hτ g3, prod_sign hσ g4⟩

theorem turnGrid_poly {p : Poly2d F32} {M : ℝ} (hp : p.Bounded32 M) {r : V2 ℝ} (h : p.FineTurn r) {k : ℤ} (hk : k ≤ 26)
    (hM : M ≤ (2 : ℝ) ^ k) : TurnGrid k r p := fun _ _ he hD => h _ (poly_extreme hp hk hM he hD).1

theorem turnGrid_shape {s : Shape2d F32} {M : ℝ} (hs : s.Bounded32 M) {r : V2 ℝ} (h : s.FineTurn r) {k : ℤ} (hk : k ≤ 26)
    (hM : M ≤ (2 : ℝ) ^ k) : TurnGrid k r s := by
  cases s with
  | ball b => exact h.elim
  | box b => exact turnGrid_box (b := b) hs h k
  | poly p => exact turnGrid_poly (p := p) hs h hk hM

/-! ## pairs -/

theorem DirB.mono {k l : ℤ} {d : V2 ℝ} (h : DirB k d) (hkl : k ≤ l) : DirB l d :=
  V2.Coord.mono h (zpow_le_zpow (by omega))
theorem NoisyShape.anti {S : Type} [ExtremePoint2d S F32] {k l : ℤ} {s : S} {X : Set (V2 ℝ)} {M : ℝ}
    (h : NoisyShape l s X M) (hkl : k ≤ l) : NoisyShape k s X M := fun d' d hd hD hl => h d' d hd (hD.mono hkl) hl
theorem GridShape.anti {S : Type} [ExtremePoint2d S F32] {g lo : Prop} {k l : ℤ} {s : S} {X : Set (V2 ℝ)} {M : ℝ}
    (h : GridShape g lo l s X M) (hkl : k ≤ l) : GridShape g lo k s X M := fun d' d hd hD hl => h d' d hd (hD.mono hkl) hl

theorem Transform2d.Rigid32.origin {M e : ℝ} {t : Transform2d F32} (h : t.Rigid32 M e) :
    (applyOrigin t : V2 F32).Bounded32 (2 * M) :=
  ⟨h.pos.1, h.pos.2.mono (by have := h.pos.nonneg; linarith)⟩

section
variable {A B : Type} [ExtremePoint2d A F32] [ExtremePoint2d B F32] [DefaultMinkowski A B] {a : A} {b : B}
  {X Y : Set (V2 ℝ)} {rel : Transform2d F32} {M : ℝ}

theorem valid_turn_pair {fA fB : Prop} (hA : Handled 26 M a X fA) (hB : Handled 26 M b Y fB) {fT : Prop}
    (hT : fT → TurnGrid 26 rel.rot.a.toReal b)
    (hr : rel.Rigid32 M (1 / 2 ^ 16)) (hM0 : (2 : ℝ) ^ (-20 : ℤ) ≤ M) (hM : M ≤ (2 : ℝ) ^ (24 : ℤ)) :
    ValidUpTo (M / 2 ^ 16) X (rel.image Y) (CollideRunsOut a b rel) (PenetrateRunsOut a b rel)
      (DistanceRunsOut a b rel) (fA ∧ fT ∧ rel.pos.toReal.Gr) (collidesRel a b rel) (penetratesRel a b rel)
      (distanceToRel a b rel) (sdfvRel a b rel) := by
  have e : M / 2 ^ 16 = 2 * M / 2 ^ 17 := by ring
  have hM1 : 0 < M := lt_of_lt_of_le (two_zpow_pos _) hM0
  have hM2 : 2 * M ≤ (2 : ℝ) ^ (25 : ℤ) := by
    have : (2 : ℝ) ^ (25 : ℤ) = 2 * (2 : ℝ) ^ (24 : ℤ) := by norm_num
    rw [this]; linarith only [hM]
  have hM3 : (2 : ℝ) ^ (-20 : ℤ) ≤ 2 * M := hM0.trans (by linarith only [hM1])
  have hM' : M ≤ (2 : ℝ) ^ (26 : ℤ) := hM.trans (zpow_le_zpow (by norm_num))
  have hS := noisy_turn_pair (k := 25) (hA.noisy.anti (by norm_num)) hB.noisy hr (by norm_num) (by norm_num) hM' hM0
  have hW : Convex ℝ (minkDiff X (rel.image Y)) := convex_diff_moved hA.convex hB.convex _ _
  rw [e]
  refine ⟨run_apart hS hr.origin (by norm_num) (by norm_num) hM2 hM3,
    run_bridge hW hS (noisyGrid_turn_pair (hA.near.anti (by norm_num)) hB.near hr False.elim (by norm_num) (by norm_num) hM' hM0)
      hr.origin (by norm_num) (by norm_num) hM2 hM3, fun h => ?_⟩
  exact run_push hS (noisyGrid_turn_pair ((hA.grid h.1).anti (by norm_num)) hB.near hr (fun _ => ⟨h.2.2, hT h.2.1⟩)
    (by norm_num) (by norm_num) hM' hM0) hr.origin (by norm_num) (by norm_num) hM2 hM3

theorem met_turn_pair (cX : Convex ℝ X) (cY : Convex ℝ Y) {k : ℤ} (gA : GridShape False True (k + 1) a X M)
    (gB : GridShape False True (k + 1) b Y M) (hr : rel.Rigid32 M (1 / 2 ^ 16)) (hk : 0 ≤ k) (hk2 : k ≤ 25)
    (hM : 2 * M ≤ (2 : ℝ) ^ k) (hM1 : 1 ≤ M) :
    MetUpTo (M / 2 ^ 5) X (rel.image Y) (collidesRel a b rel) (penetratesRel a b rel) (sdfvRel a b rel) := by
  have e : M / 2 ^ 5 = 2 * M / 2 ^ 6 := by ring
  have hM0 := (by norm_num : (2 : ℝ) ^ (-20 : ℤ) ≤ 1).trans hM1
  have h1 : (2 : ℝ) ^ k ≤ (2 : ℝ) ^ (26 : ℤ) := zpow_le_zpow (by omega)
  rw [e]
  exact run_met (convex_diff_moved cX cY _ _) (noisyGrid_turn_pair (gA.anti (by omega)) gB hr False.elim hk (by omega)
    (by linarith) hM0) hr.origin hk (by omega) hM (by linarith)

theorem apart_turn_pair (cX : Convex ℝ X) (cY : Convex ℝ Y) (hA : NoisyShape 17 a X M) (hB : NoisyShape 17 b Y M)
    (gA : GridShape False True 17 a X M)
    (gB : GridShape False True 17 b Y M) (hr : rel.Rigid32 M (1 / 2 ^ 16))
    (hM0 : (2 : ℝ) ^ (-20 : ℤ) ≤ M) (hM : M ≤ (2 : ℝ) ^ (15 : ℤ)) :
    ApartUpTo (M / 2 ^ 16) X (rel.image Y) (CollideRunsOut a b rel) (PenetrateRunsOut a b rel)
      (DistanceRunsOut a b rel) (collidesRel a b rel) (penetratesRel a b rel) (distanceToRel a b rel)
      (sdfvRel a b rel) ∧
    BridgeUnlessMet (M / 2 ^ 16) X (rel.image Y) (distanceToRel a b rel) (sdfvRel a b rel) := by
  have e : M / 2 ^ 16 = 2 * M / 2 ^ 17 := by ring
  have hM1 : 0 < M := lt_of_lt_of_le (two_zpow_pos _) hM0
  have hM2 : 2 * M ≤ (2 : ℝ) ^ (16 : ℤ) := by
    have : (2 : ℝ) ^ (16 : ℤ) = 2 * (2 : ℝ) ^ (15 : ℤ) := by norm_num
    rw [this]; linarith only [hM]
  have hM3 : (2 : ℝ) ^ (-20 : ℤ) ≤ 2 * M := hM0.trans (by linarith only [hM1])
  have hM' : M ≤ (2 : ℝ) ^ (26 : ℤ) := hM.trans (zpow_le_zpow (by norm_num))
  have hS := noisy_turn_pair (k := 16) (hA.anti (by norm_num)) hB hr (by norm_num) (by norm_num) hM' hM0
  have hG := noisyGrid_turn_pair (k := 16) (gA.anti (by norm_num)) gB hr False.elim (by norm_num) (by norm_num) hM' hM0
  rw [e]
  exact ⟨run_apart hS hr.origin (by norm_num) (by norm_num) hM2 hM3,
    run_bridge_met (convex_diff_moved cX cY _ _) hS hG hr.origin (by norm_num) (by norm_num) hM2 hM3⟩

end

/-! ## the property, relative form -/

section
variable {M : ℝ}

/-- Two polygons, the second one rotated: negative answers, distances and pushes. -/
theorem C88_f32_poly_poly (a : Poly2d F32) (b : Poly2d F32) (rel : Transform2d F32) (ha : a.Bounded32 M) (hb : b.Bounded32 M)
    (hr : rel.Rigid32 M (1 / 2 ^ 16)) (hM0 : (2 : ℝ) ^ (-20 : ℤ) ≤ M) (hM : M ≤ (2 : ℝ) ^ (24 : ℤ)) :
    ValidUpTo (M / 2 ^ 16) (Region.pts a.toReal) (rel.image (Region.pts b.toReal))
      (CollideRunsOut a b rel) (PenetrateRunsOut a b rel) (DistanceRunsOut a b rel)
      (a.Fine32 ∧ b.FineTurn rel.rot.a.toReal ∧ rel.pos.toReal.Gr) (collidesRel a b rel) (penetratesRel a b rel)
      (distanceToRel a b rel) (sdfvRel a b rel) := by
  have hM' : M ≤ (2 : ℝ) ^ (26 : ℤ) := hM.trans (zpow_le_zpow (by norm_num))
  exact valid_turn_pair (handled_poly ha (by norm_num) hM' hM0) (handled_poly hb (by norm_num) hM' hM0)
    (fun h => turnGrid_poly hb h (by norm_num) hM') hr hM0 hM

/-- A box and a rotated polygon: negative answers, distances and pushes. -/
theorem C88_f32_box_poly (a : Box2d F32) (b : Poly2d F32) (rel : Transform2d F32) (ha : a.Bounded32 M) (hb : b.Bounded32 M)
    (hr : rel.Rigid32 M (1 / 2 ^ 16)) (hM0 : (2 : ℝ) ^ (-20 : ℤ) ≤ M) (hM : M ≤ (2 : ℝ) ^ (24 : ℤ)) :
    ValidUpTo (M / 2 ^ 16) (Region.pts a.toReal) (rel.image (Region.pts b.toReal))
      (CollideRunsOut a b rel) (PenetrateRunsOut a b rel) (DistanceRunsOut a b rel)
      (a.Fine32 ∧ b.FineTurn rel.rot.a.toReal ∧ rel.pos.toReal.Gr) (collidesRel a b rel) (penetratesRel a b rel)
      (distanceToRel a b rel) (sdfvRel a b rel) := by
  have hM' : M ≤ (2 : ℝ) ^ (26 : ℤ) := hM.trans (zpow_le_zpow (by norm_num))
  exact valid_turn_pair (handled_box ha _) (handled_poly hb (by norm_num) hM' hM0)
    (fun h => turnGrid_poly hb h (by norm_num) hM') hr hM0 hM

/-- A polygon and a rotated box: negative answers, distances and pushes. -/
theorem C88_f32_poly_box (a : Poly2d F32) (b : Box2d F32) (rel : Transform2d F32) (ha : a.Bounded32 M) (hb : b.Bounded32 M)
    (hr : rel.Rigid32 M (1 / 2 ^ 16)) (hM0 : (2 : ℝ) ^ (-20 : ℤ) ≤ M) (hM : M ≤ (2 : ℝ) ^ (24 : ℤ)) :
    ValidUpTo (M / 2 ^ 16) (Region.pts a.toReal) (rel.image (Region.pts b.toReal))
      (CollideRunsOut a b rel) (PenetrateRunsOut a b rel) (DistanceRunsOut a b rel)
      (a.Fine32 ∧ b.FineTurn rel.rot.a.toReal ∧ rel.pos.toReal.Gr) (collidesRel a b rel) (penetratesRel a b rel)
      (distanceToRel a b rel) (sdfvRel a b rel) := by
  have hM' : M ≤ (2 : ℝ) ^ (26 : ℤ) := hM.trans (zpow_le_zpow (by norm_num))
  exact valid_turn_pair (handled_poly ha (by norm_num) hM' hM0) (handled_box hb _)
    (fun h => turnGrid_box hb h _) hr hM0 hM

/-- A box and a rotated box: negative answers, distances and pushes. -/
theorem C88_f32_box_box (a : Box2d F32) (b : Box2d F32) (rel : Transform2d F32) (ha : a.Bounded32 M) (hb : b.Bounded32 M)
    (hr : rel.Rigid32 M (1 / 2 ^ 16)) (hM0 : (2 : ℝ) ^ (-20 : ℤ) ≤ M) (hM : M ≤ (2 : ℝ) ^ (24 : ℤ)) :
    ValidUpTo (M / 2 ^ 16) (Region.pts a.toReal) (rel.image (Region.pts b.toReal))
      (CollideRunsOut a b rel) (PenetrateRunsOut a b rel) (DistanceRunsOut a b rel)
      (a.Fine32 ∧ b.FineTurn rel.rot.a.toReal ∧ rel.pos.toReal.Gr) (collidesRel a b rel) (penetratesRel a b rel)
      (distanceToRel a b rel) (sdfvRel a b rel) := by
  have hM' : M ≤ (2 : ℝ) ^ (26 : ℤ) := hM.trans (zpow_le_zpow (by norm_num))
  exact valid_turn_pair (handled_box ha _) (handled_box hb _)
    (fun h => turnGrid_box hb h _) hr hM0 hM

/-- Two `Shape2d` that are boxes or polygons: negative answers, distances and pushes. -/
theorem C88_f32_shape_shape (a : Shape2d F32) (b : Shape2d F32) (rel : Transform2d F32) (ha : a.Bounded32 M) (hb : b.Bounded32 M)
    (na : a.NoBall) (nb : b.NoBall)
    (hr : rel.Rigid32 M (1 / 2 ^ 16)) (hM0 : (2 : ℝ) ^ (-20 : ℤ) ≤ M) (hM : M ≤ (2 : ℝ) ^ (24 : ℤ)) :
    ValidUpTo (M / 2 ^ 16) (Region.pts a.toReal) (rel.image (Region.pts b.toReal))
      (CollideRunsOut a b rel) (PenetrateRunsOut a b rel) (DistanceRunsOut a b rel)
      (a.Fine32 ∧ b.FineTurn rel.rot.a.toReal ∧ rel.pos.toReal.Gr) (collidesRel a b rel) (penetratesRel a b rel)
      (distanceToRel a b rel) (sdfvRel a b rel) := by
  have hM' : M ≤ (2 : ℝ) ^ (26 : ℤ) := hM.trans (zpow_le_zpow (by norm_num))
  exact valid_turn_pair (handled_shape ha na (by norm_num) hM' hM0) (handled_shape hb nb (by norm_num) hM' hM0)
    (fun h => turnGrid_shape hb h (by norm_num) hM') hr hM0 hM

/-- Two polygons, the second one rotated: positive answers. -/
theorem C88_f32_poly_poly_met (a : Poly2d F32) (b : Poly2d F32) (rel : Transform2d F32) (ha : a.Bounded32 M) (hb : b.Bounded32 M)
    (hr : rel.Rigid32 M (1 / 2 ^ 16)) (hM1 : 1 ≤ M) (hM : M ≤ (2 : ℝ) ^ (24 : ℤ)) :
    MetUpTo (M / 2 ^ 5) (Region.pts a.toReal) (rel.image (Region.pts b.toReal))
      (collidesRel a b rel) (penetratesRel a b rel) (sdfvRel a b rel) := by
  have hM' : M ≤ (2 : ℝ) ^ (26 : ℤ) := hM.trans (zpow_le_zpow (by norm_num))
  have hM2 : 2 * M ≤ (2 : ℝ) ^ (25 : ℤ) := by
    have : (2 : ℝ) ^ (25 : ℤ) = 2 * (2 : ℝ) ^ (24 : ℤ) := by norm_num
    rw [this]; linarith only [hM]
  exact met_turn_pair (k := 25) (convex_convexHull ℝ _) (convex_convexHull ℝ _) (grid_poly ha (by norm_num) hM' False.elim)
    (grid_poly hb (by norm_num) hM' False.elim) hr (by norm_num) (by norm_num) hM2 hM1

/-- A box and a rotated polygon: positive answers. -/
theorem C88_f32_box_poly_met (a : Box2d F32) (b : Poly2d F32) (rel : Transform2d F32) (ha : a.Bounded32 M) (hb : b.Bounded32 M)
    (hr : rel.Rigid32 M (1 / 2 ^ 16)) (hM1 : 1 ≤ M) (hM : M ≤ (2 : ℝ) ^ (24 : ℤ)) :
    MetUpTo (M / 2 ^ 5) (Region.pts a.toReal) (rel.image (Region.pts b.toReal))
      (collidesRel a b rel) (penetratesRel a b rel) (sdfvRel a b rel) := by
  have hM' : M ≤ (2 : ℝ) ^ (26 : ℤ) := hM.trans (zpow_le_zpow (by norm_num))
  have hM2 : 2 * M ≤ (2 : ℝ) ^ (25 : ℤ) := by
    have : (2 : ℝ) ^ (25 : ℤ) = 2 * (2 : ℝ) ^ (24 : ℤ) := by norm_num
    rw [this]; linarith only [hM]
  exact met_turn_pair (k := 25) (convex_box32 _) (convex_convexHull ℝ _) (grid_box ha False.elim _)
    (grid_poly hb (by norm_num) hM' False.elim) hr (by norm_num) (by norm_num) hM2 hM1

/-- A polygon and a rotated box: positive answers. -/
theorem C88_f32_poly_box_met (a : Poly2d F32) (b : Box2d F32) (rel : Transform2d F32) (ha : a.Bounded32 M) (hb : b.Bounded32 M)
    (hr : rel.Rigid32 M (1 / 2 ^ 16)) (hM1 : 1 ≤ M) (hM : M ≤ (2 : ℝ) ^ (24 : ℤ)) :
    MetUpTo (M / 2 ^ 5) (Region.pts a.toReal) (rel.image (Region.pts b.toReal))
      (collidesRel a b rel) (penetratesRel a b rel) (sdfvRel a b rel) := by
  have hM' : M ≤ (2 : ℝ) ^ (26 : ℤ) := hM.trans (zpow_le_zpow (by norm_num))
  have hM2 : 2 * M ≤ (2 : ℝ) ^ (25 : ℤ) := by
    have : (2 : ℝ) ^ (25 : ℤ) = 2 * (2 : ℝ) ^ (24 : ℤ) := by norm_num
    rw [this]; linarith only [hM]
  exact met_turn_pair (k := 25) (convex_convexHull ℝ _) (convex_box32 _) (grid_poly ha (by norm_num) hM' False.elim)
    (grid_box hb False.elim _) hr (by norm_num) (by norm_num) hM2 hM1

/-- A box and a rotated box: positive answers. -/
theorem C88_f32_box_box_met (a : Box2d F32) (b : Box2d F32) (rel : Transform2d F32) (ha : a.Bounded32 M) (hb : b.Bounded32 M)
    (hr : rel.Rigid32 M (1 / 2 ^ 16)) (hM1 : 1 ≤ M) (hM : M ≤ (2 : ℝ) ^ (24 : ℤ)) :
    MetUpTo (M / 2 ^ 5) (Region.pts a.toReal) (rel.image (Region.pts b.toReal))
      (collidesRel a b rel) (penetratesRel a b rel) (sdfvRel a b rel) := by
  have hM' : M ≤ (2 : ℝ) ^ (26 : ℤ) := hM.trans (zpow_le_zpow (by norm_num))
  have hM2 : 2 * M ≤ (2 : ℝ) ^ (25 : ℤ) := by
    have : (2 : ℝ) ^ (25 : ℤ) = 2 * (2 : ℝ) ^ (24 : ℤ) := by norm_num
    rw [this]; linarith only [hM]
  exact met_turn_pair (k := 25) (convex_box32 _) (convex_box32 _) (grid_box ha False.elim _)
    (grid_box hb False.elim _) hr (by norm_num) (by norm_num) hM2 hM1

/-- Two `Shape2d` that are boxes or polygons: positive answers. -/
theorem C88_f32_shape_shape_met (a : Shape2d F32) (b : Shape2d F32) (rel : Transform2d F32) (ha : a.Bounded32 M) (hb : b.Bounded32 M)
    (na : a.NoBall) (nb : b.NoBall)
    (hr : rel.Rigid32 M (1 / 2 ^ 16)) (hM1 : 1 ≤ M) (hM : M ≤ (2 : ℝ) ^ (24 : ℤ)) :
    MetUpTo (M / 2 ^ 5) (Region.pts a.toReal) (rel.image (Region.pts b.toReal))
      (collidesRel a b rel) (penetratesRel a b rel) (sdfvRel a b rel) := by
  have hM' : M ≤ (2 : ℝ) ^ (26 : ℤ) := hM.trans (zpow_le_zpow (by norm_num))
  have hM2 : 2 * M ≤ (2 : ℝ) ^ (25 : ℤ) := by
    have : (2 : ℝ) ^ (25 : ℤ) = 2 * (2 : ℝ) ^ (24 : ℤ) := by norm_num
    rw [this]; linarith only [hM]
  exact met_turn_pair (k := 25) (noBall_shape ha na hM').1 (noBall_shape hb nb hM').1 (noBall_shape ha na hM').2
    (noBall_shape hb nb hM').2 hr (by norm_num) (by norm_num) hM2 hM1

/-- A ball and a rotated box, coordinates at most `2^15`. -/
theorem C88_f32_ball_box (a : Ball F32) (b : Box2d F32) (rel : Transform2d F32) (ha : a.Bounded32 M) (hb : b.Bounded32 M)
    (hr : rel.Rigid32 M (1 / 2 ^ 16)) (hM0 : (2 : ℝ) ^ (-20 : ℤ) ≤ M) (hM : M ≤ (2 : ℝ) ^ (15 : ℤ)) :
    ApartUpTo (M / 2 ^ 16) (Region.pts (Ball.mk a.radius.toReal)) (rel.image (Region.pts b.toReal))
      (CollideRunsOut a b rel) (PenetrateRunsOut a b rel) (DistanceRunsOut a b rel)
      (collidesRel a b rel) (penetratesRel a b rel) (distanceToRel a b rel) (sdfvRel a b rel) ∧
    BridgeUnlessMet (M / 2 ^ 16) (Region.pts (Ball.mk a.radius.toReal)) (rel.image (Region.pts b.toReal))
      (distanceToRel a b rel) (sdfvRel a b rel) ∧
    (1 ≤ M → MetUpTo (M / 2 ^ 5) (Region.pts (Ball.mk a.radius.toReal)) (rel.image (Region.pts b.toReal))
      (collidesRel a b rel) (penetratesRel a b rel) (sdfvRel a b rel)) := by
  have hM' : M ≤ (2 : ℝ) ^ (17 : ℤ) := hM.trans (zpow_le_zpow (by norm_num))
  have cb := @convex_ball ℝ _ _ _ (realFloat true 0) (realFloat_exact true 0) (Ball.mk a.radius.toReal)
  obtain ⟨h1, h2⟩ := apart_turn_pair cb (convex_box32 _) (noisy_ball ha hM' hM0) (noisy_box hb _) (grid_ball ha hM' hM0)
    (grid_box hb False.elim _) hr hM0 hM
  refine ⟨h1, h2, fun hM1 => met_turn_pair (k := 16) cb (convex_box32 _) (grid_ball ha hM' hM0) (grid_box hb False.elim _) hr
    (by norm_num) (by norm_num) ?_ hM1⟩
  have : (2 : ℝ) ^ (16 : ℤ) = 2 * (2 : ℝ) ^ (15 : ℤ) := by norm_num
  rw [this]; linarith only [hM]

/-- Two `Shape2d` of any kind (with balls), coordinates at most `2^15`. -/
theorem C88_f32_any_shape (a b : Shape2d F32) (rel : Transform2d F32) (ha : a.Bounded32 M) (hb : b.Bounded32 M)
    (hr : rel.Rigid32 M (1 / 2 ^ 16)) (hM0 : (2 : ℝ) ^ (-20 : ℤ) ≤ M) (hM : M ≤ (2 : ℝ) ^ (15 : ℤ)) :
    ApartUpTo (M / 2 ^ 16) (Region.pts a.toReal) (rel.image (Region.pts b.toReal))
      (CollideRunsOut a b rel) (PenetrateRunsOut a b rel) (DistanceRunsOut a b rel)
      (collidesRel a b rel) (penetratesRel a b rel) (distanceToRel a b rel) (sdfvRel a b rel) ∧
    BridgeUnlessMet (M / 2 ^ 16) (Region.pts a.toReal) (rel.image (Region.pts b.toReal))
      (distanceToRel a b rel) (sdfvRel a b rel) ∧
    (1 ≤ M → MetUpTo (M / 2 ^ 5) (Region.pts a.toReal) (rel.image (Region.pts b.toReal))
      (collidesRel a b rel) (penetratesRel a b rel) (sdfvRel a b rel)) := by
  have hM' : M ≤ (2 : ℝ) ^ (17 : ℤ) := hM.trans (zpow_le_zpow (by norm_num))
  obtain ⟨c1, n1, g1⟩ := ball_shape ha hM0 hM'
  obtain ⟨c2, n2, g2⟩ := ball_shape hb hM0 hM'
  obtain ⟨h1, h2⟩ := apart_turn_pair c1 c2 n1 n2 g1 g2 hr hM0 hM
  refine ⟨h1, h2, fun hM1 => met_turn_pair (k := 16) c1 c2 g1 g2 hr (by norm_num) (by norm_num) ?_ hM1⟩
  have : (2 : ℝ) ^ (16 : ℤ) = 2 * (2 : ℝ) ^ (15 : ℤ) := by norm_num
  rw [this]; linarith only [hM]

end

end

end Auburn
