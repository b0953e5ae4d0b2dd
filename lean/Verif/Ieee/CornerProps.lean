import Verif.Ieee.DistProps
import Verif.Props.Corners

/-!
# C73: the number of extreme points on binary32

The difference of two polygons with `n` and `m` vertices has at most `n + m` corners; on binary32 a
box adds at most four more values, because the sign of a zero decides between its corners.
-/

set_option linter.unusedSectionVars false
set_option synthInstance.maxSize 1000

namespace Auburn

open F32 V2 ExtremePoint2d Transformation2d

/-- the four directions in which the sign of a zero matters -/
def axes : List (V2 ℝ) := [⟨1, 0⟩, ⟨-1, 0⟩, ⟨0, 1⟩, ⟨0, -1⟩]

section
variable [env : F32Env] [FloatExtra ℝ] [ExactFloat ℝ]

/-- `extreme_point` on binary32 follows a fan `φ`, except perhaps in the directions `e`, where it may
have the value of `ψ` -/
structure Corn32 {S : Type} [ExtremePoint2d S F32] (k B : ℤ) (s : S) (A : Set (V2 ℝ)) (V e : List (V2 ℝ))
    (φ ψ : V2 ℝ → V2 ℝ) : Prop where
  fan : Fan φ
  memφ : ∀ d, φ d ∈ V
  memψ : ∀ d, ψ d ∈ V
  at' : ∀ (d' : V2 F32) (d : V2 ℝ), d'.Is d → DirOk 32 d →
    ∃ p ∈ V, (extremePoint s d').Is p ∧ IsExtreme A d p ∧ p.GV k B ∧
      (d ≠ 0 → p = φ d ∨ ∃ u ∈ e, ∃ c : ℝ, 0 < c ∧ d = V2.scale c u ∧ p = ψ u)

/-- the fold over the vertices gives on exact scores the same vertex -/
theorem poly_fold_is {d' : V2 F32} {d : V2 ℝ} : ∀ (l : List (V2 F32)),
    (∀ v ∈ l, F32.Is (d'.dot v) (d.dot v.toReal) ∧ v.Is v.toReal) → ∀ (c' : F32 × V2 F32) (c : ℝ × V2 ℝ),
    F32.Is c'.1 c.1 → c'.2.Is c.2 →
    (l.foldl (Poly2d.extremeStep d') c').2.Is ((l.map V2.toReal).foldl (Poly2d.extremeStep d) c).2
  | [], _, _, _, _, h => h
  | v :: l, hv, c', c, h1, h2 => by
    rw [List.map_cons, List.foldl_cons, List.foldl_cons]
    obtain ⟨g1, g2⟩ := hv v (by simp)
    have hl := fun w hw => hv w (List.mem_cons_of_mem _ hw)
    have hlt : c'.1 < d'.dot v ↔ c.1 < d.dot v.toReal := lt_iff h1 g1
    unfold Poly2d.extremeStep
    by_cases h : c.1 < d.dot v.toReal
    · rw [if_pos (hlt.2 h), if_pos h]
      exact poly_fold_is l hl _ _ g1 g2
    · rw [if_neg (fun hh => h (hlt.1 hh)), if_neg h]
      exact poly_fold_is l hl _ _ h1 h2

theorem corn32_poly {k B : ℤ} (hB : B ≤ 32) (hk1 : -7 ≤ k) (hk2 : k ≤ 12) (p : Poly2d F32)
    (hp : p.OnGrid32 k B) (hpr : p.toReal.Proper) :
    Corn32 k B p (Region.pts p.toReal) (p.points.map V2.toReal) []
      (fun d => extremePoint p.toReal d) (fun d => extremePoint p.toReal d) := by
  have hm : ∀ d : V2 ℝ, (extremePoint p.toReal d : V2 ℝ) ∈ p.points.map V2.toReal := fun d =>
    C10_poly_extreme_vertex p.toReal hpr.1 d
  refine ⟨fan_poly _ hpr, hm, hm, fun d' d hd hok => ?_⟩
  obtain ⟨x, h1, h2, h3, h4⟩ := supp32_poly hB hk1 hk2 p hp d' d hd hok
  refine ⟨x, h1, h2, h3, h4, fun _ => Or.inl ?_⟩
  have hs : (extremePoint p d').Is (extremePoint p.toReal d) := by
    refine poly_fold_is p.points (fun v hv => ⟨?_, (hp.2 v hv).is⟩) _ _ ?_ ⟨is_zero, is_zero⟩
    · exact (hok.dot hd (hp.2 v hv).is ((hp.2 v hv).gv.mono hB) (by omega) hk2).1
    · show F32.Is (FloatExtra.f32Min : F32) (FloatExtra.f32Min : ℝ)
      have e : (FloatExtra.f32Min : ℝ) = -(2 ^ 128 - 2 ^ 104) := ExactFloat.f32Min_eq
      rw [e]
      exact is_f32Min
  exact (V2.Is.toReal h2).symm.trans (V2.Is.toReal hs)

/-- the other corner in the direction of an axis -/
noncomputable def boxOther (h d : V2 ℝ) : V2 ℝ :=
  ⟨(if d.x = 0 then -FloatExtra.signum (0 : ℝ) else FloatExtra.signum d.x) * h.x,
   (if d.y = 0 then -FloatExtra.signum (0 : ℝ) else FloatExtra.signum d.y) * h.y⟩

theorem signum_unit (x : ℝ) : (FloatExtra.signum x : ℝ) = 1 ∨ (FloatExtra.signum x : ℝ) = -1 := by
  rcases lt_trichotomy x 0 with h | h | h
  · exact Or.inr (ExactFloat.signum_neg x h)
  · rw [h]; exact ExactFloat.signum_zero
  · exact Or.inl (ExactFloat.signum_pos x h)

theorem mem_boxCorners {h : V2 ℝ} {σ τ : ℝ} (hσ : σ = 1 ∨ σ = -1) (hτ : τ = 1 ∨ τ = -1) :
    (⟨σ * h.x, τ * h.y⟩ : V2 ℝ) ∈ boxCorners h := by
  rcases hσ with rfl | rfl <;> rcases hτ with rfl | rfl <;> simp [boxCorners]

theorem corn32_box {k B : ℤ} (hB : B ≤ 32) (hk1 : -7 ≤ k) (hk2 : k ≤ 12) (b : Box2d F32)
    (hb : b.OnGrid32 k B) :
    Corn32 k B b (Region.pts b.toReal) (boxCorners b.halfsize.toReal) axes
      (fun d => extremePoint b.toReal d) (boxOther b.halfsize.toReal) := by
  have eφ : ∀ d : V2 ℝ, (extremePoint b.toReal d : V2 ℝ) =
      ⟨FloatExtra.signum d.x * b.halfsize.toReal.x, FloatExtra.signum d.y * b.halfsize.toReal.y⟩ :=
    fun _ => rfl
  have hneg : ∀ {x : ℝ}, (x = 1 ∨ x = -1) → (-x = 1 ∨ -x = -1) := by
    rintro x (rfl | rfl) <;> simp
  refine ⟨fan_box _, fun d => ?_, fun d => ?_, fun d' d hd hok => ?_⟩
  · show (extremePoint b.toReal d : V2 ℝ) ∈ _
    rw [eφ]
    exact mem_boxCorners (signum_unit _) (signum_unit _)
  · unfold boxOther
    refine mem_boxCorners ?_ ?_ <;> split_ifs
    · exact hneg (signum_unit _)
    · exact signum_unit _
    · exact hneg (signum_unit _)
    · exact signum_unit _
  obtain ⟨σ, hσ, s1, a1⟩ := is_signum hd.1
  obtain ⟨τ, hτ, s2, a2⟩ := is_signum hd.2
  obtain ⟨x, h1, h2, h3, h4⟩ := supp32_box hB hk1 hk2 b hb d' d hd hok
  refine ⟨x, h1, h2, h3, h4, fun h0 => ?_⟩
  have hg := hb.1
  have hr : ∀ {ρ y : ℝ}, (ρ = 1 ∨ ρ = -1) → GZ k B y → GZ k B (ρ * y) := by
    rintro ρ y (rfl | rfl) h
    · rwa [one_mul]
    · rw [neg_one_mul]; exact h.neg
  have hx : x = ⟨σ * b.halfsize.toReal.x, τ * b.halfsize.toReal.y⟩ := by
    have hs : (extremePoint b d').Is ⟨σ * b.halfsize.toReal.x, τ * b.halfsize.toReal.y⟩ :=
      ⟨is_mul s1 hg.is.1 ((hr hσ hg.gv.1).rep (by omega) (by omega) (by omega)),
        is_mul s2 hg.is.2 ((hr hτ hg.gv.2).rep (by omega) (by omega) (by omega))⟩
    exact (V2.Is.toReal h2).symm.trans (V2.Is.toReal hs)
  have sgn : ∀ {ρ y : ℝ}, (ρ = 1 ∨ ρ = -1) → ρ * y = |y| → y ≠ 0 → ρ = FloatExtra.signum y := by
    intro ρ y hρ ha hy
    rcases lt_or_gt_of_ne hy with h | h
    · rw [ExactFloat.signum_neg y h]
      rcases hρ with rfl | rfl
      · rw [abs_of_neg h] at ha; linarith
      · rfl
    · rw [ExactFloat.signum_pos y h]
      rcases hρ with rfl | rfl
      · rfl
      · rw [abs_of_pos h] at ha; linarith
  have zer : ∀ {ρ : ℝ}, (ρ = 1 ∨ ρ = -1) → ρ = FloatExtra.signum (0 : ℝ) ∨ ρ = -FloatExtra.signum (0 : ℝ) := by
    intro ρ hρ
    rcases ExactFloat.signum_zero (K := ℝ) with h | h <;> rw [h] <;> rcases hρ with rfl | rfl <;> simp
  by_cases hx0 : d.x = 0
  · have hy0 : d.y ≠ 0 := fun hy0 => h0 (V2.ext hx0 hy0)
    have ht := sgn hτ a2 hy0
    rcases zer hσ with hz | hz
    · left
      rw [eφ, hx, hx0, ← hz, ← ht]
    · right
      rcases lt_or_gt_of_ne hy0 with h | h
      · refine ⟨⟨0, -1⟩, by simp [axes], -d.y, by linarith, by ext <;> simp [hx0], ?_⟩
        rw [hx, boxOther, hz, ht, ExactFloat.signum_neg _ h]
        simp [ExactFloat.signum_neg (-1 : ℝ) (by norm_num)]
      · refine ⟨⟨0, 1⟩, by simp [axes], d.y, h, by ext <;> simp [hx0], ?_⟩
        rw [hx, boxOther, hz, ht, ExactFloat.signum_pos _ h]
        simp [ExactFloat.signum_pos (1 : ℝ) (by norm_num)]
  · have ht := sgn hσ a1 hx0
    by_cases hy0 : d.y = 0
    · rcases zer hτ with hz | hz
      · left
        rw [eφ, hx, hy0, ← hz, ← ht]
      · right
        rcases lt_or_gt_of_ne hx0 with h | h
        · refine ⟨⟨-1, 0⟩, by simp [axes], -d.x, by linarith, by ext <;> simp [hy0], ?_⟩
          rw [hx, boxOther, hz, ht, ExactFloat.signum_neg _ h]
          simp [ExactFloat.signum_neg (-1 : ℝ) (by norm_num)]
        · refine ⟨⟨1, 0⟩, by simp [axes], d.x, h, by ext <;> simp [hy0], ?_⟩
          rw [hx, boxOther, hz, ht, ExactFloat.signum_pos _ h]
          simp [ExactFloat.signum_pos (1 : ℝ) (by norm_num)]
    · left
      rw [eφ, hx, ← ht, ← sgn hτ a2 hy0]

/-! ## pairs -/

variable {A B : Type} [ExtremePoint2d A F32] [ExtremePoint2d B F32] {a : A} {b : B}
  {X Y : Set (V2 ℝ)} {VA VB ea eb : List (V2 ℝ)} {rel : V2 F32} {k na nb nr : ℤ} {φ ψ φ' ψ' : V2 ℝ → V2 ℝ}

open Classical in
/-- the values which two fans take together -/
theorem fan_values (hf : Fan φ) (hg : Fan φ') {la lb : List (V2 ℝ)} (hla : ∀ d, φ d ∈ la)
    (hlb : ∀ d, φ' d ∈ lb) : ∃ V : List (V2 ℝ × V2 ℝ), V.length ≤ la.length + lb.length ∧
      (∀ d, d ≠ 0 → (φ d, φ' d) ∈ V) ∧ ∀ v ∈ V, v.1 ∈ la ∧ v.2 ∈ lb := by
  set W : Set (V2 ℝ × V2 ℝ) := (fun d => (φ d, φ' d)) '' {d | d ≠ 0} with hW
  have hfin : W.Finite := by
    refine Set.Finite.subset (List.finite_toSet (la ×ˢ lb)) ?_
    rintro _ ⟨d, -, rfl⟩
    exact List.mem_product.2 ⟨hla d, hlb d⟩
  have hmem : ∀ v, v ∈ hfin.toFinset.toList ↔ ∃ d, d ≠ 0 ∧ (φ d, φ' d) = v := by
    intro v
    rw [Finset.mem_toList, Set.Finite.mem_toFinset]
    exact Iff.rfl
  refine ⟨hfin.toFinset.toList, ?_, fun d hd => (hmem _).2 ⟨d, hd, rfl⟩, fun v hv => ?_⟩
  · have hD : ∀ L : List (V2 ℝ × V2 ℝ), (∀ v ∈ L, ∃ d, d ≠ 0 ∧ (φ d, φ' d) = v) →
        ∃ D : List (V2 ℝ), D.map (fun d => (φ d, φ' d)) = L ∧ ∀ d ∈ D, d ≠ 0 := by
      intro L
      induction L with
      | nil => exact fun _ => ⟨[], rfl, by simp⟩
      | cons e L ih =>
        intro h
        obtain ⟨D, h1, h2⟩ := ih fun v hv => h v (List.mem_cons_of_mem _ hv)
        obtain ⟨d, hd, he⟩ := h e (by simp)
        refine ⟨d :: D, by rw [List.map_cons, h1, he], fun x hx => ?_⟩
        rcases List.mem_cons.1 hx with rfl | hx
        · exact hd
        · exact h2 x hx
    obtain ⟨D, h1, h2⟩ := hD _ fun v hv => (hmem v).1 hv
    have hnd := Finset.nodup_toList hfin.toFinset
    rw [← h1] at hnd ⊢
    rw [List.length_map]
    exact Fan.count hf hg hla hlb D h2 (List.pairwise_map.1 hnd)
  · obtain ⟨d, -, rfl⟩ := (hmem v).1 hv
    exact ⟨hla d, hlb d⟩

theorem fan_neg (hf : Fan φ) : Fan fun d => φ (-d) := by
  constructor
  · intro d e s t hd he hs ht h
    have := hf.cone (-d) (-e) s t (neg_ne_zero.2 hd) (neg_ne_zero.2 he) hs ht h
    show φ (-(V2.scale s d + V2.scale t e)) = φ (-d)
    rw [← this]
    congr 1
    ext <;> simp <;> ring
  · intro d hd h
    have := hf.opp (-d) (neg_ne_zero.2 hd) h
    have e : ∀ u v : V2 ℝ, Fan.cr (-u) (-v) = Fan.cr u v := by intro u v; simp [Fan.cr]
    exact this.imp (fun g u hu => g (-u) (by rwa [e])) fun g u hu => g (-u) (by rwa [e])

/-- all values of the support function of the difference in directions that are not zero -/
theorem supportNz_corners (hA : Corn32 k na a X VA ea φ ψ) (hB : Corn32 k nb b Y VB eb φ' ψ')
    (hea : ∀ u ∈ ea, -u ∈ ea ∧ u ≠ 0) (heb : ∀ u ∈ eb, -u ∈ eb ∧ u ≠ 0)
    (hone : ea = [] ∨ eb = [])
    (hr : rel.OnGrid32 k nr) (hn : na + nb + nr ≤ 32) (hna : 0 ≤ na) (hk1 : -7 ≤ k) (hk2 : k ≤ 12) :
    ∃ V : List (V2 ℝ), V.length ≤ VA.length + VB.length + ea.length + eb.length ∧
      (∀ v ∈ V, v ∈ VA.flatMap fun x => VB.map fun y => x - (y + rel.toReal)) ∧
      SupportNz k (minkDiff X (shift rel.toReal Y)) V (extremePoint (LocalMinkowskiDiff2d.mk a b rel)) := by
  obtain ⟨V₀, h1, h2, h3⟩ := fan_values hA.fan (fan_neg hB.fan) hA.memφ fun d => hB.memφ (-d)
  set f : V2 ℝ × V2 ℝ → V2 ℝ := fun v => v.1 - (v.2 + rel.toReal) with hf
  set W : List (V2 ℝ × V2 ℝ) := V₀ ++ (ea.map (fun u => (ψ u, φ' (-u))) ++ eb.map fun u => (φ (-u), ψ' u)) with hW
  have hWm : ∀ v ∈ W, v.1 ∈ VA ∧ v.2 ∈ VB := by
    intro v hv
    rcases List.mem_append.1 hv with hv | hv
    · exact h3 v hv
    rcases List.mem_append.1 hv with hv | hv
    · obtain ⟨u, _, rfl⟩ := List.mem_map.1 hv
      exact ⟨hA.memψ _, hB.memφ _⟩
    · obtain ⟨u, _, rfl⟩ := List.mem_map.1 hv
      exact ⟨hA.memφ _, hB.memψ _⟩
  refine ⟨W.map f, ?_, ?_, ?_⟩
  · simp only [hW, List.length_map, List.length_append]
    omega
  · intro v hv
    obtain ⟨w, hw, rfl⟩ := List.mem_map.1 hv
    obtain ⟨g1, g2⟩ := hWm w hw
    exact List.mem_flatMap.2 ⟨w.1, g1, List.mem_map_of_mem g2⟩
  intro d' d hd hok
  obtain ⟨p, -, hp, hpe, hpg, hpφ⟩ := hA.at' d' d hd hok
  obtain ⟨q, -, hq, hqe, hqg, hqφ⟩ := hB.at' (-d') (-d) hd.neg hok.neg
  have g1 := hqg.add hr.gv
  have g2 := hpg.sub g1
  have hna' := hpg.1.nonneg
  have hs : (extremePoint b (-d') + rel).Is (q + rel.toReal) :=
    hq.add hr.is g1 (by omega) (by omega) (by omega)
  refine ⟨p - (q + rel.toReal), fun h0 => ?_, hp.sub hs g2 (by omega) (by omega) (by omega), ⟨?_, ?_⟩,
    g2.mono (by omega)⟩
  · have hpq : (p, q) ∈ W := by
      rcases hpφ h0 with rfl | ⟨u, hu, c, hc, hdu, rfl⟩
      · rcases hqφ (neg_ne_zero.2 h0) with rfl | ⟨u, hu, c, hc, hdu, rfl⟩
        · exact List.mem_append_left _ (h2 d h0)
        · refine List.mem_append_right _ (List.mem_append_right _ (List.mem_map.2 ⟨u, hu, ?_⟩))
          have e : d = V2.scale c (-u) := by
            rw [← neg_neg d, hdu]; ext <;> simp
          rw [e, hA.fan.scale_eq (neg_ne_zero.2 (heb u hu).2) hc]
      · rcases hqφ (neg_ne_zero.2 h0) with rfl | ⟨w, hw, -⟩
        · refine List.mem_append_right _ (List.mem_append_left _ (List.mem_map.2 ⟨u, hu, ?_⟩))
          have e : -d = V2.scale c (-u) := by rw [hdu]; ext <;> simp
          rw [e, hB.fan.scale_eq (neg_ne_zero.2 (hea u hu).2) hc]
        · rcases hone with h | h
          · rw [h] at hu; cases hu
          · rw [h] at hw; cases hw
    exact List.mem_map.2 ⟨_, hpq, rfl⟩
  · exact ⟨p, hpe.1, _, ⟨q, hqe.1, rfl⟩, rfl⟩
  · rintro _ ⟨x, hx, _, ⟨y, hy, rfl⟩, rfl⟩
    have h1 := hpe.2 x hx
    have h2 := hqe.2 y hy
    rw [neg_dot, neg_dot] at h2
    rw [dot_sub, dot_sub, dot_add, dot_add]
    linarith

end

section
variable [env : F32Env]

theorem axes_neg : ∀ u ∈ axes, -u ∈ axes ∧ u ≠ 0 := by
  intro u hu
  have hne : ∀ x y : ℝ, x ≠ 0 ∨ y ≠ 0 → (⟨x, y⟩ : V2 ℝ) ≠ 0 := by
    rintro x y h h0
    rw [V2.ext_iff] at h0
    exact h.elim (fun h => h h0.1) fun h => h h0.2
  simp only [axes, List.mem_cons, List.not_mem_nil, or_false] at hu
  have hm : ∀ x y : ℝ, -(⟨x, y⟩ : V2 ℝ) = ⟨-x, -y⟩ := fun _ _ => rfl
  rcases hu with rfl | rfl | rfl | rfl <;>
    refine ⟨?_, hne _ _ (by norm_num)⟩ <;> rw [hm] <;> norm_num [axes]

variable {A B : Type} [ExtremePoint2d A F32] [ExtremePoint2d B F32] {a : A} {b : B}
  {X Y : Set (V2 ℝ)} {VA VB : List (V2 ℝ)} {rel : V2 F32} {k na nb nr : ℤ}

/-- `pair_edge_f32` from a list of the values of the support function -/
theorem pair_edge_f32_of [DefaultMinkowski A B] (cX : Convex ℝ X) (cY : Convex ℝ Y)
    (hr : rel.OnGrid32 k nr) (hn : nr ≤ 32) (hk1 : -7 ≤ k) (hk2 : k ≤ 12)
    (hS : ∃ V : List (V2 ℝ), V.length ≤ 20 ∧
      (∀ v ∈ V, v ∈ VA.flatMap fun x => VB.map fun y => x - (y + rel.toReal)) ∧
      SupportNz k (minkDiff X (shift rel.toReal Y)) V (extremePoint (LocalMinkowskiDiff2d.mk a b rel))) :
    DistanceExact (distanceToRel a b rel) ((2 : ℝ) ^ (k - 16)) X (shift rel.toReal Y)
      (fun w => ShortestUpTo 1 w X (shift rel.toReal Y) ∨
        ShortestOfEdge32 VA VB rel.toReal X (shift rel.toReal Y) 1 w) ∧
    SdfvExact (sdfvRel a b rel) ((2 : ℝ) ^ (k - 16)) X (shift rel.toReal Y)
      (fun w => ShortestUpTo (49 / 50) w X (shift rel.toReal Y) ∨
        ShortestOfEdge32 VA VB rel.toReal X (shift rel.toReal Y) (49 / 50) w) := by
  obtain ⟨V, h1, h2, h3⟩ := hS
  refine pair_dist_f32_of (P := fun κ w => ShortestUpTo κ w X (shift rel.toReal Y) ∨
        ShortestOfEdge32 VA VB rel.toReal X (shift rel.toReal Y) κ w) cX cY hr hn hk1 hk2 h3 h2
    (Nat.lt_succ_of_le h1) ?_
  intro _ _ d0 q _ _ _ _
  refine ⟨fun _ _ _ => True, fun _ _ _ _ _ _ _ _ _ _ _ _ _ => trivial, trivial, fun κ w h _ => ?_⟩
  exact h.imp id shortestOfEdge32

/-- Poly2d v Poly2d on binary32: at most 20 vertices together. -/
theorem C73_f32_corners_poly_poly (a b : Poly2d F32) (rel : V2 F32) {k na nb nr : ℤ}
    (ha : a.OnGrid32 k na) (hb : b.OnGrid32 k nb) (pa : a.toReal.Proper) (pb : b.toReal.Proper)
    (hr : rel.OnGrid32 k nr) (hn : na + nb + nr ≤ 32) (hk1 : -7 ≤ k)
    (hk2 : k ≤ 12) (hV : a.points.length + b.points.length ≤ 20) :
    DistanceExact (distanceToRel a b rel) ((2 : ℝ) ^ (k - 16)) (Region.pts a.toReal)
      (shift rel.toReal (Region.pts b.toReal))
      (fun w => ShortestUpTo 1 w (Region.pts a.toReal) (shift rel.toReal (Region.pts b.toReal)) ∨
        ShortestOfEdge32 (a.points.map V2.toReal) (b.points.map V2.toReal) rel.toReal
          (Region.pts a.toReal) (shift rel.toReal (Region.pts b.toReal)) 1 w) ∧
    SdfvExact (sdfvRel a b rel) ((2 : ℝ) ^ (k - 16)) (Region.pts a.toReal)
      (shift rel.toReal (Region.pts b.toReal))
      (fun w => ShortestUpTo (49 / 50) w (Region.pts a.toReal)
          (shift rel.toReal (Region.pts b.toReal)) ∨
        ShortestOfEdge32 (a.points.map V2.toReal) (b.points.map V2.toReal) rel.toReal
          (Region.pts a.toReal) (shift rel.toReal (Region.pts b.toReal)) (49 / 50) w) := by
  have h1 := ha.le
  have h2 := hb.le
  have h3 := hr.1.le
  refine pair_edge_f32_of (convex_convexHull ℝ _) (convex_convexHull ℝ _) hr (by omega) hk1 hk2 ?_
  let _ := realFloat true 0
  have := realFloat_exact true 0
  obtain ⟨V, g1, g2, g3⟩ := supportNz_corners (corn32_poly (by omega) hk1 hk2 a ha pa)
    (corn32_poly (by omega) hk1 hk2 b hb pb) (by simp) (by simp) (Or.inl rfl) hr hn h1 hk1 hk2
  refine ⟨V, ?_, g2, g3⟩
  simp only [List.length_map, List.length_nil] at g1
  omega

/-- Box2d v Poly2d on binary32, both orders: polygons of at most twelve vertices. -/
theorem C73_f32_corners_box_poly (a : Box2d F32) (b : Poly2d F32) (rel : V2 F32) {k na nb nr : ℤ}
    (ha : a.OnGrid32 k na) (hb : b.OnGrid32 k nb) (pb : b.toReal.Proper)
    (hr : rel.OnGrid32 k nr) (hn : na + nb + nr ≤ 32) (hk1 : -7 ≤ k)
    (hk2 : k ≤ 12) (hV : b.points.length ≤ 12) :
    DistanceExact (distanceToRel a b rel) ((2 : ℝ) ^ (k - 16)) (Region.pts a.toReal)
      (shift rel.toReal (Region.pts b.toReal))
      (fun w => ShortestUpTo 1 w (Region.pts a.toReal) (shift rel.toReal (Region.pts b.toReal)) ∨
        ShortestOfEdge32 (boxCorners a.halfsize.toReal) (b.points.map V2.toReal) rel.toReal
          (Region.pts a.toReal) (shift rel.toReal (Region.pts b.toReal)) 1 w) ∧
    SdfvExact (sdfvRel a b rel) ((2 : ℝ) ^ (k - 16)) (Region.pts a.toReal)
      (shift rel.toReal (Region.pts b.toReal))
      (fun w => ShortestUpTo (49 / 50) w (Region.pts a.toReal)
          (shift rel.toReal (Region.pts b.toReal)) ∨
        ShortestOfEdge32 (boxCorners a.halfsize.toReal) (b.points.map V2.toReal) rel.toReal
          (Region.pts a.toReal) (shift rel.toReal (Region.pts b.toReal)) (49 / 50) w) := by
  have h1 := ha.1.1.le
  have h2 := hb.le
  have h3 := hr.1.le
  refine pair_edge_f32_of (convex_box32 _) (convex_convexHull ℝ _) hr (by omega) hk1 hk2 ?_
  let _ := realFloat true 0
  have := realFloat_exact true 0
  obtain ⟨V, g1, g2, g3⟩ := supportNz_corners (corn32_box (by omega) hk1 hk2 a ha)
    (corn32_poly (by omega) hk1 hk2 b hb pb) axes_neg (by simp) (Or.inr rfl) hr hn h1 hk1 hk2
  refine ⟨V, ?_, g2, g3⟩
  simp only [List.length_map, List.length_nil, boxCorners, axes, List.length_cons] at g1
  omega

theorem C73_f32_corners_poly_box (a : Poly2d F32) (b : Box2d F32) (rel : V2 F32) {k na nb nr : ℤ}
    (ha : a.OnGrid32 k na) (hb : b.OnGrid32 k nb) (pa : a.toReal.Proper)
    (hr : rel.OnGrid32 k nr) (hn : na + nb + nr ≤ 32) (hk1 : -7 ≤ k)
    (hk2 : k ≤ 12) (hV : a.points.length ≤ 12) :
    DistanceExact (distanceToRel a b rel) ((2 : ℝ) ^ (k - 16)) (Region.pts a.toReal)
      (shift rel.toReal (Region.pts b.toReal))
      (fun w => ShortestUpTo 1 w (Region.pts a.toReal) (shift rel.toReal (Region.pts b.toReal)) ∨
        ShortestOfEdge32 (a.points.map V2.toReal) (boxCorners b.halfsize.toReal) rel.toReal
          (Region.pts a.toReal) (shift rel.toReal (Region.pts b.toReal)) 1 w) ∧
    SdfvExact (sdfvRel a b rel) ((2 : ℝ) ^ (k - 16)) (Region.pts a.toReal)
      (shift rel.toReal (Region.pts b.toReal))
      (fun w => ShortestUpTo (49 / 50) w (Region.pts a.toReal)
          (shift rel.toReal (Region.pts b.toReal)) ∨
        ShortestOfEdge32 (a.points.map V2.toReal) (boxCorners b.halfsize.toReal) rel.toReal
          (Region.pts a.toReal) (shift rel.toReal (Region.pts b.toReal)) (49 / 50) w) := by
  have h1 := ha.le
  have h2 := hb.1.1.le
  have h3 := hr.1.le
  refine pair_edge_f32_of (convex_convexHull ℝ _) (convex_box32 _) hr (by omega) hk1 hk2 ?_
  let _ := realFloat true 0
  have := realFloat_exact true 0
  obtain ⟨V, g1, g2, g3⟩ := supportNz_corners (corn32_poly (by omega) hk1 hk2 a ha pa)
    (corn32_box (by omega) hk1 hk2 b hb) (by simp) axes_neg (Or.inl rfl) hr hn h1 hk1 hk2
  refine ⟨V, ?_, g2, g3⟩
  simp only [List.length_map, List.length_nil, boxCorners, axes, List.length_cons] at g1
  omega

/-- a box or a polygon on the grid; the polygon as in `Poly2d.Proper` -/
def Shape2d.OnGrid32Proper (k B : ℤ) : Shape2d F32 → Prop
  | .ball _ => False
  | .box b => b.OnGrid32 k B
  | .poly p => p.OnGrid32 k B ∧ p.toReal.Proper

/-- what a shape adds to the number of extreme points: a polygon its vertices, a box four corners and
four more for the signs of zeros -/
def Shape2d.weight32 : Shape2d F32 → ℕ
  | .ball _ => 0
  | .box _ => 8
  | .poly p => p.points.length

/-- Shape2d v Shape2d on binary32: polygons of at most 20 vertices together, boxes, a box and a
polygon of at most twelve vertices. -/
theorem C73_f32_corners_shape2d (a b : Shape2d F32) (rel : V2 F32) {k na nb nr : ℤ}
    (ha : a.OnGrid32Proper k na) (hb : b.OnGrid32Proper k nb) (hr : rel.OnGrid32 k nr)
    (hn : na + nb + nr ≤ 32) (hk1 : -7 ≤ k) (hk2 : k ≤ 12) (hV : a.weight32 + b.weight32 ≤ 20) :
    DistanceExact (distanceToRel a b rel) ((2 : ℝ) ^ (k - 16)) (Region.pts a.toReal)
      (shift rel.toReal (Region.pts b.toReal))
      (fun w => ShortestUpTo 1 w (Region.pts a.toReal) (shift rel.toReal (Region.pts b.toReal)) ∨
        ShortestOfEdge32 a.corners32 b.corners32 rel.toReal
          (Region.pts a.toReal) (shift rel.toReal (Region.pts b.toReal)) 1 w) ∧
    SdfvExact (sdfvRel a b rel) ((2 : ℝ) ^ (k - 16)) (Region.pts a.toReal)
      (shift rel.toReal (Region.pts b.toReal))
      (fun w => ShortestUpTo (49 / 50) w (Region.pts a.toReal)
          (shift rel.toReal (Region.pts b.toReal)) ∨
        ShortestOfEdge32 a.corners32 b.corners32 rel.toReal
          (Region.pts a.toReal) (shift rel.toReal (Region.pts b.toReal)) (49 / 50) w) := by
  cases a with
  | ball a => exact ha.elim
  | box a =>
    cases b with
    | ball b => exact hb.elim
    | box b =>
      have h1 := ha.1.1.le
      have h2 := hb.1.1.le
      have h3 := hr.1.le
      exact pair_edge_f32 (a := Shape2d.box a) (b := Shape2d.box b) (VA := boxCorners a.halfsize.toReal)
        (VB := boxCorners b.halfsize.toReal) (convex_box32 _) (convex_box32 _)
        (supp32_box (by omega) hk1 hk2 a ha) (supp32_box (by omega) hk1 hk2 b hb) hr hn h1 h2 hk1 hk2
        (by simp [boxCorners])
    | poly b =>
      exact C73_f32_corners_box_poly a b rel ha hb.1 hb.2 hr hn hk1 hk2 (by
        simp only [Shape2d.weight32] at hV; omega)
  | poly a =>
    cases b with
    | ball b => exact hb.elim
    | box b =>
      exact C73_f32_corners_poly_box a b rel ha.1 hb ha.2 hr hn hk1 hk2 (by
        simp only [Shape2d.weight32] at hV; omega)
    | poly b => exact C73_f32_corners_poly_poly a b rel ha.1 hb.1 ha.2 hb.2 hr hn hk1 hk2 hV

/-- two octagons (64 pairs of vertices, 16 together), the second moved by (8, 0): `distance_to` gives
a vector that brings them into contact up to 2^-16 -/
example : ∃ (a : Poly2d F32) (r : V2 F32), a.points.length = 8 ∧ a.toReal = octagon ℝ ∧ r.toReal = ⟨8, 0⟩ ∧
    ∃ v x : V2 _, ∃ w : V2 ℝ, distanceToRel a a r = .ok (some v) ∧ v.Is x ∧
      V2.Within ((2 : ℝ) ^ ((0 : ℤ) - 16)) x w ∧
      Touch (shift w (Region.pts (octagon ℝ))) (shift ⟨8, 0⟩ (Region.pts (octagon ℝ))) := by
  let f : ℤ → F32 := fun n => ofReal false ((n : ℝ) * 2 ^ (0 : ℤ))
  have mk : ∀ n : ℤ, |n| ≤ 8 → F32.Is (f n) (n * 2 ^ (0 : ℤ)) :=
    fun n hn => is_ofReal (representable_scaled n 0 (by omega) (by norm_num) (by norm_num))
  have hf : ∀ n B : ℤ, |n| ≤ B → B ≤ 8 → (f n).OnGrid 0 B := fun n B hn hB =>
    F32.Is.onGrid (mk n (hn.trans hB)) ⟨n, rfl, hn⟩
  have hv : ∀ n : ℤ, |n| ≤ 8 → (f n).toReal = n := fun n hn => by
    rw [F32.Is.toReal (mk n hn)]; norm_num
  let a : Poly2d F32 := ⟨[⟨f 3, f 1⟩, ⟨f 1, f 3⟩, ⟨f (-1), f 3⟩, ⟨f (-3), f 1⟩, ⟨f (-3), f (-1)⟩, ⟨f (-1), f (-3)⟩,
    ⟨f 1, f (-3)⟩, ⟨f 3, f (-1)⟩]⟩
  have ga : a.OnGrid32 0 3 := by
    refine ⟨by simp [a], fun v hv => ?_⟩
    simp only [a, List.mem_cons, List.not_mem_nil, or_false] at hv
    rcases hv with rfl | rfl | rfl | rfl | rfl | rfl | rfl | rfl <;>
      exact ⟨hf _ _ (by norm_num) (by norm_num), hf _ _ (by norm_num) (by norm_num)⟩
  have gr : (⟨f 8, f 0⟩ : V2 F32).OnGrid32 0 8 :=
    ⟨hf _ _ (by norm_num) (by norm_num), hf _ _ (by norm_num) (by norm_num)⟩
  have er : (⟨f 8, f 0⟩ : V2 F32).toReal = ⟨8, 0⟩ := by
    simp only [V2.toReal, hv 8 (by norm_num), hv 0 (by norm_num)]; norm_num
  have ea : a.toReal = octagon ℝ := by
    simp only [a, octagon, Poly2d.toReal, V2.toReal, List.map, hv 3 (by norm_num), hv 1 (by norm_num),
      hv (-1) (by norm_num), hv (-3) (by norm_num)]
    norm_num
  have facts : (octagon ℝ).Proper ∧ ∀ p ∈ Region.pts (octagon ℝ), |p.x| ≤ 3 ∧ |p.y| ≤ 3 := by
    let _ := realFloat true 0
    have := realFloat_exact true 0
    exact ⟨octagon_proper, fun p hp => octagon_bound hp⟩
  obtain ⟨proper, bound⟩ := facts
  refine ⟨a, ⟨f 8, f 0⟩, rfl, ea, er, ?_⟩
  have key := (C73_f32_corners_poly_poly a a _ ga ga (by rw [ea]; exact proper) (by rw [ea]; exact proper) gr
    (by norm_num) (by norm_num) (by norm_num) (by simp [a])).1.determined.2
  rw [ea, er] at key
  obtain ⟨v, x, w, h1, h2, h3, h4, -⟩ := key (by
    rintro ⟨p, hp, q, hq, rfl⟩
    have h1 := abs_le.1 (bound _ hp).1
    have h2 := abs_le.1 (bound _ hq).1
    simp only [add_x] at h1
    linarith [h1.2, h2.1])
  exact ⟨v, x, w, h1, h2, h3, h4⟩

end
end Auburn
