import Verif.Ieee.Gjk
import Verif.Props.Gjk

/-!
# C71: collision answers computed in binary32 are exact on a dyadic grid

Everything here is about the model run on IEEE-754 binary32 (`F32`): shapes and positions are given
by binary32 numbers, the search computes with rounded binary32 arithmetic, and the theorems compare
its answer with the geometry of the real point sets.
-/

set_option linter.unusedSectionVars false
set_option synthInstance.maxSize 1000

namespace Auburn

open F32 V2 ExtremePoint2d Transformation2d

/-! ## what the binary32 data mean -/

/-- the real number a finite binary32 stands for -/
noncomputable def F32.toReal : F32 → ℝ
  | .fin s m _ => sval s m
  | _ => 0
/-- the point of the plane -/
noncomputable def V2.toReal (v : V2 F32) : V2 ℝ := ⟨v.x.toReal, v.y.toReal⟩
noncomputable def Box2d.toReal (b : Box2d F32) : Box2d ℝ := ⟨b.halfsize.toReal⟩
noncomputable def Poly2d.toReal (p : Poly2d F32) : Poly2d ℝ := ⟨p.points.map V2.toReal⟩

/-- finite, an integer multiple of `2^k`, and at most `B` such units from zero -/
def F32.OnGrid (k B : ℤ) (a : F32) : Prop :=
  (∃ s m h, a = .fin s m h) ∧ ∃ n : ℤ, a.toReal = n * (2 : ℝ) ^ k ∧ |n| ≤ B
def V2.OnGrid32 (k B : ℤ) (v : V2 F32) : Prop := v.x.OnGrid k B ∧ v.y.OnGrid k B

/-- a box with non-negative half sizes on the grid -/
def Box2d.OnGrid32 (k B : ℤ) (b : Box2d F32) : Prop :=
  b.halfsize.OnGrid32 k B ∧ 0 ≤ b.halfsize.x.toReal ∧ 0 ≤ b.halfsize.y.toReal
/-- a non-empty polygon with vertices on the grid -/
def Poly2d.OnGrid32 (k B : ℤ) (p : Poly2d F32) : Prop :=
  p.points ≠ [] ∧ ∀ v ∈ p.points, v.OnGrid32 k B

theorem F32.OnGrid.is {k B : ℤ} {a : F32} (h : a.OnGrid k B) : F32.Is a a.toReal := by
  obtain ⟨⟨s, m, hm, rfl⟩, _⟩ := h
  exact ⟨s, m, hm, rfl, rfl⟩
theorem F32.Is.toReal {a : F32} {x : ℝ} (h : F32.Is a x) : a.toReal = x := by
  obtain ⟨s, m, hm, rfl, rfl⟩ := h
  rfl
theorem F32.Is.onGrid {k B : ℤ} {a : F32} {x : ℝ} (h : F32.Is a x) (hg : GZ k B x) :
    a.OnGrid k B := by
  refine ⟨?_, ?_⟩
  · obtain ⟨s, m, hm, e, _⟩ := h
    exact ⟨s, m, hm, e⟩
  · rw [h.toReal]; exact hg
theorem V2.OnGrid32.is {k B : ℤ} {v : V2 F32} (h : v.OnGrid32 k B) : v.Is v.toReal :=
  ⟨h.1.is, h.2.is⟩
theorem V2.OnGrid32.gv {k B : ℤ} {v : V2 F32} (h : v.OnGrid32 k B) : v.toReal.GV k B :=
  ⟨h.1.2, h.2.2⟩
theorem V2.Is.toReal {a : V2 F32} {v : V2 ℝ} (h : a.Is v) : a.toReal = v := by
  ext
  · exact F32.Is.toReal h.1
  · exact F32.Is.toReal h.2
theorem V2.Is.onGrid {k B : ℤ} {a : V2 F32} {v : V2 ℝ} (h : a.Is v) (hg : v.GV k B) :
    a.OnGrid32 k B := ⟨F32.Is.onGrid h.1 hg.1, F32.Is.onGrid h.2 hg.2⟩

section
variable [env : F32Env]

/-! ## extreme points on binary32 -/

/-- in exact directions `extreme_point` returns one of the listed grid points, a farthest one -/
def Supp32 {S : Type} [ExtremePoint2d S F32] (k B : ℤ) (s : S) (A : Set (V2 ℝ))
    (V : List (V2 ℝ)) : Prop :=
  ∀ (d' : V2 F32) (d : V2 ℝ), d'.Is d → DirOk 32 d →
    ∃ p ∈ V, (extremePoint s d').Is p ∧ IsExtreme A d p ∧ p.GV k B

theorem is_signum {a : F32} {x : ℝ} (h : F32.Is a x) :
    ∃ σ : ℝ, (σ = 1 ∨ σ = -1) ∧ F32.Is (FloatExtra.signum a) σ ∧ σ * x = |x| := by
  obtain ⟨s, m, hm, rfl, rfl⟩ := h
  cases s
  · exact ⟨1, Or.inl rfl, is_one, by simp [abs_of_nonneg hm.1]⟩
  · exact ⟨-1, Or.inr rfl, is_neg is_one, by simp [abs_of_nonneg hm.1]⟩

/-- the corners of a box -/
def boxCorners (h : V2 ℝ) : List (V2 ℝ) :=
  [⟨h.x, h.y⟩, ⟨h.x, -h.y⟩, ⟨-h.x, h.y⟩, ⟨-h.x, -h.y⟩]

theorem supp32_box {k B : ℤ} (hB : B ≤ 32) (hk1 : -7 ≤ k) (hk2 : k ≤ 12) (b : Box2d F32)
    (hb : b.OnGrid32 k B) :
    Supp32 k B b (Region.pts b.toReal) (boxCorners b.halfsize.toReal) := by
  intro d' d hd hok
  obtain ⟨hg, hx, hy⟩ := hb
  obtain ⟨σ, hσ, s1, a1⟩ := is_signum hd.1
  obtain ⟨τ, hτ, s2, a2⟩ := is_signum hd.2
  have hr1 : GZ k B (σ * b.halfsize.toReal.x) := by
    rcases hσ with rfl | rfl
    · rw [one_mul]; exact hg.gv.1
    · rw [neg_one_mul]; exact hg.gv.1.neg
  have hr2 : GZ k B (τ * b.halfsize.toReal.y) := by
    rcases hτ with rfl | rfl
    · rw [one_mul]; exact hg.gv.2
    · rw [neg_one_mul]; exact hg.gv.2.neg
  refine ⟨⟨σ * b.halfsize.toReal.x, τ * b.halfsize.toReal.y⟩, ?_, ⟨?_, ?_⟩, ⟨⟨?_, ?_⟩, ?_⟩, hr1, hr2⟩
  · rcases hσ with rfl | rfl <;> rcases hτ with rfl | rfl <;> simp [boxCorners]
  · exact is_mul s1 hg.is.1 (hr1.rep (by omega) (by omega) (by omega))
  · exact is_mul s2 hg.is.2 (hr2.rep (by omega) (by omega) (by omega))
  · show |σ * b.halfsize.toReal.x| ≤ b.halfsize.toReal.x
    rw [abs_mul]
    rcases hσ with rfl | rfl <;> simp [abs_of_nonneg (show 0 ≤ b.halfsize.toReal.x from hx)]
  · show |τ * b.halfsize.toReal.y| ≤ b.halfsize.toReal.y
    rw [abs_mul]
    rcases hτ with rfl | rfl <;> simp [abs_of_nonneg (show 0 ≤ b.halfsize.toReal.y from hy)]
  · rintro q ⟨h1, h2⟩
    have h1 : |q.x| ≤ b.halfsize.toReal.x := h1
    have h2 : |q.y| ≤ b.halfsize.toReal.y := h2
    have e1 : d.x * (σ * b.halfsize.toReal.x) = |d.x| * b.halfsize.toReal.x := by rw [← a1]; ring
    have e2 : d.y * (τ * b.halfsize.toReal.y) = |d.y| * b.halfsize.toReal.y := by rw [← a2]; ring
    rw [dot_def, dot_def]
    simp only [e1, e2]
    have m1 : d.x * q.x ≤ |d.x| * b.halfsize.toReal.x :=
      (le_abs_self _).trans (by rw [abs_mul]; exact mul_le_mul_of_nonneg_left h1 (abs_nonneg _))
    have m2 : d.y * q.y ≤ |d.y| * b.halfsize.toReal.y :=
      (le_abs_self _).trans (by rw [abs_mul]; exact mul_le_mul_of_nonneg_left h2 (abs_nonneg _))
    linarith

theorem is_f32Min : F32.Is (FloatExtra.f32Min : F32) (-(2 ^ 128 - 2 ^ 104)) := by
  refine is_ofReal ?_
  refine ⟨-(2 ^ 24 - 1), 104, ?_, by norm_num, by norm_num, by norm_num⟩
  push_cast; norm_num

theorem supp32_poly {k B : ℤ} (hB : B ≤ 32) (hk1 : -7 ≤ k) (hk2 : k ≤ 12) (p : Poly2d F32)
    (hp : p.OnGrid32 k B) :
    Supp32 k B p (Region.pts p.toReal) (p.points.map V2.toReal) := by
  intro d' d hd hok
  obtain ⟨hne, hg⟩ := hp
  have hscore : ∀ v ∈ p.points, F32.Is (d'.dot v) (d.dot v.toReal) := fun v hv =>
    (hok.dot hd (hg v hv).is ((hg v hv).gv.mono hB) (by omega) hk2).1
  have hbig : ∀ v ∈ p.points, (FloatExtra.f32Min : F32) < d'.dot v := by
    intro v hv
    rw [lt_iff is_f32Min (hscore v hv)]
    obtain ⟨j, D, h1, h2, h3, h4⟩ := hok
    have h5 := (gv_dot h1 ((hg v hv).gv.mono hB)).abs_le
    have h6' : D * 32 + D * 32 ≤ (2 : ℤ) ^ 24 := by linarith
    have h6 : ((D * 32 + D * 32 : ℤ) : ℝ) ≤ 2 ^ 24 := by exact_mod_cast h6'
    have h7 : (2 : ℝ) ^ (j + k) ≤ 2 ^ (48 : ℤ) := zpow_le_zpow_right₀ (by norm_num) (by omega)
    have h8 : |d.dot v.toReal| ≤ 2 ^ 24 * 2 ^ (48 : ℤ) :=
      h5.trans (mul_le_mul h6 h7 (two_zpow_pos _).le (by norm_num))
    have h9 := neg_abs_le (d.dot v.toReal)
    have h10 : (2 : ℝ) ^ 24 * 2 ^ (48 : ℤ) < 2 ^ 128 - 2 ^ 104 := by norm_num
    linarith
  obtain ⟨v₀, hv₀⟩ := List.exists_mem_of_ne_nil _ hne
  obtain ⟨hmem, hmax⟩ : extremePoint p d' ∈ p.points ∧
      ∀ q ∈ p.points, ¬ d'.dot (extremePoint p d') < d'.dot q := by
    rcases C10_f32_poly_extreme p d' with h | ⟨_, h⟩
    · exact h
    · exact absurd (hbig v₀ hv₀) (h v₀ hv₀)
  refine ⟨(extremePoint p d').toReal, List.mem_map_of_mem hmem, (hg _ hmem).is, ⟨?_, ?_⟩,
    (hg _ hmem).gv⟩
  · exact subset_convexHull ℝ _ (List.mem_map_of_mem hmem)
  · intro q hq
    have hsub : convexHull ℝ {x | x ∈ p.points.map V2.toReal} ⊆
        {x | d.dot x ≤ d.dot (extremePoint p d').toReal} := by
      refine convexHull_min ?_ ?_
      · intro x hx
        obtain ⟨v, hv, rfl⟩ := List.mem_map.1 hx
        have := hmax v hv
        rw [lt_iff (hscore _ hmem) (hscore v hv)] at this
        exact not_lt.1 this
      · intro x hx y hy a b ha hb hab
        show d.dot (a • x + b • y) ≤ _
        rw [dot_add, dot_smul, dot_smul]
        have h1 : a * d.dot x ≤ a * _ := mul_le_mul_of_nonneg_left hx ha
        have h2 : b * d.dot y ≤ b * _ := mul_le_mul_of_nonneg_left hy hb
        calc a * d.dot x + b * d.dot y ≤ a * d.dot (extremePoint p d').toReal +
              b * d.dot (extremePoint p d').toReal := add_le_add h1 h2
          _ = d.dot (extremePoint p d').toReal := by rw [← add_mul, hab, one_mul]
    exact hsub hq

/-! ## pairs -/

section
variable {A B : Type} [ExtremePoint2d A F32] [ExtremePoint2d B F32] {a : A} {b : B}
  {X Y : Set (V2 ℝ)} {VA VB : List (V2 ℝ)} {rel : V2 F32} {k na nb nr : ℤ}

theorem convex_diff_shift (hX : Convex ℝ X) (hY : Convex ℝ Y) (t : V2 ℝ) :
    Convex ℝ (minkDiff X (shift t Y)) := by
  rintro x ⟨p, hp, _, ⟨q, hq, rfl⟩, rfl⟩ y ⟨p', hp', _, ⟨q', hq', rfl⟩, rfl⟩ u v hu hv huv
  refine ⟨u • p + v • p', hX hp hp' hu hv huv, _, ⟨u • q + v • q', hY hq hq' hu hv huv, rfl⟩, ?_⟩
  have e : t = u • t + v • t := by rw [← add_smul, huv, one_smul]
  conv_rhs => rw [e]
  ext <;> simp <;> ring

theorem support32_pair (hA : Supp32 k na a X VA) (hB : Supp32 k nb b Y VB)
    (hr : rel.OnGrid32 k nr) (hn : na + nb + nr ≤ 32) (hna : 0 ≤ na) (hk1 : -7 ≤ k)
    (hk2 : k ≤ 12) :
    Support32 k 32 (minkDiff X (shift rel.toReal Y))
      (VA.flatMap fun x => VB.map fun y => x - (y + rel.toReal))
      (extremePoint (LocalMinkowskiDiff2d.mk a b rel)) := by
  intro d' d hd hok
  obtain ⟨p, hpV, hp, hpe, hpg⟩ := hA d' d hd hok
  obtain ⟨q, hqV, hq, hqe, hqg⟩ := hB (-d') (-d) hd.neg hok.neg
  have g1 := hqg.add hr.gv
  have g2 := hpg.sub g1
  have hna' := hpg.1.nonneg
  have hs : (extremePoint b (-d') + rel).Is (q + rel.toReal) :=
    hq.add hr.is g1 (by omega) (by omega) (by omega)
  refine ⟨p - (q + rel.toReal), ?_, hp.sub hs g2 (by omega) (by omega) (by omega), ⟨?_, ?_⟩,
    g2.mono (by omega)⟩
  · exact List.mem_flatMap.2 ⟨p, hpV, List.mem_map_of_mem hqV⟩
  · exact ⟨p, hpe.1, _, ⟨q, hqe.1, rfl⟩, rfl⟩
  · rintro _ ⟨x, hx, _, ⟨y, hy, rfl⟩, rfl⟩
    have h1 := hpe.2 x hx
    have h2 := hqe.2 y hy
    rw [neg_dot, neg_dot] at h2
    rw [dot_sub, dot_sub, dot_add, dot_add]
    linarith

theorem initial_f32 (hr : rel.OnGrid32 k nr) (hn : nr ≤ 32) (hk1 : -7 ≤ k) (hk2 : k ≤ 12) :
    ∃ d : V2 ℝ, (initialDirection rel).Is d ∧ d ≠ 0 ∧ DirOk 32 d := by
  have hn0 := hr.gv.1.nonneg
  unfold initialDirection
  have hlen : F32.Is rel.lengthSq (rel.toReal.dot rel.toReal) :=
    is_dot hr.is hr.is hr.gv hr.gv (by nlinarith) (by omega) (by omega)
  by_cases h : rel.lengthSq < FloatExtra.epsilon
  · rw [if_pos h]
    refine ⟨⟨1, 0⟩, ⟨is_one, is_zero⟩, fun h => ?_, 0, 1, ⟨⟨1, by norm_num, by norm_num⟩,
      ⟨0, by norm_num, by norm_num⟩⟩, by norm_num, by norm_num, by norm_num⟩
    exact one_ne_zero (congrArg V2.x h)
  · rw [if_neg h]
    refine ⟨rel.toReal, hr.is, fun h0 => ?_, k, nr, hr.gv, by omega, by omega, by omega⟩
    rw [lt_iff hlen is_epsilon, h0] at h
    apply h
    rw [dot_def]
    norm_num

/-- what is claimed of the two answers: there is no panic, a positive answer is only given for sets
that share a point, a negative one only for sets separable by a line (so for touching sets either
answer may be given, and in all other cases the answer is determined) -/
def AnswersExact (collides : Except Panic Bool) (penetrates : Except Panic (Option (V2 F32)))
    (X Y : Set (V2 ℝ)) : Prop :=
  (∃ c, collides = .ok c ∧ (c = true → Touch X Y) ∧ (c = false → Separable X Y)) ∧
  (∃ o, penetrates = .ok o ∧ (o.isSome → Touch X Y) ∧ (o = none → Separable X Y))

/-- the determined cases -/
theorem AnswersExact.determined {c : Except Panic Bool} {o : Except Panic (Option (V2 F32))}
    {X Y : Set (V2 ℝ)} (h : AnswersExact c o X Y) :
    (Overlap X Y → c = .ok true ∧ ∃ v, o = .ok (some v)) ∧
    (¬ Touch X Y → c = .ok false ∧ o = .ok none) := by
  obtain ⟨⟨b, rfl, h1, h2⟩, ⟨w, rfl, h3, h4⟩⟩ := h
  constructor
  · intro ho
    constructor
    · cases b with
      | true => rfl
      | false => exact absurd ho (h2 rfl).not_overlap
    · cases w with
      | some v => exact ⟨v, rfl⟩
      | none => exact absurd ho (h4 rfl).not_overlap
  · intro ht
    constructor
    · cases b with
      | false => rfl
      | true => exact absurd (h1 rfl) ht
    · cases w with
      | none => rfl
      | some v => exact absurd (h3 rfl) ht

/-- the generic statement for a pair handled by the Minkowski difference, placed by a `Vec2` -/
theorem pair_f32 [DefaultMinkowski A B] (cX : Convex ℝ X) (cY : Convex ℝ Y)
    (hA : Supp32 k na a X VA) (hB : Supp32 k nb b Y VB)
    (hr : rel.OnGrid32 k nr) (hn : na + nb + nr ≤ 32) (hna : 0 ≤ na) (hnb : 0 ≤ nb)
    (hk1 : -7 ≤ k) (hk2 : k ≤ 12) (hV : VA.length * VB.length < 20) :
    AnswersExact (collidesRel a b rel) (penetratesRel a b rel) X (shift rel.toReal Y) := by
  let _ := realFloat true 0
  have := realFloat_exact true 0
  have hM := convex_diff_shift cX cY rel.toReal
  have hS := support32_pair hA hB hr hn hna hk1 hk2
  obtain ⟨d, hd, hd0, hok⟩ := initial_f32 hr (by omega) hk1 hk2
  have hlen : (VA.flatMap fun x => VB.map fun y => x - (y + rel.toReal)).length <
      ([] : List (V2 ℝ)).length + iterationLimit := by
    have : (VA.flatMap fun x => VB.map fun y => x - (y + rel.toReal)).length =
        VA.length * VB.length := by simp
    rw [this]
    simpa [iterationLimit] using hV
  constructor
  · have hrun : collidesRel a b rel = (gjkCollide (extremePoint (LocalMinkowskiDiff2d.mk a b rel))
        iterationLimit (initialDirection rel) []).map (·.1) := rfl
    rcases gjkCollide_f32 (le_refl _) hk1 hk2 hM hS iterationLimit [] _ d [] [] (.start d hd0)
      List.nodup_nil (by simp) hd hok .nil (by simp) hlen with ⟨h1, h2⟩ | ⟨h1, h2⟩
    · refine ⟨true, by rw [hrun, h1]; rfl, fun _ => touch_iff.2 h2, by simp⟩
    · refine ⟨false, by rw [hrun, h1]; rfl, by simp, fun _ => separable_iff.2 h2⟩
  · have hrun : penetratesRel a b rel =
        (gjkPenetrate (extremePoint (LocalMinkowskiDiff2d.mk a b rel))
        iterationLimit (initialDirection rel) []).map fun r => if r.1 then some r.2 else none := rfl
    rcases gjkPenetrate_f32 (le_refl _) hk1 hk2 hM hS iterationLimit [] _ d [] [] (.start d hd0)
      List.nodup_nil (by simp) hd hok .nil (by simp) hlen with ⟨⟨v, h1⟩, h2⟩ | ⟨h1, h2⟩
    · refine ⟨some v, by rw [hrun, h1]; rfl, fun _ => touch_iff.2 h2, by simp⟩
    · refine ⟨none, by rw [hrun, h1]; rfl, by simp, fun _ => separable_iff.2 h2⟩

end

/-! ## C71 -/

theorem convex_box32 (b : Box2d ℝ) : Convex ℝ (Region.pts b) :=
  @convex_box ℝ _ _ _ (realFloat true 0) b.halfsize

theorem F32.OnGrid.le {k B : ℤ} {a : F32} (h : a.OnGrid k B) : 0 ≤ B := by
  obtain ⟨_, n, _, hn⟩ := h
  exact (abs_nonneg n).trans hn

/-- Box2d v Box2d on binary32.  `k` is the exponent of the grid (unit `2^k`, from 1/128 to 4096);
sizes and offset together at most 32 units. -/
theorem C71_f32_box_box (a b : Box2d F32) (rel : V2 F32) {k na nb nr : ℤ} (ha : a.OnGrid32 k na)
    (hb : b.OnGrid32 k nb) (hr : rel.OnGrid32 k nr) (hn : na + nb + nr ≤ 32) (hk1 : -7 ≤ k)
    (hk2 : k ≤ 12) :
    AnswersExact (collidesRel a b rel) (penetratesRel a b rel) (Region.pts a.toReal)
      (shift rel.toReal (Region.pts b.toReal)) := by
  have h1 := ha.1.1.le
  have h2 := hb.1.1.le
  have h3 := hr.1.le
  exact pair_f32 (convex_box32 _) (convex_box32 _) (supp32_box (by omega) hk1 hk2 a ha)
    (supp32_box (by omega) hk1 hk2 b hb) hr hn h1 h2 hk1 hk2 (by simp [boxCorners])

theorem Poly2d.OnGrid32.le {k B : ℤ} {p : Poly2d F32} (h : p.OnGrid32 k B) : 0 ≤ B := by
  obtain ⟨v, hv⟩ := List.exists_mem_of_ne_nil _ h.1
  exact (h.2 v hv).1.le

/-- Poly2d v Poly2d on binary32 (at most 19 pairs of vertices). -/
theorem C71_f32_poly_poly (a b : Poly2d F32) (rel : V2 F32) {k na nb nr : ℤ} (ha : a.OnGrid32 k na)
    (hb : b.OnGrid32 k nb) (hr : rel.OnGrid32 k nr) (hn : na + nb + nr ≤ 32) (hk1 : -7 ≤ k)
    (hk2 : k ≤ 12) (hV : a.points.length * b.points.length < 20) :
    AnswersExact (collidesRel a b rel) (penetratesRel a b rel) (Region.pts a.toReal)
      (shift rel.toReal (Region.pts b.toReal)) := by
  have h1 := ha.le
  have h2 := hb.le
  have h3 := hr.1.le
  exact pair_f32 (convex_convexHull ℝ _) (convex_convexHull ℝ _)
    (supp32_poly (by omega) hk1 hk2 a ha) (supp32_poly (by omega) hk1 hk2 b hb) hr hn h1 h2 hk1 hk2
    (by simpa using hV)

/-- Box2d v Poly2d and Poly2d v Box2d on binary32 (triangles and quadrilaterals). -/
theorem C71_f32_box_poly (a : Box2d F32) (b : Poly2d F32) (rel : V2 F32) {k na nb nr : ℤ}
    (ha : a.OnGrid32 k na) (hb : b.OnGrid32 k nb) (hr : rel.OnGrid32 k nr)
    (hn : na + nb + nr ≤ 32) (hk1 : -7 ≤ k) (hk2 : k ≤ 12) (hV : b.points.length ≤ 4) :
    AnswersExact (collidesRel a b rel) (penetratesRel a b rel) (Region.pts a.toReal)
      (shift rel.toReal (Region.pts b.toReal)) ∧
    AnswersExact (collidesRel b a rel) (penetratesRel b a rel) (Region.pts b.toReal)
      (shift rel.toReal (Region.pts a.toReal)) := by
  have h1 := ha.1.1.le
  have h2 := hb.le
  have h3 := hr.1.le
  have s1 := supp32_box (by omega) hk1 hk2 a ha
  have s2 := supp32_poly (by omega) hk1 hk2 b hb
  constructor
  · exact pair_f32 (convex_box32 _) (convex_convexHull ℝ _) s1 s2 hr hn h1 h2 hk1 hk2
      (by simp [boxCorners]; omega)
  · exact pair_f32 (convex_convexHull ℝ _) (convex_box32 _) s2 s1 hr (by omega) h2 h1 hk1 hk2
      (by simp [boxCorners]; omega)

/-- the real shape a binary32 `Shape2d` stands for -/
noncomputable def Shape2d.toReal : Shape2d F32 → Shape2d ℝ
  | .ball b => .ball ⟨b.radius.toReal⟩
  | .box b => .box b.toReal
  | .poly p => .poly p.toReal
/-- a box, triangle or quadrilateral on the grid -/
def Shape2d.OnGrid32 (k B : ℤ) : Shape2d F32 → Prop
  | .ball _ => False
  | .box b => b.OnGrid32 k B
  | .poly p => p.OnGrid32 k B ∧ p.points.length ≤ 4

theorem supp32_shape {k B : ℤ} (hB : B ≤ 32) (hk1 : -7 ≤ k) (hk2 : k ≤ 12) (s : Shape2d F32)
    (hs : s.OnGrid32 k B) : 0 ≤ B ∧ Convex ℝ (Region.pts s.toReal) ∧
      ∃ V : List (V2 ℝ), V.length ≤ 4 ∧ Supp32 k B s (Region.pts s.toReal) V := by
  cases s with
  | ball b => exact hs.elim
  | box b => exact ⟨F32.OnGrid.le hs.1.1, convex_box32 _, boxCorners b.halfsize.toReal,
      by simp [boxCorners], supp32_box hB hk1 hk2 b hs⟩
  | poly p => exact ⟨hs.1.le, convex_convexHull ℝ _, p.points.map V2.toReal,
      by simpa using hs.2, supp32_poly hB hk1 hk2 p hs.1⟩

/-- Shape2d v Shape2d (boxes, triangles, quadrilaterals) on binary32. -/
theorem C71_f32_shape_shape (a b : Shape2d F32) (rel : V2 F32) {k na nb nr : ℤ}
    (ha : a.OnGrid32 k na) (hb : b.OnGrid32 k nb) (hr : rel.OnGrid32 k nr)
    (hn : na + nb + nr ≤ 32) (hna : na ≤ 32) (hnb : nb ≤ 32) (hk1 : -7 ≤ k) (hk2 : k ≤ 12) :
    AnswersExact (collidesRel a b rel) (penetratesRel a b rel) (Region.pts a.toReal)
      (shift rel.toReal (Region.pts b.toReal)) := by
  obtain ⟨h1, c1, V, l1, s1⟩ := supp32_shape hna hk1 hk2 a ha
  obtain ⟨h2, c2, W, l2, s2⟩ := supp32_shape hnb hk1 hk2 b hb
  exact pair_f32 c1 c2 s1 s2 hr hn h1 h2 hk1 hk2 (by nlinarith)

/-- The same through colliders placed by `Vec2` or `Translate2d`: the answers are exact for the
regions in world space. -/
theorem C71_f32_colliders (a b : Box2d F32) (p q : V2 F32) {k na nb np nq : ℤ}
    (ha : a.OnGrid32 k na) (hb : b.OnGrid32 k nb) (hp : p.OnGrid32 k np) (hq : q.OnGrid32 k nq)
    (hn : na + nb + np + nq ≤ 32) (hk1 : -7 ≤ k) (hk2 : k ≤ 12) :
    AnswersExact (collides ⟨a, p⟩ ⟨b, q⟩) (penetrates ⟨a, p⟩ ⟨b, q⟩)
      (shift p.toReal (Region.pts a.toReal)) (shift q.toReal (Region.pts b.toReal)) ∧
    AnswersExact (collides ⟨a, Translate2d.mk p⟩ ⟨b, Translate2d.mk q⟩)
      (penetrates ⟨a, Translate2d.mk p⟩ ⟨b, Translate2d.mk q⟩)
      (shift p.toReal (Region.pts a.toReal)) (shift q.toReal (Region.pts b.toReal)) := by
  have h1 := ha.1.1.le
  have h2 := hb.1.1.le
  have h3 := hp.1.le
  have h4 := hq.1.le
  have hd : (q + -p).Is (q.toReal + -p.toReal) :=
    hq.is.add hp.is.neg (hq.gv.add hp.gv.neg) (by omega) (by omega) (by omega)
  have hg := hd.onGrid (hq.gv.add hp.gv.neg)
  have key := C71_f32_box_box a b (q + -p) ha hb hg (by omega) hk1 hk2
  rw [hd.toReal] at key
  have hT : ∀ X Y : Set (V2 ℝ), Touch X (shift (q.toReal + -p.toReal) Y) →
      Touch (shift p.toReal X) (shift q.toReal Y) := by
    rintro X Y ⟨_, hx, y, hy, rfl⟩
    exact ⟨y + q.toReal, ⟨_, hx, by abel⟩, y, hy, rfl⟩
  have hS : ∀ X Y : Set (V2 ℝ), Separable X (shift (q.toReal + -p.toReal) Y) →
      Separable (shift p.toReal X) (shift q.toReal Y) := by
    rintro X Y ⟨n, hn, h⟩
    refine ⟨n, hn, ?_⟩
    rintro _ ⟨x, hx, rfl⟩ _ ⟨y, hy, rfl⟩
    have := h x hx _ ⟨y, hy, rfl⟩
    simp only [dot_add, dot_neg] at this ⊢
    linarith
  have : AnswersExact (collidesRel a b (q + -p)) (penetratesRel a b (q + -p))
      (shift p.toReal (Region.pts a.toReal)) (shift q.toReal (Region.pts b.toReal)) := by
    obtain ⟨⟨c, e1, k1, k2⟩, ⟨o, e2, k3, k4⟩⟩ := key
    exact ⟨⟨c, e1, fun h => hT _ _ (k1 h), fun h => hS _ _ (k2 h)⟩,
      ⟨o, e2, fun h => hT _ _ (k3 h), fun h => hS _ _ (k4 h)⟩⟩
  exact ⟨this, this⟩

/-- a concrete case: two 2×2 boxes, the second moved by (3/2, 1) and by (5/2, 0), on the grid of
step 1/2 -/
example : ∃ (a : Box2d F32) (r s : V2 F32), a.OnGrid32 (-1) 2 ∧ r.OnGrid32 (-1) 3 ∧
    s.OnGrid32 (-1) 5 ∧ a.toReal = ⟨⟨1, 1⟩⟩ ∧ r.toReal = ⟨3 / 2, 1⟩ ∧ s.toReal = ⟨5 / 2, 0⟩ ∧
    collidesRel a a r = .ok true ∧ collidesRel a a s = .ok false := by
  have mk : ∀ n : ℤ, |n| ≤ 5 → F32.Is (ofReal false ((n : ℝ) * 2 ^ (-1 : ℤ))) (n * 2 ^ (-1 : ℤ)) :=
    fun n hn => is_ofReal (representable_scaled n (-1) (by omega) (by norm_num) (by norm_num))
  let f : ℤ → F32 := fun n => ofReal false ((n : ℝ) * 2 ^ (-1 : ℤ))
  have hf : ∀ n : ℤ, |n| ≤ 5 → (f n).OnGrid (-1) |n| := fun n hn =>
    F32.Is.onGrid (mk n hn) ⟨n, rfl, le_refl _⟩
  have hv : ∀ n : ℤ, |n| ≤ 5 → (f n).toReal = n / 2 := fun n hn => by
    rw [F32.Is.toReal (mk n hn)]; norm_num; ring
  have mono : ∀ {a : F32} {B C : ℤ}, a.OnGrid (-1) B → B ≤ C → a.OnGrid (-1) C := by
    rintro a B C ⟨h1, n, h2, h3⟩ h
    exact ⟨h1, n, h2, h3.trans h⟩
  have v2 := hv 2 (by norm_num)
  have v3 := hv 3 (by norm_num)
  have v5 := hv 5 (by norm_num)
  have v0 := hv 0 (by norm_num)
  have ga : (⟨⟨f 2, f 2⟩⟩ : Box2d F32).OnGrid32 (-1) 2 :=
    ⟨⟨hf 2 (by norm_num), hf 2 (by norm_num)⟩, by simp only [v2]; norm_num, by simp only [v2]; norm_num⟩
  have gr : (⟨f 3, f 2⟩ : V2 F32).OnGrid32 (-1) 3 :=
    ⟨hf 3 (by norm_num), mono (hf 2 (by norm_num)) (by norm_num)⟩
  have gs : (⟨f 5, f 0⟩ : V2 F32).OnGrid32 (-1) 5 :=
    ⟨hf 5 (by norm_num), mono (hf 0 (by norm_num)) (by norm_num)⟩
  have ea : (⟨⟨f 2, f 2⟩⟩ : Box2d F32).toReal = ⟨⟨1, 1⟩⟩ := by
    simp only [Box2d.toReal, V2.toReal, v2]; norm_num
  have er : (⟨f 3, f 2⟩ : V2 F32).toReal = ⟨3 / 2, 1⟩ := by
    simp only [V2.toReal, v2, v3]; norm_num
  have es : (⟨f 5, f 0⟩ : V2 F32).toReal = ⟨5 / 2, 0⟩ := by
    simp only [V2.toReal, v5, v0]; norm_num
  have k1 := (C71_f32_box_box _ _ _ ga ga gr (by norm_num) (by norm_num) (by norm_num)).determined.1
  have k2 := (C71_f32_box_box _ _ _ ga ga gs (by norm_num) (by norm_num) (by norm_num)).determined.2
  rw [ea, er] at k1
  rw [ea, es] at k2
  refine ⟨_, _, _, ga, gr, gs, ea, er, es, (k1 ⟨1 / 4, by norm_num, ?_⟩).1, (k2 ?_).1⟩
  · intro v hv
    have h1 : v.x * v.x ≤ (1 / 4 : ℝ) ^ 2 := by
      rw [lengthSq_def] at hv; nlinarith [mul_self_nonneg v.y]
    have h2 : v.y * v.y ≤ (1 / 4 : ℝ) ^ 2 := by
      rw [lengthSq_def] at hv; nlinarith [mul_self_nonneg v.x]
    have h3 : -(1 / 4) ≤ v.x ∧ v.x ≤ 1 / 4 :=
      abs_le_of_sq_le_sq' (by rwa [sq]) (by norm_num : (0 : ℝ) ≤ 1 / 4)
    have h4 : -(1 / 4) ≤ v.y ∧ v.y ≤ 1 / 4 :=
      abs_le_of_sq_le_sq' (by rwa [sq]) (by norm_num : (0 : ℝ) ≤ 1 / 4)
    refine ⟨⟨3 / 4, 1 / 2⟩, ⟨⟨3 / 4 - v.x, 1 / 2 - v.y⟩, ⟨?_, ?_⟩, by ext <;> simp⟩,
      ⟨-(3 / 4), -(1 / 2)⟩, ⟨?_, ?_⟩, by ext <;> norm_num⟩
    · show |3 / 4 - v.x| ≤ 1
      rw [abs_le]; constructor <;> linarith [h3.1, h3.2]
    · show |1 / 2 - v.y| ≤ 1
      rw [abs_le]; constructor <;> linarith [h4.1, h4.2]
    · show |(-(3 / 4) : ℝ)| ≤ 1
      rw [abs_le]; constructor <;> norm_num
    · show |(-(1 / 2) : ℝ)| ≤ 1
      rw [abs_le]; constructor <;> norm_num
  · rintro ⟨x, ⟨h1, _⟩, y, ⟨h2, _⟩, rfl⟩
    have h1 : |y.x + 5 / 2| ≤ 1 := h1
    have h2 : |y.x| ≤ 1 := h2
    rw [abs_le] at h1 h2
    linarith [h1.2, h2.1]

end

end Auburn
