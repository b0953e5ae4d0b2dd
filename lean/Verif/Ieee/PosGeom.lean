import Verif.Ieee.NoisyDist

/-!
# Noisy GJK steps around an origin that is far away (library lemmas for C87)

Real geometry only: what the tests of one GJK step can tell when they carry a relative error `1 / 2^21` and
the origin is at distance `g` from everything, with all points within `400 g`.
-/

set_option linter.unusedSectionVars false
set_option synthInstance.maxSize 1000

namespace Auburn

open F32 V2 ExtremePoint2d Transformation2d

/-! ## norms -/

theorem V2.norm_sq' (v : V2 ℝ) : v.norm ^ 2 = v.dot v := by
  rw [sq, v.norm_sq, dot_def]; ring

theorem V2.le_norm {v : V2 ℝ} {g : ℝ} (h : g ^ 2 ≤ v.dot v) : g ≤ v.norm :=
  abs_le_of_sq_le_sq' (by rw [V2.norm_sq']; exact h) v.norm_nonneg |>.2

theorem V2.norm_le {v : V2 ℝ} {R : ℝ} (hR : 0 ≤ R) (h : v.dot v ≤ R ^ 2) : v.norm ≤ R :=
  abs_le_of_sq_le_sq' (by rw [V2.norm_sq']; exact h) hR |>.2

/-- Cauchy-Schwarz, with absolute values -/
theorem abs_dot_le_norm (v w : V2 ℝ) : |v.x * w.x| + |v.y * w.y| ≤ v.norm * w.norm := by
  have e1 := v.norm_sq
  have e2 := w.norm_sq
  refine abs_le_of_sq_le_sq' ?_ (mul_nonneg v.norm_nonneg w.norm_nonneg) |>.2
  rw [mul_pow, sq v.norm, sq w.norm, e1, e2, abs_mul, abs_mul]
  have h1 := sq_abs v.x
  have h2 := sq_abs v.y
  have h3 := sq_abs w.x
  have h4 := sq_abs w.y
  nlinarith [sq_nonneg (|v.x| * |w.y| - |v.y| * |w.x|)]

theorem abs_cross_le_norm (v w : V2 ℝ) : |v.x * w.y| + |v.y * w.x| ≤ v.norm * w.norm := by
  have e1 := v.norm_sq
  have e2 := w.norm_sq
  refine abs_le_of_sq_le_sq' ?_ (mul_nonneg v.norm_nonneg w.norm_nonneg) |>.2
  rw [mul_pow, sq v.norm, sq w.norm, e1, e2, abs_mul, abs_mul]
  have h1 := sq_abs v.x
  have h2 := sq_abs v.y
  have h3 := sq_abs w.x
  have h4 := sq_abs w.y
  nlinarith [sq_nonneg (|v.x| * |w.x| - |v.y| * |w.y|)]

theorem dot_le_norm (v w : V2 ℝ) : |v.dot w| ≤ v.norm * w.norm := by
  rw [dot_def]; exact (abs_add_le _ _).trans (abs_dot_le_norm v w)
theorem cross_le_norm (v w : V2 ℝ) : |v.cross w| ≤ v.norm * w.norm := by
  rw [cross_def]; exact (abs_sub _ _).trans (abs_cross_le_norm v w)

theorem V2.norm_neg' (v : V2 ℝ) : (-v).norm = v.norm := by
  unfold V2.norm; congr 1; show (-v.x) ^ 2 + (-v.y) ^ 2 = _; ring
theorem V2.norm_perp (v : V2 ℝ) : v.perp.norm = v.norm := by
  unfold V2.norm; congr 1; show (-v.y) ^ 2 + (v.x) ^ 2 = _; ring

theorem V2.norm_add_le' (v w : V2 ℝ) : (v + w).norm ≤ v.norm + w.norm := by
  refine V2.norm_le (add_nonneg v.norm_nonneg w.norm_nonneg) ?_
  have h1 := (le_abs_self _).trans (dot_le_norm v w)
  have e1 := v.norm_sq'
  have e2 := w.norm_sq'
  have e : (v + w).dot (v + w) = v.dot v + 2 * v.dot w + w.dot w := by
    simp only [dot_def, add_x, add_y]; ring
  rw [e, ← e1, ← e2]; nlinarith

theorem V2.norm_sub_le' (v w : V2 ℝ) : (v - w).norm ≤ v.norm + w.norm := by
  rw [sub_eq_add_neg, ← V2.norm_neg' w]; exact V2.norm_add_le' _ _

theorem V2.norm_scale (s : ℝ) (v : V2 ℝ) : (V2.scale s v).norm = |s| * v.norm := by
  have h : 0 ≤ |s| * v.norm := mul_nonneg (abs_nonneg _) v.norm_nonneg
  refine le_antisymm (V2.norm_le h ?_) (V2.le_norm ?_) <;>
  · rw [mul_pow, V2.norm_sq', sq_abs]
    refine le_of_eq ?_
    simp only [dot_def, scale_x, scale_y]; ring

/-! ## the key inequality, in the frame of the last edge -/

/-- In the frame of the edge `bc` (origin above it, at height `H`), `b = (-β, -H)`, `a = (p, q)`: if the new
point `a` is not below the origin (up to rounding) and the origin is not (up to rounding) strictly inside of the edge
`ab`, then the origin projects into the edge `ab`. -/
theorem edge_slab {g R A β H p q ν : ℝ} (hg : 0 < g) (hR : R ≤ 400 * g) (hβ : 0 ≤ β) (βR : β ≤ R) (hH : g ≤ H)
    (HR : H ≤ R) (hν : 0 ≤ ν) (hνR : R * ν ≤ g / 1000 * A) (hνg : ν ≤ g / 100) (hq : -ν ≤ q)
    (hA : A ^ 2 = p ^ 2 + q ^ 2) (hgA : g ≤ A) (hAR : A ≤ R) (hX : β * q - H * p ≤ g / 1000 * A) :
    g / 2 * A ≤ p ^ 2 + q ^ 2 + β * p + H * q ∧ 0 < β * (β + p) + H * (q + H) := by
  have hA0 : 0 < A := hg.trans_le hgA
  have hH0 : 0 < H := hg.trans_le hH
  have hτ : g / 1000 * A ≤ g * (2 / 5 * g) := by nlinarith
  have h1 : -(g / 1000 * A) ≤ β * q := by
    have := mul_le_mul_of_nonneg_right βR hν
    have := mul_le_mul_of_nonneg_left hq hβ
    linarith
  have h2 : -(g / 1000 * A) ≤ H * q := by
    have := mul_le_mul_of_nonneg_right HR hν
    have := mul_le_mul_of_nonneg_left hq hH0.le
    linarith
  -- `p ≥ -0.8 g`
  have hp : -(4 / 5 * g) ≤ p := by
    by_contra hcon
    push Not at hcon
    have h3 : H * p < H * -(4 / 5 * g) := mul_lt_mul_of_pos_left hcon hH0
    have h4 : g * (4 / 5 * g) ≤ H * (4 / 5 * g) := mul_le_mul_of_nonneg_right hH (by positivity)
    linarith
  constructor
  · rcases le_or_gt 0 p with h0 | h0
    · have h3 := mul_nonneg hβ h0
      have h4 : g * A ≤ A ^ 2 := by rw [sq]; exact mul_le_mul_of_nonneg_right hgA hA0.le
      nlinarith
    · -- then `q` is large
      have hp2 : p ^ 2 ≤ (4 / 5 * g) ^ 2 := by nlinarith
      have hA2 : g ^ 2 ≤ A ^ 2 := by nlinarith
      have hq0 : 3 / 5 * g ≤ q := by
        by_contra hcon
        push Not at hcon
        have : q ^ 2 < (3 / 5 * g) ^ 2 := by
          apply sq_lt_sq'
          · linarith
          · exact hcon
        nlinarith
      have hq1 : 0 < q := lt_of_lt_of_le (by positivity) hq0
      have hAq : A ≤ 3 * q := by
        refine abs_le_of_sq_le_sq' ?_ (by positivity) |>.2
        nlinarith
      -- `β q ≤ e`, `-H p ≤ e`
      have hHp : H * p ≤ 0 := mul_nonpos_of_nonneg_of_nonpos hH0.le h0.le
      have hβq : 0 ≤ β * q := mul_nonneg hβ hq1.le
      have b1 : β * q ≤ g / 1000 * A := by linarith
      have b2 : -(H * p) ≤ g / 1000 * A := by linarith
      have b3 : β ≤ 3 * (g / 1000) := by
        have : β * q ≤ 3 * (g / 1000) * q := by nlinarith
        exact le_of_mul_le_mul_right this hq1
      have b4 : -p ≤ A / 1000 := by
        have : g * -p ≤ g * (A / 1000) := by nlinarith
        exact le_of_mul_le_mul_left this hg
      have b5 : β * -p ≤ 3 * (g / 1000) * (A / 1000) :=
        mul_le_mul b3 b4 (by linarith) (by positivity)
      have h4 : g * A ≤ A ^ 2 := by rw [sq]; exact mul_le_mul_of_nonneg_right hgA hA0.le
      have h5 : 0 ≤ H * q := by positivity
      have h6 : 0 < g * A := by positivity
      linarith
  · have hV : g * (99 / 100 * g) ≤ H * (q + H) := by
      have : 99 / 100 * g ≤ q + H := by linarith
      exact mul_le_mul hH this (by positivity) hH0.le
    have h3 : -(4 / 25 * g ^ 2) ≤ β * (β + p) := by
      rcases le_or_gt 0 p with h0 | h0
      · have : 0 ≤ β * (β + p) := by positivity
        nlinarith
      · have hp2 : p ^ 2 ≤ (4 / 5 * g) ^ 2 := by nlinarith
        nlinarith [sq_nonneg (2 * β + p)]
    nlinarith

/-! ## the state of the search: an edge and a direction towards the origin -/

/-- the origin projects into the edge `bc`; `d` is, up to rounding, the normal of the edge on the side of
the origin -/
structure Edge (g : ℝ) (b c d : V2 ℝ) (σ l : ℝ) : Prop where
  slabB : 0 ≤ b.dot (b - c)
  slabC : 0 ≤ c.dot (c - b)
  long : 99 / 100 * g ≤ (c - b).norm
  sign : σ = 1 ∨ σ = -1
  pos : 0 < l
  side : 0 < σ * b.cross c
  dir : (d - V2.scale (l * σ) (c - b).perp).norm ≤ l * (c - b).norm / 2 ^ 21

theorem norm_sub_comm' (b c : V2 ℝ) : (b - c).norm = (c - b).norm := by
  rw [← V2.norm_neg' (c - b), neg_sub]

theorem Edge.swap {g : ℝ} {b c d : V2 ℝ} {σ l : ℝ} (h : Edge g b c d σ l) : Edge g c b d (-σ) l := by
  refine ⟨h.slabC, h.slabB, ?_, ?_, h.pos, ?_, ?_⟩
  · rw [norm_sub_comm']; exact h.long
  · rcases h.sign with h | h <;> rw [h] <;> simp
  · have := h.side
    rw [cross_anti c b]; linarith
  · rw [norm_sub_comm' b c]
    refine le_trans (le_of_eq ?_) h.dir
    congr 2
    ext <;> simp <;> ring

/-- everything is far from the origin -/
structure FarSet (g R : ℝ) (Z : Set (V2 ℝ)) : Prop where
  pos : 0 < g
  ratio : R ≤ 400 * g
  convex : Convex ℝ Z
  far : ∀ z ∈ Z, g ≤ V2.norm z

theorem smul_eq_scale (s : ℝ) (v : V2 ℝ) : s • v = V2.scale s v := rfl

/-- the distance of the origin from an edge into which it projects -/
theorem foot_far {g R : ℝ} {Z : Set (V2 ℝ)} (hZ : FarSet g R Z) {b c : V2 ℝ} (hb : b ∈ Z) (hc : c ∈ Z)
    (h1 : 0 ≤ b.dot (b - c)) (h2 : 0 ≤ c.dot (c - b)) : g * (c - b).norm ≤ |b.cross c| := by
  have hL := (c - b).norm_sq'
  have hL0 := (c - b).norm_nonneg
  rcases hL0.eq_or_lt with h0 | h0
  · rw [← h0, mul_zero]; exact abs_nonneg _
  have hs : b.dot (b - c) + c.dot (c - b) = (c - b).norm ^ 2 := by
    rw [hL]; simp only [dot_def, sub_x, sub_y]; ring
  have hp : 0 < (c - b).norm ^ 2 := by positivity
  have hmem := hZ.convex hb hc (a := c.dot (c - b) / (c - b).norm ^ 2) (b := b.dot (b - c) / (c - b).norm ^ 2)
    (by positivity) (by positivity) (by rw [← add_div, add_comm, hs, div_self hp.ne'])
  have h3 := hZ.far _ hmem
  have h4 : g ^ 2 ≤ (b.cross c) ^ 2 / (c - b).norm ^ 2 := by
    have h5 : g ^ 2 ≤ V2.norm ((c.dot (c - b) / (c - b).norm ^ 2) • b + (b.dot (b - c) / (c - b).norm ^ 2) • c) ^ 2 :=
      pow_le_pow_left₀ hZ.pos.le h3 2
    refine h5.trans (le_of_eq ?_)
    rw [V2.norm_sq']
    simp only [smul_eq_scale, dot_def, add_x, add_y, scale_x, scale_y, cross_def]
    rw [eq_div_iff hp.ne']
    field_simp
    rw [hL]
    simp only [dot_def, sub_x, sub_y]
    ring
  rw [le_div_iff₀ hp] at h4
  refine abs_le_of_sq_le_sq' ?_ (abs_nonneg _) |>.2
  rw [sq_abs, mul_pow]; exact h4

section
variable {g R : ℝ} {Z : Set (V2 ℝ)} {a b c d : V2 ℝ} {σ l : ℝ}

/-- the coordinates in the frame of the edge -/
theorem Edge.frame (h : Edge g b c d σ l) (hg : 0 < g) (v w : V2 ℝ) :
    v.dot w = (c - b).dot v / (c - b).norm * ((c - b).dot w / (c - b).norm) +
      σ * (c - b).cross v / (c - b).norm * (σ * (c - b).cross w / (c - b).norm) ∧
    σ * v.cross w = (c - b).dot v / (c - b).norm * (σ * (c - b).cross w / (c - b).norm) -
      σ * (c - b).cross v / (c - b).norm * ((c - b).dot w / (c - b).norm) := by
  have hL : 0 < (c - b).norm := lt_of_lt_of_le (by positivity) h.long
  have hL2 := (c - b).norm_sq'
  have hσ : σ * σ = 1 := by rcases h.sign with h | h <;> rw [h] <;> norm_num
  have f1 := frame_dot (c - b) v w
  have f2 := frame_cross (c - b) v w
  rw [lengthSq_def] at f1 f2
  have e : (c - b).x * (c - b).x + (c - b).y * (c - b).y = (c - b).norm ^ 2 := by rw [hL2, dot_def]
  rw [e] at f1 f2
  constructor
  · field_simp
    rw [mul_comm, f1, sq σ, hσ]; ring
  · field_simp
    rw [show σ * v.cross w * (c - b).norm ^ 2 = σ * ((c - b).norm ^ 2 * v.cross w) by ring, f2]

/-- a new point that is not below the origin (up to rounding), when the origin is not strictly inside of `ab`
(up to rounding): the origin projects into `ab`, and lies strictly beyond it -/
theorem Edge.step (h : Edge g b c d σ l) (hZ : FarSet g R Z) (ha : a ∈ Z) (hb : b ∈ Z) (hc : c ∈ Z)
    (haR : a.norm ≤ R) (hbR : b.norm ≤ R) (hfit : -(a.norm * d.norm / 2 ^ 21) ≤ a.dot d) :
    99 / 100 * g ≤ (b - a).norm ∧ (49 / 50 * g ^ 2 ≤ σ * (b - a).cross (c - a)) ∧
    (σ * a.cross b ≤ (b - a).norm * a.norm / 2 ^ 21 →
      g / 2 * a.norm ≤ a.dot (a - b) ∧ 0 < b.dot (b - a) ∧ g * (b - a).norm ≤ -(σ * a.cross b)) := by
  have hg := hZ.pos
  have hR := hZ.ratio
  have hL : 0 < (c - b).norm := lt_of_lt_of_le (by positivity) h.long
  have hσ : σ * σ = 1 := by rcases h.sign with h | h <;> rw [h] <;> norm_num
  have hσa : |σ| = 1 := by rcases h.sign with h | h <;> rw [h] <;> norm_num
  have hL2 := (c - b).norm_sq'
  have fr := h.frame hg
  have gA := hZ.far a ha
  have hA0 := a.norm_nonneg
  generalize hLe : (c - b).norm = L at *
  have dd : (c - b).dot (c - b) = L ^ 2 := hL2.symm
  -- the coordinates
  obtain ⟨β, eβ⟩ : ∃ β, β = -((c - b).dot b / L) := ⟨_, rfl⟩
  obtain ⟨H, eH⟩ : ∃ H, H = -(σ * (c - b).cross b / L) := ⟨_, rfl⟩
  obtain ⟨p, ep⟩ : ∃ p, p = (c - b).dot a / L := ⟨_, rfl⟩
  obtain ⟨q, eq⟩ : ∃ q, q = σ * (c - b).cross a / L := ⟨_, rfl⟩
  have fbb := (fr b b).1
  have fab := fr a b
  have faa := (fr a a).1
  rw [← ep, ← eq] at faa fab
  rw [show (c - b).dot b / L = -β by rw [eβ]; ring, show σ * (c - b).cross b / L = -H by rw [eH]; ring] at fbb fab
  have hβ : 0 ≤ β := by
    rw [eβ, ← neg_div]
    refine div_nonneg ?_ hL.le
    have := h.slabB
    simp only [dot_def, sub_x, sub_y] at this ⊢
    linarith
  have hB2 := b.norm_sq'
  have hA2 := a.norm_sq'
  have hR0 : 0 ≤ R := b.norm_nonneg.trans hbR
  have hbb : β ^ 2 + H ^ 2 ≤ R ^ 2 := by
    have : b.norm ^ 2 ≤ R ^ 2 := pow_le_pow_left₀ b.norm_nonneg hbR 2
    rw [hB2, fbb] at this
    linarith only [this]
  have βR : β ≤ R := abs_le_of_sq_le_sq' (by linarith only [hbb, sq_nonneg H]) hR0 |>.2
  have HR : H ≤ R := abs_le_of_sq_le_sq' (by linarith only [hbb, sq_nonneg β]) hR0 |>.2
  have eH' : H = σ * b.cross c / L := by
    rw [eH, sub_cross, cross_self, cross_anti c b]; ring
  have hH : g ≤ H := by
    have h1 := foot_far hZ hb hc h.slabB h.slabC
    rw [hLe] at h1
    have h2 : |b.cross c| = σ * b.cross c := by
      rw [← abs_of_pos h.side, abs_mul, hσa, one_mul]
    rw [h2] at h1
    rw [eH', le_div_iff₀ hL]; exact h1
  -- the fitness
  have hq : -(5 / 2 * a.norm / 2 ^ 21) ≤ q := by
    have hd := h.dir
    rw [hLe] at hd
    obtain ⟨η, eη⟩ : ∃ η, η = d - V2.scale (l * σ) (c - b).perp := ⟨_, rfl⟩
    rw [← eη] at hd
    have ed : d = V2.scale (l * σ) (c - b).perp + η := by rw [eη]; ext <;> simp
    have n1 : d.norm ≤ l * L + l * L / 2 ^ 21 := by
      rw [ed]
      refine (V2.norm_add_le' _ _).trans (add_le_add ?_ hd)
      rw [V2.norm_scale, V2.norm_perp, hLe, abs_mul, hσa, mul_one, abs_of_pos h.pos]
    have e1 : a.dot d = l * L * q + a.dot η := by
      rw [ed, dot_add, eq]
      have : a.dot (V2.scale (l * σ) (c - b).perp) = l * (σ * (c - b).cross a) := by
        simp only [dot_def, cross_def, scale_x, scale_y, perp_x, perp_y]; ring
      rw [this]; field_simp
    have e2 := (abs_le.1 (dot_le_norm a η)).2
    have e3 : a.norm * η.norm ≤ a.norm * (l * L / 2 ^ 21) := mul_le_mul_of_nonneg_left hd hA0
    have e4 : a.norm * d.norm ≤ a.norm * (l * L + l * L / 2 ^ 21) := mul_le_mul_of_nonneg_left n1 hA0
    have hlL : 0 < l * L := mul_pos h.pos hL
    have e5 : l * L * -(5 / 2 * a.norm / 2 ^ 21) ≤ l * L * q := by
      have : 0 ≤ a.norm * (l * L) := by positivity
      rw [e1] at hfit
      have e6 : a.norm * d.norm / 2 ^ 21 ≤ a.norm * (l * L + l * L / 2 ^ 21) / 2 ^ 21 :=
        div_le_div_of_nonneg_right e4 (by positivity)
      linarith
    exact le_of_mul_le_mul_left e5 hlL
  obtain ⟨ν, eν⟩ : ∃ ν, ν = 5 / 2 * a.norm / 2 ^ 21 := ⟨_, rfl⟩
  rw [← eν] at hq
  have hν : 0 ≤ ν := by rw [eν]; positivity
  have hνR : R * ν ≤ g / 1000 * a.norm := by
    rw [eν]
    have := mul_le_mul_of_nonneg_right hR hA0
    have : 0 ≤ g * a.norm := by positivity
    linarith
  have hνg : ν ≤ g / 100 := by rw [eν]; linarith
  have hV : 99 / 100 * g ≤ q + H := by linarith
  -- height of `a` over the edge
  have eV : σ * (b - a).cross (c - a) = L * (q + H) := by
    rw [eq, eH']
    field_simp
    simp only [cross_def, sub_x, sub_y]; ring
  have eab : (b - a).dot (b - a) = (β + p) ^ 2 + (q + H) ^ 2 := by
    have : (b - a).dot (b - a) = b.dot b - 2 * a.dot b + a.dot a := by
      simp only [dot_def, sub_x, sub_y]; ring
    rw [this, fbb, fab.1, faa]; ring
  have hab : 99 / 100 * g ≤ (b - a).norm := by
    apply V2.le_norm
    rw [eab]
    have h1 := pow_le_pow_left₀ (by positivity) hV 2
    have h2 := sq_nonneg (β + p)
    linarith only [h1, h2]
  refine ⟨hab, ?_, fun hX => ?_⟩
  · rw [eV]
    have h1 := h.long
    rw [hLe] at h1
    have h2 := mul_le_mul h1 hV (by positivity) hL.le
    have h3 := sq_nonneg g
    linarith only [h2, h3]
  · have h2R : (b - a).norm ≤ 2 * R := by
      have := V2.norm_sub_le' b a
      linarith
    have hX' : β * q - H * p ≤ g / 1000 * a.norm := by
      have e1 : σ * a.cross b = β * q - H * p := by rw [fab.2]; ring
      rw [← e1]
      refine hX.trans ?_
      have h1 := mul_le_mul_of_nonneg_right h2R hA0
      have h2 := mul_le_mul_of_nonneg_right hR hA0
      have : 0 ≤ g * a.norm := by positivity
      linarith
    obtain ⟨k1, k2⟩ := edge_slab hg hR hβ βR hH HR hν hνR hνg hq (by rw [hA2, faa]; ring) gA haR hX'
    have s1 : a.dot (a - b) = p ^ 2 + q ^ 2 + β * p + H * q := by
      rw [dot_sub, faa, fab.1]; ring
    have s2 : b.dot (b - a) = β * (β + p) + H * (q + H) := by
      rw [dot_sub, fbb, dot_comm b a, fab.1]; ring
    rw [s1, s2]
    refine ⟨k1, k2, ?_⟩
    have hgA0 : 0 ≤ g / 2 * a.norm := by positivity
    have h1 := foot_far hZ ha hb (by rw [s1]; linarith) (by rw [s2]; exact k2.le)
    have h2 : |a.cross b| = |σ * a.cross b| := by rw [abs_mul, hσa, one_mul]
    rw [h2] at h1
    rcases le_or_gt (σ * a.cross b) 0 with h0 | h0
    · rwa [abs_of_nonpos h0] at h1
    · exfalso
      rw [abs_of_pos h0] at h1
      have h3 := h1.trans hX
      have hab0 : 0 < (b - a).norm := lt_of_lt_of_le (by positivity) hab
      have h4 : (b - a).norm * a.norm ≤ (b - a).norm * (400 * g) :=
        mul_le_mul_of_nonneg_left (haR.trans hR) hab0.le
      have h5 : 0 < g * (b - a).norm := by positivity
      linarith

/-- the origin cannot be inside of both new edges -/
theorem Edge.outside (h : Edge g b c d σ l) (hZ : FarSet g R Z) (ha : a ∈ Z) (hb : b ∈ Z) (hc : c ∈ Z)
    (h1 : 0 ≤ σ * a.cross b) (h2 : 0 ≤ -(σ * a.cross c)) : False := by
  obtain ⟨x, ex⟩ : ∃ x, x = σ * b.cross c := ⟨_, rfl⟩
  obtain ⟨y, ey⟩ : ∃ y, y = -(σ * a.cross c) := ⟨_, rfl⟩
  obtain ⟨z, ez⟩ : ∃ z, z = σ * a.cross b := ⟨_, rfl⟩
  have hx : 0 < x := by rw [ex]; exact h.side
  have hy : 0 ≤ y := by rw [ey]; exact h2
  have hz : 0 ≤ z := by rw [ez]; exact h1
  have hs : 0 < x + (y + z) := by linarith
  have hs1 : 0 < 1 + (y + z) := by linarith
  have key : V2.scale x a + V2.scale y b + V2.scale z c = 0 := by
    rw [ex, ey, ez]
    ext <;> simp [cross_def] <;> ring
  have hm : (x / (x + (y + z))) • a + ((y / (x + (y + z))) • b + (z / (x + (y + z))) • c) ∈ Z := by
    rcases (add_nonneg hy hz).eq_or_lt with h0 | h0
    · have hy0 : y = 0 := by linarith
      have hz0 : z = 0 := by linarith
      rw [hy0, hz0, add_zero, add_zero, div_self hx.ne', zero_div, zero_smul, zero_smul, one_smul, add_zero, add_zero]
      exact ha
    · have hbc := hZ.convex hb hc (a := y / (y + z)) (b := z / (y + z)) (by positivity) (by positivity)
        (by rw [← add_div, div_self h0.ne'])
      have := hZ.convex ha hbc (a := x / (x + (y + z))) (b := (y + z) / (x + (y + z))) (by positivity) (by positivity)
        (by rw [← add_div, div_self hs.ne'])
      rw [smul_add, smul_smul, smul_smul] at this
      rwa [show (y + z) / (x + (y + z)) * (y / (y + z)) = y / (x + (y + z)) by field_simp,
        show (y + z) / (x + (y + z)) * (z / (y + z)) = z / (x + (y + z)) by field_simp] at this
  have h0 : (x / (x + (y + z))) • a + ((y / (x + (y + z))) • b + (z / (x + (y + z))) • c) = 0 := by
    have kx := congrArg V2.x key
    have ky := congrArg V2.y key
    simp only [add_x, add_y, scale_x, scale_y, zero_x, zero_y] at kx ky
    ext
    · simp only [smul_eq_scale, add_x, scale_x, zero_x]
      field_simp
      linarith
    · simp only [smul_eq_scale, add_y, scale_y, zero_y]
      field_simp
      linarith
  have := hZ.far _ hm
  rw [h0, V2.norm_zero] at this
  linarith [hZ.pos]

/-- the second point, in the direction away from the first -/
theorem edge_first (hZ : FarSet g R Z) (ha : a ∈ Z) (hb : b ∈ Z) (haR : a.norm ≤ R) (hbR : b.norm ≤ R)
    (hfit : a.dot b ≤ a.norm * b.norm / 2 ^ 21) :
    g ≤ (b - a).norm ∧ g / 2 * a.norm ≤ a.dot (a - b) ∧ 0 ≤ b.dot (b - a) ∧ g * (b - a).norm ≤ |a.cross b| := by
  have hg := hZ.pos
  have hR := hZ.ratio
  have gA := hZ.far a ha
  have gB := hZ.far b hb
  have eA := a.norm_sq'
  have eB := b.norm_sq'
  have h1 : g / 2 * a.norm ≤ a.dot (a - b) := by
    rw [dot_sub, ← eA]
    have : a.norm * b.norm ≤ a.norm * (400 * g) := mul_le_mul_of_nonneg_left (hbR.trans hR) a.norm_nonneg
    have : a.norm * g ≤ a.norm * a.norm := mul_le_mul_of_nonneg_left gA a.norm_nonneg
    have : 0 ≤ a.norm * g := by have := a.norm_nonneg; positivity
    nlinarith
  have h2 : 0 ≤ b.dot (b - a) := by
    rw [dot_sub, ← eB, dot_comm b a]
    have : a.norm * b.norm ≤ (400 * g) * b.norm := mul_le_mul_of_nonneg_right (haR.trans hR) b.norm_nonneg
    have : b.norm * g ≤ b.norm * b.norm := mul_le_mul_of_nonneg_left gB b.norm_nonneg
    have : 0 ≤ b.norm * g := by have := b.norm_nonneg; positivity
    nlinarith
  refine ⟨?_, h1, h2, foot_far hZ ha hb ?_ h2⟩
  · apply V2.le_norm
    have e : (b - a).dot (b - a) = b.dot (b - a) + a.dot (a - b) := by simp only [dot_def, sub_x, sub_y]; ring
    rw [e]
    have e2 : b.dot (b - a) + a.dot (a - b) = b.norm ^ 2 + a.norm ^ 2 - 2 * a.dot b := by
      rw [eA, eB]; simp only [dot_def, sub_x, sub_y]; ring
    rw [e2]
    have : 0 ≤ (a.norm - b.norm) ^ 2 := sq_nonneg _
    have : g ^ 2 ≤ b.norm ^ 2 := pow_le_pow_left₀ hg.le gB 2
    have : g ^ 2 ≤ a.norm ^ 2 := pow_le_pow_left₀ hg.le gA 2
    nlinarith
  · have : 0 ≤ g / 2 * a.norm := by have := a.norm_nonneg; positivity
    linarith

end

end Auburn
