import Verif.Lib.GjkNear

/-!
# The distance search between two rotated boxes (library lemmas, exact arithmetic)

The difference of two boxes is a zonogon with four generators `l i * u i`, `u 0 ⟂ u 2` (first box) and
`u 1 ⟂ u 3` (second box) or the other way round.  All paths of the search are followed; at every edge
it visits, the nearest point of the edge is inside, or is a nearest point of the zonogon.
-/

set_option linter.unusedSectionVars false
set_option synthInstance.maxSize 1000

namespace Auburn

open V2

section
variable {K : Type} [Field K] [LinearOrder K] [IsStrictOrderedRing K]

/-- a unit vector pair turned by an angle in `(0, 90)` degrees against another one; half sizes along
the four directions; position of the second box -/
structure BoxFrame (K : Type) where
  u0 : V2 K
  u1 : V2 K
  u2 : V2 K
  u3 : V2 K
  l0 : K
  l1 : K
  l2 : K
  l3 : K
  c : K
  s : K
  o : V2 K

/-- `σ` is a sign of `x` (either one for 0) -/
def SgnOk (σ x : K) : Prop := (σ = 1 ∧ 0 ≤ x) ∨ (σ = -1 ∧ x ≤ 0)

theorem SgnOk.abs {σ x : K} (h : SgnOk σ x) : σ * x = |x| := by
  rcases h with ⟨rfl, h⟩ | ⟨rfl, h⟩
  · rw [abs_of_nonneg h, one_mul]
  · rw [abs_of_nonpos h]; ring
theorem SgnOk.pos {σ x : K} (h : SgnOk σ x) (hx : 0 < x) : σ = 1 := by
  rcases h with ⟨h, _⟩ | ⟨_, h⟩
  · exact h
  · exact absurd h (not_le.2 hx)
theorem SgnOk.neg {σ x : K} (h : SgnOk σ x) (hx : x < 0) : σ = -1 := by
  rcases h with ⟨_, h⟩ | ⟨h, _⟩
  · exact absurd h (not_le.2 hx)
  · exact h
theorem sgnOk_one {x : K} (h : 0 ≤ x) : SgnOk 1 x := Or.inl ⟨rfl, h⟩
theorem sgnOk_neg_one {x : K} (h : x ≤ 0) : SgnOk (-1) x := Or.inr ⟨rfl, h⟩

/-- membership in a zonogon with two orthogonal pairs of generators, by elimination -/
theorem zonogon_solve {c s l0 l1 l2 l3 p q : K} (hc : 0 < c) (hs : 0 < s) (hcs : c * c + s * s = 1)
    (k0 : 0 < l0) (k1 : 0 < l1) (k2 : 0 < l2) (k3 : 0 < l3) (hp : 0 ≤ p) (ho : 0 ≤ c * q - s * p)
    (h0 : p ≤ l0 + c * l1 + s * l3) (h1 : c * p + s * q ≤ c * l0 + l1 + s * l2)
    (h2 : q ≤ s * l1 + l2 + c * l3) (h3 : c * q - s * p ≤ c * l2 + l3 - s * l0) :
    ∃ t1 t3 : K, |t1| ≤ l1 ∧ |t3| ≤ l3 ∧ |p - c * t1 + s * t3| ≤ l0 ∧ |q - s * t1 - c * t3| ≤ l2 := by
  have hq : 0 ≤ q := by
    by_contra hn
    have := mul_neg_of_pos_of_neg hc (not_le.1 hn)
    have := mul_nonneg hs.le hp
    linarith
  have c_l0 := mul_pos hc k0
  have c_l1 := mul_pos hc k1
  have c_l2 := mul_pos hc k2
  have c_l3 := mul_pos hc k3
  have s_l0 := mul_pos hs k0
  have s_l1 := mul_pos hs k1
  have s_l2 := mul_pos hs k2
  have s_l3 := mul_pos hs k3
  have cp := mul_nonneg hc.le hp
  have sp := mul_nonneg hs.le hp
  have cq := mul_nonneg hc.le hq
  have sq := mul_nonneg hs.le hq
  have c3 := mul_le_mul_of_nonneg_left h3 hc.le
  have s3 := mul_le_mul_of_nonneg_left h3 hs.le
  have co := mul_nonneg hc.le ho
  have so := mul_nonneg hs.le ho
  have ep : p = c * (c * p + s * q) - s * (c * q - s * p) := by linear_combination (-p) * hcs
  have eq : q = s * (c * p + s * q) + c * (c * q - s * p) := by linear_combination (-q) * hcs
  have e0 : l0 = c * (c * l0) + s * (s * l0) := by linear_combination (-l0) * hcs
  have e2 : l2 = c * (c * l2) + s * (s * l2) := by linear_combination (-l2) * hcs
  have e3 : l3 = c * (c * l3) + s * (s * l3) := by linear_combination (-l3) * hcs
  have pcc := mul_nonneg hc.le c_l0.le
  have pss := mul_nonneg hs.le s_l0.le
  have p2cc := mul_nonneg hc.le c_l2.le
  have p2ss := mul_nonneg hs.le s_l2.le
  have pcs := mul_pos hc s_l0
  have pcs2 := mul_pos hc s_l2
  obtain ⟨t1, a1, a2, a3, a4, b1, b2, b3, b4⟩ : ∃ t1 : K, 0 ≤ t1 ∧
      c * p + s * q - s * l2 - c * l0 ≤ t1 ∧ q - l2 - c * l3 ≤ s * t1 ∧ p - l0 - s * l3 ≤ c * t1 ∧
      t1 ≤ l1 ∧ t1 ≤ c * p + s * q + c * l0 + s * l2 ∧ c * t1 ≤ l0 + p + s * l3 ∧
      s * t1 ≤ q + l2 + c * l3 := by
    refine ⟨max (max 0 (c * p + s * q - s * l2 - c * l0))
      (max ((q - l2 - c * l3) / s) ((p - l0 - s * l3) / c)), ?_, ?_, ?_, ?_, ?_, ?_, ?_, ?_⟩
    · exact (le_max_left _ _).trans (le_max_left _ _)
    · exact (le_max_right _ _).trans (le_max_left _ _)
    · rw [← div_le_iff₀' hs]
      exact (le_max_left _ _).trans (le_max_right _ _)
    · rw [← div_le_iff₀' hc]
      exact (le_max_right _ _).trans (le_max_right _ _)
    · refine max_le (max_le k1.le (by linarith)) (max_le ?_ ?_)
      · rw [div_le_iff₀ hs]; linarith
      · rw [div_le_iff₀ hc]; linarith
    · refine max_le (max_le (by linarith) (by linarith)) (max_le ?_ ?_)
      · rw [div_le_iff₀ hs]; linarith
      · rw [div_le_iff₀ hc]; linarith
    · rw [← le_div_iff₀' hc]
      refine max_le (max_le ?_ ?_) (max_le ?_ ?_)
      · exact div_nonneg (by linarith) hc.le
      · rw [le_div_iff₀ hc]; linarith
      · rw [div_le_div_iff₀ hs hc]; linarith
      · rw [div_le_div_iff_of_pos_right hc]; linarith
    · rw [← le_div_iff₀' hs]
      refine max_le (max_le ?_ ?_) (max_le ?_ ?_)
      · exact div_nonneg (by linarith) hs.le
      · rw [le_div_iff₀ hs]; linarith
      · rw [div_le_div_iff_of_pos_right hs]; linarith
      · rw [div_le_div_iff₀ hc hs]; linarith
  have et : t1 = c * (c * t1) + s * (s * t1) := by linear_combination (-t1) * hcs
  have ca2 := mul_le_mul_of_nonneg_left a2 hc.le
  obtain ⟨t3, d1, d2, d3, f1, f2, f3⟩ : ∃ t3 : K, -l3 ≤ t3 ∧ -l0 - p + c * t1 ≤ s * t3 ∧
      q - s * t1 - l2 ≤ c * t3 ∧ t3 ≤ l3 ∧ s * t3 ≤ l0 - p + c * t1 ∧ c * t3 ≤ q - s * t1 + l2 := by
    refine ⟨max (-l3) (max ((-l0 - p + c * t1) / s) ((q - s * t1 - l2) / c)), ?_, ?_, ?_, ?_, ?_, ?_⟩
    · exact le_max_left _ _
    · rw [← div_le_iff₀' hs]
      exact (le_max_left _ _).trans (le_max_right _ _)
    · rw [← div_le_iff₀' hc]
      exact (le_max_right _ _).trans (le_max_right _ _)
    · refine max_le (by linarith) (max_le ?_ ?_)
      · rw [div_le_iff₀ hs]; linarith
      · rw [div_le_iff₀ hc]; linarith
    · rw [← le_div_iff₀' hs]
      refine max_le ?_ (max_le ?_ ?_)
      · rw [le_div_iff₀ hs]; linarith
      · rw [div_le_div_iff_of_pos_right hs]; linarith
      · rw [div_le_div_iff₀ hc hs]; linarith
    · rw [← le_div_iff₀' hc]
      refine max_le ?_ (max_le ?_ ?_)
      · rw [le_div_iff₀ hc]; linarith
      · rw [div_le_div_iff₀ hs hc]; linarith
      · rw [div_le_div_iff_of_pos_right hc]; linarith
  refine ⟨t1, t3, abs_le.2 ⟨by linarith, b1⟩, abs_le.2 ⟨d1, f1⟩, abs_le.2 ⟨?_, ?_⟩, abs_le.2 ⟨?_, ?_⟩⟩
    <;> linarith

namespace BoxFrame

/-- the point with signs `σ` -/
def pt (F : BoxFrame K) (σ0 σ1 σ2 σ3 : K) : V2 K :=
  scale (σ0 * F.l0) F.u0 + scale (σ1 * F.l1) F.u1 + scale (σ2 * F.l2) F.u2 +
    scale (σ3 * F.l3) F.u3 - F.o

/-- the zonogon `M` with support function `S` is described by `F` -/
structure Ok (F : BoxFrame K) (M : Set (V2 K)) (S : V2 K → V2 K) : Prop where
  h00 : F.u0.dot F.u0 = 1
  h22 : F.u2.dot F.u2 = 1
  h02 : F.u0.dot F.u2 = 0
  u1 : ∀ v : V2 K, v.dot F.u1 = F.c * v.dot F.u0 + F.s * v.dot F.u2
  u3 : ∀ v : V2 K, v.dot F.u3 = F.c * v.dot F.u2 - F.s * v.dot F.u0
  c0 : 0 < F.c
  s0 : 0 < F.s
  cs : F.c * F.c + F.s * F.s = 1
  l0 : 0 < F.l0
  l1 : 0 < F.l1
  l2 : 0 < F.l2
  l3 : 0 < F.l3
  o0 : 0 ≤ F.o.dot F.u0
  o3 : 0 ≤ F.o.dot F.u3
  mem : ∀ t0 t1 t2 t3 : K, |t0| ≤ F.l0 → |t1| ≤ F.l1 → |t2| ≤ F.l2 → |t3| ≤ F.l3 →
    scale t0 F.u0 + scale t1 F.u1 + scale t2 F.u2 + scale t3 F.u3 - F.o ∈ M
  sup : ∀ d, IsExtreme M d (S d)
  supp : ∀ d, ∃ σ0 σ1 σ2 σ3 : K, S d = F.pt σ0 σ1 σ2 σ3 ∧ SgnOk σ0 (d.dot F.u0) ∧
    SgnOk σ1 (d.dot F.u1) ∧ SgnOk σ2 (d.dot F.u2) ∧ SgnOk σ3 (d.dot F.u3)

/-- the mirror image of the labels -/
def mirror (F : BoxFrame K) : BoxFrame K :=
  ⟨F.u3, F.u2, F.u1, F.u0, F.l3, F.l2, F.l1, F.l0, F.c, F.s, F.o⟩

variable {F : BoxFrame K} {M : Set (V2 K)} {S : V2 K → V2 K}

theorem mirror_pt (σ0 σ1 σ2 σ3 : K) : F.mirror.pt σ3 σ2 σ1 σ0 = F.pt σ0 σ1 σ2 σ3 := by
  simp only [pt, mirror]; abel

theorem Ok.dot_frame (h : F.Ok M S) (x y : V2 K) :
    x.dot y = x.dot F.u0 * y.dot F.u0 + x.dot F.u2 * y.dot F.u2 := by
  have e0 : ∀ x : V2 K, x.dot F.u2 = F.u0.cross F.u2 * F.u0.cross x := by
    intro x
    have := frame_dot F.u0 F.u2 x
    rw [h.h02, lengthSq, h.h00, zero_mul, zero_add, one_mul] at this
    rw [dot_comm, this]
  have e1 := e0 F.u2
  rw [h.h22] at e1
  have e2 := frame_dot F.u0 x y
  rw [lengthSq, h.h00, one_mul] at e2
  rw [e0 x, e0 y, e2, dot_comm x F.u0, dot_comm y F.u0]
  linear_combination (F.u0.cross x * F.u0.cross y) * e1

theorem Ok.cross_frame (h : F.Ok M S) : ∃ τ : K, τ * τ = 1 ∧ ∀ x y : V2 K,
    x.cross y = τ * (x.dot F.u0 * y.dot F.u2 - x.dot F.u2 * y.dot F.u0) := by
  have e0 : ∀ x : V2 K, x.dot F.u2 = F.u0.cross F.u2 * F.u0.cross x := by
    intro x
    have := frame_dot F.u0 F.u2 x
    rw [h.h02, lengthSq, h.h00, zero_mul, zero_add, one_mul] at this
    rw [dot_comm, this]
  have e1 := e0 F.u2
  rw [h.h22] at e1
  refine ⟨F.u0.cross F.u2, e1.symm, fun x y => ?_⟩
  have e2 := frame_cross F.u0 x y
  rw [lengthSq, h.h00, one_mul] at e2
  rw [e0 x, e0 y, e2, dot_comm x F.u0, dot_comm y F.u0]
  linear_combination (F.u0.dot x * F.u0.cross y - F.u0.cross x * F.u0.dot y) * e1

theorem Ok.mirror (h : F.Ok M S) : F.mirror.Ok M S := by
  have e3 := h.u3
  have e1 := h.u1
  have hcs := h.cs
  refine
    { h00 := ?_, h22 := ?_, h02 := ?_, u1 := fun v => ?_, u3 := fun v => ?_, c0 := h.c0, s0 := h.s0,
      cs := h.cs, l0 := h.l3, l1 := h.l2, l2 := h.l1, l3 := h.l0, o0 := h.o3, o3 := h.o0,
      mem := fun t0 t1 t2 t3 k0 k1 k2 k3 => ?_, sup := h.sup, supp := fun d => ?_ }
  · show F.u3.dot F.u3 = 1
    rw [e3, dot_comm, e3, dot_comm F.u3, e3, h.h00, h.h22, h.h02, dot_comm, h.h02]
    linear_combination hcs
  · show F.u1.dot F.u1 = 1
    rw [e1, dot_comm, e1, dot_comm F.u1, e1, h.h00, h.h22, h.h02, dot_comm, h.h02]
    linear_combination hcs
  · show F.u3.dot F.u1 = 0
    rw [e1, dot_comm, e3, dot_comm F.u3, e3, h.h00, h.h22, h.h02, dot_comm, h.h02]
    ring
  · show v.dot F.u2 = F.c * v.dot F.u3 + F.s * v.dot F.u1
    rw [e1, e3]
    linear_combination (-v.dot F.u2) * hcs
  · show v.dot F.u0 = F.c * v.dot F.u1 - F.s * v.dot F.u3
    rw [e1, e3]
    linear_combination (-v.dot F.u0) * hcs
  · have := h.mem t3 t2 t1 t0 k3 k2 k1 k0
    convert this using 1
    simp only [BoxFrame.mirror]; abel
  · obtain ⟨σ0, σ1, σ2, σ3, e, k0, k1, k2, k3⟩ := h.supp d
    exact ⟨σ3, σ2, σ1, σ0, by rw [mirror_pt]; exact e, k3, k2, k1, k0⟩

/-- the origin is in `M` unless some axis separates; only the case needed below -/
theorem Ok.zero_mem (h : F.Ok M S)
    (h0 : F.o.dot F.u0 ≤ F.l0 + F.c * F.l1 + F.s * F.l3)
    (h1 : F.o.dot F.u1 ≤ F.c * F.l0 + F.l1 + F.s * F.l2)
    (h2 : F.o.dot F.u2 ≤ F.s * F.l1 + F.l2 + F.c * F.l3)
    (h3 : F.o.dot F.u3 ≤ F.c * F.l2 + F.l3 - F.s * F.l0) : (0 : V2 K) ∈ M := by
  have ho3 := h.o3
  rw [h.u3] at ho3 h3
  rw [h.u1] at h1
  obtain ⟨t1, t3, k1, k3, k0, k2⟩ := zonogon_solve h.c0 h.s0 h.cs h.l0 h.l1 h.l2 h.l3 h.o0 ho3 h0 h1 h2 h3
  have hm := h.mem _ _ _ _ k0 k1 k2 k3
  have h20 : F.u2.dot F.u0 = 0 := by rw [dot_comm]; exact h.h02
  have h10 : F.u1.dot F.u0 = F.c := by rw [dot_comm, h.u1, h.h00, h.h02]; ring
  have h12 : F.u1.dot F.u2 = F.s := by rw [dot_comm, h.u1, h.h22, h20]; ring
  have h30 : F.u3.dot F.u0 = -F.s := by rw [dot_comm, h.u3, h.h00, h.h02]; ring
  have h32 : F.u3.dot F.u2 = F.c := by rw [dot_comm, h.u3, h.h22, h20]; ring
  convert hm using 1
  symm
  rw [← lengthSq_eq_zero, lengthSq, h.dot_frame]
  have add_dot : ∀ a b d : V2 K, (a + b).dot d = a.dot d + b.dot d := fun a b d => by
    rw [dot_comm, dot_add, dot_comm d, dot_comm d]
  have sub_dot : ∀ a b d : V2 K, (a - b).dot d = a.dot d - b.dot d := fun a b d => by
    rw [dot_comm, dot_sub, dot_comm d, dot_comm d]
  have scale_dot : ∀ (t : K) (a d : V2 K), (scale t a).dot d = t * a.dot d := fun t a d => by
    rw [dot_comm, dot_scale, dot_comm d]
  simp only [add_dot, sub_dot, scale_dot, h10, h12, h20, h.h00, h.h02, h.h22, h30, h32]
  ring

/-- position of the origin relative to the corner with all signs positive -/
def X (F : BoxFrame K) : K := F.o.dot F.u0 - F.l0 - F.c * F.l1 + F.s * F.l3
/-- see `X` -/
def Y (F : BoxFrame K) : K := F.o.dot F.u2 - F.l2 - F.s * F.l1 - F.c * F.l3

/-- the corner nearest to the other box's centre and its successors -/
def q0 (F : BoxFrame K) : V2 K := F.pt 1 1 1 1
/-- see `q0` -/
def q1 (F : BoxFrame K) : V2 K := F.pt 1 1 1 (-1)
/-- see `q0` -/
def q2 (F : BoxFrame K) : V2 K := F.pt 1 1 (-1) (-1)
/-- see `q0` -/
def q3 (F : BoxFrame K) : V2 K := F.pt 1 (-1) (-1) (-1)

theorem Ok.pt_dot (h : F.Ok M S) (σ0 σ1 σ2 σ3 : K) :
    (F.pt σ0 σ1 σ2 σ3).dot F.u0 = σ0 * F.l0 + F.c * (σ1 * F.l1) - F.s * (σ3 * F.l3) - F.o.dot F.u0 ∧
    (F.pt σ0 σ1 σ2 σ3).dot F.u2 = σ2 * F.l2 + F.s * (σ1 * F.l1) + F.c * (σ3 * F.l3) - F.o.dot F.u2 := by
  have h20 : F.u2.dot F.u0 = 0 := by rw [dot_comm]; exact h.h02
  have h10 : F.u1.dot F.u0 = F.c := by rw [dot_comm, h.u1, h.h00, h.h02]; ring
  have h12 : F.u1.dot F.u2 = F.s := by rw [dot_comm, h.u1, h.h22, h20]; ring
  have h30 : F.u3.dot F.u0 = -F.s := by rw [dot_comm, h.u3, h.h00, h.h02]; ring
  have h32 : F.u3.dot F.u2 = F.c := by rw [dot_comm, h.u3, h.h22, h20]; ring
  have add_dot : ∀ a b d : V2 K, (a + b).dot d = a.dot d + b.dot d := fun a b d => by
    rw [dot_comm, dot_add, dot_comm d, dot_comm d]
  have sub_dot : ∀ a b d : V2 K, (a - b).dot d = a.dot d - b.dot d := fun a b d => by
    rw [dot_comm, dot_sub, dot_comm d, dot_comm d]
  have scale_dot : ∀ (t : K) (a d : V2 K), (scale t a).dot d = t * a.dot d := fun t a d => by
    rw [dot_comm, dot_scale, dot_comm d]
  constructor <;> simp only [pt, add_dot, sub_dot, scale_dot, h10, h12, h20, h.h00, h.h02, h.h22, h30, h32]
    <;> ring

theorem Ok.q0_x (h : F.Ok M S) : F.q0.dot F.u0 = -F.X := by rw [q0, (h.pt_dot _ _ _ _).1, X]; ring
theorem Ok.q0_y (h : F.Ok M S) : F.q0.dot F.u2 = -F.Y := by rw [q0, (h.pt_dot _ _ _ _).2, Y]; ring
theorem Ok.q1_x (h : F.Ok M S) : F.q1.dot F.u0 = -F.X + 2 * (F.s * F.l3) := by
  rw [q1, (h.pt_dot _ _ _ _).1, X]; ring
theorem Ok.q1_y (h : F.Ok M S) : F.q1.dot F.u2 = -F.Y - 2 * (F.c * F.l3) := by
  rw [q1, (h.pt_dot _ _ _ _).2, Y]; ring
theorem Ok.q2_x (h : F.Ok M S) : F.q2.dot F.u0 = -F.X + 2 * (F.s * F.l3) := by
  rw [q2, (h.pt_dot _ _ _ _).1, X]; ring
theorem Ok.q2_y (h : F.Ok M S) : F.q2.dot F.u2 = -F.Y - 2 * (F.c * F.l3) - 2 * F.l2 := by
  rw [q2, (h.pt_dot _ _ _ _).2, Y]; ring
theorem Ok.q3_x (h : F.Ok M S) : F.q3.dot F.u0 = -F.X + 2 * (F.s * F.l3) - 2 * (F.c * F.l1) := by
  rw [q3, (h.pt_dot _ _ _ _).1, X]; ring
theorem Ok.q3_y (h : F.Ok M S) :
    F.q3.dot F.u2 = -F.Y - 2 * (F.c * F.l3) - 2 * F.l2 - 2 * (F.s * F.l1) := by
  rw [q3, (h.pt_dot _ _ _ _).2, Y]; ring

/-- a point whose signs fit the direction is a farthest one -/
theorem Ok.top (h : F.Ok M S) {d : V2 K} {σ0 σ1 σ2 σ3 : K} (k0 : SgnOk σ0 (d.dot F.u0))
    (k1 : SgnOk σ1 (d.dot F.u1)) (k2 : SgnOk σ2 (d.dot F.u2)) (k3 : SgnOk σ3 (d.dot F.u3)) :
    ∀ x ∈ M, d.dot x ≤ d.dot (F.pt σ0 σ1 σ2 σ3) := by
  intro x hx
  obtain ⟨τ0, τ1, τ2, τ3, e, j0, j1, j2, j3⟩ := h.supp d
  refine ((h.sup d).2 x hx).trans (le_of_eq ?_)
  have hp : ∀ a0 a1 a2 a3 : K, d.dot (F.pt a0 a1 a2 a3) = F.l0 * (a0 * d.dot F.u0) +
      F.l1 * (a1 * d.dot F.u1) + F.l2 * (a2 * d.dot F.u2) + F.l3 * (a3 * d.dot F.u3) - d.dot F.o := by
    intro a0 a1 a2 a3
    simp only [pt, dot_add, dot_sub, dot_scale]; ring
  rw [e, hp, hp, j0.abs, j1.abs, j2.abs, j3.abs, k0.abs, k1.abs, k2.abs, k3.abs]

theorem Ok.sub_x (_h : F.Ok M S) (p q : V2 K) : (p - q).dot F.u0 = p.dot F.u0 - q.dot F.u0 := by
  rw [dot_comm, dot_sub, dot_comm F.u0, dot_comm F.u0]
theorem Ok.sub_y (_h : F.Ok M S) (p q : V2 K) : (p - q).dot F.u2 = p.dot F.u2 - q.dot F.u2 := by
  rw [dot_comm, dot_sub, dot_comm F.u2, dot_comm F.u2]

theorem Ok.outNormal_x (h : F.Ok M S) (p q r : V2 K) : (outNormal p q r).dot F.u0 =
    ((q - p).dot F.u0 * (r - p).dot F.u2 - (q - p).dot F.u2 * (r - p).dot F.u0) *
      (q - p).dot F.u2 := by
  obtain ⟨τ, hτ, hx⟩ := h.cross_frame
  rw [outNormal_dot, hx, hx, h.h00, h.h02]
  linear_combination (((q - p).dot F.u0 * (r - p).dot F.u2 - (q - p).dot F.u2 * (r - p).dot F.u0) *
      (q - p).dot F.u2) * hτ
theorem Ok.outNormal_y (h : F.Ok M S) (p q r : V2 K) : (outNormal p q r).dot F.u2 =
    -((q - p).dot F.u0 * (r - p).dot F.u2 - (q - p).dot F.u2 * (r - p).dot F.u0) *
      (q - p).dot F.u0 := by
  obtain ⟨τ, hτ, hx⟩ := h.cross_frame
  rw [outNormal_dot, hx, hx, h.h22, dot_comm F.u2 F.u0, h.h02]
  linear_combination (-((q - p).dot F.u0 * (r - p).dot F.u2 - (q - p).dot F.u2 * (r - p).dot F.u0) *
      (q - p).dot F.u0) * hτ
theorem Ok.crossAba_x (h : F.Ok M S) (a b : V2 K) : (a.crossAba b).dot F.u0 =
    -(a.dot F.u0 * b.dot F.u2 - a.dot F.u2 * b.dot F.u0) * a.dot F.u2 := by
  obtain ⟨τ, hτ, hx⟩ := h.cross_frame
  rw [crossAba_dot, hx, hx, h.h00, h.h02]
  linear_combination (-(a.dot F.u0 * b.dot F.u2 - a.dot F.u2 * b.dot F.u0) * a.dot F.u2) * hτ
theorem Ok.crossAba_y (h : F.Ok M S) (a b : V2 K) : (a.crossAba b).dot F.u2 =
    (a.dot F.u0 * b.dot F.u2 - a.dot F.u2 * b.dot F.u0) * a.dot F.u0 := by
  obtain ⟨τ, hτ, hx⟩ := h.cross_frame
  rw [crossAba_dot, hx, hx, h.h22, dot_comm F.u2 F.u0, h.h02]
  linear_combination ((a.dot F.u0 * b.dot F.u2 - a.dot F.u2 * b.dot F.u0) * a.dot F.u0) * hτ

/-- the origin lies above the third edge's line -/
theorem Ok.up (h : F.Ok M S) :
    0 < F.c * (F.Y + 2 * (F.c * F.l3) + 2 * F.l2) - F.s * (F.X - 2 * (F.s * F.l3)) := by
  have h1 := h.o3
  rw [h.u3] at h1
  have h2 := mul_pos h.s0 h.l0
  have h3 := mul_pos h.c0 h.l2
  have h4 := h.l3
  have e : F.c * (F.Y + 2 * (F.c * F.l3) + 2 * F.l2) - F.s * (F.X - 2 * (F.s * F.l3)) =
      F.c * F.o.dot F.u2 - F.s * F.o.dot F.u0 + F.s * F.l0 + F.c * F.l2 + F.l3 := by
    rw [X, Y]; linear_combination F.l3 * h.cs
  rw [e]; linarith

/-- the separating axis in the case where the search goes furthest -/
theorem Ok.far (h : F.Ok M S) (h0 : (0 : V2 K) ∉ M) (h1 : F.c * F.X + F.s * F.Y ≤ 0) (h2 : F.Y ≤ 0)
    (h3 : F.c * F.Y - F.s * F.X ≤ 0) : 2 * (F.s * F.l3) < F.X := by
  by_contra hn
  refine h0 (h.zero_mem ?_ ?_ ?_ ?_)
  · rw [X] at hn; linarith
  · rw [h.u1]
    have e : F.c * F.X + F.s * F.Y = F.c * F.o.dot F.u0 + F.s * F.o.dot F.u2 - F.c * F.l0 - F.l1 -
        F.s * F.l2 := by rw [X, Y]; linear_combination (-F.l1) * h.cs
    linarith
  · rw [Y] at h2; linarith
  · rw [h.u3]
    have e : F.c * F.Y - F.s * F.X = F.c * F.o.dot F.u2 - F.s * F.o.dot F.u0 - F.c * F.l2 - F.l3 +
        F.s * F.l0 := by rw [X, Y]; linear_combination (-F.l3) * h.cs
    linarith

end BoxFrame
end

section
variable {K : Type} [Field K] [LinearOrder K] [IsStrictOrderedRing K] [FloatExtra K]
  [ExactFloat K] {M : Set (V2 K)} {S : V2 K → V2 K}

theorem endsOk_pair {p q : V2 K} (hp : p.dot (q - p) ≤ 0 ∨ Nearest M 1 (-p))
    (hq : q.dot (p - q) ≤ 0 ∨ Nearest M 1 (-q)) : EndsOk M [p, q] := by
  intro x hx y hy hne hpos
  simp only [List.mem_cons, List.not_mem_nil, or_false] at hx hy
  rcases hx with rfl | rfl <;> rcases hy with rfl | rfl
  · exact absurd rfl hne
  · exact hp.resolve_left (not_le.2 hpos)
  · exact hq.resolve_left (not_le.2 hpos)
  · exact absurd rfl hne

theorem nearest_self {p : V2 K} (h0 : p ≠ 0) (h : ∀ x ∈ M, (-p).dot x ≤ (-p).dot p) :
    Nearest M 1 (-p) := by
  refine nearest_of_dir (neg_ne_zero.2 h0) zero_le_one (h := (-p).dot p) ?_ ?_ ?_
  · rw [neg_dot']
    have : 0 ≤ p.dot p := lengthSq_nonneg p
    linarith
  · rw [neg_dot', lengthSq_neg, lengthSq]; ring
  · intro x hx
    rw [one_mul]; exact h x hx

open BoxFrame in
/-- the states of the search between two boxes -/
inductive BState (M : Set (V2 K)) (S : V2 K → V2 K) : V2 K → V2 K → List (V2 K) → Prop
  /-- first point -/
  | init (F : BoxFrame K) : F.Ok M S → BState M S (-F.q0) F.q0 [F.q0]
  /-- no further point -/
  | dead (d l : V2 K) (pts : List (V2 K)) : (∀ x ∈ M, d.dot x ≤ d.dot l) → EndsOk M pts →
      BState M S d l pts
  /-- edge over two sides -/
  | e2 (F : BoxFrame K) (d : V2 K) (k : K) : F.Ok M S → 0 < k →
      d.dot F.u0 = k * (F.c * F.l3 + F.l2) → d.dot F.u2 = k * (F.s * F.l3) →
      F.c * F.Y - F.s * F.X < 0 → F.Y ≤ 0 →
      0 ≤ F.c * F.X + F.s * F.Y ∨ (2 * (F.s * F.l3) < F.X ∧ F.c * F.X + F.s * F.Y ≤ 0) →
      EndsOk M [F.q2, F.q0] → BState M S d F.q2 [F.q2, F.q0]
  /-- edge over three sides -/
  | e3 (F : BoxFrame K) (d : V2 K) (k : K) : F.Ok M S → 0 < k →
      d.dot F.u0 = k * (F.c * F.l3 + F.l2 + F.s * F.l1) → d.dot F.u2 = k * (F.s * F.l3 - F.c * F.l1) →
      F.c * F.Y - F.s * F.X < 0 → F.Y ≤ 0 → 2 * (F.s * F.l3) < F.X → F.c * F.X + F.s * F.Y ≤ 0 →
      EndsOk M [F.q3, F.q0] → BState M S d F.q3 [F.q3, F.q0]
  /-- edge over the second and third side -/
  | f3 (F : BoxFrame K) (d : V2 K) (k : K) : F.Ok M S → 0 < k →
      d.dot F.u0 = k * (F.l2 + F.s * F.l1) → d.dot F.u2 = -(k * (F.c * F.l1)) →
      F.c * F.Y - F.s * F.X < 0 → F.Y ≤ 0 → 2 * (F.s * F.l3) < F.X → F.c * F.X + F.s * F.Y ≤ 0 →
      EndsOk M [F.q1, F.q3] → BState M S d F.q1 [F.q1, F.q3]

theorem BState.endsOk {d l : V2 K} {pts : List (V2 K)} (h : BState M S d l pts) : EndsOk M pts := by
  cases h with
  | init F _ =>
    intro p hp q hq hne _
    rw [List.mem_singleton.1 hp, List.mem_singleton.1 hq] at hne
    exact absurd rfl hne
  | dead _ _ _ _ h => exact h
  | e2 _ _ _ _ _ _ _ _ _ _ h => exact h
  | e3 _ _ _ _ _ _ _ _ _ _ _ h => exact h
  | f3 _ _ _ _ _ _ _ _ _ _ _ h => exact h

theorem keep_dir {u old new : V2 K} (h : directionTooSmall new → new = 0) (h0 : new.dot u ≠ 0) :
    overrideDir old new = new :=
  if_neg fun h1 => h0 (by rw [h h1, dot_comm, dot_zero])

theorem addPoint3_cases {a b c d u : V2 K} {r : AddResult K} (hr : addPoint [b, c] a = .ok r)
    (hc : r.collides = false) (hs : directionTooSmall r.dir → r.dir = 0)
    (n1 : (outNormal a b c).dot u ≠ 0) (n2 : (outNormal a c b).dot u ≠ 0) :
    (0 ≤ (outNormal a b c).dot (-a) ∧ 0 ≤ (b - a).dot (-a) ∧
      overrideDir d r.dir = outNormal a b c ∧ r.pts = [a, b]) ∨
    (0 ≤ (outNormal a b c).dot (-a) ∧ (b - a).dot (-a) < 0 ∧
      overrideDir d r.dir = outNormal a c b ∧ r.pts = [a, c]) ∨
    ((outNormal a b c).dot (-a) < 0 ∧ 0 ≤ (outNormal a c b).dot (-a) ∧
      overrideDir d r.dir = outNormal a c b ∧ r.pts = [a, c]) := by
  simp only [addPoint, acPerp_eq, sameDirection] at hr
  split_ifs at hr with k1 k2 k2
  · simp only [Except.ok.injEq] at hr
    subst hr
    exact Or.inl ⟨k1, k2, keep_dir hs n1, rfl⟩
  · simp only [Except.ok.injEq] at hr
    subst hr
    exact Or.inr (Or.inl ⟨k1, not_le.1 k2, keep_dir hs n2, rfl⟩)
  · simp only [Except.ok.injEq] at hr
    subst hr
    exact Or.inr (Or.inr ⟨not_le.1 k1, k2, keep_dir hs n2, rfl⟩)
  · simp only [Except.ok.injEq] at hr
    subst hr
    cases hc

theorem addPoint2_cases {a b d u : V2 K} {r : AddResult K} (hr : addPoint [b] a = .ok r)
    (hs : directionTooSmall r.dir → r.dir = 0) :
    (0 ≤ (b - a).dot (-a) ∧ (((b - a).crossAba (-a)).dot u ≠ 0 →
      overrideDir d r.dir = (b - a).crossAba (-a)) ∧ r.pts = [a, b]) ∨
    ((b - a).dot (-a) < 0 ∧ ((-a).dot u ≠ 0 → overrideDir d r.dir = -a) ∧ r.pts = [a, b]) := by
  simp only [addPoint] at hr
  split_ifs at hr with k1
  · simp only [Except.ok.injEq] at hr
    subst hr
    exact Or.inl ⟨k1, fun n => keep_dir hs n, rfl⟩
  · simp only [Except.ok.injEq] at hr
    subst hr
    exact Or.inr ⟨not_le.1 k1, fun n => keep_dir hs n, rfl⟩

namespace BoxFrame
variable {F : BoxFrame K}

theorem Ok.neg_x (_h : F.Ok M S) (p : V2 K) : (-p).dot F.u0 = -p.dot F.u0 := neg_dot' _ _
theorem Ok.neg_y (_h : F.Ok M S) (p : V2 K) : (-p).dot F.u2 = -p.dot F.u2 := neg_dot' _ _

/-- `q2` is the newest point -/
theorem Ok.ends20 (h : F.Ok M S) (h3 : F.c * F.Y - F.s * F.X < 0) (h2 : F.Y ≤ 0)
    (hy : 0 < F.Y + 2 * (F.c * F.l3) + 2 * F.l2) : EndsOk M [F.q2, F.q0] := by
  refine endsOk_pair (Or.inl ?_) (Or.inl ?_)
  · rw [h.dot_frame, h.sub_x, h.sub_y, h.q2_x, h.q2_y, h.q0_x, h.q0_y]
    have := mul_pos h.l3 h.up
    have := mul_pos h.l2 hy
    linarith
  · rw [h.dot_frame, h.sub_x, h.sub_y, h.q2_x, h.q2_y, h.q0_x, h.q0_y]
    have := mul_pos h.l3 (neg_pos.2 h3)
    have := mul_nonneg h.l2.le (neg_nonneg.2 h2)
    linarith

/-- last step in the case of two or three sides -/
theorem Ok.final (h : F.Ok M S) (h3 : F.c * F.Y - F.s * F.X < 0) 
    (h1 : 0 ≤ F.c * F.X + F.s * F.Y ∨ (2 * (F.s * F.l3) < F.X ∧ F.c * F.X + F.s * F.Y ≤ 0))
    {d : V2 K} {r : AddResult K} (hr : addPoint [F.q2, F.q0] F.q1 = .ok r) (hc : r.collides = false)
    (hs : directionTooSmall r.dir → r.dir = 0) :
    BState M S (overrideDir d r.dir) F.q1 r.pts := by
  have l2 := h.l2
  have l3 := h.l3
  have c0 := h.c0
  have s0 := h.s0
  have sl3 := mul_pos s0 l3
  have cl3 := mul_pos c0 l3
  have up := h.up
  have n20x : (outNormal F.q1 F.q2 F.q0).dot F.u0 = 8 * (F.l2 * F.l2 * (F.s * F.l3)) := by
    rw [h.outNormal_x, h.sub_x, h.sub_y, h.sub_x, h.sub_y, h.q1_x, h.q1_y, h.q2_x, h.q2_y, h.q0_x,
      h.q0_y]; ring
  have n20y : (outNormal F.q1 F.q2 F.q0).dot F.u2 = 0 := by
    rw [h.outNormal_y, h.sub_x, h.sub_y, h.sub_x, h.sub_y, h.q1_x, h.q1_y, h.q2_x, h.q2_y, h.q0_x,
      h.q0_y]; ring
  have n02x : (outNormal F.q1 F.q0 F.q2).dot F.u0 = 8 * (F.l2 * F.l3 * F.s * (F.c * F.l3)) := by
    rw [h.outNormal_x, h.sub_x, h.sub_y, h.sub_x, h.sub_y, h.q1_x, h.q1_y, h.q2_x, h.q2_y, h.q0_x,
      h.q0_y]; ring
  have n02y : (outNormal F.q1 F.q0 F.q2).dot F.u2 = 8 * (F.l2 * F.l3 * F.s * (F.s * F.l3)) := by
    rw [h.outNormal_y, h.sub_x, h.sub_y, h.sub_x, h.sub_y, h.q1_x, h.q1_y, h.q2_x, h.q2_y, h.q0_x,
      h.q0_y]; ring
  have p20 : 0 < 8 * (F.l2 * F.l2 * (F.s * F.l3)) := by positivity
  have p02x : 0 < 8 * (F.l2 * F.l3 * F.s * (F.c * F.l3)) := by positivity
  have p02y : 0 < 8 * (F.l2 * F.l3 * F.s * (F.s * F.l3)) := by positivity
  have top20 : ∀ x ∈ M, (outNormal F.q1 F.q2 F.q0).dot x ≤ (outNormal F.q1 F.q2 F.q0).dot F.q1 := by
    refine h.top (sgnOk_one ?_) (sgnOk_one ?_) (sgnOk_one ?_) (sgnOk_neg_one ?_)
    · rw [n20x]; exact p20.le
    · rw [h.u1, n20x, n20y]; have := mul_pos c0 p20; linarith
    · rw [n20y]
    · rw [h.u3, n20x, n20y]; have := mul_pos s0 p20; linarith
  have top02 : ∀ x ∈ M, (outNormal F.q1 F.q0 F.q2).dot x ≤ (outNormal F.q1 F.q0 F.q2).dot F.q1 := by
    refine h.top (sgnOk_one ?_) (sgnOk_one ?_) (sgnOk_one ?_) (sgnOk_neg_one ?_)
    · rw [n02x]; exact p02x.le
    · rw [h.u1, n02x, n02y]; have := mul_pos c0 p02x; have := mul_pos s0 p02y; linarith
    · rw [n02y]; exact p02y.le
    · rw [h.u3, n02x, n02y]; apply le_of_eq; ring
  have end0 : F.q0.dot (F.q1 - F.q0) ≤ 0 := by
    rw [h.dot_frame, h.sub_x, h.sub_y, h.q1_x, h.q1_y, h.q0_x, h.q0_y]
    have := mul_pos l3 (neg_pos.2 h3)
    linarith
  have end1 : 0 ≤ F.c * (F.Y + 2 * (F.c * F.l3)) - F.s * (F.X - 2 * (F.s * F.l3)) →
      F.q1.dot (F.q0 - F.q1) ≤ 0 := by
    intro hx
    rw [h.dot_frame, h.sub_x, h.sub_y, h.q1_x, h.q1_y, h.q0_x, h.q0_y]
    have := mul_nonneg l3.le hx
    linarith
  have c1 : (outNormal F.q1 F.q2 F.q0).dot (-F.q1) =
      8 * (F.l2 * F.l2 * (F.s * F.l3)) * (F.X - 2 * (F.s * F.l3)) := by
    rw [h.dot_frame, h.neg_x, h.neg_y, n20x, n20y, h.q1_x]; ring
  have c2 : (F.q2 - F.q1).dot (-F.q1) = -(2 * F.l2 * (F.Y + 2 * (F.c * F.l3))) := by
    rw [h.dot_frame, h.neg_x, h.neg_y, h.sub_x, h.sub_y, h.q1_x, h.q1_y, h.q2_x, h.q2_y]; ring
  rcases addPoint3_cases (d := d) hr hc hs (u := F.u0) (by rw [n20x]; exact p20.ne')
    (by rw [n02x]; exact p02x.ne') with ⟨k1, k2, ed, ep⟩ | ⟨k1, k2, ed, ep⟩ | ⟨k1, k2, ed, ep⟩
  · have k1' := k1
    have k2' := k2
    rw [c1] at k1'
    rw [c2] at k2'
    have hx : 0 ≤ F.X - 2 * (F.s * F.l3) := nonneg_of_mul_nonneg_right k1' p20
    rw [ed, ep]
    refine .dead _ _ _ top20 (endsOk_pair (Or.inl ?_) (Or.inl ?_))
    · rw [h.dot_frame, h.sub_x, h.sub_y, h.q1_x, h.q1_y, h.q2_x, h.q2_y]
      linarith
    · rw [h.dot_frame, h.sub_x, h.sub_y, h.q1_x, h.q1_y, h.q2_x, h.q2_y]
      have e1 := mul_nonneg s0.le hx
      have e2 : 0 < F.c * (F.Y + 2 * (F.c * F.l3) + 2 * F.l2) := by linarith
      have e3 := mul_pos l2 (pos_of_mul_pos_right e2 c0.le)
      linarith
  · have k1' := k1
    have k2' := k2
    rw [c1] at k1'
    rw [c2] at k2'
    have hx : 0 ≤ F.X - 2 * (F.s * F.l3) := nonneg_of_mul_nonneg_right k1' p20
    have hy : 0 < F.Y + 2 * (F.c * F.l3) :=
      pos_of_mul_pos_right (show 0 < 2 * F.l2 * (F.Y + 2 * (F.c * F.l3)) by linarith) (by linarith)
    rw [ed, ep]
    refine .dead _ _ _ top02 (endsOk_pair ?_ (Or.inl end0))
    rcases le_or_gt 0 (F.c * (F.Y + 2 * (F.c * F.l3)) - F.s * (F.X - 2 * (F.s * F.l3))) with hz | hz
    · exact Or.inl (end1 hz)
    · right
      refine nearest_self ?_ (h.top (σ0 := 1) (σ1 := 1) (σ2 := 1) (σ3 := -1) (sgnOk_one ?_)
        (sgnOk_one ?_) (sgnOk_one ?_) (sgnOk_neg_one ?_))
      · intro hq
        have := h.q1_y
        rw [hq, dot_comm, dot_zero] at this
        linarith
      · rw [h.neg_x, h.q1_x]; linarith
      · rw [h.u1, h.neg_x, h.neg_y, h.q1_x, h.q1_y]
        have := mul_nonneg c0.le hx
        have := mul_pos s0 hy
        linarith
      · rw [h.neg_y, h.q1_y]; linarith
      · rw [h.u3, h.neg_x, h.neg_y, h.q1_x, h.q1_y]; linarith
  · have k1' := k1
    rw [c1] at k1'
    have hx : F.X - 2 * (F.s * F.l3) < 0 := by
      by_contra hn
      have := mul_nonneg p20.le (not_lt.1 hn)
      linarith
    have hw : 0 ≤ F.c * F.X + F.s * F.Y := by
      rcases h1 with h1 | ⟨h1, _⟩
      · exact h1
      · linarith
    rw [ed, ep]
    refine .dead _ _ _ top02 (endsOk_pair (Or.inl (end1 ?_)) (Or.inl end0))
    have e1 := mul_neg_of_pos_of_neg c0 hx
    have e2 : 0 < F.s * (F.Y + 2 * (F.c * F.l3)) := by
      have e : F.c * F.X + F.s * F.Y = F.c * (F.X - 2 * (F.s * F.l3)) + F.s * (F.Y + 2 * (F.c * F.l3)) := by
        ring
      linarith
    have e3 := mul_pos c0 (pos_of_mul_pos_right e2 s0.le)
    have e4 := mul_neg_of_pos_of_neg s0 hx
    linarith

/-- two sides: the next point is the corner between -/
theorem Ok.step2 (h : F.Ok M S) {d : V2 K} {k : K} (hk : 0 < k)
    (dx : d.dot F.u0 = k * (F.c * F.l3 + F.l2)) (dy : d.dot F.u2 = k * (F.s * F.l3)) :
    S d = F.q1 := by
  have c0 := h.c0
  have s0 := h.s0
  have sl3 := mul_pos s0 h.l3
  have cl3 := mul_pos c0 h.l3
  have l2 := h.l2
  obtain ⟨σ0, σ1, σ2, σ3, e, k0, k1, k2, k3⟩ := h.supp d
  rw [h.u1, dx, dy] at k1
  rw [h.u3, dx, dy] at k3
  rw [dx] at k0
  rw [dy] at k2
  rw [e, k0.pos (by positivity), k1.pos (by positivity), k2.pos (by positivity), k3.neg ?_]
  · rfl
  · have : F.c * (k * (F.s * F.l3)) - F.s * (k * (F.c * F.l3 + F.l2)) = -(k * (F.s * F.l2)) := by ring
    rw [this]
    have : 0 < k * (F.s * F.l2) := by positivity
    linarith

/-- three sides, second point -/
theorem Ok.step3 (h : F.Ok M S) {d : V2 K} {k : K} (hk : 0 < k)
    (dx : d.dot F.u0 = k * (F.c * F.l3 + F.l2 + F.s * F.l1))
    (dy : d.dot F.u2 = k * (F.s * F.l3 - F.c * F.l1)) : S d = F.q1 ∨ S d = F.q2 := by
  have c0 := h.c0
  have s0 := h.s0
  have l1 := h.l1
  have l2 := h.l2
  have l3 := h.l3
  obtain ⟨σ0, σ1, σ2, σ3, e, k0, k1, k2, k3⟩ := h.supp d
  rw [h.u1, dx, dy] at k1
  rw [h.u3, dx, dy] at k3
  rw [dx] at k0
  have e1 : F.c * (k * (F.c * F.l3 + F.l2 + F.s * F.l1)) + F.s * (k * (F.s * F.l3 - F.c * F.l1)) =
      k * (F.l3 + F.c * F.l2) := by linear_combination (k * F.l3) * h.cs
  have e3 : F.c * (k * (F.s * F.l3 - F.c * F.l1)) - F.s * (k * (F.c * F.l3 + F.l2 + F.s * F.l1)) =
      -(k * (F.s * F.l2 + F.l1)) := by linear_combination (-(k * F.l1)) * h.cs
  rw [e1] at k1
  rw [e3] at k3
  have n3 : -(k * (F.s * F.l2 + F.l1)) < 0 := neg_neg_of_pos (by positivity)
  rw [e, k0.pos (by positivity), k1.pos (by positivity), k3.neg n3]
  rcases k2 with ⟨rfl, _⟩ | ⟨rfl, _⟩
  · exact Or.inl rfl
  · exact Or.inr rfl

/-- second and third side: the next point is the corner between -/
theorem Ok.step4 (h : F.Ok M S) {d : V2 K} {k : K} (hk : 0 < k)
    (dx : d.dot F.u0 = k * (F.l2 + F.s * F.l1)) (dy : d.dot F.u2 = -(k * (F.c * F.l1))) :
    S d = F.q2 := by
  have c0 := h.c0
  have s0 := h.s0
  have l1 := h.l1
  have l2 := h.l2
  obtain ⟨σ0, σ1, σ2, σ3, e, k0, k1, k2, k3⟩ := h.supp d
  rw [h.u1, dx, dy] at k1
  rw [h.u3, dx, dy] at k3
  rw [dx] at k0
  rw [dy] at k2
  have e1 : F.c * (k * (F.l2 + F.s * F.l1)) + F.s * -(k * (F.c * F.l1)) = k * (F.c * F.l2) := by ring
  have e3 : F.c * -(k * (F.c * F.l1)) - F.s * (k * (F.l2 + F.s * F.l1)) =
      -(k * (F.s * F.l2 + F.l1)) := by linear_combination (-(k * F.l1)) * h.cs
  rw [e1] at k1
  rw [e3] at k3
  have n2 : -(k * (F.c * F.l1)) < 0 := neg_neg_of_pos (by positivity)
  have n3 : -(k * (F.s * F.l2 + F.l1)) < 0 := neg_neg_of_pos (by positivity)
  rw [e, k0.pos (by positivity), k1.pos (by positivity), k2.neg n2, k3.neg n3]
  rfl

/-- facts in the case of three sides -/
theorem Ok.three (h : F.Ok M S) (hx : 2 * (F.s * F.l3) < F.X) (h1 : F.c * F.X + F.s * F.Y ≤ 0) :
    0 < F.X - 2 * (F.s * F.l3) ∧ F.Y + 2 * (F.c * F.l3) < 0 ∧
      0 < F.Y + 2 * (F.c * F.l3) + 2 * F.l2 := by
  have hx' : 0 < F.X - 2 * (F.s * F.l3) := by linarith
  have e1 := mul_pos h.c0 hx'
  have e2 : F.c * F.X + F.s * F.Y = F.c * (F.X - 2 * (F.s * F.l3)) + F.s * (F.Y + 2 * (F.c * F.l3)) := by
    ring
  have e3 := mul_pos h.s0 hx'
  have e4 := h.up
  refine ⟨hx', ?_, ?_⟩
  · by_contra hn
    have := mul_nonneg h.s0.le (not_lt.1 hn)
    linarith
  · exact pos_of_mul_pos_right (show 0 < F.c * (F.Y + 2 * (F.c * F.l3) + 2 * F.l2) by linarith) h.c0.le

theorem Ok.turn1 (h : F.Ok M S) (h3 : F.c * F.Y - F.s * F.X < 0) (h2 : F.Y ≤ 0)
    (hx : 2 * (F.s * F.l3) < F.X) (h1 : F.c * F.X + F.s * F.Y ≤ 0) {d : V2 K} {r : AddResult K}
    (hr : addPoint [F.q3, F.q0] F.q1 = .ok r) (hc : r.collides = false)
    (hs : directionTooSmall r.dir → r.dir = 0) : BState M S (overrideDir d r.dir) F.q1 r.pts := by
  have l1 := h.l1
  have l2 := h.l2
  have l3 := h.l3
  have c0 := h.c0
  have s0 := h.s0
  obtain ⟨hx1, hy1, hy2⟩ := h.three hx h1
  have nx : (outNormal F.q1 F.q3 F.q0).dot F.u0 =
      8 * F.l3 * (F.l1 + F.s * F.l2) * (F.l2 + F.s * F.l1) := by
    rw [h.outNormal_x, h.sub_x, h.sub_y, h.sub_x, h.sub_y, h.q1_x, h.q1_y, h.q3_x, h.q3_y, h.q0_x,
      h.q0_y]
    linear_combination (8 * F.l3 * F.l1 * (F.l2 + F.s * F.l1)) * h.cs
  have ny : (outNormal F.q1 F.q3 F.q0).dot F.u2 =
      -(8 * F.l3 * (F.l1 + F.s * F.l2) * (F.c * F.l1)) := by
    rw [h.outNormal_y, h.sub_x, h.sub_y, h.sub_x, h.sub_y, h.q1_x, h.q1_y, h.q3_x, h.q3_y, h.q0_x,
      h.q0_y]
    linear_combination (-(8 * F.l3 * F.l1 * (F.c * F.l1))) * h.cs
  have mx : (outNormal F.q1 F.q0 F.q3).dot F.u0 =
      8 * F.l3 * (F.l1 + F.s * F.l2) * (F.c * F.l3) := by
    rw [h.outNormal_x, h.sub_x, h.sub_y, h.sub_x, h.sub_y, h.q1_x, h.q1_y, h.q3_x, h.q3_y, h.q0_x,
      h.q0_y]
    linear_combination (8 * F.l3 * F.l1 * (F.c * F.l3)) * h.cs
  have pk : 0 < 8 * F.l3 * (F.l1 + F.s * F.l2) := by positivity
  have px : 0 < 8 * F.l3 * (F.l1 + F.s * F.l2) * (F.l2 + F.s * F.l1) := by positivity
  have qx : 0 < 8 * F.l3 * (F.l1 + F.s * F.l2) * (F.c * F.l3) := by positivity
  have py : 0 < 8 * F.l3 * (F.l1 + F.s * F.l2) * (F.c * F.l1) := by positivity
  rcases addPoint3_cases (d := d) hr hc hs (u := F.u0) (by rw [nx]; exact px.ne')
    (by rw [mx]; exact qx.ne') with ⟨k1, k2, ed, ep⟩ | ⟨k1, k2, ed, ep⟩ | ⟨k1, k2, ed, ep⟩
  · rw [ed, ep]
    refine .f3 F _ _ h pk nx ny h3 h2 hx h1 (endsOk_pair (Or.inl ?_) (Or.inl ?_))
    · rw [dot_comm, neg_dot'] at k2
      linarith
    · rw [h.dot_frame, h.sub_x, h.sub_y, h.q1_x, h.q1_y, h.q3_x, h.q3_y]
      have e1 := mul_pos (mul_pos c0 l1) hx1
      have e2 := mul_pos (mul_pos s0 l1) hy2
      have e3 := mul_pos l2 hy2
      have e4 := mul_pos (mul_pos c0 l1) (mul_pos c0 l1)
      have e5 := mul_pos (mul_pos s0 l1) (mul_pos s0 l1)
      have e6 := mul_pos l2 (mul_pos s0 l1)
      linarith
  · exfalso
    rw [h.dot_frame, h.neg_x, h.neg_y, h.sub_x, h.sub_y, h.q1_x, h.q1_y, h.q3_x, h.q3_y] at k2
    have e1 := mul_neg_of_pos_of_neg l2 hy1
    have e2 := mul_nonpos_of_nonneg_of_nonpos l1.le h1
    linarith
  · exfalso
    rw [h.dot_frame, h.neg_x, h.neg_y, nx, ny, h.q1_x, h.q1_y] at k1
    have e1 := mul_pos px hx1
    have e2 := mul_neg_of_pos_of_neg py hy1
    linarith

theorem Ok.turn2 (h : F.Ok M S) (h3 : F.c * F.Y - F.s * F.X < 0) (h2 : F.Y ≤ 0)
    (hx : 2 * (F.s * F.l3) < F.X) (h1 : F.c * F.X + F.s * F.Y ≤ 0) {d : V2 K} {r : AddResult K}
    (hr : addPoint [F.q3, F.q0] F.q2 = .ok r) (hc : r.collides = false)
    (hs : directionTooSmall r.dir → r.dir = 0) : BState M S (overrideDir d r.dir) F.q2 r.pts := by
  have l1 := h.l1
  have l2 := h.l2
  have l3 := h.l3
  have c0 := h.c0
  have s0 := h.s0
  obtain ⟨hx1, hy1, hy2⟩ := h.three hx h1
  have nx : (outNormal F.q2 F.q3 F.q0).dot F.u0 =
      8 * F.l1 * (F.l3 + F.c * F.l2) * (F.s * F.l1) := by
    rw [h.outNormal_x, h.sub_x, h.sub_y, h.sub_x, h.sub_y, h.q2_x, h.q2_y, h.q3_x, h.q3_y, h.q0_x,
      h.q0_y]
    linear_combination (8 * F.l1 * F.l3 * (F.s * F.l1)) * h.cs
  have ny : (outNormal F.q2 F.q3 F.q0).dot F.u2 =
      -(8 * F.l1 * (F.l3 + F.c * F.l2) * (F.c * F.l1)) := by
    rw [h.outNormal_y, h.sub_x, h.sub_y, h.sub_x, h.sub_y, h.q2_x, h.q2_y, h.q3_x, h.q3_y, h.q0_x,
      h.q0_y]
    linear_combination (-(8 * F.l1 * F.l3 * (F.c * F.l1))) * h.cs
  have mx : (outNormal F.q2 F.q0 F.q3).dot F.u0 =
      8 * F.l1 * (F.l3 + F.c * F.l2) * (F.c * F.l3 + F.l2) := by
    rw [h.outNormal_x, h.sub_x, h.sub_y, h.sub_x, h.sub_y, h.q2_x, h.q2_y, h.q3_x, h.q3_y, h.q0_x,
      h.q0_y]
    linear_combination (8 * F.l1 * F.l3 * (F.c * F.l3 + F.l2)) * h.cs
  have my : (outNormal F.q2 F.q0 F.q3).dot F.u2 =
      8 * F.l1 * (F.l3 + F.c * F.l2) * (F.s * F.l3) := by
    rw [h.outNormal_y, h.sub_x, h.sub_y, h.sub_x, h.sub_y, h.q2_x, h.q2_y, h.q3_x, h.q3_y, h.q0_x,
      h.q0_y]
    linear_combination (8 * F.l1 * F.l3 * (F.s * F.l3)) * h.cs
  have pk : 0 < 8 * F.l1 * (F.l3 + F.c * F.l2) := by positivity
  have px : 0 < 8 * F.l1 * (F.l3 + F.c * F.l2) * (F.s * F.l1) := by positivity
  have qx : 0 < 8 * F.l1 * (F.l3 + F.c * F.l2) * (F.c * F.l3 + F.l2) := by positivity
  have hneg : (outNormal F.q2 F.q3 F.q0).dot (-F.q2) < 0 := by
    rw [h.dot_frame, h.neg_x, h.neg_y, nx, ny, h.q2_x, h.q2_y]
    have := mul_pos (mul_pos pk l1) h.up
    linarith
  rcases addPoint3_cases (d := d) hr hc hs (u := F.u0) (by rw [nx]; exact px.ne')
    (by rw [mx]; exact qx.ne') with ⟨k1, k2, ed, ep⟩ | ⟨k1, k2, ed, ep⟩ | ⟨k1, k2, ed, ep⟩
  · linarith
  · linarith
  · rw [ed, ep]
    exact .e2 F _ _ h pk mx my h3 h2 (Or.inr ⟨hx, h1⟩) (h.ends20 h3 h2 hy2)

theorem Ok.turn3 (h : F.Ok M S)
    (hx : 2 * (F.s * F.l3) < F.X) (h1 : F.c * F.X + F.s * F.Y ≤ 0) {d : V2 K} {r : AddResult K}
    (hr : addPoint [F.q1, F.q3] F.q2 = .ok r) (hc : r.collides = false)
    (hs : directionTooSmall r.dir → r.dir = 0) : BState M S (overrideDir d r.dir) F.q2 r.pts := by
  have l1 := h.l1
  have l2 := h.l2
  have l3 := h.l3
  have c0 := h.c0
  have s0 := h.s0
  obtain ⟨hx1, hy1, hy2⟩ := h.three hx h1
  have nx : (outNormal F.q2 F.q1 F.q3).dot F.u0 = 8 * F.l1 * F.c * (F.l2 * F.l2) := by
    rw [h.outNormal_x, h.sub_x, h.sub_y, h.sub_x, h.sub_y, h.q2_x, h.q2_y, h.q3_x, h.q3_y, h.q1_x,
      h.q1_y]; ring
  have ny : (outNormal F.q2 F.q1 F.q3).dot F.u2 = 0 := by
    rw [h.outNormal_y, h.sub_x, h.sub_y, h.sub_x, h.sub_y, h.q2_x, h.q2_y, h.q3_x, h.q3_y, h.q1_x,
      h.q1_y]; ring
  have mx : (outNormal F.q2 F.q3 F.q1).dot F.u0 = 8 * F.l1 * F.c * (F.l2 * (F.s * F.l1)) := by
    rw [h.outNormal_x, h.sub_x, h.sub_y, h.sub_x, h.sub_y, h.q2_x, h.q2_y, h.q3_x, h.q3_y, h.q1_x,
      h.q1_y]; ring
  have px : 0 < 8 * F.l1 * F.c * (F.l2 * F.l2) := by positivity
  have qx : 0 < 8 * F.l1 * F.c * (F.l2 * (F.s * F.l1)) := by positivity
  rcases addPoint3_cases (d := d) hr hc hs (u := F.u0) (by rw [nx]; exact px.ne')
    (by rw [mx]; exact qx.ne') with ⟨k1, k2, ed, ep⟩ | ⟨k1, k2, ed, ep⟩ | ⟨k1, k2, ed, ep⟩
  · rw [ed, ep]
    refine .dead _ _ _ ?_ (endsOk_pair (Or.inl ?_) (Or.inl ?_))
    · refine h.top (sgnOk_one ?_) (sgnOk_one ?_) (sgnOk_neg_one ?_) (sgnOk_neg_one ?_)
      · rw [nx]; exact px.le
      · rw [h.u1, nx, ny]; have := mul_pos c0 px; linarith
      · rw [ny]
      · rw [h.u3, nx, ny]; have := mul_pos s0 px; linarith
    · rw [h.dot_frame, h.sub_x, h.sub_y, h.q1_x, h.q1_y, h.q2_x, h.q2_y]
      have := mul_pos l2 hy2
      linarith
    · rw [h.dot_frame, h.sub_x, h.sub_y, h.q1_x, h.q1_y, h.q2_x, h.q2_y]
      have := mul_neg_of_pos_of_neg l2 hy1
      linarith
  · exfalso
    rw [h.dot_frame, h.neg_x, h.neg_y, h.sub_x, h.sub_y, h.q1_x, h.q1_y, h.q2_x, h.q2_y] at k2
    have := mul_pos l2 hy2
    linarith
  · exfalso
    rw [h.dot_frame, h.neg_x, h.neg_y, nx, ny, h.q2_x, h.q2_y] at k1
    have := mul_pos px hx1
    linarith

/-- the second point, on the side of `u3` -/
theorem Ok.begin (h : F.Ok M S) (h0 : (0 : V2 K) ∉ M) (h3 : F.c * F.Y - F.s * F.X < 0) {d : V2 K}
    {r : AddResult K} (hr : addPoint [F.q0] (S (-F.q0)) = .ok r)
    (hs : directionTooSmall r.dir → r.dir = 0) :
    BState M S (overrideDir d r.dir) (S (-F.q0)) r.pts := by
  have l1 := h.l1
  have l2 := h.l2
  have l3 := h.l3
  have c0 := h.c0
  have s0 := h.s0
  have sl3 := mul_pos s0 l3
  have cl3 := mul_pos c0 l3
  have sl1 := mul_pos s0 l1
  have cl1 := mul_pos c0 l1
  have up := h.up
  -- the origin is to the right
  have hX : 0 < F.X := by
    by_contra hn
    have hx := not_lt.1 hn
    have e1 := mul_nonpos_of_nonneg_of_nonpos s0.le hx
    have hy : F.Y ≤ 0 := by
      by_contra hy
      have := mul_pos c0 (not_le.1 hy)
      linarith
    have e2 := mul_nonpos_of_nonneg_of_nonpos c0.le hx
    have e3 := mul_nonpos_of_nonneg_of_nonpos s0.le hy
    have := h.far h0 (by linarith) hy h3.le
    linarith
  have eX : F.X = F.c * (F.c * F.X + F.s * F.Y) - F.s * (F.c * F.Y - F.s * F.X) := by
    linear_combination (-F.X) * h.cs
  obtain ⟨σ0, σ1, σ2, σ3, e, k0, k1, k2, k3⟩ := h.supp (-F.q0)
  rw [h.u1, h.neg_x, h.neg_y, h.q0_x, h.q0_y] at k1
  rw [h.u3, h.neg_x, h.neg_y, h.q0_x, h.q0_y] at k3
  rw [h.neg_x, h.q0_x] at k0
  rw [h.neg_y, h.q0_y] at k2
  obtain rfl := k0.pos (by linarith)
  obtain rfl := k3.neg (by linarith)
  have end0 : F.q0.dot (F.q1 - F.q0) ≤ 0 := by
    rw [h.dot_frame, h.sub_x, h.sub_y, h.q1_x, h.q1_y, h.q0_x, h.q0_y]
    have := mul_pos l3 (neg_pos.2 h3)
    linarith
  rcases k2 with ⟨rfl, k2⟩ | ⟨rfl, k2⟩
  · -- one side
    have hY : 0 ≤ F.Y := by linarith
    have hW : 0 < F.c * F.X + F.s * F.Y := by
      have := mul_pos c0 hX
      have := mul_nonneg s0.le hY
      linarith
    obtain rfl := k1.pos (by linarith)
    have e' : S (-F.q0) = F.q1 := e
    rw [e'] at hr ⊢
    have nx : ((F.q0 - F.q1).crossAba (-F.q1)).dot F.u0 =
        4 * (F.l3 * F.l3) * (F.c * F.X + F.s * F.Y) * F.c := by
      rw [h.crossAba_x, h.sub_x, h.sub_y, h.neg_x, h.neg_y, h.q1_x, h.q1_y, h.q0_x, h.q0_y]; ring
    have ny : ((F.q0 - F.q1).crossAba (-F.q1)).dot F.u2 =
        4 * (F.l3 * F.l3) * (F.c * F.X + F.s * F.Y) * F.s := by
      rw [h.crossAba_y, h.sub_x, h.sub_y, h.neg_x, h.neg_y, h.q1_x, h.q1_y, h.q0_x, h.q0_y]; ring
    have px : 0 < 4 * (F.l3 * F.l3) * (F.c * F.X + F.s * F.Y) * F.c := by positivity
    have py : 0 < 4 * (F.l3 * F.l3) * (F.c * F.X + F.s * F.Y) * F.s := by positivity
    have hyn : (-F.q1).dot F.u2 ≠ 0 := by rw [h.neg_y, h.q1_y]; apply ne_of_gt; linarith
    rcases addPoint2_cases (d := d) (u := F.u2) hr hs with ⟨c1, ed, ep⟩ | ⟨c1, ed, ep⟩
    · rw [ed (by rw [ny]; exact py.ne'), ep]
      refine .dead _ _ _ (h.top (sgnOk_one ?_) (sgnOk_one ?_) (sgnOk_one ?_) (sgnOk_neg_one ?_))
        (endsOk_pair (Or.inl ?_) (Or.inl end0))
      · rw [nx]; exact px.le
      · rw [h.u1, nx, ny]
        have := mul_pos c0 px
        have := mul_pos s0 py
        linarith
      · rw [ny]; exact py.le
      · rw [h.u3, nx, ny]; apply le_of_eq; ring
      · rw [dot_comm, neg_dot'] at c1
        linarith
    · rw [ed hyn, ep]
      have c1' := c1
      rw [h.dot_frame, h.neg_x, h.neg_y, h.sub_x, h.sub_y, h.q1_x, h.q1_y, h.q0_x, h.q0_y] at c1'
      have hz : F.c * (F.Y + 2 * (F.c * F.l3)) - F.s * (F.X - 2 * (F.s * F.l3)) < 0 := by
        by_contra hn
        have := mul_nonneg l3.le (not_lt.1 hn)
        linarith
      have htop : ∀ x ∈ M, (-F.q1).dot x ≤ (-F.q1).dot F.q1 := by
        refine h.top (sgnOk_one ?_) (sgnOk_one ?_) (sgnOk_one ?_) (sgnOk_neg_one ?_)
        · rw [h.neg_x, h.q1_x]
          have e1 := mul_pos c0 hW
          have e2 := mul_neg_of_pos_of_neg s0 hz
          have e3 : F.X - 2 * (F.s * F.l3) = F.c * (F.c * F.X + F.s * F.Y) -
              F.s * (F.c * (F.Y + 2 * (F.c * F.l3)) - F.s * (F.X - 2 * (F.s * F.l3))) := by
            linear_combination (-F.X + 2 * F.s * F.l3) * h.cs
          linarith
        · rw [h.u1, h.neg_x, h.neg_y, h.q1_x, h.q1_y]; linarith
        · rw [h.neg_y, h.q1_y]; linarith
        · rw [h.u3, h.neg_x, h.neg_y, h.q1_x, h.q1_y]; linarith
      refine .dead _ _ _ htop (endsOk_pair (Or.inr (nearest_self ?_ htop)) (Or.inl end0))
      rintro hq
      rw [hq, neg_zero, dot_comm, dot_zero] at hyn
      exact hyn rfl
  · have hY : F.Y ≤ 0 := by linarith
    rcases k1 with ⟨rfl, k1⟩ | ⟨rfl, k1⟩
    · -- two sides
      have hW : 0 ≤ F.c * F.X + F.s * F.Y := by linarith
      have e' : S (-F.q0) = F.q2 := e
      rw [e'] at hr ⊢
      have hd2 : 0 < F.Y + 2 * (F.c * F.l3) + 2 * F.l2 := by
        have e1 : F.Y + 2 * (F.c * F.l3) + 2 * F.l2 =
            F.s * (F.c * F.X + F.s * F.Y + 2 * (F.s * F.l2)) +
            F.c * (F.c * (F.Y + 2 * (F.c * F.l3) + 2 * F.l2) - F.s * (F.X - 2 * (F.s * F.l3))) := by
          linear_combination (-(F.Y + 2 * (F.c * F.l3) + 2 * F.l2)) * h.cs
        have e2 := mul_pos s0 (show 0 < F.c * F.X + F.s * F.Y + 2 * (F.s * F.l2) by
          have := mul_pos s0 l2
          linarith)
        have e3 := mul_pos c0 up
        linarith
      have hE : 0 < F.l3 * (F.c * F.X + F.s * F.Y) + F.l2 * F.X := by
        have := mul_nonneg l3.le hW
        have := mul_pos l2 hX
        linarith
      have nx : ((F.q0 - F.q2).crossAba (-F.q2)).dot F.u0 =
          4 * (F.l3 * (F.c * F.X + F.s * F.Y) + F.l2 * F.X) * (F.c * F.l3 + F.l2) := by
        rw [h.crossAba_x, h.sub_x, h.sub_y, h.neg_x, h.neg_y, h.q2_x, h.q2_y, h.q0_x, h.q0_y]; ring
      have ny : ((F.q0 - F.q2).crossAba (-F.q2)).dot F.u2 =
          4 * (F.l3 * (F.c * F.X + F.s * F.Y) + F.l2 * F.X) * (F.s * F.l3) := by
        rw [h.crossAba_y, h.sub_x, h.sub_y, h.neg_x, h.neg_y, h.q2_x, h.q2_y, h.q0_x, h.q0_y]; ring
      have pk : 0 < 4 * (F.l3 * (F.c * F.X + F.s * F.Y) + F.l2 * F.X) := by positivity
      rcases addPoint2_cases (d := d) (u := F.u2) hr hs with ⟨c1, ed, ep⟩ | ⟨c1, ed, ep⟩
      · rw [ed (by rw [ny]; positivity), ep]
        exact .e2 F _ _ h pk nx ny h3 hY (Or.inl hW) (h.ends20 h3 hY hd2)
      · exfalso
        rw [h.dot_frame, h.neg_x, h.neg_y, h.sub_x, h.sub_y, h.q2_x, h.q2_y, h.q0_x, h.q0_y] at c1
        have := mul_pos l3 up
        have := mul_pos l2 hd2
        linarith
    · -- three sides
      have hW : F.c * F.X + F.s * F.Y ≤ 0 := by linarith
      have hx := h.far h0 hW hY h3.le
      obtain ⟨hx1, hy1, hy2⟩ := h.three hx hW
      have e' : S (-F.q0) = F.q3 := e
      rw [e'] at hr ⊢
      have hE : 0 < (F.c * F.l3 + F.l2 + F.s * F.l1) * F.X + (F.s * F.l3 - F.c * F.l1) * F.Y := by
        have ho2 : F.Y = F.o.dot F.u2 - F.l2 - F.s * F.l1 - F.c * F.l3 := rfl
        have ho0 : F.X = F.o.dot F.u0 - F.l0 - F.c * F.l1 + F.s * F.l3 := rfl
        have o2 : 0 ≤ F.o.dot F.u2 := by
          have e1 := h.o3
          rw [h.u3] at e1
          have e2 := mul_nonneg s0.le h.o0
          by_contra hn
          have := mul_neg_of_pos_of_neg c0 (not_le.1 hn)
          linarith
        have e1 : (F.c * F.l3 + F.l2 + F.s * F.l1) * F.X + (F.s * F.l3 - F.c * F.l1) * F.Y =
            (F.c * F.l3 + F.l2 + F.s * F.l1) * (F.o.dot F.u0 - F.l0) +
              (F.s * F.l3 - F.c * F.l1) * F.o.dot F.u2 := by
          rw [X, Y]; ring
        have e2 : F.c * F.l1 + F.s * F.l3 < F.o.dot F.u0 - F.l0 := by linarith
        have pq : 0 < F.c * F.l3 + F.l2 + F.s * F.l1 := by linarith
        have e3 := mul_lt_mul_of_pos_left e2 pq
        rw [e1]
        rcases le_or_gt 0 (F.s * F.l3 - F.c * F.l1) with hz | hz
        · have := mul_nonneg hz o2
          have := mul_pos pq (show 0 < F.c * F.l1 + F.s * F.l3 by linarith)
          linarith
        · have e4 := mul_le_mul_of_nonneg_left
            (show F.o.dot F.u2 ≤ F.c * F.l3 + F.l2 + F.s * F.l1 by linarith)
            (show 0 ≤ F.c * F.l1 - F.s * F.l3 by linarith)
          have e5 := mul_pos pq sl3
          linarith
      have nx : ((F.q0 - F.q3).crossAba (-F.q3)).dot F.u0 =
          4 * ((F.c * F.l3 + F.l2 + F.s * F.l1) * F.X + (F.s * F.l3 - F.c * F.l1) * F.Y) *
            (F.c * F.l3 + F.l2 + F.s * F.l1) := by
        rw [h.crossAba_x, h.sub_x, h.sub_y, h.neg_x, h.neg_y, h.q3_x, h.q3_y, h.q0_x, h.q0_y]; ring
      have ny : ((F.q0 - F.q3).crossAba (-F.q3)).dot F.u2 =
          4 * ((F.c * F.l3 + F.l2 + F.s * F.l1) * F.X + (F.s * F.l3 - F.c * F.l1) * F.Y) *
            (F.s * F.l3 - F.c * F.l1) := by
        rw [h.crossAba_y, h.sub_x, h.sub_y, h.neg_x, h.neg_y, h.q3_x, h.q3_y, h.q0_x, h.q0_y]; ring
      have pk := mul_pos (show (0 : K) < 4 by norm_num) hE
      have p3x := mul_pos cl1 hx1
      have p3y := mul_pos sl1 hy2
      have p33 := mul_pos cl1 cl1
      have p34 := mul_pos sl1 sl1
      have p35 := mul_pos l2 hy2
      have p36 := mul_pos l2 sl1
      have p37 := mul_pos l3 up
      have c1 : 0 < (F.q0 - F.q3).dot (-F.q3) := by
        rw [h.dot_frame, h.neg_x, h.neg_y, h.sub_x, h.sub_y, h.q3_x, h.q3_y, h.q0_x, h.q0_y]
        linarith
      rcases addPoint2_cases (d := d) (u := F.u0) hr hs with ⟨_, ed, ep⟩ | ⟨c2, _, _⟩
      · rw [ed (by rw [nx]; positivity), ep]
        refine .e3 F _ _ h pk nx ny h3 hY hx hW (endsOk_pair (Or.inl ?_) (Or.inl ?_))
        · rw [dot_comm, neg_dot'] at c1
          linarith
        · rw [h.dot_frame, h.sub_x, h.sub_y, h.q3_x, h.q3_y, h.q0_x, h.q0_y]
          have i1 := mul_pos l3 (neg_pos.2 h3)
          have i2 := mul_nonneg l2.le (neg_nonneg.2 hY)
          have i3 := mul_nonneg l1.le (neg_nonneg.2 hW)
          linarith
      · linarith

end BoxFrame

/-- every step of the search keeps the invariant -/
theorem BState.kept (h0 : (0 : V2 K) ∉ M) (hS : ∀ d, S d ∈ M) : Kept M S (BState M S) := by
  intro L d l pts r _ hB hprog hr hc hs
  cases hB with
  | init F h =>
    rcases lt_or_ge (F.c * F.Y - F.s * F.X) 0 with h3 | h3
    · exact h.begin h0 h3 hr hs
    · rcases lt_or_ge F.X 0 with hx | hx
      · have e : F.mirror.q0 = F.q0 := BoxFrame.mirror_pt 1 1 1 1
        have hm := h.mirror
        have e3 : F.mirror.c * F.mirror.Y - F.mirror.s * F.mirror.X = F.X := by
          have e1 := hm.u3 (-F.q0)
          rw [hm.neg_x, hm.neg_y, ← e, hm.q0_x, hm.q0_y, e] at e1
          have e2 := h.neg_x F.q0
          rw [h.q0_x] at e2
          have e4 : (-F.q0).dot F.mirror.u3 = (-F.q0).dot F.u0 := rfl
          rw [e4, e2] at e1
          linarith
        rw [← e] at hr hprog ⊢
        exact hm.begin h0 (by rw [e3]; exact hx) hr hs
      · exfalso
        have hy : 0 ≤ F.Y := by
          by_contra hn
          have := mul_neg_of_pos_of_neg h.c0 (not_le.1 hn)
          have := mul_nonneg h.s0.le hx
          linarith
        have := h.top (d := -F.q0) (σ0 := 1) (σ1 := 1) (σ2 := 1) (σ3 := 1) (sgnOk_one ?_)
          (sgnOk_one ?_) (sgnOk_one ?_) (sgnOk_one ?_) _ (h.sup (-F.q0)).1
        · exact absurd hprog (not_lt.2 this)
        · rw [h.neg_x, h.q0_x]; linarith
        · rw [h.u1, h.neg_x, h.neg_y, h.q0_x, h.q0_y]
          have := mul_nonneg h.c0.le hx
          have := mul_nonneg h.s0.le hy
          linarith
        · rw [h.neg_y, h.q0_y]; linarith
        · rw [h.u3, h.neg_x, h.neg_y, h.q0_x, h.q0_y]; linarith
  | dead _ _ _ ht _ => exact absurd hprog (not_lt.2 (ht _ (hS d)))
  | e2 F _ k h hk dx dy h3 h2 h1 he =>
    rw [h.step2 hk dx dy] at hr ⊢
    exact h.final h3 h1 hr hc hs
  | e3 F _ k h hk dx dy h3 h2 hx h1 he =>
    rcases h.step3 hk dx dy with e | e <;> rw [e] at hr ⊢
    · exact h.turn1 h3 h2 hx h1 hr hc hs
    · exact h.turn2 h3 h2 hx h1 hr hc hs
  | f3 F _ k h hk dx dy h3 h2 hx h1 he =>
    rw [h.step4 hk dx dy] at hr ⊢
    exact h.turn3 hx h1 hr hc hs

end
end Auburn
