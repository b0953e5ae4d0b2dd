import Verif.Ieee.BoxProps
import Verif.Ieee.ColliderProps
import Verif.Props.Col3d

/-!
# C95: the 3D point queries in binary32

`Box3d` v `Point` and `Ball` v `Point` (`src/col3d/shape`), run on binary32 with rounding.
-/

set_option linter.unusedSectionVars false
set_option synthInstance.maxSize 1000

namespace Auburn

open F32

/-! ## specification -/

/-- the coordinates of an f32 vector are finite and hold these reals -/
def V3.Is (a : V3 F32) (v : V3 ℝ) : Prop := F32.Is a.x v.x ∧ F32.Is a.y v.y ∧ F32.Is a.z v.z

/-- Euclidean length of a real vector -/
noncomputable def V3.norm (v : V3 ℝ) : ℝ := Real.sqrt (v.x ^ 2 + v.y ^ 2 + v.z ^ 2)

/-- offsets for which the length is computed without overflow or harmful underflow: zero, or all
coordinates at most `2^62` and one of them at least `2^-62` in magnitude -/
def V3.Moderate (v : V3 ℝ) : Prop :=
  v = 0 ∨ (|v.x| ≤ (2 : ℝ) ^ (62 : ℤ) ∧ |v.y| ≤ (2 : ℝ) ^ (62 : ℤ) ∧ |v.z| ≤ (2 : ℝ) ^ (62 : ℤ) ∧
    ((2 : ℝ) ^ (-62 : ℤ) ≤ |v.x| ∨ (2 : ℝ) ^ (-62 : ℤ) ≤ |v.y| ∨ (2 : ℝ) ^ (-62 : ℤ) ≤ |v.z|))

/-- the vector `v` about a cuboid of half size `h` and the point `δ`, up to relative errors of `2^-24`
per coordinate: from a nearest point of the surface to `δ` (`inside = false`), or from a point of the
surface to `δ` whose distance exceeds the least possible one by at most one part in `2^22`
(`inside = true`) -/
def CuboidAnswer (inside : Bool) (v : V3 F32) (h δ : V3 ℝ) : Prop :=
  ∃ x w : V3 ℝ, v.Is x ∧ RelClose x.x w.x ∧ RelClose x.y w.y ∧ RelClose x.z w.z ∧
    δ - w ∈ cuboidSurface h ∧
    ∀ q ∈ cuboidSurface h,
      V3.lengthSq w ≤ (if inside then 1 + 1 / 2 ^ 21 else 1) * V3.lengthSq (δ - q)

/-- the vector `v` is finite and within `ε` per coordinate of one that leads from a nearest point of the
sphere of radius `R` to `δ` -/
def SphereAnswer (v : V3 F32) (δ : V3 ℝ) (R ε : ℝ) : Prop :=
  ∃ x w : V3 ℝ, v.Is x ∧ |x.x - w.x| ≤ ε ∧ |x.y - w.y| ≤ ε ∧ |x.z - w.z| ≤ ε ∧
    IsNearest3 δ (sphere3 R) (δ - w)

/-! ## library -/

theorem V3.norm_nonneg (v : V3 ℝ) : 0 ≤ v.norm := Real.sqrt_nonneg _
theorem V3.norm_mul_self (v : V3 ℝ) : v.norm * v.norm = v.x ^ 2 + v.y ^ 2 + v.z ^ 2 :=
  Real.mul_self_sqrt (by positivity)
theorem V3.abs_x_le_norm (v : V3 ℝ) : |v.x| ≤ v.norm := by
  rw [← Real.sqrt_sq_eq_abs]
  exact Real.sqrt_le_sqrt (by nlinarith [sq_nonneg v.y, sq_nonneg v.z])
theorem V3.abs_y_le_norm (v : V3 ℝ) : |v.y| ≤ v.norm := by
  rw [← Real.sqrt_sq_eq_abs]
  exact Real.sqrt_le_sqrt (by nlinarith [sq_nonneg v.x, sq_nonneg v.z])
theorem V3.abs_z_le_norm (v : V3 ℝ) : |v.z| ≤ v.norm := by
  rw [← Real.sqrt_sq_eq_abs]
  exact Real.sqrt_le_sqrt (by nlinarith [sq_nonneg v.x, sq_nonneg v.y])
theorem V3.norm_zero : (0 : V3 ℝ).norm = 0 := by
  show Real.sqrt ((0 : ℝ) ^ 2 + (0 : ℝ) ^ 2 + (0 : ℝ) ^ 2) = 0
  norm_num
theorem V3.norm_le_add (v : V3 ℝ) : v.norm ≤ |v.x| + |v.y| + |v.z| := by
  refine Real.sqrt_le_iff.2 ⟨by positivity, ?_⟩
  have h1 := sq_abs v.x
  have h2 := sq_abs v.y
  have h3 := sq_abs v.z
  have h4 := mul_nonneg (abs_nonneg v.x) (abs_nonneg v.y)
  have h5 := mul_nonneg (abs_nonneg v.x) (abs_nonneg v.z)
  have h6 := mul_nonneg (abs_nonneg v.y) (abs_nonneg v.z)
  nlinarith

/-- the length hardly changes when the coordinates are rounded -/
theorem norm3_rounded {d e : V3 ℝ} (hx : RelClose e.x d.x) (hy : RelClose e.y d.y)
    (hz : RelClose e.z d.z) : |e.norm - d.norm| ≤ d.norm / 2 ^ 24 := by
  have key : ∀ s : ℝ, 0 ≤ s → ∀ a b : ℝ, |a| ≤ s * |b| → a ^ 2 ≤ s ^ 2 * b ^ 2 := by
    intro s hs a b h
    rw [← sq_abs a, ← sq_abs b, ← mul_pow]
    exact pow_le_pow_left₀ (abs_nonneg _) h 2
  have up : ∀ a b : ℝ, RelClose a b → |a| ≤ (1 + 1 / 2 ^ 24) * |b| := by
    intro a b h
    have := abs_add_le (a - b) b
    rw [sub_add_cancel] at this
    unfold RelClose at h
    linarith
  have down : ∀ a b : ℝ, RelClose a b → |(1 - 1 / 2 ^ 24) * b| ≤ 1 * |a| := by
    intro a b h
    rw [abs_mul, abs_of_nonneg (by norm_num : (0 : ℝ) ≤ 1 - 1 / 2 ^ 24)]
    have := abs_sub_abs_le_abs_sub b a
    rw [abs_sub_comm] at this
    unfold RelClose at h
    linarith
  have u1 := key _ (by norm_num) _ _ (up _ _ hx)
  have u2 := key _ (by norm_num) _ _ (up _ _ hy)
  have u3 := key _ (by norm_num) _ _ (up _ _ hz)
  have d1 := key _ (by norm_num) _ _ (down _ _ hx)
  have d2 := key _ (by norm_num) _ _ (down _ _ hy)
  have d3 := key _ (by norm_num) _ _ (down _ _ hz)
  have e1 := e.norm_mul_self
  have e2 := d.norm_mul_self
  have e3 := e.norm_nonneg
  have e4 := d.norm_nonneg
  have h1 : e.norm ≤ (1 + 1 / 2 ^ 24) * d.norm := by
    refine abs_le_of_sq_le_sq' ?_ (by positivity) |>.2
    have : (1 + 1 / 2 ^ 24) ^ 2 * (d.norm * d.norm) - e.norm * e.norm ≥ 0 := by
      rw [e1, e2]; linarith
    nlinarith
  have h2 : (1 - 1 / 2 ^ 24) * d.norm ≤ e.norm := by
    refine abs_le_of_sq_le_sq' ?_ e3 |>.2
    have : e.norm * e.norm - (1 - 1 / 2 ^ 24) ^ 2 * (d.norm * d.norm) ≥ 0 := by
      rw [e1, e2]; linarith
    nlinarith
  rw [abs_le]
  constructor <;> linarith

theorem sum3_error {X Y Z p q r s t : ℝ} (hX : 0 ≤ X) (hY : 0 ≤ Y) (hZ : 0 ≤ Z)
    (hp : |p - X| ≤ X / 2 ^ 24 + 1 / 2 ^ 150) (hq : |q - Y| ≤ Y / 2 ^ 24 + 1 / 2 ^ 150)
    (hr : |r - Z| ≤ Z / 2 ^ 24 + 1 / 2 ^ 150)
    (hm : (2 : ℝ) ^ (-126 : ℤ) ≤ X + Y + Z) (hs : |s - (p + q)| ≤ |p + q| / 2 ^ 24)
    (ht : |t - (s + r)| ≤ |s + r| / 2 ^ 24) :
    |t - (X + Y + Z)| ≤ (13 / 2) * ((X + Y + Z) / 2 ^ 24) := by
  have hm' : (1 : ℝ) / 2 ^ 150 ≤ (X + Y + Z) / 2 ^ 24 := by
    rw [le_div_iff₀ (by positivity)]
    refine le_trans (le_of_eq ?_) hm
    norm_num
  rw [abs_le] at hp hq hr hs ht
  have h1 : |p + q| ≤ (1 + 1 / 4) * (X + Y + Z) := by
    rw [abs_le]
    constructor <;> linarith [hp.1, hp.2, hq.1, hq.2]
  have h2 : |s + r| ≤ (1 + 1 / 4) * (X + Y + Z) := by
    rw [abs_le]
    constructor <;> linarith [hp.1, hp.2, hq.1, hq.2, hr.1, hr.2, hs.1, hs.2]
  rw [abs_le]
  constructor <;> linarith [hp.1, hp.2, hq.1, hq.2, hr.1, hr.2, hs.1, hs.2, ht.1, ht.2]

theorem sqrt3_error {S s w : ℝ} (hS : 0 ≤ S) (hs : |s - S| ≤ (13 / 2) * (S / 2 ^ 24))
    (hw : |w - Real.sqrt s| ≤ Real.sqrt s / 2 ^ 24) :
    |w - Real.sqrt S| ≤ (9 / 2) * (Real.sqrt S / 2 ^ 24) := by
  have hs0 : 0 ≤ s := by
    rw [abs_le] at hs; linarith [hs.1]
  have a1 := Real.sqrt_nonneg s
  have a2 := Real.sqrt_nonneg S
  have b1 := Real.mul_self_sqrt hs0
  have b2 := Real.mul_self_sqrt hS
  generalize Real.sqrt s = r at *
  generalize Real.sqrt S = R at *
  rw [abs_le] at hs
  have hr1 : r ≤ (1 + 27 / (8 * 2 ^ 24)) * R := by
    refine abs_le_of_sq_le_sq' ?_ (by positivity) |>.2
    have : (1 + 27 / (8 * 2 ^ 24)) ^ 2 * (R * R) - r * r ≥ 0 := by
      rw [b1, b2]; linarith [hs.2]
    nlinarith
  have hr2 : (1 - 27 / (8 * 2 ^ 24)) * R ≤ r := by
    refine abs_le_of_sq_le_sq' ?_ a1 |>.2
    have : r * r - (1 - 27 / (8 * 2 ^ 24)) ^ 2 * (R * R) ≥ 0 := by
      rw [b1, b2]; linarith [hs.1]
    nlinarith
  rw [abs_le] at hw ⊢
  constructor <;> linarith [hw.1, hw.2]

section
variable [env : F32Env]

/-- offsets before rounding of the coordinates -/
def V3.Mid (v : V3 ℝ) : Prop :=
  v = 0 ∨ (|v.x| ≤ (5 / 4) * (2 : ℝ) ^ (62 : ℤ) ∧ |v.y| ≤ (5 / 4) * (2 : ℝ) ^ (62 : ℤ) ∧
    |v.z| ≤ (5 / 4) * (2 : ℝ) ^ (62 : ℤ) ∧
    ((2 : ℝ) ^ (-63 : ℤ) ≤ |v.x| ∨ (2 : ℝ) ^ (-63 : ℤ) ≤ |v.y| ∨ (2 : ℝ) ^ (-63 : ℤ) ≤ |v.z|))

/-- the computed square of the length -/
theorem round_lengthSq3 {a : V3 F32} {v : V3 ℝ} (ha : a.Is v) (hv : v.Mid) :
    ∃ s, F32.Is a.lengthSq s ∧ |s - v.norm * v.norm| ≤ (13 / 2) * (v.norm * v.norm / 2 ^ 24) ∧
      0 ≤ s := by
  have en := v.norm_mul_self
  rcases hv with rfl | ⟨h1, h2, h3, h4⟩
  · have hz : ∀ {t : F32}, F32.Is t 0 → F32.Is (t * t) 0 := by
      intro t ht
      have := is_mul ht ht (by rw [mul_zero]; exact representable_zero)
      rwa [mul_zero] at this
    have hs : ∀ {t u : F32}, F32.Is t 0 → F32.Is u 0 → F32.Is (t + u) 0 := by
      intro t u ht hu
      have := is_add ht hu (by rw [add_zero]; exact representable_zero)
      rwa [add_zero] at this
    refine ⟨0, hs (hs (hz ha.1) (hz ha.2.1)) (hz ha.2.2), ?_, le_refl _⟩
    rw [V3.norm_zero]; simp
  · have big : ∀ t : ℝ, |t| ≤ (5 / 4) * (2 : ℝ) ^ (62 : ℤ) → t * t ≤ (25 / 64) * (2 : ℝ) ^ (126 : ℤ) := by
      intro t ht
      have h := mul_le_mul ht ht (abs_nonneg _) (by positivity)
      rw [abs_mul_abs_self] at h
      refine h.trans (le_of_eq ?_)
      norm_num
    have small : ∀ t : ℝ, (2 : ℝ) ^ (-63 : ℤ) ≤ |t| → (2 : ℝ) ^ (-126 : ℤ) ≤ t * t := by
      intro t ht
      rw [← abs_mul_abs_self]
      refine le_trans (le_of_eq ?_) (mul_le_mul ht ht (two_zpow_pos _).le (abs_nonneg _))
      rw [← zpow_add₀ (by norm_num)]; norm_num
    have hp126 := two_zpow_pos 126
    have hX : 0 ≤ v.x * v.x := mul_self_nonneg _
    have hY : 0 ≤ v.y * v.y := mul_self_nonneg _
    have hZ : 0 ≤ v.z * v.z := mul_self_nonneg _
    have b1 := big _ h1
    have b2 := big _ h2
    have b3 := big _ h3
    obtain ⟨p, p1, p2, -, p4⟩ := F32.round_mul ha.1 ha.1 (by rw [abs_of_nonneg hX]; linarith)
    obtain ⟨q, q1, q2, -, q4⟩ := F32.round_mul ha.2.1 ha.2.1 (by rw [abs_of_nonneg hY]; linarith)
    obtain ⟨r, r1, r2, -, r4⟩ := F32.round_mul ha.2.2 ha.2.2 (by rw [abs_of_nonneg hZ]; linarith)
    rw [abs_of_nonneg hX] at p2
    rw [abs_of_nonneg hY] at q2
    rw [abs_of_nonneg hZ] at r2
    have h150 : (1 : ℝ) / 2 ^ 150 ≤ (2 : ℝ) ^ (126 : ℤ) / 64 := by norm_num
    have p5 := abs_le.1 p2
    have q5 := abs_le.1 q2
    have r5 := abs_le.1 r2
    obtain ⟨s, s1, s2⟩ := F32.round_add p1 q1 (by
      rw [abs_of_nonneg (add_nonneg (p4 hX) (q4 hY))]
      linarith [p5.2, q5.2])
    have s3 := s2
    rw [abs_of_nonneg (add_nonneg (p4 hX) (q4 hY))] at s3
    have s5 := abs_le.1 s3
    have s0 : 0 ≤ s := by linarith [s5.1, p4 hX, q4 hY]
    obtain ⟨t, t1, t2⟩ := F32.round_add s1 r1 (by
      rw [abs_of_nonneg (add_nonneg s0 (r4 hZ))]
      linarith [p5.2, q5.2, r5.2, s5.2])
    have hlow : (2 : ℝ) ^ (-126 : ℤ) ≤ v.x * v.x + v.y * v.y + v.z * v.z := by
      rcases h4 with h | h | h
      · linarith [small _ h]
      · linarith [small _ h]
      · linarith [small _ h]
    have := sum3_error hX hY hZ p2 q2 r2 hlow s2 t2
    rw [en, show v.x ^ 2 + v.y ^ 2 + v.z ^ 2 = v.x * v.x + v.y * v.y + v.z * v.z by ring]
    refine ⟨t, t1, this, ?_⟩
    have := abs_le.1 this
    linarith [this.1]

/-- the computed length -/
theorem round_length3 {a : V3 F32} {v : V3 ℝ} (ha : a.Is v) (hv : v.Mid) :
    ∃ w, F32.Is a.length w ∧ |w - v.norm| ≤ (9 / 2) * (v.norm / 2 ^ 24) ∧ 0 ≤ w := by
  obtain ⟨s, s1, s2, s3⟩ := round_lengthSq3 ha hv
  obtain ⟨w, w1, w2, w3⟩ := F32.round_sqrt s1 s3
  refine ⟨w, w1, ?_, w3⟩
  have := sqrt3_error (mul_self_nonneg _) s2 w2
  rwa [Real.sqrt_mul_self v.norm_nonneg] at this

theorem V3.Moderate.mid {d e : V3 ℝ} (h : d.Moderate) (hx : RelClose e.x d.x) (hy : RelClose e.y d.y)
    (hz : RelClose e.z d.z) : e.Mid := by
  unfold RelClose at hx hy hz
  rcases h with rfl | ⟨h1, h2, h3, h4⟩
  · left
    have h0 : ∀ t : ℝ, |t - 0| ≤ |(0 : ℝ)| / 2 ^ 24 → t = 0 := by
      intro t ht
      simpa using ht
    ext
    · exact h0 _ hx
    · exact h0 _ hy
    · exact h0 _ hz
  · right
    have up : ∀ a b : ℝ, |a - b| ≤ |b| / 2 ^ 24 → |b| ≤ (2 : ℝ) ^ (62 : ℤ) →
        |a| ≤ (5 / 4) * (2 : ℝ) ^ (62 : ℤ) := by
      intro a b h1 h2
      have := abs_add_le (a - b) b
      rw [sub_add_cancel] at this
      linarith
    have hmul62 : (2 : ℝ) ^ (-62 : ℤ) = 2 * (2 : ℝ) ^ (-63 : ℤ) := by norm_num
    have down : ∀ a b : ℝ, |a - b| ≤ |b| / 2 ^ 24 → (2 : ℝ) ^ (-62 : ℤ) ≤ |b| →
        (2 : ℝ) ^ (-63 : ℤ) ≤ |a| := by
      intro a b h1 h2
      have := abs_sub_abs_le_abs_sub b a
      rw [abs_sub_comm] at this
      have hp := two_zpow_pos (-63)
      linarith
    exact ⟨up _ _ hx h1, up _ _ hy h2, up _ _ hz h3,
      h4.imp (down _ _ hx) (Or.imp (down _ _ hy) (down _ _ hz))⟩

/-! ## Box3d v Point -/

/-- the distance of a surface point, by the axis on which it lies -/
theorem surface_axis {h δ q : V3 ℝ} (hin : δ ∈ cuboidInterior h) (hq : q ∈ cuboidSurface h) :
    (|δ.x| - h.x) ^ 2 ≤ V3.lengthSq (δ - q) ∨ (|δ.y| - h.y) ^ 2 ≤ V3.lengthSq (δ - q) ∨
      (|δ.z| - h.z) ^ 2 ≤ V3.lengthSq (δ - q) := by
  have key : ∀ a b k : ℝ, |b| = k → |a| < k → (|a| - k) ^ 2 ≤ (a - b) * (a - b) := by
    intro a b k hb hk
    have : k - |a| ≤ |a - b| := by
      have := abs_sub_abs_le_abs_sub b a
      rw [abs_sub_comm] at this; linarith
    rw [← sq, ← sq_abs (a - b), show (|a| - k) ^ 2 = (k - |a|) ^ 2 by ring]
    exact pow_le_pow_left₀ (by linarith) this 2
  rw [V3.lengthSq_def]
  simp only [V3.sub_x, V3.sub_y, V3.sub_z]
  have nx := mul_self_nonneg (δ.x - q.x)
  have ny := mul_self_nonneg (δ.y - q.y)
  have nz := mul_self_nonneg (δ.z - q.z)
  obtain ⟨i1, i2, i3⟩ := hin
  rcases hq.2 with h1 | h1 | h1
  · left; linarith [key _ _ _ h1 i1]
  · right; left; linarith [key _ _ _ h1 i2]
  · right; right; linarith [key _ _ _ h1 i3]

theorem near_self {t : ℝ} : t ^ 2 ≤ (1 + 1 / 2 ^ 21) * t ^ 2 := by nlinarith [sq_nonneg t]

theorem box3dContains_f32 {h' d' : V3 F32} {h δ : V3 ℝ} (hh : h'.Is h) (hd : d'.Is δ) :
    box3dContains h' d' = true ↔ δ ∈ cuboidInterior h := by
  unfold box3dContains cuboidInterior
  simp only [Bool.and_eq_true, decide_eq_true_eq, Set.mem_ofPred_eq, abs_lt]
  rw [lt_iff (is_neg hh.1) hd.1, lt_iff hd.1 hh.1, lt_iff (is_neg hh.2.1) hd.2.1, lt_iff hd.2.1 hh.2.1,
    lt_iff (is_neg hh.2.2) hd.2.2, lt_iff hd.2.2 hh.2.2]
  tauto

/-- Box3d v Point in binary32: the flag is exactly right, for all finite inputs. -/
theorem C95_f32_box_collides {T : Type} [Transformation3d T F32] (a : Box3d F32) (pt : Point F32)
    (rel : T) {h δ : V3 ℝ} (hh : a.halfsize.Is h) (hd : (Transformation3d.applyOrigin rel : V3 F32).Is δ) :
    CollidesRel3d.collidesRel a pt rel = true ↔ δ ∈ cuboidInterior h :=
  box3dContains_f32 hh hd

theorem box3dPush_f32 {h' d' : V3 F32} {h δ : V3 ℝ} (hh : h'.Is h) (hd : d'.Is δ)
    (bh : h.x ≤ (2 : ℝ) ^ (126 : ℤ) ∧ h.y ≤ (2 : ℝ) ^ (126 : ℤ) ∧ h.z ≤ (2 : ℝ) ^ (126 : ℤ))
    (hin : δ ∈ cuboidInterior h) : CuboidAnswer true (box3dPush h' d') h δ := by
  obtain ⟨i1, i2, i3⟩ := id hin
  have hx : 0 ≤ h.x := (abs_nonneg _).trans i1.le
  have hy : 0 ≤ h.y := (abs_nonneg _).trans i2.le
  have hz : 0 ≤ h.z := (abs_nonneg _).trans i3.le
  obtain ⟨px, p1, p2⟩ := abs_sub_f32 hd.1 hh.1 (i1.le.trans bh.1) (by rw [abs_of_nonneg hx]; exact bh.1)
  obtain ⟨py, q1, q2⟩ := abs_sub_f32 hd.2.1 hh.2.1 (i2.le.trans bh.2.1)
    (by rw [abs_of_nonneg hy]; exact bh.2.1)
  obtain ⟨pz, r1, r2⟩ := abs_sub_f32 hd.2.2 hh.2.2 (i3.le.trans bh.2.2)
    (by rw [abs_of_nonneg hz]; exact bh.2.2)
  obtain ⟨σ, s1, s2, s3⟩ := signum_f32 hd.1
  obtain ⟨τ, t1, t2, t3⟩ := signum_f32 hd.2.1
  obtain ⟨υ, u1, u2, u3⟩ := signum_f32 hd.2.2
  have face : ∀ {s x k : ℝ}, (s = 1 ∨ s = -1) → s * x = |x| → 0 ≤ k → |x - (|x| - k) * s| = k := by
    intro s x k hs hx hk
    have hs2 : s * s = 1 := by rcases hs with rfl | rfl <;> norm_num
    have hsa : |s| = 1 := by rcases hs with rfl | rfl <;> simp
    have e : x - (|x| - k) * s = k * s := by rw [← hx]; linear_combination (-x) * hs2
    rw [e, abs_mul, hsa, mul_one, abs_of_nonneg hk]
  have sq1 : ∀ {s k : ℝ}, (s = 1 ∨ s = -1) → k * s * (k * s) = k ^ 2 := by
    intro s k hs
    rcases hs with rfl | rfl <;> ring
  have hX : |δ.x| - h.x < 0 := by linarith
  have hY : |δ.y| - h.y < 0 := by linarith
  have hZ : |δ.z| - h.z < 0 := by linarith
  have fin : ∀ {m : ℝ} {w : V3 ℝ}, V3.lengthSq w = m ^ 2 →
      m ^ 2 ≤ (1 + 1 / 2 ^ 21) * (|δ.x| - h.x) ^ 2 → m ^ 2 ≤ (1 + 1 / 2 ^ 21) * (|δ.y| - h.y) ^ 2 →
      m ^ 2 ≤ (1 + 1 / 2 ^ 21) * (|δ.z| - h.z) ^ 2 →
      ∀ q ∈ cuboidSurface h,
      V3.lengthSq w ≤ (if true = true then 1 + 1 / 2 ^ 21 else 1) * V3.lengthSq (δ - q) := by
    intro m w e h1 h2 h3 q hq
    rw [if_pos rfl, e]
    have c : (0 : ℝ) ≤ 1 + 1 / 2 ^ 21 := by norm_num
    rcases surface_axis hin hq with k | k | k
    · exact h1.trans (mul_le_mul_of_nonneg_left k c)
    · exact h2.trans (mul_le_mul_of_nonneg_left k c)
    · exact h3.trans (mul_le_mul_of_nonneg_left k c)
  have lx : px ≤ px := le_refl _
  have casex : py ≤ px → pz ≤ px →
      CuboidAnswer true ⟨(FloatExtra.abs d'.x - h'.x) * FloatExtra.signum d'.x, 0, 0⟩ h δ := by
    intro c1 c2
    refine ⟨⟨px * σ, 0, 0⟩, ⟨(|δ.x| - h.x) * σ, 0, 0⟩, ⟨mul_sign p1 s1 s2, is_zero, is_zero⟩,
      p2.mul_sign s2, relClose_self _, relClose_self _, ?_, ?_⟩
    · have e := face s2 s3 hx
      refine ⟨⟨e.le, ?_, ?_⟩, Or.inl e⟩
      · show |δ.y - 0| ≤ h.y
        rw [sub_zero]; exact i2.le
      · show |δ.z - 0| ≤ h.z
        rw [sub_zero]; exact i3.le
    · refine fin (m := |δ.x| - h.x) ?_ near_self (near_max p2 q2 hX hY c1) (near_max p2 r2 hX hZ c2)
      rw [V3.lengthSq_def]
      show (|δ.x| - h.x) * σ * ((|δ.x| - h.x) * σ) + 0 * 0 + 0 * 0 = _
      rw [sq1 s2]; ring
  have casey : px ≤ py → pz ≤ py →
      CuboidAnswer true ⟨0, (FloatExtra.abs d'.y - h'.y) * FloatExtra.signum d'.y, 0⟩ h δ := by
    intro c1 c2
    refine ⟨⟨0, py * τ, 0⟩, ⟨0, (|δ.y| - h.y) * τ, 0⟩, ⟨is_zero, mul_sign q1 t1 t2, is_zero⟩,
      relClose_self _, q2.mul_sign t2, relClose_self _, ?_, ?_⟩
    · have e := face t2 t3 hy
      refine ⟨⟨?_, e.le, ?_⟩, Or.inr (Or.inl e)⟩
      · show |δ.x - 0| ≤ h.x
        rw [sub_zero]; exact i1.le
      · show |δ.z - 0| ≤ h.z
        rw [sub_zero]; exact i3.le
    · refine fin (m := |δ.y| - h.y) ?_ (near_max q2 p2 hY hX c1) near_self (near_max q2 r2 hY hZ c2)
      rw [V3.lengthSq_def]
      show 0 * 0 + (|δ.y| - h.y) * τ * ((|δ.y| - h.y) * τ) + 0 * 0 = _
      rw [sq1 t2]; ring
  have casez : px ≤ pz → py ≤ pz →
      CuboidAnswer true ⟨0, 0, (FloatExtra.abs d'.z - h'.z) * FloatExtra.signum d'.z⟩ h δ := by
    intro c1 c2
    refine ⟨⟨0, 0, pz * υ⟩, ⟨0, 0, (|δ.z| - h.z) * υ⟩, ⟨is_zero, is_zero, mul_sign r1 u1 u2⟩,
      relClose_self _, relClose_self _, r2.mul_sign u2, ?_, ?_⟩
    · have e := face u2 u3 hz
      refine ⟨⟨?_, ?_, e.le⟩, Or.inr (Or.inr e)⟩
      · show |δ.x - 0| ≤ h.x
        rw [sub_zero]; exact i1.le
      · show |δ.y - 0| ≤ h.y
        rw [sub_zero]; exact i2.le
    · refine fin (m := |δ.z| - h.z) ?_ (near_max r2 p2 hZ hX c1) (near_max r2 q2 hZ hY c2) near_self
      rw [V3.lengthSq_def]
      show 0 * 0 + 0 * 0 + (|δ.z| - h.z) * υ * ((|δ.z| - h.z) * υ) = _
      rw [sq1 u2]; ring
  unfold box3dPush
  simp only [gt_iff_lt, lt_iff q1 p1, lt_iff p1 r1, lt_iff q1 r1]
  by_cases c1 : py < px
  · rw [if_pos c1]
    by_cases c2 : px < pz
    · rw [if_pos c2]; exact casez c2.le (c1.le.trans c2.le)
    · rw [if_neg c2]; exact casex c1.le (not_lt.1 c2)
  · rw [if_neg c1]
    by_cases c2 : py < pz
    · rw [if_pos c2]; exact casez ((not_lt.1 c1).trans c2.le) c2.le
    · rw [if_neg c2]; exact casey (not_lt.1 c1) (not_lt.1 c2)

/-- Box3d v Point `penetrates` and `sdfv` in binary32, for finite half sizes and offsets up to `2^126`. -/
theorem C95_f32_box_vectors {T : Type} [Transformation3d T F32] (a : Box3d F32) (pt : Point F32)
    (rel : T) {h δ : V3 ℝ} (hh : a.halfsize.Is h) (hd : (Transformation3d.applyOrigin rel : V3 F32).Is δ)
    (h0 : 0 ≤ h.x ∧ 0 ≤ h.y ∧ 0 ≤ h.z)
    (bh : h.x ≤ (2 : ℝ) ^ (126 : ℤ) ∧ h.y ≤ (2 : ℝ) ^ (126 : ℤ) ∧ h.z ≤ (2 : ℝ) ^ (126 : ℤ))
    (bd : |δ.x| ≤ (2 : ℝ) ^ (126 : ℤ) ∧ |δ.y| ≤ (2 : ℝ) ^ (126 : ℤ) ∧ |δ.z| ≤ (2 : ℝ) ^ (126 : ℤ)) :
    ∃ v, SdfvRel3d.sdfvRel a pt rel = v ∧
      PenetratesRel3d.penetratesRel a pt rel =
        (if CollidesRel3d.collidesRel a pt rel then some v else none) ∧
      CuboidAnswer (CollidesRel3d.collidesRel a pt rel) v h δ := by
  have flag := C95_f32_box_collides a pt rel hh hd
  by_cases hin : δ ∈ cuboidInterior h
  · have hc := flag.2 hin
    refine ⟨box3dPush a.halfsize (Transformation3d.applyOrigin rel), ?_, ?_, ?_⟩
    · simp only [SdfvRel3d.sdfvRel]
      rw [if_pos hc]
    · simp only [PenetratesRel3d.penetratesRel]
    · rw [hc]
      exact box3dPush_f32 hh hd bh hin
  · have hc : CollidesRel3d.collidesRel a pt rel = false := by
      rw [← Bool.not_eq_true]; exact fun h => hin (flag.1 h)
    obtain ⟨px, p1, p2⟩ := abs_sub_f32 hd.1 hh.1 bd.1 (by rw [abs_of_nonneg h0.1]; exact bh.1)
    obtain ⟨py, q1, q2⟩ := abs_sub_f32 hd.2.1 hh.2.1 bd.2.1 (by rw [abs_of_nonneg h0.2.1]; exact bh.2.1)
    obtain ⟨pz, r1, r2⟩ := abs_sub_f32 hd.2.2 hh.2.2 bd.2.2 (by rw [abs_of_nonneg h0.2.2]; exact bh.2.2)
    obtain ⟨σ, s1, s2, s3⟩ := signum_f32 hd.1
    obtain ⟨τ, t1, t2, t3⟩ := signum_f32 hd.2.1
    obtain ⟨υ, u1, u2, u3⟩ := signum_f32 hd.2.2
    obtain ⟨mx, m1⟩ := clamp_coord h0.1 s2 s3
    obtain ⟨my, m2⟩ := clamp_coord h0.2.1 t2 t3
    obtain ⟨mz, m3⟩ := clamp_coord h0.2.2 u2 u3
    have face : ∀ {s x k : ℝ}, (s = 1 ∨ s = -1) → s * x = |x| → 0 ≤ k → k ≤ |x| →
        |x - max (|x| - k) 0 * s| = k := by
      intro s x k hs hx hk hkx
      have hs2 : s * s = 1 := by rcases hs with rfl | rfl <;> norm_num
      have hsa : |s| = 1 := by rcases hs with rfl | rfl <;> simp
      rw [max_eq_left (by linarith)]
      have e : x - (|x| - k) * s = k * s := by rw [← hx]; linear_combination (-x) * hs2
      rw [e, abs_mul, hsa, mul_one, abs_of_nonneg hk]
    refine ⟨_, rfl, ?_, ?_⟩
    · simp only [PenetratesRel3d.penetratesRel]
      rw [hc]; rfl
    · rw [hc]
      refine ⟨⟨max px 0 * σ, max py 0 * τ, max pz 0 * υ⟩, ⟨max (|δ.x| - h.x) 0 * σ,
        max (|δ.y| - h.y) 0 * τ, max (|δ.z| - h.z) 0 * υ⟩, ?_,
        p2.max_zero.mul_sign s2, q2.max_zero.mul_sign t2, r2.max_zero.mul_sign u2,
        ⟨⟨mx, my, mz⟩, ?_⟩, ?_⟩
      · simp only [SdfvRel3d.sdfvRel]
        rw [if_neg (by rw [hc]; exact Bool.false_ne_true)]
        exact ⟨mul_sign (is_fmax p1 is_zero) s1 s2, mul_sign (is_fmax q1 is_zero) t1 t2,
          mul_sign (is_fmax r1 is_zero) u1 u2⟩
      · by_contra hno
        push Not at hno
        obtain ⟨n1, n2, n3⟩ := hno
        exact hin ⟨not_le.1 fun hc => n1 (face s2 s3 h0.1 hc), not_le.1 fun hc => n2 (face t2 t3 h0.2.1 hc),
          not_le.1 fun hc => n3 (face u2 u3 h0.2.2 hc)⟩
      · rintro q ⟨⟨b1, b2, b3⟩, _⟩
        rw [V3.lengthSq_def, V3.lengthSq_def]
        simp only [V3.sub_x, V3.sub_y, V3.sub_z, Bool.false_eq_true, if_false, one_mul]
        have k1 := m1 q.x b1
        have k2 := m2 q.y b2
        have k3 := m3 q.z b3
        linarith

/-! ### signed distance -/

theorem norm_eq_length3 (v : V3 ℝ) : v.norm = (@V3.length ℝ _ _ (realFloat true 0) v) := by
  show Real.sqrt (v.x ^ 2 + v.y ^ 2 + v.z ^ 2) = Real.sqrt (v.x * v.x + v.y * v.y + v.z * v.z)
  rw [pow_two, pow_two, pow_two]

/-- the length of a rounded vector -/
theorem length3_rounded {d' : V3 F32} {e d : V3 ℝ} (hd' : d'.Is e) (hx : RelClose e.x d.x)
    (hy : RelClose e.y d.y) (hz : RelClose e.z d.z) (hm : d.Moderate) :
    ∃ l, F32.Is d'.length l ∧ |l - d.norm| ≤ 6 * (d.norm / 2 ^ 24) ∧ 0 ≤ l := by
  obtain ⟨l, l1, l2, l3⟩ := round_length3 hd' (hm.mid hx hy hz)
  have hn := norm3_rounded hx hy hz
  refine ⟨l, l1, ?_, l3⟩
  have a1 := abs_le.1 l2
  have a2 := abs_le.1 hn
  have a3 := d.norm_nonneg
  rw [abs_le]; constructor <;> linarith [a1.1, a1.2, a2.1, a2.2]

/-- how far the point lies outside the cuboid, per axis -/
noncomputable def overshoot (h δ : V3 ℝ) : V3 ℝ :=
  ⟨max (|δ.x| - h.x) 0, max (|δ.y| - h.y) 0, max (|δ.z| - h.z) 0⟩

/-- Box3d v Point `sdf` in binary32: except straight above or below the box in `z` (where it is wrong,
C64), it has the sign and, to one part in `2^21`, the size of the signed distance. -/
theorem C95_f32_box_sdf {T : Type} [Transformation3d T F32] (a : Box3d F32) (pt : Point F32)
    (rel : T) {h δ : V3 ℝ} (hh : a.halfsize.Is h) (hd : (Transformation3d.applyOrigin rel : V3 F32).Is δ)
    (h0 : 0 ≤ h.x ∧ 0 ≤ h.y ∧ 0 ≤ h.z)
    (bh : h.x ≤ (2 : ℝ) ^ (126 : ℤ) ∧ h.y ≤ (2 : ℝ) ^ (126 : ℤ) ∧ h.z ≤ (2 : ℝ) ^ (126 : ℤ))
    (bd : |δ.x| ≤ (2 : ℝ) ^ (126 : ℤ) ∧ |δ.y| ≤ (2 : ℝ) ^ (126 : ℤ) ∧ |δ.z| ≤ (2 : ℝ) ^ (126 : ℤ))
    (hm : (overshoot h δ).Moderate) (hup : ¬ (|δ.x| < h.x ∧ |δ.y| < h.y ∧ h.z ≤ |δ.z|)) :
    ∃ t d, F32.Is (SdfRel3d.sdfRel a pt rel) t ∧ |t - d| ≤ |d| / 2 ^ 21 ∧ (t < 0 ↔ d < 0) ∧
      IsSignedDist3 δ (cuboidInterior h) (cuboidSurface h) d := by
  have flag := C95_f32_box_collides a pt rel hh hd
  obtain ⟨px, p1, p2⟩ := abs_sub_f32 hd.1 hh.1 bd.1 (by rw [abs_of_nonneg h0.1]; exact bh.1)
  obtain ⟨py, q1, q2⟩ := abs_sub_f32 hd.2.1 hh.2.1 bd.2.1 (by rw [abs_of_nonneg h0.2.1]; exact bh.2.1)
  obtain ⟨pz, r1, r2⟩ := abs_sub_f32 hd.2.2 hh.2.2 bd.2.2 (by rw [abs_of_nonneg h0.2.2]; exact bh.2.2)
  classical
  obtain ⟨D, hD, hS⟩ : ∃ D : ℝ, D = (if δ ∈ cuboidInterior h then
        max (max (|δ.x| - h.x) (|δ.y| - h.y)) (|δ.z| - h.z)
      else if |δ.z| - h.z < 0 then
        if |δ.x| - h.x < 0 then |δ.y| - h.y else if |δ.y| - h.y < 0 then |δ.x| - h.x
        else (V2.mk (|δ.x| - h.x) (|δ.y| - h.y)).norm
      else if |δ.x| - h.x < 0 then (V2.mk (|δ.z| - h.z) (|δ.y| - h.y)).norm
        else if |δ.y| - h.y < 0 then (V2.mk (|δ.z| - h.z) (|δ.x| - h.x)).norm
        else (V3.mk (|δ.x| - h.x) (|δ.y| - h.y) (|δ.z| - h.z)).norm) ∧
      IsSignedDist3 δ (cuboidInterior h) (cuboidSurface h) D := by
    let _ := realFloat true 0
    have := realFloat_exact true 0
    have := realFloat_sqrt true 0
    have key := (C64_box_sdf_iff (⟨h⟩ : Box3d ℝ) Point.mk δ h0).2 hup
    have hf := C64_box_collides (⟨h⟩ : Box3d ℝ) Point.mk δ
    refine ⟨_, ?_, key⟩
    simp only [SdfRel3d.sdfRel, V2.norm_eq_length, norm_eq_length3]
    by_cases hin : δ ∈ cuboidInterior h
    · rw [if_pos (hf.2 hin), if_pos hin]
      simp only [ExactFloat.abs_eq, ExactFloat.fmax_eq]; rfl
    · rw [if_neg (fun hc => hin (hf.1 hc)), if_neg hin]
      simp only [ExactFloat.abs_eq]; rfl
  have relc : ∀ {t w : ℝ}, RelClose t w → |t - w| ≤ 6 * (|w| / 2 ^ 24) := by
    intro t w h
    unfold RelClose at h
    have : 0 ≤ |w| / 2 ^ 24 := by positivity
    linarith
  -- it suffices to reach the exact value within six units
  suffices H : ∃ t, F32.Is (SdfRel3d.sdfRel a pt rel) t ∧ |t - D| ≤ 6 * (|D| / 2 ^ 24) by
    obtain ⟨t, h1, h2⟩ := H
    have h5 : 0 ≤ |D| / 2 ^ 24 := by positivity
    have h4 := abs_le.1 h2
    refine ⟨t, D, h1, by linarith, ⟨fun ht => ?_, fun hd => ?_⟩, hS⟩
    · by_contra hc
      rw [abs_of_nonneg (not_lt.1 hc)] at h4
      linarith [h4.1]
    · rw [abs_of_neg hd] at h4
      linarith [h4.2]
  have mod2 : ∀ {x y z : ℝ}, V3.Moderate ⟨x, y, z⟩ →
      (x = 0 → V2.Moderate ⟨z, y⟩) ∧ (y = 0 → V2.Moderate ⟨z, x⟩) ∧ (z = 0 → V2.Moderate ⟨x, y⟩) := by
    intro x y z hm
    rcases hm with h | ⟨h1, h2, h3, h4⟩
    · have hx : x = 0 := congrArg V3.x h
      have hy : y = 0 := congrArg V3.y h
      have hz : z = 0 := congrArg V3.z h
      rw [hx, hy, hz]
      exact ⟨fun _ => Or.inl rfl, fun _ => Or.inl rfl, fun _ => Or.inl rfl⟩
    · have hne : ∀ t : ℝ, t = 0 → ¬ (2 : ℝ) ^ (-62 : ℤ) ≤ |t| := by
        rintro t rfl hc
        rw [abs_zero] at hc
        exact absurd hc (not_le.2 (two_zpow_pos _))
      refine ⟨fun h => Or.inr ⟨h3, h2, ?_⟩, fun h => Or.inr ⟨h3, h1, ?_⟩, fun h => Or.inr ⟨h1, h2, ?_⟩⟩
      · exact (h4.resolve_left (hne _ h)).symm
      · rcases h4 with h4 | h4 | h4
        · exact Or.inr h4
        · exact absurd h4 (hne _ h)
        · exact Or.inl h4
      · rcases h4 with h4 | h4 | h4
        · exact Or.inl h4
        · exact Or.inr h4
        · exact absurd h4 (hne _ h)
  have nneg2 : ∀ v : V2 ℝ, |v.norm| = v.norm := fun v => abs_of_nonneg v.norm_nonneg
  unfold overshoot at hm
  simp only [SdfRel3d.sdfRel]
  by_cases hin : δ ∈ cuboidInterior h
  · rw [if_pos (flag.2 hin)]
    rw [if_pos hin] at hD
    obtain ⟨i1, i2, i3⟩ := hin
    have hX : |δ.x| - h.x < 0 := by linarith
    have hY : |δ.y| - h.y < 0 := by linarith
    have hZ : |δ.z| - h.z < 0 := by linarith
    refine ⟨_, is_fmax (is_fmax p1 q1) r1, ?_⟩
    rw [hD]
    exact relc ((p2.max_neg q2 hX hY).max_neg r2 (max_lt hX hY) hZ)
  · rw [if_neg (fun hc => hin (flag.1 hc))]
    rw [if_neg hin] at hD
    have ix : (FloatExtra.abs (Transformation3d.applyOrigin rel : V3 F32).x - a.halfsize.x < 0) ↔
        |δ.x| - h.x < 0 := by rw [lt_iff p1 is_zero, p2.neg_iff]
    have iy : (FloatExtra.abs (Transformation3d.applyOrigin rel : V3 F32).y - a.halfsize.y < 0) ↔
        |δ.y| - h.y < 0 := by rw [lt_iff q1 is_zero, q2.neg_iff]
    have iz : (FloatExtra.abs (Transformation3d.applyOrigin rel : V3 F32).z - a.halfsize.z < 0) ↔
        |δ.z| - h.z < 0 := by rw [lt_iff r1 is_zero, r2.neg_iff]
    have two : ∀ {u' v' : F32} {u v x y : ℝ}, F32.Is u' u → F32.Is v' v → RelClose u x → RelClose v y →
        V2.Moderate ⟨x, y⟩ → ∃ t, F32.Is (V2.mk u' v').length t ∧
          |t - (V2.mk x y).norm| ≤ 6 * (|(V2.mk x y).norm| / 2 ^ 24) := by
      intro u' v' u v x y hu hv hx hy hmod
      obtain ⟨l, l1, l2, _⟩ := length_rounded (d := ⟨x, y⟩) (e := ⟨u, v⟩) (d' := ⟨u', v'⟩)
        ⟨hu, hv⟩ hx hy hmod
      refine ⟨l, l1, ?_⟩
      rw [nneg2]
      have := div_nonneg (V2.mk x y).norm_nonneg (by norm_num : (0 : ℝ) ≤ 2 ^ 24)
      linarith
    simp only [ix, iy, iz]
    by_cases cz : |δ.z| - h.z < 0
    · rw [if_pos cz] at hD ⊢
      by_cases cx : |δ.x| - h.x < 0
      · rw [if_pos cx] at hD ⊢
        exact ⟨py, q1, by rw [hD]; exact relc q2⟩
      · rw [if_neg cx] at hD ⊢
        by_cases cy : |δ.y| - h.y < 0
        · rw [if_pos cy] at hD ⊢
          exact ⟨px, p1, by rw [hD]; exact relc p2⟩
        · rw [if_neg cy] at hD ⊢
          rw [max_eq_left (not_lt.1 cx), max_eq_left (not_lt.1 cy), max_eq_right cz.le] at hm
          rw [hD]
          exact two p1 q1 p2 q2 ((mod2 hm).2.2 rfl)
    · rw [if_neg cz] at hD ⊢
      by_cases cx : |δ.x| - h.x < 0
      · rw [if_pos cx] at hD ⊢
        have cy : ¬ |δ.y| - h.y < 0 := fun cy => hup ⟨by linarith, by linarith, by linarith⟩
        rw [max_eq_right cx.le, max_eq_left (not_lt.1 cy), max_eq_left (not_lt.1 cz)] at hm
        rw [hD]
        exact two r1 q1 r2 q2 ((mod2 hm).1 rfl)
      · rw [if_neg cx] at hD ⊢
        by_cases cy : |δ.y| - h.y < 0
        · rw [if_pos cy] at hD ⊢
          rw [max_eq_left (not_lt.1 cx), max_eq_right cy.le, max_eq_left (not_lt.1 cz)] at hm
          rw [hD]
          exact two r1 p1 r2 p2 ((mod2 hm).2.1 rfl)
        · rw [if_neg cy] at hD ⊢
          rw [max_eq_left (not_lt.1 cx), max_eq_left (not_lt.1 cy), max_eq_left (not_lt.1 cz)] at hm
          rw [hD]
          obtain ⟨l, l1, l2, _⟩ := length3_rounded (d := ⟨|δ.x| - h.x, |δ.y| - h.y, |δ.z| - h.z⟩)
            (e := ⟨px, py, pz⟩) (d' := ⟨_, _, _⟩) ⟨p1, q1, r1⟩ p2 q2 r2 hm
          exact ⟨l, l1, by rw [abs_of_nonneg (V3.norm_nonneg _)]; exact l2⟩

/-! ## Ball v Point -/

/-- the exact vector -/
theorem sphere_vector {δ : V3 ℝ} {R : ℝ} (hR : 0 ≤ R) (hne : δ ≠ 0) :
    IsNearest3 δ (sphere3 R) (δ - V3.scale ((δ.norm - R) / δ.norm) δ) := by
  let _ := realFloat true 0
  have := realFloat_exact true 0
  have := realFloat_sqrt true 0
  have h := C65_ball_sdfv (⟨R⟩ : Ball ℝ) hR Point.mk δ
  have hp := V3.length_pos.2 hne
  have e : SdfvRel3d.sdfvRel (⟨R⟩ : Ball ℝ) (Point.mk : Point ℝ) δ =
      V3.scale ((δ.norm - R) / δ.norm) δ := by
    rw [norm_eq_length3]
    exact if_pos hp
  rw [e] at h
  exact h

theorem sphere_vector_zero {R : ℝ} (hR : 0 ≤ R) : IsNearest3 (0 : V3 ℝ) (sphere3 R) (0 - ⟨R, 0, 0⟩) := by
  let _ := realFloat true 0
  have := realFloat_exact true 0
  have := realFloat_sqrt true 0
  have e : (0 - ⟨R, 0, 0⟩ : V3 ℝ) = V3.scale R ⟨-1, 0, 0⟩ := by ext <;> simp
  rw [e]
  refine sphere_nearest hR (by simp [V3.lengthSq_def]) ?_
  rw [length3_zero]; ext <;> simp

/-- the radii for which the square is computed without overflow or harmful underflow -/
def RadiusOk (R : ℝ) : Prop := R = 0 ∨ ((2 : ℝ) ^ (-61 : ℤ) ≤ R ∧ R ≤ (2 : ℝ) ^ (61 : ℤ))

/-- Ball v Point `collides` in binary32: right unless the distance agrees with the radius to 20 bits. -/
theorem C95_f32_ball_collides {T : Type} [Transformation3d T F32] (a : Ball F32) (pt : Point F32)
    (rel : T) {R : ℝ} {δ : V3 ℝ} (ha : F32.Is a.radius R) (hR : RadiusOk R)
    (hd : (Transformation3d.applyOrigin rel : V3 F32).Is δ) (hm : δ.Moderate) :
    (0 < R → δ.norm ≤ (1 - 1 / 2 ^ 20) * R → CollidesRel3d.collidesRel a pt rel = true) ∧
    ((1 + 1 / 2 ^ 20) * R ≤ δ.norm → CollidesRel3d.collidesRel a pt rel = false) := by
  obtain ⟨s, s1, s2, s3⟩ := round_lengthSq3 hd (hm.mid (relClose_self _) (relClose_self _) (relClose_self _))
  have hn := δ.norm_nonneg
  have hs := abs_le.1 s2
  have hR0 : 0 ≤ R := by
    rcases hR with rfl | ⟨h, _⟩
    · exact le_refl _
    · exact (two_zpow_pos _).le.trans h
  obtain ⟨w, w1, w2⟩ : ∃ w, F32.Is (a.radius * a.radius) w ∧ |w - R * R| ≤ R * R / 2 ^ 24 := by
    rcases hR with rfl | ⟨h1, h2⟩
    · exact ⟨0 * 0, is_mul ha ha (by rw [mul_zero]; exact representable_zero), by simp⟩
    · have b1 : R * R ≤ (2 : ℝ) ^ (126 : ℤ) := by
        refine (mul_le_mul h2 h2 hR0 (two_zpow_pos _).le).trans ?_
        norm_num
      have b2 : (2 : ℝ) ^ (-126 : ℤ) ≤ R * R := by
        refine le_trans ?_ (mul_le_mul h1 h1 (two_zpow_pos _).le hR0)
        norm_num
      have ab : |R * R| = R * R := abs_of_nonneg (mul_self_nonneg _)
      obtain ⟨w, w1, _, w3, _⟩ := F32.round_mul ha ha (by
        rw [ab]; have := two_zpow_pos 126; linarith)
      rw [ab] at w3
      exact ⟨w, w1, w3 b2⟩
  have hw := abs_le.1 w2
  have hRR := mul_self_nonneg R
  constructor
  · intro hp h
    refine decide_eq_true ((lt_iff s1 w1).2 ?_)
    have k := mul_le_mul h h hn (by positivity)
    have hpp := mul_pos hp hp
    have k2 : (1 - 1 / 2 ^ 20) * R * ((1 - 1 / 2 ^ 20) * R) = (1 - 1 / 2 ^ 20) ^ 2 * (R * R) := by ring
    rw [k2] at k
    have k3 : (1 + 13 / 2 / 2 ^ 24) * ((1 - 1 / 2 ^ 20) ^ 2 * (R * R)) < (1 - 1 / 2 ^ 24) * (R * R) := by
      rw [← mul_assoc]
      exact mul_lt_mul_of_pos_right (by norm_num) hpp
    linarith [hs.2, hw.1]
  · intro h
    refine decide_eq_false ?_
    rw [lt_iff s1 w1, not_lt]
    have k := mul_le_mul h h (by positivity) hn
    have k2 : (1 + 1 / 2 ^ 20) * R * ((1 + 1 / 2 ^ 20) * R) = (1 + 1 / 2 ^ 20) ^ 2 * (R * R) := by ring
    rw [k2] at k
    have k3 : (1 + 1 / 2 ^ 24) * (R * R) ≤ (1 - 13 / 2 / 2 ^ 24) * ((1 + 1 / 2 ^ 20) ^ 2 * (R * R)) := by
      rw [← mul_assoc (1 - 13 / 2 / 2 ^ 24 : ℝ)]
      exact mul_le_mul_of_nonneg_right (by norm_num) hRR
    linarith [hs.1, hw.2]

/-- `sdf` and `sdfv` share this computation -/
theorem ball3_f32 {r' : F32} {d' : V3 F32} {R : ℝ} {δ : V3 ℝ} (ha : F32.Is r' R) (h0 : 0 ≤ R)
    (hR : R ≤ (2 : ℝ) ^ (61 : ℤ)) (hd : d'.Is δ) (hm : δ.Moderate) (hne : δ ≠ 0) :
    ∃ l N k, F32.Is d'.length l ∧ F32.Is (d'.length - r') N ∧ F32.Is (r' - d'.length) (-k) ∧
      0 < l ∧ |l - δ.norm| ≤ 5 * (δ.norm / 2 ^ 24) ∧ |N - (δ.norm - R)| ≤ (δ.norm + R) / 2 ^ 21 ∧
      (SphereAnswer (V3.scale ((d'.length - r') / d'.length) d') δ R ((δ.norm + R) / 2 ^ 19)) ∧
      (SphereAnswer (-(V3.scale ((r' - d'.length) / d'.length) d')) δ R ((δ.norm + R) / 2 ^ 19)) := by
  obtain ⟨l, l1, l2, l3⟩ := round_length3 hd
    (hm.mid (relClose_self _) (relClose_self _) (relClose_self _))
  obtain ⟨m1, m2, m3, m4⟩ := hm.resolve_left hne
  have hLn := V3.norm_nonneg δ
  have hmul62 : (2 : ℝ) ^ (-62 : ℤ) = 2 * (2 : ℝ) ^ (-63 : ℤ) := by norm_num
  have hL : (2 : ℝ) ^ (-63 : ℤ) ≤ δ.norm := by
    have hp := two_zpow_pos (-63)
    rcases m4 with h | h | h
    · have := h.trans (V3.abs_x_le_norm δ); linarith
    · have := h.trans (V3.abs_y_le_norm δ); linarith
    · have := h.trans (V3.abs_z_le_norm δ); linarith
  have hLpos : 0 < δ.norm := lt_of_lt_of_le (two_zpow_pos _) hL
  have hLub : δ.norm ≤ 3 * (2 : ℝ) ^ (62 : ℤ) := (V3.norm_le_add δ).trans (by linarith)
  have hll : |l - δ.norm| ≤ 5 * (δ.norm / 2 ^ 24) := by
    have := div_nonneg hLn (by norm_num : (0 : ℝ) ≤ 2 ^ 24)
    linarith
  have hrr : |R - R| ≤ R / 2 ^ 24 := by rw [sub_self, abs_zero]; positivity
  have hlr : |l - R| ≤ (2 : ℝ) ^ (65 : ℤ) := by
    have a1 := abs_le.1 hll
    have h62 : (2 : ℝ) ^ (65 : ℤ) = 8 * (2 : ℝ) ^ (62 : ℤ) := by norm_num
    have h61 : (2 : ℝ) ^ (62 : ℤ) = 2 * (2 : ℝ) ^ (61 : ℤ) := by norm_num
    rw [abs_le]; constructor <;> linarith [a1.1, a1.2]
  have h65 : (2 : ℝ) ^ (65 : ℤ) ≤ 3 * (2 : ℝ) ^ (126 : ℤ) := by norm_num
  obtain ⟨N, N1, N2⟩ := F32.round_sub l1 ha (hlr.trans h65)
  obtain ⟨M, M1, M2⟩ := F32.round_sub ha l1 (by rw [abs_sub_comm]; exact hlr.trans h65)
  have M2' : |-M - (l - R)| ≤ |l - R| / 2 ^ 24 := by
    rw [show -M - (l - R) = -(M - (R - l)) by ring, abs_neg, abs_sub_comm l R]; exact M2
  obtain ⟨lp, eN, eQ⟩ := quot_error hLpos h0 hll hrr N2
  obtain ⟨-, -, eQ'⟩ := quot_error hLpos h0 hll hrr M2'
  have hρ : (δ.norm + R) / δ.norm ≤ (2 : ℝ) ^ (125 : ℤ) := by
    rw [div_le_iff₀ hLpos]
    have h1 : (2 : ℝ) ^ (125 : ℤ) * (2 : ℝ) ^ (-63 : ℤ) ≤ (2 : ℝ) ^ (125 : ℤ) * δ.norm :=
      mul_le_mul_of_nonneg_left hL (two_zpow_pos _).le
    have h2 : (2 : ℝ) ^ (125 : ℤ) * (2 : ℝ) ^ (-63 : ℤ) = 2 * (2 : ℝ) ^ (61 : ℤ) := by norm_num
    have h3 : (4 : ℝ) ≤ (2 : ℝ) ^ (125 : ℤ) := by norm_num
    have h4 : 4 * δ.norm ≤ (2 : ℝ) ^ (125 : ℤ) * δ.norm := mul_le_mul_of_nonneg_right h3 hLn
    linarith
  have hρ0 : 0 ≤ (δ.norm + R) / δ.norm := div_nonneg (by linarith) hLn
  have hκ : |(δ.norm - R) / δ.norm| ≤ (δ.norm + R) / δ.norm := by
    rw [abs_div, abs_of_pos hLpos]
    refine div_le_div_of_nonneg_right ?_ hLn
    rw [abs_le]; constructor <;> linarith
  have h126 : (2 : ℝ) ^ (126 : ℤ) = 2 * (2 : ℝ) ^ (125 : ℤ) := by norm_num
  have hQb : |N / l| ≤ 3 * (2 : ℝ) ^ (126 : ℤ) := by
    have := abs_add_le (N / l - (δ.norm - R) / δ.norm) ((δ.norm - R) / δ.norm)
    rw [sub_add_cancel] at this
    linarith
  have hMb : |M / l| ≤ 3 * (2 : ℝ) ^ (126 : ℤ) := by
    have := abs_add_le (-M / l - (δ.norm - R) / δ.norm) ((δ.norm - R) / δ.norm)
    rw [sub_add_cancel, neg_div, abs_neg] at this
    rw [neg_div] at eQ'
    linarith
  obtain ⟨k, k1, k2⟩ := F32.round_div N1 l1 lp.ne' hQb
  obtain ⟨j, j1, j2⟩ := F32.round_div M1 l1 lp.ne' hMb
  have j2' : |-j - -M / l| ≤ |-M / l| / 2 ^ 24 + 1 / 2 ^ 150 := by
    rw [neg_div, abs_neg, show -j - -(M / l) = -(j - M / l) by ring, abs_neg]; exact j2
  have h0' : ∀ t : ℝ, |t - t| ≤ |t| / 2 ^ 24 := by
    intro t; rw [sub_self, abs_zero]; positivity
  have h0 : ∀ t : ℝ, |t - t| ≤ |t| / 2 ^ 24 + 1 / 2 ^ 150 := by
    intro t; rw [sub_self, abs_zero]; positivity
  have hR0 : 0 ≤ R := by assumption
  have big : 3 * (δ.norm + R) ≤ 3 * (2 : ℝ) ^ (126 : ℤ) := by
    have : 3 * (2 : ℝ) ^ (62 : ℤ) + (2 : ℝ) ^ (61 : ℤ) ≤ (2 : ℝ) ^ (126 : ℤ) := by norm_num
    linarith
  have tx := fun w => coord_error (t := k * δ.x) (w := w) hL hR0 eQ k2 (V3.abs_x_le_norm δ) (h0' _) rfl
  have ty := fun w => coord_error (t := k * δ.y) (w := w) hL hR0 eQ k2 (V3.abs_y_le_norm δ) (h0' _) rfl
  have tz := fun w => coord_error (t := k * δ.z) (w := w) hL hR0 eQ k2 (V3.abs_z_le_norm δ) (h0' _) rfl
  have vx := fun w => coord_error (t := -j * δ.x) (w := w) hL hR0 eQ' j2' (V3.abs_x_le_norm δ) (h0' _) rfl
  have vy := fun w => coord_error (t := -j * δ.y) (w := w) hL hR0 eQ' j2' (V3.abs_y_le_norm δ) (h0' _) rfl
  have vz := fun w => coord_error (t := -j * δ.z) (w := w) hL hR0 eQ' j2' (V3.abs_z_le_norm δ) (h0' _) rfl
  obtain ⟨wx, x1, x2, _⟩ := F32.round_mul k1 hd.1 ((tx _ (h0 _)).1.trans big)
  obtain ⟨wy, y1, y2, _⟩ := F32.round_mul k1 hd.2.1 ((ty _ (h0 _)).1.trans big)
  obtain ⟨wz, z1, z2, _⟩ := F32.round_mul k1 hd.2.2 ((tz _ (h0 _)).1.trans big)
  have flip : ∀ c : ℝ, |(-j) * c| ≤ 3 * (δ.norm + R) → |j * c| ≤ 3 * (2 : ℝ) ^ (126 : ℤ) := by
    intro c hc
    rw [neg_mul, abs_neg] at hc; exact hc.trans big
  have flip2 : ∀ c w : ℝ, |w - j * c| ≤ |j * c| / 2 ^ 24 + 1 / 2 ^ 150 →
      |-w - -j * c| ≤ |-j * c| / 2 ^ 24 + 1 / 2 ^ 150 := by
    intro c w hc
    rw [neg_mul, abs_neg, show -w - -(j * c) = -(w - j * c) by ring, abs_neg]; exact hc
  obtain ⟨ux, X1, X2, _⟩ := F32.round_mul j1 hd.1 (flip _ (vx _ (h0 _)).1)
  obtain ⟨uy, Y1, Y2, _⟩ := F32.round_mul j1 hd.2.1 (flip _ (vy _ (h0 _)).1)
  obtain ⟨uz, Z1, Z2, _⟩ := F32.round_mul j1 hd.2.2 (flip _ (vz _ (h0 _)).1)
  refine ⟨l, N, -M, l1, N1, by rw [neg_neg]; exact M1, lp, hll, by linarith,
    ⟨⟨wx, wy, wz⟩, _, ⟨x1, y1, z1⟩, (tx _ x2).2, (ty _ y2).2, (tz _ z2).2, sphere_vector hR0 hne⟩,
    ⟨⟨-ux, -uy, -uz⟩, _, ⟨is_neg X1, is_neg Y1, is_neg Z1⟩, (vx _ (flip2 _ _ X2)).2,
      (vy _ (flip2 _ _ Y2)).2, (vz _ (flip2 _ _ Z2)).2, sphere_vector hR0 hne⟩⟩

theorem length3_zero_f32 {d' : V3 F32} (hd : d'.Is 0) : F32.Is d'.length 0 := by
  obtain ⟨l, l1, l2, _⟩ := round_length3 hd (Or.inl rfl)
  rw [V3.norm_zero, sub_zero, zero_div, mul_zero] at l2
  have : l = 0 := by simpa using l2
  rwa [this] at l1

/-- Ball v Point `sdf` and `sdfv` in binary32. -/
theorem C95_f32_ball_sdf {T : Type} [Transformation3d T F32] (a : Ball F32) (pt : Point F32)
    (rel : T) {R : ℝ} {δ : V3 ℝ} (ha : F32.Is a.radius R) (h0 : 0 ≤ R) (hR : R ≤ (2 : ℝ) ^ (61 : ℤ))
    (hd : (Transformation3d.applyOrigin rel : V3 F32).Is δ) (hm : δ.Moderate) :
    (∃ t, F32.Is (SdfRel3d.sdfRel a pt rel) t ∧ |t - (δ.norm - R)| ≤ (δ.norm + R) / 2 ^ 21) ∧
    SphereAnswer (SdfvRel3d.sdfvRel a pt rel) δ R ((δ.norm + R) / 2 ^ 19) := by
  by_cases hne : δ = 0
  · subst hne
    have hl := length3_zero_f32 hd
    have e : SdfvRel3d.sdfvRel a pt rel = V3.scale a.radius V3.unitX := by
      simp only [SdfvRel3d.sdfvRel]
      rw [if_neg (by rw [gt_iff_lt, lt_iff is_zero hl]; exact lt_irrefl _)]
    constructor
    · refine ⟨0 - R, is_sub hl ha (by rw [zero_sub]; exact ha.representable.neg), ?_⟩
      rw [V3.norm_zero, sub_self, abs_zero]; positivity
    · rw [e]
      refine ⟨⟨R, 0, 0⟩, ⟨R, 0, 0⟩, ⟨?_, ?_, ?_⟩, ?_, ?_, ?_, sphere_vector_zero h0⟩
      · have := is_mul ha is_one (by rw [mul_one]; exact ha.representable)
        rw [mul_one] at this; exact this
      · have := is_mul ha is_zero (by rw [mul_zero]; exact representable_zero)
        rw [mul_zero] at this; exact this
      · have := is_mul ha is_zero (by rw [mul_zero]; exact representable_zero)
        rw [mul_zero] at this; exact this
      all_goals rw [sub_self, abs_zero, V3.norm_zero]; positivity
  · obtain ⟨l, N, _, l1, N1, _, lp, -, eN, hv, -⟩ := ball3_f32 ha h0 hR hd hm hne
    refine ⟨⟨N, N1, eN⟩, ?_⟩
    have e : SdfvRel3d.sdfvRel a pt rel = V3.scale (((Transformation3d.applyOrigin rel : V3 F32).length -
        a.radius) / (Transformation3d.applyOrigin rel : V3 F32).length) (Transformation3d.applyOrigin rel) := by
      simp only [SdfvRel3d.sdfvRel]
      rw [if_pos ((lt_iff is_zero l1).2 lp)]
    rw [e]; exact hv

/-- Ball v Point `penetrates` in binary32: `Some` exactly when `collides`; its vector is right if the
point is the centre or at least two `f32::EPSILON` away from it. -/
theorem C95_f32_ball_penetrates {T : Type} [Transformation3d T F32] (a : Ball F32) (pt : Point F32)
    (rel : T) {R : ℝ} {δ : V3 ℝ} (ha : F32.Is a.radius R) (h0 : 0 ≤ R) (hR : R ≤ (2 : ℝ) ^ (61 : ℤ))
    (hd : (Transformation3d.applyOrigin rel : V3 F32).Is δ) (hm : δ.Moderate)
    (hfar : δ = 0 ∨ 1 / 2 ^ 22 ≤ δ.norm) :
    (CollidesRel3d.collidesRel a pt rel = false → PenetratesRel3d.penetratesRel a pt rel = none) ∧
    (CollidesRel3d.collidesRel a pt rel = true → ∃ v, PenetratesRel3d.penetratesRel a pt rel = some v ∧
      SphereAnswer v δ R ((δ.norm + R) / 2 ^ 19)) := by
  constructor
  · intro hc
    simp only [PenetratesRel3d.penetratesRel]
    rw [hc]; rfl
  · intro hc
    have eps : F32.Is (FloatExtra.epsilon : F32) (1 / 2 ^ 23) := is_epsilon
    by_cases hne : δ = 0
    · subst hne
      have hl := length3_zero_f32 hd
      refine ⟨⟨a.radius, 0, 0⟩, ?_, ⟨R, 0, 0⟩, ⟨R, 0, 0⟩, ⟨ha, is_zero, is_zero⟩, ?_, ?_, ?_,
        sphere_vector_zero h0⟩
      · simp only [PenetratesRel3d.penetratesRel]
        rw [if_pos hc, if_pos ((lt_iff hl eps).2 (by norm_num))]
      all_goals rw [sub_self, abs_zero, V3.norm_zero]; positivity
    · obtain ⟨l, _, _, l1, _, _, lp, hl, _, -, hv⟩ := ball3_f32 ha h0 hR hd hm hne
      refine ⟨_, ?_, hv⟩
      simp only [PenetratesRel3d.penetratesRel]
      rw [if_pos hc, if_neg]
      rw [lt_iff l1 eps, not_lt]
      have := hfar.resolve_left hne
      have := abs_le.1 hl
      linarith [this.1]

/-! ## colliders, findings, example -/

/-- Box3d at `p` and Point at `q` as colliders in binary32 (vectors and `Translate3d`, either order of
the call forms): a collision is reported only if the point is strictly inside, and always if it is
inside the box shrunk by one part in `2^23`. -/
theorem C95_f32_box_world (a : Box3d F32) (pt : Point F32) (p' q' : V3 F32) {h p q : V3 ℝ}
    (hh : a.halfsize.Is h) (hp : p'.Is p) (hq : q'.Is q) (h0 : 0 ≤ h.x ∧ 0 ≤ h.y ∧ 0 ≤ h.z)
    (bd : |q.x - p.x| ≤ (2 : ℝ) ^ (125 : ℤ) ∧ |q.y - p.y| ≤ (2 : ℝ) ^ (125 : ℤ) ∧
      |q.z - p.z| ≤ (2 : ℝ) ^ (125 : ℤ)) :
    (collides3d a p' pt q' = true → q - p ∈ cuboidInterior h) ∧
    (q - p ∈ cuboidInterior (V3.scale (1 - 1 / 2 ^ 23) h) → collides3d a p' pt q' = true) ∧
    collides3d a (Translate3d.mk p') pt (Translate3d.mk q') = collides3d a p' pt q' ∧
    collides3dV2 (a, p') pt q' = collides3d a p' pt q' ∧
    collides3dV3 (a, p') (pt, q') = collides3d a p' pt q' := by
  have h1 : (2 : ℝ) ^ (125 : ℤ) ≤ 3 * (2 : ℝ) ^ (126 : ℤ) := by norm_num
  obtain ⟨ex, x1, x2⟩ := F32.round_add hq.1 (is_neg hp.1)
    (by rw [← sub_eq_add_neg]; exact bd.1.trans h1)
  obtain ⟨ey, y1, y2⟩ := F32.round_add hq.2.1 (is_neg hp.2.1)
    (by rw [← sub_eq_add_neg]; exact bd.2.1.trans h1)
  obtain ⟨ez, z1, z2⟩ := F32.round_add hq.2.2 (is_neg hp.2.2)
    (by rw [← sub_eq_add_neg]; exact bd.2.2.trans h1)
  have flag := C95_f32_box_collides a pt (q' + -p') (δ := ⟨ex, ey, ez⟩) hh ⟨x1, y1, z1⟩
  have e : collides3d a p' pt q' = CollidesRel3d.collidesRel a pt (q' + -p') := rfl
  rw [← sub_eq_add_neg] at x2 y2 z2
  refine ⟨fun hc => ?_, fun hin => ?_, rfl, rfl, rfl⟩
  · obtain ⟨i1, i2, i3⟩ := flag.1 (e ▸ hc)
    have key : ∀ {u' v' : F32} {u v t k : ℝ} {k' : F32}, F32.Is u' u → F32.Is v' v →
        F32.Is (u' + -v') t → F32.Is k' k → |t| < k → |u - v| < k := by
      intro u' v' u v t k k' hu hv ht hk hlt
      by_contra hcon
      have := bound_of_rounded hu (is_neg hv) ht hk.representable
        (by rw [← sub_eq_add_neg]; exact not_lt.1 hcon)
      exact absurd hlt (not_lt.2 this)
    exact ⟨key hq.1 hp.1 x1 hh.1 i1, key hq.2.1 hp.2.1 y1 hh.2.1 i2, key hq.2.2 hp.2.2 z1 hh.2.2 i3⟩
  · rw [e]
    have key : ∀ t w b : ℝ, |t - w| ≤ |w| / 2 ^ 24 → |w| < (1 - 1 / 2 ^ 23) * b → 0 ≤ b → |t| < b := by
      intro t w b e1 e2 e3
      have e4 : |t| ≤ |t - w| + |w| := by
        have := abs_add_le (t - w) w
        rwa [sub_add_cancel] at this
      have hw := abs_nonneg w
      rcases e3.eq_or_lt with rfl | hb
      · rw [mul_zero] at e2; linarith
      · linarith
    obtain ⟨i1, i2, i3⟩ := hin
    exact flag.2 ⟨key _ _ _ x2 i1 h0.1, key _ _ _ y2 i2 h0.2.1, key _ _ _ z2 i3 h0.2.2⟩

/-- Finding (underflow): a ball of radius `2^-80` does not collide with its own centre: both squares
underflow to zero. -/
theorem C95_f32_underflow_finding (pt : Point F32) :
    ∃ (a : Ball F32) (rel : V3 F32), F32.Is a.radius ((2 : ℝ) ^ (-80 : ℤ)) ∧ rel.Is 0 ∧
      CollidesRel3d.collidesRel a pt rel = false ∧
      (0 : V3 ℝ) ∈ ball3Interior ((2 : ℝ) ^ (-80 : ℤ)) := by
  have hd : F32.Is (ofReal false ((2 : ℝ) ^ (-80 : ℤ))) ((2 : ℝ) ^ (-80 : ℤ)) :=
    is_ofReal (representable_pow _ (by norm_num) (by norm_num))
  refine ⟨⟨ofReal false ((2 : ℝ) ^ (-80 : ℤ))⟩, 0, hd, ⟨is_zero, is_zero, is_zero⟩, ?_, ?_⟩
  · obtain ⟨z, e⟩ := mul_eq hd hd
    have h1 : F32.Is (ofReal false ((2 : ℝ) ^ (-80 : ℤ)) * ofReal false ((2 : ℝ) ^ (-80 : ℤ))) 0 := by
      rw [e]; exact ofReal_tiny (by rw [abs_of_pos (by positivity)]; norm_num)
    obtain ⟨s, s1, s2, s3⟩ := round_lengthSq3 (a := (0 : V3 F32)) (v := 0) ⟨is_zero, is_zero, is_zero⟩
      (Or.inl rfl)
    refine decide_eq_false ?_
    show ¬ (0 : V3 F32).lengthSq < _
    rw [lt_iff s1 h1]
    exact not_lt.2 s3
  · refine ⟨two_zpow_pos _, ?_⟩
    rw [V3.lengthSq_def]
    have := two_zpow_pos (-80)
    show (0 : ℝ) * 0 + 0 * 0 + 0 * 0 < _
    rw [mul_zero, add_zero, add_zero]
    positivity

/-- the box of half size (2, 1, 3) and the point (3, 1/3 rounded, 5): the hypotheses hold, the point is
outside; and the unit ball with the point (1/2, 0, 0): inside -/
example (pt : Point F32) : ∃ (q' r' : V3 F32) (x : ℝ), q'.Is ⟨3, x, 5⟩ ∧ |x - 1 / 3| ≤ 1 / 2 ^ 25 ∧
    r'.Is ⟨1 / 2, 0, 0⟩ ∧
    (∀ a : Box3d F32, a.halfsize.Is ⟨2, 1, 3⟩ → CollidesRel3d.collidesRel a pt q' = false ∧
      ∃ t, F32.Is (SdfRel3d.sdfRel a pt q') t ∧ 0 ≤ t) ∧
    CollidesRel3d.collidesRel (⟨1⟩ : Ball F32) pt r' = true := by
  obtain ⟨x, hx1, hx2, _⟩ := round_any (z := false) (x := 1 / 3) (by
    rw [abs_of_pos (by norm_num)]; norm_num)
  rw [abs_of_pos (by norm_num : (0 : ℝ) < 1 / 3)] at hx2
  have hx : |x - 1 / 3| ≤ 1 / 2 ^ 25 := hx2.trans (by norm_num)
  have hxb := abs_le.1 hx
  have h3 : F32.Is (ofReal false 3) 3 := is_ofReal (by
    have := representable_int 3 (by norm_num)
    norm_num at this ⊢; exact this)
  have h5 : F32.Is (ofReal false 5) 5 := is_ofReal (by
    have := representable_int 5 (by norm_num)
    norm_num at this ⊢; exact this)
  have hhalf : F32.Is (ofReal false (1 / 2)) (1 / 2) := is_ofReal (by
    have := representable_pow (-1) (by norm_num) (by norm_num)
    norm_num at this ⊢; exact this)
  have hq : (⟨ofReal false 3, ofReal false (1 / 3), ofReal false 5⟩ : V3 F32).Is ⟨3, x, 5⟩ := ⟨h3, hx1, h5⟩
  have hr : (⟨ofReal false (1 / 2), 0, 0⟩ : V3 F32).Is ⟨1 / 2, 0, 0⟩ := ⟨hhalf, is_zero, is_zero⟩
  have x0 : 0 ≤ x := by linarith [hxb.1]
  have x1 : x < 1 := by linarith [hxb.2]
  refine ⟨_, _, x, hq, hx, hr, fun a ha => ?_, ?_⟩
  · have flag := C95_f32_box_collides a pt
      (⟨ofReal false 3, ofReal false (1 / 3), ofReal false 5⟩ : V3 F32) ha hq
    have hout : ¬ (⟨3, x, 5⟩ : V3 ℝ) ∈ cuboidInterior ⟨2, 1, 3⟩ := by
      rintro ⟨h1, -, -⟩
      have h1 : |(3 : ℝ)| < 2 := h1
      norm_num at h1
    refine ⟨by rw [← Bool.not_eq_true]; exact fun h => hout (flag.1 h), ?_⟩
    obtain ⟨t, d, t1, _, t3, t4⟩ := C95_f32_box_sdf a pt
      (⟨ofReal false 3, ofReal false (1 / 3), ofReal false 5⟩ : V3 F32) ha hq (by norm_num) (by norm_num)
      ⟨by norm_num, by
        show |x| ≤ _
        rw [abs_of_nonneg x0]
        exact x1.le.trans (by norm_num), by norm_num⟩ (by
        refine Or.inr ?_
        have e : overshoot ⟨2, 1, 3⟩ ⟨3, x, 5⟩ = ⟨1, 0, 2⟩ := by
          unfold overshoot
          simp only
          rw [abs_of_nonneg x0, max_eq_right (by linarith : x - 1 ≤ 0)]
          norm_num
        rw [e]
        norm_num) (by
        rintro ⟨h1, -, -⟩
        have h1 : |(3 : ℝ)| < 2 := h1
        norm_num at h1)
    exact ⟨t, t1, not_lt.1 fun h => hout (t4.1.1 (t3.1 h))⟩
  · refine (C95_f32_ball_collides (⟨1⟩ : Ball F32) pt (⟨ofReal false (1 / 2), 0, 0⟩ : V3 F32) is_one
      (Or.inr (by norm_num)) hr (Or.inr (by norm_num))).1 one_pos ?_
    have e : (⟨1 / 2, 0, 0⟩ : V3 ℝ).norm = 1 / 2 := by
      show Real.sqrt ((1 / 2) ^ 2 + 0 ^ 2 + 0 ^ 2) = 1 / 2
      rw [zero_pow two_ne_zero, add_zero, add_zero, Real.sqrt_sq (by norm_num)]
    rw [e]; norm_num

end
end Auburn
