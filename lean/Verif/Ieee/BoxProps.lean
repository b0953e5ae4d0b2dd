import Verif.Ieee.BallProps

/-!
# C78: Box2d v Point in binary32, over (almost) the whole range

The collision flag is exact; the vectors have relative error `2^-24` per coordinate; the signed
distance has relative error `2^-21`, and its sign is exact.
-/

set_option linter.unusedSectionVars false
set_option synthInstance.maxSize 1000

namespace Auburn

open F32 V2 ExtremePoint2d Transformation2d

/-! ## specification -/

/-- relative error at most `2^-24` -/
def RelClose (t w : ℝ) : Prop := |t - w| ≤ |w| / 2 ^ 24

/-- the answer (flag, vector) of a query about a box of half size `h` and the point `δ`: the flag is
exact; the vector is, up to relative errors of `2^-24`, one that leads from a nearest point of the box
to `δ` (point outside) or from a boundary point to `δ`, where the distance exceeds the least possible
one by at most one part in `2^22` (point inside) -/
def BoxPointAnswer (c : Bool) (v : V2 F32) (h δ : V2 ℝ) : Prop :=
  (c = true ↔ |δ.x| < h.x ∧ |δ.y| < h.y) ∧
  ∃ x w : V2 ℝ, v.Is x ∧ RelClose x.x w.x ∧ RelClose x.y w.y ∧
    (c = false → IsNearest δ (Region.pts (Box2d.mk h)) (δ - w)) ∧
    (c = true → δ - w ∈ boxBoundary h ∧
      ∀ q ∈ boxBoundary h, lengthSq w ≤ (1 + 1 / 2 ^ 21) * lengthSq (δ - q))

/-! ## library -/

section
variable [env : F32Env]

/-- `f32::signum` of a finite number -/
theorem signum_f32 {a : F32} {x : ℝ} (ha : F32.Is a x) :
    ∃ σ : ℝ, F32.Is (FloatExtra.signum a) σ ∧ (σ = 1 ∨ σ = -1) ∧ σ * x = |x| := by
  obtain ⟨s, m, hm, rfl, rfl⟩ := ha
  cases s
  · refine ⟨1, is_one, Or.inl rfl, ?_⟩
    rw [sval_false, one_mul, abs_of_nonneg hm.1]
  · refine ⟨-1, is_neg is_one, Or.inr rfl, ?_⟩
    rw [sval_true, abs_neg, abs_of_nonneg hm.1]; ring

theorem mul_sign {a b : F32} {x σ : ℝ} (ha : F32.Is a x) (hb : F32.Is b σ) (h : σ = 1 ∨ σ = -1) :
    F32.Is (a * b) (x * σ) := by
  refine is_mul ha hb ?_
  rcases h with rfl | rfl
  · rw [mul_one]; exact ha.representable
  · rw [mul_neg_one]; exact ha.representable.neg

/-- `|a| - b`: relative error `2^-24`, exact sign bit -/
theorem abs_sub_f32 {a b : F32} {x y : ℝ} (ha : F32.Is a x) (hb : F32.Is b y)
    (hx : |x| ≤ (2 : ℝ) ^ (126 : ℤ)) (hy : |y| ≤ (2 : ℝ) ^ (126 : ℤ)) :
    ∃ w, F32.Is (FloatExtra.abs a - b) w ∧ RelClose w (|x| - y) := by
  have hp := two_zpow_pos 126
  refine F32.round_sub (is_abs ha) hb ?_
  have h1 := abs_le.1 hy
  have h2 := abs_nonneg x
  rw [abs_le]; constructor <;> linarith [h1.1, h1.2]

theorem RelClose.neg_iff {t w : ℝ} (h : RelClose t w) : t < 0 ↔ w < 0 := by
  unfold RelClose at h
  have h1 := abs_le.1 h
  constructor
  · intro ht
    by_contra hc
    rw [abs_of_nonneg (not_lt.1 hc)] at h1
    linarith [h1.1]
  · intro hw
    rw [abs_of_neg hw] at h1
    linarith [h1.2]

theorem RelClose.pos_iff {t w : ℝ} (h : RelClose t w) : 0 < t ↔ 0 < w := by
  unfold RelClose at h
  have h1 := abs_le.1 h
  constructor
  · intro ht
    by_contra hc
    rw [abs_of_nonpos (not_lt.1 hc)] at h1
    linarith [h1.2]
  · intro hw
    rw [abs_of_pos hw] at h1
    linarith [h1.1]

theorem RelClose.mul_sign {t w σ : ℝ} (h : RelClose t w) (hσ : σ = 1 ∨ σ = -1) :
    RelClose (t * σ) (w * σ) := by
  unfold RelClose at *
  have h1 : |σ| = 1 := by rcases hσ with rfl | rfl <;> simp
  rw [← sub_mul, abs_mul, abs_mul, h1, mul_one, mul_one]; exact h

theorem RelClose.max_zero {t w : ℝ} (h : RelClose t w) : RelClose (max t 0) (max w 0) := by
  by_cases hw : 0 < w
  · rw [max_eq_left hw.le, max_eq_left (h.pos_iff.2 hw).le]; exact h
  · have ht : ¬ 0 < t := fun h' => hw (h.pos_iff.1 h')
    rw [max_eq_right (not_lt.1 hw), max_eq_right (not_lt.1 ht)]
    unfold RelClose; simp

theorem relClose_self (t : ℝ) : RelClose t t := by
  unfold RelClose; rw [sub_self, abs_zero]; positivity

/-- comparing two rounded negative numbers: the winner is nearly the greater one -/
theorem near_max {t w p q : ℝ} (ht : RelClose t p) (hw : RelClose w q) (hp : p < 0) (hq : q < 0)
    (h : w ≤ t) : p ^ 2 ≤ (1 + 1 / 2 ^ 21) * q ^ 2 := by
  unfold RelClose at *
  rw [abs_of_neg hp] at ht
  rw [abs_of_neg hq] at hw
  have h1 := abs_le.1 ht
  have h2 := abs_le.1 hw
  have h3 : -p ≤ (1 + 9 / (4 * 2 ^ 24)) * (-q) := by linarith [h1.1, h1.2, h2.1, h2.2]
  have h4 := mul_le_mul h3 h3 (by linarith) (by nlinarith)
  nlinarith

/-- one coordinate of the nearest point of a box -/
theorem clamp_coord {x h σ : ℝ} (hh : 0 ≤ h) (hσ : σ = 1 ∨ σ = -1) (hs : σ * x = |x|) :
    |x - max (|x| - h) 0 * σ| ≤ h ∧ ∀ q, |q| ≤ h → (max (|x| - h) 0 * σ) ^ 2 ≤ (x - q) ^ 2 := by
  have hσ2 : σ * σ = 1 := by rcases hσ with rfl | rfl <;> norm_num
  have hσa : |σ| = 1 := by rcases hσ with rfl | rfl <;> simp
  have hx : x = |x| * σ := by rw [← hs]; linear_combination (-x) * hσ2
  by_cases hc : 0 ≤ |x| - h
  · rw [max_eq_left hc]
    have e : x - (|x| - h) * σ = h * σ := by linear_combination hx
    constructor
    · rw [e, abs_mul, hσa, mul_one, abs_of_nonneg hh]
    · intro q hq
      have h1 : |x| - h ≤ |x - q| := by
        have := abs_sub_abs_le_abs_sub x q; linarith
      have h2 := pow_le_pow_left₀ hc h1 2
      rw [sq_abs] at h2
      have : ((|x| - h) * σ) ^ 2 = (|x| - h) ^ 2 := by
        rw [mul_pow, pow_two σ, hσ2, mul_one]
      rw [this]; exact h2
  · rw [max_eq_right (not_le.1 hc).le, zero_mul, sub_zero]
    refine ⟨by linarith [not_le.1 hc], fun q _ => ?_⟩
    rw [zero_pow (by norm_num)]; exact sq_nonneg _

theorem boxPoint_f32 {h' d' : V2 F32} {h δ : V2 ℝ} (hh : h'.Is h) (hd : d'.Is δ) (hx : 0 ≤ h.x)
    (hy : 0 ≤ h.y) (bh : h.x ≤ (2 : ℝ) ^ (126 : ℤ) ∧ h.y ≤ (2 : ℝ) ^ (126 : ℤ))
    (bd : |δ.x| ≤ (2 : ℝ) ^ (126 : ℤ) ∧ |δ.y| ≤ (2 : ℝ) ^ (126 : ℤ)) :
    ∃ c v, BoxPointAnswer c v h δ ∧ (∀ P D, (boxPoint P D h' d').1 = c) ∧
      ∀ P D, (if c then P else D) = true → (boxPoint P D h' d').2 = v := by
  obtain ⟨px, p1, p2⟩ := abs_sub_f32 hd.1 hh.1 bd.1 (by rw [abs_of_nonneg hx]; exact bh.1)
  obtain ⟨py, q1, q2⟩ := abs_sub_f32 hd.2 hh.2 bd.2 (by rw [abs_of_nonneg hy]; exact bh.2)
  obtain ⟨σ, s1, s2, s3⟩ := signum_f32 hd.1
  obtain ⟨τ, t1, t2, t3⟩ := signum_f32 hd.2
  have n1 := isSignNeg_abs_sub hd.1 hh.1
  have n2 := isSignNeg_abs_sub hd.2 hh.2
  have hσ2 : σ * σ = 1 := by rcases s2 with rfl | rfl <;> norm_num
  have hτ2 : τ * τ = 1 := by rcases t2 with rfl | rfl <;> norm_num
  have ex : δ.x = |δ.x| * σ := by rw [← s3]; linear_combination (-δ.x) * hσ2
  have ey : δ.y = |δ.y| * τ := by rw [← t3]; linear_combination (-δ.y) * hτ2
  have hσa : |σ| = 1 := by rcases s2 with rfl | rfl <;> simp
  have hτa : |τ| = 1 := by rcases t2 with rfl | rfl <;> simp
  by_cases hc : |δ.x| < h.x ∧ |δ.y| < h.y
  · -- inside
    have far : ∀ q ∈ boxBoundary h, (max (|δ.x| - h.x) (|δ.y| - h.y)) ^ 2 ≤ lengthSq (δ - q) := by
      let _ := realFloat true 0
      have := realFloat_exact true 0
      exact fun q hq => @box_boundary_far ℝ _ _ _ _ _ (realFloat_sqrt true 0) h δ q hc hq
    have hX : |δ.x| - h.x < 0 := by linarith [hc.1]
    have hY : |δ.y| - h.y < 0 := by linarith [hc.2]
    have lenx : ∀ a : ℝ, lengthSq (⟨a * σ, 0⟩ : V2 ℝ) = a ^ 2 := by
      intro a
      rw [lengthSq_def]
      show a * σ * (a * σ) + 0 * 0 = a ^ 2
      linear_combination a ^ 2 * hσ2
    have leny : ∀ a : ℝ, lengthSq (⟨0, a * τ⟩ : V2 ℝ) = a ^ 2 := by
      intro a
      rw [lengthSq_def]
      show 0 * 0 + a * τ * (a * τ) = a ^ 2
      linear_combination a ^ 2 * hτ2
    by_cases hgt : py < px
    · refine ⟨true, ⟨(FloatExtra.abs d'.x - h'.x) * FloatExtra.signum d'.x, 0⟩,
        ⟨by simp [hc], ⟨px * σ, 0⟩, ⟨(|δ.x| - h.x) * σ, 0⟩, ⟨mul_sign p1 s1 s2, is_zero⟩,
          p2.mul_sign s2, relClose_self _, by simp, fun _ => ⟨?_, fun q hq => ?_⟩⟩, ?_, ?_⟩
      · have e1 : (δ - ⟨(|δ.x| - h.x) * σ, 0⟩ : V2 ℝ) = ⟨h.x * σ, δ.y⟩ := by
          ext
          · show δ.x - (|δ.x| - h.x) * σ = h.x * σ
            linear_combination ex
          · show δ.y - 0 = δ.y
            ring
        have e2 : |h.x * σ| = h.x := by rw [abs_mul, hσa, mul_one, abs_of_nonneg hx]
        rw [e1]
        exact ⟨e2.le, hc.2.le, Or.inl e2⟩
      · rw [lenx]
        have h1 := far q hq
        have h2 := near_max p2 q2 hX hY hgt.le
        rcases max_choice (|δ.x| - h.x) (|δ.y| - h.y) with e | e <;> rw [e] at h1
        · nlinarith [sq_nonneg (|δ.x| - h.x)]
        · nlinarith [sq_nonneg (|δ.y| - h.y)]
      · intro P D
        unfold boxPoint
        simp only [n1, n2, decide_eq_true_eq]
        rw [if_pos hc]
      · intro P D hP
        have hP : P = true := by simpa using hP
        unfold boxPoint
        simp only [n1, n2, decide_eq_true_eq]
        rw [if_pos hc, if_pos hP, if_pos ((lt_iff q1 p1).2 hgt)]
    · refine ⟨true, ⟨0, (FloatExtra.abs d'.y - h'.y) * FloatExtra.signum d'.y⟩,
        ⟨by simp [hc], ⟨0, py * τ⟩, ⟨0, (|δ.y| - h.y) * τ⟩, ⟨is_zero, mul_sign q1 t1 t2⟩,
          relClose_self _, q2.mul_sign t2, by simp, fun _ => ⟨?_, fun q hq => ?_⟩⟩, ?_, ?_⟩
      · have e1 : (δ - ⟨0, (|δ.y| - h.y) * τ⟩ : V2 ℝ) = ⟨δ.x, h.y * τ⟩ := by
          ext
          · show δ.x - 0 = δ.x
            ring
          · show δ.y - (|δ.y| - h.y) * τ = h.y * τ
            linear_combination ey
        have e2 : |h.y * τ| = h.y := by rw [abs_mul, hτa, mul_one, abs_of_nonneg hy]
        rw [e1]
        exact ⟨hc.1.le, e2.le, Or.inr e2⟩
      · rw [leny]
        have h1 := far q hq
        have h2 := near_max q2 p2 hY hX (not_lt.1 hgt)
        rcases max_choice (|δ.x| - h.x) (|δ.y| - h.y) with e | e <;> rw [e] at h1
        · nlinarith [sq_nonneg (|δ.x| - h.x)]
        · nlinarith [sq_nonneg (|δ.y| - h.y)]
      · intro P D
        unfold boxPoint
        simp only [n1, n2, decide_eq_true_eq]
        rw [if_pos hc]
      · intro P D hP
        have hP : P = true := by simpa using hP
        unfold boxPoint
        simp only [n1, n2, decide_eq_true_eq]
        rw [if_pos hc, if_pos hP, if_neg (by rw [gt_iff_lt, lt_iff q1 p1]; exact hgt)]
  · -- outside
    obtain ⟨mx, m1⟩ := clamp_coord hx s2 s3
    obtain ⟨my, m2⟩ := clamp_coord hy t2 t3
    refine ⟨false, ⟨FloatExtra.fmax (FloatExtra.abs d'.x - h'.x) 0 * FloatExtra.signum d'.x,
        FloatExtra.fmax (FloatExtra.abs d'.y - h'.y) 0 * FloatExtra.signum d'.y⟩,
      ⟨by simp only [Bool.false_eq_true, false_iff]; exact hc, ⟨max px 0 * σ, max py 0 * τ⟩,
        ⟨max (|δ.x| - h.x) 0 * σ, max (|δ.y| - h.y) 0 * τ⟩,
        ⟨mul_sign (is_fmax p1 is_zero) s1 s2, mul_sign (is_fmax q1 is_zero) t1 t2⟩,
        p2.max_zero.mul_sign s2, q2.max_zero.mul_sign t2, fun _ => ⟨⟨mx, my⟩, ?_⟩, by simp⟩, ?_, ?_⟩
    · rintro q ⟨b1, b2⟩
      rw [lengthSq_def, lengthSq_def]
      have k1 := m1 q.x b1
      have k2 := m2 q.y b2
      show (δ.x - (δ.x - max (|δ.x| - h.x) 0 * σ)) * (δ.x - (δ.x - max (|δ.x| - h.x) 0 * σ)) +
        (δ.y - (δ.y - max (|δ.y| - h.y) 0 * τ)) * (δ.y - (δ.y - max (|δ.y| - h.y) 0 * τ)) ≤
        (δ.x - q.x) * (δ.x - q.x) + (δ.y - q.y) * (δ.y - q.y)
      rw [sub_sub_cancel, sub_sub_cancel]
      linarith
    · intro P D
      unfold boxPoint
      simp only [n1, n2, decide_eq_true_eq]
      rw [if_neg hc]
    · intro P D hD
      have hD : D = true := by simpa using hD
      unfold boxPoint
      simp only [n1, n2, decide_eq_true_eq]
      rw [if_neg hc, if_pos hD]

/-! ## C78: the queries -/

/-- Box2d v Point in binary32, for every finite offset and half size up to `2^126`: the flag is
exactly right, all queries agree, and the vectors have relative error `2^-24`. -/
theorem C78_f32_box_point {T : Type} [Transformation2d T F32] (a : Box2d F32) (pt : Point F32) (rel : T)
    {h δ : V2 ℝ} (hh : a.halfsize.Is h) (hd : (applyOrigin rel : V2 F32).Is δ) (hx : 0 ≤ h.x)
    (hy : 0 ≤ h.y) (bh : h.x ≤ (2 : ℝ) ^ (126 : ℤ) ∧ h.y ≤ (2 : ℝ) ^ (126 : ℤ))
    (bd : |δ.x| ≤ (2 : ℝ) ^ (126 : ℤ) ∧ |δ.y| ≤ (2 : ℝ) ^ (126 : ℤ)) :
    ∃ c v, collidesRel a pt rel = .ok c ∧ sdfvRel a pt rel = .ok (c, v) ∧
      penetratesRel a pt rel = .ok (if c then some v else none) ∧
      distanceToRel a pt rel = .ok (if c then none else some v) ∧ BoxPointAnswer c v h δ := by
  obtain ⟨c, v, h1, h2, h3⟩ := boxPoint_f32 hh hd hx hy bh bd
  refine ⟨c, v, ?_, ?_, ?_, ?_, h1⟩
  · show Except.ok (boxPoint false false a.halfsize (applyOrigin rel)).1 = _
    rw [h2]
  · show Except.ok (boxPoint true true a.halfsize (applyOrigin rel)) = _
    congr 1
    exact Prod.ext (h2 _ _) (h3 _ _ (by cases c <;> rfl))
  · show Except.ok (if (boxPoint true false a.halfsize (applyOrigin rel)).1 then
      some (boxPoint true false a.halfsize (applyOrigin rel)).2 else none) = _
    rw [h2]
    cases c with
    | true => rw [h3 true false rfl]
    | false => rfl
  · show Except.ok (if (boxPoint false true a.halfsize (applyOrigin rel)).1 then
      none else some (boxPoint false true a.halfsize (applyOrigin rel)).2) = _
    rw [h2]
    cases c with
    | true => rfl
    | false => rw [h3 false true rfl]

/-! ### signed distance -/

/-- the length of a rounded vector -/
theorem length_rounded {d' : V2 F32} {e d : V2 ℝ} (hd' : d'.Is e) (hx : RelClose e.x d.x)
    (hy : RelClose e.y d.y) (hm : d.Moderate) :
    ∃ l, F32.Is d'.length l ∧ |l - d.norm| ≤ 5 * (d.norm / 2 ^ 24) ∧ 0 ≤ l := by
  rcases hm with rfl | ⟨m1, m2, m3⟩
  · have ex : e.x = 0 := by
      have : |e.x - 0| ≤ |(0 : ℝ)| / 2 ^ 24 := hx
      simpa using this
    have ey : e.y = 0 := by
      have : |e.y - 0| ≤ |(0 : ℝ)| / 2 ^ 24 := hy
      simpa using this
    have hdx : F32.Is d'.x 0 := by have := hd'.1; rwa [ex] at this
    have hdy : F32.Is d'.y 0 := by have := hd'.2; rwa [ey] at this
    have h1 := is_mul hdx hdx (by rw [mul_zero]; exact representable_zero)
    have h2 := is_mul hdy hdy (by rw [mul_zero]; exact representable_zero)
    have h3 := is_add h1 h2 (by rw [mul_zero, add_zero]; exact representable_zero)
    rw [mul_zero, add_zero] at h3
    obtain ⟨w, w1, w2, w3⟩ := F32.round_sqrt h3 (le_refl _)
    refine ⟨w, w1, ?_, w3⟩
    rw [V2.norm_zero]
    rw [Real.sqrt_zero, zero_div] at w2
    rw [zero_div, mul_zero]; exact w2
  · have hmul63 : (2 : ℝ) ^ (63 : ℤ) = 2 * (2 : ℝ) ^ (62 : ℤ) := by norm_num
    have hmul62 : (2 : ℝ) ^ (-62 : ℤ) = 2 * (2 : ℝ) ^ (-63 : ℤ) := by norm_num
    have hmid : e.Mid := by
      have up : ∀ a b : ℝ, |a - b| ≤ |b| / 2 ^ 24 → |b| ≤ (2 : ℝ) ^ (62 : ℤ) →
          |a| ≤ (2 : ℝ) ^ (63 : ℤ) := by
        intro a b h1 h2
        have := abs_add_le (a - b) b
        rw [sub_add_cancel] at this
        linarith
      have down : ∀ a b : ℝ, |a - b| ≤ |b| / 2 ^ 24 → (2 : ℝ) ^ (-62 : ℤ) ≤ |b| →
          (2 : ℝ) ^ (-63 : ℤ) ≤ |a| := by
        intro a b h1 h2
        have := abs_sub_abs_le_abs_sub b a
        rw [abs_sub_comm] at this
        have hp := two_zpow_pos (-63)
        linarith
      exact ⟨up _ _ hx m1, up _ _ hy m2, m3.imp (down _ _ hx) (down _ _ hy)⟩
    obtain ⟨l, l1, l2, l3⟩ := round_length hd' hmid
    have hn := norm_rounded hx hy
    refine ⟨l, l1, ?_, l3⟩
    have l2 : |l - e.norm| ≤ 3 * (e.norm / 2 ^ 24) := l2
    have a1 := abs_le.1 l2
    have a2 := abs_le.1 hn
    have a3 := d.norm_nonneg
    rw [abs_le]; constructor <;> linarith [a1.1, a1.2, a2.1, a2.2]

theorem exists_sign (x : ℝ) : ∃ σ : ℝ, (σ = 1 ∨ σ = -1) ∧ σ * x = |x| := by
  rcases le_total 0 x with h | h
  · exact ⟨1, Or.inl rfl, by rw [one_mul, abs_of_nonneg h]⟩
  · exact ⟨-1, Or.inr rfl, by rw [abs_of_nonpos h]; ring⟩

/-- distance of an outside point to the box -/
theorem box_dist_out {h δ : V2 ℝ} (hx : 0 ≤ h.x) (hy : 0 ≤ h.y) :
    IsDist δ (Region.pts (Box2d.mk h)) (⟨max (|δ.x| - h.x) 0, max (|δ.y| - h.y) 0⟩ : V2 ℝ).norm := by
  obtain ⟨σ, s2, s3⟩ := exists_sign δ.x
  obtain ⟨τ, t2, t3⟩ := exists_sign δ.y
  obtain ⟨mx, m1⟩ := clamp_coord hx s2 s3
  obtain ⟨my, m2⟩ := clamp_coord hy t2 t3
  have hσ2 : σ * σ = 1 := by rcases s2 with rfl | rfl <;> norm_num
  have hτ2 : τ * τ = 1 := by rcases t2 with rfl | rfl <;> norm_num
  have en := (⟨max (|δ.x| - h.x) 0, max (|δ.y| - h.y) 0⟩ : V2 ℝ).norm_sq
  have en : (⟨max (|δ.x| - h.x) 0, max (|δ.y| - h.y) 0⟩ : V2 ℝ).norm ^ 2 =
      max (|δ.x| - h.x) 0 ^ 2 + max (|δ.y| - h.y) 0 ^ 2 := by rw [pow_two]; exact en
  refine ⟨V2.norm_nonneg _, ⟨⟨δ.x - max (|δ.x| - h.x) 0 * σ, δ.y - max (|δ.y| - h.y) 0 * τ⟩,
    ⟨mx, my⟩, ?_⟩, ?_⟩
  · rw [en, lengthSq_def]
    show (δ.x - (δ.x - max (|δ.x| - h.x) 0 * σ)) * (δ.x - (δ.x - max (|δ.x| - h.x) 0 * σ)) +
        (δ.y - (δ.y - max (|δ.y| - h.y) 0 * τ)) * (δ.y - (δ.y - max (|δ.y| - h.y) 0 * τ)) = _
    linear_combination (max (|δ.x| - h.x) 0) ^ 2 * hσ2 + (max (|δ.y| - h.y) 0) ^ 2 * hτ2
  · rintro q ⟨b1, b2⟩
    rw [en, lengthSq_def]
    have k1 := m1 q.x b1
    have k2 := m2 q.y b2
    rw [mul_pow, pow_two σ, hσ2, mul_one] at k1
    rw [mul_pow, pow_two τ, hτ2, mul_one] at k2
    show _ ≤ (δ.x - q.x) * (δ.x - q.x) + (δ.y - q.y) * (δ.y - q.y)
    linarith

/-- distance of an inside point to the boundary -/
theorem box_dist_in {h δ : V2 ℝ} (hc : |δ.x| < h.x ∧ |δ.y| < h.y) :
    IsDist δ (boxBoundary h) (-(max (|δ.x| - h.x) (|δ.y| - h.y))) := by
  have far : ∀ q ∈ boxBoundary h, (max (|δ.x| - h.x) (|δ.y| - h.y)) ^ 2 ≤ lengthSq (δ - q) := by
    let _ := realFloat true 0
    have := realFloat_exact true 0
    exact fun q hq => @box_boundary_far ℝ _ _ _ _ _ (realFloat_sqrt true 0) h δ q hc hq
  have hx : 0 ≤ h.x := (abs_nonneg _).trans hc.1.le
  have hy : 0 ≤ h.y := (abs_nonneg _).trans hc.2.le
  refine ⟨?_, ?_, fun q hq => by rw [neg_sq]; exact far q hq⟩
  · have := max_lt (sub_neg.2 hc.1) (sub_neg.2 hc.2); linarith
  · rw [neg_sq]
    obtain ⟨σ, s2, s3⟩ := exists_sign δ.x
    obtain ⟨τ, t2, t3⟩ := exists_sign δ.y
    have hσ2 : σ * σ = 1 := by rcases s2 with rfl | rfl <;> norm_num
    have hτ2 : τ * τ = 1 := by rcases t2 with rfl | rfl <;> norm_num
    have hσa : |σ| = 1 := by rcases s2 with rfl | rfl <;> simp
    have hτa : |τ| = 1 := by rcases t2 with rfl | rfl <;> simp
    have ex : δ.x = |δ.x| * σ := by rw [← s3]; linear_combination (-δ.x) * hσ2
    have ey : δ.y = |δ.y| * τ := by rw [← t3]; linear_combination (-δ.y) * hτ2
    rcases max_choice (|δ.x| - h.x) (|δ.y| - h.y) with e | e <;> rw [e]
    · refine ⟨⟨h.x * σ, δ.y⟩, ⟨?_, hc.2.le, Or.inl ?_⟩, ?_⟩
      · show |h.x * σ| ≤ h.x
        rw [abs_mul, hσa, mul_one, abs_of_nonneg hx]
      · show |h.x * σ| = h.x
        rw [abs_mul, hσa, mul_one, abs_of_nonneg hx]
      · rw [lengthSq_def]
        show (δ.x - h.x * σ) * (δ.x - h.x * σ) + (δ.y - δ.y) * (δ.y - δ.y) = _
        have : δ.x - h.x * σ = (|δ.x| - h.x) * σ := by linear_combination ex
        rw [this]
        linear_combination (|δ.x| - h.x) ^ 2 * hσ2
    · refine ⟨⟨δ.x, h.y * τ⟩, ⟨hc.1.le, ?_, Or.inr ?_⟩, ?_⟩
      · show |h.y * τ| ≤ h.y
        rw [abs_mul, hτa, mul_one, abs_of_nonneg hy]
      · show |h.y * τ| = h.y
        rw [abs_mul, hτa, mul_one, abs_of_nonneg hy]
      · rw [lengthSq_def]
        show (δ.x - δ.x) * (δ.x - δ.x) + (δ.y - h.y * τ) * (δ.y - h.y * τ) = _
        have : δ.y - h.y * τ = (|δ.y| - h.y) * τ := by linear_combination ey
        rw [this]
        linear_combination (|δ.y| - h.y) ^ 2 * hτ2

theorem RelClose.max_neg {t w p q : ℝ} (ht : RelClose t p) (hw : RelClose w q) (hp : p < 0)
    (hq : q < 0) : RelClose (max t w) (max p q) := by
  unfold RelClose at *
  rw [abs_of_neg hp] at ht
  rw [abs_of_neg hq] at hw
  rw [abs_of_neg (max_lt hp hq)]
  have h1 := abs_le.1 ht
  have h2 := abs_le.1 hw
  have m1 := le_max_left p q
  have m2 := le_max_right p q
  rw [abs_le]
  rcases max_choice t w with e | e
  · rw [e]
    have h3 : w ≤ t := max_eq_left_iff.1 e
    constructor
    · rcases max_choice p q with e' | e' <;> rw [e'] <;> linarith [h1.1, h2.1]
    · linarith [h1.2]
  · rw [e]
    have h3 : t ≤ w := max_eq_right_iff.1 e
    constructor
    · rcases max_choice p q with e' | e' <;> rw [e'] <;> linarith [h1.1, h2.1]
    · linarith [h2.2]

/-- the signed distance of a point to a box (specification): minus the distance to the boundary
inside, the distance to the box outside -/
def BoxSignedDist (h δ : V2 ℝ) (d : ℝ) : Prop :=
  (d < 0 ↔ |δ.x| < h.x ∧ |δ.y| < h.y) ∧ (d < 0 → IsDist δ (boxBoundary h) (-d)) ∧
  (0 ≤ d → IsDist δ (Region.pts (Box2d.mk h)) d)

theorem boxPointSdf_f32 {h' d' : V2 F32} {h δ : V2 ℝ} (hh : h'.Is h) (hd : d'.Is δ) (hx : 0 ≤ h.x)
    (hy : 0 ≤ h.y) (bh : h.x ≤ (2 : ℝ) ^ (126 : ℤ) ∧ h.y ≤ (2 : ℝ) ^ (126 : ℤ))
    (bd : |δ.x| ≤ (2 : ℝ) ^ (126 : ℤ) ∧ |δ.y| ≤ (2 : ℝ) ^ (126 : ℤ))
    (hm : |δ.x| < h.x ∨ |δ.y| < h.y ∨ (⟨|δ.x| - h.x, |δ.y| - h.y⟩ : V2 ℝ).Moderate) :
    ∃ t d, F32.Is (boxPointSdf h' d') t ∧ |t - d| ≤ 5 * (|d| / 2 ^ 24) ∧ BoxSignedDist h δ d := by
  obtain ⟨px, p1, p2⟩ := abs_sub_f32 hd.1 hh.1 bd.1 (by rw [abs_of_nonneg hx]; exact bh.1)
  obtain ⟨py, q1, q2⟩ := abs_sub_f32 hd.2 hh.2 bd.2 (by rw [abs_of_nonneg hy]; exact bh.2)
  obtain ⟨c, _, h1, h2, _⟩ := boxPoint_f32 hh hd hx hy bh bd
  have hflag := h1.1
  have weak : ∀ t w : ℝ, RelClose t w → |t - w| ≤ 5 * (|w| / 2 ^ 24) := by
    intro t w h
    unfold RelClose at h
    have : 0 ≤ |w| / 2 ^ 24 := by positivity
    linarith
  have nx : ∀ a : ℝ, 0 ≤ a → (⟨a, 0⟩ : V2 ℝ).norm = a := by
    intro a ha
    show Real.sqrt (a ^ 2 + 0 ^ 2) = a
    rw [zero_pow (by norm_num), add_zero, Real.sqrt_sq ha]
  have ny : ∀ a : ℝ, 0 ≤ a → (⟨0, a⟩ : V2 ℝ).norm = a := by
    intro a ha
    show Real.sqrt (0 ^ 2 + a ^ 2) = a
    rw [zero_pow (by norm_num), zero_add, Real.sqrt_sq ha]
  have out := box_dist_out (δ := δ) hx hy
  unfold boxPointSdf
  simp only [h2 false false]
  by_cases hc : |δ.x| < h.x ∧ |δ.y| < h.y
  · have hX : |δ.x| - h.x < 0 := by linarith [hc.1]
    have hY : |δ.y| - h.y < 0 := by linarith [hc.2]
    rw [if_pos (hflag.2 hc)]
    refine ⟨_, max (|δ.x| - h.x) (|δ.y| - h.y), is_fmax p1 q1, weak _ _ (p2.max_neg q2 hX hY),
      ⟨⟨fun _ => hc, fun _ => max_lt hX hY⟩, fun _ => box_dist_in hc, fun h0 =>
        absurd (max_lt hX hY) (not_lt.2 h0)⟩⟩
  · rw [if_neg (fun h => hc (hflag.1 h))]
    have fin : ∀ t d : ℝ, 0 ≤ d → IsDist δ (Region.pts (Box2d.mk h)) d → BoxSignedDist h δ d := by
      intro t d h0 hD
      exact ⟨⟨fun hlt => absurd hlt (not_lt.2 h0), fun h => absurd h hc⟩,
        fun hlt => absurd hlt (not_lt.2 h0), fun _ => hD⟩
    by_cases c1 : |δ.x| - h.x < 0
    · have hY : 0 ≤ |δ.y| - h.y := by
        by_contra hcon
        exact hc ⟨by linarith, by linarith [not_le.1 hcon]⟩
      rw [if_pos ((lt_iff p1 is_zero).2 (p2.neg_iff.2 c1))]
      rw [max_eq_right c1.le, max_eq_left hY, ny _ hY] at out
      exact ⟨py, _, q1, weak _ _ q2, fin py _ hY out⟩
    · have c1' := not_lt.1 c1
      rw [if_neg (by rw [lt_iff p1 is_zero, p2.neg_iff]; exact c1)]
      by_cases c2 : |δ.y| - h.y < 0
      · rw [if_pos ((lt_iff q1 is_zero).2 (q2.neg_iff.2 c2))]
        rw [max_eq_right c2.le, max_eq_left c1', nx _ c1'] at out
        exact ⟨px, _, p1, weak _ _ p2, fin px _ c1' out⟩
      · have c2' := not_lt.1 c2
        rw [if_neg (by rw [lt_iff q1 is_zero, q2.neg_iff]; exact c2)]
        rw [max_eq_left c1', max_eq_left c2'] at out
        have hm' : (⟨|δ.x| - h.x, |δ.y| - h.y⟩ : V2 ℝ).Moderate := by
          rcases hm with h | h | h
          · linarith
          · linarith
          · exact h
        obtain ⟨l, l1, l2, _⟩ := length_rounded (d := ⟨|δ.x| - h.x, |δ.y| - h.y⟩) (e := ⟨px, py⟩)
          (d' := ⟨FloatExtra.abs d'.x - h'.x, FloatExtra.abs d'.y - h'.y⟩) ⟨p1, q1⟩ p2 q2 hm'
        refine ⟨l, _, l1, ?_, fin l _ (V2.norm_nonneg _) out⟩
        rw [abs_of_nonneg (V2.norm_nonneg _)]; exact l2

/-- Box2d v Point signed distance in binary32: relative error at most `2^-21`; in particular its sign
is exactly right.  (For a point beyond a corner the offset from the corner must be of moderate size.) -/
theorem C78_f32_box_point_sdf {T : Type} [Transformation2d T F32] (a : Box2d F32) (pt : Point F32)
    (rel : T) {h δ : V2 ℝ} (hh : a.halfsize.Is h) (hd : (applyOrigin rel : V2 F32).Is δ) (hx : 0 ≤ h.x)
    (hy : 0 ≤ h.y) (bh : h.x ≤ (2 : ℝ) ^ (126 : ℤ) ∧ h.y ≤ (2 : ℝ) ^ (126 : ℤ))
    (bd : |δ.x| ≤ (2 : ℝ) ^ (126 : ℤ) ∧ |δ.y| ≤ (2 : ℝ) ^ (126 : ℤ))
    (hm : |δ.x| < h.x ∨ |δ.y| < h.y ∨ (⟨|δ.x| - h.x, |δ.y| - h.y⟩ : V2 ℝ).Moderate) :
    ∃ s t d, SdfRel2d.sdfRel a pt rel = .ok s ∧ F32.Is s t ∧ |t - d| ≤ |d| / 2 ^ 21 ∧
      (t < 0 ↔ d < 0) ∧ BoxSignedDist h δ d := by
  obtain ⟨t, d, h1, h2, h3⟩ := boxPointSdf_f32 hh hd hx hy bh bd hm
  have h4 := abs_le.1 h2
  have h5 : 0 ≤ |d| / 2 ^ 24 := by positivity
  refine ⟨_, t, d, rfl, h1, by linarith, ⟨fun ht => ?_, fun hd => ?_⟩, h3⟩
  · by_contra hc
    rw [abs_of_nonneg (not_lt.1 hc)] at h4
    linarith [h4.1]
  · rw [abs_of_neg hd] at h4
    linarith [h4.2]

/-! ### example -/

/-- the box of half size (1,1) and the points (1/3 rounded, 3) and (1/3 rounded, 1/2): the hypotheses
hold, the first is outside, the second inside -/
example : ∃ (a : Box2d F32) (q' r' : V2 F32) (x : ℝ), a.halfsize.Is ⟨1, 1⟩ ∧ q'.Is ⟨x, 3⟩ ∧
    r'.Is ⟨x, 1 / 2⟩ ∧ |x - 1 / 3| ≤ 1 / 2 ^ 25 ∧
    collidesRel a (Point.mk : Point F32) q' = .ok false ∧
    collidesRel a (Point.mk : Point F32) r' = .ok true ∧
    (∃ s t, SdfRel2d.sdfRel a (Point.mk : Point F32) q' = .ok s ∧ F32.Is s t ∧ 0 ≤ t) ∧
    ∃ s t, SdfRel2d.sdfRel a (Point.mk : Point F32) r' = .ok s ∧ F32.Is s t ∧ t < 0 := by
  obtain ⟨x, hx1, hx2, _⟩ := round_any (z := false) (x := 1 / 3) (by
    rw [abs_of_pos (by norm_num)]; norm_num)
  rw [abs_of_pos (by norm_num : (0 : ℝ) < 1 / 3)] at hx2
  have hx : |x - 1 / 3| ≤ 1 / 2 ^ 25 := hx2.trans (by norm_num)
  have hxb := abs_le.1 hx
  have h3 : F32.Is (ofReal false 3) 3 := is_ofReal (by
    have := representable_int 3 (by norm_num)
    norm_num at this ⊢; exact this)
  have hhalf : F32.Is (ofReal false (1 / 2)) (1 / 2) := is_ofReal (by
    have := representable_pow (-1) (by norm_num) (by norm_num)
    norm_num at this ⊢; exact this)
  have hxa : |x| < 1 := by rw [abs_lt]; constructor <;> linarith [hxb.1, hxb.2]
  have hbig : (3 : ℝ) ≤ (2 : ℝ) ^ (126 : ℤ) := by norm_num
  have b3 : |(3 : ℝ)| ≤ (2 : ℝ) ^ (126 : ℤ) := by rw [abs_of_pos (by norm_num)]; exact hbig
  have bhalf : |(1 / 2 : ℝ)| ≤ (2 : ℝ) ^ (126 : ℤ) := by
    rw [abs_of_pos (by norm_num)]; linarith
  have hhalf1 : |(1 / 2 : ℝ)| < 1 := by rw [abs_of_pos (by norm_num)]; norm_num
  have h31 : ¬ |(3 : ℝ)| < 1 := by rw [abs_of_pos (by norm_num)]; norm_num
  have hb : (⟨⟨1, 1⟩⟩ : Box2d F32).halfsize.Is ⟨1, 1⟩ := ⟨is_one, is_one⟩
  have hb1 : (1 : ℝ) ≤ (2 : ℝ) ^ (126 : ℤ) := by linarith
  refine ⟨⟨⟨1, 1⟩⟩, ⟨ofReal false (1 / 3), ofReal false 3⟩, ⟨ofReal false (1 / 3), ofReal false (1 / 2)⟩,
    x, hb, ⟨hx1, h3⟩, ⟨hx1, hhalf⟩, hx, ?_, ?_, ?_, ?_⟩
  · obtain ⟨c, v, k1, _, _, _, k5, _⟩ := C78_f32_box_point (⟨⟨1, 1⟩⟩ : Box2d F32) Point.mk
      (⟨ofReal false (1 / 3), ofReal false 3⟩ : V2 F32) (h := ⟨1, 1⟩) (δ := ⟨x, 3⟩) hb ⟨hx1, h3⟩
      zero_le_one zero_le_one ⟨hb1, hb1⟩ ⟨hxa.le.trans hb1, b3⟩
    have : c = false := by
      cases c with
      | false => rfl
      | true => exact absurd (k5.1 rfl).2 h31
    rw [k1, this]
  · obtain ⟨c, v, k1, _, _, _, k5, _⟩ := C78_f32_box_point (⟨⟨1, 1⟩⟩ : Box2d F32) Point.mk
      (⟨ofReal false (1 / 3), ofReal false (1 / 2)⟩ : V2 F32) (h := ⟨1, 1⟩) (δ := ⟨x, 1 / 2⟩) hb
      ⟨hx1, hhalf⟩ zero_le_one zero_le_one ⟨hb1, hb1⟩ ⟨hxa.le.trans hb1, bhalf⟩
    rw [k1, k5.2 ⟨hxa, hhalf1⟩]
  · obtain ⟨s, t, d, k1, k2, _, k4, k5⟩ := C78_f32_box_point_sdf (⟨⟨1, 1⟩⟩ : Box2d F32) Point.mk
      (⟨ofReal false (1 / 3), ofReal false 3⟩ : V2 F32) (h := ⟨1, 1⟩) (δ := ⟨x, 3⟩) hb ⟨hx1, h3⟩
      zero_le_one zero_le_one ⟨hb1, hb1⟩ ⟨hxa.le.trans hb1, b3⟩ (Or.inl hxa)
    refine ⟨s, t, k1, k2, not_lt.1 fun ht => ?_⟩
    exact h31 (k5.1.1 (k4.1 ht)).2
  · obtain ⟨s, t, d, k1, k2, _, k4, k5⟩ := C78_f32_box_point_sdf (⟨⟨1, 1⟩⟩ : Box2d F32) Point.mk
      (⟨ofReal false (1 / 3), ofReal false (1 / 2)⟩ : V2 F32) (h := ⟨1, 1⟩) (δ := ⟨x, 1 / 2⟩) hb
      ⟨hx1, hhalf⟩ zero_le_one zero_le_one ⟨hb1, hb1⟩ ⟨hxa.le.trans hb1, bhalf⟩ (Or.inl hxa)
    exact ⟨s, t, k1, k2, k4.2 (k5.1.2 ⟨hxa, hhalf1⟩)⟩

end
end Auburn
