import Verif.Ieee.BoxProps

/-!
# C79: RoundedBox2d v Point and Box2d v Ball in binary32

Away from the face defect already recorded in C26/C28 (centre exactly on a face perpendicular to the
x axis) the vectors are, up to rounding, those of the exact resolution.
-/

set_option linter.unusedSectionVars false
set_option synthInstance.maxSize 1000

namespace Auburn

open F32 V2 ExtremePoint2d Transformation2d

/-! ## specification -/

/-- the collision flag, for signed distance `s` of the centre to the box and total radius `r` -/
def RoundedFlag (c : Bool) (s r : ℝ) : Prop :=
  (s < (1 - 1 / 2 ^ 21) * r → c = true) ∧ ((1 + 1 / 2 ^ 21) * r ≤ s → c = false)

/-- the vector: within `(|s| + r) / 2^19` per coordinate of an exact vector `w` that brings the exact
shapes `X` and `Y` into touching contact; if they overlap (`s < r`) no separating move is shorter than
`w` by more than one part in `2^20` (squared lengths), if they are apart (`r ≤ s`) no move to contact
is shorter than `w` -/
def RoundedVector (v : V2 F32) (s r : ℝ) (X Y : Set (V2 ℝ)) : Prop :=
  ∃ x w, v.Is x ∧ V2.Within ((|s| + r) / 2 ^ 19) x w ∧ TouchingAfter w X Y ∧
    (s < r → ∀ u, Separable (shift u X) Y → lengthSq w ≤ (1 + 1 / 2 ^ 20) * lengthSq u) ∧
    (r ≤ s → ∀ u, Touch (shift u X) Y → lengthSq w ≤ lengthSq u)

/-! ## library -/

section
variable [env : F32Env]

/-- errors through `((L - R) * d) / L` -/
theorem coord_error2 {L R l N e d : ℝ} (hL : (2 : ℝ) ^ (-63 : ℤ) ≤ L) (hR : 0 ≤ R)
    (hl : |l - L| ≤ 5 * (L / 2 ^ 24)) (hN : |N - (L - R)| ≤ 7 * ((L + R) / 2 ^ 24))
    (hd : |d| ≤ L) (he : |e - d| ≤ |d| / 2 ^ 24) :
    |N * e| ≤ 2 * ((L + R) * L) ∧
    ∀ P, |P - N * e| ≤ |N * e| / 2 ^ 24 + 1 / 2 ^ 150 →
      |P / l| ≤ 2 * (L + R) ∧
      ∀ w, |w - P / l| ≤ |P / l| / 2 ^ 24 + 1 / 2 ^ 150 →
        |w - (L - R) / L * d| ≤ (L + R) / 2 ^ 19 := by
  have hL0 : 0 < L := lt_of_lt_of_le (two_zpow_pos _) hL
  have hl' := abs_le.1 hl
  have hlp : 0 < l := by linarith [hl'.1]
  have hκ : |L - R| ≤ L + R := by rw [abs_le]; constructor <;> linarith
  have hA : 0 ≤ L + R := by linarith
  have hε : |e - d| ≤ L / 2 ^ 24 := he.trans (by linarith)
  have p1 : |(L - R) * (e - d)| ≤ (L + R) * (L / 2 ^ 24) := by
    rw [abs_mul]; exact mul_le_mul hκ hε (abs_nonneg _) hA
  have p2 : |(N - (L - R)) * d| ≤ 7 * ((L + R) / 2 ^ 24) * L := by
    rw [abs_mul]; exact mul_le_mul hN hd (abs_nonneg _) (by positivity)
  have p3 : |(N - (L - R)) * (e - d)| ≤ 7 * ((L + R) / 2 ^ 24) * (L / 2 ^ 24) := by
    rw [abs_mul]; exact mul_le_mul hN hε (abs_nonneg _) (by positivity)
  have p4 : |(L - R) * d| ≤ (L + R) * L := by
    rw [abs_mul]; exact mul_le_mul hκ hd (abs_nonneg _) hA
  have e1 : N * e - (L - R) * d =
      (L - R) * (e - d) + (N - (L - R)) * d + (N - (L - R)) * (e - d) := by ring
  have hM : 0 ≤ (L + R) * L := by positivity
  have q1 : |N * e - (L - R) * d| ≤ 9 * ((L + R) * L / 2 ^ 24) := by
    rw [e1]
    have t1 := abs_add_le ((L - R) * (e - d) + (N - (L - R)) * d) ((N - (L - R)) * (e - d))
    have t2 := abs_add_le ((L - R) * (e - d)) ((N - (L - R)) * d)
    have s1 : (L + R) * (L / 2 ^ 24) = (L + R) * L / 2 ^ 24 := by ring
    have s2 : 7 * ((L + R) / 2 ^ 24) * L = 7 * ((L + R) * L / 2 ^ 24) := by ring
    have s3 : 7 * ((L + R) / 2 ^ 24) * (L / 2 ^ 24) = 7 / 2 ^ 24 * ((L + R) * L / 2 ^ 24) := by ring
    rw [s1] at p1; rw [s2] at p2; rw [s3] at p3
    linarith
  have q2 : |N * e| ≤ 2 * ((L + R) * L) := by
    have := abs_add_le (N * e - (L - R) * d) ((L - R) * d)
    rw [sub_add_cancel] at this
    linarith
  refine ⟨q2, fun P hP => ?_⟩
  have hLL : (2 : ℝ) ^ (-126 : ℤ) ≤ (L + R) * L := by
    have h1 : (2 : ℝ) ^ (-63 : ℤ) * (2 : ℝ) ^ (-63 : ℤ) ≤ (L + R) * L :=
      mul_le_mul (by linarith) hL (two_zpow_pos _).le hA
    have h2 : (2 : ℝ) ^ (-63 : ℤ) * (2 : ℝ) ^ (-63 : ℤ) = (2 : ℝ) ^ (-126 : ℤ) := by norm_num
    linarith
  have t150 : (1 : ℝ) / 2 ^ 150 = (2 : ℝ) ^ (-126 : ℤ) / 2 ^ 24 := by norm_num
  have q3 : |P - (L - R) * d| ≤ 13 * ((L + R) * L / 2 ^ 24) := by
    have t1 := abs_add_le (P - N * e) (N * e - (L - R) * d)
    rw [sub_add_sub_cancel] at t1
    have t2 : (1 : ℝ) / 2 ^ 150 ≤ (L + R) * L / 2 ^ 24 := by
      rw [t150]; exact div_le_div_of_nonneg_right hLL (by positivity)
    clear t150 hLL
    linarith
  have e2 : P / l - (L - R) / L * d =
      ((P - (L - R) * d) * L + (L - R) * d * (L - l)) / (l * L) := by
    field_simp; ring
  have q4 : |P / l - (L - R) / L * d| ≤ 19 * ((L + R) / 2 ^ 24) := by
    rw [e2, abs_div, abs_of_pos (mul_pos hlp hL0), div_le_iff₀ (mul_pos hlp hL0)]
    have t1 := abs_add_le ((P - (L - R) * d) * L) ((L - R) * d * (L - l))
    have s1 : |(P - (L - R) * d) * L| ≤ 13 * ((L + R) * L / 2 ^ 24) * L := by
      rw [abs_mul, abs_of_pos hL0]; exact mul_le_mul_of_nonneg_right q3 hL0.le
    have s2 : |(L - R) * d * (L - l)| ≤ (L + R) * L * (5 * (L / 2 ^ 24)) := by
      rw [abs_mul]
      refine mul_le_mul p4 ?_ (abs_nonneg _) hM
      rw [abs_sub_comm]; exact hl
    have s3 : (1 - 5 / 2 ^ 24) * L ≤ l := by linarith [hl'.1]
    have s4 : (1 - 5 / 2 ^ 24) * L * ((L + R) * L) ≤ l * ((L + R) * L) :=
      mul_le_mul_of_nonneg_right s3 hM
    have hM3 : 0 ≤ (L + R) * L * L := by positivity
    have r1 : 13 * ((L + R) * L / 2 ^ 24) * L = 13 / 2 ^ 24 * ((L + R) * L * L) := by ring
    have r2 : (L + R) * L * (5 * (L / 2 ^ 24)) = 5 / 2 ^ 24 * ((L + R) * L * L) := by ring
    have r3 : (1 - 5 / 2 ^ 24) * L * ((L + R) * L) = (1 - 5 / 2 ^ 24) * ((L + R) * L * L) := by ring
    have r4 : 19 * ((L + R) / 2 ^ 24) * (l * L) = 19 / 2 ^ 24 * (l * ((L + R) * L)) := by ring
    rw [r1] at s1; rw [r2] at s2; rw [r3] at s4; rw [r4]
    generalize (L + R) * L * L = X at *
    generalize l * ((L + R) * L) = Y at *
    linarith
  have p5 : |(L - R) / L * d| ≤ L + R := by
    have : (L - R) / L * d = (L - R) * d / L := by ring
    rw [this, abs_div, abs_of_pos hL0, div_le_iff₀ hL0]; exact p4
  have q5 : |P / l| ≤ 2 * (L + R) := by
    have := abs_add_le (P / l - (L - R) / L * d) ((L - R) / L * d)
    rw [sub_add_cancel] at this
    linarith
  refine ⟨q5, fun w hw => ?_⟩
  have t1 := abs_add_le (w - P / l) (P / l - (L - R) / L * d)
  rw [sub_add_sub_cancel] at t1
  have h63 : (1 : ℝ) / 2 ^ 150 ≤ (L + R) / 2 ^ 24 := by
    have : (1 : ℝ) / 2 ^ 150 ≤ (2 : ℝ) ^ (-63 : ℤ) / 2 ^ 24 := by norm_num
    exact this.trans (div_le_div_of_nonneg_right (by linarith) (by positivity))
  clear t150 hLL
  linarith

/-- the real counterpart of `signum` can be chosen to agree with a given sign -/
theorem signum_real {x σ : ℝ} (h : σ = 1 ∨ σ = -1) (hx : σ * x = |x|) :
    @FloatExtra.signum ℝ (realFloat (decide (σ = 1)) 0) x = σ := by
  show (if 0 < x then (1 : ℝ) else if x < 0 then -1 else if decide (σ = 1) = true then 1 else -1) = σ
  split_ifs with h1 h2 h3
  · rcases h with rfl | rfl
    · rfl
    · rw [abs_of_pos h1] at hx; linarith
  · rcases h with rfl | rfl
    · rw [abs_of_neg h2] at hx; linarith
    · rfl
  · exact (of_decide_eq_true h3).symm
  · rcases h with rfl | rfl
    · exact absurd (decide_eq_true rfl) h3
    · rfl

theorem face_x {h δ : V2 ℝ} {σ : ℝ} (hσ : σ = 1 ∨ σ = -1) (hs : σ * δ.x = |δ.x|) (hx : 0 ≤ h.x)
    (hyδ : |δ.y| ≤ h.y) (hc : 0 ≤ |δ.x| - h.x ∨ |δ.y| - h.y ≤ |δ.x| - h.x) :
    SignedDist (Region.pts (Box2d.mk h)) δ (|δ.x| - h.x) ⟨σ * h.x, δ.y⟩ ⟨σ, 0⟩ := by
  let _ := realFloat (decide (σ = 1)) 0
  have := realFloat_exact (decide (σ = 1)) 0
  have k := @signedDist_box_x ℝ _ _ _ _ _ (realFloat_sqrt (decide (σ = 1)) 0) h δ hx hyδ hc
  rw [signum_real hσ hs] at k
  exact k

theorem face_y {h δ : V2 ℝ} {σ : ℝ} (hσ : σ = 1 ∨ σ = -1) (hs : σ * δ.y = |δ.y|) (hy : 0 ≤ h.y)
    (hxδ : |δ.x| ≤ h.x) (hc : 0 ≤ |δ.y| - h.y ∨ |δ.x| - h.x ≤ |δ.y| - h.y) :
    SignedDist (Region.pts (Box2d.mk h)) δ (|δ.y| - h.y) ⟨δ.x, σ * h.y⟩ ⟨0, σ⟩ := by
  let _ := realFloat (decide (σ = 1)) 0
  have := realFloat_exact (decide (σ = 1)) 0
  have k := @signedDist_box_y ℝ _ _ _ _ _ (realFloat_sqrt (decide (σ = 1)) 0) h δ hy hxδ hc
  rw [signum_real hσ hs] at k
  exact k

theorem corner_dist {h δ : V2 ℝ} {σ τ : ℝ} (hσ : σ = 1 ∨ σ = -1) (hs : σ * δ.x = |δ.x|)
    (hτ : τ = 1 ∨ τ = -1) (ht : τ * δ.y = |δ.y|) (hx : 0 ≤ h.x) (hy : 0 ≤ h.y)
    (hdx : 0 < |δ.x| - h.x) (hdy : 0 < |δ.y| - h.y) :
    ∃ q, SignedDist (Region.pts (Box2d.mk h)) δ
      (⟨(|δ.x| - h.x) * σ, (|δ.y| - h.y) * τ⟩ : V2 ℝ).norm q
      (V2.scale (1 / (⟨(|δ.x| - h.x) * σ, (|δ.y| - h.y) * τ⟩ : V2 ℝ).norm)
        ⟨(|δ.x| - h.x) * σ, (|δ.y| - h.y) * τ⟩) := by
  have sgn : ∀ {x σ : ℝ}, (σ = 1 ∨ σ = -1) → σ * x = |x| → 0 < |x| →
      @FloatExtra.signum ℝ (realFloat true 0) x = σ := by
    intro x σ h hx hp
    show (if 0 < x then (1 : ℝ) else if x < 0 then -1 else if true = true then 1 else -1) = σ
    rcases lt_trichotomy x 0 with h0 | h0 | h0
    · rw [if_neg (not_lt.2 h0.le), if_pos h0]
      rcases h with rfl | rfl
      · rw [abs_of_neg h0] at hx; linarith
      · rfl
    · rw [h0, abs_zero] at hp; exact absurd hp (lt_irrefl _)
    · rw [if_pos h0]
      rcases h with rfl | rfl
      · rfl
      · rw [abs_of_pos h0] at hx; linarith
  let _ := realFloat true 0
  have := realFloat_exact true 0
  have k := @signedDist_box_corner ℝ _ _ _ _ _ (realFloat_sqrt true 0) h δ hx hy hdx.le hdy.le (by
    intro h0
    have : |δ.x| - h.x = 0 := congrArg V2.x h0
    linarith)
  rw [sgn hσ hs (by linarith), sgn hτ ht (by linarith)] at k
  have hn : (⟨|δ.x| - h.x, |δ.y| - h.y⟩ : V2 ℝ).length =
      (⟨(|δ.x| - h.x) * σ, (|δ.y| - h.y) * τ⟩ : V2 ℝ).norm := by
    have hσ2 : σ * σ = 1 := by rcases hσ with rfl | rfl <;> norm_num
    have hτ2 : τ * τ = 1 := by rcases hτ with rfl | rfl <;> norm_num
    show Real.sqrt _ = Real.sqrt _
    congr 1
    show (|δ.x| - h.x) * (|δ.x| - h.x) + (|δ.y| - h.y) * (|δ.y| - h.y) =
      ((|δ.x| - h.x) * σ) ^ 2 + ((|δ.y| - h.y) * τ) ^ 2
    linear_combination (-(|δ.x| - h.x) ^ 2) * hσ2 - (|δ.y| - h.y) ^ 2 * hτ2
  rw [hn] at k
  exact ⟨_, k⟩

/-- from an exact signed distance to the vector specification -/
theorem RoundedVector.of_dist {C : Set (V2 ℝ)} {δ q g : V2 ℝ} {s ra rb : ℝ} {v : V2 F32} {x : V2 ℝ}
    (h : SignedDist C δ s q g) (ha : 0 ≤ ra) (hb : 0 ≤ rb) (hv : v.Is x)
    (hw : V2.Within ((|s| + (ra + rb)) / 2 ^ 19) x (V2.scale (s - (ra + rb)) g)) :
    RoundedVector v s (ra + rb) (thick C ra) (thick {δ} rb) := by
  let _ := realFloat true 0
  have := realFloat_exact true 0
  have r := @SignedDist.resolves ℝ _ _ _ _ (realFloat_sqrt true 0) _ _ _ _ _ h ra rb ha hb
    (decide (s < ra + rb)) (fun hc => (of_decide_eq_true hc).le)
    (fun hc => not_lt.1 (of_decide_eq_false hc))
  refine ⟨x, _, hv, hw, r.1, fun hlt u hu => ?_, fun hge u hu => ?_⟩
  · refine (r.2.1 (decide_eq_true hlt) u hu).trans ?_
    have := lengthSq_nonneg u
    linarith
  · exact r.2.2 (decide_eq_false (not_lt.2 hge)) u hu

/-- rounding of `(dx - r) * σ` -/
theorem axis_error {d r' sg : F32} {e D r σ : ℝ} (hd : F32.Is d e) (hD : RelClose e D)
    (hr : F32.Is r' r) (hr0 : 0 ≤ r) (hs : F32.Is sg σ) (hσ : σ = 1 ∨ σ = -1)
    (bD : |D| ≤ (2 : ℝ) ^ (126 : ℤ)) (br : r ≤ (2 : ℝ) ^ (126 : ℤ)) :
    ∃ x, F32.Is ((d - r') * sg) x ∧ |x - (D - r) * σ| ≤ 3 * ((|D| + r) / 2 ^ 24) := by
  unfold RelClose at hD
  have h0 := abs_le.1 hD
  have hDn := abs_nonneg D
  have h4 := neg_abs_le D
  have h5 := le_abs_self D
  have hp := two_zpow_pos 126
  have h1 : |e - r| ≤ (1 + 1 / 2 ^ 24) * (|D| + r) := by
    rw [abs_le]
    constructor <;> linarith [h0.1, h0.2]
  obtain ⟨w, w1, w2⟩ := F32.round_sub hd hr (h1.trans (by linarith))
  refine ⟨w * σ, mul_sign w1 hs hσ, ?_⟩
  rw [← sub_mul, abs_mul]
  have : |σ| = 1 := by rcases hσ with rfl | rfl <;> simp
  rw [this, mul_one]
  have h2 := abs_le.1 w2
  rw [abs_le]
  constructor <;> linarith [h0.1, h0.2, h2.1, h2.2]

/-- the parts of `face_x` and `face_y` that hold for every point beside the face -/
theorem face_x_parts {h δ : V2 ℝ} {σ : ℝ} (hσ : σ = 1 ∨ σ = -1) (hs : σ * δ.x = |δ.x|)
    (hx : 0 ≤ h.x) (hyδ : |δ.y| ≤ h.y) :
    lengthSq (⟨σ, 0⟩ : V2 ℝ) = 1 ∧ (⟨σ * h.x, δ.y⟩ : V2 ℝ) ∈ Region.pts (Box2d.mk h) ∧
    (∀ p ∈ Region.pts (Box2d.mk h), (⟨σ, 0⟩ : V2 ℝ).dot p ≤ (⟨σ, 0⟩ : V2 ℝ).dot ⟨σ * h.x, δ.y⟩) ∧
    δ = ⟨σ * h.x, δ.y⟩ + V2.scale (|δ.x| - h.x) ⟨σ, 0⟩ := by
  have hσ2 : σ * σ = 1 := by rcases hσ with rfl | rfl <;> norm_num
  have hσa : |σ| = 1 := by rcases hσ with rfl | rfl <;> simp
  refine ⟨?_, ⟨?_, hyδ⟩, ?_, ?_⟩
  · simp [lengthSq_def, hσ2]
  · show |σ * h.x| ≤ h.x
    rw [abs_mul, hσa, one_mul, abs_of_nonneg hx]
  · rintro p ⟨hp, _⟩
    simp only [dot_def]
    have : σ * p.x ≤ |σ * p.x| := le_abs_self _
    rw [abs_mul, hσa, one_mul] at this
    have hp' : |p.x| ≤ h.x := hp
    rw [← mul_assoc, hσ2]; linarith
  · ext
    · simp; rw [← hs]; linear_combination (-δ.x) * hσ2
    · simp

theorem face_y_parts {h δ : V2 ℝ} {σ : ℝ} (hσ : σ = 1 ∨ σ = -1) (hs : σ * δ.y = |δ.y|)
    (hy : 0 ≤ h.y) (hxδ : |δ.x| ≤ h.x) :
    lengthSq (⟨0, σ⟩ : V2 ℝ) = 1 ∧ (⟨δ.x, σ * h.y⟩ : V2 ℝ) ∈ Region.pts (Box2d.mk h) ∧
    (∀ p ∈ Region.pts (Box2d.mk h), (⟨0, σ⟩ : V2 ℝ).dot p ≤ (⟨0, σ⟩ : V2 ℝ).dot ⟨δ.x, σ * h.y⟩) ∧
    δ = ⟨δ.x, σ * h.y⟩ + V2.scale (|δ.y| - h.y) ⟨0, σ⟩ := by
  have hσ2 : σ * σ = 1 := by rcases hσ with rfl | rfl <;> norm_num
  have hσa : |σ| = 1 := by rcases hσ with rfl | rfl <;> simp
  refine ⟨?_, ⟨hxδ, ?_⟩, ?_, ?_⟩
  · simp [lengthSq_def, hσ2]
  · show |σ * h.y| ≤ h.y
    rw [abs_mul, hσa, one_mul, abs_of_nonneg hy]
  · rintro p ⟨_, hp⟩
    simp only [dot_def]
    have : σ * p.y ≤ |σ * p.y| := le_abs_self _
    rw [abs_mul, hσa, one_mul] at this
    have hp' : |p.y| ≤ h.y := hp
    rw [← mul_assoc, hσ2]; linarith
  · ext
    · simp
    · simp; rw [← hs]; linear_combination (-δ.y) * hσ2

/-- inside, the direction chosen by comparing the rounded depths `t ≥ w` is nearly the best -/
theorem RoundedVector.of_near {C : Set (V2 ℝ)} {δ q g q2 g2 : V2 ℝ} {D E t w ra rb : ℝ} {v : V2 F32}
    {x : V2 ℝ} (unit : lengthSq g = 1) (mem : q ∈ C) (supp : ∀ p ∈ C, g.dot p ≤ g.dot q)
    (eq : δ = q + V2.scale D g) (h : SignedDist C δ E q2 g2) (hD : D < 0) (hE : E < 0)
    (ht : RelClose t D) (hw : RelClose w E) (hc : w ≤ t) (ha : 0 ≤ ra) (hb : 0 ≤ rb)
    (hv : v.Is x) (hx : V2.Within (3 * ((|D| + (ra + rb)) / 2 ^ 24)) x (V2.scale (D - (ra + rb)) g)) :
    RoundedVector v E (ra + rb) (thick C ra) (thick {δ} rb) := by
  have near : -D ≤ (1 + 9 / (4 * 2 ^ 24)) * (-E) := by
    unfold RelClose at ht hw
    rw [abs_of_neg hD] at ht
    rw [abs_of_neg hE] at hw
    have h1 := abs_le.1 ht
    have h2 := abs_le.1 hw
    linarith [h1.1, h1.2, h2.1, h2.2]
  let _ := realFloat true 0
  have := realFloat_exact true 0
  have T := @touchingAfter_of_face ℝ _ _ _ _ (realFloat_sqrt true 0) C δ q g D ra rb unit mem supp eq
    ha hb
  have r := @SignedDist.resolves ℝ _ _ _ _ (realFloat_sqrt true 0) _ _ _ _ _ h ra rb ha hb
    true (fun _ => by linarith) (fun hc => absurd hc (by simp))
  have wid : 3 * ((|D| + (ra + rb)) / 2 ^ 24) ≤ (|E| + (ra + rb)) / 2 ^ 19 := by
    rw [abs_of_neg hD, abs_of_neg hE]
    linarith
  refine ⟨x, _, hv, ⟨hx.1.trans wid, hx.2.trans wid⟩, T, fun _ u hu => ?_, fun hge => ?_⟩
  · have k := r.2.1 rfl u hu
    rw [lengthSq_scale, h.unit, mul_one] at k
    rw [lengthSq_scale, unit, mul_one]
    have h3 : (ra + rb) - D ≤ (1 + 9 / (4 * 2 ^ 24)) * ((ra + rb) - E) := by linarith
    have h4 := mul_le_mul h3 h3 (by linarith) (by nlinarith)
    have h5 : (D - (ra + rb)) ^ 2 = ((ra + rb) - D) * ((ra + rb) - D) := by ring
    have h6 : (1 + 9 / (4 * 2 ^ 24)) * ((ra + rb) - E) * ((1 + 9 / (4 * 2 ^ 24)) * ((ra + rb) - E)) =
        (1 + 9 / (4 * 2 ^ 24)) ^ 2 * (E - (ra + rb)) ^ 2 := by ring
    rw [h6] at h4
    rw [h5]
    have h7 := sq_nonneg (E - (ra + rb))
    have h8 : (1 + 9 / (4 * 2 ^ 24) : ℝ) ^ 2 ≤ 1 + 1 / 2 ^ 20 := by norm_num
    have h9 := mul_le_mul_of_nonneg_right h8 h7
    linarith
  · linarith

/-- the kernel of RoundedBox2d v Point and Box2d v Ball -/
theorem roundedBoxPoint_f32 {h' d' : V2 F32} {r' : F32} {h δ : V2 ℝ} {ra rb : ℝ} (hh : h'.Is h)
    (hd : d'.Is δ) (hr : F32.Is r' (ra + rb)) (ha : 0 ≤ ra) (hb : 0 ≤ rb) (hx : 0 ≤ h.x) (hy : 0 ≤ h.y)
    (bh : h.x ≤ (2 : ℝ) ^ (126 : ℤ) ∧ h.y ≤ (2 : ℝ) ^ (126 : ℤ))
    (bd : |δ.x| ≤ (2 : ℝ) ^ (126 : ℤ) ∧ |δ.y| ≤ (2 : ℝ) ^ (126 : ℤ))
    (br : ra + rb ≤ (2 : ℝ) ^ (126 : ℤ))
    (hm : |δ.x| ≤ h.x ∨ |δ.y| ≤ h.y ∨
      ((⟨|δ.x| - h.x, |δ.y| - h.y⟩ : V2 ℝ).Moderate ∧ ra + rb ≤ (2 : ℝ) ^ (61 : ℤ))) :
    ∃ s, BoxSignedDist h δ s ∧
      (0 < ra + rb ∨ ¬ (|δ.x| = h.x ∧ |δ.y| < h.y) →
        RoundedFlag (roundedBoxPoint h' r' d').1 s (ra + rb)) ∧
      (¬ (|δ.x| = h.x ∧ |δ.y| < h.y) →
        RoundedVector (roundedBoxPoint h' r' d').2 s (ra + rb) (thick (Region.pts (Box2d.mk h)) ra)
          (thick {δ} rb)) := by
  obtain ⟨px, p1, p2⟩ := abs_sub_f32 hd.1 hh.1 bd.1 (by rw [abs_of_nonneg hx]; exact bh.1)
  obtain ⟨py, q1, q2⟩ := abs_sub_f32 hd.2 hh.2 bd.2 (by rw [abs_of_nonneg hy]; exact bh.2)
  obtain ⟨c, _, h1, h2, _⟩ := boxPoint_f32 hh hd hx hy bh bd
  have hflag := h1.1
  obtain ⟨σ, s1, s2, s3⟩ := signum_f32 hd.1
  obtain ⟨τ, t1, t2, t3⟩ := signum_f32 hd.2
  have hR0 : 0 ≤ ra + rb := by linarith
  have bdx : |(|δ.x| - h.x)| ≤ (2 : ℝ) ^ (126 : ℤ) := by
    rw [abs_le]; constructor <;> linarith [abs_nonneg δ.x, bd.1, bh.1]
  have bdy : |(|δ.y| - h.y)| ≤ (2 : ℝ) ^ (126 : ℤ) := by
    rw [abs_le]; constructor <;> linarith [abs_nonneg δ.y, bd.2, bh.2]
  obtain ⟨wx, x1, x2⟩ := axis_error p1 p2 hr hR0 s1 s2 bdx br
  obtain ⟨wy, y1, y2⟩ := axis_error q1 q2 hr hR0 t1 t2 bdy br
  have zero_in : ∀ e : ℝ, 0 ≤ e → |(0 : ℝ) - 0| ≤ e := by
    intro e he; rw [sub_zero, abs_zero]; exact he
  have vx : (⟨(FloatExtra.abs d'.x - h'.x - r') * FloatExtra.signum d'.x, 0⟩ : V2 F32).Is ⟨wx, 0⟩ :=
    ⟨x1, is_zero⟩
  have vy : (⟨0, (FloatExtra.abs d'.y - h'.y - r') * FloatExtra.signum d'.y⟩ : V2 F32).Is ⟨0, wy⟩ :=
    ⟨is_zero, y1⟩
  have inx : V2.Within (3 * ((|(|δ.x| - h.x)| + (ra + rb)) / 2 ^ 24)) ⟨wx, 0⟩
      (V2.scale ((|δ.x| - h.x) - (ra + rb)) ⟨σ, 0⟩) := by
    refine ⟨x2, ?_⟩
    show |(0 : ℝ) - (|δ.x| - h.x - (ra + rb)) * 0| ≤ _
    rw [mul_zero]; exact zero_in _ (by positivity)
  have iny : V2.Within (3 * ((|(|δ.y| - h.y)| + (ra + rb)) / 2 ^ 24)) ⟨0, wy⟩
      (V2.scale ((|δ.y| - h.y) - (ra + rb)) ⟨0, τ⟩) := by
    refine ⟨?_, y2⟩
    show |(0 : ℝ) - (|δ.y| - h.y - (ra + rb)) * 0| ≤ _
    rw [mul_zero]; exact zero_in _ (by positivity)
  have weaken : ∀ D : ℝ, 3 * ((|D| + (ra + rb)) / 2 ^ 24) ≤ (|D| + (ra + rb)) / 2 ^ 19 := by
    intro D
    have := abs_nonneg D
    linarith
  have wk : ∀ {D : ℝ} {a b : V2 ℝ}, V2.Within (3 * ((|D| + (ra + rb)) / 2 ^ 24)) a b →
      V2.Within ((|D| + (ra + rb)) / 2 ^ 19) a b :=
    fun h => ⟨h.1.trans (weaken _), h.2.trans (weaken _)⟩
  -- the flag on a face
  have flagOf : ∀ {a : F32} {e D : ℝ}, F32.Is a e → RelClose e D → 0 ≤ D →
      RoundedFlag (decide (a < r')) D (ra + rb) := by
    intro a e D hae hcl hD
    unfold RelClose at hcl
    rw [abs_of_nonneg hD] at hcl
    have k := abs_le.1 hcl
    refine ⟨fun h => decide_eq_true ((lt_iff hae hr).2 ?_), fun h => decide_eq_false ?_⟩
    · linarith [k.2]
    · rw [lt_iff hae hr, not_lt]; linarith [k.1]
  unfold roundedBoxPoint
  rw [h2]
  by_cases hc : |δ.x| < h.x ∧ |δ.y| < h.y
  · -- inside
    have hX : |δ.x| - h.x < 0 := by linarith [hc.1]
    have hY : |δ.y| - h.y < 0 := by linarith [hc.2]
    simp only [if_pos (hflag.2 hc)]
    refine ⟨max (|δ.x| - h.x) (|δ.y| - h.y), ⟨⟨fun _ => hc, fun _ => max_lt hX hY⟩, fun _ =>
      box_dist_in hc, fun h0 => absurd (max_lt hX hY) (not_lt.2 h0)⟩, fun _ => ?_, fun _ => ?_⟩
    · refine ⟨fun _ => ?_, fun h => ?_⟩
      · split_ifs <;> rfl
      · have := max_lt hX hY
        have : 0 ≤ (1 + 1 / 2 ^ 21) * (ra + rb) := by positivity
        linarith
    · by_cases hgt : px > py
      · rw [if_pos ((lt_iff q1 p1).2 hgt)]
        rcases le_total (|δ.y| - h.y) (|δ.x| - h.x) with hle | hle
        · rw [max_eq_left hle]
          exact RoundedVector.of_dist (face_x s2 s3 hx hc.2.le (Or.inr hle)) ha hb vx (wk inx)
        · rw [max_eq_right hle]
          obtain ⟨f1, f2, f3, f4⟩ := face_x_parts (h := h) (δ := δ) s2 s3 hx hc.2.le
          exact RoundedVector.of_near f1 f2 f3 f4 (face_y t2 t3 hy hc.1.le (Or.inr hle)) hX hY p2 q2
            hgt.le ha hb vx inx
      · rw [if_neg (fun hh => hgt ((lt_iff q1 p1).1 hh))]
        rcases le_total (|δ.x| - h.x) (|δ.y| - h.y) with hle | hle
        · rw [max_eq_right hle]
          exact RoundedVector.of_dist (face_y t2 t3 hy hc.1.le (Or.inr hle)) ha hb vy (wk iny)
        · rw [max_eq_left hle]
          obtain ⟨f1, f2, f3, f4⟩ := face_y_parts (h := h) (δ := δ) t2 t3 hy hc.1.le
          exact RoundedVector.of_near f1 f2 f3 f4 (face_x s2 s3 hx hc.2.le (Or.inr hle)) hY hX q2 p2
            (not_lt.1 hgt) ha hb vy iny
  · simp only [if_neg (fun hh => hc (hflag.1 hh))]
    have hout := box_dist_out (δ := δ) hx hy
    have fin : ∀ d : ℝ, 0 ≤ d → IsDist δ (Region.pts (Box2d.mk h)) d → BoxSignedDist h δ d := by
      intro d h0 hD
      exact ⟨⟨fun hlt => absurd hlt (not_lt.2 h0), fun h => absurd h hc⟩,
        fun hlt => absurd hlt (not_lt.2 h0), fun _ => hD⟩
    by_cases cx : |δ.x| - h.x ≤ 0
    · -- above or below
      have hpx : px ≤ 0 := not_lt.1 fun h => absurd (p2.pos_iff.1 h) (not_lt.2 cx)
      simp only [if_pos ((le_iff p1 is_zero).2 hpx)]
      by_cases cy : |δ.y| < h.y
      · -- the face defect
        have hface : |δ.x| = h.x ∧ |δ.y| < h.y := by
          refine ⟨le_antisymm (by linarith) ?_, cy⟩
          by_contra hcon
          exact hc ⟨not_le.1 hcon, cy⟩
        refine ⟨0, ?_, fun hpos => ?_, fun hcon => absurd hface hcon⟩
        · refine fin 0 (le_refl _) ⟨le_refl _, ⟨δ, ⟨hface.1.le, cy.le⟩, ?_⟩, fun q _ => ?_⟩
          · rw [sub_self]; simp [lengthSq_def]
          · have := lengthSq_nonneg (δ - q)
            linarith
        · have hp : 0 < ra + rb := hpos.resolve_right (fun h => h hface)
          have hpy : py < 0 := q2.neg_iff.2 (by linarith)
          refine ⟨fun _ => decide_eq_true ((lt_iff q1 hr).2 (by linarith)), fun h => ?_⟩
          have : 0 < (1 + 1 / 2 ^ 21) * (ra + rb) := by positivity
          linarith
      · have hDy : 0 ≤ |δ.y| - h.y := by linarith [not_lt.1 cy]
        have e1 : (⟨max (|δ.x| - h.x) 0, max (|δ.y| - h.y) 0⟩ : V2 ℝ).norm = |δ.y| - h.y := by
          rw [max_eq_right cx, max_eq_left hDy]
          show Real.sqrt (0 ^ 2 + _ ^ 2) = _
          rw [zero_pow (by norm_num), zero_add, Real.sqrt_sq hDy]
        rw [e1] at hout
        exact ⟨_, fin _ hDy hout, fun _ => flagOf q1 q2 hDy, fun _ =>
          RoundedVector.of_dist (face_y t2 t3 hy (by linarith) (Or.inl hDy)) ha hb vy (wk iny)⟩
    · have cx' := not_le.1 cx
      simp only [if_neg (fun hh => absurd ((le_iff p1 is_zero).1 hh) (not_le.2 (p2.pos_iff.2 cx')))]
      by_cases cy : |δ.y| - h.y ≤ 0
      · have hpy : py ≤ 0 := not_lt.1 fun h => absurd (q2.pos_iff.1 h) (not_lt.2 cy)
        simp only [if_pos ((le_iff q1 is_zero).2 hpy)]
        have e1 : (⟨max (|δ.x| - h.x) 0, max (|δ.y| - h.y) 0⟩ : V2 ℝ).norm = |δ.x| - h.x := by
          rw [max_eq_right cy, max_eq_left cx'.le]
          show Real.sqrt (_ ^ 2 + 0 ^ 2) = _
          rw [zero_pow (by norm_num), add_zero, Real.sqrt_sq cx'.le]
        rw [e1] at hout
        exact ⟨_, fin _ cx'.le hout, fun _ => flagOf p1 p2 cx'.le, fun _ =>
          RoundedVector.of_dist (face_x s2 s3 hx (by linarith) (Or.inl cx'.le)) ha hb vx (wk inx)⟩
      · have cy' := not_le.1 cy
        simp only [if_neg (fun hh => absurd ((le_iff q1 is_zero).1 hh) (not_le.2 (q2.pos_iff.2 cy')))]
        -- a corner
        obtain ⟨hmod, br61⟩ := (hm.resolve_left (by linarith)).resolve_left (by linarith)
        obtain ⟨Q, hsd⟩ := corner_dist s2 s3 t2 t3 hx hy cx' cy'
        have hσa : |σ| = 1 := by rcases s2 with rfl | rfl <;> simp
        have hτa : |τ| = 1 := by rcases t2 with rfl | rfl <;> simp
        have ax : |(|δ.x| - h.x) * σ| = |(|δ.x| - h.x)| := by rw [abs_mul, hσa, mul_one]
        have ay : |(|δ.y| - h.y) * τ| = |(|δ.y| - h.y)| := by rw [abs_mul, hτa, mul_one]
        have ce : (⟨(FloatExtra.abs d'.x - h'.x) * FloatExtra.signum d'.x,
            (FloatExtra.abs d'.y - h'.y) * FloatExtra.signum d'.y⟩ : V2 F32).Is ⟨px * σ, py * τ⟩ :=
          ⟨mul_sign p1 s1 s2, mul_sign q1 t1 t2⟩
        have mx := p2.mul_sign s2
        have my := q2.mul_sign t2
        have e1 : (⟨max (|δ.x| - h.x) 0, max (|δ.y| - h.y) 0⟩ : V2 ℝ).norm =
            (⟨(|δ.x| - h.x) * σ, (|δ.y| - h.y) * τ⟩ : V2 ℝ).norm := by
          rw [max_eq_left cx'.le, max_eq_left cy'.le]
          show Real.sqrt (_ ^ 2 + _ ^ 2) = Real.sqrt (((|δ.x| - h.x) * σ) ^ 2 + ((|δ.y| - h.y) * τ) ^ 2)
          rw [← sq_abs ((|δ.x| - h.x) * σ), ← sq_abs ((|δ.y| - h.y) * τ), ax, ay, sq_abs, sq_abs]
        rw [e1] at hout
        have hmod : |(|δ.x| - h.x)| ≤ (2 : ℝ) ^ (62 : ℤ) ∧ |(|δ.y| - h.y)| ≤ (2 : ℝ) ^ (62 : ℤ) ∧
            ((2 : ℝ) ^ (-62 : ℤ) ≤ |(|δ.x| - h.x)| ∨ (2 : ℝ) ^ (-62 : ℤ) ≤ |(|δ.y| - h.y)|) := by
          rcases hmod with h0 | h0
          · have : |δ.x| - h.x = 0 := congrArg V2.x h0
            linarith
          · exact h0
        rw [← ax, ← ay] at hmod
        have hdef : ∃ D : V2 ℝ, D = ⟨(|δ.x| - h.x) * σ, (|δ.y| - h.y) * τ⟩ := ⟨_, rfl⟩
        obtain ⟨D, hD⟩ := hdef
        rw [← hD] at hsd hout
        have hDx : D.x = (|δ.x| - h.x) * σ := by rw [hD]
        have hDy : D.y = (|δ.y| - h.y) * τ := by rw [hD]
        rw [← hDx] at mx hmod
        rw [← hDy] at my hmod
        obtain ⟨l, l1, l2, l3⟩ := length_rounded ce mx my (Or.inr hmod)
        have hL : (2 : ℝ) ^ (-63 : ℤ) ≤ D.norm := by
          have h62 : (2 : ℝ) ^ (-63 : ℤ) ≤ (2 : ℝ) ^ (-62 : ℤ) := by norm_num
          rcases hmod.2.2 with h | h
          · exact h62.trans (h.trans (V2.abs_x_le_norm D))
          · exact h62.trans (h.trans (V2.abs_y_le_norm D))
        have hL0 : 0 < D.norm := lt_of_lt_of_le (two_zpow_pos _) hL
        have hLub : D.norm ≤ (2 : ℝ) ^ (63 : ℤ) := by
          have h63 : (2 : ℝ) ^ (63 : ℤ) = 2 * (2 : ℝ) ^ (62 : ℤ) := by norm_num
          exact (V2.norm_le_add D).trans (by linarith [hmod.1, hmod.2.1])
        have l2' := abs_le.1 l2
        have hlr : |l - (ra + rb)| ≤ 3 * (2 : ℝ) ^ (126 : ℤ) := by
          have h63 : (2 : ℝ) ^ (63 : ℤ) ≤ (2 : ℝ) ^ (126 : ℤ) := by norm_num
          rw [abs_le]; constructor <;> linarith [l2'.1, l2'.2]
        obtain ⟨N, N1, N2⟩ := F32.round_sub l1 hr hlr
        obtain ⟨lp, eN, _⟩ := quot_error hL0 hR0 l2 (r := ra + rb) (by
          rw [sub_self, abs_zero]; positivity) N2
        have bigP : 2 * ((D.norm + (ra + rb)) * D.norm) ≤ 3 * (2 : ℝ) ^ (126 : ℤ) := by
          have h1 : D.norm + (ra + rb) ≤ (5 / 4) * (2 : ℝ) ^ (63 : ℤ) := by
            have : (2 : ℝ) ^ (61 : ℤ) = (1 / 4) * (2 : ℝ) ^ (63 : ℤ) := by norm_num
            linarith
          have h2 := mul_le_mul h1 hLub hL0.le (by positivity)
          have h3 : (5 / 4) * (2 : ℝ) ^ (63 : ℤ) * (2 : ℝ) ^ (63 : ℤ) =
              (5 / 4) * (2 : ℝ) ^ (126 : ℤ) := by norm_num
          have hp := two_zpow_pos 126
          linarith
        have bigQ : 2 * (D.norm + (ra + rb)) ≤ 3 * (2 : ℝ) ^ (126 : ℤ) := by
          have h1 : (2 : ℝ) ^ (63 : ℤ) ≤ (1 / 4) * (2 : ℝ) ^ (126 : ℤ) := by norm_num
          have hp := two_zpow_pos 126
          linarith
        obtain ⟨nx, kx⟩ := coord_error2 hL hR0 l2 eN (V2.abs_x_le_norm D) mx
        obtain ⟨ny, ky⟩ := coord_error2 hL hR0 l2 eN (V2.abs_y_le_norm D) my
        obtain ⟨Px, Px1, Px2, _⟩ := F32.round_mul N1 ce.1 (nx.trans bigP)
        obtain ⟨Py, Py1, Py2, _⟩ := F32.round_mul N1 ce.2 (ny.trans bigP)
        obtain ⟨bx, kx⟩ := kx Px Px2
        obtain ⟨by', ky⟩ := ky Py Py2
        obtain ⟨zx, zx1, zx2⟩ := F32.round_div Px1 l1 lp.ne' (bx.trans bigQ)
        obtain ⟨zy, zy1, zy2⟩ := F32.round_div Py1 l1 lp.ne' (by'.trans bigQ)
        refine ⟨D.norm, fin _ hL0.le hout, fun _ => ⟨fun h => decide_eq_true ((lt_iff l1 hr).2 ?_),
          fun h => decide_eq_false ?_⟩, fun _ => ?_⟩
        · linarith [l2'.2]
        · rw [lt_iff l1 hr, not_lt]; linarith [l2'.1]
        · refine RoundedVector.of_dist (x := ⟨zx, zy⟩) hsd ha hb ⟨zx1, zy1⟩ ⟨?_, ?_⟩
          · have e : (V2.scale (D.norm - (ra + rb)) (V2.scale (1 / D.norm) D)).x =
                (D.norm - (ra + rb)) / D.norm * D.x := by
              show (D.norm - (ra + rb)) * (1 / D.norm * D.x) = _
              ring
            rw [e, abs_of_pos hL0]
            exact kx zx zx2
          · have e : (V2.scale (D.norm - (ra + rb)) (V2.scale (1 / D.norm) D)).y =
                (D.norm - (ra + rb)) / D.norm * D.y := by
              show (D.norm - (ra + rb)) * (1 / D.norm * D.y) = _
              ring
            rw [e, abs_of_pos hL0]
            exact ky zy zy2

/-! ## C79 -/

/-- the five hypotheses on sizes: half size and offset up to `2^126`; beyond a corner the offset from
the corner must be `Moderate` and the radius at most `2^61` -/
def RoundedRange (h δ : V2 ℝ) (r : ℝ) : Prop :=
  (0 ≤ h.x ∧ h.x ≤ (2 : ℝ) ^ (126 : ℤ)) ∧ (0 ≤ h.y ∧ h.y ≤ (2 : ℝ) ^ (126 : ℤ)) ∧
  (0 ≤ r ∧ r ≤ (2 : ℝ) ^ (126 : ℤ)) ∧
  |δ.x| ≤ (2 : ℝ) ^ (126 : ℤ) ∧ |δ.y| ≤ (2 : ℝ) ^ (126 : ℤ) ∧
  (|δ.x| ≤ h.x ∨ |δ.y| ≤ h.y ∨
    ((⟨|δ.x| - h.x, |δ.y| - h.y⟩ : V2 ℝ).Moderate ∧ r ≤ (2 : ℝ) ^ (61 : ℤ)))

/-- what the flag and vector queries answer about a configuration of signed distance `s` (centre to
box), radius `r`, exact shapes `X` and `Y`; `face` marks the known defect of C26 -/
def RoundedQueries (col : Except Panic Bool) (pen dist : Except Panic (Option (V2 F32)))
    (both : Except Panic (Bool × V2 F32)) (s r : ℝ) (face : Prop) (X Y : Set (V2 ℝ)) : Prop :=
  ∃ c v, col = .ok c ∧ both = .ok (c, v) ∧ pen = .ok (if c then some v else none) ∧
    dist = .ok (if c then none else some v) ∧
    (0 < r ∨ ¬ face → RoundedFlag c s r) ∧ (¬ face → RoundedVector v s r X Y)

/-- RoundedBox2d v Point in binary32 -/
theorem C79_f32_rounded_box_point {T : Type} [Transformation2d T F32] (a : RoundedBox2d F32)
    (pt : Point F32) (rel : T) {h δ : V2 ℝ} {r : ℝ} (hh : a.halfsize.Is h) (hr : F32.Is a.radius r)
    (hd : (applyOrigin rel : V2 F32).Is δ) (hb : RoundedRange h δ r) :
    ∃ s, BoxSignedDist h δ s ∧
      RoundedQueries (collidesRel a pt rel) (penetratesRel a pt rel) (distanceToRel a pt rel)
        (sdfvRel a pt rel) s r (|δ.x| = h.x ∧ |δ.y| < h.y) (Region.pts (RoundedBox2d.mk h r)) {δ} := by
  obtain ⟨⟨b1, b2⟩, ⟨b3, b4⟩, ⟨b5, b6⟩, b7, b8, b9⟩ := hb
  obtain ⟨s, k1, k2, k3⟩ := roundedBoxPoint_f32 (ra := r) (rb := 0) hh hd (by rwa [add_zero]) b5
    (le_refl _) b1 b3 ⟨b2, b4⟩ ⟨b7, b8⟩ (by rwa [add_zero]) (by rwa [add_zero])
  rw [add_zero] at k2 k3
  have e1 : thick (Region.pts (Box2d.mk h)) r = Region.pts (RoundedBox2d.mk h r) := by
    ext p
    exact ⟨fun hp => ⟨b5, hp⟩, fun hp => hp.2⟩
  have e2 : thick {δ} 0 = {δ} := by
    let _ := realFloat true 0
    have := realFloat_exact true 0
    exact @thick_zero ℝ _ _ _ _ _ (realFloat_sqrt true 0) {δ}
  rw [e1, e2] at k3
  exact ⟨s, k1, _, _, rfl, rfl, rfl, rfl, k2, k3⟩

/-- Box2d v Ball in binary32 -/
theorem C79_f32_box_ball {T : Type} [Transformation2d T F32] (a : Box2d F32) (b : Ball F32) (rel : T)
    {h δ : V2 ℝ} {r : ℝ} (hh : a.halfsize.Is h) (hr : F32.Is b.radius r)
    (hd : (applyOrigin rel : V2 F32).Is δ) (hb : RoundedRange h δ r) :
    ∃ s, BoxSignedDist h δ s ∧
      RoundedQueries (collidesRel a b rel) (penetratesRel a b rel) (distanceToRel a b rel)
        (sdfvRel a b rel) s r (|δ.x| = h.x ∧ |δ.y| < h.y) (Region.pts (Box2d.mk h)) (disc δ r) := by
  obtain ⟨⟨b1, b2⟩, ⟨b3, b4⟩, ⟨b5, b6⟩, b7, b8, b9⟩ := hb
  obtain ⟨s, k1, k2, k3⟩ := roundedBoxPoint_f32 (ra := 0) (rb := r) hh hd (by rwa [zero_add]) (le_refl _)
    b5 b1 b3 ⟨b2, b4⟩ ⟨b7, b8⟩ (by rwa [zero_add]) (by rwa [zero_add])
  rw [zero_add] at k2 k3
  have e2 : thick (Region.pts (Box2d.mk h)) 0 = Region.pts (Box2d.mk h) := by
    let _ := realFloat true 0
    have := realFloat_exact true 0
    exact @thick_zero ℝ _ _ _ _ _ (realFloat_sqrt true 0) _
  rw [thick_disc, e2] at k3
  exact ⟨s, k1, _, _, rfl, rfl, rfl, rfl, k2, k3⟩

/-- RoundedBox2d v Point `sdf` in binary32: within `(|s| + r) / 2^21` of signed distance minus
radius -/
theorem C79_f32_rounded_box_sdf {T : Type} [Transformation2d T F32] (a : RoundedBox2d F32)
    (pt : Point F32) (rel : T) {h δ : V2 ℝ} {r : ℝ} (hh : a.halfsize.Is h) (hr : F32.Is a.radius r)
    (hd : (applyOrigin rel : V2 F32).Is δ) (hx : 0 ≤ h.x) (hy : 0 ≤ h.y) (hr0 : 0 ≤ r)
    (bh : h.x ≤ (2 : ℝ) ^ (125 : ℤ) ∧ h.y ≤ (2 : ℝ) ^ (125 : ℤ))
    (bd : |δ.x| ≤ (2 : ℝ) ^ (125 : ℤ) ∧ |δ.y| ≤ (2 : ℝ) ^ (125 : ℤ)) (br : r ≤ (2 : ℝ) ^ (126 : ℤ))
    (hm : |δ.x| < h.x ∨ |δ.y| < h.y ∨ (⟨|δ.x| - h.x, |δ.y| - h.y⟩ : V2 ℝ).Moderate) :
    ∃ d t s, SdfRel2d.sdfRel a pt rel = .ok d ∧ F32.Is d t ∧ BoxSignedDist h δ s ∧
      |t - (s - r)| ≤ (|s| + r) / 2 ^ 21 := by
  have h126 : (2 : ℝ) ^ (126 : ℤ) = 2 * (2 : ℝ) ^ (125 : ℤ) := by norm_num
  have hp := two_zpow_pos 125
  obtain ⟨t, s, h1, h2, h3⟩ := boxPointSdf_f32 hh hd hx hy ⟨by linarith [bh.1], by linarith [bh.2]⟩
    ⟨by linarith [bd.1], by linarith [bd.2]⟩ hm
  have hs : |s| ≤ (2 : ℝ) ^ (126 : ℤ) := by
    refine abs_le_of_sq_le_sq ?_ (two_zpow_pos _).le
    by_cases h0 : s < 0
    · have hin := h3.1.1 h0
      obtain ⟨_, _, hle⟩ := h3.2.1 h0
      have k := hle ⟨h.x, δ.y⟩ ⟨(abs_of_nonneg hx).le, hin.2.le, Or.inl (abs_of_nonneg hx)⟩
      rw [neg_sq, lengthSq_def] at k
      have k : s ^ 2 ≤ (δ.x - h.x) * (δ.x - h.x) + (δ.y - δ.y) * (δ.y - δ.y) := k
      rw [sub_self, mul_zero, add_zero] at k
      refine k.trans ?_
      rw [← pow_two]
      have := abs_le.1 bd.1
      exact sq_le_sq' (by linarith [bh.1, this.1]) (by linarith [bh.1, this.2])
    · obtain ⟨_, _, hle⟩ := h3.2.2 (not_lt.1 h0)
      have k := hle 0 ⟨by show |(0 : ℝ)| ≤ h.x; rwa [abs_zero], by show |(0 : ℝ)| ≤ h.y; rwa [abs_zero]⟩
      rw [lengthSq_def] at k
      have k : s ^ 2 ≤ (δ.x - 0) * (δ.x - 0) + (δ.y - 0) * (δ.y - 0) := k
      rw [sub_zero, sub_zero] at k
      have a1 : δ.x ^ 2 ≤ ((2 : ℝ) ^ (125 : ℤ)) ^ 2 := sq_le_sq' (abs_le.1 bd.1).1 (abs_le.1 bd.1).2
      have a2 : δ.y ^ 2 ≤ ((2 : ℝ) ^ (125 : ℤ)) ^ 2 := sq_le_sq' (abs_le.1 bd.2).1 (abs_le.1 bd.2).2
      rw [h126, mul_pow]
      have a3 := sq_nonneg ((2 : ℝ) ^ (125 : ℤ))
      linarith
  have h2' := abs_le.1 h2
  have h4 := neg_abs_le s
  have h5 := le_abs_self s
  have h6 := abs_nonneg s
  have h7 : |t - r| ≤ (1 + 5 / 2 ^ 24) * (|s| + r) := by
    rw [abs_le]; constructor <;> linarith [h2'.1, h2'.2]
  obtain ⟨w, w1, w2⟩ := F32.round_sub h1 hr (h7.trans (by linarith))
  refine ⟨_, w, s, rfl, w1, h3, ?_⟩
  have w3 := abs_le.1 w2
  rw [abs_le]; constructor <;> linarith [h2'.1, h2'.2, w3.1, w3.2]

/-! ### example -/

/-- the box of half size (1,1) and a ball of radius 3 centred at (7/3 rounded, 3), beyond the corner:
the hypotheses hold, they overlap, and `penetrates` answers with a vector satisfying the
specification -/
example : ∃ (a : Box2d F32) (b : Ball F32) (q' : V2 F32) (x s : ℝ), a.halfsize.Is ⟨1, 1⟩ ∧
    F32.Is b.radius 3 ∧ q'.Is ⟨x, 3⟩ ∧ |x - 7 / 3| ≤ 1 / 2 ^ 20 ∧ collidesRel a b q' = .ok true ∧
    ∃ v, penetratesRel a b q' = .ok (some v) ∧
      RoundedVector v s 3 (Region.pts (Box2d.mk (⟨1, 1⟩ : V2 ℝ))) (disc ⟨x, 3⟩ 3) := by
  obtain ⟨x, hx1, hx2, _⟩ := round_any (z := false) (x := 7 / 3) (by
    rw [abs_of_pos (by norm_num)]; norm_num)
  rw [abs_of_pos (by norm_num : (0 : ℝ) < 7 / 3)] at hx2
  have hx : |x - 7 / 3| ≤ 1 / 2 ^ 20 := hx2.trans (by norm_num)
  have hxb := abs_le.1 hx
  have h3 : F32.Is (ofReal false 3) 3 := is_ofReal (by
    have := representable_int 3 (by norm_num)
    norm_num at this ⊢; exact this)
  have ax : |x| = x := abs_of_nonneg (by linarith [hxb.1])
  have a3 : |(3 : ℝ)| = 3 := abs_of_pos (by norm_num)
  have hbig : (4 : ℝ) ≤ (2 : ℝ) ^ (61 : ℤ) := by norm_num
  have hbig2 : (4 : ℝ) ≤ (2 : ℝ) ^ (126 : ℤ) := by norm_num
  have hbig3 : (4 : ℝ) ≤ (2 : ℝ) ^ (62 : ℤ) := by norm_num
  have hsm : (2 : ℝ) ^ (-62 : ℤ) ≤ 1 := by norm_num
  have hr : RoundedRange ⟨1, 1⟩ ⟨x, 3⟩ 3 := by
    refine ⟨⟨zero_le_one, ?_⟩, ⟨zero_le_one, ?_⟩, ⟨by norm_num, by linarith⟩, ?_, ?_, Or.inr (Or.inr
      ⟨Or.inr ⟨?_, ?_, Or.inr ?_⟩, by linarith⟩)⟩
    · show (1 : ℝ) ≤ _
      linarith
    · show (1 : ℝ) ≤ _
      linarith
    · show |x| ≤ _
      rw [ax]; linarith [hxb.2]
    · show |(3 : ℝ)| ≤ _
      rw [a3]; linarith
    · show |(|x| - 1)| ≤ _
      rw [ax, abs_of_nonneg (by linarith [hxb.1])]; linarith [hxb.2]
    · show |(|(3 : ℝ)| - 1)| ≤ _
      rw [a3, abs_of_nonneg (by norm_num)]; linarith
    · show _ ≤ |(|(3 : ℝ)| - 1)|
      rw [a3, abs_of_nonneg (by norm_num)]; linarith
  obtain ⟨s, k1, c, v, k2, _, k4, _, k5, k6⟩ := C79_f32_box_ball (⟨⟨1, 1⟩⟩ : Box2d F32)
    ⟨ofReal false 3⟩ (⟨ofReal false (7 / 3), ofReal false 3⟩ : V2 F32) (h := ⟨1, 1⟩) (δ := ⟨x, 3⟩)
    ⟨is_one, is_one⟩ h3 ⟨hx1, h3⟩ hr
  have hs0 : 0 ≤ s := by
    by_contra hcon
    have := (k1.1.1 (not_le.1 hcon)).2
    have : |(3 : ℝ)| < 1 := this
    rw [a3] at this; norm_num at this
  have hs : s < (1 - 1 / 2 ^ 21) * 3 := by
    have k := (k1.2.2 hs0).2.2 ⟨1, 1⟩ ⟨by show |(1 : ℝ)| ≤ 1; simp, by show |(1 : ℝ)| ≤ 1; simp⟩
    rw [lengthSq_def] at k
    have k : s ^ 2 ≤ (x - 1) * (x - 1) + (3 - 1) * (3 - 1) := k
    by_contra hcon
    have h29 : (29 / 10 : ℝ) ≤ s := by linarith [not_lt.1 hcon]
    nlinarith [hxb.1, hxb.2]
  have hc : c = true := (k5 (Or.inl (by norm_num))).1 hs
  have hface : ¬ (|(⟨x, 3⟩ : V2 ℝ).x| = (⟨1, 1⟩ : V2 ℝ).x ∧ |(⟨x, 3⟩ : V2 ℝ).y| < (⟨1, 1⟩ : V2 ℝ).y) := by
    rintro ⟨_, h⟩
    have h : |(3 : ℝ)| < 1 := h
    rw [a3] at h; norm_num at h
  rw [hc] at k2 k4
  exact ⟨⟨⟨1, 1⟩⟩, ⟨ofReal false 3⟩, ⟨ofReal false (7 / 3), ofReal false 3⟩, x, s, ⟨is_one, is_one⟩, h3,
    ⟨hx1, h3⟩, hx, k2, v, k4, k6 hface⟩

end
end Auburn
