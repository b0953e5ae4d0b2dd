import Verif.Ieee.TurnDelta

/-!
# C88: colliders with rotations (`Transform2d`), on binary32
-/

set_option linter.unusedSectionVars false
set_option synthInstance.maxSize 1000

namespace Auburn

open F32 V2 ExtremePoint2d Transformation2d

section
variable [env : F32Env]

/-! ## the statement -/

/-- the answers for two colliders that occupy `X` and `Y`.  `penetrates` and `distance_to` report a vector in the frame
of the first collider (its rotor is `r`), `sdfv` a vector in the world. -/
structure ValidTurned (δ : ℝ) (X Y : Set (V2 ℝ)) (r : V2 ℝ) (U V V' fine : Prop) (collides : Except Panic Bool)
    (penetrates distanceTo : Except Panic (Option (V2 F32))) (sdfv : Except Panic (Bool × V2 F32)) : Prop where
  apart : ApartUpTo δ X Y U V V' collides penetrates distanceTo sdfv
  distanceTo : ∀ v x, distanceTo = .ok (some v) → v.Is x → MeetUpTo δ (shift (turn r x) X) Y
  sdfv_out : ∀ v x, sdfv = .ok (false, v) → v.Is x → MeetUpTo δ (shift x X) Y
  penetrates : fine → ∀ v x, penetrates = .ok (some v) → v.Is x → x ≠ 0 → SeparableUpTo δ (shift (turn r x) X) Y
  sdfv_in : fine → ∀ v x, sdfv = .ok (true, v) → v.Is x → x ≠ 0 → SeparableUpTo (δ + x.norm / 2 ^ 20) (shift x X) Y

/-- the same for colliders with balls: no pushes, distances unless the shapes meet -/
structure ValidTurnedAny (δ : ℝ) (X Y : Set (V2 ℝ)) (r : V2 ℝ) (U V V' : Prop) (collides : Except Panic Bool)
    (penetrates distanceTo : Except Panic (Option (V2 F32))) (sdfv : Except Panic (Bool × V2 F32)) : Prop where
  apart : ApartUpTo δ X Y U V V' collides penetrates distanceTo sdfv
  distanceTo : ∀ v x, distanceTo = .ok (some v) → v.Is x → MeetUpTo δ X Y ∨ MeetUpTo δ (shift (turn r x) X) Y
  sdfv_out : ∀ v x, sdfv = .ok (false, v) → v.Is x → MeetUpTo δ X Y ∨ MeetUpTo δ (shift x X) Y

/-! ## from the frame of the first collider to the world -/

theorem turned_shift (t : Transform2d F32) (x : V2 ℝ) (X : Set (V2 ℝ)) :
    t.image (shift x X) = shift (turn t.rot.a.toReal x) (t.image X) := by
  ext p
  constructor
  · rintro ⟨_, ⟨a, ha, rfl⟩, rfl⟩
    exact ⟨_, ⟨a, ha, rfl⟩, by rw [turn_add]; ext <;> simp <;> ring⟩
  · rintro ⟨_, ⟨a, ha, rfl⟩, rfl⟩
    exact ⟨_, ⟨a, ha, rfl⟩, by rw [turn_add]; ext <;> simp <;> ring⟩

theorem norm_pos_of_ne {n : V2 ℝ} (h : n ≠ 0) : 0 < n.norm := by
  rcases n.norm_nonneg.lt_or_eq with h1 | h1
  · exact h1
  · refine absurd (V2.ext ?_ ?_) h
    · exact abs_nonpos_iff.1 (n.abs_x_le_norm.trans h1.symm.le)
    · exact abs_nonpos_iff.1 (n.abs_y_le_norm.trans h1.symm.le)

theorem turn_dot_turn (r p q : V2 ℝ) : (turn r p).dot (turn r q) = (r.norm * r.norm) * p.dot q := by
  rw [r.norm_sq]
  simp only [dot_def, turn]; ring

section
variable {M ε δ : ℝ} {ta tb D : Transform2d F32} {X Y : Set (V2 ℝ)}

/-- the relative placement `D` puts the points of `Y` where `tb` puts them, seen from `ta`, up to `ε` -/
def Carries (ε : ℝ) (ta tb D : Transform2d F32) (Y : Set (V2 ℝ)) : Prop :=
  ∀ y ∈ Y, (turn ta.rot.a.toReal (turn D.rot.a.toReal y + D.pos.toReal) + ta.pos.toReal -
    (turn tb.rot.a.toReal y + tb.pos.toReal)).norm ≤ ε

theorem sep_carry (hc : Carries ε ta tb D Y) (n1 : ta.rot.a.toReal.norm ≤ 1 + 1 / 2 ^ 18)
    (n2 : 1 - 1 / 2 ^ 18 ≤ ta.rot.a.toReal.norm) (hδ : 0 ≤ δ) (h : SeparableUpTo δ X (D.image Y)) :
    SeparableUpTo (101 / 100 * δ + ε) (ta.image X) (tb.image Y) := by
  obtain ⟨n, n0, hn⟩ := h
  set r := ta.rot.a.toReal
  have rpos : 0 < r.norm := lt_of_lt_of_le (by norm_num) n2
  have nn : (turn r n).norm = r.norm * n.norm := turn_norm _ _
  have npos : 0 < n.norm := norm_pos_of_ne n0
  refine ⟨turn r n, fun h0 => ?_, ?_⟩
  · rw [h0] at nn
    have : (0 : V2 ℝ).norm = 0 := by simp [V2.norm]
    rw [this] at nn
    have := mul_pos rpos npos
    linarith
  · rintro _ ⟨x, hx, rfl⟩ _ ⟨y, hy, rfl⟩
    have h1 := hn x hx _ ⟨y, hy, rfl⟩
    have h2 := hc y hy
    set w := turn D.rot.a.toReal y + D.pos.toReal with hw
    have h3 := (le_abs_self _).trans (dot_le_norm (turn r n) (turn r w + ta.pos.toReal -
      (turn tb.rot.a.toReal y + tb.pos.toReal)))
    have h4 := mul_le_mul_of_nonneg_left h2 (turn r n).norm_nonneg
    rw [dot_sub, dot_add, turn_dot_turn] at h3
    rw [dot_add, turn_dot_turn]
    have h5 := mul_le_mul_of_nonneg_left h1 (mul_nonneg rpos.le rpos.le)
    have h6 : (r.norm * r.norm) * (δ * n.norm) ≤ 101 / 100 * δ * (turn r n).norm := by
      rw [nn]
      have := mul_le_mul_of_nonneg_right n1 (mul_nonneg hδ (mul_nonneg rpos.le npos.le))
      have h7 : 0 ≤ δ * (r.norm * n.norm) := mul_nonneg hδ (mul_nonneg rpos.le npos.le)
      linarith only [this, h7]
    have e : (101 / 100 * δ + ε) * (turn r n).norm = 101 / 100 * δ * (turn r n).norm + (turn r n).norm * ε := by ring
    rw [e]
    linarith only [h3, h4, h5, h6]

theorem meet_carry (hc : Carries ε ta tb D Y) (n1 : ta.rot.a.toReal.norm ≤ 1 + 1 / 2 ^ 18) (hδ : 0 ≤ δ)
    (h : MeetUpTo δ X (D.image Y)) : MeetUpTo (101 / 100 * δ + ε) (ta.image X) (tb.image Y) := by
  obtain ⟨x, hx, _, ⟨y, hy, rfl⟩, h⟩ := h
  refine ⟨_, ⟨x, hx, rfl⟩, _, ⟨y, hy, rfl⟩, ?_⟩
  set r := ta.rot.a.toReal
  set w := turn D.rot.a.toReal y + D.pos.toReal with hw
  have e : turn r x + ta.pos.toReal - (turn tb.rot.a.toReal y + tb.pos.toReal) = turn r (x - w) +
      (turn r w + ta.pos.toReal - (turn tb.rot.a.toReal y + tb.pos.toReal)) := by
    rw [turn_sub]; ext <;> simp <;> ring
  rw [e]
  have h1 := V2.norm_add_le' (turn r (x - w)) (turn r w + ta.pos.toReal - (turn tb.rot.a.toReal y + tb.pos.toReal))
  rw [turn_norm] at h1
  have h2 := hc y hy
  have h3 := mul_le_mul n1 h (V2.norm_nonneg _) (by norm_num)
  linarith only [h1, h2, h3, hδ]

/-- a slightly different vector -/
theorem sep_near {x x' : V2 ℝ} (h : SeparableUpTo δ (shift x X) Y) (hx : (x' - x).norm ≤ ε) :
    SeparableUpTo (δ + ε) (shift x' X) Y := by
  obtain ⟨n, n0, hn⟩ := h
  refine ⟨n, n0, ?_⟩
  rintro _ ⟨a, ha, rfl⟩ b hb
  have h1 := hn _ ⟨a, ha, rfl⟩ b hb
  have h2 := (le_abs_self _).trans (dot_le_norm n (x' - x))
  have h3 := mul_le_mul_of_nonneg_left hx n.norm_nonneg
  rw [dot_sub] at h2
  rw [dot_add] at h1 ⊢
  linarith only [h1, h2, h3]

theorem meet_near {x x' : V2 ℝ} (h : MeetUpTo δ (shift x X) Y) (hx : (x' - x).norm ≤ ε) :
    MeetUpTo (δ + ε) (shift x' X) Y := by
  obtain ⟨_, ⟨a, ha, rfl⟩, b, hb, h⟩ := h
  refine ⟨_, ⟨a, ha, rfl⟩, b, hb, ?_⟩
  have e : a + x' - b = (a + x - b) + (x' - x) := by ext <;> simp <;> ring
  rw [e]
  have h1 := V2.norm_add_le' (a + x - b) (x' - x)
  linarith only [h1, h, hx]

end

/-- the vector reported by `sdfv` is the local one, rotated -/
theorem sdfv_turned {r : Except Panic (Bool × V2 F32)} {t : Transform2d F32} {c : Bool} {v : V2 F32}
    (h : (r.map fun r => (r.1, applyNormal t r.2)) = .ok (c, v)) : ∃ w, r = .ok (c, w) ∧ v = t.rot.rotate w := by
  rcases r with _ | ⟨c', w⟩
  · cases h
  · injection h with h
    injection h with h1 h2
    subst h1
    exact ⟨w, rfl, h2.symm⟩

section
variable {M : ℝ} {ta tb D : Transform2d F32} {X Y : Set (V2 ℝ)} {U V V' f : Prop} {col : Except Panic Bool}
    {pen dist : Except Panic (Option (V2 F32))} {sd : Except Panic (Bool × V2 F32)}

/-- a vector of the first collider's frame that brings the shapes together is short -/
theorem meet_short (hX : ∀ x ∈ X, x.Coord (M + M / 2 ^ 19)) (hY : ∀ y ∈ Y, y.Coord (M + M / 2 ^ 19))
    (hD : D.Rigid32 M (1 / 2 ^ 16)) (hM0 : 0 < M) {w : V2 ℝ}
    (h : MeetUpTo (M / 2 ^ 16) (shift w X) (D.image Y)) : w.norm ≤ (46 / 10) * M := by
  obtain ⟨_, ⟨x, hx, rfl⟩, _, ⟨y, hy, rfl⟩, h⟩ := h
  have e : w = (x + w - (turn D.rot.a.toReal y + D.pos.toReal)) + ((turn D.rot.a.toReal y + D.pos.toReal) + -x) := by
    ext <;> simp <;> ring
  have h1 := V2.norm_add_le' (x + w - (turn D.rot.a.toReal y + D.pos.toReal)) ((turn D.rot.a.toReal y + D.pos.toReal) + -x)
  rw [← e] at h1
  have h2 := V2.norm_add_le' (turn D.rot.a.toReal y + D.pos.toReal) (-x)
  have h3 := V2.norm_add_le' (turn D.rot.a.toReal y) D.pos.toReal
  rw [turn_norm] at h3
  rw [V2.norm_neg] at h2
  have xn := norm_coord (hX x hx)
  have yn := norm_coord (hY y hy)
  have pn := norm_coord hD.pos.2
  have h4 := mul_le_mul hD.norm_le yn y.norm_nonneg (by norm_num)
  linarith only [h1, h2, h3, h4, xn, pn, h, hM0]

theorem rot_norms {t : Transform2d F32} {N : ℝ} (ha : t.Rigid32 N (1 / 2 ^ 18)) :
    t.rot.a.toReal.norm ≤ 1 + 1 / 2 ^ 18 ∧ 1 - 1 / 2 ^ 18 ≤ t.rot.a.toReal.norm := by
  have := abs_le.1 (ha.unit.norm (by norm_num))
  exact ⟨by linarith [this.2], by linarith [this.1]⟩

/-- the local vector and the world vector, when the local one is short -/
theorem turned_short {N : ℝ} (ha : ta.Rigid32 N (1 / 2 ^ 18)) (hM0 : (2 : ℝ) ^ (-20 : ℤ) ≤ M) {w' : V2 F32} {x : V2 ℝ}
    (hx : (ta.rot.rotate w').Is x) : ∃ w, w'.Is w ∧
      (w.norm ≤ (46 / 10) * M → (x - turn ta.rot.a.toReal w).norm ≤ 16 * (M / 2 ^ 24)) := by
  obtain ⟨w, w1, w2⟩ := finite_turn ha.rot hx
  refine ⟨w, w1, fun hw => ?_⟩
  have hM1 : 0 < M := lt_of_lt_of_le (two_zpow_pos _) hM0
  have h1 := mul_le_mul (rot_norms ha).1 hw w.norm_nonneg (by norm_num)
  have hsm : (4 : ℝ) / 2 ^ 150 ≤ (1 / 100) * (M / 2 ^ 24) := by
    have h1 : (4 : ℝ) / 2 ^ 150 ≤ (1 / 100) * ((2 : ℝ) ^ (-20 : ℤ) / 2 ^ 24) := by norm_num
    have h2 := div_le_div_of_nonneg_right hM0 (show (0 : ℝ) ≤ 2 ^ 24 by positivity)
    linarith only [h1, h2]
  have h2 : (9 / 4) * (ta.rot.a.toReal.norm * w.norm / 2 ^ 24) + 4 / 2 ^ 150 ≤ (1040 / 100) * (M / 2 ^ 24) := by
    linarith only [h1, hsm, hM1]
  have h3 : (x - turn ta.rot.a.toReal w).norm ≤ (3 / 2) * ((1040 / 100) * (M / 2 ^ 24)) :=
    norm_coord ⟨w2.1.trans h2, w2.2.trans h2⟩
  linarith only [h3, hM1]

/-- the local vector and the world vector, any length -/
theorem turned_long {N : ℝ} (ha : ta.Rigid32 N (1 / 2 ^ 18)) (hM0 : (2 : ℝ) ^ (-20 : ℤ) ≤ M) {w' : V2 F32} {x : V2 ℝ}
    (hx : (ta.rot.rotate w').Is x) (h0 : x ≠ 0) : ∃ w, w'.Is w ∧ w ≠ 0 ∧
      (x - turn ta.rot.a.toReal w).norm ≤ M / 2 ^ 24 + x.norm / 2 ^ 20 := by
  obtain ⟨w, w1, w2⟩ := finite_turn ha.rot hx
  refine ⟨w, w1, fun hw => h0 ?_, ?_⟩
  · subst hw; exact turn_zero32 ha.rot w1 hx
  have hM1 : 0 < M := lt_of_lt_of_le (two_zpow_pos _) hM0
  have hsm : (4 : ℝ) / 2 ^ 150 ≤ (1 / 100) * (M / 2 ^ 24) := by
    have h1 : (4 : ℝ) / 2 ^ 150 ≤ (1 / 100) * ((2 : ℝ) ^ (-20 : ℤ) / 2 ^ 24) := by norm_num
    have h2 := div_le_div_of_nonneg_right hM0 (show (0 : ℝ) ≤ 2 ^ 24 by positivity)
    linarith only [h1, h2]
  set r := ta.rot.a.toReal
  have h3 : (x - turn r w).norm ≤ (3 / 2) * ((9 / 4) * (r.norm * w.norm / 2 ^ 24) + 4 / 2 ^ 150) := norm_coord w2
  have h4 := V2.norm_add_le' x (-(x - turn r w))
  rw [V2.norm_neg, show x + -(x - turn r w) = turn r w by ext <;> simp, turn_norm] at h4
  have h5 := x.norm_nonneg
  have h6 : 0 ≤ r.norm * w.norm := mul_nonneg r.norm_nonneg w.norm_nonneg
  linarith only [h3, h4, h5, h6, hsm, hM1]

theorem ApartUpTo.carry (ha : ta.Rigid32 (M / 4) (1 / 2 ^ 18)) (hM1 : 0 < M) (hc : Carries (160 * (M / 2 ^ 24)) ta tb D Y)
    (h : ApartUpTo (M / 2 ^ 16) X (D.image Y) U V V' col pen dist sd) :
    ApartUpTo (M / 2 ^ 15) (ta.image X) (tb.image Y) U V V' col pen dist
      (sd.map fun r => (r.1, applyNormal ta r.2)) := by
  have hle : 101 / 100 * (M / 2 ^ 16) + 160 * (M / 2 ^ 24) ≤ M / 2 ^ 15 := by linarith only [hM1]
  have s1 : SeparableUpTo (M / 2 ^ 16) X (D.image Y) → SeparableUpTo (M / 2 ^ 15) (ta.image X) (tb.image Y) :=
    fun h => (sep_carry hc (rot_norms ha).1 (rot_norms ha).2 (by positivity) h).mono hle
  obtain ⟨a1, a2, a3, a4⟩ := h
  refine ⟨fun h => (a1 h).imp s1 id, fun h => (a2 h).imp s1 id, fun v h => (a3 v h).imp s1 id, fun v h => ?_⟩
  obtain ⟨w, h1, -⟩ := sdfv_turned h
  exact (a4 w h1).imp s1 id

theorem ValidUpTo.turned (ha : ta.Rigid32 (M / 4) (1 / 2 ^ 18)) (hD : D.Rigid32 M (1 / 2 ^ 16))
    (hc : Carries (160 * (M / 2 ^ 24)) ta tb D Y) (hM0 : (2 : ℝ) ^ (-20 : ℤ) ≤ M)
    (hX : ∀ x ∈ X, x.Coord (M + M / 2 ^ 19)) (hY : ∀ y ∈ Y, y.Coord (M + M / 2 ^ 19))
    (h : ValidUpTo (M / 2 ^ 16) X (D.image Y) U V V' f col pen dist sd) :
    ValidTurned (M / 2 ^ 15) (ta.image X) (tb.image Y) ta.rot.a.toReal U V V' f col pen dist
      (sd.map fun r => (r.1, applyNormal ta r.2)) := by
  have hM1 : 0 < M := lt_of_lt_of_le (two_zpow_pos _) hM0
  have hδ : (0 : ℝ) ≤ M / 2 ^ 16 := by positivity
  have hle : 101 / 100 * (M / 2 ^ 16) + 160 * (M / 2 ^ 24) ≤ M / 2 ^ 15 - 16 * (M / 2 ^ 24) := by linarith only [hM1]
  have hle' : M / 2 ^ 15 - 16 * (M / 2 ^ 24) ≤ M / 2 ^ 15 := by linarith only [hM1]
  have s2 : ∀ x, SeparableUpTo (M / 2 ^ 16) (shift x X) (D.image Y) →
      SeparableUpTo (M / 2 ^ 15 - 16 * (M / 2 ^ 24)) (shift (turn ta.rot.a.toReal x) (ta.image X)) (tb.image Y) := fun x h => by
    rw [← turned_shift]
    exact (sep_carry hc (rot_norms ha).1 (rot_norms ha).2 hδ h).mono hle
  have s3 : ∀ x, MeetUpTo (M / 2 ^ 16) (shift x X) (D.image Y) →
      MeetUpTo (M / 2 ^ 15 - 16 * (M / 2 ^ 24)) (shift (turn ta.rot.a.toReal x) (ta.image X)) (tb.image Y) := fun x h => by
    rw [← turned_shift]
    exact (meet_carry hc (rot_norms ha).1 hδ h).mono hle
  refine ⟨h.apart.carry ha hM1 hc, fun v x e hx => (s3 x (h.bridge.distanceTo v x e hx)).mono hle', fun v x e hx => ?_,
    fun hf v x e hx h0 => (s2 x ((h.push hf).penetrates v x e hx h0)).mono hle', fun hf v x e hx h0 => ?_⟩
  · obtain ⟨w', e1, rfl⟩ := sdfv_turned e
    obtain ⟨w, w1, w2⟩ := turned_short ha hM0 hx
    have m := h.bridge.sdfv w' w e1 w1
    exact (meet_near (s3 w m) (w2 (meet_short hX hY hD hM1 m))).mono (by linarith only [hM1])
  · obtain ⟨w', e1, rfl⟩ := sdfv_turned e
    obtain ⟨w, w1, w0, w2⟩ := turned_long ha hM0 hx h0
    have m := (h.push hf).sdfv w' w e1 w1 w0
    exact (sep_near (s2 w m) w2).mono (by linarith only [hM1])

theorem BridgeUnlessMet.turned (ha : ta.Rigid32 (M / 4) (1 / 2 ^ 18)) (hD : D.Rigid32 M (1 / 2 ^ 16))
    (hc : Carries (160 * (M / 2 ^ 24)) ta tb D Y) (hM0 : (2 : ℝ) ^ (-20 : ℤ) ≤ M)
    (hX : ∀ x ∈ X, x.Coord (M + M / 2 ^ 19)) (hY : ∀ y ∈ Y, y.Coord (M + M / 2 ^ 19))
    (h1 : ApartUpTo (M / 2 ^ 16) X (D.image Y) U V V' col pen dist sd)
    (h : BridgeUnlessMet (M / 2 ^ 16) X (D.image Y) dist sd) :
    ValidTurnedAny (M / 2 ^ 15) (ta.image X) (tb.image Y) ta.rot.a.toReal U V V' col pen dist
      (sd.map fun r => (r.1, applyNormal ta r.2)) := by
  have hM1 : 0 < M := lt_of_lt_of_le (two_zpow_pos _) hM0
  have hδ : (0 : ℝ) ≤ M / 2 ^ 16 := by positivity
  have hle : 101 / 100 * (M / 2 ^ 16) + 160 * (M / 2 ^ 24) ≤ M / 2 ^ 15 - 16 * (M / 2 ^ 24) := by linarith only [hM1]
  have hle' : M / 2 ^ 15 - 16 * (M / 2 ^ 24) ≤ M / 2 ^ 15 := by linarith only [hM1]
  have s1 : MeetUpTo (M / 2 ^ 16) X (D.image Y) → MeetUpTo (M / 2 ^ 15) (ta.image X) (tb.image Y) := fun h =>
    (meet_carry hc (rot_norms ha).1 hδ h).mono (hle.trans hle')
  have s3 : ∀ x, MeetUpTo (M / 2 ^ 16) (shift x X) (D.image Y) →
      MeetUpTo (M / 2 ^ 15 - 16 * (M / 2 ^ 24)) (shift (turn ta.rot.a.toReal x) (ta.image X)) (tb.image Y) := fun x h => by
    rw [← turned_shift]
    exact (meet_carry hc (rot_norms ha).1 hδ h).mono hle
  refine ⟨h1.carry ha hM1 hc, fun v x e hx => (h.distanceTo v x e hx).imp s1 fun h => (s3 x h).mono hle', fun v x e hx => ?_⟩
  obtain ⟨w', e1, rfl⟩ := sdfv_turned e
  obtain ⟨w, w1, w2⟩ := turned_short ha hM0 hx
  refine (h.sdfv w' w e1 w1).imp s1 fun m => ?_
  exact (meet_near (s3 w m) (w2 (meet_short hX hY hD hM1 m))).mono (by linarith only [hM1])

theorem MetUpTo.turned (ha : ta.Rigid32 (M / 4) (1 / 2 ^ 18)) (hM1 : 1 ≤ M) (hc : Carries (160 * (M / 2 ^ 24)) ta tb D Y)
    (h : MetUpTo (M / 2 ^ 5) X (D.image Y) col pen sd) :
    MetUpTo (M / 2 ^ 4) (ta.image X) (tb.image Y) col pen (sd.map fun r => (r.1, applyNormal ta r.2)) := by
  have hle : 101 / 100 * (M / 2 ^ 5) + 160 * (M / 2 ^ 24) ≤ M / 2 ^ 4 := by linarith only [hM1]
  have s1 : MeetUpTo (M / 2 ^ 5) X (D.image Y) → MeetUpTo (M / 2 ^ 4) (ta.image X) (tb.image Y) := fun h =>
    (meet_carry hc (rot_norms ha).1 (by positivity) h).mono hle
  refine ⟨fun e => s1 (h.collides e), fun v e => s1 (h.penetrates v e), fun v e => ?_⟩
  obtain ⟨w, h1, -⟩ := sdfv_turned e
  exact s1 (h.sdfv w h1)

end

/-! ## the property, colliders -/

section
variable {M : ℝ}

/-- Two polygons as colliders with rotations, positions of magnitude at most `M / 4`, rotors with squared length within
`2^-18` of one: the rounding of the relative placement is included. -/
theorem C88_f32_poly_poly_colliders (a : Poly2d F32) (b : Poly2d F32) (ta tb : Transform2d F32) (ha : a.Bounded32 M) (hb : b.Bounded32 M)
    (hta : ta.Rigid32 (M / 4) (1 / 2 ^ 18)) (htb : tb.Rigid32 (M / 4) (1 / 2 ^ 18))
    (hM0 : (2 : ℝ) ^ (-20 : ℤ) ≤ M) (hM : M ≤ (2 : ℝ) ^ (24 : ℤ)) :
    ValidTurned (M / 2 ^ 15) (ta.image (Region.pts a.toReal)) (tb.image (Region.pts b.toReal)) ta.rot.a.toReal
      (CollideRunsOut a b (deltaTransform ta tb)) (PenetrateRunsOut a b (deltaTransform ta tb))
      (DistanceRunsOut a b (deltaTransform ta tb))
      (a.Fine32 ∧ b.FineTurn (deltaTransform ta tb).rot.a.toReal ∧ (deltaTransform ta tb).pos.toReal.Gr)
      (collides ⟨a, ta⟩ ⟨b, tb⟩) (penetrates ⟨a, ta⟩ ⟨b, tb⟩) (distanceTo ⟨a, ta⟩ ⟨b, tb⟩) (sdfv ⟨a, ta⟩ ⟨b, tb⟩) ∧
    (1 ≤ M → MetUpTo (M / 2 ^ 4) (ta.image (Region.pts a.toReal)) (tb.image (Region.pts b.toReal))
      (collides ⟨a, ta⟩ ⟨b, tb⟩) (penetrates ⟨a, ta⟩ ⟨b, tb⟩) (sdfv ⟨a, ta⟩ ⟨b, tb⟩)) := by
  have hM1 : 0 < M := lt_of_lt_of_le (two_zpow_pos _) hM0
  have hM' : M ≤ (2 : ℝ) ^ (26 : ℤ) := hM.trans (zpow_le_zpow (by norm_num))
  obtain ⟨d1, d2⟩ := delta_rigid hta htb hM' hM0
  have hX := (noisy_poly ha (by norm_num) hM' hM0 : NoisyShape 26 a _ M).coord (by norm_num) hM1.le
  have hY := (noisy_poly hb (by norm_num) hM' hM0 : NoisyShape 26 b _ M).coord (by norm_num) hM1.le
  have hc : Carries (160 * (M / 2 ^ 24)) ta tb (deltaTransform ta tb) (Region.pts b.toReal) := fun y hy => d2 y (hY y hy)
  exact ⟨(C88_f32_poly_poly a b (deltaTransform ta tb) ha hb d1 hM0 hM).turned hta d1 hc hM0 hX hY,
    fun h1 => (C88_f32_poly_poly_met a b (deltaTransform ta tb) ha hb d1 h1 hM).turned hta h1 hc⟩

/-- A box and a polygon as colliders with rotations, positions of magnitude at most `M / 4`, rotors with squared length within
`2^-18` of one: the rounding of the relative placement is included. -/
theorem C88_f32_box_poly_colliders (a : Box2d F32) (b : Poly2d F32) (ta tb : Transform2d F32) (ha : a.Bounded32 M) (hb : b.Bounded32 M)
    (hta : ta.Rigid32 (M / 4) (1 / 2 ^ 18)) (htb : tb.Rigid32 (M / 4) (1 / 2 ^ 18))
    (hM0 : (2 : ℝ) ^ (-20 : ℤ) ≤ M) (hM : M ≤ (2 : ℝ) ^ (24 : ℤ)) :
    ValidTurned (M / 2 ^ 15) (ta.image (Region.pts a.toReal)) (tb.image (Region.pts b.toReal)) ta.rot.a.toReal
      (CollideRunsOut a b (deltaTransform ta tb)) (PenetrateRunsOut a b (deltaTransform ta tb))
      (DistanceRunsOut a b (deltaTransform ta tb))
      (a.Fine32 ∧ b.FineTurn (deltaTransform ta tb).rot.a.toReal ∧ (deltaTransform ta tb).pos.toReal.Gr)
      (collides ⟨a, ta⟩ ⟨b, tb⟩) (penetrates ⟨a, ta⟩ ⟨b, tb⟩) (distanceTo ⟨a, ta⟩ ⟨b, tb⟩) (sdfv ⟨a, ta⟩ ⟨b, tb⟩) ∧
    (1 ≤ M → MetUpTo (M / 2 ^ 4) (ta.image (Region.pts a.toReal)) (tb.image (Region.pts b.toReal))
      (collides ⟨a, ta⟩ ⟨b, tb⟩) (penetrates ⟨a, ta⟩ ⟨b, tb⟩) (sdfv ⟨a, ta⟩ ⟨b, tb⟩)) := by
  have hM1 : 0 < M := lt_of_lt_of_le (two_zpow_pos _) hM0
  have hM' : M ≤ (2 : ℝ) ^ (26 : ℤ) := hM.trans (zpow_le_zpow (by norm_num))
  obtain ⟨d1, d2⟩ := delta_rigid hta htb hM' hM0
  have hX := (noisy_box ha _ : NoisyShape 26 a _ M).coord (by norm_num) hM1.le
  have hY := (noisy_poly hb (by norm_num) hM' hM0 : NoisyShape 26 b _ M).coord (by norm_num) hM1.le
  have hc : Carries (160 * (M / 2 ^ 24)) ta tb (deltaTransform ta tb) (Region.pts b.toReal) := fun y hy => d2 y (hY y hy)
  exact ⟨(C88_f32_box_poly a b (deltaTransform ta tb) ha hb d1 hM0 hM).turned hta d1 hc hM0 hX hY,
    fun h1 => (C88_f32_box_poly_met a b (deltaTransform ta tb) ha hb d1 h1 hM).turned hta h1 hc⟩

/-- A polygon and a box as colliders with rotations, positions of magnitude at most `M / 4`, rotors with squared length within
`2^-18` of one: the rounding of the relative placement is included. -/
theorem C88_f32_poly_box_colliders (a : Poly2d F32) (b : Box2d F32) (ta tb : Transform2d F32) (ha : a.Bounded32 M) (hb : b.Bounded32 M)
    (hta : ta.Rigid32 (M / 4) (1 / 2 ^ 18)) (htb : tb.Rigid32 (M / 4) (1 / 2 ^ 18))
    (hM0 : (2 : ℝ) ^ (-20 : ℤ) ≤ M) (hM : M ≤ (2 : ℝ) ^ (24 : ℤ)) :
    ValidTurned (M / 2 ^ 15) (ta.image (Region.pts a.toReal)) (tb.image (Region.pts b.toReal)) ta.rot.a.toReal
      (CollideRunsOut a b (deltaTransform ta tb)) (PenetrateRunsOut a b (deltaTransform ta tb))
      (DistanceRunsOut a b (deltaTransform ta tb))
      (a.Fine32 ∧ b.FineTurn (deltaTransform ta tb).rot.a.toReal ∧ (deltaTransform ta tb).pos.toReal.Gr)
      (collides ⟨a, ta⟩ ⟨b, tb⟩) (penetrates ⟨a, ta⟩ ⟨b, tb⟩) (distanceTo ⟨a, ta⟩ ⟨b, tb⟩) (sdfv ⟨a, ta⟩ ⟨b, tb⟩) ∧
    (1 ≤ M → MetUpTo (M / 2 ^ 4) (ta.image (Region.pts a.toReal)) (tb.image (Region.pts b.toReal))
      (collides ⟨a, ta⟩ ⟨b, tb⟩) (penetrates ⟨a, ta⟩ ⟨b, tb⟩) (sdfv ⟨a, ta⟩ ⟨b, tb⟩)) := by
  have hM1 : 0 < M := lt_of_lt_of_le (two_zpow_pos _) hM0
  have hM' : M ≤ (2 : ℝ) ^ (26 : ℤ) := hM.trans (zpow_le_zpow (by norm_num))
  obtain ⟨d1, d2⟩ := delta_rigid hta htb hM' hM0
  have hX := (noisy_poly ha (by norm_num) hM' hM0 : NoisyShape 26 a _ M).coord (by norm_num) hM1.le
  have hY := (noisy_box hb _ : NoisyShape 26 b _ M).coord (by norm_num) hM1.le
  have hc : Carries (160 * (M / 2 ^ 24)) ta tb (deltaTransform ta tb) (Region.pts b.toReal) := fun y hy => d2 y (hY y hy)
  exact ⟨(C88_f32_poly_box a b (deltaTransform ta tb) ha hb d1 hM0 hM).turned hta d1 hc hM0 hX hY,
    fun h1 => (C88_f32_poly_box_met a b (deltaTransform ta tb) ha hb d1 h1 hM).turned hta h1 hc⟩

/-- Two boxes as colliders with rotations, positions of magnitude at most `M / 4`, rotors with squared length within
`2^-18` of one: the rounding of the relative placement is included. -/
theorem C88_f32_box_box_colliders (a : Box2d F32) (b : Box2d F32) (ta tb : Transform2d F32) (ha : a.Bounded32 M) (hb : b.Bounded32 M)
    (hta : ta.Rigid32 (M / 4) (1 / 2 ^ 18)) (htb : tb.Rigid32 (M / 4) (1 / 2 ^ 18))
    (hM0 : (2 : ℝ) ^ (-20 : ℤ) ≤ M) (hM : M ≤ (2 : ℝ) ^ (24 : ℤ)) :
    ValidTurned (M / 2 ^ 15) (ta.image (Region.pts a.toReal)) (tb.image (Region.pts b.toReal)) ta.rot.a.toReal
      (CollideRunsOut a b (deltaTransform ta tb)) (PenetrateRunsOut a b (deltaTransform ta tb))
      (DistanceRunsOut a b (deltaTransform ta tb))
      (a.Fine32 ∧ b.FineTurn (deltaTransform ta tb).rot.a.toReal ∧ (deltaTransform ta tb).pos.toReal.Gr)
      (collides ⟨a, ta⟩ ⟨b, tb⟩) (penetrates ⟨a, ta⟩ ⟨b, tb⟩) (distanceTo ⟨a, ta⟩ ⟨b, tb⟩) (sdfv ⟨a, ta⟩ ⟨b, tb⟩) ∧
    (1 ≤ M → MetUpTo (M / 2 ^ 4) (ta.image (Region.pts a.toReal)) (tb.image (Region.pts b.toReal))
      (collides ⟨a, ta⟩ ⟨b, tb⟩) (penetrates ⟨a, ta⟩ ⟨b, tb⟩) (sdfv ⟨a, ta⟩ ⟨b, tb⟩)) := by
  have hM1 : 0 < M := lt_of_lt_of_le (two_zpow_pos _) hM0
  have hM' : M ≤ (2 : ℝ) ^ (26 : ℤ) := hM.trans (zpow_le_zpow (by norm_num))
  obtain ⟨d1, d2⟩ := delta_rigid hta htb hM' hM0
  have hX := (noisy_box ha _ : NoisyShape 26 a _ M).coord (by norm_num) hM1.le
  have hY := (noisy_box hb _ : NoisyShape 26 b _ M).coord (by norm_num) hM1.le
  have hc : Carries (160 * (M / 2 ^ 24)) ta tb (deltaTransform ta tb) (Region.pts b.toReal) := fun y hy => d2 y (hY y hy)
  exact ⟨(C88_f32_box_box a b (deltaTransform ta tb) ha hb d1 hM0 hM).turned hta d1 hc hM0 hX hY,
    fun h1 => (C88_f32_box_box_met a b (deltaTransform ta tb) ha hb d1 h1 hM).turned hta h1 hc⟩

/-- Two `Shape2d` that are boxes or polygons as colliders with rotations, positions of magnitude at most `M / 4`, rotors with squared length within
`2^-18` of one: the rounding of the relative placement is included. -/
theorem C88_f32_shape_shape_colliders (a : Shape2d F32) (b : Shape2d F32) (ta tb : Transform2d F32) (ha : a.Bounded32 M) (hb : b.Bounded32 M)
    (na : a.NoBall) (nb : b.NoBall)
    (hta : ta.Rigid32 (M / 4) (1 / 2 ^ 18)) (htb : tb.Rigid32 (M / 4) (1 / 2 ^ 18))
    (hM0 : (2 : ℝ) ^ (-20 : ℤ) ≤ M) (hM : M ≤ (2 : ℝ) ^ (24 : ℤ)) :
    ValidTurned (M / 2 ^ 15) (ta.image (Region.pts a.toReal)) (tb.image (Region.pts b.toReal)) ta.rot.a.toReal
      (CollideRunsOut a b (deltaTransform ta tb)) (PenetrateRunsOut a b (deltaTransform ta tb))
      (DistanceRunsOut a b (deltaTransform ta tb))
      (a.Fine32 ∧ b.FineTurn (deltaTransform ta tb).rot.a.toReal ∧ (deltaTransform ta tb).pos.toReal.Gr)
      (collides ⟨a, ta⟩ ⟨b, tb⟩) (penetrates ⟨a, ta⟩ ⟨b, tb⟩) (distanceTo ⟨a, ta⟩ ⟨b, tb⟩) (sdfv ⟨a, ta⟩ ⟨b, tb⟩) ∧
    (1 ≤ M → MetUpTo (M / 2 ^ 4) (ta.image (Region.pts a.toReal)) (tb.image (Region.pts b.toReal))
      (collides ⟨a, ta⟩ ⟨b, tb⟩) (penetrates ⟨a, ta⟩ ⟨b, tb⟩) (sdfv ⟨a, ta⟩ ⟨b, tb⟩)) := by
  have hM1 : 0 < M := lt_of_lt_of_le (two_zpow_pos _) hM0
  have hM' : M ≤ (2 : ℝ) ^ (26 : ℤ) := hM.trans (zpow_le_zpow (by norm_num))
  obtain ⟨d1, d2⟩ := delta_rigid hta htb hM' hM0
  have hX := ((handled_shape ha na (by norm_num) hM' hM0).noisy : NoisyShape 26 a _ M).coord (by norm_num) hM1.le
  have hY := ((handled_shape hb nb (by norm_num) hM' hM0).noisy : NoisyShape 26 b _ M).coord (by norm_num) hM1.le
  have hc : Carries (160 * (M / 2 ^ 24)) ta tb (deltaTransform ta tb) (Region.pts b.toReal) := fun y hy => d2 y (hY y hy)
  exact ⟨(C88_f32_shape_shape a b (deltaTransform ta tb) ha hb na nb d1 hM0 hM).turned hta d1 hc hM0 hX hY,
    fun h1 => (C88_f32_shape_shape_met a b (deltaTransform ta tb) ha hb na nb d1 h1 hM).turned hta h1 hc⟩

/-- Two `Shape2d` colliders of any kind (with balls) with rotations, coordinates at most `2^15`. -/
theorem C88_f32_any_shape_colliders (a b : Shape2d F32) (ta tb : Transform2d F32) (ha : a.Bounded32 M) (hb : b.Bounded32 M)
    (hta : ta.Rigid32 (M / 4) (1 / 2 ^ 18)) (htb : tb.Rigid32 (M / 4) (1 / 2 ^ 18))
    (hM0 : (2 : ℝ) ^ (-20 : ℤ) ≤ M) (hM : M ≤ (2 : ℝ) ^ (15 : ℤ)) :
    ValidTurnedAny (M / 2 ^ 15) (ta.image (Region.pts a.toReal)) (tb.image (Region.pts b.toReal)) ta.rot.a.toReal
      (CollideRunsOut a b (deltaTransform ta tb)) (PenetrateRunsOut a b (deltaTransform ta tb))
      (DistanceRunsOut a b (deltaTransform ta tb))
      (collides ⟨a, ta⟩ ⟨b, tb⟩) (penetrates ⟨a, ta⟩ ⟨b, tb⟩) (distanceTo ⟨a, ta⟩ ⟨b, tb⟩) (sdfv ⟨a, ta⟩ ⟨b, tb⟩) ∧
    (1 ≤ M → MetUpTo (M / 2 ^ 4) (ta.image (Region.pts a.toReal)) (tb.image (Region.pts b.toReal))
      (collides ⟨a, ta⟩ ⟨b, tb⟩) (penetrates ⟨a, ta⟩ ⟨b, tb⟩) (sdfv ⟨a, ta⟩ ⟨b, tb⟩)) := by
  have hM1 : 0 < M := lt_of_lt_of_le (two_zpow_pos _) hM0
  have hM' : M ≤ (2 : ℝ) ^ (26 : ℤ) := hM.trans (zpow_le_zpow (by norm_num))
  have hM17 : M ≤ (2 : ℝ) ^ (17 : ℤ) := hM.trans (zpow_le_zpow (by norm_num))
  obtain ⟨d1, d2⟩ := delta_rigid hta htb hM' hM0
  have hX := (ball_shape ha hM0 hM17).2.1.coord (by norm_num) hM1.le
  have hY := (ball_shape hb hM0 hM17).2.1.coord (by norm_num) hM1.le
  have hc : Carries (160 * (M / 2 ^ 24)) ta tb (deltaTransform ta tb) (Region.pts b.toReal) := fun y hy => d2 y (hY y hy)
  obtain ⟨h1, h2, h3⟩ := C88_f32_any_shape a b (deltaTransform ta tb) ha hb d1 hM0 hM
  exact ⟨h2.turned hta d1 hc hM0 hX hY h1, fun h => (h3 h).turned hta h hc⟩

end

end

end Auburn
