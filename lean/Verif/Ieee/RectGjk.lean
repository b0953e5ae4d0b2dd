import Verif.Ieee.Signed
import Verif.Props.Tier0

/-!
# GJK on a rectangle in binary32 (library lemmas)

`S` is a support function whose values are the corners `(X s, Y t)` of an axis-aligned rectangle with
binary32 coordinates, chosen by the sign bits of the direction.  All decisions of the search that matter
are comparisons of sums of terms of equal sign, so no cancellation occurs and they are exact.
-/

set_option linter.unusedSectionVars false
set_option synthInstance.maxSize 1000

namespace Auburn

open F32 V2

section
variable [env : F32Env]

/-- support function of the rectangle with corners `(X s, Y t)` -/
def Corners (S : V2 F32 → V2 F32) (X Y : Bool → F32) : Prop :=
  ∀ (d : V2 F32) (x y : ℝ), F32.Is d.x x → F32.Is d.y y → S d = ⟨X d.x.bit, Y d.y.bit⟩

theorem is_eps_f32 : F32.Is (FloatExtra.epsilon : F32) (1 / 2 ^ 23) := by
  refine is_ofReal ?_
  have := representable_pow (e := -23) (by norm_num) (by norm_num)
  norm_num at this ⊢; exact this

theorem is_epsSq_f32 : F32.Is ((FloatExtra.epsilon : F32) * FloatExtra.epsilon) ((2 : ℝ) ^ (-46 : ℤ)) := by
  have := is_mul is_eps_f32 is_eps_f32 (by
    have := representable_pow (e := -46) (by norm_num) (by norm_num)
    norm_num at this ⊢; exact this)
  convert this using 1
  norm_num

/-- a vector with a coordinate of magnitude at least `2^-23` is not too small -/
theorem not_tooSmall_x {d : V2 F32} {s : Bool} {l u v : ℤ} (hx : Sgd s l u d.x) (hy : Bdd v d.y)
    (hl : -23 ≤ l) (hu : u ≤ 62) (hv : v ≤ 62) (hv' : -60 ≤ v) : ¬ directionTooSmall d := by
  intro h
  have hlu : l ≤ u := by
    obtain ⟨m, _, h1, h2⟩ := hx
    exact (zpow_le_zpow_iff_right₀ (by norm_num : (1 : ℝ) < 2)).1 (h1.trans h2)
  have p := hx.mul hx (by omega) (by omega)
  have p : Sgd true (l + l) (u + u) (d.x * d.x) := by cases s <;> exact p
  obtain ⟨y, y1, y2⟩ := hy
  obtain ⟨w, w1, w2, w3, _⟩ := mul_bdd y1 y1 y2 y2 (by omega) (by omega)
  have q := p.add_weak w1 (by rw [sgn_true, one_mul]; exact w3 (mul_self_nonneg _)) w2 (by omega)
    (by omega)
  obtain ⟨m, m1, m2, _⟩ := q
  have h : d.x * d.x + d.y * d.y < FloatExtra.epsilon * FloatExtra.epsilon := h
  rw [lt_iff m1 is_epsSq_f32, sgn_true, one_mul] at h
  have := zpow_le_zpow (a := -46) (b := l + l) (by omega)
  linarith

theorem not_tooSmall_y {d : V2 F32} {s : Bool} {l u v : ℤ} (hx : Bdd v d.x) (hy : Sgd s l u d.y)
    (hl : -23 ≤ l) (hu : u ≤ 62) (hv : v ≤ 62) (hv' : -60 ≤ v) : ¬ directionTooSmall d := by
  have := not_tooSmall_x (d := ⟨d.y, d.x⟩) hy hx hl hu hv hv'
  intro h
  apply this
  show d.y * d.y + d.x * d.x < _
  rw [F32.add_comm']; exact h

/-- not negative, possibly overflown -/
def BigNN (m : ℝ) (a : F32) : Prop := (∃ x, F32.Is a x ∧ m ≤ x) ∨ a = .inf false

theorem bigNN_ofReal {z : Bool} {x : ℝ} {l : ℤ} (h : (2 : ℝ) ^ l ≤ x) (h1 : -149 ≤ l) (h2 : l ≤ 127) :
    BigNN ((2 : ℝ) ^ l) (ofReal z x) := by
  have hx : 0 < x := lt_of_lt_of_le (two_zpow_pos _) h
  rcases ofReal_cases z x with ⟨_, s, k, r, hs, _⟩ | ⟨_, _, r⟩
  · left
    refine ⟨_, ⟨s, _, k, r, rfl⟩, ?_⟩
    rw [hs hx.ne', decide_eq_false (not_lt.2 hx.le), sval_false, abs_of_pos hx]
    have := rnd_mono (two_zpow_pos l).le h
    rwa [rnd_of_representable (two_zpow_pos l).le (F32.representable_pow h1 h2)] at this
  · right
    rw [r, decide_eq_false (not_lt.2 hx.le)]

theorem bigNN_mul_self {a : F32} {x : ℝ} (ha : F32.Is a x) : BigNN 0 (a * a) := by
  obtain ⟨z, e⟩ := mul_eq ha ha
  rw [e]
  have hx := mul_self_nonneg x
  rcases ofReal_cases z (x * x) with ⟨_, s, k, r, hs, _⟩ | ⟨_, h0, r⟩
  · left
    refine ⟨_, ⟨s, _, k, r, rfl⟩, ?_⟩
    by_cases h0 : x * x = 0
    · rw [h0, abs_zero, rnd_zero]; cases s <;> simp
    · rw [hs h0, decide_eq_false (not_lt.2 hx), sval_false]; exact rnd_nonneg (abs_nonneg _)
  · right
    rw [r, decide_eq_false (not_lt.2 hx)]

theorem BigNN.add {l : ℤ} {a b : F32} (ha : BigNN ((2 : ℝ) ^ l) a) (hb : BigNN 0 b) (h1 : -149 ≤ l) (h2 : l ≤ 127) :
    BigNN ((2 : ℝ) ^ l) (a + b) := by
  rcases ha with ⟨x, x1, x2⟩ | rfl
  · rcases hb with ⟨y, y1, y2⟩ | rfl
    · obtain ⟨z, e⟩ := add_eq x1 y1
      rw [e]; exact bigNN_ofReal (by linarith) h1 h2
    · obtain ⟨_, _, _, rfl, _⟩ := x1
      right; rfl
  · rcases hb with ⟨y, ⟨_, _, _, rfl, _⟩, y2⟩ | rfl
    · right; rfl
    · right; exact (if_pos rfl : (if false = false then F32.inf false else F32.nan) = F32.inf false)

theorem not_tooSmall_x' {d : V2 F32} {s : Bool} {l u v : ℤ} (hx : Sgd s l u d.x) (hy : Bdd v d.y)
    (hl : -23 ≤ l) : ¬ directionTooSmall d := by
  intro h
  have p : BigNN ((2 : ℝ) ^ (-46 : ℤ)) (d.x * d.x) := by
    obtain ⟨m, m1, m2, _⟩ := hx
    obtain ⟨z, e⟩ := mul_eq m1 m1
    rw [e]
    refine bigNN_ofReal ?_ (by norm_num) (by norm_num)
    have h23 := (zpow_le_zpow hl).trans m2
    have : sgn s * m * (sgn s * m) = m * m := by cases s <;> simp
    rw [this, show (-46 : ℤ) = -23 + -23 by norm_num, zpow_add₀ (by norm_num)]
    exact mul_le_mul h23 h23 (two_zpow_pos _).le ((two_zpow_pos _).le.trans h23)
  obtain ⟨y, y1, _⟩ := hy
  have q := p.add (bigNN_mul_self y1) (by norm_num) (by norm_num)
  have h : d.x * d.x + d.y * d.y < FloatExtra.epsilon * FloatExtra.epsilon := h
  rcases q with ⟨x, x1, x2⟩ | q
  · rw [lt_iff x1 is_epsSq_f32] at h; linarith
  · rw [q] at h
    obtain ⟨_, _, _, e, _⟩ := is_epsSq_f32
    rw [e] at h
    exact absurd h (by intro h; cases h)

theorem not_tooSmall_y' {d : V2 F32} {s : Bool} {l u v : ℤ} (hx : Bdd v d.x) (hy : Sgd s l u d.y)
    (hl : -23 ≤ l) : ¬ directionTooSmall d := by
  have := not_tooSmall_x' (d := ⟨d.y, d.x⟩) hy hx hl
  intro h
  apply this
  show d.y * d.y + d.x * d.x < _
  rw [F32.add_comm']; exact h

/-- if the coordinates of `a` are bounded and `a.crossAba b` is not too small, the cross product has a
sign and is not tiny -/
theorem cross_sgd {a b : V2 F32} (ha : Bdd 31 a.x) (ha' : Bdd 31 a.y) {c : ℝ} (hc : F32.Is (a.cross b) c)
    (hcu : |c| ≤ (2 : ℝ) ^ (63 : ℤ)) (h : ¬ directionTooSmall (a.crossAba b)) :
    ∃ κ, Sgd κ (-57) 63 (a.cross b) := by
  by_cases hsm : |c| ≤ (2 : ℝ) ^ (-57 : ℤ)
  · exfalso
    apply h
    have hb : Bdd (-57) (a.cross b) := ⟨c, hc, hsm⟩
    have p := ha'.neg.mul hb (by norm_num) (by norm_num)
    have q := ha.mul hb (by norm_num) (by norm_num)
    have r := (p.mul p (by norm_num) (by norm_num)).add (q.mul q (by norm_num) (by norm_num))
      (by norm_num) (by norm_num)
    obtain ⟨x, x1, x2⟩ := r
    show (-a.y * a.cross b) * (-a.y * a.cross b) + (a.x * a.cross b) * (a.x * a.cross b) < _
    rw [lt_iff x1 is_epsSq_f32]
    have : (2 : ℝ) ^ (max (31 + -57 + (31 + -57)) (31 + -57 + (31 + -57)) + 1 : ℤ) < (2 : ℝ) ^ (-46 : ℤ) := by
      norm_num
    exact (le_abs_self x).trans_lt (x2.trans_lt this)
  · push Not at hsm
    rcases lt_or_ge c 0 with h0 | h0
    · rw [abs_of_neg h0] at hsm hcu
      exact ⟨false, -c, by rw [sgn_false, neg_one_mul, neg_neg]; exact hc, hsm.le, hcu⟩
    · rw [abs_of_nonneg h0] at hsm hcu
      exact ⟨true, c, by rw [sgn_true, one_mul]; exact hc, hsm.le, hcu⟩

/-! ## the origin inside the rectangle -/

/-- the rectangle contains the origin with a margin -/
structure InsideRect (X Y : Bool → F32) : Prop where
  x : ∀ s, Sgd s (-23) 30 (X s)
  y : ∀ s, Sgd s (-23) 30 (Y s)

variable {S : V2 F32 → V2 F32} {X Y : Bool → F32}

/-- the two corners off a diagonal -/
def OffDiag (σ τ ρ π : Bool) : Prop := (ρ = σ ∧ π = !τ) ∨ (ρ = (!σ) ∧ π = τ)

/-- second point: the opposite corner, and the direction is perpendicular to the diagonal -/
theorem InsideRect.second (h : InsideRect X Y) (σ τ : Bool) :
    ¬ (V2.dot ⟨X !σ, Y !τ⟩ (-⟨X σ, Y τ⟩) ≤ 0) ∧
    addPoint [⟨X σ, Y τ⟩] ⟨X !σ, Y !τ⟩ =
      .ok ⟨false, (⟨X σ, Y τ⟩ - ⟨X !σ, Y !τ⟩ : V2 F32).crossAba (-⟨X !σ, Y !τ⟩), [⟨X !σ, Y !τ⟩, ⟨X σ, Y τ⟩]⟩ := by
  have a1 := h.x σ
  have a2 := h.x (!σ)
  have b1 := h.y τ
  have b2 := h.y (!τ)
  constructor
  · have p := a2.mul a1.neg (by norm_num) (by norm_num)
    have q := b2.mul b1.neg (by norm_num) (by norm_num)
    have p := p.cast (s' := true) (by cases σ <;> rfl)
    have q := q.cast (s' := true) (by cases τ <;> rfl)
    exact (p.add q (by norm_num) (by norm_num)).not_le_zero
  · have ax := a1.sub a2 (by norm_num) (by norm_num)
    have ay := b1.sub b2 (by norm_num) (by norm_num)
    have p := ax.mul a2.neg (by norm_num) (by norm_num)
    have q := ay.mul b2.neg (by norm_num) (by norm_num)
    have p := p.cast (s' := true) (by cases σ <;> rfl)
    have q := q.cast (s' := true) (by cases τ <;> rfl)
    exact if_pos (p.add q (by norm_num) (by norm_num)).zero_le

/-- the perpendicular direction: too small, or it leads to an off-diagonal corner, with positive fitness -/
theorem InsideRect.perp (h : InsideRect X Y) (hS : Corners S X Y) (σ τ : Bool) {d : V2 F32}
    (hd : d = (⟨X σ, Y τ⟩ - ⟨X !σ, Y !τ⟩ : V2 F32).crossAba (-⟨X !σ, Y !τ⟩))
    (hsm : ¬ directionTooSmall d) :
    ∃ ρ π, OffDiag σ τ ρ π ∧ S d = ⟨X ρ, Y π⟩ ∧ ¬ (V2.dot ⟨X ρ, Y π⟩ d ≤ 0) ∧
      ∃ κ, Sgd κ (-57) 63 ((⟨X σ, Y τ⟩ - ⟨X !σ, Y !τ⟩ : V2 F32).cross (-⟨X !σ, Y !τ⟩)) ∧
        ρ = ((!τ) == κ) ∧ π = (σ == κ) := by
  subst hd
  have a1 := h.x σ
  have a2 := h.x (!σ)
  have b1 := h.y τ
  have b2 := h.y (!τ)
  have ax := a1.sub a2 (by norm_num) (by norm_num)
  have ay := b1.sub b2 (by norm_num) (by norm_num)
  have ax : Sgd σ (-23) 31 (X σ - X !σ) := ax
  have ay : Sgd τ (-23) 31 (Y τ - Y !τ) := ay
  have cb : Bdd 62 ((X σ - X (!σ)) * -Y (!τ) - (Y τ - Y (!τ)) * -X (!σ)) :=
    (ax.bdd.mul b2.neg.bdd (by norm_num) (by norm_num)).sub
      (ay.bdd.mul a2.neg.bdd (by norm_num) (by norm_num)) (by norm_num) (by norm_num)
  obtain ⟨c, c1, c2⟩ := cb
  obtain ⟨κ, hκ⟩ := cross_sgd (a := ⟨X σ - X !σ, Y τ - Y !τ⟩) (b := ⟨-X !σ, -Y !τ⟩) ax.bdd ay.bdd c1
    (c2.trans (zpow_le_zpow (by norm_num))) hsm
  have dx := ay.neg.mul hκ (by norm_num) (by norm_num)
  have dy := ax.mul hκ (by norm_num) (by norm_num)
  set d : V2 F32 := (⟨X σ, Y τ⟩ - ⟨X !σ, Y !τ⟩ : V2 F32).crossAba (-⟨X !σ, Y !τ⟩) with hd
  have dx : Sgd ((!τ) == κ) (-80) 94 d.x := dx
  have dy : Sgd (σ == κ) (-80) 94 d.y := dy
  obtain ⟨x, hx⟩ := dx.finite
  obtain ⟨y, hy⟩ := dy.finite
  have hSd := hS d x y hx hy
  rw [dx.bit, dy.bit] at hSd
  refine ⟨_, _, ?_, hSd, ?_, κ, hκ, rfl, rfl⟩
  · unfold OffDiag; cases σ <;> cases τ <;> cases κ <;> simp
  · have p := (h.x ((!τ) == κ)).mul dx (by norm_num) (by norm_num)
    have q := (h.y (σ == κ)).mul dy (by norm_num) (by norm_num)
    have p : Sgd true (-103) 124 (X ((!τ) == κ) * d.x) := by
      cases τ <;> cases κ <;> exact p
    have q : Sgd true (-103) 124 (Y (σ == κ) * d.y) := by
      cases σ <;> cases κ <;> exact q
    exact (p.add q (by norm_num) (by norm_num)).not_le_zero

/-- third point: the triangle is accepted -/
theorem InsideRect.third (h : InsideRect X Y) {σ τ ρ π : Bool} (ho : OffDiag σ τ ρ π) :
    addPoint [⟨X !σ, Y !τ⟩, ⟨X σ, Y τ⟩] ⟨X ρ, Y π⟩ =
      .ok ⟨true, V2.nan, [⟨X ρ, Y π⟩, ⟨X !σ, Y !τ⟩, ⟨X σ, Y τ⟩]⟩ := by
  rcases ho with ⟨rfl, rfl⟩ | ⟨rfl, rfl⟩
  · -- the new corner shares x with the first and y with the second point
    have a1 := h.x ρ
    have a2 := h.x (!ρ)
    have b1 := h.y τ
    have b2 := h.y (!τ)
    obtain ⟨_, f1⟩ := a1.finite
    obtain ⟨_, f2⟩ := b2.finite
    have zab := sub_self' f2
    have zac := sub_self' f1
    have abx : Sgd (!ρ) (-23) 31 (X (!ρ) - X ρ) := a2.sub (by rw [Bool.not_not]; exact a1) (by norm_num) (by norm_num)
    have acy : Sgd τ (-23) 31 (Y τ - Y !τ) := b1.sub b2 (by norm_num) (by norm_num)
    have m := abx.mul acy (by norm_num) (by norm_num)
    have abc := m.sub_zero (zero_mul' zab zac)
    obtain ⟨_, fc⟩ := abc.finite
    have p1 : F32.Is ((Y (!τ) - Y (!τ)) * ((X (!ρ) - X ρ) * (Y τ - Y !τ) - (Y (!τ) - Y (!τ)) * (X ρ - X ρ)) * -X ρ) 0 :=
      zero_mul' (zero_mul' zab fc) (is_neg f1)
    have p2 := ((abx.neg.mul abc (by norm_num) (by norm_num)).mul b2.neg (by norm_num) (by norm_num)).zero_add p1
    have q1 : F32.Is (((X (!ρ) - X ρ) * (Y τ - Y !τ) - (Y (!τ) - Y (!τ)) * (X ρ - X ρ)) * (X ρ - X ρ) * -Y !τ) 0 :=
      zero_mul' (mul_zero' fc zac) (is_neg f2)
    have q2 := ((abc.neg.mul acy (by norm_num) (by norm_num)).mul a1.neg (by norm_num) (by norm_num)).add_zero q1
    have g1 : ¬ sameDirection ((⟨X (!ρ) - X ρ, Y (!τ) - Y !τ⟩ : V2 F32).crossF32
        ((⟨X (!ρ) - X ρ, Y (!τ) - Y !τ⟩ : V2 F32).cross ⟨X ρ - X ρ, Y τ - Y !τ⟩)) ⟨-X ρ, -Y !τ⟩ := by
      have := p2.cast (s' := false) (by cases ρ <;> cases τ <;> rfl)
      exact this.not_zero_le
    have g2 : ¬ sameDirection (crossSV ((⟨X (!ρ) - X ρ, Y (!τ) - Y !τ⟩ : V2 F32).cross ⟨X ρ - X ρ, Y τ - Y !τ⟩)
        ⟨X ρ - X ρ, Y τ - Y !τ⟩) ⟨-X ρ, -Y !τ⟩ := by
      have := q2.cast (s' := false) (by cases ρ <;> cases τ <;> rfl)
      exact this.not_zero_le
    exact (if_neg g1).trans (if_neg g2)
  · have a1 := h.x σ
    have a2 := h.x (!σ)
    have b1 := h.y π
    have b2 := h.y (!π)
    obtain ⟨_, f1⟩ := a2.finite
    obtain ⟨_, f2⟩ := b1.finite
    have zab := sub_self' f1
    have zac := sub_self' f2
    have aby : Sgd (!π) (-23) 31 (Y (!π) - Y π) := b2.sub (by rw [Bool.not_not]; exact b1) (by norm_num) (by norm_num)
    have acx : Sgd σ (-23) 31 (X σ - X !σ) := a1.sub a2 (by norm_num) (by norm_num)
    have m := aby.mul acx (by norm_num) (by norm_num)
    have abc := m.zero_sub (zero_mul' zab zac)
    obtain ⟨_, fc⟩ := abc.finite
    have p1 : F32.Is (-(X (!σ) - X !σ) * ((X (!σ) - X !σ) * (Y π - Y π) - (Y (!π) - Y π) * (X σ - X !σ)) * -Y π) 0 := by
      have zn := is_neg zab
      rw [neg_zero] at zn
      exact zero_mul' (zero_mul' zn fc) (is_neg f2)
    have p2 := ((aby.mul abc (by norm_num) (by norm_num)).mul a2.neg (by norm_num) (by norm_num)).add_zero p1
    have q1 : F32.Is (-((X (!σ) - X !σ) * (Y π - Y π) - (Y (!π) - Y π) * (X σ - X !σ)) * (Y π - Y π) * -X !σ) 0 :=
      zero_mul' (mul_zero' (is_neg fc) zac) (is_neg f1)
    have q2 := ((abc.mul acx (by norm_num) (by norm_num)).mul b1.neg (by norm_num) (by norm_num)).zero_add q1
    have g1 : ¬ sameDirection ((⟨X (!σ) - X !σ, Y (!π) - Y π⟩ : V2 F32).crossF32
        ((⟨X (!σ) - X !σ, Y (!π) - Y π⟩ : V2 F32).cross ⟨X σ - X !σ, Y π - Y π⟩)) ⟨-X !σ, -Y π⟩ := by
      have := p2.cast (s' := false) (by cases σ <;> cases π <;> rfl)
      exact this.not_zero_le
    have g2 : ¬ sameDirection (crossSV ((⟨X (!σ) - X !σ, Y (!π) - Y π⟩ : V2 F32).cross ⟨X σ - X !σ, Y π - Y π⟩)
        ⟨X σ - X !σ, Y π - Y π⟩) ⟨-X !σ, -Y π⟩ := by
      have := q2.cast (s' := false) (by cases σ <;> cases π <;> rfl)
      exact this.not_zero_le
    exact (if_neg g1).trans (if_neg g2)

/-- a usable first direction -/
def StartDir (d : V2 F32) : Prop :=
  ∃ x y, F32.Is d.x x ∧ F32.Is d.y y ∧ |x| ≤ (2 : ℝ) ^ (30 : ℤ) ∧ |y| ≤ (2 : ℝ) ^ (30 : ℤ) ∧
    ((2 : ℝ) ^ (-13 : ℤ) ≤ |x| ∨ (2 : ℝ) ^ (-13 : ℤ) ≤ |y|)

/-- first point: a corner with positive fitness -/
theorem InsideRect.first (h : InsideRect X Y) (hS : Corners S X Y) {d : V2 F32} (hd : StartDir d) :
    S d = ⟨X d.x.bit, Y d.y.bit⟩ ∧ ¬ (V2.dot ⟨X d.x.bit, Y d.y.bit⟩ d ≤ 0) := by
  obtain ⟨x, y, hx, hy, x1, y1, h0⟩ := hd
  refine ⟨hS d x y hx hy, ?_⟩
  have wx : ∃ w, F32.Is (X d.x.bit * d.x) w ∧ |w| ≤ (2 : ℝ) ^ (30 + 30 : ℤ) ∧ 0 ≤ w := by
    obtain ⟨m, m1, m2, m3⟩ := h.x d.x.bit
    have hm : 0 < m := lt_of_lt_of_le (two_zpow_pos _) m2
    obtain ⟨w, w1, w2, w3, _⟩ := mul_bdd (u := 30) (u' := 30) m1 hx
      (by rw [abs_mul, abs_sgn, one_mul, abs_of_pos hm]; exact m3) x1 (by norm_num) (by norm_num)
    refine ⟨w, w1, w2, w3 ?_⟩
    have := mul_nonneg hm.le (bit_value hx)
    linarith
  have wy : ∃ w, F32.Is (Y d.y.bit * d.y) w ∧ |w| ≤ (2 : ℝ) ^ (30 + 30 : ℤ) ∧ 0 ≤ w := by
    obtain ⟨m, m1, m2, m3⟩ := h.y d.y.bit
    have hm : 0 < m := lt_of_lt_of_le (two_zpow_pos _) m2
    obtain ⟨w, w1, w2, w3, _⟩ := mul_bdd (u := 30) (u' := 30) m1 hy
      (by rw [abs_mul, abs_sgn, one_mul, abs_of_pos hm]; exact m3) y1 (by norm_num) (by norm_num)
    refine ⟨w, w1, w2, w3 ?_⟩
    have := mul_nonneg hm.le (bit_value hy)
    linarith
  obtain ⟨wx, wx1, wx2, wx3⟩ := wx
  obtain ⟨wy, wy1, wy2, wy3⟩ := wy
  rcases h0 with h0 | h0
  · have p := ((h.x d.x.bit).mul (hx.sgd h0 x1) (by norm_num) (by norm_num)).cast (s' := true) (by simp)
    exact (p.add_weak wy1 (by rw [sgn_true, one_mul]; exact wy3) wy2 (by norm_num) (by norm_num)).not_le_zero
  · have p := ((h.y d.y.bit).mul (hy.sgd h0 y1) (by norm_num) (by norm_num)).cast (s' := true) (by simp)
    have := (p.add_weak wx1 (by rw [sgn_true, one_mul]; exact wx3) wx2 (by norm_num) (by norm_num)).not_le_zero
    rw [F32.add_comm'] at this
    exact this

theorem InsideRect.neg_ok (h : InsideRect X Y) (hS : Corners S X Y) (σ τ : Bool) :
    ¬ directionTooSmall (-⟨X σ, Y τ⟩ : V2 F32) ∧ S (-⟨X σ, Y τ⟩) = ⟨X !σ, Y !τ⟩ := by
  have a := (h.x σ).neg
  have b := (h.y τ).neg
  refine ⟨not_tooSmall_x (d := ⟨-X σ, -Y τ⟩) a b.bdd (by norm_num) (by norm_num) (by norm_num) (by norm_num), ?_⟩
  obtain ⟨_, f1⟩ := a.finite
  obtain ⟨_, f2⟩ := b.finite
  have := hS ⟨-X σ, -Y τ⟩ _ _ f1 f2
  rw [show (⟨-X σ, -Y τ⟩ : V2 F32).x.bit = !σ from a.bit, show (⟨-X σ, -Y τ⟩ : V2 F32).y.bit = !τ from b.bit] at this
  exact this

/-- the direction override also leads to an off-diagonal corner -/
theorem InsideRect.over (h : InsideRect X Y) (hS : Corners S X Y) (σ τ : Bool) :
    OffDiag σ τ τ (!σ) ∧ S (-⟨X σ, Y τ⟩ : V2 F32).perp = ⟨X τ, Y !σ⟩ ∧
      ¬ (V2.dot ⟨X τ, Y !σ⟩ (-⟨X σ, Y τ⟩ : V2 F32).perp ≤ 0) := by
  have a := (h.x σ).neg
  have b := (h.y τ).neg.neg
  rw [Bool.not_not] at b
  refine ⟨by unfold OffDiag; cases σ <;> cases τ <;> simp, ?_, ?_⟩
  · obtain ⟨_, f1⟩ := a.finite
    obtain ⟨_, f2⟩ := b.finite
    have := hS ⟨- -Y τ, -X σ⟩ _ _ f2 f1
    rw [show (⟨- -Y τ, -X σ⟩ : V2 F32).x.bit = τ from b.bit, show (⟨- -Y τ, -X σ⟩ : V2 F32).y.bit = !σ from a.bit] at this
    exact this
  · have p := ((h.x τ).mul b (by norm_num) (by norm_num)).cast (s' := true) (by cases τ <;> rfl)
    have q := ((h.y (!σ)).mul a (by norm_num) (by norm_num)).cast (s' := true) (by cases σ <;> rfl)
    exact (p.add q (by norm_num) (by norm_num)).not_le_zero

/-- `collides` on a rectangle that contains the origin with a margin -/
theorem InsideRect.collide (h : InsideRect X Y) (hS : Corners S X Y) {d : V2 F32} (hd : StartDir d) :
    sdfvMinkowski false false S d = .ok (true, V2.nan) := by
  obtain ⟨e1, n1⟩ := h.first hS hd
  generalize d.x.bit = σ at *
  generalize d.y.bit = τ at *
  obtain ⟨s2, e2⟩ := h.neg_ok hS σ τ
  obtain ⟨n2, p2⟩ := h.second σ τ
  show gjkCollide S 20 d [] = _
  rw [gjkCollide, e1]
  simp only [if_neg n1]
  rw [show addPoint [] (⟨X σ, Y τ⟩ : V2 F32) = .ok ⟨false, -⟨X σ, Y τ⟩, [⟨X σ, Y τ⟩]⟩ from rfl]
  simp only [Bool.false_eq_true, false_or, if_neg s2]
  rw [gjkCollide, e2]
  simp only [if_neg n2, p2]
  simp only [Bool.false_eq_true, false_or]
  by_cases s3 : directionTooSmall ((⟨X σ, Y τ⟩ - ⟨X !σ, Y !τ⟩ : V2 F32).crossAba (-⟨X !σ, Y !τ⟩))
  · rw [if_pos s3]
  · rw [if_neg s3]
    obtain ⟨ρ, π, ho, e3, n3, _⟩ := h.perp hS σ τ rfl s3
    rw [gjkCollide, e3]
    simp only [if_neg n3, h.third ho]
    simp

/-- the third point in the other three searches -/
theorem InsideRect.next (h : InsideRect X Y) (hS : Corners S X Y) (σ τ : Bool) :
    ∃ ρ π, OffDiag σ τ ρ π ∧
      S (overrideDir (-⟨X σ, Y τ⟩) ((⟨X σ, Y τ⟩ - ⟨X !σ, Y !τ⟩ : V2 F32).crossAba (-⟨X !σ, Y !τ⟩))) = ⟨X ρ, Y π⟩ ∧
      ¬ (V2.dot ⟨X ρ, Y π⟩ (overrideDir (-⟨X σ, Y τ⟩)
        ((⟨X σ, Y τ⟩ - ⟨X !σ, Y !τ⟩ : V2 F32).crossAba (-⟨X !σ, Y !τ⟩))) ≤ 0) ∧
      (directionTooSmall ((⟨X σ, Y τ⟩ - ⟨X !σ, Y !τ⟩ : V2 F32).crossAba (-⟨X !σ, Y !τ⟩)) ∨
        ∃ κ, Sgd κ (-57) 63 ((⟨X σ, Y τ⟩ - ⟨X !σ, Y !τ⟩ : V2 F32).cross (-⟨X !σ, Y !τ⟩)) ∧
          ρ = ((!τ) == κ) ∧ π = (σ == κ)) := by
  by_cases s3 : directionTooSmall ((⟨X σ, Y τ⟩ - ⟨X !σ, Y !τ⟩ : V2 F32).crossAba (-⟨X !σ, Y !τ⟩))
  · obtain ⟨ho, e, n⟩ := h.over hS σ τ
    refine ⟨_, _, ho, ?_, ?_, Or.inl s3⟩ <;> rw [overrideDir, if_pos s3] <;> assumption
  · obtain ⟨ρ, π, ho, e, n, hκ⟩ := h.perp hS σ τ rfl s3
    refine ⟨_, _, ho, ?_, ?_, Or.inr hκ⟩ <;> rw [overrideDir, if_neg s3] <;> assumption

/-- the answer once the triangle has been found -/
noncomputable def epaAnswer (S : V2 F32 → V2 F32) (pts : List (V2 F32)) : Except Panic (Bool × V2 F32) :=
  match enforceCcw pts with
  | .error e => .error e
  | .ok pts' => match epa S iterationLimit pts' with
    | .error e => .error e
    | .ok v => .ok (true, v)

/-- the other three queries on a rectangle that contains the origin with a margin -/
theorem InsideRect.queries (h : InsideRect X Y) (hS : Corners S X Y) {d : V2 F32} (hd : StartDir d) :
    sdfvMinkowski false true S d = .ok (true, V2.nan) ∧
    ∃ σ τ ρ π, OffDiag σ τ ρ π ∧
      sdfvMinkowski true false S d = epaAnswer S [⟨X ρ, Y π⟩, ⟨X !σ, Y !τ⟩, ⟨X σ, Y τ⟩] ∧
      sdfvMinkowski true true S d = epaAnswer S [⟨X ρ, Y π⟩, ⟨X !σ, Y !τ⟩, ⟨X σ, Y τ⟩] ∧
      (directionTooSmall ((⟨X σ, Y τ⟩ - ⟨X !σ, Y !τ⟩ : V2 F32).crossAba (-⟨X !σ, Y !τ⟩)) ∨
        ∃ κ, Sgd κ (-57) 63 ((⟨X σ, Y τ⟩ - ⟨X !σ, Y !τ⟩ : V2 F32).cross (-⟨X !σ, Y !τ⟩)) ∧
          ρ = ((!τ) == κ) ∧ π = (σ == κ)) := by
  obtain ⟨e1, n1⟩ := h.first hS hd
  generalize d.x.bit = σ at *
  generalize d.y.bit = τ at *
  obtain ⟨s2, e2⟩ := h.neg_ok hS σ τ
  obtain ⟨n2, p2⟩ := h.second σ τ
  obtain ⟨ρ, π, ho, e3, n3, hor⟩ := h.next hS σ τ
  have p3 := h.third ho
  have p1 : addPoint [] (⟨X σ, Y τ⟩ : V2 F32) = .ok ⟨false, -⟨X σ, Y τ⟩, [⟨X σ, Y τ⟩]⟩ := rfl
  have o2 : ∀ d : V2 F32, overrideDir d (-⟨X σ, Y τ⟩) = -⟨X σ, Y τ⟩ := fun d => if_neg s2
  have it : iterationLimit = 20 := rfl
  refine ⟨?_, σ, τ, ρ, π, ho, ?_, ?_, hor⟩
  · show (match addPoint [] (S d) with
      | .error e => (.error e : Except Panic (Bool × V2 F32))
      | .ok r => gjkDistance S iterationLimit r.dir (S d) r.pts) = _
    rw [e1, p1, it]
    show gjkDistance S 20 _ _ _ = _
    rw [gjkDistance, e2]
    simp only [n2, false_and, if_false, p2, Bool.false_eq_true]
    rw [gjkDistance, e3]
    simp only [n3, false_and, if_false, p3]
    rfl
  · show gjkPenetrate S 20 d [] = _
    rw [gjkPenetrate, e1]
    simp only [n1, if_false, p1, Bool.false_eq_true, o2]
    rw [gjkPenetrate, e2]
    simp only [n2, if_false, p2, Bool.false_eq_true]
    rw [gjkPenetrate, e3]
    simp only [n3, if_false, p3, if_true]
    unfold epaAnswer
    rcases enforceCcw [(⟨X ρ, Y π⟩ : V2 F32), ⟨X !σ, Y !τ⟩, ⟨X σ, Y τ⟩] with _ | pts'
    · rfl
    · dsimp only
      rcases epa S iterationLimit pts' with _ | v <;> rfl
  · show (match addPoint [] (S d) with
      | .error e => (.error e : Except Panic (Bool × V2 F32))
      | .ok r => gjkFull S iterationLimit true r.dir (S d) r.pts) = _
    rw [e1, p1, it]
    show gjkFull S 20 true _ _ _ = _
    rw [gjkFull, e2]
    simp only [n2, false_and, if_false, p2, Bool.false_eq_true]
    rw [gjkFull, e3]
    simp only [n3, false_and, if_false, p3, Bool.true_eq_false, and_false, if_true]
    unfold epaAnswer
    rcases enforceCcw [(⟨X ρ, Y π⟩ : V2 F32), ⟨X !σ, Y !τ⟩, ⟨X σ, Y τ⟩] with _ | pts'
    · rfl
    · dsimp only
      rcases epa S iterationLimit pts' with _ | v <;> rfl

end

end Auburn
