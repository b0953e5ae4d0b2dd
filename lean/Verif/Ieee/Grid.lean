import Verif.Ieee.Rep
import Verif.Ieee.Props
import Verif.Lib.GjkExact

/-!
# Exact binary32 computation on a dyadic grid (library lemmas)
-/

set_option linter.unusedSectionVars false

namespace Auburn

open F32

/-- `x` is an integer multiple of `2^k`, at most `B` units from zero -/
def GZ (k B : ℤ) (x : ℝ) : Prop := ∃ n : ℤ, x = n * (2 : ℝ) ^ k ∧ |n| ≤ B

theorem GZ.mono {k B C : ℤ} {x : ℝ} (h : GZ k B x) (hBC : B ≤ C) : GZ k C x := by
  obtain ⟨n, h1, h2⟩ := h
  exact ⟨n, h1, h2.trans hBC⟩
theorem GZ.nonneg {k B : ℤ} {x : ℝ} (h : GZ k B x) : 0 ≤ B := by
  obtain ⟨n, h1, h2⟩ := h
  exact (abs_nonneg n).trans h2
theorem GZ.rep {k B : ℤ} {x : ℝ} (h : GZ k B x) (hB : B ≤ 2 ^ 24) (h1 : -149 ≤ k) (h2 : k ≤ 103) :
    Representable x := by
  obtain ⟨n, rfl, hn⟩ := h
  exact representable_scaled n k (hn.trans hB) h1 h2
theorem GZ.zero (k : ℤ) {B : ℤ} (h : 0 ≤ B) : GZ k B 0 := ⟨0, by simp, by simpa using h⟩
theorem GZ.neg {k B : ℤ} {x : ℝ} (h : GZ k B x) : GZ k B (-x) := by
  obtain ⟨n, rfl, hn⟩ := h
  exact ⟨-n, by push_cast; ring, by rwa [abs_neg]⟩
theorem GZ.add {k B C : ℤ} {x y : ℝ} (h : GZ k B x) (h' : GZ k C y) : GZ k (B + C) (x + y) := by
  obtain ⟨n, rfl, hn⟩ := h
  obtain ⟨m, rfl, hm⟩ := h'
  exact ⟨n + m, by push_cast; ring, (abs_add_le n m).trans (add_le_add hn hm)⟩
theorem GZ.sub {k B C : ℤ} {x y : ℝ} (h : GZ k B x) (h' : GZ k C y) : GZ k (B + C) (x - y) := by
  rw [sub_eq_add_neg]; exact h.add h'.neg
theorem GZ.mul {k l B C : ℤ} {x y : ℝ} (h : GZ k B x) (h' : GZ l C y) :
    GZ (k + l) (B * C) (x * y) := by
  obtain ⟨n, rfl, hn⟩ := h
  obtain ⟨m, rfl, hm⟩ := h'
  refine ⟨n * m, ?_, ?_⟩
  · rw [zpow_add₀ (by norm_num)]; push_cast; ring
  · rw [abs_mul]; exact mul_le_mul hn hm (abs_nonneg m) ((abs_nonneg n).trans hn)
theorem GZ.abs_le {k B : ℤ} {x : ℝ} (h : GZ k B x) : |x| ≤ B * (2 : ℝ) ^ k := by
  obtain ⟨n, rfl, hn⟩ := h
  rw [abs_mul, abs_of_pos (two_zpow_pos k)]
  refine mul_le_mul_of_nonneg_right ?_ (two_zpow_pos k).le
  exact_mod_cast hn
theorem GZ.ge {k B : ℤ} {x : ℝ} (h : GZ k B x) (h0 : x ≠ 0) : (2 : ℝ) ^ k ≤ |x| := by
  obtain ⟨n, rfl, hn⟩ := h
  rw [abs_mul, abs_of_pos (two_zpow_pos k)]
  have hn0 : n ≠ 0 := by rintro rfl; simp at h0
  have : (1 : ℝ) ≤ |(n : ℝ)| := by exact_mod_cast Int.one_le_abs hn0
  have hp := two_zpow_pos k
  nlinarith

/-- both coordinates on the grid -/
def V2.GV (k B : ℤ) (v : V2 ℝ) : Prop := GZ k B v.x ∧ GZ k B v.y
/-- finite components with the values of `v` -/
def V2.Is (a : V2 F32) (v : V2 ℝ) : Prop := F32.Is a.x v.x ∧ F32.Is a.y v.y

open V2

theorem V2.GV.mono {k B C : ℤ} {v : V2 ℝ} (h : v.GV k B) (hBC : B ≤ C) : v.GV k C :=
  ⟨h.1.mono hBC, h.2.mono hBC⟩
theorem V2.GV.neg {k B : ℤ} {v : V2 ℝ} (h : v.GV k B) : (-v).GV k B := ⟨h.1.neg, h.2.neg⟩
theorem V2.GV.add {k B C : ℤ} {v w : V2 ℝ} (h : v.GV k B) (h' : w.GV k C) : (v + w).GV k (B + C) :=
  ⟨h.1.add h'.1, h.2.add h'.2⟩
theorem V2.GV.sub {k B C : ℤ} {v w : V2 ℝ} (h : v.GV k B) (h' : w.GV k C) : (v - w).GV k (B + C) :=
  ⟨h.1.sub h'.1, h.2.sub h'.2⟩
theorem V2.GV.perp {k B : ℤ} {v : V2 ℝ} (h : v.GV k B) : v.perp.GV k B := ⟨h.2.neg, h.1⟩

theorem V2.Is.neg {a : V2 F32} {v : V2 ℝ} (h : a.Is v) : (-a).Is (-v) :=
  ⟨is_neg h.1, is_neg h.2⟩
theorem V2.Is.perp {a : V2 F32} {v : V2 ℝ} (h : a.Is v) : a.perp.Is v.perp :=
  ⟨is_neg h.2, h.1⟩
theorem V2.Is.zero : (0 : V2 F32).Is 0 := ⟨is_zero, is_zero⟩

theorem V2.Is.add {a b : V2 F32} {v w : V2 ℝ} {k B : ℤ} (ha : a.Is v) (hb : b.Is w)
    (h : (v + w).GV k B) (hB : B ≤ 2 ^ 24) (h1 : -149 ≤ k) (h2 : k ≤ 103) : (a + b).Is (v + w) :=
  ⟨is_add ha.1 hb.1 (h.1.rep hB h1 h2), is_add ha.2 hb.2 (h.2.rep hB h1 h2)⟩
theorem V2.Is.sub {a b : V2 F32} {v w : V2 ℝ} {k B : ℤ} (ha : a.Is v) (hb : b.Is w)
    (h : (v - w).GV k B) (hB : B ≤ 2 ^ 24) (h1 : -149 ≤ k) (h2 : k ≤ 103) : (a - b).Is (v - w) :=
  ⟨is_sub ha.1 hb.1 (h.1.rep hB h1 h2), is_sub ha.2 hb.2 (h.2.rep hB h1 h2)⟩

theorem gv_dot {v w : V2 ℝ} {k l B C : ℤ} (hv : v.GV k B) (hw : w.GV l C) :
    GZ (k + l) (B * C + B * C) (v.dot w) := (hv.1.mul hw.1).add (hv.2.mul hw.2)

theorem is_dot {a b : V2 F32} {v w : V2 ℝ} {k l B C : ℤ} (ha : a.Is v) (hb : b.Is w)
    (hv : v.GV k B) (hw : w.GV l C) (hB : B * C + B * C ≤ 2 ^ 24) (h1 : -149 ≤ k + l)
    (h2 : k + l ≤ 103) : F32.Is (a.dot b) (v.dot w) := by
  have hn : 0 ≤ B * C := (hv.1.mul hw.1).nonneg
  have r1 := (hv.1.mul hw.1).rep (by linarith) h1 h2
  have r2 := (hv.2.mul hw.2).rep (by linarith) h1 h2
  exact is_add (is_mul ha.1 hb.1 r1) (is_mul ha.2 hb.2 r2) ((gv_dot hv hw).rep hB h1 h2)

theorem is_cross {a b : V2 F32} {v w : V2 ℝ} {k l B C : ℤ} (ha : a.Is v) (hb : b.Is w)
    (hv : v.GV k B) (hw : w.GV l C) (hB : B * C + B * C ≤ 2 ^ 24) (h1 : -149 ≤ k + l)
    (h2 : k + l ≤ 103) : F32.Is (a.cross b) (v.cross w) := by
  have hn : 0 ≤ B * C := (hv.1.mul hw.1).nonneg
  have r1 := (hv.1.mul hw.2).rep (by linarith) h1 h2
  have r2 := (hv.2.mul hw.1).rep (by linarith) h1 h2
  exact is_sub (is_mul ha.1 hb.2 r1) (is_mul ha.2 hb.1 r2)
    (((hv.1.mul hw.2).sub (hv.2.mul hw.1)).rep hB h1 h2)

theorem gz_cross {v w : V2 ℝ} {k l B C : ℤ} (hv : v.GV k B) (hw : w.GV l C) :
    GZ (k + l) (B * C + B * C) (v.cross w) := (hv.1.mul hw.2).sub (hv.2.mul hw.1)

/-- twice the area of a triangle in a square of side `2B` is at most `4B²` -/
theorem cross_int_le {B a1 a2 b1 b2 c1 c2 : ℤ} (ha1 : |a1| ≤ B) (ha2 : |a2| ≤ B) (hb1 : |b1| ≤ B)
    (hb2 : |b2| ≤ B) (hc1 : |c1| ≤ B) (hc2 : |c2| ≤ B) :
    |(b1 - a1) * (c2 - a2) - (b2 - a2) * (c1 - a1)| ≤ 4 * B ^ 2 := by
  have hB : 0 ≤ B := (abs_nonneg a1).trans ha1
  have e : (b1 - a1) * (c2 - a2) - (b2 - a2) * (c1 - a1) =
      a1 * (b2 - c2) + b1 * (c2 - a2) + c1 * (a2 - b2) := by ring
  have h3 : |b2 - c2| + |c2 - a2| + |a2 - b2| ≤ 4 * B := by
    rw [abs_le] at ha2 hb2 hc2
    rcases abs_cases (b2 - c2) with ⟨e1, _⟩ | ⟨e1, _⟩ <;>
      rcases abs_cases (c2 - a2) with ⟨e2, _⟩ | ⟨e2, _⟩ <;>
      rcases abs_cases (a2 - b2) with ⟨e3, _⟩ | ⟨e3, _⟩ <;> rw [e1, e2, e3] <;> omega
  rw [e]
  calc _ ≤ |a1 * (b2 - c2)| + |b1 * (c2 - a2)| + |c1 * (a2 - b2)| :=
        (abs_add_le _ _).trans (add_le_add (abs_add_le _ _) (le_refl _))
    _ = |a1| * |b2 - c2| + |b1| * |c2 - a2| + |c1| * |a2 - b2| := by simp only [abs_mul]
    _ ≤ B * |b2 - c2| + B * |c2 - a2| + B * |a2 - b2| :=
        add_le_add (add_le_add (mul_le_mul_of_nonneg_right ha1 (abs_nonneg _))
          (mul_le_mul_of_nonneg_right hb1 (abs_nonneg _)))
          (mul_le_mul_of_nonneg_right hc1 (abs_nonneg _))
    _ = B * (|b2 - c2| + |c2 - a2| + |a2 - b2|) := by ring
    _ ≤ B * (4 * B) := mul_le_mul_of_nonneg_left h3 hB
    _ = _ := by ring

theorem gz_triangle {a b c : V2 ℝ} {k B : ℤ} (ha : a.GV k B) (hb : b.GV k B) (hc : c.GV k B) :
    GZ (2 * k) (4 * B ^ 2) ((b - a).cross (c - a)) := by
  obtain ⟨⟨a1, ea1, ha1⟩, ⟨a2, ea2, ha2⟩⟩ := ha
  obtain ⟨⟨b1, eb1, hb1⟩, ⟨b2, eb2, hb2⟩⟩ := hb
  obtain ⟨⟨c1, ec1, hc1⟩, ⟨c2, ec2, hc2⟩⟩ := hc
  refine ⟨_, ?_, cross_int_le ha1 ha2 hb1 hb2 hc1 hc2⟩
  rw [cross_def, sub_x, sub_y, sub_x, sub_y, ea1, ea2, eb1, eb2, ec1, ec2, two_mul,
    zpow_add₀ (by norm_num)]
  push_cast
  ring

/-! ## directions -/

/-- directions for which dot products with grid points of size `B` are exact -/
def DirOk (B : ℤ) (d : V2 ℝ) : Prop :=
  ∃ j D : ℤ, d.GV j D ∧ 2 * (D * B) ≤ 2 ^ 24 ∧ -21 ≤ j ∧ j ≤ 36

theorem DirOk.neg {B : ℤ} {d : V2 ℝ} (h : DirOk B d) : DirOk B (-d) := by
  obtain ⟨j, D, h1, h2⟩ := h
  exact ⟨j, D, h1.neg, h2⟩
theorem DirOk.perp {B : ℤ} {d : V2 ℝ} (h : DirOk B d) : DirOk B d.perp := by
  obtain ⟨j, D, h1, h2⟩ := h
  exact ⟨j, D, h1.perp, h2⟩
theorem DirOk.mono {B C : ℤ} {d : V2 ℝ} (h : DirOk B d) (hBC : C ≤ B) : DirOk C d := by
  obtain ⟨j, D, h1, h2, h3⟩ := h
  have := mul_le_mul_of_nonneg_left hBC h1.1.nonneg
  exact ⟨j, D, h1, by linarith, h3⟩

theorem DirOk.dot {B k : ℤ} {d p : V2 ℝ} {d' p' : V2 F32} (h : DirOk B d) (hd : d'.Is d)
    (hp : p'.Is p) (hg : p.GV k B) (h1 : -8 ≤ k) (h2 : k ≤ 12) :
    F32.Is (d'.dot p') (d.dot p) ∧ F32.Is (p'.dot d') (p.dot d) := by
  obtain ⟨j, D, h3, h4, h5, h6⟩ := h
  constructor
  · exact is_dot hd hp h3 hg (by linarith) (by omega) (by omega)
  · exact is_dot hp hd hg h3 (by linarith) (by omega) (by omega)

/-! ## lower bounds on rounded sums of squares -/

/-- not a NaN, and at least `L` -/
def F32.Ge (a : F32) (L : ℝ) : Prop := a = .inf false ∨ ∃ x, F32.Is a x ∧ L ≤ x

theorem F32.ge_ofReal {z : Bool} {x L : ℝ} (hL : 0 ≤ L) (hr : Representable L) (hx : L ≤ x) :
    F32.Ge (ofReal z x) L := by
  have hx0 : 0 ≤ x := hL.trans hx
  rcases ofReal_cases z x with ⟨_, s, h, e, h1, h2⟩ | ⟨_, hne, e⟩
  · refine Or.inr ⟨_, ⟨s, _, _, e, rfl⟩, ?_⟩
    rw [abs_of_nonneg hx0]
    have hm : L ≤ rnd x := by
      rw [← rnd_of_representable hL hr]; exact rnd_mono hL hx
    by_cases h0 : x = 0
    · subst h0
      have : L = 0 := le_antisymm hx hL
      subst this
      rw [rnd_zero]; cases s <;> simp
    · have : s = false := by
        rw [h1 h0]; exact decide_eq_false (not_lt.2 hx0)
      rw [this]; exact hm
  · left
    rw [e]
    congr 1
    exact decide_eq_false (not_lt.2 hx0)

theorem F32.Ge.add {a b : F32} {L M : ℝ} (ha : F32.Ge a L) (hb : F32.Ge b M) (hL : 0 ≤ L)
    (hM : 0 ≤ M) (hr : Representable (L + M)) : F32.Ge (a + b) (L + M) := by
  rcases ha with rfl | ⟨x, hx, hLx⟩ <;> rcases hb with rfl | ⟨y, hy, hMy⟩
  · exact Or.inl rfl
  · obtain ⟨s, m, h, rfl, _⟩ := hy
    exact Or.inl rfl
  · obtain ⟨s, m, h, rfl, _⟩ := hx
    exact Or.inl rfl
  · obtain ⟨z, e⟩ := add_eq hx hy
    rw [e]
    exact ge_ofReal (add_nonneg hL hM) hr (add_le_add hLx hMy)

theorem F32.Ge.not_lt {a b : F32} {L y : ℝ} (ha : F32.Ge a L) (hb : F32.Is b y) (h : y ≤ L) :
    ¬ a < b := by
  rcases ha with rfl | ⟨x, hx, hLx⟩
  · obtain ⟨s, m, hm, rfl, _⟩ := hb
    intro h
    have : false = true := h
    cases this
  · rw [lt_iff hx hb]; linarith

theorem F32.ge_sq {a : F32} {x L : ℝ} (ha : F32.Is a x) (hL : 0 ≤ L) (hr : Representable L)
    (h : L ≤ x * x) : F32.Ge (a * a) L := by
  obtain ⟨z, e⟩ := mul_eq ha ha
  rw [e]; exact ge_ofReal hL hr h

theorem representable_pow (e : ℤ) (h1 : -149 ≤ e) (h2 : e ≤ 103) : Representable ((2 : ℝ) ^ e) := by
  have := representable_scaled 1 e (by norm_num) h1 h2
  simpa using this

variable [env : F32Env]

theorem is_epsilon : F32.Is (FloatExtra.epsilon : F32) (1 / 2 ^ 23) := by
  have := representable_pow (-23) (by norm_num) (by norm_num)
  refine is_ofReal ?_
  convert this using 1
  norm_num

theorem is_epsilon_sq : F32.Is (FloatExtra.epsilon * FloatExtra.epsilon : F32)
    (1 / 2 ^ 23 * (1 / 2 ^ 23)) := by
  refine is_mul is_epsilon is_epsilon ?_
  have := representable_pow (-46) (by norm_num) (by norm_num)
  convert this using 1
  norm_num

/-- the test for a vanishing direction: on the grid it detects exactly the zero direction -/
theorem tooSmall_iff {B : ℤ} {d : V2 ℝ} {d' : V2 F32} (h : DirOk B d) (hd : d'.Is d) :
    directionTooSmall d' ↔ d = 0 := by
  obtain ⟨j, D, hg, _, h5, h6⟩ := h
  have hsq : ∀ {a : F32} {x : ℝ}, F32.Is a x → GZ j D x → x ≠ 0 → F32.Ge (a * a) ((2 : ℝ) ^ (-42 : ℤ)) := by
    intro a x ha hx h0
    refine ge_sq ha (two_zpow_pos _).le (representable_pow _ (by norm_num) (by norm_num)) ?_
    have h1 := hx.ge h0
    have h2 : (2 : ℝ) ^ (-21 : ℤ) ≤ |x| := (zpow_le_zpow_right₀ (by norm_num) h5).trans h1
    have h3 := mul_le_mul h2 h2 (two_zpow_pos _).le (abs_nonneg x)
    rw [abs_mul_abs_self, ← zpow_add₀ (by norm_num)] at h3
    exact h3
  have hsq0 : ∀ {a : F32} {x : ℝ}, F32.Is a x → F32.Ge (a * a) 0 := by
    intro a x ha
    exact ge_sq ha (le_refl _) representable_zero (mul_self_nonneg x)
  have hbig : ((1 : ℝ) / 2 ^ 23 * (1 / 2 ^ 23)) ≤ (2 : ℝ) ^ (-42 : ℤ) := by norm_num
  have hr := representable_pow (-42) (by norm_num) (by norm_num)
  constructor
  · intro hs
    by_contra hne
    have hs' : d'.x * d'.x + d'.y * d'.y < FloatExtra.epsilon * FloatExtra.epsilon := hs
    by_cases hx : d.x = 0
    · have hy : d.y ≠ 0 := fun hy => hne (by ext <;> simp [hx, hy])
      have := (hsq0 hd.1).add (hsq hd.2 hg.2 hy) (le_refl _) (two_zpow_pos _).le (by rwa [zero_add])
      exact this.not_lt is_epsilon_sq (by rwa [zero_add]) hs'
    · have := (hsq hd.1 hg.1 hx).add (hsq0 hd.2) (two_zpow_pos _).le (le_refl _) (by rwa [add_zero])
      exact this.not_lt is_epsilon_sq (by rwa [add_zero]) hs'
  · rintro rfl
    show d'.x * d'.x + d'.y * d'.y < FloatExtra.epsilon * FloatExtra.epsilon
    have hx : F32.Is d'.x 0 := hd.1
    have hy : F32.Is d'.y 0 := hd.2
    have h0 : Representable (0 * 0 : ℝ) := by rw [zero_mul]; exact representable_zero
    have := is_add (is_mul hx hx h0) (is_mul hy hy h0) (by simpa using representable_zero)
    rw [lt_iff this is_epsilon_sq]
    norm_num

end Auburn
