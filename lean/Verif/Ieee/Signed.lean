import Verif.Ieee.Rounding

/-!
# Signs and magnitudes of binary32 results (library lemmas)

`Sgd s l u a`: `a` is positive (`s = true`) or negative, with magnitude between `2^l` and `2^u`.
Rounding is monotone and keeps powers of two, so these bounds propagate through the operations without
any error term.
-/

set_option linter.unusedSectionVars false

namespace Auburn

open F32 V2

/-- `1` or `-1` -/
def sgn (s : Bool) : ℝ := if s then 1 else -1

@[simp] theorem sgn_true : sgn true = 1 := rfl
@[simp] theorem sgn_false : sgn false = -1 := rfl
theorem sgn_not (s : Bool) : sgn (!s) = -sgn s := by cases s <;> simp
theorem sgn_mul (s t : Bool) : sgn s * sgn t = sgn (s == t) := by cases s <;> cases t <;> simp
theorem abs_sgn (s : Bool) : |sgn s| = 1 := by cases s <;> simp

namespace F32

/-- positive or negative, with magnitude between `2^l` and `2^u` -/
def Sgd (s : Bool) (l u : ℤ) (a : F32) : Prop :=
  ∃ m : ℝ, F32.Is a (sgn s * m) ∧ (2 : ℝ) ^ l ≤ m ∧ m ≤ (2 : ℝ) ^ u

/-- finite with magnitude at most `2^u` -/
def Bdd (u : ℤ) (a : F32) : Prop := ∃ x : ℝ, F32.Is a x ∧ |x| ≤ (2 : ℝ) ^ u

/-- sign bit is positive -/
def bit : F32 → Bool
  | nan => true
  | inf s => !s
  | fin s _ _ => !s

theorem representable_pow {e : ℤ} (h1 : -149 ≤ e) (h2 : e ≤ 127) : Representable ((2 : ℝ) ^ e) := by
  by_cases h : e ≤ 104
  · exact ⟨1, e, by simp, by norm_num, h1, h⟩
  · obtain ⟨k, hk⟩ := Int.eq_ofNat_of_zero_le (show 0 ≤ e - 104 by omega)
    refine ⟨2 ^ k, 104, ?_, ?_, by norm_num, by norm_num⟩
    · rw [show e = (k : ℤ) + 104 by omega, zpow_add₀ (by norm_num), zpow_natCast]; push_cast; rfl
    · rw [abs_of_pos (by positivity)]
      have : k < 24 := by omega
      exact pow_lt_pow_right₀ (by norm_num) this

theorem ofReal_sgd {z s : Bool} {x : ℝ} {l u : ℤ} (h1 : (2 : ℝ) ^ l ≤ x) (h2 : x ≤ (2 : ℝ) ^ u)
    (hl : -149 ≤ l) (hu : u ≤ 127) : Sgd s l u (ofReal z (sgn s * x)) := by
  have hx : 0 < x := lt_of_lt_of_le (two_zpow_pos l) h1
  have hlu : l ≤ u := (zpow_le_zpow_iff_right₀ (by norm_num : (1 : ℝ) < 2)).1 (h1.trans h2)
  have r1 : (2 : ℝ) ^ l ≤ rnd x := by
    have := rnd_mono (two_zpow_pos l).le h1
    rwa [rnd_of_representable (two_zpow_pos l).le (representable_pow hl (by omega))] at this
  have r2 : rnd x ≤ (2 : ℝ) ^ u := by
    have := rnd_mono hx.le h2
    rwa [rnd_of_representable (two_zpow_pos u).le (representable_pow (by omega) hu)] at this
  have hax : |sgn s * x| = x := by rw [abs_mul, abs_sgn, one_mul, abs_of_pos hx]
  have hne : sgn s * x ≠ 0 := by
    cases s <;> simp [hx.ne']
  rcases ofReal_cases z (sgn s * x) with ⟨_, b, h, e, hb, _⟩ | ⟨hbig, _, _⟩
  · have hb := hb hne
    refine ⟨rnd x, ⟨b, _, h, e, ?_⟩, r1, r2⟩
    rw [hax, hb]
    cases s
    · rw [decide_eq_true (by simp [hx]), sval_true, sgn_false]; ring
    · rw [decide_eq_false (by simp [hx.le]), sval_false, sgn_true]; ring
  · rw [hax] at hbig
    have : (2 : ℝ) ^ u ≤ (2 : ℝ) ^ (127 : ℤ) := zpow_le_zpow hu
    have h3 : (2 : ℝ) ^ (127 : ℤ) < (2 : ℝ) ^ (128 : ℤ) := by norm_num
    linarith

theorem Sgd.bdd {s : Bool} {l u : ℤ} {a : F32} (h : Sgd s l u a) : Bdd u a := by
  obtain ⟨m, h1, h2, h3⟩ := h
  refine ⟨_, h1, ?_⟩
  rw [abs_mul, abs_sgn, one_mul, abs_of_pos (lt_of_lt_of_le (two_zpow_pos l) h2)]
  exact h3

theorem Sgd.mono {s : Bool} {l u l' u' : ℤ} {a : F32} (h : Sgd s l u a) (hl : l' ≤ l) (hu : u ≤ u') :
    Sgd s l' u' a := by
  obtain ⟨m, h1, h2, h3⟩ := h
  exact ⟨m, h1, (zpow_le_zpow hl).trans h2, h3.trans (zpow_le_zpow hu)⟩

theorem Bdd.mono {u u' : ℤ} {a : F32} (h : Bdd u a) (hu : u ≤ u') : Bdd u' a := by
  obtain ⟨m, h1, h2⟩ := h
  exact ⟨m, h1, h2.trans (zpow_le_zpow hu)⟩

theorem Sgd.cast {s s' : Bool} {l u : ℤ} {a : F32} (h : Sgd s l u a) (e : s = s') : Sgd s' l u a := e ▸ h

theorem Sgd.finite {s : Bool} {l u : ℤ} {a : F32} (h : Sgd s l u a) : ∃ x, F32.Is a x :=
  ⟨_, h.choose_spec.1⟩

theorem Sgd.bit {s : Bool} {l u : ℤ} {a : F32} (h : Sgd s l u a) : a.bit = s := by
  obtain ⟨m, ⟨b, k, hk, rfl, e⟩, h2, _⟩ := h
  have hm : 0 < m := lt_of_lt_of_le (two_zpow_pos l) h2
  show (!b) = s
  have hk0 := hk.1
  cases s <;> cases b <;> simp at e ⊢ <;> linarith

theorem Sgd.pos {l u : ℤ} {a : F32} (h : Sgd true l u a) : ∃ x, F32.Is a x ∧ 0 < x := by
  obtain ⟨m, h1, h2, _⟩ := h
  exact ⟨_, h1, by rw [sgn_true, one_mul]; exact lt_of_lt_of_le (two_zpow_pos l) h2⟩

theorem Sgd.neg' {l u : ℤ} {a : F32} (h : Sgd false l u a) : ∃ x, F32.Is a x ∧ x < 0 := by
  obtain ⟨m, h1, h2, _⟩ := h
  exact ⟨_, h1, by rw [sgn_false]; linarith [lt_of_lt_of_le (two_zpow_pos l) h2]⟩

theorem Sgd.not_le_zero {l u : ℤ} {a : F32} (h : Sgd true l u a) : ¬ a ≤ 0 := by
  obtain ⟨x, h1, h2⟩ := h.pos
  rw [le_iff h1 is_zero]; exact not_le.2 h2

theorem Sgd.zero_le {l u : ℤ} {a : F32} (h : Sgd true l u a) : (0 : F32) ≤ a := by
  obtain ⟨x, h1, h2⟩ := h.pos
  rw [le_iff is_zero h1]; exact h2.le

theorem Sgd.le_zero {l u : ℤ} {a : F32} (h : Sgd false l u a) : a ≤ 0 := by
  obtain ⟨x, h1, h2⟩ := h.neg'
  rw [le_iff h1 is_zero]; exact h2.le

theorem Sgd.not_zero_le {l u : ℤ} {a : F32} (h : Sgd false l u a) : ¬ (0 : F32) ≤ a := by
  obtain ⟨x, h1, h2⟩ := h.neg'
  rw [le_iff is_zero h1]; exact not_le.2 h2

theorem Sgd.neg {s : Bool} {l u : ℤ} {a : F32} (h : Sgd s l u a) : Sgd (!s) l u (-a) := by
  obtain ⟨m, h1, h2, h3⟩ := h
  refine ⟨m, ?_, h2, h3⟩
  have := is_neg h1
  rwa [sgn_not, neg_mul]

theorem Bdd.neg {u : ℤ} {a : F32} (h : Bdd u a) : Bdd u (-a) := by
  obtain ⟨m, h1, h2⟩ := h
  exact ⟨_, is_neg h1, by rwa [abs_neg]⟩

theorem Sgd.mul {s t : Bool} {l u l' u' : ℤ} {a b : F32} (ha : Sgd s l u a) (hb : Sgd t l' u' b)
    (h1 : -149 ≤ l + l') (h2 : u + u' ≤ 127) : Sgd (s == t) (l + l') (u + u') (a * b) := by
  obtain ⟨m, a1, a2, a3⟩ := ha
  obtain ⟨n, b1, b2, b3⟩ := hb
  obtain ⟨z, e⟩ := mul_eq a1 b1
  rw [e, show sgn s * m * (sgn t * n) = sgn (s == t) * (m * n) by rw [← sgn_mul]; ring]
  have hm : 0 < m := lt_of_lt_of_le (two_zpow_pos l) a2
  have hn : 0 < n := lt_of_lt_of_le (two_zpow_pos l') b2
  refine ofReal_sgd ?_ ?_ h1 h2
  · rw [zpow_add₀ (by norm_num)]; exact mul_le_mul a2 b2 (two_zpow_pos _).le hm.le
  · rw [zpow_add₀ (by norm_num)]; exact mul_le_mul a3 b3 hn.le (two_zpow_pos _).le

theorem Sgd.add {s : Bool} {l u l' u' : ℤ} {a b : F32} (ha : Sgd s l u a) (hb : Sgd s l' u' b)
    (h1 : -149 ≤ l) (h2 : max u u' + 1 ≤ 127) : Sgd s l (max u u' + 1) (a + b) := by
  obtain ⟨m, a1, a2, a3⟩ := ha
  obtain ⟨n, b1, b2, b3⟩ := hb
  obtain ⟨z, e⟩ := add_eq a1 b1
  rw [e, ← mul_add]
  have hn : 0 < n := lt_of_lt_of_le (two_zpow_pos l') b2
  refine ofReal_sgd (by linarith) ?_ h1 h2
  have c1 := a3.trans (zpow_le_zpow (le_max_left u u'))
  have c2 := b3.trans (zpow_le_zpow (le_max_right u u'))
  rw [zpow_add₀ (by norm_num)]
  linarith

theorem Sgd.sub {s : Bool} {l u l' u' : ℤ} {a b : F32} (ha : Sgd s l u a) (hb : Sgd (!s) l' u' b)
    (h1 : -149 ≤ l) (h2 : max u u' + 1 ≤ 127) : Sgd s l (max u u' + 1) (a - b) := by
  have := hb.neg
  rw [Bool.not_not] at this
  exact ha.add this h1 h2

/-- adding a number whose value has the same sign or is zero -/
theorem Sgd.add_weak {s : Bool} {l u u' : ℤ} {a b : F32} (ha : Sgd s l u a) {y : ℝ}
    (hb : F32.Is b y) (hy : 0 ≤ sgn s * y) (hy' : |y| ≤ (2 : ℝ) ^ u')
    (h1 : -149 ≤ l) (h2 : max u u' + 1 ≤ 127) : Sgd s l (max u u' + 1) (a + b) := by
  obtain ⟨m, a1, a2, a3⟩ := ha
  obtain ⟨z, e⟩ := add_eq a1 hb
  have hy2 : y = sgn s * (sgn s * y) := by rw [← mul_assoc, sgn_mul]; simp
  have hb2 : sgn s * y ≤ (2 : ℝ) ^ u' := by
    refine (le_abs_self _).trans ?_
    rwa [abs_mul, abs_sgn, one_mul]
  rw [e, hy2, ← mul_add]
  refine ofReal_sgd (by linarith) ?_ h1 h2
  have c1 := a3.trans (zpow_le_zpow (le_max_left u u'))
  have c2 := hb2.trans (zpow_le_zpow (le_max_right u u'))
  rw [zpow_add₀ (by norm_num)]
  linarith

theorem add_comm' (a b : F32) : a + b = b + a := by
  show F32.add a b = F32.add b a
  cases a <;> cases b <;> simp [F32.add, Bool.and_comm, add_comm]
  · rename_i s t
    by_cases h : s = t
    · subst h; simp
    · rw [if_neg h, if_neg (Ne.symm h)]

theorem Sgd.add_zero {s : Bool} {l u : ℤ} {a b : F32} (ha : Sgd s l u a) (hb : F32.Is b 0) :
    Sgd s l u (a + b) := by
  obtain ⟨m, a1, a2, a3⟩ := ha
  refine ⟨m, ?_, a2, a3⟩
  have := is_add a1 hb (by rw [_root_.add_zero]; exact a1.representable)
  rwa [_root_.add_zero] at this

theorem Sgd.zero_add {s : Bool} {l u : ℤ} {a b : F32} (ha : Sgd s l u a) (hb : F32.Is b 0) :
    Sgd s l u (b + a) := by rw [add_comm']; exact ha.add_zero hb

theorem Sgd.sub_zero {s : Bool} {l u : ℤ} {a b : F32} (ha : Sgd s l u a) (hb : F32.Is b 0) :
    Sgd s l u (a - b) := by
  have := is_neg hb
  rw [neg_zero] at this
  exact ha.add_zero this

theorem Sgd.zero_sub {s : Bool} {l u : ℤ} {a b : F32} (ha : Sgd s l u a) (hb : F32.Is b 0) :
    Sgd (!s) l u (b - a) := ha.neg.zero_add hb

theorem zero_mul' {a b : F32} {y : ℝ} (ha : F32.Is a 0) (hb : F32.Is b y) : F32.Is (a * b) 0 := by
  have := is_mul ha hb (by rw [zero_mul]; exact representable_zero)
  rwa [zero_mul] at this

theorem mul_zero' {a b : F32} {y : ℝ} (ha : F32.Is a y) (hb : F32.Is b 0) : F32.Is (a * b) 0 := by
  have := is_mul ha hb (by rw [mul_zero]; exact representable_zero)
  rwa [mul_zero] at this

theorem sub_self' {a : F32} {x : ℝ} (ha : F32.Is a x) : F32.Is (a - a) 0 := by
  have := is_sub ha ha (by rw [sub_self]; exact representable_zero)
  rwa [sub_self] at this

theorem add_zero_zero {a b : F32} (ha : F32.Is a 0) (hb : F32.Is b 0) : F32.Is (a + b) 0 := by
  have := is_add ha hb (by rw [_root_.add_zero]; exact representable_zero)
  rwa [_root_.add_zero] at this

theorem ofReal_bdd {z : Bool} {x : ℝ} {u : ℤ} (h : |x| ≤ (2 : ℝ) ^ u) (h1 : -149 ≤ u) (h2 : u ≤ 127) :
    ∃ w, F32.Is (ofReal z x) w ∧ |w| ≤ (2 : ℝ) ^ u ∧ (0 ≤ x → 0 ≤ w) ∧ (x ≤ 0 → w ≤ 0) := by
  have r : rnd |x| ≤ (2 : ℝ) ^ u := by
    have := rnd_mono (abs_nonneg x) h
    rwa [rnd_of_representable (two_zpow_pos u).le (representable_pow h1 h2)] at this
  have r0 := rnd_nonneg (abs_nonneg x)
  rcases ofReal_cases z x with ⟨_, b, hb, e, e1, e2⟩ | ⟨hbig, _, _⟩
  · refine ⟨_, ⟨b, _, hb, e, rfl⟩, by rwa [abs_sval _ r0], ?_, ?_⟩
    · intro hx
      by_cases h0 : x = 0
      · rw [h0, abs_zero, rnd_zero]; cases b <;> simp
      · rw [e1 h0, decide_eq_false (not_lt.2 hx), sval_false]; exact r0
    · intro hx
      by_cases h0 : x = 0
      · rw [h0, abs_zero, rnd_zero]; cases b <;> simp
      · rw [e1 h0, decide_eq_true (lt_of_le_of_ne hx h0), sval_true]; linarith
  · have : (2 : ℝ) ^ u ≤ (2 : ℝ) ^ (127 : ℤ) := zpow_le_zpow h2
    have h3 : (2 : ℝ) ^ (127 : ℤ) < (2 : ℝ) ^ (128 : ℤ) := by norm_num
    linarith

/-- a product: bounded, and of the right weak sign -/
theorem mul_bdd {a b : F32} {x y : ℝ} {u u' : ℤ} (ha : F32.Is a x) (hb : F32.Is b y)
    (hx : |x| ≤ (2 : ℝ) ^ u) (hy : |y| ≤ (2 : ℝ) ^ u') (h1 : -149 ≤ u + u') (h2 : u + u' ≤ 127) :
    ∃ w, F32.Is (a * b) w ∧ |w| ≤ (2 : ℝ) ^ (u + u') ∧ (0 ≤ x * y → 0 ≤ w) ∧ (x * y ≤ 0 → w ≤ 0) := by
  obtain ⟨z, e⟩ := mul_eq ha hb
  rw [e]
  refine ofReal_bdd ?_ h1 h2
  rw [abs_mul, zpow_add₀ (by norm_num)]
  exact mul_le_mul hx hy (abs_nonneg _) (two_zpow_pos _).le

theorem Bdd.mul {u u' : ℤ} {a b : F32} (ha : Bdd u a) (hb : Bdd u' b) (h1 : -149 ≤ u + u')
    (h2 : u + u' ≤ 127) : Bdd (u + u') (a * b) := by
  obtain ⟨x, a1, a2⟩ := ha
  obtain ⟨y, b1, b2⟩ := hb
  obtain ⟨w, w1, w2, _⟩ := mul_bdd a1 b1 a2 b2 h1 h2
  exact ⟨w, w1, w2⟩

theorem Bdd.add {u u' : ℤ} {a b : F32} (ha : Bdd u a) (hb : Bdd u' b) (h1 : -149 ≤ max u u' + 1)
    (h2 : max u u' + 1 ≤ 127) : Bdd (max u u' + 1) (a + b) := by
  obtain ⟨x, a1, a2⟩ := ha
  obtain ⟨y, b1, b2⟩ := hb
  obtain ⟨z, e⟩ := add_eq a1 b1
  rw [e]
  obtain ⟨w, w1, w2, _⟩ := ofReal_bdd (z := z) (x := x + y) (u := max u u' + 1) (by
    refine (abs_add_le _ _).trans ?_
    have c1 := a2.trans (zpow_le_zpow (le_max_left u u'))
    have c2 := b2.trans (zpow_le_zpow (le_max_right u u'))
    rw [zpow_add₀ (by norm_num)]
    linarith) h1 h2
  exact ⟨w, w1, w2⟩

theorem Bdd.sub {u u' : ℤ} {a b : F32} (ha : Bdd u a) (hb : Bdd u' b) (h1 : -149 ≤ max u u' + 1)
    (h2 : max u u' + 1 ≤ 127) : Bdd (max u u' + 1) (a - b) := ha.add hb.neg h1 h2

theorem Is.sgd {a : F32} {x : ℝ} {l u : ℤ} (h : F32.Is a x) (h1 : (2 : ℝ) ^ l ≤ |x|)
    (h2 : |x| ≤ (2 : ℝ) ^ u) : Sgd a.bit l u a := by
  obtain ⟨s, m, hm, rfl, rfl⟩ := h
  rw [abs_sval _ hm.1] at h1 h2
  refine ⟨m, ⟨s, m, hm, rfl, ?_⟩, h1, h2⟩
  show sval s m = sgn (!s) * m
  cases s <;> simp

/-- sign bit and value agree -/
theorem bit_value {a : F32} {x : ℝ} (h : F32.Is a x) : 0 ≤ sgn a.bit * x := by
  obtain ⟨s, m, hm, rfl, rfl⟩ := h
  show 0 ≤ sgn (!s) * sval s m
  cases s <;> simp [hm.1]

theorem bit_neg {a : F32} {x : ℝ} (h : F32.Is a x) : (-a).bit = !a.bit := by
  obtain ⟨s, m, hm, rfl, rfl⟩ := h
  rfl

end F32

end Auburn
