import Verif.Ieee.Gjk
import Verif.Lib.GjkNear

/-!
# The distance searches on binary32, on a dyadic grid (library lemmas)

The run on binary32 is followed by ghost values in exact reals, as in `Ieee/Gjk.lean`.  Every
decision agrees; only the vector returned at the end is rounded.
-/

set_option linter.unusedSectionVars false
set_option synthInstance.maxSize 1000

namespace Auburn

open F32 V2

/-! ## rounding errors -/

/-- a rounded number of magnitude at most `2^m` -/
theorem ofReal_near {z : Bool} {x : ℝ} {m : ℤ} (h1 : -126 ≤ m) (h2 : m ≤ 127)
    (hx : |x| ≤ (2 : ℝ) ^ m) : ∃ y, F32.Is (ofReal z x) y ∧ |y - x| ≤ (2 : ℝ) ^ (m - 24) := by
  by_cases h0 : x = 0
  · subst h0
    exact ⟨0, is_ofReal representable_zero, by
      rw [sub_zero, abs_zero]; exact (two_zpow_pos _).le⟩
  have hpos : 0 < |x| := abs_pos.2 h0
  have hu : ulpExp |x| ≤ m - 23 := by
    have := ulpExp_mono hpos hx
    refine this.trans ?_
    unfold ulpExp
    have e : Int.log 2 ((2 : ℝ) ^ m) = m := by
      have := Int.log_zpow (R := ℝ) (b := 2) (by norm_num) m
      exact_mod_cast this
    rw [e]
    omega
  have herr : |rnd (|x|) - (|x|)| ≤ (2 : ℝ) ^ (m - 24) := by
    refine (abs_rnd_sub_le _).trans ?_
    calc 1 / 2 * (2 : ℝ) ^ ulpExp |x| ≤ 1 / 2 * (2 : ℝ) ^ (m - 23) :=
          mul_le_mul_of_nonneg_left (zpow_le_zpow hu) (by norm_num)
      _ = (2 : ℝ) ^ (m - 24) := by
          rw [show m - 23 = m - 24 + 1 by ring, zpow_add₀ (by norm_num)]; norm_num; ring
  rcases ofReal_cases z x with ⟨_, s, h, e, hs, _⟩ | ⟨hbig, _, _⟩
  · refine ⟨_, ⟨s, _, _, e, rfl⟩, ?_⟩
    rw [hs h0]
    by_cases hx0 : x < 0
    · rw [decide_eq_true hx0, sval_true]
      rw [abs_of_neg hx0] at herr ⊢
      rw [show -rnd (-x) - x = -(rnd (-x) - -x) by ring, abs_neg]
      exact herr
    · rw [decide_eq_false hx0, sval_false]
      rw [abs_of_nonneg (not_lt.1 hx0)] at herr ⊢
      exact herr
  · exfalso
    have h3 := (abs_le.1 herr).2
    have h4 : (2 : ℝ) ^ m ≤ 2 ^ (127 : ℤ) := zpow_le_zpow h2
    have h5 : (2 : ℝ) ^ (m - 24) ≤ 2 ^ (103 : ℤ) := zpow_le_zpow (by omega)
    have h6 : (2 : ℝ) ^ (127 : ℤ) + 2 ^ (103 : ℤ) < 2 ^ (128 : ℤ) := by norm_num
    linarith

theorem mul_near {a b : F32} {x y : ℝ} {m : ℤ} (ha : F32.Is a x) (hb : F32.Is b y) (h1 : -126 ≤ m)
    (h2 : m ≤ 127) (h : |x * y| ≤ (2 : ℝ) ^ m) :
    ∃ z, F32.Is (a * b) z ∧ |z - x * y| ≤ (2 : ℝ) ^ (m - 24) := by
  obtain ⟨s, e⟩ := mul_eq ha hb
  rw [e]; exact ofReal_near h1 h2 h
theorem sub_near {a b : F32} {x y : ℝ} {m : ℤ} (ha : F32.Is a x) (hb : F32.Is b y) (h1 : -126 ≤ m)
    (h2 : m ≤ 127) (h : |x - y| ≤ (2 : ℝ) ^ m) :
    ∃ z, F32.Is (a - b) z ∧ |z - (x - y)| ≤ (2 : ℝ) ^ (m - 24) := by
  obtain ⟨s, e⟩ := sub_eq ha hb
  rw [e]; exact ofReal_near h1 h2 h

/-- comparisons survive rounding when the other side is representable -/
theorem le_ofReal_of_le {z : Bool} {x y : ℝ} (hy : 0 ≤ y) (hr : Representable y)
    (h : y ≤ x) {w : ℝ} (hw : F32.Is (ofReal z x) w) : y ≤ w := by
  obtain ⟨v, hv⟩ : ∃ v, F32.Is (ofReal z x) v ∧ y ≤ v := by
    rcases F32.ge_ofReal (z := z) hy hr h with e | h
    · rw [e] at hw
      obtain ⟨_, _, _, e', _⟩ := hw
      cases e'
    · exact h
  rw [hw.unique hv.1]; exact hv.2

theorem ofReal_le {z : Bool} {x y : ℝ} (hx : 0 ≤ x) (hr : Representable y)
    (h : x ≤ y) {w : ℝ} (hw : F32.Is (ofReal z x) w) : w ≤ y := by
  rcases ofReal_cases z x with ⟨_, s, hh, e, h1, h2⟩ | ⟨_, _, e⟩
  · rw [e] at hw
    have : w = sval s (rnd |x|) := hw.unique ⟨s, _, hh, rfl, rfl⟩
    rw [this, abs_of_nonneg hx]
    have hm : rnd x ≤ y := by
      rw [← rnd_of_representable (hx.trans h) hr]; exact rnd_mono hx h
    have h0 := rnd_nonneg hx
    cases s
    · exact hm
    · rw [sval_true]; linarith
  · rw [e] at hw
    obtain ⟨_, _, _, e', _⟩ := hw
    cases e'

/-- the two vectors differ by at most `e` in each coordinate -/
def V2.Within (e : ℝ) (v w : V2 ℝ) : Prop := |v.x - w.x| ≤ e ∧ |v.y - w.y| ≤ e

section
variable [env : F32Env] [FloatExtra ℝ] [ExactFloat ℝ]
variable {k : ℤ}

/-- the closest point of a simplex, computed in binary32: the exact one up to `2^-16` grid units -/
theorem distanceToOrigin_f32 (hk1 : -7 ≤ k) (hk2 : k ≤ 12) {pts' : List (V2 F32)}
    {pts : List (V2 ℝ)} (hl : IsL pts' pts) (hg : ∀ p ∈ pts, p.GV k 32)
    (hpts : (∃ a, pts = [a]) ∨ ∃ a b, pts = [a, b] ∧ a ≠ b) :
    ∃ v' v w, distanceToOrigin pts' = .ok v' ∧ v'.Is v ∧ distanceToOrigin pts = .ok w ∧
      V2.Within ((2 : ℝ) ^ (k - 16)) v w := by
  rcases hpts with ⟨a, rfl⟩ | ⟨a, b, rfl, hne⟩
  · obtain ⟨a', _, ha, hn, rfl⟩ := List.forall₂_cons_right_iff.1 hl
    obtain rfl := List.forall₂_nil_right_iff.1 hn
    refine ⟨-a', -a, -a, rfl, ha.neg, rfl, ?_, ?_⟩ <;> rw [sub_self, abs_zero] <;>
      exact (two_zpow_pos _).le
  obtain ⟨a', _, ha, hn, rfl⟩ := List.forall₂_cons_right_iff.1 hl
  obtain ⟨b', _, hb, hn2, rfl⟩ := List.forall₂_cons_right_iff.1 hn
  obtain rfl := List.forall₂_nil_right_iff.1 hn2
  have hga := hg a (by simp)
  have hgb := hg b (by simp)
  have gab := hgb.sub hga
  have hab : (b' - a').Is (b - a) := hb.sub ha gab (by norm_num) (by omega) (by omega)
  have hao := ha.neg
  have hnum : F32.Is ((-a').dot (b' - a')) ((-a).dot (b - a)) :=
    is_dot hao hab hga.neg gab (by norm_num) (by omega) (by omega)
  have hden : F32.Is ((b' - a').dot (b' - a')) ((b - a).dot (b - a)) :=
    is_dot hab hab gab gab (by norm_num) (by omega) (by omega)
  have hd0 : 0 < (b - a).dot (b - a) := lengthSq_pos.2 (sub_ne_zero.2 hne.symm)
  obtain ⟨z, et⟩ := div_eq hnum hden hd0.ne'
  have gnum := gv_dot hga.neg gab
  have gden := gv_dot gab gab
  have zero : V2.Within ((2 : ℝ) ^ (k - 16)) (-a) (-a) ∧ V2.Within ((2 : ℝ) ^ (k - 16)) (-b) (-b) := by
    refine ⟨⟨?_, ?_⟩, ⟨?_, ?_⟩⟩ <;> rw [sub_self, abs_zero] <;> exact (two_zpow_pos _).le
  have hp := two_zpow_pos (k + k)
  -- quotient bounds
  have hden_le : (b - a).dot (b - a) ≤ 2 ^ 13 * (2 : ℝ) ^ (k + k) := by
    have := (abs_le.1 gden.abs_le).2
    norm_num at this ⊢
    exact this
  simp only [distanceToOrigin]
  set num := (-a).dot (b - a) with hnumdef
  set den := (b - a).dot (b - a) with hdendef
  rw [et]
  by_cases h1 : num / den ≤ 0
  · -- before the first end
    have hz : ofReal z (num / den) ≤ 0 := by
      rcases h1.eq_or_lt with h | h
      · rw [h]
        exact (le_iff (is_ofReal representable_zero) is_zero).2 le_rfl
      · rcases ofReal_cases z (num / den) with ⟨_, s, hh, e, hs, _⟩ | ⟨_, _, e⟩
        · rw [e, hs h.ne, decide_eq_true h]
          refine (le_iff ⟨_, _, hh, rfl, rfl⟩ is_zero).2 ?_
          rw [sval_true]
          linarith [rnd_nonneg (abs_nonneg (num / den))]
        · rw [e, decide_eq_true h]
          obtain ⟨s0, m0, h0, e0, _⟩ := is_zero
          rw [e0]
          exact Or.inl rfl
    rw [if_pos h1, if_pos hz]
    exact ⟨_, _, _, rfl, hao, rfl, zero.1⟩
  · have hq0 : 0 < num / den := not_le.1 h1
    have hn0 : 0 < num := by
      by_contra hn
      exact h1 (div_nonpos_of_nonpos_of_nonneg (not_lt.1 hn) hd0.le)
    have hlow : (2 : ℝ) ^ (-13 : ℤ) ≤ num / den := by
      rw [le_div_iff₀ hd0]
      have h3 := gnum.ge hn0.ne'
      rw [abs_of_pos hn0] at h3
      calc (2 : ℝ) ^ (-13 : ℤ) * den ≤ (2 : ℝ) ^ (-13 : ℤ) * (2 ^ 13 * (2 : ℝ) ^ (k + k)) :=
            mul_le_mul_of_nonneg_left hden_le (two_zpow_pos _).le
        _ = (2 : ℝ) ^ (k + k) := by norm_num; ring
        _ ≤ num := h3
    have hup : num / den ≤ 2 ^ 12 * 2 := by
      have h3 := (abs_le.1 gnum.abs_le).2
      have h4 := gden.ge hd0.ne'
      rw [abs_of_pos hd0] at h4
      rw [div_le_iff₀ hd0]
      calc num ≤ 2 ^ 12 * (2 : ℝ) ^ (k + k) := by
            norm_num at h3 ⊢
            exact h3
        _ ≤ 2 ^ 12 * 2 * den := by nlinarith
    obtain ⟨t, ht, hte⟩ := ofReal_near (z := z) (x := num / den) (m := 13) (by norm_num) (by norm_num)
      (by rw [abs_of_pos hq0]; refine hup.trans ?_; norm_num)
    have ht0 : (2 : ℝ) ^ (-13 : ℤ) ≤ t := le_ofReal_of_le (two_zpow_pos _).le
      (representable_pow _ (by norm_num) (by norm_num)) hlow ht
    have hz : ¬ ofReal z (num / den) ≤ 0 := by
      rw [le_iff ht is_zero]
      have := two_zpow_pos (-13)
      linarith
    rw [if_neg h1, if_neg hz]
    by_cases h2 : num / den ≥ 1
    · have ht1 : (1 : ℝ) ≤ t := le_ofReal_of_le zero_le_one
        (by simpa using representable_int 1 (by norm_num)) h2 ht
      rw [if_pos h2, if_pos ((le_iff is_one ht).2 ht1)]
      exact ⟨_, _, _, rfl, hb.neg, rfl, zero.2⟩
    · have h2' := not_le.1 h2
      have hlt : num < den := by rwa [div_lt_one hd0] at h2'
      have hle1 : num / den ≤ ((2 ^ 13 - 1 : ℤ) : ℝ) * 2 ^ (-13 : ℤ) := by
        have h3 := (gden.sub gnum).ge (sub_ne_zero.2 hlt.ne')
        rw [abs_of_pos (sub_pos.2 hlt)] at h3
        rw [div_le_iff₀ hd0]
        have h4 : (2 : ℝ) ^ (-13 : ℤ) * den ≤ (2 : ℝ) ^ (k + k) := by
          calc (2 : ℝ) ^ (-13 : ℤ) * den ≤ (2 : ℝ) ^ (-13 : ℤ) * (2 ^ 13 * (2 : ℝ) ^ (k + k)) :=
                mul_le_mul_of_nonneg_left hden_le (two_zpow_pos _).le
            _ = (2 : ℝ) ^ (k + k) := by norm_num; ring
        norm_num at h4 ⊢
        linarith
      have ht1 : t ≤ ((2 ^ 13 - 1 : ℤ) : ℝ) * 2 ^ (-13 : ℤ) := ofReal_le hq0.le
        (representable_scaled _ _ (by norm_num) (by norm_num) (by norm_num)) hle1 ht
      have ht1' : t < 1 := ht1.trans_lt (by norm_num)
      rw [if_neg h2, if_neg (by
        show ¬ (1 : F32) ≤ _
        rw [le_iff is_one ht]; exact not_le.2 ht1')]
      -- the error of the quotient
      obtain ⟨t2, ht2, hte2⟩ := ofReal_near (z := z) (x := num / den) (m := 0) (by norm_num)
        (by norm_num) (by rw [abs_of_pos hq0, zpow_zero]; exact h2'.le)
      rw [← ht.unique ht2] at hte2
      have htpos : 0 < t := (two_zpow_pos _).trans_le ht0
      -- one coordinate
      have coord : ∀ {p q : F32} {x y : ℝ}, F32.Is p x → F32.Is q y → GZ k 32 x → GZ k 64 y →
          ∃ r, F32.Is (p - ofReal z (num / den) * q) r ∧
            |r - (x - num / den * y)| ≤ (2 : ℝ) ^ (k - 16) := by
        intro p q x y hp hq gx gy
        have hpk := two_zpow_pos k
        have bx : |x| ≤ 2 ^ 5 * (2 : ℝ) ^ k := by
          have := gx.abs_le; norm_num at this ⊢; exact this
        have bY : |y| ≤ 2 ^ 6 * (2 : ℝ) ^ k := by
          have := gy.abs_le; norm_num at this ⊢; exact this
        have e6 : (2 : ℝ) ^ (k + 6) = 2 ^ 6 * (2 : ℝ) ^ k := by
          rw [zpow_add₀ (by norm_num)]; norm_num; ring
        have e7 : (2 : ℝ) ^ (k + 7) = 2 ^ 7 * (2 : ℝ) ^ k := by
          rw [zpow_add₀ (by norm_num)]; norm_num; ring
        have e18 : (2 : ℝ) ^ (k + 6 - 24) = (2 : ℝ) ^ (-18 : ℤ) * (2 : ℝ) ^ k := by
          rw [← zpow_add₀ (by norm_num)]; congr 1; ring
        have e17 : (2 : ℝ) ^ (k + 7 - 24) = (2 : ℝ) ^ (-17 : ℤ) * (2 : ℝ) ^ k := by
          rw [← zpow_add₀ (by norm_num)]; congr 1; ring
        have e16 : (2 : ℝ) ^ (k - 16) = (2 : ℝ) ^ (-16 : ℤ) * (2 : ℝ) ^ k := by
          rw [← zpow_add₀ (by norm_num)]; congr 1; ring
        have hty : |t * y| ≤ 2 ^ 6 * (2 : ℝ) ^ k := by
          rw [abs_mul, abs_of_pos htpos]
          exact (mul_le_of_le_one_left (abs_nonneg y) ht1'.le).trans bY
        obtain ⟨s, hs, hse⟩ := mul_near ht hq (m := k + 6) (by omega) (by omega) (by rw [e6]; exact hty)
        rw [e18] at hse
        have hsb : |s| ≤ 2 ^ 6 * (2 : ℝ) ^ k + (2 : ℝ) ^ (-18 : ℤ) * (2 : ℝ) ^ k := by
          have : s = t * y + (s - t * y) := by ring
          rw [this]
          exact (abs_add_le _ _).trans (add_le_add hty hse)
        obtain ⟨r, hr, hre⟩ := sub_near hp hs (m := k + 7) (by omega) (by omega) (by
          refine (abs_sub _ _).trans ?_
          rw [e7]
          have : (2 : ℝ) ^ (-18 : ℤ) ≤ 1 := by norm_num
          nlinarith)
        rw [e17] at hre
        refine ⟨r, hr, ?_⟩
        have hterr : |(t - num / den) * y| ≤ (2 : ℝ) ^ (-18 : ℤ) * (2 : ℝ) ^ k := by
          rw [abs_mul]
          refine (mul_le_mul hte2 bY (abs_nonneg y) (two_zpow_pos _).le).trans (le_of_eq ?_)
          norm_num; ring
        have : r - (x - num / den * y) = (r - (x - s)) - (s - t * y) - (t - num / den) * y := by ring
        rw [this, e16]
        calc _ ≤ |r - (x - s)| + |s - t * y| + |(t - num / den) * y| :=
              (abs_sub _ _).trans (add_le_add (abs_sub _ _) le_rfl)
          _ ≤ (2 : ℝ) ^ (-17 : ℤ) * (2 : ℝ) ^ k + (2 : ℝ) ^ (-18 : ℤ) * (2 : ℝ) ^ k +
              (2 : ℝ) ^ (-18 : ℤ) * (2 : ℝ) ^ k := add_le_add (add_le_add hre hse) hterr
          _ = _ := by norm_num; ring
      obtain ⟨rx, hrx, ex⟩ := coord hao.1 hab.1 hga.neg.1 gab.1
      obtain ⟨ry, hry, ey⟩ := coord hao.2 hab.2 hga.neg.2 gab.2
      exact ⟨_, ⟨rx, ry⟩, _, rfl, ⟨hrx, hry⟩, rfl, ex, ey⟩

/-! ## the searches -/

/-- exact reals on the grid: the test for a vanishing direction detects exactly zero -/
theorem tooSmall_real {B : ℤ} {d : V2 ℝ} (h : DirOk B d) : directionTooSmall d ↔ d = 0 := by
  obtain ⟨j, D, hg, _, h5, h6⟩ := h
  have hsm : directionTooSmall d ↔ lengthSq d < (1 / 2 ^ 23 : ℝ) ^ 2 := by
    unfold directionTooSmall
    rw [ExactFloat.epsilon_eq, ← sq]
  rw [hsm]
  have hsq : ∀ {x : ℝ}, GZ j D x → x ≠ 0 → (1 / 2 ^ 23 : ℝ) ^ 2 ≤ x * x := by
    intro x hx h0
    have h1 := hx.ge h0
    have h2 : (2 : ℝ) ^ (-21 : ℤ) ≤ |x| := (zpow_le_zpow h5).trans h1
    have h3 := mul_le_mul h2 h2 (two_zpow_pos _).le (abs_nonneg x)
    rw [abs_mul_abs_self] at h3
    refine le_trans ?_ h3
    norm_num
  constructor
  · intro hs
    by_contra hne
    rw [lengthSq_def] at hs
    by_cases hx : d.x = 0
    · have hy : d.y ≠ 0 := fun hy => hne (by ext <;> simp [hx, hy])
      have := hsq hg.2 hy
      have := mul_self_nonneg d.x
      linarith
    · have := hsq hg.1 hx
      have := mul_self_nonneg d.y
      linarith
  · rintro rfl
    rw [lengthSq_def]; norm_num

/-- `I` is kept by the steps of the search, whatever farthest point is found -/
def KeptAny (M : Set (V2 ℝ)) (I : V2 ℝ → V2 ℝ → List (V2 ℝ) → Prop) : Prop :=
  ∀ L d l pts a r, DInv M L d l pts → I d l pts → IsExtreme M d a → d.dot l < d.dot a →
    addPoint pts a = .ok r → r.collides = false → (directionTooSmall r.dir → r.dir = 0) →
    I (overrideDir d r.dir) a r.pts

variable {M : Set (V2 ℝ)} {V : List (V2 ℝ)} {S : V2 F32 → V2 F32}
  {I : V2 ℝ → V2 ℝ → List (V2 ℝ) → Prop}

/-- a state of a distance search on binary32 with its ghost values and what is known of them, `n`
rounds before the limit -/
structure Sim (k : ℤ) (M : Set (V2 ℝ)) (V : List (V2 ℝ)) (I : V2 ℝ → V2 ℝ → List (V2 ℝ) → Prop)
    (n : Nat) (possible : Bool) (d' l' : V2 F32) (pts' : List (V2 F32)) (d l : V2 ℝ)
    (pts : List (V2 ℝ)) : Prop where
  fin : FInv M possible d l pts
  hd : d'.Is d
  ok : DirOk 32 d
  hl : l'.Is l
  gl : l.GV k 32
  hp : IsL pts' pts
  gp : ∀ p ∈ pts, p.GV k 32
  pm : ∀ p ∈ pts, p ∈ M
  pv : ∀ p ∈ pts, p ∈ V
  low : possible = false → OneSide M
  zero : (0 : V2 ℝ) ∈ pts → OneSide M
  side : OneSide M ∨ ∃ L, GInv M L d pts ∧ L.Nodup ∧ (∀ e ∈ L, e ∈ V) ∧ V.length < L.length + n
  near : (0 : V2 ℝ) ∉ M → ∃ L, DInv M L d l pts ∧ I d l pts ∧ L.Nodup ∧ (∀ e ∈ L, e ∈ V) ∧
    (∀ e ∈ L, e ∈ M) ∧ V.length < L.length + n

/-- the shape of the simplex -/
theorem FInv.shape {possible : Bool} {d l : V2 ℝ} {pts : List (V2 ℝ)} (h : FInv M possible d l pts) :
    (∃ a, pts = [a]) ∨ ∃ a b, pts = [a, b] ∧ a ≠ b := by
  cases h with
  | one _ _ => exact Or.inl ⟨_, rfl⟩
  | t1 _ _ c _ hT _ => exact Or.inr ⟨_, _, rfl, hT.ne⟩
  | t2 _ _ c hT =>
    refine Or.inr ⟨_, _, rfl, ?_⟩
    rintro rfl
    have := hT.past
    rw [sub_self, dot_comm, dot_zero] at this
    exact lt_irrefl _ this

/-- one round that does not stop -/
theorem Sim.step (hk1 : -7 ≤ k) (hk2 : k ≤ 12) (hM : Convex ℝ M) (hI : KeptAny M I) {n : Nat}
    {possible possible' : Bool} {d' l' a' : V2 F32} {pts' : List (V2 F32)} {d l a : V2 ℝ}
    {pts : List (V2 ℝ)} (h : Sim k M V I (n + 1) possible d' l' pts' d l pts) (haV : a ∈ V)
    (ha' : a'.Is a) (ha : IsExtreme M d a) (hga : a.GV k 32) (hprog : d.dot l < d.dot a)
    (hpos : 0 < d.dot a → possible' = possible) :
    ∃ r' : AddResult F32, addPoint pts' a' = .ok r' ∧
      (r'.collides = true → possible' = true ∧ (0 : V2 ℝ) ∈ M ∧ r'.pts.length = 3) ∧
      (r'.collides = false → ∃ e pts1,
        Sim k M V I n possible' (overrideDir d' r'.dir) a' r'.pts e a pts1) := by
  have hd0 : d ≠ 0 := by
    rintro rfl
    rw [dot_comm, dot_zero, dot_comm, dot_zero] at hprog
    exact lt_irrefl _ hprog
  have hone : d.dot a ≤ 0 → OneSide M := fun h1 => ⟨d, hd0, fun m hm => (ha.2 m hm).trans h1⟩
  have hlow' : possible' = false → OneSide M := by
    intro hp
    by_cases h1 : d.dot a ≤ 0
    · exact hone h1
    · rw [hpos (not_le.1 h1)] at hp
      exact h.low hp
  have hlen : pts.length ≤ 2 := by
    rcases h.fin.shape with ⟨_, rfl⟩ | ⟨_, _, rfl, _⟩ <;> simp
  obtain ⟨r, hr, _, _⟩ := addPoint_ok pts a hlen
  obtain ⟨r', hr', hc', hl', hg', hdir⟩ := addPoint_f32 le_rfl hk1 hk2 h.hp h.gp ha' hga hr
  have hsmall : r.collides = false → directionTooSmall r.dir → r.dir = 0 :=
    fun hc hs => (tooSmall_real (hdir hc).2).1 hs
  obtain ⟨s1, s2⟩ := h.fin.step hM ha hprog hpos hlow' hr hsmall
  refine ⟨r', hr', fun hc => ?_, fun hc => ?_⟩
  · obtain ⟨c1, c2, c3⟩ := s1 (by rw [← hc', hc])
    exact ⟨c1, c2, by rw [hl'.length_eq]; exact c3⟩
  · have hc0 : r.collides = false := by rw [← hc', hc]
    obtain ⟨hd2, hok2⟩ := hdir hc0
    refine ⟨overrideDir d r.dir, r.pts, ?_⟩
    have hover : (overrideDir d' r'.dir).Is (overrideDir d r.dir) ∧ DirOk 32 (overrideDir d r.dir) := by
      unfold overrideDir
      by_cases hz : r.dir = 0
      · rw [if_pos ((tooSmall_iff hok2 hd2).2 hz), if_pos ((tooSmall_real hok2).2 hz)]
        exact ⟨h.hd.perp, h.ok.perp⟩
      · rw [if_neg (fun hs => hz ((tooSmall_iff hok2 hd2).1 hs)),
          if_neg (fun hs => hz ((tooSmall_real hok2).1 hs))]
        exact ⟨hd2, hok2⟩
    refine
      { fin := s2 hc0, hd := hover.1, ok := hover.2, hl := ha', gl := hga, hp := hl', gp := hg',
        pm := ?_, pv := ?_, low := hlow', zero := ?_, side := ?_, near := ?_ }
    · intro p hp
      rcases addPoint_pts_sub hr p hp with rfl | hp
      · exact ha.1
      · exact h.pm p hp
    · intro p hp
      rcases addPoint_pts_sub hr p hp with rfl | hp
      · exact haV
      · exact h.pv p hp
    · intro hz
      rcases addPoint_pts_sub hr 0 hz with hz | hz
      · exact hone (by rw [← hz, dot_zero])
      · exact h.zero hz
    · by_cases h1 : d.dot a ≤ 0
      · exact Or.inl (hone h1)
      rcases h.side with h2 | ⟨L, hG, hL, hLV, hn⟩
      · exact Or.inl h2
      right
      have hp1 : 0 < a.dot d := by rw [dot_comm]; exact not_le.1 h1
      obtain ⟨q, hq, hstep⟩ := hG.step hM ha hp1
      rw [hr] at hq
      cases hq
      refine ⟨a :: L, ?_, hG.fresh hL hp1, ?_, by simp only [List.length_cons]; omega⟩
      · unfold overrideDir
        by_cases hz : r.dir = 0
        · rw [if_pos ((tooSmall_real hok2).2 hz)]; exact hstep.zero hc0 hz
        · rw [if_neg (fun hs => hz ((tooSmall_real hok2).1 hs))]; exact hstep.next hc0 hz
      · intro e he
        rcases List.mem_cons.1 he with rfl | he
        · exact haV
        · exact hLV e he
    · intro h0
      obtain ⟨L, hD, hJ, hL, hLV, hLM, hn⟩ := h.near h0
      refine ⟨a :: L, hD.step h0 hLM ha hprog hr hsmall hc0,
        hI L d l pts a r hD hJ ha hprog hr hc0 (hsmall hc0), hD.fresh hL hprog, ?_, ?_,
        by simp only [List.length_cons]; omega⟩
      · intro e he
        rcases List.mem_cons.1 he with rfl | he
        · exact haV
        · exact hLV e he
      · intro e he
        rcases List.mem_cons.1 he with rfl | he
        · exact ha.1
        · exact hLM e he

/-- what is known of the vector returned for "not colliding" -/
def Stopped (k : ℤ) (M : Set (V2 ℝ)) (V : List (V2 ℝ)) (I : V2 ℝ → V2 ℝ → List (V2 ℝ) → Prop) (κ : ℝ)
    (v' : V2 F32) : Prop :=
  OneSide M ∧ ∃ v w pts, v'.Is v ∧ distanceToOrigin pts = .ok w ∧ (∀ p ∈ pts, p ∈ M) ∧
    (∀ p ∈ pts, p ∈ V) ∧ V2.Within ((2 : ℝ) ^ (k - 16)) v w ∧ ((0 : V2 ℝ) ∉ M → ∃ L d l, DInv M L d l pts ∧ I d l pts ∧
      ∀ x ∈ M, d.dot x ≤ κ * d.dot l)

/-- the search stops in a state: at the limit or because nothing is further out -/
theorem Sim.stop (hk1 : -7 ≤ k) (hk2 : k ≤ 12) {κ : ℝ} {n : Nat}
    {possible : Bool} {d' l' : V2 F32} {pts' : List (V2 F32)} {d l : V2 ℝ}
    {pts : List (V2 ℝ)} (h : Sim k M V I n possible d' l' pts' d l pts)
    (hs : n = 0 ∨ ∃ a, IsExtreme M d a ∧ d.dot a ≤ 0 ∧ d.dot a ≤ κ * d.dot l) :
    ∃ v', distanceToOrigin pts' = .ok v' ∧ Stopped k M V I κ v' := by
  obtain ⟨v', v, w, e1, hv, e2, hw⟩ := distanceToOrigin_f32 hk1 hk2 h.hp h.gp h.fin.shape
  refine ⟨v', e1, ?_, v, w, pts, hv, e2, h.pm, h.pv, hw, fun h0 => ?_⟩
  · rcases hs with rfl | ⟨a, ha, h1, _⟩
    · rcases h.side with h2 | ⟨L, _, hL, hLV, hn⟩
      · exact h2
      · have := length_le_of_sub hL hLV
        omega
    · by_cases hd0 : d = 0
      · exact h.zero (by rw [h.fin.below.2 hd0]; simp)
      · exact ⟨d, hd0, fun m hm => (ha.2 m hm).trans h1⟩
  · obtain ⟨L, hD, hJ, hL, hLV, _, hn⟩ := h.near h0
    rcases hs with rfl | ⟨a, ha, _, h1⟩
    · have := length_le_of_sub hL hLV
      omega
    · exact ⟨L, d, l, hD, hJ, fun x hx => (ha.2 x hx).trans h1⟩

/-- as `Support32`, with the list only for directions that are not zero -/
def SupportNz (k : ℤ) (M : Set (V2 ℝ)) (V : List (V2 ℝ)) (S : V2 F32 → V2 F32) : Prop :=
  ∀ (d' : V2 F32) (d : V2 ℝ), d'.Is d → DirOk 32 d →
    ∃ p, (d ≠ 0 → p ∈ V) ∧ (S d').Is p ∧ IsExtreme M d p ∧ p.GV k 32

theorem Support32.nz (h : Support32 k 32 M V S) : SupportNz k M V S := fun d' d hd hok =>
  let ⟨p, h1, h2⟩ := h d' d hd hok
  ⟨p, fun _ => h1, h2⟩

theorem ne_zero_of_progress {d l a : V2 ℝ} (h : d.dot l < d.dot a) : d ≠ 0 := by
  rintro rfl
  rw [dot_comm, dot_zero, dot_comm, dot_zero] at h
  exact lt_irrefl _ h

/-- `distance_to`'s search on binary32 -/
theorem gjkDistance_f32 (hk1 : -7 ≤ k) (hk2 : k ≤ 12) (hM : Convex ℝ M) (hI : KeptAny M I)
    (hS : SupportNz k M V S) :
    ∀ (n : Nat) (d' l' : V2 F32) (pts' : List (V2 F32)) (d l : V2 ℝ) (pts : List (V2 ℝ)),
      Sim k M V I n true d' l' pts' d l pts →
      (gjkDistance S n d' l' pts' = .ok (true, V2.nan) ∧ (0 : V2 ℝ) ∈ M) ∨
      ∃ v', gjkDistance S n d' l' pts' = .ok (false, v') ∧ Stopped k M V I 1 v' := by
  intro n
  induction n with
  | zero =>
    intro d' l' pts' d l pts h
    obtain ⟨v', e, hv⟩ := h.stop hk1 hk2 (κ := 1) (Or.inl rfl)
    exact Or.inr ⟨v', by rw [gjkDistance, e], hv⟩
  | succ n ih =>
    intro d' l' pts' d l pts h
    obtain ⟨a, haV, ha', ha, hga⟩ := hS d' d h.hd h.ok
    have hfit := (h.ok.dot h.hd ha' hga (by omega) hk2).2
    have hlast := (h.ok.dot h.hd h.hl h.gl (by omega) hk2).2
    have i1 : (S d').dot d' ≤ 0 ↔ a.dot d ≤ 0 := le_iff hfit is_zero
    have i2 : (S d').dot d' ≤ l'.dot d' ↔ a.dot d ≤ l.dot d := le_iff hfit hlast
    rw [dot_comm a, dot_comm l] at i2
    rw [dot_comm a] at i1
    rw [gjkDistance]
    simp only [i1, i2]
    by_cases h1 : d.dot a ≤ 0 ∧ d.dot a ≤ d.dot l
    · simp only [if_pos h1]
      obtain ⟨v', e, hv⟩ := h.stop hk1 hk2 (κ := 1) (Or.inr ⟨a, ha, h1.1, by rw [one_mul]; exact h1.2⟩)
      exact Or.inr ⟨v', by rw [e], hv⟩
    · simp only [if_neg h1]
      have hprog : d.dot l < d.dot a := by
        have := h.fin.below.1
        by_contra hn
        have hn := not_lt.1 hn
        exact h1 ⟨hn.trans this, hn⟩
      obtain ⟨r', hr', s1, s2⟩ := h.step hk1 hk2 hM hI (haV (ne_zero_of_progress hprog)) ha' ha hga hprog
        (possible' := true)
        (fun _ => rfl)
      rw [hr']
      simp only
      cases hc : r'.collides with
      | true =>
        obtain ⟨_, c2, c3⟩ := s1 hc
        rw [if_pos rfl, if_pos c3]
        exact Or.inl ⟨rfl, c2⟩
      | false =>
        obtain ⟨e, pts1, hsim⟩ := s2 hc
        rw [if_neg (by simp)]
        exact ih _ _ _ _ _ _ hsim

/-! ## the tolerance of `sdfv` -/

/-- the factor `1 - 0.01` as computed in binary32 -/
theorem is_factor : ∃ κ : ℝ, F32.Is (1 - FloatExtra.tol : F32) κ ∧ 989 / 1000 ≤ κ ∧ κ ≤ 1 := by
  obtain ⟨t, ht, h1⟩ := ofReal_near (z := false) (x := (1 / 100 : ℝ)) (m := 0) (by norm_num)
    (by norm_num) (by rw [abs_of_pos (by norm_num)]; norm_num)
  have h1 := abs_le.1 h1
  norm_num at h1
  have ht' : F32.Is (FloatExtra.tol : F32) t := ht
  obtain ⟨κ, hκ, h2⟩ := sub_near is_one ht' (m := 0) (by norm_num) (by norm_num) (by
    rw [abs_le]; constructor <;> norm_num <;> linarith)
  have h2 := abs_le.1 h2
  norm_num at h2
  refine ⟨κ, hκ, by linarith, ?_⟩
  linarith

/-- `sufficientlyBetter` on binary32 for values that are not positive -/
theorem better_f32 {f' h' : F32} {f h : ℝ} (hf : F32.Is f' f) (hh : F32.Is h' h) (hle : h ≤ 0)
    (hbig : h ≠ 0 → (2 : ℝ) ^ (-100 : ℤ) ≤ -h) :
    (sufficientlyBetter f' h' FloatExtra.tol → h < f) ∧
    (¬ sufficientlyBetter f' h' FloatExtra.tol → f ≤ 49 / 50 * h) := by
  obtain ⟨κ, hκ, k1, k2⟩ := is_factor
  unfold sufficientlyBetter
  rw [if_neg (by
    show ¬ (0 : F32) < h'
    rw [lt_iff is_zero hh]; exact not_lt.2 hle)]
  rcases hle.eq_or_lt with h0 | h0
  · have hm : F32.Is (h' * (1 - FloatExtra.tol)) (h * κ) :=
      is_mul hh hκ (by rw [h0, zero_mul]; exact representable_zero)
    have e : h' * (1 - FloatExtra.tol) < f' ↔ h * κ < f := lt_iff hm hf
    show (h' * (1 - FloatExtra.tol) < f' → _) ∧ (¬ h' * (1 - FloatExtra.tol) < f' → _)
    rw [e, h0]
    constructor
    · intro h; linarith
    · intro h; linarith [not_lt.1 h]
  · have hb := hbig h0.ne
    obtain ⟨z, e⟩ := mul_eq hh hκ
    have hneg : h * κ < 0 := mul_neg_of_neg_of_pos h0 (by linarith)
    have habs : |h * κ| = -h * κ := by rw [abs_of_neg hneg]; ring
    have hrep : Representable (-h) := hh.representable.neg
    have hy0 : 0 ≤ -h * κ := by rw [← habs]; exact abs_nonneg _
    have hup : rnd (-h * κ) ≤ -h := by
      refine (rnd_mono hy0 (mul_le_of_le_one_right (by linarith) k2)).trans (le_of_eq ?_)
      rw [rnd_of_representable (by linarith) hrep]
    have hlow : 49 / 50 * -h ≤ rnd (-h * κ) := by
      have h1 : (2 : ℝ) ^ (-126 : ℤ) ≤ -h * κ := by
        have : (2 : ℝ) ^ (-100 : ℤ) * (989 / 1000) ≤ -h * κ :=
          mul_le_mul hb k1 (by norm_num) (by linarith)
        refine le_trans ?_ this
        norm_num
      have h2 := (abs_le.1 (abs_rnd_sub_le_rel h1)).1
      have h3 := mul_le_mul_of_nonneg_left k1 (show 0 ≤ -h by linarith)
      norm_num at h2 ⊢
      nlinarith
    have hm : F32.Is (h' * (1 - FloatExtra.tol)) (-rnd (-h * κ)) := by
      rw [e]
      rcases ofReal_cases z (h * κ) with ⟨_, s, hh', e', hs, _⟩ | ⟨hbig', _, _⟩
      · refine ⟨_, _, hh', e', ?_⟩
        rw [hs hneg.ne, decide_eq_true hneg, sval_true, habs]
      · exfalso
        rw [habs] at hbig'
        have := hrep.lt
        linarith
    have e : h' * (1 - FloatExtra.tol) < f' ↔ -rnd (-h * κ) < f := lt_iff hm hf
    show (h' * (1 - FloatExtra.tol) < f' → _) ∧ (¬ h' * (1 - FloatExtra.tol) < f' → _)
    rw [e]
    constructor
    · intro h; linarith
    · intro h; linarith [not_lt.1 h]

/-- dot products of a grid point with a direction of the search are not tiny -/
theorem DirOk.dot_ge {d l : V2 ℝ} (h : DirOk 32 d) (hl : l.GV k 32) (hk1 : -7 ≤ k)
    (h0 : l.dot d ≠ 0) : (2 : ℝ) ^ (-100 : ℤ) ≤ |l.dot d| := by
  obtain ⟨j, D, hg, _, h5, _⟩ := h
  exact (zpow_le_zpow (by omega)).trans ((gv_dot hl hg).ge h0)

/-- `sdfv`'s search on binary32 -/
theorem gjkFull_f32 (hk1 : -7 ≤ k) (hk2 : k ≤ 12) (hM : Convex ℝ M) (hI : KeptAny M I)
    (hS : SupportNz k M V S) :
    ∀ (n : Nat) (possible : Bool) (d' l' : V2 F32) (pts' : List (V2 F32)) (d l : V2 ℝ)
      (pts : List (V2 ℝ)), Sim k M V I n possible d' l' pts' d l pts →
      ((∃ v', gjkFull S n possible d' l' pts' = .ok (true, v')) ∧ (0 : V2 ℝ) ∈ M) ∨
      ∃ v', gjkFull S n possible d' l' pts' = .ok (false, v') ∧ Stopped k M V I (49 / 50) v' := by
  intro n
  induction n with
  | zero =>
    intro possible d' l' pts' d l pts h
    obtain ⟨v', e, hv⟩ := h.stop hk1 hk2 (κ := 49 / 50) (Or.inl rfl)
    exact Or.inr ⟨v', by rw [gjkFull, e], hv⟩
  | succ n ih =>
    intro possible d' l' pts' d l pts h
    obtain ⟨a, haV, ha', ha, hga⟩ := hS d' d h.hd h.ok
    have hfit := (h.ok.dot h.hd ha' hga (by omega) hk2).2
    have hlast := (h.ok.dot h.hd h.hl h.gl (by omega) hk2).2
    have hle : l.dot d ≤ 0 := by rw [dot_comm]; exact h.fin.below.1
    have i1 : (S d').dot d' ≤ 0 ↔ a.dot d ≤ 0 := le_iff hfit is_zero
    obtain ⟨b1, b2⟩ := better_f32 hfit hlast hle (fun h0 => by
      have := h.ok.dot_ge h.gl hk1 h0
      rwa [abs_of_nonpos hle] at this)
    rw [dot_comm a, dot_comm l] at b1 b2
    rw [dot_comm a] at i1
    rw [dot_comm l] at hle
    rw [gjkFull]
    simp only [i1]
    by_cases h1 : d.dot a ≤ 0 ∧ ¬ sufficientlyBetter ((S d').dot d') (l'.dot d') FloatExtra.tol
    · simp only [if_pos h1]
      obtain ⟨v', e, hv⟩ := h.stop hk1 hk2 (κ := 49 / 50) (Or.inr ⟨a, ha, h1.1, b2 h1.2⟩)
      exact Or.inr ⟨v', by rw [e], hv⟩
    · simp only [if_neg h1]
      have hprog : d.dot l < d.dot a := by
        by_cases hf : d.dot a ≤ 0
        · refine b1 ?_
          by_contra hn
          exact h1 ⟨hf, hn⟩
        · linarith [not_le.1 hf]
      obtain ⟨r', hr', s1, s2⟩ := h.step hk1 hk2 hM hI (haV (ne_zero_of_progress hprog)) ha' ha hga
        hprog (possible' := if d.dot a ≤ 0 then false else possible)
        (fun hp => if_neg (not_le.2 hp))
      rw [hr']
      simp only
      cases hc : r'.collides with
      | true =>
        obtain ⟨c1, c2, c3⟩ := s1 hc
        left
        refine ⟨?_, c2⟩
        rw [if_neg (by rw [c1]; simp), if_pos rfl]
        obtain ⟨x, y, z, he⟩ := List.length_eq_three.1 c3
        rw [he]
        simp only [enforceCcw]
        split_ifs
        · obtain ⟨v, hv⟩ := epa_ok S iterationLimit [x, y, z] (by simp)
          simp only [hv]; exact ⟨v, rfl⟩
        · obtain ⟨v, hv⟩ := epa_ok S iterationLimit [x, z, y] (by simp)
          simp only [hv]; exact ⟨v, rfl⟩
      | false =>
        obtain ⟨e, pts1, hsim⟩ := s2 hc
        rw [if_neg (by simp), if_neg (by simp)]
        exact ih _ _ _ _ _ _ _ hsim

/-- the state after the initial point -/
theorem Sim.start (hk1 : -7 ≤ k) (hk2 : k ≤ 12) (hM : Convex ℝ M) {n : Nat} (hn : V.length < 1 + n)
    {q' : V2 F32} {d0 q : V2 ℝ} (hd0 : d0 ≠ 0) (hqV : q ∈ V) (hq' : q'.Is q)
    (hq : IsExtreme M d0 q) (hgq : q.GV k 32) (hI : (0 : V2 ℝ) ∉ M → I (-q) q [q]) :
    Sim k M V I n true (-q') q' [q'] (-q) q [q] := by
  refine
    { fin := .one q hq.1, hd := hq'.neg, ok := ?_, hl := hq', gl := hgq, hp := .cons hq' .nil,
      gp := by simpa using hgq, pm := by simpa using hq.1, pv := by simpa using hqV,
      low := by simp, zero := ?_, side := ?_, near := fun h0 => ?_ }
  · exact ⟨k, 32, hgq.neg, by norm_num, by omega, by omega⟩
  · intro h0
    have : q = 0 := (List.mem_singleton.1 h0).symm
    exact ⟨d0, hd0, fun m hm => by have := hq.2 m hm; rwa [‹q = 0›, dot_zero] at this⟩
  · by_cases h1 : d0.dot q ≤ 0
    · exact Or.inl ⟨d0, hd0, fun m hm => (hq.2 m hm).trans h1⟩
    right
    have hp1 : 0 < q.dot d0 := by rw [dot_comm]; exact not_le.1 h1
    obtain ⟨r, hr, hstep⟩ := (GInv.start d0 hd0 : GInv M [] d0 []).step hM hq hp1
    simp only [addPoint, Except.ok.injEq] at hr
    subst hr
    refine ⟨[q], hstep.next rfl ?_, List.nodup_singleton _, by simpa using hqV, by simpa using hn⟩
    intro h0
    have h0 : -q = 0 := h0
    rw [neg_eq_zero.1 h0, dot_comm, dot_zero] at hp1
    exact lt_irrefl _ hp1
  · exact ⟨[q], .one q ⟨d0, hd0, hq.2⟩ hq.1, hI h0, List.nodup_singleton _, by simpa using hqV,
      by simpa using hq.1, by simpa using hn⟩

end
end Auburn
