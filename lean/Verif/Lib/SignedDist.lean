import Verif.Spec.Resolve

/-!
# Signed distance witnesses

`SignedDist C δ s q g`: the signed distance of the point `δ` from the set `C` is `s`, with nearest
boundary point `q` and outward unit normal `g`.
-/

set_option linter.unusedSectionVars false

namespace Auburn
open V2

section
variable {K : Type} [Field K] [LinearOrder K] [IsStrictOrderedRing K] [FloatExtra K] [ExactSqrt K]

structure SignedDist (C : Set (V2 K)) (δ : V2 K) (s : K) (q g : V2 K) : Prop where
  unit : lengthSq g = 1
  mem : q ∈ C
  supp : ∀ p ∈ C, g.dot p ≤ g.dot q
  eq : δ = q + V2.scale s g
  inner : s < 0 → ∀ e, lengthSq e ≤ s ^ 2 → δ + e ∈ C

theorem length_le_of_sq {v : V2 K} {r : K} (hr : 0 ≤ r) (h : lengthSq v ≤ r ^ 2) : v.length ≤ r := by
  rw [← V2.length_sq] at h
  exact abs_le_of_sq_le_sq' h hr |>.2

theorem lengthSq_le_of_length {v : V2 K} {r : K} (h : v.length ≤ r) : lengthSq v ≤ r ^ 2 := by
  rw [← V2.length_sq]
  have := V2.length_nonneg v
  nlinarith

theorem length_add_le (a b : V2 K) : (a + b).length ≤ a.length + b.length := by
  apply length_le_of_sq (add_nonneg (V2.length_nonneg a) (V2.length_nonneg b))
  have h := V2.dot_le_length a b
  have ha := V2.length_sq a
  have hb := V2.length_sq b
  have : lengthSq (a + b) = lengthSq a + 2 * a.dot b + lengthSq b := by
    simp only [lengthSq_def, dot_def, add_x, add_y]; ring
  rw [this, ← ha, ← hb]; nlinarith

theorem length_neg (a : V2 K) : (-a).length = a.length := by
  show FloatExtra.sqrt (lengthSq (-a)) = FloatExtra.sqrt (lengthSq a)
  rw [lengthSq_neg]

theorem length_sub_comm (a b : V2 K) : (a - b).length = (b - a).length := by
  rw [← length_neg]; congr 1; ext <;> simp

theorem length_scale (s : K) (a : V2 K) : (V2.scale s a).length = |s| * a.length := by
  have h := V2.length_sq (V2.scale s a)
  rw [lengthSq_scale, ← V2.length_sq, ← mul_pow] at h
  have h2 := abs_eq_abs.2 (sq_eq_sq_iff_eq_or_eq_neg.1 h)
  rw [abs_of_nonneg (V2.length_nonneg _), abs_mul, abs_of_nonneg (V2.length_nonneg a)] at h2
  exact h2

theorem length_le_iff {a b : V2 K} : a.length ≤ b.length ↔ lengthSq a ≤ lengthSq b := by
  rw [← V2.length_sq, ← V2.length_sq]
  exact (sq_le_sq₀ (V2.length_nonneg a) (V2.length_nonneg b)).symm

theorem length_zero : (0 : V2 K).length = 0 := by
  have := V2.length_sq (0 : V2 K)
  rw [lengthSq_eq_zero.2 rfl] at this
  exact pow_eq_zero_iff (two_ne_zero) |>.1 this

theorem length_eq_one {g : V2 K} (h : lengthSq g = 1) : g.length = 1 := by
  have h2 := V2.length_sq g
  have := V2.length_nonneg g
  rw [h] at h2
  nlinarith

/-- the closed disc as a thick point -/
theorem mem_thick_singleton {c p : V2 K} {r : K} : p ∈ thick {c} r ↔ lengthSq (p - c) ≤ r ^ 2 := by
  constructor
  · rintro ⟨q, hq, h⟩; rw [show q = c from hq] at h; exact h
  · intro h; exact ⟨c, rfl, h⟩

namespace SignedDist
variable {C : Set (V2 K)} {δ q g : V2 K} {s : K}

theorem g_dot_delta (h : SignedDist C δ s q g) : g.dot δ = g.dot q + s := by
  rw [h.eq, dot_add, dot_scale, dot_self, h.unit, mul_one]

theorem g_ne (h : SignedDist C δ s q g) : g ≠ 0 := by
  intro h0
  have := h.unit
  rw [h0, lengthSq_eq_zero.2 rfl] at this
  exact zero_ne_one this

/-- every point of `C` has distance at least `s` from `δ` -/
theorem le_dist (h : SignedDist C δ s q g) {p : V2 K} (hp : p ∈ C) : s ≤ (δ - p).length := by
  have h1 := h.supp p hp
  have h2 := V2.dot_le_length g (δ - p)
  rw [length_eq_one h.unit, one_mul, dot_sub, h.g_dot_delta] at h2
  linarith

/-- the support function of `C` -/
theorem gap_le (h : SignedDist C δ s q g) (n : V2 K) (m : K) (hm : ∀ p ∈ C, n.dot p ≤ m) :
    n.dot δ - m ≤ s * n.length := by
  rcases lt_or_ge s 0 with hs | hs
  · by_cases hn : n = 0
    · subst hn
      have := hm q h.mem
      rw [zero_dot] at this
      rw [zero_dot, length_zero]; linarith
    · have hl := V2.length_pos.2 hn
      have hin := h.inner hs (V2.scale (-s / n.length) n) (by
        rw [lengthSq_scale, ← V2.length_sq]
        have : (-s / n.length) ^ 2 * n.length ^ 2 = s ^ 2 := by field_simp
        rw [this])
      have := hm _ hin
      rw [dot_add, dot_scale, dot_self, ← V2.length_sq] at this
      have e : -s / n.length * n.length ^ 2 = -s * n.length := by field_simp
      rw [e] at this
      linarith
  · have h1 := hm q h.mem
    have h2 := V2.dot_le_length n g
    rw [length_eq_one h.unit, mul_one] at h2
    rw [h.eq, dot_add, dot_scale]
    nlinarith [mul_le_mul_of_nonneg_left h2 hs]

/-- Main lemma: the move `(s - (ra + rb)) g` resolves `C ⊕ disc ra` against `δ ⊕ disc rb`. -/
theorem resolves (h : SignedDist C δ s q g) {ra rb : K} (hra : 0 ≤ ra) (hrb : 0 ≤ rb) (c : Bool)
    (hc1 : c = true → s ≤ ra + rb) (hc2 : c = false → ra + rb ≤ s) :
    ResolvesLeast c (V2.scale (s - (ra + rb)) g) (thick C ra) (thick {δ} rb) := by
  have hg1 := length_eq_one h.unit
  have hvl : (V2.scale (s - (ra + rb)) g).length = |s - (ra + rb)| := by
    rw [length_scale, hg1, mul_one]
  refine ⟨⟨?_, ?_⟩, ?_, ?_⟩
  · refine ⟨δ - V2.scale rb g, ⟨q + V2.scale ra g, ⟨q, h.mem, ?_⟩, ?_⟩, ⟨δ, rfl, ?_⟩⟩
    · have : q + V2.scale ra g - q = V2.scale ra g := by ext <;> simp
      rw [this, lengthSq_scale, h.unit, mul_one]
    · rw [h.eq]; ext <;> simp <;> ring
    · have : δ - V2.scale rb g - δ = V2.scale (-rb) g := by ext <;> simp
      rw [this, lengthSq_scale, h.unit]; simp
  · refine ⟨g, h.g_ne, ?_⟩
    rintro a ⟨a', ⟨p, hp, hpa⟩, rfl⟩ b ⟨δ', hδ, hb⟩
    rw [show δ' = δ from hδ] at hb
    have h1 := h.supp p hp
    have h2 := V2.dot_le_length g (a' - p)
    have h3 := V2.neg_length_le_dot g (b - δ)
    have l1 := length_le_of_sq hra hpa
    have l2 := length_le_of_sq hrb hb
    rw [hg1, one_mul, dot_sub] at h2 h3
    rw [dot_add, dot_scale, dot_self, h.unit]
    have := h.g_dot_delta
    linarith
  · intro hc w hw
    obtain ⟨n, hn, hsep⟩ := hw
    have hl := V2.length_pos.2 hn
    -- support bound of C
    have hm : ∀ p ∈ C, n.dot p ≤ n.dot δ - rb * n.length - ra * n.length - n.dot w := by
      intro p hp
      have e1 : ∀ r : K, lengthSq (V2.scale (r / n.length) n) = r ^ 2 := by
        intro r; rw [lengthSq_scale, ← V2.length_sq]; field_simp
      have e2 : ∀ r : K, n.dot (V2.scale (r / n.length) n) = r * n.length := by
        intro r; rw [dot_scale, dot_self, ← V2.length_sq]; field_simp
      have := hsep (p + V2.scale (ra / n.length) n + w)
        ⟨p + V2.scale (ra / n.length) n, ⟨p, hp, by
          rw [show p + V2.scale (ra / n.length) n - p = V2.scale (ra / n.length) n by
            ext <;> simp, e1]⟩, rfl⟩
        (δ + V2.scale (-rb / n.length) n) ⟨δ, rfl, by
          rw [show δ + V2.scale (-rb / n.length) n - δ = V2.scale (-rb / n.length) n by
            ext <;> simp, e1, neg_sq]⟩
      rw [dot_add, dot_add, dot_add, e2, e2] at this
      linarith
    have h1 := h.gap_le n _ hm
    have h2 := V2.neg_length_le_dot n w
    have h3 : (ra + rb - s) * n.length ≤ w.length * n.length := by nlinarith
    have h4 := le_of_mul_le_mul_right h3 hl
    have h5 := hc1 hc
    rw [← length_le_iff, hvl, abs_of_nonpos (by linarith)]
    linarith
  · intro hc w hw
    obtain ⟨x, ⟨a, ⟨p, hp, hpa⟩, rfl⟩, ⟨δ', hδ, hb⟩⟩ := hw
    rw [show δ' = δ from hδ] at hb
    have h1 := h.le_dist hp
    have l1 := length_le_of_sq hra hpa
    have l2 := length_le_of_sq hrb hb
    have e : δ - p = (δ - (a + w)) + ((a - p) + w) := by ext <;> simp <;> ring
    have t1 := length_add_le (δ - (a + w)) ((a - p) + w)
    have t2 := length_add_le (a - p) w
    rw [length_sub_comm δ] at t1
    rw [e] at h1
    have h5 := hc2 hc
    rw [← length_le_iff, hvl, abs_of_nonneg (by linarith)]
    linarith

theorem overlap_iff (h : SignedDist C δ s q g) {ra rb : K} (hra : 0 ≤ ra) (hrb : 0 ≤ rb) :
    Overlap (thick C ra) (thick {δ} rb) ↔ s < ra + rb := by
  constructor
  · intro ho
    by_contra hcon
    push Not at hcon
    refine Separable.not_overlap ?_ ho
    refine ⟨g, h.g_ne, ?_⟩
    rintro a ⟨p, hp, hpa⟩ b ⟨δ', hδ, hb⟩
    rw [show δ' = δ from hδ] at hb
    have h1 := h.supp p hp
    have hg1 := length_eq_one h.unit
    have h2 := V2.dot_le_length g (a - p)
    have h3 := V2.neg_length_le_dot g (b - δ)
    have l1 := length_le_of_sq hra hpa
    have l2 := length_le_of_sq hrb hb
    rw [hg1, one_mul, dot_sub] at h2 h3
    have := h.g_dot_delta
    linarith
  · intro hs
    rcases lt_or_ge s 0 with hs0 | hs0
    · refine ⟨-s, by linarith, ?_⟩
      intro v hv
      refine ⟨δ, ⟨δ + -v, ⟨δ + -v, h.inner hs0 (-v) (by rw [lengthSq_neg]; nlinarith), ?_⟩, ?_⟩,
        ⟨δ, rfl, ?_⟩⟩
      · have : δ + -v - (δ + -v) = 0 := by ext <;> simp
        rw [this, lengthSq_eq_zero.2 rfl]; positivity
      · ext <;> simp
      · have : δ - δ = 0 := by ext <;> simp
        rw [this, lengthSq_eq_zero.2 rfl]; positivity
    · refine ⟨ra + rb - s, by linarith, ?_⟩
      intro v hv
      have hR : 0 < ra + rb := by linarith
      -- the centre of B relative to q after the move has length ≤ ra + rb
      have hl : (δ - (q + v)).length ≤ ra + rb := by
        have e : δ - (q + v) = V2.scale s g + -v := by
          have := h.eq
          ext
          · have := congrArg V2.x this; simp at this ⊢; linarith
          · have := congrArg V2.y this; simp at this ⊢; linarith
        have t := length_add_le (V2.scale s g) (-v)
        rw [length_scale, length_eq_one h.unit, length_neg, abs_of_nonneg hs0] at t
        have := length_le_of_sq (by linarith) hv
        rw [e]; linarith
      have hl2 := lengthSq_le_of_length hl
      refine ⟨q + V2.scale (ra / (ra + rb)) (δ - (q + v)) + v,
        ⟨q + V2.scale (ra / (ra + rb)) (δ - (q + v)), ⟨q, h.mem, ?_⟩, rfl⟩, ⟨δ, rfl, ?_⟩⟩
      · rw [show q + V2.scale (ra / (ra + rb)) (δ - (q + v)) - q =
          V2.scale (ra / (ra + rb)) (δ - (q + v)) by ext <;> simp, lengthSq_scale, div_pow,
          div_mul_eq_mul_div, div_le_iff₀ (by positivity)]
        exact mul_le_mul_of_nonneg_left hl2 (sq_nonneg _)
      · rw [show q + V2.scale (ra / (ra + rb)) (δ - (q + v)) + v - δ =
          V2.scale (-(rb / (ra + rb))) (δ - (q + v)) by
            ext <;> simp <;> field_simp <;> ring, lengthSq_scale, neg_sq, div_pow,
          div_mul_eq_mul_div, div_le_iff₀ (by positivity)]
        exact mul_le_mul_of_nonneg_left hl2 (sq_nonneg _)

end SignedDist

/-- Contact only: no depth information needed. -/
theorem touchingAfter_of_face {C : Set (V2 K)} {δ q g : V2 K} {s ra rb : K} (unit : lengthSq g = 1)
    (mem : q ∈ C) (supp : ∀ p ∈ C, g.dot p ≤ g.dot q) (eq : δ = q + V2.scale s g)
    (hra : 0 ≤ ra) (hrb : 0 ≤ rb) :
    TouchingAfter (V2.scale (s - (ra + rb)) g) (thick C ra) (thick {δ} rb) := by
  by_cases hs : s < 0
  · -- the same contact as for signed distance 0, shifted
    refine ⟨?_, ?_⟩
    · refine ⟨δ - V2.scale rb g, ⟨q + V2.scale ra g, ⟨q, mem, ?_⟩, ?_⟩, ⟨δ, rfl, ?_⟩⟩
      · have : q + V2.scale ra g - q = V2.scale ra g := by ext <;> simp
        rw [this, lengthSq_scale, unit, mul_one]
      · rw [eq]; ext <;> simp <;> ring
      · have : δ - V2.scale rb g - δ = V2.scale (-rb) g := by ext <;> simp
        rw [this, lengthSq_scale, unit]; simp
    · refine ⟨g, ?_, ?_⟩
      · intro h0
        rw [h0, lengthSq_eq_zero.2 rfl] at unit
        exact zero_ne_one unit
      · rintro a ⟨a', ⟨p, hp, hpa⟩, rfl⟩ b ⟨δ', hδ, hb⟩
        rw [show δ' = δ from hδ] at hb
        have hg1 := length_eq_one unit
        have h1 := supp p hp
        have h2 := V2.dot_le_length g (a' - p)
        have h3 := V2.neg_length_le_dot g (b - δ)
        have l1 := length_le_of_sq hra hpa
        have l2 := length_le_of_sq hrb hb
        rw [hg1, one_mul, dot_sub] at h2 h3
        rw [dot_add, dot_scale, dot_self, unit]
        have : g.dot δ = g.dot q + s := by rw [eq, dot_add, dot_scale, dot_self, unit, mul_one]
        linarith
  · exact ((⟨unit, mem, supp, eq, fun h => absurd h hs⟩ : SignedDist C δ s q g).resolves hra hrb
      (decide (s ≤ ra + rb)) (by simp) (fun h => by
        have := of_decide_eq_false h; linarith)).1

/-- the signed distance to a point -/
theorem signedDist_point (δ : V2 K) (hδ : δ ≠ 0) :
    SignedDist {(0 : V2 K)} δ δ.length 0 (V2.scale (1 / δ.length) δ) := by
  have hl := V2.length_pos.2 hδ
  refine ⟨?_, rfl, ?_, ?_, ?_⟩
  · rw [lengthSq_scale, ← V2.length_sq]; field_simp
  · intro p hp; rw [show p = 0 from hp]
  · ext <;> simp <;> field_simp
  · intro h; exact absurd h (not_lt.2 hl.le)

theorem signedDist_point_zero (g : V2 K) (hg : lengthSq g = 1) :
    SignedDist {(0 : V2 K)} 0 0 0 g := by
  refine ⟨hg, rfl, ?_, ?_, ?_⟩
  · intro p hp; rw [show p = 0 from hp]
  · ext <;> simp
  · intro h; exact absurd h (lt_irrefl _)

end
end Auburn
