import Verif.Lib.Epa

/-!
# The polytope after an overridden direction: overlaps with a margin (library lemmas)
-/

set_option linter.unusedSectionVars false
set_option synthInstance.maxSize 1000

namespace Auburn

open V2

section
variable {K : Type} [Field K] [LinearOrder K] [IsStrictOrderedRing K] [FloatExtra K]
  [ExactFloat K] {M : Set (V2 K)} {S : V2 K → V2 K}

theorem epaInv_quad {p b x a : V2 K} (hM : ∀ q ∈ [p, b, x, a], q ∈ M)
    (hP : ∀ q ∈ [p, b, x, a], PInv M q) (hS : ∀ q ∈ [p, b, x, a], ∃ d, d ≠ 0 ∧ q = S d)
    (pb : 0 < p.cross b) (bx : 0 < b.cross x) (xa : 0 < x.cross a) (ap : 0 < a.cross p)
    (ab : 0 < a.cross b) : EpaInv M S [p, b, x, a] := by
  have hE : ∀ r s, (r, s) ∈ closedEdges [p, b, x, a] ↔
      (r, s) = (p, b) ∨ (r, s) = (b, x) ∨ (r, s) = (x, a) ∨ (r, s) = (a, p) := by
    intro r s; simp [closedEdges]
  have bp' : ¬ 0 < b.cross p := by rw [cross_anti]; linarith
  have xb' : ¬ 0 < x.cross b := by rw [cross_anti]; linarith
  have ax' : ¬ 0 < a.cross x := by rw [cross_anti]; linarith
  have pa' : ¬ 0 < p.cross a := by rw [cross_anti]; linarith
  have ba' : ¬ 0 < b.cross a := by rw [cross_anti]; linarith
  refine ⟨by simp, hM, hP, hS, ?_, ?_, ?_, ?_⟩
  · intro r s h
    rcases (hE r s).1 h with h | h | h | h <;> cases h
    exacts [Or.inl pb, Or.inl bx, Or.inl xa, Or.inl ap]
  · intro u
    by_contra hn
    have n : ∀ r s, (r, s) ∈ closedEdges [p, b, x, a] → 0 ≤ r.cross u → 0 < s.cross u := by
      intro r s h h0
      by_contra h4
      refine hn ⟨r, s, h, h0, ?_⟩
      rw [cross_anti]; linarith [not_lt.1 h4]
    have n1 := n p b (by rw [hE]; simp)
    have n2 := n b x (by rw [hE]; simp)
    have n3 := n x a (by rw [hE]; simp)
    have n4 := n a p (by rw [hE]; simp)
    have id : x.cross a * b.cross u + a.cross b * x.cross u + b.cross x * a.cross u = 0 := by
      simp only [cross_def]; ring
    rcases le_or_gt 0 (b.cross u) with hu | hu
    · have k1 := n2 hu
      have k2 := n3 k1.le
      have := mul_nonneg xa.le hu
      have := mul_pos ab k1
      have := mul_pos bx k2
      linarith
    · have k0 : p.cross u < 0 := by
        by_contra h4; exact absurd (n1 (not_lt.1 h4)) (not_lt.2 hu.le)
      have k1 : a.cross u < 0 := by
        by_contra h4; exact absurd (n4 (not_lt.1 h4)) (not_lt.2 k0.le)
      have k2 : x.cross u < 0 := by
        by_contra h4; exact absurd (n3 (not_lt.1 h4)) (not_lt.2 k1.le)
      have := mul_neg_of_pos_of_neg xa hu
      have := mul_neg_of_pos_of_neg ab k2
      have := mul_neg_of_pos_of_neg bx k1
      linarith
  · intro r s h v hv
    simp only [List.mem_cons, List.not_mem_nil, or_false] at hv
    rcases (hE r s).1 h with h | h | h | h <;> cases h <;> rcases hv with rfl | rfl | rfl | rfl <;>
      (try simp only [cross_self, lt_irrefl, false_and, and_false, not_false_eq_true]) <;> tauto
  · have e1 : p ≠ b := (show Ccw p b from Or.inl pb).ne
    have e2 : b ≠ x := (show Ccw b x from Or.inl bx).ne
    have e3 : x ≠ a := (show Ccw x a from Or.inl xa).ne
    have e4 : a ≠ p := (show Ccw a p from Or.inl ap).ne
    have e5 : a ≠ b := (show Ccw a b from Or.inl ab).ne
    have e6 : p ≠ x := by rintro rfl; exact absurd bx bp'
    simp [e1, e2, e3, e4.symm, e5.symm, e6]

/-- the geometry right after an override in the two points case -/
structure OverrideGeom (M : Set (V2 K)) (δ R : K) (a b p : V2 K) : Prop where
  hb : δ ≤ b.length
  hg : δ * b.length ≤ (-b).dot a
  hα : δ * b.length ≤ p.cross b
  hap : δ ^ 2 / 2 ≤ a.cross p
  hlen : 4 * δ ^ 2 ≤ lengthSq (b - a)
  hsmall : lengthSq (b - a) * a.cross b ^ 2 < (1 / 2 ^ 23) ^ 2
  hκ : 2 * δ * |a.cross b| < 1 / 2 ^ 23
  hT : (a - p).cross (b - p) < 0

theorem override_geom [ExactSqrt K] {δ R : K} (hδ : 0 < δ) (hD : HasDisc M δ)
    (hR : ∀ m ∈ M, m.length ≤ R) (hε : 1 / 2 ^ 23 * R ≤ δ ^ 4)
    {a b p : V2 K} (haM : IsExtreme M (-b) a) (hPb : PInv M b)
    (hs : directionTooSmall ((b - a).crossAba (-a))) (hp : IsExtreme M (-b).perp p) :
    OverrideGeom M δ R a b p := by
  have hb0 := hPb.ne_zero
  have hnb : -b ≠ 0 := neg_ne_zero.2 hb0
  have hlb := V2.length_pos.2 hb0
  have hlen : ∀ v : V2 K, lengthSq v = lengthSq b → v.length = b.length := by
    intro v h
    have h1 := V2.length_sq v
    rw [h, ← V2.length_sq b] at h1
    exact (pow_left_inj₀ (V2.length_nonneg v) (V2.length_nonneg b) (by norm_num)).1 h1
  have hlen1 := hlen (-b) (lengthSq_neg b)
  have hlen2 := hlen (-b).perp (by
      simp only [lengthSq_def, neg_x, neg_y, perp_x, perp_y]; ring)
  obtain ⟨s1, _, s1'⟩ := hD.support hδ.le hnb haM.2
  obtain ⟨s2, _, s2'⟩ := hD.support hδ.le (perp_ne hnb) hp.2
  rw [hlen1] at s1
  rw [hlen2] at s2
  have hbδ' : δ ^ 2 ≤ lengthSq b := by
    obtain ⟨u, hu1, hu2⟩ := hPb
    have hu0 : u ≠ 0 := by rintro rfl; simp at hu2
    exact (hD.support hδ.le hu0 hu1).2.2
  have hbδ : δ ≤ b.length := by
    rw [← V2.length_sq] at hbδ'
    exact (pow_le_pow_iff_left₀ hδ.le hlb.le (by norm_num)).1 hbδ'
  have hRδ : δ ≤ R := by
    refine le_trans ?_ (hR p hp.1)
    rw [← V2.length_sq] at s2'
    exact (pow_le_pow_iff_left₀ hδ.le (V2.length_nonneg p) (by norm_num)).1 s2'
  have hεδ : (1 / 2 ^ 23 : K) ≤ δ ^ 3 := by
    have h1 : (1 / 2 ^ 23 : K) * δ ≤ δ ^ 3 * δ := by
      calc (1 / 2 ^ 23 : K) * δ ≤ 1 / 2 ^ 23 * R := mul_le_mul_of_nonneg_left hRδ (by positivity)
        _ ≤ δ ^ 4 := hε
        _ = δ ^ 3 * δ := by ring
    exact le_of_mul_le_mul_right h1 hδ
  set κ := a.cross b with hκ
  set g := (-b).dot a with hg
  set α := (-b).perp.dot p with hα
  set ζ := b.dot p with hζ
  have eα : p.cross b = α := by
    rw [hα]; simp only [cross_def, dot_def, neg_x, neg_y, perp_x, perp_y]; ring
  have eP : lengthSq b * p.cross a = -(ζ * κ) - α * g := by
    rw [hζ, hκ, hα, hg]
    simp only [cross_def, dot_def, neg_x, neg_y, perp_x, perp_y, lengthSq_def]; ring
  have eT : (a - p).cross (b - p) = κ + p.cross a - α := by
    rw [← eα, hκ]; simp only [cross_def, sub_x, sub_y]; ring
  have hgδ : δ ^ 2 ≤ g := by nlinarith
  have e2 : lengthSq (b - a) = lengthSq a + lengthSq b + 2 * g := by
    rw [hg]; simp only [lengthSq_def, dot_def, sub_x, sub_y, neg_x, neg_y]; ring
  have h2 : 4 * δ ^ 2 ≤ lengthSq (b - a) := by rw [e2]; linarith
  have hsm : lengthSq (b - a) * κ ^ 2 < (1 / 2 ^ 23) ^ 2 := by
    have h1 : lengthSq ((b - a).crossAba (-a)) < FloatExtra.epsilon * FloatExtra.epsilon := hs
    have e1 : (b - a).cross (-a) = κ := by
      rw [hκ]; simp only [cross_def, sub_x, sub_y, neg_x, neg_y]; ring
    rwa [crossAba_lengthSq, e1, ExactFloat.epsilon_eq, ← sq] at h1
  have hκ1 : 2 * δ * |κ| < 1 / 2 ^ 23 := by
    have h3 : (2 * δ * |κ|) ^ 2 < (1 / 2 ^ 23) ^ 2 := by
      rw [mul_pow, sq_abs]
      have : (2 * δ) ^ 2 = 4 * δ ^ 2 := by ring
      rw [this]
      exact (mul_le_mul_of_nonneg_right h2 (sq_nonneg κ)).trans_lt hsm
    exact lt_of_pow_lt_pow_left₀ 2 (by positivity) h3
  have hκ0 := abs_nonneg κ
  have hαpos : 0 < α := (mul_pos hδ hlb).trans_le s2
  have hζκ : 2 * δ * |ζ * κ| ≤ b.length * δ ^ 4 := by
    have h1 : |ζ| ≤ b.length * R := by
      rw [abs_le]
      have h2 := V2.dot_le_length b p
      have h3 := V2.neg_length_le_dot b p
      have h4 := mul_le_mul_of_nonneg_left (hR p hp.1) hlb.le
      constructor <;> linarith
    rw [abs_mul]
    have hbR : 0 ≤ b.length * R := (abs_nonneg ζ).trans h1
    calc 2 * δ * (|ζ| * |κ|) = |ζ| * (2 * δ * |κ|) := by ring
      _ ≤ b.length * R * (1 / 2 ^ 23) := mul_le_mul h1 hκ1.le (by positivity) hbR
      _ = b.length * (1 / 2 ^ 23 * R) := by ring
      _ ≤ _ := mul_le_mul_of_nonneg_left hε hlb.le
  have hζκ' : 2 * |ζ * κ| ≤ b.length ^ 2 * δ ^ 2 := by
    have h1 : δ * (2 * |ζ * κ|) ≤ δ * (b.length * δ ^ 3) := by
      calc δ * (2 * |ζ * κ|) = 2 * δ * |ζ * κ| := by ring
        _ ≤ b.length * δ ^ 4 := hζκ
        _ = _ := by ring
    have h2 := le_of_mul_le_mul_left h1 hδ
    have h3 : b.length * δ ^ 3 ≤ b.length ^ 2 * δ ^ 2 := by
      calc b.length * δ ^ 3 = (b.length * δ ^ 2) * δ := by ring
        _ ≤ (b.length * δ ^ 2) * b.length := mul_le_mul_of_nonneg_left hbδ (by positivity)
        _ = _ := by ring
    linarith
  have hαg : δ ^ 2 * b.length ^ 2 ≤ α * g := by
    calc δ ^ 2 * b.length ^ 2 = (δ * b.length) * (δ * b.length) := by ring
      _ ≤ _ := mul_le_mul s2 s1 (by positivity) hαpos.le
  have hPa : δ ^ 2 / 2 ≤ a.cross p := by
    rw [cross_anti]
    have h1 := neg_abs_le (ζ * κ)
    have h3 : lengthSq b * (δ ^ 2 / 2) ≤ lengthSq b * -(p.cross a) := by
      have : lengthSq b * -(p.cross a) = ζ * κ + α * g := by linarith [eP]
      rw [this, ← V2.length_sq]; linarith
    exact le_of_mul_le_mul_left h3 (lengthSq_pos.2 hb0)
  have hκα : κ < α := by
    have h1 := le_abs_self κ
    have h2 : 2 * δ * |κ| < δ ^ 3 := hκ1.trans_le hεδ
    have h3 : 2 * |κ| < δ ^ 2 := by
      by_contra hn
      have h4 := mul_le_mul_of_nonneg_left (not_lt.1 hn) hδ.le
      have h5 : δ * δ ^ 2 = δ ^ 3 := by ring
      have h6 : δ * (2 * |κ|) = 2 * δ * |κ| := by ring
      rw [h5, h6] at h4
      linarith
    have h4 : δ ^ 2 ≤ δ * b.length := by rw [sq]; exact mul_le_mul_of_nonneg_left hbδ hδ.le
    linarith
  refine ⟨hbδ, s1, eα ▸ s2, hPa, h2, hsm, hκ1, ?_⟩
  rw [eT]
  have : p.cross a < 0 := by
    rw [cross_anti] at hPa
    have := pow_pos hδ 2
    linarith
  linarith

/-- the long edges are farther from the origin than the short-circuited one -/
theorem far_edge {δ R c Q D : K} (hδ : 0 < δ) (hε : 1 / 2 ^ 23 * R ≤ δ ^ 4)
    (hc : δ ^ 2 / 2 ≤ c) (hcQ : c ^ 2 ≤ Q * D) (hQ : Q ≤ 4 * R ^ 2) (hD0 : 0 ≤ D)
    (hD : 16 * δ ^ 4 * D < (1 / 2 ^ 23) ^ 2) (hRpos : 0 < R) : False := by
  have h1 : (δ ^ 2 / 2) ^ 2 ≤ 4 * R ^ 2 * D :=
    (pow_le_pow_left₀ (by positivity) hc 2).trans (hcQ.trans (mul_le_mul_of_nonneg_right hQ hD0))
  have h2 : 16 * δ ^ 4 * (δ ^ 2 / 2) ^ 2 ≤ 4 * R ^ 2 * (16 * δ ^ 4 * D) := by
    have := mul_le_mul_of_nonneg_left h1 (show (0 : K) ≤ 16 * δ ^ 4 by positivity)
    linarith
  have h3 : 4 * R ^ 2 * (16 * δ ^ 4 * D) < 4 * R ^ 2 * (1 / 2 ^ 23) ^ 2 :=
    mul_lt_mul_of_pos_left hD (by positivity)
  have h4 : (1 / 2 ^ 23 * R) ^ 2 ≤ (δ ^ 4) ^ 2 := pow_le_pow_left₀ (by positivity) hε 2
  have e1 : 16 * δ ^ 4 * (δ ^ 2 / 2) ^ 2 = 4 * (δ ^ 4) ^ 2 := by ring
  have e2 : 4 * R ^ 2 * (1 / 2 ^ 23) ^ 2 = 4 * (1 / 2 ^ 23 * R) ^ 2 := by ring
  linarith

theorem HasDisc.pinv [ExactSqrt K] {δ : K} (hδ : 0 < δ) (hD : HasDisc M δ) {d e : V2 K} (hd : d ≠ 0)
    (he : IsExtreme M d e) : PInv M e := by
  refine ⟨d, he.2, ?_⟩
  have := (hD.support hδ.le hd he.2).1
  have := mul_pos hδ (V2.length_pos.2 hd)
  linarith

/-- after the override: the polytope search behaves as on a polygon around the origin -/
theorem epa_after_override [ExactSqrt K] {δ R : K} (hδ : 0 < δ) (hD : HasDisc M δ)
    (hR : ∀ m ∈ M, m.length ≤ R) (hε : 1 / 2 ^ 23 * R ≤ δ ^ 4) (hS : ∀ d, IsExtreme M d (S d))
    {b : V2 K} (hbM : b ∈ M) (hPb : PInv M b) (hSb : ∃ d, d ≠ 0 ∧ b = S d)
    (hs : directionTooSmall ((b - S (-b)).crossAba (-(S (-b))))) :
    ∃ pts, enforceCcw [S (-b).perp, S (-b), b] = .ok pts ∧
      ∀ n v, epa S (n + 1) pts = .ok v → EpaGood M v ∨ v = 0 ∧ ManySupport S (3 + (n + 1)) := by
  have hg := override_geom hδ hD hR hε (hS (-b)) hPb hs (hS (-b).perp)
  set a := S (-b) with ha
  set p := S (-b).perp with hp
  have hb0 := hPb.ne_zero
  have hnb : -b ≠ 0 := neg_ne_zero.2 hb0
  have hlb := V2.length_pos.2 hb0
  have hPa : PInv M a := hD.pinv hδ hnb (hS (-b))
  have hPp : PInv M p := hD.pinv hδ (perp_ne hnb) (hS _)
  have hpb : 0 < p.cross b := (mul_pos hδ hlb).trans_le hg.hα
  have hδ2 := pow_pos hδ 2
  have hap : 0 < a.cross p := by linarith [hg.hap]
  have hgpos : 0 < (-b).dot a := (mul_pos hδ hlb).trans_le hg.hg
  have hRpos : 0 < R := hlb.trans_le (hR b hbM)
  refine ⟨[p, b, a], ?_, ?_⟩
  · simp only [enforceCcw]; rw [if_neg (not_lt.2 hg.hT.le)]
  intro n v hv
  have hSa : ∃ d, d ≠ 0 ∧ a = S d := ⟨_, hnb, rfl⟩
  have hSp : ∃ d, d ≠ 0 ∧ p = S d := ⟨_, perp_ne hnb, rfl⟩
  by_cases hκ : a.cross b ≤ 0
  · -- already around the origin
    have hI : EpaInv M S [p, b, a] := by
      apply epaInv_triangle _ _ _ hpb hap
      · rcases hκ.lt_or_eq with h | h
        · left; rw [cross_anti]; linarith
        · right
          rw [neg_dot] at hgpos
          exact ⟨by rw [cross_anti, h, neg_zero], by linarith⟩
      · intro q hq
        simp only [List.mem_cons, List.not_mem_nil, or_false] at hq
        rcases hq with rfl | rfl | rfl
        exacts [(hS _).1, hbM, (hS _).1]
      · intro q hq
        simp only [List.mem_cons, List.not_mem_nil, or_false] at hq
        rcases hq with rfl | rfl | rfl
        exacts [hPp, hPb, hPa]
      · intro q hq
        simp only [List.mem_cons, List.not_mem_nil, or_false] at hq
        rcases hq with rfl | rfl | rfl
        exacts [hSp, hSb, hSa]
    exact epa_spec hS (n + 1) _ hI v hv
  · have hκ := not_le.1 hκ
    rw [neg_dot] at hgpos
    have hba : b ≠ a := (show Ccw a b from Or.inl hκ).ne.symm
    -- the first step takes edge (b, a)
    have hfoot := edgeDistSq_foot (a := b) (b := a) (by linarith) hba
    have hD0 := edgeDistSq_nonneg b a
    have hDs : 16 * δ ^ 4 * edgeDistSq b a < (1 / 2 ^ 23) ^ 2 := by
      refine lt_of_le_of_lt ?_ hg.hsmall
      rw [cross_anti, neg_sq, ← hfoot, lengthSq_sub_comm b a]
      have h1 : (4 * δ ^ 2) * (4 * δ ^ 2) ≤ lengthSq (a - b) * lengthSq (a - b) := by
        have := hg.hlen
        rw [lengthSq_sub_comm] at this
        exact mul_le_mul this this (by positivity) (lengthSq_nonneg _)
      have := mul_le_mul_of_nonneg_right h1 hD0
      linarith
    have hsub : ∀ x ∈ M, ∀ y ∈ M, lengthSq (x - y) ≤ 4 * R ^ 2 := by
      intro x hx y hy
      have e1 : lengthSq (x - y) = 2 * lengthSq x + 2 * lengthSq y - lengthSq (x + y) := by
        simp only [lengthSq_def, sub_x, sub_y, add_x, add_y]; ring
      have h1 := pow_le_pow_left₀ (V2.length_nonneg x) (hR x hx) 2
      have h2 := pow_le_pow_left₀ (V2.length_nonneg y) (hR y hy) 2
      rw [V2.length_sq] at h1 h2
      have := lengthSq_nonneg (x + y)
      linarith
    have hf1 : edgeDistSq b a < edgeDistSq p b := by
      by_contra hn
      have h1 := edgeDistSq_ge p b
      have h2 := mul_le_mul_of_nonneg_left (not_lt.1 hn) (lengthSq_nonneg (b - p))
      refine far_edge hδ hε ?_ (h1.trans h2) (hsub b hbM p (hS _).1) hD0 hDs hRpos
      have := mul_le_mul_of_nonneg_left hg.hb hδ.le
      have := hg.hα
      nlinarith
    have hf2 : edgeDistSq b a < edgeDistSq a p := by
      by_contra hn
      have h1 := edgeDistSq_ge a p
      have h2 := mul_le_mul_of_nonneg_left (not_lt.1 hn) (lengthSq_nonneg (p - a))
      exact far_edge hδ hε hg.hap (h1.trans h2) (hsub p (hS _).1 a (hS _).1) hD0 hDs hRpos
    obtain ⟨f1, f2⟩ := findClosestEdge_spec (pts := [p, b, a]) (by simp)
    have hidx : (findClosestEdge [p, b, a]).index = 1 ∧ (findClosestEdge [p, b, a]).a = b ∧
        (findClosestEdge [p, b, a]).b = a := by
      have hce : closedEdges [p, b, a] = [(p, b), (b, a), (a, p)] := by simp [closedEdges]
      rw [hce] at f1 f2
      have f3 := f2 (b, a) (by simp)
      match hi : (findClosestEdge [p, b, a]).index with
      | 0 =>
        rw [hi] at f1
        simp only [List.getElem?_cons_zero, Option.some.injEq, Prod.mk.injEq] at f1
        rw [← f1.1, ← f1.2] at f3
        exact absurd f3 (not_le.2 hf1)
      | 1 =>
        rw [hi] at f1
        simp only [List.getElem?_cons_succ, List.getElem?_cons_zero, Option.some.injEq,
          Prod.mk.injEq] at f1
        exact ⟨rfl, f1.1.symm, f1.2.symm⟩
      | 2 =>
        rw [hi] at f1
        simp only [List.getElem?_cons_succ, List.getElem?_cons_zero, Option.some.injEq,
          Prod.mk.injEq] at f1
        rw [← f1.1, ← f1.2] at f3
        exact absurd f3 (not_le.2 hf2)
      | k + 3 =>
        rw [hi] at f1
        simp at f1
    obtain ⟨i1, i2, i3⟩ := hidx
    simp only [epa] at hv
    rw [i1, i2, i3] at hv
    have hnz := normal_ne hba
    set x := S (a - b).perpRight with hx
    have hxe := hS (a - b).perpRight
    have hfit : x.dot (a - b).perpRight = b.cross x + x.cross a := by
      rw [dot_comm, normal_dot]
    have hbeat : b.dot (a - b).perpRight = b.cross a := by
      rw [dot_comm, normal_dot_left]
    have hf2δ : 2 * δ ^ 2 ≤ b.cross x + x.cross a := by
      have h1 := (hD.support hδ.le hnz hxe.2).1
      rw [dot_comm, hfit] at h1
      refine le_trans ?_ h1
      have h2 : 2 * δ ≤ (a - b).perpRight.length := by
        apply (pow_le_pow_iff_left₀ (by positivity) (V2.length_nonneg _) (two_ne_zero)).1
        rw [V2.length_sq, normal_lengthSq, lengthSq_sub_comm]
        have := hg.hlen
        linarith
      have := mul_le_mul_of_nonneg_left h2 hδ.le
      linarith
    obtain ⟨t0, t1⟩ := tol_bounds (K := K)
    have hbet : sufficientlyBetter (x.dot (a - b).perpRight) (b.dot (a - b).perpRight)
        FloatExtra.tol := by
      rw [hfit, hbeat]
      unfold sufficientlyBetter
      have hneg : b.cross a < 0 := by rw [cross_anti]; linarith
      rw [if_neg (by linarith)]
      have : b.cross a * (1 - FloatExtra.tol) ≤ 0 :=
        mul_nonpos_of_nonpos_of_nonneg hneg.le (by linarith)
      show _ < _
      linarith
    rw [if_neg (not_not.2 hbet), if_pos (by simp)] at hv
    -- both new edges turn counter-clockwise
    have hκR : a.cross b * R < 2 * δ ^ 3 := by
      by_contra hn
      have h1 := mul_le_mul_of_nonneg_left (not_lt.1 hn) hδ.le
      have h2 := hg.hκ
      rw [abs_of_pos hκ] at h2
      have h3 := mul_lt_mul_of_pos_right h2 hRpos
      have e1 : δ * (2 * δ ^ 3) = 2 * δ ^ 4 := by ring
      have h4 := pow_pos hδ 4
      nlinarith
    have id1 : a.cross b * b.dot x = -(x.cross a * lengthSq b) - b.cross x * b.dot a := by
      simp only [cross_def, dot_def, lengthSq_def]; ring
    have hxR : |b.dot x| ≤ b.length * R := by
      rw [abs_le]
      have h2 := V2.dot_le_length b x
      have h3 := V2.neg_length_le_dot b x
      have h4 := mul_le_mul_of_nonneg_left (hR x hxe.1) hlb.le
      constructor <;> linarith
    obtain ⟨r1, r2⟩ := abs_le.1 hxR
    have hgb := hg.hg
    rw [neg_dot] at hgb
    have bx : 0 < b.cross x := by
      by_contra hn
      have hn := not_lt.1 hn
      have hX : 2 * δ ^ 2 ≤ x.cross a := by linarith
      have h1 : 0 ≤ b.cross x * b.dot a := mul_nonneg_of_nonpos_of_nonpos hn (by linarith)
      have h2 : a.cross b * -(b.length * R) ≤ a.cross b * b.dot x :=
        mul_le_mul_of_nonneg_left r1 hκ.le
      have h3 : x.cross a * lengthSq b ≤ a.cross b * R * b.length := by linarith
      have h4 : 2 * δ ^ 3 * b.length ≤ x.cross a * lengthSq b := by
        rw [← V2.length_sq]
        calc 2 * δ ^ 3 * b.length = 2 * δ ^ 2 * (δ * b.length) := by ring
          _ ≤ x.cross a * (b.length * b.length) :=
            mul_le_mul hX (mul_le_mul_of_nonneg_right hg.hb hlb.le) (by positivity) (by linarith)
          _ = _ := by ring
      have h5 := mul_lt_mul_of_pos_right hκR hlb
      linarith
    have xa : 0 < x.cross a := by
      by_contra hn
      have hn := not_lt.1 hn
      have hY : 2 * δ ^ 2 ≤ b.cross x := by linarith
      have h1 : x.cross a * lengthSq b ≤ 0 :=
        mul_nonpos_of_nonpos_of_nonneg hn (lengthSq_nonneg b)
      have h2 : a.cross b * b.dot x ≤ a.cross b * (b.length * R) :=
        mul_le_mul_of_nonneg_left r2 hκ.le
      have h4 : 2 * δ ^ 3 * b.length ≤ b.cross x * -(b.dot a) := by
        calc 2 * δ ^ 3 * b.length = 2 * δ ^ 2 * (δ * b.length) := by ring
          _ ≤ b.cross x * -(b.dot a) := mul_le_mul hY hgb (by positivity) (by linarith)
      have h5 := mul_lt_mul_of_pos_right hκR hlb
      linarith
    have hI : EpaInv M S [p, b, x, a] := by
      apply epaInv_quad _ _ _ hpb bx xa hap hκ
      · intro q hq
        simp only [List.mem_cons, List.not_mem_nil, or_false] at hq
        rcases hq with rfl | rfl | rfl | rfl
        exacts [(hS _).1, hbM, (hS _).1, (hS _).1]
      · intro q hq
        simp only [List.mem_cons, List.not_mem_nil, or_false] at hq
        rcases hq with rfl | rfl | rfl | rfl
        exacts [hPp, hPb, hD.pinv hδ hnz hxe, hPa]
      · intro q hq
        simp only [List.mem_cons, List.not_mem_nil, or_false] at hq
        rcases hq with rfl | rfl | rfl | rfl
        exacts [hSp, hSb, ⟨_, hnz, rfl⟩, hSa]
    have hins : [p, b, a].insertIdx (1 + 1) x = [p, b, x, a] := rfl
    rw [hins] at hv
    rcases epa_spec hS n _ hI v hv with h | h
    · exact Or.inl h
    · right
      have : 3 + (n + 1) = [p, b, x, a].length + n := by simp; omega
      rw [this]; exact h


/-- With a margin, the vector of `penetrates` is right, up to the iteration limit. -/
theorem gjkPenetrate_margin_epa [ExactSqrt K] {δ R : K} (hδ : 0 < δ) (hD : HasDisc M δ)
    (hR : ∀ m ∈ M, m.length ≤ R) (hε : 1 / 2 ^ 23 * R ≤ δ ^ 4) (hM : Convex K M)
    (hS : ∀ d, IsExtreme M d (S d)) :
    ∀ (n : Nat) (L : List (V2 K)) (d : V2 K) (pts : List (V2 K)), GInv M L d pts →
      (∀ e ∈ pts, ∃ d, d ≠ 0 ∧ e = S d) → LongEdge δ pts →
      ∀ r, gjkPenetrate S n d pts = .ok r → r.1 = true →
      EpaGood M r.2 ∨ r.2 = 0 ∧ ManySupport S (3 + iterationLimit) := by
  have hRδ : δ ≤ R := by
    have h1 : (⟨1, 0⟩ : V2 K) ≠ 0 := by
      intro h; have := congrArg V2.x h; simp at this
    obtain ⟨_, _, s2'⟩ := hD.support hδ.le h1 (hS ⟨1, 0⟩).2
    refine le_trans ?_ (hR _ (hS ⟨1, 0⟩).1)
    rw [← V2.length_sq] at s2'
    exact (pow_le_pow_iff_left₀ hδ.le (V2.length_nonneg _) (by norm_num)).1 s2'
  have hεδ : (1 / 2 ^ 23 : K) ≤ δ ^ 3 := by
    have h1 : (1 / 2 ^ 23 : K) * δ ≤ δ ^ 3 * δ := by
      calc (1 / 2 ^ 23 : K) * δ ≤ 1 / 2 ^ 23 * R := mul_le_mul_of_nonneg_left hRδ (by positivity)
        _ ≤ δ ^ 4 := hε
        _ = δ ^ 3 * δ := by ring
    exact le_of_mul_le_mul_right h1 hδ
  have hpos : ∀ d : V2 K, d ≠ 0 → ¬ (S d).dot d ≤ 0 := by
    intro d hd h
    obtain ⟨s1, _, _⟩ := hD.support hδ.le hd (hS d).2
    rw [dot_comm] at h
    have := mul_pos hδ (V2.length_pos.2 hd)
    linarith
  intro n
  induction n with
  | zero =>
    intro L d pts _ _ _ r hr ht
    simp only [gjkPenetrate, Except.ok.injEq] at hr
    subst hr; simp at ht
  | succ n ih =>
    intro L d pts hI hLS hlong r hr ht
    have h1 := hpos d hI.dir_ne
    obtain ⟨q, hq, hok⟩ := hI.step hM (hS d) (not_le.1 h1)
    have hSd : ∃ d', d' ≠ 0 ∧ S d = S d' := ⟨d, hI.dir_ne, rfl⟩
    cases hc : q.collides with
    | true =>
      obtain ⟨pts', hp1, hp2, hp3⟩ := hI.hit_epa (hS d) (not_le.1 h1) hq hc hSd hLS
      obtain ⟨_, hv⟩ := penetrate_hit_epa h1 hq hc hp1 hr
      have := epa_spec hS iterationLimit pts' hp3 _ hv
      rwa [hp2] at this
    | false =>
      simp only [gjkPenetrate] at hr
      rw [if_neg h1, hq] at hr
      simp only at hr
      rw [if_neg (by simp [hc])] at hr
      have hsub : ∀ e ∈ q.pts, ∃ d, d ≠ 0 ∧ e = S d := by
        intro e he
        rcases addPoint_pts_sub hq e he with rfl | he
        · exact hSd
        · exact hLS e he
      have hnext : ¬ directionTooSmall q.dir → GInv M (S d :: L) (overrideDir d q.dir) q.pts := by
        intro h4
        have e0 : overrideDir d q.dir = q.dir := if_neg h4
        rw [e0]; exact hok.next hc (not_tooSmall_ne h4)
      cases hI with
      | start d hd =>
        simp only [addPoint, Except.ok.injEq] at hq
        subst hq
        refine ih _ _ _ (hnext fun h4 => ?_) hsub (by intro b c h; simp at h) r hr ht
        have h5 : lengthSq (-(S d)) < FloatExtra.epsilon * FloatExtra.epsilon := h4
        obtain ⟨_, _, s3⟩ := hD.support hδ.le hd (hS d).2
        rw [ExactFloat.epsilon_eq, ← sq, lengthSq_neg] at h5
        have h6 : δ < 1 / 2 ^ 23 :=
          lt_of_pow_lt_pow_left₀ 2 (by positivity) (s3.trans_lt h5)
        have h7 : δ ^ 3 ≤ δ := by
          have : δ ≤ 1 := h6.le.trans (by norm_num)
          calc δ ^ 3 ≤ δ ^ 1 := pow_le_pow_of_le_one hδ.le this (by norm_num)
            _ = δ := pow_one δ
        linarith
      | point b hb hP =>
        have ha : 0 < (-b).dot (S (-b)) := by rw [dot_comm]; exact not_le.1 h1
        have h2 : (b - S (-b)).dot (-(S (-b))) ≥ 0 := by
          rw [dot_neg, sub_dot, dot_self]
          rw [neg_dot] at ha
          have := lengthSq_nonneg (S (-b))
          show 0 ≤ _
          linarith
        simp only [addPoint] at hq
        rw [if_pos h2] at hq
        simp only [Except.ok.injEq] at hq
        by_cases h4 : directionTooSmall q.dir
        · -- the override; the next iteration captures
          have e0 : overrideDir (-b) q.dir = (-b).perp := if_pos h4
          rw [e0] at hr
          have e1 : q.pts = [S (-b), b] := by rw [← hq]
          have e2 : directionTooSmall ((b - S (-b)).crossAba (-(S (-b)))) := by
            rw [← hq] at h4; exact h4
          rw [e1] at hr
          cases n with
          | zero =>
            simp only [gjkPenetrate, Except.ok.injEq] at hr
            subst hr; simp at ht
          | succ m =>
            obtain ⟨q2, hq2, hc2, hq2p⟩ := capture_after_override hδ hD hR hε (hS (-b)) hP e2
              (hS (-b).perp)
            obtain ⟨pts', he1, he2⟩ := epa_after_override hδ hD hR hε hS hb hP (hLS b (by simp)) e2
            obtain ⟨_, hv⟩ := penetrate_hit_epa (hpos _ (perp_ne (neg_ne_zero.2 hP.ne_zero))) hq2 hc2
              (by rw [hq2p]; exact he1) hr
            exact he2 19 _ hv
        · refine ih _ _ _ (hnext h4) hsub ?_ r hr ht
          rw [← hq]
          intro u v huv
          simp only [List.cons.injEq, and_true] at huv
          obtain ⟨rfl, rfl⟩ := huv
          obtain ⟨_, _, s3⟩ := hD.support hδ.le (neg_ne_zero.2 hP.ne_zero) (hS (-b)).2
          have e2 : lengthSq (S (-b) - b) = lengthSq (S (-b)) + lengthSq b +
              2 * (-b).dot (S (-b)) := by
            simp only [lengthSq_def, dot_def, sub_x, sub_y, neg_x, neg_y]; ring
          rw [e2]
          have := lengthSq_nonneg b
          linarith
      | edge L d b c h =>
        have ha : 0 < d.dot (S d) := by rw [dot_comm]; exact not_le.1 h1
        have hlen := hlong b c rfl
        obtain ⟨k1, k2⟩ := h.not_small hδ hεδ hD hlen (hS d) ha
        obtain ⟨k3, k4⟩ := h.symm.not_small hδ hεδ hD (by rwa [lengthSq_sub_comm]) (hS d) ha
        have eq1 : (b - S d).crossF32 ((b - S d).cross (c - S d)) = outNormal (S d) b c := rfl
        simp only [addPoint, acPerp_eq, eq1] at hq
        have hL1 : LongEdge δ [S d, b] := by
          intro u v huv
          simp only [List.cons.injEq, and_true] at huv
          obtain ⟨rfl, rfl⟩ := huv
          exact k2
        have hL2 : LongEdge δ [S d, c] := by
          intro u v huv
          simp only [List.cons.injEq, and_true] at huv
          obtain ⟨rfl, rfl⟩ := huv
          exact k4
        split_ifs at hq <;> simp only [Except.ok.injEq] at hq <;> subst hq
        · exact ih _ _ _ (hnext k1) hsub hL1 r hr ht
        · exact ih _ _ _ (hnext k3) hsub hL2 r hr ht
        · exact ih _ _ _ (hnext k3) hsub hL2 r hr ht
        · simp at hc

/-- any run: a non-zero vector comes from a converged polytope search and separates -/
theorem epa_separates (hS : ∀ d, IsExtreme M d (S d)) : ∀ (n : Nat) (pts : List (V2 K)) (v : V2 K),
    epa S n pts = .ok v → v ≠ 0 → Separates M v := by
  intro n
  induction n with
  | zero =>
    intro pts v hv h0
    simp only [epa, Except.ok.injEq] at hv
    exact absurd hv.symm h0
  | succ n ih =>
    intro pts v hv h0
    simp only [epa] at hv
    split_ifs at hv with h1 h2
    · exact ih _ _ hv h0
    · simp only [Except.ok.injEq] at hv
      have hnz : ((findClosestEdge pts).b - (findClosestEdge pts).a).perpRight ≠ 0 := by
        intro hz
        rw [hz] at hv
        apply h0
        rw [← hv]; ext <;> simp
      rw [← hv]
      exact converged_vector hnz (hS _).2

theorem gjkPenetrate_separates (hS : ∀ d, IsExtreme M d (S d)) :
    ∀ (n : Nat) (d : V2 K) (pts : List (V2 K)) r, gjkPenetrate S n d pts = .ok r → r.1 = true →
      r.2 ≠ 0 → Separates M r.2 := by
  intro n
  induction n with
  | zero =>
    intro d pts r hr ht
    simp only [gjkPenetrate, Except.ok.injEq] at hr
    subst hr; simp at ht
  | succ n ih =>
    intro d pts r hr ht h0
    simp only [gjkPenetrate] at hr
    by_cases h1 : (S d).dot d ≤ 0
    · rw [if_pos h1] at hr
      simp only [Except.ok.injEq] at hr
      subst hr; simp at ht
    · rw [if_neg h1] at hr
      split at hr
      · cases hr
      · split_ifs at hr with h2
        · split at hr
          · cases hr
          · split at hr
            · cases hr
            · next hv =>
              simp only [Except.ok.injEq] at hr
              subst hr
              exact epa_separates hS _ _ _ hv h0
        · exact ih _ _ _ hr ht h0

end
end Auburn
