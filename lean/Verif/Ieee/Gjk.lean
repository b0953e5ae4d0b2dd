import Verif.Ieee.Grid

/-!
# The simplex searches on binary32, on a dyadic grid (library lemmas)

The run on binary32 is followed by a run on exact reals ("ghost" values); on the grid every decision
of the two agrees.
-/

set_option linter.unusedSectionVars false
set_option synthInstance.maxSize 1000

namespace Auburn

open F32 V2

section
variable [env : F32Env] [FloatExtra ℝ] [ExactFloat ℝ]

/-- pointwise representation of a list of points -/
def IsL (l : List (V2 F32)) (m : List (V2 ℝ)) : Prop := List.Forall₂ V2.Is l m

theorem isL_cons {a : V2 F32} {l : List (V2 F32)} {m : List (V2 ℝ)} :
    IsL (a :: l) m ↔ ∃ b m', a.Is b ∧ IsL l m' ∧ m = b :: m' := by
  unfold IsL
  rw [List.forall₂_cons_left_iff]

/-- one `add_point` on binary32 mirrors the exact one on the grid -/
theorem addPoint_f32 {k B : ℤ} (hB : B ≤ 32) (hk1 : -7 ≤ k) (hk2 : k ≤ 12)
    {pts' : List (V2 F32)} {pts : List (V2 ℝ)} (hl : IsL pts' pts) (hg : ∀ p ∈ pts, p.GV k B)
    {a' : V2 F32} {a : V2 ℝ} (ha : a'.Is a) (hga : a.GV k B) {r : AddResult ℝ}
    (hr : addPoint pts a = .ok r) :
    ∃ r' : AddResult F32, addPoint pts' a' = .ok r' ∧ r'.collides = r.collides ∧
      IsL r'.pts r.pts ∧ (∀ p ∈ r.pts, p.GV k B) ∧
      (r.collides = false → r'.dir.Is r.dir ∧ DirOk B r.dir) := by
  have hB0 : 0 ≤ B := hga.1.nonneg
  have hB2 : B ^ 2 ≤ 2 ^ 10 := by nlinarith
  have hB3 : B ^ 3 ≤ 2 ^ 15 := by
    have := mul_le_mul hB2 hB hB0 (by norm_num)
    calc B ^ 3 = B ^ 2 * B := by ring
      _ ≤ _ := this
      _ = _ := by norm_num
  have hB4 : B ^ 4 ≤ 2 ^ 20 := by
    have := mul_le_mul hB2 hB2 (sq_nonneg B) (by norm_num)
    calc B ^ 4 = B ^ 2 * B ^ 2 := by ring
      _ ≤ _ := this
      _ = _ := by norm_num
  have hao : (-a').Is (-a) := ha.neg
  have hgao := hga.neg
  have hdir0 : DirOk B (-a) := ⟨k, B, hgao, by
    have : B * B = B ^ 2 := by ring
    rw [this]; omega, by omega, by omega⟩
  have hsub : ∀ {b' : V2 F32} {b : V2 ℝ}, b'.Is b → b.GV k B → (b' - a').Is (b - a) := by
    intro b' b hb hgb
    exact hb.sub ha (hgb.sub hga) (by omega) (by omega) (by omega)
  -- `cross_f32`
  have hnormal : ∀ {b' c' : V2 F32} {b c : V2 ℝ}, b'.Is b → b.GV k B → c'.Is c → c.GV k B →
      F32.Is ((b' - a').cross (c' - a')) ((b - a).cross (c - a)) ∧
      ((b' - a').crossF32 ((b' - a').cross (c' - a'))).Is (outNormal a b c) ∧
      (outNormal a b c).GV (3 * k) (8 * B ^ 3) := by
    intro b' c' b c hb hgb hc hgc
    have h1 := hsub hb hgb
    have h2 := hsub hc hgc
    have g1 := hgb.sub hga
    have g2 := hgc.sub hga
    have hx : F32.Is ((b' - a').cross (c' - a')) ((b - a).cross (c - a)) :=
      is_cross h1 h2 g1 g2 (by nlinarith) (by omega) (by omega)
    have gx := gz_triangle hga hgb hgc
    have gn : (outNormal a b c).GV (3 * k) (8 * B ^ 3) := by
      constructor
      · have := g1.2.mul gx
        rw [show k + 2 * k = 3 * k by ring, show (B + B) * (4 * B ^ 2) = 8 * B ^ 3 by ring] at this
        exact this
      · have := g1.1.neg.mul gx
        rw [show k + 2 * k = 3 * k by ring, show (B + B) * (4 * B ^ 2) = 8 * B ^ 3 by ring] at this
        exact this
    exact ⟨hx, ⟨is_mul h1.2 hx (gn.1.rep (by omega) (by omega) (by omega)),
      is_mul (is_neg h1.1) hx (gn.2.rep (by omega) (by omega) (by omega))⟩, gn⟩
  have hdirN : ∀ {n : V2 ℝ}, n.GV (3 * k) (8 * B ^ 3) → DirOk B n := by
    intro n hn
    exact ⟨3 * k, 8 * B ^ 3, hn, by
      have : 8 * B ^ 3 * B = 8 * B ^ 4 := by ring
      rw [this]; omega, by omega, by omega⟩
  -- `crossSV`
  have hnormal2 : ∀ {b' c' : V2 F32} {b c : V2 ℝ}, b'.Is b → b.GV k B → c'.Is c → c.GV k B →
      (crossSV ((b' - a').cross (c' - a')) (c' - a')).Is (outNormal a c b) ∧
      (outNormal a c b).GV (3 * k) (8 * B ^ 3) := by
    intro b' c' b c hb hgb hc hgc
    obtain ⟨hx, _, _⟩ := hnormal hb hgb hc hgc
    obtain ⟨_, _, gn⟩ := hnormal hc hgc hb hgb
    have h2 := hsub hc hgc
    have e : outNormal a c b = crossSV ((b - a).cross (c - a)) (c - a) := (acPerp_eq a b c).symm
    refine ⟨?_, gn⟩
    rw [e] at gn ⊢
    exact ⟨is_mul (is_neg hx) h2.2 (gn.1.rep (by omega) (by omega) (by omega)),
      is_mul hx h2.1 (gn.2.rep (by omega) (by omega) (by omega))⟩
  have hsame : ∀ {n' : V2 F32} {n : V2 ℝ}, n'.Is n → DirOk B n →
      (sameDirection n' (-a') ↔ sameDirection n (-a)) := by
    intro n' n hn hd
    have := (hd.dot hn hao hgao (by omega) hk2).1
    exact le_iff is_zero this
  match pts', pts, hl, hg with
  | [], [], _, _ =>
    simp only [addPoint, Except.ok.injEq] at hr
    subst hr
    exact ⟨⟨false, -a', [a']⟩, rfl, rfl, .cons ha .nil, by simpa using hga, fun _ => ⟨hao, hdir0⟩⟩
  | [b'], [b], hl, hg =>
    have hb : b'.Is b := by
      cases hl with
      | cons h _ => exact h
    have hgb := hg b (by simp)
    have hab := hsub hb hgb
    have gab := hgb.sub hga
    have hdot : F32.Is ((b' - a').dot (-a')) ((b - a).dot (-a)) :=
      is_dot hab hao gab hgao (by nlinarith) (by omega) (by omega)
    have hiff : (b' - a').dot (-a') ≥ 0 ↔ (b - a).dot (-a) ≥ 0 := le_iff is_zero hdot
    have hl2 : IsL [a', b'] [a, b] := .cons ha (.cons hb .nil)
    have hg2 : ∀ p ∈ [a, b], p.GV k B := by simpa using ⟨hga, hgb⟩
    simp only [addPoint] at hr ⊢
    by_cases h : (b - a).dot (-a) ≥ 0
    · rw [if_pos h] at hr
      simp only [Except.ok.injEq] at hr
      subst hr
      rw [if_pos (hiff.2 h)]
      refine ⟨_, rfl, rfl, hl2, hg2, fun _ => ?_⟩
      have hz : (0 : V2 ℝ).GV k B := ⟨GZ.zero k hB0, GZ.zero k hB0⟩
      have hx : F32.Is ((b' - a').cross (-a')) ((b - a).cross (-a)) :=
        is_cross hab hao gab hgao (by nlinarith) (by omega) (by omega)
      have gx : GZ (2 * k) (4 * B ^ 2) ((b - a).cross (-a)) := by
        have := gz_triangle hga hgb hz
        rwa [zero_sub] at this
      have gn : ((b - a).crossAba (-a)).GV (3 * k) (8 * B ^ 3) := by
        constructor
        · have := gab.2.neg.mul gx
          rw [show k + 2 * k = 3 * k by ring, show (B + B) * (4 * B ^ 2) = 8 * B ^ 3 by ring] at this
          exact this
        · have := gab.1.mul gx
          rw [show k + 2 * k = 3 * k by ring, show (B + B) * (4 * B ^ 2) = 8 * B ^ 3 by ring] at this
          exact this
      exact ⟨⟨is_mul (is_neg hab.2) hx (gn.1.rep (by omega) (by omega) (by omega)),
        is_mul hab.1 hx (gn.2.rep (by omega) (by omega) (by omega))⟩, hdirN gn⟩
    · rw [if_neg h] at hr
      simp only [Except.ok.injEq] at hr
      subst hr
      rw [if_neg (fun h' => h (hiff.1 h'))]
      exact ⟨_, rfl, rfl, hl2, hg2, fun _ => ⟨hao, hdir0⟩⟩
  | [b', c'], [b, c], hl, hg =>
    obtain ⟨hb, hc⟩ : b'.Is b ∧ c'.Is c := by
      cases hl with
      | cons h h2 =>
        cases h2 with
        | cons h3 _ => exact ⟨h, h3⟩
    have hgb := hg b (by simp)
    have hgc := hg c (by simp)
    obtain ⟨_, n1, g1⟩ := hnormal hb hgb hc hgc
    obtain ⟨n2, g2⟩ := hnormal2 hb hgb hc hgc
    have hab := hsub hb hgb
    have gab := hgb.sub hga
    have i1 := hsame n1 (hdirN g1)
    have i2 := hsame n2 (hdirN g2)
    have i3 : sameDirection (b' - a') (-a') ↔ sameDirection (b - a) (-a) :=
      le_iff is_zero (is_dot hab hao gab hgao (by nlinarith) (by omega) (by omega))
    have lb : IsL [a', b'] [a, b] := .cons ha (.cons hb .nil)
    have lc : IsL [a', c'] [a, c] := .cons ha (.cons hc .nil)
    have lbc : IsL [a', b', c'] [a, b, c] := .cons ha (.cons hb (.cons hc .nil))
    have eq1 : (b - a).crossF32 ((b - a).cross (c - a)) = outNormal a b c := rfl
    simp only [addPoint, acPerp_eq, eq1] at hr
    simp only [addPoint]
    by_cases s1 : sameDirection (outNormal a b c) (-a)
    · rw [if_pos s1] at hr
      rw [if_pos (i1.2 s1)]
      by_cases s3 : sameDirection (b - a) (-a)
      · rw [if_pos s3] at hr
        simp only [Except.ok.injEq] at hr
        subst hr
        rw [if_pos (i3.2 s3)]
        exact ⟨_, rfl, rfl, lb, by simpa using ⟨hga, hgb⟩, fun _ => ⟨n1, hdirN g1⟩⟩
      · rw [if_neg s3] at hr
        simp only [Except.ok.injEq] at hr
        subst hr
        rw [if_neg (fun h => s3 (i3.1 h))]
        exact ⟨_, rfl, rfl, lc, by simpa using ⟨hga, hgc⟩, fun _ => ⟨n2, hdirN g2⟩⟩
    · rw [if_neg s1] at hr
      rw [if_neg (fun h => s1 (i1.1 h))]
      by_cases s2 : sameDirection (outNormal a c b) (-a)
      · rw [if_pos s2] at hr
        simp only [Except.ok.injEq] at hr
        subst hr
        rw [if_pos (i2.2 s2)]
        exact ⟨_, rfl, rfl, lc, by simpa using ⟨hga, hgc⟩, fun _ => ⟨n2, hdirN g2⟩⟩
      · rw [if_neg s2] at hr
        simp only [Except.ok.injEq] at hr
        subst hr
        rw [if_neg (fun h => s2 (i2.1 h))]
        exact ⟨_, rfl, rfl, lbc, by simpa using ⟨hga, hgb, hgc⟩, by simp⟩
  | _ :: _ :: _ :: _, _ :: _ :: _ :: _, _, _ => simp [addPoint] at hr

/-- a support function on binary32 for the convex set `M`: on exact directions it returns a
farthest point of `M`, one of the listed grid points -/
def Support32 (k B : ℤ) (M : Set (V2 ℝ)) (V : List (V2 ℝ)) (S : V2 F32 → V2 F32) : Prop :=
  ∀ (d' : V2 F32) (d : V2 ℝ), d'.Is d → DirOk B d →
    ∃ p ∈ V, (S d').Is p ∧ IsExtreme M d p ∧ p.GV k B

variable {M : Set (V2 ℝ)} {V : List (V2 ℝ)} {S : V2 F32 → V2 F32} {k B : ℤ}

theorem length_le_of_sub {L V : List (V2 ℝ)} (hL : L.Nodup) (h : ∀ e ∈ L, e ∈ V) :
    L.length ≤ V.length :=
  (List.subperm_of_subset hL h).length_le

theorem gjkCollide_f32 (hB : B ≤ 32) (hk1 : -7 ≤ k) (hk2 : k ≤ 12) (hM : Convex ℝ M)
    (hS : Support32 k B M V S) :
    ∀ (n : Nat) (L : List (V2 ℝ)) (d' : V2 F32) (d : V2 ℝ) (pts' : List (V2 F32))
      (pts : List (V2 ℝ)), GInv M L d pts → L.Nodup → (∀ e ∈ L, e ∈ V) → d'.Is d → DirOk B d →
      IsL pts' pts → (∀ p ∈ pts, p.GV k B) → V.length < L.length + n →
      (gjkCollide S n d' pts' = .ok (true, V2.nan) ∧ (0 : V2 ℝ) ∈ M) ∨
      (gjkCollide S n d' pts' = .ok (false, V2.nan) ∧ OneSide M) := by
  intro n
  induction n with
  | zero =>
    intro L d' d pts' pts _ hL hLV _ _ _ _ hlen
    have := length_le_of_sub hL hLV
    omega
  | succ n ih =>
    intro L d' d pts' pts hI hL hLV hd hok hl hg hlen
    obtain ⟨a, haV, ha, hext, hga⟩ := hS d' d hd hok
    have hfit := (hok.dot hd ha hga (by omega) hk2).2
    simp only [gjkCollide]
    by_cases h1 : a.dot d ≤ 0
    · right
      rw [if_pos ((le_iff hfit is_zero).2 h1)]
      refine ⟨rfl, d, hI.dir_ne, fun m hm => ?_⟩
      rw [dot_comm] at h1
      exact (hext.2 m hm).trans h1
    · rw [if_neg (fun h => h1 ((le_iff hfit is_zero).1 h))]
      obtain ⟨q, hq, hstep⟩ := hI.step hM hext (not_le.1 h1)
      obtain ⟨q', hq', hc', hl', hg', hdir⟩ := addPoint_f32 hB hk1 hk2 hl hg ha hga hq
      rw [hq']
      simp only
      cases hc : q.collides with
      | true =>
        left
        rw [if_pos (Or.inl (by rw [hc', hc]))]
        exact ⟨rfl, hstep.hit hc⟩
      | false =>
        obtain ⟨hd2, hok2⟩ := hdir hc
        have hts := tooSmall_iff hok2 hd2
        by_cases hz : q.dir = 0
        · left
          rw [if_pos (Or.inr (hts.2 hz))]
          refine ⟨rfl, ?_⟩
          obtain ⟨m, hm, hm2⟩ := hstep.near hc
          rw [hz, (lengthSq_eq_zero (a := (0 : V2 ℝ))).2 rfl] at hm2
          have : m = 0 := by
            rw [← lengthSq_eq_zero]
            rcases hm2 with h | h
            · exact pow_eq_zero_iff (n := 3) (by norm_num) |>.1
                (le_antisymm h (pow_nonneg (lengthSq_nonneg m) 3))
            · exact h
          rwa [this] at hm
        · rw [if_neg (by
            rintro (h | h)
            · rw [hc', hc] at h; cases h
            · exact hz (hts.1 h))]
          exact ih (a :: L) _ _ _ _ (hstep.next hc hz) (hI.fresh hL (not_le.1 h1)) (by
            intro e he
            rcases List.mem_cons.1 he with rfl | he
            · exact haV
            · exact hLV e he) hd2 hok2 hl' hg' (by simp only [List.length_cons]; omega)

theorem gjkPenetrate_f32 (hB : B ≤ 32) (hk1 : -7 ≤ k) (hk2 : k ≤ 12) (hM : Convex ℝ M)
    (hS : Support32 k B M V S) :
    ∀ (n : Nat) (L : List (V2 ℝ)) (d' : V2 F32) (d : V2 ℝ) (pts' : List (V2 F32))
      (pts : List (V2 ℝ)), GInv M L d pts → L.Nodup → (∀ e ∈ L, e ∈ V) → d'.Is d → DirOk B d →
      IsL pts' pts → (∀ p ∈ pts, p.GV k B) → V.length < L.length + n →
      ((∃ v, gjkPenetrate S n d' pts' = .ok (true, v)) ∧ (0 : V2 ℝ) ∈ M) ∨
      (gjkPenetrate S n d' pts' = .ok (false, V2.nan) ∧ OneSide M) := by
  intro n
  induction n with
  | zero =>
    intro L d' d pts' pts _ hL hLV _ _ _ _ hlen
    have := length_le_of_sub hL hLV
    omega
  | succ n ih =>
    intro L d' d pts' pts hI hL hLV hd hok hl hg hlen
    obtain ⟨a, haV, ha, hext, hga⟩ := hS d' d hd hok
    have hfit := (hok.dot hd ha hga (by omega) hk2).2
    simp only [gjkPenetrate]
    by_cases h1 : a.dot d ≤ 0
    · right
      rw [if_pos ((le_iff hfit is_zero).2 h1)]
      refine ⟨rfl, d, hI.dir_ne, fun m hm => ?_⟩
      rw [dot_comm] at h1
      exact (hext.2 m hm).trans h1
    · rw [if_neg (fun h => h1 ((le_iff hfit is_zero).1 h))]
      obtain ⟨q, hq, hstep⟩ := hI.step hM hext (not_le.1 h1)
      obtain ⟨q', hq', hc', hl', hg', hdir⟩ := addPoint_f32 hB hk1 hk2 hl hg ha hga hq
      obtain ⟨q2, hq2, h3, h2⟩ := addPoint_ok pts' (S d') (by
        have := hl.length_eq; rw [this]; exact hI.length)
      rw [hq'] at hq2
      cases hq2
      rw [hq']
      simp only
      cases hc : q.collides with
      | true =>
        left
        have hct : q'.collides = true := by rw [hc', hc]
        rw [if_pos hct]
        refine ⟨?_, hstep.hit hc⟩
        have hlen3 := h3 hct
        obtain ⟨x, y, z, he⟩ := List.length_eq_three.1 hlen3
        rw [he]
        simp only [enforceCcw]
        split_ifs
        · obtain ⟨v, hv⟩ := epa_ok S iterationLimit [x, y, z] (by simp)
          simp only [hv]; exact ⟨v, rfl⟩
        · obtain ⟨v, hv⟩ := epa_ok S iterationLimit [x, z, y] (by simp)
          simp only [hv]; exact ⟨v, rfl⟩
      | false =>
        rw [if_neg (by rw [hc', hc]; simp)]
        obtain ⟨hd2, hok2⟩ := hdir hc
        have hts := tooSmall_iff hok2 hd2
        have hrest : ∀ {e' : V2 F32} {e : V2 ℝ}, GInv M (a :: L) e q.pts → e'.Is e → DirOk B e →
            ((∃ v, gjkPenetrate S n e' q'.pts = .ok (true, v)) ∧ (0 : V2 ℝ) ∈ M) ∨
            (gjkPenetrate S n e' q'.pts = .ok (false, V2.nan) ∧ OneSide M) := by
          intro e' e hge he hoke
          exact ih (a :: L) _ _ _ _ hge (hI.fresh hL (not_le.1 h1)) (by
            intro e he
            rcases List.mem_cons.1 he with rfl | he
            · exact haV
            · exact hLV e he) he hoke hl' hg' (by simp only [List.length_cons]; omega)
        unfold overrideDir
        by_cases hz : q.dir = 0
        · rw [if_pos (hts.2 hz)]
          exact hrest (hstep.zero hc hz) hd.perp hok.perp
        · rw [if_neg (fun h => hz (hts.1 h))]
          exact hrest (hstep.next hc hz) hd2 hok2

end

end Auburn
