import Verif.Ieee.EpaRing
import Verif.Ieee.DeepProps

/-!
# C98: the push reported for deep overlaps on binary32 is nearly the shortest one

C86 shows that a reported (non-zero) push separates the shapes up to rounding.  Here the other half: for shapes that are
deep in each other (as in C97) the reported push is finite, and no push that separates the shapes is much shorter: 2% is
EPA's own tolerance (it stops when the next vertex is not 1% further out, and the search's rounding costs less).
Any number of vertices, balls included, and no condition on the coordinates but their size: the vertices that GJK and EPA
find in a deep overlap are never next to each other (`Encloses.long`), so no edge of EPA's polygon degenerates.
-/

set_option linter.unusedSectionVars false
set_option synthInstance.maxSize 1000

namespace Auburn

open F32 V2 ExtremePoint2d Transformation2d

/-! ## the statement -/

section
variable [env : F32Env]

/-- `x` moves the first set off the second one up to `δ` (unless it is zero), and every `y` that moves the first set off
the second one (up to any `ε`) has at least `c` times its length, up to `δ` -/
def NearlyLeast (c δ : ℝ) (X Y : Set (V2 ℝ)) (x : V2 ℝ) : Prop :=
  (x ≠ 0 → SeparableUpTo δ (shift x X) Y) ∧
    ∀ (y : V2 ℝ) (ε : ℝ), SeparableUpTo ε (shift y X) Y → c * x.norm ≤ y.norm + ε + δ

/-- `penetrates` and `sdfv` report such a vector, with finite coordinates -/
structure LeastUpTo (δ : ℝ) (X Y : Set (V2 ℝ)) (penetrates : Except Panic (Option (V2 F32)))
    (sdfv : Except Panic (Bool × V2 F32)) : Prop where
  penetrates : ∃ v x, penetrates = .ok (some v) ∧ v.Is x ∧ NearlyLeast (49 / 50) δ X Y x
  sdfv : ∃ v x, sdfv = .ok (true, v) ∧ v.Is x ∧ NearlyLeast (49 / 50) δ X Y x

/-- the same for colliders with rotations: `penetrates` reports a vector in the frame of the first collider (its rotor is
`r`), `sdfv` a vector in the world -/
structure LeastTurned (δ : ℝ) (X Y : Set (V2 ℝ)) (r : V2 ℝ) (penetrates : Except Panic (Option (V2 F32)))
    (sdfv : Except Panic (Bool × V2 F32)) : Prop where
  penetrates : ∃ v x, penetrates = .ok (some v) ∧ v.Is x ∧ NearlyLeast (24 / 25) δ X Y (turn r x)
  sdfv : ∃ v x, sdfv = .ok (true, v) ∧ v.Is x ∧ NearlyLeast (24 / 25) δ X Y x

/-- a set that is deep in another one cannot be pushed off by a short push -/
theorem DeepBy.push {X Y : Set (V2 ℝ)} {c ε : ℝ} {y : V2 ℝ} (h : DeepBy c X Y) (hs : SeparableUpTo ε (shift y X) Y) :
    c ≤ y.norm + ε := by
  obtain ⟨n, n0, hn⟩ := hs
  obtain ⟨a, ha, b, hb, h⟩ := h n
  have h1 := hn _ ⟨a, ha, rfl⟩ b hb
  have h2 := (neg_le_abs _).trans (dot_le_norm n y)
  have hl := norm_pos_of_ne n0
  rw [dot_add] at h1
  rw [dot_sub] at h
  refine le_of_mul_le_mul_right ?_ hl
  linarith

end

theorem Deep.deepBy {X Y : Set (V2 ℝ)} {δ : ℝ} (h : Deep (minkDiff X Y) δ) (hX : X.Nonempty) (hY : Y.Nonempty) : DeepBy δ X Y := by
  intro n
  rcases n.norm_nonneg.lt_or_eq with hl | hl
  · obtain ⟨_, ⟨x, hx, y, hy, rfl⟩, h⟩ := h (V2.scale (1 / n.norm) n) (by
      rw [lengthSq_scale, div_pow, ← V2.norm_sq_lengthSq, one_pow, one_div_mul_cancel (by positivity)])
    rw [scale_dot, one_div, inv_mul_eq_div, le_div_iff₀ hl] at h
    exact ⟨x, hx, y, hy, h⟩
  · obtain ⟨x, hx⟩ := hX
    obtain ⟨y, hy⟩ := hY
    refine ⟨x, hx, y, hy, ?_⟩
    have h2 := (neg_le_abs _).trans (dot_le_norm n (x - y))
    rw [← hl] at h2 ⊢
    linarith

section
variable [env : F32Env]

/-! ## the loops -/

section
variable {W : Set (V2 ℝ)} {M : ℝ} {k : ℤ} {S : V2 F32 → V2 F32}

/-- the step that finds the overlap, and EPA after it -/
theorem least_found {j : Nat} (hS : DeepSupport k W M S) (hsc : Scale32 M)
    (hk : 0 ≤ k) (hk2 : k ≤ 26) (hM : M ≤ (2 : ℝ) ^ k) (hD : Deep W (M / 32)) {d' : V2 F32} {d : V2 ℝ}
    {pts : List (V2 F32)} (hst : NState W M j d' pts) (hj : j ≤ 100)
    (hd : d'.Is d) (hB : DirB k d) (hl : (2 : ℝ) ^ (-60 : ℤ) ≤ d.l1) (hp : Pts False W M pts)
    {r : AddResult F32} (e : addPoint pts (S d') = .ok r) :
    Pts False W M r.pts ∧ (r.collides = true → ∃ q v x, enforceCcw r.pts = .ok q ∧ epa S iterationLimit q = .ok v ∧ v.Is x ∧
      Deep W (49 / 50 * x.norm) ∧ (x ≠ 0 → PushOut W (M / 2 ^ 17) x)) := by
  obtain ⟨p, p1, p2⟩ := hS.near d' d hd hB fun _ => hl
  obtain ⟨r', e', h1, -⟩ := addPoint_bdd hk hk2 (hp.ptB hM) (hst.bound hsc.pos).2 (PtB.of_is p1 p2.coord hM)
  rw [e] at e'
  cases e'
  have hP := hp.step p1 p2 h1
  refine ⟨hP, fun hc => ?_⟩
  obtain ⟨a, a1, -, a2⟩ := hS.pt hsc.pos hd hB hl
  obtain ⟨q, q1, q2⟩ := nstate_ring hsc hj hD (hS.size hsc.pos hk) hst hd a1 a2 e hc
  obtain ⟨v, x, v1, v2, v3⟩ := epa_deep hS hsc hk hk2 hM hD iterationLimit q (fun z hz => hP z (enforceCcw_mem q1 z hz)) q2
  exact ⟨q, v, x, q1, v1, v2, v3⟩

theorem penetrate_least (hS : DeepSupport k W M S) (hsc : Scale32 M) (h8 : 8 ≤ M) (hk : 0 ≤ k) (hk2 : k ≤ 26)
    (hM : M ≤ (2 : ℝ) ^ k) (hD : Deep W (M / 32)) : ∀ (n j : Nat) (d' : V2 F32) (d : V2 ℝ) (pts : List (V2 F32)), 16 ≤ n + j →
    NState W M j d' pts → d'.Is d → DirB k d → (2 : ℝ) ^ (-60 : ℤ) ≤ d.l1 → Pts False W M pts →
    ∃ v x, gjkPenetrate S n d' pts = .ok (true, v) ∧ v.Is x ∧ Deep W (49 / 50 * x.norm) ∧
      (x ≠ 0 → PushOut W (M / 2 ^ 17) x) := by
  intro n
  induction n with
  | zero => intro j d' d pts hn hst _ _ _ _; have := (hst.bound hsc.pos).1; omega
  | succ n ih =>
    intro j d' d pts hn hst hd hB hl hp
    obtain ⟨hf, r, e, h⟩ := deep_step hS hsc h8 hk hk2 hM hD hst hd hB hl (hp.ptB hM)
    obtain ⟨hp2, hc⟩ := least_found hS hsc hk hk2 hM hD hst (by have := (hst.bound hsc.pos).1; omega) hd hB hl hp e
    simp only [gjkPenetrate, if_neg hf, e]
    rcases h with ⟨h, -⟩ | ⟨h, d2, s2, i2, b2, l2, -⟩
    · obtain ⟨q, v, x, q1, q2, q3, q4⟩ := hc h
      rw [if_pos h, q1]
      simp only [q2]
      exact ⟨v, x, rfl, q3, q4⟩
    · rw [h, if_neg (by simp)]
      exact ih (j + 1) _ d2 _ (by omega) s2 i2 b2 l2 hp2

theorem full_least (hS : DeepSupport k W M S) (hsc : Scale32 M) (h8 : 8 ≤ M) (hk : 0 ≤ k) (hk2 : k ≤ 26)
    (hM : M ≤ (2 : ℝ) ^ k) (hD : Deep W (M / 32)) : ∀ (n j : Nat) (d' l : V2 F32) (d : V2 ℝ) (pts : List (V2 F32)), 16 ≤ n + j →
    NState W M j d' pts → d'.Is d → DirB k d → (2 : ℝ) ^ (-60 : ℤ) ≤ d.l1 → Pts False W M pts →
    ∃ v x, gjkFull S n true d' l pts = .ok (true, v) ∧ v.Is x ∧ Deep W (49 / 50 * x.norm) ∧
      (x ≠ 0 → PushOut W (M / 2 ^ 17) x) := by
  intro n
  induction n with
  | zero => intro j d' l d pts hn hst _ _ _ _; have := (hst.bound hsc.pos).1; omega
  | succ n ih =>
    intro j d' l d pts hn hst hd hB hl hp
    obtain ⟨hf, r, e, h⟩ := deep_step hS hsc h8 hk hk2 hM hD hst hd hB hl (hp.ptB hM)
    obtain ⟨hp2, hc⟩ := least_found hS hsc hk hk2 hM hD hst (by have := (hst.bound hsc.pos).1; omega) hd hB hl hp e
    simp only [gjkFull, if_neg (fun h => hf (And.left h)), e, if_neg hf]
    rcases h with ⟨h, -⟩ | ⟨h, d2, s2, i2, b2, l2, -⟩
    · obtain ⟨q, v, x, q1, q2, q3, q4⟩ := hc h
      rw [if_neg (by simp), if_pos h, q1]
      simp only [q2]
      exact ⟨v, x, rfl, q3, q4⟩
    · rw [h, if_neg (by simp), if_neg (by simp)]
      exact ih (j + 1) _ _ d2 _ (by omega) s2 i2 b2 l2 hp2

end

/-! ## pairs of shapes -/

/-- the state after the first point of `distance_to` and `sdfv` -/
theorem start_state {W : Set (V2 ℝ)} {M : ℝ} {k : ℤ} {S : V2 F32 → V2 F32} (hS : DeepSupport k W M S) (hsc : Scale32 M)
    (hk : 0 ≤ k) (hk2 : k ≤ 26) (hM : M ≤ (2 : ℝ) ^ k) (hD : Deep W (M / 32)) {d' : V2 F32} {d p : V2 ℝ} (d1 : d'.Is d)
    (d2 : DirB k d) (d3 : (2 : ℝ) ^ (-60 : ℤ) ≤ d.l1) (p1 : (S d').Is p) : NState W M 1 (-(S d')) [S d'] := by
  obtain ⟨-, r, e, h⟩ := nstate_step hS hsc hk hk2 hM hD (.none _) d1 d2 d3 (by simp)
  cases e
  rcases h with h | ⟨-, h, -⟩
  · cases h
  · refine h (not_small_of_norm p1.neg ?_)
    obtain ⟨x, hx, h1⟩ := (hS.pt hsc.pos d1 d2 d3)
    have hp := hx.1
    have e : x = p := V2.ext (hp.1.unique p1.1) (hp.2.unique p1.2)
    subst e
    have hn : 0 < d.norm := lt_of_lt_of_le (by positivity) (dir_norm hk2 d2 d3).1
    obtain ⟨m, hm, g⟩ := hD (V2.scale (1 / d.norm) d) (by
      rw [lengthSq_scale, div_pow, ← V2.norm_sq_lengthSq, one_pow, one_div_mul_cancel (by positivity)])
    rw [scale_dot, one_div, inv_mul_eq_div, le_div_iff₀ hn] at g
    have g2 := h1.2 m hm
    have g3 := dot_le_norm' d x
    have g4 := mul_le_mul_of_nonneg_left d.l1_le_norm (show 0 ≤ 24 * (M / 2 ^ 24) by have := hsc.pos; positivity)
    have g5 : M / 32 * d.norm ≤ (x.norm + 36 * (M / 2 ^ 24)) * d.norm := by linarith
    have g6 := le_of_mul_le_mul_right g5 hn
    rw [V2.norm_neg']
    have := hsc.delta
    linarith

section
variable {A B T : Type} [ExtremePoint2d A F32] [ExtremePoint2d B F32] [DefaultMinkowski A B] [Transformation2d T F32]
  {a : A} {b : B} {X Y : Set (V2 ℝ)} {rel : T} {k : ℤ} {M : ℝ}

theorem run_least_deep (hS : DeepSupport k (minkDiff X Y) M (extremePoint (LocalMinkowskiDiff2d.mk a b rel)))
    (hr : (applyOrigin rel : V2 F32).Bounded32 M) (hk : 0 ≤ k) (hk2 : k ≤ 26) (hM : M ≤ (2 : ℝ) ^ k)
    (h8 : 8 ≤ M) (hO : DeepBy (M / 32) X Y) :
    (∃ v x, penetratesRel a b rel = .ok (some v) ∧ v.Is x ∧ DeepBy (49 / 50 * x.norm) X Y ∧
      (x ≠ 0 → SeparableUpTo (M / 2 ^ 17) (shift x X) Y)) ∧
    (∃ v x, sdfvRel a b rel = .ok (true, v) ∧ v.Is x ∧ DeepBy (49 / 50 * x.norm) X Y ∧
      (x ≠ 0 → SeparableUpTo (M / 2 ^ 17) (shift x X) Y)) := by
  have hM0 : 1 / 2 ^ 16 ≤ M := le_trans (by norm_num) h8
  have hsc : Scale32 M := ⟨hM0, (hM.trans (zpow_le_zpow hk2)).trans (by norm_num)⟩
  have hD := hO.deep
  obtain ⟨hX, hY⟩ : X.Nonempty ∧ Y.Nonempty := by
    obtain ⟨x, hx, y, hy, -⟩ := hO 0
    exact ⟨⟨x, hx⟩, y, hy⟩
  obtain ⟨d, d1, d2, d3⟩ := start_dir hk hM hr
  have h20 : (2 : ℝ) ^ (-20 : ℤ) ≤ M := le_trans (by norm_num) hM0
  obtain ⟨p, p1, p2, p3, p4⟩ := start_point hS.noisy hk hM h20 d1 d2 d3
  have p4 : (2 : ℝ) ^ (-60 : ℤ) ≤ (-p).l1 := p4.resolve_left fun h => not_out_of_disc hsc.pos hD h.2
  have pts1 : Pts False (minkDiff X Y) M [extremePoint (LocalMinkowskiDiff2d.mk a b rel) (initialDirection (applyOrigin rel))] := by
    intro q hq
    rw [List.mem_singleton] at hq
    subst hq
    exact hS.near _ d d1 d2 fun _ => d3
  have hst : NState (minkDiff X Y) M 1 (-(extremePoint (LocalMinkowskiDiff2d.mk a b rel) (initialDirection (applyOrigin rel))))
      [extremePoint (LocalMinkowskiDiff2d.mk a b rel) (initialDirection (applyOrigin rel))] :=
    start_state hS hsc hk hk2 hM hD d1 d2 d3 p1
  constructor
  · obtain ⟨v, x, h, hx, hx2, hx3⟩ := penetrate_least hS hsc h8 hk hk2 hM hD iterationLimit 0 _ d [] (by decide) (.none _) d1 d2 d3
      (fun _ h => by simp at h)
    rw [penetratesRel_run32, h]
    exact ⟨v, x, rfl, hx, hx2.deepBy hX hY, fun h0 => sepUpTo_of_push (hx3 h0)⟩
  · obtain ⟨v, x, h, hx, hx2, hx3⟩ := full_least hS hsc h8 hk hk2 hM hD iterationLimit 1 _ _ (-p) _ (by decide) hst p1.neg p3 p4 pts1
    rw [sdfvRel_run32]
    exact ⟨v, x, h, hx, hx2.deepBy hX hY, fun h0 => sepUpTo_of_push (hx3 h0)⟩

theorem run_least (hS : DeepSupport k (minkDiff X Y) M (extremePoint (LocalMinkowskiDiff2d.mk a b rel)))
    (hr : (applyOrigin rel : V2 F32).Bounded32 M) (hk : 0 ≤ k) (hk2 : k ≤ 26) (hM : M ≤ (2 : ℝ) ^ k)
    (h8 : 8 ≤ M) (hO : DeepBy (M / 32) X Y) :
    LeastUpTo (M / 2 ^ 17) X Y (penetratesRel a b rel) (sdfvRel a b rel) := by
  obtain ⟨⟨v, x, h1, h2, h3, s1⟩, w, y, g1, g2, g3, s2⟩ := run_least_deep hS hr hk hk2 hM h8 hO
  have hM0 : 0 ≤ M / 2 ^ 17 := by positivity
  exact ⟨⟨v, x, h1, h2, s1, fun z ε hz => (h3.push hz).trans (by linarith)⟩,
    ⟨w, y, g1, g2, s2, fun z ε hz => (g3.push hz).trans (by linarith)⟩⟩

end

section
variable {A B : Type} [ExtremePoint2d A F32] [ExtremePoint2d B F32] [DefaultMinkowski A B] {a : A} {b : B}
  {X Y : Set (V2 ℝ)} {M : ℝ}

theorem pair_least {k : ℤ} (nA : NoisyShape k a X M) (nB : NoisyShape k b Y M) (gA : GridShape False True k a X M)
    (gB : GridShape False True k b Y M) {rel : V2 F32} (hr : rel.Bounded32 M) (hk : 0 ≤ k) (hk2 : k ≤ 26)
    (hM : M ≤ (2 : ℝ) ^ k) (h8 : 8 ≤ M) (hO : DeepBy (M / 32) X (shift rel.toReal Y)) :
    LeastUpTo (M / 2 ^ 17) X (shift rel.toReal Y) (penetratesRel a b rel) (sdfvRel a b rel) :=
  have hM' := hM.trans (zpow_le_zpow hk2)
  run_least ⟨noisy_pair nA nB hr hM', noisyGrid_pair gA gB hr False.elim hM'⟩ hr hk hk2 hM h8 hO

theorem LeastUpTo.placed {t p q : V2 ℝ} {pen : Except Panic (Option (V2 F32))} {sd : Except Panic (Bool × V2 F32)}
    (hM0 : 0 ≤ M) (h : LeastUpTo (M / 2 ^ 17) X (shift t Y) pen sd) (ht : V2.Within (M / 2 ^ 24) t (q - p)) :
    LeastUpTo (M / 2 ^ 16) (shift p X) (shift q Y) pen (sd.map fun r => (r.1, r.2)) := by
  have key : ∀ x, NearlyLeast (49 / 50) (M / 2 ^ 17) X (shift t Y) x →
      NearlyLeast (49 / 50) (M / 2 ^ 16) (shift p X) (shift q Y) x := by
    rintro x ⟨h2, h3⟩
    refine ⟨fun h0 => ?_, fun y ε hy => ?_⟩
    · rw [(shift_both x p q X Y).1]
      refine ((h2 h0).placed ht).mono ?_
      linarith
    · rw [(shift_both y p q X Y).1] at hy
      have h4 := h3 y (ε + 2 * (M / 2 ^ 24)) (by
        obtain ⟨n, n0, hn⟩ := hy
        refine ⟨n, n0, ?_⟩
        rintro a ha _ ⟨b, hb, rfl⟩
        have g1 := hn _ ⟨a, ha, rfl⟩ _ ⟨b, hb, rfl⟩
        obtain ⟨t1, t2⟩ := ht
        have nx := n.abs_x_le_norm
        have ny := n.abs_y_le_norm
        have m1 : -(n.x * (t.x - (q - p).x)) ≤ n.norm * (M / 2 ^ 24) :=
          (neg_le_abs _).trans (by rw [abs_mul]; exact mul_le_mul nx t1 (abs_nonneg _) n.norm_nonneg)
        have m2 : -(n.y * (t.y - (q - p).y)) ≤ n.norm * (M / 2 ^ 24) :=
          (neg_le_abs _).trans (by rw [abs_mul]; exact mul_le_mul ny t2 (abs_nonneg _) n.norm_nonneg)
        simp only [dot_def, V2.add_x, V2.add_y, V2.sub_x, V2.sub_y] at g1 m1 m2 ⊢
        linarith)
      linarith
  obtain ⟨⟨v, x, a1, a2, a3⟩, w, y, b1, b2, b3⟩ := h
  exact ⟨⟨v, x, a1, a2, key x a3⟩, w, y, by rw [b1]; rfl, b2, key y b3⟩

theorem placed_least {k : ℤ} (nA : NoisyShape k a X M) (nB : NoisyShape k b Y M) (gA : GridShape False True k a X M)
    (gB : GridShape False True k b Y M) {p q : V2 F32} (hp : p.Bounded32 (M / 3)) (hq : q.Bounded32 (M / 3))
    (hk : 0 ≤ k) (hk2 : k ≤ 26) (hM : M ≤ (2 : ℝ) ^ k) (h8 : 8 ≤ M)
    (hO : DeepBy (M / 31) (shift p.toReal X) (shift q.toReal Y)) :
    LeastUpTo (M / 2 ^ 16) (shift p.toReal X) (shift q.toReal Y) (penetrates ⟨a, p⟩ ⟨b, q⟩) (sdfv ⟨a, p⟩ ⟨b, q⟩) ∧
    LeastUpTo (M / 2 ^ 16) (shift p.toReal X) (shift q.toReal Y) (penetrates ⟨a, Translate2d.mk p⟩ ⟨b, Translate2d.mk q⟩)
      (sdfv ⟨a, Translate2d.mk p⟩ ⟨b, Translate2d.mk q⟩) := by
  obtain ⟨r1, r2, -⟩ := offset_bounded hp hq (hM.trans (zpow_le_zpow hk2))
  have h := (pair_least nA nB gA gB r1 hk hk2 hM h8 ((hO.of_placed r2).mono (by linarith))).placed (by linarith) r2
  exact ⟨h, h⟩

/-- the relative placement with a rotation -/
theorem turn_least {k : ℤ} {rel : Transform2d F32} (nA : NoisyShape (k + 1) a X M) (nB : NoisyShape (k + 1) b Y M)
    (gA : GridShape False True (k + 1) a X M) (gB : GridShape False True (k + 1) b Y M) (hr : rel.Rigid32 M (1 / 2 ^ 16))
    (hk : 0 ≤ k) (hk2 : k ≤ 25) (hM2 : 2 * M ≤ (2 : ℝ) ^ k) (h4 : 4 ≤ M) (hO : DeepBy (M / 16) X (rel.image Y)) :
    LeastUpTo (M / 2 ^ 16) X (rel.image Y) (penetratesRel a b rel) (sdfvRel a b rel) ∧
    (∃ v x, penetratesRel a b rel = .ok (some v) ∧ v.Is x ∧ DeepBy (49 / 50 * x.norm) X (rel.image Y) ∧
      x.norm ≤ 13 * M) ∧
    (∃ v x, sdfvRel a b rel = .ok (true, v) ∧ v.Is x ∧ DeepBy (49 / 50 * x.norm) X (rel.image Y) ∧ x.norm ≤ 13 * M) := by
  have h1 : (2 : ℝ) ^ k ≤ (2 : ℝ) ^ (26 : ℤ) := zpow_le_zpow (by omega)
  have hM' : M ≤ (2 : ℝ) ^ (26 : ℤ) := by linarith
  have hM0 : (2 : ℝ) ^ (-20 : ℤ) ≤ M := le_trans (by norm_num) h4
  have hS : DeepSupport k (minkDiff X (rel.image Y)) (2 * M) (extremePoint (LocalMinkowskiDiff2d.mk a b rel)) :=
    ⟨noisy_turn_pair (nA.anti (by omega)) nB hr hk (by omega) hM' hM0,
      noisyGrid_turn_pair (gA.anti (by omega)) gB hr False.elim hk (by omega) hM' hM0⟩
  have hO' : DeepBy (2 * M / 32) X (rel.image Y) := by rw [show 2 * M / 32 = M / 16 by ring]; exact hO
  have h := run_least hS hr.origin hk (by omega) hM2 (by linarith) hO'
  rw [show 2 * M / 2 ^ 17 = M / 2 ^ 16 by ring] at h
  obtain ⟨⟨v, x, h1, h2, h3, -⟩, w, y, g1, g2, g3, -⟩ := run_least_deep hS hr.origin hk (by omega) hM2 (by linarith) hO'
  have size : ∀ z : V2 ℝ, DeepBy (49 / 50 * z.norm) X (rel.image Y) → z.norm ≤ 13 * M := by
    intro z hz
    obtain ⟨p, hp, q, hq, e⟩ := hz ⟨1, 0⟩
    have e1 : (⟨1, 0⟩ : V2 ℝ).norm = 1 := by simp [V2.norm]
    have e2 := dot_le_norm' (⟨1, 0⟩ : V2 ℝ) (p - q)
    have e3 := hS.size (by linarith) hk (p - q) ⟨p, hp, q, hq, rfl⟩
    rw [e1] at e e2
    linarith
  exact ⟨h, ⟨v, x, h1, h2, h3, size x h3⟩, w, y, g1, g2, g3, size y g3⟩

theorem DeepBy.carry {δ ε : ℝ} {ta tb D : Transform2d F32} (h : DeepBy δ X (D.image Y)) (hc : Carries ε ta tb D Y)
    (n2 : 1 - 1 / 2 ^ 18 ≤ ta.rot.a.toReal.norm) (hδ : 0 ≤ δ) :
    DeepBy (99 / 100 * δ - ε) (ta.image X) (tb.image Y) := by
  intro n
  obtain ⟨x, hx, _, ⟨y, hy, rfl⟩, h⟩ := h (turn ta.rot.a.toReal.conj n)
  refine ⟨_, ⟨x, hx, rfl⟩, _, ⟨y, hy, rfl⟩, ?_⟩
  have h2 := hc y hy
  set r := ta.rot.a.toReal
  set w := turn D.rot.a.toReal y + D.pos.toReal with hw
  have e : turn r x + ta.pos.toReal - (turn tb.rot.a.toReal y + tb.pos.toReal) = turn r (x - w) +
      (turn r w + ta.pos.toReal - (turn tb.rot.a.toReal y + tb.pos.toReal)) := by
    rw [turn_sub]; ext <;> simp <;> ring
  have h3 := (neg_le_abs _).trans (dot_le_norm n (turn r w + ta.pos.toReal - (turn tb.rot.a.toReal y + tb.pos.toReal)))
  have h4 := mul_le_mul_of_nonneg_left h2 n.norm_nonneg
  rw [turn_norm, conj_norm, ← turn_dot] at h
  rw [e, dot_add]
  have h5 := mul_le_mul_of_nonneg_right n2 (mul_nonneg hδ n.norm_nonneg)
  have h6 := mul_nonneg hδ n.norm_nonneg
  linarith

/-- colliders with rotations -/
theorem turned_least {k : ℤ} {ta tb : Transform2d F32} (nA : NoisyShape (k + 1) a X M) (nB : NoisyShape (k + 1) b Y M)
    (gA : GridShape False True (k + 1) a X M) (gB : GridShape False True (k + 1) b Y M)
    (hta : ta.Rigid32 (M / 4) (1 / 2 ^ 18)) (htb : tb.Rigid32 (M / 4) (1 / 2 ^ 18)) (hk : 0 ≤ k) (hk2 : k ≤ 25)
    (hM2 : 2 * M ≤ (2 : ℝ) ^ k) (h4 : 4 ≤ M) (hO : DeepBy (M / 15) (ta.image X) (tb.image Y)) :
    LeastTurned (M / 2 ^ 15) (ta.image X) (tb.image Y) ta.rot.a.toReal (penetrates ⟨a, ta⟩ ⟨b, tb⟩) (sdfv ⟨a, ta⟩ ⟨b, tb⟩) := by
  have hM1 : 0 < M := by linarith
  have h1 : (2 : ℝ) ^ k ≤ (2 : ℝ) ^ (26 : ℤ) := zpow_le_zpow (by omega)
  have hM' : M ≤ (2 : ℝ) ^ (26 : ℤ) := by linarith
  have hM0 : (2 : ℝ) ^ (-20 : ℤ) ≤ M := le_trans (by norm_num) h4
  obtain ⟨d1, d2⟩ := delta_rigid hta htb hM' hM0
  have hY := nB.coord (by omega) hM1.le
  have hc : Carries (160 * (M / 2 ^ 24)) ta tb (deltaTransform ta tb) Y := fun y hy => d2 y (hY y hy)
  obtain ⟨n1, n2⟩ := rot_norms hta
  have hO' : DeepBy (M / 16) X ((deltaTransform ta tb).image Y) := (hO.of_carry hc n1 n2 (by linarith)).mono (by linarith)
  obtain ⟨⟨⟨v, x, a1, a2, a3⟩, w, y, b1, b2, b3⟩, ⟨v', x', c1, c2, c3, c4⟩, w', y', e1, e2, e3, e4⟩ :=
    turn_least nA nB gA gB d1 hk hk2 hM2 h4 hO'
  rw [a1] at c1
  rw [b1] at e1
  cases c1
  cases e1
  have ex : x = x' := V2.ext (a2.1.unique c2.1) (a2.2.unique c2.2)
  have ey : y = y' := V2.ext (b2.1.unique e2.1) (b2.2.unique e2.2)
  subst ex ey
  set r := ta.rot.a.toReal with hr
  have z0 : ∀ z : V2 ℝ, turn r z ≠ 0 → z ≠ 0 := by
    rintro z h rfl
    exact h (by ext <;> simp [turn])
  have sep : ∀ z, SeparableUpTo (M / 2 ^ 16) (shift z X) ((deltaTransform ta tb).image Y) →
      SeparableUpTo (101 / 100 * (M / 2 ^ 16) + 160 * (M / 2 ^ 24)) (shift (turn r z) (ta.image X)) (tb.image Y) := fun z h => by
    rw [← turned_shift]
    exact sep_carry hc n1 n2 (by positivity) h
  have low : ∀ z : V2 ℝ, DeepBy (49 / 50 * z.norm) X ((deltaTransform ta tb).image Y) → ∀ (y : V2 ℝ) (ε : ℝ),
      SeparableUpTo ε (shift y (ta.image X)) (tb.image Y) → 99 / 100 * (49 / 50 * z.norm) - 160 * (M / 2 ^ 24) ≤ y.norm + ε :=
    fun z h y ε hs => (h.carry hc n2 (by have := z.norm_nonneg; positivity)).push hs
  refine ⟨⟨v, x, a1, a2, fun h0 => (sep x (a3.1 (z0 x h0))).mono (by linarith), fun y ε hs => ?_⟩, ?_⟩
  · have := low x c3 y ε hs
    have h1 := mul_le_mul_of_nonneg_right n1 x.norm_nonneg
    rw [turn_norm]
    linarith [x.norm_nonneg]
  · have hw : r.norm * y.norm ≤ 14 * M := by
      have h1 := mul_le_mul n1 e4 y.norm_nonneg (by norm_num)
      linarith
    have h14 : 14 * M ≤ (2 : ℝ) ^ (125 : ℤ) := by
      have : 14 * (2 : ℝ) ^ (26 : ℤ) ≤ (2 : ℝ) ^ (125 : ℤ) := by norm_num
      linarith
    obtain ⟨z, z1, z2⟩ := round_turn hta.rot b2 hw h14
    have hsm : (3 : ℝ) / 2 ^ 150 ≤ (1 / 100) * (M / 2 ^ 24) := by
      have h1 : (3 : ℝ) / 2 ^ 150 ≤ (1 / 100) * (4 / 2 ^ 24) := by norm_num
      have h2 := div_le_div_of_nonneg_right h4 (show (0 : ℝ) ≤ 2 ^ 24 by positivity)
      linarith only [h1, h2]
    have h3 : (z - turn r y).norm ≤ (3 / 2) * ((9 / 4) * (14 * M / 2 ^ 24) + 3 / 2 ^ 150) := norm_coord z2
    have h5 : (z - turn r y).norm ≤ 48 * (M / 2 ^ 24) := by linarith only [h3, hsm, hM1]
    refine ⟨_, z, by show (sdfvRel a b _).map _ = _; rw [b1]; rfl, z1, fun h0 => ?_, fun y' ε hs => ?_⟩
    · have : y ≠ 0 := by
        rintro rfl
        exact h0 (turn_zero32 hta.rot b2 z1)
      exact (sep_near (sep y (b3.1 this)) h5).mono (by linarith only [hM1])
    · have h6 := low y e3 y' ε hs
      have h7 := mul_le_mul_of_nonneg_right n1 y.norm_nonneg
      have h8 := V2.norm_add_le' (z - turn r y) (turn r y)
      rw [show z - turn r y + turn r y = z by ext <;> simp, turn_norm] at h8
      linarith only [h5, h6, h7, h8, hM1, y.norm_nonneg]

end

/-! ## the property, relative form -/

section
variable {M : ℝ}

theorem low8 (h : 8 ≤ M) : (2 : ℝ) ^ (-20 : ℤ) ≤ M := le_trans (by norm_num) h

/-- Two polygons, any number of vertices. -/
theorem C98_f32_poly_poly (a b : Poly2d F32) (rel : V2 F32) (ha : a.Bounded32 M) (hb : b.Bounded32 M)
    (hr : rel.Bounded32 M) (h8 : 8 ≤ M) (hM : M ≤ (2 : ℝ) ^ (26 : ℤ))
    (hO : DeepBy (M / 32) (Region.pts a.toReal) (shift rel.toReal (Region.pts b.toReal))) :
    LeastUpTo (M / 2 ^ 17) (Region.pts a.toReal) (shift rel.toReal (Region.pts b.toReal)) (penetratesRel a b rel)
      (sdfvRel a b rel) :=
  pair_least (k := 26) (noisy_poly ha (by norm_num) hM (low8 h8)) (noisy_poly hb (by norm_num) hM (low8 h8))
    (grid_poly ha (by norm_num) hM False.elim) (grid_poly hb (by norm_num) hM False.elim) hr (by norm_num) (by norm_num) hM h8 hO

/-- A box and a polygon. -/
theorem C98_f32_box_poly (a : Box2d F32) (b : Poly2d F32) (rel : V2 F32) (ha : a.Bounded32 M) (hb : b.Bounded32 M)
    (hr : rel.Bounded32 M) (h8 : 8 ≤ M) (hM : M ≤ (2 : ℝ) ^ (26 : ℤ))
    (hO : DeepBy (M / 32) (Region.pts a.toReal) (shift rel.toReal (Region.pts b.toReal))) :
    LeastUpTo (M / 2 ^ 17) (Region.pts a.toReal) (shift rel.toReal (Region.pts b.toReal)) (penetratesRel a b rel)
      (sdfvRel a b rel) :=
  pair_least (k := 26) (noisy_box ha _) (noisy_poly hb (by norm_num) hM (low8 h8))
    (grid_box ha False.elim _) (grid_poly hb (by norm_num) hM False.elim) hr (by norm_num) (by norm_num) hM h8 hO

/-- A polygon and a box. -/
theorem C98_f32_poly_box (a : Poly2d F32) (b : Box2d F32) (rel : V2 F32) (ha : a.Bounded32 M) (hb : b.Bounded32 M)
    (hr : rel.Bounded32 M) (h8 : 8 ≤ M) (hM : M ≤ (2 : ℝ) ^ (26 : ℤ))
    (hO : DeepBy (M / 32) (Region.pts a.toReal) (shift rel.toReal (Region.pts b.toReal))) :
    LeastUpTo (M / 2 ^ 17) (Region.pts a.toReal) (shift rel.toReal (Region.pts b.toReal)) (penetratesRel a b rel)
      (sdfvRel a b rel) :=
  pair_least (k := 26) (noisy_poly ha (by norm_num) hM (low8 h8)) (noisy_box hb _)
    (grid_poly ha (by norm_num) hM False.elim) (grid_box hb False.elim _) hr (by norm_num) (by norm_num) hM h8 hO

/-- Two boxes. -/
theorem C98_f32_box_box (a b : Box2d F32) (rel : V2 F32) (ha : a.Bounded32 M) (hb : b.Bounded32 M)
    (hr : rel.Bounded32 M) (h8 : 8 ≤ M) (hM : M ≤ (2 : ℝ) ^ (26 : ℤ))
    (hO : DeepBy (M / 32) (Region.pts a.toReal) (shift rel.toReal (Region.pts b.toReal))) :
    LeastUpTo (M / 2 ^ 17) (Region.pts a.toReal) (shift rel.toReal (Region.pts b.toReal)) (penetratesRel a b rel)
      (sdfvRel a b rel) :=
  pair_least (k := 26) (noisy_box ha _) (noisy_box hb _)
    (grid_box ha False.elim _) (grid_box hb False.elim _) hr (by norm_num) (by norm_num) hM h8 hO

/-- Two `Shape2d` that are boxes or polygons. -/
theorem C98_f32_shape_shape (a b : Shape2d F32) (rel : V2 F32) (ha : a.Bounded32 M) (hb : b.Bounded32 M)
    (hr : rel.Bounded32 M) (na : a.NoBall) (nb : b.NoBall) (h8 : 8 ≤ M) (hM : M ≤ (2 : ℝ) ^ (26 : ℤ))
    (hO : DeepBy (M / 32) (Region.pts a.toReal) (shift rel.toReal (Region.pts b.toReal))) :
    LeastUpTo (M / 2 ^ 17) (Region.pts a.toReal) (shift rel.toReal (Region.pts b.toReal)) (penetratesRel a b rel)
      (sdfvRel a b rel) :=
  pair_least (k := 26) (handled_shape ha na (by norm_num) hM (low8 h8)).noisy (handled_shape hb nb (by norm_num) hM (low8 h8)).noisy
    (noBall_shape ha na hM).2 (noBall_shape hb nb hM).2 hr (by norm_num) (by norm_num) hM h8 hO

/-- Two `Shape2d` of any kind (with balls), coordinates at most `2^17`. -/
theorem C98_f32_any_shape (a b : Shape2d F32) (rel : V2 F32) (ha : a.Bounded32 M) (hb : b.Bounded32 M)
    (hr : rel.Bounded32 M) (h8 : 8 ≤ M) (hM : M ≤ (2 : ℝ) ^ (17 : ℤ))
    (hO : DeepBy (M / 32) (Region.pts a.toReal) (shift rel.toReal (Region.pts b.toReal))) :
    LeastUpTo (M / 2 ^ 17) (Region.pts a.toReal) (shift rel.toReal (Region.pts b.toReal)) (penetratesRel a b rel)
      (sdfvRel a b rel) := by
  obtain ⟨c1, n1, g1⟩ := ball_shape ha (low8 h8) hM
  obtain ⟨c2, n2, g2⟩ := ball_shape hb (low8 h8) hM
  exact pair_least n1 n2 g1 g2 hr (by norm_num) (by norm_num) hM h8 hO

/-- A ball and a box, coordinates at most `2^17`. -/
theorem C98_f32_ball_box (a : Ball F32) (b : Box2d F32) (rel : V2 F32) (ha : a.Bounded32 M) (hb : b.Bounded32 M)
    (hr : rel.Bounded32 M) (h8 : 8 ≤ M) (hM : M ≤ (2 : ℝ) ^ (17 : ℤ))
    (hO : DeepBy (M / 32) (Region.pts (Ball.mk a.radius.toReal)) (shift rel.toReal (Region.pts b.toReal))) :
    LeastUpTo (M / 2 ^ 17) (Region.pts (Ball.mk a.radius.toReal)) (shift rel.toReal (Region.pts b.toReal))
      (penetratesRel a b rel) (sdfvRel a b rel) :=
  pair_least (noisy_ball ha hM (low8 h8)) (noisy_box hb _) (grid_ball ha hM (low8 h8)) (grid_box hb False.elim _) hr
    (by norm_num) (by norm_num) hM h8 hO

/-! ## colliders -/

/-- Two polygons, any number of vertices, as colliders at positions `p`, `q` given as vectors or `Translate2d` (magnitude at most `M / 3`): the rounding
of the offset is included. -/
theorem C98_f32_poly_poly_colliders (a b : Poly2d F32) (p q : V2 F32) (ha : a.Bounded32 M) (hb : b.Bounded32 M)
    (hp : p.Bounded32 (M / 3)) (hq : q.Bounded32 (M / 3)) (h8 : 8 ≤ M) (hM : M ≤ (2 : ℝ) ^ (26 : ℤ))
    (hO : DeepBy (M / 31) (shift p.toReal (Region.pts a.toReal)) (shift q.toReal (Region.pts b.toReal))) :
    LeastUpTo (M / 2 ^ 16) (shift p.toReal (Region.pts a.toReal)) (shift q.toReal (Region.pts b.toReal))
      (penetrates ⟨a, p⟩ ⟨b, q⟩) (sdfv ⟨a, p⟩ ⟨b, q⟩) ∧
    LeastUpTo (M / 2 ^ 16) (shift p.toReal (Region.pts a.toReal)) (shift q.toReal (Region.pts b.toReal))
      (penetrates ⟨a, Translate2d.mk p⟩ ⟨b, Translate2d.mk q⟩) (sdfv ⟨a, Translate2d.mk p⟩ ⟨b, Translate2d.mk q⟩) :=
  placed_least (k := 26) (noisy_poly ha (by norm_num) hM (low8 h8)) (noisy_poly hb (by norm_num) hM (low8 h8))
    (grid_poly ha (by norm_num) hM False.elim) (grid_poly hb (by norm_num) hM False.elim) hp hq (by norm_num) (by norm_num) hM h8 hO

/-- A box and a polygon, as colliders at positions `p`, `q` given as vectors or `Translate2d` (magnitude at most `M / 3`): the rounding
of the offset is included. -/
theorem C98_f32_box_poly_colliders (a : Box2d F32) (b : Poly2d F32) (p q : V2 F32) (ha : a.Bounded32 M) (hb : b.Bounded32 M)
    (hp : p.Bounded32 (M / 3)) (hq : q.Bounded32 (M / 3)) (h8 : 8 ≤ M) (hM : M ≤ (2 : ℝ) ^ (26 : ℤ))
    (hO : DeepBy (M / 31) (shift p.toReal (Region.pts a.toReal)) (shift q.toReal (Region.pts b.toReal))) :
    LeastUpTo (M / 2 ^ 16) (shift p.toReal (Region.pts a.toReal)) (shift q.toReal (Region.pts b.toReal))
      (penetrates ⟨a, p⟩ ⟨b, q⟩) (sdfv ⟨a, p⟩ ⟨b, q⟩) ∧
    LeastUpTo (M / 2 ^ 16) (shift p.toReal (Region.pts a.toReal)) (shift q.toReal (Region.pts b.toReal))
      (penetrates ⟨a, Translate2d.mk p⟩ ⟨b, Translate2d.mk q⟩) (sdfv ⟨a, Translate2d.mk p⟩ ⟨b, Translate2d.mk q⟩) :=
  placed_least (k := 26) (noisy_box ha _) (noisy_poly hb (by norm_num) hM (low8 h8))
    (grid_box ha False.elim _) (grid_poly hb (by norm_num) hM False.elim) hp hq (by norm_num) (by norm_num) hM h8 hO

/-- A polygon and a box, as colliders at positions `p`, `q` given as vectors or `Translate2d` (magnitude at most `M / 3`): the rounding
of the offset is included. -/
theorem C98_f32_poly_box_colliders (a : Poly2d F32) (b : Box2d F32) (p q : V2 F32) (ha : a.Bounded32 M) (hb : b.Bounded32 M)
    (hp : p.Bounded32 (M / 3)) (hq : q.Bounded32 (M / 3)) (h8 : 8 ≤ M) (hM : M ≤ (2 : ℝ) ^ (26 : ℤ))
    (hO : DeepBy (M / 31) (shift p.toReal (Region.pts a.toReal)) (shift q.toReal (Region.pts b.toReal))) :
    LeastUpTo (M / 2 ^ 16) (shift p.toReal (Region.pts a.toReal)) (shift q.toReal (Region.pts b.toReal))
      (penetrates ⟨a, p⟩ ⟨b, q⟩) (sdfv ⟨a, p⟩ ⟨b, q⟩) ∧
    LeastUpTo (M / 2 ^ 16) (shift p.toReal (Region.pts a.toReal)) (shift q.toReal (Region.pts b.toReal))
      (penetrates ⟨a, Translate2d.mk p⟩ ⟨b, Translate2d.mk q⟩) (sdfv ⟨a, Translate2d.mk p⟩ ⟨b, Translate2d.mk q⟩) :=
  placed_least (k := 26) (noisy_poly ha (by norm_num) hM (low8 h8)) (noisy_box hb _)
    (grid_poly ha (by norm_num) hM False.elim) (grid_box hb False.elim _) hp hq (by norm_num) (by norm_num) hM h8 hO

/-- Two boxes, as colliders at positions `p`, `q` given as vectors or `Translate2d` (magnitude at most `M / 3`): the rounding
of the offset is included. -/
theorem C98_f32_box_box_colliders (a b : Box2d F32) (p q : V2 F32) (ha : a.Bounded32 M) (hb : b.Bounded32 M)
    (hp : p.Bounded32 (M / 3)) (hq : q.Bounded32 (M / 3)) (h8 : 8 ≤ M) (hM : M ≤ (2 : ℝ) ^ (26 : ℤ))
    (hO : DeepBy (M / 31) (shift p.toReal (Region.pts a.toReal)) (shift q.toReal (Region.pts b.toReal))) :
    LeastUpTo (M / 2 ^ 16) (shift p.toReal (Region.pts a.toReal)) (shift q.toReal (Region.pts b.toReal))
      (penetrates ⟨a, p⟩ ⟨b, q⟩) (sdfv ⟨a, p⟩ ⟨b, q⟩) ∧
    LeastUpTo (M / 2 ^ 16) (shift p.toReal (Region.pts a.toReal)) (shift q.toReal (Region.pts b.toReal))
      (penetrates ⟨a, Translate2d.mk p⟩ ⟨b, Translate2d.mk q⟩) (sdfv ⟨a, Translate2d.mk p⟩ ⟨b, Translate2d.mk q⟩) :=
  placed_least (k := 26) (noisy_box ha _) (noisy_box hb _)
    (grid_box ha False.elim _) (grid_box hb False.elim _) hp hq (by norm_num) (by norm_num) hM h8 hO

/-- Two `Shape2d` that are boxes or polygons, as colliders at positions `p`, `q` given as vectors or `Translate2d` (magnitude at most `M / 3`): the rounding
of the offset is included. -/
theorem C98_f32_shape_shape_colliders (a b : Shape2d F32) (p q : V2 F32) (ha : a.Bounded32 M) (hb : b.Bounded32 M)
    (hp : p.Bounded32 (M / 3)) (hq : q.Bounded32 (M / 3)) (na : a.NoBall) (nb : b.NoBall) (h8 : 8 ≤ M) (hM : M ≤ (2 : ℝ) ^ (26 : ℤ))
    (hO : DeepBy (M / 31) (shift p.toReal (Region.pts a.toReal)) (shift q.toReal (Region.pts b.toReal))) :
    LeastUpTo (M / 2 ^ 16) (shift p.toReal (Region.pts a.toReal)) (shift q.toReal (Region.pts b.toReal))
      (penetrates ⟨a, p⟩ ⟨b, q⟩) (sdfv ⟨a, p⟩ ⟨b, q⟩) ∧
    LeastUpTo (M / 2 ^ 16) (shift p.toReal (Region.pts a.toReal)) (shift q.toReal (Region.pts b.toReal))
      (penetrates ⟨a, Translate2d.mk p⟩ ⟨b, Translate2d.mk q⟩) (sdfv ⟨a, Translate2d.mk p⟩ ⟨b, Translate2d.mk q⟩) :=
  placed_least (k := 26) (handled_shape ha na (by norm_num) hM (low8 h8)).noisy (handled_shape hb nb (by norm_num) hM (low8 h8)).noisy
    (noBall_shape ha na hM).2 (noBall_shape hb nb hM).2 hp hq (by norm_num) (by norm_num) hM h8 hO

/-- Two `Shape2d` of any kind (with balls), as colliders at positions `p`, `q` given as vectors or `Translate2d`. -/
theorem C98_f32_any_shape_colliders (a b : Shape2d F32) (p q : V2 F32) (ha : a.Bounded32 M) (hb : b.Bounded32 M)
    (hp : p.Bounded32 (M / 3)) (hq : q.Bounded32 (M / 3)) (h8 : 8 ≤ M) (hM : M ≤ (2 : ℝ) ^ (17 : ℤ))
    (hO : DeepBy (M / 31) (shift p.toReal (Region.pts a.toReal)) (shift q.toReal (Region.pts b.toReal))) :
    LeastUpTo (M / 2 ^ 16) (shift p.toReal (Region.pts a.toReal)) (shift q.toReal (Region.pts b.toReal))
      (penetrates ⟨a, p⟩ ⟨b, q⟩) (sdfv ⟨a, p⟩ ⟨b, q⟩) ∧
    LeastUpTo (M / 2 ^ 16) (shift p.toReal (Region.pts a.toReal)) (shift q.toReal (Region.pts b.toReal))
      (penetrates ⟨a, Translate2d.mk p⟩ ⟨b, Translate2d.mk q⟩) (sdfv ⟨a, Translate2d.mk p⟩ ⟨b, Translate2d.mk q⟩) := by
  obtain ⟨c1, n1, g1⟩ := ball_shape ha (low8 h8) hM
  obtain ⟨c2, n2, g2⟩ := ball_shape hb (low8 h8) hM
  exact placed_least n1 n2 g1 g2 hp hq (by norm_num) (by norm_num) hM h8 hO

/-! ## rotations -/

theorem low4 (h : 4 ≤ M) : (2 : ℝ) ^ (-20 : ℤ) ≤ M := le_trans (by norm_num) h

/-- Two polygons, the second one rotated and moved by `rel`. -/
theorem C98_f32_poly_poly_turned (a : Poly2d F32) (b : Poly2d F32) (rel : Transform2d F32) (ha : a.Bounded32 M) (hb : b.Bounded32 M)
    (hr : rel.Rigid32 M (1 / 2 ^ 16))
    (h4 : 4 ≤ M) (hM : M ≤ (2 : ℝ) ^ (24 : ℤ))
    (hO : DeepBy (M / 16) (Region.pts a.toReal) (rel.image (Region.pts b.toReal))) :
    LeastUpTo (M / 2 ^ 16) (Region.pts a.toReal) (rel.image (Region.pts b.toReal)) (penetratesRel a b rel) (sdfvRel a b rel) :=
  have hM' : M ≤ (2 : ℝ) ^ (26 : ℤ) := hM.trans (zpow_le_zpow (by norm_num))
  (turn_least (k := 25) (noisy_poly ha (by norm_num) hM' (low4 h4)) (noisy_poly hb (by norm_num) hM' (low4 h4))
    (grid_poly ha (by norm_num) hM' False.elim) (grid_poly hb (by norm_num) hM' False.elim) hr (by norm_num) (by norm_num) (two_scale hM) h4 hO).1

/-- Two polygons, as colliders with rotations: positions of magnitude at most `M / 4`, rotors with squared length within
`2^-18` of one; the rounding of the relative placement is included. -/
theorem C98_f32_poly_poly_turned_colliders (a : Poly2d F32) (b : Poly2d F32) (ta tb : Transform2d F32) (ha : a.Bounded32 M)
    (hb : b.Bounded32 M) (hta : ta.Rigid32 (M / 4) (1 / 2 ^ 18)) (htb : tb.Rigid32 (M / 4) (1 / 2 ^ 18))
    (h4 : 4 ≤ M) (hM : M ≤ (2 : ℝ) ^ (24 : ℤ))
    (hO : DeepBy (M / 15) (ta.image (Region.pts a.toReal)) (tb.image (Region.pts b.toReal))) :
    LeastTurned (M / 2 ^ 15) (ta.image (Region.pts a.toReal)) (tb.image (Region.pts b.toReal)) ta.rot.a.toReal
      (penetrates ⟨a, ta⟩ ⟨b, tb⟩) (sdfv ⟨a, ta⟩ ⟨b, tb⟩) :=
  have hM' : M ≤ (2 : ℝ) ^ (26 : ℤ) := hM.trans (zpow_le_zpow (by norm_num))
  turned_least (k := 25) (noisy_poly ha (by norm_num) hM' (low4 h4)) (noisy_poly hb (by norm_num) hM' (low4 h4))
    (grid_poly ha (by norm_num) hM' False.elim) (grid_poly hb (by norm_num) hM' False.elim) hta htb (by norm_num) (by norm_num) (two_scale hM) h4 hO

/-- A box and a polygon, the second one rotated and moved by `rel`. -/
theorem C98_f32_box_poly_turned (a : Box2d F32) (b : Poly2d F32) (rel : Transform2d F32) (ha : a.Bounded32 M) (hb : b.Bounded32 M)
    (hr : rel.Rigid32 M (1 / 2 ^ 16))
    (h4 : 4 ≤ M) (hM : M ≤ (2 : ℝ) ^ (24 : ℤ))
    (hO : DeepBy (M / 16) (Region.pts a.toReal) (rel.image (Region.pts b.toReal))) :
    LeastUpTo (M / 2 ^ 16) (Region.pts a.toReal) (rel.image (Region.pts b.toReal)) (penetratesRel a b rel) (sdfvRel a b rel) :=
  have hM' : M ≤ (2 : ℝ) ^ (26 : ℤ) := hM.trans (zpow_le_zpow (by norm_num))
  (turn_least (k := 25) (noisy_box ha _) (noisy_poly hb (by norm_num) hM' (low4 h4))
    (grid_box ha False.elim _) (grid_poly hb (by norm_num) hM' False.elim) hr (by norm_num) (by norm_num) (two_scale hM) h4 hO).1

/-- A box and a polygon, as colliders with rotations: positions of magnitude at most `M / 4`, rotors with squared length within
`2^-18` of one; the rounding of the relative placement is included. -/
theorem C98_f32_box_poly_turned_colliders (a : Box2d F32) (b : Poly2d F32) (ta tb : Transform2d F32) (ha : a.Bounded32 M)
    (hb : b.Bounded32 M) (hta : ta.Rigid32 (M / 4) (1 / 2 ^ 18)) (htb : tb.Rigid32 (M / 4) (1 / 2 ^ 18))
    (h4 : 4 ≤ M) (hM : M ≤ (2 : ℝ) ^ (24 : ℤ))
    (hO : DeepBy (M / 15) (ta.image (Region.pts a.toReal)) (tb.image (Region.pts b.toReal))) :
    LeastTurned (M / 2 ^ 15) (ta.image (Region.pts a.toReal)) (tb.image (Region.pts b.toReal)) ta.rot.a.toReal
      (penetrates ⟨a, ta⟩ ⟨b, tb⟩) (sdfv ⟨a, ta⟩ ⟨b, tb⟩) :=
  have hM' : M ≤ (2 : ℝ) ^ (26 : ℤ) := hM.trans (zpow_le_zpow (by norm_num))
  turned_least (k := 25) (noisy_box ha _) (noisy_poly hb (by norm_num) hM' (low4 h4))
    (grid_box ha False.elim _) (grid_poly hb (by norm_num) hM' False.elim) hta htb (by norm_num) (by norm_num) (two_scale hM) h4 hO

/-- A polygon and a box, the second one rotated and moved by `rel`. -/
theorem C98_f32_poly_box_turned (a : Poly2d F32) (b : Box2d F32) (rel : Transform2d F32) (ha : a.Bounded32 M) (hb : b.Bounded32 M)
    (hr : rel.Rigid32 M (1 / 2 ^ 16))
    (h4 : 4 ≤ M) (hM : M ≤ (2 : ℝ) ^ (24 : ℤ))
    (hO : DeepBy (M / 16) (Region.pts a.toReal) (rel.image (Region.pts b.toReal))) :
    LeastUpTo (M / 2 ^ 16) (Region.pts a.toReal) (rel.image (Region.pts b.toReal)) (penetratesRel a b rel) (sdfvRel a b rel) :=
  have hM' : M ≤ (2 : ℝ) ^ (26 : ℤ) := hM.trans (zpow_le_zpow (by norm_num))
  (turn_least (k := 25) (noisy_poly ha (by norm_num) hM' (low4 h4)) (noisy_box hb _)
    (grid_poly ha (by norm_num) hM' False.elim) (grid_box hb False.elim _) hr (by norm_num) (by norm_num) (two_scale hM) h4 hO).1

/-- A polygon and a box, as colliders with rotations: positions of magnitude at most `M / 4`, rotors with squared length within
`2^-18` of one; the rounding of the relative placement is included. -/
theorem C98_f32_poly_box_turned_colliders (a : Poly2d F32) (b : Box2d F32) (ta tb : Transform2d F32) (ha : a.Bounded32 M)
    (hb : b.Bounded32 M) (hta : ta.Rigid32 (M / 4) (1 / 2 ^ 18)) (htb : tb.Rigid32 (M / 4) (1 / 2 ^ 18))
    (h4 : 4 ≤ M) (hM : M ≤ (2 : ℝ) ^ (24 : ℤ))
    (hO : DeepBy (M / 15) (ta.image (Region.pts a.toReal)) (tb.image (Region.pts b.toReal))) :
    LeastTurned (M / 2 ^ 15) (ta.image (Region.pts a.toReal)) (tb.image (Region.pts b.toReal)) ta.rot.a.toReal
      (penetrates ⟨a, ta⟩ ⟨b, tb⟩) (sdfv ⟨a, ta⟩ ⟨b, tb⟩) :=
  have hM' : M ≤ (2 : ℝ) ^ (26 : ℤ) := hM.trans (zpow_le_zpow (by norm_num))
  turned_least (k := 25) (noisy_poly ha (by norm_num) hM' (low4 h4)) (noisy_box hb _)
    (grid_poly ha (by norm_num) hM' False.elim) (grid_box hb False.elim _) hta htb (by norm_num) (by norm_num) (two_scale hM) h4 hO

/-- Two boxes, the second one rotated and moved by `rel`. -/
theorem C98_f32_box_box_turned (a : Box2d F32) (b : Box2d F32) (rel : Transform2d F32) (ha : a.Bounded32 M) (hb : b.Bounded32 M)
    (hr : rel.Rigid32 M (1 / 2 ^ 16))
    (h4 : 4 ≤ M) (hM : M ≤ (2 : ℝ) ^ (24 : ℤ))
    (hO : DeepBy (M / 16) (Region.pts a.toReal) (rel.image (Region.pts b.toReal))) :
    LeastUpTo (M / 2 ^ 16) (Region.pts a.toReal) (rel.image (Region.pts b.toReal)) (penetratesRel a b rel) (sdfvRel a b rel) :=
  have hM' : M ≤ (2 : ℝ) ^ (26 : ℤ) := hM.trans (zpow_le_zpow (by norm_num))
  (turn_least (k := 25) (noisy_box ha _) (noisy_box hb _)
    (grid_box ha False.elim _) (grid_box hb False.elim _) hr (by norm_num) (by norm_num) (two_scale hM) h4 hO).1

/-- Two boxes, as colliders with rotations: positions of magnitude at most `M / 4`, rotors with squared length within
`2^-18` of one; the rounding of the relative placement is included. -/
theorem C98_f32_box_box_turned_colliders (a : Box2d F32) (b : Box2d F32) (ta tb : Transform2d F32) (ha : a.Bounded32 M)
    (hb : b.Bounded32 M) (hta : ta.Rigid32 (M / 4) (1 / 2 ^ 18)) (htb : tb.Rigid32 (M / 4) (1 / 2 ^ 18))
    (h4 : 4 ≤ M) (hM : M ≤ (2 : ℝ) ^ (24 : ℤ))
    (hO : DeepBy (M / 15) (ta.image (Region.pts a.toReal)) (tb.image (Region.pts b.toReal))) :
    LeastTurned (M / 2 ^ 15) (ta.image (Region.pts a.toReal)) (tb.image (Region.pts b.toReal)) ta.rot.a.toReal
      (penetrates ⟨a, ta⟩ ⟨b, tb⟩) (sdfv ⟨a, ta⟩ ⟨b, tb⟩) :=
  have hM' : M ≤ (2 : ℝ) ^ (26 : ℤ) := hM.trans (zpow_le_zpow (by norm_num))
  turned_least (k := 25) (noisy_box ha _) (noisy_box hb _)
    (grid_box ha False.elim _) (grid_box hb False.elim _) hta htb (by norm_num) (by norm_num) (two_scale hM) h4 hO

/-- Two `Shape2d` that are boxes or polygons, the second one rotated and moved by `rel`. -/
theorem C98_f32_shape_shape_turned (a : Shape2d F32) (b : Shape2d F32) (rel : Transform2d F32) (ha : a.Bounded32 M) (hb : b.Bounded32 M)
    (hr : rel.Rigid32 M (1 / 2 ^ 16)) (na : a.NoBall) (nb : b.NoBall)
    (h4 : 4 ≤ M) (hM : M ≤ (2 : ℝ) ^ (24 : ℤ))
    (hO : DeepBy (M / 16) (Region.pts a.toReal) (rel.image (Region.pts b.toReal))) :
    LeastUpTo (M / 2 ^ 16) (Region.pts a.toReal) (rel.image (Region.pts b.toReal)) (penetratesRel a b rel) (sdfvRel a b rel) :=
  have hM' : M ≤ (2 : ℝ) ^ (26 : ℤ) := hM.trans (zpow_le_zpow (by norm_num))
  (turn_least (k := 25) (handled_shape ha na (by norm_num) hM' (low4 h4)).noisy (handled_shape hb nb (by norm_num) hM' (low4 h4)).noisy
    (noBall_shape ha na hM').2 (noBall_shape hb nb hM').2 hr (by norm_num) (by norm_num) (two_scale hM) h4 hO).1

/-- Two `Shape2d` that are boxes or polygons, as colliders with rotations: positions of magnitude at most `M / 4`, rotors with squared length within
`2^-18` of one; the rounding of the relative placement is included. -/
theorem C98_f32_shape_shape_turned_colliders (a : Shape2d F32) (b : Shape2d F32) (ta tb : Transform2d F32) (ha : a.Bounded32 M)
    (hb : b.Bounded32 M) (hta : ta.Rigid32 (M / 4) (1 / 2 ^ 18)) (htb : tb.Rigid32 (M / 4) (1 / 2 ^ 18)) (na : a.NoBall) (nb : b.NoBall)
    (h4 : 4 ≤ M) (hM : M ≤ (2 : ℝ) ^ (24 : ℤ))
    (hO : DeepBy (M / 15) (ta.image (Region.pts a.toReal)) (tb.image (Region.pts b.toReal))) :
    LeastTurned (M / 2 ^ 15) (ta.image (Region.pts a.toReal)) (tb.image (Region.pts b.toReal)) ta.rot.a.toReal
      (penetrates ⟨a, ta⟩ ⟨b, tb⟩) (sdfv ⟨a, ta⟩ ⟨b, tb⟩) :=
  have hM' : M ≤ (2 : ℝ) ^ (26 : ℤ) := hM.trans (zpow_le_zpow (by norm_num))
  turned_least (k := 25) (handled_shape ha na (by norm_num) hM' (low4 h4)).noisy (handled_shape hb nb (by norm_num) hM' (low4 h4)).noisy
    (noBall_shape ha na hM').2 (noBall_shape hb nb hM').2 hta htb (by norm_num) (by norm_num) (two_scale hM) h4 hO

/-- Two `Shape2d` of any kind (with balls), the second one rotated and moved by `rel`, coordinates at most `2^15`. -/
theorem C98_f32_any_shape_turned (a b : Shape2d F32) (rel : Transform2d F32) (ha : a.Bounded32 M) (hb : b.Bounded32 M)
    (hr : rel.Rigid32 M (1 / 2 ^ 16)) (h4 : 4 ≤ M) (hM : M ≤ (2 : ℝ) ^ (15 : ℤ))
    (hO : DeepBy (M / 16) (Region.pts a.toReal) (rel.image (Region.pts b.toReal))) :
    LeastUpTo (M / 2 ^ 16) (Region.pts a.toReal) (rel.image (Region.pts b.toReal)) (penetratesRel a b rel) (sdfvRel a b rel) := by
  have hM' : M ≤ (2 : ℝ) ^ (17 : ℤ) := hM.trans (zpow_le_zpow (by norm_num))
  obtain ⟨c1, n1, g1⟩ := ball_shape ha (low4 h4) hM'
  obtain ⟨c2, n2, g2⟩ := ball_shape hb (low4 h4) hM'
  exact (turn_least (k := 16) n1 n2 g1 g2 hr (by norm_num) (by norm_num) (two_scale hM) h4 hO).1

/-- Two `Shape2d` of any kind (with balls), as colliders with rotations, coordinates at most `2^15`. -/
theorem C98_f32_any_shape_turned_colliders (a b : Shape2d F32) (ta tb : Transform2d F32) (ha : a.Bounded32 M)
    (hb : b.Bounded32 M) (hta : ta.Rigid32 (M / 4) (1 / 2 ^ 18)) (htb : tb.Rigid32 (M / 4) (1 / 2 ^ 18))
    (h4 : 4 ≤ M) (hM : M ≤ (2 : ℝ) ^ (15 : ℤ))
    (hO : DeepBy (M / 15) (ta.image (Region.pts a.toReal)) (tb.image (Region.pts b.toReal))) :
    LeastTurned (M / 2 ^ 15) (ta.image (Region.pts a.toReal)) (tb.image (Region.pts b.toReal)) ta.rot.a.toReal
      (penetrates ⟨a, ta⟩ ⟨b, tb⟩) (sdfv ⟨a, ta⟩ ⟨b, tb⟩) := by
  have hM' : M ≤ (2 : ℝ) ^ (17 : ℤ) := hM.trans (zpow_le_zpow (by norm_num))
  obtain ⟨c1, n1, g1⟩ := ball_shape ha (low4 h4) hM'
  obtain ⟨c2, n2, g2⟩ := ball_shape hb (low4 h4) hM'
  exact turned_least (k := 16) n1 n2 g1 g2 hta htb (by norm_num) (by norm_num) (two_scale hM) h4 hO

end

end

end Auburn
