import Verif.Ieee.PosExamples

/-!
# C93 in binary32: a zero push
-/

set_option linter.unusedSectionVars false
set_option synthInstance.maxSize 1000

namespace Auburn

open F32 V2 ExtremePoint2d Transformation2d

/-- the regular 24-gon of radius 1000, rounded to integers -/
def gon24Q : List (ℚ × ℚ) := [(1000, 0), (966, 259), (866, 500), (707, 707), (500, 866), (259, 966), (0, 1000), (-259, 966), (-500, 866), (-707, 707), (-866, 500), (-966, 259), (-1000, 0), (-966, -259), (-866, -500), (-707, -707), (-500, -866), (-259, -966), (0, -1000), (259, -966), (500, -866), (707, -707), (866, -500), (966, -259)]
/-- a square of side 20 -/
def squareQ : List (ℚ × ℚ) := [(-10, -10), (10, -10), (10, 10), (-10, 10)]

section
variable [env : F32Env]

theorem litV_real (p : ℚ × ℚ) (x y : ℚ) (hx : (qlitV p).x.toRat = x) (hy : (qlitV p).y.toRat = y) :
    (litV p.1 p.2).toReal = ⟨(x : ℝ), (y : ℝ)⟩ := by
  rw [← hx, ← hy, ← (rel_litV p).x.toReal, ← (rel_litV p).y.toReal]; rfl

/-- Finding, in binary32 with rounding at every step: a small square near the middle of a 24-gon of radius 1000.
`penetrates` and `sdfv` report the overlap with the zero vector, although no displacement shorter than 700 separates
the two. -/
theorem C93_f32_zero_push_finding :
    let a := litPoly gon24Q
    let b := litPoly squareQ
    let t := litV 10 7
    (∃ v, penetratesRel a b t = .ok (some v) ∧ v.Is 0) ∧ (∃ v, sdfvRel a b t = .ok (true, v) ∧ v.Is 0) ∧
      ∀ w : V2 ℝ, Separable (shift w (Region.pts a.toReal)) (shift t.toReal (Region.pts b.toReal)) →
        700 ^ 2 ≤ lengthSq w := by
  intro a b t
  have hz : ∀ v : V2 F32, Rel2 ⟨.fin false 0, .fin false 0⟩ v → v.Is 0 := by
    rintro ⟨vx, vy⟩ ⟨h1, h2⟩
    simp only at h1 h2
    rcases h1 with _ | _ | ⟨_, _, m, hm, em⟩
    rcases h2 with _ | _ | ⟨_, _, m', hm', em'⟩
    have e1 : m = 0 := by simpa using em.symm
    have e2 : m' = 0 := by simpa using em'.symm
    subst e1 e2
    exact ⟨⟨_, _, _, rfl, by simp [F32.sval]⟩, ⟨_, _, _, rfl, by simp [F32.sval]⟩⟩
  refine ⟨?_, ?_, ?_⟩
  · obtain ⟨v, hv, r⟩ := (rel_run true false gon24Q squareQ (10, 7)).vec true
      (u := ⟨.fin false 0, .fin false 0⟩) (by decide +kernel)
    refine ⟨v, ?_, hz v r⟩
    show (LocalMinkowskiDiff2d.sdfvMinkowski true false ⟨a, b, t⟩).map _ = _
    change (LocalMinkowskiDiff2d.sdfvMinkowski true false ⟨a, b, t⟩) = _ at hv
    rw [hv]; rfl
  · obtain ⟨v, hv, r⟩ := (rel_run true true gon24Q squareQ (10, 7)).vec true
      (u := ⟨.fin false 0, .fin false 0⟩) (by decide +kernel)
    exact ⟨v, hv, hz v r⟩
  · rintro w ⟨n, hn, hs⟩
    have e3 : t.toReal = ⟨10, 7⟩ := by
      simpa using litV_real (10, 7) 10 7 (by decide +kernel) (by decide +kernel)
    have f1 : (litV (-10) (-10)).toReal = ⟨-10, -10⟩ := by
      simpa using litV_real (-10, -10) (-10) (-10) (by decide +kernel) (by decide +kernel)
    have f2 : (litV 10 10).toReal = ⟨10, 10⟩ := by
      simpa using litV_real (10, 10) 10 10 (by decide +kernel) (by decide +kernel)
    have f3 : (litV (-10) 10).toReal = ⟨-10, 10⟩ := by
      simpa using litV_real (-10, 10) (-10) 10 (by decide +kernel) (by decide +kernel)
    have g1 : (⟨-10, -10⟩ : V2 ℝ) ∈ Region.pts b.toReal := by
      rw [← f1]; refine subset_convexHull ℝ _ ?_
      simp [b, squareQ, litPoly, Poly2d.toReal]
    have g3 : (⟨-10, 10⟩ : V2 ℝ) ∈ Region.pts b.toReal := by
      rw [← f3]; refine subset_convexHull ℝ _ ?_
      simp [b, squareQ, litPoly, Poly2d.toReal]
    have g0 : (⟨-10, -7⟩ : V2 ℝ) ∈ Region.pts b.toReal := by
      have := (show Convex ℝ (Region.pts b.toReal) from convex_convexHull ℝ _) g1 g3
        (show (0 : ℝ) ≤ 17 / 20 by norm_num) (show (0 : ℝ) ≤ 3 / 20 by norm_num) (by norm_num)
      convert this using 1
      ext <;> simp <;> norm_num
    have hb : (0 : V2 ℝ) ∈ shift t.toReal (Region.pts b.toReal) := by
      refine ⟨_, g0, ?_⟩
      rw [e3]; ext <;> simp
    have key : ∀ p ∈ gon24Q, n.dot (litV p.1 p.2).toReal + n.dot w ≤ 0 := by
      intro p hp
      have hp' : (litV p.1 p.2).toReal ∈ Region.pts a.toReal := by
        refine subset_convexHull ℝ _ ?_
        show _ ∈ List.map V2.toReal (List.map _ _)
        exact List.mem_map_of_mem (List.mem_map_of_mem hp)
      have := hs _ ⟨_, hp', rfl⟩ 0 hb
      rw [dot_add] at this
      simpa using this
    have k1 := key (1000, 0) (by simp [gon24Q])
    have k2 := key (-1000, 0) (by simp [gon24Q])
    have k3 := key (0, 1000) (by simp [gon24Q])
    have k4 := key (0, -1000) (by simp [gon24Q])
    rw [litV_real (1000, 0) 1000 0 (by decide +kernel) (by decide +kernel)] at k1
    rw [litV_real (-1000, 0) (-1000) 0 (by decide +kernel) (by decide +kernel)] at k2
    rw [litV_real (0, 1000) 0 1000 (by decide +kernel) (by decide +kernel)] at k3
    rw [litV_real (0, -1000) 0 (-1000) (by decide +kernel) (by decide +kernel)] at k4
    have hN := lengthSq_pos.2 hn
    have hcs := dot_sq_le n w
    simp only [dot_def] at k1 k2 k3 k4 hcs
    push_cast at k1 k2 k3 k4
    rw [lengthSq_def] at hN hcs ⊢
    set m := n.x * w.x + n.y * w.y
    have q1 : (1000 * n.x) ^ 2 ≤ m ^ 2 := by rw [← neg_sq m]; exact sq_le_sq' (by linarith) (by linarith)
    have q2 : (1000 * n.y) ^ 2 ≤ m ^ 2 := by rw [← neg_sq m]; exact sq_le_sq' (by linarith) (by linarith)
    by_contra hlt
    have q3 := mul_lt_mul_of_pos_left (not_le.1 hlt) hN
    rw [lengthSq_def] at hcs
    nlinarith

end

end Auburn
