import Verif.Ieee.RectStep

/-!
# Penetration of a rectangle that contains the origin, in binary32 (library lemmas)
-/

set_option linter.unusedSectionVars false
set_option synthInstance.maxSize 1000

namespace Auburn

open F32 V2

section
variable [env : F32Env]
variable {S : V2 F32 → V2 F32} {X Y : Bool → F32} {ξ η : Bool → ℝ} {w h N : ℝ}

/-- distance of the side that starts in the corner `(ρ, π)`, counterclockwise -/
noncomputable def sideDist (ξ η : Bool → ℝ) (ρ π : Bool) : ℝ := if ρ = π then η π else ξ ρ

/-- the answer for that side -/
def PushSide (ξ η : Bool → ℝ) (ρ π : Bool) (v : V2 F32) : Prop :=
  if ρ = π then PushY η π v else PushX ξ ρ v

namespace RectVals

theorem edge_dist (R : RectVals X Y ξ η w h N) (ρ π : Bool) :
    ∃ d, F32.Is (edgeDistSq (⟨X ρ, Y π⟩ : V2 F32) ⟨X !π, Y ρ⟩) d ∧
      d ≤ (sideDist ξ η ρ π + 64 * (N / 2 ^ 24)) ^ 2 ∧ sideDist ξ η ρ π ^ 2 * (1 - 2 / 2 ^ 24) ≤ d := by
  unfold sideDist
  by_cases e : ρ = π
  · subst e
    rw [if_pos rfl]; exact R.distY ρ
  · have e : π = !ρ := by cases ρ <;> cases π <;> simp_all
    subst e
    rw [if_neg (by simp), Bool.not_not]; exact R.distX ρ

theorem edge_stop (R : RectVals X Y ξ η w h N) (hS : Corners S X Y) (ρ π : Bool) (n : Nat) (pts : List (V2 F32))
    (ha : (findClosestEdge pts).a = ⟨X ρ, Y π⟩) (hb : (findClosestEdge pts).b = ⟨X !π, Y ρ⟩) :
    ∃ v, epa S (n + 1) pts = .ok v ∧ PushSide ξ η ρ π v := by
  unfold PushSide
  by_cases e : ρ = π
  · subst e
    simp only [if_true]; exact R.stopY hS ρ n pts ha hb
  · have e : π = !ρ := by cases ρ <;> cases π <;> simp_all
    subst e
    rw [Bool.not_not] at hb
    simp only [show (ρ = !ρ) = False by simp, if_false]; exact R.stopX hS ρ n pts ha hb

theorem sideDist_pos (R : RectVals X Y ξ η w h N) (ρ π : Bool) : 0 < sideDist ξ η ρ π := by
  unfold sideDist; split
  · exact R.yp _
  · exact R.xp _
theorem sideDist_le (R : RectVals X Y ξ η w h N) (ρ π : Bool) : sideDist ξ η ρ π ≤ N := by
  unfold sideDist; split
  · exact R.yu _
  · exact R.xu _

/-- comparing the distances instead of the computed squares -/
theorem cmp {D B d : ℝ} (hD : 0 < D) (hDN : D ≤ N) (hB : 0 ≤ B) (h1 : D ^ 2 * (1 - 2 / 2 ^ 24) ≤ d) (h2 : d ≤ B ^ 2) :
    D ≤ B + 2 * (N / 2 ^ 24) := by
  have h3 : D * (1 - 2 / 2 ^ 24) ≤ B := by
    refine le_of_sq_le_sq hB ?_
    have : (D * (1 - 2 / 2 ^ 24)) ^ 2 ≤ D ^ 2 * (1 - 2 / 2 ^ 24) := by
      have := mul_pos hD hD
      nlinarith
    linarith
  linarith
where
  le_of_sq_le_sq {a b : ℝ} (hb : 0 ≤ b) (h : a ^ 2 ≤ b ^ 2) : a ≤ b := by
    by_contra hc
    have hc := not_le.1 hc
    nlinarith

/-- the triangle with its corner `(ρ, π)` first, counterclockwise -/
theorem ccw (R : RectVals X Y ξ η w h N) {σ τ ρ π : Bool} (ho : OffDiag σ τ ρ π) :
    enforceCcw [(⟨X ρ, Y π⟩ : V2 F32), ⟨X !σ, Y !τ⟩, ⟨X σ, Y τ⟩] =
      .ok [⟨X ρ, Y π⟩, ⟨X !π, Y ρ⟩, ⟨X π, Y !ρ⟩] := by
  have dw : ∀ s, Sgd s (-23) 32 (X s - X (!s)) := fun s => ⟨w, R.wx s, R.wl, R.w32⟩
  have dh : ∀ s, Sgd s (-23) 32 (Y s - Y (!s)) := fun s => ⟨h, R.hy s, R.hl, R.h32⟩
  have k1 : Sgd (ρ == π) (-46) 64 (((⟨X !ρ, Y π⟩ : V2 F32) - ⟨X ρ, Y π⟩).cross (⟨X ρ, Y !π⟩ - ⟨X ρ, Y π⟩)) := by
    have a := dw (!ρ)
    have b := dh (!π)
    rw [Bool.not_not] at a b
    have c := (a.mul b (by norm_num) (by norm_num)).sub_zero
      (mul_zero' (sub_self' (R.y π)) (sub_self' (R.x ρ)))
    refine Sgd.cast (Sgd.mono c (by norm_num) (by norm_num)) ?_
    cases ρ <;> cases π <;> rfl
  have k2 : Sgd (!(ρ == π)) (-46) 64 (((⟨X ρ, Y !π⟩ : V2 F32) - ⟨X ρ, Y π⟩).cross (⟨X !ρ, Y π⟩ - ⟨X ρ, Y π⟩)) := by
    have a := dw (!ρ)
    have b := dh (!π)
    rw [Bool.not_not] at a b
    have c := (b.mul a (by norm_num) (by norm_num)).zero_sub
      (mul_zero' (sub_self' (R.x ρ)) (sub_self' (R.y π)))
    refine Sgd.cast (Sgd.mono c (by norm_num) (by norm_num)) ?_
    cases ρ <;> cases π <;> rfl
  have hpos : ∀ {a : F32}, Sgd true (-46) 64 a → a > 0 := fun h => by
    obtain ⟨x, h1, h2⟩ := h.pos
    exact (lt_iff is_zero h1).2 h2
  have hneg : ∀ {a : F32}, Sgd false (-46) 64 a → ¬ a > 0 := fun h => by
    obtain ⟨x, h1, h2⟩ := h.neg'
    exact fun hc => absurd ((lt_iff is_zero h1).1 hc) (not_lt.2 h2.le)
  unfold enforceCcw
  rcases ho with ⟨rfl, h2⟩ | ⟨h1, rfl⟩
  · have h2 : τ = !π := by rw [h2, Bool.not_not]
    subst h2
    cases ρ <;> cases π <;>
    first
    | exact if_pos (hpos k1)
    | exact if_neg (hneg k1)
  · have h1 : σ = !ρ := by rw [h1, Bool.not_not]
    subst h1
    cases ρ <;> cases π <;>
    first
    | exact if_pos (hpos k2)
    | exact if_neg (hneg k2)

/-- the answer on the full rectangle -/
theorem answer4 (R : RectVals X Y ξ η w h N) (hS : Corners S X Y) (ρ π : Bool) (n : Nat) :
    ∃ ρ' π' v, epa S (n + 1) [⟨X ρ, Y π⟩, ⟨X !π, Y ρ⟩, ⟨X !ρ, Y !π⟩, ⟨X π, Y !ρ⟩] = .ok v ∧
      PushSide ξ η ρ' π' v ∧ ∀ ρ'' π'', sideDist ξ η ρ' π' ≤ sideDist ξ η ρ'' π'' + 66 * (N / 2 ^ 24) := by
  have hce : closedEdges [(⟨X ρ, Y π⟩ : V2 F32), ⟨X !π, Y ρ⟩, ⟨X !ρ, Y !π⟩, ⟨X π, Y !ρ⟩] =
      [(⟨X ρ, Y π⟩, ⟨X !π, Y ρ⟩), (⟨X !π, Y ρ⟩, ⟨X !ρ, Y !π⟩), (⟨X !ρ, Y !π⟩, ⟨X π, Y !ρ⟩), (⟨X π, Y !ρ⟩, ⟨X ρ, Y π⟩)] := rfl
  have edge : ∀ e ∈ [((⟨X ρ, Y π⟩ : V2 F32), (⟨X !π, Y ρ⟩ : V2 F32)), (⟨X !π, Y ρ⟩, ⟨X !ρ, Y !π⟩), (⟨X !ρ, Y !π⟩, ⟨X π, Y !ρ⟩), (⟨X π, Y !ρ⟩, ⟨X ρ, Y π⟩)],
      ∃ ρ' π', e = (⟨X ρ', Y π'⟩, ⟨X !π', Y ρ'⟩) := by
    intro e he
    simp only [List.mem_cons, List.not_mem_nil, or_false] at he
    rcases he with rfl | rfl | rfl | rfl
    · exact ⟨ρ, π, rfl⟩
    · exact ⟨!π, ρ, rfl⟩
    · exact ⟨!ρ, !π, by rw [Bool.not_not]⟩
    · exact ⟨π, !ρ, by rw [Bool.not_not]⟩
  have all : ∀ ρ' π', ((⟨X ρ', Y π'⟩ : V2 F32), (⟨X !π', Y ρ'⟩ : V2 F32)) ∈ [((⟨X ρ, Y π⟩ : V2 F32), (⟨X !π, Y ρ⟩ : V2 F32)), (⟨X !π, Y ρ⟩, ⟨X !ρ, Y !π⟩), (⟨X !ρ, Y !π⟩, ⟨X π, Y !ρ⟩), (⟨X π, Y !ρ⟩, ⟨X ρ, Y π⟩)] := by
    intro ρ' π'
    cases ρ <;> cases π <;> cases ρ' <;> cases π' <;> simp
  obtain ⟨j, hj, j1, j2, j3, j4⟩ := findClosest_f32 _ _ _ hce (fun e he => by
    obtain ⟨ρ', π', rfl⟩ := edge e he
    obtain ⟨d, d1, _⟩ := R.edge_dist ρ' π'
    exact ⟨d, d1⟩)
  obtain ⟨ρ', π', e⟩ := edge _ (List.getElem_mem hj)
  rw [e] at j2 j3
  obtain ⟨v, v1, v2⟩ := R.edge_stop hS ρ' π' n _ j2 j3
  refine ⟨ρ', π', v, v1, v2, fun ρ'' π'' => ?_⟩
  obtain ⟨d, d1, d2, d3⟩ := R.edge_dist ρ' π'
  obtain ⟨d', e1, e2, e3⟩ := R.edge_dist ρ'' π''
  have := j4 _ (all ρ'' π'') d d' (by rw [e]; exact d1) e1
  have N0 : 0 < N := (R.xp true).trans_le (R.xu true)
  have := cmp (R.sideDist_pos ρ' π') (R.sideDist_le ρ' π')
    (by have := R.sideDist_pos ρ'' π''; positivity) d3 (this.trans e2)
  linarith

/-- the answer of the expanding polytope search: one of the four sides, and one of least distance up to
rounding if the triangle it starts from is on the right side of the diagonal -/
theorem answer (R : RectVals X Y ξ η w h N) (hS : Corners S X Y) (ρ π : Bool) (n : Nat) :
    ∃ ρ' π' v, epa S (n + 2) [⟨X ρ, Y π⟩, ⟨X !π, Y ρ⟩, ⟨X π, Y !ρ⟩] = .ok v ∧
      PushSide ξ η ρ' π' v ∧
      (-(32 * (N / 2 ^ 24) * max w h) ≤ F1 ξ η w h ρ π → -(32 * (N / 2 ^ 24) * max w h) ≤ F2 ξ η w h ρ π →
        ∀ ρ'' π'', sideDist ξ η ρ' π' ≤ sideDist ξ η ρ'' π'' + 105 * (N / 2 ^ 24)) := by
  have N0 : 0 < N := (R.xp true).trans_le (R.xu true)
  have hce : closedEdges [(⟨X ρ, Y π⟩ : V2 F32), ⟨X !π, Y ρ⟩, ⟨X π, Y !ρ⟩] =
      [(⟨X ρ, Y π⟩, ⟨X !π, Y ρ⟩), (⟨X !π, Y ρ⟩, ⟨X π, Y !ρ⟩), (⟨X π, Y !ρ⟩, ⟨X ρ, Y π⟩)] := rfl
  have last : ((⟨X π, Y !ρ⟩ : V2 F32), (⟨X ρ, Y π⟩ : V2 F32)) = (⟨X π, Y !ρ⟩, ⟨X !(!ρ), Y π⟩) := by rw [Bool.not_not]
  obtain ⟨j, hj, j1, j2, j3, j4⟩ := findClosest_f32 _ _ _ hce (fun e he => by
    simp only [List.mem_cons, List.not_mem_nil, or_false] at he
    rcases he with rfl | rfl | rfl
    · obtain ⟨d, d1, _⟩ := R.edge_dist ρ π
      exact ⟨d, d1⟩
    · obtain ⟨d, d1, _⟩ := R.distD ρ π
      exact ⟨d, d1⟩
    · obtain ⟨d, d1, _⟩ := R.edge_dist π (!ρ)
      rw [last]
      exact ⟨d, d1⟩)
  -- a side of the triangle is chosen
  have side : ∀ ρ' π', (ρ' = ρ ∧ π' = π ∨ ρ' = π ∧ π' = !ρ) →
      ([((⟨X ρ, Y π⟩ : V2 F32), (⟨X !π, Y ρ⟩ : V2 F32)), (⟨X !π, Y ρ⟩, ⟨X π, Y !ρ⟩), (⟨X π, Y !ρ⟩, ⟨X ρ, Y π⟩)])[j] =
        (⟨X ρ', Y π'⟩, ⟨X !π', Y ρ'⟩) →
      ∃ ρ' π' v, epa S (n + 2) [⟨X ρ, Y π⟩, ⟨X !π, Y ρ⟩, ⟨X π, Y !ρ⟩] = .ok v ∧
      PushSide ξ η ρ' π' v ∧
      (-(32 * (N / 2 ^ 24) * max w h) ≤ F1 ξ η w h ρ π → -(32 * (N / 2 ^ 24) * max w h) ≤ F2 ξ η w h ρ π →
        ∀ ρ'' π'', sideDist ξ η ρ' π' ≤ sideDist ξ η ρ'' π'' + 105 * (N / 2 ^ 24)) := by
    intro ρ' π' hor e
    rw [e] at j2 j3
    obtain ⟨v, v1, v2⟩ := R.edge_stop hS ρ' π' (n + 1) _ j2 j3
    refine ⟨ρ', π', v, v1, v2, fun f1 f2 => ?_⟩
    obtain ⟨d, d1, d2, d3⟩ := R.edge_dist ρ' π'
    obtain ⟨dD, D1, D2, D3⟩ := R.distD_le ρ π (e := 32 * (N / 2 ^ 24)) (by positivity) (by linarith) f1 f2
    have cD := j4 (⟨X !π, Y ρ⟩, ⟨X π, Y !ρ⟩) (by simp) d dD (by rw [e]; exact d1) D1
    have p := R.sideDist_pos ρ' π'
    have q := R.sideDist_le ρ' π'
    have px := R.xp (!ρ)
    have py := R.yp (!π)
    have cx := cmp p q (by positivity) d3 (cD.trans D2)
    have cy := cmp p q (by positivity) d3 (cD.trans D3)
    obtain ⟨d', a1, a2, a3⟩ := R.edge_dist ρ π
    have c1 := j4 (⟨X ρ, Y π⟩, ⟨X !π, Y ρ⟩) (by simp) d d' (by rw [e]; exact d1) a1
    obtain ⟨d'', b1, b2, b3⟩ := R.edge_dist π (!ρ)
    have c2 := j4 (⟨X π, Y !ρ⟩, ⟨X !(!ρ), Y π⟩) (by rw [← last]; simp) d d'' (by rw [e]; exact d1) b1
    have q1 := R.sideDist_pos ρ π
    have q2 := R.sideDist_pos π (!ρ)
    have c1 := cmp p q (by positivity) d3 (c1.trans a2)
    have c2 := cmp p q (by positivity) d3 (c2.trans b2)
    have cx : sideDist ξ η ρ' π' ≤ ξ (!ρ) + 105 * (N / 2 ^ 24) := by linarith
    have cy : sideDist ξ η ρ' π' ≤ η (!π) + 105 * (N / 2 ^ 24) := by linarith
    have c1 : sideDist ξ η ρ' π' ≤ sideDist ξ η ρ π + 105 * (N / 2 ^ 24) := by linarith [div_pos N0 (by norm_num : (0 : ℝ) < 2 ^ 24)]
    have c2 : sideDist ξ η ρ' π' ≤ sideDist ξ η π (!ρ) + 105 * (N / 2 ^ 24) := by linarith [div_pos N0 (by norm_num : (0 : ℝ) < 2 ^ 24)]
    intro ρ'' π''
    generalize sideDist ξ η ρ' π' = D at *
    unfold sideDist at *
    cases ρ <;> cases π <;> cases ρ'' <;> cases π'' <;> simp at cx cy c1 c2 ⊢ <;> assumption
  have hj3 : j = 0 ∨ j = 1 ∨ j = 2 := by simp at hj; omega
  rcases hj3 with rfl | rfl | rfl
  · exact side ρ π (Or.inl ⟨rfl, rfl⟩) rfl
  · have := R.stepD hS ρ π (n + 1) _ j2 j3 (by rw [j1]; simp)
    rw [this, j1]
    show ∃ ρ' π' v, epa S (n + 1) [⟨X ρ, Y π⟩, ⟨X !π, Y ρ⟩, ⟨X !ρ, Y !π⟩, ⟨X π, Y !ρ⟩] = .ok v ∧ _
    obtain ⟨ρ', π', v, v1, v2, v3⟩ := R.answer4 hS ρ π n
    exact ⟨ρ', π', v, v1, v2, fun _ _ ρ'' π'' => (v3 ρ'' π'').trans (by linarith [div_pos N0 (by norm_num : (0 : ℝ) < 2 ^ 24)])⟩
  · exact side π (!ρ) (Or.inr ⟨rfl, rfl⟩) last

end RectVals

/-- the move that answers a penetration query: out through one of the sides -/
def RectPush (ξ η : Bool → ℝ) (e : ℝ) (v : V2 F32) : Prop :=
  (∃ s, PushX ξ s v ∧ ∀ r, ξ s ≤ ξ r + e ∧ ξ s ≤ η r + e) ∨
  (∃ s, PushY η s v ∧ ∀ r, η s ≤ ξ r + e ∧ η s ≤ η r + e)

/-- all four queries on a rectangle that contains the origin with a margin -/
theorem InsideRect.answers (hR : InsideRect X Y) (R : RectVals X Y ξ η w h N) (hS : Corners S X Y)
    {d : V2 F32} (hd : StartDir d) :
    sdfvMinkowski false false S d = .ok (true, V2.nan) ∧ sdfvMinkowski false true S d = .ok (true, V2.nan) ∧
    ∃ v, sdfvMinkowski true false S d = .ok (true, v) ∧ sdfvMinkowski true true S d = .ok (true, v) ∧
      ((∃ s, PushX ξ s v) ∨ ∃ s, PushY η s v) ∧
      (1 ≤ w ∨ 1 ≤ h → RectPush ξ η (105 * (N / 2 ^ 24)) v) := by
  obtain ⟨q1, σ, τ, ρ, π, ho, q2, q3, hor⟩ := hR.queries hS hd
  refine ⟨hR.collide hS hd, q1, ?_⟩
  obtain ⟨ρ', π', v, v1, v2, v3⟩ := R.answer hS ρ π 18
  have hans : epaAnswer S [⟨X ρ, Y π⟩, ⟨X !σ, Y !τ⟩, ⟨X σ, Y τ⟩] = .ok (true, v) := by
    unfold epaAnswer
    rw [R.ccw ho]
    show (match epa S 20 _ with
      | .error e => (.error e : Except Panic (Bool × V2 F32))
      | .ok v => .ok (true, v)) = _
    rw [v1]
  refine ⟨v, q2.trans hans, q3.trans hans, ?_, fun hbig => ?_⟩
  · unfold PushSide at v2
    split at v2
    · exact Or.inr ⟨_, v2⟩
    · exact Or.inl ⟨_, v2⟩
  · obtain ⟨f1, f2⟩ := R.side_of_gjk ho hbig hor
    have v3 := v3 f1 f2
    unfold PushSide at v2
    have hx : ∀ r, sideDist ξ η r (!r) = ξ r := fun r => by unfold sideDist; rw [if_neg (by simp)]
    have hy : ∀ r, sideDist ξ η r r = η r := fun r => by unfold sideDist; rw [if_pos rfl]
    split at v2
    · rename_i e
      subst e
      rw [hy] at v3
      exact Or.inr ⟨_, v2, fun r => ⟨hx r ▸ v3 r (!r), hy r ▸ v3 r r⟩⟩
    · rename_i e
      have e : π' = !ρ' := by cases ρ' <;> cases π' <;> simp_all
      subst e
      rw [hx] at v3
      exact Or.inl ⟨_, v2, fun r => ⟨hx r ▸ v3 r (!r), hy r ▸ v3 r r⟩⟩

end

end Auburn
