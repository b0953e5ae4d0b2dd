import Verif.Ieee.EdgeDist

/-!
# EPA on binary32, deep overlaps (library lemmas for C98)
-/

set_option linter.unusedSectionVars false
set_option synthInstance.maxSize 1000

namespace Auburn

open F32 V2 ExtremePoint2d Transformation2d

/-! ## edges -/

theorem closedEdges_map {F G : Type} (f : V2 F → V2 G) (l : List (V2 F)) :
    closedEdges (l.map f) = (closedEdges l).map (Prod.map f f) := by
  unfold closedEdges
  rw [← List.map_tail, ← List.map_take, ← List.map_append, List.zip_map]

theorem sum_nonpos_int (l : List ℤ) (h : ∀ x ∈ l, x ≤ 0) : l.sum ≤ 0 := by
  induction l with
  | nil => simp
  | cons a l ih =>
    rw [List.sum_cons]
    have := h a (by simp)
    have := ih fun x hx => h x (by simp [hx])
    linarith

theorem Around.edge {o : V2 ℝ} {es : List (V2 ℝ × V2 ℝ)} (h : Around o es) : ∃ e ∈ es, e.1 ≠ e.2 := by
  by_contra hc
  push Not at hc
  have h1 := h ⟨1, 0⟩ (by simp [lengthSq_def])
  have h2 : crossings o ⟨1, 0⟩ es ≤ 0 := by
    unfold crossings
    refine sum_nonpos_int _ ?_
    intro x hx
    obtain ⟨e, he, rfl⟩ := List.mem_map.1 hx
    by_contra hpos
    obtain ⟨-, -, -, -, -, -, hne⟩ := crossing_pos (not_le.1 hpos)
    exact hne (by rw [hc e he])
  linarith

section
variable [env : F32Env]

/-- the edge chosen among `pre` -/
def Best (pre : List (V2 F32 × V2 F32)) (s : ClosestEdge F32) : Prop :=
  (s.dist = none ∧ ∀ e ∈ pre, ∀ D, ¬ F32.Is (edgeDistSq e.1 e.2) D) ∨
  ∃ d D, s.dist = some d ∧ F32.Is d D ∧ pre[s.index]? = some (s.a, s.b) ∧ edgeDistSq s.a s.b = d ∧
    ∀ e ∈ pre, ∀ D', F32.Is (edgeDistSq e.1 e.2) D' → D ≤ D'

theorem best_step {pre : List (V2 F32 × V2 F32)} {s : ClosestEdge F32} {e : V2 F32 × V2 F32} (h : Best pre s)
    (he : edgeDistSq e.1 e.2 = nan ∨ ∃ D, F32.Is (edgeDistSq e.1 e.2) D) :
    Best (pre ++ [e]) (closestStep s pre.length e) := by
  have mem : ∀ x, x ∈ pre ++ [e] → x ∈ pre ∨ x = e := by
    intro x hx
    rcases List.mem_append.1 hx with h | h
    · exact Or.inl h
    · exact Or.inr (List.mem_singleton.1 h)
  rcases he with he | ⟨E, hE⟩
  · have hs : closestStep s pre.length e = s := by
      unfold closestStep
      dsimp only
      rw [he, if_neg]
      cases s.dist with
      | none =>
        show ¬ (decide ((nan : F32) < F32.inf false)) = true
        rw [decide_eq_true_iff]; exact (special_cmp _).2.1
      | some c =>
        show ¬ (decide ((nan : F32) < c)) = true
        rw [decide_eq_true_iff]; exact (special_cmp _).2.1
    rw [hs]
    rcases h with ⟨h1, h2⟩ | ⟨d, D, h1, h2, h3, h4, h5⟩
    · refine Or.inl ⟨h1, fun x hx D hD => ?_⟩
      rcases mem x hx with hx | rfl
      · exact h2 x hx D hD
      · rw [he] at hD; exact not_is_nan hD
    · refine Or.inr ⟨d, D, h1, h2, ?_, h4, fun x hx D' hD' => ?_⟩
      · obtain ⟨hlt, -⟩ := List.getElem?_eq_some_iff.1 h3
        rw [List.getElem?_append_left hlt]; exact h3
      · rcases mem x hx with hx | rfl
        · exact h5 x hx D' hD'
        · rw [he] at hD'; exact absurd hD' not_is_nan
  · have hnew : ∀ c : Prop, [Decidable c] → c → (∀ x ∈ pre, ∀ D', F32.Is (edgeDistSq x.1 x.2) D' → E ≤ D') →
        Best (pre ++ [e]) (if c then ⟨pre.length, e.1, e.2, some (edgeDistSq e.1 e.2)⟩ else s) := by
      intro c _ hc hmin
      rw [if_pos hc]
      refine Or.inr ⟨_, E, rfl, hE, ?_, rfl, fun x hx D' hD' => ?_⟩
      · simp
      · rcases mem x hx with hx | rfl
        · exact hmin x hx D' hD'
        · exact (hE.unique hD').le
    rcases h with ⟨h1, h2⟩ | ⟨d, D, h1, h2, h3, h4, h5⟩
    · unfold closestStep
      dsimp only
      rw [h1]
      refine hnew _ ?_ fun x hx D' hD' => absurd hD' (h2 x hx D')
      show (decide (edgeDistSq e.1 e.2 < F32.inf false)) = true
      rw [decide_eq_true_iff]; exact (special_cmp_fin _ hE).1
    · unfold closestStep
      dsimp only
      rw [h1]
      by_cases hc : edgeDistSq e.1 e.2 < d
      · refine hnew _ ?_ fun x hx D' hD' => ?_
        · show (decide (edgeDistSq e.1 e.2 < d)) = true
          rw [decide_eq_true_iff]; exact hc
        · have := (lt_iff hE h2).1 hc
          have := h5 x hx D' hD'
          linarith
      · rw [if_neg (by
          show ¬ (decide (edgeDistSq e.1 e.2 < d)) = true
          rw [decide_eq_true_iff]; exact hc)]
        rw [lt_iff hE h2, not_lt] at hc
        refine Or.inr ⟨d, D, h1, h2, ?_, h4, fun x hx D' hD' => ?_⟩
        · obtain ⟨hlt, -⟩ := List.getElem?_eq_some_iff.1 h3
          rw [List.getElem?_append_left hlt]; exact h3
        · rcases mem x hx with hx | rfl
          · exact h5 x hx D' hD'
          · rw [← hE.unique hD']; exact hc

theorem best_loop (es pre : List (V2 F32 × V2 F32)) (s : ClosestEdge F32) (h : Best pre s)
    (he : ∀ e ∈ es, edgeDistSq e.1 e.2 = nan ∨ ∃ D, F32.Is (edgeDistSq e.1 e.2) D) :
    Best (pre ++ es) (closestLoop es pre.length s) := by
  induction es generalizing pre s with
  | nil => rw [List.append_nil]; exact h
  | cons e es ih =>
    have := ih (pre ++ [e]) (closestStep s pre.length e) (best_step h (he e (by simp))) fun x hx => he x (by simp [hx])
    rw [List.append_assoc, List.singleton_append, List.length_append] at this
    exact this

theorem best_edge {pts : List (V2 F32)}
    (he : ∀ e ∈ closedEdges pts, edgeDistSq e.1 e.2 = nan ∨ ∃ D, F32.Is (edgeDistSq e.1 e.2) D)
    (hex : ∃ e ∈ closedEdges pts, ∃ D, F32.Is (edgeDistSq e.1 e.2) D) :
    ∃ D, (closedEdges pts)[(findClosestEdge pts).index]? = some ((findClosestEdge pts).a, (findClosestEdge pts).b) ∧
      F32.Is (edgeDistSq (findClosestEdge pts).a (findClosestEdge pts).b) D ∧
      ∀ e ∈ closedEdges pts, ∀ D', F32.Is (edgeDistSq e.1 e.2) D' → D ≤ D' := by
  have h := best_loop (closedEdges pts) [] ⟨0, V2.nan, V2.nan, none⟩ (Or.inl ⟨rfl, by simp⟩) he
  rw [List.nil_append] at h
  rcases h with ⟨-, h⟩ | ⟨d, D, -, h2, h3, h4, h5⟩
  · obtain ⟨e, h1, D, hD⟩ := hex
    exact absurd hD (h e h1 D)
  · refine ⟨D, h3, ?_, h5⟩
    show F32.Is (edgeDistSq (closestLoop (closedEdges pts) 0 ⟨0, V2.nan, V2.nan, none⟩).a
      (closestLoop (closedEdges pts) 0 ⟨0, V2.nan, V2.nan, none⟩).b) D
    have h4' : edgeDistSq (closestLoop (closedEdges pts) 0 ⟨0, V2.nan, V2.nan, none⟩).a
      (closestLoop (closedEdges pts) 0 ⟨0, V2.nan, V2.nan, none⟩).b = d := h4
    rw [h4']; exact h2

/-! ## the tolerance of EPA -/

/-- the factor `1 + 0.01` as computed in binary32 -/
theorem is_factor_epa : ∃ κ : ℝ, F32.Is (1 + FloatExtra.tol : F32) κ ∧ 10099 / 10000 ≤ κ ∧ κ ≤ 10101 / 10000 := by
  obtain ⟨t, ht, h1⟩ := ofReal_near (z := false) (x := (1 / 100 : ℝ)) (m := 0) (by norm_num)
    (by norm_num) (by rw [abs_of_pos (by norm_num)]; norm_num)
  have h1 := abs_le.1 h1
  norm_num at h1
  have ht' : F32.Is (FloatExtra.tol : F32) t := ht
  have hs : |1 + t| ≤ 2 := by rw [abs_le]; constructor <;> linarith
  obtain ⟨κ, hκ, h2⟩ := F32.round_add is_one ht' (hs.trans (by norm_num))
  have h3 : |1 + t| / 2 ^ 24 ≤ 2 / 2 ^ 24 := div_le_div_of_nonneg_right hs (by positivity)
  have h4 := abs_le.1 (h2.trans h3)
  exact ⟨κ, hκ, by linarith, by linarith⟩

/-- `sufficientlyBetter` for a value that is not tiny -/
theorem better_up {f' h' : F32} {f h : ℝ} (hf : F32.Is f' f) (hh : F32.Is h' h) (hf0 : 1 / 2 ^ 100 ≤ f) (hhi : |h| ≤ 2 ^ 120) :
    (sufficientlyBetter f' h' FloatExtra.tol → h ≤ 0 ∨ 1005 / 1000 * h ≤ f) ∧
    (¬ sufficientlyBetter f' h' FloatExtra.tol → 0 < h ∧ f ≤ 10102 / 10000 * h) := by
  have big : (2 : ℝ) ^ 122 ≤ 3 * (2 : ℝ) ^ (126 : ℤ) := by norm_num
  have t150 : (1 : ℝ) / 2 ^ 150 ≤ 1 / 2 ^ 40 * f := by
    have := mul_le_mul_of_nonneg_left hf0 (show (0 : ℝ) ≤ 1 / 2 ^ 40 by positivity)
    refine le_trans (by norm_num) this
  have fpos : 0 < f := lt_of_lt_of_le (by positivity) hf0
  unfold sufficientlyBetter
  by_cases h0 : 0 < h
  · rw [if_pos (show h' > 0 from (lt_iff is_zero hh).2 h0)]
    obtain ⟨κ, hκ, k1, k2⟩ := is_factor_epa
    have hb : |h * κ| ≤ 2 ^ 122 := by
      rw [abs_mul, abs_of_pos (show 0 < κ by linarith)]
      have := mul_le_mul_of_nonneg_left k2 (abs_nonneg h)
      linarith
    obtain ⟨z, z1, z2, -⟩ := F32.round_mul hh hκ (hb.trans big)
    have hk1 := mul_le_mul_of_nonneg_left k1 h0.le
    have hk2 := mul_le_mul_of_nonneg_left k2 h0.le
    rw [abs_of_nonneg (show 0 ≤ h * κ by linarith)] at z2
    obtain ⟨z3, z4⟩ := abs_le.1 z2
    have e : f' > h' * (1 + FloatExtra.tol) ↔ z < f := lt_iff z1 hf
    rw [e]
    refine ⟨fun hlt => Or.inr ?_, fun hlt => ⟨h0, ?_⟩⟩
    · linarith
    · have hlt := not_lt.1 hlt
      linarith
  · rw [if_neg (show ¬ h' > 0 from fun hc => h0 ((lt_iff is_zero hh).1 hc))]
    refine ⟨fun _ => Or.inl (not_lt.1 h0), fun hc => ?_⟩
    exfalso
    obtain ⟨κ, hκ, k1, k2⟩ := is_factor_down
    have h0 := not_lt.1 h0
    have hb : |h * κ| ≤ 2 ^ 122 := by
      rw [abs_mul, abs_of_pos (show 0 < κ by linarith)]
      have := mul_le_mul_of_nonneg_left k2 (abs_nonneg h)
      linarith
    obtain ⟨z, z1, z2, -⟩ := F32.round_mul hh hκ (hb.trans big)
    have hneg : h * κ ≤ 0 := mul_nonpos_of_nonpos_of_nonneg h0 (by linarith)
    rw [abs_of_nonpos hneg] at z2
    have z4 := (abs_le.1 z2).2
    apply hc
    have e : f' > h' * (1 - FloatExtra.tol) ↔ z < f := lt_iff z1 hf
    rw [e]
    linarith

/-- the length of the reported vector -/
theorem push_size {n' : V2 F32} {n : V2 ℝ} {f' : F32} {f : ℝ} (hn : n'.Is n) (hf : F32.Is f' f) (n0 : 1 / 2 ^ 61 ≤ n.norm)
    (n1 : n.norm ≤ 2 ^ 31) (f0 : 1 / 2 ^ 23 * n.norm ≤ f) (f1 : f ≤ 2 ^ 30 * n.norm) :
    ∃ x, (V2.scale (-f' / n'.dot n') n').Is x ∧ x.norm * n.norm ≤ (1 + 1 / 2 ^ 20) * f := by
  have hn0 : 0 < n.norm := lt_of_lt_of_le (by positivity) n0
  have fpos : 0 < f := lt_of_lt_of_le (by positivity) f0
  obtain ⟨N, hN⟩ : ∃ N, N = n.norm := ⟨_, rfl⟩
  rw [← hN] at n0 n1 f0 f1 hn0
  have hP : |n.x * n.x| + |n.y * n.y| = N ^ 2 := by
    rw [abs_mul_self, abs_mul_self, hN, V2.norm_sq', dot_def]
  have hN2 : 0 < N ^ 2 := by positivity
  obtain ⟨den, v1, v2⟩ := round_dot hn hn hP.le ((pow_le_pow_left₀ hn0.le n1 2).trans (by norm_num))
  rw [← V2.norm_sq', ← hN] at v2
  have tiny : (3 : ℝ) / 2 ^ 150 ≤ 1 / 4 / 2 ^ 24 * N ^ 2 := by
    have := mul_le_mul_of_nonneg_left (pow_le_pow_left₀ (by positivity) n0 2) (show (0 : ℝ) ≤ 1 / 4 / 2 ^ 24 by positivity)
    refine le_trans (by norm_num) this
  obtain ⟨v3, v4⟩ := abs_le.1 v2
  have d1 : (1 - 3 / 2 ^ 24) * N ^ 2 ≤ den := by linarith
  have dpos : 0 < den := lt_of_lt_of_le (by positivity) d1
  -- the quotient, times `N`
  have qN : f / den * N ^ 2 ≤ (1 + 4 / 2 ^ 24) * f := by
    rw [div_mul_eq_mul_div, div_le_iff₀ dpos]
    have := mul_le_mul_of_nonneg_left d1 (show 0 ≤ (1 + 4 / 2 ^ 24) * f by positivity)
    refine le_trans ?_ this
    have e : (1 + 4 / 2 ^ 24) * f * ((1 - 3 / 2 ^ 24) * N ^ 2) = (1 + 4 / 2 ^ 24) * (1 - 3 / 2 ^ 24) * (f * N ^ 2) := by ring
    rw [e]
    have : 0 < f * N ^ 2 := by positivity
    have := mul_le_mul_of_nonneg_right (show (1 : ℝ) ≤ (1 + 4 / 2 ^ 24) * (1 - 3 / 2 ^ 24) by norm_num) this.le
    linarith
  have habs : |-f / den| = f / den := by rw [abs_div, abs_neg, abs_of_pos fpos, abs_of_pos dpos]
  have q0 : 0 < f / den := by positivity
  have qhi : f / den ≤ 2 ^ 92 := by
    have h1 : f / den * N ^ 2 ≤ (1 + 4 / 2 ^ 24) * (2 ^ 30 * N) := qN.trans (mul_le_mul_of_nonneg_left f1 (by positivity))
    have h2 : f / den * N ≤ (1 + 4 / 2 ^ 24) * 2 ^ 30 := by
      have e1 : f / den * N ^ 2 = f / den * N * N := by ring
      have e2 : (1 + 4 / 2 ^ 24) * (2 ^ 30 * N) = (1 + 4 / 2 ^ 24) * 2 ^ 30 * N := by ring
      rw [e1, e2] at h1
      exact le_of_mul_le_mul_right h1 hn0
    have h3 := mul_le_mul_of_nonneg_left n0 q0.le
    have h4 : f / den * (1 / 2 ^ 61) ≤ 2 ^ 92 * (1 / 2 ^ 61) := h3.trans (h2.trans (by norm_num))
    exact le_of_mul_le_mul_right h4 (by positivity)
  obtain ⟨q, q1, q2⟩ := F32.round_div (is_neg hf) v1 dpos.ne' (by rw [habs]; exact qhi.trans (by norm_num))
  rw [habs] at q2
  have q3 : |q| ≤ (1 + 1 / 2 ^ 24) * (f / den) + 1 / 2 ^ 150 := by
    have := abs_add_le (q - -f / den) (-f / den)
    rw [sub_add_cancel, habs] at this
    linarith
  have q4 : |q| ≤ 2 ^ 93 := by
    have : (1 : ℝ) / 2 ^ 150 ≤ 1 := by norm_num
    linarith
  have comp : ∀ c : ℝ, |c| ≤ N → |q * c| ≤ 3 * (2 : ℝ) ^ (126 : ℤ) := by
    intro c hc
    rw [abs_mul]
    exact (mul_le_mul q4 (hc.trans n1) (abs_nonneg _) (by positivity)).trans (by norm_num)
  obtain ⟨vx, vx1, vx2, -⟩ := F32.round_mul q1 hn.1 (comp n.x (by rw [hN]; exact V2.abs_x_le_norm n))
  obtain ⟨vy, vy1, vy2, -⟩ := F32.round_mul q1 hn.2 (comp n.y (by rw [hN]; exact V2.abs_y_le_norm n))
  refine ⟨⟨vx, vy⟩, ⟨vx1, vy1⟩, ?_⟩
  rw [← hN]
  -- the error of the last multiplication
  have nx : (⟨vx, vy⟩ : V2 ℝ).norm ≤ (1 + 2 / 2 ^ 24) * (|q| * N) + 2 / 2 ^ 150 := by
    have s1 := V2.norm_add_le' ((⟨vx, vy⟩ : V2 ℝ) - V2.scale q n) (V2.scale q n)
    rw [sub_add_cancel, V2.norm_scale, ← hN] at s1
    have s2 := V2.norm_le_add ((⟨vx, vy⟩ : V2 ℝ) - V2.scale q n)
    have ex : ((⟨vx, vy⟩ : V2 ℝ) - V2.scale q n).x = vx - q * n.x := rfl
    have ey : ((⟨vx, vy⟩ : V2 ℝ) - V2.scale q n).y = vy - q * n.y := rfl
    rw [ex, ey] at s2
    have b1 : |q * n.x| ≤ |q| * N := by
      rw [abs_mul, hN]; exact mul_le_mul_of_nonneg_left (V2.abs_x_le_norm n) (abs_nonneg _)
    have b2 : |q * n.y| ≤ |q| * N := by
      rw [abs_mul, hN]; exact mul_le_mul_of_nonneg_left (V2.abs_y_le_norm n) (abs_nonneg _)
    linarith
  have m1 := mul_le_mul_of_nonneg_right nx hn0.le
  have m2 := mul_le_mul_of_nonneg_right q3 hN2.le
  have e1 : ((1 + 1 / 2 ^ 24) * (f / den) + 1 / 2 ^ 150) * N ^ 2 =
      (1 + 1 / 2 ^ 24) * (f / den * N ^ 2) + 1 / 2 ^ 150 * N * N := by ring
  have e2 : ((1 + 2 / 2 ^ 24) * (|q| * N) + 2 / 2 ^ 150) * N = (1 + 2 / 2 ^ 24) * (|q| * N ^ 2) + 2 / 2 ^ 150 * N := by ring
  rw [e1] at m2
  rw [e2] at m1
  have hNf : N ≤ 2 ^ 23 * f := by linarith
  have b1 : 1 / 2 ^ 150 * N * N ≤ 1 / 2 ^ 24 * f := by
    have h1 := mul_le_mul n1 hNf hn0.le (by positivity)
    have h2 : 1 / 2 ^ 150 * N * N = 1 / 2 ^ 150 * (N * N) := by ring
    rw [h2]
    linarith
  linarith

end

end Auburn
