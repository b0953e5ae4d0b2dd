import Verif.Lib.GjkExact

/-!
# The expanding polytope (library lemmas, exact arithmetic)
-/

set_option linter.unusedSectionVars false
set_option synthInstance.maxSize 1000

namespace Auburn

open V2

section
variable {K : Type} [Field K] [LinearOrder K] [IsStrictOrderedRing K]

/-! ## lists of edges -/

theorem zipEdges_insert (x l : V2 K) : ∀ (i : Nat) (h : V2 K) (t : List (V2 K)) (a b : V2 K),
    ((h :: t).zip (t ++ [l]))[i]? = some (a, b) →
    ∃ E1 E2, (h :: t).zip (t ++ [l]) = E1 ++ (a, b) :: E2 ∧
      ((h :: t).insertIdx (i + 1) x).zip (((h :: t).insertIdx (i + 1) x).tail ++ [l]) =
        E1 ++ (a, x) :: (x, b) :: E2 := by
  intro i
  induction i with
  | zero =>
    intro h t a b hab
    cases t with
    | nil =>
      simp at hab
      obtain ⟨rfl, rfl⟩ := hab
      exact ⟨[], [], by simp, by simp⟩
    | cons h' t' =>
      simp at hab
      obtain ⟨rfl, rfl⟩ := hab
      exact ⟨[], (h' :: t').zip (t' ++ [l]), by simp, by simp⟩
  | succ i ih =>
    intro h t a b hab
    cases t with
    | nil => simp at hab
    | cons h' t' =>
      obtain ⟨E1, E2, e1, e2⟩ := ih h' t' a b (by simpa using hab)
      refine ⟨(h, h') :: E1, E2, by simpa using e1, ?_⟩
      simpa using e2

theorem closedEdges_cons (h : V2 K) (t : List (V2 K)) :
    closedEdges (h :: t) = (h :: t).zip (t ++ [h]) := by simp [closedEdges]

theorem closedEdges_insert {pts : List (V2 K)} {i : Nat} {a b : V2 K} (x : V2 K)
    (h : (closedEdges pts)[i]? = some (a, b)) :
    ∃ E1 E2, closedEdges pts = E1 ++ (a, b) :: E2 ∧
      closedEdges (pts.insertIdx (i + 1) x) = E1 ++ (a, x) :: (x, b) :: E2 := by
  cases pts with
  | nil => simp [closedEdges] at h
  | cons hd t =>
    rw [closedEdges_cons] at h ⊢
    obtain ⟨E1, E2, e1, e2⟩ := zipEdges_insert x hd i hd t a b h
    refine ⟨E1, E2, e1, ?_⟩
    rw [← e2]
    simp [closedEdges]

theorem closedEdges_fst (pts : List (V2 K)) : (closedEdges pts).map Prod.fst = pts := by
  cases pts with
  | nil => simp [closedEdges]
  | cons h t => rw [closedEdges_cons]; exact List.map_fst_zip (by simp)

theorem closedEdges_mem {pts : List (V2 K)} {p q : V2 K} (h : (p, q) ∈ closedEdges pts) :
    p ∈ pts ∧ q ∈ pts := by
  have h1 := List.of_mem_zip h
  refine ⟨h1.1, ?_⟩
  rcases List.mem_append.1 h1.2 with h2 | h2
  · exact List.mem_of_mem_tail h2
  · exact List.mem_of_mem_take h2

variable [FloatExtra K] [ExactFloat K]

theorem closestLoop_spec : ∀ (es : List (V2 K × V2 K)) (i : Nat) (s : ClosestEdge K),
    (closestLoop es i s = s ∧ (es = [] ∨ ∃ c, s.dist = some c ∧ ∀ e ∈ es, c ≤ edgeDistSq e.1 e.2)) ∨
    (∃ j, es[j]? = some ((closestLoop es i s).a, (closestLoop es i s).b) ∧
      (closestLoop es i s).index = i + j ∧
      (closestLoop es i s).dist = some (edgeDistSq (closestLoop es i s).a (closestLoop es i s).b) ∧
      (∀ e ∈ es, edgeDistSq (closestLoop es i s).a (closestLoop es i s).b ≤ edgeDistSq e.1 e.2) ∧
      ∀ c, s.dist = some c → edgeDistSq (closestLoop es i s).a (closestLoop es i s).b ≤ c) := by
  intro es
  induction es with
  | nil => intro i s; exact Or.inl ⟨rfl, Or.inl rfl⟩
  | cons e es ih =>
    intro i s
    have hcl : closestLoop (e :: es) i s = closestLoop es (i + 1) (closestStep s i e) := rfl
    rw [hcl]
    by_cases hs : ∃ c, s.dist = some c ∧ c ≤ edgeDistSq e.1 e.2
    · obtain ⟨c, hc, hle⟩ := hs
      have hst : closestStep s i e = s := by
        simp only [closestStep, hc]
        rw [if_neg]
        simpa using hle
      rw [hst]
      rcases ih (i + 1) s with ⟨h1, h2⟩ | ⟨j, h1, h2, h3, h4, h5⟩
      · refine Or.inl ⟨h1, Or.inr ⟨c, hc, ?_⟩⟩
        intro e' he'
        rcases List.mem_cons.1 he' with rfl | he'
        · exact hle
        · rcases h2 with h2 | ⟨c', hc', h2⟩
          · rw [h2] at he'; simp at he'
          · rw [hc] at hc'; cases hc'; exact h2 e' he'
      · refine Or.inr ⟨j + 1, by simpa using h1, by omega, h3, ?_, h5⟩
        intro e' he'
        rcases List.mem_cons.1 he' with rfl | he'
        · exact (h5 c hc).trans hle
        · exact h4 e' he'
    · have hst : closestStep s i e = ⟨i, e.1, e.2, some (edgeDistSq e.1 e.2)⟩ := by
        simp only [closestStep]
        rw [if_pos]
        cases hd : s.dist with
        | none => simp [ExactFloat.ltInf_eq]
        | some c =>
          simp only [decide_eq_true_eq]
          by_contra hn
          exact hs ⟨c, hd, not_lt.1 hn⟩
      rw [hst]
      right
      have hlt : ∀ c, s.dist = some c → edgeDistSq e.1 e.2 ≤ c := by
        intro c hc
        by_contra hn
        exact hs ⟨c, hc, (not_le.1 hn).le⟩
      rcases ih (i + 1) ⟨i, e.1, e.2, some (edgeDistSq e.1 e.2)⟩ with
        ⟨h1, h2⟩ | ⟨j, h1, h2, h3, h4, h5⟩
      · rw [h1]
        refine ⟨0, by simp, by simp, rfl, ?_, hlt⟩
        intro e' he'
        rcases List.mem_cons.1 he' with rfl | he'
        · exact le_refl _
        · rcases h2 with h2 | ⟨c', hc', h2⟩
          · rw [h2] at he'; simp at he'
          · simp only [Option.some.injEq] at hc'
            rw [← hc'] at h2; exact h2 e' he'
      · refine ⟨j + 1, by simpa using h1, by omega, h3, ?_, fun c hc => (h5 _ rfl).trans (hlt c hc)⟩
        intro e' he'
        rcases List.mem_cons.1 he' with rfl | he'
        · exact h5 _ rfl
        · exact h4 e' he'

/-- the edge found is one of the polygon's edges, at the index returned, and no edge is closer -/
theorem findClosestEdge_spec {pts : List (V2 K)} (h : pts ≠ []) :
    (closedEdges pts)[(findClosestEdge pts).index]? =
      some ((findClosestEdge pts).a, (findClosestEdge pts).b) ∧
    ∀ e ∈ closedEdges pts,
      edgeDistSq (findClosestEdge pts).a (findClosestEdge pts).b ≤ edgeDistSq e.1 e.2 := by
  unfold findClosestEdge
  rcases closestLoop_spec (closedEdges pts) 0 ⟨0, V2.nan, V2.nan, none⟩ with
    ⟨_, h2⟩ | ⟨j, h1, h2, _, h4, _⟩
  · exfalso
    rcases h2 with h2 | ⟨c, hc, _⟩
    · have := congrArg List.length h2
      rw [← List.length_map (f := Prod.fst), closedEdges_fst] at this
      exact h (List.length_eq_zero_iff.1 this)
    · simp at hc
  · rw [Nat.zero_add] at h2
    rw [h2]
    exact ⟨h1, h4⟩

/-! ## distances -/

theorem normal_dot (a b p : V2 K) : ((b - a).perpRight).dot p = a.cross p + p.cross b := by
  simp only [V2.perpRight, dot_def, cross_def, sub_x, sub_y]; ring
theorem normal_dot_left (a b : V2 K) : ((b - a).perpRight).dot a = a.cross b := by
  rw [normal_dot, cross_self, zero_add]
theorem normal_lengthSq (a b : V2 K) : lengthSq (b - a).perpRight = lengthSq (b - a) := by
  simp only [V2.perpRight, lengthSq_def, sub_x, sub_y]; ring
theorem normal_ne {a b : V2 K} (h : a ≠ b) : (b - a).perpRight ≠ 0 := by
  rw [← lengthSq_pos, normal_lengthSq]; exact lengthSq_pos.2 (sub_ne_zero.2 h.symm)

theorem edge_point_lengthSq (a b : V2 K) (t : K) :
    lengthSq (b - a) * lengthSq (a + scale t (b - a)) =
      a.cross b ^ 2 + ((b - a).dot a + t * lengthSq (b - a)) ^ 2 := by
  simp only [lengthSq_def, dot_def, cross_def, sub_x, sub_y, add_x, add_y, scale_x, scale_y]; ring

/-- the clamped parameter of `find_closest_edge` -/
theorem edgeDistSq_eq (a b : V2 K) : ∃ t : K, 0 ≤ t ∧ t ≤ 1 ∧
    edgeDistSq a b = lengthSq (a + scale t (b - a)) ∧
    ∀ s : K, 0 ≤ s → s ≤ 1 → edgeDistSq a b ≤ lengthSq (a + scale s (b - a)) := by
  simp only [edgeDistSq]
  set t0 := (-a).dot (b - a) / (b - a).dot (b - a) with ht0
  set t1 := if t0 < 0 then 0 else t0 with ht1
  set t2 := if t1 > 1 then 1 else t1 with ht2
  have h1 : 0 ≤ t1 := by rw [ht1]; split_ifs with h; exacts [le_refl _, not_lt.1 h]
  have h2 : 0 ≤ t2 := by rw [ht2]; split_ifs; exacts [zero_le_one, h1]
  have h3 : t2 ≤ 1 := by rw [ht2]; split_ifs with h; exacts [le_refl _, not_lt.1 h]
  refine ⟨t2, h2, h3, rfl, fun s hs0 hs1 => ?_⟩
  rcases eq_or_ne a b with rfl | hne
  · have : ∀ r : K, a + scale r (a - a) = a := by intro r; ext <;> simp
    rw [this, this]
  · have hQ := lengthSq_pos.2 (sub_ne_zero.2 hne.symm)
    have e0 : (b - a).dot a = -t0 * lengthSq (b - a) := by
      rw [ht0, dot_self, neg_dot, dot_comm]; field_simp
    have key : (t2 - t0) ^ 2 ≤ (s - t0) ^ 2 := by
      rw [ht2, ht1]
      split_ifs with c1 c2 c2
      · linarith
      · nlinarith
      · nlinarith
      · rw [sub_self]; have := sq_nonneg (s - t0); linarith
    have hh : lengthSq (b - a) * lengthSq (a + scale t2 (b - a)) ≤
        lengthSq (b - a) * lengthSq (a + scale s (b - a)) := by
      rw [edge_point_lengthSq, edge_point_lengthSq, e0]
      have e1 : ∀ r : K, (-t0 * lengthSq (b - a) + r * lengthSq (b - a)) ^ 2 =
        (r - t0) ^ 2 * lengthSq (b - a) ^ 2 := by intro r; ring
      rw [e1, e1]
      have := mul_le_mul_of_nonneg_right key (sq_nonneg (lengthSq (b - a)))
      linarith
    exact le_of_mul_le_mul_left hh hQ

theorem edgeDistSq_ge (a b : V2 K) : a.cross b ^ 2 ≤ lengthSq (b - a) * edgeDistSq a b := by
  obtain ⟨t, _, _, h, _⟩ := edgeDistSq_eq a b
  rw [h, edge_point_lengthSq]
  have := sq_nonneg ((b - a).dot a + t * lengthSq (b - a)); linarith

theorem edgeDistSq_nonneg (a b : V2 K) : 0 ≤ edgeDistSq a b := by
  obtain ⟨t, _, _, h, _⟩ := edgeDistSq_eq a b
  rw [h]; exact lengthSq_nonneg _

theorem edgeDistSq_foot {a b : V2 K} (h : a.dot b ≤ 0) (hne : a ≠ b) :
    lengthSq (b - a) * edgeDistSq a b = a.cross b ^ 2 := by
  apply le_antisymm _ (edgeDistSq_ge a b)
  obtain ⟨_, _, _, _, hm⟩ := edgeDistSq_eq a b
  have hQ := lengthSq_pos.2 (sub_ne_zero.2 hne.symm)
  have e2 : lengthSq (b - a) = lengthSq a + lengthSq b - 2 * a.dot b := by
    simp only [lengthSq_def, dot_def, sub_x, sub_y]; ring
  have e3 : (b - a).dot a = a.dot b - lengthSq a := by
    simp only [lengthSq_def, dot_def, sub_x, sub_y]; ring
  have hA := lengthSq_nonneg a
  have hB := lengthSq_nonneg b
  have := hm ((lengthSq a - a.dot b) / lengthSq (b - a)) (div_nonneg (by linarith) hQ.le)
    (by rw [div_le_one hQ, e2]; linarith)
  have h1 := mul_le_mul_of_nonneg_left this hQ.le
  rw [edge_point_lengthSq, div_mul_cancel₀ _ hQ.ne', e3] at h1
  have e4 : (a.dot b - lengthSq a + (lengthSq a - a.dot b)) ^ 2 = 0 := by ring
  linarith

/-! ## the polygon invariant -/

variable {M : Set (V2 K)} {S : V2 K → V2 K}

/-- counter-clockwise (possibly straight) as seen from the origin -/
def Ccw (p q : V2 K) : Prop := 0 < p.cross q ∨ (p.cross q = 0 ∧ p.dot q < 0)

theorem Ccw.ne {p q : V2 K} (h : Ccw p q) : p ≠ q := by
  rintro rfl
  rcases h with h | h
  · rw [cross_self] at h; exact lt_irrefl _ h
  · have := lengthSq_nonneg p; rw [dot_self] at h; linarith [h.2]
theorem Ccw.nonneg {p q : V2 K} (h : Ccw p q) : 0 ≤ p.cross q := by
  rcases h with h | h
  · exact h.le
  · exact h.1.ge

/-- invariant of the polygon: its edges run counter-clockwise around the origin, every direction is
covered by an edge, and no vertex is strictly within the angle of an edge -/
structure EpaInv (M : Set (V2 K)) (S : V2 K → V2 K) (pts : List (V2 K)) : Prop where
  ne : pts ≠ []
  mem : ∀ p ∈ pts, p ∈ M
  pinv : ∀ p ∈ pts, PInv M p
  sup : ∀ p ∈ pts, ∃ d, d ≠ 0 ∧ p = S d
  ccw : ∀ p q, (p, q) ∈ closedEdges pts → Ccw p q
  cover : ∀ u : V2 K, ∃ p q, (p, q) ∈ closedEdges pts ∧ 0 ≤ p.cross u ∧ 0 ≤ u.cross q
  apart : ∀ p q, (p, q) ∈ closedEdges pts → ∀ r ∈ pts, ¬ (0 < p.cross r ∧ 0 < r.cross q)
  nodup : pts.Nodup

/-- a point beyond an edge is strictly within the angle of the edge -/
theorem beyond_within {a b x : V2 K} (hab : Ccw a b) (haM : a ∈ M) (hbM : b ∈ M)
    (ha : PInv M a) (hb : PInv M b) (hx : x ∈ M) (h : a.cross b < a.cross x + x.cross b) :
    0 < a.cross x ∧ 0 < x.cross b := by
  rcases hab with hab | ⟨h0, hneg⟩
  · have e : ∀ u : V2 K, a.cross b * u.dot x = x.cross b * u.dot a + a.cross x * u.dot b := by
      intro u; simp only [cross_def, dot_def]; ring
    constructor
    · by_contra hn
      have hn := not_lt.1 hn
      obtain ⟨u, hu, hup⟩ := ha
      have h1 := e u
      have h2 := mul_le_mul_of_nonneg_left (hu x hx) hab.le
      have h3 := mul_le_mul_of_nonpos_left (hu b hbM) hn
      have h4 : a.cross b * u.dot a < (a.cross x + x.cross b) * u.dot a :=
        mul_lt_mul_of_pos_right h hup
      linarith
    · by_contra hn
      have hn := not_lt.1 hn
      obtain ⟨u, hu, hup⟩ := hb
      have h1 := e u
      have h2 := mul_le_mul_of_nonneg_left (hu x hx) hab.le
      have h3 := mul_le_mul_of_nonpos_left (hu a haM) hn
      have h4 : a.cross b * u.dot b < (a.cross x + x.cross b) * u.dot b :=
        mul_lt_mul_of_pos_right h hup
      linarith
  · rw [h0] at h
    -- |a|² (x × b) = (a·b) (x × a)
    have e1 : lengthSq a * x.cross b = -(a.dot b) * a.cross x + a.cross b * a.dot x := by
      simp only [cross_def, dot_def, lengthSq_def]; ring
    rw [h0, zero_mul, add_zero] at e1
    have hA := lengthSq_pos.2 ha.ne_zero
    have h1 : 0 < a.cross x := by
      by_contra hn
      have hn := not_lt.1 hn
      have h2 : -(a.dot b) * a.cross x ≤ 0 := mul_nonpos_of_nonneg_of_nonpos (by linarith) hn
      have h3 : 0 < lengthSq a * x.cross b := mul_pos hA (by linarith)
      linarith
    refine ⟨h1, ?_⟩
    by_contra hn
    have h2 := mul_nonpos_of_nonneg_of_nonpos hA.le (not_lt.1 hn)
    have h3 : 0 < -(a.dot b) * a.cross x := mul_pos (by linarith) h1
    linarith

/-- points that are extreme beyond the origin are determined by their direction from the origin -/
theorem PInv.unique {p q : V2 K} (hp : PInv M p) (hq : PInv M q) (hpM : p ∈ M) (hqM : q ∈ M)
    (h0 : p.cross q = 0) (hd : 0 < p.dot q) : p = q := by
  have hP := lengthSq_pos.2 hp.ne_zero
  have e : ∀ u : V2 K, lengthSq p * u.dot q = p.dot q * u.dot p := by
    intro u
    have : lengthSq p * u.dot q = p.dot q * u.dot p + p.cross q * p.cross u := by
      simp only [cross_def, dot_def, lengthSq_def]; ring
    rw [this, h0, zero_mul, add_zero]
  obtain ⟨u, hu, hup⟩ := hp
  obtain ⟨w, hw, hwq⟩ := hq
  have h1 : p.dot q ≤ lengthSq p := by
    have := mul_le_mul_of_nonneg_left (hu q hqM) hP.le
    rw [e u] at this
    exact le_of_mul_le_mul_right this hup
  have h2 : lengthSq p ≤ p.dot q := by
    have h3 := mul_le_mul_of_nonneg_left (hw p hpM) hd.le
    rw [← e w] at h3
    exact le_of_mul_le_mul_right h3 hwq
  have h3 : p.dot q = lengthSq p := le_antisymm h1 h2
  apply frame_ext (d := p) (fun h => hP.ne' (lengthSq_eq_zero.2 h))
  · rw [dot_self, h3]
  · rw [cross_self, h0]

/-- a positive multiple when the cross product vanishes and the two are in a common open half
plane -/
theorem same_ray {p q x : V2 K} (h0 : p.cross q = 0) (h1 : 0 < p.cross x) (h2 : 0 < q.cross x) :
    0 < p.dot q := by
  have hp : p ≠ 0 := by rintro rfl; simp [cross_def] at h1
  have hP := lengthSq_pos.2 hp
  have e : p.dot q * p.cross x = lengthSq p * q.cross x + p.cross q * p.dot x := by
    simp only [cross_def, dot_def, lengthSq_def]; ring
  rw [h0, zero_mul, add_zero] at e
  have h3 := mul_pos hP h2
  by_contra hn
  have := mul_nonpos_of_nonpos_of_nonneg (not_lt.1 hn) h1.le
  linarith

/-- inserting a support point beyond an edge -/
theorem EpaInv.insert {pts : List (V2 K)} (h : EpaInv M S pts) {i : Nat} {a b x : V2 K}
    (hi : (closedEdges pts)[i]? = some (a, b)) (hlen : i + 1 ≤ pts.length) (hxM : x ∈ M)
    (hxP : PInv M x)
    (hxS : ∃ d, d ≠ 0 ∧ x = S d) (hb : a.cross b < a.cross x + x.cross b) :
    EpaInv M S (pts.insertIdx (i + 1) x) := by
  obtain ⟨E1, E2, e1, e2⟩ := closedEdges_insert x hi
  have hab : (a, b) ∈ closedEdges pts := List.mem_of_getElem? hi
  obtain ⟨hap, hbp⟩ := closedEdges_mem hab
  obtain ⟨c1, c2⟩ := beyond_within (h.ccw a b hab) (h.mem a hap) (h.mem b hbp) (h.pinv a hap)
    (h.pinv b hbp) hxM hb
  have hnn := (h.ccw a b hab).nonneg
  have hmem : ∀ p, p ∈ pts.insertIdx (i + 1) x ↔ p = x ∨ p ∈ pts := fun p =>
    List.mem_insertIdx hlen
  have hold : ∀ p q, (p, q) ∈ E1 ∨ (p, q) ∈ E2 → (p, q) ∈ closedEdges pts := by
    intro p q hpq
    rw [e1]
    rcases hpq with hpq | hpq <;> simp [hpq]
  have hne : ∀ p q, (p, q) ∈ E1 ∨ (p, q) ∈ E2 → p ≠ a := by
    intro p q hpq
    have hn := h.nodup
    rw [← closedEdges_fst pts, e1, List.map_append, List.map_cons] at hn
    rw [List.nodup_append, List.nodup_cons] at hn
    obtain ⟨_, ⟨n1, _⟩, n2⟩ := hn
    rintro rfl
    rcases hpq with hpq | hpq
    · exact n2 p (List.mem_map.2 ⟨_, hpq, rfl⟩) p (by simp) rfl
    · exact n1 (List.mem_map.2 ⟨_, hpq, rfl⟩)
  have hnew : ∀ p q, (p, q) ∈ closedEdges (pts.insertIdx (i + 1) x) ↔
      (p, q) = (a, x) ∨ (p, q) = (x, b) ∨ (p, q) ∈ E1 ∨ (p, q) ∈ E2 := by
    intro p q
    rw [e2]
    simp only [List.mem_append, List.mem_cons]
    tauto
  -- the new point is not within the angle of an old edge
  have hout : ∀ p q, (p, q) ∈ E1 ∨ (p, q) ∈ E2 → ¬ (0 < p.cross x ∧ 0 < x.cross q) := by
    rintro p q hpq ⟨d1, d2⟩
    have hpq' := hold p q hpq
    obtain ⟨hpp, hqp⟩ := closedEdges_mem hpq'
    have hpq0 := (h.ccw p q hpq').nonneg
    rcases lt_trichotomy (a.cross p) 0 with hs | hs | hs
    · have hpa : 0 < p.cross a := by rw [cross_anti]; linarith
      have id : p.cross x * a.cross q = p.cross a * x.cross q + p.cross q * a.cross x := by
        simp only [cross_def]; ring
      have k1 := mul_nonneg hpq0 c1.le
      have k2 := mul_pos hpa d2
      exact h.apart p q hpq' a hap ⟨hpa, pos_of_mul_pos_right (by linarith) d1.le⟩
    · exact hne p q hpq (((h.pinv a hap).unique (h.pinv p hpp) (h.mem a hap) (h.mem p hpp) hs
        (same_ray hs c1 d1)).symm)
    · have id : a.cross x * p.cross b = a.cross p * x.cross b + a.cross b * p.cross x := by
        simp only [cross_def]; ring
      have k1 := mul_nonneg hnn d1.le
      have k2 := mul_pos hs c2
      exact h.apart a b hab p hpp ⟨hs, pos_of_mul_pos_right (by linarith) c1.le⟩
  have hx : x ∉ pts := fun hx => h.apart a b hab x hx ⟨c1, c2⟩
  refine ⟨?_, ?_, ?_, ?_, ?_, ?_, ?_, ?_⟩
  · intro h0
    have := (hmem x).2 (Or.inl rfl)
    rw [h0] at this; simp at this
  · intro p hp
    rcases (hmem p).1 hp with rfl | hp
    exacts [hxM, h.mem p hp]
  · intro p hp
    rcases (hmem p).1 hp with rfl | hp
    exacts [hxP, h.pinv p hp]
  · intro p hp
    rcases (hmem p).1 hp with rfl | hp
    exacts [hxS, h.sup p hp]
  · intro p q hpq
    rcases (hnew p q).1 hpq with he | he | he
    · cases he; exact Or.inl c1
    · cases he; exact Or.inl c2
    · exact h.ccw p q (hold p q he)
  · intro u
    obtain ⟨p, q, hpq, h1, h2⟩ := h.cover u
    by_cases hpa : (p, q) = (a, b)
    · cases hpa
      rcases le_total 0 (u.cross x) with hu | hu
      · exact ⟨a, x, (hnew _ _).2 (Or.inl rfl), h1, hu⟩
      · exact ⟨x, b, (hnew _ _).2 (Or.inr (Or.inl rfl)), by rw [cross_anti]; linarith, h2⟩
    · refine ⟨p, q, (hnew _ _).2 (Or.inr (Or.inr ?_)), h1, h2⟩
      rw [e1] at hpq
      simp only [List.mem_append, List.mem_cons] at hpq
      tauto
  · intro p q hpq r hr
    rcases (hnew p q).1 hpq with he | he | he
    · cases he
      rintro ⟨k1, k2⟩
      rcases (hmem r).1 hr with rfl | hr
      · rw [cross_self] at k2; exact lt_irrefl _ k2
      · have id : a.cross x * r.cross b = a.cross r * x.cross b + a.cross b * r.cross x := by
          simp only [cross_def]; ring
        have j1 := mul_nonneg hnn k2.le
        have j2 := mul_pos k1 c2
        exact h.apart a b hab r hr ⟨k1, pos_of_mul_pos_right (by linarith) c1.le⟩
    · cases he
      rintro ⟨k1, k2⟩
      rcases (hmem r).1 hr with rfl | hr
      · rw [cross_self] at k1; exact lt_irrefl _ k1
      · have id : x.cross b * a.cross r = a.cross x * r.cross b + a.cross b * x.cross r := by
          simp only [cross_def]; ring
        have j1 := mul_nonneg hnn k1.le
        have j2 := mul_pos c1 k2
        exact h.apart a b hab r hr ⟨pos_of_mul_pos_right (by linarith) c2.le, k2⟩
    · rcases (hmem r).1 hr with rfl | hr
      · exact hout p q he
      · exact h.apart p q (hold p q he) r hr
  · exact (List.perm_insertIdx x pts hlen).nodup_iff.2 (List.nodup_cons.2 ⟨hx, h.nodup⟩)

/-! ## what a converged run delivers -/

/-- `v` moves the origin out of `M` -/
def Separates (M : Set (V2 K)) (v : V2 K) : Prop := ∃ n : V2 K, n ≠ 0 ∧ ∀ m ∈ M, n.dot m ≤ -n.dot v

/-- every separating displacement is at least as long as the distance of the closest edge -/
theorem EpaInv.min_edge {pts : List (V2 K)} (h : EpaInv M S pts) {d2 : K} (hmin : ∀ e ∈ closedEdges pts, d2 ≤ edgeDistSq e.1 e.2) {w : V2 K}
    (hw : Separates M w) : d2 ≤ lengthSq w := by
  obtain ⟨u, hu, hs⟩ := hw
  obtain ⟨p, q, hpq, h1, h2⟩ := h.cover u
  obtain ⟨hpp, hqp⟩ := closedEdges_mem hpq
  have hU := lengthSq_pos.2 hu
  have hle := hmin _ hpq
  obtain ⟨_, _, _, _, hm⟩ := edgeDistSq_eq p q
  have up := hs p (h.mem p hpp)
  have uq := hs q (h.mem q hqp)
  have hcs := dot_sq_le u w
  rcases h.ccw p q hpq with hc | ⟨hc, hneg⟩
  · -- x = (c / (λ + μ)) u on the edge
    have e : ∀ v : V2 K, p.cross q * u.dot v = u.cross q * p.dot v + p.cross u * q.dot v := by
      intro v; simp only [cross_def, dot_def]; ring
    have hsum : 0 < u.cross q + p.cross u := by
      rcases (add_nonneg h2 h1).lt_or_eq with h | h
      · exact h
      · exfalso
        have z1 : u.cross q = 0 := by linarith
        have z2 : p.cross u = 0 := by linarith
        have := e u
        rw [z1, z2, dot_self] at this
        have := mul_pos hc hU
        linarith
    set s := p.cross u / (u.cross q + p.cross u) with hsdef
    have hs0 : 0 ≤ s := div_nonneg h1 hsum.le
    have hs1 : s ≤ 1 := by rw [hsdef, div_le_one hsum]; linarith
    have hx := hle.trans (hm s hs0 hs1)
    refine hx.trans ?_
    have ex : p + scale s (q - p) = scale (p.cross q / (u.cross q + p.cross u)) u := by
      have hne := hsum.ne'
      have hex : p.cross q * u.x = u.cross q * p.x + p.cross u * q.x := by
        simp only [cross_def]; ring
      have hey : p.cross q * u.y = u.cross q * p.y + p.cross u * q.y := by
        simp only [cross_def]; ring
      ext
      · simp only [add_x, scale_x, sub_x, hsdef]
        field_simp; linarith
      · simp only [add_y, scale_y, sub_y, hsdef]
        field_simp; linarith
    rw [ex, lengthSq_scale]
    set k := p.cross q / (u.cross q + p.cross u) with hk
    have hk0 : 0 < k := div_pos hc hsum
    -- k |u|² ≤ -u·w
    have hkw : k * lengthSq u ≤ -u.dot w := by
      rw [hk, div_mul_eq_mul_div, div_le_iff₀ hsum, ← dot_self, e u, dot_comm p u, dot_comm q u]
      have i1 := mul_le_mul_of_nonneg_left up h2
      have i2 := mul_le_mul_of_nonneg_left uq h1
      linarith
    have h3 : (k * lengthSq u) ^ 2 ≤ lengthSq u * lengthSq w := by
      refine le_trans ?_ hcs
      rw [← neg_sq (u.dot w)]
      exact pow_le_pow_left₀ (mul_pos hk0 hU).le hkw 2
    have h4 : lengthSq u * (k ^ 2 * lengthSq u) ≤ lengthSq u * lengthSq w := by
      calc lengthSq u * (k ^ 2 * lengthSq u) = (k * lengthSq u) ^ 2 := by ring
        _ ≤ _ := h3
    exact le_of_mul_le_mul_left h4 hU
  · have hz := edgeDistSq_foot hneg.le (Ccw.ne (Or.inr ⟨hc, hneg⟩))
    rw [hc] at hz
    have hQ := lengthSq_pos.2 (sub_ne_zero.2 (Ccw.ne (p := p) (q := q) (Or.inr ⟨hc, hneg⟩)).symm)
    have hz' : edgeDistSq p q = 0 := by
      rcases mul_eq_zero.1 (hz.trans (by ring)) with h | h
      · exact absurd h hQ.ne'
      · exact h
    simp only at hle
    rw [hz'] at hle
    exact hle.trans (lengthSq_nonneg w)

/-- the answer separates, and no separating displacement is shorter by more than the tolerance -/
def EpaGood (M : Set (V2 K)) (v : V2 K) : Prop :=
  Separates M v ∧ ∀ w, Separates M w → lengthSq v ≤ (1 + FloatExtra.tol) ^ 2 * lengthSq w

theorem converged_length {t f b : K} (ht : 0 ≤ t) (ht1 : t ≤ 1) (hfb : b ≤ f)
    (h : ¬ sufficientlyBetter f b t) : f ^ 2 ≤ (1 + t) ^ 2 * b ^ 2 := by
  unfold sufficientlyBetter at h
  rw [← mul_pow]
  split_ifs at h with hb
  · have h1 := not_lt.1 h
    have : f ≤ (1 + t) * b := by linarith
    exact pow_le_pow_left₀ (by linarith [hb]) this 2
  · have h1 := not_lt.1 h
    have hb := not_lt.1 hb
    have hf : f ≤ 0 := h1.trans (mul_nonpos_of_nonpos_of_nonneg hb (by linarith))
    have h2 : f ^ 2 ≤ b ^ 2 := by
      rw [← neg_sq f, ← neg_sq b]; exact pow_le_pow_left₀ (by linarith) (by linarith) 2
    have h3 : 0 ≤ (2 * t + t ^ 2) * b ^ 2 := by positivity
    have e : ((1 + t) * b) ^ 2 = b ^ 2 + (2 * t + t ^ 2) * b ^ 2 := by ring
    linarith

theorem tol_bounds : (0 : K) ≤ FloatExtra.tol ∧ (FloatExtra.tol : K) ≤ 1 := by
  rw [ExactFloat.tol_eq]; constructor <;> norm_num

/-- one converged step -/
theorem converged_vector {n p : V2 K} (hn : n ≠ 0) (hp : ∀ m ∈ M, n.dot m ≤ n.dot p) :
    Separates M (scale (-(p.dot n) / n.dot n) n) := by
  refine ⟨n, hn, fun m hm => ?_⟩
  have hN := lengthSq_pos.2 hn
  rw [dot_scale, dot_self, div_mul_cancel₀ _ hN.ne', neg_neg, dot_comm p n]
  exact hp m hm

theorem epa_spec (hS : ∀ d, IsExtreme M d (S d)) : ∀ (n : Nat) (pts : List (V2 K)),
    EpaInv M S pts → ∀ v, epa S n pts = .ok v → EpaGood M v ∨ v = 0 ∧ ManySupport S (pts.length + n) := by
  intro n
  induction n with
  | zero =>
    intro pts h v hv
    simp only [epa, Except.ok.injEq] at hv
    exact Or.inr ⟨hv.symm, pts, h.nodup, rfl, h.sup⟩
  | succ n ih =>
    intro pts h v hv
    obtain ⟨f1, f2⟩ := findClosestEdge_spec h.ne
    simp only [epa] at hv
    set e := findClosestEdge pts with he
    have hab : (e.a, e.b) ∈ closedEdges pts := List.mem_of_getElem? f1
    have hc := h.ccw _ _ hab
    have hnz := normal_ne hc.ne
    set x := S (e.b - e.a).perpRight with hx
    have hxe := hS (e.b - e.a).perpRight
    have hfit : x.dot (e.b - e.a).perpRight = e.a.cross x + x.cross e.b := by
      rw [dot_comm, normal_dot]
    have hbeat : e.a.dot (e.b - e.a).perpRight = e.a.cross e.b := by
      rw [dot_comm, normal_dot_left]
    obtain ⟨t0, t1⟩ := tol_bounds (K := K)
    by_cases hb : sufficientlyBetter (x.dot (e.b - e.a).perpRight)
        (e.a.dot (e.b - e.a).perpRight) FloatExtra.tol
    · rw [if_neg (not_not.2 hb)] at hv
      have hlt : e.a.cross e.b < e.a.cross x + x.cross e.b := by
        rw [hfit, hbeat] at hb
        unfold sufficientlyBetter at hb
        split_ifs at hb with h0
        · have := mul_nonneg (le_of_lt h0) t0
          have h1 : e.a.cross e.b * (1 + FloatExtra.tol) < _ := hb
          linarith
        · have h1 : e.a.cross e.b * (1 - FloatExtra.tol) < _ := hb
          have h2 : e.a.cross e.b = 0 := le_antisymm (not_lt.1 h0) hc.nonneg
          rw [h2] at h1 ⊢
          linarith
      have hxP : PInv M x := ⟨(e.b - e.a).perpRight, hxe.2, by
        rw [dot_comm, hfit]; linarith [hc.nonneg]⟩
      split_ifs at hv with hlen
      have hI := h.insert f1 hlen hxe.1 hxP ⟨_, hnz, rfl⟩ hlt
      rcases ih _ hI v hv with h1 | h1
      · exact Or.inl h1
      · right
        rw [List.length_insertIdx_of_le_length (by omega)] at h1
        have : pts.length + (n + 1) = pts.length + 1 + n := by omega
        rw [this]; exact h1
    · rw [if_pos hb] at hv
      simp only [Except.ok.injEq] at hv
      left
      rw [← hv]
      refine ⟨converged_vector hnz hxe.2, fun w hw => ?_⟩
      have hD := h.min_edge f2 hw
      have hN := lengthSq_pos.2 hnz
      have hge : e.a.cross e.b ≤ x.dot (e.b - e.a).perpRight := by
        rw [← normal_dot_left, dot_comm x]
        exact hxe.2 _ (h.mem _ (closedEdges_mem hab).1)
      have hl := converged_length t0 t1 (by rw [hbeat]; exact hge) hb
      rw [hbeat] at hl
      have hed := edgeDistSq_ge e.a e.b
      rw [lengthSq_scale, dot_self, div_pow, neg_sq, div_mul_eq_mul_div, div_le_iff₀ (pow_pos hN 2)]
      have hT : 0 ≤ (1 + FloatExtra.tol : K) ^ 2 := sq_nonneg _
      have s1 : e.a.cross e.b ^ 2 ≤ lengthSq (e.b - e.a).perpRight * lengthSq w := by
        rw [normal_lengthSq]
        exact hed.trans (mul_le_mul_of_nonneg_left hD (lengthSq_nonneg _))
      calc x.dot (e.b - e.a).perpRight ^ 2 * lengthSq (e.b - e.a).perpRight
          ≤ ((1 + FloatExtra.tol) ^ 2 * (lengthSq (e.b - e.a).perpRight * lengthSq w)) *
            lengthSq (e.b - e.a).perpRight :=
          mul_le_mul_of_nonneg_right (hl.trans (mul_le_mul_of_nonneg_left s1 hT)) hN.le
        _ = _ := by ring

/-! ## the polygon the search hands over -/

theorem epaInv_triangle {a b c : V2 K} (hM : ∀ p ∈ [a, b, c], p ∈ M)
    (hP : ∀ p ∈ [a, b, c], PInv M p) (hS : ∀ p ∈ [a, b, c], ∃ d, d ≠ 0 ∧ p = S d)
    (h1 : 0 < a.cross b) (h2 : 0 < c.cross a) (h3 : Ccw b c) : EpaInv M S [a, b, c] := by
  have hE : ∀ p q, (p, q) ∈ closedEdges [a, b, c] ↔
      (p, q) = (a, b) ∨ (p, q) = (b, c) ∨ (p, q) = (c, a) := by
    intro p q; simp [closedEdges]
  have ab := h1
  have ca := h2
  have ba : ¬ 0 < b.cross a := by rw [cross_anti]; linarith
  have ac : ¬ 0 < a.cross c := by rw [cross_anti]; linarith
  have cb : ¬ 0 < c.cross b := by rw [cross_anti]; linarith [h3.nonneg]
  refine ⟨by simp, hM, hP, hS, ?_, ?_, ?_, ?_⟩
  · intro p q h
    rcases (hE p q).1 h with h | h | h <;> cases h
    exacts [Or.inl h1, h3, Or.inl h2]
  · intro u
    by_contra hn
    have n : ∀ p q, (p, q) ∈ closedEdges [a, b, c] → 0 ≤ p.cross u → 0 < q.cross u := by
      intro p q h h0
      by_contra h4
      refine hn ⟨p, q, h, h0, ?_⟩
      rw [cross_anti]; linarith [not_lt.1 h4]
    have n1 := n a b (by rw [hE]; simp)
    have n2 := n b c (by rw [hE]; simp)
    have n3 := n c a (by rw [hE]; simp)
    have id : b.cross c * a.cross u + c.cross a * b.cross u + a.cross b * c.cross u = 0 := by
      simp only [cross_def]; ring
    have bc := h3.nonneg
    rcases le_or_gt 0 (a.cross u) with hu | hu
    · have k1 := n1 hu
      have k2 := n2 k1.le
      have := mul_nonneg bc hu
      have := mul_pos ca k1
      have := mul_pos ab k2
      linarith
    · have k1 : c.cross u < 0 := by
        by_contra h4; exact absurd (n3 (not_lt.1 h4)) (not_lt.2 hu.le)
      have k2 : b.cross u < 0 := by
        by_contra h4; exact absurd (n2 (not_lt.1 h4)) (not_lt.2 k1.le)
      have := mul_nonpos_of_nonneg_of_nonpos bc hu.le
      have := mul_neg_of_pos_of_neg ca k2
      have := mul_neg_of_pos_of_neg ab k1
      linarith
  · intro p q h r hr
    simp only [List.mem_cons, List.not_mem_nil, or_false] at hr
    rcases (hE p q).1 h with h | h | h <;> cases h <;> rcases hr with rfl | rfl | rfl <;>
      (try simp only [cross_self, lt_irrefl, false_and, and_false, not_false_eq_true]) <;> tauto
  · have e1 : a ≠ b := (show Ccw a b from Or.inl ab).ne
    have e2 : c ≠ a := (show Ccw c a from Or.inl ca).ne
    have e3 := h3.ne
    simp [e1, e2.symm, e3]

/-- the triangle captured by a regular step -/
theorem EdgeInv.epa_init {L : List (V2 K)} {d b c a : V2 K} (h : EdgeInv M L d b c)
    (haM : IsExtreme M d a) (ha : 0 < d.dot a) (hSa : ∃ d, d ≠ 0 ∧ a = S d)
    (hSb : ∃ d, d ≠ 0 ∧ b = S d) (hSc : ∃ d, d ≠ 0 ∧ c = S d)
    (h1 : (outNormal a b c).dot (-a) < 0) (h2 : (outNormal a c b).dot (-a) < 0) :
    ∃ pts, enforceCcw [a, b, c] = .ok pts ∧ pts.length = 3 ∧ EpaInv M S pts := by
  have hD := lengthSq_pos.2 h.hd
  have key : ∀ {b c : V2 K}, EdgeInv M L d b c → (∃ d, d ≠ 0 ∧ b = S d) → (∃ d, d ≠ 0 ∧ c = S d) →
      (outNormal a b c).dot (-a) < 0 → (outNormal a c b).dot (-a) < 0 →
      0 < (b - a).cross (c - a) → EpaInv M S [a, b, c] := by
    intro b c h hSb hSc h1 h2 hT
    have hPa : PInv M a := ⟨d, haM.2, ha⟩
    obtain ⟨c1, _⟩ := h.coords a
    have hlat : d.cross c < d.cross b := by
      by_contra hn
      have := mul_nonpos_of_nonneg_of_nonpos (h.height ha).le (sub_nonpos.2 (not_lt.1 hn))
      rw [← c1] at this
      have := mul_pos hD hT
      linarith
    rw [outNormal_dot] at h1 h2
    have e1 : (b - a).cross (-a) = a.cross b := by
      simp only [cross_def, sub_x, sub_y, neg_x, neg_y]; ring
    have e2 : (c - a).cross (-a) = a.cross c := by
      simp only [cross_def, sub_x, sub_y, neg_x, neg_y]; ring
    rw [e1] at h1
    rw [e2, cross_anti (c - a)] at h2
    have hab : 0 < a.cross b := pos_of_mul_pos_right (by linarith) hT.le
    have hca : 0 < c.cross a := by
      rw [cross_anti]
      have : 0 < (b - a).cross (c - a) * -(a.cross c) := by linarith
      exact pos_of_mul_pos_right this hT.le
    have hbc : lengthSq d * b.cross c = -(d.dot b) * (d.cross b - d.cross c) := by
      rw [frame_cross, ← h.perp]; ring
    have hccw : Ccw b c := by
      rcases h.le.lt_or_eq with hb | hb
      · left
        have : 0 < lengthSq d * b.cross c := by
          rw [hbc]; exact mul_pos (by linarith) (sub_pos.2 hlat)
        exact pos_of_mul_pos_right this hD.le
      · right
        rw [hb, neg_zero, zero_mul] at hbc
        have h0 := (mul_eq_zero.1 hbc).resolve_left hD.ne'
        refine ⟨h0, ?_⟩
        have hl := h.lateral
        have hb' : d.cross c ≤ 0 ∧ 0 ≤ d.cross b := by
          rcases hl with ⟨_, _, h3⟩ | ⟨h3, h4, _⟩
          · linarith
          · exact ⟨h3, h4⟩
        have hcz : d.cross c ≠ 0 := fun h0 => h.Pc.ne_zero (frame_zero h.hd (h.perp ▸ hb) h0)
        have hbz : d.cross b ≠ 0 := fun h0 => h.Pb.ne_zero (frame_zero h.hd hb h0)
        have h5 : lengthSq d * b.dot c < 0 := by
          rw [frame_dot, hb, zero_mul, zero_add]
          exact mul_neg_of_pos_of_neg (lt_of_le_of_ne hb'.2 hbz.symm) (lt_of_le_of_ne hb'.1 hcz)
        by_contra hn
        have := mul_nonneg hD.le (not_lt.1 hn)
        linarith
    apply epaInv_triangle _ _ _ hab hca hccw
    · intro p hp
      simp only [List.mem_cons, List.not_mem_nil, or_false] at hp
      rcases hp with rfl | rfl | rfl
      exacts [haM.1, h.bM, h.cM]
    · intro p hp
      simp only [List.mem_cons, List.not_mem_nil, or_false] at hp
      rcases hp with rfl | rfl | rfl
      exacts [hPa, h.Pb, h.Pc]
    · intro p hp
      simp only [List.mem_cons, List.not_mem_nil, or_false] at hp
      rcases hp with rfl | rfl | rfl
      exacts [hSa, hSb, hSc]
  simp only [enforceCcw]
  split_ifs with hT
  · exact ⟨_, rfl, rfl, key h hSb hSc h1 h2 hT⟩
  · refine ⟨_, rfl, rfl, key h.symm hSc hSb h2 h1 ?_⟩
    rw [cross_anti]
    rcases (not_lt.1 hT).lt_or_eq with h3 | h3
    · linarith
    · rw [outNormal_dot, h3, zero_mul, neg_zero] at h1
      exact absurd h1 (lt_irrefl _)


/-! ## from the search to the polygon -/

theorem addPoint_pts_sub {pts : List (V2 K)} {a : V2 K} {q : AddResult K}
    (h : addPoint pts a = .ok q) : ∀ p ∈ q.pts, p = a ∨ p ∈ pts := by
  match pts with
  | [] =>
    simp only [addPoint, Except.ok.injEq] at h
    subst h; simp
  | [b] =>
    simp only [addPoint] at h
    split_ifs at h <;> simp only [Except.ok.injEq] at h <;> subst h <;> simp
  | [b, c] =>
    simp only [addPoint] at h
    split_ifs at h <;> simp only [Except.ok.injEq] at h <;> subst h <;> simp
  | _ :: _ :: _ :: _ => simp [addPoint] at h

theorem GInv.hit_epa {L : List (V2 K)} {d : V2 K} {pts} (h : GInv M L d pts) {a : V2 K}
    (haM : IsExtreme M d a) (ha : 0 < a.dot d) {q : AddResult K} (hq : addPoint pts a = .ok q)
    (hc : q.collides = true) (hSa : ∃ d, d ≠ 0 ∧ a = S d)
    (hSp : ∀ p ∈ pts, ∃ d, d ≠ 0 ∧ p = S d) :
    ∃ pts', enforceCcw q.pts = .ok pts' ∧ pts'.length = 3 ∧ EpaInv M S pts' := by
  rw [dot_comm] at ha
  cases h with
  | start d hd =>
    simp only [addPoint, Except.ok.injEq] at hq
    subst hq; simp at hc
  | point b hb hP =>
    simp only [addPoint] at hq
    split_ifs at hq <;> simp only [Except.ok.injEq] at hq <;> subst hq <;> simp at hc
  | edge L d b c h =>
    have eq1 : (b - a).crossF32 ((b - a).cross (c - a)) = outNormal a b c := rfl
    simp only [addPoint, acPerp_eq, eq1] at hq
    split_ifs at hq with s1 s2 s3 <;> simp only [Except.ok.injEq] at hq <;> subst hq
    · simp at hc
    · simp at hc
    · simp at hc
    · exact h.epa_init haM ha hSa (hSp b (by simp)) (hSp c (by simp)) (not_le.1 s1) (not_le.1 s3)

theorem penetrate_hit_epa {n : Nat} {d : V2 K} {pts pts' : List (V2 K)} {q : AddResult K}
    (h1 : ¬ (S d).dot d ≤ 0) (hq : addPoint pts (S d) = .ok q) (hc : q.collides = true)
    (he : enforceCcw q.pts = .ok pts')
    {r} (hr : gjkPenetrate S (n + 1) d pts = .ok r) :
    r.1 = true ∧ epa S iterationLimit pts' = .ok r.2 := by
  simp only [gjkPenetrate] at hr
  rw [if_neg h1, hq] at hr
  simp only at hr
  rw [if_pos hc, he] at hr
  simp only at hr
  split at hr
  · cases hr
  · next v hv =>
    simp only [Except.ok.injEq] at hr
    subst hr; exact ⟨rfl, hv⟩

/-- On grid coordinates the vector of `penetrates` is right, up to the iteration limit. -/
theorem gjkPenetrate_grid_epa {N : Nat} (h0 : 0 < N) (hN : N ≤ 203) (hM : Convex K M)
    (hS : ∀ d, IsExtreme M d (S d)) (hG : ∀ d, OnGrid N (S d)) :
    ∀ (n : Nat) (L : List (V2 K)) (d : V2 K) (pts : List (V2 K)), GInv M L d pts →
      (∀ e ∈ pts, ∃ d, d ≠ 0 ∧ e = S d) →
      ∀ r, gjkPenetrate S n d pts = .ok r → r.1 = true →
      EpaGood M r.2 ∨ r.2 = 0 ∧ ManySupport S (3 + iterationLimit) := by
  intro n
  induction n with
  | zero =>
    intro L d pts _ _ r hr ht
    simp only [gjkPenetrate, Except.ok.injEq] at hr
    subst hr; simp at ht
  | succ n ih =>
    intro L d pts hI hLS r hr ht
    by_cases h1 : (S d).dot d ≤ 0
    · simp only [gjkPenetrate] at hr
      rw [if_pos h1] at hr
      simp only [Except.ok.injEq] at hr
      subst hr; simp at ht
    · obtain ⟨q, hq, hok⟩ := hI.step hM (hS d) (not_le.1 h1)
      have hSd : ∃ d', d' ≠ 0 ∧ S d = S d' := ⟨d, hI.dir_ne, rfl⟩
      cases hc : q.collides with
      | true =>
        obtain ⟨pts', hp1, hp2, hp3⟩ := hI.hit_epa (hS d) (not_le.1 h1) hq hc hSd hLS
        obtain ⟨_, hv⟩ := penetrate_hit_epa h1 hq hc hp1 hr
        have := epa_spec hS iterationLimit pts' hp3 _ hv
        rwa [hp2] at this
      | false =>
        have hpG : ∀ p ∈ pts, OnGrid N p := by
          intro p hp; obtain ⟨d', _, rfl⟩ := hLS p hp; exact hG d'
        obtain ⟨g1, g2⟩ := addPoint_grid h0 hN hpG (hG d) hq
        simp only [gjkPenetrate] at hr
        rw [if_neg h1, hq] at hr
        simp only at hr
        rw [if_neg (by simp [hc])] at hr
        have hI' : GInv M (S d :: L) (overrideDir d q.dir) q.pts := by
          unfold overrideDir
          split_ifs with h4
          · exact hok.zero hc (g2 hc h4)
          · exact hok.next hc (not_tooSmall_ne h4)
        refine ih _ _ _ hI' ?_ r hr ht
        intro e he
        rcases addPoint_pts_sub hq e he with rfl | he
        · exact hSd
        · exact hLS e he

end
end Auburn
