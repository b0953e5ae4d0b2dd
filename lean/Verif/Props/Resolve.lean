import Verif.Props.BoxPen
import Verif.Props.Tilemap
import Verif.Props.Utils

/-!
# C56: `Tilemap::simple_resolve_box` and `simple_resolve_ball`
-/

set_option linter.unusedSectionVars false
set_option synthInstance.maxSize 1000

namespace Auburn

open V2 ExtremePoint2d Transformation2d Auburn.Invertible Composable Tilemap

/-! ## any float behaviour -/

section
variable {F : Type} [Zero F] [One F] [Add F] [Sub F] [Mul F] [Div F] [Neg F]
  [LT F] [LE F] [DecidableLT F] [DecidableLE F] [FloatExtra F]

theorem mem_tilesInRect (m : Tilemap) (r : Rect2i) (dx dy : F) (e : V2i × UInt8) :
    e ∈ m.tilesInRect r dx dy ↔ r.Contains e.1 ∧ e.2 = m.getTile e.1 := by
  have key : ∀ {n w : Bool} {l : List V2i}, Visits n w r l →
      (e ∈ l.map (fun p => (p, m.getTile p)) ↔ r.Contains e.1 ∧ e.2 = m.getTile e.1) := by
    intro n w l h
    rw [List.mem_map]
    constructor
    · rintro ⟨p, hp, rfl⟩; exact ⟨(h.1 p).1 hp, rfl⟩
    · rintro ⟨h1, h2⟩; exact ⟨e.1, (h.1 _).2 h1, by rw [← h2]⟩
  unfold tilesInRect
  split_ifs
  · exact key (C57_iterate_south_west r)
  · exact key (C57_iterate_south_east r)
  · exact key (C57_iterate_north_west r)
  · exact key (C57_iterate_north_east r)

theorem tilesInRect_nodup (m : Tilemap) (r : Rect2i) (dx dy : F) :
    ((m.tilesInRect r dx dy).map Prod.fst).Nodup := by
  have key : ∀ {n w : Bool} {l : List V2i}, Visits n w r l →
      ((l.map (fun p => (p, m.getTile p))).map Prod.fst).Nodup := by
    intro n w l h
    rw [List.map_map]
    show (l.map id).Nodup
    rw [List.map_id]; exact h.2.1
  unfold tilesInRect
  split_ifs
  · exact key (C57_iterate_south_west r)
  · exact key (C57_iterate_south_east r)
  · exact key (C57_iterate_north_west r)
  · exact key (C57_iterate_north_east r)

/-- the two resolve functions never panic, whatever the float operations do -/
theorem C56_no_panic (m : Tilemap) (pos dir : V2 F) :
    (∀ col : Box2d F, ∃ p, m.simpleResolveBox col pos dir = .ok p) ∧
    (∀ col : Ball F, ∃ p, m.simpleResolveBall col pos dir = .ok p) := by
  have key : ∀ {S : Type} [SdfvCommonRel2d true false S (Box2d F) (V2 F) F] (col : S),
      (∀ (b : Box2d F) (d : V2 F), ∃ o, penetratesRel col b d = .ok o) →
      ∀ (l : List (V2i × UInt8)) (p : V2 F), ∃ q, resolveLoop col l p = .ok q := by
    intro S _ col h l
    induction l with
    | nil => intro p; exact ⟨p, rfl⟩
    | cons e l ih =>
      intro p
      simp only [resolveLoop]
      split_ifs
      · obtain ⟨o, ho⟩ := h ⟨⟨FloatExtra.half, FloatExtra.half⟩⟩ (tileToWorldPos e.1 - p)
        rw [ho]
        cases o with
        | none => exact ih p
        | some v => exact ih _
      · exact ih p
  exact ⟨fun col => key col (fun b d => (C33_rel_no_panic col b d).2.1) _ _,
    fun col => key col (fun b d => (C33_rel_no_panic col b d).2.1) _ _⟩

/-- empty maps, and maps whose solid tiles are outside the rectangle of `quantize`, never move
anything -/
theorem C56_no_solid_tile (m : Tilemap) (pos dir : V2 F) :
    (∀ col : Box2d F, (∀ t, (quantize col pos).Contains t → m.getTile t = 0) →
      m.simpleResolveBox col pos dir = .ok pos) ∧
    (∀ col : Ball F, (∀ t, (quantize col.boundingBox pos).Contains t → m.getTile t = 0) →
      m.simpleResolveBall col pos dir = .ok pos) := by
  have key : ∀ {S : Type} [SdfvCommonRel2d true false S (Box2d F) (V2 F) F] (col : S)
      (l : List (V2i × UInt8)) (p : V2 F), (∀ e ∈ l, e.2 = 0) → resolveLoop col l p = .ok p := by
    intro S _ col l
    induction l with
    | nil => intro p _; rfl
    | cons e l ih =>
      intro p h
      simp only [resolveLoop]
      rw [h e (by simp), if_neg (by decide)]
      exact ih p fun x hx => h x (by simp [hx])
  have mem : ∀ (r : Rect2i), (∀ t, r.Contains t → m.getTile t = 0) →
      ∀ e ∈ m.tilesInRect r dir.x dir.y, e.2 = 0 := by
    intro r h e he
    obtain ⟨h1, h2⟩ := (mem_tilesInRect m r dir.x dir.y e).1 he
    rw [h2, h _ h1]
  exact ⟨fun col h => key col _ _ (mem _ h), fun col h => key col _ _ (mem _ h)⟩

/-- the position after one tile: the reported push, if any, is added -/
def pushedOut {S : Type} [SdfvCommonRel2d true false S (Box2d F) (V2 F) F] (col : S) (pos : V2 F) (t : V2i) :
    Except Panic (V2 F) :=
  (penetratesRel col (⟨⟨FloatExtra.half, FloatExtra.half⟩⟩ : Box2d F) (tileToWorldPos t - pos)).map
    fun o => match o with | none => pos | some v => pos + v

/-- one tile after the other -/
def pushedOutOf {S : Type} [SdfvCommonRel2d true false S (Box2d F) (V2 F) F] (col : S) :
    List V2i → V2 F → Except Panic (V2 F)
  | [], pos => .ok pos
  | t :: ts, pos => (pushedOut col pos t).bind (pushedOutOf col ts)

/-- The order of the resolution: exactly the solid tiles of the `quantize` rectangle are resolved, one after the
other, each against the position the previous ones left, row by row: rows upwards unless `dir.y < 0`, inside a row to
the right unless `dir.x < 0`. -/
theorem C56_order (m : Tilemap) (pos dir : V2 F) :
    (∀ col : Box2d F, ∃ ts : List V2i,
      (∀ t, t ∈ ts ↔ (quantize col pos).Contains t ∧ m.getTile t ≠ 0) ∧
      ts.Pairwise (VisitBefore (!decide (dir.y < 0)) (!decide (dir.x < 0))) ∧
      m.simpleResolveBox col pos dir = pushedOutOf col ts pos) ∧
    (∀ col : Ball F, ∃ ts : List V2i,
      (∀ t, t ∈ ts ↔ (quantize col.boundingBox pos).Contains t ∧ m.getTile t ≠ 0) ∧
      ts.Pairwise (VisitBefore (!decide (dir.y < 0)) (!decide (dir.x < 0))) ∧
      m.simpleResolveBall col pos dir = pushedOutOf col ts pos) := by
  have loop : ∀ {S : Type} [SdfvCommonRel2d true false S (Box2d F) (V2 F) F] (col : S) (l : List V2i) (p : V2 F),
      resolveLoop col (l.map fun t => (t, m.getTile t)) p =
        pushedOutOf col (l.filter fun t => decide (m.getTile t ≠ 0)) p := by
    intro S _ col l
    induction l with
    | nil => intro p; rfl
    | cons t l ih =>
      intro p
      rw [List.map_cons]
      by_cases h : m.getTile t = 0
      · rw [List.filter_cons_of_neg (by simp [h])]
        simp only [resolveLoop]
        rw [if_neg (by rw [h]; decide)]
        exact ih p
      · rw [List.filter_cons_of_pos (by simp [h])]
        simp only [resolveLoop, pushedOutOf, pushedOut]
        rw [if_pos (UInt8.pos_iff_ne_zero.2 h)]
        rcases penetratesRel col (⟨⟨FloatExtra.half, FloatExtra.half⟩⟩ : Box2d F) (tileToWorldPos t - p) with e | _ | v
        · rfl
        · exact ih p
        · exact ih _
  have vis : ∀ r : Rect2i, ∃ l, Visits (!decide (dir.y < 0)) (!decide (dir.x < 0)) r l ∧
      m.tilesInRect r dir.x dir.y = l.map fun t => (t, m.getTile t) := by
    intro r
    unfold tilesInRect
    by_cases hy : dir.y < 0 <;> by_cases hx : dir.x < 0 <;> simp only [hy, hx, if_true, if_false, decide_true, decide_false]
    · exact ⟨_, C57_iterate_south_west r, rfl⟩
    · exact ⟨_, C57_iterate_south_east r, rfl⟩
    · exact ⟨_, C57_iterate_north_west r, rfl⟩
    · exact ⟨_, C57_iterate_north_east r, rfl⟩
  constructor
  · intro col
    obtain ⟨l, h1, h2⟩ := vis (quantize col pos)
    refine ⟨l.filter fun t => decide (m.getTile t ≠ 0), fun t => ?_, h1.2.2.filter _, ?_⟩
    · rw [List.mem_filter, h1.1 t, decide_eq_true_eq]
    · show resolveLoop col (m.tilesInRect (quantize col pos) dir.x dir.y) pos = _
      rw [h2, loop]
  · intro col
    obtain ⟨l, h1, h2⟩ := vis (quantize col.boundingBox pos)
    refine ⟨l.filter fun t => decide (m.getTile t ≠ 0), fun t => ?_, h1.2.2.filter _, ?_⟩
    · rw [List.mem_filter, h1.1 t, decide_eq_true_eq]
    · show resolveLoop col (m.tilesInRect (quantize col.boundingBox pos) dir.x dir.y) pos = _
      rw [h2, loop]

/-- the loop with exactly one solid tile in the list -/
theorem resolveLoop_single {S : Type} [SdfvCommonRel2d true false S (Box2d F) (V2 F) F] (col : S)
    (t0 : V2i) : ∀ (l : List (V2i × UInt8)) (p : V2 F), (l.map Prod.fst).Nodup →
    (∀ e ∈ l, e.2 > 0 → e.1 = t0) → (∃ e ∈ l, e.1 = t0 ∧ e.2 > 0) →
    resolveLoop col l p = (penetratesRel col (⟨⟨FloatExtra.half, FloatExtra.half⟩⟩ : Box2d F)
      (tileToWorldPos t0 - p)).map (fun o => match o with | none => p | some v => p + v) := by
  have empty : ∀ (l : List (V2i × UInt8)) (p : V2 F), (∀ e ∈ l, ¬ e.2 > 0) →
      resolveLoop col l p = .ok p := by
    intro l
    induction l with
    | nil => intro p _; rfl
    | cons e l ih =>
      intro p h
      simp only [resolveLoop]
      rw [if_neg (h e (by simp))]
      exact ih p fun x hx => h x (by simp [hx])
  intro l
  induction l with
  | nil => rintro p _ _ ⟨e, he, _⟩; cases he
  | cons e l ih =>
    intro p hn h ⟨e', he', h1, h2⟩
    rw [List.map_cons, List.nodup_cons] at hn
    simp only [resolveLoop]
    by_cases hs : e.2 > 0
    · have he0 := h e (by simp) hs
      have hrest : ∀ x ∈ l, ¬ x.2 > 0 := by
        intro x hx hxs
        apply hn.1
        rw [he0, ← h x (by simp [hx]) hxs]
        exact List.mem_map_of_mem hx
      rw [if_pos hs, he0]
      cases penetratesRel col (⟨⟨FloatExtra.half, FloatExtra.half⟩⟩ : Box2d F)
        (tileToWorldPos t0 - p) with
      | error e => rfl
      | ok o => cases o with
        | none => exact empty _ _ hrest
        | some v => exact empty _ _ hrest
    · rw [if_neg hs]
      refine ih p hn.2 (fun x hx => h x (by simp [hx])) ⟨e', ?_, h1, h2⟩
      rcases List.mem_cons.1 he' with rfl | h3
      · exact absurd h2 hs
      · exact h3

end

/-! ## exact arithmetic -/

section
variable {K : Type} [Field K] [LinearOrder K] [IsStrictOrderedRing K] [FloatExtra K] [ExactFloat K]

/-- the closed cell of a tile is the box the resolver tests against -/
theorem tileCellClosed_eq (t : V2i) (pos : V2 K) : tileCellClosed t =
    shift pos (placed (tileToWorldPos t - pos)
      (⟨⟨FloatExtra.half, FloatExtra.half⟩⟩ : Box2d K)) := by
  ext q
  simp only [tileCellClosed, shift, placed, Set.mem_ofPred_eq, Region.pts, ExactFloat.half_eq]
  constructor
  · rintro ⟨h1, h2⟩
    refine ⟨q - pos, ⟨q - tileToWorldPos t, ⟨?_, ?_⟩, ?_⟩, by abel⟩
    · simpa [tileToWorldPos, ExactFloat.ofInt_eq] using h1
    · simpa [tileToWorldPos, ExactFloat.ofInt_eq] using h2
    · ext <;> simp [apply]
  · rintro ⟨a, ⟨b, ⟨h1, h2⟩, rfl⟩, rfl⟩
    have e1 : (apply (tileToWorldPos t - pos) b + pos).x - (t.x : K) = b.x := by
      simp [tileToWorldPos, ExactFloat.ofInt_eq, apply]; ring
    have e2 : (apply (tileToWorldPos t - pos) b + pos).y - (t.y : K) = b.y := by
      simp [tileToWorldPos, ExactFloat.ofInt_eq, apply]; ring
    rw [e1, e2]
    exact ⟨h1, h2⟩

theorem separable_shift {u v : V2 K} {A B : Set (V2 K)} :
    Separable (shift (u + v) A) (shift u B) ↔ Separable (shift v A) B := by
  constructor
  · rintro ⟨n, hn, h⟩
    refine ⟨n, hn, ?_⟩
    rintro _ ⟨a, ha, rfl⟩ b hb
    have := h _ ⟨a, ha, rfl⟩ _ ⟨b, hb, rfl⟩
    simp only [dot_add] at this ⊢; linarith
  · rintro ⟨n, hn, h⟩
    refine ⟨n, hn, ?_⟩
    rintro _ ⟨a, ha, rfl⟩ _ ⟨b, hb, rfl⟩
    have := h _ ⟨a, ha, rfl⟩ _ hb
    simp only [dot_add] at this ⊢; linarith

theorem shift_zero' {A : Set (V2 K)} : shift 0 A = A := by
  ext x; simp [shift]

theorem overlap_shift {u : V2 K} {A B : Set (V2 K)} :
    Overlap (shift u A) (shift u B) ↔ Overlap A B := by
  have : ∀ v, Touch (shift v (shift u A)) (shift u B) ↔ Touch (shift v A) B := by
    intro v
    constructor
    · rintro ⟨_, ⟨_, ⟨a, ha, rfl⟩, rfl⟩, ⟨b, hb, h⟩⟩
      refine ⟨b, ⟨a, ha, ?_⟩, hb⟩
      have : b = a + u + v - u := by rw [h]; abel
      rw [this]; abel
    · rintro ⟨_, ⟨a, ha, rfl⟩, hb⟩
      exact ⟨a + u + v, ⟨a + u, ⟨a, ha, rfl⟩, rfl⟩, ⟨_, hb, by abel⟩⟩
  unfold Overlap
  simp only [this]

/-- membership in the difference of two axis-aligned boxes -/
theorem box_diff_mem_iff {a b : Box2d K} {p m : V2 K}
    (ha : 0 ≤ a.halfsize.x ∧ 0 ≤ a.halfsize.y) (hb : 0 ≤ b.halfsize.x ∧ 0 ≤ b.halfsize.y) :
    m ∈ minkDiff (Region.pts a) (placed p b) ↔
    |m.x + p.x| ≤ a.halfsize.x + b.halfsize.x ∧ |m.y + p.y| ≤ a.halfsize.y + b.halfsize.y := by
  refine ⟨box_diff_mem, fun ⟨h1, h2⟩ => ?_⟩
  have split : ∀ (s h k : K), 0 ≤ h → 0 ≤ k → |s| ≤ h + k → ∃ u w : K, |u| ≤ h ∧ |w| ≤ k ∧ u - w = s := by
    intro s h k hh hk hs
    rw [abs_le] at hs
    by_cases c1 : s ≤ -h
    · exact ⟨-h, -h - s, by rw [abs_neg, abs_of_nonneg hh], abs_le.2 ⟨by linarith, by linarith⟩, by ring⟩
    · by_cases c2 : h ≤ s
      · exact ⟨h, h - s, by rw [abs_of_nonneg hh], abs_le.2 ⟨by linarith, by linarith⟩, by ring⟩
      · exact ⟨s, 0, abs_le.2 ⟨by linarith, by linarith⟩, by rw [abs_zero]; exact hk, by ring⟩
  obtain ⟨u1, w1, k1, k2, k3⟩ := split _ _ _ ha.1 hb.1 h1
  obtain ⟨u2, w2, l1, l2, l3⟩ := split _ _ _ ha.2 hb.2 h2
  refine ⟨⟨u1, u2⟩, ⟨k1, l1⟩, apply p (⟨w1, w2⟩ : V2 K), ⟨⟨w1, w2⟩, ⟨k2, l2⟩, rfl⟩, ?_⟩
  ext
  · simp only [apply, V2.sub_x, V2.add_x]; linear_combination -k3
  · simp only [apply, V2.sub_y, V2.add_y]; linear_combination -l3

/-- boxes that do not overlap are separable (by an axis) -/
theorem box_separable_of_not_overlap (a b : Box2d K) (p : V2 K)
    (ha : 0 ≤ a.halfsize.x ∧ 0 ≤ a.halfsize.y) (hb : 0 ≤ b.halfsize.x ∧ 0 ≤ b.halfsize.y)
    (h : ¬ Overlap (Region.pts a) (placed p b)) : Separable (Region.pts a) (placed p b) := by
  rw [separable_iff]
  by_cases hx : |p.x| < a.halfsize.x + b.halfsize.x
  · by_cases hy : |p.y| < a.halfsize.y + b.halfsize.y
    · exfalso
      apply h
      obtain ⟨r, hr, r1, r2⟩ : ∃ r : K, 0 < r ∧ r ≤ a.halfsize.x + b.halfsize.x - |p.x| ∧
          r ≤ a.halfsize.y + b.halfsize.y - |p.y| :=
        ⟨min _ _, lt_min (sub_pos.2 hx) (sub_pos.2 hy), min_le_left _ _, min_le_right _ _⟩
      refine ⟨r, hr, fun v hv => shift_touch_iff.2 ((box_diff_mem_iff ha hb).2 ?_)⟩
      have hvx : |v.x| ≤ r := abs_le_of_sq_le_sq (by
        rw [lengthSq_def] at hv; linarith [mul_self_nonneg v.y, sq v.x]) hr.le
      have hvy : |v.y| ≤ r := abs_le_of_sq_le_sq (by
        rw [lengthSq_def] at hv; linarith [mul_self_nonneg v.x, sq v.y]) hr.le
      constructor
      · refine (abs_add_le _ _).trans ?_
        rw [V2.neg_x, abs_neg]; linarith
      · refine (abs_add_le _ _).trans ?_
        rw [V2.neg_y, abs_neg]; linarith
    · rw [not_lt] at hy
      rcases le_abs.1 hy with h1 | h1
      · refine ⟨⟨0, 1⟩, fun h => one_ne_zero (congrArg V2.y h), fun m hm => ?_⟩
        have := (abs_le.1 (box_diff_mem hm).2).2
        simp only [dot_def]; linarith
      · refine ⟨⟨0, -1⟩, fun h => neg_ne_zero.2 one_ne_zero (congrArg V2.y h), fun m hm => ?_⟩
        have := (abs_le.1 (box_diff_mem hm).2).1
        simp only [dot_def]; linarith
  · rw [not_lt] at hx
    rcases le_abs.1 hx with h1 | h1
    · refine ⟨⟨1, 0⟩, fun h => one_ne_zero (congrArg V2.x h), fun m hm => ?_⟩
      have := (abs_le.1 (box_diff_mem hm).1).2
      simp only [dot_def]; linarith
    · refine ⟨⟨-1, 0⟩, fun h => neg_ne_zero.2 one_ne_zero (congrArg V2.x h), fun m hm => ?_⟩
      have := (abs_le.1 (box_diff_mem hm).1).1
      simp only [dot_def]; linarith

theorem overlap_tile (t : V2i) (col : Box2d K) (pos : V2 K) :
    Overlap (shift pos (Region.pts col)) (tileCellClosed t) ↔
    Overlap (Region.pts col) (placed (tileToWorldPos t - pos)
      (⟨⟨FloatExtra.half, FloatExtra.half⟩⟩ : Box2d K)) := by
  rw [tileCellClosed_eq t pos, overlap_shift]

theorem onGrid_half {N : Nat} (h0 : 0 < N) :
    OnGrid (2 * N) (⟨FloatExtra.half, FloatExtra.half⟩ : V2 K) := by
  have : (N : K) ≠ 0 := by exact_mod_cast h0.ne'
  refine ⟨N, N, ?_⟩
  ext <;> · simp only [ExactFloat.half_eq]; push_cast; field_simp

theorem onGrid_tile {N : Nat} (h0 : 0 < N) (t : V2i) {pos : V2 K} (gp : OnGrid (2 * N) pos) :
    OnGrid (2 * N) (tileToWorldPos t - pos) := by
  have : (N : K) ≠ 0 := by exact_mod_cast h0.ne'
  obtain ⟨i, j, rfl⟩ := gp
  refine ⟨2 * N * t.x - i, 2 * N * t.y - j, ?_⟩
  ext <;> · simp [tileToWorldPos, ExactFloat.ofInt_eq]; field_simp

theorem lengthSq_eq_zero_of_le {v : V2 K} (h : lengthSq v ≤ 0) : v = 0 := by
  rw [lengthSq_def] at h
  have h1 := mul_self_nonneg v.x
  have h2 := mul_self_nonneg v.y
  have hx : v.x = 0 := mul_self_eq_zero.1 (by linarith)
  have hy : v.y = 0 := mul_self_eq_zero.1 (by linarith)
  ext
  · exact hx
  · exact hy

/-- `simple_resolve_box` leaves the position unchanged if no solid tile cell overlaps the box
(touching is allowed).  Grid version: half sizes and position are multiples of `1/(2N)`,
`2N ≤ 203` (half a tile is such a multiple). -/
theorem C56_unchanged (m : Tilemap) (col : Box2d K) (pos dir : V2 K) {N : Nat} (h0 : 0 < N)
    (hN : 2 * N ≤ 203) (hc : 0 ≤ col.halfsize.x ∧ 0 ≤ col.halfsize.y)
    (gc : OnGrid (2 * N) col.halfsize) (gp : OnGrid (2 * N) pos)
    (hfree : ∀ t, m.getTile t ≠ 0 → ¬ Overlap (shift pos (Region.pts col)) (tileCellClosed t)) :
    m.simpleResolveBox col pos dir = .ok pos := by
  have hh : (0 : K) ≤ FloatExtra.half := by rw [ExactFloat.half_eq]; norm_num
  have step : ∀ t, m.getTile t ≠ 0 → ∀ o, penetratesRel col
      (⟨⟨FloatExtra.half, FloatExtra.half⟩⟩ : Box2d K) (tileToWorldPos t - pos) = .ok o →
      o = none ∨ o = some 0 := by
    intro t ht o ho
    cases o with
    | none => exact Or.inl rfl
    | some v =>
      right
      have hM := (C41_penetrates_minimal_grid (convexPair_box_box col _ _ hc ⟨hh, hh⟩
        ⟨1, zero_le_one, similarity_vec2 _⟩) (by omega) hN (gridPair_box_box _ _ _ (by omega) gc
          (onGrid_half h0) (onGrid_tile h0 t gp)) v ho).resolve_right
        fun h => not_many (few_box _) (few_box _) (by norm_num) h.2
      have hs := box_separable_of_not_overlap col _ _ hc ⟨hh, hh⟩ ((overlap_tile t col pos).not.1 (hfree t ht))
      have h1 := hM.2 0 (by rwa [shift_zero'])
      have h2 : lengthSq (0 : V2 K) = 0 := by rw [lengthSq_def]; simp
      rw [h2, mul_zero] at h1
      rw [lengthSq_eq_zero_of_le h1]
  have key : ∀ l : List (V2i × UInt8), (∀ e ∈ l, e.2 = m.getTile e.1) →
      resolveLoop col l pos = .ok pos := by
    intro l
    induction l with
    | nil => intro _; rfl
    | cons e l ih =>
      intro h
      have ih' := ih fun x hx => h x (by simp [hx])
      simp only [resolveLoop]
      split_ifs with h1
      · have ht : m.getTile e.1 ≠ 0 := by
          rw [← h e (by simp)]; intro h2; rw [h2] at h1; exact absurd h1 (by decide)
        obtain ⟨o, ho⟩ := (C33_rel_no_panic col (⟨⟨FloatExtra.half, FloatExtra.half⟩⟩ : Box2d K)
          (tileToWorldPos e.1 - pos)).2.1
        rw [ho]
        rcases step e.1 ht o ho with rfl | rfl
        · exact ih'
        · simp only [add_zero]; exact ih'
      · exact ih'
  exact key _ fun e he => ((mem_tilesInRect m _ _ _ e).1 he).2

/-- a tile whose closed cell overlaps the box is visited -/
theorem contains_of_overlap (col : Box2d K) (pos : V2 K) (t : V2i)
    (hc : 0 ≤ col.halfsize.x ∧ 0 ≤ col.halfsize.y)
    (h : Overlap (shift pos (Region.pts col)) (tileCellClosed t)) :
    (quantize col pos).Contains t := by
  apply (C55_quantize col pos hc t).1
  by_contra hn
  have hh : (0 : K) ≤ FloatExtra.half := by rw [ExactFloat.half_eq]; norm_num
  obtain ⟨r, hr, h⟩ := (overlap_tile t col pos).1 h
  have hX : ∀ s : K, |s| ≤ r → |(tileToWorldPos t - pos : V2 K).x + s| ≤ col.halfsize.x + 1 / 2 := by
    intro s hs
    have h1 := h ⟨-s, 0⟩ (by rw [lengthSq_def]; simp only [mul_zero, add_zero]; rw [← sq, neg_sq]; exact sq_le_sq' (by linarith [(abs_le.1 hs).1]) (abs_le.1 hs).2)
    have h2 := (box_diff_mem (shift_touch_iff.1 h1)).1
    simp only [V2.neg_x, neg_neg, ExactFloat.half_eq] at h2
    rw [add_comm]; exact h2
  have hY : ∀ s : K, |s| ≤ r → |(tileToWorldPos t - pos : V2 K).y + s| ≤ col.halfsize.y + 1 / 2 := by
    intro s hs
    have h1 := h ⟨0, -s⟩ (by rw [lengthSq_def]; simp only [mul_zero, zero_add]; rw [← sq, neg_sq]; exact sq_le_sq' (by linarith [(abs_le.1 hs).1]) (abs_le.1 hs).2)
    have h2 := (box_diff_mem (shift_touch_iff.1 h1)).2
    simp only [V2.neg_y, neg_neg, ExactFloat.half_eq] at h2
    rw [add_comm]; exact h2
  have rr : |r| ≤ r := le_of_eq (abs_of_pos hr)
  have rr' : |-r| ≤ r := le_of_eq (by rw [abs_neg, abs_of_pos hr])
  have sel : ∀ (c n k : K), 0 ≤ k → n - c + r ≤ k + 1 / 2 → -(k + 1 / 2) ≤ n - c - r →
      ∃ x : K, |x| ≤ k ∧ |x + c - n| < 1 / 2 := by
    intro c n k hk h1 h2
    by_cases c1 : n - c ≤ -k
    · exact ⟨-k, by rw [abs_neg, abs_of_nonneg hk], abs_lt.2 ⟨by linarith, by linarith⟩⟩
    · by_cases c2 : k ≤ n - c
      · exact ⟨k, by rw [abs_of_nonneg hk], abs_lt.2 ⟨by linarith, by linarith⟩⟩
      · exact ⟨n - c, abs_le.2 ⟨by linarith, by linarith⟩, by
          rw [show n - c + c - n = 0 by ring, abs_zero]; norm_num⟩
  have x1 := (abs_le.1 (hX r rr)).2
  have x2 := (abs_le.1 (hX (-r) rr')).1
  have y1 := (abs_le.1 (hY r rr)).2
  have y2 := (abs_le.1 (hY (-r) rr')).1
  simp only [tileToWorldPos, ExactFloat.ofInt_eq, V2.sub_x, V2.sub_y] at x1 x2 y1 y2
  obtain ⟨x, k1, k2⟩ := sel pos.x t.x col.halfsize.x hc.1 x1 (by linarith)
  obtain ⟨y, l1, l2⟩ := sel pos.y t.y col.halfsize.y hc.2 y1 (by linarith)
  exact hn ⟨⟨x, y⟩ + pos, ⟨⟨x, y⟩, ⟨k1, l1⟩, rfl⟩, k2, l2⟩

/-- `simple_resolve_box` with exactly one solid tile `t0` near the box, overlapping it: the returned
position does not overlap the tile any more, and no position that does not overlap it is nearer to
the old one (up to 1 %).  Grid version, as in `C56_unchanged`. -/
theorem C56_single (m : Tilemap) (col : Box2d K) (pos dir : V2 K) (t0 : V2i) {N : Nat} (h0 : 0 < N)
    (hN : 2 * N ≤ 203) (hc : 0 ≤ col.halfsize.x ∧ 0 ≤ col.halfsize.y)
    (gc : OnGrid (2 * N) col.halfsize) (gp : OnGrid (2 * N) pos)
    (hsolid : m.getTile t0 ≠ 0)
    (hover : Overlap (shift pos (Region.pts col)) (tileCellClosed t0))
    (hother : ∀ t, t ≠ t0 → m.getTile t ≠ 0 →
      ¬ Touch (shift pos (Region.pts col)) (tileCellClosed t)) :
    ∃ pos', m.simpleResolveBox col pos dir = .ok pos' ∧
      Separable (shift pos' (Region.pts col)) (tileCellClosed t0) ∧
      ∀ q, Separable (shift q (Region.pts col)) (tileCellClosed t0) →
        lengthSq (pos' - pos) ≤ (101 / 100) ^ 2 * lengthSq (q - pos) := by
  have hh : (0 : K) ≤ FloatExtra.half := by rw [ExactFloat.half_eq]; norm_num
  obtain ⟨v, hv, hM⟩ := C42_box_box_grid col (⟨⟨FloatExtra.half, FloatExtra.half⟩⟩ : Box2d K)
    (tileToWorldPos t0 - pos) (N := 2 * N) (by omega) hN hc ⟨hh, hh⟩ gc (onGrid_half h0)
    (onGrid_tile h0 t0 gp) ((overlap_tile t0 col pos).1 hover)
  have hpos : ∀ x : UInt8, x ≠ 0 ↔ x > 0 := by intro x; rw [gt_iff_lt, UInt8.pos_iff_ne_zero]
  refine ⟨pos + v, ?_, ?_, fun q hq => ?_⟩
  · show resolveLoop col _ pos = _
    rw [resolveLoop_single col t0 _ pos (tilesInRect_nodup m _ _ _)
      (fun e he hs => ?_) ⟨(t0, m.getTile t0), (mem_tilesInRect m _ _ _ _).2
        ⟨contains_of_overlap col pos t0 hc hover, rfl⟩, rfl, (hpos _).1 hsolid⟩, hv]
    · rfl
    · obtain ⟨h1, h2⟩ := (mem_tilesInRect m _ _ _ e).1 he
      by_contra hne
      exact hother e.1 hne (by rw [← h2]; exact (hpos _).2 hs)
        ((C55_quantize col pos hc e.1).2 h1)
  · rw [tileCellClosed_eq t0 pos, separable_shift]; exact hM.1
  · have e : q = pos + (q - pos) := by abel
    rw [e, tileCellClosed_eq t0 pos, separable_shift] at hq
    have := hM.2 _ hq
    rwa [show pos + v - pos = v by abel]

end

section
variable {K : Type} [Field K] [LinearOrder K] [IsStrictOrderedRing K] [FloatExtra K] [ExactFloat K]
  [ExactSqrt K]

theorem withinTolerance_shift {u : V2 K} {A B : Set (V2 K)}
    (h : WithinTolerance A B) : WithinTolerance (shift u A) (shift u B) := by
  obtain ⟨p, hp, q, hq, h⟩ := h
  exact ⟨p + u, ⟨p, hp, rfl⟩, q + u, ⟨q, hq, rfl⟩, by
    rwa [show p + u - (q + u) = p - q by abel]⟩

/-- Off the grid, and for balls as well: nothing is moved if every solid tile cell stays farther
from the shape than the tolerance of the collision test (`2^(-23/3)`). -/
theorem C56_unchanged_apart (m : Tilemap) (pos dir : V2 K) :
    (∀ col : Box2d K, 0 ≤ col.halfsize.x ∧ 0 ≤ col.halfsize.y →
      (∀ t, m.getTile t ≠ 0 → ¬ WithinTolerance (shift pos (Region.pts col)) (tileCellClosed t)) →
      m.simpleResolveBox col pos dir = .ok pos) ∧
    (∀ col : Ball K, 0 ≤ col.radius →
      (∀ t, m.getTile t ≠ 0 → ¬ WithinTolerance (shift pos (Region.pts col)) (tileCellClosed t)) →
      m.simpleResolveBall col pos dir = .ok pos) := by
  have hh : (0 : K) ≤ FloatExtra.half := by rw [ExactFloat.half_eq]; norm_num
  have key : ∀ {S : Type} [SdfvCommonRel2d true false S (Box2d K) (V2 K) K] (col : S)
      (l : List (V2i × UInt8)), (∀ e ∈ l, e.2 = m.getTile e.1) →
      (∀ t, m.getTile t ≠ 0 → penetratesRel col (⟨⟨FloatExtra.half, FloatExtra.half⟩⟩ : Box2d K)
        (tileToWorldPos t - pos) = .ok none) → resolveLoop col l pos = .ok pos := by
    intro S _ col l
    induction l with
    | nil => intro _ _; rfl
    | cons e l ih =>
      intro h hf
      have ih' := ih (fun x hx => h x (by simp [hx])) hf
      simp only [resolveLoop]
      split_ifs with h1
      · have ht : m.getTile e.1 ≠ 0 := by
          rw [← h e (by simp)]; intro h2; rw [h2] at h1; exact absurd h1 (by decide)
        rw [hf _ ht]; exact ih'
      · exact ih'
  constructor
  · intro col hc h
    refine key col _ (fun e he => ((mem_tilesInRect m _ _ _ e).1 he).2) fun t ht => ?_
    obtain ⟨o, ho⟩ := (C33_rel_no_panic col (⟨⟨FloatExtra.half, FloatExtra.half⟩⟩ : Box2d K)
      (tileToWorldPos t - pos)).2.1
    cases o with
    | none => exact ho
    | some v =>
      refine absurd ?_ (h t ht)
      rw [tileCellClosed_eq t pos]
      exact withinTolerance_shift (C36_penetrates_some (convexPair_box_box col _ _ hc ⟨hh, hh⟩
        ⟨1, zero_le_one, similarity_vec2 _⟩) v ho)
  · intro col hc h
    refine key col _ (fun e he => ((mem_tilesInRect m _ _ _ e).1 he).2) fun t ht => ?_
    obtain ⟨o, ho⟩ := (C33_rel_no_panic col (⟨⟨FloatExtra.half, FloatExtra.half⟩⟩ : Box2d K)
      (tileToWorldPos t - pos)).2.1
    cases o with
    | none => exact ho
    | some v =>
      refine absurd ?_ (h t ht)
      rw [tileCellClosed_eq t pos]
      exact withinTolerance_shift (C36_penetrates_some (convexPair_ball_box col _ _ hc ⟨hh, hh⟩
        ⟨1, zero_le_one, similarity_vec2 _⟩) v ho)

/-- `simple_resolve_ball` with a single solid tile in the rectangle of its bounding box: either the
position is unchanged or the returned position does not overlap the tile. -/
theorem C56_ball_single (m : Tilemap) (col : Ball K) (pos dir : V2 K) (t0 : V2i)
    (hr : 0 ≤ col.radius)
    (hother : ∀ t, (quantize col.boundingBox pos).Contains t → m.getTile t ≠ 0 → t = t0) :
    ∃ pos', m.simpleResolveBall col pos dir = .ok pos' ∧
      (pos' = pos ∨ Separable (shift pos' (Region.pts col)) (tileCellClosed t0)) := by
  have hh : (0 : K) ≤ FloatExtra.half := by rw [ExactFloat.half_eq]; norm_num
  have hpos : ∀ x : UInt8, x ≠ 0 ↔ x > 0 := by intro x; rw [gt_iff_lt, UInt8.pos_iff_ne_zero]
  by_cases hin : (quantize col.boundingBox pos).Contains t0 ∧ m.getTile t0 ≠ 0
  · have hrun := resolveLoop_single col t0 (m.tilesInRect (quantize col.boundingBox pos) dir.x dir.y) pos
      (tilesInRect_nodup m _ _ _) (fun e he hs => by
        obtain ⟨h1, h2⟩ := (mem_tilesInRect m _ _ _ e).1 he
        exact hother e.1 h1 (by rw [← h2]; exact (hpos _).2 hs))
      ⟨(t0, m.getTile t0), (mem_tilesInRect m _ _ _ _).2 ⟨hin.1, rfl⟩, rfl, (hpos _).1 hin.2⟩
    obtain ⟨o, ho⟩ := (C33_rel_no_panic col (⟨⟨FloatExtra.half, FloatExtra.half⟩⟩ : Box2d K)
      (tileToWorldPos t0 - pos)).2.1
    rw [ho] at hrun
    cases o with
    | none => exact ⟨pos, hrun, Or.inl rfl⟩
    | some v =>
      refine ⟨pos + v, hrun, ?_⟩
      by_cases h1 : v = 0
      · left; rw [h1, add_zero]
      · right; rw [tileCellClosed_eq t0 pos, separable_shift]
        exact C40_penetrates_separates (convexPair_ball_box col _ _ hr ⟨hh, hh⟩
          ⟨1, zero_le_one, similarity_vec2 _⟩) v ho h1
  · refine ⟨pos, (C56_no_solid_tile m pos dir).2 col fun t ht => ?_, Or.inl rfl⟩
    by_contra hne
    have := hother t ht hne
    subst this
    exact hin ⟨ht, hne⟩

end

section
attribute [local instance] ratFloat
attribute [local instance] ratFloat_exact

/-- concrete case of `C56_single`: a single tile at `(1, -1)`, overlapped by a box on the grid `1/4` -/
example : ∃ pos' : V2 ℚ, ((Tilemap.default.setTile ⟨1, -1⟩ 3).simpleResolveBox
      (⟨⟨1 / 2, 1 / 2⟩⟩ : Box2d ℚ) ⟨1 / 4, -1 / 2⟩ ⟨1, 0⟩) = .ok pos' ∧
    Separable (shift pos' (Region.pts (⟨⟨1 / 2, 1 / 2⟩⟩ : Box2d ℚ))) (tileCellClosed ⟨1, -1⟩) := by
  have get : ∀ p, (Tilemap.default.setTile ⟨1, -1⟩ 3).getTile p = if p = ⟨1, -1⟩ then 3 else 0 := by
    intro p; rw [getTile_setTile WF.default]; rfl
  obtain ⟨q, h1, h2, _⟩ := C56_single (Tilemap.default.setTile ⟨1, -1⟩ 3)
    (⟨⟨1 / 2, 1 / 2⟩⟩ : Box2d ℚ) ⟨1 / 4, -1 / 2⟩ ⟨1, 0⟩ ⟨1, -1⟩ (N := 2) (by norm_num) (by norm_num)
    (by norm_num) ⟨2, 2, by ext <;> norm_num⟩ ⟨1, -2, by ext <;> norm_num⟩
    (by rw [get]; simp) (by
      rw [overlap_tile]
      by_contra hno
      obtain ⟨n, hn, hs⟩ := separable_iff.1 (box_separable_of_not_overlap _ _ _ (by norm_num)
        (by norm_num [ExactFloat.half_eq]) hno)
      have mem : ∀ x y : ℚ, |x| ≤ 1 / 4 → |y| ≤ 1 / 4 → (⟨x, y⟩ : V2 ℚ) ∈
          minkDiff (Region.pts (⟨⟨1 / 2, 1 / 2⟩⟩ : Box2d ℚ)) (placed (tileToWorldPos ⟨1, -1⟩ -
            (⟨1 / 4, -1 / 2⟩ : V2 ℚ)) (⟨⟨FloatExtra.half, FloatExtra.half⟩⟩ : Box2d ℚ)) := by
        intro x y hx hy
        rw [box_diff_mem_iff (by norm_num) (by norm_num [ExactFloat.half_eq])]
        rw [abs_le] at hx hy
        simp only [tileToWorldPos, ExactFloat.ofInt_eq, ExactFloat.half_eq, V2.sub_x, V2.sub_y]
        constructor <;> rw [abs_le] <;> push_cast <;> constructor <;> linarith
      have a1 := hs _ (mem (1 / 4) 0 (by norm_num [abs_le]) (by norm_num))
      have a2 := hs _ (mem (-1 / 4) 0 (by norm_num [abs_le]) (by norm_num))
      have a3 := hs _ (mem 0 (1 / 4) (by norm_num) (by norm_num [abs_le]))
      have a4 := hs _ (mem 0 (-1 / 4) (by norm_num) (by norm_num [abs_le]))
      simp only [dot_def] at a1 a2 a3 a4
      apply hn
      ext
      · show n.x = 0; linarith
      · show n.y = 0; linarith)
    (by intro t ht h; rw [get, if_neg ht] at h; exact absurd rfl h)
  exact ⟨q, h1, h2⟩

/-- Finding: with two solid tiles the resolver does not resolve.  A box of width 6/5 between the
tiles `(0, 0)` and `(2, 0)` is pushed out of the first one into the second one and back: the result
still overlaps the first tile, although moving up would have cleared both. -/
theorem C56_two_tiles_finding :
    let m := (Tilemap.default.setTile ⟨0, 0⟩ 1).setTile ⟨2, 0⟩ 1
    let col : Box2d ℚ := ⟨⟨3 / 5, 1 / 2⟩⟩
    ∃ pos', m.simpleResolveBox col (⟨1, 1 / 8⟩ : V2 ℚ) ⟨1, 0⟩ = .ok pos' ∧
      Overlap (shift pos' (Region.pts col)) (tileCellClosed ⟨0, 0⟩) := by
  refine ⟨⟨9 / 10, 1 / 8⟩, by decide +kernel, 1 / 10, by norm_num, fun v hv => ?_⟩
  rw [lengthSq_def] at hv
  have hvx : |v.x| ≤ 1 / 10 := abs_le_of_sq_le_sq (by
    linarith [mul_self_nonneg v.y, sq v.x]) (by norm_num)
  have hvy : |v.y| ≤ 1 / 10 := abs_le_of_sq_le_sq (by
    linarith [mul_self_nonneg v.x, sq v.y]) (by norm_num)
  rw [abs_le] at hvx hvy
  refine ⟨⟨-3 / 5, 0⟩ + ⟨9 / 10, 1 / 8⟩ + v, ⟨_, ⟨⟨-3 / 5, 0⟩, ⟨by norm_num [abs_le], by norm_num⟩, rfl⟩,
    rfl⟩, ?_, ?_⟩
  · show |(-3 / 5 : ℚ) + 9 / 10 + v.x - ((0 : Int) : ℚ)| ≤ 1 / 2
    rw [abs_le]; push_cast; constructor <;> linarith
  · show |(0 : ℚ) + 1 / 8 + v.y - ((0 : Int) : ℚ)| ≤ 1 / 2
    rw [abs_le]; push_cast; constructor <;> linarith

end
end Auburn
