import Verif.Lib.V3
import Verif.Model.Utils
import Mathlib.Data.List.Pairwise
import Mathlib.Data.List.Nodup
import Mathlib.Data.List.Perm.Basic

/-!
# C57–C62: rectangles, publishers, approximate equality, lerp
-/

set_option linter.unusedSectionVars false

namespace Auburn

/-! ## C57 -/

/-- the integer positions of a rectangle (both corners included) -/
def Rect2i.Contains (r : Rect2i) (p : V2i) : Prop :=
  r.min.x ≤ p.x ∧ p.x ≤ r.max.x ∧ r.min.y ≤ p.y ∧ p.y ≤ r.max.y

/-- row-by-row visiting order: rows towards north (`y` grows) iff `north`, within a row towards east
(`x` grows) iff `east` -/
def VisitBefore (north east : Bool) (p q : V2i) : Prop :=
  (if north then p.y < q.y else q.y < p.y) ∨
    p.y = q.y ∧ (if east then p.x < q.x else q.x < p.x)

/-- `l` visits exactly the positions of `r`, each once, in the given order (a strict order, so the
list is duplicate-free and completely determined) -/
def Visits (north east : Bool) (r : Rect2i) (l : List V2i) : Prop :=
  (∀ p, p ∈ l ↔ r.Contains p) ∧ l.Nodup ∧ l.Pairwise (VisitBefore north east)

theorem mem_rangeIncl {lo hi x : Int} : x ∈ rangeIncl lo hi ↔ lo ≤ x ∧ x ≤ hi := by
  simp only [rangeIncl, List.mem_map, List.mem_range]
  constructor
  · rintro ⟨i, hi', rfl⟩; omega
  · intro h; exact ⟨(x - lo).toNat, by omega, by omega⟩

theorem rangeIncl_pairwise (lo hi : Int) : (rangeIncl lo hi).Pairwise (· < ·) := by
  unfold rangeIncl
  rw [List.pairwise_map]
  exact List.pairwise_lt_range.imp (by intro a b h; omega)

theorem product_pairwise {R S : Int → Int → Prop} {xs ys : List Int} (hx : xs.Pairwise S)
    (hy : ys.Pairwise R) :
    (Rect2i.product xs ys).Pairwise fun p q => R p.y q.y ∨ p.y = q.y ∧ S p.x q.x := by
  unfold Rect2i.product
  rw [List.pairwise_flatMap]
  constructor
  · intro y _
    rw [List.pairwise_map]
    exact hx.imp fun h => Or.inr ⟨rfl, h⟩
  · refine hy.imp fun {a b} h => ?_
    intro p hp q hq
    simp only [List.mem_map] at hp hq
    obtain ⟨x, _, rfl⟩ := hp
    obtain ⟨x', _, rfl⟩ := hq
    exact Or.inl h

theorem mem_product {xs ys : List Int} {p : V2i} :
    p ∈ Rect2i.product xs ys ↔ p.x ∈ xs ∧ p.y ∈ ys := by
  simp only [Rect2i.product, List.mem_flatMap, List.mem_map]
  constructor
  · rintro ⟨y, hy, x, hx, rfl⟩; exact ⟨hx, hy⟩
  · rintro ⟨hx, hy⟩; exact ⟨p.y, hy, p.x, hx, rfl⟩

theorem visits_of {north east : Bool} {r : Rect2i} {l : List V2i}
    (h1 : ∀ p, p ∈ l ↔ r.Contains p) (h2 : l.Pairwise (VisitBefore north east)) :
    Visits north east r l := by
  refine ⟨h1, ?_, h2⟩
  refine h2.imp ?_
  rintro p q h rfl
  cases north <;> cases east <;> simp [VisitBefore] at h

theorem C57_iterate_north_east (r : Rect2i) : Visits true true r r.iterateNorthEast := by
  apply visits_of
  · intro p; simp only [Rect2i.iterateNorthEast, mem_product, mem_rangeIncl, Rect2i.Contains]; tauto
  · exact product_pairwise (rangeIncl_pairwise _ _) (rangeIncl_pairwise _ _)

theorem C57_iterate_south_east (r : Rect2i) : Visits false true r r.iterateSouthEast := by
  apply visits_of
  · intro p
    simp only [Rect2i.iterateSouthEast, mem_product, mem_rangeIncl, Rect2i.Contains,
      List.mem_reverse]; tauto
  · exact product_pairwise (rangeIncl_pairwise _ _)
      (List.pairwise_reverse.2 (rangeIncl_pairwise _ _))

theorem C57_iterate_south_west (r : Rect2i) : Visits false false r r.iterateSouthWest := by
  apply visits_of
  · intro p
    simp only [Rect2i.iterateSouthWest, mem_product, mem_rangeIncl, Rect2i.Contains,
      List.mem_reverse]; tauto
  · exact product_pairwise (List.pairwise_reverse.2 (rangeIncl_pairwise _ _))
      (List.pairwise_reverse.2 (rangeIncl_pairwise _ _))

theorem C57_iterate_north_west (r : Rect2i) : Visits true false r r.iterateNorthWest := by
  apply visits_of
  · intro p
    simp only [Rect2i.iterateNorthWest, mem_product, mem_rangeIncl, Rect2i.Contains,
      List.mem_reverse]; tauto
  · exact product_pairwise (List.pairwise_reverse.2 (rangeIncl_pairwise _ _))
      (rangeIncl_pairwise _ _)

/-- `iterate` is north-east, `iterate_boxed` picks the order from the flip flags,
`iterate_with_direction_f32` from the signs of the direction (negative means flipped) -/
theorem C57_iterate_dispatch {F : Type} [Zero F] [LT F] [DecidableLT F] (r : Rect2i)
    (flipX flipY : Bool) (dx dy : F) :
    Visits true true r r.iterate ∧
    Visits (!flipY) (!flipX) r (r.iterateBoxed flipX flipY) ∧
    Visits (!decide (dy < 0)) (!decide (dx < 0)) r (r.iterateWithDirection dx dy) := by
  have hb : ∀ fx fy, Visits (!fy) (!fx) r (r.iterateBoxed fx fy) := by
    intro fx fy
    cases fx <;> cases fy
    · exact C57_iterate_north_east r
    · exact C57_iterate_south_east r
    · exact C57_iterate_north_west r
    · exact C57_iterate_south_west r
  exact ⟨C57_iterate_north_east r, hb _ _, hb _ _⟩

/-- all orders are permutations of each other, and opposite corners give reversed sequences -/
theorem C57_iterate_perm (r : Rect2i) :
    (∀ fx fy fx' fy', (r.iterateBoxed fx fy).Perm (r.iterateBoxed fx' fy')) ∧
    r.iterateSouthWest = r.iterateNorthEast.reverse ∧
    r.iterateNorthWest = r.iterateSouthEast.reverse := by
  refine ⟨?_, ?_, ?_⟩
  · intro fx fy fx' fy'
    have h1 := (C57_iterate_dispatch r fx fy (0 : Int) 0).2.1
    have h2 := (C57_iterate_dispatch r fx' fy' (0 : Int) 0).2.1
    exact (List.perm_ext_iff_of_nodup h1.2.1 h2.2.1).2 fun p => (h1.1 p).trans (h2.1 p).symm
  · simp only [Rect2i.iterateSouthWest, Rect2i.iterateNorthEast, Rect2i.product,
      List.reverse_flatMap, Function.comp_def, List.map_reverse]
  · simp only [Rect2i.iterateNorthWest, Rect2i.iterateSouthEast, Rect2i.product,
      List.reverse_flatMap, Function.comp_def, List.map_reverse, List.reverse_reverse]

/-- a test: 2 × 3 rectangle -/
example : (⟨⟨-1, 5⟩, ⟨0, 7⟩⟩ : Rect2i).iterateNorthEast =
    [⟨-1, 5⟩, ⟨0, 5⟩, ⟨-1, 6⟩, ⟨0, 6⟩, ⟨-1, 7⟩, ⟨0, 7⟩] := by decide

/-! ## C58 -/

/-- The result of `pad` is the rectangle *moved* by `-padding` (finding: the maximum corner should
be increased).  It contains the original exactly when the rectangle is empty or the padding is
zero. -/
theorem C58_pad_iff (r : Rect2i) (p : V2i) (hp : 0 ≤ p.x ∧ 0 ≤ p.y)
    (hr : r.min.x ≤ r.max.x ∧ r.min.y ≤ r.max.y) :
    (∀ q, r.Contains q → (r.pad p).Contains q) ↔ p.x = 0 ∧ p.y = 0 := by
  constructor
  · intro h
    have := h r.max ⟨hr.1, le_refl _, hr.2, le_refl _⟩
    simp only [Rect2i.Contains, Rect2i.pad] at this
    omega
  · rintro ⟨hx, hy⟩ q hq
    simpa [Rect2i.Contains, Rect2i.pad, hx, hy] using hq

/-- Finding: `Rect2i32::pad` does not enlarge: it subtracts the padding from both corners, so the
padded rectangle need not contain the original. -/
theorem C58_pad_finding :
    ¬ ∀ (r : Rect2i) (p : V2i), 0 ≤ p.x ∧ 0 ≤ p.y → ∀ q, r.Contains q → (r.pad p).Contains q := by
  intro h
  have := h ⟨⟨0, 0⟩, ⟨0, 0⟩⟩ ⟨1, 1⟩ (by simp) ⟨0, 0⟩ (by simp [Rect2i.Contains])
  simp [Rect2i.Contains, Rect2i.pad] at this

/-- what is true of `pad`: it moves the rectangle, keeping its size, and the lower-left side is
padded -/
theorem C58_pad_moves (r : Rect2i) (p q : V2i) :
    (r.pad p).Contains q ↔ r.Contains ⟨q.x + p.x, q.y + p.y⟩ := by
  simp only [Rect2i.Contains, Rect2i.pad]; omega

/-! ## C59 -/

/-- `Ledger`: after any sequence of notifications the ledger is that sequence -/
theorem C59_ledger {E : Type} (es : List E) : (es.foldl Ledger.notify Ledger.new).events = es := by
  have : ∀ (l : Ledger E), (es.foldl Ledger.notify l).events = l.events ++ es := by
    induction es with
    | nil => intro l; simp
    | cons e es ih => intro l; simp [ih, Ledger.notify]
  simpa [Ledger.new] using this Ledger.new

/-- `HashsetLedger`: after any sequence of notifications it holds exactly the notified events,
each once -/
theorem C59_hashset_ledger {E : Type} [DecidableEq E] (es : List E) :
    (∀ e, e ∈ (es.foldl HashsetLedger.notify HashsetLedger.new).events ↔ e ∈ es) ∧
    (es.foldl HashsetLedger.notify HashsetLedger.new).events.Nodup := by
  have : ∀ (l : HashsetLedger E), l.events.Nodup →
      (∀ e, e ∈ (es.foldl HashsetLedger.notify l).events ↔ e ∈ l.events ∨ e ∈ es) ∧
      (es.foldl HashsetLedger.notify l).events.Nodup := by
    induction es with
    | nil => intro l hl; simp [hl]
    | cons a es ih =>
      intro l hl
      by_cases h : a ∈ l.events
      · have hn : l.notify a = l := by simp [HashsetLedger.notify, h]
        simp only [List.foldl_cons, hn]
        obtain ⟨h1, h2⟩ := ih l hl
        refine ⟨fun e => ?_, h2⟩
        rw [h1 e, List.mem_cons]
        constructor
        · tauto
        · rintro (h' | rfl | h') <;> tauto
      · have hn : l.notify a = ⟨l.events ++ [a]⟩ := by simp [HashsetLedger.notify, h]
        simp only [List.foldl_cons, hn]
        obtain ⟨h1, h2⟩ := ih ⟨l.events ++ [a]⟩ (by
          simp only [List.nodup_append, hl, List.nodup_singleton, true_and]
          intro x hx y hy; simp at hy; rintro rfl; exact h (hy ▸ hx))
        refine ⟨fun e => ?_, h2⟩
        rw [h1 e]; simp only [List.mem_append, List.mem_cons]; tauto
  simpa [HashsetLedger.new] using this HashsetLedger.new (by simp [HashsetLedger.new])

/-- what a user does with a `CallbackPublisher` -/
inductive PubOp (W E : Type) where
  | attach (f : E → W → W)
  | notify (e : E)

/-- running a history on publisher and world -/
def runPub {W E : Type} (s : CallbackPublisher W E × W) : PubOp W E → CallbackPublisher W E × W
  | .attach f => (s.1.attach f, s.2)
  | .notify e => (s.1, s.1.notify e s.2)

/-- the callbacks attached during a history, in order -/
def attachedIn {W E : Type} (ops : List (PubOp W E)) : List (E → W → W) :=
  ops.filterMap fun | .attach f => some f | .notify _ => none

/-- the calls a history must cause: for every notification, at its position in the history, one call
of each callback attached before it, in attachment order -/
def expectedCalls {W E : Type} (ops : List (PubOp W E)) : List ((E → W → W) × E) :=
  (List.range ops.length).flatMap fun k =>
    match (ops[k]? : Option (PubOp W E)) with
    | some (.notify e) => (attachedIn (ops.take k)).map fun f => (f, e)
    | _ => []

/-- After any history of attachments and notifications the world is the result of exactly the
expected calls. -/
theorem C59_callback_publisher {W E : Type} (ops : List (PubOp W E)) (w : W) :
    (ops.foldl runPub (CallbackPublisher.new, w)).2 =
      (expectedCalls ops).foldl (fun w c => c.1 c.2 w) w := by
  have hsub : ∀ ops : List (PubOp W E),
      (ops.foldl runPub (CallbackPublisher.new, w)).1.subscribers = attachedIn ops := by
    intro ops
    induction ops using List.reverseRecOn with
    | nil => rfl
    | append_singleton ops o ih =>
      rw [List.foldl_append, List.foldl_cons, List.foldl_nil]
      cases o with
      | attach f =>
        simp only [runPub, CallbackPublisher.attach, ih]
        simp [attachedIn]
      | notify e =>
        simp only [runPub, ih]
        simp [attachedIn]
  induction ops using List.reverseRecOn with
  | nil => rfl
  | append_singleton ops o ih =>
    have hexp : expectedCalls (ops ++ [o]) = expectedCalls ops ++
        (match o with
          | .notify e => (attachedIn ops).map fun f => (f, e)
          | .attach _ => []) := by
      unfold expectedCalls
      rw [List.length_append, List.length_singleton, List.range_succ, List.flatMap_append]
      congr 1
      · apply List.flatMap_congr
        intro k hk
        rw [List.mem_range] at hk
        rw [List.getElem?_append_left hk, List.take_append_of_le_length hk.le]
      · simp only [List.flatMap_singleton, List.getElem?_append_right (le_refl _), Nat.sub_self,
          List.getElem?_cons_zero, List.take_left']
        cases o <;> simp
    rw [hexp, List.foldl_append, List.foldl_append, ← ih, List.foldl_cons, List.foldl_nil]
    cases o with
    | attach f => rfl
    | notify e =>
      simp only [runPub, CallbackPublisher.notify, hsub, List.foldl_map]

/-- a test with logging callbacks: the second subscriber misses the first event -/
example :
    let logger (i : Nat) : Nat → List (Nat × Nat) → List (Nat × Nat) := fun e w => w ++ [(i, e)]
    (([.attach (logger 1), .notify 7, .attach (logger 2), .notify 8] :
      List (PubOp (List (Nat × Nat)) Nat)).foldl runPub (CallbackPublisher.new, [])).2 =
      [(1, 7), (1, 8), (2, 8)] := by decide

/-! ## C60 (exact arithmetic; NaN and infinities are in `Verif.Props.Ieee`) -/

section
variable {K : Type} [Field K] [LinearOrder K] [IsStrictOrderedRing K] [FloatExtra K] [ExactFloat K]

/-- `approx_eq_tolerance` on numbers: relative to the *first* argument, except at zero where the
tolerance is absolute and strict -/
theorem C60_approx_iff (a b tol : K) :
    approxEqTol a b tol = true ↔
      if a = 0 ∨ b = 0 then |a - b| < tol else |a - b| ≤ tol * |a| := by
  unfold approxEqTol
  simp only [ExactFloat.isNan_eq, ExactFloat.isInfinite_eq, ExactFloat.feq_eq, ExactFloat.abs_eq,
    Bool.or_eq_true, decide_eq_true_eq, Bool.false_eq_true, if_false]
  by_cases h : a = 0 ∨ b = 0
  · simp [h]
  · rw [if_neg h, if_neg h]
    push Not at h
    have ha : 0 < |a| := abs_pos.2 h.1
    have he : |(a - b) / a| > tol ↔ tol * |a| < |a - b| := by
      rw [abs_div, gt_iff_lt, lt_div_iff₀ ha]
    by_cases hc : tol * |a| < |a - b|
    · rw [if_pos (he.2 hc)]; simpa using hc
    · rw [if_neg (fun h => hc (he.1 h))]; simpa using hc

/-- reflexive for positive tolerances (in particular the default `1e-6`) -/
theorem C60_approx_refl (a : K) :
    approxEq a a = true ∧ ∀ tol : K, 0 < tol → approxEqTol a a tol = true := by
  have h : ∀ tol : K, 0 < tol → approxEqTol a a tol = true := by
    intro tol ht
    rw [C60_approx_iff]
    split_ifs <;> simp <;> positivity
  refine ⟨h _ ?_, h⟩
  rw [ExactFloat.approxTol_eq]; positivity

/-- Finding: not symmetric, because the error is relative to the first argument only. -/
theorem C60_approx_symmetric_finding :
    ¬ ∀ a b tol : K, 0 < tol → approxEqTol a b tol = approxEqTol b a tol := by
  intro h
  have h1 := h 2 1 (1 / 2) (by norm_num)
  have e1 : approxEqTol (2 : K) 1 (1 / 2) = true := by
    rw [C60_approx_iff]; norm_num
  have e2 : ¬ approxEqTol (1 : K) 2 (1 / 2) = true := by
    rw [C60_approx_iff]; norm_num [abs_of_neg]
  rw [h1] at e1; exact e2 e1

/-! ## C61 -/

/-- `approx_eq_tolerance` on `Vec2`: exactly `|a - b|² ≤ tol² · max(|a|², |b|²)` -/
theorem C61_approx_vec2_iff (a b : V2 K) (tol : K) :
    approxEqTolV2 a b tol = true ↔
      (a - b).lengthSq ≤ tol ^ 2 * max a.lengthSq b.lengthSq := by
  unfold approxEqTolV2
  simp only [ExactFloat.isNan_eq, ExactFloat.isInfinite_eq, ExactFloat.feq_eq, ExactFloat.fmax_eq,
    decide_eq_true_eq, Bool.false_eq_true, Bool.or_self, if_false]
  set M := max a.lengthSq b.lengthSq with hM
  have hM0 : 0 ≤ M := le_max_of_le_left a.lengthSq_nonneg
  by_cases h0 : M = 0
  · have ha : a = 0 := V2.lengthSq_eq_zero.1
      (le_antisymm (h0 ▸ le_max_left _ _) a.lengthSq_nonneg)
    have hb : b = 0 := V2.lengthSq_eq_zero.1
      (le_antisymm (h0 ▸ le_max_right _ _) b.lengthSq_nonneg)
    rw [if_pos h0, ha, hb, h0]; simp [V2.lengthSq_def]
  · have hpos : 0 < M := lt_of_le_of_ne hM0 (Ne.symm h0)
    rw [if_neg h0]
    have hc : ∀ c : K, c * (c / M) > tol * tol ↔ tol ^ 2 * M < c * c := by
      intro c; rw [gt_iff_lt, ← mul_div_assoc, lt_div_iff₀ hpos, sq]
    have he : (a - b).lengthSq / M > tol * tol ↔ tol ^ 2 * M < (a - b).lengthSq := by
      rw [gt_iff_lt, lt_div_iff₀ hpos, sq]
    simp only [hc, he]
    have hL := V2.lengthSq_def (a - b)
    have hx := mul_self_nonneg (a - b).x
    have hy := mul_self_nonneg (a - b).y
    split_ifs with h1 h2 h3
    · simpa using h1
    · rw [hL] at h1; exact absurd h2 (by linarith)
    · rw [hL] at h1; exact absurd h3 (by linarith)
    · simpa using h1

/-- hence symmetric and reflexive (for every tolerance) -/
theorem C61_approx_vec2_equiv (a b : V2 K) (tol : K) :
    approxEqTolV2 a b tol = approxEqTolV2 b a tol ∧ approxEqTolV2 a a tol = true := by
  constructor
  · rw [Bool.eq_iff_iff, C61_approx_vec2_iff, C61_approx_vec2_iff, V2.lengthSq_sub_comm, max_comm]
  · rw [C61_approx_vec2_iff]
    have : (a - a).lengthSq = 0 := by simp [V2.lengthSq_def]
    rw [this]
    exact mul_nonneg (sq_nonneg _) (le_max_of_le_left a.lengthSq_nonneg)

/-- `approx_eq_tolerance` on `Vec3` -/
theorem C61_approx_vec3_iff (a b : V3 K) (tol : K) :
    approxEqTolV3 a b tol = true ↔
      (a - b).lengthSq ≤ tol ^ 2 * max a.lengthSq b.lengthSq := by
  unfold approxEqTolV3
  simp only [ExactFloat.isNan_eq, ExactFloat.isInfinite_eq, ExactFloat.feq_eq, ExactFloat.fmax_eq,
    decide_eq_true_eq, Bool.false_eq_true, Bool.or_self, if_false]
  set M := max a.lengthSq b.lengthSq with hM
  have hM0 : 0 ≤ M := le_max_of_le_left a.lengthSq_nonneg
  by_cases h0 : M = 0
  · have ha : a = 0 := V3.lengthSq_eq_zero.1
      (le_antisymm (h0 ▸ le_max_left _ _) a.lengthSq_nonneg)
    have hb : b = 0 := V3.lengthSq_eq_zero.1
      (le_antisymm (h0 ▸ le_max_right _ _) b.lengthSq_nonneg)
    rw [if_pos h0, ha, hb, h0]; simp [V3.lengthSq_def]
  · have hpos : 0 < M := lt_of_le_of_ne hM0 (Ne.symm h0)
    rw [if_neg h0]
    have hc : ∀ c : K, c * (c / M) > tol * tol ↔ tol ^ 2 * M < c * c := by
      intro c; rw [gt_iff_lt, ← mul_div_assoc, lt_div_iff₀ hpos, sq]
    have he : (a - b).lengthSq / M > tol * tol ↔ tol ^ 2 * M < (a - b).lengthSq := by
      rw [gt_iff_lt, lt_div_iff₀ hpos, sq]
    simp only [hc, he]
    have hL := V3.lengthSq_def (a - b)
    have hx := mul_self_nonneg (a - b).x
    have hy := mul_self_nonneg (a - b).y
    have hz := mul_self_nonneg (a - b).z
    split_ifs with h1 h2 h3 h4
    · simpa using h1
    · rw [hL] at h1; exact absurd h2 (by linarith)
    · rw [hL] at h1; exact absurd h3 (by linarith)
    · rw [hL] at h1; exact absurd h4 (by linarith)
    · simpa using h1

theorem C61_approx_vec3_equiv (a b : V3 K) (tol : K) :
    approxEqTolV3 a b tol = approxEqTolV3 b a tol ∧ approxEqTolV3 a a tol = true := by
  constructor
  · rw [Bool.eq_iff_iff, C61_approx_vec3_iff, C61_approx_vec3_iff, max_comm]
    have : (a - b).lengthSq = (b - a).lengthSq := by
      simp only [V3.lengthSq_def, V3.sub_x, V3.sub_y, V3.sub_z]; ring
    rw [this]
  · rw [C61_approx_vec3_iff]
    have : (a - a).lengthSq = 0 := by simp [V3.lengthSq_def]
    rw [this]
    exact mul_nonneg (sq_nonneg _) (le_max_of_le_left a.lengthSq_nonneg)

/-! ## C62 -/

/-- endpoints, betweenness, monotonicity in `t`, affinity, component-wise on `Vec2` -/
theorem C62_lerp (a b t s u : K) (v w : V2 K) :
    lerp a b 0 = a ∧ lerp a b 1 = b ∧
    (0 ≤ t → t ≤ 1 → min a b ≤ lerp a b t ∧ lerp a b t ≤ max a b) ∧
    (a ≤ b → s ≤ t → lerp a b s ≤ lerp a b t) ∧
    lerp a b ((1 - u) * s + u * t) = (1 - u) * lerp a b s + u * lerp a b t ∧
    lerpV2 v w t = ⟨lerp v.x w.x t, lerp v.y w.y t⟩ ∧
    lerpV2 v w 0 = v ∧ lerpV2 v w 1 = w := by
  refine ⟨by simp [lerp], by simp [lerp], ?_, ?_, by simp only [lerp]; ring, rfl, ?_, ?_⟩
  · intro h0 h1
    simp only [lerp]
    rcases le_total a b with h | h
    · rw [min_eq_left h, max_eq_right h]; constructor <;> nlinarith
    · rw [min_eq_right h, max_eq_left h]; constructor <;> nlinarith
  · intro hab hst; simp only [lerp]; nlinarith
  · ext <;> simp [lerpV2]
  · ext <;> simp [lerpV2]

end

section
attribute [local instance] ratFloat
/-- a test -/
example : approxEqTol (100 : ℚ) 101 (1 / 10) = true ∧ approxEqTol (100 : ℚ) 111 (1 / 10) = false ∧
    approxEqTolV2 (⟨3, 4⟩ : V2 ℚ) ⟨3, 5⟩ (1 / 5) = true := by decide +kernel
end

end Auburn
