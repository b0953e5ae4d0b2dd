import Verif.Model.Int32
import Verif.Props.Utils

/-!
# C80: rectangles on machine integers

The iterators, advanced one `next` call at a time with `i32` arithmetic, never overflow (not even for
rectangles reaching `i32::MIN` and `i32::MAX`) and produce the list of C57, then `None` for ever.  `pad`
panics (debug) or wraps (release) exactly if a corner leaves the `i32` range.
-/

namespace Auburn

/-! ## specification -/

/-- `n` successive calls of `next` give the results `outs` -/
inductive RectIter.Calls : RectIter → List (Except Overflow (Option V2i)) → RectIter → Prop
  | nil {it} : Calls it [] it
  | cons {it r it' rs it''} : RectIter.Next it r it' → Calls it' rs it'' → Calls it (r :: rs) it''

/-- calling `next` any number of times gives the elements of `l` in order, then `None` for ever; no
call panics, and no other results are possible -/
def RectIter.Produces (it : RectIter) (l : List V2i) : Prop :=
  ∀ n : Nat, (∃ it', RectIter.Calls it ((List.range n).map fun i => .ok l[i]?) it') ∧
    ∀ rs it', RectIter.Calls it rs it' → rs.length = n → rs = (List.range n).map fun i => .ok l[i]?

/-- a rectangle whose corners are `i32` positions -/
def Rect2i.InRange (r : Rect2i) : Prop :=
  IsI32 r.min.x ∧ IsI32 r.min.y ∧ IsI32 r.max.x ∧ IsI32 r.max.y

/-! ## library -/

theorem rangeIncl_nil {a b : Int} (h : b < a) : rangeIncl a b = [] := by
  unfold rangeIncl
  rw [show (b + 1 - a).toNat = 0 by omega]; rfl

theorem rangeIncl_cons {a b : Int} (h : a ≤ b) : rangeIncl a b = a :: rangeIncl (a + 1) b := by
  unfold rangeIncl
  rw [show (b + 1 - a).toNat = (b + 1 - (a + 1)).toNat + 1 by omega, List.range_succ_eq_map,
    List.map_cons, List.map_map]
  simp only [Int.natCast_zero, add_zero, List.cons.injEq, true_and]
  refine List.map_congr_left fun i _ => ?_
  simp only [Function.comp_apply]
  push_cast; ring

theorem rangeIncl_snoc {a b : Int} (h : a ≤ b) : rangeIncl a b = rangeIncl a (b - 1) ++ [b] := by
  unfold rangeIncl
  rw [show (b + 1 - a).toNat = (b - 1 + 1 - a).toNat + 1 by omega, List.range_succ, List.map_append]
  simp only [List.map_cons, List.map_nil, List.append_cancel_left_eq, List.cons.injEq, and_true]
  omega

/-- the elements still to come, from the front -/
def RangeI.toList (r : RangeI) : List Int := if r.exhausted then [] else rangeIncl r.start r.stop

/-- the bounds are machine integers -/
def RangeI.Ok (r : RangeI) : Prop := IsI32 r.start ∧ IsI32 r.stop

theorem RangeI.next_spec {r : RangeI} (hr : r.Ok) :
    ∃ r', r.next = .ok (r.toList.head?, r') ∧ r'.toList = r.toList.tail ∧ r'.Ok := by
  obtain ⟨a, b, e⟩ := r
  obtain ⟨⟨h1, h2⟩, h3, h4⟩ := hr
  simp only at h1 h2 h3 h4
  cases e
  · rcases lt_trichotomy a b with h | h | h
    · refine ⟨⟨a + 1, b, false⟩, ?_, ?_, ⟨⟨?_, ?_⟩, h3, h4⟩⟩
      · simp [RangeI.next, RangeI.isEmpty, RangeI.toList, h, h.le, rangeIncl_cons h.le, checked32,
          show IsI32 (a + 1) from ⟨by omega, by omega⟩]
      · simp [RangeI.toList, rangeIncl_cons h.le]
      · show _ ≤ a + 1; omega
      · show a + 1 < _; omega
    · subst h
      refine ⟨⟨a, a, true⟩, ?_, ?_, ⟨⟨h1, h2⟩, h1, h2⟩⟩
      · simp [RangeI.next, RangeI.isEmpty, RangeI.toList, rangeIncl_cons (le_refl a)]
      · simp [RangeI.toList, rangeIncl_cons (le_refl a), rangeIncl_nil (show a < a + 1 by omega)]
    · refine ⟨⟨a, b, false⟩, ?_, ?_, ⟨⟨h1, h2⟩, h3, h4⟩⟩
      · simp [RangeI.next, RangeI.isEmpty, RangeI.toList, rangeIncl_nil h, h]
      · simp [RangeI.toList, rangeIncl_nil h]
  · exact ⟨⟨a, b, true⟩, by simp [RangeI.next, RangeI.isEmpty, RangeI.toList],
      by simp [RangeI.toList], ⟨⟨h1, h2⟩, h3, h4⟩⟩

theorem RangeI.nextBack_spec {r : RangeI} (hr : r.Ok) :
    ∃ r', r.nextBack = .ok (r.toList.reverse.head?, r') ∧
      r'.toList.reverse = r.toList.reverse.tail ∧ r'.Ok := by
  obtain ⟨a, b, e⟩ := r
  obtain ⟨⟨h1, h2⟩, h3, h4⟩ := hr
  simp only at h1 h2 h3 h4
  cases e
  · rcases lt_trichotomy a b with h | h | h
    · refine ⟨⟨a, b - 1, false⟩, ?_, ?_, ⟨⟨h1, h2⟩, ?_, ?_⟩⟩
      · simp [RangeI.nextBack, RangeI.isEmpty, RangeI.toList, h, h.le, rangeIncl_snoc h.le, checked32,
          show IsI32 (b - 1) from ⟨by omega, by omega⟩]
      · simp [RangeI.toList, rangeIncl_snoc h.le]
      · show _ ≤ b - 1; omega
      · show b - 1 < _; omega
    · subst h
      refine ⟨⟨a, a, true⟩, ?_, ?_, ⟨⟨h1, h2⟩, h1, h2⟩⟩
      · simp [RangeI.nextBack, RangeI.isEmpty, RangeI.toList, rangeIncl_snoc (le_refl a)]
      · simp [RangeI.toList, rangeIncl_snoc (le_refl a), rangeIncl_nil (show a - 1 < a by omega)]
    · refine ⟨⟨a, b, false⟩, ?_, ?_, ⟨⟨h1, h2⟩, h3, h4⟩⟩
      · simp [RangeI.nextBack, RangeI.isEmpty, RangeI.toList, rangeIncl_nil h, h]
      · simp [RangeI.toList, rangeIncl_nil h]
  · exact ⟨⟨a, b, true⟩, by simp [RangeI.nextBack, RangeI.isEmpty, RangeI.toList],
      by simp [RangeI.toList], ⟨⟨h1, h2⟩, h3, h4⟩⟩

/-- the elements still to come -/
def AxisIter.toList (a : AxisIter) : List Int :=
  if a.rev then a.range.toList.reverse else a.range.toList

theorem AxisIter.next_spec {a : AxisIter} (ha : a.range.Ok) :
    ∃ a', a.next = .ok (a.toList.head?, a') ∧ a'.toList = a.toList.tail ∧ a'.range.Ok := by
  obtain ⟨r, v⟩ := a
  cases v
  · obtain ⟨r', h1, h2, h3⟩ := RangeI.next_spec (r := r) ha
    refine ⟨⟨r', false⟩, ?_, ?_, h3⟩
    · simp [AxisIter.next, AxisIter.toList, h1]
    · simpa [AxisIter.toList] using h2
  · obtain ⟨r', h1, h2, h3⟩ := RangeI.nextBack_spec (r := r) ha
    refine ⟨⟨r', true⟩, ?_, ?_, h3⟩
    · simp [AxisIter.next, AxisIter.toList, h1]
    · simpa [AxisIter.toList] using h2

namespace RectIter

/-- all bounds are machine integers -/
def Ok (it : RectIter) : Prop :=
  it.xRange.range.Ok ∧ it.outer.range.Ok ∧ ∀ y a, it.front = some (y, a) → a.range.Ok

/-- the elements still to come -/
def toList (it : RectIter) : List V2i :=
  (match it.front with
    | none => []
    | some (y, a) => a.toList.map fun x => ⟨x, y⟩) ++
  Rect2i.product it.xRange.toList it.outer.toList

theorem product_cons (xs : List Int) (y : Int) (ys : List Int) :
    Rect2i.product xs (y :: ys) = (xs.map fun x => ⟨x, y⟩) ++ Rect2i.product xs ys := by
  simp [Rect2i.product]

theorem next_exists : ∀ (n : Nat) (it : RectIter), it.Ok → it.outer.toList.length = n →
    ∃ it', Next it (.ok it.toList.head?) it' ∧ it'.toList = it.toList.tail ∧ it'.Ok := by
  intro n
  induction n with
  | zero =>
    intro it hok hn
    have hnil : it.outer.toList = [] := List.length_eq_zero_iff.1 hn
    obtain ⟨o', o1, o2, o3⟩ := AxisIter.next_spec hok.2.1
    rw [hnil] at o1 o2
    have hdone : ∀ jt : RectIter, jt.outer = it.outer → jt.xRange = it.xRange → jt.front = none →
        ∃ it', Next jt (.ok none) it' ∧ it'.toList = [] ∧ it'.Ok := by
      intro jt e1 e2 e3
      refine ⟨{ jt with outer := o' }, Next.done e3 (by rw [e1]; exact o1), ?_, ?_⟩
      · simp only [toList, e3, o2, List.nil_append]; rfl
      · exact ⟨by show jt.xRange.range.Ok; rw [e2]; exact hok.1, o3, by
          intro y a h; rw [e3] at h; exact absurd h (by simp)⟩
    have hp : Rect2i.product it.xRange.toList it.outer.toList = [] := by rw [hnil]; rfl
    cases hf : it.front with
    | none =>
      obtain ⟨it', h1, h2, h3⟩ := hdone it rfl rfl hf
      have : it.toList = [] := by simp only [toList, hf, hp]; rfl
      rw [this]
      exact ⟨it', h1, h2, h3⟩
    | some ya =>
      obtain ⟨y, a⟩ := ya
      obtain ⟨a', a1, a2, a3⟩ := AxisIter.next_spec (hok.2.2 y a hf)
      have hl : it.toList = a.toList.map fun x => ⟨x, y⟩ := by
        simp only [toList, hf, hp, List.append_nil]
      cases hal : a.toList with
      | nil =>
        rw [hal] at a1
        obtain ⟨it', h1, h2, h3⟩ := hdone { it with front := none } rfl rfl rfl
        rw [hl, hal]
        exact ⟨it', Next.drop hf a1 h1, h2, h3⟩
      | cons x xs =>
        rw [hal] at a1 a2
        rw [hl, hal]
        refine ⟨_, Next.emit hf a1, ?_, ?_⟩
        · simp only [toList, hp, a2, List.append_nil, List.map_cons, List.tail_cons]
        · exact ⟨hok.1, hok.2.1, by
            intro y' b h
            simp only [Option.some.injEq, Prod.mk.injEq] at h
            rw [← h.2]; exact a3⟩
  | succ n ih =>
    intro it hok hn
    obtain ⟨o', o1, o2, o3⟩ := AxisIter.next_spec hok.2.1
    cases hol : it.outer.toList with
    | nil => rw [hol] at hn; simp at hn
    | cons y ys =>
      rw [hol] at o1 o2 hn
      have hpull : ∀ jt : RectIter, jt.outer = it.outer → jt.xRange = it.xRange → jt.front = none →
          ∃ it', Next jt (.ok (Rect2i.product it.xRange.toList it.outer.toList).head?) it' ∧
            it'.toList = (Rect2i.product it.xRange.toList it.outer.toList).tail ∧ it'.Ok := by
        intro jt e1 e2 e3
        have hlist : ({ jt with outer := o', front := some (y, jt.xRange) } : RectIter).toList =
            Rect2i.product it.xRange.toList it.outer.toList := by
          simp only [toList, o2, e2, List.tail_cons]
          rw [hol, product_cons]
        obtain ⟨it', h1, h2, h3⟩ := ih { jt with outer := o', front := some (y, jt.xRange) }
          ⟨by show jt.xRange.range.Ok; rw [e2]; exact hok.1, o3, by
            intro y' b h
            simp only [Option.some.injEq, Prod.mk.injEq] at h
            rw [← h.2, e2]; exact hok.1⟩
          (by simp only [o2, List.tail_cons]; simpa using hn)
        rw [hlist] at h1 h2
        exact ⟨it', Next.pull e3 (by rw [e1]; exact o1) h1, h2, h3⟩
      cases hf : it.front with
      | none =>
        have hl : it.toList = Rect2i.product it.xRange.toList it.outer.toList := by
          simp only [toList, hf, List.nil_append]
        rw [hl]
        exact hpull it rfl rfl hf
      | some ya =>
        obtain ⟨y0, a⟩ := ya
        obtain ⟨a', a1, a2, a3⟩ := AxisIter.next_spec (hok.2.2 y0 a hf)
        have hl : it.toList = (a.toList.map fun x => ⟨x, y0⟩) ++
            Rect2i.product it.xRange.toList it.outer.toList := by
          simp only [toList, hf]
        cases hal : a.toList with
        | nil =>
          rw [hal] at a1
          obtain ⟨it', h1, h2, h3⟩ := hpull { it with front := none } rfl rfl rfl
          rw [hl, hal]
          exact ⟨it', Next.drop hf a1 h1, h2, h3⟩
        | cons x xs =>
          rw [hal] at a1 a2
          rw [hl, hal]
          refine ⟨_, Next.emit hf a1, ?_, ?_⟩
          · simp only [toList, a2, List.map_cons, List.tail_cons, List.cons_append]
          · exact ⟨hok.1, hok.2.1, by
              intro y' b h
              simp only [Option.some.injEq, Prod.mk.injEq] at h
              rw [← h.2]; exact a3⟩

/-- `next` is a function -/
theorem Next.det {it it1 : RectIter} {r1 : Except Overflow (Option V2i)} (h1 : Next it r1 it1) :
    ∀ {r2 it2}, Next it r2 it2 → r1 = r2 ∧ it1 = it2 := by
  induction h1 with
  | emit a b =>
    intro r2 it2 h2
    cases h2 with
    | emit c d => rw [a] at c; cases c; rw [b] at d; cases d; exact ⟨rfl, rfl⟩
    | drop c d => rw [a] at c; cases c; rw [b] at d; cases d
    | panicInner c d => rw [a] at c; cases c; rw [b] at d; cases d
    | pull c _ _ => rw [a] at c; cases c
    | done c _ => rw [a] at c; cases c
    | panicOuter c _ => rw [a] at c; cases c
  | drop a b _ ih =>
    intro r2 it2 h2
    cases h2 with
    | emit c d => rw [a] at c; cases c; rw [b] at d; cases d
    | drop c d e => exact ih e
    | panicInner c d => rw [a] at c; cases c; rw [b] at d; cases d
    | pull c _ _ => rw [a] at c; cases c
    | done c _ => rw [a] at c; cases c
    | panicOuter c _ => rw [a] at c; cases c
  | pull a b _ ih =>
    intro r2 it2 h2
    cases h2 with
    | emit c d => rw [a] at c; cases c
    | drop c d e => rw [a] at c; cases c
    | panicInner c d => rw [a] at c; cases c
    | pull c d e => rw [b] at d; cases d; exact ih e
    | done c d => rw [b] at d; cases d
    | panicOuter c d => rw [b] at d; cases d
  | done a b =>
    intro r2 it2 h2
    cases h2 with
    | emit c d => rw [a] at c; cases c
    | drop c d e => rw [a] at c; cases c
    | panicInner c d => rw [a] at c; cases c
    | pull c d e => rw [b] at d; cases d
    | done c d => rw [b] at d; cases d; exact ⟨rfl, rfl⟩
    | panicOuter c d => rw [b] at d; cases d
  | panicInner a b =>
    intro r2 it2 h2
    cases h2 with
    | emit c d => rw [a] at c; cases c; rw [b] at d; cases d
    | drop c d => rw [a] at c; cases c; rw [b] at d; cases d
    | panicInner c d => rw [a] at c; cases c; rw [b] at d; cases d; exact ⟨rfl, rfl⟩
    | pull c _ _ => rw [a] at c; cases c
    | done c _ => rw [a] at c; cases c
    | panicOuter c _ => rw [a] at c; cases c
  | panicOuter a b =>
    intro r2 it2 h2
    cases h2 with
    | emit c d => rw [a] at c; cases c
    | drop c d e => rw [a] at c; cases c
    | panicInner c d => rw [a] at c; cases c
    | pull c d e => rw [b] at d; cases d
    | done c d => rw [b] at d; cases d
    | panicOuter c d => rw [b] at d; cases d; exact ⟨rfl, rfl⟩

theorem range_map_succ (l : List V2i) (n : Nat) :
    ((List.range (n + 1)).map fun i => (.ok l[i]? : Except Overflow (Option V2i))) =
      .ok l.head? :: (List.range n).map fun i => .ok l.tail[i]? := by
  rw [List.range_succ_eq_map, List.map_cons, List.map_map]
  congr 1
  · rw [List.head?_eq_getElem?]
  · refine List.map_congr_left fun i _ => ?_
    simp

theorem produces (it : RectIter) (hok : it.Ok) : it.Produces it.toList := by
  intro n
  constructor
  · induction n generalizing it with
    | zero => exact ⟨it, by simpa using Calls.nil⟩
    | succ n ih =>
      obtain ⟨it1, h1, h2, h3⟩ := next_exists _ it hok rfl
      obtain ⟨it2, h4⟩ := ih it1 h3
      rw [h2] at h4
      rw [range_map_succ]
      exact ⟨it2, Calls.cons h1 h4⟩
  · intro rs it' hc hl
    induction n generalizing it rs with
    | zero => rw [List.length_eq_zero_iff.1 hl]; rfl
    | succ n ih =>
      cases hc with
      | nil => simp at hl
      | cons hn hc =>
        obtain ⟨it1, h1, h2, h3⟩ := next_exists _ it hok rfl
        obtain ⟨rfl, rfl⟩ := hn.det h1
        rw [range_map_succ, ih _ h3 _ hc (by simpa using hl), h2]

end RectIter

/-! ## C80 -/

/-- The iterator returned by each of the four iteration functions, advanced call by call in `i32`
arithmetic, never overflows and visits exactly the positions of the rectangle, each once, in the
documented order; afterwards it answers `None` for ever.  This includes rectangles that reach
`i32::MIN` or `i32::MAX`. -/
theorem C80_iterators (r : Rect2i) (hr : r.InRange) :
    (∃ l, Visits true true r l ∧ r.iterNorthEast32.Produces l) ∧
    (∃ l, Visits false true r l ∧ r.iterSouthEast32.Produces l) ∧
    (∃ l, Visits false false r l ∧ r.iterSouthWest32.Produces l) ∧
    (∃ l, Visits true false r l ∧ r.iterNorthWest32.Produces l) := by
  have hok : ∀ fx fy : Bool, (RectIter.flatMap ⟨RangeI.new r.min.y r.max.y, fy⟩
      ⟨RangeI.new r.min.x r.max.x, fx⟩).Ok := fun fx fy =>
    ⟨⟨hr.1, hr.2.2.1⟩, ⟨hr.2.1, hr.2.2.2⟩, by intro y a h; cases h⟩
  exact ⟨⟨_, C57_iterate_north_east r, RectIter.produces _ (hok _ _)⟩,
    ⟨_, C57_iterate_south_east r, RectIter.produces _ (hok _ _)⟩,
    ⟨_, C57_iterate_south_west r, RectIter.produces _ (hok _ _)⟩,
    ⟨_, C57_iterate_north_west r, RectIter.produces _ (hok _ _)⟩⟩

/-- the same for `iterate`, `iterate_boxed` and `iterate_with_direction_f32` -/
theorem C80_dispatch {F : Type} [Zero F] [LT F] [DecidableLT F] (r : Rect2i) (hr : r.InRange)
    (flipX flipY : Bool) (dx dy : F) :
    (∃ l, Visits true true r l ∧ r.iter32.Produces l) ∧
    (∃ l, Visits (!flipY) (!flipX) r l ∧ (r.iterBoxed32 flipX flipY).Produces l) ∧
    (∃ l, Visits (!decide (dy < 0)) (!decide (dx < 0)) r l ∧
      (r.iterWithDirection32 dx dy).Produces l) := by
  obtain ⟨h1, h2, h3, h4⟩ := C80_iterators r hr
  have hb : ∀ fx fy, ∃ l, Visits (!fy) (!fx) r l ∧ (r.iterBoxed32 fx fy).Produces l := by
    intro fx fy
    cases fx <;> cases fy
    · exact h1
    · exact h2
    · exact h4
    · exact h3
  exact ⟨h1, hb _ _, hb _ _⟩

/-- a rectangle in the last corner of the `i32` range: two positions, then `None`, without overflow -/
example : (⟨⟨2147483646, 2147483647⟩, ⟨2147483647, 2147483647⟩⟩ : Rect2i).InRange ∧
    ∃ it', RectIter.Calls (⟨⟨2147483646, 2147483647⟩, ⟨2147483647, 2147483647⟩⟩ : Rect2i).iterNorthEast32
      [.ok (some ⟨2147483646, 2147483647⟩), .ok (some ⟨2147483647, 2147483647⟩), .ok none, .ok none]
      it' := by
  have hr : (⟨⟨2147483646, 2147483647⟩, ⟨2147483647, 2147483647⟩⟩ : Rect2i).InRange := by
    refine ⟨?_, ?_, ?_, ?_⟩ <;> exact ⟨by norm_num, by norm_num⟩
  refine ⟨hr, ?_⟩
  obtain ⟨it', h⟩ := ((RectIter.produces (RectIter.flatMap ⟨RangeI.new 2147483647 2147483647, false⟩
    ⟨RangeI.new 2147483646 2147483647, false⟩)
    ⟨⟨hr.1, hr.2.2.1⟩, ⟨hr.2.1, hr.2.2.2⟩, by intro y a h; cases h⟩) 4).1
  exact ⟨it', h⟩

/-- `pad` in a debug build panics exactly if a coordinate of a padded corner is not an `i32`, and
otherwise moves both corners (C58) -/
theorem C80_pad_debug (r : Rect2i) (p : V2i) :
    (r.padDebug p = .ok (r.pad p) ∧ (r.pad p).InRange) ∨
      (r.padDebug p = .error .overflow ∧ ¬ (r.pad p).InRange) := by
  simp only [Rect2i.padDebug, Rect2i.InRange, Rect2i.pad, checked32]
  by_cases h1 : IsI32 (r.min.x - p.x)
  · by_cases h2 : IsI32 (r.min.y - p.y)
    · by_cases h3 : IsI32 (r.max.x - p.x)
      · by_cases h4 : IsI32 (r.max.y - p.y)
        · left; simp [h1, h2, h3, h4]; rfl
        · right; simp [h1, h2, h3, h4]; rfl
      · right; simp [h1, h2, h3]; rfl
    · right; simp [h1, h2]; rfl
  · right; simp [h1]; rfl

/-- `pad` in a release build gives an `i32` rectangle in every case, whose coordinates are the exact
ones modulo `2^32`, and the exact ones if a debug build would not panic -/
theorem C80_pad_release (r : Rect2i) (p : V2i) :
    (r.padRelease p).InRange ∧
    (∃ a b c d : Int, (r.padRelease p).min.x = r.min.x - p.x + 2 ^ 32 * a ∧
      (r.padRelease p).min.y = r.min.y - p.y + 2 ^ 32 * b ∧
      (r.padRelease p).max.x = r.max.x - p.x + 2 ^ 32 * c ∧
      (r.padRelease p).max.y = r.max.y - p.y + 2 ^ 32 * d) ∧
    ((r.pad p).InRange → r.padRelease p = r.pad p) := by
  have h1 : ∀ n, IsI32 (wrap32 n) := by intro n; unfold IsI32 wrap32; omega
  have h2 : ∀ n, ∃ a : Int, wrap32 n = n + 2 ^ 32 * a := by
    intro n; exact ⟨-((n + 2 ^ 31) / 2 ^ 32), by unfold wrap32; omega⟩
  have h3 : ∀ n, IsI32 n → wrap32 n = n := by intro n; unfold IsI32 wrap32; omega
  obtain ⟨a, ha⟩ := h2 (r.min.x - p.x)
  obtain ⟨b, hb⟩ := h2 (r.min.y - p.y)
  obtain ⟨c, hc⟩ := h2 (r.max.x - p.x)
  obtain ⟨d, hd⟩ := h2 (r.max.y - p.y)
  refine ⟨⟨h1 _, h1 _, h1 _, h1 _⟩, ⟨a, b, c, d, ha, hb, hc, hd⟩, ?_⟩
  rintro ⟨g1, g2, g3, g4⟩
  simp only [Rect2i.pad] at g1 g2 g3 g4
  simp only [Rect2i.padRelease, Rect2i.pad, h3 _ g1, h3 _ g2, h3 _ g3, h3 _ g4]

/-- Finding: near `i32::MIN` padding a rectangle by one panics in a debug build, and in a release build
turns the rectangle inside out, so that it contains nothing. -/
theorem C80_pad_overflow_finding : ∃ (r : Rect2i) (p : V2i), r.InRange ∧ p = ⟨1, 1⟩ ∧
    r.Contains ⟨0, 0⟩ ∧ r.padDebug p = .error .overflow ∧ ∀ q, ¬ (r.padRelease p).Contains q := by
  refine ⟨⟨⟨-2147483648, 0⟩, ⟨0, 0⟩⟩, ⟨1, 1⟩, ?_, rfl, ?_, by decide +kernel, ?_⟩
  · refine ⟨?_, ?_, ?_, ?_⟩ <;> exact ⟨by norm_num, by norm_num⟩
  · simp [Rect2i.Contains]
  · intro q h
    have e : (⟨⟨-2147483648, 0⟩, ⟨0, 0⟩⟩ : Rect2i).padRelease ⟨1, 1⟩ =
        ⟨⟨2147483647, -1⟩, ⟨-1, -1⟩⟩ := by decide +kernel
    rw [e] at h
    simp only [Rect2i.Contains] at h
    omega

/-- padding by (1, 2) away from the limits: neither panics nor wraps -/
example : (⟨⟨0, 0⟩, ⟨3, 3⟩⟩ : Rect2i).padDebug ⟨1, 2⟩ = .ok ⟨⟨-1, -2⟩, ⟨2, 1⟩⟩ ∧
    (⟨⟨0, 0⟩, ⟨3, 3⟩⟩ : Rect2i).padRelease ⟨1, 2⟩ = ⟨⟨-1, -2⟩, ⟨2, 1⟩⟩ := by decide +kernel

end Auburn
