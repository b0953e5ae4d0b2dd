import Verif.Model.Utils

/-!
# `src/utils/rect2.rs` on machine integers

`Model/Utils` reads `Rect2i32` with unbounded integers and its iterators as lists.  Here the same
functions are modelled with `i32` arithmetic (overflow panics in debug builds and wraps in release
builds) and with std's iterators as the state machines they are, one `next` call at a time.
-/

namespace Auburn

/-- an `i32` -/
def IsI32 (n : Int) : Prop := -2 ^ 31 ≤ n ∧ n < 2 ^ 31

instance (n : Int) : Decidable (IsI32 n) := inferInstanceAs (Decidable (_ ∧ _))

/-- the panic "attempt to subtract / add with overflow" of a debug build -/
inductive Overflow where
  | overflow
  deriving DecidableEq, Repr

/-- the exact result `n` of an `i32` operation in a debug build -/
def checked32 (n : Int) : Except Overflow Int := if IsI32 n then .ok n else .error .overflow

/-- the exact result `n` of an `i32` operation in a release build: reduced to `[-2^31, 2^31)` -/
def wrap32 (n : Int) : Int := (n + 2 ^ 31) % 2 ^ 32 - 2 ^ 31

namespace Rect2i

/-- `Rect2i32::pad` in a debug build, rect2.rs:14-19 -/
def padDebug (r : Rect2i) (p : V2i) : Except Overflow Rect2i := do
  let a ← checked32 (r.min.x - p.x)
  let b ← checked32 (r.min.y - p.y)
  let c ← checked32 (r.max.x - p.x)
  let d ← checked32 (r.max.y - p.y)
  return ⟨⟨a, b⟩, ⟨c, d⟩⟩

/-- `Rect2i32::pad` in a release build, rect2.rs:14-19 -/
def padRelease (r : Rect2i) (p : V2i) : Rect2i :=
  ⟨⟨wrap32 (r.min.x - p.x), wrap32 (r.min.y - p.y)⟩,
    ⟨wrap32 (r.max.x - p.x), wrap32 (r.max.y - p.y)⟩⟩

end Rect2i

/-- std `RangeInclusive<i32>` -/
structure RangeI where
  start : Int
  stop : Int
  exhausted : Bool
  deriving DecidableEq, Repr

namespace RangeI

/-- `a..=b` -/
def new (a b : Int) : RangeI := ⟨a, b, false⟩

/-- `RangeInclusive::is_empty`: `self.exhausted || !(self.start <= self.end)` -/
def isEmpty (r : RangeI) : Bool := r.exhausted || !decide (r.start ≤ r.stop)

/-- `Iterator::next` of std's `RangeInclusive`: the successor of `start` is only computed if
`start < end` -/
def next (r : RangeI) : Except Overflow (Option Int × RangeI) :=
  if r.isEmpty then .ok (none, r)
  else if r.start < r.stop then do
    let n ← checked32 (r.start + 1)
    return (some r.start, { r with start := n })
  else .ok (some r.start, { r with exhausted := true })

/-- `DoubleEndedIterator::next_back` of std's `RangeInclusive` -/
def nextBack (r : RangeI) : Except Overflow (Option Int × RangeI) :=
  if r.isEmpty then .ok (none, r)
  else if r.start < r.stop then do
    let n ← checked32 (r.stop - 1)
    return (some r.stop, { r with stop := n })
  else .ok (some r.stop, { r with exhausted := true })

end RangeI

/-- a range or its `rev()` (whose `next` is `next_back`), rect2.rs:35-36, 41-42, 47-48, 53-54 -/
structure AxisIter where
  range : RangeI
  rev : Bool
  deriving DecidableEq, Repr

/-- `next` of a range or of its `rev()` -/
def AxisIter.next (a : AxisIter) : Except Overflow (Option Int × AxisIter) := do
  let (o, r) ← if a.rev then a.range.nextBack else a.range.next
  return (o, { a with range := r })

/-- `y_range.flat_map(move |y| x_range.clone().map(move |x| Vector::from_xy(x, y)))`, rect2.rs:37: the
captured `x_range`, the outer iterator, and the inner iterator in front, if any.  (`flat_map` also keeps
an inner iterator for `next_back`; the returned `impl Iterator` does not offer `next_back`.) -/
structure RectIter where
  xRange : AxisIter
  outer : AxisIter
  front : Option (Int × AxisIter)
  deriving DecidableEq, Repr

/-- one call of `FlatMap::next`: its result and the iterator afterwards.
std: `loop { if let Some(inner) = front { match inner.next() { None => front = None, x => return x } }
match outer.next() { None => return None, Some(inner) => front = Some(inner) } }` -/
inductive RectIter.Next : RectIter → Except Overflow (Option V2i) → RectIter → Prop
  | emit {it y a x a'} : it.front = some (y, a) → a.next = .ok (some x, a') →
      Next it (.ok (some ⟨x, y⟩)) { it with front := some (y, a') }
  | drop {it y a a' r it'} : it.front = some (y, a) → a.next = .ok (none, a') →
      Next { it with front := none } r it' → Next it r it'
  | pull {it y o' r it'} : it.front = none → it.outer.next = .ok (some y, o') →
      Next { it with outer := o', front := some (y, it.xRange) } r it' → Next it r it'
  | done {it o'} : it.front = none → it.outer.next = .ok (none, o') →
      Next it (.ok none) { it with outer := o' }
  | panicInner {it y a e} : it.front = some (y, a) → a.next = .error e → Next it (.error e) it
  | panicOuter {it e} : it.front = none → it.outer.next = .error e → Next it (.error e) it

/-- `outer.flat_map(move |y| inner.clone().map(move |x| Vector::from_xy(x, y)))`, rect2.rs:37, 43, 49, 55 -/
def RectIter.flatMap (outer inner : AxisIter) : RectIter := ⟨inner, outer, none⟩

namespace Rect2i

/-- `iterate_north_east`, rect2.rs:34-38 -/
def iterNorthEast32 (r : Rect2i) : RectIter :=
  RectIter.flatMap ⟨RangeI.new r.min.y r.max.y, false⟩ ⟨RangeI.new r.min.x r.max.x, false⟩
/-- `iterate_south_east`, rect2.rs:40-44 -/
def iterSouthEast32 (r : Rect2i) : RectIter :=
  RectIter.flatMap ⟨RangeI.new r.min.y r.max.y, true⟩ ⟨RangeI.new r.min.x r.max.x, false⟩
/-- `iterate_south_west`, rect2.rs:46-50 -/
def iterSouthWest32 (r : Rect2i) : RectIter :=
  RectIter.flatMap ⟨RangeI.new r.min.y r.max.y, true⟩ ⟨RangeI.new r.min.x r.max.x, true⟩
/-- `iterate_north_west`, rect2.rs:52-56 -/
def iterNorthWest32 (r : Rect2i) : RectIter :=
  RectIter.flatMap ⟨RangeI.new r.min.y r.max.y, false⟩ ⟨RangeI.new r.min.x r.max.x, true⟩
/-- `iterate`, rect2.rs:30-32 -/
def iter32 (r : Rect2i) : RectIter := r.iterNorthEast32
/-- `iterate_boxed`, rect2.rs:58-73 -/
def iterBoxed32 (r : Rect2i) (flipX flipY : Bool) : RectIter :=
  if flipY then
    if flipX then r.iterSouthWest32 else r.iterSouthEast32
  else
    if flipX then r.iterNorthWest32 else r.iterNorthEast32
/-- `iterate_with_direction_f32`, rect2.rs:21-28 -/
def iterWithDirection32 {F : Type} [Zero F] [LT F] [DecidableLT F] (r : Rect2i) (dirX dirY : F) :
    RectIter :=
  r.iterBoxed32 (decide (dirX < 0)) (decide (dirY < 0))

end Rect2i

end Auburn
