import Verif.Model.Vec

/-!
# `src/utils`: approx.rs, rect2.rs, publisher.rs
-/

namespace Auburn

section
variable {F : Type} [Zero F] [One F] [Add F] [Sub F] [Mul F] [Div F] [Neg F]
  [LT F] [LE F] [DecidableLT F] [DecidableLE F] [FloatExtra F]

open FloatExtra

/-! ## approx.rs -/

/-- `Approx::approx_eq_tolerance` for f32, approx.rs:14-36 -/
def approxEqTol (a b tolerance : F) : Bool :=
  let error := a - b
  if isNan error then false
  else if isInfinite error then feq a b
  else if feq a 0 || feq b 0 then decide (FloatExtra.abs error < tolerance)
  else
    let relativeError := error / a
    if FloatExtra.abs relativeError > tolerance then false else true

/-- `Approx::approx_eq` for f32, approx.rs:7-9 -/
def approxEq (a b : F) : Bool := approxEqTol a b approxTol

/-- `Approx::approx_eq_tolerance` for Vec2, approx.rs:38-72 -/
def approxEqTolV2 (a b : V2 F) (tolerance : F) : Bool :=
  let magnSq := fmax a.lengthSq b.lengthSq
  if feq magnSq 0 then true
  else
    let error := a - b
    if isNan error.x || isNan error.y then false
    else if isInfinite error.x || isInfinite error.y then V2.feq a b
    else
      let errorSq := error.lengthSq
      let relativeErrorSq := errorSq / magnSq
      if relativeErrorSq > tolerance * tolerance then false
      else if error.x * (error.x / magnSq) > tolerance * tolerance then false
      else if error.y * (error.y / magnSq) > tolerance * tolerance then false
      else true

/-- `Approx::approx_eq` for Vec2, approx.rs:7-9 -/
def approxEqV2 (a b : V2 F) : Bool := approxEqTolV2 a b approxTol

/-- `Approx::approx_eq_tolerance` for Vec3, approx.rs:74-112 -/
def approxEqTolV3 (a b : V3 F) (tolerance : F) : Bool :=
  let magnSq := fmax a.lengthSq b.lengthSq
  if feq magnSq 0 then true
  else
    let error := a - b
    if isNan error.x || isNan error.y || isNan error.z then false
    else if isInfinite error.x || isInfinite error.y || isInfinite error.z then V3.feq a b
    else
      let errorSq := error.lengthSq
      let relativeErrorSq := errorSq / magnSq
      if relativeErrorSq > tolerance * tolerance then false
      else if error.x * (error.x / magnSq) > tolerance * tolerance then false
      else if error.y * (error.y / magnSq) > tolerance * tolerance then false
      else if error.z * (error.z / magnSq) > tolerance * tolerance then false
      else true

/-- `Approx::approx_eq` for Vec3, approx.rs:7-9 -/
def approxEqV3 (a b : V3 F) : Bool := approxEqTolV3 a b approxTol

end

/-! ## rect2.rs -/

/-- `lk_math` `V2i32` (unbounded integers; `i32` arithmetic is in `Model/Int32`) -/
@[ext] structure V2i where
  x : Int
  y : Int
  deriving DecidableEq, Repr

/-- `Rect2i32`, rect2.rs:3-7 -/
structure Rect2i where
  min : V2i
  max : V2i
  deriving DecidableEq, Repr

/-- the elements of the Rust range `lo..=hi` in order -/
def rangeIncl (lo hi : Int) : List Int :=
  (List.range (hi + 1 - lo).toNat).map fun (i : Nat) => lo + (i : Int)

namespace Rect2i

/-- `Rect2i32::pad`, rect2.rs:14-19 -/
def pad (r : Rect2i) (p : V2i) : Rect2i :=
  ⟨⟨r.min.x - p.x, r.min.y - p.y⟩, ⟨r.max.x - p.x, r.max.y - p.y⟩⟩

/-- `y_range.flat_map(|y| x_range.map(|x| (x, y)))`, rect2.rs:37, 43, 49, 55 -/
def product (xs ys : List Int) : List V2i := ys.flatMap fun y => xs.map fun x => ⟨x, y⟩

/-- `iterate_north_east`, rect2.rs:34-38 -/
def iterateNorthEast (r : Rect2i) : List V2i :=
  product (rangeIncl r.min.x r.max.x) (rangeIncl r.min.y r.max.y)
/-- `iterate_south_east`, rect2.rs:40-44 -/
def iterateSouthEast (r : Rect2i) : List V2i :=
  product (rangeIncl r.min.x r.max.x) (rangeIncl r.min.y r.max.y).reverse
/-- `iterate_south_west`, rect2.rs:46-50 -/
def iterateSouthWest (r : Rect2i) : List V2i :=
  product (rangeIncl r.min.x r.max.x).reverse (rangeIncl r.min.y r.max.y).reverse
/-- `iterate_north_west`, rect2.rs:52-56 -/
def iterateNorthWest (r : Rect2i) : List V2i :=
  product (rangeIncl r.min.x r.max.x).reverse (rangeIncl r.min.y r.max.y)
/-- `iterate`, rect2.rs:30-32 -/
def iterate (r : Rect2i) : List V2i := r.iterateNorthEast
/-- `iterate_boxed`, rect2.rs:58-73 -/
def iterateBoxed (r : Rect2i) (flipX flipY : Bool) : List V2i :=
  if flipY then
    if flipX then r.iterateSouthWest else r.iterateSouthEast
  else
    if flipX then r.iterateNorthWest else r.iterateNorthEast

/-- `iterate_with_direction_f32`, rect2.rs:21-28 -/
def iterateWithDirection {F : Type} [Zero F] [LT F] [DecidableLT F] (r : Rect2i) (dirX dirY : F) :
    List V2i :=
  r.iterateBoxed (decide (dirX < 0)) (decide (dirY < 0))

end Rect2i

/-! ## publisher.rs -/

/-- `Ledger`, publisher.rs:32-52 -/
structure Ledger (E : Type) where
  events : List E
  deriving DecidableEq, Repr

/-- `Ledger::new` / `Default`, publisher.rs:42-52 -/
def Ledger.new {E : Type} : Ledger E := ⟨[]⟩
/-- `Ledger::notify` (`Vec::push`), publisher.rs:36-40 -/
def Ledger.notify {E : Type} (l : Ledger E) (e : E) : Ledger E := ⟨l.events ++ [e]⟩

/-- `HashsetLedger`, publisher.rs:8-30.  The `HashSet` is modelled as a duplicate-free list. -/
structure HashsetLedger (E : Type) where
  events : List E
  deriving DecidableEq, Repr

/-- `HashsetLedger::new`, publisher.rs:18-24 -/
def HashsetLedger.new {E : Type} : HashsetLedger E := ⟨[]⟩
/-- `HashsetLedger::notify` (`HashSet::insert`), publisher.rs:12-16 -/
def HashsetLedger.notify {E : Type} [DecidableEq E] (l : HashsetLedger E) (e : E) :
    HashsetLedger E := if e ∈ l.events then l else ⟨l.events ++ [e]⟩

/-- `CallbackPublisher`, publisher.rs:54-56.  A subscriber `Fn(&E)` can only act by side effects:
it is modelled as a transformer of an arbitrary world state `W`. -/
structure CallbackPublisher (W E : Type) where
  subscribers : List (E → W → W)

/-- `CallbackPublisher::new`, publisher.rs:59-63 -/
def CallbackPublisher.new {W E : Type} : CallbackPublisher W E := ⟨[]⟩
/-- `CallbackPublisher::attach`, publisher.rs:65-67 -/
def CallbackPublisher.attach {W E : Type} (p : CallbackPublisher W E) (f : E → W → W) :
    CallbackPublisher W E := ⟨p.subscribers ++ [f]⟩
/-- `CallbackPublisher::notify`, publisher.rs:70-74 -/
def CallbackPublisher.notify {W E : Type} (p : CallbackPublisher W E) (e : E) (w : W) : W :=
  p.subscribers.foldl (fun w f => f e w) w

end Auburn
