import Verif.Model.Shapes2d

/-!
# Minkowski difference, GJK and EPA: `shape/local_minkowski_diff/{mod,v}.rs`

`trace!`/`warn!`/`println!` calls are dropped.  The algorithms use the difference `self` only
through `extreme_point` and `initial_direction`, so the loops take the support function `S` as an
argument; `LocalMinkowskiDiff2d.sdfvMinkowski` instantiates it.
-/

namespace Auburn

/-- `LocalMinkowskiDiff2d`, local_minkowski_diff/mod.rs:7-27 -/
structure LocalMinkowskiDiff2d (A B T : Type) where
  a : A
  b : B
  rel : T

section
variable {F : Type} [Zero F] [One F] [Add F] [Sub F] [Mul F] [Div F] [Neg F]
  [LT F] [LE F] [DecidableLT F] [DecidableLE F] [FloatExtra F]

open ExtremePoint2d Transformation2d

/-- `initial_direction`, local_minkowski_diff/mod.rs:28-35 (as a function of
`rel.apply_origin()`) -/
def initialDirection (origin : V2 F) : V2 F :=
  if origin.lengthSq < FloatExtra.epsilon then ⟨1, 0⟩ else origin

/-- `LocalMinkowskiDiff2d::extreme_point`, local_minkowski_diff/mod.rs:42-60 -/
instance {A B T : Type} [ExtremePoint2d A F] [ExtremePoint2d B F] [Transformation2d T F] :
    ExtremePoint2d (LocalMinkowskiDiff2d A B T) F where
  extremePoint m direction :=
    let aPoint := extremePoint m.a direction
    let bDirection := unapplyNormal m.rel (-direction)
    let bPoint := apply m.rel (extremePoint m.b bDirection)
    aPoint - bPoint

/-! ## Vector helpers, local_minkowski_diff/mod.rs:293-341 -/

/-- `same_direction`, mod.rs:293-295 -/
def sameDirection (a b : V2 F) : Prop := a.dot b ≥ 0
instance (a b : V2 F) : Decidable (sameDirection a b) := inferInstanceAs (Decidable (_ ≤ _))

/-- `Crossf32::cross` for f32, mod.rs:301-305 -/
def crossSV (s : F) (v : V2 F) : V2 F := ⟨-s * v.y, s * v.x⟩
/-- `Cross2d::cross`, mod.rs:315-317 -/
def V2.cross (a b : V2 F) : F := a.x * b.y - a.y * b.x
/-- `Cross2d::cross_f32`, mod.rs:319-321 -/
def V2.crossF32 (a : V2 F) (s : F) : V2 F := ⟨a.y * s, -a.x * s⟩
/-- `Cross2d::cross_aba`, mod.rs:323-326 -/
def V2.crossAba (a b : V2 F) : V2 F :=
  let c := a.cross b
  ⟨-a.y * c, a.x * c⟩
/-- `Cross2d::perp_right`, mod.rs:328-330 -/
def V2.perpRight (a : V2 F) : V2 F := ⟨a.y, -a.x⟩

/-- `is_a_sufficiently_better_than_b`, mod.rs:335-341 -/
def sufficientlyBetter (a b t : F) : Prop :=
  if b > 0 then a > b * (1 + t) else a > b * (1 - t)
instance (a b t : F) : Decidable (sufficientlyBetter a b t) := by
  unfold sufficientlyBetter; infer_instance

/-- `direction_is_too_small`, v.rs:251-253 -/
def directionTooSmall (d : V2 F) : Prop :=
  d.lengthSq < FloatExtra.epsilon * FloatExtra.epsilon
instance (d : V2 F) : Decidable (directionTooSmall d) := inferInstanceAs (Decidable (_ < _))

/-! ## Simplex -/

/-- result of `Simplex2d::add_point`: the flag, the new direction, and the simplex afterwards -/
structure AddResult (F : Type) where
  collides : Bool
  dir : V2 F
  pts : List (V2 F)
  deriving DecidableEq, Repr

/-- `Simplex2d::add_point`, mod.rs:155-229 -/
def addPoint (pts : List (V2 F)) (point : V2 F) : Except Panic (AddResult F) :=
  match point :: pts with
  | [a] => .ok ⟨false, -a, [a]⟩
  | [a, b] =>
    let ab := b - a
    let ao := -a
    if ab.dot ao ≥ 0 then .ok ⟨false, ab.crossAba ao, [a, b]⟩
    else .ok ⟨false, ao, [a, b]⟩
  | [a, b, c] =>
    let ab := b - a
    let ac := c - a
    let ao := -a
    let abc := ab.cross ac
    let acPerp := crossSV abc ac
    let abPerp := ab.crossF32 abc
    if sameDirection abPerp ao then
      if sameDirection ab ao then .ok ⟨false, abPerp, [a, b]⟩
      else .ok ⟨false, acPerp, [a, c]⟩
    else if sameDirection acPerp ao then .ok ⟨false, acPerp, [a, c]⟩
    else .ok ⟨true, V2.nan, [a, b, c]⟩
  | _ => .error .unreachable

/-- `Simplex2d::distance_to_origin`, mod.rs:231-273 -/
def distanceToOrigin (pts : List (V2 F)) : Except Panic (V2 F) :=
  match pts with
  | [a] => .ok (-a)
  | [a, b] =>
    let ab := b - a
    let ao := -a
    let t := ao.dot ab / ab.dot ab
    if t ≤ 0 then .ok ao
    else if t ≥ 1 then .ok (-b)
    else .ok (ao - V2.scale t ab)
  | _ => .error .unreachable

/-- `Simplex2d::enforce_counter_clockwise_winding` with `is_winding_counter_clockwise`,
mod.rs:275-290 -/
def enforceCcw (pts : List (V2 F)) : Except Panic (List (V2 F)) :=
  match pts with
  | [a, b, c] => if (b - a).cross (c - a) > 0 then .ok [a, b, c] else .ok [a, c, b]
  | _ => .error .assertFailed

/-! ## EPA -/

/-- the closed edges `(points[i], points[(i+1) % len])` for `i` in `0..len`, in order
(mod.rs:121-123) -/
def closedEdges (pts : List (V2 F)) : List (V2 F × V2 F) :=
  pts.zip (pts.tail ++ pts.take 1)

/-- loop state of `find_closest_edge` (mod.rs:117-119); `dist = none` stands for `INFINITY` -/
structure ClosestEdge (F : Type) where
  index : Nat
  a : V2 F
  b : V2 F
  dist : Option F

/-- squared distance from the origin to edge `ab`, mod.rs:124-133.
`f32::clamp(0,1)`: `if t < 0 {0}`, then `if t > 1 {1}`. -/
def edgeDistSq (a b : V2 F) : F :=
  let ab := b - a
  let ao := -a
  let t := ao.dot ab / ab.dot ab
  let t := if t < 0 then 0 else t
  let t := if t > 1 then 1 else t
  (a + V2.scale t ab).lengthSq

/-- one iteration of the loop of `find_closest_edge`, mod.rs:121-140 -/
def closestStep (s : ClosestEdge F) (i : Nat) (e : V2 F × V2 F) : ClosestEdge F :=
  let d := edgeDistSq e.1 e.2
  let closer : Bool := match s.dist with
    | none => FloatExtra.ltInf d
    | some c => decide (d < c)
  if closer then ⟨i, e.1, e.2, some d⟩ else s

/-- the loop of `find_closest_edge`, mod.rs:121-140, over the remaining edges -/
def closestLoop : List (V2 F × V2 F) → Nat → ClosestEdge F → ClosestEdge F
  | [], _, s => s
  | e :: es, i, s => closestLoop es (i + 1) (closestStep s i e)

/-- `EpaPoly2d::find_closest_edge`, mod.rs:116-143 -/
def findClosestEdge (pts : List (V2 F)) : ClosestEdge F :=
  closestLoop (closedEdges pts) 0 ⟨0, V2.nan, V2.nan, none⟩

/-- `EpaPoly2d::calculate_penetration`, mod.rs:65-114, with the remaining number of iterations as
first argument.  `Vec::insert` panics if the index exceeds the length. -/
def epa (S : V2 F → V2 F) : Nat → List (V2 F) → Except Panic (V2 F)
  | 0, _ => .ok 0
  | n + 1, pts =>
    let e := findClosestEdge pts
    let normal := (e.b - e.a).perpRight
    let point := S normal
    let fitness := point.dot normal
    let fitnessToBeat := e.a.dot normal
    if ¬ sufficientlyBetter fitness fitnessToBeat FloatExtra.tol then
      .ok (V2.scale (-fitness / normal.dot normal) normal)
    else if e.index + 1 ≤ pts.length then
      epa S n (pts.insertIdx (e.index + 1) point)
    else .error .outOfBounds

/-- `iteration_limit`, v.rs:24, 66, 115, 175 -/
def iterationLimit : Nat := 20

/-! ## GJK -/

/-- the loop of `SdfvMinkowski2d<false, false>`, v.rs:26-52 -/
def gjkCollide (S : V2 F → V2 F) : Nat → V2 F → List (V2 F) → Except Panic (Bool × V2 F)
  | 0, _, _ => .ok (false, V2.nan)
  | n + 1, d, pts =>
    let a := S d
    if a.dot d ≤ 0 then .ok (false, V2.nan)
    else match addPoint pts a with
      | .error e => .error e
      | .ok r =>
        if r.collides ∨ directionTooSmall r.dir then .ok (true, V2.nan)
        else gjkCollide S n r.dir r.pts

/-- the direction override, v.rs:85-90, 138-145, 225-230 -/
def overrideDir (old new : V2 F) : V2 F := if directionTooSmall new then old.perp else new

/-- the loop of `SdfvMinkowski2d<false, true>`, v.rs:71-102 -/
def gjkDistance (S : V2 F → V2 F) :
    Nat → V2 F → V2 F → List (V2 F) → Except Panic (Bool × V2 F)
  | 0, _, _, pts => match distanceToOrigin pts with
    | .error e => .error e
    | .ok v => .ok (false, v)
  | n + 1, d, lastA, pts =>
    let a := S d
    let fitness := a.dot d
    if fitness ≤ 0 ∧ fitness ≤ lastA.dot d then
      match distanceToOrigin pts with
      | .error e => .error e
      | .ok v => .ok (false, v)
    else match addPoint pts a with
      | .error e => .error e
      | .ok r =>
        if r.collides then
          if r.pts.length = 3 then .ok (true, V2.nan) else .error .assertFailed
        else gjkDistance S n (overrideDir d r.dir) a r.pts

/-- the loop of `SdfvMinkowski2d<true, false>`, v.rs:120-162 -/
def gjkPenetrate (S : V2 F → V2 F) : Nat → V2 F → List (V2 F) → Except Panic (Bool × V2 F)
  | 0, _, _ => .ok (false, V2.nan)
  | n + 1, d, pts =>
    let a := S d
    let fitness := a.dot d
    if fitness ≤ 0 then .ok (false, V2.nan)
    else match addPoint pts a with
      | .error e => .error e
      | .ok r =>
        if r.collides then
          match enforceCcw r.pts with
          | .error e => .error e
          | .ok pts' => match epa S iterationLimit pts' with
            | .error e => .error e
            | .ok v => .ok (true, v)
        else gjkPenetrate S n (overrideDir d r.dir) r.pts

/-- the loop of `SdfvMinkowski2d<true, true>`, v.rs:185-247; `possible` is `collision_possible` -/
def gjkFull (S : V2 F → V2 F) :
    Nat → Bool → V2 F → V2 F → List (V2 F) → Except Panic (Bool × V2 F)
  | 0, _, _, _, pts => match distanceToOrigin pts with
    | .error e => .error e
    | .ok v => .ok (false, v)
  | n + 1, possible, d, lastA, pts =>
    let a := S d
    let fitness := a.dot d
    if fitness ≤ 0 ∧ ¬ sufficientlyBetter fitness (lastA.dot d) FloatExtra.tol then
      match distanceToOrigin pts with
      | .error e => .error e
      | .ok v => .ok (false, v)
    else
      let possible := if fitness ≤ 0 then false else possible
      match addPoint pts a with
      | .error e => .error e
      | .ok r =>
        if r.collides ∧ possible = false then .error .collidedAfterImpossible
        else if r.collides then
          match enforceCcw r.pts with
          | .error e => .error e
          | .ok pts' => match epa S iterationLimit pts' with
            | .error e => .error e
            | .ok v => .ok (true, v)
        else gjkFull S n possible (overrideDir d r.dir) a r.pts

/-- the four `SdfvMinkowski2d<COMPUTE_PENETRATION, COMPUTE_DISTANCE>` implementations,
v.rs:13-249, for a support function `S` and initial direction `d0` -/
def sdfvMinkowski (computePenetration computeDistance : Bool) (S : V2 F → V2 F) (d0 : V2 F) :
    Except Panic (Bool × V2 F) :=
  match computePenetration, computeDistance with
  | false, false => gjkCollide S iterationLimit d0 []
  | true, false => gjkPenetrate S iterationLimit d0 []
  | false, true =>
    let lastA := S d0
    match addPoint [] lastA with
    | .error e => .error e
    | .ok r => gjkDistance S iterationLimit r.dir lastA r.pts
  | true, true =>
    let lastA := S d0
    match addPoint [] lastA with
    | .error e => .error e
    | .ok r => gjkFull S iterationLimit true r.dir lastA r.pts

/-- `sdfv_minkowski` of a `LocalMinkowskiDiff2d`, v.rs -/
def LocalMinkowskiDiff2d.sdfvMinkowski {A B T : Type} [ExtremePoint2d A F] [ExtremePoint2d B F]
    [Transformation2d T F] (computePenetration computeDistance : Bool)
    (m : LocalMinkowskiDiff2d A B T) : Except Panic (Bool × V2 F) :=
  Auburn.sdfvMinkowski computePenetration computeDistance (extremePoint m)
    (initialDirection (applyOrigin m.rel))

end

end Auburn
