import Verif.Conformance.Replay
import Verif.Spec.Exact

/-!
# Executable readings of the claims about polygons and boxes (no theorems here)

For random shapes the answers of the queries are compared with an independent brute force computation in
rational arithmetic (separating directions, depth and distance from the finite set of vertex differences),
in the exact model (`ℚ`) and on the machine (`Float32`).  The directly implemented pairs, the transformations
and the extreme points are checked on the machine only.  `tools/claims.sh` evaluates `Claims.result`: the number
of checks and the claims that fail.  On the model of `/repo` nothing fails; on wrong programs (see
`seeded/LOG.jsonl`, field `claims_refuted`) the list names claims whose statement the wrong program
violates.  Tests, not proofs: no theorem depends on this file.
-/

namespace Auburn.Claims

open Auburn.Replay (R check)

abbrev Q := ℚ
abbrev QV := V2 ℚ

/-! ## Brute force -/

def dotQ (a b : QV) : ℚ := a.x * b.x + a.y * b.y
def subQ (a b : QV) : QV := ⟨a.x - b.x, a.y - b.y⟩
def addQ (a b : QV) : QV := ⟨a.x + b.x, a.y + b.y⟩
def negQ (a : QV) : QV := ⟨-a.x, -a.y⟩
def lenSqQ (a : QV) : ℚ := dotQ a a

/-- differences of the vertices -/
def diffs (as bs : List QV) : List QV := (as.flatMap fun a => bs.map fun b => subQ a b).dedup
/-- the largest value of `n` on the list -/
def top (n : QV) : List QV → ℚ
  | [] => 0
  | [p] => dotQ n p
  | p :: l => max (dotQ n p) (top n l)
/-- directions that decide separation: normals of all pairs, the points themselves and the axes -/
def normals (as bs ds : List QV) : List QV :=
  let e (l : List QV) := l.flatMap fun p => l.flatMap fun q =>
    let w := subQ p q
    [(⟨-w.y, w.x⟩ : QV)]
  let base := e as ++ e bs ++ [⟨1, 0⟩, ⟨0, 1⟩, ⟨-1, 0⟩, ⟨0, -1⟩]
  let pts := if ds.length ≤ 2 then ds.flatMap fun p => [p, negQ p, ⟨-p.y, p.x⟩, ⟨p.y, -p.x⟩] else []
  ((base ++ pts).filter fun n => n ≠ ⟨0, 0⟩).dedup
/-- the shapes can be separated by a line, up to `tol` (an amount of depth) -/
def separable (tol : ℚ) (ns ds : List QV) : Bool :=
  ns.any fun n => let t := top n ds; t ≤ 0 || t * t ≤ tol * tol * lenSqQ n
/-- square of the least move that separates -/
def depthSq (ns ds : List QV) : ℚ :=
  (ns.map fun n => let t := max (top n ds) 0; t * t / lenSqQ n).foldl min (10 ^ 12)
/-- square of the distance of the origin from a segment -/
def segSq (p q : QV) : ℚ :=
  let w := subQ q p
  if w = ⟨0, 0⟩ then lenSqQ p else
  let t := max 0 (min 1 (-(dotQ p w) / lenSqQ w))
  lenSqQ ⟨p.x + t * w.x, p.y + t * w.y⟩
/-- square of the distance between the shapes if they are apart -/
def distSq (ds : List QV) : ℚ := (ds.flatMap fun p => ds.map fun q => segSq p q).foldl min (10 ^ 12)
/-- is the origin in the hull of the differences, up to `tol`? -/
def meets (tol : ℚ) (ns ds : List QV) : Bool := ns.all (fun n => 0 ≤ top n ds) || distSq ds ≤ tol * tol

/-! ## The claims about one pair -/

/-- the answers of the four queries, as rationals; a panic or a non-finite coordinate is `none` -/
structure Answers where
  col : Option Bool
  pen : Option (Option QV)
  dist : Option (Option QV)
  sdfv : Option (Bool × QV)

/-- names of the claims, for the exact model and for binary32 -/
structure Names where
  panic : String
  sdfvPanic : String
  neg : String
  pos : String
  complete : String
  push : String
  least : String
  contact : String
  short : String
  agree : String

/-- `tol = 0`, `few`: exact coordinates with few vertices.  `boxes`: distances are shortest. -/
def claims (nm : Names) (tol deep posTol : ℚ) (factor : ℚ) (few boxes : Bool) (as bs : List QV) (r : Answers) : R Unit := do
  let ds := diffs as bs
  let ns := normals as bs ds
  let d2 := depthSq ns ds
  let sep := separable 0 ns ds
  check nm.panic (r.col.isSome && r.pen.isSome && r.dist.isSome)
  check nm.sdfvPanic (r.sdfv.isSome || tol > 0)
  -- negative answers are certified
  let neg := separable tol ns ds
  if few then
    check nm.neg (r.col != some false || neg)
    check nm.neg (r.pen != some none || neg)
  -- positive answers only close to contact
  let near := meets posTol ns ds
  check nm.pos (r.col != some true || near)
  check nm.pos (match r.pen with | some (some _) => near | _ => true)
  check nm.pos (match r.sdfv with | some (true, _) => near | _ => true)
  check nm.pos (r.dist != some none || near || posTol > 0)
  -- overlaps are found
  if d2 > deep * deep then
    check nm.complete (r.col == some true)
    check nm.complete (match r.pen with | some (some _) => true | _ => false)
    check nm.complete (r.dist == some none)
    check nm.complete (match r.sdfv with | some (true, _) => true | _ => false)
  -- pushes
  let pushOk (v : QV) : R Unit := do
    let ds' := ds.map fun d => addQ d v
    if v ≠ ⟨0, 0⟩ then check nm.push (separable tol ns ds')
    if d2 > deep * deep then
      if few then check nm.least (v ≠ ⟨0, 0⟩)
      -- |v| ≤ factor |w| + tol, squared generously
      check nm.least (lenSqQ v ≤ factor * factor * d2 + (if tol = 0 then 0 else 3 * tol * (1 + d2)))
  match r.pen with | some (some v) => pushOk v | _ => pure ()
  match r.sdfv with | some (true, v) => pushOk v | _ => pure ()
  -- distances
  let bridge (f : ℚ) (v : QV) : R Unit := do
    let ds' := ds.map fun d => addQ d v
    check nm.contact (meets tol ns ds')
    if sep && boxes then
      let t2 := distSq ds
      check nm.short (lenSqQ v * f ≤ t2 + (if tol = 0 then 0 else 3 * tol * (1 + t2)))
  match r.dist with | some (some v) => bridge 1 v | _ => pure ()
  match r.sdfv with | some (false, v) => bridge ((98 : ℚ) ^ 2 / 100 ^ 2) v | _ => pure ()
  if tol = 0 && few then
    -- the queries agree with each other where the answer is forced
    if !(meets 0 ns ds) then
      check nm.agree (r.col == some false && r.pen == some none && (match r.dist with | some (some _) => true | _ => false))

/-! ## Running the model -/

/-- rational value of a finite machine number -/
def toQ (x : Float32) : Option ℚ :=
  let b : Nat := x.toBits.toNat
  let e : Nat := b / 2 ^ 23 % 256
  let m : Nat := b % 2 ^ 23
  let s : ℚ := if b / 2 ^ 31 == 1 then -1 else 1
  if e == 255 then none
  else if e == 0 then some (s * m / 2 ^ 149)
  else some (if e ≥ 150 then s * ((m + 2 ^ 23 : Nat) : ℚ) * 2 ^ (e - 150) else s * ((m + 2 ^ 23 : Nat) : ℚ) / 2 ^ (150 - e))
def toQV (p : V2 Float32) : Option QV := do return ⟨← toQ p.x, ← toQ p.y⟩
def ofQ (x : ℚ) : Float32 := Float32.ofInt x.num / Float32.ofInt x.den

attribute [local instance] ratFloat
set_option synthInstance.maxSize 1000

def okOpt {α : Type} (r : Except Panic α) : Option α := match r with | .ok a => some a | .error _ => none

/-- answers in the exact model -/
def exactAnswers {A B T : Type} [SdfvCommonRel2d false false A B T ℚ] [SdfvCommonRel2d true false A B T ℚ]
    [SdfvCommonRel2d false true A B T ℚ] [SdfvCommonRel2d true true A B T ℚ] (a : A) (b : B) (t : T) : Answers :=
  ⟨okOpt (collidesRel a b t), okOpt (penetratesRel a b t), okOpt (distanceToRel a b t), okOpt (sdfvRel a b t)⟩

def machineV (r : Except Panic (Option (V2 Float32))) : Option (Option QV) := match r with
  | .ok (some v) => (toQV v).map some
  | .ok none => some none
  | .error _ => none
def machineP (r : Except Panic (Bool × V2 Float32)) : Option (Bool × QV) := match r with
  | .ok (c, v) => (toQV v).map fun q => (c, q)
  | .error _ => none
/-- answers on the machine -/
def machineAnswers {A B T : Type} [SdfvCommonRel2d false false A B T Float32] [SdfvCommonRel2d true false A B T Float32]
    [SdfvCommonRel2d false true A B T Float32] [SdfvCommonRel2d true true A B T Float32] (a : A) (b : B) (t : T) : Answers :=
  ⟨okOpt (collidesRel a b t), machineV (penetratesRel a b t), machineV (distanceToRel a b t), machineP (sdfvRel a b t)⟩

/-! ## Random inputs -/

def next (s : UInt64) : UInt64 := s * 6364136223846793005 + 1442695040888963407
def word (s : UInt64) : Nat := (s >>> 33).toNat
/-- `n` numbers in `[-m, m]` -/
def ints (m : Nat) : Nat → UInt64 → List ℤ
  | 0, _ => []
  | n + 1, s => (((word s % (2 * m + 1) : Nat) : ℤ) - m) :: ints m n (next s)
def pairUp : List ℤ → List QV
  | x :: y :: l => ⟨x, y⟩ :: pairUp l
  | _ => []
/-- a polygon with the origin in its hull -/
def poly (m n : Nat) (s : UInt64) : List QV :=
  let l := pairUp (ints m (2 * n) s)
  negQ (l.foldl addQ ⟨0, 0⟩) :: l
def boxCorners (h : QV) : List QV := [h, ⟨h.x, -h.y⟩, ⟨-h.x, h.y⟩, ⟨-h.x, -h.y⟩]
def scaleQ (c : ℚ) (v : QV) : QV := ⟨c * v.x, c * v.y⟩
def f32V (v : QV) : V2 Float32 := ⟨ofQ v.x, ofQ v.y⟩

def exactNames : Names := ⟨"C33", "C34", "C35", "C36/C37", "C38/C39/C92/C96", "C40", "C41/C42/C93", "C43", "C44", "C30"⟩
def boxNames : Names := ⟨"C33", "C34", "C35", "C36/C37", "C38/C92/C96", "C40", "C42/C93", "C43", "C44/C45", "C30"⟩
def gridNames : Names := ⟨"C33", "C73", "C71", "C71", "C71", "C83", "C83/C98", "C73/C84", "C73/C84", "C71"⟩
def noisyNames : Names := ⟨"C33", "C97", "C86", "C87", "C97", "C86", "C98", "C86", "C84", "C86"⟩
def turnNames : Names := ⟨"C33", "C88", "C88", "C88", "C97", "C88", "C98", "C88", "C88", "C88"⟩

def one (n : Nat) (s : UInt64) : R Unit := do
  let s1 := next (next s)
  let k := n % 4
  let la := poly 6 (2 + n % 3) s1
  let lb := poly 5 (2 + n / 3 % 2) (next (s1 + 77))
  let far := if n % 5 == 0 then 3 else 1
  let t : QV := scaleQ far ((pairUp (ints 6 2 (next (s1 + 991)))).headD ⟨0, 0⟩)
  let h : QV := let w := (pairUp (ints 5 2 (next (s1 + 555)))).headD ⟨0, 0⟩; ⟨|w.x| + 1, |w.y| + 1⟩
  let g : QV := let w := (pairUp (ints 5 2 (next (s1 + 5551)))).headD ⟨0, 0⟩; ⟨|w.x| + 1, |w.y| + 1⟩
  let c : ℚ := if k == 0 then 1 else 1 / (k + 1)
  let sc (l : List QV) := l.map (scaleQ c)
  let mv (l : List QV) := l.map fun p => addQ (scaleQ c p) (scaleQ c t)
  let few := la.length * lb.length ≤ 19
  -- exact
  claims exactNames 0 0 0 (101 / 100) few false (sc la) (mv lb)
    (exactAnswers (Poly2d.mk (sc la)) (Poly2d.mk (sc lb)) (scaleQ c t))
  claims boxNames 0 0 0 (101 / 100) true true (boxCorners (scaleQ c h)) (mv (boxCorners g))
    (exactAnswers (Box2d.mk (scaleQ c h)) (Box2d.mk (scaleQ c g)) (scaleQ c t))
  let e1 := exactAnswers (Box2d.mk (scaleQ c h)) (Poly2d.mk (sc lb)) (scaleQ c t)
  claims exactNames 0 0 0 (101 / 100) (lb.length ≤ 4) false (boxCorners (scaleQ c h)) (mv lb) e1
  -- wrapped shapes
  let e2 := exactAnswers (Shape2d.box (Box2d.mk (scaleQ c h))) (Shape2d.poly (Poly2d.mk (sc lb))) (scaleQ c t)
  check "C47" (e1.col == e2.col && e1.pen == e2.pen && e1.dist == e2.dist && e1.sdfv == e2.sdfv)
  -- rotated by the 3-4-5 angle, exact
  let rot : QV → QV := fun p => ⟨p.x * (3 / 5) - p.y * (4 / 5), p.x * (4 / 5) + p.y * (3 / 5)⟩
  let rel : Transform2d ℚ := ⟨scaleQ c t, ⟨⟨3 / 5, 4 / 5⟩⟩, ⟨1, 1⟩⟩
  claims boxNames 0 (1 / 4) 0 (101 / 100) true true (boxCorners (scaleQ c h))
    ((boxCorners g).map fun p => addQ (rot (scaleQ c p)) (scaleQ c t))
    (exactAnswers (Box2d.mk (scaleQ c h)) (Box2d.mk (scaleQ c g)) rel)
  -- machine, on the grid
  claims gridNames (1 / 2 ^ 15) 0 0 (101 / 100) few false la (lb.map (addQ t))
    (machineAnswers (Poly2d.mk (la.map f32V)) (Poly2d.mk (lb.map f32V)) (f32V t))
  claims gridNames (1 / 2 ^ 15) 0 0 (101 / 100) true true (boxCorners h) ((boxCorners g).map (addQ t))
    (machineAnswers (Box2d.mk (f32V h)) (Box2d.mk (f32V g)) (f32V t))
  -- machine, arbitrary coordinates
  let j : ℚ := 100 / 37
  let q (l : List QV) : List QV := l.map fun p => ((toQV (f32V (scaleQ j p))).getD ⟨0, 0⟩)
  let tq := ((toQV (f32V (scaleQ j t))).getD ⟨0, 0⟩)
  let m : ℚ := 64
  claims noisyNames (m / 2 ^ 17) (m / 32) (m / 64) (50 / 49) few false (q la) ((q lb).map (addQ tq))
    (machineAnswers (Poly2d.mk ((q la).map f32V)) (Poly2d.mk ((q lb).map f32V)) (f32V tq))
  let la' := poly 9 (7 + n % 6) s1
  claims noisyNames (m / 2 ^ 17) (m / 32) (m / 64) (50 / 49) false false (q la') ((q lb).map (addQ tq))
    (machineAnswers (Poly2d.mk ((q la').map f32V)) (Poly2d.mk ((q lb).map f32V)) (f32V tq))
  let relf : Transform2d Float32 := ⟨f32V tq, ⟨⟨ofQ (3 / 5), ofQ (4 / 5)⟩⟩, ⟨1, 1⟩⟩
  claims turnNames (m / 2 ^ 15) (m / 16) (m / 32) (50 / 49) few false (q la) ((q lb).map fun p => addQ (rot p) tq)
    (machineAnswers (Poly2d.mk ((q la).map f32V)) (Poly2d.mk ((q lb).map f32V)) relf)


/-! ## Balls, boxes and points -/

open ExtremePoint2d Transformation2d

def f64 (x : Float32) : Float := x.toFloat
/-- signed distance of a point from the boundary of a box -/
def sdBox (h p : Float × Float) : Float :=
  let dx := p.1.abs - h.1
  let dy := p.2.abs - h.2
  if dx > 0 && dy > 0 then (dx * dx + dy * dy).sqrt else if dx > dy then dx else dy
def sdBox3 (h p : Float × Float × Float) : Float :=
  let dx := p.1.abs - h.1
  let dy := p.2.1.abs - h.2.1
  let dz := p.2.2.abs - h.2.2
  let m (x : Float) := if x > 0 then x else 0
  if dx > 0 || dy > 0 || dz > 0 then (m dx * m dx + m dy * m dy + m dz * m dz).sqrt
  else if dx > dy then (if dx > dz then dx else dz) else (if dy > dz then dy else dz)
def close (a b : Float) : Bool := (a - b).abs < 0.001
def moved2 (p v : V2 Float32) : Float × Float := (f64 p.x - f64 v.x, f64 p.y - f64 v.y)
def len2 (v : V2 Float32) : Float := (f64 v.x * f64 v.x + f64 v.y * f64 v.y).sqrt

/-- one directly implemented pair: `sd q` is the signed distance when the centres are `q` apart -/
def direct {A B : Type} (name : String) [SdfvCommonRel2d false false A B (V2 Float32) Float32]
    [SdfvCommonRel2d true false A B (V2 Float32) Float32] [SdfvCommonRel2d false true A B (V2 Float32) Float32]
    [SdfvCommonRel2d true true A B (V2 Float32) Float32] (a : A) (b : B) (p : V2 Float32) (sd : Float × Float → Float) : R Unit := do
  let d := sd (f64 p.x, f64 p.y)
  if d.abs > 0.01 then
    check name (okOpt (collidesRel a b p) == some (decide (d < 0)))
    let vec (v : V2 Float32) : Bool := close (sd (moved2 p v)) 0 && close (len2 v) d.abs
    check name (match penetratesRel a b p with | .ok (some v) => d < 0 && vec v | .ok none => d > 0 | _ => false)
    check name (match distanceToRel a b p with | .ok (some v) => d > 0 && vec v | .ok none => d < 0 | _ => false)
    check name (match sdfvRel a b p with | .ok (c, v) => c == decide (d < 0) && vec v | _ => false)

def directs (s : UInt64) : R Unit := do
  let l := (ints 800 12 s).map fun i => ofQ (i / 100)
  let g (i : Nat) : Float32 := l.getD i 0
  let p : V2 Float32 := ⟨g 0, g 1⟩
  let r := (g 2).abs / 2 + 0.1
  let r' := (g 3).abs / 2 + 0.1
  let h : V2 Float32 := ⟨(g 4).abs / 2 + 0.1, (g 5).abs / 2 + 0.1⟩
  let pt : Point Float32 := ⟨⟩
  let fh := (f64 h.x, f64 h.y)
  let norm (q : Float × Float) : Float := (q.1 * q.1 + q.2 * q.2).sqrt
  let neg (q : Float × Float) : Float × Float := (-q.1, -q.2)
  direct "C17/C18/C77" (Ball.mk r) (Ball.mk r') p fun q => norm q - f64 r - f64 r'
  direct "C20/C77" (Ball.mk r) pt p fun q => norm q - f64 r
  direct "C29" pt (Ball.mk r) p fun q => norm q - f64 r
  direct "C21/C22/C78" (Box2d.mk h) pt p fun q => sdBox fh q
  direct "C29" pt (Box2d.mk h) p fun q => sdBox fh (neg q)
  direct "C25/C26/C79" (Box2d.mk h) (Ball.mk r) p fun q => sdBox fh q - f64 r
  check "C19/C77" (match (SdfRel2d.sdfRel (Ball.mk r) (Ball.mk r') p : Except Panic Float32) with
    | .ok x => close (f64 x) (norm (f64 p.x, f64 p.y) - f64 r - f64 r') | _ => false)
  check "C23/C78" (match (SdfRel2d.sdfRel (Box2d.mk h) pt p : Except Panic Float32) with
    | .ok x => close (f64 x) (sdBox fh (f64 p.x, f64 p.y)) | _ => false)
  -- 3D
  let p3 : V3 Float32 := ⟨g 6, g 7, g 8⟩
  let b3 : Box3d Float32 := ⟨⟨h.x, h.y, (g 9).abs / 2 + 0.1⟩⟩
  let sd3 (q : Float × Float × Float) := sdBox3 (f64 h.x, f64 h.y, f64 b3.halfsize.z) q
  let d3 := sd3 (f64 p3.x, f64 p3.y, f64 p3.z)
  let mv3 (v : V3 Float32) := (f64 p3.x - f64 v.x, f64 p3.y - f64 v.y, f64 p3.z - f64 v.z)
  let len3 (q : Float × Float × Float) : Float := (q.1 * q.1 + q.2.1 * q.2.1 + q.2.2 * q.2.2).sqrt
  let vec3 (sd : Float × Float × Float → Float) (d : Float) (v : V3 Float32) : Bool :=
    close (sd (mv3 v)) 0 && close (len3 (f64 v.x, f64 v.y, f64 v.z)) d.abs
  if d3.abs > 0.01 then
    check "C64/C95" (CollidesRel3d.collidesRel b3 pt p3 == decide (d3 < 0))
    check "C64/C95" (match PenetratesRel3d.penetratesRel b3 pt p3 with | some v => d3 < 0 && vec3 sd3 d3 v | none => d3 > 0)
    check "C64/C95" (vec3 sd3 d3 (SdfvRel3d.sdfvRel b3 pt p3))
  let rb := r + r'
  let sdb (q : Float × Float × Float) := len3 q - f64 rb
  let db := sdb (f64 p3.x, f64 p3.y, f64 p3.z)
  if db.abs > 0.01 then
    check "C65/C95" (CollidesRel3d.collidesRel (Ball.mk rb) pt p3 == decide (db < 0))
    check "C65/C95" (match PenetratesRel3d.penetratesRel (Ball.mk rb) pt p3 with | some v => db < 0 && vec3 sdb db v | none => db > 0)
    check "C65/C95" (vec3 sdb db (SdfvRel3d.sdfvRel (Ball.mk rb) pt p3))
    check "C65/C95" (close (f64 (SdfRel3d.sdfRel (Ball.mk rb) pt p3)) db)
  -- transformations and extreme points
  let rot : Rotor2d Float32 := Rotor2d.fromAngle (g 10)
  let t : Transform2d Float32 := ⟨p, rot, ⟨1, 1⟩⟩
  let x : V2 Float32 := ⟨g 6, g 7⟩
  let cs := (f64 (g 10)).cos
  let sn := (f64 (g 10)).sin
  let same (v : V2 Float32) (a b : Float) : Bool := close (f64 v.x) a && close (f64 v.y) b
  check "C05/C90" (same (apply t x) (cs * f64 x.x - sn * f64 x.y + f64 p.x) (sn * f64 x.x + cs * f64 x.y + f64 p.y))
  check "C03/C90" (same (unapply t (apply t x)) (f64 x.x) (f64 x.y))
  check "C01/C90" (same (apply (Invertible.inverse t) (apply t x)) (f64 x.x) (f64 x.y))
  let t2 : Transform2d Float32 := ⟨x, Rotor2d.fromAngle (g 11), ⟨1, 1⟩⟩
  let y := apply t (apply t2 p)
  check "C02/C90" (same (apply (Composable.compose t t2) p) (f64 y.x) (f64 y.y))
  let z := apply t (apply (deltaTransform t t2) p)
  let z' := apply t2 p
  check "C04/C90" (same z (f64 z'.x) (f64 z'.y))
  let dotF (a b : V2 Float32) : Float := f64 a.x * f64 b.x + f64 a.y * f64 b.y
  let e : V2 Float32 := extremePoint (Box2d.mk h) x
  check "C08/C91" (close (f64 e.x).abs (f64 h.x) && close (f64 e.y).abs (f64 h.y) &&
    close (dotF e x) (f64 h.x * (f64 x.x).abs + f64 h.y * (f64 x.y).abs))
  let eb : V2 Float32 := extremePoint (Ball.mk r) x
  check "C08/C91" (close (len2 eb) (f64 r) && close (dotF eb x) (f64 r * len2 x))
  let pts : List (V2 Float32) := [⟨g 0, g 1⟩, ⟨g 2, g 3⟩, ⟨g 4, g 5⟩, ⟨g 8, g 9⟩, ⟨g 10, g 11⟩]
  let ep : V2 Float32 := extremePoint (Poly2d.mk pts) x
  check "C08/C91" (pts.any (fun q => V2.feq q ep) && pts.all fun q => dotF q x ≤ dotF ep x + 0.001)
  let ec : V2 Float32 := extremePoint (Collider2d.mk (Box2d.mk h) t) x
  check "C09/C91" ([((1 : Float32), (1 : Float32)), (1, -1), (-1, 1), (-1, -1)].all fun (a, b) =>
    dotF (apply t ⟨a * h.x, b * h.y⟩) x ≤ dotF ec x + 0.01)

def run (n : Nat) : R Unit := do
  let mut s : UInt64 := 77001
  for i in List.range n do
    s := next s
    one i s
    directs s

/-- number of checks, and how often each claim failed, on `n` random inputs -/
def result (n : Nat) : Nat × List (String × Nat) :=
  let r := ((run n).run (0, [])).2
  (r.1, (r.2.dedup).map fun n => (n, r.2.count n))

end Auburn.Claims
