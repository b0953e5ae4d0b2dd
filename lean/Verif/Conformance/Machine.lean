import Verif.Conformance.Replay
import Verif.Ieee.Eval

/-!
# Comparing the formal binary32 arithmetic with the machine's (no theorems here)

`Ieee/Eval` has a computable copy `QF` of the formal binary32 numbers `F32`, proved to agree with them
operation by operation (`Rel.add`, `Rel.mul`, …).  Here `QF` is compared with Lean's machine type `Float32` on pseudo
random bit patterns (subnormals, ties, overflows, infinities and NaN included), and whole queries on random polygons and boxes are
compared too.  A test, not a proof: see `Replay`.
-/

namespace Auburn.Machine

open Auburn.Replay

/-- the value of a machine float -/
def toQF (x : Float32) : QF :=
  let b : Nat := x.toBits.toNat
  let s : Bool := b / 2 ^ 31 == 1
  let e : Nat := b / 2 ^ 23 % 256
  let m : Nat := b % 2 ^ 23
  if e == 255 then (if m == 0 then .inf s else .nan)
  else if e == 0 then .fin s ((m : ℚ) * pow2 (-149))
  else .fin s (((m + 2 ^ 23 : Nat) : ℚ) * pow2 ((e : ℤ) - 150))

/-- a pseudo random sequence of 32 bit words -/
def next (s : UInt64) : UInt64 := s * 6364136223846793005 + 1442695040888963407
def word (s : UInt64) : UInt32 := (s >>> 32).toUInt32

/-- bit patterns of interest: arbitrary, special, of moderate size, and with few bits set (ties) -/
def pattern (s : UInt64) : Float32 :=
  let w := word s
  match (s >>> 24) % 6 with
  | 0 => Float32.ofBits w
  | 1 => Float32.ofBits (#[0, 0x80000000, 0x7F800000, 0xFF800000, 0x7FC00000, 1, 0x80000001, 0x7FFFFF, 0x800000, 0x7F7FFFFF,
      0xFF7FFFFF, 0x3F800000][(w % 12).toNat]!)
  | 2 => Float32.ofBits ((w &&& 0x87FFFFFF) ||| 0x38000000)
  | 3 => Float32.ofBits ((w &&& 0xFF800003) % 0xFF000000)
  | 4 => Float32.ofBits (w &&& 0x80FFFFFF)
  | _ => Float32.ofInt ((w.toNat : Int) % 2000 - 1000)

def sameF (a : Float32) (b : QF) : Bool := toQF a == b
def sameB (a b : Bool) : Bool := a == b

/-- all operations on one pair -/
def ops (x y : Float32) : Replay.R Unit := do
  let a := toQF x
  let b := toQF y
  let n := s!"{x.toBits} {y.toBits}"
  check ("add " ++ n) (sameF (x + y) (a + b))
  check ("sub " ++ n) (sameF (x - y) (a - b))
  check ("mul " ++ n) (sameF (x * y) (a * b))
  check ("div " ++ n) (sameF (x / y) (a / b))
  check ("neg " ++ n) (sameF (-x) (-a))
  check ("lt " ++ n) (decide (x < y) == decide (a < b))
  check ("le " ++ n) (decide (x ≤ y) == decide (a ≤ b))
  check ("eq " ++ n) ((x == y) == QF.eqb a b)
  check ("abs " ++ n) (sameF x.abs (FloatExtra.abs a))
  check ("max " ++ n) (QF.eqb (toQF (FloatExtra.fmax x y)) (FloatExtra.fmax a b) || (x.isNaN && y.isNaN))
  check ("min " ++ n) (QF.eqb (toQF (FloatExtra.fmin x y)) (FloatExtra.fmin a b) || (x.isNaN && y.isNaN))
  check ("signum " ++ n) (sameF (FloatExtra.signum x) (FloatExtra.signum a))
  check ("ltInf " ++ n) (FloatExtra.ltInf x == FloatExtra.ltInf a)

def constants : Replay.R Unit := do
  check "epsilon" (sameF FloatExtra.epsilon FloatExtra.epsilon)
  check "tol" (sameF FloatExtra.tol FloatExtra.tol)
  check "approxTol" (sameF FloatExtra.approxTol FloatExtra.approxTol)
  check "f32Min" (sameF FloatExtra.f32Min FloatExtra.f32Min)
  check "two" (sameF FloatExtra.two FloatExtra.two)
  check "half" (sameF FloatExtra.half FloatExtra.half)
  for n in List.range 100 do
    check "ofInt" (sameF (FloatExtra.ofInt ((n : Int) * 16777259 - 800000000)) (FloatExtra.ofInt ((n : Int) * 16777259 - 800000000)))

/-- a number with two decimals -/
def coord (s : UInt64) : Float32 := Float32.ofInt ((word s).toNat % 1201 - 600 : Int) / 100

def vecs : Nat → UInt64 → List (V2 Float32) × UInt64
  | 0, s => ([], s)
  | n + 1, s =>
    let s1 := next s
    let s2 := next s1
    let r := vecs n s2
    (⟨coord s1, coord s2⟩ :: r.1, r.2)

def qv (a : V2 Float32) : V2 QF := ⟨toQF a.x, toQF a.y⟩
def sameV (a : V2 Float32) (b : V2 QF) : Bool := sameF a.x b.x && sameF a.y b.y

def sameAnswer (a : Except Panic (Bool × V2 Float32)) (b : Except Panic (Bool × V2 QF)) : Bool := match a, b with
  | .ok (c, w), .ok (c', w') => c == c' && sameV w w'
  | .error e, .error e' => e == e'
  | _, _ => false

open SdfvCommonRel2d in
/-- whole queries, polygon v polygon and box v polygon, with a rotated and moved second shape -/
def query (n : Nat) (s : UInt64) : Replay.R Unit := do
  let (la, s) := vecs (3 + n % 5) s
  let (lb, s) := vecs (3 + n % 3) s
  let (t, _) := vecs 2 s
  let p := t.headD 0
  let h : V2 Float32 := ⟨p.y.abs, p.x.abs⟩
  let r : Rotor2d Float32 := ⟨⟨Float32.cos p.x, Float32.sin p.x⟩⟩
  let rel : Transform2d Float32 := ⟨t.getLastD 0, r, ⟨1, 1⟩⟩
  let qrel : Transform2d QF := ⟨qv rel.pos, ⟨qv r.a⟩, ⟨1, 1⟩⟩
  let A : Poly2d Float32 := ⟨la⟩
  let B : Poly2d Float32 := ⟨lb⟩
  let A' : Poly2d QF := ⟨la.map qv⟩
  let B' : Poly2d QF := ⟨lb.map qv⟩
  let m (pen dist : Bool) : Except Panic (Bool × V2 Float32) := sdfvCommonRel pen dist A B rel
  let q (pen dist : Bool) : Except Panic (Bool × V2 QF) := sdfvCommonRel pen dist A' B' qrel
  let mb (pen dist : Bool) : Except Panic (Bool × V2 Float32) := sdfvCommonRel pen dist (Box2d.mk h) B rel
  let qb (pen dist : Bool) : Except Panic (Bool × V2 QF) := sdfvCommonRel pen dist (Box2d.mk (qv h)) B' qrel
  for pen in [false, true] do
    for dist in [false, true] do
      check s!"poly {pen} {dist} {n}" (sameAnswer (m pen dist) (q pen dist))
      check s!"box {pen} {dist} {n}" (sameAnswer (mb pen dist) (qb pen dist))

def run (nops nqueries : Nat) : Replay.R Unit := do
  constants
  let mut s : UInt64 := 20240601
  for _ in List.range nops do
    s := next s
    let x := pattern s
    s := next s
    ops x (pattern s)
  for n in List.range nqueries do
    s := next s
    query n s

/-- number of comparisons and the differences -/
def result : Nat × List String := ((run 20000 400).run (0, [])).2

end Auburn.Machine
