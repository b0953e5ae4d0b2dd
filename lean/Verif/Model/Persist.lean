import Verif.Model.Tilemap

/-!
# `Tilemap::save` / `Tilemap::load`, tilemap.rs:213-227, down to the text in the file

`serde_json::to_writer` and `serde_json::from_reader` are external; modelled here:

* the JSON text of the value `save` serialises (compact `serde_json` output),
* a recursive descent JSON reader (whitespace, no trailing commas, no leading zeros) followed by the
  field checks of the derived `Deserialize` (missing and duplicate fields are errors, unknown fields
  are ignored, numbers must be in range),
* the file as `Option (List Char)` and `save` as a sequence of steps any of which can fail or be the
  last one before a crash.

Simplifications: JSON strings occur only as field names and without escapes, numbers are integers,
`bool`/`null` do not occur (none of them is produced by `save`); a file containing them is an error.
The `std::io::Error` values are not distinguished.  No page-cache model: bytes handed to the
operating system count as written.
-/

namespace Auburn

/-- the JSON values `save` produces -/
inductive Json where
  | num (n : Int)
  | arr (l : List Json)
  | obj (l : List (List Char × Json))

namespace Json

/-! ### writer -/

/-- one decimal digit -/
def digit (n : Nat) : Char := Char.ofNat (48 + n)

/-- decimal text of a natural number (`itoa`) -/
def natText (n : Nat) : List Char :=
  if _h : n < 10 then [digit n] else natText (n / 10) ++ [digit (n % 10)]
termination_by n

/-- decimal text of an integer -/
def intText : Int → List Char
  | .ofNat n => natText n
  | .negSucc n => '-' :: natText (n + 1)

mutual
/-- compact output of `serde_json::to_writer` -/
def print : Json → List Char
  | .num n => intText n
  | .arr l => '[' :: printElems l
  | .obj l => '{' :: printFields l
/-- the elements and the closing bracket of an array -/
def printElems : List Json → List Char
  | [] => [']']
  | v :: vs => print v ++ printElemsTail vs
/-- the elements after the first one -/
def printElemsTail : List Json → List Char
  | [] => [']']
  | v :: vs => ',' :: (print v ++ printElemsTail vs)
/-- the fields and the closing brace of an object -/
def printFields : List (List Char × Json) → List Char
  | [] => ['}']
  | (k, v) :: vs => '"' :: (k ++ ('"' :: ':' :: (print v ++ printFieldsTail vs)))
/-- the fields after the first one -/
def printFieldsTail : List (List Char × Json) → List Char
  | [] => ['}']
  | (k, v) :: vs => ',' :: '"' :: (k ++ ('"' :: ':' :: (print v ++ printFieldsTail vs)))
end

/-! ### reader -/

/-- JSON whitespace -/
def isWs (c : Char) : Bool := c = ' ' || c = '\n' || c = '\t' || c = '\r'

/-- skip whitespace -/
def skipWs (s : List Char) : List Char := s.dropWhile isWs

/-- a decimal digit -/
def isDigit (c : Char) : Bool := 48 ≤ c.toNat && c.toNat ≤ 57

/-- value of a digit string -/
def digitsVal (l : List Char) : Nat := l.foldl (fun a c => 10 * a + (c.toNat - 48)) 0

/-- digits: at least one, no superfluous leading zero -/
def parseNat (s : List Char) : Option (Nat × List Char) :=
  match s.takeWhile isDigit with
  | [] => none
  | '0' :: _ :: _ => none
  | d => some (digitsVal d, s.dropWhile isDigit)

/-- an integer -/
def parseInt : List Char → Option (Int × List Char)
  | '-' :: t => (parseNat t).map fun r => (-(r.1 : Int), r.2)
  | s => (parseNat s).map fun r => ((r.1 : Int), r.2)

/-- characters allowed in a field name -/
def keyChar (c : Char) : Bool := c ≠ '"' && c ≠ '\\' && 32 ≤ c.toNat

/-- a quoted field name -/
def parseKey : List Char → Option (List Char × List Char)
  | '"' :: t =>
    match t.dropWhile keyChar with
    | '"' :: r => some (t.takeWhile keyChar, r)
    | _ => none
  | _ => none

mutual
/-- a JSON value at the head of the text; the number bounds the recursion -/
def parseVal : Nat → List Char → Option (Json × List Char)
  | 0, _ => none
  | n + 1, s =>
    match skipWs s with
    | '[' :: t =>
      match skipWs t with
      | ']' :: r => some (.arr [], r)
      | _ => (parseElems n t).map fun r => (.arr r.1, r.2)
    | '{' :: t =>
      match skipWs t with
      | '}' :: r => some (.obj [], r)
      | _ => (parseFields n t).map fun r => (.obj r.1, r.2)
    | t => (parseInt t).map fun r => (.num r.1, r.2)
/-- at least one array element, then the closing bracket -/
def parseElems : Nat → List Char → Option (List Json × List Char)
  | 0, _ => none
  | n + 1, s =>
    match parseVal n s with
    | none => none
    | some (v, r) =>
      match skipWs r with
      | ',' :: r' => (parseElems n r').map fun q => (v :: q.1, q.2)
      | ']' :: r' => some ([v], r')
      | _ => none
/-- at least one object field, then the closing brace -/
def parseFields : Nat → List Char → Option (List (List Char × Json) × List Char)
  | 0, _ => none
  | n + 1, s =>
    match parseKey (skipWs s) with
    | none => none
    | some (k, r) =>
      match skipWs r with
      | ':' :: r' =>
        match parseVal n r' with
        | none => none
        | some (v, r2) =>
          match skipWs r2 with
          | ',' :: r3 => (parseFields n r3).map fun q => ((k, v) :: q.1, q.2)
          | '}' :: r3 => some ([(k, v)], r3)
          | _ => none
      | _ => none
end

/-- a whole document: one value and nothing but whitespace after it (`serde_json::from_reader`) -/
def parse (s : List Char) : Option Json :=
  match parseVal (s.length + 1) s with
  | some (v, r) => if skipWs r = [] then some v else none
  | none => none

/-! ### field access of the derived `Deserialize` -/

/-- a required field: missing and duplicate fields are errors -/
def field (name : List Char) : Json → Option Json
  | .obj l =>
    match l.filter fun e => e.1 = name with
    | [e] => some e.2
    | _ => none
  | _ => none

/-- the elements of an array -/
def elems : Json → Option (List Json)
  | .arr l => some l
  | _ => none

/-- `usize` -/
def toNat? : Json → Option Nat
  | .num (.ofNat n) => some n
  | _ => none

/-- `u8` -/
def toU8? (j : Json) : Option UInt8 :=
  match j.toNat? with
  | some n => if n < 256 then some (UInt8.ofNat n) else none
  | none => none

end Json

/-- the serde representation of `lk_math::vector::V2i32` (external; the theorems hold for every
representation that round-trips) -/
structure V2iCodec where
  enc : V2i → Json
  dec : Json → Option V2i

namespace Array2d
/-- derived `Serialize` of `Array2d` (lk_math; the field names appear in tilemap.rs:245-247) -/
def toJson (a : Array2d) : Json :=
  .obj [("dims".toList, .arr [.num a.width, .num a.height]),
    ("dim_strides".toList, .arr [.num 1, .num a.width]),
    ("data".toList, .arr (a.data.map fun b => .num b.toNat))]
/-- derived `Deserialize` of `Array2d` (lk_math).  The strides are read and must be numbers; the
model keeps only the dimensions. -/
def ofJson (j : Json) : Option Array2d := do
  let dims ← (← j.field "dims".toList).elems
  let strides ← (← j.field "dim_strides".toList).elems
  let data ← (← j.field "data".toList).elems
  let ds ← dims.mapM Json.toNat?
  let _ ← strides.mapM Json.toNat?
  let bytes ← data.mapM Json.toU8?
  match ds with
  | [w, h] => some ⟨w, h, bytes⟩
  | _ => none
end Array2d

/-- derived `Serialize` of `Chunk`, tilemap.rs:40-43 -/
def Chunk.toJson (c : Chunk) : Json := .obj [("array2d".toList, c.array2d.toJson)]
/-- derived `Deserialize` of `Chunk`, tilemap.rs:40-43 -/
def Chunk.ofJson (j : Json) : Option Chunk := do
  let a ← Array2d.ofJson (← j.field "array2d".toList)
  some ⟨a⟩

namespace Tilemap

/-- one `(K, V)` pair, `#[serde_as(as = "Vec<(_, _)>")]`, tilemap.rs:33 -/
def pairToJson (C : V2iCodec) (e : V2i × Chunk) : Json := .arr [C.enc e.1, e.2.toJson]
/-- one `(K, V)` pair -/
def pairOfJson (C : V2iCodec) (j : Json) : Option (V2i × Chunk) := do
  match ← j.elems with
  | [k, v] => do
    let k ← C.dec k
    let c ← Chunk.ofJson v
    some (k, c)
  | _ => none

/-- the text `save` writes when the hash map yields its entries in the order `l`;
`#[serde(skip)] events`, tilemap.rs:29-38 -/
def saveText (C : V2iCodec) (l : List (V2i × Chunk)) : List Char :=
  (Json.obj [("chunks".toList, .arr (l.map (pairToJson C)))]).print

/-- `load`, tilemap.rs:222-226: `none` is `Err` (no file, not JSON, or not a tilemap) -/
def load (C : V2iCodec) (file : Option (List Char)) : Option Tilemap := do
  let text ← file
  let j ← Json.parse text
  let l ← (← j.field "chunks".toList).elems
  let pairs ← l.mapM (pairOfJson C)
  some (deserialize pairs)

/-- where `save` is, tilemap.rs:214-220 -/
inductive SavePc where
  /-- before `File::create` -/
  | start
  /-- inside `to_writer`/`flush`, this text still has to reach the file -/
  | writing (todo : List Char)
  /-- returned `Ok(())` / `Err(_)` -/
  | returned (ok : Bool)

/-- the file at the given path (`none`: does not exist) and the position in `save` -/
structure SaveState where
  file : Option (List Char)
  pc : SavePc

/-- one step of `save` of `text`, tilemap.rs:214-220.  A crash can happen between any two steps. -/
inductive SaveStep (text : List Char) : SaveState → SaveState → Prop where
  /-- `File::create(filename)?` fails -/
  | createErr {f} : SaveStep text ⟨f, .start⟩ ⟨f, .returned false⟩
  /-- `File::create(filename)?` creates or truncates the file -/
  | create {f} : SaveStep text ⟨f, .start⟩ ⟨some [], .writing text⟩
  /-- the `BufWriter` hands some bytes to the file, in order (any split, including those written by
  its drop glue after an error) -/
  | write {c a b} : SaveStep text ⟨some c, .writing (a ++ b)⟩ ⟨some (c ++ a), .writing b⟩
  /-- a write, `to_writer` or `flush` fails -/
  | writeErr {f b} : SaveStep text ⟨f, .writing b⟩ ⟨f, .returned false⟩
  /-- `flush()?` succeeded, `Ok(())` -/
  | finish {f} : SaveStep text ⟨f, .writing []⟩ ⟨f, .returned true⟩

/-- the states `save` can be in (and can be interrupted in) when the file was `old` before -/
inductive SaveReach (text : List Char) (old : Option (List Char)) : SaveState → Prop where
  | init : SaveReach text old ⟨old, .start⟩
  | step {s s'} : SaveReach text old s → SaveStep text s s' → SaveReach text old s'

end Tilemap
end Auburn
