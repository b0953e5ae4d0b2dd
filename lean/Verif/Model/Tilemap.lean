import Verif.Model.Detect2d
import Verif.Model.Utils

/-!
# `shape/tilemap.rs`

The chunk `HashMap` is modelled as an association list with map semantics (iteration order is
never observable except through `save`, see `serialize`).  `lk_math::Array2d` is modelled as a
row-major list with bounds-checked `get`/`set`.
-/

namespace Auburn

/-- `CHUNK_SIZE`, tilemap.rs:20 -/
def chunkSize : Nat := 16

/-- `TilemapEvent`, tilemap.rs:22-27 -/
inductive TilemapEvent where
  | chunkCreated (p : V2i)
  | chunkRemoved (p : V2i)
  | chunkChanged (p : V2i)
  deriving DecidableEq, Repr

/-- `lk_math::arraynd::Array2d<u8>` (external; row-major storage) -/
structure Array2d where
  width : Nat
  height : Nat
  data : List UInt8
  deriving DecidableEq, Repr

namespace Array2d
/-- `Array2d::with_dimensions` (lk_math) -/
def withDimensions (w h : Nat) (v : UInt8) : Array2d := ⟨w, h, List.replicate (w * h) v⟩
/-- in-bounds test of `Array2d::get`/`set` (lk_math) -/
def inBounds (a : Array2d) (p : V2i) : Prop :=
  0 ≤ p.x ∧ p.x < a.width ∧ 0 ≤ p.y ∧ p.y < a.height
instance (a : Array2d) (p : V2i) : Decidable (a.inBounds p) := by unfold inBounds; infer_instance
/-- linear index -/
def index (a : Array2d) (p : V2i) : Nat := p.y.toNat * a.width + p.x.toNat
/-- `Array2d::get` (lk_math): `None` out of bounds -/
def get (a : Array2d) (p : V2i) : Option UInt8 :=
  if a.inBounds p then a.data[a.index p]? else none
/-- `Array2d::set` (lk_math): no effect out of bounds -/
def set (a : Array2d) (p : V2i) (v : UInt8) : Array2d :=
  if a.inBounds p then { a with data := a.data.set (a.index p) v } else a
end Array2d

/-- `Chunk`, tilemap.rs:40-43 -/
structure Chunk where
  array2d : Array2d
  deriving DecidableEq, Repr

/-- `Chunk::default`, tilemap.rs:45-51 -/
def Chunk.default : Chunk := ⟨Array2d.withDimensions chunkSize chunkSize 0⟩

/-! ### `HashMap<V2i32, Chunk>` -/

/-- `HashMap` as an association list -/
abbrev ChunkMap := List (V2i × Chunk)
/-- `HashMap::get` -/
def ChunkMap.get (m : ChunkMap) (k : V2i) : Option Chunk := m.lookup k
/-- `HashMap::remove` -/
def ChunkMap.remove (m : ChunkMap) (k : V2i) : ChunkMap := m.filter fun e => e.1 ≠ k
/-- `HashMap::insert` -/
def ChunkMap.insert (m : ChunkMap) (k : V2i) (c : Chunk) : ChunkMap := (k, c) :: m.remove k

/-- `Tilemap`, tilemap.rs:29-38 -/
structure Tilemap where
  chunks : ChunkMap
  events : Ledger TilemapEvent
  deriving DecidableEq, Repr

namespace Tilemap

/-- `Tilemap::default` (derived), tilemap.rs:30 -/
def default : Tilemap := ⟨[], Ledger.new⟩

/-- `V2i32::modular_decompose(CHUNK_SIZE)` (lk_math): floor division and remainder per axis;
`tile_to_chunk_and_local_pos`, tilemap.rs:68-70 -/
def decompose (p : V2i) : V2i × V2i :=
  (⟨p.x / (chunkSize : Int), p.y / (chunkSize : Int)⟩, ⟨p.x % (chunkSize : Int), p.y % (chunkSize : Int)⟩)

/-- `tile_to_chunk_pos`, tilemap.rs:72-75 -/
def tileToChunkPos (p : V2i) : V2i := (decompose p).1

/-- `get_chunk`, tilemap.rs:77-79 -/
def getChunk (m : Tilemap) (p : V2i) : Option Chunk := m.chunks.get p

/-- `get_tile`, tilemap.rs:81-88 -/
def getTile (m : Tilemap) (pos : V2i) : UInt8 :=
  let d := decompose pos
  match m.chunks.get d.1 with
  | some chunk => (chunk.array2d.get d.2).getD 0
  | none => 0

/-- `set_tile`, tilemap.rs:90-107 -/
def setTile (m : Tilemap) (pos : V2i) (tile : UInt8) : Tilemap :=
  let d := decompose pos
  let (created, chunk, events) := match m.chunks.get d.1 with
    | some c => (false, c, m.events)
    | none => (true, Chunk.default, m.events.notify (.chunkCreated d.1))
  match chunk.array2d.get d.2 with
  | some current =>
    if current ≠ tile then
      let events := if !created then events.notify (.chunkChanged d.1) else events
      ⟨m.chunks.insert d.1 ⟨chunk.array2d.set d.2 tile⟩, events⟩
    else ⟨m.chunks.insert d.1 chunk, events⟩
  | none => ⟨m.chunks.insert d.1 chunk, events⟩

/-- `remove_tile`, tilemap.rs:109-117 -/
def removeTile (m : Tilemap) (pos : V2i) : Tilemap :=
  let d := decompose pos
  let chunk := (m.chunks.get d.1).getD Chunk.default
  let chunk : Chunk := ⟨chunk.array2d.set d.2 0⟩
  if chunk.array2d.data.all (fun x => x = 0) then
    ⟨m.chunks.remove d.1, m.events.notify (.chunkRemoved d.1)⟩
  else ⟨m.chunks.insert d.1 chunk, m.events⟩

/-- what `save` hands to serde (tilemap.rs:29-38, 214-220): the sequence of `(key, value)` pairs;
`events` is skipped.  The real order of the pairs is the hash map's iteration order: theorems
quantify over all permutations. -/
def serialize (m : Tilemap) : List (V2i × Chunk) := m.chunks

/-- what `load` builds (tilemap.rs:222-226): collecting pairs into a `HashMap`, default events -/
def deserialize (l : List (V2i × Chunk)) : Tilemap :=
  ⟨l.foldl (fun m e => ChunkMap.insert m e.1 e.2) [], Ledger.new⟩

section
variable {F : Type} [Zero F] [One F] [Add F] [Sub F] [Mul F] [Div F] [Neg F]
  [LT F] [LE F] [DecidableLT F] [DecidableLE F] [FloatExtra F]

/-- `world_to_tile_pos`, tilemap.rs:54-57 -/
def worldToTilePos (p : V2 F) : V2i := ⟨FloatExtra.roundI32 p.x, FloatExtra.roundI32 p.y⟩

/-- `tile_to_world_pos`, tilemap.rs:58-60 -/
def tileToWorldPos (p : V2i) : V2 F := ⟨FloatExtra.ofInt p.x, FloatExtra.ofInt p.y⟩

/-- `quantize`, tilemap.rs:61-66 -/
def quantize (t : Box2d F) (worldPos : V2 F) : Rect2i :=
  ⟨worldToTilePos (worldPos - t.halfsize), worldToTilePos (worldPos + t.halfsize)⟩

/-- the tiles visited by `for_tiles_in_rect`, in order, tilemap.rs:119-147 -/
def tilesInRect (m : Tilemap) (rect : Rect2i) (dirX dirY : F) : List (V2i × UInt8) :=
  let positions :=
    if dirY < 0 then
      if dirX < 0 then rect.iterateSouthWest else rect.iterateSouthEast
    else if dirX < 0 then rect.iterateNorthWest else rect.iterateNorthEast
  positions.map fun p => (p, m.getTile p)

/-- the loop of `simple_resolve_ball`/`simple_resolve_box`, tilemap.rs:152-160, 166-174, for any
shape `S` that has a Minkowski query against `Box2d` -/
def resolveLoop {S : Type} [SdfvCommonRel2d true false S (Box2d F) (V2 F) F] (col : S) :
    List (V2i × UInt8) → V2 F → Except Panic (V2 F)
  | [], pos => .ok pos
  | (p, t) :: rest, pos =>
    if t > 0 then
      let b : Box2d F := ⟨⟨FloatExtra.half, FloatExtra.half⟩⟩
      let delta := tileToWorldPos p - pos
      match penetratesRel col b delta with
      | .error e => .error e
      | .ok none => resolveLoop col rest pos
      | .ok (some error) => resolveLoop col rest (pos + error)
    else resolveLoop col rest pos

/-- `simple_resolve_ball`, tilemap.rs:149-162 -/
def simpleResolveBall (m : Tilemap) (col : Ball F) (pos dir : V2 F) : Except Panic (V2 F) :=
  let bbox := col.boundingBox
  let rect := quantize bbox pos
  resolveLoop col (m.tilesInRect rect dir.x dir.y) pos

/-- `simple_resolve_box`, tilemap.rs:164-176 -/
def simpleResolveBox (m : Tilemap) (col : Box2d F) (pos dir : V2 F) : Except Panic (V2 F) :=
  let rect := quantize col pos
  resolveLoop col (m.tilesInRect rect dir.x dir.y) pos

/-- Tilemap v Point, collision only, tilemap.rs:192-200 -/
instance {T : Type} [Transformation2d T F] : SdfvCommonRel2d false false Tilemap (Point F) T F where
  sdfvCommonRel m _ rel :=
    let tile := m.getTile (worldToTilePos (Transformation2d.applyOrigin rel))
    .ok (decide (tile ≠ 0), V2.nan)

/-- Tilemap v Point, penetration (not implemented upstream: returns `Vec2::Y`),
tilemap.rs:202-211 -/
instance {T : Type} [Transformation2d T F] : SdfvCommonRel2d true false Tilemap (Point F) T F where
  sdfvCommonRel m _ rel :=
    let tile := m.getTile (worldToTilePos (Transformation2d.applyOrigin rel))
    .ok (decide (tile ≠ 0), V2.unitY)

end

end Tilemap

end Auburn
