import Verif.Lib.Tilemap
import Verif.Props.Utils
import Verif.Spec.Sets

/-!
# C49–C55: the tilemap
-/

set_option linter.unusedSectionVars false

namespace Auburn

open Tilemap

/-- what a user can do with a tilemap -/
inductive TileOp where
  | set (p : V2i) (t : UInt8)
  | remove (p : V2i)
  /-- `save` to a file, then continue with the result of `load` -/
  | reload
  /-- take the events out of the public `events` ledger -/
  | drainEvents

/-- One call.  `save` writes the pairs in the hash map's iteration order, i.e. in an arbitrary
order. -/
inductive TileStep : Tilemap → TileOp → Tilemap → Prop where
  | set (m p t) : TileStep m (.set p t) (m.setTile p t)
  | remove (m p) : TileStep m (.remove p) (m.removeTile p)
  | reload (m l) : l.Perm m.serialize → TileStep m .reload (Tilemap.deserialize l)
  | drain (m) : TileStep m .drainEvents { m with events := Ledger.new }

/-- histories starting from `Tilemap::default()`; the latest call is the head of the list -/
inductive TileHistory : List TileOp → Tilemap → Prop where
  | start : TileHistory [] Tilemap.default
  | step {ops m op m'} : TileHistory ops m → TileStep m op m' → TileHistory (op :: ops) m'

/-- the value a history leaves at a tile: the latest write decides, 0 if there is none -/
def lastWrite (p : V2i) : List TileOp → UInt8
  | [] => 0
  | .set q t :: ops => if q = p then t else lastWrite p ops
  | .remove q :: ops => if q = p then 0 else lastWrite p ops
  | .reload :: ops => lastWrite p ops
  | .drainEvents :: ops => lastWrite p ops

theorem deserialize_spec {m : Tilemap} (h : m.WF) {l : List (V2i × Chunk)}
    (hp : l.Perm m.serialize) :
    (Tilemap.deserialize l).WF ∧ (∀ k, (Tilemap.deserialize l).getChunk k = m.getChunk k) := by
  have hn : ChunkMap.NodupKeys l :=
    (List.Perm.nodup_iff (hp.map (fun e : V2i × Chunk => e.1))).2 h.1
  have hget : ∀ k, (Tilemap.deserialize l).getChunk k = m.getChunk k := by
    intro k
    show ChunkMap.get _ k = ChunkMap.get _ k
    rw [show (Tilemap.deserialize l).chunks =
      l.foldl (fun m e => ChunkMap.insert m e.1 e.2) [] from rfl, ChunkMap.get_collect l hn]
    exact ChunkMap.get_perm h.1 hp k
  refine ⟨⟨ChunkMap.NodupKeys.collect l, ?_⟩, hget⟩
  intro k c hc
  have := hget k
  unfold Tilemap.getChunk at this
  rw [this] at hc
  exact h.2 _ _ hc

theorem TileStep.wf {m m' : Tilemap} {op : TileOp} (h : m.WF) (hs : TileStep m op m') : m'.WF := by
  cases hs with
  | set p t => exact h.setTile p t
  | remove p => exact h.removeTile p
  | reload l hp => exact (deserialize_spec h hp).1
  | drain => exact h

theorem TileHistory.wf {ops : List TileOp} {m : Tilemap} (h : TileHistory ops m) : m.WF := by
  induction h with
  | start => exact WF.default
  | step _ hs ih => exact hs.wf ih

theorem getTile_congr {m m' : Tilemap} (h : ∀ k, m'.getChunk k = m.getChunk k) (p : V2i) :
    m'.getTile p = m.getTile p := by
  unfold Tilemap.getChunk at h
  rw [getTile_eq, getTile_eq, h]

/-! ## C49 -/

/-- After any history of `set_tile`, `remove_tile`, save/load and event draining, `get_tile` returns
the last value written at that position (0 if removed last or never written). -/
theorem C49_tilemap_refines_map {ops : List TileOp} {m : Tilemap} (h : TileHistory ops m)
    (p : V2i) : m.getTile p = lastWrite p ops := by
  induction h with
  | start => rfl
  | step hh hs ih =>
    cases hs with
    | set q t =>
      rw [getTile_setTile hh.wf, lastWrite, ih]
      simp only [eq_comm]
    | remove q =>
      rw [getTile_removeTile hh.wf, lastWrite, ih]
      simp only [eq_comm]
    | reload l hp =>
      rw [getTile_congr (deserialize_spec hh.wf hp).2, lastWrite, ih]
    | drain => rw [lastWrite, ← ih]; rfl

/-- histories exist for every sequence of calls -/
theorem tileHistory_exists (ops : List TileOp) : ∃ m, TileHistory ops m := by
  induction ops with
  | nil => exact ⟨_, .start⟩
  | cons op ops ih =>
    obtain ⟨m, hm⟩ := ih
    cases op with
    | set p t => exact ⟨_, hm.step (.set m p t)⟩
    | remove p => exact ⟨_, hm.step (.remove m p)⟩
    | reload => exact ⟨_, hm.step (.reload m _ (List.Perm.refl _))⟩
    | drainEvents => exact ⟨_, hm.step (.drain m)⟩

/-- a test: two tiles of the same chunk, one of another (negative coordinates) -/
example : let m := ((Tilemap.default.setTile ⟨-1, 3⟩ 7).setTile ⟨-16, 15⟩ 9).removeTile ⟨-1, 3⟩
    m.getTile ⟨-1, 3⟩ = 0 ∧ m.getTile ⟨-16, 15⟩ = 9 ∧ m.getTile ⟨0, 3⟩ = 0 := by
  simp only
  have h1 := WF.default.setTile ⟨-1, 3⟩ 7
  have h2 := h1.setTile ⟨-16, 15⟩ 9
  simp [getTile_removeTile h2, getTile_setTile h1, getTile_setTile WF.default]
  rfl

/-! ## C50 -/

/-- every tile splits into a chunk and an in-range local position; every such pair comes from
exactly one tile -/
theorem C50_chunk_decomposition :
    (∀ p : V2i, 0 ≤ (decompose p).2.x ∧ (decompose p).2.x < 16 ∧ 0 ≤ (decompose p).2.y ∧
      (decompose p).2.y < 16 ∧ p.x = 16 * (decompose p).1.x + (decompose p).2.x ∧
      p.y = 16 * (decompose p).1.y + (decompose p).2.y ∧ tileToChunkPos p = (decompose p).1) ∧
    (∀ c l : V2i, 0 ≤ l.x → l.x < 16 → 0 ≤ l.y → l.y < 16 → ∃ p, decompose p = (c, l) ∧
      ∀ q, decompose q = (c, l) → q = p) := by
  constructor
  · intro p
    simp only [decompose, chunkSize, tileToChunkPos]
    refine ⟨by omega, by omega, by omega, by omega, by omega, by omega, trivial⟩
  · intro c l h1 h2 h3 h4
    refine ⟨⟨c.x * 16 + l.x, c.y * 16 + l.y⟩, decompose_mk ⟨h1, h2, h3, h4⟩, ?_⟩
    intro q hq
    rw [decompose_eq_iff, decompose_mk ⟨h1, h2, h3, h4⟩, hq]; exact ⟨rfl, rfl⟩

/-- an `i32` -/
def InI32 (n : Int) : Prop := -2 ^ 31 ≤ n ∧ n < 2 ^ 31

/-- The model computes chunk and local positions with unbounded integers; the crate does so in
`i32`.  For `i32` tile positions every result is far inside the `i32` range, so nothing wraps or
overflows, for any of the `2^64` tiles. -/
theorem C50_no_overflow {p : V2i} (hx : InI32 p.x) (hy : InI32 p.y) :
    -2 ^ 27 ≤ (decompose p).1.x ∧ (decompose p).1.x < 2 ^ 27 ∧
    -2 ^ 27 ≤ (decompose p).1.y ∧ (decompose p).1.y < 2 ^ 27 ∧
    InI32 (decompose p).2.x ∧ InI32 (decompose p).2.y := by
  simp only [decompose, chunkSize, InI32] at *
  refine ⟨by omega, by omega, by omega, by omega, ⟨by omega, by omega⟩, ⟨by omega, by omega⟩⟩

/-- the extreme tile -/
example : InI32 (-2147483648) ∧ decompose ⟨-2147483648, 2147483647⟩ =
    (⟨-134217728, 134217727⟩, ⟨0, 15⟩) := by
  refine ⟨⟨by norm_num, by norm_num⟩, by decide +kernel⟩

/-! ## C51 -/

/-- chunk position and tile position inside a chunk -/
def InChunk (k p : V2i) : Prop :=
  16 * k.x ≤ p.x ∧ p.x < 16 * k.x + 16 ∧ 16 * k.y ≤ p.y ∧ p.y < 16 * k.y + 16

theorem inChunk_iff (k p : V2i) : InChunk k p ↔ (decompose p).1 = k := by
  simp only [InChunk, decompose, chunkSize, V2i.ext_iff]
  omega

/-- After any history: every stored chunk is a 16 × 16 array whose entries are exactly the map's
tiles of that chunk; a chunk with a non-zero tile is stored; absent chunks read as zero. -/
theorem C51_chunk_bookkeeping {ops : List TileOp} {m : Tilemap} (h : TileHistory ops m) (k : V2i) :
    (∀ c, m.getChunk k = some c →
      c.array2d.width = 16 ∧ c.array2d.height = 16 ∧ c.array2d.data.length = 256 ∧
      ∀ l : V2i, 0 ≤ l.x → l.x < 16 → 0 ≤ l.y → l.y < 16 →
        c.array2d.get l = some (m.getTile ⟨16 * k.x + l.x, 16 * k.y + l.y⟩)) ∧
    (m.getChunk k = none → ∀ p, InChunk k p → m.getTile p = 0) := by
  have hw := h.wf
  constructor
  · intro c hc
    have hs := hw.2 k c hc
    refine ⟨hs.1, hs.2.1, hs.2.2, ?_⟩
    intro l h1 h2 h3 h4
    have hl : LocalPos l := ⟨h1, h2, h3, h4⟩
    rw [hs.get_eq hl, getTile_eq]
    have hd : decompose ⟨16 * k.x + l.x, 16 * k.y + l.y⟩ = (k, l) := by
      rw [mul_comm 16 k.x, mul_comm 16 k.y]; exact decompose_mk hl
    unfold Tilemap.getChunk at hc
    rw [hd, hc]
  · intro hc p hp
    rw [inChunk_iff] at hp
    unfold Tilemap.getChunk at hc
    rw [getTile_eq, hp, hc]

/-- the chunk touched by `remove_tile` is kept exactly if it still has a non-zero tile -/
theorem C51_remove_keeps_no_empty_chunk {ops : List TileOp} {m : Tilemap} (h : TileHistory ops m)
    (p : V2i) :
    ((m.removeTile p).getChunk (tileToChunkPos p)).isSome = true ↔
      ∃ q, InChunk (tileToChunkPos p) q ∧ (m.removeTile p).getTile q ≠ 0 := by
  have hw := h.wf
  have hw' := hw.removeTile p
  have hs := (hw.sized_getD (decompose p).1).set (decompose p).2 0
  constructor
  · intro hsome
    unfold Tilemap.removeTile at hsome
    simp only at hsome
    split_ifs at hsome with hall
    · unfold Tilemap.getChunk tileToChunkPos at hsome
      rw [ChunkMap.get_remove] at hsome
      simp at hsome
    · rw [hs.all_zero_iff] at hall
      push Not at hall
      obtain ⟨l, hl, hne⟩ := hall
      refine ⟨⟨(decompose p).1.x * 16 + l.x, (decompose p).1.y * 16 + l.y⟩, ?_, ?_⟩
      · rw [inChunk_iff, decompose_mk hl]; rfl
      · rw [getTile_eq, decompose_mk hl]
        have hg : (m.removeTile p).chunks.get (decompose p).1 =
            some ⟨((m.chunks.get (decompose p).1).getD Chunk.default).array2d.set
              (decompose p).2 0⟩ := by
          unfold Tilemap.removeTile
          simp only
          rw [if_neg (by rw [hs.all_zero_iff]; push Not; exact ⟨l, hl, hne⟩),
            ChunkMap.get_insert, if_pos rfl]
        rw [hg]; exact hne
  · rintro ⟨q, hq, hne⟩
    by_contra hn
    rw [Bool.not_eq_true, Option.isSome_eq_false_iff, Option.isNone_iff_eq_none] at hn
    have := (C51_chunk_bookkeeping (h.step (.remove m p)) (tileToChunkPos p)).2 hn q hq
    exact hne this

/-- Finding (documented behaviour of the code, not of the property): writing tile 0 at an unused
place creates an all-zero chunk. -/
theorem C51_set_zero_creates_chunk :
    ((Tilemap.default.setTile ⟨0, 0⟩ 0).getChunk ⟨0, 0⟩).isSome = true := by
  rw [setTile_eq WF.default]; rfl

/-! ## C52 -/

/-- the set of existing chunks -/
def Tilemap.chunkSet (m : Tilemap) : Set V2i := {k | m.getChunk k ≠ none}

/-- replaying events on a set of chunks -/
def replayEvent (s : Set V2i) : TilemapEvent → Set V2i
  | .chunkCreated k => s ∪ {k}
  | .chunkRemoved k => s \ {k}
  | .chunkChanged _ => s

/-- Exactly which events a `set_tile` call appends: `ChunkCreated` if the chunk did not exist,
otherwise `ChunkChanged` if the tile changes. -/
theorem C52_set_tile_events {ops : List TileOp} {m : Tilemap} (h : TileHistory ops m) (p : V2i)
    (t : UInt8) :
    (m.setTile p t).events.events = m.events.events ++
      (if m.getChunk (tileToChunkPos p) = none then [.chunkCreated (tileToChunkPos p)]
       else if m.getTile p ≠ t then [.chunkChanged (tileToChunkPos p)] else []) := by
  rw [setTile_eq h.wf, getTile_eq]
  unfold Tilemap.getChunk tileToChunkPos
  cases hg : m.chunks.get (decompose p).1 with
  | none => simp [Ledger.notify]
  | some c =>
    simp only [reduceCtorEq, if_false]
    split_ifs <;> simp [Ledger.notify]

/-- Exactly which events a `remove_tile` call appends: `ChunkRemoved` iff afterwards all tiles of
the chunk are zero; nothing otherwise. -/
theorem C52_remove_tile_events {ops : List TileOp} {m : Tilemap} (h : TileHistory ops m) (p : V2i) :
    ((∀ q, InChunk (tileToChunkPos p) q → (m.removeTile p).getTile q = 0) →
      (m.removeTile p).events.events = m.events.events ++ [.chunkRemoved (tileToChunkPos p)]) ∧
    (¬ (∀ q, InChunk (tileToChunkPos p) q → (m.removeTile p).getTile q = 0) →
      (m.removeTile p).events.events = m.events.events) := by
  have hk := C51_remove_keeps_no_empty_chunk h p
  have hsome : ((m.removeTile p).getChunk (tileToChunkPos p)).isSome = true ↔
      ¬ (m.removeTile p).events.events = m.events.events ++ [.chunkRemoved (tileToChunkPos p)] ∧
        (m.removeTile p).events.events = m.events.events := by
    unfold Tilemap.removeTile Tilemap.getChunk tileToChunkPos
    simp only
    split_ifs with hall
    · rw [ChunkMap.get_remove]; simp [Ledger.notify]
    · rw [ChunkMap.get_insert]; simp
  have hnone : ¬ ((m.removeTile p).getChunk (tileToChunkPos p)).isSome = true →
      (m.removeTile p).events.events = m.events.events ++ [.chunkRemoved (tileToChunkPos p)] := by
    unfold Tilemap.removeTile Tilemap.getChunk tileToChunkPos
    simp only
    split_ifs with hall
    · intro _; rfl
    · rw [ChunkMap.get_insert]; simp
  constructor
  · intro hz
    apply hnone
    rw [hk]; push Not; exact hz
  · intro hz
    exact (hsome.1 (hk.2 (by push Not at hz; exact hz))).2

/-- Replaying the events appended by any call to `set_tile`/`remove_tile` on the set of chunks
before the call gives the set of chunks after it (so over any run the ledger tracks the chunk set);
old events are never altered. -/
theorem C52_replay {ops : List TileOp} {m : Tilemap} (h : TileHistory ops m) {m' : Tilemap}
    (hs : (∃ p t, m' = m.setTile p t) ∨ ∃ p, m' = m.removeTile p) :
    ∃ new, m'.events.events = m.events.events ++ new ∧
      new.foldl replayEvent m.chunkSet = m'.chunkSet := by
  rcases hs with ⟨p, t, rfl⟩ | ⟨p, rfl⟩
  · rw [setTile_eq h.wf]
    cases hg : m.chunks.get (decompose p).1 with
    | none =>
      refine ⟨[.chunkCreated (decompose p).1], rfl, ?_⟩
      ext k
      simp only [List.foldl_cons, List.foldl_nil, replayEvent, Tilemap.chunkSet,
        Tilemap.getChunk, Set.mem_union, Set.mem_ofPred_eq, Set.mem_singleton_iff,
        ChunkMap.get_insert]
      split_ifs with hk <;> simp [hk]
    | some c =>
      have : ∀ e : Ledger TilemapEvent, Tilemap.chunkSet
          ⟨m.chunks.insert (decompose p).1 ⟨c.array2d.set (decompose p).2 t⟩, e⟩ = m.chunkSet := by
        intro e
        ext k
        simp only [Tilemap.chunkSet, Tilemap.getChunk, Set.mem_ofPred_eq, ChunkMap.get_insert]
        split_ifs with hk <;> simp [hk, hg]
      simp only [this]
      by_cases hc : c.tile (decompose p).2 ≠ t
      · exact ⟨[.chunkChanged (decompose p).1], by simp [hc, Ledger.notify], rfl⟩
      · exact ⟨[], by simp [hc], rfl⟩
  · unfold Tilemap.removeTile
    simp only
    split_ifs with hall
    · refine ⟨[.chunkRemoved (decompose p).1], rfl, ?_⟩
      ext k
      simp only [List.foldl_cons, List.foldl_nil, replayEvent, Tilemap.chunkSet,
        Tilemap.getChunk, Set.mem_sdiff, Set.mem_ofPred_eq, Set.mem_singleton_iff,
        ChunkMap.get_remove]
      split_ifs with hk <;> simp [hk]
    · refine ⟨[], by simp, ?_⟩
      ext k
      simp only [List.foldl_nil, Tilemap.chunkSet, Tilemap.getChunk, Set.mem_ofPred_eq,
        ChunkMap.get_insert]
      split_ifs with hk
      · subst hk
        -- the chunk still has a non-zero tile, so it existed before
        have hs := h.wf.sized_getD (decompose p).1
        rw [(hs.set (decompose p).2 0).all_zero_iff] at hall
        push Not at hall
        obtain ⟨l, hl, hne⟩ := hall
        rw [hs.tile_set (decompose_local p) hl] at hne
        simp only [ne_eq, reduceCtorEq, not_false_eq_true, iff_true]
        intro hnone
        rw [hnone] at hne
        simp [Chunk.default_tile] at hne
      · rfl

/-- over a whole run without reload/drain, from any reachable state -/
theorem C52_replay_run {ops : List TileOp} {m : Tilemap} (h : TileHistory ops m)
    (run : List (V2i × Option UInt8)) :
    let m' := run.foldl (fun m c => match c.2 with
      | some t => m.setTile c.1 t
      | none => m.removeTile c.1) m
    ∃ new, m'.events.events = m.events.events ++ new ∧
      new.foldl replayEvent m.chunkSet = m'.chunkSet := by
  induction run generalizing m ops with
  | nil => exact ⟨[], by simp, rfl⟩
  | cons c run ih =>
    obtain ⟨p, o⟩ := c
    simp only [List.foldl_cons]
    cases o with
    | some t =>
      obtain ⟨n1, h1, h2⟩ := C52_replay h (Or.inl ⟨p, t, rfl⟩)
      obtain ⟨n2, h3, h4⟩ := ih (h.step (.set m p t))
      exact ⟨n1 ++ n2, by simp only; rw [h3, h1, List.append_assoc], by
        rw [List.foldl_append, h2]; exact h4⟩
    | none =>
      obtain ⟨n1, h1, h2⟩ := C52_replay h (Or.inr ⟨p, rfl⟩)
      obtain ⟨n2, h3, h4⟩ := ih (h.step (.remove m p))
      exact ⟨n1 ++ n2, by simp only; rw [h3, h1, List.append_assoc], by
        rw [List.foldl_append, h2]; exact h4⟩

/-- Finding: removing a tile of a chunk that keeps other tiles changes visible contents without any
event. -/
theorem C52_remove_silent_finding :
    let m := (Tilemap.default.setTile ⟨0, 0⟩ 1).setTile ⟨1, 0⟩ 1
    m.getTile ⟨0, 0⟩ ≠ (m.removeTile ⟨0, 0⟩).getTile ⟨0, 0⟩ ∧
      (m.removeTile ⟨0, 0⟩).events = m.events := by
  intro m
  have h1 := WF.default.setTile ⟨0, 0⟩ 1
  have h2 := h1.setTile ⟨1, 0⟩ 1
  constructor
  · simp only [m]
    rw [getTile_removeTile h2, getTile_setTile h1, getTile_setTile WF.default]
    decide
  · have hist : TileHistory [.set ⟨1, 0⟩ 1, .set ⟨0, 0⟩ 1] m :=
      (TileHistory.start.step (.set _ _ _)).step (.set _ _ _)
    have := (C52_remove_tile_events hist ⟨0, 0⟩).2 (by
      intro hz
      have h3 := hz ⟨1, 0⟩ (by simp [InChunk, tileToChunkPos, decompose])
      rw [getTile_removeTile h2, getTile_setTile h1] at h3
      revert h3; decide)
    have hl : ∀ l l' : Ledger TilemapEvent, l.events = l'.events → l = l' := by
      intro l l' h; cases l; cases l'; simpa using h
    exact hl _ _ this

/-- Finding: removing from an empty place reports the removal of a chunk that never existed. -/
theorem C52_remove_phantom_finding :
    (Tilemap.default.removeTile ⟨0, 0⟩).events.events = [.chunkRemoved ⟨0, 0⟩] ∧
      Tilemap.default.getChunk ⟨0, 0⟩ = none := by
  constructor
  · have := (C52_remove_tile_events .start ⟨0, 0⟩).1 (by
      intro q _
      rw [getTile_removeTile WF.default]
      split_ifs <;> rfl)
    rw [this]; rfl
  · rfl

/-! ## C53 -/

/-- `load` of what `save` wrote (in any iteration order of the hash map) has the same tiles and the
same chunks, and an empty event ledger. -/
theorem C53_save_load {ops : List TileOp} {m : Tilemap} (h : TileHistory ops m)
    {l : List (V2i × Chunk)} (hl : l.Perm m.serialize) :
    (∀ p, (Tilemap.deserialize l).getTile p = m.getTile p) ∧
    (∀ k, (Tilemap.deserialize l).getChunk k = m.getChunk k) ∧
    (Tilemap.deserialize l).events.events = [] :=
  ⟨getTile_congr (deserialize_spec h.wf hl).2, (deserialize_spec h.wf hl).2, rfl⟩

/-! ## C54, C55 -/

section
variable {K : Type} [Field K] [LinearOrder K] [IsStrictOrderedRing K] [FloatExtra K] [ExactFloat K]

/-- the open unit cell of a tile, centred at its integer coordinates -/
def tileCell (t : V2i) : Set (V2 K) := {p | |p.x - t.x| < 1 / 2 ∧ |p.y - t.y| < 1 / 2}
/-- the closed unit cell -/
def tileCellClosed (t : V2i) : Set (V2 K) := {p | |p.x - t.x| ≤ 1 / 2 ∧ |p.y - t.y| ≤ 1 / 2}

theorem round_of_cell {x : K} {n : Int} (h : |x - n| < 1 / 2) : FloatExtra.roundI32 x = n := by
  have hr := ExactFloat.round_near x
  rw [abs_le] at hr
  rw [abs_lt] at h
  have h1 : ((FloatExtra.roundI32 x : Int) : K) < n + 1 := by linarith [h.1, h.2, hr.1, hr.2]
  have h2 : (n : K) < (FloatExtra.roundI32 x : Int) + 1 := by linarith [h.1, h.2, hr.1, hr.2]
  have h1' : FloatExtra.roundI32 x < n + 1 := by exact_mod_cast h1
  have h2' : n < FloatExtra.roundI32 x + 1 := by exact_mod_cast h2
  omega

/-- A point in the open cell of a tile collides iff that tile is non-zero; in general the answer is
that of some tile whose closed cell contains the point. -/
theorem C54_tilemap_point {T : Type} [Transformation2d T K] (m : Tilemap) (rel : T) (tile : V2i) :
    (Transformation2d.applyOrigin rel ∈ tileCell (K := K) tile →
      (collidesRel m (Point.mk : Point K) rel = .ok true ↔ m.getTile tile ≠ 0) ∧
      (penetratesRel m (Point.mk : Point K) rel ≠ .ok none ↔ m.getTile tile ≠ 0)) ∧
    (∃ t, Transformation2d.applyOrigin rel ∈ tileCellClosed (K := K) t ∧
      collidesRel m (Point.mk : Point K) rel = .ok (decide (m.getTile t ≠ 0))) := by
  constructor
  · rintro ⟨hx, hy⟩
    have : worldToTilePos (Transformation2d.applyOrigin rel) = tile := by
      unfold worldToTilePos
      rw [round_of_cell hx, round_of_cell hy]
    constructor
    · simp only [collidesRel, SdfvCommonRel2d.sdfvCommonRel, this, Except.map, Except.ok.injEq,
        decide_eq_true_eq]
    · simp only [penetratesRel, SdfvCommonRel2d.sdfvCommonRel, this, Except.map]
      by_cases h : m.getTile tile = 0 <;> simp [h]
  · refine ⟨worldToTilePos (Transformation2d.applyOrigin rel),
      ⟨ExactFloat.round_near _, ExactFloat.round_near _⟩, rfl⟩

/-- The vector of Tilemap v Point is the constant `(0, 1)` (a placeholder upstream). -/
theorem C54_tilemap_point_vector {T : Type} [Transformation2d T K] (m : Tilemap) (rel : T) :
    penetratesRel m (Point.mk : Point K) rel =
      .ok (if collidesRel m (Point.mk : Point K) rel = .ok true then some ⟨0, 1⟩ else none) := by
  simp only [penetratesRel, collidesRel, SdfvCommonRel2d.sdfvCommonRel, Except.map, V2.unitY,
    Except.ok.injEq, decide_eq_true_eq]

/-- Finding: so it need not resolve the collision: there is a map and a point for which `penetrates`
returns a vector, and after moving the map by this vector the point still collides. -/
theorem C54_penetrates_not_resolving_finding : ∃ (m : Tilemap) (p v : V2 K),
    penetratesRel m (Point.mk : Point K) p = .ok (some v) ∧
    collidesRel m (Point.mk : Point K) (p - v) = .ok true := by
  have r0 : FloatExtra.roundI32 (0 : K) = 0 := round_of_cell (n := 0) (by simp)
  have r1 : FloatExtra.roundI32 (-1 : K) = -1 := round_of_cell (n := -1) (by simp)
  obtain ⟨m, h0, h1⟩ : ∃ m : Tilemap, m.getTile ⟨0, 0⟩ ≠ 0 ∧ m.getTile ⟨0, -1⟩ ≠ 0 := by
    obtain ⟨m, hm⟩ := tileHistory_exists [.set ⟨0, 0⟩ 1, .set ⟨0, -1⟩ 1]
    refine ⟨m, ?_, ?_⟩ <;> rw [C49_tilemap_refines_map hm] <;> decide
  refine ⟨m, 0, ⟨0, 1⟩, ?_, ?_⟩
  · rw [C54_tilemap_point_vector, if_pos]
    show Except.ok (decide (m.getTile ⟨FloatExtra.roundI32 (0 : K), FloatExtra.roundI32 (0 : K)⟩ ≠ 0)) = _
    rw [r0]; simp [h0]
  · show Except.ok (decide (m.getTile ⟨FloatExtra.roundI32 ((0 : K) - 0), FloatExtra.roundI32 ((0 : K) - 1)⟩ ≠ 0)) = _
    rw [sub_zero, zero_sub, r0, r1]; simp [h1]

/-- `quantize` returns a rectangle that contains every tile whose cell's interior meets the box, and
only tiles whose closed cell meets the box. -/
theorem C55_quantize (b : Box2d K) (pos : V2 K) (hb : 0 ≤ b.halfsize.x ∧ 0 ≤ b.halfsize.y)
    (t : V2i) :
    (Touch (shift pos (Region.pts b)) (tileCell t) → (quantize b pos).Contains t) ∧
    ((quantize b pos).Contains t → Touch (shift pos (Region.pts b)) (tileCellClosed t)) := by
  constructor
  · rintro ⟨p, ⟨q, ⟨hqx, hqy⟩, rfl⟩, hx, hy⟩
    simp only [V2.add_x, V2.add_y] at hx hy
    rw [abs_le] at hqx hqy
    rw [abs_lt] at hx hy
    have low : ∀ (c h x : K) (n : Int), -h ≤ x → x + c - n < 1 / 2 →
        FloatExtra.roundI32 (c - h) ≤ n := by
      intro c h x n h1 h2
      have hr := abs_le.1 (ExactFloat.round_near (c - h))
      have : ((FloatExtra.roundI32 (c - h) : Int) : K) < n + 1 := by linarith [hr.1, hr.2]
      have : FloatExtra.roundI32 (c - h) < n + 1 := by exact_mod_cast this
      omega
    have high : ∀ (c h x : K) (n : Int), x ≤ h → -(1 / 2) < x + c - n →
        n ≤ FloatExtra.roundI32 (c + h) := by
      intro c h x n h1 h2
      have hr := abs_le.1 (ExactFloat.round_near (c + h))
      have : (n : K) < (FloatExtra.roundI32 (c + h) : Int) + 1 := by linarith [hr.1, hr.2]
      have : n < FloatExtra.roundI32 (c + h) + 1 := by exact_mod_cast this
      omega
    exact ⟨low _ _ _ _ hqx.1 hx.2, high _ _ _ _ hqx.2 hx.1, low _ _ _ _ hqy.1 hy.2,
      high _ _ _ _ hqy.2 hy.1⟩
  · rintro ⟨h1, h2, h3, h4⟩
    have clampx : ∀ (c h : K) (n : Int), 0 ≤ h → FloatExtra.roundI32 (c - h) ≤ n →
        n ≤ FloatExtra.roundI32 (c + h) → ∃ x : K, |x| ≤ h ∧ |x + c - n| ≤ 1 / 2 := by
      intro c h n hh hl hu
      have hr1 := abs_le.1 (ExactFloat.round_near (c - h))
      have hr2 := abs_le.1 (ExactFloat.round_near (c + h))
      have hl' : ((FloatExtra.roundI32 (c - h) : Int) : K) ≤ n := by exact_mod_cast hl
      have hu' : (n : K) ≤ (FloatExtra.roundI32 (c + h) : Int) := by exact_mod_cast hu
      by_cases ha : (n : K) - c ≤ -h
      · exact ⟨-h, by rw [abs_neg, abs_of_nonneg hh], by rw [abs_le]; constructor <;> linarith [hr1.1, hr1.2]⟩
      · by_cases hb : h ≤ (n : K) - c
        · exact ⟨h, by rw [abs_of_nonneg hh], by rw [abs_le]; constructor <;> linarith [hr2.1, hr2.2]⟩
        · exact ⟨n - c, by rw [abs_le]; constructor <;> linarith, by
            rw [show (n : K) - c + c - n = 0 by ring]; norm_num⟩
    obtain ⟨x, hx, hx'⟩ := clampx pos.x b.halfsize.x t.x hb.1 h1 h2
    obtain ⟨y, hy, hy'⟩ := clampx pos.y b.halfsize.y t.y hb.2 h3 h4
    exact ⟨⟨x, y⟩ + pos, ⟨⟨x, y⟩, ⟨hx, hy⟩, rfl⟩, hx', hy'⟩

end

/-- a test -/
example : ∃ _ : FloatExtra ℚ, quantize (⟨⟨3 / 4, 1 / 4⟩⟩ : Box2d ℚ) ⟨1 / 2, 1⟩ =
    ⟨⟨0, 1⟩, ⟨1, 1⟩⟩ := ⟨ratFloat, by decide +kernel⟩

end Auburn
