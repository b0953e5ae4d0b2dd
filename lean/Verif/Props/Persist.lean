import Verif.Lib.Persist
import Verif.Props.Tilemap

/-!
# C72: `Tilemap::save` / `load` at the level of the file, with crashes and I/O errors at any point

Quantified over: every tilemap a history of calls can produce, every iteration order of its hash
map, every round-tripping representation of positions, every previous content of the file, every
split of the text into writes, and every point at which `save` fails or the program dies.
-/

namespace Auburn

open Tilemap

/-- loading the file succeeds and gives back the tiles and chunks of `m`, with no pending events -/
def LoadsAs (C : V2iCodec) (file : Option (List Char)) (m : Tilemap) : Prop :=
  ∃ m', load C file = some m' ∧ (∀ p, m'.getTile p = m.getTile p) ∧
    (∀ k, m'.getChunk k = m.getChunk k) ∧ m'.events.events = []

theorem loadsAs_saveText {C : V2iCodec} (hC : C.Ok) {ops : List TileOp} {m : Tilemap}
    (h : TileHistory ops m) {l : List (V2i × Chunk)} (hl : l.Perm m.serialize) :
    LoadsAs C (some (saveText C l)) m :=
  ⟨_, load_saveText hC l, C53_save_load h hl⟩

/-- If `save` returns `Ok`, `load` gives back the saved map, whatever was in the file before. -/
theorem C72_save_ok_load {C : V2iCodec} (hC : C.Ok) {ops : List TileOp} {m : Tilemap}
    (h : TileHistory ops m) {l : List (V2i × Chunk)} (hl : l.Perm m.serialize)
    {old file : Option (List Char)} (hs : SaveReach (saveText C l) old ⟨file, .returned true⟩) :
    LoadsAs C file m := by
  have : file = some (saveText C l) := hs.inv
  rw [this]
  exact loadsAs_saveText hC h hl

/-- Whatever happens during `save` - an I/O error or a crash at any point - the file afterwards
is untouched (only if `save` had not yet got past `File::create`, or failed there), or `load`
reports an error, or `load` gives back exactly the map being saved: never a mixture, and never a
partial map. -/
theorem C72_interrupted_save {C : V2iCodec} (hC : C.Ok) {ops : List TileOp} {m : Tilemap}
    (h : TileHistory ops m) {l : List (V2i × Chunk)} (hl : l.Perm m.serialize)
    {old : Option (List Char)} {s : SaveState} (hs : SaveReach (saveText C l) old s) :
    (s.file = old ∧ (s.pc = .start ∨ s.pc = .returned false)) ∨ load C s.file = none ∨
      LoadsAs C s.file m := by
  have key : ∀ c, c <+: saveText C l → load C (some c) = none ∨ LoadsAs C (some c) m := by
    intro c hc
    by_cases he : c = saveText C l
    · exact Or.inr (he ▸ loadsAs_saveText hC h hl)
    · exact Or.inl (load_prefix hC hc he)
  have hi := hs.inv
  obtain ⟨f, pc⟩ := s
  cases pc with
  | start => exact Or.inl ⟨hi, Or.inl rfl⟩
  | writing todo =>
    obtain ⟨c, h1, h2⟩ := hi
    simp only at h1
    rw [h1]
    exact Or.inr (key c ⟨_, h2⟩)
  | returned ok =>
    cases ok with
    | true =>
      have h1 : f = some (saveText C l) := hi
      simp only [h1]
      exact Or.inr (key _ (List.prefix_refl _))
    | false =>
      rcases hi with h1 | ⟨c, h1, h2⟩
      · exact Or.inl ⟨h1, Or.inr rfl⟩
      · simp only at h1
        rw [h1]
        exact Or.inr (key c h2)

/-- the file after a sequence of `save` calls, each of which may have been interrupted anywhere; the
list holds the maps that were being saved, the latest first -/
inductive FileHistory (C : V2iCodec) : List Tilemap → Option (List Char) → Prop where
  | none : FileHistory C [] none
  | save {ms f ops m l s} : FileHistory C ms f → TileHistory ops m → l.Perm m.serialize →
      SaveReach (saveText C l) f s → FileHistory C (m :: ms) s.file

/-- After any sequence of completed, failed and interrupted saves, `load` reports an error or gives
back one of the maps that were saved. -/
theorem C72_load_after_any_saves {C : V2iCodec} (hC : C.Ok) {ms : List Tilemap}
    {f : Option (List Char)} (h : FileHistory C ms f) :
    load C f = none ∨ ∃ m ∈ ms, LoadsAs C f m := by
  induction h with
  | none => exact Or.inl rfl
  | save _ hm hl hs ih =>
    rcases C72_interrupted_save hC hm hl hs with ⟨h1, _⟩ | h1 | h1
    · rw [h1]
      rcases ih with h2 | ⟨m, h2, h3⟩
      · exact Or.inl h2
      · exact Or.inr ⟨m, List.mem_cons_of_mem _ h2, h3⟩
    · exact Or.inl h1
    · exact Or.inr ⟨_, List.mem_cons_self, h1⟩

/-- `save` is not atomic: it truncates the existing file first, so for every map and every previous
content there is a point at which a crash (or an I/O error reported as `Err`) leaves a file that
`load` rejects - the previous save is lost. -/
theorem C72_save_not_atomic_finding (C : V2iCodec) (l : List (V2i × Chunk))
    (old : Option (List Char)) :
    (∃ s, SaveReach (saveText C l) old s ∧ load C s.file = none) ∧
    (∃ s, SaveReach (saveText C l) old s ∧ s.pc = .returned false ∧ load C s.file = none) :=
  ⟨⟨_, .step .init .create, rfl⟩, ⟨_, .step (.step .init .create) .writeErr, rfl, rfl⟩⟩

/-- positions as `[x, y]` -/
def arrayCodec : V2iCodec where
  enc p := .arr [.num p.x, .num p.y]
  dec
    | .arr [.num x, .num y] => some ⟨x, y⟩
    | _ => none

/-- positions as `{"x": x, "y": y}` -/
def structCodec : V2iCodec where
  enc p := .obj [(['x'], .num p.x), (['y'], .num p.y)]
  dec
    | .obj [(['x'], .num x), (['y'], .num y)] => some ⟨x, y⟩
    | _ => none

theorem arrayCodec_ok : arrayCodec.Ok :=
  ⟨fun _ => rfl, fun _ => by simp [arrayCodec, Json.Plain, Json.PlainElems]⟩

theorem structCodec_ok : structCodec.Ok :=
  ⟨fun _ => rfl, fun _ => by simp [structCodec, Json.Plain, Json.PlainFields]⟩

/-- the hypotheses are met: a map with a tile, saved over an existing file; `Ok` is reachable and
loads as that map, a crash in the middle of the text is reachable too -/
example : ∃ m : Tilemap, TileHistory [.set ⟨3, -2⟩ 7] m ∧ m.getTile ⟨3, -2⟩ = 7 ∧
    SaveReach (saveText arrayCodec m.serialize) (some "old".toList)
      ⟨some (saveText arrayCodec m.serialize), .returned true⟩ ∧
    SaveReach (saveText arrayCodec m.serialize) (some "old".toList)
      ⟨some ((saveText arrayCodec m.serialize).take 20),
        .writing ((saveText arrayCodec m.serialize).drop 20)⟩ := by
  refine ⟨Tilemap.default.setTile ⟨3, -2⟩ 7, .step .start (.set _ _ _), by decide, ?_, ?_⟩
  · have h1 : SaveReach (saveText arrayCodec (Tilemap.default.setTile ⟨3, -2⟩ 7).serialize)
        (some "old".toList) ⟨some [], .writing (saveText arrayCodec
          (Tilemap.default.setTile ⟨3, -2⟩ 7).serialize ++ [])⟩ := by
      rw [List.append_nil]; exact .step .init .create
    exact .step (.step h1 .write) .finish
  · have h1 : SaveReach (saveText arrayCodec (Tilemap.default.setTile ⟨3, -2⟩ 7).serialize)
        (some "old".toList) ⟨some [], .writing (
          (saveText arrayCodec (Tilemap.default.setTile ⟨3, -2⟩ 7).serialize).take 20 ++
          (saveText arrayCodec (Tilemap.default.setTile ⟨3, -2⟩ 7).serialize).drop 20)⟩ := by
      rw [List.take_append_drop]; exact .step .init .create
    exact .step h1 .write

/-- the text of a small chunk, and the reader on it with whitespace, a trailing comma, a missing
bracket, a duplicate field -/
example :
    String.ofList (Array2d.toJson ⟨2, 1, [5, 10]⟩).print =
      "{\"dims\":[2,1],\"dim_strides\":[1,2],\"data\":[5,10]}" ∧
    (Json.parse " { \"dims\" : [ 2 ,1 ], \"data\":[5,10], \"dim_strides\":[1,2] } ".toList).bind
      Array2d.ofJson = some ⟨2, 1, [5, 10]⟩ ∧
    (Json.parse "{\"dims\":[2,1,],\"dim_strides\":[1,2],\"data\":[5,10]}".toList).bind
      Array2d.ofJson = none ∧
    (Json.parse "{\"dims\":[2,1],\"dim_strides\":[1,2],\"data\":[5,10]".toList).bind
      Array2d.ofJson = none ∧
    (Json.parse "{\"dims\":[2,1],\"dims\":[2,1],\"dim_strides\":[1,2],\"data\":[5,10]}".toList).bind
      Array2d.ofJson = none ∧
    (Json.parse "{\"dims\":[2,1],\"dim_strides\":[1,2],\"data\":[5,256]}".toList).bind
      Array2d.ofJson = none := by
  decide +kernel

end Auburn
