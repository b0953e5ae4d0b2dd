import Verif.Model.Tilemap
import Mathlib.Data.List.Nodup
import Mathlib.Data.List.Perm.Basic
import Mathlib.Tactic.Linarith
import Mathlib.Tactic.Push

/-!
# Lemmas about the chunk map and chunk arrays
-/

namespace Auburn

namespace ChunkMap

theorem get_remove (m : ChunkMap) (k k' : V2i) :
    (m.remove k).get k' = if k' = k then none else m.get k' := by
  unfold get remove
  induction m with
  | nil => simp
  | cons e m ih =>
    obtain ⟨a, c⟩ := e
    by_cases ha : a = k
    · subst ha
      simp only [List.filter_cons, ne_eq, not_true_eq_false, decide_false, Bool.false_eq_true,
        if_false, List.lookup_cons]
      rw [ih]
      by_cases h : k' = a
      · simp [h]
      · have : (k' == a) = false := by simpa using h
        simp [h, this]
    · have : (decide ((a, c).1 ≠ k)) = true := by simpa using ha
      rw [List.filter_cons, if_pos this, List.lookup_cons, List.lookup_cons]
      by_cases h : k' = a
      · subst h; simp [ha]
      · have : (k' == a) = false := by simpa using h
        simp only [this]; exact ih

theorem get_insert (m : ChunkMap) (k k' : V2i) (c : Chunk) :
    (m.insert k c).get k' = if k' = k then some c else m.get k' := by
  unfold insert
  show List.lookup k' ((k, c) :: m.remove k) = _
  rw [List.lookup_cons]
  by_cases h : k' = k
  · simp [h]
  · have : (k' == k) = false := by simpa using h
    simp only [this, if_neg h]
    exact (get_remove m k k').trans (if_neg h)

/-- keys are unique -/
def NodupKeys (m : ChunkMap) : Prop := (m.map (·.1)).Nodup

theorem NodupKeys.remove {m : ChunkMap} (h : m.NodupKeys) (k : V2i) : (m.remove k).NodupKeys :=
  List.Nodup.sublist (List.Sublist.map _ List.filter_sublist) h

theorem not_mem_remove (m : ChunkMap) (k : V2i) : k ∉ (m.remove k).map (·.1) := by
  simp [ChunkMap.remove]

theorem NodupKeys.insert {m : ChunkMap} (h : m.NodupKeys) (k : V2i) (c : Chunk) :
    (m.insert k c).NodupKeys := by
  unfold NodupKeys ChunkMap.insert
  rw [List.map_cons, List.nodup_cons]
  exact ⟨not_mem_remove m k, h.remove k⟩

theorem get_eq_some_iff {m : ChunkMap} (h : m.NodupKeys) {k : V2i} {c : Chunk} :
    m.get k = some c ↔ (k, c) ∈ m := by
  unfold get
  induction m with
  | nil => simp
  | cons e m ih =>
    obtain ⟨a, d⟩ := e
    unfold NodupKeys at h
    rw [List.map_cons, List.nodup_cons] at h
    rw [List.lookup_cons]
    by_cases hk : k = a
    · subst hk
      simp only [beq_self_eq_true, List.mem_cons, Prod.mk.injEq, true_and]
      constructor
      · intro hd; left; simpa using hd.symm
      · rintro (hd | hm)
        · rw [hd]
        · exact absurd (List.mem_map_of_mem (f := (·.1)) hm) h.1
    · have : (k == a) = false := by simpa using hk
      simp only [this, List.mem_cons, Prod.mk.injEq, hk, false_and, false_or]
      exact ih h.2

theorem get_perm {m m' : ChunkMap} (h : m.NodupKeys) (hp : m'.Perm m) (k : V2i) :
    m'.get k = m.get k := by
  have h' : m'.NodupKeys := (List.Perm.nodup_iff (hp.map (fun e : V2i × Chunk => e.1))).2 h
  ext c
  rw [get_eq_some_iff h, get_eq_some_iff h', hp.mem_iff]

/-- collecting pairs with distinct keys into a map -/
theorem get_collect (l : List (V2i × Chunk)) (h : NodupKeys l) (k : V2i) :
    ChunkMap.get (l.foldl (fun m e => ChunkMap.insert m e.1 e.2) []) k = ChunkMap.get l k := by
  have : ∀ (m : ChunkMap), (∀ e ∈ l, m.get e.1 = none) →
      ChunkMap.get (l.foldl (fun m e => ChunkMap.insert m e.1 e.2) m) k =
        (ChunkMap.get l k).or (m.get k) := by
    induction l with
    | nil => intro m _; simp [ChunkMap.get]
    | cons e l ih =>
      intro m hm
      unfold NodupKeys at h
      rw [List.map_cons, List.nodup_cons] at h
      rw [List.foldl_cons, ih h.2]
      · rw [get_insert]
        by_cases hk : k = e.1
        · subst hk
          have hl : ChunkMap.get l e.1 = none := by
            cases hg : ChunkMap.get l e.1 with
            | none => rfl
            | some c =>
              exact absurd (List.mem_map_of_mem (f := (·.1)) ((get_eq_some_iff h.2).1 hg)) h.1
          have : ChunkMap.get (e :: l) e.1 = some e.2 := by
            show List.lookup e.1 (e :: l) = _
            obtain ⟨a, b⟩ := e
            simp
          rw [hl, this]; simp
        · have : ChunkMap.get (e :: l) k = ChunkMap.get l k := by
            show List.lookup k (e :: l) = _
            obtain ⟨a, b⟩ := e
            have hb : (k == a) = false := by simpa using hk
            simp only [List.lookup_cons, hb]; rfl
          rw [if_neg hk, this]
      · intro e' he'
        rw [get_insert]
        have : e'.1 ≠ e.1 := by
          intro heq
          exact h.1 (heq ▸ List.mem_map_of_mem (f := (·.1)) he')
        rw [if_neg this]
        exact hm e' (List.mem_cons_of_mem _ he')
  have := this [] (by intro e _; rfl)
  rw [this]
  simp [ChunkMap.get]

theorem NodupKeys.collect (l : List (V2i × Chunk)) :
    NodupKeys (l.foldl (fun m e => ChunkMap.insert m e.1 e.2) []) := by
  have : ∀ m : ChunkMap, m.NodupKeys →
      NodupKeys (l.foldl (fun m e => ChunkMap.insert m e.1 e.2) m) := by
    induction l with
    | nil => intro m hm; exact hm
    | cons e l ih => intro m hm; exact ih _ (hm.insert _ _)
  exact this [] (by simp [NodupKeys])

end ChunkMap

/-- a chunk array of the right dimensions -/
def Chunk.Sized (c : Chunk) : Prop :=
  c.array2d.width = 16 ∧ c.array2d.height = 16 ∧ c.array2d.data.length = 256

/-- a local position inside a chunk -/
def LocalPos (l : V2i) : Prop := 0 ≤ l.x ∧ l.x < 16 ∧ 0 ≤ l.y ∧ l.y < 16

theorem Chunk.default_sized : Chunk.default.Sized := by
  refine ⟨rfl, rfl, ?_⟩
  show (List.replicate (16 * 16) (0 : UInt8)).length = 256
  rw [List.length_replicate]

theorem Chunk.Sized.inBounds {c : Chunk} (h : c.Sized) {l : V2i} :
    c.array2d.inBounds l ↔ LocalPos l := by
  simp [Array2d.inBounds, LocalPos, h.1, h.2.1]

theorem Chunk.Sized.index_lt {c : Chunk} (h : c.Sized) {l : V2i} (hl : LocalPos l) :
    c.array2d.index l < c.array2d.data.length := by
  obtain ⟨hw, hh, hd⟩ := h
  unfold Array2d.index LocalPos at *
  rw [hd, hw]; omega

theorem Chunk.Sized.index_inj {c : Chunk} (h : c.Sized) {l l' : V2i} (hl : LocalPos l)
    (hl' : LocalPos l') (he : c.array2d.index l = c.array2d.index l') : l = l' := by
  obtain ⟨hw, -, -⟩ := h
  unfold Array2d.index LocalPos at *
  rw [hw] at he
  ext <;> omega

/-- the tile at a local position, 0 outside -/
def Chunk.tile (c : Chunk) (l : V2i) : UInt8 := (c.array2d.get l).getD 0

theorem Chunk.Sized.get_eq {c : Chunk} (h : c.Sized) {l : V2i} (hl : LocalPos l) :
    c.array2d.get l = some (c.tile l) := by
  have hlt := h.index_lt hl
  have hg : c.array2d.get l = some (c.array2d.data[c.array2d.index l]) := by
    unfold Array2d.get
    rw [if_pos (h.inBounds.2 hl), List.getElem?_eq_getElem hlt]
  unfold Chunk.tile
  rw [hg]; rfl

theorem Chunk.Sized.set {c : Chunk} (h : c.Sized) (l : V2i) (v : UInt8) :
    Chunk.Sized ⟨c.array2d.set l v⟩ := by
  unfold Chunk.Sized Array2d.set at *
  split_ifs <;> simp [h]

theorem Chunk.Sized.tile_set {c : Chunk} (h : c.Sized) {l l' : V2i} (hl : LocalPos l)
    (hl' : LocalPos l') (v : UInt8) :
    Chunk.tile ⟨c.array2d.set l v⟩ l' = if l' = l then v else c.tile l' := by
  have hs := h.set l v
  have hlt := h.index_lt hl
  have hlt' := h.index_lt hl'
  have hset : c.array2d.set l v = { c.array2d with data := c.array2d.data.set (c.array2d.index l) v } := by
    unfold Array2d.set; rw [if_pos (h.inBounds.2 hl)]
  unfold Chunk.tile Array2d.get
  rw [if_pos (h.inBounds.2 hl'), if_pos (hs.inBounds.2 hl')]
  have hidx : Array2d.index (c.array2d.set l v) l' = c.array2d.index l' := by rw [hset]; rfl
  show ((c.array2d.set l v).data[Array2d.index (c.array2d.set l v) l']?).getD 0 = _
  rw [hidx, hset]
  show ((c.array2d.data.set (c.array2d.index l) v)[c.array2d.index l']?).getD 0 = _
  rw [List.getElem?_set]
  by_cases he : l' = l
  · subst he; simp [hlt]
  · have : c.array2d.index l ≠ c.array2d.index l' := fun hc => he (h.index_inj hl hl' hc).symm
    simp [this, he]

theorem Chunk.default_tile (l : V2i) : Chunk.default.tile l = 0 := by
  unfold Chunk.tile Array2d.get
  split_ifs
  · simp only [Chunk.default, Array2d.withDimensions, List.getElem?_replicate]
    split_ifs <;> rfl
  · rfl

/-- the all-zero test of `remove_tile` -/
theorem Chunk.Sized.all_zero_iff {c : Chunk} (h : c.Sized) :
    c.array2d.data.all (fun x => x = 0) = true ↔ ∀ l, LocalPos l → c.tile l = 0 := by
  rw [List.all_eq_true]
  constructor
  · intro hall l hl
    have hlt := h.index_lt hl
    have hg : c.array2d.get l = some (c.array2d.data[c.array2d.index l]) := by
      unfold Array2d.get
      rw [if_pos (h.inBounds.2 hl), List.getElem?_eq_getElem hlt]
    unfold Chunk.tile
    rw [hg]
    simpa using hall _ (List.getElem_mem hlt)
  · intro hall x hx
    obtain ⟨i, hi, rfl⟩ := List.getElem_of_mem hx
    have hi' : i < 256 := by rw [← h.2.2]; exact hi
    let l : V2i := ⟨(i % 16 : Nat), (i / 16 : Nat)⟩
    have hl : LocalPos l := by simp only [LocalPos, l]; omega
    have hidx : c.array2d.index l = i := by
      simp only [Array2d.index, l, h.1, Int.toNat_natCast]; omega
    have := hall l hl
    unfold Chunk.tile Array2d.get at this
    rw [if_pos (h.inBounds.2 hl), hidx, List.getElem?_eq_getElem hi] at this
    simpa using this

namespace Tilemap

theorem decompose_local (p : V2i) : LocalPos (decompose p).2 := by
  simp only [LocalPos, decompose, chunkSize]; omega

theorem decompose_eq_iff (p q : V2i) :
    p = q ↔ (decompose p).1 = (decompose q).1 ∧ (decompose p).2 = (decompose q).2 := by
  constructor
  · rintro rfl; exact ⟨rfl, rfl⟩
  · simp only [decompose, V2i.mk.injEq, chunkSize]
    rintro ⟨⟨h1, h2⟩, h3, h4⟩
    ext <;> omega

theorem decompose_mk {c l : V2i} (hl : LocalPos l) :
    decompose ⟨c.x * 16 + l.x, c.y * 16 + l.y⟩ = (c, l) := by
  unfold LocalPos at hl
  simp only [decompose, chunkSize, Prod.mk.injEq, V2i.ext_iff]
  omega

/-- invariant of all reachable tilemaps -/
def WF (m : Tilemap) : Prop :=
  m.chunks.NodupKeys ∧ ∀ k c, m.chunks.get k = some c → c.Sized

theorem getTile_eq (m : Tilemap) (p : V2i) :
    m.getTile p = match m.chunks.get (decompose p).1 with
      | some c => c.tile (decompose p).2
      | none => 0 := rfl

/-- `set_tile` in closed form -/
theorem setTile_eq {m : Tilemap} (h : m.WF) (p : V2i) (t : UInt8) :
    m.setTile p t =
      match m.chunks.get (decompose p).1 with
      | none => ⟨m.chunks.insert (decompose p).1 ⟨Chunk.default.array2d.set (decompose p).2 t⟩,
          m.events.notify (.chunkCreated (decompose p).1)⟩
      | some c => ⟨m.chunks.insert (decompose p).1 ⟨c.array2d.set (decompose p).2 t⟩,
          if c.tile (decompose p).2 ≠ t then m.events.notify (.chunkChanged (decompose p).1)
          else m.events⟩ := by
  have key : ∀ c : Chunk, c.Sized → c.tile (decompose p).2 = t →
      (⟨c.array2d.set (decompose p).2 t⟩ : Chunk) = c := by
    intro c hc ht
    have hl := decompose_local p
    have hlt := hc.index_lt hl
    have hset : c.array2d.set (decompose p).2 t =
        { c.array2d with data := c.array2d.data.set (c.array2d.index (decompose p).2) t } := by
      unfold Array2d.set; rw [if_pos (hc.inBounds.2 hl)]
    have hg : c.tile (decompose p).2 = c.array2d.data[c.array2d.index (decompose p).2] := by
      unfold Chunk.tile Array2d.get
      rw [if_pos (hc.inBounds.2 hl), List.getElem?_eq_getElem hlt]; rfl
    have hd : c.array2d.data.set (c.array2d.index (decompose p).2) t = c.array2d.data := by
      rw [← ht, hg]; exact List.set_getElem_self hlt
    rw [hset, hd]
  unfold setTile
  cases hg : m.chunks.get (decompose p).1 with
  | none =>
    simp only [hg, Chunk.default_sized.get_eq (decompose_local p)]
    by_cases ht : Chunk.default.tile (decompose p).2 = t
    · simp only [ne_eq, ht, not_true_eq_false, if_false, key _ Chunk.default_sized ht]
    · simp [ht]
  | some c =>
    have hc := h.2 _ _ hg
    simp only [hg, hc.get_eq (decompose_local p)]
    by_cases ht : c.tile (decompose p).2 = t
    · simp only [ne_eq, ht, not_true_eq_false, if_false, key _ hc ht]
    · simp [ht]

theorem WF.default : Tilemap.default.WF := by
  constructor
  · simp [Tilemap.default, ChunkMap.NodupKeys]
  · intro k c h; simp [Tilemap.default, ChunkMap.get] at h

theorem WF.setTile {m : Tilemap} (h : m.WF) (p : V2i) (t : UInt8) : (m.setTile p t).WF := by
  rw [setTile_eq h]
  split
  · refine ⟨h.1.insert _ _, ?_⟩
    intro k c hc
    rw [ChunkMap.get_insert] at hc
    split_ifs at hc
    · cases hc; exact Chunk.default_sized.set _ _
    · exact h.2 _ _ hc
  · rename_i c0 hg
    refine ⟨h.1.insert _ _, ?_⟩
    intro k c hc
    simp only [ChunkMap.get_insert] at hc
    split_ifs at hc
    · cases hc; exact (h.2 _ _ hg).set _ _
    · exact h.2 _ _ hc

/-- the chunk `remove_tile` works on -/
theorem WF.sized_getD {m : Tilemap} (h : m.WF) (k : V2i) :
    ((m.chunks.get k).getD Chunk.default).Sized := by
  cases hg : m.chunks.get k with
  | none => exact Chunk.default_sized
  | some c => exact h.2 _ _ hg

theorem WF.removeTile {m : Tilemap} (h : m.WF) (p : V2i) : (m.removeTile p).WF := by
  unfold Tilemap.removeTile
  simp only
  split_ifs
  · refine ⟨h.1.remove _, ?_⟩
    intro k c hc
    rw [ChunkMap.get_remove] at hc
    split_ifs at hc
    exact h.2 _ _ hc
  · refine ⟨h.1.insert _ _, ?_⟩
    intro k c hc
    rw [ChunkMap.get_insert] at hc
    split_ifs at hc
    · cases hc; exact (h.sized_getD _).set _ _
    · exact h.2 _ _ hc

theorem getTile_setTile {m : Tilemap} (h : m.WF) (p q : V2i) (t : UInt8) :
    (m.setTile p t).getTile q = if q = p then t else m.getTile q := by
  have hq := decompose_local q
  have hp := decompose_local p
  rw [getTile_eq, getTile_eq, setTile_eq h]
  cases hg : m.chunks.get (decompose p).1 with
  | none =>
    simp only [ChunkMap.get_insert]
    by_cases hk : (decompose q).1 = (decompose p).1
    · simp only [hk, if_true, hg]
      rw [Chunk.default_sized.tile_set hp hq, Chunk.default_tile]
      by_cases hl : (decompose q).2 = (decompose p).2
      · rw [if_pos hl, if_pos ((decompose_eq_iff q p).2 ⟨hk, hl⟩)]
      · rw [if_neg hl, if_neg (fun he => hl ((decompose_eq_iff q p).1 he).2)]
    · rw [if_neg hk, if_neg (fun he => hk ((decompose_eq_iff q p).1 he).1)]
  | some c =>
    have hc := h.2 _ _ hg
    simp only [ChunkMap.get_insert]
    by_cases hk : (decompose q).1 = (decompose p).1
    · simp only [hk, if_true, hg]
      rw [hc.tile_set hp hq]
      by_cases hl : (decompose q).2 = (decompose p).2
      · rw [if_pos hl, if_pos ((decompose_eq_iff q p).2 ⟨hk, hl⟩)]
      · rw [if_neg hl, if_neg (fun he => hl ((decompose_eq_iff q p).1 he).2)]
    · rw [if_neg hk, if_neg (fun he => hk ((decompose_eq_iff q p).1 he).1)]

/-- tiles of the chunk `remove_tile` works on -/
theorem tile_getD {m : Tilemap} (q : V2i) :
    ((m.chunks.get (decompose q).1).getD Chunk.default).tile (decompose q).2 = m.getTile q := by
  rw [getTile_eq]
  cases hg : m.chunks.get (decompose q).1 with
  | none => exact Chunk.default_tile _
  | some c => rfl

theorem getTile_removeTile {m : Tilemap} (h : m.WF) (p q : V2i) :
    (m.removeTile p).getTile q = if q = p then 0 else m.getTile q := by
  have hq := decompose_local q
  have hp := decompose_local p
  have hs := h.sized_getD (decompose p).1
  have htile : (decompose q).1 = (decompose p).1 →
      Chunk.tile ⟨((m.chunks.get (decompose p).1).getD Chunk.default).array2d.set
        (decompose p).2 0⟩ (decompose q).2 = if q = p then 0 else m.getTile q := by
    intro hk
    rw [hs.tile_set hp hq]
    by_cases hl : (decompose q).2 = (decompose p).2
    · rw [if_pos hl, if_pos ((decompose_eq_iff q p).2 ⟨hk, hl⟩)]
    · rw [if_neg hl, if_neg (fun he => hl ((decompose_eq_iff q p).1 he).2), ← hk]
      exact tile_getD q
  unfold Tilemap.removeTile
  simp only
  split_ifs with hall hqp
  · subst hqp
    rw [getTile_eq, ChunkMap.get_remove, if_pos rfl]
  · rw [(hs.set (decompose p).2 0).all_zero_iff] at hall
    by_cases hk : (decompose q).1 = (decompose p).1
    · rw [getTile_eq, ChunkMap.get_remove, if_pos hk]
      have := htile hk
      rw [hall _ hq, if_neg hqp] at this
      exact this
    · rw [getTile_eq, ChunkMap.get_remove, if_neg hk]; rfl
  · subst_vars
    rw [getTile_eq, ChunkMap.get_insert, if_pos rfl]
    have := htile rfl
    rw [if_pos rfl] at this
    exact this
  · rw [getTile_eq, ChunkMap.get_insert]
    by_cases hk : (decompose q).1 = (decompose p).1
    · rw [if_pos hk]
      have := htile hk
      rw [if_neg (by assumption)] at this
      exact this
    · rw [if_neg hk]; rfl

end Tilemap

end Auburn
