import Verif.Ieee.TilemapProps
import Verif.Ieee.BoxColliderProps
import Verif.Props.Resolve

/-!
# C101: resolving a box against the tiles in binary32
-/

set_option linter.unusedSectionVars false
set_option synthInstance.maxSize 1000

namespace Auburn

open F32 V2 Transformation2d Tilemap

/-! ## specification -/

/-- a box with half sizes `h` at `p` and the cell of tile `t` are at least `g` apart along one of the axes -/
def ClearOf (g : ℝ) (h p : V2 ℝ) (t : V2i) : Prop :=
  h.x + 1 / 2 + g ≤ |t.x - p.x| ∨ h.y + 1 / 2 + g ≤ |t.y - p.y|

/-- they overlap by at least `g` along both axes -/
def InsideBy (g : ℝ) (h p : V2 ℝ) (t : V2i) : Prop :=
  g ≤ h.x + 1 / 2 - |t.x - p.x| ∧ g ≤ h.y + 1 / 2 - |t.y - p.y|

/-- `p'` is (up to `e` in each coordinate) a position where the box just touches the cell of `t`, and, if the box
is not smaller than a tile along one of the axes, no position where they are separated is nearer to `p` by more than `κ` -/
def MovedClear (e κ : ℝ) (h p : V2 ℝ) (t : V2i) (p' : V2 F32) : Prop :=
  ∃ x y, p'.Is x ∧ V2.Within e x y ∧
    Touch (shift y (Region.pts (Box2d.mk h))) (tileCellClosed (K := ℝ) t) ∧ Separable (shift y (Region.pts (Box2d.mk h))) (tileCellClosed (K := ℝ) t) ∧
    (1 / 2 ≤ h.x ∨ 1 / 2 ≤ h.y → ∀ z, Separable (shift z (Region.pts (Box2d.mk h))) (tileCellClosed (K := ℝ) t) →
      V2.norm (y - p) ≤ V2.norm (z - p) + κ)

/-- the box: half sizes `h` (up to `M - 1`) at position `p` (coordinates up to `L`) -/
structure TileRange (M L : ℝ) (h p : V2 ℝ) : Prop where
  hx : 0 ≤ h.x ∧ h.x + 1 ≤ M
  hy : 0 ≤ h.y ∧ h.y + 1 ≤ M
  px : |p.x| ≤ L
  py : |p.y| ≤ L
  M17 : M ≤ 2 ^ 17
  L22 : L ≤ 2 ^ 22

section
variable [env : F32Env]

theorem tileCell_box (t : V2i) :
    tileCellClosed (K := ℝ) t = shift (⟨t.x, t.y⟩ : V2 ℝ) (Region.pts (Box2d.mk (⟨1 / 2, 1 / 2⟩ : V2 ℝ))) := by
  ext p
  constructor
  · rintro ⟨h1, h2⟩; exact ⟨p - (⟨t.x, t.y⟩ : V2 ℝ), ⟨h1, h2⟩, by ext <;> simp⟩
  · rintro ⟨q, ⟨h1, h2⟩, rfl⟩
    refine ⟨?_, ?_⟩
    · simp only [V2.add_x, add_sub_cancel_right]; exact h1
    · simp only [V2.add_y, add_sub_cancel_right]; exact h2

theorem is_half : (⟨FloatExtra.half, FloatExtra.half⟩ : V2 F32).Is ⟨1 / 2, 1 / 2⟩ := by
  have h : F32.Is (FloatExtra.half : F32) (1 / 2) := by
    have := is_ofReal (z := false) (representable_pow (-1) (by norm_num) (by norm_num))
    have e : (2 : ℝ) ^ (-1 : ℤ) = 1 / 2 := by norm_num
    rw [e] at this
    exact this
  exact ⟨h, h⟩

section
variable {col : Box2d F32} {pos : V2 F32} {h p : V2 ℝ} {M L : ℝ} {t : V2i}

theorem TileRange.M1 (hR : TileRange M L h p) : 1 ≤ M := by linarith [hR.hx.1, hR.hx.2]
theorem TileRange.L0 (hR : TileRange M L h p) : 0 ≤ L := (abs_nonneg _).trans hR.px

theorem TileRange.boxRange (hR : TileRange M L h p) (hx : |(t.x : ℝ) - p.x| ≤ M) (hy : |(t.y : ℝ) - p.y| ≤ M) :
    BoxRange M h ⟨1 / 2, 1 / 2⟩ ((⟨t.x, t.y⟩ : V2 ℝ) - p) := by
  have h3 : (2 : ℝ) ^ (28 : ℤ) = 2 ^ 28 := by norm_cast
  exact ⟨⟨hR.hx.1, by linarith [hR.hx.2]⟩, ⟨hR.hy.1, by linarith [hR.hy.2]⟩,
    ⟨by norm_num, by show (1 / 2 : ℝ) ≤ M; linarith [hR.M1]⟩,
      ⟨by norm_num, by show (1 / 2 : ℝ) ≤ M; linarith [hR.M1]⟩, hx, hy, hR.M1, by rw [h3]; linarith [hR.M17]⟩

/-- a tile that is clear: no push -/
theorem tile_clear (hh : col.halfsize.Is h) (hp : pos.Is p) (hR : TileRange M L h p) (hx : |(t.x : ℝ) - p.x| ≤ M)
    (hy : |(t.y : ℝ) - p.y| ≤ M) (ht : (tileToWorldPos t : V2 F32).Is ⟨t.x, t.y⟩) (hc : ClearOf (M / 2 ^ 18) h p t) :
    penetratesRel col (⟨⟨FloatExtra.half, FloatExtra.half⟩⟩ : Box2d F32) (tileToWorldPos t - pos) = .ok none := by
  have hM1 := hR.M1
  have h2 : (2 : ℝ) ^ (27 : ℤ) = 2 ^ 27 := by norm_cast
  have hM17 := hR.M17
  have key : ∀ H W g : ℝ, 0 ≤ H → 0 ≤ W → H + 1 / 2 + M / 2 ^ 18 ≤ |g| →
      4 * M / 2 ^ 20 ≤ |g| - (H + 1 / 2) ∧ 4 * M / 2 ^ 20 ≤ W + 1 / 2 ∧
      1 / 2 ^ 21 ≤ (W + 1 / 2) ^ 2 * (|g| - (H + 1 / 2)) ∧ (1 / 2) ^ 2 ≤ g ^ 2 := by
    intro H W g hH hW hg
    have e : 4 * M / 2 ^ 20 = M / 2 ^ 18 := by ring
    refine ⟨by rw [e]; linarith, ?_, ?_, ?_⟩
    · rw [e, div_le_iff₀ (by positivity)]
      norm_num at hM17 ⊢
      linarith
    · have h4 : (1 / 2 : ℝ) ^ 2 ≤ (W + 1 / 2) ^ 2 := pow_le_pow_left₀ (by norm_num) (by linarith) 2
      have h5 : 1 / 2 ^ 18 ≤ |g| - (H + 1 / 2) := by
        have : (1 : ℝ) / 2 ^ 18 ≤ M / 2 ^ 18 := div_le_div_of_nonneg_right hM1 (by positivity)
        linarith
      have := mul_le_mul h4 h5 (by positivity) (by positivity)
      norm_num at this ⊢; linarith
    · rw [← sq_abs g]
      refine pow_le_pow_left₀ (by norm_num) ?_ 2
      have : 0 ≤ M / 2 ^ 18 := by positivity
      linarith
  have hA := (C84_f32_apart_colliders col (⟨⟨FloatExtra.half, FloatExtra.half⟩⟩ : Box2d F32) pos (tileToWorldPos t) hh
    is_half hp ht (M := M) (hR.boxRange hx hy) (by rw [h2]; linarith) ?_ ?_).1.2.1
  · exact hA
  · rcases hc with hc | hc
    · obtain ⟨-, -, -, h4⟩ := key h.x h.y _ hR.hx.1 hR.hy.1 hc
      show (1 : ℝ) / 2 ^ 21 ≤ ((t.x : ℝ) - p.x) ^ 2 + ((t.y : ℝ) - p.y) ^ 2
      have := sq_nonneg ((t.y : ℝ) - p.y)
      norm_num at h4 ⊢; linarith
    · obtain ⟨-, -, -, h4⟩ := key h.y h.x _ hR.hy.1 hR.hx.1 hc
      show (1 : ℝ) / 2 ^ 21 ≤ ((t.x : ℝ) - p.x) ^ 2 + ((t.y : ℝ) - p.y) ^ 2
      have := sq_nonneg ((t.x : ℝ) - p.x)
      norm_num at h4 ⊢; linarith
  · have e22 : (1 : ℝ) / 2 ^ 22 ≤ 1 / 2 ^ 21 := by norm_num
    rcases hc with hc | hc
    · obtain ⟨h4, h5, h6, -⟩ := key h.x h.y _ hR.hx.1 hR.hy.1 hc
      exact Or.inl ⟨⟨h4, fun _ => ⟨h5, e22.trans h6⟩⟩, fun _ => h6⟩
    · obtain ⟨h4, h5, h6, -⟩ := key h.y h.x _ hR.hy.1 hR.hx.1 hc
      exact Or.inr ⟨⟨h4, fun _ => ⟨h5, e22.trans h6⟩⟩, fun _ => h6⟩

/-- a tile that overlaps by a margin: the push moves the box clear -/
theorem tile_inside (hh : col.halfsize.Is h) (hp : pos.Is p) (hR : TileRange M L h p)
    (ht : (tileToWorldPos t : V2 F32).Is ⟨t.x, t.y⟩) (hc : InsideBy (M / 2 ^ 18) h p t) :
    ∃ v, penetratesRel col (⟨⟨FloatExtra.half, FloatExtra.half⟩⟩ : Box2d F32) (tileToWorldPos t - pos) = .ok (some v) ∧
      MovedClear (M / 2 ^ 15 + L / 2 ^ 23) (M / 2 ^ 13) h p t (pos + v) := by
  have hM1 := hR.M1
  have hM17 := hR.M17
  have hL := hR.L22
  have hL0 := hR.L0
  have h2 : (2 : ℝ) ^ (27 : ℤ) = 2 ^ 27 := by norm_cast
  have hg : 0 ≤ M / 2 ^ 18 := by positivity
  have hx : |(t.x : ℝ) - p.x| ≤ M := by linarith [hc.1, hR.hx.2]
  have hy : |(t.y : ℝ) - p.y| ≤ M := by linarith [hc.2, hR.hy.2]
  obtain ⟨-, -, v, hv, -, x, w, hx1, -, hw, hT, hmin⟩ := (C83_f32_overlap_colliders col
    (⟨⟨FloatExtra.half, FloatExtra.half⟩⟩ : Box2d F32) pos (tileToWorldPos t) hh is_half hp ht (M := M)
    (hR.boxRange hx hy) (by rw [h2]; linarith) hc.1 hc.2).1
  refine ⟨v, hv, ?_⟩
  rw [← tileCell_box] at hT hmin
  have eT : ∀ u, shift u (shift p (Region.pts (Box2d.mk h))) = shift (p + u) (Region.pts (Box2d.mk h)) :=
    fun u => real_shift_shift _ _ _
  obtain ⟨⟨r, hr1, hr2⟩, hS⟩ := hT
  -- the size of the push
  have hwx : |w.x| ≤ 2 * M ∧ |w.y| ≤ 2 * M := by
    obtain ⟨r', ⟨r'', ⟨a1, a2⟩, rfl⟩, rfl⟩ := hr1
    obtain ⟨b1, b2⟩ := hr2
    simp only [V2.add_x, V2.add_y] at b1 b2
    have a1 : |r''.x| ≤ h.x := a1
    have a2 : |r''.y| ≤ h.y := a2
    have hcx := hc.1
    have hcy := hc.2
    rw [abs_le] at a1 a2 b1 b2 hx hy
    have k1 := hR.hx
    have k2 := hR.hy
    constructor <;> rw [abs_le] <;> constructor <;> linarith [a1.1, a1.2, a2.1, a2.2, b1.1, b1.2, b2.1, b2.2, hx.1, hx.2, hy.1, hy.2]
  have add : ∀ {A B : F32} {a b c : ℝ}, F32.Is A a → F32.Is B b → |a| ≤ L → |b - c| ≤ M / 2 ^ 16 → |c| ≤ 2 * M →
      ∃ d, F32.Is (A + B) d ∧ |d - (a + c)| ≤ M / 2 ^ 15 + L / 2 ^ 23 := by
    intro A B a b c hA hB ha hb hc
    have hsum : |a + b| ≤ L + 3 * M := by
      have : M / 2 ^ 16 ≤ M := div_le_self (by linarith) (by norm_num)
      rw [abs_le] at ha hb hc ⊢
      constructor <;> linarith [ha.1, ha.2, hb.1, hb.2, hc.1, hc.2]
    have h126 : (2 : ℝ) ^ (24 : ℕ) ≤ 3 * (2 : ℝ) ^ (126 : ℤ) := by
      have : (2 : ℝ) ^ (126 : ℤ) = 2 ^ 126 := by norm_cast
      rw [this]; norm_num
    obtain ⟨d, hd, he⟩ := F32.round_add hA hB (hsum.trans (le_trans (by linarith) h126))
    refine ⟨d, hd, ?_⟩
    have h5 : |a + b| / 2 ^ 24 ≤ (L + 3 * M) / 2 ^ 24 := div_le_div_of_nonneg_right hsum (by positivity)
    have e1 : (L + 3 * M) / 2 ^ 24 = L / 2 ^ 24 + 3 * M / 2 ^ 24 := by ring
    have e2 : 3 * M / 2 ^ 24 + M / 2 ^ 16 ≤ M / 2 ^ 15 := by
      have : M / 2 ^ 15 - (3 * M / 2 ^ 24 + M / 2 ^ 16) = 253 * M / 2 ^ 24 := by ring
      have h7 : 0 ≤ 253 * M / 2 ^ 24 := by positivity
      linarith
    have e3 : L / 2 ^ 24 ≤ L / 2 ^ 23 := div_le_div_of_nonneg_left hL0 (by positivity) (by norm_num)
    have h6 : d - (a + c) = (d - (a + b)) + (b - c) := by ring
    rw [h6]
    refine (abs_add_le _ _).trans ?_
    linarith
  obtain ⟨dx, hdx, ex⟩ := add hp.1 hx1.1 hR.px hw.1 hwx.1
  obtain ⟨dy, hdy, ey⟩ := add hp.2 hx1.2 hR.py hw.2 hwx.2
  refine ⟨⟨dx, dy⟩, p + w, ⟨hdx, hdy⟩, ⟨ex, ey⟩, ?_, ?_, fun hbig z hz => ?_⟩
  · rw [← eT]; exact ⟨r, hr1, hr2⟩
  · rw [← eT]; exact hS
  · have e : z = p + (z - p) := by ext <;> simp
    rw [e, ← eT] at hz
    have := hmin (hbig.imp (fun h' => by show (1 : ℝ) ≤ h.x + 1 / 2; linarith)
      fun h' => by show (1 : ℝ) ≤ h.y + 1 / 2; linarith) _ hz
    have e' : p + w - p = w := by ext <;> simp
    rw [e']; exact this

/-- tiles of the rectangle are near the box, and their coordinates are exact -/
theorem tile_near (hn : NearestI32 env) (hh : col.halfsize.Is h) (hp : pos.Is p) (hR : TileRange M L h p)
    (hc : (quantize col pos).Contains t) :
    |(t.x : ℝ) - p.x| ≤ M ∧ |(t.y : ℝ) - p.y| ≤ M ∧ (tileToWorldPos t : V2 F32).Is ⟨t.x, t.y⟩ := by
  have hM17 := hR.M17
  have hL := hR.L22
  have k1 := hR.hx
  have k2 := hR.hy
  obtain ⟨r, ⟨q, ⟨a1, a2⟩, rfl⟩, b1, b2⟩ := (C82_f32_quantize hn col pos hh hp k1.1 k2.1 (M := L + M)
    ⟨by linarith [hR.px], by linarith [hR.py]⟩ (by norm_num at hM17 hL ⊢; linarith) rfl t).2 hc
  have he : (L + M) / 2 ^ 24 ≤ 1 / 2 := by
    rw [div_le_iff₀ (by positivity)]; norm_num at hM17 hL ⊢; linarith
  have a1 : |q.x| ≤ h.x := a1
  have a2 : |q.y| ≤ h.y := a2
  simp only [V2.add_x, V2.add_y] at b1 b2
  rw [abs_le] at a1 a2 b1 b2
  have c1 : |(t.x : ℝ) - p.x| ≤ M := by
    rw [abs_le]; constructor <;> linarith [a1.1, a1.2, b1.1, b1.2]
  have c2 : |(t.y : ℝ) - p.y| ≤ M := by
    rw [abs_le]; constructor <;> linarith [a2.1, a2.2, b2.1, b2.2]
  have big : ∀ {n : ℤ} {c : ℝ}, |(n : ℝ) - c| ≤ M → |c| ≤ L → |n| ≤ 2 ^ 24 := by
    intro n c h1 h2
    have : |(n : ℝ)| ≤ 2 ^ 24 := by
      rw [abs_le] at h1 h2 ⊢
      norm_num at hM17 hL ⊢
      constructor <;> linarith [h1.1, h1.2, h2.1, h2.2]
    exact_mod_cast this
  exact ⟨c1, c2, (C82_f32_round_trip hn t (big c1 hR.px) (big c2 hR.py)).1⟩

theorem resolveLoop_clear (col : Box2d F32) : ∀ (l : List (V2i × UInt8)) (p : V2 F32),
    (∀ e ∈ l, e.2 > 0 → penetratesRel col (⟨⟨FloatExtra.half, FloatExtra.half⟩⟩ : Box2d F32)
      (tileToWorldPos e.1 - p) = .ok none) → resolveLoop col l p = .ok p := by
  intro l
  induction l with
  | nil => intro p _; rfl
  | cons e l ih =>
    intro p h
    simp only [resolveLoop]
    by_cases hs : e.2 > 0
    · rw [if_pos hs, h e (by simp) hs]
      exact ih p fun x hx => h x (by simp [hx])
    · rw [if_neg hs]
      exact ih p fun x hx => h x (by simp [hx])

theorem resolveLoop_among (col : Box2d F32) (t0 : V2i) (p v : V2 F32)
    (hv : penetratesRel col (⟨⟨FloatExtra.half, FloatExtra.half⟩⟩ : Box2d F32) (tileToWorldPos t0 - p) = .ok (some v)) :
    ∀ (l : List (V2i × UInt8)), (l.map Prod.fst).Nodup → (∃ e ∈ l, e.1 = t0 ∧ e.2 > 0) →
    (∀ e ∈ l, e.1 ≠ t0 → e.2 > 0 →
      penetratesRel col (⟨⟨FloatExtra.half, FloatExtra.half⟩⟩ : Box2d F32) (tileToWorldPos e.1 - p) = .ok none ∧
      penetratesRel col (⟨⟨FloatExtra.half, FloatExtra.half⟩⟩ : Box2d F32) (tileToWorldPos e.1 - (p + v)) = .ok none) →
    resolveLoop col l p = .ok (p + v) := by
  intro l
  induction l with
  | nil => rintro _ ⟨e, he, _⟩; cases he
  | cons e l ih =>
    intro hn hex h
    rw [List.map_cons, List.nodup_cons] at hn
    simp only [resolveLoop]
    by_cases he0 : e.1 = t0
    · have hne : ∀ x ∈ l, x.1 ≠ t0 := fun x hx h1 => hn.1 (by rw [he0, ← h1]; exact List.mem_map_of_mem hx)
      have hs : e.2 > 0 := by
        obtain ⟨e', he', h1, h2⟩ := hex
        rcases List.mem_cons.1 he' with rfl | h3
        · exact h2
        · exact absurd h1 (hne e' h3)
      rw [if_pos hs, he0, hv]
      exact resolveLoop_clear col l _ fun x hx hxs => (h x (by simp [hx]) (hne x hx) hxs).2
    · have hex' : ∃ e ∈ l, e.1 = t0 ∧ e.2 > 0 := by
        obtain ⟨e', he', h1, h2⟩ := hex
        rcases List.mem_cons.1 he' with rfl | h3
        · exact absurd h1 he0
        · exact ⟨e', h3, h1, h2⟩
      have ih' := ih hn.2 hex' fun x hx => h x (by simp [hx])
      by_cases hs : e.2 > 0
      · rw [if_pos hs, (h e (by simp) he0 hs).1]; exact ih'
      · rw [if_neg hs]; exact ih'

/-! ## C101 -/

/-- one tile: a tile that is clear of the box changes nothing; a tile that overlaps it by a margin moves it to where
they just touch, nearly as near as possible -/
theorem C101_f32_tile (hh : col.halfsize.Is h) (hp : pos.Is p) (hR : TileRange M L h p)
    (hx : |(t.x : ℝ) - p.x| ≤ M) (hy : |(t.y : ℝ) - p.y| ≤ M) (ht : |t.x| ≤ 2 ^ 24 ∧ |t.y| ≤ 2 ^ 24)
    (hn : NearestI32 env) :
    (ClearOf (M / 2 ^ 18) h p t → pushedOut col pos t = .ok pos) ∧
    (InsideBy (M / 2 ^ 18) h p t → ∃ pos', pushedOut col pos t = .ok pos' ∧
      MovedClear (M / 2 ^ 15 + L / 2 ^ 23) (M / 2 ^ 13) h p t pos') := by
  have ht' := (C82_f32_round_trip hn t ht.1 ht.2).1
  constructor
  · intro hc
    unfold pushedOut
    rw [tile_clear hh hp hR hx hy ht' hc]; rfl
  · intro hc
    obtain ⟨v, hv, hm⟩ := tile_inside hh hp hR ht' hc
    refine ⟨pos + v, ?_, hm⟩
    unfold pushedOut
    rw [hv]; rfl

/-- `simple_resolve_box` returns the position unchanged when every solid tile is clear of the box. -/
theorem C101_f32_unchanged (hn : NearestI32 env) (m : Tilemap) (dir : V2 F32) (hh : col.halfsize.Is h) (hp : pos.Is p)
    (hR : TileRange M L h p) (hclear : ∀ t, m.getTile t ≠ 0 → ClearOf (M / 2 ^ 18) h p t) :
    m.simpleResolveBox col pos dir = .ok pos := by
  refine resolveLoop_clear col _ _ fun e he hs => ?_
  obtain ⟨h1, h2⟩ := (mem_tilesInRect m _ dir.x dir.y e).1 he
  obtain ⟨k1, k2, k3⟩ := tile_near hn hh hp hR h1
  refine tile_clear hh hp hR k1 k2 k3 (hclear _ ?_)
  rw [← h2]
  intro h0; rw [h0] at hs; exact absurd hs (by decide)

/-- a tile that overlaps the box by a margin is in the rectangle of tiles -/
theorem tile_contains (hn : NearestI32 env) (hh : col.halfsize.Is h) (hp : pos.Is p) (hR : TileRange M L h p)
    (hc : InsideBy (M / 2 ^ 18 + L / 2 ^ 23) h p t) : (quantize col pos).Contains t := by
  have hM17 := hR.M17
  have hM1 := hR.M1
  have hL := hR.L22
  have hL0 := hR.L0
  have k1 := hR.hx
  have k2 := hR.hy
  refine (C82_f32_quantize hn col pos hh hp k1.1 k2.1 (M := L + M)
    ⟨by linarith [hR.px], by linarith [hR.py]⟩ (by norm_num at hM17 hL ⊢; linarith) rfl t).1 ?_
  have hm : (L + M) / 2 ^ 24 < M / 2 ^ 18 + L / 2 ^ 23 := by
    have : M / 2 ^ 18 + L / 2 ^ 23 - (L + M) / 2 ^ 24 = (63 * M + L) / 2 ^ 24 := by ring
    have h7 : 0 < (63 * M + L) / 2 ^ 24 := by positivity
    linarith
  have he : (L + M) / 2 ^ 24 < 1 / 2 := by
    rw [div_lt_iff₀ (by positivity)]; norm_num at hM17 hL ⊢; linarith
  generalize (L + M) / 2 ^ 24 = d at hm he
  have ax : ∀ {H n c : ℝ}, 0 ≤ H → M / 2 ^ 18 + L / 2 ^ 23 ≤ H + 1 / 2 - |n - c| →
      ∃ q, |q| ≤ H ∧ |q + c - n| < 1 / 2 - d := by
    intro H n c hH hg
    have hg' : |n - c| < H + 1 / 2 - d := by linarith
    rw [abs_lt] at hg'
    rcases le_total (n - c) (-H) with h1 | h1
    · exact ⟨-H, by rw [abs_neg, abs_of_nonneg hH], by rw [abs_lt]; constructor <;> linarith [hg'.1]⟩
    rcases le_total (n - c) H with h2 | h2
    · exact ⟨n - c, by rw [abs_le]; exact ⟨h1, h2⟩, by rw [abs_lt]; constructor <;> linarith⟩
    · exact ⟨H, by rw [abs_of_nonneg hH], by rw [abs_lt]; constructor <;> linarith [hg'.2]⟩
  obtain ⟨qx, b1, b2⟩ := ax k1.1 hc.1
  obtain ⟨qy, b3, b4⟩ := ax k2.1 hc.2
  exact ⟨⟨qx, qy⟩ + p, ⟨⟨qx, qy⟩, ⟨b1, b3⟩, rfl⟩, b2, b4⟩

/-- a tile that is clear of the box by a margin is not -/
theorem tile_not_contains (hn : NearestI32 env) (hh : col.halfsize.Is h) (hp : pos.Is p) (hR : TileRange M L h p)
    (hc : ClearOf (M / 2 ^ 18 + L / 2 ^ 23) h p t) : ¬ (quantize col pos).Contains t := by
  intro h1
  have hM17 := hR.M17
  have hM1 := hR.M1
  have hL := hR.L22
  have hL0 := hR.L0
  have k1 := hR.hx
  have k2 := hR.hy
  obtain ⟨r, ⟨q, ⟨a1, a2⟩, rfl⟩, b1, b2⟩ := (C82_f32_quantize hn col pos hh hp k1.1 k2.1 (M := L + M)
    ⟨by linarith [hR.px], by linarith [hR.py]⟩ (by norm_num at hM17 hL ⊢; linarith) rfl t).2 h1
  have hm : (L + M) / 2 ^ 24 < M / 2 ^ 18 + L / 2 ^ 23 := by
    have : M / 2 ^ 18 + L / 2 ^ 23 - (L + M) / 2 ^ 24 = (63 * M + L) / 2 ^ 24 := by ring
    have h7 : 0 < (63 * M + L) / 2 ^ 24 := by positivity
    linarith
  have a1 : |q.x| ≤ h.x := a1
  have a2 : |q.y| ≤ h.y := a2
  simp only [V2.add_x, V2.add_y] at b1 b2
  have tri : ∀ {n c s : ℝ}, |n - c| ≤ |s| + |s + c - n| := by
    intro n c s
    have e : n - c = s - (s + c - n) := by ring
    rw [e]; exact abs_sub _ _
  rcases hc with hc | hc
  · have := tri (n := t.x) (c := p.x) (s := q.x); linarith
  · have := tri (n := t.y) (c := p.y) (s := q.y); linarith

theorem InsideBy.mono {g g' : ℝ} (hg : g' ≤ g) (hc : InsideBy g h p t) : InsideBy g' h p t :=
  ⟨hg.trans hc.1, hg.trans hc.2⟩

/-- `simple_resolve_box` against one solid tile that overlaps the box by a margin, all other solid tiles being clear
of the box by that margin before the move: the result is a position where the box just touches the tile, up to rounding,
and no position where they are separated is nearer by more than the tolerance. -/
theorem C101_f32_single (hn : NearestI32 env) (m : Tilemap) (dir : V2 F32) (hh : col.halfsize.Is h) (hp : pos.Is p)
    (hR : TileRange M L h p) (t0 : V2i) (hsolid : m.getTile t0 ≠ 0)
    (hin : InsideBy (M / 2 ^ 18 + L / 2 ^ 23) h p t0)
    (hother : ∀ t, t ≠ t0 → m.getTile t ≠ 0 → ClearOf (M / 2 ^ 18 + L / 2 ^ 23) h p t) :
    ∃ pos', m.simpleResolveBox col pos dir = .ok pos' ∧
      MovedClear (M / 2 ^ 15 + L / 2 ^ 23) (M / 2 ^ 13) h p t0 pos' := by
  have hc := tile_contains hn hh hp hR hin
  obtain ⟨k1, k2, k3⟩ := tile_near hn hh hp hR hc
  have hL0 := hR.L0
  obtain ⟨v, hv, hm⟩ := tile_inside hh hp hR k3 (hin.mono (le_add_of_nonneg_right (by positivity)))
  refine ⟨pos + v, resolveLoop_among col t0 pos v hv _ (tilesInRect_nodup m _ dir.x dir.y)
    ⟨(t0, m.getTile t0), (mem_tilesInRect m _ dir.x dir.y _).2 ⟨hc, rfl⟩, rfl, ?_⟩ ?_, hm⟩
  · exact UInt8.pos_iff_ne_zero.2 hsolid
  · intro e he hne hs
    obtain ⟨h1, h2⟩ := (mem_tilesInRect m _ dir.x dir.y e).1 he
    refine absurd h1 (tile_not_contains hn hh hp hR (hother e.1 hne ?_))
    rw [← h2]
    intro h0; rw [h0] at hs; exact absurd hs (by decide)

/-- the same among other solid tiles that are clear of the box both before and after the move (`x`: the position it is
moved to) -/
theorem C101_f32_among (hn : NearestI32 env) (m : Tilemap) (dir : V2 F32) (hh : col.halfsize.Is h) (hp : pos.Is p)
    (hR : TileRange M L h p) (hM : M ≤ 2 ^ 15) (hL : L ≤ 2 ^ 21) (t0 : V2i) (hsolid : m.getTile t0 ≠ 0)
    (hin : InsideBy (M / 2 ^ 18 + L / 2 ^ 23) h p t0) :
    ∃ pos' x, pos'.Is x ∧ MovedClear (M / 2 ^ 15 + L / 2 ^ 23) (M / 2 ^ 13) h p t0 pos' ∧
      ((∀ t, t ≠ t0 → m.getTile t ≠ 0 → ClearOf (M / 2 ^ 18) h p t ∧ ClearOf (M / 2 ^ 16) h x t) →
        m.simpleResolveBox col pos dir = .ok pos') := by
  have hc := tile_contains hn hh hp hR hin
  obtain ⟨k1, k2, k3⟩ := tile_near hn hh hp hR hc
  have hL0 := hR.L0
  have hM1 := hR.M1
  obtain ⟨v, hv, hm⟩ := tile_inside hh hp hR k3 (hin.mono (le_add_of_nonneg_right (by positivity)))
  obtain ⟨x, y, hx, hxy, ⟨r, ⟨q, ⟨a1, a2⟩, rfl⟩, b1, b2⟩, -, -⟩ := id hm
  refine ⟨pos + v, x, hx, hm, fun hcl => ?_⟩
  have hstep : M / 2 ^ 15 + L / 2 ^ 23 ≤ M := by
    have e1 : M / 2 ^ 15 ≤ M / 2 := div_le_div_of_nonneg_left (by linarith) (by norm_num) (by norm_num)
    have e2 : L / 2 ^ 23 ≤ 1 / 2 := by
      rw [div_le_iff₀ (by positivity)]; norm_num at hL ⊢; linarith
    linarith
  have h1 := hR.hx
  have h2 := hR.hy
  have a1 : |q.x| ≤ h.x := a1
  have a2 : |q.y| ≤ h.y := a2
  simp only [V2.add_x, V2.add_y] at b1 b2
  have c1 := hxy.1
  have c2 := hxy.2
  have mv : ∀ {H n a b c s : ℝ}, H + 1 ≤ M → |s| ≤ H → |s + b - n| ≤ 1 / 2 → |a - b| ≤ M / 2 ^ 15 + L / 2 ^ 23 →
      |n - c| ≤ M → |a - c| ≤ 3 * M := by
    intro H n a b c s g1 g2 g3 g4 g5
    rw [abs_le] at g2 g3 g4 g5 ⊢
    constructor <;> linarith [g2.1, g2.2, g3.1, g3.2, g4.1, g4.2, g5.1, g5.2]
  have d1 := mv h1.2 a1 b1 c1 k1
  have d2 := mv h2.2 a2 b2 c2 k2
  have tri : ∀ {a b c A B : ℝ}, |a - b| ≤ A → |c - b| ≤ B → |a - c| ≤ A + B := by
    intro a b c A B g1 g2
    rw [abs_le] at g1 g2 ⊢
    constructor <;> linarith [g1.1, g1.2, g2.1, g2.2]
  have siz : ∀ {a b A B : ℝ}, |a - b| ≤ A → |b| ≤ B → |a| ≤ B + A := by
    intro a b A B g1 g2
    rw [abs_le] at g1 g2 ⊢
    constructor <;> linarith [g1.1, g1.2, g2.1, g2.2]
  have hR' : TileRange (4 * M) (L + 3 * M) h x :=
    ⟨⟨h1.1, by linarith⟩, ⟨h2.1, by linarith⟩, siz d1 hR.px, siz d2 hR.py,
      by norm_num at hM ⊢; linarith, by norm_num at hM hL ⊢; linarith⟩
  refine resolveLoop_among col t0 pos v hv _ (tilesInRect_nodup m _ dir.x dir.y)
    ⟨(t0, m.getTile t0), (mem_tilesInRect m _ dir.x dir.y _).2 ⟨hc, rfl⟩, rfl, UInt8.pos_iff_ne_zero.2 hsolid⟩ ?_
  intro e he hne hs
  obtain ⟨e1, e2⟩ := (mem_tilesInRect m _ dir.x dir.y e).1 he
  obtain ⟨n1, n2, n3⟩ := tile_near hn hh hp hR e1
  obtain ⟨f1, f2⟩ := hcl e.1 hne (by
    rw [← e2]
    intro h0; rw [h0] at hs; exact absurd hs (by decide))
  refine ⟨tile_clear hh hp hR n1 n2 n3 f1, tile_clear hh hx hR' ?_ ?_ n3 ?_⟩
  · have := tri n1 d1; linarith
  · have := tri n2 d2; linarith
  · have e : 4 * M / 2 ^ 18 = M / 2 ^ 16 := by ring
    rw [e]; exact f2

end

/-- a concrete instance: the unit box at `(3/4, 0)` and the one solid tile of a map, at the origin -/
example (hn : NearestI32 env) (dir : V2 F32) {col : Box2d F32} {pos : V2 F32} (hh : col.halfsize.Is ⟨1 / 2, 1 / 2⟩)
    (hp : pos.Is ⟨3 / 4, 0⟩) : ∃ pos', (Tilemap.default.setTile ⟨0, 0⟩ 3).simpleResolveBox col pos dir = .ok pos' ∧
      MovedClear (2 / 2 ^ 15 + 1 / 2 ^ 23) (2 / 2 ^ 13) ⟨1 / 2, 1 / 2⟩ ⟨3 / 4, 0⟩ ⟨0, 0⟩ pos' := by
  have get : ∀ p, (Tilemap.default.setTile ⟨0, 0⟩ 3).getTile p = if p = ⟨0, 0⟩ then 3 else 0 := by
    intro p; rw [getTile_setTile WF.default]; rfl
  refine C101_f32_single hn _ dir hh hp (M := 2) (L := 1) ⟨by norm_num, by norm_num, ?_, ?_, by norm_num, by norm_num⟩
    ⟨0, 0⟩ (by rw [get]; decide) ⟨?_, ?_⟩ fun t ht hs => absurd hs (by rw [get, if_neg ht]; decide)
  all_goals norm_num [abs_of_pos, abs_of_neg]

/-- and a second solid tile beyond it, clear of the box before and after -/
example (hn : NearestI32 env) (dir : V2 F32) {col : Box2d F32} {pos : V2 F32} (hh : col.halfsize.Is ⟨1 / 2, 1 / 2⟩)
    (hp : pos.Is ⟨3 / 4, 0⟩) :
    ∃ pos', ((Tilemap.default.setTile ⟨0, 0⟩ 3).setTile ⟨5, 5⟩ 1).simpleResolveBox col pos dir = .ok pos' ∧
      MovedClear (2 / 2 ^ 15 + 1 / 2 ^ 23) (2 / 2 ^ 13) ⟨1 / 2, 1 / 2⟩ ⟨3 / 4, 0⟩ ⟨0, 0⟩ pos' := by
  have get : ∀ p, ((Tilemap.default.setTile ⟨0, 0⟩ 3).setTile ⟨5, 5⟩ 1).getTile p =
      if p = ⟨5, 5⟩ then 1 else if p = ⟨0, 0⟩ then 3 else 0 := by
    intro p; rw [getTile_setTile (WF.setTile WF.default _ _), getTile_setTile WF.default]; rfl
  obtain ⟨pos', x, hx, hm, hr⟩ := C101_f32_among hn ((Tilemap.default.setTile ⟨0, 0⟩ 3).setTile ⟨5, 5⟩ 1) dir hh hp
    (M := 2) (L := 1) ⟨by norm_num, by norm_num, by norm_num [abs_of_pos], by norm_num, by norm_num, by norm_num⟩
    (by norm_num) (by norm_num) ⟨0, 0⟩ (by rw [get]; decide) ⟨by norm_num [abs_of_pos], by norm_num [abs_of_pos]⟩
  refine ⟨pos', hr fun t ht hs => ?_, hm⟩
  rw [get, if_neg ht] at hs
  by_cases h5 : t = ⟨5, 5⟩
  · subst h5
    refine ⟨Or.inl (by norm_num [abs_of_pos]), Or.inl ?_⟩
    obtain ⟨x', y, hx', hxy, ⟨r, ⟨q, ⟨a1, a2⟩, rfl⟩, b1, b2⟩, -, -⟩ := hm
    obtain rfl : x = x' := V2.ext (F32.Is.unique hx.1 hx'.1) (F32.Is.unique hx.2 hx'.2)
    have a1 : |q.x| ≤ 1 / 2 := a1
    have c1 := hxy.1
    simp only [V2.add_x] at b1
    norm_num at b1 c1 ⊢
    rw [abs_le] at a1 b1 c1
    rw [le_abs]
    left; linarith [a1.1, a1.2, b1.1, b1.2, c1.1, c1.2]
  · rw [if_neg h5] at hs; exact absurd rfl hs

end
end Auburn
