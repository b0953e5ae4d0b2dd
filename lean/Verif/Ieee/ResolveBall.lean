import Verif.Ieee.ResolveProps
import Verif.Ieee.PosProps
import Verif.Props.Tier0

/-!
# C101: a ball against the tiles in binary32
-/

set_option linter.unusedSectionVars false
set_option synthInstance.maxSize 1000

namespace Auburn

open F32 V2 Transformation2d Tilemap

/-- every point of the cell of `t` is farther than `r + g` from `p` -/
def BallClearOf (g r : ℝ) (p : V2 ℝ) (t : V2i) : Prop :=
  ∀ q ∈ tileCellClosed (K := ℝ) t, r + g < V2.norm (q - p)

section
variable [env : F32Env]

theorem resolveLoop_clear' {S : Type} [SdfvCommonRel2d true false S (Box2d F32) (V2 F32) F32] (col : S) :
    ∀ (l : List (V2i × UInt8)) (p : V2 F32),
    (∀ e ∈ l, e.2 > 0 → penetratesRel col (⟨⟨FloatExtra.half, FloatExtra.half⟩⟩ : Box2d F32)
      (tileToWorldPos e.1 - p) = .ok none) → resolveLoop col l p = .ok p := by
  intro l
  induction l with
  | nil => intro p _; rfl
  | cons e l ih =>
    intro p h
    simp only [resolveLoop]
    by_cases hs : e.2 > 0
    · rw [if_pos hs, h e (by simp) hs]
      exact ih p fun x hx => h x (by simp [hx])
    · rw [if_neg hs]
      exact ih p fun x hx => h x (by simp [hx])

section
variable {col : Ball F32} {pos : V2 F32} {r : ℝ} {p : V2 ℝ} {M L : ℝ} {t : V2i}

theorem half_bounded (hM1 : 1 ≤ M) :
    (⟨⟨FloatExtra.half, FloatExtra.half⟩⟩ : Box2d F32).Bounded32 M ∧
    (⟨⟨FloatExtra.half, FloatExtra.half⟩⟩ : Box2d F32).toReal = ⟨⟨1 / 2, 1 / 2⟩⟩ := by
  have e : (FloatExtra.half : F32).toReal = 1 / 2 := F32.Is.toReal is_half.1
  have e2 : (⟨⟨FloatExtra.half, FloatExtra.half⟩⟩ : Box2d F32).toReal = ⟨⟨1 / 2, 1 / 2⟩⟩ := by
    show (⟨⟨(FloatExtra.half : F32).toReal, (FloatExtra.half : F32).toReal⟩⟩ : Box2d ℝ) = _
    rw [e]
  refine ⟨⟨⟨?_, ?_⟩, ?_, ?_⟩, e2⟩
  · show V2.Is _ ⟨(FloatExtra.half : F32).toReal, (FloatExtra.half : F32).toReal⟩
    rw [e]; exact is_half
  · show |(FloatExtra.half : F32).toReal| ≤ M ∧ |(FloatExtra.half : F32).toReal| ≤ M
    rw [e, abs_of_pos (by norm_num)]
    constructor <;> linarith
  · show 0 ≤ (FloatExtra.half : F32).toReal
    rw [e]; norm_num
  · show 0 ≤ (FloatExtra.half : F32).toReal
    rw [e]; norm_num

theorem ball_tile_clear (hr : F32.Is col.radius r) (hr0 : 0 ≤ r) (hrM : r + 2 ≤ M) (hM : M ≤ 2 ^ 17) (hp : pos.Is p)
    (hx : |(t.x : ℝ) - p.x| ≤ M - 1) (hy : |(t.y : ℝ) - p.y| ≤ M - 1) (ht : (tileToWorldPos t : V2 F32).Is ⟨t.x, t.y⟩)
    (hc : BallClearOf (M / 60) r p t) :
    penetratesRel col (⟨⟨FloatExtra.half, FloatExtra.half⟩⟩ : Box2d F32) (tileToWorldPos t - pos) = .ok none := by
  have hM2 : 2 ≤ M := by linarith
  have ax : ∀ {A B : F32} {a b : ℝ}, F32.Is A a → F32.Is B b → |a - b| ≤ M - 1 →
      ∃ w, F32.Is (A - B) w ∧ |w - (a - b)| ≤ M / 2 ^ 24 := by
    intro A B a b hA hB hab
    have h126 : (2 : ℝ) ^ (17 : ℕ) ≤ 3 * (2 : ℝ) ^ (126 : ℤ) := by
      have : (2 : ℝ) ^ (126 : ℤ) = 2 ^ 126 := by norm_cast
      rw [this]; norm_num
    obtain ⟨w, h1, h2⟩ := F32.round_sub hA hB (by linarith)
    exact ⟨w, h1, h2.trans (div_le_div_of_nonneg_right (by linarith) (by positivity))⟩
  obtain ⟨wx, ix, ex⟩ := ax ht.1 hp.1 hx
  obtain ⟨wy, iy, ey⟩ := ax ht.2 hp.2 hy
  have hsm : M / 2 ^ 24 ≤ 1 := by
    rw [div_le_iff₀ (by positivity)]; norm_num at hM ⊢; linarith
  have er : (tileToWorldPos t - pos : V2 F32).toReal = ⟨wx, wy⟩ := V2.ext (F32.Is.toReal ix) (F32.Is.toReal iy)
  have hbd : ∀ {w a : ℝ}, |w - a| ≤ M / 2 ^ 24 → |a| ≤ M - 1 → |w| ≤ M := by
    intro w a h1 h2
    rw [abs_le] at h1 h2 ⊢
    constructor <;> linarith [h1.1, h1.2, h2.1, h2.2]
  have hrel : (tileToWorldPos t - pos : V2 F32).Bounded32 M := by
    refine ⟨?_, ?_⟩
    · rw [er]; exact ⟨ix, iy⟩
    · rw [er]; exact ⟨hbd ex hx, hbd ey hy⟩
  have ecol : col.radius.toReal = r := F32.Is.toReal hr
  have hcol : col.Bounded32 M := by
    refine ⟨?_, ?_, ?_⟩
    · rw [ecol]; exact hr
    · rw [ecol]; exact hr0
    · rw [ecol]; linarith
  have hmet := (C87_f32_ball_box col _ _ hcol (half_bounded (M := M) (by linarith)).1 hrel (by linarith)
    (by norm_num at hM ⊢; linarith)).penetrates
  obtain ⟨o, ho⟩ := (C33_rel_no_panic col (⟨⟨FloatExtra.half, FloatExtra.half⟩⟩ : Box2d F32)
    (tileToWorldPos t - pos : V2 F32)).2.1
  cases o with
  | none => exact ho
  | some v =>
    exfalso
    obtain ⟨a, ha, b, ⟨q, hq, rfl⟩, hab⟩ := hmet v ho
    rw [er, (half_bounded (M := M) (by linarith)).2] at *
    rw [ecol] at ha
    obtain ⟨-, ha2⟩ := ha
    obtain ⟨q1, q2⟩ := hq
    have hcell : q + ⟨t.x, t.y⟩ ∈ tileCellClosed (K := ℝ) t := by
      rw [tileCell_box]; exact ⟨q, ⟨q1, q2⟩, rfl⟩
    have h1 := hc _ hcell
    have e : q + ⟨t.x, t.y⟩ - p = a + (-(a - (q + ⟨wx, wy⟩)) + (⟨t.x - p.x - wx, t.y - p.y - wy⟩ : V2 ℝ)) := by
      ext <;> simp <;> ring
    rw [e] at h1
    have n1 := V2.norm_le_add (⟨t.x - p.x - wx, t.y - p.y - wy⟩ : V2 ℝ)
    have n2 : |(t.x : ℝ) - p.x - wx| ≤ M / 2 ^ 24 := by rw [abs_sub_comm]; exact ex
    have n3 : |(t.y : ℝ) - p.y - wy| ≤ M / 2 ^ 24 := by rw [abs_sub_comm]; exact ey
    have n4 := V2.norm_add_le a (-(a - (q + ⟨wx, wy⟩)) + (⟨t.x - p.x - wx, t.y - p.y - wy⟩ : V2 ℝ))
    have n5 := V2.norm_add_le (-(a - (q + ⟨wx, wy⟩))) (⟨t.x - p.x - wx, t.y - p.y - wy⟩ : V2 ℝ)
    rw [V2.norm_neg] at n5
    have n6 : a.norm ≤ r := by
      have ha2 : a.norm ^ 2 ≤ r ^ 2 := by rw [V2.norm_sq']; exact ha2
      exact (pow_le_pow_iff_left₀ a.norm_nonneg hr0 (by norm_num)).1 ha2
    have n1' : V2.norm (⟨t.x - p.x - wx, t.y - p.y - wy⟩ : V2 ℝ) ≤ 2 * (M / 2 ^ 24) := by
      refine n1.trans ?_
      show |(t.x : ℝ) - p.x - wx| + |(t.y : ℝ) - p.y - wy| ≤ _
      linarith
    have : M / 2 ^ 6 + 2 * (M / 2 ^ 24) ≤ M / 60 := by
      have : M / 60 - (M / 2 ^ 6 + 2 * (M / 2 ^ 24)) = M * (1 / 60 - 1 / 2 ^ 6 - 2 / 2 ^ 24) := by ring
      have h9 : 0 ≤ M * (1 / 60 - 1 / 2 ^ 6 - 2 / 2 ^ 24) := mul_nonneg (by linarith) (by norm_num)
      linarith
    linarith

/-- `simple_resolve_ball` in f32: a ball that is clear of every solid tile by a sixtieth of its size (radius plus two
tiles) is left where it is, bit for bit. -/
theorem C101_f32_ball_unchanged (hn : NearestI32 env) (m : Tilemap) (dir : V2 F32) (hr : F32.Is col.radius r) (hr0 : 0 ≤ r)
    (hrM : r + 2 ≤ M) (hM : M ≤ 2 ^ 17) (hp : pos.Is p) (hpx : |p.x| ≤ 2 ^ 22) (hpy : |p.y| ≤ 2 ^ 22)
    (hclear : ∀ t, m.getTile t ≠ 0 → BallClearOf (M / 60) r p t) :
    m.simpleResolveBall col pos dir = .ok pos := by
  refine resolveLoop_clear' col _ _ fun e he hs => ?_
  obtain ⟨h1, h2⟩ := (mem_tilesInRect m _ dir.x dir.y e).1 he
  have hR : TileRange (M - 1) (2 ^ 22) (⟨r, r⟩ : V2 ℝ) p :=
    ⟨⟨hr0, by show r + 1 ≤ _; linarith⟩, ⟨hr0, by show r + 1 ≤ _; linarith⟩, hpx, hpy, by linarith, le_refl _⟩
  obtain ⟨k1, k2, k3⟩ := tile_near (col := col.boundingBox) (h := ⟨r, r⟩) hn ⟨hr, hr⟩ hp hR h1
  refine ball_tile_clear hr hr0 hrM hM hp k1 k2 k3 (hclear _ ?_)
  rw [← h2]
  intro h0; rw [h0] at hs; exact absurd hs (by decide)

end

/-- a concrete instance: the ball of radius `1/2` at `(3, 0)` and a solid tile at the origin -/
example (hn : NearestI32 env) (dir : V2 F32) {col : Ball F32} {pos : V2 F32} (hr : F32.Is col.radius (1 / 2))
    (hp : pos.Is ⟨3, 0⟩) : (Tilemap.default.setTile ⟨0, 0⟩ 3).simpleResolveBall col pos dir = .ok pos := by
  have get : ∀ p, (Tilemap.default.setTile ⟨0, 0⟩ 3).getTile p = if p = ⟨0, 0⟩ then 3 else 0 := by
    intro p; rw [getTile_setTile WF.default]; rfl
  refine C101_f32_ball_unchanged (r := 1 / 2) (M := 3) hn _ dir hr (by norm_num) (by norm_num) (by norm_num) hp
    (by norm_num [abs_of_pos]) (by norm_num) fun t ht => ?_
  by_cases h : t = ⟨0, 0⟩
  · subst h
    rintro q ⟨h1, -⟩
    have h1 : |q.x - ((0 : ℤ) : ℝ)| ≤ 1 / 2 := h1
    have h2 := (q - (⟨3, 0⟩ : V2 ℝ)).norm_sq
    have h3 := (q - (⟨3, 0⟩ : V2 ℝ)).norm_nonneg
    simp only [V2.sub_x, V2.sub_y] at h2
    rw [abs_le] at h1
    push_cast at h1
    have h4 : 5 / 2 ≤ 3 - q.x := by linarith [h1.2]
    by_contra hlt
    push Not at hlt
    nlinarith [sq_nonneg (q.y - 0)]
  · exact absurd (by rw [get, if_neg h]) ht

end
end Auburn
