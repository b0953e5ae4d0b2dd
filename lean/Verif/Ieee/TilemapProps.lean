import Verif.Ieee.ColliderProps
import Verif.Props.Tilemap

/-!
# C82: tile coordinates in binary32

`as f32` rounds large tile coordinates; `round_to_i32` is assumed to return a nearest integer for
finite arguments inside the `i32` range (`NearestI32`: any tie rule, any behaviour outside).
-/

set_option linter.unusedSectionVars false
set_option synthInstance.maxSize 1000

namespace Auburn

open F32 V2 Transformation2d Tilemap

/-! ## specification -/

/-- `round_to_i32` returns a nearest integer for finite arguments in the `i32` range -/
def NearestI32 (env : F32Env) : Prop :=
  ∀ (a : F32) (x : ℝ), F32.Is a x → -2 ^ 31 ≤ x → x < 2 ^ 31 → |x - (env.roundI32 a : ℝ)| ≤ 1 / 2

/-- the open cell of a tile, narrowed by `e` on each side -/
def innerCell (t : V2i) (e : ℝ) : Set (V2 ℝ) :=
  {p | |p.x - t.x| < 1 / 2 - e ∧ |p.y - t.y| < 1 / 2 - e}

/-- the closed cell of a tile, widened by `e` on each side -/
def outerCell (t : V2i) (e : ℝ) : Set (V2 ℝ) :=
  {p | |p.x - t.x| ≤ 1 / 2 + e ∧ |p.y - t.y| ≤ 1 / 2 + e}

section
variable [env : F32Env]

/-! ## library -/

theorem nearest_eq {a : F32} {x : ℝ} {n : ℤ} (hn : NearestI32 env) (ha : F32.Is a x)
    (h1 : -2 ^ 31 ≤ x) (h2 : x < 2 ^ 31) (h : |x - n| < 1 / 2) : env.roundI32 a = n := by
  have hr := abs_le.1 (hn a x ha h1 h2)
  rw [abs_lt] at h
  have h3 : (env.roundI32 a : ℝ) < n + 1 := by linarith [h.1, h.2, hr.1, hr.2]
  have h4 : (n : ℝ) < env.roundI32 a + 1 := by linarith [h.1, h.2, hr.1, hr.2]
  have h5 : env.roundI32 a < n + 1 := by exact_mod_cast h3
  have h6 : n < env.roundI32 a + 1 := by exact_mod_cast h4
  omega

theorem ofInt_f32 {n : ℤ} (h : |n| ≤ 2 ^ 24) : F32.Is (FloatExtra.ofInt n : F32) n :=
  is_ofReal (representable_int n h)

/-! ## C82 -/

/-- tile coordinates up to `2^24` in magnitude: the world position of a tile is exact, and the tile of
that world position is the tile itself -/
theorem C82_f32_round_trip (hn : NearestI32 env) (t : V2i) (hx : |t.x| ≤ 2 ^ 24) (hy : |t.y| ≤ 2 ^ 24) :
    (tileToWorldPos t : V2 F32).Is ⟨t.x, t.y⟩ ∧ worldToTilePos (tileToWorldPos t : V2 F32) = t := by
  have key : ∀ n : ℤ, |n| ≤ 2 ^ 24 → env.roundI32 (FloatExtra.ofInt n : F32) = n := by
    intro n h
    have h' : |(n : ℝ)| ≤ 2 ^ 24 := by exact_mod_cast h
    have := abs_le.1 h'
    refine nearest_eq hn (ofInt_f32 h) ?_ ?_ (by rw [sub_self, abs_zero]; norm_num)
    · exact le_trans (by norm_num) this.1
    · exact lt_of_le_of_lt this.2 (by norm_num)
  refine ⟨⟨ofInt_f32 hx, ofInt_f32 hy⟩, ?_⟩
  show (⟨env.roundI32 _, env.roundI32 _⟩ : V2i) = t
  exact V2i.ext (key _ hx) (key _ hy)

/-- all `i32` tiles except those within 64 of `i32::MAX`: the tile of the world position is at most 64
tiles away (in each coordinate) -/
theorem C82_f32_round_trip_far (hn : NearestI32 env) (t : V2i)
    (hx : -2 ^ 31 ≤ t.x ∧ t.x < 2 ^ 31 - 64) (hy : -2 ^ 31 ≤ t.y ∧ t.y < 2 ^ 31 - 64) :
    |(worldToTilePos (tileToWorldPos t : V2 F32)).x - t.x| ≤ 64 ∧
    |(worldToTilePos (tileToWorldPos t : V2 F32)).y - t.y| ≤ 64 := by
  have key : ∀ n : ℤ, -2 ^ 31 ≤ n → n < 2 ^ 31 - 64 →
      |env.roundI32 (FloatExtra.ofInt n : F32) - n| ≤ 64 := by
    intro n h1 h2
    have g1 : (-2 ^ 31 : ℝ) ≤ n := by exact_mod_cast h1
    have g2 : (n : ℝ) + 1 ≤ 2 ^ 31 - 64 := by
      have : n + 1 ≤ 2 ^ 31 - 64 := by omega
      exact_mod_cast this
    have hab : |(n : ℝ)| ≤ 2 ^ 31 := by
      rw [abs_le]; constructor <;> linarith
    obtain ⟨w, w1, w2, w3, _⟩ := round_any (z := false) (x := (n : ℝ)) (hab.trans (by norm_num))
    have w1' : F32.Is (FloatExtra.ofInt n : F32) w := w1
    have w2' : |w - n| ≤ 64 := by
      have hrep : Representable ((128 * ((n + 64) / 128) : ℤ) : ℝ) := by
        have := representable_scaled ((n + 64) / 128) 7 (by rw [abs_le]; constructor <;> omega)
          (by norm_num) (by norm_num)
        rwa [show (((n + 64) / 128 : ℤ) : ℝ) * (2 : ℝ) ^ (7 : ℤ) = ((128 * ((n + 64) / 128) : ℤ) : ℝ) by
          push_cast; norm_num; ring] at this
      refine (correctly_rounded w1 rfl hrep).trans ?_
      have : |128 * ((n + 64) / 128) - n| ≤ 64 := by rw [abs_le]; constructor <;> omega
      exact_mod_cast this
    have w4 := abs_le.1 w2'
    have b1 : (-2 ^ 31 : ℝ) ≤ w := by
      have hrep : Representable ((-2 ^ 31 : ℤ) : ℝ) :=
        ⟨-2 ^ 20, 11, by push_cast; norm_num, by norm_num, by norm_num, by norm_num⟩
      have := correctly_rounded w1 rfl hrep
      push_cast at this
      by_contra hcon
      push Not at hcon
      rw [abs_of_neg (by linarith), abs_of_nonpos (by linarith)] at this
      linarith
    have hr := abs_le.1 (hn _ w w1' b1 (by linarith [w4.2]))
    have : |(env.roundI32 (FloatExtra.ofInt n : F32) : ℝ) - n| < 65 := by
      rw [abs_lt]; constructor <;> linarith [w4.1, w4.2, hr.1, hr.2]
    have : |env.roundI32 (FloatExtra.ofInt n : F32) - n| < 65 := by exact_mod_cast this
    omega
  exact ⟨key _ hx.1 hx.2, key _ hy.1 hy.2⟩

/-- Finding: from `2^24` on different tiles have the same world position in f32, so the tile of a tile's
world position can be another tile. -/
theorem C82_f32_round_trip_finding (hn : NearestI32 env) :
    (tileToWorldPos ⟨2 ^ 24 + 1, 0⟩ : V2 F32) = tileToWorldPos ⟨2 ^ 24, 0⟩ ∧
    worldToTilePos (tileToWorldPos ⟨2 ^ 24 + 1, 0⟩ : V2 F32) = ⟨2 ^ 24, 0⟩ := by
  have e : (FloatExtra.ofInt (2 ^ 24 + 1) : F32) = FloatExtra.ofInt (2 ^ 24) := by
    show ofReal false ((2 ^ 24 + 1 : ℤ) : ℝ) = ofReal false ((2 ^ 24 : ℤ) : ℝ)
    have hl : ∀ x : ℝ, 2 ^ 24 ≤ x → x < 2 ^ 25 → ulpExp x = 1 := by
      intro x h1 h2
      have h0 : 0 < x := lt_of_lt_of_le (by norm_num) h1
      have : Int.log 2 x = 24 := by
        refine le_antisymm ?_ ?_
        · have := (Int.lt_zpow_iff_log_lt (b := 2) (by norm_num) (x := 25) h0).1 (by
            push_cast; exact_mod_cast h2)
          omega
        · exact (Int.zpow_le_iff_le_log (b := 2) (by norm_num) h0).1 (by push_cast; exact_mod_cast h1)
      unfold ulpExp; rw [this]; norm_num
    have r1 : rnd ((2 : ℝ) ^ 24 + 1) = 2 ^ 24 := by
      unfold rnd roundEven
      rw [hl _ (by norm_num) (by norm_num)]
      have hq : ((2 : ℝ) ^ 24 + 1) / (2 : ℝ) ^ (1 : ℤ) = ((2 ^ 23 : ℤ) : ℝ) + 1 / 2 := by norm_num
      have hfl : ⌊((2 ^ 23 : ℤ) : ℝ) + 1 / 2⌋ = 2 ^ 23 := by
        rw [Int.floor_intCast_add]; norm_num
      have hfr : Int.fract (((2 ^ 23 : ℤ) : ℝ) + 1 / 2) = 1 / 2 := by
        rw [Int.fract, hfl]; ring
      rw [hq, hfr, hfl]
      norm_num [show Even (8388608 : ℤ) by decide]
    have r2 : rnd ((2 : ℝ) ^ 24) = 2 ^ 24 := by
      refine rnd_of_representable (by norm_num) ?_
      have := representable_int (2 ^ 24) (by norm_num)
      norm_num at this ⊢; exact this
    have key : ∀ x y : ℝ, 0 < x → 0 < y → rnd x = rnd y → ofReal false x = ofReal false y := by
      intro x y hx hy h
      unfold ofReal ofMag
      rw [if_neg hx.ne', if_neg hy.ne']
      simp only [abs_of_pos hx, abs_of_pos hy, decide_eq_false (not_lt.2 hx.le),
        decide_eq_false (not_lt.2 hy.le), h]
    refine key _ _ (by norm_num) (by norm_num) ?_
    push_cast
    norm_num at r1 r2 ⊢
    rw [r1, r2]
  have e2 : (tileToWorldPos ⟨2 ^ 24 + 1, 0⟩ : V2 F32) = tileToWorldPos ⟨2 ^ 24, 0⟩ := V2.ext e rfl
  rw [e2]
  exact ⟨rfl, (C82_f32_round_trip hn ⟨2 ^ 24, 0⟩ (by norm_num) (by norm_num)).2⟩

/-- the tile found for a world position in f32 is one whose closed cell contains the position, and the
tile itself if the position is strictly inside the cell -/
theorem C82_f32_world_to_tile (hn : NearestI32 env) (p' : V2 F32) {p : V2 ℝ} (hp : p'.Is p)
    (hx : -2 ^ 31 ≤ p.x ∧ p.x < 2 ^ 31) (hy : -2 ^ 31 ≤ p.y ∧ p.y < 2 ^ 31) :
    p ∈ tileCellClosed (K := ℝ) (worldToTilePos p') ∧
    ∀ t, p ∈ tileCell (K := ℝ) t → worldToTilePos p' = t :=
  ⟨⟨hn _ _ hp.1 hx.1 hx.2, hn _ _ hp.2 hy.1 hy.2⟩, fun _ ht =>
    V2i.ext (nearest_eq hn hp.1 hx.1 hx.2 ht.1) (nearest_eq hn hp.2 hy.1 hy.2 ht.2)⟩

/-- Tilemap v Point in f32: the answer is that of a tile whose closed cell contains the point (and of the
tile whose open cell contains it) -/
theorem C82_f32_tilemap_point {T : Type} [Transformation2d T F32] (hn : NearestI32 env) (m : Tilemap)
    (rel : T) {p : V2 ℝ} (hp : (applyOrigin rel : V2 F32).Is p) (hx : -2 ^ 31 ≤ p.x ∧ p.x < 2 ^ 31)
    (hy : -2 ^ 31 ≤ p.y ∧ p.y < 2 ^ 31) :
    ∃ t, p ∈ tileCellClosed (K := ℝ) t ∧
      collidesRel m (Point.mk : Point F32) rel = .ok (decide (m.getTile t ≠ 0)) ∧
      penetratesRel m (Point.mk : Point F32) rel =
        .ok (if m.getTile t ≠ 0 then some ⟨0, 1⟩ else none) ∧
      ∀ u, p ∈ tileCell (K := ℝ) u → u = t := by
  obtain ⟨h1, h2⟩ := C82_f32_world_to_tile hn _ hp hx hy
  refine ⟨_, h1, rfl, ?_, fun u hu => (h2 u hu).symm⟩
  simp only [penetratesRel, SdfvCommonRel2d.sdfvCommonRel, Except.map, V2.unitY]
  split_ifs with h <;> simp_all

/-- `quantize` in f32, for boxes inside the `i32` range, up to the rounding error
`e = (|position| + half size) / 2^24` of the two corners: the rectangle contains every tile whose cell,
narrowed by `e`, meets the box, and only tiles whose cell, widened by `e`, meets it -/
theorem C82_f32_quantize (hn : NearestI32 env) (b : Box2d F32) (pos : V2 F32) {h p : V2 ℝ} {e M : ℝ}
    (hh : b.halfsize.Is h) (hp : pos.Is p) (hx : 0 ≤ h.x) (hy : 0 ≤ h.y)
    (hM : |p.x| + h.x ≤ M ∧ |p.y| + h.y ≤ M) (hM' : M ≤ 2 ^ 30) (he : e = M / 2 ^ 24) (t : V2i) :
    (Touch (shift p (Region.pts (Box2d.mk h))) (innerCell t e) → (quantize b pos).Contains t) ∧
    ((quantize b pos).Contains t → Touch (shift p (Region.pts (Box2d.mk h))) (outerCell t e)) := by
  have axis : ∀ {c' h' : F32} {c h : ℝ}, F32.Is c' c → F32.Is h' h → 0 ≤ h → |c| + h ≤ M →
      (∃ l, F32.Is (c' - h') l ∧ |l - (c - h)| ≤ e ∧ |l - (env.roundI32 (c' - h') : ℝ)| ≤ 1 / 2) ∧
      (∃ u, F32.Is (c' + h') u ∧ |u - (c + h)| ≤ e ∧ |u - (env.roundI32 (c' + h') : ℝ)| ≤ 1 / 2) := by
    intro c' h' c h hc hh h0 hb
    have b1 := neg_abs_le c
    have b2 := le_abs_self c
    have a1 : |c - h| ≤ M := by rw [abs_le]; constructor <;> linarith
    have a2 : |c + h| ≤ M := by rw [abs_le]; constructor <;> linarith
    have hbig : (2 : ℝ) ^ 30 ≤ 3 * (2 : ℝ) ^ (126 : ℤ) := by norm_num
    have hM0 : 0 ≤ M := (abs_nonneg _).trans a1
    have fin : ∀ {x : F32} {w v : ℝ}, F32.Is x w → |w - v| ≤ |v| / 2 ^ 24 → |v| ≤ M →
        |w - v| ≤ e ∧ |w - (env.roundI32 x : ℝ)| ≤ 1 / 2 := by
      intro x w v k1 k2 k3
      have k4 : |w - v| ≤ e := by
        rw [he]; exact k2.trans (div_le_div_of_nonneg_right k3 (by norm_num))
      have k5 := abs_le.1 k4
      have k6 := abs_le.1 k3
      have k7 : e ≤ 2 ^ 6 := by
        rw [he]
        exact (div_le_div_of_nonneg_right hM' (by norm_num)).trans (by norm_num)
      refine ⟨k4, hn _ _ k1 ?_ ?_⟩
      · norm_num at hM' k7 ⊢; linarith [k5.1, k6.1]
      · norm_num at hM' k7 ⊢; linarith [k5.2, k6.2]
    obtain ⟨l, l1, l2⟩ := F32.round_sub hc hh (a1.trans (hM'.trans hbig))
    obtain ⟨u, u1, u2⟩ := F32.round_add hc hh (a2.trans (hM'.trans hbig))
    exact ⟨⟨l, l1, fin l1 l2 a1⟩, ⟨u, u1, fin u1 u2 a2⟩⟩
  obtain ⟨⟨lx, _, lx1, lx2⟩, ⟨ux, _, ux1, ux2⟩⟩ := axis hp.1 hh.1 hx hM.1
  obtain ⟨⟨ly, _, ly1, ly2⟩, ⟨uy, _, uy1, uy2⟩⟩ := axis hp.2 hh.2 hy hM.2
  have low : ∀ {c h x l : ℝ} {n k : ℤ}, -h ≤ x → x + c - n < 1 / 2 - e → |l - (c - h)| ≤ e →
      |l - k| ≤ 1 / 2 → k ≤ n := by
    intro c h x l n k h1 h2 h3 h4
    have h3 := abs_le.1 h3
    have h4 := abs_le.1 h4
    have : (k : ℝ) < n + 1 := by linarith [h3.1, h3.2, h4.1, h4.2]
    have : k < n + 1 := by exact_mod_cast this
    omega
  have high : ∀ {c h x u : ℝ} {n k : ℤ}, x ≤ h → -(1 / 2 - e) < x + c - n → |u - (c + h)| ≤ e →
      |u - k| ≤ 1 / 2 → n ≤ k := by
    intro c h x l n k h1 h2 h3 h4
    have h3 := abs_le.1 h3
    have h4 := abs_le.1 h4
    have : (n : ℝ) < k + 1 := by linarith [h3.1, h3.2, h4.1, h4.2]
    have : n < k + 1 := by exact_mod_cast this
    omega
  constructor
  · rintro ⟨z, ⟨q, ⟨hqx, hqy⟩, rfl⟩, gx, gy⟩
    have hqx : |q.x| ≤ h.x := hqx
    have hqy : |q.y| ≤ h.y := hqy
    have gx : |q.x + p.x - t.x| < 1 / 2 - e := gx
    have gy : |q.y + p.y - t.y| < 1 / 2 - e := gy
    rw [abs_le] at hqx hqy
    rw [abs_lt] at gx gy
    exact ⟨low hqx.1 gx.2 lx1 lx2, high hqx.2 gx.1 ux1 ux2, low hqy.1 gy.2 ly1 ly2,
      high hqy.2 gy.1 uy1 uy2⟩
  · rintro ⟨h1, h2, h3, h4⟩
    have h1 : env.roundI32 (pos.x - b.halfsize.x) ≤ t.x := h1
    have h2 : t.x ≤ env.roundI32 (pos.x + b.halfsize.x) := h2
    have h3 : env.roundI32 (pos.y - b.halfsize.y) ≤ t.y := h3
    have h4 : t.y ≤ env.roundI32 (pos.y + b.halfsize.y) := h4
    have clamp : ∀ {c h l u : ℝ} {n k j : ℤ}, 0 ≤ h → |l - (c - h)| ≤ e → |l - k| ≤ 1 / 2 →
        |u - (c + h)| ≤ e → |u - j| ≤ 1 / 2 → k ≤ n → n ≤ j →
        ∃ x : ℝ, |x| ≤ h ∧ |x + c - n| ≤ 1 / 2 + e := by
      intro c h l u n k j hh k1 k2 k3 k4 hl hu
      have he0 : 0 ≤ e := (abs_nonneg _).trans k1
      have k1 := abs_le.1 k1
      have k2 := abs_le.1 k2
      have k3 := abs_le.1 k3
      have k4 := abs_le.1 k4
      have hl' : (k : ℝ) ≤ n := by exact_mod_cast hl
      have hu' : (n : ℝ) ≤ j := by exact_mod_cast hu
      by_cases ha : (n : ℝ) - c ≤ -h
      · exact ⟨-h, by rw [abs_neg, abs_of_nonneg hh], by
          rw [abs_le]; constructor <;> linarith [k1.1, k1.2, k2.1, k2.2]⟩
      · by_cases hb : h ≤ (n : ℝ) - c
        · exact ⟨h, by rw [abs_of_nonneg hh], by
            rw [abs_le]; constructor <;> linarith [k3.1, k3.2, k4.1, k4.2]⟩
        · exact ⟨n - c, by rw [abs_le]; constructor <;> linarith, by
            rw [show (n : ℝ) - c + c - n = 0 by ring, abs_zero]; linarith⟩
    obtain ⟨x, kx, kx'⟩ := clamp hx lx1 lx2 ux1 ux2 h1 h2
    obtain ⟨y, ky, ky'⟩ := clamp hy ly1 ly2 uy1 uy2 h3 h4
    exact ⟨⟨x, y⟩ + p, ⟨⟨x, y⟩, ⟨kx, ky⟩, rfl⟩, kx', ky'⟩

end

/-! ## the hypotheses are met -/

/-- Rust's `x.round() as i32`: half away from zero, then the saturating cast (NaN is 0) -/
noncomputable def rustRound : F32 → ℤ
  | .nan => 0
  | .inf s => if s then -2 ^ 31 else 2 ^ 31 - 1
  | .fin s m _ => max (-2 ^ 31) (min (2 ^ 31 - 1) ((if s then -1 else 1) * ⌊m + 1 / 2⌋))

/-- `NearestI32` holds of Rust's `round() as i32` -/
theorem nearestI32_rust (ns : Bool) (f g : F32 → F32) (a2 : F32 → F32 → F32) :
    NearestI32 ⟨ns, f, g, a2, rustRound⟩ := by
  intro a x ha h1 h2
  have hrep := ha.representable
  have hx : x ≤ 2 ^ 31 - 128 := by
    obtain ⟨m, e, rfl, hm, _, _⟩ := hrep
    rw [abs_lt] at hm
    rcases le_or_gt e 7 with he | he
    · have hp := zpow_le_zpow (a := e) (b := 7) he
      have hm' : (m : ℝ) ≤ 2 ^ 24 - 1 := by
        have : m ≤ 2 ^ 24 - 1 := by omega
        exact_mod_cast this
      have h0 := two_zpow_pos e
      calc (m : ℝ) * 2 ^ e ≤ (2 ^ 24 - 1) * 2 ^ e := mul_le_mul_of_nonneg_right hm' h0.le
        _ ≤ (2 ^ 24 - 1) * 2 ^ (7 : ℤ) := mul_le_mul_of_nonneg_left hp (by norm_num)
        _ = _ := by norm_num
    · obtain ⟨k, hk⟩ := Int.eq_ofNat_of_zero_le (show 0 ≤ e - 8 by omega)
      have hval : (m : ℝ) * (2 : ℝ) ^ e = ((256 * (m * 2 ^ k) : ℤ) : ℝ) := by
        rw [show e = 8 + (k : ℤ) by omega, zpow_add₀ (by norm_num)]; push_cast; norm_num; ring
      rw [hval] at h2 ⊢
      have h2 : 256 * (m * 2 ^ k) < 2 ^ 31 := by exact_mod_cast h2
      generalize m * 2 ^ k = n at *
      have : 256 * n ≤ 2 ^ 31 - 128 := by omega
      exact_mod_cast this
  obtain ⟨s, m, hm, rfl, rfl⟩ := ha
  have f1 := Int.floor_le (m + 1 / 2)
  have f2 := Int.lt_floor_add_one (m + 1 / 2)
  have hr : |sval s m - (((if s then -1 else 1) * ⌊m + 1 / 2⌋ : ℤ) : ℝ)| ≤ 1 / 2 := by
    unfold sval
    rw [abs_le]
    cases s <;> simp only [if_true, if_false, Bool.false_eq_true] <;> push_cast <;> constructor <;> linarith
  show |sval s m - ((max (-2 ^ 31) (min (2 ^ 31 - 1) ((if s then -1 else 1) * ⌊m + 1 / 2⌋)) : ℤ) : ℝ)| ≤ _
  generalize (if s then -1 else 1) * ⌊m + 1 / 2⌋ = n at *
  have hb := abs_le.1 hr
  have n1 : n ≤ 2 ^ 31 - 1 := by
    have : (n : ℝ) ≤ 2 ^ 31 - 1 := by norm_num at hx ⊢; linarith [hb.1]
    exact_mod_cast this
  have n2 : -2 ^ 31 ≤ n := by
    have : (-2 ^ 31 : ℝ) < n + 1 := by linarith [hb.2]
    have : -2 ^ 31 < n + 1 := by exact_mod_cast this
    omega
  rw [min_eq_right n1, max_eq_right n2]
  exact hr

/-- a concrete instance: with Rust's rounding, the world position of tile `(16777216, -7)` is exact and
the tile of it is the tile itself -/
example (ns : Bool) (f g : F32 → F32) (a2 : F32 → F32 → F32) :
    let _ : F32Env := ⟨ns, f, g, a2, rustRound⟩
    worldToTilePos (tileToWorldPos ⟨2 ^ 24, -7⟩ : V2 F32) = ⟨2 ^ 24, -7⟩ := by
  intro env
  exact (C82_f32_round_trip (nearestI32_rust ns f g a2) ⟨2 ^ 24, -7⟩ (by norm_num) (by norm_num)).2

/-- a concrete instance of `C82_f32_quantize`: the box of half size `(3, 1)` at `(1000, -50)` -/
example [env : F32Env] (hn : NearestI32 env) (t : V2i) :
    (Touch (shift ⟨1000, -50⟩ (Region.pts (Box2d.mk (⟨3, 1⟩ : V2 ℝ)))) (innerCell t (2000 / 2 ^ 24)) →
      (quantize (Box2d.mk (⟨F32.ofReal false 3, F32.ofReal false 1⟩ : V2 F32))
        ⟨F32.ofReal false 1000, F32.ofReal false (-50)⟩).Contains t) := by
  have rep : ∀ n : ℤ, |n| ≤ 2 ^ 24 → F32.Is (F32.ofReal false (n : ℝ)) n := fun n h =>
    is_ofReal (representable_int n h)
  have r3 := rep 3 (by norm_num)
  have r1 := rep 1 (by norm_num)
  have r4 := rep 1000 (by norm_num)
  have r5 := rep (-50) (by norm_num)
  push_cast at r3 r1 r4 r5
  exact (C82_f32_quantize hn _ _ (h := ⟨3, 1⟩) (p := ⟨1000, -50⟩) (M := 2000) ⟨r3, r1⟩ ⟨r4, r5⟩
    (by norm_num) (by norm_num) (by norm_num [abs_of_pos, abs_of_neg]) (by norm_num) rfl t).1

end Auburn
