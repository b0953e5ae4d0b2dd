import Verif.Ieee.ResolveBall
import Verif.Ieee.LeastProps

/-!
# C101: a ball that overlaps a tile deeply is moved off it in binary32
-/

set_option linter.unusedSectionVars false
set_option synthInstance.maxSize 1000

namespace Auburn

open F32 V2 Transformation2d Tilemap

/-- wherever the ball (radius `r`, centre `p`) is moved by at most `g`, it still meets the cell of `t` -/
def BallInsideBy (g r : ℝ) (p : V2 ℝ) (t : V2i) : Prop :=
  ∀ y : V2 ℝ, V2.norm (y - p) ≤ g → ∃ q ∈ tileCellClosed (K := ℝ) t, V2.norm (q - y) ≤ r

section
variable [env : F32Env]

/-- `p'` is a position where the ball is clear of the cell of `t` up to `e` (or `p` itself, which is the answer when EPA
runs out of steps), and no position where it is clear is much nearer to `p` -/
def BallMoved (e r : ℝ) (p : V2 ℝ) (t : V2i) (p' : V2 F32) : Prop :=
  ∃ x, p'.Is x ∧ (x ≠ p → ∀ q ∈ tileCellClosed (K := ℝ) t, r ≤ V2.norm (q - x) + e) ∧
    ∀ y, (∀ q ∈ tileCellClosed (K := ℝ) t, r ≤ V2.norm (q - y)) → 49 / 50 * V2.norm (x - p) ≤ V2.norm (y - p) + e

theorem mem_ball {r : ℝ} (hr : 0 ≤ r) {a : V2 ℝ} : a ∈ Region.pts (Ball.mk r) ↔ a.norm ≤ r := by
  constructor
  · rintro ⟨-, ha⟩
    have h2 : a.norm ^ 2 ≤ r ^ 2 := by rw [V2.norm_sq']; exact ha
    exact (pow_le_pow_iff_left₀ a.norm_nonneg hr (by norm_num)).1 h2
  · intro h
    refine ⟨hr, ?_⟩
    show a.lengthSq ≤ r ^ 2
    rw [← V2.norm_sq_lengthSq]
    exact pow_le_pow_left₀ a.norm_nonneg h 2

/-- the point of the ball that is farthest along `n` -/
theorem ball_top {r : ℝ} (hr : 0 ≤ r) (n : V2 ℝ) : ∃ a ∈ Region.pts (Ball.mk r), n.dot a = r * n.norm := by
  rcases n.norm_nonneg.lt_or_eq with hl | hl
  · refine ⟨V2.scale (r / n.norm) n, (mem_ball hr).2 ?_, ?_⟩
    · rw [V2.norm_scale, abs_of_nonneg (by positivity), div_mul_cancel₀ _ hl.ne']
    · have h := V2.norm_sq' n
      simp only [dot_def, scale_x, scale_y] at h ⊢
      field_simp
      rw [h]; ring
  · refine ⟨0, (mem_ball hr).2 (by rw [V2.norm_zero]; exact hr), ?_⟩
    rw [← hl]
    simp [dot_def]

theorem ball_sep_clear {r δ : ℝ} (hr : 0 ≤ r) {v : V2 ℝ} {Y : Set (V2 ℝ)}
    (h : SeparableUpTo δ (shift v (Region.pts (Ball.mk r))) Y) {b : V2 ℝ} (hb : b ∈ Y) : r ≤ V2.norm (b - v) + δ := by
  obtain ⟨n, n0, h⟩ := h
  obtain ⟨a, ha, e⟩ := ball_top hr n
  have h1 := h _ ⟨a, ha, rfl⟩ b hb
  have h2 := dot_le_norm' n (b - v)
  have hl := norm_pos_of_ne n0
  rw [V2.dot_add, e] at h1
  rw [V2.dot_sub] at h2
  refine le_of_mul_le_mul_right ?_ hl
  linarith

/-- a ball that is clear of the cell of `t` is separated from it by a line -/
theorem clear_sep {r : ℝ} (hr : 0 < r) {v : V2 ℝ} {t : V2i} (h : ∀ q ∈ tileCellClosed (K := ℝ) t, r ≤ V2.norm (q - v)) :
    ∃ n : V2 ℝ, n ≠ 0 ∧ ∀ a, a.norm ≤ r → ∀ q ∈ tileCellClosed (K := ℝ) t, n.dot (v + a) ≤ n.dot q := by
  have ax : ∀ c s : ℝ, ∃ z, |z - c| ≤ 1 / 2 ∧ ∀ q, |q - c| ≤ 1 / 2 → 0 ≤ (z - s) * (q - z) := by
    intro c s
    rcases le_total s (c - 1 / 2) with h1 | h1
    · refine ⟨c - 1 / 2, by rw [abs_le]; constructor <;> linarith, fun q hq => ?_⟩
      rw [abs_le] at hq
      exact mul_nonneg (by linarith) (by linarith [hq.1])
    rcases le_total s (c + 1 / 2) with h2 | h2
    · exact ⟨s, by rw [abs_le]; constructor <;> linarith, fun q hq => by rw [sub_self, zero_mul]⟩
    · refine ⟨c + 1 / 2, by rw [abs_le]; constructor <;> linarith, fun q hq => ?_⟩
      rw [abs_le] at hq
      exact mul_nonneg_of_nonpos_of_nonpos (by linarith) (by linarith [hq.2])
  obtain ⟨zx, x1, x2⟩ := ax t.x v.x
  obtain ⟨zy, y1, y2⟩ := ax t.y v.y
  have hz := h ⟨zx, zy⟩ ⟨x1, y1⟩
  refine ⟨(⟨zx, zy⟩ : V2 ℝ) - v, ?_, fun a ha q hq => ?_⟩
  · intro e; rw [e, V2.norm_zero] at hz; linarith
  · have g1 := x2 q.x hq.1
    have g2 := y2 q.y hq.2
    have g3 := dot_le_norm' ((⟨zx, zy⟩ : V2 ℝ) - v) a
    have g4 := V2.norm_sq' ((⟨zx, zy⟩ : V2 ℝ) - v)
    have g5 := ((⟨zx, zy⟩ : V2 ℝ) - v).norm_nonneg
    have g6 : ((⟨zx, zy⟩ : V2 ℝ) - v).norm * a.norm ≤ ((⟨zx, zy⟩ : V2 ℝ) - v).norm ^ 2 := by
      rw [pow_two]; exact mul_le_mul_of_nonneg_left (ha.trans hz) g5
    simp only [dot_def, sub_x, sub_y, add_x, add_y] at g3 g4 ⊢
    nlinarith

section
variable {col : Ball F32} {pos : V2 F32} {r : ℝ} {p : V2 ℝ} {M L : ℝ} {t : V2i}

/-- the push for one tile -/
theorem ball_tile_push (hr : F32.Is col.radius r) (hr0 : 0 < r) (hrM : r + 2 ≤ M) (h8 : 8 ≤ M) (hM : M ≤ 2 ^ 17)
    (hp : pos.Is p) (hpx : |p.x| ≤ L) (hpy : |p.y| ≤ L) (hL : L ≤ 2 ^ 22)
    (hx : |(t.x : ℝ) - p.x| ≤ M - 1) (hy : |(t.y : ℝ) - p.y| ≤ M - 1) (ht : (tileToWorldPos t : V2 F32).Is ⟨t.x, t.y⟩)
    (hc : BallInsideBy (M / 31) r p t) :
    ∃ v x, penetratesRel col (⟨⟨FloatExtra.half, FloatExtra.half⟩⟩ : Box2d F32) (tileToWorldPos t - pos) = .ok (some v) ∧
      (pos + v).Is x ∧ V2.norm (x - p) ≤ 4 * M + L / 2 ^ 23 ∧ BallMoved (M / 2 ^ 16 + L / 2 ^ 23) r p t (pos + v) := by
  have hL0 : 0 ≤ L := (abs_nonneg _).trans hpx
  have ax : ∀ {A B : F32} {a b : ℝ}, F32.Is A a → F32.Is B b → |a - b| ≤ M - 1 →
      ∃ w, F32.Is (A - B) w ∧ |w - (a - b)| ≤ M / 2 ^ 24 := by
    intro A B a b hA hB hab
    have h126 : (2 : ℝ) ^ (17 : ℕ) ≤ 3 * (2 : ℝ) ^ (126 : ℤ) := by
      have : (2 : ℝ) ^ (126 : ℤ) = 2 ^ 126 := by norm_cast
      rw [this]; norm_num
    obtain ⟨w, h1, h2⟩ := F32.round_sub hA hB (by linarith)
    exact ⟨w, h1, h2.trans (div_le_div_of_nonneg_right (by linarith) (by positivity))⟩
  obtain ⟨wx, ix, ex⟩ := ax ht.1 hp.1 hx
  obtain ⟨wy, iy, ey⟩ := ax ht.2 hp.2 hy
  have hsm : M / 2 ^ 24 ≤ 1 := by
    rw [div_le_iff₀ (by positivity)]; norm_num at hM ⊢; linarith
  have er : (tileToWorldPos t - pos : V2 F32).toReal = ⟨wx, wy⟩ := V2.ext (F32.Is.toReal ix) (F32.Is.toReal iy)
  have hbd : ∀ {w a : ℝ}, |w - a| ≤ M / 2 ^ 24 → |a| ≤ M - 1 → |w| ≤ M := by
    intro w a h1 h2
    rw [abs_le] at h1 h2 ⊢
    constructor <;> linarith [h1.1, h1.2, h2.1, h2.2]
  have bwx := hbd ex hx
  have bwy := hbd ey hy
  have hrel : (tileToWorldPos t - pos : V2 F32).Bounded32 M := by
    refine ⟨?_, ?_⟩
    · rw [er]; exact ⟨ix, iy⟩
    · rw [er]; exact ⟨bwx, bwy⟩
  have ecol : col.radius.toReal = r := F32.Is.toReal hr
  have hcol : col.Bounded32 M := by
    refine ⟨?_, ?_, ?_⟩
    · rw [ecol]; exact hr
    · rw [ecol]; exact hr0.le
    · rw [ecol]; linarith
  obtain ⟨hb1, hb2⟩ := half_bounded (M := M) (by linarith)
  -- the rounded offset
  set d : V2 ℝ := ⟨wx - (t.x - p.x), wy - (t.y - p.y)⟩ with hd
  have nd : d.norm ≤ M / 2 ^ 23 := by
    refine (V2.norm_le_add d).trans ?_
    show |wx - (t.x - p.x)| + |wy - (t.y - p.y)| ≤ _
    have : M / 2 ^ 23 = M / 2 ^ 24 + M / 2 ^ 24 := by ring
    linarith
  have cell_iff : ∀ q : V2 ℝ, q ∈ tileCellClosed (K := ℝ) t ↔
      q - p + d ∈ shift (⟨wx, wy⟩ : V2 ℝ) (Region.pts (Box2d.mk (⟨1 / 2, 1 / 2⟩ : V2 ℝ))) := by
    intro q
    rw [tileCell_box]
    constructor
    · rintro ⟨s, hs, rfl⟩
      exact ⟨s, hs, by ext <;> simp [hd] <;> ring⟩
    · rintro ⟨s, hs, e⟩
      refine ⟨s, hs, ?_⟩
      have e1 := congrArg V2.x e
      have e2 := congrArg V2.y e
      simp only [hd, add_x, add_y, sub_x, sub_y] at e1 e2
      ext
      · simp only [add_x]; linarith
      · simp only [add_y]; linarith
  have hD : DeepBy (M / 32) (Region.pts (Ball.mk col.radius.toReal)) (shift (tileToWorldPos t - pos : V2 F32).toReal
      (Region.pts (⟨⟨FloatExtra.half, FloatExtra.half⟩⟩ : Box2d F32).toReal)) := by
    rw [ecol, er, hb2]
    intro n
    obtain ⟨a, ha, ea⟩ := ball_top hr0.le n
    rcases n.norm_nonneg.lt_or_eq with hl | hl
    · obtain ⟨q, hq, hqn⟩ := hc (p - V2.scale (M / 31 / n.norm) n) (by
        have e : p - V2.scale (M / 31 / n.norm) n - p = -(V2.scale (M / 31 / n.norm) n) := by ext <;> simp
        rw [e, V2.norm_neg, V2.norm_scale, abs_of_nonneg (by positivity), div_mul_cancel₀ _ hl.ne'])
      refine ⟨a, ha, _, (cell_iff q).1 hq, ?_⟩
      have g1 := dot_le_norm' n (q - (p - V2.scale (M / 31 / n.norm) n))
      have g2 := dot_le_norm' n d
      have g3 : n.dot (V2.scale (M / 31 / n.norm) n) = M / 31 * n.norm := by
        have h := V2.norm_sq' n
        simp only [dot_def, scale_x, scale_y] at h ⊢
        field_simp
        linarith
      have e : n.dot (a - (q - p + d)) = n.dot a - n.dot (q - (p - V2.scale (M / 31 / n.norm) n)) +
          n.dot (V2.scale (M / 31 / n.norm) n) - n.dot d := by
        simp only [dot_def, scale_x, scale_y, sub_x, sub_y, add_x, add_y]; ring
      rw [e, ea, g3]
      have g4 : n.norm * V2.norm (q - (p - V2.scale (M / 31 / n.norm) n)) ≤ n.norm * r := mul_le_mul_of_nonneg_left hqn hl.le
      have g5 : n.norm * d.norm ≤ n.norm * (M / 2 ^ 23) := mul_le_mul_of_nonneg_left nd hl.le
      have g6 : 0 ≤ n.norm * M := mul_nonneg hl.le (by linarith)
      nlinarith
    · obtain ⟨q, hq, -⟩ := hc p (by rw [sub_self, V2.norm_zero]; positivity)
      refine ⟨a, ha, _, (cell_iff q).1 hq, ?_⟩
      have g1 := dot_le_norm n (a - (q - p + d))
      have g2 := neg_le_abs (n.dot (a - (q - p + d)))
      rw [← hl] at g1 ⊢
      linarith
  obtain ⟨v, x, hv, hvx, hsep, hleast⟩ := (C98_f32_ball_box col _ _ hcol hb1 hrel h8 (by norm_num at hM ⊢; linarith) hD).penetrates
  rw [ecol, er, hb2] at hsep hleast
  -- the size of the push
  have hsize : x.norm ≤ 3 * M := by
    have h1 := hleast ⟨wx - 1 / 2 - r, 0⟩ 0 (by
      refine ⟨⟨1, 0⟩, by intro h; have := congrArg V2.x h; simp at this, ?_⟩
      rintro _ ⟨a, ha, rfl⟩ _ ⟨b, hb, rfl⟩
      have h1 := (abs_x_le_norm a).trans ((mem_ball hr0.le).1 ha)
      have h2 : |b.x| ≤ 1 / 2 := hb.1
      rw [abs_le] at h1 h2
      simp only [dot_def, add_x, add_y]
      linarith [h1.2, h2.1])
    have h2 := V2.norm_le_add (⟨wx - 1 / 2 - r, 0⟩ : V2 ℝ)
    have h3 : |wx - 1 / 2 - r| ≤ 2 * M := by
      rw [abs_le] at bwx ⊢; constructor <;> linarith [bwx.1, bwx.2]
    simp only [abs_zero, add_zero] at h2
    have h4 : M / 2 ^ 17 ≤ M / 100 := div_le_div_of_nonneg_left (by linarith) (by norm_num) (by norm_num)
    linarith
  -- the sum
  have sx := (abs_x_le_norm x).trans hsize
  have sy := (abs_y_le_norm x).trans hsize
  have rd : ∀ {A B : F32} {a b : ℝ}, F32.Is A a → F32.Is B b → |a| ≤ L → |b| ≤ 3 * M →
      ∃ w, F32.Is (A + B) w ∧ |w - (a + b)| ≤ (L + 3 * M) / 2 ^ 24 := by
    intro A B a b hA hB h1 h2
    have h126 : (2 : ℝ) ^ (23 : ℕ) ≤ 3 * (2 : ℝ) ^ (126 : ℤ) := by
      have : (2 : ℝ) ^ (126 : ℤ) = 2 ^ 126 := by norm_cast
      rw [this]; norm_num
    have h3 : |a + b| ≤ L + 3 * M := (abs_add_le _ _).trans (by linarith)
    obtain ⟨w, g1, g2⟩ := F32.round_add hA hB (by norm_num at hL hM h126 ⊢; linarith)
    exact ⟨w, g1, g2.trans (div_le_div_of_nonneg_right h3 (by positivity))⟩
  obtain ⟨zx, jx, fx⟩ := rd hp.1 hvx.1 hpx sx
  obtain ⟨zy, jy, fy⟩ := rd hp.2 hvx.2 hpy sy
  set z : V2 ℝ := ⟨zx, zy⟩ with hz
  have nz : V2.norm (z - (p + x)) ≤ L / 2 ^ 23 + 3 * M / 2 ^ 23 := by
    refine (V2.norm_le_add _).trans ?_
    show |zx - (p.x + x.x)| + |zy - (p.y + x.y)| ≤ _
    have : L / 2 ^ 23 + 3 * M / 2 ^ 23 = (L + 3 * M) / 2 ^ 24 + (L + 3 * M) / 2 ^ 24 := by ring
    linarith
  have t1 : V2.norm (z - p) ≤ x.norm + V2.norm (z - (p + x)) := by
    have e : z - p = x + (z - (p + x)) := by ext <;> simp only [add_x, add_y, sub_x, sub_y] <;> ring
    rw [e]; exact V2.norm_add_le _ _
  have hfin : M / 2 ^ 17 + M / 2 ^ 23 + 3 * M / 2 ^ 23 ≤ M / 2 ^ 16 := by
    have : M / 2 ^ 16 - (M / 2 ^ 17 + M / 2 ^ 23 + 3 * M / 2 ^ 23) = M * (1 / 2 ^ 16 - 1 / 2 ^ 17 - 4 / 2 ^ 23) := by ring
    have h9 : 0 ≤ M * (1 / 2 ^ 16 - 1 / 2 ^ 17 - 4 / 2 ^ 23) := mul_nonneg (by linarith) (by norm_num)
    linarith
  have hM0 : 0 ≤ M / 2 ^ 17 := by positivity
  have hM1 : 0 ≤ M / 2 ^ 23 := by positivity
  have hM3 : 3 * M / 2 ^ 23 ≤ M := by
    rw [div_le_iff₀ (by positivity)]; norm_num; linarith
  refine ⟨v, z, hv, ⟨jx, jy⟩, by linarith, z, ⟨jx, jy⟩, fun hne q hq => ?_, fun y hy => ?_⟩
  · by_cases hx0 : x = 0
    · exfalso
      apply hne
      have e : ∀ {A B : F32} {a w : ℝ}, F32.Is A a → F32.Is B 0 → F32.Is (A + B) w → w = a := by
        intro A B a w h1 h2 h3
        have h4 := F32.is_add h1 h2 (by rw [add_zero]; exact F32.Is.representable h1)
        rw [add_zero] at h4
        exact F32.Is.unique h3 h4
      rw [hx0] at hvx
      exact V2.ext (e hp.1 hvx.1 jx) (e hp.2 hvx.2 jy)
    · have h1 := ball_sep_clear hr0.le (hsep hx0) ((cell_iff q).1 hq)
      have e : q - p + d - x = (q - z) + ((z - (p + x)) + d) := by ext <;> simp <;> ring
      rw [e] at h1
      have h2 := V2.norm_add_le (q - z) ((z - (p + x)) + d)
      have h3 := V2.norm_add_le (z - (p + x)) d
      linarith
  · obtain ⟨n, n0, hn⟩ := clear_sep hr0 hy
    have h1 := hleast (y - p) (M / 2 ^ 23) (by
      refine ⟨n, n0, ?_⟩
      rintro _ ⟨a, ha, rfl⟩ b hb
      have hq := (cell_iff (b + p - d)).2 (by
        have e : b + p - d - p + d = b := by ext <;> simp only [add_x, add_y, sub_x, sub_y] <;> ring
        rw [e]; exact hb)
      have g1 := hn a ((mem_ball hr0.le).1 ha) _ hq
      have g2 := (neg_le_abs _).trans (dot_le_norm n d)
      have g3 : n.norm * d.norm ≤ n.norm * (M / 2 ^ 23) := mul_le_mul_of_nonneg_left nd n.norm_nonneg
      simp only [dot_def, add_x, add_y, sub_x, sub_y] at g1 g2 ⊢
      linarith)
    linarith

theorem resolveLoop_among' {S : Type} [SdfvCommonRel2d true false S (Box2d F32) (V2 F32) F32] (col : S) (t0 : V2i) (p v : V2 F32)
    (hv : penetratesRel col (⟨⟨FloatExtra.half, FloatExtra.half⟩⟩ : Box2d F32) (tileToWorldPos t0 - p) = .ok (some v)) :
    ∀ (l : List (V2i × UInt8)), (l.map Prod.fst).Nodup → (∃ e ∈ l, e.1 = t0 ∧ e.2 > 0) →
    (∀ e ∈ l, e.1 ≠ t0 → e.2 > 0 →
      penetratesRel col (⟨⟨FloatExtra.half, FloatExtra.half⟩⟩ : Box2d F32) (tileToWorldPos e.1 - p) = .ok none ∧
      penetratesRel col (⟨⟨FloatExtra.half, FloatExtra.half⟩⟩ : Box2d F32) (tileToWorldPos e.1 - (p + v)) = .ok none) →
    resolveLoop col l p = .ok (p + v) := by
  intro l
  induction l with
  | nil => rintro _ ⟨e, he, _⟩; cases he
  | cons e l ih =>
    intro hn hex h
    rw [List.map_cons, List.nodup_cons] at hn
    simp only [resolveLoop]
    by_cases he0 : e.1 = t0
    · have hne : ∀ x ∈ l, x.1 ≠ t0 := fun x hx h1 => hn.1 (by rw [he0, ← h1]; exact List.mem_map_of_mem hx)
      have hs : e.2 > 0 := by
        obtain ⟨e', he', h1, h2⟩ := hex
        rcases List.mem_cons.1 he' with rfl | h3
        · exact h2
        · exact absurd h1 (hne e' h3)
      rw [if_pos hs, he0, hv]
      exact resolveLoop_clear' col l _ fun x hx hxs => (h x (by simp [hx]) (hne x hx) hxs).2
    · have hex' : ∃ e ∈ l, e.1 = t0 ∧ e.2 > 0 := by
        obtain ⟨e', he', h1, h2⟩ := hex
        rcases List.mem_cons.1 he' with rfl | h3
        · exact absurd h1 he0
        · exact ⟨e', h3, h1, h2⟩
      have ih' := ih hn.2 hex' fun x hx => h x (by simp [hx])
      by_cases hs : e.2 > 0
      · rw [if_pos hs, (h e (by simp) he0 hs).1]; exact ih'
      · rw [if_neg hs]; exact ih'

theorem BallInsideBy.box {g : ℝ} (hg : 0 ≤ g) (h : BallInsideBy g r p t) : InsideBy g ⟨r, r⟩ p t := by
  have key : ∀ e : V2 ℝ, V2.norm e ≤ g → ∃ q ∈ tileCellClosed (K := ℝ) t, |q.x - p.x - e.x| ≤ r ∧ |q.y - p.y - e.y| ≤ r := by
    intro e he
    obtain ⟨q, hq, h1⟩ := h (p + e) (by
      have e1 : p + e - p = e := by ext <;> simp
      rw [e1]; exact he)
    refine ⟨q, hq, ?_, ?_⟩
    · have := (abs_x_le_norm (q - (p + e))).trans h1
      simp only [sub_x, add_x] at this
      rwa [sub_sub]
    · have := (abs_y_le_norm (q - (p + e))).trans h1
      simp only [sub_y, add_y] at this
      rwa [sub_sub]
  have nx : ∀ s : ℝ, |s| ≤ g → V2.norm (⟨s, 0⟩ : V2 ℝ) ≤ g := by
    intro s hs
    refine (V2.norm_le_add _).trans ?_
    simpa using hs
  have ny : ∀ s : ℝ, |s| ≤ g → V2.norm (⟨0, s⟩ : V2 ℝ) ≤ g := by
    intro s hs
    refine (V2.norm_le_add _).trans ?_
    simpa using hs
  have gg : |g| ≤ g := (abs_of_nonneg hg).le
  have gn : |-g| ≤ g := by rw [abs_neg]; exact gg
  obtain ⟨q1, ⟨a1, -⟩, b1, -⟩ := key _ (nx g gg)
  obtain ⟨q2, ⟨a2, -⟩, b2, -⟩ := key _ (nx (-g) gn)
  obtain ⟨q3, ⟨-, a3⟩, -, b3⟩ := key _ (ny g gg)
  obtain ⟨q4, ⟨-, a4⟩, -, b4⟩ := key _ (ny (-g) gn)
  rw [abs_le] at a1 a2 a3 a4 b1 b2 b3 b4
  constructor
  · show g ≤ r + 1 / 2 - |t.x - p.x|
    have : |(t.x : ℝ) - p.x| ≤ r + 1 / 2 - g := by
      rw [abs_le]; constructor <;> linarith [a1.1, a1.2, b1.1, b1.2, a2.1, a2.2, b2.1, b2.2]
    linarith
  · show g ≤ r + 1 / 2 - |t.y - p.y|
    have : |(t.y : ℝ) - p.y| ≤ r + 1 / 2 - g := by
      rw [abs_le]; constructor <;> linarith [a3.1, a3.2, b3.1, b3.2, a4.1, a4.2, b4.1, b4.2]
    linarith

/-- `simple_resolve_ball` against a solid tile that the ball overlaps deeply; every other solid tile is either away from
the ball's bounding square, or away from the ball both before and after the move (`x`: the position it is moved to). The
result is clear of the tile up to rounding, and the move is nearly the shortest one, unless the position is unchanged
(EPA ran out of steps). -/
theorem C101_f32_ball_among (hn : NearestI32 env) (m : Tilemap) (dir : V2 F32) (hr : F32.Is col.radius r) (hr0 : 0 < r)
    (hrM : r + 2 ≤ M) (h8 : 8 ≤ M) (hM : M ≤ 2 ^ 14) (hp : pos.Is p) (hpx : |p.x| ≤ L) (hpy : |p.y| ≤ L) (hL : L ≤ 2 ^ 20)
    (t0 : V2i) (hsolid : m.getTile t0 ≠ 0) (hin : BallInsideBy (M / 31) r p t0) :
    ∃ pos' x, pos'.Is x ∧ BallMoved (M / 2 ^ 16 + L / 2 ^ 23) r p t0 pos' ∧
      ((∀ t, t ≠ t0 → m.getTile t ≠ 0 → ClearOf (M / 2 ^ 18 + L / 2 ^ 23) ⟨r, r⟩ p t ∨
        (BallClearOf (M / 60) r p t ∧ BallClearOf (M / 10) r x t)) → m.simpleResolveBall col pos dir = .ok pos') := by
  have hL0 : 0 ≤ L := (abs_nonneg _).trans hpx
  have hR : TileRange (M - 1) L (⟨r, r⟩ : V2 ℝ) p :=
    ⟨⟨hr0.le, by show r + 1 ≤ _; linarith⟩, ⟨hr0.le, by show r + 1 ≤ _; linarith⟩, hpx, hpy,
      by norm_num at hM ⊢; linarith, by norm_num at hL ⊢; linarith⟩
  have hbb : (col.boundingBox).halfsize.Is (⟨r, r⟩ : V2 ℝ) := ⟨hr, hr⟩
  have hl8 : L / 2 ^ 23 ≤ 1 / 8 := by
    rw [div_le_iff₀ (by positivity)]; norm_num at hL ⊢; linarith
  have hg : (M - 1) / 2 ^ 18 + L / 2 ^ 23 ≤ M / 31 := by
    have : (M - 1) / 2 ^ 18 ≤ M / 2 ^ 18 := div_le_div_of_nonneg_right (by linarith) (by positivity)
    have : M / 2 ^ 18 ≤ M / 1000 := div_le_div_of_nonneg_left (by linarith) (by norm_num) (by norm_num)
    linarith
  have hc := tile_contains hn hbb hp hR ((hin.box (by positivity)).mono hg)
  obtain ⟨k1, k2, k3⟩ := tile_near hn hbb hp hR hc
  obtain ⟨v, x, hv, hx, hxp, hm⟩ := ball_tile_push hr hr0 hrM h8 (by norm_num at hM ⊢; linarith) hp hpx hpy
    (by norm_num at hL ⊢; linarith) k1 k2 k3 hin
  refine ⟨pos + v, x, hx, hm, fun hcl => ?_⟩
  refine resolveLoop_among' col t0 pos v hv _ (tilesInRect_nodup m _ dir.x dir.y)
    ⟨(t0, m.getTile t0), (mem_tilesInRect m _ dir.x dir.y _).2 ⟨hc, rfl⟩, rfl, UInt8.pos_iff_ne_zero.2 hsolid⟩ ?_
  intro e he hne hs
  obtain ⟨e1, e2⟩ := (mem_tilesInRect m _ dir.x dir.y e).1 he
  obtain ⟨n1, n2, n3⟩ := tile_near hn hbb hp hR e1
  rcases hcl e.1 hne (by
    rw [← e2]
    intro h0; rw [h0] at hs; exact absurd hs (by decide)) with f | ⟨f1, f2⟩
  · exact absurd e1 (tile_not_contains hn hbb hp hR (by
      have : (M - 1) / 2 ^ 18 ≤ M / 2 ^ 18 := div_le_div_of_nonneg_right (by linarith) (by positivity)
      rcases f with f | f
      · left; linarith
      · right; linarith))
  · have hM2 : M ≤ 2 ^ 17 := by norm_num at hM ⊢; linarith
    have ax := (abs_x_le_norm (x - p)).trans hxp
    have ay := (abs_y_le_norm (x - p)).trans hxp
    simp only [sub_x, sub_y] at ax ay
    have tri : ∀ {a b c A B : ℝ}, |a - b| ≤ A → |c - b| ≤ B → |a - c| ≤ A + B := by
      intro a b c A B g1 g2
      rw [abs_le] at g1 g2 ⊢
      constructor <;> linarith [g1.1, g1.2, g2.1, g2.2]
    have hM6 : 6 * M ≤ 2 ^ 17 := by norm_num at hM ⊢; linarith
    refine ⟨ball_tile_clear hr hr0.le hrM hM2 hp n1 n2 n3 f1,
      ball_tile_clear (M := 6 * M) hr hr0.le (by linarith) hM6 hx ?_ ?_ n3 ?_⟩
    · have := tri n1 ax; linarith
    · have := tri n2 ay; linarith
    · have e : 6 * M / 60 = M / 10 := by ring
      rw [e]; exact f2

/-- the same when every other solid tile is away from the ball's bounding square -/
theorem C101_f32_ball_single (hn : NearestI32 env) (m : Tilemap) (dir : V2 F32) (hr : F32.Is col.radius r) (hr0 : 0 < r)
    (hrM : r + 2 ≤ M) (h8 : 8 ≤ M) (hM : M ≤ 2 ^ 14) (hp : pos.Is p) (hpx : |p.x| ≤ L) (hpy : |p.y| ≤ L) (hL : L ≤ 2 ^ 20)
    (t0 : V2i) (hsolid : m.getTile t0 ≠ 0) (hin : BallInsideBy (M / 31) r p t0)
    (hother : ∀ t, t ≠ t0 → m.getTile t ≠ 0 → ClearOf (M / 2 ^ 18 + L / 2 ^ 23) ⟨r, r⟩ p t) :
    ∃ pos', m.simpleResolveBall col pos dir = .ok pos' ∧ BallMoved (M / 2 ^ 16 + L / 2 ^ 23) r p t0 pos' := by
  obtain ⟨pos', x, -, hm, h⟩ := C101_f32_ball_among hn m dir hr hr0 hrM h8 hM hp hpx hpy hL t0 hsolid hin
  exact ⟨pos', h fun t ht hs => Or.inl (hother t ht hs), hm⟩

end

/-- a concrete instance: the ball of radius `1` at `(3/4, 0)` and the one solid tile of a map, at the origin -/
example (hn : NearestI32 env) (dir : V2 F32) {col : Ball F32} {pos : V2 F32} (hr : F32.Is col.radius 1)
    (hp : pos.Is ⟨3 / 4, 0⟩) : ∃ pos', (Tilemap.default.setTile ⟨0, 0⟩ 3).simpleResolveBall col pos dir = .ok pos' ∧
      BallMoved (8 / 2 ^ 16 + 1 / 2 ^ 23) 1 ⟨3 / 4, 0⟩ ⟨0, 0⟩ pos' := by
  have get : ∀ p, (Tilemap.default.setTile ⟨0, 0⟩ 3).getTile p = if p = ⟨0, 0⟩ then 3 else 0 := by
    intro p; rw [getTile_setTile WF.default]; rfl
  refine C101_f32_ball_single hn _ dir hr (M := 8) (L := 1) (by norm_num) (by norm_num) (by norm_num) (by norm_num) hp
    (by norm_num [abs_of_pos]) (by norm_num) (by norm_num) ⟨0, 0⟩ (by rw [get]; decide) (fun y hy => ?_)
    fun t ht hs => absurd hs (by rw [get, if_neg ht]; decide)
  have h1 := (abs_x_le_norm (y - (⟨3 / 4, 0⟩ : V2 ℝ))).trans hy
  have h2 := (abs_y_le_norm (y - (⟨3 / 4, 0⟩ : V2 ℝ))).trans hy
  simp only [sub_x, sub_y] at h1 h2
  rw [abs_le] at h1 h2
  refine ⟨⟨1 / 2, y.y⟩, ⟨?_, ?_⟩, ?_⟩
  · norm_num [abs_of_pos]
  · show |y.y - ((0 : ℤ) : ℝ)| ≤ 1 / 2
    rw [abs_le]; push_cast; constructor <;> linarith [h2.1, h2.2]
  · refine (V2.norm_le_add _).trans ?_
    simp only [sub_x, sub_y, sub_self, abs_zero, add_zero]
    rw [abs_le]; constructor <;> linarith [h1.1, h1.2]

end
end Auburn
