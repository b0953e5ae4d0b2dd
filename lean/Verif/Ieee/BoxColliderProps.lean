import Verif.Ieee.BoxApartProps

/-!
# C83, C84 through colliders

Two boxes as colliders placed at `p` and `q` (vectors or `Translate2d`).  The offset is rounded once more;
the statements are about the boxes where they really are.
-/

set_option linter.unusedSectionVars false
set_option synthInstance.maxSize 1000

namespace Auburn

open F32 V2 ExtremePoint2d Transformation2d

/-! ## specification -/

/-- the answers about two boxes with half sizes `h` at `p` and `k` at `q` that overlap -/
def OverlapAnswers (M : ℝ) (col : Except Panic Bool) (pen dist : Except Panic (Option (V2 F32)))
    (both : Except Panic (Bool × V2 F32)) (h p k q : V2 ℝ) : Prop :=
  col = .ok true ∧ dist = .ok none ∧ ∃ v, pen = .ok (some v) ∧ both = .ok (true, v) ∧
    PushesOut (M / 2 ^ 16) (M / 2 ^ 13) (1 ≤ h.x + k.x ∨ 1 ≤ h.y + k.y) v
      (shift p (Region.pts (Box2d.mk h))) (shift q (Region.pts (Box2d.mk k)))

/-- the answers about two boxes with half sizes `h` at `p` and `k` at `q` that are apart -/
def ApartAnswers (M : ℝ) (col : Except Panic Bool) (pen dist : Except Panic (Option (V2 F32)))
    (both : Except Panic (Bool × V2 F32)) (h p k q : V2 ℝ) : Prop :=
  col = .ok false ∧ pen = .ok none ∧
  (∃ v, dist = .ok (some v) ∧ Bridges (M / 2 ^ 14) (1 / 2 ^ 10) v
      (shift p (Region.pts (Box2d.mk h))) (shift q (Region.pts (Box2d.mk k)))) ∧
  ∃ v, both = .ok (false, v) ∧ Bridges (M / 2 ^ 14) (1 / 8) v
      (shift p (Region.pts (Box2d.mk h))) (shift q (Region.pts (Box2d.mk k)))

/-! ## translations -/

theorem real_shift_shift (u v : V2 ℝ) (A : Set (V2 ℝ)) : shift u (shift v A) = shift (v + u) A := by
  ext p
  constructor
  · rintro ⟨_, ⟨a, ha, rfl⟩, rfl⟩
    exact ⟨a, ha, by ext <;> simp [add_assoc]⟩
  · rintro ⟨a, ha, rfl⟩
    exact ⟨a + v, ⟨a, ha, rfl⟩, by ext <;> simp [add_assoc]⟩

theorem real_touch_shift (u : V2 ℝ) {A B : Set (V2 ℝ)} : Touch (shift u A) (shift u B) ↔ Touch A B := by
  constructor
  · rintro ⟨_, ⟨a, ha, rfl⟩, b, hb, e⟩
    refine ⟨a, ha, ?_⟩
    have : a = b := by
      have h1 := congrArg V2.x e
      have h2 := congrArg V2.y e
      simp only [V2.add_x, V2.add_y] at h1 h2
      ext <;> linarith
    rw [this]; exact hb
  · rintro ⟨a, ha, hb⟩
    exact ⟨_, ⟨a, ha, rfl⟩, a, hb, rfl⟩

theorem real_separable_shift (u : V2 ℝ) {A B : Set (V2 ℝ)} : Separable (shift u A) (shift u B) ↔ Separable A B := by
  constructor
  · rintro ⟨n, n0, hn⟩
    refine ⟨n, n0, fun a ha b hb => ?_⟩
    have := hn _ ⟨a, ha, rfl⟩ _ ⟨b, hb, rfl⟩
    simp only [V2.dot, V2.add_x, V2.add_y] at this ⊢
    linarith
  · rintro ⟨n, n0, hn⟩
    refine ⟨n, n0, ?_⟩
    rintro _ ⟨a, ha, rfl⟩ _ ⟨b, hb, rfl⟩
    have := hn a ha b hb
    simp only [V2.dot, V2.add_x, V2.add_y] at this ⊢
    linarith

/-- positions to offsets -/
theorem shift_both (u p q : V2 ℝ) (A B : Set (V2 ℝ)) :
    shift u (shift p A) = shift p (shift u A) ∧ shift q B = shift p (shift (q - p) B) := by
  constructor
  · rw [real_shift_shift, real_shift_shift]; congr 1; ext <;> simp [add_comm]
  · rw [real_shift_shift]; congr 1; ext <;> simp

theorem touch_placed {u p q : V2 ℝ} {A B : Set (V2 ℝ)} :
    Touch (shift u (shift p A)) (shift q B) ↔ Touch (shift u A) (shift (q - p) B) := by
  rw [(shift_both u p q A B).1, (shift_both u p q A B).2]; exact real_touch_shift p

theorem separable_placed {u p q : V2 ℝ} {A B : Set (V2 ℝ)} :
    Separable (shift u (shift p A)) (shift q B) ↔ Separable (shift u A) (shift (q - p) B) := by
  rw [(shift_both u p q A B).1, (shift_both u p q A B).2]; exact real_separable_shift p

/-- moving the second set -/
theorem touch_move {u d δ : V2 ℝ} {A B : Set (V2 ℝ)} :
    Touch (shift (u + d) A) (shift (δ + d) B) ↔ Touch (shift u A) (shift δ B) := by
  rw [← real_shift_shift, ← real_shift_shift]; exact real_touch_shift d
theorem separable_move {u d δ : V2 ℝ} {A B : Set (V2 ℝ)} :
    Separable (shift (u + d) A) (shift (δ + d) B) ↔ Separable (shift u A) (shift δ B) := by
  rw [← real_shift_shift, ← real_shift_shift]; exact real_separable_shift d

section
variable [env : F32Env]

/-- a push for a rounded offset is a push for the exact positions -/
theorem PushesOut.placed {e κ ε : ℝ} {P : Prop} {v : V2 F32} {A B : Set (V2 ℝ)} {δ p q : V2 ℝ}
    (h : PushesOut e κ P v A (shift δ B)) (hδ : V2.Within ε (q - p) δ) :
    PushesOut (e + ε) (κ + 4 * ε) P v (shift p A) (shift q B) := by
  obtain ⟨x, w, x1, x2, x3, x4, x5⟩ := h
  set d : V2 ℝ := q - p - δ with hd
  have hdx : |d.x| ≤ ε := hδ.1
  have hdy : |d.y| ≤ ε := hδ.2
  have nd : V2.norm d ≤ 2 * ε := by
    have := V2.norm_le_add d
    linarith
  have eq : q - p = δ + d := by rw [hd]; ext <;> simp
  refine ⟨x, w + d, x1, x2, ⟨?_, ?_⟩, ⟨?_, ?_⟩, ?_⟩
  · have a := abs_le.1 x3.1
    have b := abs_le.1 hdx
    simp only [V2.add_x]
    rw [abs_le]; constructor <;> linarith
  · have a := abs_le.1 x3.2
    have b := abs_le.1 hdy
    simp only [V2.add_y]
    rw [abs_le]; constructor <;> linarith
  · rw [touch_placed, eq, touch_move]; exact x4.1
  · rw [separable_placed, eq, separable_move]; exact x4.2
  · intro hP u hu
    rw [separable_placed, eq, show u = (u + -d) + d by ext <;> simp, separable_move] at hu
    have h1 := x5 hP _ hu
    have h2 := V2.norm_add_le w d
    have h3 := V2.norm_add_le u (-d)
    rw [V2.norm_neg] at h3
    linarith

/-- the gap for a rounded offset against the exact gap -/
theorem GapAns.near {e κ ε : ℝ} {v : V2 F32} {g g' : V2 ℝ} (h : GapAns e κ v g) (hg : V2.Within ε g g')
    (κ0 : 0 ≤ κ) (κ1 : κ ≤ 1) : GapAns (e + 4 * ε) κ v g' := by
  obtain ⟨x, x1, x2, x3⟩ := h
  have hgx := abs_le.1 hg.1
  have hgy := abs_le.1 hg.2
  have n1 := abs_le.1 (norm_close g g')
  have n2 : V2.norm g ≤ V2.norm g' + 2 * ε := by linarith [hg.1, hg.2]
  have ε0 : 0 ≤ ε := (abs_nonneg _).trans hg.1
  have k1 : κ * V2.norm g ≤ κ * V2.norm g' + 2 * ε := by
    have := mul_le_mul_of_nonneg_left n2 κ0
    have := mul_le_mul_of_nonneg_right κ1 (by linarith : 0 ≤ 2 * ε)
    linarith
  have κ2 : κ ^ 2 ≤ 1 := by nlinarith
  have k2 : κ ^ 2 * V2.norm g ≤ κ ^ 2 * V2.norm g' + 2 * ε := by
    have := mul_le_mul_of_nonneg_left n2 (sq_nonneg κ)
    have := mul_le_mul_of_nonneg_right κ2 (by linarith : 0 ≤ 2 * ε)
    linarith
  have y1 := abs_le.1 x2.1
  have y2 := abs_le.1 x2.2
  have y3 := abs_le.1 x3
  refine ⟨x, x1, ⟨?_, ?_⟩, ?_⟩ <;> rw [abs_le] <;> constructor <;> linarith [hg.1, hg.2]

theorem gap_lipschitz {h p q ε : ℝ} (h0 : 0 ≤ h) (hpq : |p - q| ≤ ε) : |axisGap h p - axisGap h q| ≤ ε := by
  have hpq := abs_le.1 hpq
  rcases gap_cases (p := p) h0 with ⟨a, e⟩ | ⟨a, e⟩ | ⟨a, e⟩ <;>
  rcases gap_cases (p := q) h0 with ⟨b, f⟩ | ⟨b, f⟩ | ⟨b, f⟩ <;> rw [e, f, abs_le] <;>
  (try have a := abs_le.1 a) <;> (try have b := abs_le.1 b) <;> constructor <;> linarith

/-- the range at the rounded offset -/
theorem offset_range {p' q' : V2 F32} {h k p q : V2 ℝ} {M : ℝ} (hp : p'.Is p) (hq : q'.Is q)
    (hR : BoxRange M h k (q - p)) (hM : M ≤ (2 : ℝ) ^ (27 : ℤ)) :
    ∃ δ : V2 ℝ, (q' + -p').Is δ ∧ V2.Within (M / 2 ^ 24) (q - p) δ ∧ BoxRange (2 * M) h k δ ∧
      (|δ.x - (q.x - p.x)| ≤ |q.x - p.x| / 2 ^ 24 ∧ |δ.y - (q.y - p.y)| ≤ |q.y - p.y| / 2 ^ 24) := by
  have b1 : |q.x - p.x| ≤ M := hR.tx
  have b2 : |q.y - p.y| ≤ M := hR.ty
  have hb : (2 : ℝ) ^ (28 : ℤ) ≤ (2 : ℝ) ^ (125 : ℤ) := by norm_num
  obtain ⟨δ, d1, d2, _⟩ := offset_f32 hp hq ⟨(b1.trans hR.M28).trans hb, (b2.trans hR.M28).trans hb⟩
  have c1 : |δ.x - (q.x - p.x)| ≤ M / 2 ^ 24 := le_trans d2.1 (div_le_div_of_nonneg_right b1 (by norm_num))
  have c2 : |δ.y - (q.y - p.y)| ≤ M / 2 ^ 24 := le_trans d2.2 (div_le_div_of_nonneg_right b2 (by norm_num))
  have M1 := hR.M1
  refine ⟨δ, d1, ⟨?_, ?_⟩, ⟨⟨hR.hx.1, by linarith [hR.hx.2]⟩, ⟨hR.hy.1, by linarith [hR.hy.2]⟩,
    ⟨hR.kx.1, by linarith [hR.kx.2]⟩, ⟨hR.ky.1, by linarith [hR.ky.2]⟩, ?_, ?_, by linarith, ?_⟩, ?_⟩
  · rw [abs_sub_comm]; exact c1
  · rw [abs_sub_comm]; exact c2
  · have := abs_le.1 c1
    have := abs_le.1 b1
    rw [abs_le]; constructor <;> linarith
  · have := abs_le.1 c2
    have := abs_le.1 b2
    rw [abs_le]; constructor <;> linarith
  · have : (2 : ℝ) ^ (28 : ℤ) = 2 * (2 : ℝ) ^ (27 : ℤ) := by norm_num
    rw [this]; linarith
  · exact d2

/-- Box2d v Box2d as colliders in binary32, boxes that overlap by `M / 2^18` -/
theorem C83_f32_overlap_colliders (a b : Box2d F32) (p' q' : V2 F32) {h k p q : V2 ℝ} {M : ℝ}
    (hh : a.halfsize.Is h) (hk : b.halfsize.Is k) (hp : p'.Is p) (hq : q'.Is q)
    (hR : BoxRange M h k (q - p)) (hM : M ≤ (2 : ℝ) ^ (27 : ℤ))
    (hx : M / 2 ^ 18 ≤ h.x + k.x - |q.x - p.x|) (hy : M / 2 ^ 18 ≤ h.y + k.y - |q.y - p.y|) :
    OverlapAnswers M (collides ⟨a, p'⟩ ⟨b, q'⟩) (penetrates ⟨a, p'⟩ ⟨b, q'⟩) (distanceTo ⟨a, p'⟩ ⟨b, q'⟩)
      (sdfv ⟨a, p'⟩ ⟨b, q'⟩) h p k q ∧
    OverlapAnswers M (collides ⟨a, Translate2d.mk p'⟩ ⟨b, Translate2d.mk q'⟩)
      (penetrates ⟨a, Translate2d.mk p'⟩ ⟨b, Translate2d.mk q'⟩)
      (distanceTo ⟨a, Translate2d.mk p'⟩ ⟨b, Translate2d.mk q'⟩)
      (sdfv ⟨a, Translate2d.mk p'⟩ ⟨b, Translate2d.mk q'⟩) h p k q := by
  obtain ⟨δ, d1, d2, d3, _⟩ := offset_range hp hq hR hM
  have M0 : 0 < M / 2 ^ 24 := div_pos (by linarith [hR.M1]) (by norm_num)
  have e1 : |δ.x| ≤ |q.x - p.x| + M / 2 ^ 24 := by
    have := abs_sub_abs_le_abs_sub δ.x (q.x - p.x)
    have h2 := d2.1
    rw [abs_sub_comm] at h2
    simp only [V2.sub_x] at h2
    linarith
  have e2 : |δ.y| ≤ |q.y - p.y| + M / 2 ^ 24 := by
    have := abs_sub_abs_le_abs_sub δ.y (q.y - p.y)
    have h2 := d2.2
    rw [abs_sub_comm] at h2
    simp only [V2.sub_y] at h2
    linarith
  obtain ⟨o1, o2, v, o3, o4, o5⟩ := C83_f32_overlap a b (q' + -p') hh hk d1 d3 (by linarith) (by linarith)
  have o6 : PushesOut (M / 2 ^ 16) (M / 2 ^ 13) (1 ≤ h.x + k.x ∨ 1 ≤ h.y + k.y) v
      (shift p (Region.pts (Box2d.mk h))) (shift q (Region.pts (Box2d.mk k))) := by
    obtain ⟨x, w, x1, x2, x3, x4, x5⟩ := o5.placed d2
    exact ⟨x, w, x1, x2, ⟨by linarith [x3.1], by linarith [x3.2]⟩, x4, fun hP u hu => by linarith [x5 hP u hu]⟩
  refine ⟨⟨o1, o2, v, o3, ?_, o6⟩, ⟨o1, o2, v, o3, ?_, o6⟩⟩
  · show (sdfvRel a b (q' + -p')).map _ = _
    rw [o4]; rfl
  · have o4' : sdfvRel a b (Translate2d.mk (q' + -p')) = .ok (true, v) := o4
    show (sdfvRel a b (Translate2d.mk (q' + -p'))).map _ = _
    rw [o4']; rfl

theorem shrink_sq {a b : ℝ} (h : |a - b| ≤ |b| / 2 ^ 24) : b ^ 2 * (3 / 4) ≤ a ^ 2 := by
  have h1 : |b| * (7 / 8) ≤ |a| := by
    have := abs_sub_abs_le_abs_sub b a
    rw [abs_sub_comm] at this
    have := abs_nonneg b
    linarith
  have h2 := pow_le_pow_left₀ (by positivity) h1 2
  rw [mul_pow, sq_abs, sq_abs] at h2
  have := sq_nonneg b
  linarith

/-- apart at the exact offset, apart at the rounded offset -/
theorem apart_moved {M W p H q p' q' : ℝ} (M1 : 1 ≤ M) (hp : |p' - p| ≤ M / 2 ^ 24)
    (hq : |q' - q| ≤ M / 2 ^ 24) (g1 : ApartAlong (4 * M) W p H q)
    (g2 : |q| ≤ H + 4 * M / 2 ^ 20 → 1 / 2 ^ 21 ≤ H ^ 2 * (|p| - W)) : ApartAlong (2 * M) W p' H q' := by
  have a1 := abs_le.1 ((abs_abs_sub_abs_le p' p).trans hp)
  have a2 := abs_le.1 ((abs_abs_sub_abs_le q' q).trans hq)
  obtain ⟨b1, b2⟩ := g1
  refine ⟨by linarith, fun h => ?_⟩
  have h' : |q| ≤ H + 4 * M / 2 ^ 20 := by linarith
  have c1 := b2 h'
  refine ⟨by linarith [c1.1], ?_⟩
  have c2 : (|p| - W) * (3 / 4) ≤ |p'| - W := by linarith
  have := mul_le_mul_of_nonneg_left c2 (sq_nonneg H)
  have := g2 h'
  linarith

/-- Box2d v Box2d as colliders in binary32, boxes that are apart by `M / 2^18` along an axis -/
theorem C84_f32_apart_colliders (a b : Box2d F32) (p' q' : V2 F32) {h k p q : V2 ℝ} {M : ℝ}
    (hh : a.halfsize.Is h) (hk : b.halfsize.Is k) (hp : p'.Is p) (hq : q'.Is q)
    (hR : BoxRange M h k (q - p)) (hM : M ≤ (2 : ℝ) ^ (27 : ℤ))
    (hf : 1 / 2 ^ 21 ≤ (q.x - p.x) ^ 2 + (q.y - p.y) ^ 2)
    (hg : ApartAlong (4 * M) (h.x + k.x) (q.x - p.x) (h.y + k.y) (q.y - p.y) ∧
        (|q.y - p.y| ≤ h.y + k.y + 4 * M / 2 ^ 20 → 1 / 2 ^ 21 ≤ (h.y + k.y) ^ 2 * (|q.x - p.x| - (h.x + k.x))) ∨
      ApartAlong (4 * M) (h.y + k.y) (q.y - p.y) (h.x + k.x) (q.x - p.x) ∧
        (|q.x - p.x| ≤ h.x + k.x + 4 * M / 2 ^ 20 → 1 / 2 ^ 21 ≤ (h.x + k.x) ^ 2 * (|q.y - p.y| - (h.y + k.y)))) :
    ApartAnswers M (collides ⟨a, p'⟩ ⟨b, q'⟩) (penetrates ⟨a, p'⟩ ⟨b, q'⟩) (distanceTo ⟨a, p'⟩ ⟨b, q'⟩)
      (sdfv ⟨a, p'⟩ ⟨b, q'⟩) h p k q ∧
    ApartAnswers M (collides ⟨a, Translate2d.mk p'⟩ ⟨b, Translate2d.mk q'⟩)
      (penetrates ⟨a, Translate2d.mk p'⟩ ⟨b, Translate2d.mk q'⟩)
      (distanceTo ⟨a, Translate2d.mk p'⟩ ⟨b, Translate2d.mk q'⟩)
      (sdfv ⟨a, Translate2d.mk p'⟩ ⟨b, Translate2d.mk q'⟩) h p k q := by
  obtain ⟨δ, d1, d2, d3, r1, r2⟩ := offset_range hp hq hR hM
  have M0 : 0 < M / 2 ^ 24 := div_pos (by linarith [hR.M1]) (by norm_num)
  have ex : |δ.x - (q.x - p.x)| ≤ M / 2 ^ 24 := by rw [abs_sub_comm]; exact d2.1
  have ey : |δ.y - (q.y - p.y)| ≤ M / 2 ^ 24 := by rw [abs_sub_comm]; exact d2.2
  have W0 := add_nonneg hR.hx.1 hR.kx.1
  have H0 := add_nonneg hR.hy.1 hR.ky.1
  have far : 1 / 2 ^ 22 ≤ δ.x ^ 2 + δ.y ^ 2 := by
    have s1 := shrink_sq r1
    have s2 := shrink_sq r2
    linarith
  have gap : ApartAlong (2 * M) (h.x + k.x) δ.x (h.y + k.y) δ.y ∨
      ApartAlong (2 * M) (h.y + k.y) δ.y (h.x + k.x) δ.x := by
    rcases hg with ⟨g1, g2⟩ | ⟨g1, g2⟩
    · exact .inl (apart_moved hR.M1 ex ey g1 g2)
    · exact .inr (apart_moved hR.M1 ey ex g1 g2)
  obtain ⟨o1, o2, ⟨v, o3, o4⟩, v', o5, o6⟩ := apart_gap a b (q' + -p') hh hk d1 d3 far gap
  have near : V2.Within (M / 2 ^ 24) (boxGap h k δ) (boxGap h k (q - p)) :=
    ⟨gap_lipschitz W0 ex, gap_lipschitz H0 ey⟩
  have fin : ∀ {κ : ℝ} {v : V2 F32}, 0 ≤ κ → κ ≤ 1 → GapAns (2 * M / 2 ^ 16) κ v (boxGap h k δ) →
      Bridges (M / 2 ^ 14) κ v (shift p (Region.pts (Box2d.mk h))) (shift q (Region.pts (Box2d.mk k))) := by
    intro κ v κ0 κ1 hv
    obtain ⟨x, w, x1, x2, x3, x4, x5⟩ := (hv.near near κ0 κ1).bridges hR.hx.1 hR.hy.1 hR.kx.1 hR.ky.1
    exact ⟨x, w, x1, ⟨by linarith [x2.1], by linarith [x2.2]⟩, by linarith, touch_placed.2 x4,
      fun u hu => x5 u (touch_placed.1 hu)⟩
  have b1 := fin (by norm_num) (by norm_num) o4
  have b2 := fin (by norm_num) (by norm_num) o6
  refine ⟨⟨o1, o2, ⟨v, o3, b1⟩, v', ?_, b2⟩, ⟨o1, o2, ⟨v, o3, b1⟩, v', ?_, b2⟩⟩
  · show (sdfvRel a b (q' + -p')).map _ = _
    rw [o5]; rfl
  · have o5' : sdfvRel a b (Translate2d.mk (q' + -p')) = .ok (false, v') := o5
    show (sdfvRel a b (Translate2d.mk (q' + -p'))).map _ = _
    rw [o5']; rfl

/-- a case that meets the hypotheses: boxes of half sizes (3, 1) at (-3, 0) and (3, 3) at (4, -1), apart by 1 -/
example : ∃ (a b : Box2d F32) (p' q' : V2 F32) (h k p q : V2 ℝ), a.halfsize.Is h ∧ b.halfsize.Is k ∧ p'.Is p ∧
    q'.Is q ∧ BoxRange 7 h k (q - p) ∧ p = ⟨-3, 0⟩ ∧ q = ⟨4, -1⟩ ∧ h = ⟨3, 1⟩ ∧ k = ⟨3, 3⟩ ∧
    1 / 2 ^ 21 ≤ (q.x - p.x) ^ 2 + (q.y - p.y) ^ 2 ∧
    ApartAlong (4 * 7) (h.x + k.x) (q.x - p.x) (h.y + k.y) (q.y - p.y) ∧
    1 / 2 ^ 21 ≤ (h.y + k.y) ^ 2 * (|q.x - p.x| - (h.x + k.x)) := by
  have h3 : F32.Is (ofReal false 3) 3 := is_ofReal (by
    have := representable_int 3 (by norm_num)
    norm_num at this ⊢; exact this)
  have h4 : F32.Is (ofReal false 4) 4 := is_ofReal (by
    have := representable_int 4 (by norm_num)
    norm_num at this ⊢; exact this)
  refine ⟨⟨⟨ofReal false 3, 1⟩⟩, ⟨⟨ofReal false 3, ofReal false 3⟩⟩, ⟨-ofReal false 3, 0⟩, ⟨ofReal false 4, -1⟩,
    ⟨3, 1⟩, ⟨3, 3⟩, ⟨-3, 0⟩, ⟨4, -1⟩, ⟨h3, is_one⟩, ⟨h3, h3⟩, ⟨is_neg h3, is_zero⟩, ⟨h4, is_neg is_one⟩,
    ⟨?_, ?_, ?_, ?_, ?_, ?_, ?_, ?_⟩, rfl, rfl, rfl, rfl, ?_, ⟨?_, ?_⟩, ?_⟩ <;>
    norm_num [abs_of_pos]

/-- a case for the overlapping statement: the same boxes at (-3, 0) and (1, -1) -/
example : ∃ (a b : Box2d F32) (p' q' : V2 F32) (h k p q : V2 ℝ), a.halfsize.Is h ∧ b.halfsize.Is k ∧ p'.Is p ∧
    q'.Is q ∧ BoxRange 7 h k (q - p) ∧ p = ⟨-3, 0⟩ ∧ q = ⟨1, -1⟩ ∧ h = ⟨3, 1⟩ ∧ k = ⟨3, 3⟩ ∧
    7 / 2 ^ 18 ≤ h.x + k.x - |q.x - p.x| ∧ 7 / 2 ^ 18 ≤ h.y + k.y - |q.y - p.y| := by
  have h3 : F32.Is (ofReal false 3) 3 := is_ofReal (by
    have := representable_int 3 (by norm_num)
    norm_num at this ⊢; exact this)
  refine ⟨⟨⟨ofReal false 3, 1⟩⟩, ⟨⟨ofReal false 3, ofReal false 3⟩⟩, ⟨-ofReal false 3, 0⟩, ⟨1, -1⟩,
    ⟨3, 1⟩, ⟨3, 3⟩, ⟨-3, 0⟩, ⟨1, -1⟩, ⟨h3, is_one⟩, ⟨h3, h3⟩, ⟨is_neg h3, is_zero⟩, ⟨is_one, is_neg is_one⟩,
    ⟨?_, ?_, ?_, ?_, ?_, ?_, ?_, ?_⟩, rfl, rfl, rfl, rfl, ?_, ?_⟩ <;>
    norm_num [abs_of_pos]

end

end Auburn
