import Verif.Ieee.GjkProps
import Verif.Ieee.GjkDist
import Verif.Props.BoxRot

/-!
# C73: distances computed in binary32 on a dyadic grid

The model run on IEEE-754 binary32 (`F32`): shapes and positions are binary32 numbers on a grid of
step `2^k`.  Every decision of the search is the exact one; the returned vector is an exact contact
vector up to `2^(k-16)`, that is `1/65536` of the grid step.
-/

set_option linter.unusedSectionVars false
set_option synthInstance.maxSize 1000

namespace Auburn

open F32 V2 ExtremePoint2d Transformation2d

/-! ## specification -/

/-- `w` is a shortest vector that brings `X` into contact with `Y`, up to the factor `κ` -/
def ShortestUpTo (κ : ℝ) (w : V2 ℝ) (X Y : Set (V2 ℝ)) : Prop :=
  ∀ u, Touch (shift u X) Y → κ ^ 2 * lengthSq w ≤ lengthSq u

/-- `v` is finite and within `e` (in each coordinate) of an exact vector `w` that brings `X` into
contact with `Y`; if the sets are not in contact yet, `P w` -/
def NearContact (e : ℝ) (v : V2 F32) (X Y : Set (V2 ℝ)) (P : V2 ℝ → Prop) : Prop :=
  ∃ x w, v.Is x ∧ V2.Within e x w ∧ Touch (shift w X) Y ∧ (¬ Touch X Y → P w)

/-- what is claimed of `distance_to`: no panic; "no distance" only for sets that share a point; a
vector only for sets separable by a line, and it is (nearly) a contact vector with `P` -/
def DistanceExact (dist : Except Panic (Option (V2 F32))) (e : ℝ) (X Y : Set (V2 ℝ))
    (P : V2 ℝ → Prop) : Prop :=
  ∃ o, dist = .ok o ∧ (o = none → Touch X Y) ∧
    ∀ v, o = some v → Separable X Y ∧ NearContact e v X Y P

/-- what is claimed of `sdfv`: no panic; "colliding" only for sets that share a point; "not
colliding" only for sets separable by a line, and then the vector is (nearly) a contact vector with
`P` -/
def SdfvExact (res : Except Panic (Bool × V2 F32)) (e : ℝ) (X Y : Set (V2 ℝ))
    (P : V2 ℝ → Prop) : Prop :=
  ∃ c v, res = .ok (c, v) ∧ (c = true → Touch X Y) ∧
    (c = false → Separable X Y ∧ NearContact e v X Y P)

/-- the determined cases -/
theorem DistanceExact.determined {dist : Except Panic (Option (V2 F32))} {e : ℝ} {X Y : Set (V2 ℝ)}
    {P : V2 ℝ → Prop} (h : DistanceExact dist e X Y P) :
    (Overlap X Y → dist = .ok none) ∧
    (¬ Touch X Y → ∃ v x w, dist = .ok (some v) ∧ v.Is x ∧ V2.Within e x w ∧
      Touch (shift w X) Y ∧ P w) := by
  obtain ⟨o, rfl, h1, h2⟩ := h
  cases o with
  | none => exact ⟨fun _ => rfl, fun h => absurd (h1 rfl) h⟩
  | some v =>
    obtain ⟨h3, x, w, h4, h5, h6, h7⟩ := h2 v rfl
    exact ⟨fun h => absurd h h3.not_overlap, fun h => ⟨v, x, w, rfl, h4, h5, h6, h7 h⟩⟩

theorem SdfvExact.determined {res : Except Panic (Bool × V2 F32)} {e : ℝ} {X Y : Set (V2 ℝ)}
    {P : V2 ℝ → Prop} (h : SdfvExact res e X Y P) :
    (Overlap X Y → ∃ v, res = .ok (true, v)) ∧
    (¬ Touch X Y → ∃ v x w, res = .ok (false, v) ∧ v.Is x ∧ V2.Within e x w ∧
      Touch (shift w X) Y ∧ P w) := by
  obtain ⟨c, v, rfl, h1, h2⟩ := h
  cases c with
  | true => exact ⟨fun _ => ⟨v, rfl⟩, fun h => absurd (h1 rfl) h⟩
  | false =>
    obtain ⟨h3, x, w, h4, h5, h6, h7⟩ := h2 rfl
    exact ⟨fun h => absurd h h3.not_overlap, fun h => ⟨v, x, w, rfl, h4, h5, h6, h7 h⟩⟩

/-! ## rectangles -/

/-- the points of a rectangle with half sizes `X`, `Y` around `-o` -/
def RectSet (M : Set (V2 ℝ)) (X Y : ℝ) (o : V2 ℝ) : Prop :=
  ∀ m, m ∈ M ↔ |m.x + o.x| ≤ X ∧ |m.y + o.y| ≤ Y

theorem split_abs' {x k l : ℝ} (hk : 0 ≤ k) (hl : 0 ≤ l) (h : |x| ≤ k + l) :
    ∃ s t : ℝ, |s| ≤ k ∧ |t| ≤ l ∧ s - t = x := by
  rw [abs_le] at h
  refine ⟨max (-k) (min k x), max (-k) (min k x) - x, abs_le.2 ⟨le_max_left _ _, ?_⟩,
    abs_le.2 ⟨?_, ?_⟩, by ring⟩
  · exact max_le (by linarith) (min_le_left _ _)
  · have : min k x ≤ max (-k) (min k x) := le_max_right _ _
    rcases min_cases k x with ⟨e, _⟩ | ⟨e, _⟩ <;> rw [e] at this ⊢ <;> linarith
  · have : max (-k) (min k x) ≤ x + l := max_le (by linarith) ((min_le_right _ _).trans (by linarith))
    linarith

theorem rectSet_boxes (a b : V2 ℝ) (o : V2 ℝ) (ha : 0 ≤ a.x ∧ 0 ≤ a.y) (hb : 0 ≤ b.x ∧ 0 ≤ b.y) :
    RectSet (minkDiff (Region.pts (Box2d.mk a)) (shift o (Region.pts (Box2d.mk b)))) (a.x + b.x)
      (a.y + b.y) o := by
  intro m
  constructor
  · rintro ⟨p, ⟨p1, p2⟩, _, ⟨q, ⟨q1, q2⟩, rfl⟩, rfl⟩
    have e1 : (p - (q + o)).x + o.x = p.x - q.x := by simp only [sub_x, add_x]; ring
    have e2 : (p - (q + o)).y + o.y = p.y - q.y := by simp only [sub_y, add_y]; ring
    rw [e1, e2]
    exact ⟨(abs_sub _ _).trans (add_le_add p1 q1), (abs_sub _ _).trans (add_le_add p2 q2)⟩
  · rintro ⟨h1, h2⟩
    obtain ⟨s, t, s1, t1, e1⟩ := split_abs' ha.1 hb.1 h1
    obtain ⟨s', t', s2, t2, e2⟩ := split_abs' ha.2 hb.2 h2
    refine ⟨⟨s, s'⟩, ⟨s1, s2⟩, _, ⟨⟨t, t'⟩, ⟨t1, t2⟩, rfl⟩, ?_⟩
    ext
    · simp only [sub_x, add_x]; linarith
    · simp only [sub_y, add_y]; linarith

section
variable [FloatExtra ℝ] [ExactFloat ℝ] {M : Set (V2 ℝ)} {X Y : ℝ} {o : V2 ℝ}

theorem RectSet.extreme_x (h : RectSet M X Y o) {d p : V2 ℝ} (hp : IsExtreme M d p) (hX : 0 ≤ X) :
    (0 < d.x → p.x = X - o.x) ∧ (d.x < 0 → p.x = -X - o.x) := by
  obtain ⟨h1, h2⟩ := (h p).1 hp.1
  have h1' := abs_le.1 h1
  constructor
  · intro hd
    have := hp.2 ⟨X - o.x, p.y⟩ ((h _).2 ⟨by simp [abs_of_nonneg hX], h2⟩)
    simp only [dot_def] at this
    have : X - o.x ≤ p.x := le_of_mul_le_mul_left (by linarith) hd
    linarith
  · intro hd
    have := hp.2 ⟨-X - o.x, p.y⟩ ((h _).2 ⟨by simp [abs_of_nonneg hX], h2⟩)
    simp only [dot_def] at this
    have : p.x ≤ -X - o.x := by
      by_contra hn
      have := mul_lt_mul_of_neg_left (not_le.1 hn) hd
      linarith
    linarith

theorem RectSet.extreme_y (h : RectSet M X Y o) {d p : V2 ℝ} (hp : IsExtreme M d p) (hY : 0 ≤ Y) :
    (0 < d.y → p.y = Y - o.y) ∧ (d.y < 0 → p.y = -Y - o.y) := by
  obtain ⟨h1, h2⟩ := (h p).1 hp.1
  have h2' := abs_le.1 h2
  constructor
  · intro hd
    have := hp.2 ⟨p.x, Y - o.y⟩ ((h _).2 ⟨h1, by simp [abs_of_nonneg hY]⟩)
    simp only [dot_def] at this
    have : Y - o.y ≤ p.y := le_of_mul_le_mul_left (by linarith) hd
    linarith
  · intro hd
    have := hp.2 ⟨p.x, -Y - o.y⟩ ((h _).2 ⟨h1, by simp [abs_of_nonneg hY]⟩)
    simp only [dot_def] at this
    have : p.y ≤ -Y - o.y := by
      by_contra hn
      have := mul_lt_mul_of_neg_left (not_le.1 hn) hd
      linarith
    linarith

theorem RectSet.exists_extreme (h : RectSet M X Y o) (hX : 0 ≤ X) (hY : 0 ≤ Y) (d : V2 ℝ) :
    ∃ p, IsExtreme M d p := by
  have key : ∀ {x Z m c : ℝ}, 0 ≤ Z → |m + c| ≤ Z →
      x * m ≤ x * ((if 0 ≤ x then Z else -Z) - c) := by
    intro x Z m c _ hm
    have hm := abs_le.1 hm
    split_ifs with hx
    · exact mul_le_mul_of_nonneg_left (by linarith) hx
    · exact mul_le_mul_of_nonpos_left (by linarith) (not_le.1 hx).le
  refine ⟨⟨(if 0 ≤ d.x then X else -X) - o.x, (if 0 ≤ d.y then Y else -Y) - o.y⟩, ?_, fun m hm => ?_⟩
  · rw [h]
    constructor
    · simp only [sub_add_cancel]; split_ifs <;> simp [abs_of_nonneg hX]
    · simp only [sub_add_cancel]; split_ifs <;> simp [abs_of_nonneg hY]
  · obtain ⟨h1, h2⟩ := (h m).1 hm
    rw [dot_def, dot_def]
    exact add_le_add (key hX h1) (key hY h2)

/-- the invariant of the search on a rectangle started at `q` -/
def RectInv (M : Set (V2 ℝ)) (q d l : V2 ℝ) (pts : List (V2 ℝ)) : Prop :=
  (d = -q ∧ l = q ∧ pts = [q]) ∨ ((∀ x ∈ M, d.dot x ≤ d.dot l) ∧ EndsOk M pts)

theorem RectInv.endsOk {q d l : V2 ℝ} {pts : List (V2 ℝ)} (h : RectInv M q d l pts) :
    EndsOk M pts := by
  rcases h with ⟨_, _, rfl⟩ | ⟨_, h⟩
  · intro p hp r hr hne _
    rw [List.mem_singleton.1 hp, List.mem_singleton.1 hr] at hne
    exact absurd rfl hne
  · exact h

theorem RectSet.kept (h : RectSet M X Y o) (hX : 0 ≤ X) (hY : 0 ≤ Y) (h0 : (0 : V2 ℝ) ∉ M) {q : V2 ℝ}
    (hq : IsExtreme M o q) : KeptAny M (RectInv M q) := by
  intro L d l pts a r hD hI ha hprog hr hc hs
  rcases hI with ⟨rfl, rfl, rfl⟩ | ⟨ht, _⟩
  swap
  · exact absurd hprog (not_lt.2 (ht a ha.1))
  have hne : -l ≠ o := by
    intro he
    rw [he] at hprog
    exact absurd hprog (not_lt.2 (hq.2 a ha.1))
  classical
  choose S0 hS0 using h.exists_extreme hX hY
  let S : V2 ℝ → V2 ℝ := fun e => if e = o then l else if e = -l then a else S0 e
  have hSo : S o = l := if_pos rfl
  have hSd : S (-l) = a := by
    show (if -l = o then l else if -l = -l then a else S0 (-l)) = a
    rw [if_neg hne, if_pos rfl]
  have hS : ∀ e, IsExtreme M e (S e) := by
    intro e
    by_cases h1 : e = o
    · rw [h1, hSo]; exact hq
    · by_cases h2 : e = -l
      · rw [h2, hSd]; exact ha
      · have : S e = S0 e := by
          show (if e = o then l else if e = -l then a else S0 e) = S0 e
          rw [if_neg h1, if_neg h2]
        rw [this]; exact hS0 e
  have hR : RectOk M S X Y o := ⟨hX, hY, hS, fun h1 h2 => (h 0).2 (by simpa using ⟨h1, h2⟩),
    fun d => (h.extreme_x (hS d) hX).1, fun d => (h.extreme_x (hS d) hX).2,
    fun d => (h.extreme_y (hS d) hY).1, fun d => (h.extreme_y (hS d) hY).2⟩
  have hinit : RState M S o (-l) l [l] := by
    have := RState.init (M := M) (S := S) (o := o)
    rwa [hSo] at this
  have hk := RState.kept hR h0 L (-l) l [l] r hD hinit (by rw [hSd]; exact hprog)
    (by rw [hSd]; exact hr) hc hs
  rw [hSd] at hk
  generalize overrideDir (-l) r.dir = e at hk
  generalize r.pts = pts at hk
  have hgen : ∀ {d' l' : V2 ℝ} {pts' : List (V2 ℝ)}, RState M S o d' l' pts' →
      RectInv M l d' l' pts' := by
    intro d' l' pts' hk
    cases hk with
    | init => rw [hSo]; exact Or.inl ⟨rfl, rfl, rfl⟩
    | dead _ _ _ h1 h2 => exact Or.inr ⟨h1, h2⟩
  exact hgen hk

end

/-! ## pairs -/

section
variable [env : F32Env]
variable {A B : Type} [ExtremePoint2d A F32] [ExtremePoint2d B F32] {a : A} {b : B}
  {X Y : Set (V2 ℝ)} {VA VB : List (V2 ℝ)} {rel : V2 F32} {k na nb nr : ℤ}

/-- `w` joins one of the listed corners of the first set with one of the second, moved by `t` -/
def CornerVector (VA VB : List (V2 ℝ)) (t w : V2 ℝ) : Prop :=
  ∃ p ∈ VA, ∃ q ∈ VB, w = q + t - p

/-- `w` is the shortest vector of one facing edge, reached at an end of it: `w` and some other `u`
join corners, `w` is shortest among all vectors between `w` and `u`, and in the direction `n`
orthogonal to that edge the sets are apart by `n·w = n·u` (by at least `κ` of it) -/
def ShortestOfEdge32 (VA VB : List (V2 ℝ)) (t : V2 ℝ) (X Y : Set (V2 ℝ)) (κ : ℝ) (w : V2 ℝ) : Prop :=
  ∃ n u : V2 ℝ, n ≠ 0 ∧ CornerVector VA VB t w ∧ CornerVector VA VB t u ∧ u ≠ w ∧
    n.dot u = n.dot w ∧ 0 ≤ n.dot w ∧ (∀ p ∈ X, ∀ q ∈ Y, κ * n.dot w ≤ n.dot (q - p)) ∧
    ∀ s : ℝ, 0 ≤ s → s ≤ 1 → lengthSq w ≤ lengthSq (w + scale s (u - w))

section
variable [FloatExtra ℝ] [ExactFloat ℝ]

theorem Stopped.near {M : Set (V2 ℝ)} {V : List (V2 ℝ)} {I : V2 ℝ → V2 ℝ → List (V2 ℝ) → Prop}
    {κ : ℝ} {v : V2 F32} (h : Stopped k M V I κ v) (hκ : 0 ≤ κ) (hκ1 : κ ≤ 1)
    (hXY : M = minkDiff X Y) (hM : Convex ℝ M) :
    Separable X Y ∧ NearContact ((2 : ℝ) ^ (k - 16)) v X Y (fun w =>
      (ShortestUpTo κ w X Y ∨ ∃ d p q : V2 ℝ, p ∈ V ∧ q ∈ V ∧ w = -p ∧ p ≠ q ∧ d ≠ 0 ∧ d.dot q = d.dot p ∧
        d.dot p ≤ 0 ∧ 0 ≤ p.dot (q - p) ∧ ∀ x ∈ M, d.dot x ≤ κ * d.dot p) ∧
      ((∀ d l pts, I d l pts → EndsOk M pts) → ShortestUpTo κ w X Y)) := by
  obtain ⟨h1, x, w, pts, hx, hw, hpM, hpV, he, hn⟩ := h
  refine ⟨separable_iff.2 (hXY ▸ h1), x, w, hx, he,
    shift_touch_iff.2 (hXY ▸ distanceToOrigin_mem hM hpM hw), fun ht => ?_⟩
  have h0 : (0 : V2 ℝ) ∉ M := fun h0 => ht (touch_iff.2 (hXY ▸ h0))
  obtain ⟨L, d, l, hD, hI, hsup⟩ := hn h0
  have hshort : Nearest M κ w → ShortestUpTo κ w X Y := by
    intro hN u hu
    have := hN _ (hXY ▸ shift_touch_iff.1 hu)
    rwa [lengthSq_neg] at this
  constructor
  · rcases hD.stop h0 hκ hsup hw with h2 | ⟨p, q, hp, hq, e, hne, hd, e1, e2, hle, h2⟩
    · exact Or.inl (hshort h2)
    · exact Or.inr ⟨d, p, q, hpV p hp, hpV q hq, e, hne, hd, e2.trans e1.symm, by rw [e1]; exact hle, h2,
        fun x hx => by rw [e1]; exact hsup x hx⟩
  · intro hE
    exact hshort (hD.nearest h0 hκ hκ1 hsup hw (hE d l pts hI))

end

/-- both searches on a pair placed by a `Vec2`, with an invariant `I` -/
theorem pair_dist_f32_of [DefaultMinkowski A B] (cX : Convex ℝ X) (cY : Convex ℝ Y)
    (hr : rel.OnGrid32 k nr) (hn : nr ≤ 32)
    (hk1 : -7 ≤ k) (hk2 : k ≤ 12) {V : List (V2 ℝ)}
    (hS : SupportNz k (minkDiff X (shift rel.toReal Y)) V (extremePoint (LocalMinkowskiDiff2d.mk a b rel)))
    (hsub : ∀ v ∈ V, v ∈ VA.flatMap fun x => VB.map fun y => x - (y + rel.toReal))
    (hV : V.length < 21) {P : ℝ → V2 ℝ → Prop}
    (hP : ∀ [FloatExtra ℝ] [ExactFloat ℝ], ∀ d0 q : V2 ℝ, d0 ≠ 0 → (initialDirection rel).Is d0 →
      IsExtreme (minkDiff X (shift rel.toReal Y)) d0 q → (0 : V2 ℝ) ∉ minkDiff X (shift rel.toReal Y) →
      ∃ I : V2 ℝ → V2 ℝ → List (V2 ℝ) → Prop, KeptAny (minkDiff X (shift rel.toReal Y)) I ∧
        I (-q) q [q] ∧ ∀ κ w,
        (ShortestUpTo κ w X (shift rel.toReal Y) ∨ ∃ d p q : V2 ℝ, p ∈ (VA.flatMap fun x => VB.map fun y => x - (y + rel.toReal)) ∧
          q ∈ (VA.flatMap fun x => VB.map fun y => x - (y + rel.toReal)) ∧ w = -p ∧ p ≠ q ∧ d ≠ 0 ∧
          d.dot q = d.dot p ∧ d.dot p ≤ 0 ∧ 0 ≤ p.dot (q - p) ∧
          ∀ x ∈ minkDiff X (shift rel.toReal Y), d.dot x ≤ κ * d.dot p) →
        ((∀ d l pts, I d l pts → EndsOk (minkDiff X (shift rel.toReal Y)) pts) →
          ShortestUpTo κ w X (shift rel.toReal Y)) → P κ w) :
    DistanceExact (distanceToRel a b rel) ((2 : ℝ) ^ (k - 16)) X (shift rel.toReal Y) (P 1) ∧
    SdfvExact (sdfvRel a b rel) ((2 : ℝ) ^ (k - 16)) X (shift rel.toReal Y) (P (49 / 50)) := by
  let _ := realFloat true 0
  have := realFloat_exact true 0
  have hM := convex_diff_shift cX cY rel.toReal
  obtain ⟨d0, hd, hd0, hok⟩ := initial_f32 hr hn hk1 hk2
  set S := extremePoint (LocalMinkowskiDiff2d.mk a b rel) with hSdef
  set M := minkDiff X (shift rel.toReal Y) with hMdef
  obtain ⟨q, hqV, hq', hq, hgq⟩ := hS _ _ hd hok
  replace hqV := hqV hd0
  have hlen : V.length < 1 + iterationLimit := by
    show _ < 21
    exact hV
  obtain ⟨I, hI, hI0, hPI⟩ : ∃ I : V2 ℝ → V2 ℝ → List (V2 ℝ) → Prop, KeptAny M I ∧
      ((0 : V2 ℝ) ∉ M → I (-q) q [q]) ∧ ((0 : V2 ℝ) ∉ M → ∀ κ w,
        (ShortestUpTo κ w X (shift rel.toReal Y) ∨ ∃ d p q : V2 ℝ, p ∈ V ∧ q ∈ V ∧ w = -p ∧ p ≠ q ∧ d ≠ 0 ∧
          d.dot q = d.dot p ∧ d.dot p ≤ 0 ∧ 0 ≤ p.dot (q - p) ∧ ∀ x ∈ M, d.dot x ≤ κ * d.dot p) →
        ((∀ d l pts, I d l pts → EndsOk M pts) → ShortestUpTo κ w X (shift rel.toReal Y)) → P κ w) := by
    by_cases h0 : (0 : V2 ℝ) ∈ M
    · exact ⟨fun _ _ _ => True, fun _ _ _ _ _ _ _ _ _ _ _ _ _ => trivial, fun h => absurd h0 h,
        fun h => absurd h0 h⟩
    · obtain ⟨I, h1, h2, h3⟩ := hP d0 q hd0 hd hq h0
      refine ⟨I, h1, fun _ => h2, fun _ κ w h => h3 κ w (h.imp id ?_)⟩
      rintro ⟨d, p, q, hp, hq, h⟩
      exact ⟨d, p, q, hsub p hp, hsub q hq, h⟩
  have hsim : Sim k M V I iterationLimit true (-(S (initialDirection rel))) (S (initialDirection rel))
      [S (initialDirection rel)] (-q) q [q] :=
    Sim.start hk1 hk2 hM hlen hd0 hqV hq' hq hgq hI0
  have hnear : ∀ {κ : ℝ} {v : V2 F32}, 0 ≤ κ → κ ≤ 1 → Stopped k M V I κ v →
      Separable X (shift rel.toReal Y) ∧
        NearContact ((2 : ℝ) ^ (k - 16)) v X (shift rel.toReal Y) (P κ) := by
    intro κ v hκ hκ1 hs
    obtain ⟨h1, x, w, h2, h3, h4, h5⟩ := hs.near hκ hκ1 hMdef hM
    refine ⟨h1, x, w, h2, h3, h4, fun ht => ?_⟩
    obtain ⟨h6, h7⟩ := h5 ht
    exact hPI (fun h0 => ht (touch_iff.2 h0)) κ w h6 h7
  constructor
  · have hrun : distanceToRel a b rel = (gjkDistance S iterationLimit (-(S (initialDirection rel)))
        (S (initialDirection rel)) [S (initialDirection rel)]).map
        fun r => if r.1 then none else some r.2 := rfl
    rcases gjkDistance_f32 hk1 hk2 hM hI hS iterationLimit _ _ _ _ _ _ hsim with
      ⟨h1, h2⟩ | ⟨v, h1, h2⟩
    · exact ⟨none, by rw [hrun, h1]; rfl, fun _ => touch_iff.2 h2, by simp⟩
    · refine ⟨some v, by rw [hrun, h1]; rfl, by simp, fun w hw => ?_⟩
      cases hw
      exact hnear zero_le_one le_rfl h2
  · have hrun : sdfvRel a b rel = gjkFull S iterationLimit true (-(S (initialDirection rel)))
        (S (initialDirection rel)) [S (initialDirection rel)] := rfl
    rcases gjkFull_f32 hk1 hk2 hM hI hS iterationLimit _ _ _ _ _ _ _ hsim with
      ⟨⟨v, h1⟩, h2⟩ | ⟨v, h1, h2⟩
    · exact ⟨true, v, by rw [hrun, h1], fun _ => touch_iff.2 h2, by simp⟩
    · exact ⟨false, v, by rw [hrun, h1], by simp, fun _ => hnear (by norm_num) (by norm_num) h2⟩

/-- both searches on a pair placed by a `Vec2`, with an invariant `I` -/
theorem pair_dist_f32 [DefaultMinkowski A B] (cX : Convex ℝ X) (cY : Convex ℝ Y)
    (hA : Supp32 k na a X VA) (hB : Supp32 k nb b Y VB)
    (hr : rel.OnGrid32 k nr) (hn : na + nb + nr ≤ 32) (hna : 0 ≤ na) (hnb : 0 ≤ nb)
    (hk1 : -7 ≤ k) (hk2 : k ≤ 12) (hV : VA.length * VB.length < 21) {P : ℝ → V2 ℝ → Prop}
    (hP : ∀ [FloatExtra ℝ] [ExactFloat ℝ], ∀ d0 q : V2 ℝ, d0 ≠ 0 → (initialDirection rel).Is d0 →
      IsExtreme (minkDiff X (shift rel.toReal Y)) d0 q → (0 : V2 ℝ) ∉ minkDiff X (shift rel.toReal Y) →
      ∃ I : V2 ℝ → V2 ℝ → List (V2 ℝ) → Prop, KeptAny (minkDiff X (shift rel.toReal Y)) I ∧
        I (-q) q [q] ∧ ∀ κ w,
        (ShortestUpTo κ w X (shift rel.toReal Y) ∨ ∃ d p q : V2 ℝ, p ∈ (VA.flatMap fun x => VB.map fun y => x - (y + rel.toReal)) ∧
          q ∈ (VA.flatMap fun x => VB.map fun y => x - (y + rel.toReal)) ∧ w = -p ∧ p ≠ q ∧ d ≠ 0 ∧
          d.dot q = d.dot p ∧ d.dot p ≤ 0 ∧ 0 ≤ p.dot (q - p) ∧
          ∀ x ∈ minkDiff X (shift rel.toReal Y), d.dot x ≤ κ * d.dot p) →
        ((∀ d l pts, I d l pts → EndsOk (minkDiff X (shift rel.toReal Y)) pts) →
          ShortestUpTo κ w X (shift rel.toReal Y)) → P κ w) :
    DistanceExact (distanceToRel a b rel) ((2 : ℝ) ^ (k - 16)) X (shift rel.toReal Y) (P 1) ∧
    SdfvExact (sdfvRel a b rel) ((2 : ℝ) ^ (k - 16)) X (shift rel.toReal Y) (P (49 / 50)) := by
  have hS : SupportNz k (minkDiff X (shift rel.toReal Y))
      (VA.flatMap fun x => VB.map fun y => x - (y + rel.toReal))
      (extremePoint (LocalMinkowskiDiff2d.mk a b rel)) := by
    let _ := realFloat true 0
    have := realFloat_exact true 0
    exact (support32_pair hA hB hr hn hna hk1 hk2).nz
  exact pair_dist_f32_of cX cY hr (by omega) hk1 hk2 hS (fun _ h => h) (by simpa using hV) hP

/-! ## C73 -/

theorem shortestOfEdge32 {t : V2 ℝ} {κ : ℝ} {w : V2 ℝ}
    (h : ∃ d p q : V2 ℝ, p ∈ (VA.flatMap fun x => VB.map fun y => x - (y + t)) ∧
      q ∈ (VA.flatMap fun x => VB.map fun y => x - (y + t)) ∧ w = -p ∧ p ≠ q ∧ d ≠ 0 ∧
      d.dot q = d.dot p ∧ d.dot p ≤ 0 ∧ 0 ≤ p.dot (q - p) ∧
      ∀ x ∈ minkDiff X (shift t Y), d.dot x ≤ κ * d.dot p) :
    ShortestOfEdge32 VA VB t X (shift t Y) κ w := by
  obtain ⟨d, p, q, hp, hq, rfl, hne, hd, e1, h1, h2, h3⟩ := h
  have corner : ∀ {p : V2 ℝ}, p ∈ (VA.flatMap fun x => VB.map fun y => x - (y + t)) →
      CornerVector VA VB t (-p) := by
    intro p hp
    obtain ⟨x, hx, hp⟩ := List.mem_flatMap.1 hp
    obtain ⟨y, hy, rfl⟩ := List.mem_map.1 hp
    exact ⟨x, hx, y, hy, neg_sub _ _⟩
  refine ⟨d, -q, hd, corner hp, corner hq, fun h => hne (neg_injective h).symm, ?_, ?_, ?_, ?_⟩
  · rw [dot_neg, dot_neg, e1]
  · rw [dot_neg]; linarith
  · intro x hx y hy
    have := h3 (x - y) ⟨x, hx, y, hy, rfl⟩
    simp only [dot_sub, dot_neg] at this ⊢
    linarith
  · intro s hs _
    have e : lengthSq (-p + scale s (-q - -p)) =
        lengthSq (-p) + 2 * (s * p.dot (q - p)) + s ^ 2 * lengthSq (q - p) := by
      simp only [lengthSq_def, dot_def, add_x, add_y, scale_x, scale_y, sub_x, sub_y, neg_x, neg_y]
      ring
    have h5 := mul_nonneg hs h2
    have h6 := mul_nonneg (sq_nonneg s) (lengthSq_nonneg (q - p))
    rw [e]; linarith

theorem initial_rel (hr : rel.OnGrid32 k nr) (hn : nr ≤ 32) (hk1 : -7 ≤ k) (hk2 : k ≤ 12)
    (h0 : rel.toReal ≠ 0) : initialDirection rel = rel := by
  have hn0 := hr.gv.1.nonneg
  have hlen : F32.Is rel.lengthSq (rel.toReal.dot rel.toReal) :=
    is_dot hr.is hr.is hr.gv hr.gv (by nlinarith) (by omega) (by omega)
  unfold initialDirection
  rw [if_neg]
  rw [lt_iff hlen is_epsilon, not_lt]
  have hg := gv_dot hr.gv hr.gv
  obtain ⟨n, hn, _⟩ := hg
  have hpos : 0 < rel.toReal.dot rel.toReal := lengthSq_pos.2 h0
  have h1 : 1 ≤ n := by
    by_contra h
    have : (n : ℝ) ≤ 0 := by exact_mod_cast (show n ≤ 0 by omega)
    rw [hn] at hpos
    have := mul_nonpos_of_nonpos_of_nonneg this (two_zpow_pos (k + k)).le
    linarith
  have h2 : (1 : ℝ) ≤ n := by exact_mod_cast h1
  have h3 : (2 : ℝ) ^ (-14 : ℤ) ≤ 2 ^ (k + k) := zpow_le_zpow_right₀ (by norm_num) (by omega)
  have h4 : 1 * (2 : ℝ) ^ (k + k) ≤ n * 2 ^ (k + k) :=
    mul_le_mul_of_nonneg_right h2 (two_zpow_pos _).le
  rw [hn]
  refine le_trans ?_ (h3.trans (by linarith))
  norm_num

/-- Box2d v Box2d on binary32: `distance_to` returns (up to `2^(k-16)`) a shortest vector that brings
the boxes into contact, `sdfv` one of which the shortest is at least 98%. -/
theorem C73_f32_box_box (a b : Box2d F32) (rel : V2 F32) {k na nb nr : ℤ} (ha : a.OnGrid32 k na)
    (hb : b.OnGrid32 k nb) (hr : rel.OnGrid32 k nr) (hn : na + nb + nr ≤ 32) (hk1 : -7 ≤ k)
    (hk2 : k ≤ 12) :
    DistanceExact (distanceToRel a b rel) ((2 : ℝ) ^ (k - 16)) (Region.pts a.toReal)
      (shift rel.toReal (Region.pts b.toReal))
      (fun w => ShortestUpTo 1 w (Region.pts a.toReal) (shift rel.toReal (Region.pts b.toReal))) ∧
    SdfvExact (sdfvRel a b rel) ((2 : ℝ) ^ (k - 16)) (Region.pts a.toReal)
      (shift rel.toReal (Region.pts b.toReal))
      (fun w => ShortestUpTo (49 / 50) w (Region.pts a.toReal)
        (shift rel.toReal (Region.pts b.toReal))) := by
  have h1 := ha.1.1.le
  have h2 := hb.1.1.le
  have h3 := hr.1.le
  have hx := add_nonneg ha.2.1 hb.2.1
  have hy := add_nonneg ha.2.2 hb.2.2
  have hrect := rectSet_boxes a.toReal.halfsize b.toReal.halfsize rel.toReal ha.2 hb.2
  refine pair_dist_f32 (P := fun κ w => ShortestUpTo κ w (Region.pts a.toReal)
      (shift rel.toReal (Region.pts b.toReal))) (convex_box32 _) (convex_box32 _)
    (supp32_box (by omega) hk1 hk2 a ha)
    (supp32_box (by omega) hk1 hk2 b hb) hr hn h1 h2 hk1 hk2 (by simp [boxCorners]) ?_
  intro _ _ d0 q hd0 hd hq h0
  have hr0 : rel.toReal ≠ 0 := by
    intro he
    apply h0
    refine (hrect 0).2 ?_
    rw [he]
    simp only [zero_x, zero_y, add_zero, abs_zero]
    exact ⟨hx, hy⟩
  rw [initial_rel hr (by omega) hk1 hk2 hr0] at hd
  rw [← hd.toReal] at hq
  exact ⟨RectInv _ q, hrect.kept hx hy h0 hq, Or.inl ⟨rfl, rfl, rfl⟩,
    fun κ w _ h => h fun _ _ _ => RectInv.endsOk⟩

/-- any pair of the listed shapes: as in the exact case (`C44_distance_shortest_or_corner`) the
vector is a shortest one, or only the shortest one of the edge at which the search stopped -/
theorem pair_edge_f32 [DefaultMinkowski A B] (cX : Convex ℝ X) (cY : Convex ℝ Y)
    (hA : Supp32 k na a X VA) (hB : Supp32 k nb b Y VB)
    (hr : rel.OnGrid32 k nr) (hn : na + nb + nr ≤ 32) (hna : 0 ≤ na) (hnb : 0 ≤ nb)
    (hk1 : -7 ≤ k) (hk2 : k ≤ 12) (hV : VA.length * VB.length < 21) :
    DistanceExact (distanceToRel a b rel) ((2 : ℝ) ^ (k - 16)) X (shift rel.toReal Y)
      (fun w => ShortestUpTo 1 w X (shift rel.toReal Y) ∨
        ShortestOfEdge32 VA VB rel.toReal X (shift rel.toReal Y) 1 w) ∧
    SdfvExact (sdfvRel a b rel) ((2 : ℝ) ^ (k - 16)) X (shift rel.toReal Y)
      (fun w => ShortestUpTo (49 / 50) w X (shift rel.toReal Y) ∨
        ShortestOfEdge32 VA VB rel.toReal X (shift rel.toReal Y) (49 / 50) w) := by
  refine pair_dist_f32 (P := fun κ w => ShortestUpTo κ w X (shift rel.toReal Y) ∨
        ShortestOfEdge32 VA VB rel.toReal X (shift rel.toReal Y) κ w) cX cY hA hB hr hn hna hnb
    hk1 hk2 hV ?_
  intro _ _ d0 q _ _ _ _
  refine ⟨fun _ _ _ => True, fun _ _ _ _ _ _ _ _ _ _ _ _ _ => trivial, trivial, fun κ w h _ => ?_⟩
  exact h.imp id shortestOfEdge32

/-- Poly2d v Poly2d on binary32 (at most 20 pairs of vertices). -/
theorem C73_f32_poly_poly (a b : Poly2d F32) (rel : V2 F32) {k na nb nr : ℤ} (ha : a.OnGrid32 k na)
    (hb : b.OnGrid32 k nb) (hr : rel.OnGrid32 k nr) (hn : na + nb + nr ≤ 32) (hk1 : -7 ≤ k)
    (hk2 : k ≤ 12) (hV : a.points.length * b.points.length ≤ 20) :
    DistanceExact (distanceToRel a b rel) ((2 : ℝ) ^ (k - 16)) (Region.pts a.toReal)
      (shift rel.toReal (Region.pts b.toReal))
      (fun w => ShortestUpTo 1 w (Region.pts a.toReal) (shift rel.toReal (Region.pts b.toReal)) ∨
        ShortestOfEdge32 (a.points.map V2.toReal) (b.points.map V2.toReal) rel.toReal
          (Region.pts a.toReal) (shift rel.toReal (Region.pts b.toReal)) 1 w) ∧
    SdfvExact (sdfvRel a b rel) ((2 : ℝ) ^ (k - 16)) (Region.pts a.toReal)
      (shift rel.toReal (Region.pts b.toReal))
      (fun w => ShortestUpTo (49 / 50) w (Region.pts a.toReal)
          (shift rel.toReal (Region.pts b.toReal)) ∨
        ShortestOfEdge32 (a.points.map V2.toReal) (b.points.map V2.toReal) rel.toReal
          (Region.pts a.toReal) (shift rel.toReal (Region.pts b.toReal)) (49 / 50) w) := by
  have h1 := ha.le
  have h2 := hb.le
  have h3 := hr.1.le
  exact pair_edge_f32 (convex_convexHull ℝ _) (convex_convexHull ℝ _)
    (supp32_poly (by omega) hk1 hk2 a ha) (supp32_poly (by omega) hk1 hk2 b hb) hr hn h1 h2 hk1 hk2
    (by simpa using Nat.lt_succ_of_le hV)

/-- Box2d v Poly2d on binary32 (polygons of at most five vertices). -/
theorem C73_f32_box_poly (a : Box2d F32) (b : Poly2d F32) (rel : V2 F32) {k na nb nr : ℤ}
    (ha : a.OnGrid32 k na) (hb : b.OnGrid32 k nb) (hr : rel.OnGrid32 k nr)
    (hn : na + nb + nr ≤ 32) (hk1 : -7 ≤ k) (hk2 : k ≤ 12) (hV : b.points.length ≤ 5) :
    DistanceExact (distanceToRel a b rel) ((2 : ℝ) ^ (k - 16)) (Region.pts a.toReal)
      (shift rel.toReal (Region.pts b.toReal))
      (fun w => ShortestUpTo 1 w (Region.pts a.toReal) (shift rel.toReal (Region.pts b.toReal)) ∨
        ShortestOfEdge32 (boxCorners a.halfsize.toReal) (b.points.map V2.toReal) rel.toReal
          (Region.pts a.toReal) (shift rel.toReal (Region.pts b.toReal)) 1 w) ∧
    SdfvExact (sdfvRel a b rel) ((2 : ℝ) ^ (k - 16)) (Region.pts a.toReal)
      (shift rel.toReal (Region.pts b.toReal))
      (fun w => ShortestUpTo (49 / 50) w (Region.pts a.toReal)
          (shift rel.toReal (Region.pts b.toReal)) ∨
        ShortestOfEdge32 (boxCorners a.halfsize.toReal) (b.points.map V2.toReal) rel.toReal
          (Region.pts a.toReal) (shift rel.toReal (Region.pts b.toReal)) (49 / 50) w) := by
  have h1 := ha.1.1.le
  have h2 := hb.le
  have h3 := hr.1.le
  exact pair_edge_f32 (convex_box32 _) (convex_convexHull ℝ _) (supp32_box (by omega) hk1 hk2 a ha)
    (supp32_poly (by omega) hk1 hk2 b hb) hr hn h1 h2 hk1 hk2 (by simp [boxCorners]; omega)

/-- Poly2d v Box2d on binary32 (polygons of at most five vertices). -/
theorem C73_f32_poly_box (a : Poly2d F32) (b : Box2d F32) (rel : V2 F32) {k na nb nr : ℤ}
    (ha : a.OnGrid32 k na) (hb : b.OnGrid32 k nb) (hr : rel.OnGrid32 k nr)
    (hn : na + nb + nr ≤ 32) (hk1 : -7 ≤ k) (hk2 : k ≤ 12) (hV : a.points.length ≤ 5) :
    DistanceExact (distanceToRel a b rel) ((2 : ℝ) ^ (k - 16)) (Region.pts a.toReal)
      (shift rel.toReal (Region.pts b.toReal))
      (fun w => ShortestUpTo 1 w (Region.pts a.toReal) (shift rel.toReal (Region.pts b.toReal)) ∨
        ShortestOfEdge32 (a.points.map V2.toReal) (boxCorners b.halfsize.toReal) rel.toReal
          (Region.pts a.toReal) (shift rel.toReal (Region.pts b.toReal)) 1 w) ∧
    SdfvExact (sdfvRel a b rel) ((2 : ℝ) ^ (k - 16)) (Region.pts a.toReal)
      (shift rel.toReal (Region.pts b.toReal))
      (fun w => ShortestUpTo (49 / 50) w (Region.pts a.toReal)
          (shift rel.toReal (Region.pts b.toReal)) ∨
        ShortestOfEdge32 (a.points.map V2.toReal) (boxCorners b.halfsize.toReal) rel.toReal
          (Region.pts a.toReal) (shift rel.toReal (Region.pts b.toReal)) (49 / 50) w) := by
  have h1 := ha.le
  have h2 := hb.1.1.le
  have h3 := hr.1.le
  exact pair_edge_f32 (convex_convexHull ℝ _) (convex_box32 _) (supp32_poly (by omega) hk1 hk2 a ha)
    (supp32_box (by omega) hk1 hk2 b hb) hr hn h1 h2 hk1 hk2 (by simp [boxCorners]; omega)

/-- the vertices of a binary32 box or polygon -/
noncomputable def Shape2d.corners32 : Shape2d F32 → List (V2 ℝ)
  | .ball _ => []
  | .box b => boxCorners b.halfsize.toReal
  | .poly p => p.points.map V2.toReal

theorem supp32_shape_corners {k B : ℤ} (hB : B ≤ 32) (hk1 : -7 ≤ k) (hk2 : k ≤ 12) (s : Shape2d F32)
    (hs : s.OnGrid32 k B) : 0 ≤ B ∧ Convex ℝ (Region.pts s.toReal) ∧ s.corners32.length ≤ 4 ∧
      Supp32 k B s (Region.pts s.toReal) s.corners32 := by
  cases s with
  | ball b => exact hs.elim
  | box b => exact ⟨F32.OnGrid.le hs.1.1, convex_box32 _,
      by simp [boxCorners, Shape2d.corners32], supp32_box hB hk1 hk2 b hs⟩
  | poly p => exact ⟨hs.1.le, convex_convexHull ℝ _,
      by simpa [Shape2d.corners32] using hs.2, supp32_poly hB hk1 hk2 p hs.1⟩

/-- Shape2d v Shape2d (boxes, triangles, quadrilaterals) on binary32. -/
theorem C73_f32_shape_shape (a b : Shape2d F32) (rel : V2 F32) {k na nb nr : ℤ}
    (ha : a.OnGrid32 k na) (hb : b.OnGrid32 k nb) (hr : rel.OnGrid32 k nr)
    (hn : na + nb + nr ≤ 32) (hna : na ≤ 32) (hnb : nb ≤ 32) (hk1 : -7 ≤ k) (hk2 : k ≤ 12) :
    DistanceExact (distanceToRel a b rel) ((2 : ℝ) ^ (k - 16)) (Region.pts a.toReal)
      (shift rel.toReal (Region.pts b.toReal))
      (fun w => ShortestUpTo 1 w (Region.pts a.toReal) (shift rel.toReal (Region.pts b.toReal)) ∨
        ShortestOfEdge32 a.corners32 b.corners32 rel.toReal
          (Region.pts a.toReal) (shift rel.toReal (Region.pts b.toReal)) 1 w) ∧
    SdfvExact (sdfvRel a b rel) ((2 : ℝ) ^ (k - 16)) (Region.pts a.toReal)
      (shift rel.toReal (Region.pts b.toReal))
      (fun w => ShortestUpTo (49 / 50) w (Region.pts a.toReal)
          (shift rel.toReal (Region.pts b.toReal)) ∨
        ShortestOfEdge32 a.corners32 b.corners32 rel.toReal
          (Region.pts a.toReal) (shift rel.toReal (Region.pts b.toReal)) (49 / 50) w) := by
  obtain ⟨h1, c1, l1, s1⟩ := supp32_shape_corners hna hk1 hk2 a ha
  obtain ⟨h2, c2, l2, s2⟩ := supp32_shape_corners hnb hk1 hk2 b hb
  exact pair_edge_f32 c1 c2 s1 s2 hr hn h1 h2 hk1 hk2 (by nlinarith)

/-! ### through colliders -/

theorem touch_world (p q u : V2 ℝ) (X Y : Set (V2 ℝ)) :
    Touch (shift u X) (shift (q + -p) Y) ↔ Touch (shift u (shift p X)) (shift q Y) := by
  constructor
  · rintro ⟨_, ⟨x, hx, rfl⟩, y, hy, e⟩
    refine ⟨x + p + u, ⟨_, ⟨x, hx, rfl⟩, rfl⟩, y, hy, ?_⟩
    have : x + u + p = y + (q + -p) + p := by rw [e]
    calc x + p + u = x + u + p := by abel
      _ = y + q := by rw [this]; abel
  · rintro ⟨_, ⟨_, ⟨x, hx, rfl⟩, rfl⟩, y, hy, e⟩
    refine ⟨x + u, ⟨x, hx, rfl⟩, y, hy, ?_⟩
    calc x + u = x + p + u + -p := by abel
      _ = y + (q + -p) := by rw [e]; abel

theorem touch_world' (p q : V2 ℝ) (X Y : Set (V2 ℝ)) :
    Touch X (shift (q + -p) Y) ↔ Touch (shift p X) (shift q Y) := by
  have z : ∀ Z : Set (V2 ℝ), shift 0 Z = Z := by
    intro Z
    ext x
    constructor
    · rintro ⟨y, hy, rfl⟩; rwa [add_zero]
    · exact fun h => ⟨x, h, (add_zero x).symm⟩
  have := touch_world p q 0 X Y
  rwa [z, z] at this

theorem shortest_world {p q : V2 ℝ} {X Y : Set (V2 ℝ)} {κ : ℝ} {w : V2 ℝ} :
    ShortestUpTo κ w X (shift (q + -p) Y) ↔ ShortestUpTo κ w (shift p X) (shift q Y) :=
  ⟨fun h u hu => h u ((touch_world p q u X Y).2 hu), fun h u hu => h u ((touch_world p q u X Y).1 hu)⟩

theorem separable_world {p q : V2 ℝ} {X Y : Set (V2 ℝ)} (h : Separable X (shift (q + -p) Y)) :
    Separable (shift p X) (shift q Y) := by
  obtain ⟨n, hn, h⟩ := h
  refine ⟨n, hn, ?_⟩
  rintro _ ⟨x, hx, rfl⟩ _ ⟨y, hy, rfl⟩
  have := h x hx _ ⟨y, hy, rfl⟩
  simp only [dot_add, dot_neg] at this ⊢
  linarith

/-- The same through colliders placed by `Vec2` or `Translate2d`, in world space. -/
theorem C73_f32_colliders (a b : Box2d F32) (p q : V2 F32) {k na nb np nq : ℤ}
    (ha : a.OnGrid32 k na) (hb : b.OnGrid32 k nb) (hp : p.OnGrid32 k np) (hq : q.OnGrid32 k nq)
    (hn : na + nb + np + nq ≤ 32) (hk1 : -7 ≤ k) (hk2 : k ≤ 12) (X Y : Set (V2 ℝ))
    (hX : X = shift p.toReal (Region.pts a.toReal)) (hY : Y = shift q.toReal (Region.pts b.toReal)) :
    DistanceExact (distanceTo ⟨a, p⟩ ⟨b, q⟩) ((2 : ℝ) ^ (k - 16)) X Y
      (fun w => ShortestUpTo 1 w X Y) ∧
    DistanceExact (distanceTo ⟨a, Translate2d.mk p⟩ ⟨b, Translate2d.mk q⟩) ((2 : ℝ) ^ (k - 16)) X Y
      (fun w => ShortestUpTo 1 w X Y) ∧
    SdfvExact (sdfv ⟨a, p⟩ ⟨b, q⟩) ((2 : ℝ) ^ (k - 16)) X Y
      (fun w => ShortestUpTo (49 / 50) w X Y) ∧
    SdfvExact (sdfv ⟨a, Translate2d.mk p⟩ ⟨b, Translate2d.mk q⟩) ((2 : ℝ) ^ (k - 16)) X Y
      (fun w => ShortestUpTo (49 / 50) w X Y) := by
  have h1 := ha.1.1.le
  have h2 := hb.1.1.le
  have h3 := hp.1.le
  have h4 := hq.1.le
  have hd : (q + -p).Is (q.toReal + -p.toReal) :=
    hq.is.add hp.is.neg (hq.gv.add hp.gv.neg) (by omega) (by omega) (by omega)
  have hg := hd.onGrid (hq.gv.add hp.gv.neg)
  obtain ⟨k1, k2⟩ := C73_f32_box_box a b (q + -p) ha hb hg (by omega) hk1 hk2
  rw [hd.toReal] at k1 k2
  have near : ∀ {κ : ℝ} {v : V2 F32}, NearContact ((2 : ℝ) ^ (k - 16)) v (Region.pts a.toReal)
      (shift (q.toReal + -p.toReal) (Region.pts b.toReal)) (fun w => ShortestUpTo κ w
        (Region.pts a.toReal) (shift (q.toReal + -p.toReal) (Region.pts b.toReal))) →
      NearContact ((2 : ℝ) ^ (k - 16)) v X Y (fun w => ShortestUpTo κ w X Y) := by
    rintro κ v ⟨x, w, e1, e2, e3, e4⟩
    rw [hX, hY]
    exact ⟨x, w, e1, e2, (touch_world _ _ _ _ _).1 e3, fun ht => shortest_world.1
      (e4 fun h => ht ((touch_world' _ _ _ _).1 h))⟩
  have c1 : DistanceExact (distanceToRel a b (q + -p)) ((2 : ℝ) ^ (k - 16)) X Y
      (fun w => ShortestUpTo 1 w X Y) := by
    obtain ⟨o, e1, e2, e3⟩ := k1
    refine ⟨o, e1, fun h => ?_, fun v h => ⟨?_, near (e3 v h).2⟩⟩
    · rw [hX, hY]; exact (touch_world' _ _ _ _).1 (e2 h)
    · rw [hX, hY]; exact separable_world (e3 v h).1
  have c2 : SdfvExact (sdfvRel a b (q + -p)) ((2 : ℝ) ^ (k - 16)) X Y
      (fun w => ShortestUpTo (49 / 50) w X Y) := by
    obtain ⟨c, v, e1, e2, e3⟩ := k2
    refine ⟨c, v, e1, fun h => ?_, fun h => ⟨?_, near (e3 h).2⟩⟩
    · rw [hX, hY]; exact (touch_world' _ _ _ _).1 (e2 h)
    · rw [hX, hY]; exact separable_world (e3 h).1
  have id1 : ∀ r : Except Panic (Bool × V2 F32), r.map (fun r => (r.1, r.2)) = r := by
    intro r; cases r <;> rfl
  have c3 : SdfvExact ((sdfvRel a b (q + -p)).map fun r => (r.1, r.2)) ((2 : ℝ) ^ (k - 16)) X Y
      (fun w => ShortestUpTo (49 / 50) w X Y) := by rw [id1]; exact c2
  exact ⟨c1, c1, c3, c3⟩

/-- a concrete case: two 2×2 boxes, the second moved by (5/2, 0), on the grid of step 1/2: both
functions report that the boxes are apart -/
example : ∃ (a : Box2d F32) (s : V2 F32), a.OnGrid32 (-1) 2 ∧ s.OnGrid32 (-1) 5 ∧
    a.toReal = ⟨⟨1, 1⟩⟩ ∧ s.toReal = ⟨5 / 2, 0⟩ ∧ ∃ v x : V2 _, ∃ w : V2 ℝ,
      distanceToRel a a s = .ok (some v) ∧ v.Is x ∧ V2.Within ((2 : ℝ) ^ (-17 : ℤ)) x w ∧
      Touch (shift w (Region.pts a.toReal)) (shift s.toReal (Region.pts a.toReal)) ∧
      lengthSq w ≤ 1 / 4 := by
  have mk : ∀ n : ℤ, |n| ≤ 5 → F32.Is (ofReal false ((n : ℝ) * 2 ^ (-1 : ℤ))) (n * 2 ^ (-1 : ℤ)) :=
    fun n hn => is_ofReal (representable_scaled n (-1) (by omega) (by norm_num) (by norm_num))
  let f : ℤ → F32 := fun n => ofReal false ((n : ℝ) * 2 ^ (-1 : ℤ))
  have hf : ∀ n : ℤ, |n| ≤ 5 → (f n).OnGrid (-1) |n| := fun n hn =>
    F32.Is.onGrid (mk n hn) ⟨n, rfl, le_refl _⟩
  have hv : ∀ n : ℤ, |n| ≤ 5 → (f n).toReal = n / 2 := fun n hn => by
    rw [F32.Is.toReal (mk n hn)]; norm_num; ring
  have v2 := hv 2 (by norm_num)
  have v5 := hv 5 (by norm_num)
  have v0 := hv 0 (by norm_num)
  have ga : (⟨⟨f 2, f 2⟩⟩ : Box2d F32).OnGrid32 (-1) 2 :=
    ⟨⟨hf 2 (by norm_num), hf 2 (by norm_num)⟩, by simp only [v2]; norm_num, by simp only [v2]; norm_num⟩
  have gs : (⟨f 5, f 0⟩ : V2 F32).OnGrid32 (-1) 5 := by
    refine ⟨hf 5 (by norm_num), ?_⟩
    obtain ⟨h1, n, h2, h3⟩ := hf 0 (by norm_num)
    exact ⟨h1, n, h2, h3.trans (by norm_num)⟩
  have ea : (⟨⟨f 2, f 2⟩⟩ : Box2d F32).toReal = ⟨⟨1, 1⟩⟩ := by
    simp only [Box2d.toReal, V2.toReal, v2]; norm_num
  have es : (⟨f 5, f 0⟩ : V2 F32).toReal = ⟨5 / 2, 0⟩ := by
    simp only [V2.toReal, v5, v0]; norm_num
  have k2 := (C73_f32_box_box _ _ _ ga ga gs (by norm_num) (by norm_num) (by norm_num)).1.determined.2
  rw [ea, es] at k2
  obtain ⟨v, x, w, h1, h2, h3, h4, h5⟩ := k2 (by
    rintro ⟨x, ⟨h1, _⟩, y, ⟨h2, _⟩, rfl⟩
    have h1 : |y.x + 5 / 2| ≤ 1 := h1
    have h2 : |y.x| ≤ 1 := h2
    rw [abs_le] at h1 h2
    linarith [h1.2, h2.1])
  refine ⟨_, _, ga, gs, ea, es, v, x, w, h1, h2, by simpa using h3, by rw [ea, es]; exact h4, ?_⟩
  have := h5 ⟨1 / 2, 0⟩ ⟨⟨3 / 2, 0⟩, ⟨⟨1, 0⟩, ⟨by simp, by simp⟩, by ext <;> norm_num⟩,
    ⟨-1, 0⟩, ⟨by simp, by simp⟩, by ext <;> norm_num⟩
  have e : lengthSq (⟨1 / 2, 0⟩ : V2 ℝ) = 1 / 4 := by rw [lengthSq_def]; norm_num
  rw [e] at this
  linarith

end
end Auburn
