import Verif.Model.Vec
import Verif.Lib.V2
import Mathlib.Data.List.Sort
import Mathlib.Data.Prod.Lex
import Mathlib.Data.Finset.Sum

/-!
# Counting the values of two direction functions around the circle

A *fan* is a function of a direction whose fibres are convex cones, and that has the same value in
opposite directions only if it has it on one side of them (like the vertex of a polygon that is farthest in a direction).  Going once around the
circle, every value of a fan is left only once.  So a pair of fans with `n` and `m` values takes at most
`n + m` different pairs of values (and not `n * m`).
-/

set_option linter.unusedSectionVars false

namespace Auburn

open V2

section
variable {K : Type} [Field K] [LinearOrder K] [IsStrictOrderedRing K]

/-- twice the signed area: positive if `b` is to the left of `a` -/
def Fan.cr (a b : V2 K) : K := a.x * b.y - a.y * b.x

/-- cones as fibres; a value in two opposite directions is taken in all directions on one side of them -/
structure Fan {α : Type} (f : V2 K → α) : Prop where
  cone : ∀ d e : V2 K, ∀ s t : K, d ≠ 0 → e ≠ 0 → 0 < s → 0 < t → f d = f e →
    f (V2.scale s d + V2.scale t e) = f d
  opp : ∀ d : V2 K, d ≠ 0 → f (-d) = f d →
    (∀ e, 0 < Fan.cr d e → f e = f d) ∨ (∀ e, Fan.cr d e < 0 → f e = f d)

namespace Fan

/-- the upper half plane with the positive half axis -/
def Up (d : V2 K) : Prop := 0 < d.y ∨ d.y = 0 ∧ 0 < d.x

theorem up_neg {d : V2 K} (h : d ≠ 0) (hu : ¬ Up d) : Up (-d) := by
  unfold Up at *
  push Not at hu
  obtain ⟨h1, h2⟩ := hu
  rcases lt_or_eq_of_le h1 with h3 | h3
  · left; simpa using h3
  · right
    refine ⟨by simp [h3], ?_⟩
    have h4 := h2 h3
    rcases lt_or_eq_of_le h4 with h5 | h5
    · simpa using h5
    · exact absurd (V2.ext h5 h3) h

/-- the order of directions counted from the positive first axis, counterclockwise -/
def Before (d e : V2 K) : Prop := (Up d ∧ ¬ Up e) ∨ ((Up d ↔ Up e) ∧ 0 < cr d e)

theorem up_trans {d e g : V2 K} (hd : Up d) (he : Up e) (hg : Up g) (h1 : 0 < cr d e)
    (h2 : 0 < cr e g) : 0 < cr d g := by
  unfold Up at hd he hg
  unfold cr at *
  have hd0 : 0 ≤ d.y := by rcases hd with h | h; exacts [h.le, h.1.ge]
  have hg0 : 0 ≤ g.y := by rcases hg with h | h; exacts [h.le, h.1.ge]
  rcases he with he | ⟨he, hx⟩
  · have id : (d.x * g.y - d.y * g.x) * e.y =
        (d.x * e.y - d.y * e.x) * g.y + (e.x * g.y - e.y * g.x) * d.y := by ring
    have : 0 < (d.x * g.y - d.y * g.x) * e.y := by
      rw [id]
      rcases hg with hg | ⟨hg, hgx⟩
      · have := mul_pos h1 hg
        have := mul_nonneg h2.le hd0
        linarith
      · rw [hg] at h2
        have := mul_pos he hgx
        linarith
    exact pos_of_mul_pos_left this he.le
  · rw [he] at h1
    have := mul_nonneg hd0 hx.le
    linarith

theorem cr_neg_left (a b : V2 K) : cr (-a) b = - cr a b := by simp [cr]; ring
theorem cr_neg_right (a b : V2 K) : cr a (-b) = - cr a b := by simp [cr]; ring
theorem cr_swap (a b : V2 K) : cr a b = - cr b a := by simp [cr]; ring

theorem between_pos {d e g : V2 K} (he0 : e ≠ 0) (hg0 : g ≠ 0)
    (h1 : Before d e) (h2 : Before e g) (h : 0 < cr d g) : 0 < cr d e ∧ 0 < cr e g := by
  rcases h1 with ⟨hd, he⟩ | ⟨hde, h1⟩
  · rcases h2 with ⟨he', hg⟩ | ⟨heg, h2⟩
    · exact absurd he' he
    · have he' := up_neg he0 he
      have hg' := up_neg hg0 (fun hg => he (heg.2 hg))
      refine ⟨?_, h2⟩
      have := up_trans he' hg' hd (by rw [cr_neg_left, cr_neg_right]; simpa using h2)
        (by rw [cr_neg_left, cr_swap]; simpa using h)
      rw [cr_neg_left, cr_swap] at this
      simpa using this
  · rcases h2 with ⟨he, hg⟩ | ⟨heg, h2⟩
    · refine ⟨h1, ?_⟩
      have hg' := up_neg hg0 hg
      have := up_trans hg' (hde.2 he) he (by rw [cr_neg_left, cr_swap]; simpa using h) h1
      rw [cr_neg_left, cr_swap] at this
      simpa using this
    · exact ⟨h1, h2⟩

theorem between_neg {d e g : V2 K} (he0 : e ≠ 0) (hg0 : g ≠ 0)
    (h1 : Before d g) (h2 : Before g e ∨ Before e d) (h : cr d g < 0) :
    0 < cr g e ∧ 0 < cr e d := by
  rcases h1 with ⟨hd, hg⟩ | ⟨-, h1⟩
  swap
  · exact absurd h (not_lt.2 h1.le)
  have hg' := up_neg hg0 hg
  have h3 : 0 < cr d (-g) := by rw [cr_neg_right]; linarith
  rcases h2 with (⟨h2, -⟩ | ⟨h2, h4⟩) | (⟨-, h2⟩ | ⟨h2, h4⟩)
  · exact absurd h2 hg
  · refine ⟨h4, ?_⟩
    have he' := up_neg he0 (fun he => hg (h2.2 he))
    have := up_trans hd hg' he' h3 (by rw [cr_neg_left, cr_neg_right]; simpa using h4)
    rw [cr_neg_right, cr_swap] at this
    simpa using this
  · exact absurd hd h2
  · refine ⟨?_, h4⟩
    have := up_trans (h2.2 hd) hd hg' h4 h3
    rw [cr_neg_right, cr_swap] at this
    simpa using this

open Classical in
/-- a sorting key for directions -/
noncomputable def key (d : V2 K) : ℕ ×ₗ K :=
  toLex (if Up d then (if d.y = 0 then 0 else 1) else (if d.y = 0 then 2 else 3), -d.x / d.y)

theorem slope_lt {a b c d : K} (hb : 0 < b * d) : -a / b < -c / d ↔ 0 < a * d - b * c := by
  have hb0 : b ≠ 0 := by rintro rfl; simp at hb
  have hd0 : d ≠ 0 := by rintro rfl; simp at hb
  have e : -c / d - -a / b = (a * d - b * c) / (b * d) := by field_simp; ring
  rw [← sub_pos, e, div_pos_iff_of_pos_right hb]

theorem before_of_key {d e : V2 K} (hd0 : d ≠ 0) (h : key d < key e) : Before d e := by
  unfold key at h
  rw [Prod.Lex.toLex_lt_toLex] at h
  unfold Before
  by_cases hd : Up d <;> by_cases he : Up e
  · right
    refine ⟨by simp [hd, he], ?_⟩
    simp only [hd, he, if_true] at h
    have hd' := hd
    have he' := he
    unfold Up at hd' he'
    by_cases hy : d.y = 0 <;> by_cases hy' : e.y = 0
    · simp [hy, hy'] at h
    · have h1 : 0 < d.x := by rcases hd' with h | h; exacts [absurd hy h.ne', h.2]
      have h2 : 0 < e.y := by rcases he' with h | h; exacts [h, absurd h.1 hy']
      unfold cr; rw [hy]; have := mul_pos h1 h2; linarith
    · simp [hy, hy'] at h
    · have h1 : 0 < d.y := by rcases hd' with h | h; exacts [h, absurd h.1 hy]
      have h2 : 0 < e.y := by rcases he' with h | h; exacts [h, absurd h.1 hy']
      simp only [hy, hy', if_false, lt_irrefl, false_or, true_and] at h
      exact (slope_lt (mul_pos h1 h2)).1 h
  · exact Or.inl ⟨hd, he⟩
  · simp only [hd, he, if_true, if_false] at h
    split_ifs at h <;> simp at h
  · right
    refine ⟨by simp [hd, he], ?_⟩
    simp only [hd, he, if_false] at h
    unfold Up at hd he
    push Not at hd he
    by_cases hy : d.y = 0 <;> by_cases hy' : e.y = 0
    · simp [hy, hy'] at h
    · have h2 : e.y < 0 := lt_of_le_of_ne he.1 hy'
      have h1 : d.x ≤ 0 := hd.2 hy
      rcases lt_or_eq_of_le h1 with h1 | h1
      · unfold cr; rw [hy]; have := mul_pos_of_neg_of_neg h1 h2; linarith
      · exact absurd (V2.ext h1 hy) hd0
    · simp [hy, hy'] at h
    · have h1 : d.y < 0 := lt_of_le_of_ne hd.1 hy
      have h2 : e.y < 0 := lt_of_le_of_ne he.1 hy'
      simp only [hy, hy', if_false, lt_irrefl, false_or, true_and] at h
      exact (slope_lt (mul_pos_of_neg_of_neg h1 h2)).1 h

theorem parallel_of_key {d e : V2 K} (hd0 : d ≠ 0) (he0 : e ≠ 0) (h : key d = key e) :
    ∃ c : K, 0 < c ∧ e = V2.scale c d := by
  unfold key at h
  rw [toLex_inj, Prod.mk.injEq] at h
  obtain ⟨h1, h2⟩ := h
  have hy : (d.y = 0 ↔ e.y = 0) ∧ (Up d ↔ Up e) := by
    split_ifs at h1 <;> simp_all
  obtain ⟨hy, hu⟩ := hy
  by_cases h0 : d.y = 0
  · have h0' := hy.1 h0
    have hdx : d.x ≠ 0 := fun h => hd0 (V2.ext h h0)
    have hex : e.x ≠ 0 := fun h => he0 (V2.ext h h0')
    refine ⟨e.x / d.x, ?_, ?_⟩
    · unfold Up at hu
      simp only [h0, h0', lt_irrefl, false_or, true_and] at hu
      by_cases hp : 0 < d.x
      · exact div_pos (hu.1 hp) hp
      · have h3 : d.x < 0 := lt_of_le_of_ne (not_lt.1 hp) hdx
        have h4 : e.x < 0 := lt_of_le_of_ne (not_lt.1 fun h => hp (hu.2 h)) hex
        exact div_pos_of_neg_of_neg h4 h3
    · ext
      · simp only [V2.scale_x]; field_simp
      · simp only [V2.scale_y, h0, h0', mul_zero]
  · have h0' : e.y ≠ 0 := fun h => h0 (hy.2 h)
    refine ⟨e.y / d.y, ?_, ?_⟩
    · unfold Up at hu
      simp only [h0, h0', false_and, or_false] at hu
      by_cases hp : 0 < d.y
      · exact div_pos (hu.1 hp) hp
      · have h3 : d.y < 0 := lt_of_le_of_ne (not_lt.1 hp) h0
        have h4 : e.y < 0 := lt_of_le_of_ne (not_lt.1 fun h => hp (hu.2 h)) h0'
        exact div_pos_of_neg_of_neg h4 h3
    · have h3 : d.x * e.y = e.x * d.y := by
        rw [div_eq_div_iff h0 h0'] at h2
        linarith
      ext
      · simp only [V2.scale_x]; field_simp; linarith
      · simp only [V2.scale_y]; field_simp

variable {α : Type} {f : V2 K → α}

theorem scale_eq (hf : Fan f) {d : V2 K} (hd : d ≠ 0) {c : K} (hc : 0 < c) :
    f (V2.scale c d) = f d := by
  have := hf.cone d d (c / 2) (c / 2) hd hd (by positivity) (by positivity) rfl
  have e : V2.scale (c / 2) d + V2.scale (c / 2) d = V2.scale c d := by ext <;> simp <;> ring
  rwa [e] at this

/-- a fan takes the value of `d` and `g` everywhere in the smaller angle between them -/
theorem cone_eq (hf : Fan f) {d e g : V2 K} (hd : d ≠ 0) (hg : g ≠ 0) (h : f d = f g)
    (h1 : 0 < cr d e) (h2 : 0 < cr e g) (h3 : 0 < cr d g) : f e = f d := by
  have := hf.cone d g (cr e g / cr d g) (cr d e / cr d g) hd hg (by positivity) (by positivity) h
  have e' : V2.scale (cr e g / cr d g) d + V2.scale (cr d e / cr d g) g = e := by
    have : cr d g ≠ 0 := h3.ne'
    ext <;> simp <;> field_simp <;> simp only [cr] <;> ring
  rwa [e'] at this

/-- Going once around the circle a value is left only once: if `d`, `e`, `g`, `k` follow each other
around the circle, and `d` and `g` have the same value, then one of `e` and `k` has it too. -/
theorem left_once (hf : Fan f) {d e g k : V2 K} (hd : d ≠ 0) (he : e ≠ 0) (hg : g ≠ 0) (hk : k ≠ 0)
    (h1 : key d < key e) (h2 : key e < key g) (h3 : key g < key k ∨ key k < key d)
    (h : f d = f g) : f e = f d ∨ f k = f d := by
  have b1 := before_of_key hd h1
  have b2 := before_of_key he h2
  have b3 := before_of_key hd (h1.trans h2)
  rcases lt_trichotomy (cr d g) 0 with hc | hc | hc
  · obtain ⟨h4, h5⟩ := between_neg hk hg b3 (h3.imp (before_of_key hg) (before_of_key hk)) hc
    right
    have := hf.cone_eq hg hd h.symm h4 h5 (by rw [cr_swap]; linarith)
    rw [this, h]
  · rcases b3 with ⟨hu, hn⟩ | ⟨-, h4⟩
    swap
    · exact absurd hc h4.ne'
    -- `g` is opposite to `d`
    have hn' := up_neg hg hn
    have hopp : ∃ c : K, 0 < c ∧ -g = V2.scale c d := by
      unfold Up at hu hn'
      unfold cr at hc
      rcases hu with hu | ⟨hu, hx⟩
      · have hgy : 0 < -g.y := by
          rcases hn' with h | ⟨h, hgx⟩
          · simpa using h
          · exfalso
            simp only [V2.neg_x, V2.neg_y] at h hgx
            have : g.y = 0 := by linarith
            rw [this] at hc
            have := mul_pos hu hgx
            linarith
        refine ⟨-g.y / d.y, div_pos hgy hu, ?_⟩
        ext
        · simp only [V2.scale_x, V2.neg_x]; field_simp; linarith
        · simp only [V2.scale_y, V2.neg_y]; field_simp
      · have hgy : g.y = 0 := by
          rw [hu] at hc
          have : d.x * g.y = 0 := by linarith
          exact (mul_eq_zero.1 this).resolve_left hx.ne'
        have hgx : 0 < -g.x := by
          rcases hn' with h | ⟨_, h⟩
          · simp [hgy] at h
          · simpa using h
        refine ⟨-g.x / d.x, div_pos hgx hx, ?_⟩
        ext
        · simp only [V2.scale_x, V2.neg_x]; field_simp
        · simp [hgy, hu]
    obtain ⟨c, hc0, e'⟩ := hopp
    have h6 := hf.scale_eq hd hc0
    rw [← e'] at h6
    have hng : -g ≠ 0 := neg_ne_zero.2 hg
    have h7 : f g = f (-d) := by
      have h8 := hf.scale_eq (neg_ne_zero.2 hd) hc0
      have e9 : V2.scale c (-d) = g := by
        have : V2.scale c (-d) = -V2.scale c d := by ext <;> simp
        rw [this, ← e', neg_neg]
      rw [e9] at h8
      exact h8
    have crg : ∀ x : V2 K, cr g x = -(c * cr d x) := by
      intro x
      have : cr (-g) x = c * cr d x := by rw [e']; simp [cr]; ring
      rw [cr_neg_left] at this
      linarith
    have he1 : 0 < cr d e := by
      rcases b1 with ⟨-, hne⟩ | ⟨-, h9⟩
      · rcases b2 with ⟨hue, -⟩ | ⟨-, h9⟩
        · exact absurd hue hne
        · rw [cr_swap, crg, neg_neg] at h9
          exact pos_of_mul_pos_right h9 hc0.le
      · exact h9
    have hk1 : cr d k < 0 := by
      rcases h3.imp (before_of_key hg) (before_of_key hk) with (⟨hug, -⟩ | ⟨-, h9⟩) | (⟨-, hud⟩ | ⟨-, h9⟩)
      · exact absurd hug hn
      · rw [crg] at h9
        have h10 : c * cr d k < 0 := by linarith
        by_contra hcon
        have := mul_nonneg hc0.le (not_lt.1 hcon)
        linarith
      · exact absurd hu hud
      · rw [cr_swap] at h9; linarith
    rcases hf.opp d hd (h7.symm.trans h.symm) with h8 | h8
    · exact Or.inl (h8 e he1)
    · exact Or.inr (h8 k hk1)
  · obtain ⟨h4, h5⟩ := between_pos he hg b1 b2 hc
    exact Or.inl (hf.cone_eq hd hg h h4 h5 hc)

variable {β : Type} {g : V2 K → β}

open Classical in
/-- directions with pairwise different pairs of values: at most `n + m` of them -/
theorem count (hf : Fan f) (hg : Fan g) {la : List α} {lb : List β} (hla : ∀ d, f d ∈ la)
    (hlb : ∀ d, g d ∈ lb) (D : List (V2 K)) (hD0 : ∀ d ∈ D, d ≠ 0)
    (hD : D.Pairwise fun d e => (f d, g d) ≠ (f e, g e)) : D.length ≤ la.length + lb.length := by
  -- sort the directions
  set E := D.insertionSort (fun a b => key a ≤ key b) with hE
  have hperm : E.Perm D := List.perm_insertionSort _ _
  have : Std.Total (fun a b : V2 K => key a ≤ key b) := ⟨fun a b => le_total _ _⟩
  have : IsTrans (V2 K) (fun a b : V2 K => key a ≤ key b) := ⟨fun a b c => le_trans⟩
  have hs : E.Pairwise (fun a b => key a ≤ key b) := List.pairwise_insertionSort _ _
  have hE0 : ∀ d ∈ E, d ≠ 0 := fun d hd => hD0 d (hperm.mem_iff.1 hd)
  have hE' : E.Pairwise fun d e => (f d, g d) ≠ (f e, g e) :=
    (hperm.pairwise_iff (fun h => h.symm)).2 hD
  rw [← hperm.length_eq]
  clear_value E
  clear hE hperm hD hD0 D
  have hlt : ∀ i j, ∀ hi : i < E.length, ∀ hj : j < E.length, i < j → key E[i] < key E[j] := by
    intro i j hi hj hij
    refine lt_of_le_of_ne (List.pairwise_iff_getElem.1 hs i j hi hj hij) fun h => ?_
    have h0 := hE0 _ (List.getElem_mem hi)
    obtain ⟨c, hc, e⟩ := parallel_of_key h0 (hE0 _ (List.getElem_mem hj)) h
    refine List.pairwise_iff_getElem.1 hE' i j hi hj hij ?_
    rw [e, hf.scale_eq h0 hc, hg.scale_eq h0 hc]
  -- the next direction
  by_cases hk : E.length ≤ 1
  · have h1 : 0 < la.length := List.length_pos_of_mem (hla 0)
    omega
  push Not at hk
  let nx : Fin E.length → Fin E.length := fun i =>
    if h : i.1 + 1 < E.length then ⟨i.1 + 1, h⟩ else ⟨0, by omega⟩
  have nx_ne : ∀ i, nx i ≠ i := by
    intro i h
    have := congrArg Fin.val h
    simp only [nx] at this
    split_ifs at this with h1
    · simp at this
    · simp at this; omega
  -- what is left
  let lv : Fin E.length → α ⊕ β := fun i =>
    if f E[i] ≠ f E[nx i] then Sum.inl (f E[i]) else Sum.inr (g E[i])
  have hlv : ∀ i, (lv i = Sum.inl (f E[i]) ∧ f E[i] ≠ f E[nx i]) ∨
      (lv i = Sum.inr (g E[i]) ∧ g E[i] ≠ g E[nx i]) := by
    intro i
    by_cases h : f E[i] ≠ f E[nx i]
    · exact Or.inl ⟨if_pos h, h⟩
    · refine Or.inr ⟨if_neg h, fun h' => ?_⟩
      push Not at h
      rcases lt_or_gt_of_ne (fun h => nx_ne i (Fin.ext h) : (nx i).1 ≠ i.1) with h1 | h1
      · exact List.pairwise_iff_getElem.1 hE' (nx i).1 i.1 (nx i).2 i.2 h1
          (by simp only [Prod.mk.injEq]; exact ⟨h.symm, h'.symm⟩)
      · exact List.pairwise_iff_getElem.1 hE' i.1 (nx i).1 i.2 (nx i).2 h1
          (by simp only [Prod.mk.injEq]; exact ⟨h, h'⟩)
  have once : ∀ {γ : Type} {F : V2 K → γ} (_ : Fan F) (i j : Fin E.length), i < j →
      F E[i] = F E[j] → F E[i] ≠ F E[nx i] → F E[j] ≠ F E[nx j] → False := by
    intro γ F hF i j hij hv hi hj
    have hij' : i.1 < j.1 := hij
    have hni : (nx i).1 = i.1 + 1 := by simp only [nx]; rw [dif_pos (by have := j.2; omega)]
    have hne : i.1 + 1 ≠ j.1 := by
      intro h
      apply hi
      have : nx i = j := Fin.ext (hni.trans h)
      exact hv.trans (congrArg (fun x : Fin E.length => F E[x]) this).symm
    have h1 : key E[i] < key E[nx i] := hlt _ _ _ _ (by omega)
    have h2 : key E[nx i] < key E[j] := hlt _ _ _ _ (by omega)
    have m := fun x : Fin E.length => hE0 E[x] (List.getElem_mem x.2)
    have h3 : key E[j] < key E[nx j] ∨ key E[nx j] < key E[i] := by
      by_cases hl : j.1 + 1 < E.length
      · left
        have : (nx j).1 = j.1 + 1 := by simp only [nx]; rw [dif_pos hl]
        exact hlt _ _ _ _ (by omega)
      · right
        have h0 : (nx j).1 = 0 := by simp only [nx]; rw [dif_neg hl]
        have h0i : i.1 ≠ 0 := by
          intro h
          apply hj
          have : nx j = i := Fin.ext (h0.trans h.symm)
          exact hv.symm.trans (congrArg (fun x : Fin E.length => F E[x]) this).symm
        exact hlt _ _ _ _ (by omega)
    rcases hF.left_once (m i) (m (nx i)) (m j) (m (nx j)) h1 h2 h3 hv with h | h
    · exact hi h.symm
    · exact hj (by rw [← hv, h])
  have inj : Function.Injective lv := by
    have key1 : ∀ i j : Fin E.length, i < j → lv i ≠ lv j := by
      intro i j hij h
      rcases hlv i with ⟨e1, n1⟩ | ⟨e1, n1⟩ <;> rcases hlv j with ⟨e2, n2⟩ | ⟨e2, n2⟩ <;>
        rw [e1, e2] at h
      · exact once hf i j hij (Sum.inl.inj h) n1 n2
      · cases h
      · cases h
      · exact once hg i j hij (Sum.inr.inj h) n1 n2
    intro i j h
    rcases lt_trichotomy i j with h1 | h1 | h1
    · exact absurd h (key1 i j h1)
    · exact h1
    · exact absurd h.symm (key1 j i h1)
  have hsub : Finset.univ.image lv ⊆ la.toFinset.disjSum lb.toFinset := by
    intro x hx
    obtain ⟨i, -, rfl⟩ := Finset.mem_image.1 hx
    rcases hlv i with ⟨e1, -⟩ | ⟨e1, -⟩ <;> rw [e1]
    · exact Finset.inl_mem_disjSum.2 (List.mem_toFinset.2 (hla _))
    · exact Finset.inr_mem_disjSum.2 (List.mem_toFinset.2 (hlb _))
  have h1 := Finset.card_le_card hsub
  rw [Finset.card_image_of_injective _ inj, Finset.card_univ, Fintype.card_fin,
    Finset.card_disjSum] at h1
  have := List.toFinset_card_le la
  have := List.toFinset_card_le lb
  omega

end Fan
end
end Auburn
