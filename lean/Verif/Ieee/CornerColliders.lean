import Verif.Ieee.CornerProps

/-!
# C73 at collider level: boxes and polygons placed by `Vec2` or `Translate2d` (binary32)
-/

set_option linter.unusedSectionVars false
set_option synthInstance.maxSize 1000

namespace Auburn

open F32 V2 ExtremePoint2d Transformation2d

section
variable [env : F32Env]

theorem NearContact.world {e : ℝ} {v : V2 F32} {X Y : Set (V2 ℝ)} {p q : V2 ℝ} {P P' : V2 ℝ → Prop}
    (h : NearContact e v X (shift (q + -p) Y) P) (hP : ∀ w, P w → P' w) : NearContact e v (shift p X) (shift q Y) P' := by
  obtain ⟨x, w, e1, e2, e3, e4⟩ := h
  exact ⟨x, w, e1, e2, (touch_world _ _ _ _ _).1 e3, fun ht => hP w (e4 fun h => ht ((touch_world' _ _ _ _).1 h))⟩

theorem DistanceExact.world {dist : Except Panic (Option (V2 F32))} {e : ℝ} {X Y : Set (V2 ℝ)} {p q : V2 ℝ}
    {P P' : V2 ℝ → Prop} (h : DistanceExact dist e X (shift (q + -p) Y) P) (hP : ∀ w, P w → P' w) :
    DistanceExact dist e (shift p X) (shift q Y) P' := by
  obtain ⟨o, e1, e2, e3⟩ := h
  exact ⟨o, e1, fun h => (touch_world' _ _ _ _).1 (e2 h), fun v h => ⟨separable_world (e3 v h).1, (e3 v h).2.world hP⟩⟩

theorem SdfvExact.world {res : Except Panic (Bool × V2 F32)} {e : ℝ} {X Y : Set (V2 ℝ)} {p q : V2 ℝ}
    {P P' : V2 ℝ → Prop} (h : SdfvExact res e X (shift (q + -p) Y) P) (hP : ∀ w, P w → P' w) :
    SdfvExact res e (shift p X) (shift q Y) P' := by
  obtain ⟨c, v, e1, e2, e3⟩ := h
  exact ⟨c, v, e1, fun h => (touch_world' _ _ _ _).1 (e2 h), fun h => ⟨separable_world (e3 h).1, (e3 h).2.world hP⟩⟩

theorem ShortestOfEdge32.world {VA VB : List (V2 ℝ)} {p q : V2 ℝ} {X Y : Set (V2 ℝ)} {κ : ℝ} {w : V2 ℝ}
    (h : ShortestOfEdge32 VA VB (q + -p) X (shift (q + -p) Y) κ w) :
    ShortestOfEdge32 (VA.map (· + p)) (VB.map (· + q)) 0 (shift p X) (shift q Y) κ w := by
  have corner : ∀ {w : V2 ℝ}, CornerVector VA VB (q + -p) w → CornerVector (VA.map (· + p)) (VB.map (· + q)) 0 w := by
    rintro w ⟨a, ha, b, hb, rfl⟩
    exact ⟨a + p, List.mem_map.2 ⟨a, ha, rfl⟩, b + q, List.mem_map.2 ⟨b, hb, rfl⟩, by abel⟩
  obtain ⟨n, u, h1, h2, h3, h4, h5, h6, h7, h8⟩ := h
  refine ⟨n, u, h1, corner h2, corner h3, h4, h5, h6, ?_, h8⟩
  rintro _ ⟨x, hx, rfl⟩ _ ⟨y, hy, rfl⟩
  have := h7 x hx _ ⟨y, hy, rfl⟩
  refine this.trans (le_of_eq ?_)
  congr 1
  abel

/-- **Boxes and polygons placed by `Vec2` or `Translate2d`, in world space** (polygons of at most 20 vertices together,
two boxes, a box and a polygon of at most twelve vertices): `distance_to` and `sdfv` do not panic, say "no distance" /
"colliding" only if the placed shapes share a point and the opposite only if a line separates them; the vector moves the
first collider into contact with the second up to 2^(k-16), and is the shortest such vector or the shortest vector of
the facing edge at which the search stopped. -/
theorem C73_f32_corners_colliders (a b : Shape2d F32) (p q : V2 F32) {k na nb np nq : ℤ}
    (ha : a.OnGrid32Proper k na) (hb : b.OnGrid32Proper k nb) (hp : p.OnGrid32 k np) (hq : q.OnGrid32 k nq)
    (hna : 0 ≤ na) (hnb : 0 ≤ nb) (hn : na + nb + np + nq ≤ 32) (hk1 : -7 ≤ k) (hk2 : k ≤ 12)
    (hV : a.weight32 + b.weight32 ≤ 20) (X Y : Set (V2 ℝ)) (hX : X = shift p.toReal (Region.pts a.toReal))
    (hY : Y = shift q.toReal (Region.pts b.toReal)) (VA VB : List (V2 ℝ))
    (hVA : VA = a.corners32.map (· + p.toReal)) (hVB : VB = b.corners32.map (· + q.toReal)) :
    DistanceExact (distanceTo ⟨a, p⟩ ⟨b, q⟩) ((2 : ℝ) ^ (k - 16)) X Y
      (fun w => ShortestUpTo 1 w X Y ∨ ShortestOfEdge32 VA VB 0 X Y 1 w) ∧
    DistanceExact (distanceTo ⟨a, Translate2d.mk p⟩ ⟨b, Translate2d.mk q⟩) ((2 : ℝ) ^ (k - 16)) X Y
      (fun w => ShortestUpTo 1 w X Y ∨ ShortestOfEdge32 VA VB 0 X Y 1 w) ∧
    SdfvExact (sdfv ⟨a, p⟩ ⟨b, q⟩) ((2 : ℝ) ^ (k - 16)) X Y
      (fun w => ShortestUpTo (49 / 50) w X Y ∨ ShortestOfEdge32 VA VB 0 X Y (49 / 50) w) ∧
    SdfvExact (sdfv ⟨a, Translate2d.mk p⟩ ⟨b, Translate2d.mk q⟩) ((2 : ℝ) ^ (k - 16)) X Y
      (fun w => ShortestUpTo (49 / 50) w X Y ∨ ShortestOfEdge32 VA VB 0 X Y (49 / 50) w) := by
  subst hX hY hVA hVB
  have h3 := hp.1.le
  have h4 := hq.1.le
  have hd : (q + -p).Is (q.toReal + -p.toReal) :=
    hq.is.add hp.is.neg (hq.gv.add hp.gv.neg) (by omega) (by omega) (by omega)
  have hg := hd.onGrid (hq.gv.add hp.gv.neg)
  obtain ⟨k1, k2⟩ := C73_f32_corners_shape2d a b (q + -p) ha hb hg (by omega) hk1 hk2 hV
  rw [hd.toReal] at k1 k2
  have c1 := k1.world (P' := fun w => ShortestUpTo 1 w (shift p.toReal (Region.pts a.toReal))
      (shift q.toReal (Region.pts b.toReal)) ∨ ShortestOfEdge32 (a.corners32.map (· + p.toReal))
      (b.corners32.map (· + q.toReal)) 0 (shift p.toReal (Region.pts a.toReal)) (shift q.toReal (Region.pts b.toReal)) 1 w)
    fun w h => h.imp shortest_world.1 ShortestOfEdge32.world
  have c2 := k2.world (P' := fun w => ShortestUpTo (49 / 50) w (shift p.toReal (Region.pts a.toReal))
      (shift q.toReal (Region.pts b.toReal)) ∨ ShortestOfEdge32 (a.corners32.map (· + p.toReal))
      (b.corners32.map (· + q.toReal)) 0 (shift p.toReal (Region.pts a.toReal)) (shift q.toReal (Region.pts b.toReal))
      (49 / 50) w)
    fun w h => h.imp shortest_world.1 ShortestOfEdge32.world
  have id1 : ∀ r : Except Panic (Bool × V2 F32), r.map (fun r => (r.1, r.2)) = r := by
    intro r; cases r <;> rfl
  rw [← id1 (sdfvRel a b (q + -p))] at c2
  exact ⟨c1, c1, c2, c2⟩

/-- two octagons as colliders at (-4, 0) and (4, 0): `distance_to` gives
a vector that brings them into contact up to 2^-16 -/
example : ∃ (a : Poly2d F32) (p q : V2 F32), a.points.length = 8 ∧ a.toReal = octagon ℝ ∧ p.toReal = ⟨-4, 0⟩ ∧ q.toReal = ⟨4, 0⟩ ∧
    ∃ v x : V2 _, ∃ w : V2 ℝ, distanceTo ⟨Shape2d.poly a, p⟩ ⟨Shape2d.poly a, q⟩ = .ok (some v) ∧ v.Is x ∧
      V2.Within ((2 : ℝ) ^ ((0 : ℤ) - 16)) x w ∧
      Touch (shift w (shift ⟨-4, 0⟩ (Region.pts (octagon ℝ)))) (shift ⟨4, 0⟩ (Region.pts (octagon ℝ))) := by
  let f : ℤ → F32 := fun n => ofReal false ((n : ℝ) * 2 ^ (0 : ℤ))
  have mk : ∀ n : ℤ, |n| ≤ 8 → F32.Is (f n) (n * 2 ^ (0 : ℤ)) :=
    fun n hn => is_ofReal (representable_scaled n 0 (by omega) (by norm_num) (by norm_num))
  have hf : ∀ n B : ℤ, |n| ≤ B → B ≤ 8 → (f n).OnGrid 0 B := fun n B hn hB =>
    F32.Is.onGrid (mk n (hn.trans hB)) ⟨n, rfl, hn⟩
  have hv : ∀ n : ℤ, |n| ≤ 8 → (f n).toReal = n := fun n hn => by
    rw [F32.Is.toReal (mk n hn)]; norm_num
  let a : Poly2d F32 := ⟨[⟨f 3, f 1⟩, ⟨f 1, f 3⟩, ⟨f (-1), f 3⟩, ⟨f (-3), f 1⟩, ⟨f (-3), f (-1)⟩, ⟨f (-1), f (-3)⟩,
    ⟨f 1, f (-3)⟩, ⟨f 3, f (-1)⟩]⟩
  have ga : a.OnGrid32 0 3 := by
    refine ⟨by simp [a], fun v hv => ?_⟩
    simp only [a, List.mem_cons, List.not_mem_nil, or_false] at hv
    rcases hv with rfl | rfl | rfl | rfl | rfl | rfl | rfl | rfl <;>
      exact ⟨hf _ _ (by norm_num) (by norm_num), hf _ _ (by norm_num) (by norm_num)⟩
  have gp : (⟨f (-4), f 0⟩ : V2 F32).OnGrid32 0 4 :=
    ⟨hf _ _ (by norm_num) (by norm_num), hf _ _ (by norm_num) (by norm_num)⟩
  have gq : (⟨f 4, f 0⟩ : V2 F32).OnGrid32 0 4 :=
    ⟨hf _ _ (by norm_num) (by norm_num), hf _ _ (by norm_num) (by norm_num)⟩
  have ep : (⟨f (-4), f 0⟩ : V2 F32).toReal = ⟨-4, 0⟩ := by
    simp only [V2.toReal, hv (-4) (by norm_num), hv 0 (by norm_num)]; norm_num
  have eq : (⟨f 4, f 0⟩ : V2 F32).toReal = ⟨4, 0⟩ := by
    simp only [V2.toReal, hv 4 (by norm_num), hv 0 (by norm_num)]; norm_num
  have ea : a.toReal = octagon ℝ := by
    simp only [a, octagon, Poly2d.toReal, V2.toReal, List.map, hv 3 (by norm_num), hv 1 (by norm_num),
      hv (-1) (by norm_num), hv (-3) (by norm_num)]
    norm_num
  have facts : (octagon ℝ).Proper ∧ ∀ p ∈ Region.pts (octagon ℝ), |p.x| ≤ 3 ∧ |p.y| ≤ 3 := by
    let _ := realFloat true 0
    have := realFloat_exact true 0
    exact ⟨octagon_proper, fun p hp => octagon_bound hp⟩
  obtain ⟨proper, bound⟩ := facts
  refine ⟨a, ⟨f (-4), f 0⟩, ⟨f 4, f 0⟩, rfl, ea, ep, eq, ?_⟩
  have pr : a.toReal.Proper := by rw [ea]; exact proper
  have es : Region.pts (Shape2d.poly a).toReal = Region.pts (octagon ℝ) := by
    show Region.pts a.toReal = _
    rw [ea]
  have key := (C73_f32_corners_colliders (.poly a) (.poly a) _ _ ⟨ga, pr⟩ ⟨ga, pr⟩ gp gq (by norm_num) (by norm_num)
    (by norm_num) (by norm_num) (by norm_num) (by simp [Shape2d.weight32, a]) _ _ rfl rfl _ _ rfl rfl).1.determined.2
  rw [es, ep, eq] at key
  obtain ⟨v, x, w, h1, h2, h3, h4, -⟩ := key (by
    rintro ⟨_, ⟨p, hp, rfl⟩, q, hq, e⟩
    have h1 := abs_le.1 (bound _ hp).1
    have h2 := abs_le.1 (bound _ hq).1
    have := congrArg V2.x e
    simp only [add_x] at this
    linarith [h1.2, h2.1])
  exact ⟨v, x, w, h1, h2, h3, h4⟩

end

end Auburn
