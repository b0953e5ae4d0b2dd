import Verif.Props.DistanceSafe
import Verif.Props.BoxBox
import Verif.Lib.GjkBox

/-!
# C44: the distance between two boxes rotated against each other is exact

Exact arithmetic.  `Lib/GjkBox` follows every path of the search on the difference of two boxes; here
the difference of two boxes is brought into that form.
-/

set_option linter.unusedSectionVars false
set_option synthInstance.maxSize 1000

namespace Auburn

open V2 ExtremePoint2d Transformation2d Auburn.Invertible Composable

section
variable {K : Type} [Field K] [LinearOrder K] [IsStrictOrderedRing K]

/-- `SgnOk` after a change of sign -/
theorem SgnOk.flip {σ τ x : K} (hσ : σ = 1 ∨ σ = -1) (h : SgnOk τ x) : SgnOk (σ * τ) (σ * x) := by
  rcases hσ with rfl | rfl
  · simpa using h
  · rcases h with ⟨rfl, h⟩ | ⟨rfl, h⟩
    · exact Or.inr ⟨by ring, by linarith⟩
    · exact Or.inl ⟨by ring, by linarith⟩

namespace BoxFrame

/-- `M`, `S` are described by the four generators, whatever their order and signs -/
structure Pre (F : BoxFrame K) (M : Set (V2 K)) (S : V2 K → V2 K) : Prop where
  l0 : 0 < F.l0
  l1 : 0 < F.l1
  l2 : 0 < F.l2
  l3 : 0 < F.l3
  mem : ∀ t0 t1 t2 t3 : K, |t0| ≤ F.l0 → |t1| ≤ F.l1 → |t2| ≤ F.l2 → |t3| ≤ F.l3 →
    scale t0 F.u0 + scale t1 F.u1 + scale t2 F.u2 + scale t3 F.u3 - F.o ∈ M
  sup : ∀ d, IsExtreme M d (S d)
  supp : ∀ d, ∃ σ0 σ1 σ2 σ3 : K, S d = F.pt σ0 σ1 σ2 σ3 ∧ SgnOk σ0 (d.dot F.u0) ∧
    SgnOk σ1 (d.dot F.u1) ∧ SgnOk σ2 (d.dot F.u2) ∧ SgnOk σ3 (d.dot F.u3)

/-- exchange of the first pair -/
def swap02 (F : BoxFrame K) : BoxFrame K :=
  { F with u0 := F.u2, u2 := F.u0, l0 := F.l2, l2 := F.l0 }
/-- exchange of the second pair -/
def swap13 (F : BoxFrame K) : BoxFrame K :=
  { F with u1 := F.u3, u3 := F.u1, l1 := F.l3, l3 := F.l1 }
/-- change of signs -/
def flip (F : BoxFrame K) (s0 s1 s2 s3 : K) : BoxFrame K :=
  { F with u0 := scale s0 F.u0, u1 := scale s1 F.u1, u2 := scale s2 F.u2, u3 := scale s3 F.u3 }
/-- another angle -/
def angle (F : BoxFrame K) (c s : K) : BoxFrame K := { F with c := c, s := s }

variable {F : BoxFrame K} {M : Set (V2 K)} {S : V2 K → V2 K}

theorem Pre.swap02 (h : F.Pre M S) : F.swap02.Pre M S where
  l0 := h.l2
  l1 := h.l1
  l2 := h.l0
  l3 := h.l3
  mem t0 t1 t2 t3 k0 k1 k2 k3 := by
    have := h.mem t2 t1 t0 t3 k2 k1 k0 k3
    convert this using 1
    simp only [BoxFrame.swap02]; abel
  sup := h.sup
  supp d := by
    obtain ⟨σ0, σ1, σ2, σ3, e, k0, k1, k2, k3⟩ := h.supp d
    exact ⟨σ2, σ1, σ0, σ3, by rw [e]; simp only [pt, BoxFrame.swap02]; abel, k2, k1, k0, k3⟩

theorem Pre.swap13 (h : F.Pre M S) : F.swap13.Pre M S where
  l0 := h.l0
  l1 := h.l3
  l2 := h.l2
  l3 := h.l1
  mem t0 t1 t2 t3 k0 k1 k2 k3 := by
    have := h.mem t0 t3 t2 t1 k0 k3 k2 k1
    convert this using 1
    simp only [BoxFrame.swap13]; abel
  sup := h.sup
  supp d := by
    obtain ⟨σ0, σ1, σ2, σ3, e, k0, k1, k2, k3⟩ := h.supp d
    exact ⟨σ0, σ3, σ2, σ1, by rw [e]; simp only [pt, BoxFrame.swap13]; abel, k0, k3, k2, k1⟩

theorem Pre.angle (h : F.Pre M S) (c s : K) : (F.angle c s).Pre M S :=
  ⟨h.l0, h.l1, h.l2, h.l3, h.mem, h.sup, h.supp⟩

theorem Pre.flip (h : F.Pre M S) {s0 s1 s2 s3 : K} (h0 : s0 = 1 ∨ s0 = -1) (h1 : s1 = 1 ∨ s1 = -1)
    (h2 : s2 = 1 ∨ s2 = -1) (h3 : s3 = 1 ∨ s3 = -1) : (F.flip s0 s1 s2 s3).Pre M S := by
  have ss : ∀ s t : K, ∀ u : V2 K, scale t (scale s u) = scale (t * s) u := fun s t u => by
    ext <;> simp [mul_assoc]
  have ab : ∀ {s t l : K}, s = 1 ∨ s = -1 → |t| ≤ l → |t * s| ≤ l := by
    rintro s t l (rfl | rfl) h <;> simpa using h
  have sq : ∀ {s t : K}, s = 1 ∨ s = -1 → s * t * s = t := by
    rintro s t (rfl | rfl) <;> ring
  refine ⟨h.l0, h.l1, h.l2, h.l3, fun t0 t1 t2 t3 k0 k1 k2 k3 => ?_, h.sup, fun d => ?_⟩
  · have := h.mem _ _ _ _ (ab h0 k0) (ab h1 k1) (ab h2 k2) (ab h3 k3)
    simp only [BoxFrame.flip, ss]
    exact this
  · obtain ⟨σ0, σ1, σ2, σ3, e, k0, k1, k2, k3⟩ := h.supp d
    refine ⟨s0 * σ0, s1 * σ1, s2 * σ2, s3 * σ3, ?_, ?_, ?_, ?_, ?_⟩
    · rw [e]
      have r : ∀ {s σ l : K}, s = 1 ∨ s = -1 → s * σ * l * s = σ * l := by
        rintro s σ l (rfl | rfl) <;> ring
      simp only [pt, BoxFrame.flip, ss, r h0, r h1, r h2, r h3]
    · show SgnOk _ (d.dot (scale s0 F.u0)); rw [dot_scale]; exact k0.flip h0
    · show SgnOk _ (d.dot (scale s1 F.u1)); rw [dot_scale]; exact k1.flip h1
    · show SgnOk _ (d.dot (scale s2 F.u2)); rw [dot_scale]; exact k2.flip h2
    · show SgnOk _ (d.dot (scale s3 F.u3)); rw [dot_scale]; exact k3.flip h3

/-- The corner facing the centre of the other box, with labels as in `Ok`. -/
theorem Pre.exists_ok (h : F.Pre M S) (h00 : F.u0.dot F.u0 = 1) (h22 : F.u2.dot F.u2 = 1)
    (h02 : F.u0.dot F.u2 = 0) {a b ε : K} (ha : a ≠ 0) (hb : b ≠ 0) (hε : ε = 1 ∨ ε = -1)
    (hab : a * a + b * b = 1)
    (e1 : ∀ v : V2 K, v.dot F.u1 = a * v.dot F.u0 + b * v.dot F.u2)
    (e3 : ∀ v : V2 K, v.dot F.u3 = ε * (a * v.dot F.u2 - b * v.dot F.u0))
    (o0 : 0 ≤ F.o.dot F.u0) (o1 : 0 ≤ F.o.dot F.u1) (o2 : 0 ≤ F.o.dot F.u2)
    (o3 : 0 ≤ F.o.dot F.u3) (ho : ¬ (F.o.dot F.u0 = 0 ∧ F.o.dot F.u2 = 0)) :
    ∃ F' : BoxFrame K, F'.Ok M S ∧ F'.q0 = F.q0 := by
  have h20 : F.u2.dot F.u0 = 0 := by rw [dot_comm]; exact h02
  have key : ∀ x y : K, x < 0 → y < 0 → 0 ≤ x * F.o.dot F.u0 + y * F.o.dot F.u2 → False := by
    intro x y hx hy hle
    have m1 := mul_nonpos_of_nonpos_of_nonneg hx.le o0
    have m2 := mul_nonpos_of_nonpos_of_nonneg hy.le o2
    refine ho ⟨?_, ?_⟩
    · exact (mul_eq_zero.1 (le_antisymm m1 (by linarith))).resolve_left hx.ne
    · exact (mul_eq_zero.1 (le_antisymm m2 (by linarith))).resolve_left hy.ne
  have o1' := o1
  have o3' := o3
  rw [e1] at o1'
  rw [e3] at o3'
  rcases lt_or_gt_of_ne ha with ha | ha <;> rcases lt_or_gt_of_ne hb with hb | hb <;>
    rcases hε with rfl | rfl
  · exact (key _ _ ha hb o1').elim
  · exact (key _ _ ha hb o1').elim
  · exact (key (-b) a (by linarith) ha (by linarith)).elim
  · have p := h.swap13.angle b (-a)
    exact ⟨F.swap13.angle b (-a), {
                h00 := h00, h22 := h22, h02 := h02, c0 := hb, s0 := show 0 < -a by linarith,
                cs := show b * b + -a * -a = 1 by linarith,
                l0 := p.l0, l1 := p.l1, l2 := p.l2, l3 := p.l3, o0 := o0, o3 := o1, mem := p.mem,
                sup := p.sup, supp := p.supp,
                u1 := fun v => (e3 v).trans (show _ = b * v.dot F.u0 + -a * v.dot F.u2 by ring),
                u3 := fun v => (e1 v).trans (show _ = b * v.dot F.u2 - -a * v.dot F.u0 by ring) },
      by simp only [q0, pt, BoxFrame.angle, BoxFrame.swap13]; abel⟩
  · have p := h.swap02.swap13.angle a (-b)
    exact ⟨F.swap02.swap13.angle a (-b), {
                h00 := h22, h22 := h00, h02 := h20, c0 := ha, s0 := show 0 < -b by linarith,
                cs := show a * a + -b * -b = 1 by linarith,
                l0 := p.l0, l1 := p.l1, l2 := p.l2, l3 := p.l3, o0 := o2, o3 := o1, mem := p.mem,
                sup := p.sup, supp := p.supp,
                u1 := fun v => (e3 v).trans (show _ = a * v.dot F.u2 + -b * v.dot F.u0 by ring),
                u3 := fun v => (e1 v).trans (show _ = a * v.dot F.u0 - -b * v.dot F.u2 by ring) },
      by simp only [q0, pt, BoxFrame.angle, BoxFrame.swap13, BoxFrame.swap02]; abel⟩
  · exact (key b (-a) hb (by linarith) (by linarith)).elim
  · have p := h.angle a b
    exact ⟨F.angle a b, {
                h00 := h00, h22 := h22, h02 := h02, c0 := ha, s0 := hb,
                cs := hab,
                l0 := p.l0, l1 := p.l1, l2 := p.l2, l3 := p.l3, o0 := o0, o3 := o3, mem := p.mem,
                sup := p.sup, supp := p.supp,
                u1 := fun v => e1 v,
                u3 := fun v => (e3 v).trans (show _ = a * v.dot F.u2 - b * v.dot F.u0 by ring) },
      rfl⟩
  · have p := h.swap02.angle b a
    exact ⟨F.swap02.angle b a, {
                h00 := h22, h22 := h00, h02 := h20, c0 := hb, s0 := ha,
                cs := show b * b + a * a = 1 by linarith,
                l0 := p.l0, l1 := p.l1, l2 := p.l2, l3 := p.l3, o0 := o2, o3 := o3, mem := p.mem,
                sup := p.sup, supp := p.supp,
                u1 := fun v => (e1 v).trans (show _ = b * v.dot F.u2 + a * v.dot F.u0 by ring),
                u3 := fun v => (e3 v).trans (show _ = b * v.dot F.u0 - a * v.dot F.u2 by ring) },
      by simp only [q0, pt, BoxFrame.angle, BoxFrame.swap02]; abel⟩

end BoxFrame

variable [FloatExtra K] [ExactFloat K]

theorem sgnOk_signum (x : K) : SgnOk (FloatExtra.signum x) x := by
  rcases lt_trichotomy x 0 with h | h | h
  · exact Or.inr ⟨ExactFloat.signum_neg x h, h.le⟩
  · rw [h]
    rcases ExactFloat.signum_zero (K := K) with h | h
    · exact Or.inl ⟨h, le_refl 0⟩
    · exact Or.inr ⟨h, le_refl 0⟩
  · exact Or.inl ⟨ExactFloat.signum_pos x h, h.le⟩

/-- the four generators of the difference of two boxes -/
def boxFrame (a b : Box2d K) (rel : Transform2d K) (f : K) : BoxFrame K :=
  ⟨⟨1, 0⟩, rel.rot.a, ⟨0, 1⟩, ⟨-rel.rot.a.y, rel.rot.a.x⟩, a.halfsize.x, f * b.halfsize.x,
    a.halfsize.y, f * b.halfsize.y, 0, 0, rel.pos⟩

theorem boxFrame_pre (a b : Box2d K) (rel : Transform2d K) {f : K}
    (ha : 0 < a.halfsize.x ∧ 0 < a.halfsize.y) (hb : 0 < b.halfsize.x ∧ 0 < b.halfsize.y)
    (hf : 0 < f) (hs : rel.scale = ⟨f, f⟩) (h : ConvexPair (K := K) a b rel) :
    (boxFrame a b rel f).Pre (minkDiff (Region.pts a) (placed rel b))
      (extremePoint (LocalMinkowskiDiff2d.mk a b rel)) where
  l0 := ha.1
  l1 := mul_pos hf hb.1
  l2 := ha.2
  l3 := mul_pos hf hb.2
  mem t0 t1 t2 t3 k0 k1 k2 k3 := by
    refine ⟨⟨t0, t2⟩, ⟨k0, k2⟩, _, ⟨⟨-(t1 / f), -(t3 / f)⟩, ⟨?_, ?_⟩, rfl⟩, ?_⟩
    · show |-(t1 / f)| ≤ _
      rw [abs_neg, abs_div, abs_of_pos hf, div_le_iff₀' hf]; exact k1
    · show |-(t3 / f)| ≤ _
      rw [abs_neg, abs_div, abs_of_pos hf, div_le_iff₀' hf]; exact k3
    · have hf0 := hf.ne'
      ext
      · simp [boxFrame, apply, Rotor2d.rotate, hs]; field_simp; ring
      · simp [boxFrame, apply, Rotor2d.rotate, hs]; field_simp; ring
  sup := h.support
  supp d := by
    have n1 := (sgnOk_signum (unapplyNormal rel (-d)).x).flip (Or.inr rfl : (-1 : K) = 1 ∨ (-1 : K) = -1)
    have n3 := (sgnOk_signum (unapplyNormal rel (-d)).y).flip (Or.inr rfl : (-1 : K) = 1 ∨ (-1 : K) = -1)
    have x1 : -1 * (unapplyNormal rel (-d)).x = d.dot rel.rot.a := by
      simp [unapplyNormal, Rotor2d.rotate, Rotor2d.inverse, dot_def]; ring
    have x3 : -1 * (unapplyNormal rel (-d)).y = d.dot ⟨-rel.rot.a.y, rel.rot.a.x⟩ := by
      simp [unapplyNormal, Rotor2d.rotate, Rotor2d.inverse, dot_def]; ring
    rw [x1] at n1
    rw [x3] at n3
    have n0 := sgnOk_signum d.x
    have n2 := sgnOk_signum d.y
    refine ⟨FloatExtra.signum d.x, _, FloatExtra.signum d.y, _, ?_, ?_, n1, ?_, n3⟩
    rotate_left
    · show SgnOk (FloatExtra.signum d.x) (d.dot ⟨1, 0⟩)
      simpa [dot_def] using n0
    · show SgnOk (FloatExtra.signum d.y) (d.dot ⟨0, 1⟩)
      simpa [dot_def] using n2
    · show (⟨FloatExtra.signum d.x * a.halfsize.x, FloatExtra.signum d.y * a.halfsize.y⟩ : V2 K) -
        apply rel (⟨FloatExtra.signum (unapplyNormal rel (-d)).x * b.halfsize.x,
          FloatExtra.signum (unapplyNormal rel (-d)).y * b.halfsize.y⟩ : V2 K) = _
      generalize FloatExtra.signum (unapplyNormal rel (-d)).x = g1
      generalize FloatExtra.signum (unapplyNormal rel (-d)).y = g3
      ext
      · simp [BoxFrame.pt, boxFrame, apply, Rotor2d.rotate, hs]; ring
      · simp [BoxFrame.pt, boxFrame, apply, Rotor2d.rotate, hs]; ring

/-- the frame at the corner facing the other box -/
theorem boxFrame_ok (a b : Box2d K) (rel : Transform2d K) {f : K}
    (ha : 0 < a.halfsize.x ∧ 0 < a.halfsize.y) (hb : 0 < b.halfsize.x ∧ 0 < b.halfsize.y)
    (hr : rel.rot.IsUnit) (hpar : rel.rot.a.x ≠ 0 ∧ rel.rot.a.y ≠ 0)
    (hf : 0 < f) (hs : rel.scale = ⟨f, f⟩) (h : ConvexPair (K := K) a b rel) (ho : rel.pos ≠ 0) :
    ∃ F : BoxFrame K, F.Ok (minkDiff (Region.pts a) (placed rel b))
      (extremePoint (LocalMinkowskiDiff2d.mk a b rel)) ∧
      F.q0 = extremePoint (LocalMinkowskiDiff2d.mk a b rel) rel.pos := by
  have p := boxFrame_pre a b rel ha hb hf hs h
  obtain ⟨s0, s1, s2, s3, e, k0, k1, k2, k3⟩ := p.supp rel.pos
  have pm : ∀ {σ x : K}, SgnOk σ x → σ = 1 ∨ σ = -1 := by
    rintro σ x (⟨h, _⟩ | ⟨h, _⟩)
    · exact Or.inl h
    · exact Or.inr h
  have sq : ∀ {σ : K}, σ = 1 ∨ σ = -1 → σ * σ = 1 := by rintro σ (rfl | rfl) <;> ring
  have ne : ∀ {σ : K}, σ = 1 ∨ σ = -1 → σ ≠ 0 := by
    rintro σ (rfl | rfl)
    · exact one_ne_zero
    · exact neg_ne_zero.2 one_ne_zero
  have m0 := pm k0
  have m1 := pm k1
  have m2 := pm k2
  have m3 := pm k3
  have q := p.flip m0 m1 m2 m3
  have ob : ∀ {σ : K} {u : V2 K}, SgnOk σ (rel.pos.dot u) → 0 ≤ rel.pos.dot (scale σ u) := by
    intro σ u k
    rw [dot_scale, k.abs]; exact abs_nonneg _
  have hu : rel.rot.a.x * rel.rot.a.x + rel.rot.a.y * rel.rot.a.y = 1 := by
    have := hr
    simp only [Rotor2d.IsUnit] at this
    linarith
  have z0 := sq m0
  have z1 := sq m1
  have z2 := sq m2
  have z3 := sq m3
  have hex : ∃ F' : BoxFrame K, F'.Ok (minkDiff (Region.pts a) (placed rel b))
      (extremePoint (LocalMinkowskiDiff2d.mk a b rel)) ∧
      F'.q0 = ((boxFrame a b rel f).flip s0 s1 s2 s3).q0 := by
    refine q.exists_ok (a := s1 * s0 * rel.rot.a.x) (b := s1 * s2 * rel.rot.a.y)
      (ε := s0 * s1 * s2 * s3) ?_ ?_ ?_ (mul_ne_zero (mul_ne_zero (ne m1) (ne m0)) hpar.1)
      (mul_ne_zero (mul_ne_zero (ne m1) (ne m2)) hpar.2) ?_ ?_ ?_ ?_ (ob k0) (ob k1) (ob k2) (ob k3) ?_
    · simp [BoxFrame.flip, boxFrame, dot_def, z0]
    · simp [BoxFrame.flip, boxFrame, dot_def, z2]
    · simp [BoxFrame.flip, boxFrame, dot_def]
    · clear q e k0 k1 k2 k3 z0 z1 z2 z3
      rcases m0 with rfl | rfl <;> rcases m1 with rfl | rfl <;> rcases m2 with rfl | rfl <;>
        rcases m3 with rfl | rfl <;> simp
    · have : (s1 * s1) * (s0 * s0) * (rel.rot.a.x * rel.rot.a.x) +
        (s1 * s1) * (s2 * s2) * (rel.rot.a.y * rel.rot.a.y) = 1 := by rw [z0, z1, z2]; linarith
      linear_combination this
    · intro v
      simp only [BoxFrame.flip, boxFrame, dot_def, scale_x, scale_y]
      linear_combination (-s1 * rel.rot.a.x * v.x) * z0 + (-s1 * rel.rot.a.y * v.y) * z2
    · intro v
      simp only [BoxFrame.flip, boxFrame, dot_def, scale_x, scale_y]
      have y2 : s0 * s0 * (s1 * s1) * (s2 * s2) = 1 := by rw [z0, z1, z2]; ring
      linear_combination (-s3 * (rel.rot.a.x * v.y - rel.rot.a.y * v.x)) * y2
    · rintro ⟨x0, x2⟩
      simp only [BoxFrame.flip, boxFrame, dot_def, scale_x, scale_y] at x0 x2
      refine ho ?_
      ext
      · simpa [ne m0] using x0
      · simpa [ne m2] using x2
  obtain ⟨F', h1, h2⟩ := hex
  refine ⟨F', h1, h2.trans ?_⟩
  rw [e]
  have ss : ∀ s t : K, ∀ u : V2 K, scale t (scale s u) = scale (t * s) u := fun s t u => by
    ext <;> simp [mul_assoc]
  simp only [BoxFrame.q0, BoxFrame.pt, BoxFrame.flip, ss]
  simp only [one_mul, mul_comm (boxFrame a b rel f).l0,
    mul_comm (boxFrame a b rel f).l1, mul_comm (boxFrame a b rel f).l2,
    mul_comm (boxFrame a b rel f).l3]

/-! ## boxes turned by a multiple of 90 degrees -/

/-- `M` is an axis-aligned rectangle with half sizes `X`, `Y` around `-o` -/
structure RectOk (M : Set (V2 K)) (S : V2 K → V2 K) (X Y : K) (o : V2 K) : Prop where
  x0 : 0 ≤ X
  y0 : 0 ≤ Y
  sup : ∀ d, IsExtreme M d (S d)
  zero : |o.x| ≤ X → |o.y| ≤ Y → (0 : V2 K) ∈ M
  sx1 : ∀ d : V2 K, 0 < d.x → (S d).x = X - o.x
  sx2 : ∀ d : V2 K, d.x < 0 → (S d).x = -X - o.x
  sy1 : ∀ d : V2 K, 0 < d.y → (S d).y = Y - o.y
  sy2 : ∀ d : V2 K, d.y < 0 → (S d).y = -Y - o.y

variable {M : Set (V2 K)} {S : V2 K → V2 K} {X Y : K} {o : V2 K}

theorem RectOk.bx (h : RectOk M S X Y o) {m : V2 K} (hm : m ∈ M) : |m.x + o.x| ≤ X := by
  have h1 := (h.sup ⟨1, 0⟩).2 m hm
  have h2 := (h.sup ⟨-1, 0⟩).2 m hm
  have e1 := h.sx1 ⟨1, 0⟩ (by simp)
  have e2 := h.sx2 ⟨-1, 0⟩ (by simp)
  simp only [dot_def] at h1 h2
  rw [e1] at h1
  rw [e2] at h2
  exact abs_le.2 ⟨by linarith, by linarith⟩

theorem RectOk.by (h : RectOk M S X Y o) {m : V2 K} (hm : m ∈ M) : |m.y + o.y| ≤ Y := by
  have h1 := (h.sup ⟨0, 1⟩).2 m hm
  have h2 := (h.sup ⟨0, -1⟩).2 m hm
  have e1 := h.sy1 ⟨0, 1⟩ (by simp)
  have e2 := h.sy2 ⟨0, -1⟩ (by simp)
  simp only [dot_def] at h1 h2
  rw [e1] at h1
  rw [e2] at h2
  exact abs_le.2 ⟨by linarith, by linarith⟩

/-- states of the search on a rectangle -/
inductive RState (M : Set (V2 K)) (S : V2 K → V2 K) (o : V2 K) : V2 K → V2 K → List (V2 K) → Prop
  | init : RState M S o (-(S o)) (S o) [S o]
  | dead (d l : V2 K) (pts : List (V2 K)) : (∀ x ∈ M, d.dot x ≤ d.dot l) → EndsOk M pts →
      RState M S o d l pts

theorem RState.endsOk {d l : V2 K} {pts : List (V2 K)} (h : RState M S o d l pts) : EndsOk M pts := by
  cases h with
  | init =>
    intro p hp q hq hne _
    rw [List.mem_singleton.1 hp, List.mem_singleton.1 hq] at hne
    exact absurd rfl hne
  | dead _ _ _ _ h => exact h

/-- the second point is on the wall orthogonal to `g` -/
theorem rect_step {g q a d : V2 K} (hg : g ≠ 0) {α β : K} (hαβ : α * β < 0)
    (hwall : ∀ m ∈ M, g.dot m ≤ -lengthSq g) (eq : q = -g + scale β g.perp)
    (ea : a = -g + scale α g.perp) {r : AddResult K} (hr : addPoint [q] a = .ok r)
    (hs : directionTooSmall r.dir → r.dir = 0) : RState M S o (overrideDir d r.dir) a r.pts := by
  have hL := lengthSq_pos.2 hg
  set L := lengthSq g with hLd
  have hLx : L = g.x * g.x + g.y * g.y := by rw [hLd, lengthSq_def]
  have hne : β - α ≠ 0 := by
    intro h
    have : β = α := by linarith
    rw [this] at hαβ; nlinarith [mul_self_nonneg α]
  have e3 : (q - a).dot (-a) = (α * α - α * β) * L := by
    rw [hLx, eq, ea]; simp [dot_def, perp]; ring
  have e3' : (a - q).dot (-q) = (β * β - α * β) * L := by
    rw [hLx, eq, ea]; simp [dot_def, perp]; ring
  have p3 : 0 ≤ (q - a).dot (-a) := by
    rw [e3]
    refine mul_nonneg ?_ hL.le
    have := mul_self_nonneg α
    linarith
  have p3' : 0 ≤ (a - q).dot (-q) := by
    rw [e3']
    refine mul_nonneg ?_ hL.le
    have := mul_self_nonneg β
    linarith
  have e4 : (q - a).crossAba (-a) = scale ((β - α) ^ 2 * L) g := by
    rw [hLx, eq, ea]
    ext <;> simp [crossAba, V2.cross, perp] <;> ring
  have hk : 0 < (β - α) ^ 2 * L := by positivity
  rcases addPoint2_cases (d := d) (u := g) hr hs with ⟨_, h1, h2⟩ | ⟨h1, _⟩
  · have h3 := h1 (by rw [e4, dot_comm, dot_scale]; exact (mul_pos hk hL).ne')
    rw [h3, h2, e4]
    refine .dead _ _ _ (fun x hx => ?_) (endsOk_pair (Or.inl ?_) (Or.inl ?_))
    · have e5 : (scale ((β - α) ^ 2 * L) g).dot a = (β - α) ^ 2 * L * -L := by
        rw [hLx, ea]; simp [dot_def, perp]; ring
      rw [e5, dot_comm, dot_scale, dot_comm]
      exact mul_le_mul_of_nonneg_left (hwall x hx) hk.le
    · rw [dot_neg, dot_comm] at p3
      linarith
    · rw [dot_neg, dot_comm] at p3'
      linarith
  · exact absurd p3 (not_le.2 h1)

theorem RState.kept (h : RectOk M S X Y o) (h0 : (0 : V2 K) ∉ M) : Kept M S (RState M S o) := by
  intro L d l pts r _ hB hprog hr _ hs
  cases hB with
  | dead _ _ _ ht _ => exact absurd hprog (not_lt.2 (ht _ (h.sup d).1))
  | init =>
    set gx := axisGap X o.x with hgx
    set gy := axisGap Y o.y with hgy
    have hX0 := h.x0
    have hY0 := h.y0
    have hM : ∀ m ∈ M, gx * m.x ≤ -(gx * gx) ∧ gy * m.y ≤ -(gy * gy) := fun m hm =>
      ⟨axisGap_wall hX0 (h.bx hm), axisGap_wall hY0 (h.by hm)⟩
    have q0x : X ≤ |o.x| → (S o).x = -gx := by
      intro hle
      rcases axisGap_cases (p := o.x) hX0 with ⟨h3, e⟩ | ⟨h3, e⟩ | ⟨h3, e⟩
      · rw [h.sx1 o (by linarith), hgx, e]; ring
      · rw [h.sx2 o (by linarith), hgx, e]; ring
      · have h4 : |o.x| = X := le_antisymm h3 hle
        rw [hgx, e]
        rcases lt_trichotomy o.x 0 with h5 | h5 | h5
        · rw [h.sx2 o h5, ← h4, abs_of_neg h5]; ring
        · have h6 := h.bx (h.sup o).1
          rw [← h4, h5, add_zero, abs_zero] at h6
          rw [abs_eq_zero.1 (le_antisymm h6 (abs_nonneg _))]; ring
        · rw [h.sx1 o h5, ← h4, abs_of_pos h5]; ring
    have q0y : Y ≤ |o.y| → (S o).y = -gy := by
      intro hle
      rcases axisGap_cases (p := o.y) hY0 with ⟨h3, e⟩ | ⟨h3, e⟩ | ⟨h3, e⟩
      · rw [h.sy1 o (by linarith), hgy, e]; ring
      · rw [h.sy2 o (by linarith), hgy, e]; ring
      · have h4 : |o.y| = Y := le_antisymm h3 hle
        rw [hgy, e]
        rcases lt_trichotomy o.y 0 with h5 | h5 | h5
        · rw [h.sy2 o h5, ← h4, abs_of_neg h5]; ring
        · have h6 := h.by (h.sup o).1
          rw [← h4, h5, add_zero, abs_zero] at h6
          rw [abs_eq_zero.1 (le_antisymm h6 (abs_nonneg _))]; ring
        · rw [h.sy1 o h5, ← h4, abs_of_pos h5]; ring
    have wall : ∀ m ∈ M, (⟨gx, gy⟩ : V2 K).dot m ≤ -lengthSq (⟨gx, gy⟩ : V2 K) := by
      intro m hm
      obtain ⟨h1, h2⟩ := hM m hm
      simp only [lengthSq_def, dot_def]
      linarith
    have nearest : S o ≠ -⟨gx, gy⟩ := by
      intro he
      have := wall _ (h.sup (-(S o))).1
      have e : (-(S o)).dot (S o) = -lengthSq (⟨gx, gy⟩ : V2 K) := by
        rw [he]; simp only [lengthSq_def, dot_def, neg_x, neg_y]; ring
      rw [e, he, neg_neg] at hprog
      rw [he, neg_neg] at this
      exact absurd hprog (not_lt.2 this)
    by_cases h1 : X ≤ |o.x|
    · by_cases h2 : Y ≤ |o.y|
      · exact absurd (V2.ext (q0x h1) (q0y h2)) nearest
      · push Not at h2
        have hgy0 : gy = 0 := by
          rcases axisGap_cases (p := o.y) hY0 with ⟨h3, e⟩ | ⟨h3, e⟩ | ⟨h3, e⟩
          · have := le_abs_self o.y; linarith
          · have := neg_abs_le o.y; linarith
          · exact e
        have hXlt : X < |o.x| := by
          by_contra hn
          exact h0 (h.zero (not_lt.1 hn) h2.le)
        have hgxs : (0 < gx ∧ 0 < o.x ∧ gx = o.x - X) ∨ (gx < 0 ∧ o.x < 0 ∧ gx = o.x + X) := by
          rcases axisGap_cases (p := o.x) hX0 with ⟨h3, e⟩ | ⟨h3, e⟩ | ⟨h3, e⟩
          · exact Or.inl ⟨by rw [hgx, e]; linarith, by linarith, e⟩
          · exact Or.inr ⟨by rw [hgx, e]; linarith, by linarith, e⟩
          · exact absurd h3 (not_le.2 hXlt)
        have hgx0 : gx ≠ 0 := by rcases hgxs with h | h <;> [exact h.1.ne'; exact h.1.ne]
        have hy0 : (S o).y ≠ 0 := by
          intro hy0
          refine nearest (V2.ext (q0x h1) ?_)
          rw [hy0]; simp [hgy0]
        obtain ⟨hyl, hyu⟩ := abs_lt.1 h2
        obtain ⟨hql, hqu⟩ := abs_le.1 (h.by (h.sup o).1)
        have ax : (S (-(S o))).x = -gx := by
          have e : (-(S o)).x = gx := by rw [neg_x, q0x h1, neg_neg]
          rcases hgxs with ⟨h3, _, h4⟩ | ⟨h3, _, h4⟩
          · rw [h.sx1 _ (by rw [e]; exact h3), h4]; ring
          · rw [h.sx2 _ (by rw [e]; exact h3), h4]; ring
        have ay : (S o).y * (S (-(S o))).y < 0 := by
          rcases lt_or_gt_of_ne hy0 with h3 | h3
          · rw [h.sy1 (-(S o)) (by rw [neg_y]; linarith)]
            exact mul_neg_of_neg_of_pos h3 (by linarith)
          · rw [h.sy2 (-(S o)) (by rw [neg_y]; linarith)]
            exact mul_neg_of_pos_of_neg h3 (by linarith)
        have eq0 : S o = -⟨gx, gy⟩ + scale ((S o).y / gx) (V2.perp ⟨gx, gy⟩) := by
          ext
          · simp [perp, q0x h1, hgy0]
          · simp [perp, hgy0]; field_simp
        have eqa : S (-(S o)) = -⟨gx, gy⟩ + scale ((S (-(S o))).y / gx) (V2.perp ⟨gx, gy⟩) := by
          ext
          · simp [perp, ax, hgy0]
          · simp [perp, hgy0]; field_simp
        have hg0 : (⟨gx, gy⟩ : V2 K) ≠ 0 := fun h => hgx0 (congrArg V2.x h)
        have hab : (S (-(S o))).y / gx * ((S o).y / gx) < 0 := by
          rw [div_mul_div_comm, mul_comm]
          exact div_neg_of_neg_of_pos ay (mul_self_pos.2 hgx0)
        exact rect_step hg0 hab wall eq0 eqa hr hs
    · push Not at h1
      have hYlt : Y < |o.y| := by
        by_contra hn
        exact h0 (h.zero h1.le (not_lt.1 hn))
      have h2 : Y ≤ |o.y| := hYlt.le
      have hgx0 : gx = 0 := by
        rcases axisGap_cases (p := o.x) hX0 with ⟨h3, e⟩ | ⟨h3, e⟩ | ⟨h3, e⟩
        · have := le_abs_self o.x; linarith
        · have := neg_abs_le o.x; linarith
        · exact e
      have hgys : (0 < gy ∧ 0 < o.y ∧ gy = o.y - Y) ∨ (gy < 0 ∧ o.y < 0 ∧ gy = o.y + Y) := by
        rcases axisGap_cases (p := o.y) hY0 with ⟨h3, e⟩ | ⟨h3, e⟩ | ⟨h3, e⟩
        · exact Or.inl ⟨by rw [hgy, e]; linarith, by linarith, e⟩
        · exact Or.inr ⟨by rw [hgy, e]; linarith, by linarith, e⟩
        · exact absurd h3 (not_le.2 hYlt)
      have hgy0 : gy ≠ 0 := by rcases hgys with h | h <;> [exact h.1.ne'; exact h.1.ne]
      have hx0 : (S o).x ≠ 0 := by
        intro hx0
        refine nearest (V2.ext ?_ (q0y h2))
        rw [hx0]; simp [hgx0]
      obtain ⟨hxl, hxu⟩ := abs_lt.1 h1
      obtain ⟨hql, hqu⟩ := abs_le.1 (h.bx (h.sup o).1)
      have ay : (S (-(S o))).y = -gy := by
        have e : (-(S o)).y = gy := by rw [neg_y, q0y h2, neg_neg]
        rcases hgys with ⟨h3, _, h4⟩ | ⟨h3, _, h4⟩
        · rw [h.sy1 _ (by rw [e]; exact h3), h4]; ring
        · rw [h.sy2 _ (by rw [e]; exact h3), h4]; ring
      have ax : (S o).x * (S (-(S o))).x < 0 := by
        rcases lt_or_gt_of_ne hx0 with h3 | h3
        · rw [h.sx1 (-(S o)) (by rw [neg_x]; linarith)]
          exact mul_neg_of_neg_of_pos h3 (by linarith)
        · rw [h.sx2 (-(S o)) (by rw [neg_x]; linarith)]
          exact mul_neg_of_pos_of_neg h3 (by linarith)
      have eq0 : S o = -⟨gx, gy⟩ + scale (-(S o).x / gy) (V2.perp ⟨gx, gy⟩) := by
        ext
        · simp [perp, hgx0]; field_simp
        · simp [perp, q0y h2, hgx0]
      have eqa : S (-(S o)) = -⟨gx, gy⟩ + scale (-(S (-(S o))).x / gy) (V2.perp ⟨gx, gy⟩) := by
        ext
        · simp [perp, hgx0]; field_simp
        · simp [perp, ay, hgx0]
      have hg0 : (⟨gx, gy⟩ : V2 K) ≠ 0 := fun h => hgy0 (congrArg V2.y h)
      have hab : -(S (-(S o))).x / gy * (-(S o).x / gy) < 0 := by
        rw [div_mul_div_comm, mul_comm, neg_mul_neg]
        exact div_neg_of_neg_of_pos ax (mul_self_pos.2 hgy0)
      exact rect_step hg0 hab wall eq0 eqa hr hs

/-- split a number in two parts, in proportion to the bounds -/
theorem split_abs {x k l : K} (hk : 0 < k) (hl : 0 < l) (h : |x| ≤ k + l) :
    ∃ s t : K, |s| ≤ k ∧ |t| ≤ l ∧ s + t = x := by
  have hkl : 0 < k + l := add_pos hk hl
  refine ⟨k * (x / (k + l)), l * (x / (k + l)), ?_, ?_, ?_⟩
  · rw [abs_mul, abs_of_pos hk, abs_div, abs_of_pos hkl]
    exact mul_le_of_le_one_right hk.le ((div_le_one hkl).2 h)
  · rw [abs_mul, abs_of_pos hl, abs_div, abs_of_pos hkl]
    exact mul_le_of_le_one_right hl.le ((div_le_one hkl).2 h)
  · field_simp

theorem SgnOk.mul_of_pos {σ e x : K} (h : SgnOk σ (e * x)) (he : e = 1 ∨ e = -1) (hx : 0 < x) :
    σ * e = 1 := by
  rcases he with rfl | rfl
  · rw [h.pos (by linarith)]; ring
  · rw [h.neg (by linarith)]; ring
theorem SgnOk.mul_of_neg {σ e x : K} (h : SgnOk σ (e * x)) (he : e = 1 ∨ e = -1) (hx : x < 0) :
    σ * e = -1 := by
  rcases he with rfl | rfl
  · rw [h.neg (by linarith)]; ring
  · rw [h.pos (by linarith)]; ring

/-- the difference of two boxes turned by a multiple of 90 degrees -/
theorem rectOk_box (a b : Box2d K) (rel : Transform2d K) {f : K}
    (ha : 0 < a.halfsize.x ∧ 0 < a.halfsize.y) (hb : 0 < b.halfsize.x ∧ 0 < b.halfsize.y)
    (hr : rel.rot.IsUnit) (hpar : rel.rot.a.x = 0 ∨ rel.rot.a.y = 0)
    (hf : 0 < f) (hs : rel.scale = ⟨f, f⟩) (h : ConvexPair (K := K) a b rel) :
    ∃ X Y, RectOk (minkDiff (Region.pts a) (placed rel b))
      (extremePoint (LocalMinkowskiDiff2d.mk a b rel)) X Y rel.pos := by
  have p := boxFrame_pre a b rel ha hb hf hs h
  set S := extremePoint (LocalMinkowskiDiff2d.mk a b rel)
  have hu : rel.rot.a.x * rel.rot.a.x + rel.rot.a.y * rel.rot.a.y = 1 := by
    have := hr
    simp only [Rotor2d.IsUnit] at this
    linarith
  have l1 := mul_pos hf hb.1
  have l3 := mul_pos hf hb.2
  have pm : ∀ {e : K}, e * e = 1 → e = 1 ∨ e = -1 := fun he => mul_self_eq_one_iff.1 he
  have ab : ∀ {e t l : K}, e = 1 ∨ e = -1 → |t| ≤ l → |e * t| ≤ l := by
    rintro e t l (rfl | rfl) h <;> simpa using h
  have key : ∀ d : V2 K, ∃ σ0 σ1 σ2 σ3 : K,
      (S d).x = σ0 * a.halfsize.x + σ1 * rel.rot.a.x * (f * b.halfsize.x) +
        σ3 * -rel.rot.a.y * (f * b.halfsize.y) - rel.pos.x ∧
      (S d).y = σ1 * rel.rot.a.y * (f * b.halfsize.x) + σ2 * a.halfsize.y +
        σ3 * rel.rot.a.x * (f * b.halfsize.y) - rel.pos.y ∧ SgnOk σ0 d.x ∧
      SgnOk σ1 (rel.rot.a.x * d.x + rel.rot.a.y * d.y) ∧ SgnOk σ2 d.y ∧
      SgnOk σ3 (-rel.rot.a.y * d.x + rel.rot.a.x * d.y) := by
    intro d
    obtain ⟨σ0, σ1, σ2, σ3, e, k0, k1, k2, k3⟩ := p.supp d
    refine ⟨σ0, σ1, σ2, σ3, ?_, ?_, ?_, ?_, ?_, ?_⟩
    · rw [e]; simp [BoxFrame.pt, boxFrame]; ring
    · rw [e]; simp [BoxFrame.pt, boxFrame]; ring
    · simpa [boxFrame, dot_def] using k0
    · have : d.dot (boxFrame a b rel f).u1 = rel.rot.a.x * d.x + rel.rot.a.y * d.y := by
        simp only [boxFrame, dot_def]; ring
      rwa [this] at k1
    · simpa [boxFrame, dot_def] using k2
    · have : d.dot (boxFrame a b rel f).u3 = -rel.rot.a.y * d.x + rel.rot.a.x * d.y := by
        simp only [boxFrame, dot_def]; ring
      rwa [this] at k3
  rcases hpar with h0 | h0
  · -- a quarter turn
    simp only [h0, zero_mul, zero_add, mul_zero, add_zero] at key hu
    have m := pm hu
    have m' : -rel.rot.a.y = 1 ∨ -rel.rot.a.y = -1 := by
      rcases m with m | m <;> rw [m] <;> simp
    refine ⟨a.halfsize.x + f * b.halfsize.y, a.halfsize.y + f * b.halfsize.x,
      (add_pos ha.1 l3).le, (add_pos ha.2 l1).le, h.support, fun hx hy => ?_, fun d hd => ?_,
      fun d hd => ?_, fun d hd => ?_, fun d hd => ?_⟩
    · obtain ⟨t0, t3, i0, i3, e1⟩ := split_abs ha.1 l3 hx
      obtain ⟨t2, t1, i2, i1, e2⟩ := split_abs ha.2 l1 hy
      have := p.mem t0 (rel.rot.a.y * t1) t2 (-rel.rot.a.y * t3) i0 (ab m i1) i2 (ab m' i3)
      convert this using 1
      ext
      · simp [boxFrame, h0]; linear_combination (-t3) * hu - e1
      · simp [boxFrame, h0]; linear_combination (-t1) * hu - e2
    · obtain ⟨σ0, σ1, σ2, σ3, e1, e2, k0, k1, k2, k3⟩ := key d
      rw [e1, k0.pos hd, k3.mul_of_pos m' hd]; ring
    · obtain ⟨σ0, σ1, σ2, σ3, e1, e2, k0, k1, k2, k3⟩ := key d
      rw [e1, k0.neg hd, k3.mul_of_neg m' hd]; ring
    · obtain ⟨σ0, σ1, σ2, σ3, e1, e2, k0, k1, k2, k3⟩ := key d
      rw [e2, k2.pos hd, k1.mul_of_pos m hd]; ring
    · obtain ⟨σ0, σ1, σ2, σ3, e1, e2, k0, k1, k2, k3⟩ := key d
      rw [e2, k2.neg hd, k1.mul_of_neg m hd]; ring
  · simp only [h0, zero_mul, neg_zero, zero_add, mul_zero, add_zero] at key hu
    have m := pm hu
    refine ⟨a.halfsize.x + f * b.halfsize.x, a.halfsize.y + f * b.halfsize.y,
      (add_pos ha.1 l1).le, (add_pos ha.2 l3).le, h.support, fun hx hy => ?_, fun d hd => ?_,
      fun d hd => ?_, fun d hd => ?_, fun d hd => ?_⟩
    · obtain ⟨t0, t1, i0, i1, e1⟩ := split_abs ha.1 l1 hx
      obtain ⟨t2, t3, i2, i3, e2⟩ := split_abs ha.2 l3 hy
      have := p.mem t0 (rel.rot.a.x * t1) t2 (rel.rot.a.x * t3) i0 (ab m i1) i2 (ab m i3)
      convert this using 1
      ext
      · simp [boxFrame, h0]; linear_combination (-t1) * hu - e1
      · simp [boxFrame, h0]; linear_combination (-t3) * hu - e2
    · obtain ⟨σ0, σ1, σ2, σ3, e1, e2, k0, k1, k2, k3⟩ := key d
      rw [e1, k0.pos hd, k1.mul_of_pos m hd]; ring
    · obtain ⟨σ0, σ1, σ2, σ3, e1, e2, k0, k1, k2, k3⟩ := key d
      rw [e1, k0.neg hd, k1.mul_of_neg m hd]; ring
    · obtain ⟨σ0, σ1, σ2, σ3, e1, e2, k0, k1, k2, k3⟩ := key d
      rw [e2, k2.pos hd, k3.mul_of_pos m hd]; ring
    · obtain ⟨σ0, σ1, σ2, σ3, e1, e2, k0, k1, k2, k3⟩ := key d
      rw [e2, k2.neg hd, k3.mul_of_neg m hd]; ring

/-- an invariant for the search between two boxes under any rotation -/
theorem box_invariant (a b : Box2d K) (rel : Transform2d K) {f : K}
    (ha : 0 < a.halfsize.x ∧ 0 < a.halfsize.y) (hb : 0 < b.halfsize.x ∧ 0 < b.halfsize.y)
    (hr : rel.rot.IsUnit) (hf : 0 < f) (hs : rel.scale = ⟨f, f⟩) (h : ConvexPair (K := K) a b rel)
    (ho : rel.pos ≠ 0) (h0 : (0 : V2 K) ∉ minkDiff (Region.pts a) (placed rel b)) :
    ∃ I : V2 K → V2 K → List (V2 K) → Prop,
      Kept (minkDiff (Region.pts a) (placed rel b))
        (extremePoint (LocalMinkowskiDiff2d.mk a b rel)) I ∧
      (∀ d l pts, I d l pts → EndsOk (minkDiff (Region.pts a) (placed rel b)) pts) ∧
      I (-(extremePoint (LocalMinkowskiDiff2d.mk a b rel) rel.pos))
        (extremePoint (LocalMinkowskiDiff2d.mk a b rel) rel.pos)
        [extremePoint (LocalMinkowskiDiff2d.mk a b rel) rel.pos] := by
  by_cases hpar : rel.rot.a.x = 0 ∨ rel.rot.a.y = 0
  · obtain ⟨X, Y, hR⟩ := rectOk_box a b rel ha hb hr hpar hf hs h
    exact ⟨_, RState.kept hR h0, fun _ _ _ hB => hB.endsOk, .init⟩
  · push Not at hpar
    obtain ⟨F, hF, hq⟩ := boxFrame_ok a b rel ha hb hr hpar hf hs h ho
    exact ⟨_, BState.kept h0 fun d => (h.support d).1, fun _ _ _ hB => hB.endsOk,
      hq ▸ BState.init F hF⟩

end

section
variable {K : Type} [Field K] [LinearOrder K] [IsStrictOrderedRing K] [FloatExtra K]
  [ExactFloat K]

theorem pos_ne {o : V2 K} (ho : 1 / 2 ^ 23 ≤ lengthSq o) : o ≠ 0 := by
  rintro rfl
  have : (lengthSq (0 : V2 K)) = 0 := by simp [lengthSq_def]
  rw [this] at ho
  have : (0 : K) < 1 / 2 ^ 23 := by positivity
  linarith

theorem initialDirection_pos {o : V2 K} (ho : 1 / 2 ^ 23 ≤ lengthSq o) : initialDirection o = o := by
  rw [initialDirection, if_neg]
  rw [ExactFloat.epsilon_eq]
  exact not_lt.2 ho

/-- Two boxes with positive sizes under any rotation and uniform scale, that share no point:
`distance_to` returns a shortest vector that brings them into contact.
(`2^-23` is the smallest squared centre distance for which the search starts towards the other
box.) -/
theorem C44_box_box_shortest (a b : Box2d K) (rel : Transform2d K) {f : K}
    (ha : 0 < a.halfsize.x ∧ 0 < a.halfsize.y) (hb : 0 < b.halfsize.x ∧ 0 < b.halfsize.y)
    (hr : rel.rot.IsUnit) (hf : 0 < f) (hs : rel.scale = ⟨f, f⟩) (ho : 1 / 2 ^ 23 ≤ lengthSq rel.pos)
    (hres : Resolvable (K := K) a b rel) (hn : ¬ Touch (Region.pts a) (placed rel b)) :
    ∃ v, distanceToRel a b rel = .ok (some v) ∧ Touch (shift v (Region.pts a)) (placed rel b) ∧
      ∀ w, Touch (shift w (Region.pts a)) (placed rel b) → lengthSq v ≤ lengthSq w := by
  have h : ConvexPair (K := K) a b rel := convexPair_box_box _ _ _ ⟨ha.1.le, ha.2.le⟩
    ⟨hb.1.le, hb.2.le⟩ ⟨f, hf.le, similarity_transform2d _ _ hr hs⟩
  have h0 : (0 : V2 K) ∉ minkDiff (Region.pts a) (placed rel b) := fun h0 => hn (touch_iff.2 h0)
  obtain ⟨I, hK, hE, hI⟩ := box_invariant a b rel ha hb hr hf hs h (pos_ne ho) h0
  obtain ⟨o, hd'⟩ := (C33_rel_no_panic a b rel).2.2
  cases o with
  | none => exact absurd ((C43_hit_touch h hres).1 hd') hn
  | some v =>
    refine ⟨v, hd', C43_distance_to_contact h v hd', ?_⟩
    obtain ⟨G, hR, hG⟩ := hres.resolved
    set S := extremePoint (LocalMinkowskiDiff2d.mk a b rel) with hS
    set d0 := initialDirection (applyOrigin rel) with hd0
    have hd : d0 ≠ 0 := initialDirection_ne _
    have hq0 : rel.pos = d0 := by
      rw [hd0, show applyOrigin rel = rel.pos from rfl, initialDirection_pos ho]
    rw [hq0] at hI
    have hc' : Except.map (fun r => if r.1 then none else some r.2)
      (gjkDistance S iterationLimit (-(S d0)) (S d0) [S d0]) = .ok (some v) := hd'
    generalize hr : gjkDistance S iterationLimit (-(S d0)) (S d0) [S d0] = R at hc'
    cases R with
    | error e => cases hc'
    | ok r =>
      obtain ⟨r1, r2⟩ := r
      simp only [Except.map, Except.ok.injEq] at hc'
      cases r1 with
      | true => simp at hc'
      | false =>
        simp only [Bool.false_eq_true, if_false, Option.some.injEq] at hc'
        subst hc'
        have hS0 : ∀ p ∈ [S d0], ∃ d, d ≠ 0 ∧ p = S d := by
          intro p hp; rw [List.mem_singleton.1 hp]; exact ⟨d0, hd, rfl⟩
        rcases gjkDistance_trace hK hR h0 h.support hG
          iterationLimit [S d0] _ _ _ (.one _ ⟨d0, hd, (h.support d0).2⟩ (h.support d0).1)
          hI (List.nodup_singleton _) hS0
          (by intro p hp; rw [List.mem_singleton.1 hp]; exact hG _) hS0 r2 hr with h1 | h1
        · intro w hw
          have := h1.nearest h0 zero_le_one le_rfl hE _
            (shift_touch_iff.1 hw)
          rwa [lengthSq_neg, one_pow, one_mul] at this
        · exact absurd h1 (not_many (few_box a) (few_box b) (by
          show 4 * 4 < 1 + 20
          norm_num))

/-- The same for `sdfv`, whose vector is a shortest one up to one percent. -/
theorem C44_box_box_sdfv (a b : Box2d K) (rel : Transform2d K) {f : K}
    (ha : 0 < a.halfsize.x ∧ 0 < a.halfsize.y) (hb : 0 < b.halfsize.x ∧ 0 < b.halfsize.y)
    (hr : rel.rot.IsUnit) (hf : 0 < f) (hs : rel.scale = ⟨f, f⟩) (ho : 1 / 2 ^ 23 ≤ lengthSq rel.pos)
    (hres : Resolvable (K := K) a b rel) (hn : ¬ Touch (Region.pts a) (placed rel b)) :
    ∃ v, sdfvRel a b rel = .ok (false, v) ∧ Touch (shift v (Region.pts a)) (placed rel b) ∧
      ∀ w, Touch (shift w (Region.pts a)) (placed rel b) →
        (99 / 100) ^ 2 * lengthSq v ≤ lengthSq w := by
  have h : ConvexPair (K := K) a b rel := convexPair_box_box _ _ _ ⟨ha.1.le, ha.2.le⟩
    ⟨hb.1.le, hb.2.le⟩ ⟨f, hf.le, similarity_transform2d _ _ hr hs⟩
  have h0 : (0 : V2 K) ∉ minkDiff (Region.pts a) (placed rel b) := fun h0 => hn (touch_iff.2 h0)
  obtain ⟨I, hK, hE, hI⟩ := box_invariant a b rel ha hb hr hf hs h (pos_ne ho) h0
  obtain ⟨⟨c, v⟩, hd'⟩ := C34_sdfv_no_panic h hres
  cases c with
  | true => exact absurd ((C43_hit_touch h hres).2 v hd') hn
  | false =>
    refine ⟨v, hd', C43_sdfv_contact h v hd', ?_⟩
    obtain ⟨G, hR, hG⟩ := hres.resolved
    set S := extremePoint (LocalMinkowskiDiff2d.mk a b rel) with hS
    set d0 := initialDirection (applyOrigin rel) with hd0
    have hd : d0 ≠ 0 := initialDirection_ne _
    have hq0 : rel.pos = d0 := by
      rw [hd0, show applyOrigin rel = rel.pos from rfl, initialDirection_pos ho]
    rw [hq0] at hI
    have hS0 : ∀ p ∈ [S d0], ∃ d, d ≠ 0 ∧ p = S d := by
      intro p hp; rw [List.mem_singleton.1 hp]; exact ⟨d0, hd, rfl⟩
    have ht : (99 / 100 : K) ≤ 1 - FloatExtra.tol := by rw [ExactFloat.tol_eq]; norm_num
    have ht1 : (1 - FloatExtra.tol : K) ≤ 1 := by rw [ExactFloat.tol_eq]; norm_num
    rcases gjkFull_trace hK hR h0 h.support hG
      iterationLimit true [S d0] _ _ _ (.one _ ⟨d0, hd, (h.support d0).2⟩ (h.support d0).1)
      hI (List.nodup_singleton _) hS0
      (by intro p hp; rw [List.mem_singleton.1 hp]; exact hG _) hS0 v hd' with h1 | h1
    · intro w hw
      have := h1.nearest h0 (le_trans (by norm_num) ht) ht1 hE _
        (shift_touch_iff.1 hw)
      rw [lengthSq_neg] at this
      exact (mul_le_mul_of_nonneg_right (pow_le_pow_left₀ (by norm_num) ht 2)
        (lengthSq_nonneg v)).trans this
    · exact absurd h1 (not_many (few_box a) (few_box b) (by
          show 4 * 4 < 1 + 20
          norm_num))

end

section
attribute [local instance] ratFloat
attribute [local instance] ratFloat_exact

/-- a concrete pair that meets the hypotheses of `C44_box_box_shortest` and `C44_box_box_sdfv`, so
`(69/5, 0)` is a shortest vector -/
example :
    let a : Box2d ℚ := ⟨⟨7, 4⟩⟩
    let b : Box2d ℚ := ⟨⟨6, 7⟩⟩
    let rel : Transform2d ℚ := ⟨⟨30, 1 / 2⟩, ⟨⟨3 / 5, 4 / 5⟩⟩, ⟨1, 1⟩⟩
    distanceToRel a b rel = .ok (some ⟨69 / 5, 0⟩) ∧
    ∀ w, Touch (shift w (Region.pts a)) (placed rel b) → (69 / 5) ^ 2 ≤ lengthSq w := by
  intro a b rel
  have hd : distanceToRel a b rel = .ok (some ⟨69 / 5, 0⟩) := by decide +kernel
  have hres : Resolvable (K := ℚ) a b rel :=
     resolvable_box_box _ _ _ (n := 2) (q := 5) (by norm_num) (by norm_num) (by norm_num)
      ⟨14, 8, by ext <;> norm_num [a]⟩ ⟨12, 14, by ext <;> norm_num [b]⟩
      ⟨60, 1, by ext <;> norm_num [rel]⟩ ⟨3, 4, by ext <;> norm_num [rel]⟩ rfl
  have hn : ¬ Touch (Region.pts a) (placed rel b) := by
    rintro ⟨p, ⟨hp, _⟩, q, ⟨h1, h2⟩, rfl⟩
    have h3 := (abs_le.1 hp).2
    have h4 := (abs_le.1 h1).1
    have h5 := (abs_le.1 h2).2
    simp [a, b, rel, apply, Rotor2d.rotate] at h3 h4 h5
    linarith
  obtain ⟨v, h1, _, h3⟩ := C44_box_box_shortest a b rel (f := 1) (by norm_num [a]) (by norm_num [b])
    (by norm_num [Rotor2d.IsUnit, rel]) one_pos rfl
    (by norm_num [rel, lengthSq_def]) hres hn
  rw [hd] at h1
  simp only [Except.ok.injEq, Option.some.injEq] at h1
  subst h1
  refine ⟨hd, fun w hw => ?_⟩
  have := h3 w hw
  simpa [lengthSq_def, ← pow_two] using this

end
end Auburn
