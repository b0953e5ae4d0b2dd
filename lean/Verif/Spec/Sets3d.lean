import Verif.Lib.V3
import Verif.Model.Col3d

/-!
# Specification: 3D shapes as point sets, nearest points

Independent of the algorithms of the crate.
-/

set_option linter.unusedSectionVars false

namespace Auburn
open V3

section
variable {K : Type} [Field K] [LinearOrder K] [IsStrictOrderedRing K]

/-- the closed cuboid with half sizes `h` -/
def cuboid (h : V3 K) : Set (V3 K) := {p | |p.x| ≤ h.x ∧ |p.y| ≤ h.y ∧ |p.z| ≤ h.z}
/-- its interior -/
def cuboidInterior (h : V3 K) : Set (V3 K) := {p | |p.x| < h.x ∧ |p.y| < h.y ∧ |p.z| < h.z}
/-- its surface -/
def cuboidSurface (h : V3 K) : Set (V3 K) :=
  {p | p ∈ cuboid h ∧ (|p.x| = h.x ∨ |p.y| = h.y ∨ |p.z| = h.z)}
/-- the closed ball around the origin -/
def ball3 (r : K) : Set (V3 K) := {p | 0 ≤ r ∧ lengthSq p ≤ r ^ 2}
/-- its interior -/
def ball3Interior (r : K) : Set (V3 K) := {p | 0 < r ∧ lengthSq p < r ^ 2}
/-- the sphere -/
def sphere3 (r : K) : Set (V3 K) := {p | lengthSq p = r ^ 2}
/-- `q` is a point of `S` nearest to `p` -/
def IsNearest3 (p : V3 K) (S : Set (V3 K)) (q : V3 K) : Prop :=
  q ∈ S ∧ ∀ q' ∈ S, lengthSq (p - q) ≤ lengthSq (p - q')
/-- `s` is the signed distance of `p` from the surface `S` of a body with interior `I`: its size is
the distance to the surface, and it is negative exactly in the interior -/
def IsSignedDist3 (p : V3 K) (I S : Set (V3 K)) (s : K) : Prop :=
  (s < 0 ↔ p ∈ I) ∧ (∃ q ∈ S, lengthSq (p - q) = s ^ 2) ∧ ∀ q ∈ S, s ^ 2 ≤ lengthSq (p - q)
/-- `e` is a farthest point of `S` in direction `d` -/
def IsExtreme3 (S : Set (V3 K)) (d e : V3 K) : Prop := e ∈ S ∧ ∀ p ∈ S, d.dot p ≤ d.dot e

/-- signed distance is unique -/
theorem IsSignedDist3.unique {p : V3 K} {I S : Set (V3 K)} {s s' : K}
    (h : IsSignedDist3 p I S s) (h' : IsSignedDist3 p I S s') : s = s' := by
  obtain ⟨a1, ⟨q, hq, a2⟩, a3⟩ := h
  obtain ⟨b1, ⟨r, hr, b2⟩, b3⟩ := h'
  have e : s ^ 2 = s' ^ 2 := le_antisymm (b2 ▸ a3 r hr) (a2 ▸ b3 q hq)
  rcases sq_eq_sq_iff_eq_or_eq_neg.1 e with h | h
  · exact h
  · by_cases hI : p ∈ I
    · have := a1.2 hI; have := b1.2 hI; linarith
    · have := not_lt.1 (a1.not.2 hI); have := not_lt.1 (b1.not.2 hI); linarith

end
end Auburn
