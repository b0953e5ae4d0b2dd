import Verif.Spec.Sets

/-!
# Specification: resolving a pair of shapes by a move of the first one
-/

set_option linter.unusedSectionVars false

namespace Auburn
open V2

section
variable {K : Type} [Field K] [LinearOrder K] [IsStrictOrderedRing K]

/-- The answer (flag `c`, vector `v`) of a collision query for the sets `A` (self) and `B` is right:
moving `A` by `v` brings `A` and `B` to exact touching contact, and no shorter move does:
if colliding, no shorter move separates them; if apart, no shorter move makes them touch. -/
def ResolvesLeast (c : Bool) (v : V2 K) (A B : Set (V2 K)) : Prop :=
  TouchingAfter v A B ∧
  (c = true → ∀ w, Separable (shift w A) B → lengthSq v ≤ lengthSq w) ∧
  (c = false → ∀ w, Touch (shift w A) B → lengthSq v ≤ lengthSq w)

/-- the set of points within distance `r` of `C` -/
def thick (C : Set (V2 K)) (r : K) : Set (V2 K) := {p | ∃ q ∈ C, lengthSq (p - q) ≤ r ^ 2}

/-- the points strictly closer than `r` to the centre `c` -/
def openDisc (c : V2 K) (r : K) : Set (V2 K) := {p | 0 < r ∧ lengthSq (p - c) < r ^ 2}

/-- the circle -/
def circle (r : K) : Set (V2 K) := {p | lengthSq p = r ^ 2}

/-- the boundary of an origin-centred box -/
def boxBoundary (h : V2 K) : Set (V2 K) :=
  {p | |p.x| ≤ h.x ∧ |p.y| ≤ h.y ∧ (|p.x| = h.x ∨ |p.y| = h.y)}

/-- the interior of an origin-centred box -/
def boxInterior (h : V2 K) : Set (V2 K) := {p | |p.x| < h.x ∧ |p.y| < h.y}

end
end Auburn
