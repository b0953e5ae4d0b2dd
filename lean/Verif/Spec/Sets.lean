import Verif.Lib.V2
import Verif.Model.Detect2d
import Mathlib.Analysis.Convex.Hull

/-!
# Specification: shapes as point sets

Independent of the algorithms of the crate.  All theorems about 2D geometry speak about these sets.
-/

set_option linter.unusedSectionVars false

namespace Auburn

open V2

/-- what a shape *is*: its set of points in its own space -/
class Region (S : Type) (K : outParam Type) where
  pts : S → Set (V2 K)

section
variable {K : Type} [Field K] [LinearOrder K] [IsStrictOrderedRing K]

/-- the closed disc of the given radius around the origin (empty for a negative radius) -/
instance : Region (Ball K) K where
  pts b := {p | 0 ≤ b.radius ∧ lengthSq p ≤ b.radius ^ 2}
/-- the origin -/
instance : Region (Point K) K where
  pts _ := {0}
/-- the closed rectangle -/
instance : Region (Box2d K) K where
  pts b := {p | |p.x| ≤ b.halfsize.x ∧ |p.y| ≤ b.halfsize.y}
/-- all points within `radius` of the rectangle -/
instance : Region (RoundedBox2d K) K where
  pts r := {p | 0 ≤ r.radius ∧
    ∃ q ∈ Region.pts (Box2d.mk r.halfsize), lengthSq (p - q) ≤ r.radius ^ 2}
/-- the convex hull of the vertices (the documentation of `Poly2d` treats the point list as a
convex polygon given by its vertices in any order) -/
instance : Region (Poly2d K) K where
  pts s := convexHull K {p | p ∈ s.points}
/-- the wrapped shape -/
instance : Region (Shape2d K) K where
  pts
    | .ball b => Region.pts b
    | .box b => Region.pts b
    | .poly p => Region.pts p

/-- the set `A` moved by `v` -/
def shift (v : V2 K) (A : Set (V2 K)) : Set (V2 K) := {p | ∃ a ∈ A, p = a + v}

/-- a shape placed by a transformation -/
def placed {S T : Type} [Region S K] [Transformation2d T K] (t : T) (s : S) : Set (V2 K) :=
  {p | ∃ q ∈ Region.pts s, p = Transformation2d.apply t q}

/-- the region of a collider in world space -/
def Collider2d.region {S T : Type} [Region S K] [Transformation2d T K] (c : Collider2d S T) :
    Set (V2 K) := placed c.transform c.shape

/-- the two sets share a point -/
def Touch (A B : Set (V2 K)) : Prop := ∃ p, p ∈ A ∧ p ∈ B

/-- some line has `A` weakly on one side and `B` weakly on the other: for convex sets with
interior this is disjointness of the interiors -/
def Separable (A B : Set (V2 K)) : Prop :=
  ∃ n : V2 K, n ≠ 0 ∧ ∀ a ∈ A, ∀ b ∈ B, n.dot a ≤ n.dot b

/-- `A` and `B` overlap robustly: they keep sharing a point under every sufficiently small
displacement of `A` (for convex sets with interior: the interiors meet) -/
def Overlap (A B : Set (V2 K)) : Prop :=
  ∃ r : K, 0 < r ∧ ∀ v : V2 K, lengthSq v ≤ r ^ 2 → Touch (shift v A) B

/-- `d` is the distance from the point `p` to the set `S` (attained) -/
def IsDist (p : V2 K) (S : Set (V2 K)) (d : K) : Prop :=
  0 ≤ d ∧ (∃ q ∈ S, lengthSq (p - q) = d ^ 2) ∧ ∀ q ∈ S, d ^ 2 ≤ lengthSq (p - q)

/-- `q` is a point of `S` nearest to `p` -/
def IsNearest (p : V2 K) (S : Set (V2 K)) (q : V2 K) : Prop :=
  q ∈ S ∧ ∀ q' ∈ S, lengthSq (p - q) ≤ lengthSq (p - q')

/-- `d` is the distance between two sets (attained) -/
def IsSetDist (A B : Set (V2 K)) (d : K) : Prop :=
  0 ≤ d ∧ (∃ a ∈ A, ∃ b ∈ B, lengthSq (a - b) = d ^ 2) ∧
    ∀ a ∈ A, ∀ b ∈ B, d ^ 2 ≤ lengthSq (a - b)

/-- displacement `v` of `A` brings `A` and `B` into exact touching contact: they share a point but
can be separated by a line -/
def TouchingAfter (v : V2 K) (A B : Set (V2 K)) : Prop :=
  Touch (shift v A) B ∧ Separable (shift v A) B

/-- `e` is a farthest point of `S` in direction `d` -/
def IsExtreme (S : Set (V2 K)) (d e : V2 K) : Prop := e ∈ S ∧ ∀ p ∈ S, d.dot p ≤ d.dot e

/-- Separable sets never overlap robustly. -/
theorem Separable.not_overlap {A B : Set (V2 K)} (h : Separable A B) : ¬ Overlap A B := by
  obtain ⟨n, hn, hsep⟩ := h
  rintro ⟨r, hr, hov⟩
  have hN := lengthSq_pos.2 hn
  have hden : 0 < 1 + lengthSq n := by linarith
  set s := r / (1 + lengthSq n) with hs
  have hspos : 0 < s := div_pos hr hden
  have hle : lengthSq (scale (-s) n) ≤ r ^ 2 := by
    rw [lengthSq_scale, neg_sq, hs, div_pow, div_mul_eq_mul_div, div_le_iff₀ (by positivity)]
    have : lengthSq n ≤ (1 + lengthSq n) ^ 2 := by nlinarith
    nlinarith [sq_nonneg r]
  obtain ⟨p, ⟨a, ha, hpa⟩, hpB⟩ := hov (scale (-s) n) hle
  have h1 := hsep a ha p hpB
  rw [hpa, dot_add, dot_scale, dot_self] at h1
  nlinarith

end

end Auburn
