import Verif.Model.Col3d

/-!
# `src/col3d/default_impls.rs` under `cfg(minkowski)`: pairs of solid 3D shapes

The doc examples of `col3d/detection` and the unit tests of `box3d.rs` (lines 285-316) use these
implementations.  They are compiled only with `cfg(minkowski)`, and the traits `MinkowskiSum`,
`MinkowskiNegationIsIdentity` and `MinkowskiDifference` they need are not defined at this commit.
Simplification: `minkowski_difference` is read as `minkowski_sum` whenever the second shape is its own
reflection, which is what the marker `MinkowskiNegationIsIdentity` says.
-/

namespace Auburn

/-- trait `MinkowskiSum`, as used in col3d/shape/box3d.rs:55-63 -/
class MinkowskiSum3d (A B : Type) (C : outParam Type) where
  minkowskiSum : A → B → C
/-- marker trait `MinkowskiNegationIsIdentity`, as used in col3d/shape/box3d.rs:53 -/
class MinkowskiNegationIsIdentity3d (A : Type) : Prop
/-- trait `MinkowskiDifference`, as used in col3d/default_impls.rs:20-25 -/
class MinkowskiDifference3d (A B : Type) (C : outParam Type) where
  minkowskiDifference : A → B → C

/-- `A - B = A + (-B) = A + B` when `B` is its own reflection (col3d/shape/box3d.rs:53) -/
instance {A B C : Type} [MinkowskiSum3d A B C] [MinkowskiNegationIsIdentity3d B] :
    MinkowskiDifference3d A B C where
  minkowskiDifference := MinkowskiSum3d.minkowskiSum

section
variable {F : Type} [Zero F] [One F] [Add F] [Sub F] [Neg F] [Mul F] [Div F] [LT F] [LE F]
  [DecidableLT F] [DecidableLE F] [FloatExtra F]

/-- box3d.rs:55-63 -/
instance : MinkowskiSum3d (Box3d F) (Box3d F) (Box3d F) where
  minkowskiSum := Box3d.minkowskiSum
/-- box3d.rs:53 -/
instance : MinkowskiNegationIsIdentity3d (Box3d F) := ⟨⟩

variable {A B C T : Type} [MinkowskiDifference3d A B C]

/-- default_impls.rs:17-27 -/
instance (priority := low) pairCollides3d [DefaultCol3dImpls A] [Transformation3d T F]
    [CollidesRel3d C (Point F) T] : CollidesRel3d A B T where
  collidesRel self t rel :=
    CollidesRel3d.collidesRel (MinkowskiDifference3d.minkowskiDifference self t) (Point.mk : Point F) rel
/-- default_impls.rs:39-49 -/
instance (priority := low) pairPenetrates3d [DefaultCol3dImpls A] [Transformation3d T F]
    [PenetratesRel3d C (Point F) T F] :
    PenetratesRel3d A B T F where
  penetratesRel self t rel :=
    PenetratesRel3d.penetratesRel (MinkowskiDifference3d.minkowskiDifference self t) (Point.mk : Point F) rel
/-- default_impls.rs:51-61 -/
instance (priority := low) pairSdf3d [DefaultCol3dImpls A] [Transformation3d T F]
    [SdfRel3d C (Point F) T F] : SdfRel3d A B T F where
  sdfRel self t rel :=
    SdfRel3d.sdfRel (MinkowskiDifference3d.minkowskiDifference self t) (Point.mk : Point F) rel
/-- default_impls.rs:73-83 -/
instance (priority := low) pairSdfv3d [DefaultCol3dImpls A] [Transformation3d T F]
    [SdfvRel3d C (Point F) T F] : SdfvRel3d A B T F where
  sdfvRel self t rel :=
    SdfvRel3d.sdfvRel (MinkowskiDifference3d.minkowskiDifference self t) (Point.mk : Point F) rel

end
end Auburn
