import Verif.Spec.Recover
import Verif.Model.Geo

/-!
# Tets that fill space

A ghost tet `(a, b, c, GHOST)` stands for everything that can be seen from the center of the mesh through its
triangle: it is bounded by the plane of the triangle and the planes through its edges and the center.
-/

namespace Tet.Spec
variable {K V T : Type} [Field K] [LinearOrder K]

/-- The sign that `orient_3d` gives a tet with this triangle and, as its fourth vertex, a vertex at `p`. -/
def FaceSide (m : Mesh (Pt K) V T) (t : V3) (p : Pt K) (s : K) : Prop :=
  ∃ a b c, m.idxOri t.1 = some a ∧ m.idxOri t.2.1 = some b ∧ m.idxOri t.2.2 = some c ∧
    s = Mesh.ghostSign [t.1, t.2.1, t.2.2] * orient3d a b c p

/-- The point is strictly inside the tet: on the inner side of each of its triangles. -/
def Within (m : Mesh (Pt K) V T) (q : V4) (p : Pt K) : Prop :=
  ∀ a b c d, SameTet q (a, b, c, d) → ∃ s, FaceSide m (a, b, c) p s ∧ 0 < s

/-- The point is in the plane of no triangle of the mesh (planes through an edge and the center if the triangle has the
ghost vertex). -/
def OffPlanes (m : Mesh (Pt K) V T) (p : Pt K) : Prop := ∀ t, HasTri m t → ¬ FaceSide m t p 0

/-- All tets are positively oriented. -/
def AllPositive (m : Mesh (Pt K) V T) : Prop := ∀ a b c d, HasTet m (a, b, c, d) → ∃ s, m.orient a b c d = some s ∧ 0 < s

/-- The number of tets that the point is strictly inside of. -/
noncomputable def layers (m : Mesh (Pt K) V T) (p : Pt K) : Nat :=
  {k : TId | ∃ q, m.tet4 (Mesh.walkerFromTetId k) = some q ∧ Within m q p}.ncard

/-- All tets are positively oriented and they fill space: a point in the plane of no triangle is in exactly one tet. -/
structure Tiles (m : Mesh (Pt K) V T) : Prop where
  positive : AllPositive m
  covered : ∀ p, OffPlanes m p → ∃ q, HasTet m q ∧ Within m q p
  once : ∀ p, OffPlanes m p → ∀ q q', HasTet m q → HasTet m q' → Within m q p → Within m q' p → SameTet q q'

/-- There are ids left even if an edge joins every pair of vertices. -/
def Spacious {P : Type} (m : Mesh P V T) : Prop :=
  ∃ nV nT, m.numVertices = some nV ∧ m.numTets = some nT ∧ nT + nV * (nV + 1) / 2 < idMax

end Tet.Spec
