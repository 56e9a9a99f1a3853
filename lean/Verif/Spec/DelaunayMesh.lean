import Verif.Spec.Geo
import Verif.Spec.Steps

/-!
# Delaunay meshes
-/

namespace Tet.Spec
variable {K V T : Type} [Field K] [LinearOrder K]

/-- The mesh is a Delaunay mesh of its vertices, without ties. -/
structure Delaunay (m : Mesh (Pt K) V T) : Prop where
  /-- it is not empty -/
  solid : ∃ w a b c d pa pb pc pd, m.tet4 w = some (a, b, c, d) ∧ At m a pa ∧ At m b pb ∧ At m c pc ∧ At m d pd
  /-- the orientation of tets is positive -/
  positive : ∀ w a b c d pa pb pc pd, m.tet4 w = some (a, b, c, d) → At m a pa → At m b pb → At m c pc → At m d pd →
    0 < orient3d pa pb pc pd
  /-- all other vertices are outside of the circumscribed sphere of a tet -/
  empty : ∀ w a b c d pa pb pc pd, m.tet4 w = some (a, b, c, d) → At m a pa → At m b pb → At m c pc → At m d pd →
    ∀ v pv, InMesh m v → At m v pv → v ∉ [a, b, c, d] → ∀ o r2, OnSphere o r2 [pa, pb, pc, pd] → r2 < (pv.sub o).norm2
  /-- all other vertices are behind the triangle of a ghost tet -/
  hull : ∀ w a b c pa pb pc, m.tet4 w = some (a, b, c, GHOST) → At m a pa → At m b pb → At m c pc →
    ∀ v pv, InMesh m v → At m v pv → v ∉ [a, b, c] → orient3d pa pb pc pv < 0

/-- The point is neither on the circumscribed sphere of a tet nor in the plane of a triangle of the hull. -/
structure Off (m : Mesh (Pt K) V T) (p : Pt K) : Prop where
  spheres : ∀ w a b c d pa pb pc pd, m.tet4 w = some (a, b, c, d) → At m a pa → At m b pb → At m c pc → At m d pd →
    ∀ o r2, ¬ OnSphere o r2 [pa, pb, pc, pd, p]
  planes : ∀ w a b c pa pb pc, m.tet4 w = some (a, b, c, GHOST) → At m a pa → At m b pb → At m c pc →
    ¬ Coplanar [pa, pb, pc, p]

/-- No four points are in a plane and no five are on a sphere. -/
structure GeneralPosition (ps : List (Pt K)) : Prop where
  planes : ∀ l : List (Pt K), l.length = 4 → l.Subperm ps → ¬ Coplanar l
  spheres : ∀ l : List (Pt K), l.length = 5 → l.Subperm ps → ∀ o r2, ¬ OnSphere o r2 l

/-- The points are far enough from being equal, on a line or in a plane: heights of triangles and of tets are not
below the tolerance. -/
structure Wide (norm : Pt K → K) (tol : K) (ps : List (Pt K)) : Prop where
  edges : ∀ a b : Pt K, [a, b].Subperm ps → 0 < norm (b.sub a)
  triangles : ∀ a b c : Pt K, [a, b, c].Subperm ps → ∀ e ∈ [b.sub a, c.sub b, a.sub c],
    tol * norm e ≤ norm ((b.sub a).cross (c.sub a))
  tets : ∀ a b c d : Pt K, [a, b, c, d].Subperm ps → ∀ p ∈ [a, b, c, d], ∀ q ∈ [a, b, c, d], ∀ r ∈ [a, b, c, d],
    ∀ s ∈ [a, b, c, d], tol * norm ((q.sub p).cross (s.sub r)) ≤ |orient3d a b c d|

end Tet.Spec
