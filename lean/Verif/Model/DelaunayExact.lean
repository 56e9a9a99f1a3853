import Verif.Model.Delaunay
import Verif.Model.Geo
import Mathlib.Algebra.Order.Monoid.WithTop

/-!
# The Delaunay construction with exact arithmetic

The coordinates are elements of an ordered field.  The Euclidean norm `norm`, the simulation of
simplicity `sim` (used for the first four points only) and the Hilbert curve remain parameters.
-/

namespace Tet
variable {K H : Type} [Field K] [LinearOrder K]

/-- `in_sphere`, src/tet/geo.rs:145-169, from the positions; the position of the ghost vertex is not used. -/
def sphereSign (pos : VId → Option (Pt K)) (id : VId) (q : V4) : K :=
  let ori := fun v => if v = GHOST then some (⟨0, 0, 0⟩ : Pt K) else pos v
  (do
    let p0 ← ori q.1
    let p1 ← ori q.2.1
    let p2 ← ori q.2.2.1
    let p3 ← ori q.2.2.2
    let p4 ← pos id
    return (if q.1 = GHOST then orient3d p3 p2 p1 p4
      else if q.2.1 = GHOST then orient3d p2 p3 p0 p4
      else if q.2.2.1 = GHOST then orient3d p1 p0 p3 p4
      else if q.2.2.2 = GHOST then orient3d p0 p1 p2 p4
      else Tet.inSphere p0 p1 p2 p3 p4) : Option K).getD 0

/-- The tests of the insertion; `above` is not used there (`assert_star` is not set and nothing is locked). -/
def exactTests (pos : VId → Option (Pt K)) (id : VId) : CavityTests :=
  ⟨fun q => if 0 < sphereSign pos id q then 1 else if sphereSign pos id q < 0 then -1 else 0,
    fun t => ((do
      let a ← pos t.1
      let b ← pos t.2.1
      let c ← pos t.2.2
      let d ← pos id
      return decide (0 < orient3d a b c d) : Option Bool)).getD false⟩

/-- The computations of src/tet.rs:2347-2546 in the field. -/
def exactGeo (norm : Pt K → K) (tol : K) (sim : Pt K → Pt K → Pt K → Pt K → Bool) (key : List (Pt K) → Pt K → H)
    (leH : H → H → Bool) : DelaunayGeo (Pt K) (WithTop K) K H where
  tests := exactTests
  dist2 p q := (((p.sub q).norm2 : K) : WithTop K)
  zero := ((0 : K) : WithTop K)
  infinity := ⊤
  leD a b := decide (a ≤ b)
  ltD a b := decide (a < b)
  height p0 p1 p2 := norm ((p1.sub p0).cross (p2.sub p0)) /
    max (max (norm (p1.sub p0)) (norm (p2.sub p1))) (norm (p0.sub p2))
  tall r := decide (tol ≤ r)
  leR a b := decide (a ≤ b)
  thick p0 p1 p2 p3 :=
    let volx6 := -((p1.sub p0).cross (p2.sub p0)).dot (p3.sub p0)
    let area := fun pa pb pc pd : Pt K => norm ((pb.sub pa).cross (pd.sub pc))
    let maxArea := [area p3 p2 p3 p1, area p2 p3 p2 p0, area p1 p0 p1 p3, area p0 p1 p2 p3,
      area p0 p2 p1 p3, area p0 p3 p1 p2].foldl max (area p0 p1 p0 p2)
    decide (tol ≤ max volx6 (-volx6) / maxArea)
  key := key
  leK := leH
  orientSim := sim
  centre ps :=
    let weight := fun q : Pt K × Pt K × Pt K × Pt K => orient3d q.1 q.2.1 q.2.2.1 q.2.2.2
    Pt.smul ((ps.map weight).sum)⁻¹
      (ps.foldl (fun s q => s.add (Pt.smul (weight q) (Pt.centroid4 q))) ⟨0, 0, 0⟩)
  orientOk c pos q := ((do
    let ori := fun v => if v = GHOST then some c else pos v
    let p0 ← ori q.1
    let p1 ← ori q.2.1
    let p2 ← ori q.2.2.1
    let p3 ← ori q.2.2.2
    return decide (0 < Mesh.ghostSign [q.1, q.2.1, q.2.2.1, q.2.2.2] * orient3d p0 p1 p2 p3) : Option Bool)).getD false

end Tet
