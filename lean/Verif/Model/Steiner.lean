import Verif.Model.Recover
import Verif.Model.DelaunayExact
import Verif.Model.FlipIn

/-!
# Model of the recovery of edges with Steiner points (src/tet.rs:2739-2815, src/tet/geo.rs:430-461)

In exact arithmetic.
-/

namespace Tet
variable {K V T : Type} [Field K] [LinearOrder K]

/-- The tests of `point_cavity`, src/tet.rs:1545, 1599-1605, 1665, for the vertex `id` of the mesh; `in_sphere` is
src/tet/geo.rs:145-169 and `orient_3d` is src/tet/geo.rs:75-81. -/
def pointTests (m : Mesh (Pt K) V T) (id : VId) : CavityTests :=
  ⟨(exactTests m.position id).inSphere, fun t => (m.orient t.1 t.2.1 t.2.2 id).any fun s => decide (0 < s)⟩

/-- `p0 + (p1 - p0) * inter.bary[1] / sum`, src/tet/geo.rs:440, 456-459 -/
def EdgeInter.point (p0 p1 : Pt K) (inter : EdgeInter K) : Pt K :=
  let sum := inter.bary.1 + inter.bary.2
  ⟨p0.x + (p1.x - p0.x) * inter.bary.2 / sum, p0.y + (p1.y - p0.y) * inter.bary.2 / sum,
    p0.z + (p1.z - p0.z) * inter.bary.2 / sum⟩

namespace Mesh

/-- `edge_intersections`, src/tet/geo.rs:430-443 -/
def edgePoints (m : Mesh (Pt K) V T) (fuel steps : Nat) (v0 v1 : VId) : Option (List (EdgeOrTri × Pt K)) := do
  let p0 ← m.idx v0
  let p1 ← m.idx v1
  let inters ← m.edgeIntersections fuel steps v0 v1
  return inters.map fun x => (x.2.other, x.2.point p0 p1)

/-- `edge_mid_intersection`, src/tet/geo.rs:447-461: the crossed element and the point -/
def edgeMidIntersection (m : Mesh (Pt K) V T) (fuel steps : Nat) (v0 v1 : VId) : Option (Option (EdgeOrTri × Pt K)) := do
  let p0 ← m.idx v0
  let p1 ← m.idx v1
  let inters ← m.edgeIntersections fuel steps v0 v1
  return (minByKey (fun a b => decide (a ≤ b)) (inters.map fun x => (x.2, |x.2.bary.1 - x.2.bary.2|))).map
    fun x => (x.other, x.point p0 p1)

/-- `assert_edge_removable_by_edge_steiner`, src/tet.rs:2739-2743, and `assert_edge_removable_by_tri_steiner`, 2754-2758 -/
def assertEdgeRemovable {P V T : Type} (m : Mesh P V T) (w : Walker) : Option Unit := do
  let e ← m.undirEdge w
  let ue ← m.edges.get e
  if ue.locked then none else return ()

/-- `assert_tri_removable_by_edge_steiner`, src/tet.rs:2745-2752 -/
def assertTriRemovable {P V T : Type} (m : Mesh P V T) (w : Walker) : Option Unit := do
  let locked ← m.triLocked w
  if locked then none else return ()

/-- The initial cavity of a Steiner point on an element, with the assertions, src/tet.rs:2777-2806 -/
def steinerStart {P V T : Type} (m : Mesh P V T) (fuel : Nat) : EdgeOrTri → Option (List Walker × List TId)
  | .edge e => do
    let w ← (← m.walkerFromEdge fuel e)
    m.assertEdgeRemovable w
    let ring ← m.edgeRing fuel w
    ring.forM m.assertTriRemovable
    return (ring.flatMap fun w => [w.opp, w.perm P3210], ring.map (·.tet))
  | .tri t => do
    let w ← (← m.walkerFromTri fuel t)
    let adj ← m.toAdjAe w
    m.assertTriRemovable w
    return ([w.twin, w.opp, w.perm P3210, adj.twin, adj.opp, adj.perm P3210], [w.tet, adj.tet])

/-- Putting a Steiner point into an element, src/tet.rs:2773-2808; its value is that of the vertex `v0`. -/
def insertSteiner (m : Mesh (Pt K) V T) (fuel : Nat) (v0 : VId) (other : EdgeOrTri) (point : Pt K) :
    Option (Mesh (Pt K) V T × VId) := do
  let x0 ← m.vertices.get v0
  let (vs, steiner) ← m.vertices.insert (Vertex.new invalidWalker point x0.value)
  let m := { m with vertices := vs }
  let (boundary, enclosed) ← m.steinerStart fuel other
  let (m, boundary, enclosed) ← pointCavity (pointTests m steiner) boundary enclosed [] m false true true fuel
  let (m, _) ← m.flipInVertexUnchecked steiner boundary enclosed fuel
  return (m, steiner)

/-- `recover_edge_with_steiner_points`, src/tet.rs:2768-2815; `none` also if the calls are nested deeper than `depth`. -/
def recoverEdgeWithSteiner (fuel steps : Nat) : Nat → VId × VId → Mesh (Pt K) V T → Option (Mesh (Pt K) V T × List VId)
  | 0, _, _ => none
  | depth + 1, edge, m => do
    match ← m.edgeMidIntersection fuel steps edge.1 edge.2 with
    | some (other, point) =>
      let (m, steiner) ← m.insertSteiner fuel edge.1 other point
      let (m, l1) ← recoverEdgeWithSteiner fuel steps depth (edge.1, steiner) m
      let (m, l2) ← recoverEdgeWithSteiner fuel steps depth (steiner, edge.2) m
      return (m, l1 ++ steiner :: l2)
    | none =>
      let w ← (← m.walkerFromEdge fuel edge)
      let m ← m.lockEdgeAt w
      return (m, [])

end Mesh
end Tet
