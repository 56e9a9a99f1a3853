import Verif.Model.Intersect

/-!
# Model of recovering edges and triangles (src/tet.rs:2667-2737, 3232-3302, 3425-3484)

A vector that is only used as a stack is a list whose head is the last element of the source's vector.
-/

namespace Tet

/-- The tests and searches that recovering uses. -/
structure RecoverTests (P V T : Type) where
  /-- `mesh.orient_3d(..) > 0.0` -/
  pos : Mesh P V T → V4 → Bool
  /-- `mesh.edge_intersects_edge(e[0], e[1], edge[0], edge[1])`, with `edge` first here -/
  edgeEdge : VId × VId → Mesh P V T → VId × VId → Bool
  /-- `mesh.tri_intersects_edge(tri[0], tri[1], tri[2], edge[0], edge[1])`, with `edge` first here -/
  edgeTri : VId × VId → Mesh P V T → V3 → Bool
  /-- `mesh.tri_intersects_edge_sim(tri[0], tri[1], tri[2], edge[0], edge[1])` -/
  triEdge : V3 → Mesh P V T → VId × VId → Bool
  /-- `edge_intersections_raw(edge[0], edge[1]).into_iter().map(|inter| inter.other)`; the number bounds its loops -/
  edgeInters : Nat → Mesh P V T → VId × VId → Option (List EdgeOrTri)
  /-- `tri_intersections_raw(tri[0], tri[1], tri[2]).into_iter().map(|inter| inter.edge)` -/
  triInters : Nat → Mesh P V T → V3 → Option (List (VId × VId))

namespace RecoverTests
variable {P V T : Type}

/-- The closures of `recover_and_lock_edge`, src/tet.rs:2688-2693, 2709-2714 -/
def forEdge (tests : RecoverTests P V T) (edge : VId × VId) : ProgressTests P V T where
  pos := tests.pos
  edgeAddable := fun m (a, b) => decide (edge.1 ∈ [a, b]) || decide (edge.2 ∈ [a, b]) || !tests.edgeEdge edge m (a, b)
  triAddable := fun m (a, b, c) =>
    decide (edge.1 ∈ [a, b, c]) || decide (edge.2 ∈ [a, b, c]) || !tests.edgeTri edge m (a, b, c)

/-- The closures of `recover_and_lock_tri`, src/tet.rs:3275-3277 -/
def forTri (tests : RecoverTests P V T) (tri : V3) : ProgressTests P V T where
  pos := tests.pos
  edgeAddable := fun m (a, b) => decide (a ∈ [tri.1, tri.2.1, tri.2.2]) || decide (b ∈ [tri.1, tri.2.1, tri.2.2]) ||
    !tests.triEdge tri m (a, b)
  triAddable := fun _ _ => true

end RecoverTests

namespace Mesh
variable {P V T : Type}

/-- `assert_eq!(goal_index, 0)` if there is an index, src/tet.rs:2698, 2719, 3282; whether something was removed -/
def checkIndex : ProgressState P V T × Option Nat → Option (Mesh P V T × Bool)
  | (s, none) => some (s.mesh, false)
  | (s, some i) => if i = 0 then some (s.mesh, true) else none

/-- Removing one element if it is there, src/tet.rs:2684-2725, 3272-3288: the mesh and whether it is not blocked -/
def removeOne (m : Mesh P V T) (tests : ProgressTests P V T) (fuel depth : Nat) : EdgeOrTri → Option (Mesh P V T × Bool)
  | .tri t => do
    match ← m.walkerFromTri fuel t with
    | none => return (m, true)
    | some w => checkIndex (← m.progressTri tests fuel depth w [] [])
  | .edge e => do
    match ← m.walkerFromEdge fuel e with
    | none => return (m, true)
    | some w => checkIndex (← m.progressEdge tests fuel depth w [] [])

/-- The inner loop, src/tet.rs:2683-2726, 3271-3289: the mesh and `stubborn` -/
def removeStubborn (tests : ProgressTests P V T) (fuel depth : Nat) :
    List EdgeOrTri → Mesh P V T → Option (Mesh P V T × List EdgeOrTri)
  | [], m => some (m, [])
  | stub :: stubborn, m => do
    let (m, ok) ← m.removeOne tests fuel depth stub
    if ok then removeStubborn tests fuel depth stubborn m
    else return (m, stub :: stubborn)

/-- The outer loop, src/tet.rs:2679-2727, 3268-3290 -/
def removeAll (tests : ProgressTests P V T) (fuel depth : Nat) :
    List EdgeOrTri → List EdgeOrTri → Mesh P V T → Option (Mesh P V T × List EdgeOrTri)
  | [], stubborn, m => some (m, stubborn)
  | inter :: inters, stubborn, m => do
    let (m, stubborn) ← removeStubborn tests fuel depth (inter :: stubborn) m
    removeAll tests fuel depth inters stubborn m

/-- `self.edges[walker.undir_edge(self)].set_flags(UndirEdgeFlags::LOCKED)`, src/tet.rs:2732 -/
def lockEdgeAt (m : Mesh P V T) (w : Walker) : Option (Mesh P V T) := do
  let e ← m.undirEdge w
  if (m.edges.get e).isSome then
    return { m with edges := m.edges.modify e fun ue => { ue with locked := true } }
  else none

/-- Locking both sides of a triangle, src/tet.rs:3257-3259, 3294-3296, 3474-3476 -/
def lockTriAt (m : Mesh P V T) (w : Walker) : Option (Mesh P V T) := do
  let m ← m.modTet w.tet (·.setLocked (face w.edge))
  let w' ← m.toAdjAe w
  m.modTet w'.tet (·.setLocked (face w'.edge))

/-- `recover_and_lock_edge`, src/tet.rs:2672-2737 -/
def recoverAndLockEdge (m : Mesh P V T) (tests : RecoverTests P V T) (fuel : Nat) (edge : VId × VId) (depth : Nat) :
    Option (Mesh P V T × Bool) := do
  let inters ← tests.edgeInters fuel m edge
  let (m, stubborn) ← removeAll (tests.forEdge edge) fuel depth inters.reverse [] m
  if stubborn = [] then
    let w ← (← m.walkerFromEdge fuel edge)
    let m ← m.lockEdgeAt w
    return (m, true)
  else return (m, false)

/-- Trying `recover_and_lock_edge` with growing depths, src/tet.rs:3240-3245, 3444-3449 -/
def recoverEdgeDepths (tests : RecoverTests P V T) (fuel : Nat) (edge : VId × VId) :
    List Nat → Mesh P V T → Option (Mesh P V T × Bool)
  | [], m => some (m, false)
  | depth :: depths, m => do
    let (m, ok) ← m.recoverAndLockEdge tests fuel edge depth
    if ok then return (m, true) else recoverEdgeDepths tests fuel edge depths m

/-- The edges one after the other until one is not recovered, src/tet.rs:3239-3248 -/
def recoverEdgesOf (tests : RecoverTests P V T) (fuel : Nat) :
    List (VId × VId) → Mesh P V T → Option (Mesh P V T × Bool)
  | [], m => some (m, true)
  | edge :: edges, m => do
    let (m, ok) ← recoverEdgeDepths tests fuel edge [1, 2, 4, 8] m
    if ok then recoverEdgesOf tests fuel edges m else return (m, false)

/-- The loop over the depths, src/tet.rs:3255-3299 -/
def recoverTriDepths (tests : RecoverTests P V T) (fuel : Nat) (tri : V3) :
    List Nat → Mesh P V T → Option (Mesh P V T × Bool)
  | [], m => some (m, false)
  | depth :: depths, m => do
    match ← m.walkerFromTri fuel tri with
    | some w =>
      let m ← m.lockTriAt w
      return (m, true)
    | none =>
      let inters ← tests.triInters fuel m tri
      let (m, stubborn) ← removeAll (tests.forTri tri) fuel depth (inters.reverse.map .edge) [] m
      if stubborn = [] then
        let w ← (← m.walkerFromTri fuel tri)
        let m ← m.lockTriAt w
        return (m, true)
      else recoverTriDepths tests fuel tri depths m

/-- `recover_and_lock_tri`, src/tet.rs:3237-3302 -/
def recoverAndLockTri (m : Mesh P V T) (tests : RecoverTests P V T) (fuel : Nat) (tri : V3) :
    Option (Mesh P V T × Bool) := do
  let (m, ok) ← recoverEdgesOf tests fuel [(tri.1, tri.2.1), (tri.2.1, tri.2.2), (tri.2.2, tri.1)] m
  if ok then recoverTriDepths tests fuel tri [1, 2, 4, 8] m else return (m, false)

/-- Locking the edges of the PLC that are there, src/tet.rs:3435-3440 -/
def lockPlcEdges (m : Mesh P V T) (edges : List (VId × VId)) : Mesh P V T :=
  m.edges.keys.foldl (fun m e => match m.edges.get e with
    | none => m
    | some ue => if ue.vertices ∈ edges then { m with edges := m.edges.modify e fun ue => { ue with locked := true } } else m) m

/-- Recovering the other edges of the PLC, src/tet.rs:3442-3450: the mesh and those that are missing -/
def recoverEach (recover : Mesh P V T → VId × VId → Option (Mesh P V T × Bool)) :
    List (VId × VId) → Mesh P V T → Option (Mesh P V T × List (VId × VId))
  | [], m => some (m, [])
  | edge :: edges, m => do
    let (m, ok) ← recover m edge
    let (m, missing) ← recoverEach recover edges m
    return (m, if ok then missing else edge :: missing)

/-- `recover_and_lock_edges`, src/tet.rs:3427-3452, for the edges of the PLC without repetition and in the order of the
hash set `order` of those that are left; the mesh and the edges that are missing at the end. -/
def recoverAndLockEdges (m : Mesh P V T) (tests : RecoverTests P V T) (fuel : Nat) (order : List (VId × VId) → List (VId × VId))
    (plcEdges : List (VId × VId)) : Option (Mesh P V T × List (VId × VId)) := do
  let edges := plcEdges.map sorted2
  let left := order (edges.filter fun e => !(m.edges.values.any fun ue => decide (ue.vertices = e)))
  recoverEach (fun m e => recoverEdgeDepths tests fuel e [1, 2, 4, 8] m) left (m.lockPlcEdges edges)

/-- Locking the triangles that are there, src/tet.rs:3472-3481; the mesh and the triangles that are not -/
def lockPlcTris (fuel : Nat) : List V3 → Mesh P V T → Option (Mesh P V T × List V3)
  | [], m => some (m, [])
  | tri :: tris, m => do
    match ← m.walkerFromTri fuel tri with
    | some w =>
      let m ← m.lockTriAt w
      lockPlcTris fuel tris m
    | none =>
      let (m, missing) ← lockPlcTris fuel tris m
      return (m, tri :: missing)

/-- Recovering the other triangles, src/tet.rs:3481; the mesh and those that are missing -/
def recoverTris (tests : RecoverTests P V T) (fuel : Nat) : List V3 → Mesh P V T → Option (Mesh P V T × List V3)
  | [], m => some (m, [])
  | tri :: tris, m => do
    let (m, ok) ← m.recoverAndLockTri tests fuel tri
    let (m, missing) ← recoverTris tests fuel tris m
    return (m, if ok then missing else tri :: missing)

/-- `recover_and_lock_boundary`, src/tet.rs:3456-3484, for the triangles `plc.tris()`; the mesh and the triangles that are
missing at the end, which the source counts. -/
def recoverAndLockBoundary (m : Mesh P V T) (tests : RecoverTests P V T) (fuel : Nat) (plcTris : List V3) :
    Option (Mesh P V T × List V3) := do
  let m ← m.setTrackTriMap true
  let (m, missing) ← lockPlcTris fuel (plcTris.map sorted3) m
  recoverTris tests fuel missing m

/-- The tests of the program, in exact arithmetic.  `steps` bounds the number of intersections of an edge.  The tests
read vertices of the mesh and of the edge or triangle to recover only, which exist once the intersections have been
found; what they give otherwise is of no importance. -/
def exactTests {K V T : Type} [Field K] [LinearOrder K] (sim : VId → VId → VId → VId → Bool) (steps : Nat) :
    RecoverTests (Pt K) V T where
  pos := positive
  edgeEdge := fun edge m e => (m.edgeIntersectsEdge e.1 e.2 edge.1 edge.2).getD false
  edgeTri := fun edge m t => (m.triIntersectsEdge t.1 t.2.1 t.2.2 edge.1 edge.2).getD false
  triEdge := fun t _ e => triIntersectsEdgeSim sim t.1 t.2.1 t.2.2 e.1 e.2
  edgeInters := fun fuel m edge => (m.edgeIntersections fuel steps edge.1 edge.2).map (·.map fun x => x.2.other)
  triInters := fun fuel m t => (m.triIntersections fuel t).map (·.map (·.edge))

end Mesh
end Tet
