import Verif.Model.Flips

/-!
# Model of the insertion cavity (src/tet.rs:1513-1717)

The positions of the vertices do not change, so the geometric tests against the new vertex are
functions of the vertex ids.
-/

namespace Tet
variable {P V T : Type}

/-- The geometric tests of `point_cavity` for the new vertex. -/
structure CavityTests where
  /-- the sign of `mesh.in_sphere(vs[0], vs[1], vs[2], vs[3], vertex)` -/
  inSphere : V4 → Int
  /-- `mesh.orient_3d(vs[0], vs[1], vs[2], vertex) > 0.0` -/
  above : V3 → Bool

namespace Tet

/-- Set or clear `BOUND_IMM_i`. -/
def setImm (b : Bool) (i : Fin 4) (t : Tet T) : Tet T :=
  { t with flags := { t.flags with boundImm := Function.update t.flags.boundImm i b } }

/-- Set or clear `BOUND_LIMIT_i`. -/
def setLimit (b : Bool) (i : Fin 4) (t : Tet T) : Tet T :=
  { t with flags := { t.flags with boundLimit := Function.update t.flags.boundLimit i b } }

/-- Set or clear `NOT_ENCLOSURE`. -/
def setNotEnclosure (b : Bool) (t : Tet T) : Tet T :=
  { t with flags := { t.flags with notEnclosure := b } }

end Tet

namespace Mesh

/-- `mesh.tets[w.id()].flags.get().intersects(imm_edge_flag(w.edge))` -/
def imm (m : Mesh P V T) (w : Walker) : Option Bool :=
  (m.tets.get w.tet).map fun t => t.flags.boundImm (face w.edge)

/-- `mesh.tets[w.id()].flags.get().intersects(limit_edge_flag(w.edge))` -/
def limit (m : Mesh P V T) (w : Walker) : Option Bool :=
  (m.tets.get w.tet).map fun t => t.flags.boundLimit (face w.edge)

/-- `mesh.edges[w.undir_edge(mesh)].flags.get().intersects(UndirEdgeFlags::LOCKED)` -/
def edgeLocked (m : Mesh P V T) (w : Walker) : Option Bool := do
  let e ← m.undirEdge w
  let ue ← m.edges.get e
  return ue.locked

/-- The condition `removal_safe`, src/tet.rs:1570-1597.  The source does not read the flags of edges
whose result does not matter. -/
def removalSafe (m : Mesh P V T) (adj : Walker) : Option Bool := do
  let walk0 ← m.toAdjAe (adj.perm P3210)
  let walk1 ← m.toAdjAe adj.opp
  let walk2 ← m.toAdjAe adj.twin
  let rm0 ← m.imm walk0
  let rm1 ← m.imm walk1
  let rm2 ← m.imm walk2
  let limit0 ← m.limit walk0
  let limit1 ← m.limit walk1
  let limit2 ← m.limit walk2
  let locked0 ← m.edgeLocked (adj.perm P1203)
  let locked1 ← m.edgeLocked (adj.perm P2013)
  let locked2 ← m.edgeLocked (adj.perm P0123)
  let locked01 ← m.edgeLocked (adj.perm P2301)
  let locked12 ← m.edgeLocked (adj.perm P0312)
  let locked20 ← m.edgeLocked (adj.perm P1320)
  let tri ← m.triLocked adj
  return !limit0 && !limit1 && !limit2 && (!rm0 || !locked0) && (!rm1 || !locked1) && (!rm2 || !locked2) &&
    (!rm0 || !rm1 || !locked01) && (!rm1 || !rm2 || !locked12) && (!rm2 || !rm0 || !locked20) && !tri

/-- `vertices().iter().position(|v| *v == GHOST)`, src/tet.rs:1601 -/
def ghostIdx (t : Tet T) : Option Code :=
  if t.vertices 0 = GHOST then some 0 else if t.vertices 1 = GHOST then some 1
  else if t.vertices 2 = GHOST then some 2 else if t.vertices 3 = GHOST then some 3 else none

/-- `in_sphere >= 0.0` after the second test for ghost tets, src/tet.rs:1599-1607 -/
def cavityInside (tests : CavityTests) (m : Mesh P V T) (adj : Walker) : Option Bool := do
  let vs ← m.tet4 adj
  let s := tests.inSphere vs
  let t ← m.tets.get adj.tet
  match if s = 0 then ghostIdx t else none with
  | some i =>
    let w ← m.toAdjAe (adj.toEdge i)
    let vs ← m.tet4 w
    return decide (0 ≤ tests.inSphere vs)
  | none => return decide (0 ≤ s)

/-- The state of the loops of `point_cavity`. -/
structure CavityState (P V T : Type) where
  mesh : Mesh P V T
  boundImm : List Walker
  boundary : List Walker
  enclosed : List TId

/-- One round of "Local extension", src/tet.rs:1620-1630 -/
def extendStep (s : Mesh P V T × List Walker) (walker : Walker) : Option (Mesh P V T × List Walker) := do
  let twin ← s.1.toAdjAe walker
  if ← s.1.imm twin then
    let m ← s.1.modTet twin.tet (·.setImm false (face twin.edge))
    return (m, s.2)
  else
    let m ← s.1.modTet walker.tet (·.setImm true (face walker.edge))
    return (m, s.2 ++ [walker])

/-- The three other triangles, src/tet.rs:1613-1617, 1674-1678 -/
def otherTris (w : Walker) : List Walker := [w.opp, w.twin, w.perm P3210]

/-- "Extend intermediate boundary", src/tet.rs:1556-1640; at most `fuel` rounds. -/
def cavityGrow (tests : CavityTests) (convex : Bool) : Nat → CavityState P V T → Option (CavityState P V T)
  | 0, s => if s.boundImm = [] then some s else none
  | fuel + 1, s =>
    match s.boundImm with
    | [] => some s
    | tri :: rest => do
      if ← s.mesh.imm tri then
        let m ← s.mesh.modTet tri.tet (·.setImm false (face tri.edge))
        let adj ← m.toAdjAe tri
        let safe ← (if convex then some true else m.removalSafe adj : Option Bool)
        let inside ← m.cavityInside tests adj
        if safe && inside then
          let (m, queue) ← (otherTris adj).foldlM extendStep (m, rest)
          cavityGrow tests convex fuel ⟨m, queue, s.boundary, s.enclosed ++ [adj.tet]⟩
        else
          let m ← (if convex then some m else m.modTet tri.tet (·.setLimit true (face tri.edge)) : Option _)
          cavityGrow tests convex fuel ⟨m, rest, s.boundary ++ [tri], s.enclosed⟩
      else cavityGrow tests convex fuel ⟨s.mesh, rest, s.boundary, s.enclosed⟩

/-- One round of "Local retraction", src/tet.rs:1681-1691 -/
def retractStep (s : Mesh P V T × List Walker) (walker : Walker) : Option (Mesh P V T × List Walker) := do
  if ← s.1.imm walker then
    let m ← s.1.modTet walker.tet (·.setImm false (face walker.edge))
    return (m, s.2)
  else
    let twin ← s.1.toAdjAe walker
    let m ← s.1.modTet twin.tet (·.setImm true (face twin.edge))
    return (m, s.2 ++ [twin])

/-- "Region might not be star-shaped, so fix that.", src/tet.rs:1655-1694 -/
def cavityShrink (tests : CavityTests) (exclude : List TId) : Nat → CavityState P V T → Option (CavityState P V T)
  | 0, s => if s.boundImm = [] then some s else none
  | fuel + 1, s =>
    match s.boundImm with
    | [] => some s
    | tri :: rest => do
      if ← s.mesh.imm tri then
        let vs ← s.mesh.tri tri
        if !decide (tri.tet ∈ exclude) && tests.above vs then
          cavityShrink tests exclude fuel ⟨s.mesh, rest, s.boundary ++ [tri], s.enclosed⟩
        else
          let m ← s.mesh.modTet tri.tet fun t => (t.setNotEnclosure true).setImm false (face tri.edge)
          let (m, queue) ← (otherTris tri).foldlM retractStep (m, rest)
          cavityShrink tests exclude fuel ⟨m, queue, s.boundary, s.enclosed⟩
      else cavityShrink tests exclude fuel ⟨s.mesh, rest, s.boundary, s.enclosed⟩

/-- Marking the boundary for the second loop, src/tet.rs:1647-1651 -/
def remark (m : Mesh P V T) (walker : Walker) : Option (Mesh P V T) :=
  m.modTet walker.tet fun t => (t.setImm true (face walker.edge)).setLimit false (face walker.edge)

/-- The filter of the boundary, src/tet.rs:1697-1701 -/
def filterBoundary : Mesh P V T → List Walker → Option (Mesh P V T × List Walker)
  | m, [] => some (m, [])
  | m, w :: l => do
    let flag ← m.imm w
    let m ← m.modTet w.tet (·.setImm false (face w.edge))
    let (m, l) ← filterBoundary m l
    return (m, if flag then w :: l else l)

/-- The filter of the enclosure, src/tet.rs:1703-1707 -/
def filterEnclosed : Mesh P V T → List TId → Option (Mesh P V T × List TId)
  | m, [] => some (m, [])
  | m, k :: l => do
    let t ← m.tets.get k
    let m ← m.modTet k (·.setNotEnclosure false)
    let (m, l) ← filterEnclosed m l
    return (m, if !t.flags.notEnclosure then k :: l else l)

/-- The part for cavities that need not be convex, src/tet.rs:1644-1710 -/
def cavityFix (tests : CavityTests) (exclude : List TId) (fuel : Nat) (m : Mesh P V T) (boundary : List Walker)
    (enclosed : List TId) : Option (Mesh P V T × List Walker × List TId) := do
  let m ← boundary.foldlM remark m
  let s ← cavityShrink tests exclude fuel ⟨m, boundary, [], enclosed⟩
  let (m, boundary) ← filterBoundary s.mesh s.boundary
  let (m, enclosed) ← filterEnclosed m s.enclosed
  if enclosed = [] then none else some (m, boundary, enclosed)

/-- Marking the initial boundary, src/tet.rs:1541-1550 -/
def markInitial (tests : CavityTests) (assertStar : Bool) (m : Mesh P V T) (walker : Walker) :
    Option (Mesh P V T) := do
  let vs ← m.tri walker
  if assertStar && !tests.above vs then none
  else m.modTet walker.tet (·.setImm true (face walker.edge))

/-- `point_cavity`, src/tet.rs:1513-1717; with the assertion of debug builds at the end.  `none` is a
panic, or too little fuel for one of the two loops. -/
def pointCavity (tests : CavityTests) (initialBoundary : List Walker) (initialEnclosed exclude : List TId)
    (m : Mesh P V T) (convex assertStar removeNonDelaunay : Bool) (fuel : Nat) :
    Option (Mesh P V T × List Walker × List TId) := do
  let m ← initialBoundary.foldlM (markInitial tests assertStar) m
  let s ← (if removeNonDelaunay then cavityGrow tests convex fuel ⟨m, initialBoundary, [], initialEnclosed⟩
    else some ⟨m, [], initialBoundary, initialEnclosed⟩ : Option _)
  let (m, boundary, enclosed) ← (if convex then some (s.mesh, s.boundary, s.enclosed)
    else cavityFix tests exclude fuel s.mesh s.boundary s.enclosed : Option _)
  if enclosed.Nodup then return (m, boundary, enclosed) else none

end Mesh
end Tet
