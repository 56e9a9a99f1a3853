import Verif.Model.Mesh

/-!
# Model of the flips (src/tet.rs:701-1184)

Vertices, tets and edges are read and written in the order of the source; a missing
element makes the result `none`.
-/

namespace Tet.Mesh
variable {P V T : Type}

/-- `mesh.tets.insert(value)` -/
def insertTet (m : Mesh P V T) (t : Tet T) : Option (Mesh P V T × TId) := do
  let (tets, k) ← m.tets.insert t
  return ({ m with tets := tets }, k)

/-- `mesh.edges.insert(UndirEdge::new(vs))` -/
def insertEdge (m : Mesh P V T) (vs : VId × VId) : Option (Mesh P V T × EId) := do
  let (edges, e) ← m.edges.insert (UEdge.new vs)
  return ({ m with edges := edges }, e)

/-! ## 1-to-4 flip -/

/-- `mesh.tets[walker.id()].opp_tets[walker.edge % 4].tet = id` with
`walker = mesh[id].opp_tets[i]`, src/tet.rs:784-789 -/
def flip14Adj (m : Mesh P V T) (id : TId) (i : Fin 4) : Option (Mesh P V T) := do
  let t ← m.tets.get id
  let walker := t.opp i
  m.modTet walker.tet fun u =>
    u.setOpp (face walker.edge) ⟨id, (u.opp (face walker.edge)).edge⟩

/-- `flip14_unchecked`, src/tet.rs:701-807 -/
def flip14Unchecked (m : Mesh P V T) (w : Walker) (vertex : VId) :
    Option (Mesh P V T × List Walker) := do
  let id0 := w.tet
  let t0 ← m.tets.get id0
  let (m, id1) ← m.insertTet t0
  let (m, id2) ← m.insertTet t0
  let (m, id3) ← m.insertTet t0
  let m ← m.modTet id0 (·.clearLocked [3, 2, 1])
  let m ← m.modTet id1 (·.clearLocked [2, 3, 0])
  let m ← m.modTet id2 (·.clearLocked [1, 0, 3])
  let m ← m.modTet id3 (·.clearLocked [0, 1, 2])
  let m ← m.triRemoveTets [id0]
  -- mesh.vertices[vertex].tet = self
  let _ ← m.vertices.get vertex
  let m := m.setVertexTet vertex w
  let vs := t0.vertices
  let m := m.setVertexTet (vs 0) ⟨id2, 3⟩
  let m := m.setVertexTet (vs 1) ⟨id3, 2⟩
  let m := m.setVertexTet (vs 2) ⟨id0, 1⟩
  let m := m.setVertexTet (vs 3) ⟨id1, 0⟩
  let (m, e0) ← m.insertEdge (vs 0, vertex)
  let (m, e1) ← m.insertEdge (vs 1, vertex)
  let (m, e2) ← m.insertEdge (vs 2, vertex)
  let (m, e3) ← m.insertEdge (vs 3, vertex)
  let m ← m.modTet id0 fun t =>
    (((((((t.setVertex 0 vertex).setOpp 1 ⟨id1, 0⟩).setOpp 2 ⟨id2, 4⟩).setOpp 3 ⟨id3, 8⟩).setEdge
      1 e1).setEdge 5 e2).setEdge 3 e3)
  let m ← m.modTet id1 fun t =>
    (((((((t.setVertex 1 vertex).setOpp 2 ⟨id2, 9⟩).setOpp 3 ⟨id3, 5⟩).setOpp 0 ⟨id0, 1⟩).setEdge
      2 e2).setEdge 4 e3).setEdge 1 e0)
  let m ← m.modTet id2 fun t =>
    (((((((t.setVertex 2 vertex).setOpp 3 ⟨id3, 2⟩).setOpp 0 ⟨id0, 6⟩).setOpp 1 ⟨id1, 10⟩).setEdge
      0 e3).setEdge 5 e0).setEdge 2 e1)
  let m ← m.modTet id3 fun t =>
    (((((((t.setVertex 3 vertex).setOpp 0 ⟨id0, 11⟩).setOpp 1 ⟨id1, 7⟩).setOpp 2 ⟨id2, 3⟩).setEdge
      3 e0).setEdge 4 e1).setEdge 0 e2)
  let m ← m.flip14Adj id1 1
  let m ← m.flip14Adj id2 2
  let m ← m.flip14Adj id3 3
  let m ← m.triInsertTets [id0, id1, id2, id3]
  return (m, [⟨id0, 0⟩, ⟨id1, 1⟩, ⟨id2, 2⟩, ⟨id3, 3⟩])

/-! ## 2-to-3 flip -/

/-- Redirecting the neighbour `adj`'s reference to the flipped region:
`let walker = &mut mesh.tets[adj.id()].opp_tets[adj.edge % 4];
*walker = TetWalker::new(id, PERMUTATION_INV[code][walker.edge])`,
src/tet.rs:851-855, 867-877, 1011-1016, 1027-1032 -/
def redirect (m : Mesh P V T) (adj : Walker) (id : TId) (code : Code) : Option (Mesh P V T) :=
  m.modTet adj.tet fun u =>
    u.setOpp (face adj.edge) ⟨id, permInv code (u.opp (face adj.edge)).edge⟩

/-- `if mesh.tets[adj.id()].flags.intersects(locked_flag(adj.edge)) {
mesh.tets[id].set_flags(LOCKED_i) }` -/
def copyLock (m : Mesh P V T) (adj : Walker) (id : TId) (i : Fin 4) : Option (Mesh P V T) := do
  let l ← m.triLocked adj
  if l then m.modTet id (·.setLocked i) else some m

/-- `mesh.tets[id].edges[i] = adj.undir_edge(mesh)` -/
def copyEdge (m : Mesh P V T) (adj : Walker) (id : TId) (i : Fin 6) : Option (Mesh P V T) := do
  let e ← m.undirEdge adj
  m.modTet id (·.setEdge i e)

/-- One new tet of the 2-to-3 flip, src/tet.rs:903-928 -/
def flip23New (m : Mesh P V T) (id idNext idPrev : TId) (va vb v3 v4 : VId)
    (adjB adjT : Walker) (edge : EId) : Option (Mesh P V T) := do
  let m ← m.modTet id fun t =>
    { t with
      vertices := ![va, vb, v3, v4]
      opp := ![⟨idNext, 1⟩, ⟨idPrev, 0⟩, adjB, adjT]
      edges := Function.update t.edges 0 edge }
  let m ← m.copyEdge adjT id 1
  let m ← m.copyEdge adjT.pfe id 2
  let m ← m.copyEdge adjB.pfe id 3
  let m ← m.copyEdge adjB.nfe id 4
  let m ← m.copyEdge adjT.nfe id 5
  let m ← m.copyLock adjB id 2
  m.copyLock adjT id 3

/-- `flip23_unchecked`, src/tet.rs:809-938 -/
def flip23Unchecked (m : Mesh P V T) (w : Walker) : Option (Mesh P V T × List Walker) := do
  let other ← m.toAdj w
  let id0 := w.tet
  let id1 := other.tet
  let t0 ← m.tets.get id0
  let (m, id2) ← m.insertTet t0
  let m ← m.modTet id0 (·.clearLocked [0, 1, 2, 3])
  let m ← m.modTet id1 (·.clearLocked [0, 1, 2, 3])
  let m ← m.modTet id2 (·.clearLocked [0, 1, 2, 3])
  let m ← m.triRemoveTets [w.tet, other.tet]
  -- top
  let adjT0 ← m.toAdj (w.perm P1032)
  let m ← m.redirect adjT0 id0 (w.perm P1032).edge
  let adjT1 ← m.toAdj (w.perm P0231)
  let m ← m.redirect adjT1 id1 (w.perm P0231).edge
  let adjT2 ← m.toAdj (w.perm P2130)
  let m ← m.redirect adjT2 id2 (w.perm P2130).edge
  -- bottom
  let adjB0 ← m.toAdj (other.perm P1032)
  let m ← m.redirect adjB0 id0 other.edge
  let adjB1 ← m.toAdj (other.perm P2130)
  let m ← m.redirect adjB1 id1 other.nfe.edge
  let adjB2 ← m.toAdj (other.perm P0231)
  let m ← m.redirect adjB2 id2 other.pfe.edge
  let (v1, v0, v2, v3) ← m.tet4 w
  let v4 ← m.fourth other
  let m := m.setVertexTet v0 ⟨id0, 3⟩
  let m := m.setVertexTet v1 ⟨id1, 3⟩
  let m := m.setVertexTet v2 ⟨id2, 3⟩
  let m := m.setVertexTet v3 ⟨id0, 1⟩
  let m := m.setVertexTet v4 ⟨id0, 0⟩
  let (m, edge) ← m.insertEdge (v3, v4)
  let m ← m.flip23New id0 id1 id2 v0 v1 v3 v4 adjB0 adjT0 edge
  let m ← m.flip23New id1 id2 id0 v1 v2 v3 v4 adjB1 adjT1 edge
  let m ← m.flip23New id2 id0 id1 v2 v0 v3 v4 adjB2 adjT2 edge
  let m ← m.triInsertTets [id0, id1, id2]
  return (m, [⟨id0, 2⟩, ⟨id1, 2⟩, ⟨id2, 2⟩])

/-- `flip23_unlocked`, src/tet.rs:940-956; the inner `none` is the returned `None`. -/
def flip23Unlocked (m : Mesh P V T) (w : Walker) :
    Option (Mesh P V T × Option (List Walker)) := do
  let l ← m.triLocked w
  if l then return (m, none)
  else
    let (m, ws) ← m.flip23Unchecked w
    return (m, some ws)

/-- `flip23_quality`, src/tet.rs:958-976, for an arbitrary quality function with values in a
linear order (`f64::min` on non-NaN values). -/
def flip23Quality {K : Type} [LinearOrder K] (quality : Mesh P V T → V4 → K)
    (m : Mesh P V T) (w : Walker) : Option (Mesh P V T × Option (List Walker)) := do
  let other ← m.toAdjAe w
  let (v1, v0, v2, v3) ← m.tet4 w
  let v4 ← m.fourth other
  let q0 := quality m (v1, v0, v2, v3)
  let q1 := quality m (v0, v1, v2, v4)
  let r0 := quality m (v0, v1, v3, v4)
  let r1 := quality m (v1, v2, v3, v4)
  let r2 := quality m (v2, v0, v3, v4)
  if min q0 q1 < min (min r0 r1) r2 then m.flip23Unlocked w else return (m, none)

/-! ## 3-to-2 flip -/

/-- `mesh.tets[id].edges[i] = mesh.tets[id'].edges[j]` -/
def copyEdgeSlot (m : Mesh P V T) (id' : TId) (j : Fin 6) (id : TId) (i : Fin 6) :
    Option (Mesh P V T) := do
  let t ← m.tets.get id'
  m.modTet id (·.setEdge i (t.edges j))

/-- `mesh.edges.remove(e); mesh.tets.remove(k)` -/
def removeEdge (m : Mesh P V T) (e : EId) : Option (Mesh P V T) := do
  let (edges, _) ← m.edges.remove e
  return { m with edges := edges }

def removeTet (m : Mesh P V T) (k : TId) : Option (Mesh P V T) := do
  let (tets, _) ← m.tets.remove k
  return { m with tets := tets }

/-- The first new tet of the 3-to-2 flip, src/tet.rs:1049-1073 -/
def flip32Top (m : Mesh P V T) (id0 id1 : TId) (v0 v1 v2 v3 : VId) (adjT0 adjT1 adjT2 : Walker) :
    Option (Mesh P V T) := do
  let m ← m.modTet id0 fun t =>
    { t with vertices := ![v0, v1, v2, v3], opp := ![adjT2.nfe, adjT1.pfe, adjT0, ⟨id1, 3⟩] }
  let m ← m.copyEdge adjT1.pfe id0 0
  let m ← m.copyEdge adjT0 id0 1
  let m ← m.copyEdge adjT2 id0 2
  let m ← m.copyEdge adjT0.pfe id0 3
  let m ← m.copyEdge adjT2.pfe id0 4
  let m ← m.copyEdge adjT1 id0 5
  let m ← m.copyLock adjT2.nfe id0 0
  let m ← m.copyLock adjT1.pfe id0 1
  m.copyLock adjT0 id0 2

/-- The second new tet of the 3-to-2 flip, src/tet.rs:1075-1101 -/
def flip32Bottom (m : Mesh P V T) (id0 id1 : TId) (v0 v1 v2 v4 : VId) (adjB0 adjB1 adjB2 : Walker) :
    Option (Mesh P V T) := do
  let m ← m.modTet id1 fun t =>
    { t with vertices := ![v1, v0, v2, v4], opp := ![adjB1.nfe, adjB2.pfe, adjB0, ⟨id0, 3⟩] }
  let m ← m.copyEdge adjB1.nfe id1 0
  let m ← m.copyEdgeSlot id0 1 id1 1
  let m ← m.copyEdgeSlot id0 5 id1 2
  let m ← m.copyEdge adjB2.nfe id1 3
  let m ← m.copyEdge adjB0.nfe id1 4
  let m ← m.copyEdgeSlot id0 2 id1 5
  let m ← m.copyLock adjB1.nfe id1 0
  let m ← m.copyLock adjB2.pfe id1 1
  m.copyLock adjB0 id1 2

/-- `flip32_unchecked`, src/tet.rs:978-1112 -/
def flip32Unchecked (m : Mesh P V T) (w : Walker) : Option (Mesh P V T × List Walker) := do
  let other1 ← m.toAdj w.twin
  let other2 ← m.toAdj other1.twin
  let id0 := w.tet
  let id1 := other1.tet
  let m ← m.modTet id0 (·.clearLocked [0, 1, 2, 3])
  let m ← m.modTet id1 (·.clearLocked [0, 1, 2, 3])
  let m ← m.triRemoveTets [w.tet, other1.tet, other2.tet]
  -- top
  let adjT0 ← m.toAdj w.opp
  let m ← m.redirect adjT0 id0 (w.perm P3210).edge
  let adjT1 ← m.toAdj other1.opp
  let m ← m.redirect adjT1 id0 (other1.perm P2130).edge
  let adjT2 ← m.toAdj other2.opp
  let m ← m.redirect adjT2 id0 (other2.perm P1320).edge
  -- bottom
  let adjB0 ← m.toAdj (w.perm P3210)
  let m ← m.redirect adjB0 id1 (w.perm P2301).edge
  let adjB1 ← m.toAdj (other1.perm P3210)
  let m ← m.redirect adjB1 id1 (other1.perm P0231).edge
  let adjB2 ← m.toAdj (other2.perm P3210)
  let m ← m.redirect adjB2 id1 (other2.perm P3021).edge
  let (v3, v4, v1, v0) ← m.tet4 w
  let v2 ← m.fourth other1
  let m := m.setVertexTet v0 ⟨id0, 3⟩
  let m := m.setVertexTet v1 ⟨id0, 7⟩
  let m := m.setVertexTet v2 ⟨id0, 11⟩
  let m := m.setVertexTet v3 ⟨id0, 0⟩
  let m := m.setVertexTet v4 ⟨id1, 0⟩
  let m ← m.flip32Top id0 id1 v0 v1 v2 v3 adjT0 adjT1 adjT2
  let m ← m.flip32Bottom id0 id1 v0 v1 v2 v4 adjB0 adjB1 adjB2
  let e ← m.undirEdge other2
  let m ← m.removeEdge e
  let m ← m.removeTet other2.tet
  let m ← m.triInsertTets [id0, id1]
  return (m, [⟨id0, 10⟩, ⟨id1, 10⟩])

/-- Turning once around the current edge: `w.to_twin_edge().to_adj(mesh)`,
src/tet.rs:494-495 -/
def ringStep (m : Mesh P V T) (w : Walker) : Option Walker := m.toAdj w.twin

/-- `flip32_unlocked`, src/tet.rs:1114-1139 (`||` is lazy) -/
def flip32Unlocked (m : Mesh P V T) (w : Walker) :
    Option (Mesh P V T × Option (List Walker)) := do
  let other1 ← m.ringStep w
  let other2 ← m.ringStep other1
  if ← m.triLocked w then return (m, none)
  else if ← m.triLocked other1 then return (m, none)
  else if ← m.triLocked other2 then return (m, none)
  else
    let e ← m.undirEdge w
    let ue ← m.edges.get e
    if ue.locked then return (m, none)
    else
      let other3 ← m.ringStep other2
      if other3 ≠ w then return (m, none)
      else
        let (m, ws) ← m.flip32Unchecked w
        return (m, some ws)

/-- `flip32_quality`, src/tet.rs:1141-1159 -/
def flip32Quality {K : Type} [LinearOrder K] (quality : Mesh P V T → V4 → K)
    (m : Mesh P V T) (w : Walker) : Option (Mesh P V T × Option (List Walker)) := do
  let other1 ← m.ringStep w
  let (v3, v4, v1, v0) ← m.tet4 w
  let v2 ← m.fourth other1
  let q0 := quality m (v3, v4, v1, v0)
  let q1 := quality m (v3, v4, v0, v2)
  let q2 := quality m (v3, v4, v2, v1)
  let r0 := quality m (v0, v1, v2, v3)
  let r1 := quality m (v1, v0, v2, v4)
  if min (min q0 q1) q2 < min r0 r1 then m.flip32Unlocked w else return (m, none)

/-! ## 4-to-4 flip -/

/-- `flip44_unchecked`, src/tet.rs:1161-1184.  The four `next().unwrap()` calls on the ring
iterator give the start and three further ring steps; they panic if the ring closes
earlier (`none`). -/
def flip44Unchecked (m : Mesh P V T) (w : Walker) : Option (Mesh P V T × List Walker) := do
  let (m, ws) ← m.flip23Unchecked w.twin
  match ws with
  | [w0, w1, _] =>
    let (m, _) ← m.flip32Unchecked w0
    let r0 := w1.opp
    let r1 ← m.ringStep r0
    if r1 = r0 then none
    else
      let r2 ← m.ringStep r1
      if r2 = r0 then none
      else
        let r3 ← m.ringStep r2
        if r3 = r0 then none
        else return (m, [r0, r1, r2, r3])
  | _ => none

end Tet.Mesh
