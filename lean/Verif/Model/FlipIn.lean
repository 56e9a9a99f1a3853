import Verif.Model.Flips

/-!
# Model of `flip_in_vertex_unchecked` (src/tet.rs:2172-2343)
-/

namespace Tet

/-- Set or clear `BOUNDARY`. -/
def Tet.setBoundary {T : Type} (b : Bool) (t : Tet T) : Tet T := { t with flags := { t.flags with boundary := b } }

/-- Set or clear `NEEDS_DUPLICATION`. -/
def Tet.setDup {T : Type} (b : Bool) (t : Tet T) : Tet T := { t with flags := { t.flags with needsDuplication := b } }

namespace Mesh
variable {P V T : Type}

/-- `mesh.edges[e]` as a place; panics if the edge does not exist. -/
def modEdge (m : Mesh P V T) (e : EId) (f : UEdge → UEdge) : Option (Mesh P V T) :=
  if (m.edges.get e).isSome then some { m with edges := m.edges.modify e f } else none

/-- `self.edges[walker.undir_edge(self)].set_flags(BOUNDARY)`, or `clear_flags` -/
def flagEdge (b : Bool) (m : Mesh P V T) (w : Walker) : Option (Mesh P V T) := do
  let e ← m.undirEdge w
  m.modEdge e fun ue => { ue with boundary := b }

/-- The same for the three edges of the triangle, src/tet.rs:2202-2204, 2248-2250 -/
def flagEdges (b : Bool) (m : Mesh P V T) (w : Walker) : Option (Mesh P V T) :=
  [w, w.nfe, w.pfe].foldlM (flagEdge b) m

/-- The loop that marks the boundary, src/tet.rs:2200-2205 -/
def fiMark (m : Mesh P V T) (w : Walker) : Option (Mesh P V T) := do
  let m ← m.modTet w.tet (·.setBoundary true)
  m.flagEdges true w

/-- Removing an edge unless it is marked, src/tet.rs:2208-2217 -/
def fiDropEdge (m : Mesh P V T) (e : EId) : Option (Mesh P V T) :=
  match m.edges.get e with
  | some ue =>
    if ue.boundary then some m
    else (m.edges.remove e).map fun r => { m with edges := r.1 }
  | none => some m

/-- The loop that removes what is not marked, src/tet.rs:2207-2222 -/
def fiDrop (m : Mesh P V T) (k : TId) : Option (Mesh P V T) := do
  let t ← m.tets.get k
  let m ← ((List.finRange 6).map t.edges).foldlM fiDropEdge m
  if t.flags.boundary then some m
  else (m.tets.remove k).map fun r => { m with tets := r.1 }

/-- The loop that clones tets, src/tet.rs:2225-2239; gives the new walker. -/
def fiDup (m : Mesh P V T) (w : Walker) : Option (Mesh P V T × Walker) := do
  let t ← m.tets.get w.tet
  if t.flags.needsDuplication then
    let (m, id) ← m.insertTet t
    let adj ← m.toAdjAe w
    let m ← m.modTet adj.tet fun u => u.setOpp (face adj.edge) ⟨id, (u.opp (face adj.edge)).edge⟩
    return (m, ⟨id, w.edge⟩)
  else
    let m ← m.modTet w.tet (·.setDup true)
    return (m, w)

/-- The loop over the boundary, collecting the new walkers. -/
def fiDups : List Walker → Mesh P V T → Option (Mesh P V T × List Walker)
  | [], m => some (m, [])
  | w :: ws, m => do
    let (m, w) ← m.fiDup w
    let (m, ws) ← fiDups ws m
    return (m, w :: ws)

/-- `match walker.edge / 4 { 0 => adj, 1 => adj.to_nfe(), 2 => adj.to_pfe() }`, src/tet.rs:2281-2286,
2289-2294 -/
def unturn (e : Code) (w : Walker) : Walker :=
  match div4 e with
  | 0 => w
  | 1 => w.nfe
  | 2 => w.pfe

/-- Linking the new tets at one edge, src/tet.rs:2272-2299 -/
def fiLink (m : Mesh P V T) (w : Walker) : Option (Mesh P V T) := do
  let e ← m.undirEdge w
  let ue ← m.edges.get e
  if ue.boundaryWalker.tet ≠ idMax then
    let walker := w.twin
    let adj := ue.boundaryWalker.twin
    let m ← m.modTet walker.tet (·.setOpp (face walker.edge) (unturn walker.edge adj))
    let m ← m.modTet adj.tet (·.setOpp (face adj.edge) (unturn adj.edge walker))
    m.modEdge e fun ue => { ue with boundaryWalker := ⟨idMax, ue.boundaryWalker.edge⟩ }
  else m.modEdge e fun ue => { ue with boundaryWalker := w }

/-- A new tet without its links, src/tet.rs:2246-2269 -/
def fiSetup (vertex : VId) (m : Mesh P V T) (w : Walker) : Option (Mesh P V T) := do
  let m ← m.modTet w.tet fun t => (t.setBoundary false).setDup false
  let m ← m.flagEdges false w
  let m ← m.modTet w.tet (·.clearLocked [face (w.edge + 1), face (w.edge + 2), face (w.edge + 3)])
  let m ← m.modTet w.tet (·.setVertex (face w.edge) vertex)
  let x ← m.vertices.get vertex
  let m := if x.tet.tet = idMax then m.setVertexTet vertex (w.perm P3210) else m
  let (a, b, c) ← m.tri w
  return ((m.setVertexTet a w).setVertexTet b w.nfe).setVertexTet c w.pfe

/-- A new tet, src/tet.rs:2245-2300 -/
def fiFill (vertex : VId) (m : Mesh P V T) (w : Walker) : Option (Mesh P V T) := do
  let m ← m.fiSetup vertex w
  [w, w.nfe, w.pfe].foldlM fiLink m

/-- `vertex_flags(v).intersects(EDGE_ADDED)`, src/tet.rs:1900-1908 -/
def edgeAddedFlag (m : Mesh P V T) (v : VId) : Option Bool :=
  if v = GHOST then some m.ghostFlags.edgeAdded else (m.vertices.get v).map (·.flags.edgeAdded)

/-- Set or clear `EDGE_ADDED`, src/tet.rs:1910-1918 -/
def setEdgeAddedFlag (b : Bool) (m : Mesh P V T) (v : VId) : Option (Mesh P V T) :=
  if v = GHOST then some { m with ghostFlags := { m.ghostFlags with edgeAdded := b } }
  else if (m.vertices.get v).isSome then
    some { m with vertices := m.vertices.modify v fun x => { x with flags := { x.flags with edgeAdded := b } } }
  else none

/-- The loop around a new edge, src/tet.rs:2315-2320; `fuel` bounds the number of rounds. -/
def fiRing (edge : EId) (start : Walker) : Nat → Walker → Mesh P V T → Option (Mesh P V T)
  | 0, _, _ => none
  | fuel + 1, iter, m => do
    let m ← m.modTet iter.tet (·.setEdge (undirIdx iter.edge) edge)
    let next ← m.toAdj iter.twin
    if next ≠ start then fiRing edge start fuel next m else return m

/-- One new edge, src/tet.rs:2305-2321 -/
def fiEdge (vertex : VId) (fuel : Nat) (m : Mesh P V T) (w : Walker) : Option (Mesh P V T) := do
  let source ← m.first w
  let added ← m.edgeAddedFlag source
  if added then some m
  else
    let m ← m.setEdgeAddedFlag true source
    let (m, edge) ← m.insertEdge (source, vertex)
    fiRing edge w fuel w m

/-- The new edges at one triangle, src/tet.rs:2303-2323 -/
def fiEdges (vertex : VId) (fuel : Nat) (m : Mesh P V T) (w : Walker) : Option (Mesh P V T) :=
  [w.perm P0312, w.perm P1320, w.perm P2301].foldlM (fiEdge vertex fuel) m

/-- Clearing the flags of one triangle, src/tet.rs:2325-2331 -/
def fiClear (m : Mesh P V T) (w : Walker) : Option (Mesh P V T) :=
  [w, w.nfe, w.pfe].foldlM (fun m w => do
    let v ← m.first w
    m.setEdgeAddedFlag false v) m

/-- `flip_in_vertex_unchecked`, src/tet.rs:2176-2343; gives the mesh and the changed boundary. -/
def flipInVertexUnchecked (m : Mesh P V T) (vertex : VId) (boundary : List Walker) (enclosure : List TId)
    (fuel : Nat) : Option (Mesh P V T × List Walker) := do
  let m ← m.triRemoveTets enclosure
  let m ← boundary.foldlM fiMark m
  let m ← enclosure.foldlM fiDrop m
  let (m, boundary) ← fiDups boundary m
  let m ← boundary.foldlM (fiFill vertex) m
  let m ← boundary.foldlM (fiEdges vertex fuel) m
  let m ← boundary.foldlM fiClear m
  let m ← m.triInsertTets (boundary.map (·.tet))
  return (m, boundary)

end Mesh
end Tet
