import Verif.Model.FlipIn
import Verif.Model.Iter

/-!
# Model of the cap and shell transforms (src/tet.rs:2949-3088)

Both replace tets around an edge by the cones over a triangulated polygon.  The local hash map from pairs of vertices to
undirected edges is represented by its lookup function.  `fuel` is that of `walker_from_tri` and is used only if the mesh does
not keep its map of triangles.
-/

namespace Tet.Mesh
variable {P V T : Type}

/-- `edge_map`, src/tet.rs:2994, 3045 -/
abbrev EdgeMap := VId × VId → Option EId

/-- `to_undir_edge`, src/tet.rs:514-524 -/
def undirCode : Fin 6 → Code := ![0, 3, 7, 5, 8, 11]

/-- The code `i` of `TetWalker::new(tet, i as u32)`, src/tet.rs:2955 -/
def faceCode : Fin 4 → Code := ![0, 1, 2, 3]

/-- One of the four triangles of the new tet, src/tet.rs:2954-2969; `self.vertices[vertices[i]]` panics for the ghost vertex. -/
def itFace (fuel : Nat) (k : TId) (vs : Fin 4 → VId) (m : Mesh P V T) (i : Fin 4) : Option (Mesh P V T) := do
  let w : Walker := ⟨k, faceCode i⟩
  let (a, b, c) ← m.tri w
  let adj ← m.walkerFromTri fuel (b, a, c)
  let m ← match adj with
    | none => some m
    | some adj => do
      let m ← m.modTet k (·.setOpp i adj)
      m.modTet adj.tet (·.setOpp (face adj.edge) (unturn adj.edge w))
  let m := m.triInsert (a, b, c) w
  let _ ← m.vertices.get (vs i)
  return m.setVertexTet (vs i) (w.perm P3210)

/-- One of the six edges of the new tet, src/tet.rs:2972-2980 -/
def itEdge (k : TId) (s : Mesh P V T × EdgeMap) (i : Fin 6) : Option (Mesh P V T × EdgeMap) := do
  let e ← s.1.edge ⟨k, undirCode i⟩
  match s.2 (sorted2 e) with
  | some id => do
    let m ← s.1.modTet k (·.setEdge i id)
    return (m, s.2)
  | none => do
    let (m, id) ← s.1.insertEdge (sorted2 e)
    let m ← m.modTet k (·.setEdge i id)
    return (m, Function.update s.2 (sorted2 e) (some id))

/-- `insert_tet`, src/tet.rs:2949-2985 -/
def insertTetAt (fuel : Nat) (s : Mesh P V T × EdgeMap) (q : V4) : Option ((Mesh P V T × EdgeMap) × Walker) := do
  let vs : Fin 4 → VId := ![q.1, q.2.1, q.2.2.1, q.2.2.2]
  let (m, k) ← s.1.insertTet (Tet.new vs (fun _ => ⟨idMax, 0⟩) (fun _ => idMax) s.1.defaultTet)
  let m ← [0, 1, 2, 3].foldlM (itFace fuel k vs) m
  let s ← [0, 1, 2, 3, 4, 5].foldlM (itEdge k) (m, s.2)
  return (s, ⟨k, 3⟩)

/-- `for edge in &walker.undir_edges(self) { .. edge_map.insert(..) }`, src/tet.rs:3006-3010, 3056-3060 -/
def trackEdge (m : Mesh P V T) (em : EdgeMap) (e : EId) : Option EdgeMap := do
  let ue ← m.edges.get e
  return Function.update em (sorted2 ue.vertices) (some e)

/-- One old tet is taken away, src/tet.rs:2997-3018, 3048-3074; `spine` is `v_side[0]` in the shell transform and `none` in
the cap transform. -/
def capDrop (fuel : Nat) (vt : VId) (spine : Option VId) (s : Mesh P V T × EdgeMap) (e : VId × VId) :
    Option (Mesh P V T × EdgeMap) := do
  let m := s.1
  let w ← (← m.walkerFromTri fuel (e.2, vt, e.1))
  let adj ← m.toAdjAe w
  let t ← m.tets.get w.tet
  let m ← m.modEdge (t.undirEdge w.edge) fun ue => { ue with locked := false }
  let m ← m.modEdge (t.undirEdge w.nfe.edge) fun ue => { ue with locked := false }
  let m ← m.modTet w.tet (·.clearLocked [face w.edge])
  let m ← m.modTet adj.tet (·.clearLocked [face adj.edge])
  let em ← [0, 1, 2, 3, 4, 5].foldlM (fun em i => m.trackEdge em (t.undirEdges w.edge i)) s.2
  let m ← if some e.2 = spine then m.removeEdge (t.undirEdge (w.perm P1320).edge) else some m
  let m ← m.triRemoveTet w.tet
  let m ← m.removeTet w.tet
  return (m, em)

/-- `self.edges[edge_map[&sorted_2([*v0, *v1])]].set_flags(UndirEdgeFlags::LOCKED)`, src/tet.rs:3033, 3084 -/
def capLock (s : Mesh P V T × EdgeMap) (e : VId × VId) : Option (Mesh P V T × EdgeMap) := do
  let i ← s.2 (sorted2 e)
  let m ← s.1.modEdge i fun ue => { ue with locked := true }
  return (m, s.2)

/-- One new tet with its triangle locked, src/tet.rs:3026-3027, 3028-3029, 3077-3078, 3079-3080 -/
def capCone (fuel : Nat) (s : Mesh P V T × EdgeMap) (q : V4) : Option (Mesh P V T × EdgeMap) := do
  let (s, w) ← insertTetAt fuel s q
  let m ← s.1.modTet w.tet (·.setLocked (face w.edge))
  return (m, s.2)

/-- The two tets at a triangle of the polygon, src/tet.rs:3025-3036, 3076-3087 -/
def capPut (fuel : Nat) (vt vb : VId) (s : Mesh P V T × EdgeMap) (r : V3) : Option (Mesh P V T × EdgeMap) := do
  let (v0, v1, v2) := r
  let s ← capCone fuel s (v1, v0, v2, vt)
  let s ← capCone fuel s (v0, v1, v2, vb)
  [(v0, v1), (v1, v2), (v2, v0)].foldlM capLock s

/-- `cap_transform`, src/tet.rs:2987-3037 -/
def capTransform (fuel : Nat) (m : Mesh P V T) (side : List VId) (vt vb : VId) (tris : List V3) : Option (Mesh P V T) := do
  let s ← (side.zip (side.drop 1)).foldlM (capDrop fuel vt none) (m, fun _ => none)
  let first ← side.head?
  let last ← side.getLast?
  let (s, _) ← insertTetAt fuel s (first, last, vt, vb)
  let s ← tris.foldlM (capPut fuel vt vb) s
  return s.1

/-- `shell_transform`, src/tet.rs:3039-3088 -/
def shellTransform (fuel : Nat) (m : Mesh P V T) (side : List VId) (vt vb : VId) (tris : List V3) : Option (Mesh P V T) := do
  let s ← (side.zip (side.drop 1 ++ side.take 1)).foldlM (capDrop fuel vt side.head?) (m, fun _ => none)
  let s ← tris.foldlM (capPut fuel vt vb) s
  return s.1

end Tet.Mesh
