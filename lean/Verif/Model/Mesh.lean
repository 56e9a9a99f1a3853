import Verif.Model.Walker

/-!
# Model of the tet mesh data structure (src/tet.rs:100-260, 420-670, 1740-2165)

`P` is the type of positions, `V` of vertex values, `T` of tet values.
-/

namespace Tet

/-- `VertexFlags`, src/tet.rs:96-104 -/
structure VFlags where
  targets : Bool := false
  edgeAdded : Bool := false
deriving DecidableEq, Repr

/-- `Vertex`, src/tet.rs:107-113 -/
structure Vertex (P V : Type) where
  tet : Walker
  flags : VFlags
  position : P
  value : V

/-- `TetWalker::new(TetId::invalid(), 0)` -/
def invalidWalker : Walker := ⟨idMax, 0⟩

/-- `Vertex::new`, src/tet.rs:116-123 -/
def Vertex.new {P V : Type} (tet : Walker) (position : P) (value : V) : Vertex P V :=
  ⟨tet, {}, position, value⟩

/-- `UndirEdge` with its `UndirEdgeFlags`, src/tet.rs:138-155 -/
structure UEdge where
  vertices : VId × VId
  boundary : Bool := false
  locked : Bool := false
  boundaryWalker : Walker := invalidWalker
deriving DecidableEq, Repr

/-- `UndirEdge::new`, src/tet.rs:157-163 -/
def UEdge.new (vertices : VId × VId) : UEdge := { vertices := sorted2 vertices }

/-- `TetFlags`, src/tet.rs:174-200, one boolean per bit; `BOUND_IMM_i`, `LOCKED_i` and
`BOUND_LIMIT_i` for `i = 0..4` become functions of `i` (the source builds these four
flags by shifting: `LOCKED_0.bits << edge % 4`). -/
structure TFlags where
  boundImm : Fin 4 → Bool := fun _ => false
  boundary : Bool := false
  walkersFromVertex : Bool := false
  needsDuplication : Bool := false
  notEnclosure : Bool := false
  locked : Fin 4 → Bool := fun _ => false
  boundLimit : Fin 4 → Bool := fun _ => false

/-- `Tet`, src/tet.rs:212-219 -/
structure Tet (T : Type) where
  vertices : Fin 4 → VId
  opp : Fin 4 → Walker
  edges : Fin 6 → EId
  flags : TFlags
  value : T

namespace Tet
variable {T : Type}

/-- `Tet::new`, src/tet.rs:222-235 -/
def new (vertices : Fin 4 → VId) (opp : Fin 4 → Walker) (edges : Fin 6 → EId) (value : T) :
    Tet T := ⟨vertices, opp, edges, {}, value⟩

/-- src/tet.rs:429-434 for a walker with code `e` on this tet -/
def first (t : Tet T) (e : Code) : VId := t.vertices (firstIdx e)
/-- src/tet.rs:437-442 -/
def second (t : Tet T) (e : Code) : VId := t.vertices (secondIdx e)
/-- src/tet.rs:445-450 -/
def third (t : Tet T) (e : Code) : VId := t.vertices (thirdIdx e)
/-- src/tet.rs:453-455 -/
def fourth (t : Tet T) (e : Code) : VId := t.vertices (face e)
/-- src/tet.rs:458-460 -/
def edge (t : Tet T) (e : Code) : VId × VId := (t.first e, t.second e)
/-- src/tet.rs:463-465 -/
def oppEdge (t : Tet T) (e : Code) : VId × VId := (t.third e, t.fourth e)
/-- src/tet.rs:468-470 -/
def tri (t : Tet T) (e : Code) : V3 := (t.first e, t.second e, t.third e)
/-- src/tet.rs:474-476 -/
def oppTri (t : Tet T) (e : Code) : V3 := (t.fourth e, t.third e, t.second e)
/-- src/tet.rs:479-486 -/
def tet (t : Tet T) (e : Code) : V4 := (t.first e, t.second e, t.third e, t.fourth e)
/-- src/tet.rs:510-512 -/
def undirEdge (t : Tet T) (e : Code) : EId := t.edges (undirIdx e)

/-- `undir_edges`, src/tet.rs:526-535 -/
def undirEdges (t : Tet T) (e : Code) : Fin 6 → EId :=
  ![t.undirEdge (_root_.Tet.opp e), t.undirEdge e, t.undirEdge (nfe e), t.undirEdge (pve e),
    t.undirEdge (toPerm e P1320), t.undirEdge (pfe e)]

/-- The turn applied by `to_twin_tri`, src/tet.rs:624-629 -/
def turn (e : Code) (w : Walker) : Walker :=
  match div4 e with
  | 0 => w
  | 1 => w.pfe
  | 2 => w.nfe

/-- `to_twin_tri` / `to_adj`, src/tet.rs:616-631 -/
def adj (t : Tet T) (e : Code) : Walker := turn e (t.opp (face e))

/-- Setting one of the `opp_tets`. -/
def setOpp (t : Tet T) (f : Fin 4) (w : Walker) : Tet T :=
  { t with opp := Function.update t.opp f w }

/-- Setting one of the `edges`. -/
def setEdge (t : Tet T) (i : Fin 6) (e : EId) : Tet T :=
  { t with edges := Function.update t.edges i e }

/-- Setting one of the `vertices`. -/
def setVertex (t : Tet T) (i : Fin 4) (v : VId) : Tet T :=
  { t with vertices := Function.update t.vertices i v }

/-- `clear_flags(LOCKED_i | ..)` for the listed `i`. -/
def clearLocked (t : Tet T) (is : List (Fin 4)) : Tet T :=
  { t with flags := { t.flags with locked := fun i => if i ∈ is then false else t.flags.locked i } }

/-- `set_flags(LOCKED_i)` -/
def setLocked (t : Tet T) (i : Fin 4) : Tet T :=
  { t with flags := { t.flags with locked := Function.update t.flags.locked i true } }

end Tet

/-- `TetMesh`, src/tet.rs:1742-1757.  The hash map `tri_map` is represented by its lookup
function; `tolerance` is not modelled (unused by the modelled functions); `default_tet`
is a function without arguments, hence a value. -/
structure Mesh (P V T : Type) where
  vertices : IdMap (Vertex P V)
  ghostFlags : VFlags
  edges : IdMap UEdge
  tets : IdMap (Tet T)
  triMap : V3 → Option Walker
  trackTriMap : Bool
  center : P
  defaultTet : T

namespace Mesh
variable {P V T : Type}

/-! ### Reading through a walker.  `none` is undefined behaviour of `get_unchecked` (or a
panic of `Index`) on a dead tet. -/

def first (m : Mesh P V T) (w : Walker) : Option VId := (m.tets.get w.tet).map (·.first w.edge)
def second (m : Mesh P V T) (w : Walker) : Option VId := (m.tets.get w.tet).map (·.second w.edge)
def third (m : Mesh P V T) (w : Walker) : Option VId := (m.tets.get w.tet).map (·.third w.edge)
def fourth (m : Mesh P V T) (w : Walker) : Option VId := (m.tets.get w.tet).map (·.fourth w.edge)
def edge (m : Mesh P V T) (w : Walker) : Option (VId × VId) :=
  (m.tets.get w.tet).map (·.edge w.edge)
def oppEdge (m : Mesh P V T) (w : Walker) : Option (VId × VId) :=
  (m.tets.get w.tet).map (·.oppEdge w.edge)
def tri (m : Mesh P V T) (w : Walker) : Option V3 := (m.tets.get w.tet).map (·.tri w.edge)
def oppTri (m : Mesh P V T) (w : Walker) : Option V3 := (m.tets.get w.tet).map (·.oppTri w.edge)
def tet4 (m : Mesh P V T) (w : Walker) : Option V4 := (m.tets.get w.tet).map (·.tet w.edge)
def undirEdge (m : Mesh P V T) (w : Walker) : Option EId :=
  (m.tets.get w.tet).map (·.undirEdge w.edge)

/-- `to_adj`, src/tet.rs:616-631 -/
def toAdj (m : Mesh P V T) (w : Walker) : Option Walker :=
  (m.tets.get w.tet).map (·.adj w.edge)

/-- `to_adj_ae`, src/tet.rs:634-643 -/
def toAdjAe (m : Mesh P V T) (w : Walker) : Option Walker :=
  (m.tets.get w.tet).map (·.opp (face w.edge))

/-- Is the current triangle of the walker locked?  (`flags.intersects(LOCKED_0 << edge % 4)`) -/
def triLocked (m : Mesh P V T) (w : Walker) : Option Bool :=
  (m.tets.get w.tet).map (fun t => t.flags.locked (face w.edge))

/-! ### Writing -/

/-- `mesh.tets[k]` as a place; panics if the tet does not exist. -/
def modTet (m : Mesh P V T) (k : TId) (f : Tet T → Tet T) : Option (Mesh P V T) :=
  if (m.tets.get k).isSome then some { m with tets := m.tets.modify k f } else none

/-- `mesh.vertices.get_mut(v).map(|v| v.tet = w)`: nothing happens for the ghost vertex. -/
def setVertexTet (m : Mesh P V T) (v : VId) (w : Walker) : Mesh P V T :=
  { m with vertices := m.vertices.modify v fun x => { x with tet := w } }

/-- `mesh.tri_map.remove(&TriVertices::new(tri))` -/
def triRemove (m : Mesh P V T) (tri : V3) : Mesh P V T :=
  { m with triMap := Function.update m.triMap (triKey tri) none }

/-- `mesh.tri_map.insert(TriVertices::new(tri), w)` -/
def triInsert (m : Mesh P V T) (tri : V3) (w : Walker) : Mesh P V T :=
  { m with triMap := Function.update m.triMap (triKey tri) (some w) }

/-- `for i in 0..4 { tri_map.remove(&TriVertices::new(walker.to_edge(i).tri(mesh))) }` -/
def triRemoveTet (m : Mesh P V T) (k : TId) : Option (Mesh P V T) := do
  let t ← m.tets.get k
  return (((m.triRemove (t.tri 0)).triRemove (t.tri 1)).triRemove (t.tri 2)).triRemove (t.tri 3)

/-- `for i in 0..4 { let walker = TetWalker::new(id, i);
tri_map.insert(TriVertices::new(walker.tri(mesh)), walker); }` -/
def triInsertTet (m : Mesh P V T) (k : TId) : Option (Mesh P V T) := do
  let t ← m.tets.get k
  return (((m.triInsert (t.tri 0) ⟨k, 0⟩).triInsert (t.tri 1) ⟨k, 1⟩).triInsert
    (t.tri 2) ⟨k, 2⟩).triInsert (t.tri 3) ⟨k, 3⟩

/-- `if mesh.track_tri_map { for id in ids { ... } }` with the removing loop. -/
def triRemoveTets (m : Mesh P V T) (ks : List TId) : Option (Mesh P V T) :=
  if m.trackTriMap then ks.foldlM triRemoveTet m else some m

/-- `if mesh.track_tri_map { for id in ids { ... } }` with the inserting loop. -/
def triInsertTets (m : Mesh P V T) (ks : List TId) : Option (Mesh P V T) :=
  if m.trackTriMap then ks.foldlM triInsertTet m else some m

/-- `set_track_tri_map`, src/tet.rs:1882-1897 -/
def setTrackTriMap (m : Mesh P V T) (flag : Bool) : Option (Mesh P V T) :=
  if flag then
    m.tets.keys.foldlM triInsertTet { m with trackTriMap := true, triMap := fun _ => none }
  else some { m with trackTriMap := false }

/-- `num_vertices`, `num_tets`, src/tet.rs:1920-1927 -/
def numVertices (m : Mesh P V T) : Option Nat := m.vertices.len
def numTets (m : Mesh P V T) : Option Nat := m.tets.len
/-- `self.edges.len()` -/
def numEdges (m : Mesh P V T) : Option Nat := m.edges.len

/-- `adjacent_tets`, src/tet.rs:2150-2157 -/
def adjacentTets (m : Mesh P V T) (k : TId) : Option (List TId) :=
  (m.tets.get k).map fun t => [(t.opp 0).tet, (t.opp 1).tet, (t.opp 2).tet, (t.opp 3).tet]

/-- `walker_from_vertex`, src/tet.rs:1994-1996 -/
def walkerFromVertex (m : Mesh P V T) (v : VId) : Option Walker :=
  (m.vertices.get v).map (·.tet)

/-- `walker_from_tet_id`, src/tet.rs:2037-2039 -/
def walkerFromTetId (k : TId) : Walker := ⟨k, 3⟩

end Mesh
end Tet
