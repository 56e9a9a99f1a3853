import Verif.Model.Points
import Verif.Model.Steiner

/-!
# Model of the recovery of triangles with Steiner points (src/tet.rs:2754-2764, 2817-2947)

In exact arithmetic.  The constrained Delaunay triangulation of the crate `spade` and the transform to the plane of the
triangle are parameters, of which nothing is assumed in the model, and so are the orders in which hash sets are traversed.
-/

namespace Tet
variable {K V T C : Type} [Field K] [LinearOrder K]

/-- The operations of `spade::delaunay::FloatCDT` that are used.  Vertices, edges and faces are known by handles. -/
structure CdtOps (K C : Type) where
  /-- `FloatCDT::with_walk_locate` -/
  empty : C
  /-- `insert`, with the handle of the new vertex -/
  insert : C → K × K → C × Nat
  /-- `add_constraint` -/
  addConstraint : C → Nat → Nat → C
  /-- `exists_constraint` -/
  existsConstraint : C → Nat → Nat → Bool
  /-- `vertex`: its position -/
  vertex : C → Nat → Option (K × K)
  /-- `get_edge_from_neighbors` -/
  edgeBetween : C → Nat → Nat → Option Nat
  /-- `edge(e).face()` -/
  face : C → Nat → Nat
  /-- `face(f).adjacent_edges()` -/
  sides : C → Nat → List Nat
  /-- `is_constraint_edge` -/
  isConstraint : C → Nat → Bool
  /-- `face(f).as_triangle()` -/
  triangle : C → Nat → Option (Nat × Nat × Nat)

/-- What the model leaves open. -/
structure SteinerEnv (K C : Type) where
  ops : CdtOps K C
  /-- `tri_xy`, src/tet/geo.rs:66-71, applied to a point; only x and y are used (src/tet.rs:2868-2869, 2893-2894) -/
  xy : Pt K → Pt K → Pt K → Pt K → K × K
  /-- the order in which a hash set of edges is traversed -/
  orderE : List (VId × VId) → List (VId × VId)
  /-- the order in which a hash set of faces is traversed -/
  orderF : List Nat → List Nat

/-- The loop of `cdt_region`, src/tet.rs:2822-2832; the head of the list is the last element of the source's vector. -/
def regionLoop (ops : CdtOps K C) (cdt : C) : Nat → List Nat → List Nat → Option (List Nat)
  | 0, _, _ => none
  | _ + 1, [], region => some region
  | fuel + 1, e :: search, region =>
    let f := ops.face cdt e
    if f ∈ region then regionLoop ops cdt fuel search region
    else regionLoop ops cdt fuel (((ops.sides cdt f).filter fun a => !ops.isConstraint cdt a).reverse ++ search) (f :: region)

/-- `cdt_region`, src/tet.rs:2817-2838 -/
def cdtRegion (env : SteinerEnv K C) (fuel : Nat) (v0 v1 : VId) (cdt : C) (toCdt : VId → Option Nat)
    (fromCdt : Nat → Option VId) : Option (List V3) := do
  let e ← env.ops.edgeBetween cdt (← toCdt v0) (← toCdt v1)
  let region ← regionLoop env.ops cdt fuel [e] []
  (env.orderF region).mapM fun f => do
    let (a, b, c) ← env.ops.triangle cdt f
    return (← fromCdt a, ← fromCdt b, ← fromCdt c)

/-- The variables of the loop of `recover_tri_with_steiner_points`.  A hash set is the list of its elements. -/
structure TriSteiner (K V T C : Type) where
  mesh : Mesh (Pt K) V T
  cdt : C
  vertices : List VId
  edges : List (VId × VId)
  toCdt : VId → Option Nat
  fromCdt : Nat → Option VId
  /-- `result[3]` -/
  inside : List VId

namespace Mesh

/-- The initial cavity of a Steiner point on an edge, with the assertions, src/tet.rs:2900-2909:
`assert_tri_removable_by_tri_steiner` (2760-2764) looks at the edge again instead of the triangle. -/
def triSteinerStart {P V T : Type} (m : Mesh P V T) (fuel : Nat) (e : VId × VId) : Option (List Walker × List TId) := do
  let w ← (← m.walkerFromEdge fuel e)
  m.assertEdgeRemovable w
  let ring ← m.edgeRing fuel w
  ring.forM m.assertEdgeRemovable
  return (ring.flatMap fun w => [w.opp, w.perm P3210], ring.map (·.tet))

/-- Putting a Steiner point into an edge, src/tet.rs:2891-2892, 2900-2911; its value is that of the vertex `v0`. -/
def insertTriSteiner (m : Mesh (Pt K) V T) (fuel : Nat) (v0 : VId) (e : VId × VId) (point : Pt K) :
    Option (Mesh (Pt K) V T × VId) := do
  let x0 ← m.vertices.get v0
  let (vs, steiner) ← m.vertices.insert (Vertex.new invalidWalker point x0.value)
  let m := { m with vertices := vs }
  let (boundary, enclosed) ← m.triSteinerStart fuel e
  let (m, boundary, enclosed) ← pointCavity (pointTests m steiner) boundary enclosed [] m false true true fuel
  let (m, _) ← m.flipInVertexUnchecked steiner boundary enclosed fuel
  return (m, steiner)

/-- Locking a piece of the triangle and its edges, src/tet.rs:2923-2931 -/
def lockPiece {P V T : Type} (m : Mesh P V T) (w : Walker) : Option (Mesh P V T) := do
  let m ← m.lockTriAt w
  let m ← m.lockEdgeAt w
  let m ← m.lockEdgeAt w.nfe
  m.lockEdgeAt w.pfe

end Mesh

/-- One round of the loop at src/tet.rs:2935-2941, for one side of a piece -/
def closeSide (ops : CdtOps K C) (toCdt : VId → Option Nat) (s : C × List (VId × VId)) (side : VId × VId) :
    Option (C × List (VId × VId)) := do
  let a ← toCdt side.2
  let b ← toCdt side.1
  let cdt := ops.addConstraint s.1 a b
  if ops.existsConstraint cdt a b then
    if side ∈ s.2 then return (cdt, s.2.erase side)
    else return (cdt, if (side.2, side.1) ∈ s.2 then s.2 else (side.2, side.1) :: s.2)
  else none

/-- `robust_geo::orient_2d`, in exact arithmetic -/
def planeSide (a b c : K × K) : K := (a.1 - c.1) * (b.2 - c.2) - (a.2 - c.2) * (b.1 - c.1)

/-- The closure of `find`, src/tet.rs:2914-2921 -/
def TriSteiner.isPiece (ops : CdtOps K C) (st : TriSteiner K V T C) (edge : VId × VId) (w : Walker) : Option Bool := do
  let c ← st.mesh.third w
  if c ∈ st.vertices then
    let pa ← ops.vertex st.cdt (← st.toCdt edge.1)
    let pb ← ops.vertex st.cdt (← st.toCdt edge.2)
    let pc ← ops.vertex st.cdt (← st.toCdt c)
    return decide (0 < planeSide pa pb pc)
  else return false

/-- `find`: the first element for which the test does not fail -/
def findTest {α : Type} (test : α → Option Bool) : List α → Option (Option α)
  | [] => some none
  | a :: l => do if ← test a then return some a else findTest test l

/-- A new Steiner point, src/tet.rs:2890-2911 -/
def TriSteiner.split (env : SteinerEnv K C) (tri : V3) (xy : Pt K → K × K) (fuel : Nat) (st : TriSteiner K V T C)
    (inter : (VId × VId) × Pt K) : Option (TriSteiner K V T C) := do
  let (mesh, steiner) ← st.mesh.insertTriSteiner fuel tri.1 inter.1 inter.2
  let (cdt, i) := env.ops.insert st.cdt (xy inter.2)
  return { st with
    mesh, cdt
    toCdt := Function.update st.toCdt steiner (some i)
    fromCdt := Function.update st.fromCdt i (some steiner)
    inside := st.inside ++ [steiner]
    vertices := st.vertices ++ [steiner] }

/-- A piece has been recovered, src/tet.rs:2912-2942 -/
def TriSteiner.lock (env : SteinerEnv K C) (fuel : Nat) (st : TriSteiner K V T C) (edge : VId × VId) :
    Option (TriSteiner K V T C) := do
  let w ← (← st.mesh.walkerFromEdge fuel edge)
  let ring ← st.mesh.edgeRing fuel w
  let w ← (← findTest (st.isPiece env.ops edge) ring)
  let mesh ← st.mesh.lockPiece w
  let v2 ← mesh.third w
  let (cdt, edges) ← [edge, (edge.2, v2), (v2, edge.1)].foldlM (closeSide env.ops st.toCdt) (st.cdt, st.edges)
  return { st with mesh, cdt, edges }

/-- The loop of `recover_tri_with_steiner_points`, src/tet.rs:2882-2944; `none` also if there are `rounds` or more rounds. -/
def TriSteiner.loop (env : SteinerEnv K C) (tri : V3) (xy : Pt K → K × K) (fuel : Nat) :
    Nat → TriSteiner K V T C → Option (TriSteiner K V T C)
  | 0, _ => none
  | rounds + 1, st =>
    match env.orderE st.edges with
    | [] => some st
    | edge :: _ => do
      let tris ← cdtRegion env fuel edge.1 edge.2 st.cdt st.toCdt st.fromCdt
      match ← st.mesh.trisPoints fuel tris edge with
      | inter :: _ => loop env tri xy fuel rounds (← st.split env tri xy fuel inter)
      | [] => loop env tri xy fuel rounds (← st.lock env fuel edge)

/-- Inserting the boundary into the triangulation, src/tet.rs:2867-2873.  If two vertices got the same handle, the order of a
hash map would decide which of them the handle stands for; here it is the last one. -/
def insertLoop (ops : CdtOps K C) (xy : Pt K → K × K) (mesh : Mesh (Pt K) V T) :
    List VId → C → (VId → Option Nat) → (Nat → Option VId) → Option (C × (VId → Option Nat) × (Nat → Option VId))
  | [], cdt, toCdt, fromCdt => some (cdt, toCdt, fromCdt)
  | v :: l, cdt, toCdt, fromCdt => do
    let p ← mesh.idx v
    let (cdt, i) := ops.insert cdt (xy p)
    insertLoop ops xy mesh l cdt (Function.update toCdt v (some i)) (Function.update fromCdt i (some v))

/-- Constraining an edge of the boundary, src/tet.rs:2876-2877 -/
def constrain (ops : CdtOps K C) (toCdt : VId → Option Nat) (cdt : C) (e : VId × VId) : Option C := do
  let a ← toCdt e.1
  let b ← toCdt e.2
  let cdt := ops.addConstraint cdt a b
  if ops.existsConstraint cdt a b then return cdt else none

/-- The loop around the triangle, src/tet.rs:2860-2862 -/
def triLoop (tri : V3) (l0 l1 l2 : List VId) : List VId := tri.1 :: l0 ++ tri.2.1 :: l1 ++ tri.2.2 :: l2

/-- `zip` with the list turned by one, src/tet.rs:2865 -/
def around : List VId → List (VId × VId)
  | [] => []
  | v :: l => (v :: l).zip (l ++ [v])

/-- `recover_tri_with_steiner_points` up to its loop, src/tet.rs:2848-2880: the transform, the variables and the Steiner points on the
three edges -/
def triStart (env : SteinerEnv K C) (fuel steps depth : Nat) (tri : V3) (m : Mesh (Pt K) V T) :
    Option ((Pt K → K × K) × TriSteiner K V T C × List VId × List VId × List VId) := do
  let (m, l0) ← Mesh.recoverEdgeWithSteiner fuel steps depth (tri.1, tri.2.1) m
  let (m, l1) ← Mesh.recoverEdgeWithSteiner fuel steps depth (tri.2.1, tri.2.2) m
  let (m, l2) ← Mesh.recoverEdgeWithSteiner fuel steps depth (tri.2.2, tri.1) m
  let vertices := triLoop tri l0 l1 l2
  let edges := (around vertices).dedup
  let xy := env.xy (← m.idx tri.1) (← m.idx tri.2.1) (← m.idx tri.2.2)
  let (cdt, toCdt, fromCdt) ← insertLoop env.ops xy m vertices env.ops.empty (fun _ => none) fun _ => none
  let cdt ← (env.orderE edges).foldlM (constrain env.ops toCdt) cdt
  return (xy, ⟨m, cdt, vertices, edges, toCdt, fromCdt, []⟩, l0, l1, l2)

/-- `recover_tri_with_steiner_points`, src/tet.rs:2841-2947: the mesh and the Steiner points on the three edges and inside; the
triangulation and its maps, which are returned as well, are left out. -/
def recoverTriWithSteiner (env : SteinerEnv K C) (fuel steps depth rounds : Nat) (tri : V3) (m : Mesh (Pt K) V T) :
    Option (Mesh (Pt K) V T × List VId × List VId × List VId × List VId) := do
  let (xy, st, l0, l1, l2) ← triStart env fuel steps depth tri m
  let st ← TriSteiner.loop env tri xy fuel rounds st
  return (st.mesh, l0, l1, l2, st.inside)

end Tet
