import Verif.Model.TriSteiner
import Verif.Model.Transform

/-!
# Model of moving Steiner points into the volume (src/tet.rs:3090-3238)

In exact arithmetic.  As in `Model/TriSteiner` the triangulation is a parameter, and so are the orders of hash maps and the
length of vectors, which needs a square root.
-/

namespace Tet
variable {K V T C : Type} [Field K] [LinearOrder K]

/-- What the model leaves open, with the further operations of `spade::delaunay::FloatCDT`. -/
structure MoveEnv (K C : Type) extends SteinerEnv K C where
  /-- `remove` -/
  remove : C → Nat → C
  /-- `locate_vertex` -/
  locate : C → K × K → Option Nat
  /-- `edge(e).ccw_iter()`: the edges around the start of the edge, counterclockwise, beginning with the edge -/
  ccwIter : C → Nat → List Nat
  /-- `vertex(v).ccw_out_edges()` -/
  outEdges : C → Nat → List Nat
  /-- `edge(e).from()` -/
  source : C → Nat → Nat
  /-- `edge(e).to()` -/
  target : C → Nat → Nat
  /-- `edge(e).ccw()` -/
  ccw : C → Nat → Nat
  /-- `Vec3::norm` -/
  norm : Pt K → K
  /-- the order in which a hash map is traversed -/
  orderM : List (VId × Nat) → List (VId × Nat)

/-- The variables `self`, `cdt`, `vertex_map` and `inv_map` of `move_steiner_points_inside_volume` -/
structure MoveState (K V T C : Type) where
  mesh : Mesh (Pt K) V T
  cdt : C
  vertexMap : List (VId × Nat)
  invMap : Nat → Option VId

/-- `vertex_map[&v]`; none is a panic. -/
def MoveState.handle (s : MoveState K V T C) (v : VId) : Option Nat := s.vertexMap.lookup v

/-- `normalize`; a zero vector stays zero instead of getting NaN. -/
def Pt.normalize (norm : Pt K → K) (p : Pt K) : Pt K := Pt.smul (norm p)⁻¹ p

namespace Mesh

/-- `self.vertices[v].position = p` -/
def place (m : Mesh (Pt K) V T) (v : VId) (p : Pt K) : Option (Mesh (Pt K) V T) := do
  let _ ← m.vertices.get v
  return { m with vertices := m.vertices.modify v fun x => { x with position := p } }

/-- A copy of a vertex and the times until it comes upon the boundary of the ball when it moves in the two directions,
src/tet.rs:3119-3133, 3181-3195 -/
def twin (m : Mesh (Pt K) V T) (fuel : Nat) (point : VId) (up down : Pt K) :
    Option (Mesh (Pt K) V T × VId × Option K × Option K) := do
  let x ← m.vertices.get point
  let (vs, sym) ← m.vertices.insert (Vertex.new invalidWalker x.position x.value)
  let m := { m with vertices := vs }
  let m ← m.place sym (x.position.add up)
  let pointTime ← m.timeUntilNotStarShaped fuel point point sym
  let m ← m.place sym (x.position.add down)
  let symTime ← m.timeUntilNotStarShaped fuel point point sym
  return (m, sym, pointTime, symTime)

/-- The two new positions, src/tet.rs:3135-3136, 3202-3203 -/
def part (m : Mesh (Pt K) V T) (point sym : VId) (original up down : Pt K) (pointTime symTime : Option K) (len : K) :
    Option (Mesh (Pt K) V T) := do
  let m ← m.place point (original.add (Pt.smul (pointTime.elim (len / 2) (· / 2)) up))
  m.place sym (original.add (Pt.smul (symTime.elim (len / 2) (· / 2)) down))

end Mesh

/-- Putting the copy under the triangles at the edges of the triangulation, src/tet.rs:3146-3157, 3206-3217 -/
def MoveState.sink (env : MoveEnv K C) (fuel : Nat) (s : MoveState K V T C) (point sym : VId) (es : List Nat) :
    Option (MoveState K V T C) := do
  let ws ← s.mesh.walkersOf fuel point
  let exclude ← es.mapM fun e => do
    let a ← s.invMap (env.target s.cdt e)
    let b ← s.invMap (env.source s.cdt e)
    let c ← s.invMap (env.target s.cdt (env.ccw s.cdt e))
    let w ← (← s.mesh.walkerFromTri fuel (a, b, c))
    return w.tet
  let (m, boundary, enclosure) ← Mesh.pointCavity (pointTests s.mesh sym) (ws.map (·.perm P3210)) (ws.map (·.tet)) exclude s.mesh
    false true false fuel
  let (m, _) ← m.flipInVertexUnchecked sym boundary enclosure fuel
  return { s with mesh := m }

/-- Taking the point from the triangulation, src/tet.rs:3161-3169, 3220-3228.  If two vertices got the same handle, the order of
the hash map decides which of them it stands for. -/
def MoveState.forget (env : MoveEnv K C) (xy : Pt K → K × K) (s : MoveState K V T C) (point : VId) : Option (MoveState K V T C) := do
  let cdt := env.remove s.cdt (← s.handle point)
  let vertexMap ← (env.orderM (s.vertexMap.filter (·.1 != point))).mapM fun (v, _) => do
    let p ← s.mesh.idx v
    return (v, ← env.locate cdt (xy p))
  return { s with
    cdt, vertexMap
    invMap := fun i => ((env.orderM vertexMap).reverse.find? (·.2 == i)).map (·.1) }

/-- One Steiner point on an edge, src/tet.rs:3117-3175; with the copy -/
def MoveState.onEdge (env : MoveEnv K C) (xy : Pt K → K × K) (fuel : Nat) (normal edgeVec : Pt K) (edge : VId × VId)
    (s : MoveState K V T C) (point next : VId) : Option (MoveState K V T C × VId) := do
  let tangent := Pt.normalize env.norm (edgeVec.cross normal)
  let up := normal.add tangent
  let down := (Pt.smul (-1) normal).add tangent
  let original ← s.mesh.idx point
  let (m, sym, pointTime, symTime) ← s.mesh.twin fuel point up down
  let m ← m.part point sym original up down pointTime symTime (env.norm edgeVec)
  let s := { s with mesh := m }
  let e ← env.ops.edgeBetween s.cdt (← s.handle point) (← s.handle next)
  let stop ← s.handle edge.1
  let es := (env.ccwIter s.cdt e).takeWhile fun e => env.target s.cdt e != stop
  let s ← s.sink env fuel point sym es
  let side ← es.mapM fun e => s.invMap (env.target s.cdt e)
  let s ← s.forget env xy point
  let a ← s.handle edge.1
  let b ← s.handle next
  let cdt := env.ops.addConstraint s.cdt a b
  if env.ops.existsConstraint cdt a b then
    let tris ← cdtRegion env.toSteinerEnv fuel edge.1 next cdt s.handle s.invMap
    let m ← s.mesh.capTransform fuel (side ++ [edge.1]) point sym tris
    return ({ s with mesh := m, cdt }, sym)
  else none

/-- One Steiner point in the triangle, src/tet.rs:3179-3233; with the copy.  `inv_map[&cdt_edges[0]]` takes the handle of an edge
for that of a vertex. -/
def MoveState.inTri (env : MoveEnv K C) (xy : Pt K → K × K) (fuel : Nat) (normal : Pt K) (s : MoveState K V T C) (point : VId) :
    Option (MoveState K V T C × VId) := do
  let original ← s.mesh.idx point
  let (m, sym, pointTime, symTime) ← s.mesh.twin fuel point normal (Pt.smul (-1) normal)
  let es := env.outEdges s.cdt (← s.handle point)
  let v ← s.invMap (← es.head?)
  let edgeVec := (← m.idx v).sub (← m.idx point)
  let m ← m.part point sym original normal (Pt.smul (-1) normal) pointTime symTime (env.norm edgeVec)
  let s := { s with mesh := m }
  let s ← s.sink env fuel point sym es
  let side ← es.mapM fun e => s.invMap (env.target s.cdt e)
  let s ← s.forget env xy point
  let tris ← cdtRegion env.toSteinerEnv fuel (← side[0]?) (← side[1]?) s.cdt s.handle s.invMap
  let m ← s.mesh.shellTransform fuel side point sym tris
  return ({ s with mesh := m }, sym)

/-- Doing something with all elements of a list, where the results of each are two vertices, `new_steiner.push` -/
def pushAll {σ α : Type} (f : σ → α → Option (σ × VId)) (point : α → VId) : List α → σ → Option (σ × List VId)
  | [], s => some (s, [])
  | a :: l, s => do
    let (s, sym) ← f s a
    let (s, new) ← pushAll f point l s
    return (s, point a :: sym :: new)

/-- The Steiner points on an edge, src/tet.rs:3114-3176 -/
def MoveState.line (env : MoveEnv K C) (xy : Pt K → K × K) (fuel : Nat) (normal : Pt K) (edge : VId × VId) (l : List VId)
    (s : MoveState K V T C) : Option (MoveState K V T C × List VId) := do
  let edgeVec := (← s.mesh.idx edge.2).sub (← s.mesh.idx edge.1)
  pushAll (fun s a => s.onEdge env xy fuel normal edgeVec edge a.1 a.2) Prod.fst (l.zip (l.drop 1 ++ [edge.2])) s

/-- `move_steiner_points_inside_volume`, src/tet.rs:3092-3238 -/
def moveSteiner (env : MoveEnv K C) (xy : Pt K → K × K) (fuel : Nat) (tri : V3) (s0 s1 s2 sf : List VId) (s : MoveState K V T C) :
    Option (Mesh (Pt K) V T × List VId) := do
  let normal := Pt.normalize env.norm (← s.mesh.triNormal tri.1 tri.2.1 tri.2.2)
  let (s, n0) ← s.line env xy fuel normal (tri.1, tri.2.1) s0
  let (s, n1) ← s.line env xy fuel normal (tri.2.1, tri.2.2) s1
  let (s, n2) ← s.line env xy fuel normal (tri.2.2, tri.1) s2
  let (s, n3) ← pushAll (fun s point => s.inTri env xy fuel normal point) id sf s
  return (s.mesh, n0 ++ n1 ++ n2 ++ n3)

end Tet
