import Verif.Model.Cavity
import Verif.Model.FlipIn
import Verif.Model.Iter
import Verif.Model.New
import Verif.Model.Export
import Verif.Model.Integrity

/-!
# Model of the Delaunay construction (src/tet.rs:2347-2546)

Everything computed from coordinates is a parameter.
-/

namespace Tet
variable {P V T D R K : Type}

/-- Driving an iterator to its end, with at most `fuel` calls. -/
def drain {σ α : Type} (next : σ → Option (Option α × σ)) : Nat → σ → Option (List α × σ)
  | 0, _ => none
  | fuel + 1, s => do
    let (r, s) ← next s
    match r with
    | none => return ([], s)
    | some a =>
      let (l, s) ← drain next fuel s
      return (a :: l, s)

/-- `find`, with at most `fuel` calls; the state is the one in which the iterator is dropped. -/
def findHit {σ α : Type} (next : σ → Option (Option α × σ)) (hit : α → Option Bool) :
    Nat → σ → Option (Option α × σ)
  | 0, _ => none
  | fuel + 1, s => do
    let (r, s) ← next s
    match r with
    | none => return (none, s)
    | some a =>
      if ← hit a then return (some a, s)
      else findHit next hit fuel s

/-- `min_by_key`: the first of the least elements. -/
def minByKey {α : Type} (le : D → D → Bool) : List (α × D) → Option α
  | [] => none
  | x :: l => some (l.foldl (fun best y => if le best.2 y.2 then best else y) x).1

/-- `max_by_key`: the last of the greatest elements. -/
def maxByKey {α : Type} (le : R → R → Bool) : List (α × R) → Option α
  | [] => none
  | x :: l => some (l.foldl (fun best y => if le best.2 y.2 then y else best) x).1

/-- What is computed from coordinates. -/
structure DelaunayGeo (P D R K : Type) where
  /-- the tests against the new vertex, given the positions of the vertices -/
  tests : (VId → Option P) → VId → CavityTests
  /-- `(p - q).norm_squared()` -/
  dist2 : P → P → D
  zero : D
  infinity : D
  /-- the order of `FloatOrd` -/
  leD : D → D → Bool
  /-- `<` of `f64` -/
  ltD : D → D → Bool
  /-- `areax2 / max_len`, src/tet.rs:2383-2385 -/
  height : P → P → P → R
  /-- `r >= distance_tolerance` -/
  tall : R → Bool
  leR : R → R → Bool
  /-- `volx6.abs() / max_area >= distance_tolerance`, src/tet.rs:2391-2397 -/
  thick : P → P → P → P → Bool
  /-- the place on the Hilbert curve -/
  key : List P → P → K
  leK : K → K → Bool
  /-- `sim::orient_3d` -/
  orientSim : P → P → P → P → Bool
  /-- the centre of mass of the solid tets, src/tet.rs:2422-2431 -/
  centre : List (P × P × P × P) → P
  /-- `orient_3d(..) > 0.0` with the given centre as the ghost vertex -/
  orientOk : P → (VId → Option P) → V4 → Bool

namespace Mesh

/-- The position of a vertex, if it exists. -/
def position (m : Mesh P V T) (v : VId) : Option P := (m.vertices.get v).map (·.position)

/-- `vertex_distance2`, src/tet.rs:2135-2147 -/
def distance2 (g : DelaunayGeo P D R K) (m : Mesh P V T) (v0 v1 : VId) : Option D :=
  if v0 = GHOST then some (if v1 = GHOST then g.zero else g.infinity)
  else if v1 = GHOST then some g.infinity
  else do
    let p ← m.position v0
    let q ← m.position v1
    return g.dist2 p q

/-- `self.in_sphere(vs[0], vs[1], vs[2], vs[3], id) > 0.0` for the vertices of the tet -/
def tetHit (g : DelaunayGeo P D R K) (m : Mesh P V T) (id : VId) (k : TId) : Option Bool := do
  let t ← m.tets.get k
  return decide (0 < (g.tests m.position id).inSphere (t.vertices 0, t.vertices 1, t.vertices 2, t.vertices 3))

/-- `VertexTargetsOpt::next`, src/tet.rs:3868-3876 -/
def vertexTargetsOptNext (fuel : Nat) (s : TargetsOptState P V T) : Option (Option VId × TargetsOptState P V T) := do
  let (r, s) ← targetsOptNext fuel s
  match r with
  | none => return (none, s)
  | some w =>
    let v ← s.mesh.second w
    return (some v, s)

/-- A neighbour closer to the new vertex, src/tet.rs:2491-2499; gives the mesh after the iterator is
dropped.  (The distances do not depend on the flags that the iterator sets.) -/
def closer (g : DelaunayGeo P D R K) (fuel : Nat) (id : VId) (m : Mesh P V T) (closest : VId) :
    Option (Mesh P V T × Option VId) := do
  let s ← m.vertexTargetWalkersOpt closest
  let (l, s) ← drain (vertexTargetsOptNext fuel) fuel s
  let m ← targetsOptDrop s
  let l ← (l.filter (· ≠ id)).mapM fun v => do
    let d ← m.distance2 g v id
    return (v, d)
  match minByKey g.leD l with
  | none => return (m, none)
  | some v =>
    let dv ← m.distance2 g v id
    let dc ← m.distance2 g closest id
    return (m, if g.ltD dv dc then some v else none)

/-- "Go to vertex closest to position", src/tet.rs:2490-2502; at most `n` steps. -/
def goClosest (g : DelaunayGeo P D R K) (fuel : Nat) (id : VId) : Nat → Mesh P V T → VId → Option (Mesh P V T × VId)
  | 0, _, _ => none
  | n + 1, m, closest => do
    let (m, r) ← m.closer g fuel id closest
    match r with
    | none => return (m, closest)
    | some v => goClosest g fuel id n m v

/-- The loop of the rare case, src/tet.rs:2525-2532 -/
def rareLoop (g : DelaunayGeo P D R K) (m : Mesh P V T) (id : VId) : List TId → List TId → Option TId
  | _, [] => none
  | checked, k :: tets =>
    if k ∈ checked then rareLoop g m id checked tets
    else do
      if ← m.tetHit g id k then return k
      else rareLoop g m id (k :: checked) tets

/-- The walk that the tet ids are taken from, `vertex_tets_opt(..)`, driven to its end and dropped. -/
def vertexTetsOpt (fuel : Nat) (m : Mesh P V T) (v : VId) : Option (Mesh P V T × List TId) := do
  let s ← m.walkersFromVertexOpt v
  let (l, s) ← drain walkersOptNext fuel s
  let m ← walkersOptDrop s
  return (m, l.map (·.tet))

/-- The tet that is no longer Delaunay, src/tet.rs:2483-2540.  `order` is the order in which a hash set
is iterated over. -/
def notDelaunay (g : DelaunayGeo P D R K) (order : List TId → List TId) (fuel : Nat) (m : Mesh P V T)
    (id searchStart : VId) : Option (Mesh P V T × TId) := do
  let x ← m.vertices.get searchStart
  if ← m.tetHit g id x.tet.tet then return (m, x.tet.tet)
  else
    let (m, closest) ← goClosest g fuel id fuel m searchStart
    let s ← m.walkersFromVertexOpt closest
    let (r, s) ← findHit walkersOptNext (fun w => m.tetHit g id w.tet) fuel s
    let m ← walkersOptDrop s
    match r with
    | some w => return (m, w.tet)
    | none =>
      let (m, checked) ← m.vertexTetsOpt fuel closest
      let adj ← checked.mapM m.adjacentTets
      let k ← m.rareLoop g id checked (order adj.flatten.dedup)
      return (m, k)

/-- `add_vertex_delaunay_internal`, src/tet.rs:2452-2546 -/
def addVertexDelaunayInternal (g : DelaunayGeo P D R K) (order : List TId → List TId) (fuel : Nat) (m : Mesh P V T)
    (id : Option VId) (position : P) (value : V) (searchStart : VId) : Option (Mesh P V T × VId) := do
  let (m, id) ← (match id with
    | some id => (m.vertices.insertWithKey id (Vertex.new invalidWalker position value)).map fun r =>
        ({ m with vertices := r.1 }, id)
    | none => (m.vertices.insert (Vertex.new invalidWalker position value)).map fun r =>
        ({ m with vertices := r.1 }, r.2) : Option (Mesh P V T × VId))
  let (m, k) ← m.notDelaunay g order fuel id searchStart
  let (m, boundary, enclosed) ← pointCavity (g.tests m.position id) [⟨k, 0⟩, ⟨k, 1⟩, ⟨k, 2⟩, ⟨k, 3⟩] [k] [] m
    true false true fuel
  let (m, _) ← m.flipInVertexUnchecked id boundary enclosed fuel
  return (m, id)

/-- `add_vertex_delaunay`, src/tet.rs:2440-2450 -/
def addVertexDelaunay (g : DelaunayGeo P D R K) (order : List TId → List TId) (fuel : Nat) (m : Mesh P V T)
    (position : P) (value : V) : Option (Mesh P V T × VId) := do
  let start ← m.vertices.keys.head?
  m.addVertexDelaunayInternal g order fuel none position value start

/-- The choice of the first four points, src/tet.rs:2378-2400 -/
def firstFour (g : DelaunayGeo P D R K) (vertices : List (VId × P × V)) : Option (List (VId × P × V)) := do
  let p0 ← (vertices[0]?).map (·.2.1)
  let p1 ← (vertices[1]?).map (·.2.1)
  let v2i ← maxByKey g.leR
    (((vertices.zipIdx.drop 2).map fun x => (x.2, g.height p0 p1 x.1.2.1)).filter fun x => g.tall x.2)
  let vertices ← swapAt vertices 2 v2i
  let p2 ← (vertices[2]?).map (·.2.1)
  let v3i ← (vertices.drop 3).findIdx? fun x => g.thick p0 p1 p2 x.2.1
  swapAt vertices 3 (v3i + 3)
where
  /-- `vertices.swap(i, j)`; panics out of bounds. -/
  swapAt (l : List (VId × P × V)) (i j : Nat) : Option (List (VId × P × V)) := do
    let a ← l[i]?
    let b ← l[j]?
    return (l.set i b).set j a

/-- The part of `delaunay_from_vertices` after the sorting, src/tet.rs:2370-2436 -/
def delaunayFromSorted (g : DelaunayGeo P D R K) (order : List TId → List TId) (fuel : Nat) (nan origin : P)
    (defaultTet : T) (vertices : List (VId × P × V)) : Option (Mesh P V T) := do
  let first ← vertices[0]?
  let (vs, _) ← (IdMap.empty : IdMap (Vertex P V)).extendValues
    (vertices.map fun _ => Vertex.new invalidWalker origin first.2.2)
  let vertices ← firstFour g vertices
  let m ← { (blank nan defaultTet : Mesh P V T) with vertices := vs }.withIds g.orientSim (vertices.take 4) defaultTet
  let v3 ← vertices[3]?
  let rest := vertices.drop 4
  let ids := v3.1 :: rest.map (·.1)
  let m ← (rest.zip ids).foldlM (fun m x => do
    let (m, _) ← m.addVertexDelaunayInternal g order fuel (some x.1.1) x.1.2.1 x.1.2.2 x.2
    return m) m
  let ps ← m.solidTets.mapM fun t => do
    let a ← m.position (t.vertices 0)
    let b ← m.position (t.vertices 1)
    let c ← m.position (t.vertices 2)
    let d ← m.position (t.vertices 3)
    return (a, b, c, d)
  let m := { m with center := g.centre ps }
  if m.assertIntegrity [] (some (g.orientOk m.center m.position)) then return m else none

/-- `delaunay_from_vertices`, src/tet.rs:2347-2436; `nan` is the point with three NAN coordinates and
`origin` the one with three zeros. -/
def delaunayFromVertices (g : DelaunayGeo P D R K) (order : List TId → List TId) (fuel : Nat) (nan origin : P)
    (points : List (P × V)) (defaultTet : T) : Option (Mesh P V T) := do
  let vertices ← hilbertSort g.key g.leK points
  delaunayFromSorted g order fuel nan origin defaultTet vertices

end Mesh
end Tet
